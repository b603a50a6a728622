import Verif.Lemmas.DisasmOperand
/-
What the disassembler proposes for the rows of the table: the texts of the operands, the guard and the annotations.
-/

namespace Nxas

open Spec

theorem shown_height {o : Operand} (ho : o.numeric = false) (hs : o.shown = true) : ∀ x ∈ o.shapes, ∀ k ∈ x.1, height k = 0 := by
  have h : (o.shapes.all fun x => x.1.all fun k => height k == 0) = true := by
    cases o <;> first | exact hs | simp [Operand.numeric] at ho
  intro x hx k hk
  exact beq_iff_eq.1 (List.all_eq_true.1 (List.all_eq_true.1 h x hx) k hk)

theorem numeric_target {o : Operand} (ho : o.numeric = false) : o.target = false := by
  cases o <;> first | rfl | simp [Operand.numeric] at ho

/-- One of the proposed texts is read as the operand. -/
theorem texts_complete {o : Operand} (hs : o.shown = true) {e e' : Env} {v b w : BitVec 64} {ks : List Kind} {k k' : Kind} {r q : BitVec 32}
    (h : Accepts e v o ks k b r) (hw : ∀ x ∈ ks, Writable x) (hn : ∀ f ∈ o.num, bitsAt w f.1 f.2 = bitsAt b f.1 f.2)
    (hb : bitsIn b w = true) (hq : r &&& ~~~q = 0) (hm : ∀ a, o = .mirrorGpr a → bitsAt w a 8 = bitsAt v a 8) (hk : Like k k')
    (he : e'.pc = e.pc) (hpc : e.pc < 2 ^ 62) : Complete e' v o ks k' b r (o.texts e.pc w q) := by
  by_cases ho : o.numeric = false
  · have hx := accepts_shapes ho h
    rw [texts_shapes ho]
    exact ⟨ks, List.mem_map.2 ⟨(ks, b), List.mem_filter.2 ⟨hx, hb⟩, rfl⟩, likes_refl _, accepts_env (numeric_target ho) (accepts_like h hk),
      fun x hxk => ⟨hw x hxk, shown_height ho hs _ hx x hxk⟩⟩
  cases o with
  | uint m a =>
    simp only [Operand.shown, Bool.and_eq_true, decide_eq_true_eq] at hs
    obtain ⟨hr, x, rfl, hx, rfl⟩ := h
    have hlt : x < 2 ^ width m.toNat := lt_width (by omega)
    have e1 := hn (a, width m.toNat) (by simp [Operand.num])
    simp only at e1
    rw [bitsAt_field hlt hs.1] at e1
    refine ⟨[.imm x], by simp [Operand.texts, e1], likes_refl _, ⟨hr, x, rfl, hx, rfl⟩, ?_⟩
    intro y hy
    rw [List.mem_singleton.1 hy]
    exact ⟨hw _ (by simp), rfl⟩
  | sint n a =>
    simp only [Operand.shown, Bool.and_eq_true, decide_eq_true_eq] at hs
    obtain ⟨hr, x, rfl, h1, h2, rfl⟩ := h
    have e1 := hn (a, n) (by simp [Operand.num])
    simp only [sfield] at e1
    rw [bitsAt_field (sfield_lt _ _) hs.1.1] at e1
    have e2 := signedOf_emod hs.1.2 h1 h2
    refine ⟨[.imm x], by simp [Operand.texts, e1, e2], likes_refl _, ⟨hr, x, rfl, h1, h2, rfl⟩, ?_⟩
    intro y hy
    rw [List.mem_singleton.1 hy]
    exact ⟨hw _ (by simp), rfl⟩
  | uimmExtended =>
    obtain ⟨hr, x, rfl, hx, rfl⟩ := h
    refine ⟨[.imm x], ?_, likes_refl _, ⟨hr, x, rfl, hx, rfl⟩, ?_⟩
    · have e1 := hn (20, 19) (by simp [Operand.num])
      have e2 := hn (56, 1) (by simp [Operand.num])
      simp only at e1 e2
      simp only [Operand.texts, List.mem_cons, List.not_mem_nil, or_false, List.cons.injEq, Kind.imm.injEq, and_true]
      by_cases h1 : x < 2 ^ 19
      · rw [if_pos h1, bitsAt_field h1 (by omega)] at e1
        rw [if_pos h1, bitsAt_apart h1 (by omega)] at e2
        omega
      · rw [if_neg h1, bitsAt_or, bitsAt_apart (u := 1) (by omega) (by omega), Nat.zero_or] at e1
        rw [if_neg h1, bitsAt_or, bitsAt_field (by omega) (by omega), bitsAt_apart (u := 20) (by omega) (by omega), Nat.or_zero] at e2
        by_cases h2 : x = 2 ^ 20
        · exact .inr (by exact_mod_cast h2)
        · rw [bitsAt_field (by omega) (by omega)] at e1
          omega
    · intro y hy
      rw [List.mem_singleton.1 hy]
      exact ⟨hw _ (by simp), rfl⟩
  | label =>
    obtain ⟨hr, t, ht, h1, h2, rfl⟩ := h
    have e1 := hn (20, 24) (by simp [Operand.num])
    simp only [sfield] at e1
    rw [bitsAt_field (sfield_lt _ _) (by omega)] at e1
    have e2 := signedOf_emod (w := 24) (by omega) h1 h2
    rw [← e1] at e2
    have e3 : signedOf 24 (bitsAt w 20 24) + e.pc + 8 = t := by rw [e2]; omega
    refine ⟨[.imm t], by simp [Operand.texts, e3], ?_, ⟨hr, t, .inr rfl, by rw [he]; exact h1, by rw [he]; exact h2, by rw [he]⟩, ?_⟩
    · rcases ht with ⟨s, a, rfl, -⟩ | rfl
      · exact .cons (like_imm _ _) .nil
      · exact likes_refl _
    · intro y hy
      rw [List.mem_singleton.1 hy]
      exact fine_imm (by omega) (by omega)
  | gpr a => exact register_texts (by simpa [Operand.shown] using hs) h hw hn hb hq hk
  | mirrorGpr a =>
    obtain ⟨h0, n, rest, rfl, h1, h2⟩ := h
    refine ⟨.reg n :: rest, ?_, likes_refl _, ⟨h0, n, rest, rfl, h1, reuse_like h2 hk⟩, ?_⟩
    · simp only [Operand.texts, hm a rfl, h1]
      exact List.mem_map.2 ⟨rest, reuse_texts h2 hq, rfl⟩
    · intro x hx
      rcases List.mem_cons.1 hx with rfl | hx
      · exact ⟨hw _ (by simp), rfl⟩
      · exact reuse_fine h2 (fun x hx => hw x (List.mem_cons_of_mem _ hx)) x hx
  | cbuf => exact cbuf_texts _ h hw hn
  | imm20 =>
    obtain ⟨hr, x, rfl, h1, h2, rfl⟩ := h
    have e1 := hn (20, 19) (by simp [Operand.num])
    have e2 := hn (56, 1) (by simp [Operand.num])
    have hbit := bit_le (decide (x < 0))
    simp only [sfield, bitsAt_or] at e1 e2
    rw [bitsAt_field (sfield_lt _ _) (by omega), bitsAt_apart (u := 1) (by omega) (by omega), Nat.or_zero] at e1
    rw [bitsAt_field (by omega) (by omega), bitsAt_apart (sfield_lt _ _) (by omega), Nat.zero_or] at e2
    have e3 : (bitsAt w 20 19 : Int) - 2 ^ 19 * bitsAt w 56 1 = x := by
      rw [e1, e2]
      by_cases h0 : x < 0
      · simp only [h0, decide_true, bit, if_true]; omega
      · simp only [h0, decide_false, bit]; simp; omega
    refine ⟨[.imm x], by simp only [Operand.texts, e3, List.mem_singleton], likes_refl _, ⟨hr, x, rfl, h1, h2, rfl⟩, ?_⟩
    intro y hy
    rw [List.mem_singleton.1 hy]
    exact ⟨hw _ (by simp), rfl⟩
  | fimm wide => exact fimm_texts _ h hw hn
  | dimm20 => exact dimm_texts _ h hw hn
  | himm wide a nb => exact himm_texts hs _ h hw hn
  | pred a negable =>
    simp only [Operand.shown, decide_eq_true_eq] at hs
    obtain ⟨hr, p, n, rfl, h1, rfl⟩ := h
    have hp : p ≤ 7 := hw (.pred p n) (by simp)
    have hbit := bit_le n
    have e1 := hn (a, 3) (by simp [Operand.num])
    simp only [bitsAt_or] at e1
    rw [bitsAt_field (by omega) (by omega), bitsAt_apart (u := 1) (by omega) (by omega), Nat.or_zero] at e1
    refine ⟨[.pred p n], ?_, likes_refl _, ⟨hr, p, n, rfl, h1, rfl⟩, ?_⟩
    · simp only [Operand.texts, e1, List.mem_singleton, List.cons.injEq, Kind.pred.injEq, and_true, true_and]
      cases negable with
      | false => cases n with | false => rfl | true => simp at h1
      | true =>
        have e2 := hn (a + 3, 1) (by simp [Operand.num])
        simp only [bitsAt_or] at e2
        rw [bitsAt_field (by omega) (by omega), bitsAt_apart (u := 3) (by omega) (by omega), Nat.zero_or] at e2
        rw [e2]
        cases n <;> simp [bit]
    · intro y hy
      rw [List.mem_singleton.1 hy]
      exact ⟨hp, rfl⟩
  | invertedPred a =>
    simp only [Operand.shown, decide_eq_true_eq] at hs
    obtain ⟨hr, p, rfl, rfl⟩ := h
    have hp : p ≤ 7 := hw (.pred p false) (by simp)
    have e1 := hn (a, 3) (by simp [Operand.num])
    simp only at e1
    rw [bitsAt_field (by omega) (by omega)] at e1
    refine ⟨[.pred p false], ?_, likes_refl _, ⟨hr, p, rfl, rfl⟩, ?_⟩
    · simp only [Operand.texts, e1, List.mem_singleton, show 7 - (7 - p) = p by omega]
    · intro y hy
      rw [List.mem_singleton.1 hy]
      exact ⟨hp, rfl⟩
  | abs a inner =>
    simp only [Operand.shown, Bool.and_eq_true, decide_eq_true_eq] at hs
    obtain ⟨⟨ha, hap⟩, hin⟩ := hs
    -- the operand between the bars
    have key {v : BitVec 64} {ks : List Kind} {k k' : Kind} {b : BitVec 64} (h : Accepts e v inner ks k b r) (hw : ∀ x ∈ ks, Writable x)
        (hn : ∀ f ∈ inner.num, bitsAt w f.1 f.2 = bitsAt b f.1 f.2) (hb : bitsIn b w = true) (hk : Like k k') :
        Complete e' v inner ks k' b r (inner.texts e.pc w q) := by
      cases inner with
      | gpr a => exact register_texts (by simpa using hin) h hw hn hb hq hk
      | cbuf => exact cbuf_texts _ h hw hn
      | _ => simp at hin
    have hfirst {v : BitVec 64} {ks : List Kind} {k' : Kind} {b : BitVec 64} (h : Accepts e' v inner ks k' b r) : ks.headD k' ≠ .vbar := by
      cases inner with
      | gpr a => obtain ⟨n, rest, rfl, -⟩ := h; simp
      | cbuf => obtain ⟨-, x, y, rfl, -⟩ := h; simp
      | _ => simp at hin
    rcases h with ⟨ks1, b1, rfl, rfl, h⟩ | ⟨h1, h⟩
    · have hsub : b1 &&& ~~~w = 0 ∧ w.getLsbD a = true := by
        have hb := beq_iff_eq.1 hb
        constructor
        · apply BitVec.eq_of_getLsbD_eq
          intro i hi
          have := congrArg (·.getLsbD i) hb
          simp only [BitVec.getLsbD_and, BitVec.getLsbD_or, BitVec.getLsbD_not, hi, decide_true, Bool.true_and] at this ⊢
          cases h3 : b1.getLsbD i <;> cases h4 : w.getLsbD i <;> simp_all
        · have := congrArg (·.getLsbD a) hb
          simp only [BitVec.getLsbD_and, BitVec.getLsbD_or, BitVec.getLsbD_not, ha, decide_true, Bool.true_and, field_bit] at this
          simpa using this
      obtain ⟨ks', h1, h2, h3, h4⟩ := key (k' := .vbar) h (fun x hx => hw x (by simp [hx]))
        (fun f hf => by
          rw [hn f hf, bitsAt_or, bitsAt_apart (u := 1) (by omega), Nat.zero_or]
          simpa [Field.apart_iff] using List.all_eq_true.1 hap f hf)
        (beq_iff_eq.2 hsub.1) (.refl _)
      refine ⟨.vbar :: (ks' ++ [.vbar]), ?_, .cons (.refl _) (List.rel_append h2 (likes_refl _)), .inl ⟨ks', b1, rfl, rfl, h3⟩, ?_⟩
      · simp only [Operand.texts, hsub.2, if_true]
        exact List.mem_append.2 (.inl (List.mem_map.2 ⟨ks', h1, rfl⟩))
      · intro x hx
        simp only [List.mem_cons, List.mem_append, List.not_mem_nil, or_false] at hx
        rcases hx with rfl | hx | rfl
        · exact ⟨trivial, rfl⟩
        · exact h4 x hx
        · exact ⟨trivial, rfl⟩
    · obtain ⟨ks', h2, h3, h4, h5⟩ := key h hw hn hb hk
      exact ⟨ks', List.mem_append.2 (.inr h2), h3, .inr ⟨hfirst h4, h4⟩, h5⟩
  | memAddress i a s c =>
    refine memory_texts ?_ h hw (hn (8, 8) (by simp [Operand.num])) (fun hi => hn (a, s) (by simp [Operand.num, hi])) hq
    simp only [Operand.shown, decide_eq_true_eq] at hs
    exact List.mem_append_left [(true, 20, 16, 0)] hs
  | immAttr =>
    obtain ⟨hr, x, rfl, hx, rfl⟩ := h
    have e1 := hn (20, 10) (by simp [Operand.num])
    simp only [bitsAt_or] at e1
    rw [bitsAt_field (by omega) (by omega), bitsAt_apart (u := 8) (by omega) (by omega), Nat.or_zero] at e1
    refine ⟨_, by simp only [Operand.texts, e1]; exact List.mem_singleton.2 rfl, likes_refl _, ⟨hr, x, rfl, hx, rfl⟩, fun z hz => ⟨hw z hz, ?_⟩⟩
    simp only [List.mem_cons, List.not_mem_nil, or_false] at hz
    rcases hz with rfl | rfl | rfl | rfl <;> rfl
  | patchAttr =>
    obtain ⟨n, rest, plus, y, rfl, hp, hr, h1, h2, rfl⟩ := h
    have hn255 : n ≤ 255 := hw (.reg n) (by simp)
    have e1 := hn (8, 8) (by simp [Operand.num])
    have e2 := hn (20, 11) (by simp [Operand.num])
    simp only [bitsAt_or, sfield] at e1 e2
    rw [bitsAt_field (by omega) (by omega), bitsAt_apart (sfield_lt _ _) (by omega), Nat.or_zero] at e1
    rw [bitsAt_field (sfield_lt _ _) (by omega), bitsAt_apart (u := 8) (by omega) (by omega), Nat.zero_or] at e2
    have e3 := signedOf_emod (w := 11) (by omega) h1 h2
    rw [← e2] at e3
    refine ⟨_, ?_, likes_refl _, ⟨n, rest, plus, y, rfl, hp, hr, h1, h2, rfl⟩, fun z hz => ⟨hw z hz, ?_⟩⟩
    · simp only [Operand.texts, e1, e3]
      refine List.mem_flatMap.2 ⟨rest, reuse_texts hr hq, List.mem_map.2 ⟨plus, ?_, rfl⟩⟩
      rcases hp with rfl | rfl <;> simp
    · simp only [List.mem_cons, List.mem_append, List.not_mem_nil, or_false] at hz
      rcases hz with rfl | rfl | rfl | hz | hz | rfl | rfl
      · rfl
      · rfl
      · rfl
      · exact (reuse_fine hr (fun x hx => hw x (by simp [hx])) z hz).2
      · rcases hp with rfl | rfl
        · simp at hz
        · rw [List.mem_singleton.1 hz]; rfl
      · rfl
      · rfl
  | physAttr =>
    obtain ⟨n, rest, rfl, hr, rfl⟩ := h
    have hn255 : n ≤ 255 := hw (.reg n) (by simp)
    have e1 := hn (8, 8) (by simp [Operand.num])
    simp only at e1
    rw [bitsAt_field (by omega) (by omega)] at e1
    refine ⟨_, ?_, likes_refl _, ⟨n, rest, rfl, hr, rfl⟩, fun z hz => ⟨hw z hz, ?_⟩⟩
    · simp only [Operand.texts, e1]
      exact List.mem_map.2 ⟨rest, reuse_texts hr hq, rfl⟩
    · simp only [List.mem_cons, List.mem_append, List.not_mem_nil, or_false] at hz
      rcases hz with rfl | rfl | rfl | hz | rfl
      · rfl
      · rfl
      · rfl
      · exact (reuse_fine hr (fun x hx => hw x (by simp [hx])) z hz).2
      · rfl
  | ldcAddress =>
    obtain ⟨x, rest, b1, rfl, hx, rfl, h⟩ := h
    have hb1 : bitsAt b1 36 5 = 0 := by
      obtain ⟨n, base, off, rfl, hbase, hoff⟩ := h
      have hn255 : n ≤ 255 := by
        rcases hbase with ⟨rest, rfl, -⟩ | ⟨-, rfl, -⟩
        · exact hw (.reg n) (by simp)
        · omega
      rcases hoff with ⟨-, rfl⟩ | ⟨-, y, -, -, rfl⟩
      · exact bitsAt_apart (u := 8) (by omega) (by omega)
      · rw [bitsAt_or, sfield, bitsAt_apart (u := 8) (by omega) (by omega), bitsAt_apart (sfield_lt _ _) (by omega), Nat.or_zero]
    have e1 := hn (36, 5) (by simp [Operand.num])
    have e2 := hn (8, 8) (by simp [Operand.num])
    have e3 := hn (20, 16) (by simp [Operand.num])
    simp only [bitsAt_or] at e1 e2 e3
    rw [bitsAt_field (by omega) (by omega), hb1, Nat.or_zero] at e1
    rw [bitsAt_apart (u := 5) (by omega) (by omega), Nat.zero_or] at e2 e3
    obtain ⟨ks', h1, h2, h3, h4⟩ := memory_texts (k' := k') (by simp) h (fun x hx => hw x (by simp [hx])) e2 (fun _ => e3) hq
    refine ⟨.ident c!"c" :: .lbracket :: .imm x :: .rbracket :: ks', ?_, .cons (.refl _) (.cons (.refl _) (.cons (.refl _) (.cons (.refl _) h2))),
      ⟨x, ks', b1, rfl, hx, rfl, h3⟩, ?_⟩
    · simp only [Operand.texts, e1]
      exact List.mem_map.2 ⟨ks', h1, rfl⟩
    · intro z hz
      simp only [List.mem_cons] at hz
      rcases hz with rfl | rfl | rfl | rfl | hz
      · exact ⟨hw _ (by simp), rfl⟩
      · exact ⟨trivial, rfl⟩
      · exact ⟨hw _ (by simp), rfl⟩
      · exact ⟨trivial, rfl⟩
      · exact h4 z hz
  | _ => simp [Operand.numeric] at ho

/-! ### Operands in a row -/

/-- The fields that an operand without a number reads back. -/
def Operand.held : Operand → List Field
  | .mirrorGpr a => [(a, 8)]
  | _ => []

/-- The numbers are not in the bits `c` nor in fields of other operands. -/
def apartNum (c : BitVec 64) : List Operand → Bool
  | [] => true
  | o :: os => Field.clear (o.num ++ o.held) (setBits c) && os.all (fun o' => Field.clear (o.num ++ o.held) o'.fields && Field.clear o'.num o.fields) && apartNum c os

theorem bitsAt_none {v : BitVec 64} {a n : Nat} (h : ∀ i, a ≤ i → i < a + n → v.getLsbD i = false) : bitsAt v a n = 0 := by
  rw [← bitsAt_zero a n]
  exact bitsAt_congr fun i h1 h2 => by rw [h i h1 h2]; simp

theorem bitsAt_clear {c : BitVec 64} {fs : List Field} (h : Field.clear fs (setBits c) = true) {f : Field} (hf : f ∈ fs) : bitsAt c f.1 f.2 = 0 := by
  refine bitsAt_none fun i h1 h2 => ?_
  have := not_inF_of_apart h ⟨f, hf, h1, h2⟩
  rw [inF_setBits] at this
  simpa using this

/-- Bits stay set unless they are cleared. -/
theorem sequence_mono {os : List Operand} {e : Env} {v v' : BitVec 64} {ks : List Kind} {k : Kind} {r : BitVec 32} (h : Sequence e os v ks k v' r)
    {p : Nat} (hp : v.getLsbD p = true) (hc : ∀ o ∈ os, (clears o).getLsbD p = false) : v'.getLsbD p = true := by
  induction h with
  | nil => exact hp
  | @cons o os v b v' ks ks' k r r' h hs ih =>
    have hlt : p < 64 := BitVec.lt_of_getLsbD hp
    refine ih ?_ fun o ho => hc o (List.mem_cons_of_mem _ ho)
    rw [BitVec.getLsbD_or, BitVec.getLsbD_and, BitVec.getLsbD_not, hp, hc o List.mem_cons_self, decide_eq_true hlt]
    simp

theorem sub_or {n : Nat} {r r' q : BitVec n} (h : (r ||| r') &&& ~~~q = 0) : r &&& ~~~q = 0 ∧ r' &&& ~~~q = 0 := by
  have key (i : Nat) (hi : i < n) := congrArg (·.getLsbD i) h
  constructor
  all_goals
    apply BitVec.eq_of_getLsbD_eq
    intro i hi
    have := key i hi
    simp only [BitVec.getLsbD_and, BitVec.getLsbD_or, BitVec.getLsbD_not, hi, decide_true, Bool.true_and] at this ⊢
    cases h3 : r.getLsbD i <;> cases h4 : r'.getLsbD i <;> cases h5 : q.getLsbD i <;> simp_all

theorem sub_self (n : Nat) (q : BitVec n) : q &&& ~~~q = 0 := by simp

/-- Operands in a row as in `Sequence`, with a condition on each operand and the token it finds. -/
inductive Guarded (P : BitVec 64 → Operand → Kind → Prop) (e : Env) : List Operand → BitVec 64 → List Kind → Kind → BitVec 64 → BitVec 32 → Prop
  | nil {v : BitVec 64} {k : Kind} : Guarded P e [] v [] k v 0
  | cons {o : Operand} {os : List Operand} {v b v' : BitVec 64} {ks ks' : List Kind} {k : Kind} {r r' : BitVec 32}
      (h : Accepts e v o ks (ks'.headD k) b r) (hp : P v o ((ks ++ ks').headD k)) (hs : Guarded P e os ((v &&& ~~~clears o) ||| b) ks' k v' r') :
      Guarded P e (o :: os) v (ks ++ ks') k v' (r ||| r')

theorem Guarded.sequence {P : BitVec 64 → Operand → Kind → Prop} {e : Env} {os : List Operand} {v v' : BitVec 64} {ks : List Kind} {k : Kind} {r : BitVec 32}
    (h : Guarded P e os v ks k v' r) : Sequence e os v ks k v' r := by
  induction h with
  | nil => exact .nil
  | cons h _ _ ih => exact .cons h ih

theorem sequence_guarded {e : Env} {os : List Operand} {v v' : BitVec 64} {ks : List Kind} {k : Kind} {r : BitVec 32}
    (h : Sequence e os v ks k v' r) : Guarded (fun _ _ _ => True) e os v ks k v' r := by
  induction h with
  | nil => exact .nil
  | cons h _ ih => exact .cons h trivial ih

/-- The proposed texts of the operands contain one that is read as the operands, under the same conditions. -/
theorem guarded_texts {P : BitVec 64 → Operand → Kind → Prop} (hP : ∀ v o k k', Like k k' → P v o k → P v o k') {os : List Operand} (hg : ∀ o ∈ os, o.grammatical = true) (hr : ∀ o ∈ os, o.regular = true)
    (ht : ∀ o ∈ os, o.target = false ∨ o = .label) (hs : ∀ o ∈ os, o.shown = true) {c : BitVec 64} (ha : apartNum c os = true)
    (hc : ∀ o ∈ os, ∀ p, (clears o).getLsbD p = true → c.getLsbD p = true)
    {e e' : Env} (he : e'.pc = e.pc) (hpc : e.pc < 2 ^ 62) {v v' : BitVec 64} {ks : List Kind} {k : Kind} {r : BitVec 32} (h : Guarded P e os v ks k v' r)
    (hw : ∀ x ∈ ks, Writable x) (hk : Writable k) (hz : ∀ o ∈ os, ∀ f ∈ o.num, bitsAt v f.1 f.2 = 0) {q : BitVec 32} (hq : r &&& ~~~q = 0) :
    ∃ kss, List.Forall₂ (fun ts ks => ks ∈ ts) (os.map (Operand.texts e.pc (v' ||| c) q)) kss ∧ List.Forall₂ Like ks kss.flatten ∧
      Guarded P e' os v kss.flatten k v' r ∧ ∀ x ∈ kss.flatten, Fine x := by
  induction h with
  | nil => exact ⟨[], .nil, .nil, .nil, by simp⟩
  | @cons o os v b v' ks ks' k r r' h hp hs' ih =>
    simp only [apartNum, Bool.and_eq_true] at ha
    obtain ⟨⟨ha1, ha2⟩, ha3⟩ := ha
    have hw1 : ∀ x ∈ ks, Writable x := fun x hx => hw x (List.mem_append_left _ hx)
    have hw2 : ∀ x ∈ ks', Writable x := fun x hx => hw x (List.mem_append_right _ hx)
    have hk1 : Writable (ks'.headD k) := by
      cases ks' with
      | nil => exact hk
      | cons x xs => exact hw2 x List.mem_cons_self
    have ho := List.mem_cons_self (a := o) (l := os)
    have htail {P : Operand → Prop} (h : ∀ x ∈ o :: os, P x) : ∀ x ∈ os, P x := fun x hx => h x (List.mem_cons_of_mem _ hx)
    obtain ⟨hq1, hq2⟩ := sub_or hq
    have hz' : ∀ o' ∈ os, ∀ f ∈ o'.num, bitsAt ((v &&& ~~~clears o) ||| b) f.1 f.2 = 0 := by
      intro o' ho' f hf
      rw [← hz o' (List.mem_cons_of_mem _ ho') f hf]
      refine bitsAt_congr fun i h1 h2 => ?_
      by_cases hi : i < 64
      · refine accepts_foot (hg o ho) (hr o ho) (ht o ho) h hw1 hk1 hi ?_
        have := List.all_eq_true.1 ha2 o' ho'
        rw [Bool.and_eq_true] at this
        exact not_inF_of_apart this.2 ⟨f, hf, h1, h2⟩
      · rw [BitVec.getLsbD_of_ge _ _ (by omega), BitVec.getLsbD_of_ge _ _ (by omega)]
    obtain ⟨kss, h1, h2, h3, h4⟩ := ih (htail hg) (htail hr) (htail ht) (htail hs) ha3 (htail hc) hw2 hk hz' hq2
    -- the bits of the operand in the final word
    have hlater {f : Field} (hf : f ∈ o.num ++ o.held) : bitsAt (v' ||| c) f.1 f.2 = bitsAt ((v &&& ~~~clears o) ||| b) f.1 f.2 := by
      rw [bitsAt_or, bitsAt_clear ha1 hf, Nat.or_zero]
      refine bitsAt_congr fun i h1 h2 => ?_
      by_cases hi : i < 64
      · refine sequence_foot (htail hg) (htail hr) (htail ht) hs'.sequence hw2 hk hi fun o' ho' => ?_
        have := List.all_eq_true.1 ha2 o' ho'
        rw [Bool.and_eq_true] at this
        exact not_inF_of_apart this.1 ⟨f, hf, h1, h2⟩
      · rw [BitVec.getLsbD_of_ge _ _ (by omega), BitVec.getLsbD_of_ge _ _ (by omega)]
    have g1 : ∀ f ∈ o.num, bitsAt (v' ||| c) f.1 f.2 = bitsAt b f.1 f.2 := by
      intro f hf
      rw [hlater (List.mem_append_left _ hf), bitsAt_or]
      have h0 := hz o ho f hf
      have : bitsAt (v &&& ~~~clears o) f.1 f.2 = 0 := by
        refine bitsAt_none fun i h1 h2 => ?_
        have hb : v.getLsbD i = false := by
          have := congrArg (·.testBit (i - f.1)) h0
          simp only [bitsAt_testBit, Nat.zero_testBit, Bool.and_eq_false_imp, decide_eq_true_eq] at this
          have := this (by omega)
          rwa [show f.1 + (i - f.1) = i by omega] at this
        simp [hb]
      rw [this, Nat.zero_or]
    have g2 : bitsIn b (v' ||| c) = true := by
      refine beq_iff_eq.2 ?_
      apply BitVec.eq_of_getLsbD_eq
      intro i hi
      simp only [BitVec.getLsbD_and, BitVec.getLsbD_or, BitVec.getLsbD_not, hi, decide_true, Bool.true_and]
      cases hbi : b.getLsbD i with
      | false => simp
      | true =>
        by_cases hx : ∃ o' ∈ os, (clears o').getLsbD i = true
        · obtain ⟨o', ho', hx⟩ := hx
          simp [hc o' (List.mem_cons_of_mem _ ho') i hx]
        · have : v'.getLsbD i = true := by
            refine sequence_mono hs'.sequence (by simp [hbi]) fun o' ho' => ?_
            by_contra hne
            exact hx ⟨o', ho', by simpa using hne⟩
          simp [this]
    have g3 : ∀ a, o = .mirrorGpr a → bitsAt (v' ||| c) a 8 = bitsAt v a 8 := by
      rintro a rfl
      rw [hlater (f := (a, 8)) (by simp [Operand.held])]
      obtain ⟨rfl, -⟩ := h
      have h0 : (v &&& ~~~clears (.mirrorGpr a)) ||| 0 = v := by
        change (v &&& ~~~(0#64)) ||| 0#64 = v
        rw [show ~~~(0#64) = BitVec.allOnes 64 by decide, BitVec.and_allOnes, BitVec.or_zero]
      rw [h0]
    obtain ⟨t, t1, t2, t3, t4⟩ := texts_complete (hs o ho) (w := v' ||| c) (e' := e') (k' := kss.flatten.headD k) h hw1 g1 g2 hq1 g3 (Like.headD h2 (.refl k)) he hpc
    refine ⟨t :: kss, .cons t1 h1, ?_, ?_, ?_⟩
    · rw [List.flatten_cons]; exact List.rel_append t2 h2
    · rw [List.flatten_cons]
      refine .cons t3 (hP _ _ _ _ ?_ hp) h3
      exact Like.headD (List.rel_append t2 h2) (.refl k)
    · intro x hx
      rw [List.flatten_cons] at hx
      rcases List.mem_append.1 hx with hx | hx
      · exact t4 x hx
      · exact h4 x hx

/-- The proposed texts of the operands contain one that is read as the operands. -/
theorem sequence_texts {os : List Operand} (hg : ∀ o ∈ os, o.grammatical = true) (hr : ∀ o ∈ os, o.regular = true)
    (ht : ∀ o ∈ os, o.target = false ∨ o = .label) (hs : ∀ o ∈ os, o.shown = true) {c : BitVec 64} (ha : apartNum c os = true)
    (hc : ∀ o ∈ os, ∀ p, (clears o).getLsbD p = true → c.getLsbD p = true)
    {e e' : Env} (he : e'.pc = e.pc) (hpc : e.pc < 2 ^ 62) {v v' : BitVec 64} {ks : List Kind} {k : Kind} {r : BitVec 32} (h : Sequence e os v ks k v' r)
    (hw : ∀ x ∈ ks, Writable x) (hk : Writable k) (hz : ∀ o ∈ os, ∀ f ∈ o.num, bitsAt v f.1 f.2 = 0) {q : BitVec 32} (hq : r &&& ~~~q = 0) :
    ∃ kss, List.Forall₂ (fun ts ks => ks ∈ ts) (os.map (Operand.texts e.pc (v' ||| c) q)) kss ∧ List.Forall₂ Like ks kss.flatten ∧
      Sequence e' os v kss.flatten k v' r ∧ ∀ x ∈ kss.flatten, Fine x := by
  obtain ⟨kss, h1, h2, h3, h4⟩ := guarded_texts (P := fun _ _ _ => True) (by simp) hg hr ht hs ha hc he hpc (sequence_guarded h) hw hk hz hq
  exact ⟨kss, h1, h2, h3.sequence, h4⟩

/-! ### Guards and annotations -/

theorem guardOf_bits {v : BitVec 64} : (guardBits (guardOf v)).toNat = bitsAt v 16 4 ∧
    ∀ p n, guardOf v = some (p, n) → p = bitsAt v 16 4 % 8 := by
  have h1 : bitsAt v 16 4 = bitsAt v 16 3 + 8 * bitsAt v 19 1 := by unfold bitsAt; omega
  have h2 := bitsAt_lt v 16 3
  have h3 := bitsAt_lt v 19 1
  unfold guardOf
  split
  · rename_i h
    rw [h]
    exact ⟨rfl, by simp⟩
  · refine ⟨?_, ?_⟩
    · simp only [guardBits, BitVec.toNat_ofNat, beq_iff_eq]
      split <;> omega
    · intro p n h
      simp only [Option.some.injEq, Prod.mk.injEq] at h
      omega

theorem guard_fine {v : BitVec 64} : ∀ k ∈ guardTokens (guardOf v), Fine k := by
  have h2 := bitsAt_lt v 16 3
  unfold guardOf
  split
  · simp [guardTokens]
  · intro k hk
    simp only [guardTokens, List.mem_cons, List.not_mem_nil, or_false] at hk
    rcases hk with rfl | rfl
    · exact ⟨trivial, rfl⟩
    · refine ⟨?_, rfl⟩
      change bitsAt v 16 3 ≤ 7
      omega

theorem annots_of {as : List Annot} (h : ∀ a ∈ as, a.Text (Annot.tokens a)) (hc : as.Pairwise fun a b => a.clash b = false) :
    AnnotsText as (as.flatMap Annot.tokens) := by
  induction as with
  | nil => exact .nil
  | cons a as ih =>
    rw [List.flatMap_cons]
    rw [List.pairwise_cons] at hc
    exact .cons (h a List.mem_cons_self) hc.1 (ih (fun b hb => h b (List.mem_cons_of_mem _ hb)) hc.2)

theorem given_or {f : Annot → Option Nat} {d : Nat} {as : List Annot} : given f d as = d ∨ ∃ a ∈ as, f a = some (given f d as) := by
  unfold given
  cases h : as.findSome? f with
  | none => exact .inl rfl
  | some n =>
    obtain ⟨a, ha, hf⟩ := List.exists_of_findSome?_eq_some h
    exact .inr ⟨a, ha, hf⟩

theorem annots_text {as : List Annot} {ks : List Kind} (h : AnnotsText as ks) : ∀ a ∈ as, ∃ t, a.Text t := by
  induction h with
  | nil => simp
  | cons h _ _ ih =>
    intro a ha
    rcases List.mem_cons.1 ha with rfl | ha
    · exact ⟨_, h⟩
    · exact ih a ha

/-- The scheduling bits of annotations. -/
theorem sched_parts {as : List Annot} {ks : List Kind} (h : AnnotsText as ks) : schedBits as < 2 ^ 17 ∧
    (schedBits as / 2 ^ 5 % 8 ≤ 5 ∨ schedBits as / 2 ^ 5 % 8 = 7) ∧ (schedBits as / 2 ^ 8 % 8 ≤ 5 ∨ schedBits as / 2 ^ 8 % 8 = 7) := by
  obtain ⟨h1, -, -, h2, h3, -⟩ := C37_fields h
  refine ⟨h1, ?_, ?_⟩
  · have h2 : schedBits as / 2 ^ 5 % 8 = writeBarrier as := h2
    rw [h2]
    refine given_or.elim .inr ?_
    rintro ⟨a, ha, hf⟩
    obtain ⟨t, ht⟩ := annots_text h a ha
    left
    cases ht with
    | wb hn => simp only [Option.some.injEq] at hf; exact Nat.le_trans (Nat.le_of_eq hf.symm) hn
    | _ => simp at hf
  · have h3 : schedBits as / 2 ^ 8 % 8 = readBarrier as := h3
    rw [h3]
    refine given_or.elim .inr ?_
    rintro ⟨a, ha, hf⟩
    obtain ⟨t, ht⟩ := annots_text h a ha
    left
    cases ht with
    | rb hn => simp only [Option.some.injEq] at hf; exact Nat.le_trans (Nat.le_of_eq hf.symm) hn
    | _ => simp at hf

/-- The annotations found for scheduling bits stand for these. -/
theorem annotsOf_bits {s : Nat} (h : s < 2 ^ 17) (hwb : s / 2 ^ 5 % 8 ≤ 5 ∨ s / 2 ^ 5 % 8 = 7) (hrb : s / 2 ^ 8 % 8 ≤ 5 ∨ s / 2 ^ 8 % 8 = 7) :
    AnnotsText (annotsOf s) ((annotsOf s).flatMap Annot.tokens) ∧ schedBits (annotsOf s) = s := by
  have hdep (i : Nat) : .dep i ∈ annotsOf s ↔ i < 6 ∧ s / 2 ^ (11 + i) % 2 = 1 := by
    unfold annotsOf
    simp only [List.mem_append, List.mem_map, List.mem_filter, List.mem_range, decide_eq_true_eq, Annot.dep.injEq]
    constructor
    · rintro ((((h | h) | h) | h) | ⟨j, h, rfl⟩)
      · split at h <;> simp at h
      · split at h <;> simp at h
      · split at h <;> simp at h
      · split at h <;> simp at h
      · exact h
    · intro h
      exact .inr ⟨i, h, rfl⟩
  have hyield : .yield ∈ annotsOf s ↔ s / 2 ^ 4 % 2 = 1 := by
    unfold annotsOf
    simp only [List.mem_append, List.mem_map, reduceCtorEq, and_false, exists_false, or_false]
    constructor
    · rintro (((h | h) | h) | h)
      · split at h <;> simp at h
      · split at h <;> simp at h; omega
      · split at h <;> simp at h
      · split at h <;> simp at h
    · intro h
      rw [if_neg (show ¬ s / 2 ^ 4 % 2 = 0 by omega)]
      simp
  constructor
  · refine annots_of ?_ ?_
    · intro a ha
      unfold annotsOf at ha
      simp only [List.mem_append, List.mem_map, List.mem_filter, List.mem_range] at ha
      rcases ha with (((ha | ha) | ha) | ha) | ⟨j, ⟨hj, -⟩, rfl⟩
      · split at ha
        · simp at ha
        · rw [List.mem_singleton.1 ha]; exact .wait (n := s % 16) (by omega)
      · split at ha
        · simp at ha
        · rw [List.mem_singleton.1 ha]; exact .y
      · split at ha
        · simp at ha
        · rw [List.mem_singleton.1 ha]; exact .wb (n := s / 2 ^ 5 % 8) (by omega)
      · split at ha
        · simp at ha
        · rw [List.mem_singleton.1 ha]; exact .rb (n := s / 2 ^ 8 % 8) (by omega)
      · exact .dep (n := j) (by omega)
    · unfold annotsOf
      have hd : (((List.range 6).filter fun i => s / 2 ^ (11 + i) % 2 = 1).map Annot.dep).Pairwise fun a b => a.clash b = false := by
        rw [List.pairwise_map]
        refine List.Pairwise.imp (R := fun a b => a ≠ b) ?_ (List.Nodup.filter _ List.nodup_range)
        intro a b hab
        simpa [Annot.clash] using hab
      simp only [List.pairwise_append]
      refine ⟨⟨⟨⟨?_, ?_, ?_⟩, ?_, ?_⟩, ?_, ?_⟩, hd, ?_⟩
      all_goals try (split <;> simp; done)
      · intro a ha b hb
        split at ha <;> split at hb <;> simp_all [Annot.clash]
      · intro a ha b hb
        rw [List.mem_append] at ha
        rcases ha with ha | ha <;> split at ha <;> split at hb <;> simp_all [Annot.clash]
      · intro a ha b hb
        rw [List.mem_append, List.mem_append] at ha
        rcases ha with (ha | ha) | ha <;> split at ha <;> split at hb <;> simp_all [Annot.clash]
      · intro a ha b hb
        obtain ⟨j, -, rfl⟩ := List.mem_map.1 hb
        rw [List.mem_append, List.mem_append, List.mem_append] at ha
        rcases ha with ((ha | ha) | ha) | ha <;> split at ha <;> simp_all [Annot.clash]
  · have hmask : waitMask (annotsOf s) = s / 2 ^ 11 := by
      unfold waitMask
      have hb (i : Nat) (hi : i < 6) : bit (.dep i ∈ annotsOf s) = s / 2 ^ (11 + i) % 2 := by
        unfold bit
        simp only [decide_eq_true_eq, hdep i, hi, true_and]
        split <;> omega
      rw [show List.range 6 = [0, 1, 2, 3, 4, 5] from rfl]
      simp only [List.map_cons, List.map_nil, List.sum_cons, List.sum_nil, hb 0 (by omega), hb 1 (by omega), hb 2 (by omega), hb 3 (by omega),
        hb 4 (by omega), hb 5 (by omega)]
      omega
    have hy : bit (.yield ∈ annotsOf s) = s / 2 ^ 4 % 2 := by
      unfold bit
      simp only [decide_eq_true_eq, hyield]
      split <;> omega
    have hfind (f : Annot → Option Nat) (hf : ∀ n, f (.dep n) = none) : (((List.range 6).filter fun i => s / 2 ^ (11 + i) % 2 = 1).map Annot.dep).findSome? f = none := by
      rw [List.findSome?_eq_none_iff]
      intro a ha
      obtain ⟨j, -, rfl⟩ := List.mem_map.1 ha
      exact hf j
    have hst : stall (annotsOf s) = s % 16 := by
      unfold stall given annotsOf
      simp only [List.findSome?_append]
      rw [hfind _ (by intro n; rfl)]
      split <;> split <;> split <;> split <;> simp <;> omega
    have hw : writeBarrier (annotsOf s) = s / 2 ^ 5 % 8 := by
      unfold writeBarrier given annotsOf
      simp only [List.findSome?_append]
      rw [hfind _ (by intro n; rfl)]
      split <;> split <;> split <;> split <;> simp <;> omega
    have hr : readBarrier (annotsOf s) = s / 2 ^ 8 % 8 := by
      unfold readBarrier given annotsOf
      simp only [List.findSome?_append]
      rw [hfind _ (by intro n; rfl)]
      split <;> split <;> split <;> split <;> simp <;> omega
    unfold schedBits
    rw [hst, hy, hw, hr, hmask]
    omega

end Nxas
