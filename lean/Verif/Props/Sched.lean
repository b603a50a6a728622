import Verif.Lemmas.Order
/-
C37, C38, C39: scheduling annotations.
-/

namespace Nxas

open Spec

/-! ### C37 -/

/-- C37. What follows the operands of an accepted instruction, from the first `@` on, is a list of
    annotations, and its scheduling bits are those of this list. -/
theorem C37_annotations {dbg : Bool} {code : Str} {i : Nat} {c : Ctx} {s : St} (h : InstrAt dbg code i c s) :
    ∃ opts g name ks anns as,
      Reads c.cur (opts ++ (guardTokens g ++ .ident name :: (ks ++ anns ++ [.semicolon]))) s.ctx.cur ∧
      Kind.at ∉ ks ∧ AnnotsText as anns ∧ s.op.sched = BitVec.ofNat 32 (schedBits as) := by
  obtain ⟨opts, ks, h1, h2, -⟩ := h.syntax
  generalize hop : s.op = op at h2
  cases h2 with
  | mk hs hr hp =>
    rename_i g row ks pre post
    cases hr with
    | mk hg ho ha =>
      rename_i ks anns v r as
      exact ⟨opts, g, row.mnemonic, ks, anns, as, h1, sequence_no_at ho, ha, rfl⟩

theorem given_le {f : Annot → Option Nat} {m d : Nat} {as : List Annot} (hf : ∀ a ∈ as, ∀ n, f a = some n → n ≤ m)
    (hd : d ≤ m) : given f d as ≤ m := by
  unfold given
  cases h : as.findSome? f with
  | none => simpa using hd
  | some n =>
    obtain ⟨a, ha, hn⟩ := List.exists_of_findSome?_eq_some h
    exact hf a ha n hn

/-- C37. The fields of the scheduling bits: stall count in bits 0 to 3, yield in bit 4, write barrier in
    bits 5 to 7, read barrier in bits 8 to 10, mask of awaited barriers in bits 11 to 16. -/
theorem C37_fields {as : List Annot} {ks : List Kind} (h : AnnotsText as ks) :
    schedBits as < 2 ^ 17 ∧ schedBits as % 2 ^ 4 = stall as ∧ schedBits as / 2 ^ 4 % 2 = bit (.yield ∈ as) ∧
    schedBits as / 2 ^ 5 % 2 ^ 3 = writeBarrier as ∧ schedBits as / 2 ^ 8 % 2 ^ 3 = readBarrier as ∧
    ∀ j < 6, (schedBits as / 2 ^ 11).testBit j = decide (.dep j ∈ as) := by
  obtain ⟨bs, -, hb, -⟩ := annotsText_iff.1 h
  have h1 : stall as ≤ 15 := given_le (by
    intro a ha n hn
    obtain ⟨ks, ht⟩ := hb.text a ha
    cases ht <;> simp_all) (by omega)
  have h2 : writeBarrier as ≤ 7 := given_le (by
    intro a ha n hn
    obtain ⟨ks, ht⟩ := hb.text a ha
    cases ht <;> simp_all ; omega) (by omega)
  have h3 : readBarrier as ≤ 7 := given_le (by
    intro a ha n hn
    obtain ⟨ks, ht⟩ := hb.text a ha
    cases ht <;> simp_all ; omega) (by omega)
  have h4 : bit (.yield ∈ as) ≤ 1 := by unfold bit; split <;> omega
  have key : ∀ b0 b1 b2 b3 b4 b5 : Bool, ∀ m, m = bit b0 * 2 ^ 0 + (bit b1 * 2 ^ 1 + (bit b2 * 2 ^ 2 + (bit b3 * 2 ^ 3 +
      (bit b4 * 2 ^ 4 + bit b5 * 2 ^ 5)))) → m < 64 ∧ m.testBit 0 = b0 ∧ m.testBit 1 = b1 ∧ m.testBit 2 = b2 ∧
      m.testBit 3 = b3 ∧ m.testBit 4 = b4 ∧ m.testBit 5 = b5 := by
    intro b0 b1 b2 b3 b4 b5 m hm
    subst hm
    revert b0 b1 b2 b3 b4 b5
    decide
  have hm : waitMask as = bit (.dep 0 ∈ as) * 2 ^ 0 + (bit (.dep 1 ∈ as) * 2 ^ 1 + (bit (.dep 2 ∈ as) * 2 ^ 2 +
      (bit (.dep 3 ∈ as) * 2 ^ 3 + (bit (.dep 4 ∈ as) * 2 ^ 4 + bit (.dep 5 ∈ as) * 2 ^ 5)))) := by
    simp [waitMask, show List.range 6 = [0, 1, 2, 3, 4, 5] from rfl]
  obtain ⟨hlt, k0, k1, k2, k3, k4, k5⟩ := key _ _ _ _ _ _ _ hm
  unfold schedBits
  refine ⟨by omega, by omega, by omega, by omega, by omega, ?_⟩
  have : (stall as + bit (.yield ∈ as) * 2 ^ 4 + writeBarrier as * 2 ^ 5 + readBarrier as * 2 ^ 8 + waitMask as * 2 ^ 11) /
      2 ^ 11 = waitMask as := by omega
  rw [this]
  intro j hj
  have : j = 0 ∨ j = 1 ∨ j = 2 ∨ j = 3 ∨ j = 4 ∨ j = 5 := by omega
  rcases this with rfl | rfl | rfl | rfl | rfl | rfl <;> assumption

/-- C37. Without annotations: no stall, no yield, no barriers, nothing awaited. -/
theorem C37_default : schedBits [] = 0x7e0 ∧ stall [] = 0 ∧ writeBarrier [] = 7 ∧ readBarrier [] = 7 := by decide

/-- Five annotations and their bits. -/
example : AnnotsText [.wait 3, .dep 5, .wb 2, .yield, .dep 0]
    [.at, .ident c!"WAIT", .imm 3, .at, .ident c!"DEP", .imm 5, .at, .ident c!"WB", .imm 2, .at, .ident c!"Y",
      .at, .ident c!"DEP", .imm 0] :=
  .cons (.wait (by omega)) (by simp [Annot.clash]) (.cons (.dep (by omega)) (by simp [Annot.clash])
    (.cons (.wb (by omega)) (by simp [Annot.clash]) (.cons .y (by simp [Annot.clash])
      (.cons (.dep (by omega)) (by simp) .nil))))
example : ∃ c s, InstrAt true c!"MOV R0, R1 @WAIT 3 @DEP 5 @WB 2 @Y @DEP 0;" 0 c s ∧
    s.op.sched = BitVec.ofNat 32 (schedBits [.wait 3, .dep 5, .wb 2, .yield, .dep 0]) := by
  have h : (instr true c!"MOV R0, R1 @WAIT 3 @DEP 5 @WB 2 @Y @DEP 0;" 0).map (·.2.op.sched) =
    some (BitVec.ofNat 32 (schedBits [.wait 3, .dep 5, .wb 2, .yield, .dep 0])) := by decide +kernel
  cases hi : instr true c!"MOV R0, R1 @WAIT 3 @DEP 5 @WB 2 @Y @DEP 0;" 0 with
  | none => rw [hi] at h; cases h
  | some p => rw [hi] at h; exact ⟨p.1, p.2, instr_at hi, by simpa using h⟩

/-! ### C38 -/

/-- C38. The tokens from an operand's end to the semicolon are accepted if and only if they are a list of
    annotations without clashes and with indices in range; the state is at the semicolon then. -/
theorem C38_accepts {s s' : St} {ks : List Kind} {t : Token} {c c0 : Cur} (hs : tokenize c0 = .ok s.tok s.ctx.cur)
    (hp : Path s.tok s.ctx.cur ks t c) (ht : t.kind = .semicolon) (hk : Kind.semicolon ∉ ks) :
    finishInsn false s = .ok () s' ↔ ∃ as, AnnotsText as ks ∧
      s' = s.at t c ⟨s.op.value, s.op.reuse, BitVec.ofNat 32 (schedBits as)⟩ := by
  rw [finishInsn_iff (c0 := c0) ⟨c0, Reach.refl _, hs⟩]
  constructor
  · rintro ⟨as, ks', t', c', h1, h2, h3, h4⟩
    obtain ⟨rfl, rfl, rfl⟩ := hp.first_semicolon h1 ht h2 hk h3.no_semicolon
    exact ⟨as, h3, h4⟩
  · rintro ⟨as, h1, h2⟩
    exact ⟨as, ks, t, c, hp, ht, h1, h2⟩

/-- The names of an annotation. -/
def _root_.Nxas.Spec.Annot.called : Annot → List Str
  | .wait _ => [c!"WAIT"]
  | .wb _ => [c!"WB"]
  | .rb _ => [c!"RB"]
  | .yield => [c!"Y", c!"YIELD"]
  | .dep _ => [c!"DEP"]

theorem count_block {a : Annot} {ks : List Kind} (h : Annot.Text a ks) (w : Str) :
    ks.count (.ident w) ≤ if w ∈ a.called then 1 else 0 := by
  have key : ∀ {u : Str} {l : List Kind}, u ∈ a.called → Kind.ident w ∉ l →
      (Kind.at :: .ident u :: l).count (.ident w) ≤ if w ∈ a.called then 1 else 0 := by
    intro u l hu hl
    rw [List.count_cons, List.count_cons, List.count_eq_zero_of_not_mem hl]
    by_cases hw : w = u
    · subst hw; simp [hu]
    · have : (Kind.ident u == Kind.ident w) = false := by
        rw [beq_eq_false_iff_ne]; intro e; exact hw (Kind.ident.inj e).symm
      rw [this]
      simp
  cases h <;> exact key (by simp [Spec.Annot.called]) (by simp)

theorem blocks_names {as : List Annot} {ks : List Kind} (h : AnnotsText as ks) (w : Str) :
    ks.count (.ident w) ≤ (as.filter fun a => decide (w ∈ a.called)).length := by
  induction h with
  | nil => simp
  | @cons a as ks ks' h _ _ ih =>
    rw [List.count_append, List.filter_cons]
    have := count_block h w
    by_cases hw : w ∈ a.called
    · rw [if_pos hw] at this
      rw [if_pos (by simpa using hw), List.length_cons]
      omega
    · rw [if_neg hw] at this
      rw [if_neg (by simpa using hw)]
      omega

theorem clash_filter {p : Annot → Bool} {as : List Annot} (h : as.Pairwise (fun a a' => a.clash a' = false))
    (hp : ∀ a b, p a = true → p b = true → a.clash b = true) : (as.filter p).length ≤ 1 := by
  induction as with
  | nil => simp
  | cons a as ih =>
    rw [List.pairwise_cons] at h
    rw [List.filter_cons]
    split
    · rename_i ha
      have : as.filter p = [] := by
        rw [List.filter_eq_nil_iff]
        intro b hb hpb
        have := hp a b ha hpb
        rw [h.1 b hb] at this
        cases this
      rw [this]; simp
    · exact ih h.2

/-- C38. Accepted annotations contain each of the names `WAIT`, `WB`, `RB`, `Y`, `YIELD` at most once. -/
theorem C38_duplicate {as : List Annot} {ks : List Kind} (h : AnnotsText as ks) :
    ∀ w ∈ [c!"WAIT", c!"WB", c!"RB", c!"Y", c!"YIELD"], ks.count (.ident w) ≤ 1 := by
  obtain ⟨bs, -, hb, hp⟩ := annotsText_iff.1 h
  intro w hw
  refine Nat.le_trans (blocks_names h w) (clash_filter hp ?_)
  intro a b ha hb
  simp only [List.mem_cons, List.not_mem_nil, or_false] at hw
  rcases hw with rfl | rfl | rfl | rfl | rfl <;> cases a <;> cases b <;>
    first | rfl | (exfalso; revert ha; simp [Spec.Annot.called]; done) | (exfalso; revert hb; simp [Spec.Annot.called]; done)

/-- C38. No barrier is awaited twice. -/
theorem C38_dep {as : List Annot} {ks : List Kind} (h : AnnotsText as ks) : as.Pairwise (fun a a' => a.clash a' = false) :=
  (annotsText_iff.1 h).choose_spec.2.2

/-- C38. The numbers of accepted annotations are in range. -/
theorem C38_range {as : List Annot} {ks : List Kind} (h : AnnotsText as ks) {w : Str} {v : Int}
    (hin : [.at, .ident w, .imm v] <:+: ks) :
    0 ≤ v ∧ ((w = c!"WAIT" ∧ v ≤ 15) ∨ (w ∈ [c!"WB", c!"RB", c!"DEP"] ∧ v ≤ 5)) := by
  induction h with
  | nil => simp at hin
  | @cons a as ks ks' h _ hs ih =>
    have hhead : ks' = [] ∨ ∃ u, ks' = .at :: u := by
      obtain ⟨bs, rfl, hb, -⟩ := annotsText_iff.1 hs
      exact flatten_blocks_head hb.block
    obtain ⟨x, y, he⟩ := hin
    obtain ⟨u, rfl, hu⟩ := h.block
    by_cases hx : x = []
    · subst hx
      simp only [List.nil_append, List.cons_append, List.cons.injEq, true_and] at he
      clear ih
      cases h <;> simp only [List.cons_append, List.nil_append, List.cons.injEq, Kind.ident.injEq, Kind.imm.injEq] at he
      case y => rcases hhead with rfl | ⟨u, rfl⟩ <;> simp at he
      case yield => rcases hhead with rfl | ⟨u, rfl⟩ <;> simp at he
      all_goals
        obtain ⟨rfl, rfl, -⟩ := he
        refine ⟨by omega, ?_⟩
        simp
        omega
    · refine ih ?_
      obtain ⟨z, rfl⟩ : ∃ z, x = .at :: z := by
        cases x with
        | nil => exact (hx rfl).elim
        | cons k z =>
          simp only [List.cons_append, List.cons.injEq] at he
          exact ⟨z, by rw [he.1]⟩
      simp only [List.cons_append, List.append_assoc, List.cons.injEq, true_and, List.nil_append] at he
      -- the `@` of the block is not inside `u`
      have : u <+: z := by
        rcases Nat.lt_or_ge z.length u.length with hlt | hge
        · exfalso
          have hp : z ++ [.at] <+: u := by
            refine List.prefix_of_prefix_length_le (l₃ := u ++ ks') ?_ (List.prefix_append _ _) (by simp; omega)
            exact ⟨.ident w :: .imm v :: y, by rw [← he]; simp⟩
          exact hu (hp.subset (by simp))
        · exact List.prefix_of_prefix_length_le (l₃ := u ++ ks') (List.prefix_append _ _) ⟨_, he⟩ hge
      obtain ⟨z', rfl⟩ := this
      simp only [List.append_assoc, List.append_cancel_left_eq] at he
      exact ⟨z', y, by simpa using he⟩

example : assemble true c!"NOP @WAIT 1 @WAIT 1;" = .exit (.located ⟨0, 13, "clocks to stall are already specified"⟩) := by decide +kernel

/-! ### C39 -/

/-- C39. Annotations may be given in any order: if the blocks of tokens `bs` are accepted, then every
    permutation of them is accepted in any state, with the same scheduling bits. -/
theorem C39_order {bs bs' : List (List Kind)} (hp : bs.Perm bs') (hb : ∀ b ∈ bs, IsBlock b) {s1 s2 s1' : St}
    {t1 t2 : Token} {c1 c2 d1 d2 : Cur} (h1 : tokenize d1 = .ok s1.tok s1.ctx.cur)
    (h2 : tokenize d2 = .ok s2.tok s2.ctx.cur) (p1 : Path s1.tok s1.ctx.cur bs.flatten t1 c1)
    (p2 : Path s2.tok s2.ctx.cur bs'.flatten t2 c2) (k1 : t1.kind = .semicolon) (k2 : t2.kind = .semicolon)
    (hk : Kind.semicolon ∉ bs.flatten) (ha : finishInsn false s1 = .ok () s1') :
    ∃ s2', finishInsn false s2 = .ok () s2' ∧ s2'.op.sched = s1'.op.sched := by
  obtain ⟨as, has, rfl⟩ := (C38_accepts h1 p1 k1 hk).1 ha
  obtain ⟨bs0, h3, h4, h5⟩ := annotsText_iff.1 has
  obtain rfl := blocks_unique hb h4.block h3
  obtain ⟨as', h6, h7⟩ := h4.perm hp
  have h8 : as'.Pairwise (fun a a' => a.clash a' = false) :=
    (h6.pairwise_iff fun h => by rw [clash_comm]; exact h).1 h5
  refine ⟨_, (C38_accepts h2 p2 k2 ?_).2 ⟨as', annotsText_iff.2 ⟨bs', rfl, h7, h8⟩, rfl⟩, ?_⟩
  · intro hin
    exact hk (hp.flatten.mem_iff.2 hin)
  · simp only [St.at]
    rw [schedBits_perm h6 h5]

/-- Two orders of the same five annotations. -/
example : assemble true c!"MOV R0, R1 @WAIT 3 @DEP 5 @WB 2 @Y @DEP 0;" =
    assemble true c!"MOV R0, R1 @DEP 0 @YIELD @WB 2 @DEP 5 @WAIT 3;" := by decide +kernel
example : ([[.at, .ident c!"WAIT", .imm 3], [.at, .ident c!"Y"]] : List (List Kind)).Perm
    [[.at, .ident c!"Y"], [.at, .ident c!"WAIT", .imm 3]] := .swap ..

end Nxas
