import Verif.Lemmas.Written
import Verif.Lemmas.Compose
import Verif.Lemmas.Chase
import Verif.Lemmas.Shapes
import Verif.Props.Sched
/-
What an operand does to the bits of the word that are not its own, read off the grammar, and which bits of the word its
syntax depends on: so the guard and the annotations of an instruction can be exchanged without touching anything else.
-/

namespace Nxas

open Spec

/-! ### Bits that an operand leaves alone -/

theorem written_kinds (ks : List Kind) (h : ∀ k ∈ ks, Writable k) (l : Nat) : ∃ ts, ts.map Prod.fst = ks ∧ Written l ts := by
  induction ks generalizing l with
  | nil => exact ⟨[], rfl, trivial⟩
  | cons k ks ih =>
    obtain ⟨ts, h1, h2⟩ := ih (fun k' h' => h k' (by simp [h'])) (l + height k)
    exact ⟨(k, l) :: ts, by simp [h1], Nat.le_refl _, h k (by simp), h2⟩

theorem Lexes.path {c : Cur} {ks : List Kind} {k : Kind} {ts : List Token} (h : Lexes c ts) (hk : ts.map Token.kind = ks ++ [k]) :
    ∃ t0 c1, tokenize c = .ok t0 c1 ∧ ∃ t' c', Path t0 c1 ks t' c' ∧ t'.kind = k := by
  induction ks generalizing c ts with
  | nil =>
    obtain ⟨t, rfl⟩ : ∃ t, ts = [t] := by
      cases ts with
      | nil => simp at hk
      | cons t ts => cases ts with
        | nil => exact ⟨t, rfl⟩
        | cons => simp at hk
    obtain ⟨c1, h1, -, -⟩ := Lexes.cons_iff.1 h
    exact ⟨t, c1, h1, t, c1, ⟨rfl, rfl⟩, by simpa using hk⟩
  | cons x ks ih =>
    cases ts with
    | nil => simp at hk
    | cons t ts =>
      obtain ⟨c1, h1, -, h2⟩ := Lexes.cons_iff.1 h
      rw [List.map_cons, List.cons_append, List.cons.injEq] at hk
      obtain ⟨t1, c2, h3, t', c', h4, h5⟩ := ih h2 hk.2
      exact ⟨t, c1, h1, t', c', ⟨hk.1, t1, c2, h3, h4⟩, h5⟩

/-- The bits of an operand are its own. -/
theorem accepts_foot {o : Operand} (hg : o.grammatical = true) (hr : o.regular = true) (ht : o.target = false ∨ o = .label) {e : Env}
    {v b : BitVec 64} {ks : List Kind} {k : Kind} {r : BitVec 32} (h : Accepts e v o ks k b r) (hw : ∀ x ∈ ks, Writable x) (hk : Writable k)
    {p : Nat} (hp : p < 64) (hf : ¬ inF o.fields p) : ((v &&& ~~~clears o) ||| b).getLsbD p = v.getLsbD p := by
  rcases ht with ht | rfl
  · obtain ⟨ts, h1, h2⟩ := written_kinds (ks ++ [k]) (by
      intro x hx
      rcases List.mem_append.1 hx with hx | hx
      · exact hw x hx
      · rw [List.mem_singleton.1 hx]; exact hk) 0
    obtain ⟨t, -, hz, hs⟩ := written_text h2
    obtain ⟨toks, h3, rfl⟩ := (scans_iff (c := ⟨t, 0, 0⟩) hz).1 hs
    obtain ⟨t0, c1, h4, t', c', h5, rfl⟩ := Lexes.path (ks := ks) (k := k) h3 (by
      rw [← h1, List.map_map]; rfl)
    have hpr : t0.kind.proper := (tokenize_proper h4)
    have hrun := (Operand.run_iff o hg ⟨⟨c1, [], 8, {}⟩, t0, ⟨v, 0, 0⟩⟩ hpr _).2 ⟨ks, b, r, t', c', h5, accepts_env ht h, rfl⟩
    have hfo := Operand.foot hr (dbg := false) (s := ⟨⟨c1, [], 8, {}⟩, t0, ⟨v, 0, 0⟩⟩) hpr.1
    unfold FootOf at hfo
    rw [hrun] at hfo
    have := hfo.2 p hf
    simpa [Op.bit, hp, St.set] using this
  · obtain ⟨-, x, -, -, -, rfl⟩ := h
    rw [show clears .label = 0 from rfl]
    have hb : (sfield 20 24 (x - e.pc - 8)).getLsbD p = false := by
      cases hc : (sfield 20 24 (x - e.pc - 8)).getLsbD p with
      | false => rfl
      | true =>
        have := field_inF (sfield_lt 24 _) hc
        exact (hf ⟨(20, 24), by simp [Operand.fields], this⟩).elim
    rw [BitVec.getLsbD_or, hb, Bool.or_false, BitVec.getLsbD_and, BitVec.getLsbD_not]
    simp [hp]

theorem sequence_foot {os : List Operand} (hg : ∀ o ∈ os, o.grammatical = true) (hr : ∀ o ∈ os, o.regular = true)
    (ht : ∀ o ∈ os, o.target = false ∨ o = .label) {e : Env} {v v' : BitVec 64} {ks : List Kind} {k : Kind} {r : BitVec 32}
    (h : Sequence e os v ks k v' r) (hw : ∀ x ∈ ks, Writable x) (hk : Writable k) {p : Nat} (hp : p < 64)
    (hf : ∀ o ∈ os, ¬ inF o.fields p) : v'.getLsbD p = v.getLsbD p := by
  induction h with
  | nil => rfl
  | @cons o os v b v' ks ks' k r r' h hs ih =>
    rw [ih (fun o h => hg o (by simp [h])) (fun o h => hr o (by simp [h])) (fun o h => ht o (by simp [h])) (fun x hx => hw x (by simp [hx])) hk
      (fun o h => hf o (by simp [h]))]
    refine accepts_foot (hg o (by simp)) (hr o (by simp)) (ht o (by simp)) h (fun x hx => hw x (by simp [hx])) ?_ hp (hf o (by simp))
    cases ks' with
    | nil => exact hk
    | cons x xs => exact hw x (by simp)

/-! ### Bits that the syntax of an operand depends on -/

/-- The bits of the word that decide what an operand may look like. -/
def Operand.peeks : Operand → List Field
  | .mirrorGpr a => [(a, 8)]
  | .f2fRounding => [(8, 2), (10, 2)]
  | .selector _ ta _ _ _ => [(ta, 3)]
  | .tldsType a => [(a, 1), (a + 1, 1), (a + 2, 1)]
  | .texsType a => [(a, 2), (a + 2, 1)]
  | .texsSwizzle => [(28, 8)]
  | .abs _ inner => inner.peeks
  | _ => []

theorem bitsAt_agree {lost : List Field} {v w : BitVec 64} (ha : Agree lost v w) {fs : List Field} (h : Field.clear fs lost = true)
    {a n : Nat} (hm : (a, n) ∈ fs) : bitsAt v a n = bitsAt w a n := by
  refine bitsAt_congr fun i h1 h2 => ha i ?_
  exact not_inF_of_apart (fs := fs) h ⟨(a, n), hm, h1, h2⟩

theorem accepts_agree {o : Operand} {lost : List Field} (h : Field.clear o.peeks lost = true) {v w : BitVec 64} (ha : Agree lost v w)
    (e : Env) : Accepts e v o = Accepts e w o := by
  induction o generalizing v w with
  | mirrorGpr a => simp only [Accepts, bitsAt_agree ha h (a := a) (n := 8) (by simp [Operand.peeks])]
  | f2fRounding =>
    simp only [Accepts, bitsAt_agree ha h (a := 8) (n := 2) (by simp [Operand.peeks]), bitsAt_agree ha h (a := 10) (n := 2) (by simp [Operand.peeks])]
  | selector a ta x y z => simp only [Accepts, bitsAt_agree ha h (a := ta) (n := 3) (by simp [Operand.peeks])]
  | tldsType a =>
    simp only [Accepts, bitsAt_agree ha h (a := a) (n := 1) (by simp [Operand.peeks]), bitsAt_agree ha h (a := a + 1) (n := 1) (by simp [Operand.peeks]),
      bitsAt_agree ha h (a := a + 2) (n := 1) (by simp [Operand.peeks])]
  | texsType a =>
    simp only [Accepts, bitsAt_agree ha h (a := a) (n := 2) (by simp [Operand.peeks]), bitsAt_agree ha h (a := a + 2) (n := 1) (by simp [Operand.peeks])]
  | texsSwizzle => simp only [Accepts, bitsAt_agree ha h (a := 28) (n := 8) (by simp [Operand.peeks])]
  | abs a inner ih => simp only [Accepts, ih h ha, ih h (ha.or (field a 1))]
  | _ => rfl

theorem sequence_agree {os : List Operand} {lost : List Field} (ho : ∀ o ∈ os, Field.clear o.peeks lost = true) {e : Env} {v v' w : BitVec 64}
    {ks : List Kind} {k : Kind} {r : BitVec 32} (h : Sequence e os v ks k v' r) (ha : Agree lost v w) :
    ∃ w', Sequence e os w ks k w' r ∧ Agree lost v' w' := by
  induction h generalizing w with
  | nil => exact ⟨w, .nil, ha⟩
  | @cons o os v b v' ks ks' k r r' h hs ih =>
    obtain ⟨w', h1, h2⟩ := ih (fun o h => ho o (by simp [h])) (w := (w &&& ~~~clears o) ||| b) (by
      intro i hi
      rw [BitVec.getLsbD_or, BitVec.getLsbD_or, BitVec.getLsbD_and, BitVec.getLsbD_and, ha i hi])
    exact ⟨w', .cons (by rw [← accepts_agree (ho o (by simp)) ha]; exact h) h1, h2⟩

theorem table_peeks : ∀ row ∈ insnTable, ∀ o ∈ row.operands, Field.clear o.peeks [(16, 4)] = true ∧ (o.target = false ∨ o = .label) := by
  decide +kernel

/-! ### The token after the operands -/

theorem accepts_close {o : Operand} {e : Env} {v b : BitVec 64} {ks : List Kind} {k k' : Kind} {r : BitVec 32} (h : Accepts e v o ks k b r)
    (hk : k' = .at ∨ k' = .semicolon) (hc : k = .at ∨ k = .semicolon) : Accepts e v o ks k' b r := by
  induction o generalizing v ks b with
  | abs a inner ih =>
    rcases h with ⟨ks1, b1, h1, h2, h⟩ | ⟨h1, h⟩
    · exact .inl ⟨ks1, b1, h1, h2, h⟩
    · refine .inr ⟨?_, ih h⟩
      cases ks with
      | nil => rcases hk with rfl | rfl <;> simp
      | cons x xs => exact h1
  | f2fRounding =>
    rw [Accepts] at h ⊢
    by_cases hv : bitsAt v 8 2 = bitsAt v 10 2 <;> simp only [hv, if_true, if_false] at h ⊢
    · rcases hk with rfl | rfl <;> rcases hc with rfl | rfl <;> simpa using h
    · rcases hk with rfl | rfl <;> rcases hc with rfl | rfl <;> simpa [modifier, NoEntry] using h
  | texsMode a =>
    rw [Accepts] at h ⊢
    obtain ⟨h0, lod, dc, x, y, h1, h2, h3, h4⟩ := h
    refine ⟨h0, lod, dc, x, y, h1, h2, ?_, ?_⟩
    · rcases h3 with h3 | h3 | ⟨h3, h5, h6, h7⟩
      · exact .inl h3
      · exact .inr (.inl h3)
      · cases dc with
        | nil => refine .inr (.inr ⟨h3, ?_, ?_, h7⟩) <;> rcases hk with rfl | rfl <;> simp
        | cons d ds => exact .inr (.inr ⟨h3, h5, h6, h7⟩)
    · rcases h4 with h4 | ⟨h4, h5, h6⟩
      · exact .inl h4
      · exact .inr ⟨h4, by rcases hk with rfl | rfl <;> simp, h6⟩
  | _ =>
    first
    | exact h
    | (rcases hk with rfl | rfl <;> rcases hc with rfl | rfl <;>
        first
        | exact h
        | simpa [Accepts, optWord, register, reuse, modifier, NoEntry] using h)

theorem sequence_close {os : List Operand} {e : Env} {v v' : BitVec 64} {ks : List Kind} {k k' : Kind} {r : BitVec 32}
    (h : Sequence e os v ks k v' r) (hk : k' = .at ∨ k' = .semicolon) (hc : k = .at ∨ k = .semicolon) : Sequence e os v ks k' v' r := by
  induction h with
  | nil => exact .nil
  | @cons o os v b v' ks ks' k r r' h hs ih =>
    refine .cons ?_ (ih hc)
    cases ks' with
    | nil => exact accepts_close h hk hc
    | cons x xs => exact h

/-! ### Reuse flags -/

theorem reuse_small {a : Nat} {ks : List Kind} {k : Kind} {r : BitVec 32} (h : reuse a ks k r) : r.toNat < 8 := by
  rcases h with ⟨-, h⟩ | ⟨-, -, rfl⟩
  · unfold reuseFlag at h
    split at h <;> simp at h <;> subst h <;> decide
  · decide

theorem memory_small {i : Bool} {a s n : Nat} {ks : List Kind} {k : Kind} {b : BitVec 64} {r : BitVec 32} (h : memory i a s n ks k b r) :
    r.toNat < 8 := by
  obtain ⟨n, base, off, -, ⟨rest, -, h⟩ | ⟨-, -, rfl⟩, -⟩ := h
  · exact reuse_small h
  · decide

theorem accepts_small {o : Operand} {e : Env} {v b : BitVec 64} {ks : List Kind} {k : Kind} {r : BitVec 32} (h : Accepts e v o ks k b r) :
    r.toNat < 8 := by
  induction o generalizing v ks k b with
  | gpr a => obtain ⟨n, rest, -, -, h⟩ := h; exact reuse_small h
  | mirrorGpr a => obtain ⟨-, n, rest, -, -, h⟩ := h; exact reuse_small h
  | memAddress i a s n => exact memory_small h
  | patchAttr => obtain ⟨n, rest, plus, y, -, -, h, -⟩ := h; exact reuse_small h
  | physAttr => obtain ⟨n, rest, -, h, -⟩ := h; exact reuse_small h
  | ldcAddress => obtain ⟨x, rest, b1, -, -, -, h⟩ := h; exact memory_small h
  | abs a inner ih =>
    rcases h with ⟨ks1, b1, h1, h2, h⟩ | ⟨h1, h⟩
    · exact ih h
    · exact ih h
  | f2fRounding =>
    rw [Accepts] at h
    split at h
    · rw [h.1]; decide
    · rw [h.1]; decide
  | _ => rw [h.1]; decide

theorem sequence_small {os : List Operand} {e : Env} {v v' : BitVec 64} {ks : List Kind} {k : Kind} {r : BitVec 32}
    (h : Sequence e os v ks k v' r) : r.toNat < 8 := by
  induction h with
  | nil => decide
  | cons h _ ih =>
    rw [BitVec.toNat_or]
    exact Nat.or_lt_two_pow (n := 3) (accepts_small h) ih

/-! ### Rows -/

theorem guardField_bit (g : Option (Nat × Bool)) (p : Nat) :
    (field 16 (guardBits g).toNat).getLsbD p = (decide (16 ≤ p) && (guardBits g).getLsbD (p - 16)) := by
  rw [field_bit]
  by_cases h : p < 64
  · simp only [h, decide_true, Bool.true_and]; rfl
  · have : (guardBits g).getLsbD (p - 16) = false := BitVec.getLsbD_of_ge _ _ (by omega)
    simp [h, this]

/-- Another guard: the bits of the guard are exchanged. -/
theorem rowText_guard {e : Env} {row : Insn} (hr : row ∈ insnTable) {g g' : Option (Nat × Bool)} {ks : List Kind} {op : Op}
    (h : RowText e row g ks op) (hw : ∀ k ∈ ks, Writable k) (hg : row.flags % 2 = 1 → ∀ p n, g' = some (p, n) → p = 7) :
    ∃ op', RowText e row g' ks op' ∧ op'.reuse = op.reuse ∧ op'.sched = op.sched ∧ op'.value.extractLsb' 16 4 = guardBits g' ∧
      ∀ p, ¬ (16 ≤ p ∧ p < 20) → op'.value.getLsbD p = op.value.getLsbD p := by
  cases h with
  | @mk ks ks' v r as hg0 ho ha =>
    have hag : Agree [(16, 4)] (field 16 (guardBits g).toNat ||| row.opcode) (field 16 (guardBits g').toNat ||| row.opcode) := by
      intro p hp
      rw [BitVec.getLsbD_or, BitVec.getLsbD_or, guardField_bit, guardField_bit]
      have hp : ¬ (16 ≤ p ∧ p < 16 + 4) := fun h => hp ⟨(16, 4), by simp, h⟩
      by_cases h16 : 16 ≤ p
      · rw [BitVec.getLsbD_of_ge _ (p - 16) (by omega), BitVec.getLsbD_of_ge _ (p - 16) (by omega)]
      · simp [h16]
    obtain ⟨v', h1, h2⟩ := sequence_agree (fun o h => (table_peeks row hr o h).1) ho hag
    refine ⟨_, .mk hg h1 ha, rfl, rfl, ?_, ?_⟩
    · apply BitVec.eq_of_getLsbD_eq
      intro p hp
      rw [BitVec.getLsbD_extractLsb', decide_eq_true hp, Bool.true_and]
      change v'.getLsbD (16 + p) = _
      rw [sequence_foot (fun o h => table_grammatical row hr o h) (fun o h => table_regular row hr o h) (fun o h => (table_peeks row hr o h).2) h1
        (fun x hx => hw x (by simp [hx])) (by
          cases ks' with
          | nil => exact trivial
          | cons x xs => exact hw x (by simp)) (by omega) (by
          intro o ho hin
          refine not_inF_of_apart (table_fields _ hr o ho) hin ⟨(16, 4), by simp, by simp; omega⟩)]
      rw [BitVec.getLsbD_or, guardField_bit]
      have : row.opcode.getLsbD (16 + p) = false := by
        cases hb : row.opcode.getLsbD (16 + p) with
        | false => rfl
        | true =>
          obtain ⟨f, hf, h⟩ := (inF_setBits _ _).2 hb
          have := List.all_eq_true.1 (table_guard _ hr) f hf
          simp [Field.apart] at this
          omega
      rw [this]
      simp
    · intro p hp
      exact (h2 p (by rintro ⟨f, hf, h3⟩; rw [List.mem_singleton] at hf; subst hf; exact hp h3)).symm

theorem split_at {ks ks' x x' : List Kind} (h : ks ++ x = ks' ++ x') (hk : Kind.at ∉ ks) (hk' : Kind.at ∉ ks') (hx : x.headD .at = .at)
    (hx' : x'.headD .at = .at) : ks = ks' ∧ x = x' := by
  rcases List.append_eq_append_iff.1 h with ⟨c, h1, h2⟩ | ⟨c, h1, h2⟩
  · cases c with
    | nil => simp_all
    | cons y c =>
      subst h2
      obtain rfl : y = .at := hx
      exact (hk' (by simp [h1])).elim
  · cases c with
    | nil => simp_all
    | cons y c =>
      subst h2
      obtain rfl : y = .at := hx'
      exact (hk (by simp [h1])).elim

theorem text_unique {a a' : Annot} {ks : List Kind} (h : a.Text ks) (h' : a'.Text ks) : a = a' := by
  cases h <;> cases h' <;> rfl

theorem blocks_annots {bs : List (List Kind)} {as as' : List Annot} (h : Blocks bs as) (h' : Blocks bs as') : as = as' := by
  induction h generalizing as' with
  | nil => cases h'; rfl
  | cons h _ ih => cases h' with | cons h1 h2 => rw [text_unique h h1, ih h2]

theorem annots_unique {as as' : List Annot} {ks : List Kind} (h : AnnotsText as ks) (h' : AnnotsText as' ks) : as = as' := by
  obtain ⟨bs, rfl, h1, -⟩ := annotsText_iff.1 h
  obtain ⟨bs', h2, h3, -⟩ := annotsText_iff.1 h'
  obtain rfl := blocks_unique h1.block h3.block h2
  exact blocks_annots h1 h3

/-- Other annotations: the scheduling bits are exchanged. -/
theorem rowText_annots {e : Env} {row : Insn} {g : Option (Nat × Bool)} {ks x y : List Kind} {as as' : List Annot} {op : Op}
    (h : RowText e row g (ks ++ x) op) (hk : Kind.at ∉ ks) (hx : AnnotsText as x) (hy : AnnotsText as' y) :
    op.sched = BitVec.ofNat 32 (schedBits as) ∧ RowText e row g (ks ++ y) { op with sched := BitVec.ofNat 32 (schedBits as') } := by
  generalize hq : ks ++ x = l at h
  cases h with
  | @mk ks0 x0 v r as0 hg ho ha =>
    obtain ⟨rfl, rfl⟩ := split_at hq hk (sequence_no_at ho) (annots_head hx) (annots_head ha)
    obtain rfl := annots_unique hx ha
    refine ⟨rfl, .mk hg (sequence_close ho ?_ ?_) hy⟩
    · have := annots_head hy
      cases y with
      | nil => exact .inr rfl
      | cons k ks => exact .inl this
    · have := annots_head hx
      cases x with
      | nil => exact .inr rfl
      | cons k ks => exact .inl this

theorem instr_small {e : Env} {ks : List Kind} {op : Op} (h : InstrText e ks op) : op.reuse.toNat < 8 ∧ op.sched.toNat < 2 ^ 17 := by
  cases h with
  | mk hs h hp =>
    cases h with
    | mk hg ho ha =>
      refine ⟨sequence_small ho, ?_⟩
      have := (C37_fields ha).1
      rw [BitVec.toNat_ofNat]
      omega

/-! ### Programs -/

theorem option_no_semicolon {o o' : Opts} {ts : List (Kind × Nat)} (h : OptionText o ts o') : ∀ t ∈ ts, t.1 ≠ .semicolon := by
  cases h <;> simp

/-- A program, cut after an instruction. -/
theorem Program.cut {lab : Str → Option Nat} {i : Nat} {o o' : Opts} {ts : List (Kind × Nat)} {ops : List Op} (h : Program lab i o ts ops o')
    {t1 t2 : List (Kind × Nat)} (ht : ts = t1 ++ t2) (h1 : t1 = [] ∨ (t1.map Prod.fst).getLast? = some .semicolon) :
    ∃ A B o1, Program lab i o t1 A o1 ∧ Program lab (i + A.length) o1 t2 B o' ∧ ops = A ++ B := by
  induction h generalizing t1 with
  | done =>
    obtain ⟨rfl, rfl⟩ := List.append_eq_nil_iff.1 ht.symm
    exact ⟨[], [], _, .done, .done, rfl⟩
  | @insn i o o' ts rest op ops h hr ih =>
    by_cases hn : t1 = []
    · subst hn
      obtain rfl : ts ++ rest = t2 := by simpa using ht
      exact ⟨[], _, _, .done, .insn h hr, rfl⟩
    · have h1 : (t1.map Prod.fst).getLast? = some .semicolon := h1.resolve_left hn
      rcases List.append_eq_append_iff.1 ht with ⟨c, rfl, rfl⟩ | ⟨c, rfl, rfl⟩
      · obtain ⟨A, B, o1, h2, h3, rfl⟩ := ih (t1 := c) rfl (by
          by_cases hc : c = []
          · exact .inl hc
          · refine .inr ?_
            rw [List.map_append, List.getLast?_append] at h1
            cases hcl : (c.map Prod.fst).getLast? with
            | none => simp at hcl; exact (hc hcl).elim
            | some z => rw [hcl] at h1; simpa using h1)
        refine ⟨op :: A, B, o1, .insn h h2, ?_, rfl⟩
        rw [List.length_cons, Nat.add_comm A.length, ← Nat.add_assoc]
        exact h3
      · obtain ⟨ks, h2, h3⟩ := instr_semicolon h
        obtain ⟨ys, hy⟩ : ∃ ys, t1.map Prod.fst = ys ++ [.semicolon] := by
          obtain ⟨ys, hy⟩ := List.getLast?_eq_some_iff.1 h1
          exact ⟨ys, hy⟩
        have hc : c = [] := by
          rw [List.map_append, hy] at h2
          cases hcl : c.map Prod.fst with
          | nil => simpa using hcl
          | cons z zs =>
            rw [hcl] at h2
            have h4 : ks = ys ++ .semicolon :: (z :: zs).dropLast := by
              have := congrArg List.dropLast h2
              rw [List.dropLast_concat] at this
              rw [← this]
              simp [List.dropLast_append_of_ne_nil]
            exact (h3 (by rw [h4]; simp)).elim
        subst hc
        rw [List.append_nil] at h
        exact ⟨[op], ops, o, by simpa using Program.insn h .done, by simpa using hr, rfl⟩
  | @option i o o1 o' t next ts rest ops h hl hr ih =>
    by_cases hn : t1 = []
    · subst hn
      obtain rfl : t :: ts ++ next :: rest = t2 := by simpa using ht
      exact ⟨[], _, _, .done, .option h hl hr, rfl⟩
    · have h1 : (t1.map Prod.fst).getLast? = some .semicolon := h1.resolve_left hn
      rcases List.append_eq_append_iff.1 ht with ⟨c, rfl, h2⟩ | ⟨c, h2, rfl⟩
      · cases c with
        | nil =>
          rw [List.append_nil] at h1
          have := List.mem_of_getLast? h1
          obtain ⟨z, hz, hz1⟩ := List.mem_map.1 this
          exact (option_no_semicolon h z hz hz1).elim
        | cons z zs =>
          obtain ⟨A, B, o2, h3, h4, rfl⟩ := ih (t1 := z :: zs) h2 (by
            refine .inr ?_
            rw [List.map_append, List.getLast?_append] at h1
            cases hcl : ((z :: zs).map Prod.fst).getLast? with
            | none => simp at hcl
            | some z => rw [hcl] at h1; simpa using h1)
          rw [List.cons_append, List.cons.injEq] at h2
          obtain ⟨rfl, -⟩ := h2
          exact ⟨A, B, o2, .option h hl h3, h4, rfl⟩
      · have := List.mem_of_getLast? h1
        obtain ⟨z, hz, hz1⟩ := List.mem_map.1 this
        exact (option_no_semicolon h z (by rw [h2]; simp [hz]) hz1).elim

end Nxas
