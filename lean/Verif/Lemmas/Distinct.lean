import Verif.Lemmas.Readback

/-
The bits that no operand of a row can change, and rows that differ in such a bit.
-/

namespace Nxas

open Spec

/-- The bits of a list of fields, as a mask. -/
def fieldMask (fs : List Field) : Nat :=
  fs.foldl (fun m f => m ||| ((2 ^ f.2 - 1) <<< f.1)) 0

/-- The bits of the guard and of the operands of a row, as a mask. -/
def Insn.ownMask (row : Insn) : Nat :=
  row.operands.foldl (fun m o => m ||| fieldMask o.fields) (0xF <<< 16)

/-- The opcodes of two rows differ in a bit that neither the guard nor an operand of either row
    can change. -/
def Insn.differs (a b : Insn) : Bool :=
  decide ((a.opcode.toNat ^^^ b.opcode.toNat) ||| (a.ownMask ||| b.ownMask) ≠ a.ownMask ||| b.ownMask)

theorem testBit_fieldMask {fs : List Field} {p : Nat} : (fieldMask fs).testBit p = true ↔ inF fs p := by
  have key : ∀ (fs : List Field) (m : Nat),
      (fs.foldl (fun m f => m ||| ((2 ^ f.2 - 1) <<< f.1)) m).testBit p = true ↔ m.testBit p = true ∨ inF fs p := by
    intro fs
    induction fs with
    | nil => intro m; simp [inF]
    | cons f fs ih =>
      intro m
      rw [List.foldl_cons, ih]
      simp only [Nat.testBit_or, Bool.or_eq_true, Nat.testBit_shiftLeft, Nat.testBit_two_pow_sub_one, inF,
        Bool.and_eq_true, decide_eq_true_eq, List.mem_cons, exists_eq_or_imp]
      constructor
      · rintro ((h | h) | h)
        · exact .inl h
        · exact .inr (.inl (by omega))
        · exact .inr (.inr h)
      · rintro (h | h | h)
        · exact .inl (.inl h)
        · exact .inl (.inr (by omega))
        · exact .inr h
  rw [fieldMask, key]
  simp

theorem testBit_ownMask {row : Insn} {p : Nat} :
    row.ownMask.testBit p = true ↔ (16 ≤ p ∧ p < 20) ∨ row.owns p := by
  have key : ∀ (os : List Operand) (m : Nat),
      (os.foldl (fun m o => m ||| fieldMask o.fields) m).testBit p = true ↔
        m.testBit p = true ∨ ∃ o ∈ os, inF o.fields p := by
    intro os
    induction os with
    | nil => intro m; simp
    | cons o os ih =>
      intro m
      rw [List.foldl_cons, ih]
      simp only [Nat.testBit_or, Bool.or_eq_true, testBit_fieldMask, List.mem_cons, exists_eq_or_imp]
      grind
  rw [Insn.ownMask, key]
  simp only [Insn.owns]
  refine or_congr_left ?_
  rw [show (0xF : Nat) = 2 ^ 4 - 1 from rfl, Nat.testBit_shiftLeft, Nat.testBit_two_pow_sub_one]
  simp only [Bool.and_eq_true, decide_eq_true_eq]
  omega

theorem Insn.differs.bit {a b : Insn} (h : a.differs b = true) :
    ∃ p, ¬ (16 ≤ p ∧ p < 20) ∧ ¬ a.owns p ∧ ¬ b.owns p ∧ a.opcode.getLsbD p ≠ b.opcode.getLsbD p := by
  by_contra hc
  rw [Insn.differs, decide_eq_true_eq] at h
  apply h
  apply Nat.eq_of_testBit_eq
  intro p
  rw [Nat.testBit_or, Nat.testBit_xor]
  cases hm : (a.ownMask ||| b.ownMask).testBit p with
  | true => simp
  | false =>
    rw [Nat.testBit_or, Bool.or_eq_false_iff] at hm
    have h1 : ¬ ((16 ≤ p ∧ p < 20) ∨ a.owns p) := fun h => by simp [testBit_ownMask.2 h] at hm
    have h2 : ¬ ((16 ≤ p ∧ p < 20) ∨ b.owns p) := fun h => by simp [testBit_ownMask.2 h] at hm
    have : a.opcode.getLsbD p = b.opcode.getLsbD p := by
      by_contra hne
      exact hc ⟨p, fun h => h1 (.inl h), fun h => h1 (.inr h), fun h => h2 (.inr h), hne⟩
    rw [BitVec.testBit_toNat, BitVec.testBit_toNat, this]
    simp

theorem Encoding.fixed {dbg : Bool} {c : Ctx} {s : St} (e : Encoding dbg c s) {p : Nat} (hp : p < 64)
    (hg : ¬ (16 ≤ p ∧ p < 20)) (ho : ¬ e.row.owns p) : s.op.value.getLsbD p = e.row.opcode.getLsbD p := by
  have := e.bit_outside ho
  simp only [Op.bit, hp, if_true] at this
  rw [this]
  cases hw : (guardWord e.guard).getLsbD p with
  | false => simp
  | true => exact (hg (guardWord_in e.guardWf hw)).elim

/-- Instructions of rows that differ have different words. -/
theorem Encoding.differ {dbg dbg' : Bool} {c c' : Ctx} {s s' : St} (e : Encoding dbg c s) (e' : Encoding dbg' c' s')
    (hd : e.row.differs e'.row = true) : s.op.value ≠ s'.op.value := by
  obtain ⟨p, hg, h1, h2, hne⟩ := Insn.differs.bit hd
  intro heq
  by_cases hp : p < 64
  · apply hne
    rw [← e.fixed hp hg h1, ← e'.fixed hp hg h2, heq]
  · apply hne
    rw [BitVec.getLsbD_of_ge _ _ (by omega), BitVec.getLsbD_of_ge _ _ (by omega)]

theorem Instr.differ {dbg dbg' : Bool} {code code' : Str} {i i' : Nat} {row row' : Insn} {args args' : List (List Kind)}
    {op op' : Op} (h : Instr dbg code i row args op) (h' : Instr dbg' code' i' row' args' op')
    (hd : row.differs row' = true) : op.value ≠ op'.value := by
  obtain ⟨c, s, e, -, rfl, -, rfl⟩ := h
  obtain ⟨c', s', e', -, rfl, -, rfl⟩ := h'
  exact e.differ e' hd

/-- The row has the mnemonic that is written after the guard. -/
theorem Encoding.written {dbg : Bool} {c : Ctx} {s : St} (e : Encoding dbg c s) {g : Option (Nat × Bool)} {m : Str}
    {r : List Kind} {cur : Cur} (hr : Reads c.cur (guardTokens g ++ .ident m :: r) cur) (hm : m.head? ≠ some '.') :
    e.row.mnemonic = m := by
  have ho : e.optToks = [] := by
    have h1 : ∃ k ks, guardTokens g ++ .ident m :: r = k :: ks ∧ ∀ w, k = .ident w → w.head? ≠ some '.' := by
      rcases g with _ | ⟨p, n⟩
      · exact ⟨_, _, rfl, fun w h => by cases h; exact hm⟩
      · exact ⟨_, _, rfl, fun w h => by cases h⟩
    obtain ⟨k, ks, h1, h2⟩ := h1
    rw [h1] at hr
    obtain ⟨t, c1, ht, rfl, -⟩ := hr.head
    refine e.noOption t c1 ht ?_
    unfold Token.isOption
    split
    · rename_i w hw
      simpa using h2 w hw
    · rfl
  have h1 := e.reads
  rw [ho, List.nil_append] at h1
  rcases Nat.le_total (guardTokens g ++ .ident m :: r).length
      (guardTokens e.guard ++ (Kind.ident e.row.mnemonic :: (e.opToks ++ (e.annToks ++ [Kind.semicolon])))).length with hl | hl
  · obtain ⟨x, hx, -⟩ := hr.prefix h1 hl
    rcases g with _ | ⟨p, n⟩ <;> rcases hg : e.guard with _ | ⟨p', n'⟩ <;> rw [hg] at hx <;> simp [guardTokens] at hx
    · exact hx.1
    · exact hx.2.1
  · obtain ⟨x, hx, -⟩ := h1.prefix hr hl
    rcases g with _ | ⟨p, n⟩ <;> rcases hg : e.guard with _ | ⟨p', n'⟩ <;> rw [hg] at hx <;> simp [guardTokens] at hx
    · exact hx.1.symm
    · exact hx.2.1.symm

theorem Insn.differs_comm (a b : Insn) : a.differs b = b.differs a := by
  rw [Insn.differs, Insn.differs, Nat.xor_comm, Nat.or_comm a.ownMask]

theorem forall_pairs {α : Type} {R : α → α → Prop} (hs : ∀ a b, R a b → R b a) (hr : ∀ a, R a a) :
    ∀ {l : List α}, l.Pairwise R → ∀ a ∈ l, ∀ b ∈ l, R a b := by
  intro l h
  induction h with
  | nil => simp
  | cons h1 _ ih =>
    intro a ha b hb
    rcases List.mem_cons.1 ha with rfl | ha'
    · rcases List.mem_cons.1 hb with rfl | hb'
      · exact hr _
      · exact h1 _ hb'
    · rcases List.mem_cons.1 hb with rfl | hb'
      · exact hs _ _ (h1 _ ha')
      · exact ih a ha' b hb'

/-- Two rows that no fixed bit tells apart have the same mnemonic; if their operands are the same but
    for the order, they are the same row, except for `ICMP`. -/
theorem table_told : insnTable.Pairwise fun a b => a.differs b = true ∨
    a.mnemonic = b.mnemonic ∧ (a.operands.isPerm b.operands = true → a.mnemonic = c!"ICMP") := by
  decide +kernel

end Nxas
