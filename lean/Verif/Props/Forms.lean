import Verif.Spec.Forms
import Verif.Lemmas.Args
import Verif.Lemmas.Distinct
/-
C69: the forms of an instruction.
-/

namespace Nxas

open Spec

/-! ### The check of the table -/

def replacedB (f : Operand → Operand → Bool) : List Operand → List Operand → Bool
  | x :: xs, y :: ys => (x == y && replacedB f xs ys) || (f x y && xs == ys)
  | _, _ => false

theorem replacedB_of {f : Operand → Operand → Bool} {os os' : List Operand} (h : replaced f os os') : replacedB f os os' = true := by
  obtain ⟨pre, post, x, y, rfl, rfl, hf⟩ := h
  induction pre with
  | nil => simp [replacedB, hf]
  | cons z pre ih => simp [replacedB, ih]

def thirdB : List Operand → List Operand → Bool
  | x :: xs, y :: ys => (x == y && thirdB xs ys) || (x == .gpr 20 && y == .gpr 39 &&
      replacedB (fun x y => x == .gpr 39 && y == .cbuf) xs ys)
  | _, _ => false

theorem thirdB_of {os os' : List Operand} (h : Form.third.operands os os') : thirdB os os' = true := by
  obtain ⟨pre, mid, post, rfl, rfl⟩ := h
  induction pre with
  | nil =>
    have := replacedB_of (f := fun x y => x == .gpr 39 && y == .cbuf) ⟨mid, post, .gpr 39, .cbuf, rfl, rfl, rfl⟩
    simp [thirdB, this]
  | cons z pre ih => simp [thirdB, ih]

def formB : Form → List Operand → List Operand → Bool
  | .constant => replacedB constantFor
  | .immediate => replacedB immediateFor
  | .third => thirdB

theorem formB_of {f : Form} {os os' : List Operand} (h : f.operands os os') : formB f os os' = true := by
  cases f with
  | constant => exact replacedB_of h
  | immediate => exact replacedB_of h
  | third => exact thirdB_of h

/-- The rows of a form agree with those of registers, and the upper eight bits of the latter are fixed. -/
theorem table_forms : ∀ a ∈ insnTable, ∀ b ∈ insnTable.filter (·.mnemonic == a.mnemonic), a.mnemonic ≠ c!"ICMP" →
    ∀ f ∈ [Form.constant, .third, .immediate], formB f a.operands b.operands = true →
      f.word a.opcode = b.opcode ∧ a.opcode.extractLsb' 59 5 = 0b01011#5 ∧
      a.operands.all (fun o => o.fields.all (Field.apart (56, 8))) = true := by decide +kernel

theorem Form.mem (f : Form) : f ∈ [Form.constant, .third, .immediate] := by cases f <;> simp

/-- Missing: `ICMP`, for which it is false. -/
theorem C69_rows_partial {a b : Insn} (ha : a ∈ insnTable) (hb : b ∈ insnTable) (hi : a.mnemonic ≠ c!"ICMP") : Regular a b := by
  intro hm f hf
  exact (table_forms a ha b (List.mem_filter.2 ⟨hb, by simp [hm]⟩) hi f (Form.mem f) (formB_of hf)).1

/-- A bit of a form depends on this bit and on bits 56 to 58. -/
theorem Form.word_congr {f : Form} {w w' : BitVec 64} {p : Nat} (h : w.getLsbD p = w'.getLsbD p)
    (h' : ∀ q, 56 ≤ q → q < 59 → w.getLsbD q = w'.getLsbD q) : (f.word w).getLsbD p = (f.word w').getLsbD p := by
  cases f with
  | constant => simp only [Form.word, BitVec.getLsbD_and, h]
  | third => simp only [Form.word, BitVec.getLsbD_and, h]
  | immediate =>
    simp only [Form.word, BitVec.getLsbD_or, BitVec.getLsbD_and, h, BitVec.getLsbD_shiftLeft, BitVec.getLsbD_ushiftRight]
    congr 1
    by_cases hp : p < 57
    · simp [hp]
    · by_cases hq : p - 57 < 3
      · rw [h' (56 + (p - 57)) (by omega) (by omega)]
      · have : (7#64).getLsbD (p - 57) = false := by
          have h7 : (7#64).getLsbD (p - 57) = Nat.testBit 7 (p - 57) := by
            rw [BitVec.getLsbD]; rfl
          rw [h7]
          apply Nat.testBit_lt_two_pow
          calc 7 < 2 ^ 3 := by omega
            _ ≤ 2 ^ (p - 57) := Nat.pow_le_pow_right (by omega) (by omega)
        rw [show BitVec.getLsbD 7 (p - 57) = false from this]
        simp

/-- The bits of an accepted instruction that are not of its guard or operands. -/
theorem Instr.opcode_bit {dbg : Bool} {code : Str} {i : Nat} {row : Insn} {args : List (List Kind)} {op : Op}
    (h : Instr dbg code i row args op) {p : Nat} (hp : p < 64) (hg : ¬ (16 ≤ p ∧ p < 20)) (ho : ¬ row.owns p) :
    op.value.getLsbD p = row.opcode.getLsbD p := by
  obtain ⟨c, s, e, -, rfl, -, rfl⟩ := h
  have := e.bit_outside ho
  simp only [Op.bit, hp, if_true] at this
  rw [this]
  cases hc : (guardWord e.guard).getLsbD p with
  | false => simp
  | true => exact (hg (guardWord_in e.guardWf hc)).elim

/-- Two accepted instructions with the same mnemonic, one with registers and the other in another form: the bits that
    belong to no operand and not to the guard are those of the form.  Missing: `ICMP`, for which it is false. -/
theorem C69_words_partial {dbg dbg' : Bool} {code code' : Str} {i i' : Nat} {a b : Insn} {args args' : List (List Kind)}
    {op op' : Op} {f : Form} (h : Instr dbg code i a args op) (h' : Instr dbg' code' i' b args' op')
    (hi : a.mnemonic ≠ c!"ICMP") (hm : a.mnemonic = b.mnemonic) (hf : f.operands a.operands b.operands) {p : Nat}
    (hp : p < 64) (hg : ¬ (16 ≤ p ∧ p < 20)) (ha : ¬ a.owns p) (hb : ¬ b.owns p) :
    op'.value.getLsbD p = (f.word op.value).getLsbD p ∧ op.value.extractLsb' 59 5 = 0b01011#5 := by
  obtain ⟨h1, h2, h3⟩ := table_forms a h.mem b (List.mem_filter.2 ⟨h'.mem, by simp [hm]⟩) hi f (Form.mem f) (formB_of hf)
  have hup : ∀ q, 56 ≤ q → q < 64 → op.value.getLsbD q = a.opcode.getLsbD q := by
    intro q h4 h5
    refine h.opcode_bit h5 (by omega) ?_
    rintro ⟨o, ho, hin⟩
    exact not_inF_of_apart (fs := [(56, 8)]) (gs := o.fields) (by
      rw [List.all_cons, List.all_eq_true.1 h3 o ho]; rfl) ⟨_, List.mem_cons_self, h4, h5⟩ hin
  constructor
  · rw [h'.opcode_bit hp hg hb, ← h1]
    exact (Form.word_congr (h.opcode_bit hp hg ha) fun q h4 h5 => hup q h4 (by omega)).symm
  · rw [← h2]
    apply BitVec.eq_of_getLsbD_eq
    intro q hq
    rw [BitVec.getLsbD_extractLsb', BitVec.getLsbD_extractLsb', hup (59 + q) (by omega) (by omega)]

/-- The rows of `FADD` with a register and with a constant. -/
example : ∃ a ∈ insnTable, ∃ b ∈ insnTable, a.mnemonic = c!"FADD" ∧ b.mnemonic = c!"FADD" ∧
    Form.constant.operands a.operands b.operands := by
  have h : ∃ a ∈ insnTable, ∃ b ∈ insnTable, a.mnemonic = c!"FADD" ∧ b.mnemonic = c!"FADD" ∧ a.operands.take 10 = b.operands.take 10 ∧
    a.operands.drop 10 = [.abs 49 (.gpr 20)] ∧ b.operands.drop 10 = [.abs 49 .cbuf] := by decide +kernel
  obtain ⟨a, ha, b, hb, h1, h2, h3, h4, h5⟩ := h
  refine ⟨a, ha, b, hb, h1, h2, a.operands.take 10, [], _, _, ?_, ?_, (rfl : constantFor (.abs 49 (.gpr 20)) (.abs 49 .cbuf) = true)⟩
  · rw [← h4, List.take_append_drop]
  · rw [h3, ← h5, List.take_append_drop]
/-- Their words, and those with an immediate and with a constant as third source. -/
example : (instrRow true c!"FADD R0, R1, R2;" 0).map (·.2.value) = some 0x5c58000000270100 ∧
    (instrRow true c!"FADD R0, R1, c[0][8];" 0).map (·.2.value) = some 0x4c58000000270100 := by decide +kernel
example : Form.constant.word 0x5c58000000270100 = 0x4c58000000270100 ∧ Form.third.word 0x5980000000000000 = 0x5180000000000000 ∧
    Form.immediate.word 0x5b60000000000000 = 0x3660000000000000 := by decide

/-- C69 does not hold: `ICMP` with a constant as second source has the word of the form with a constant as third source. -/
theorem C69_violated : (¬ ∀ a ∈ insnTable, ∀ b ∈ insnTable, Regular a b) ∧
    ∃ a ∈ insnTable, ∃ b ∈ insnTable, a.mnemonic = b.mnemonic ∧ Form.constant.operands a.operands b.operands ∧
      b.opcode = Form.third.word a.opcode ∧ b.opcode ≠ Form.constant.word a.opcode := by
  have h : ∃ a ∈ insnTable, ∃ b ∈ insnTable, a.mnemonic = b.mnemonic ∧ a.operands.take 6 = b.operands.take 6 ∧
    a.operands.drop 7 = b.operands.drop 7 ∧ a.operands[6]? = some (.gpr 20) ∧ b.operands[6]? = some .cbuf ∧
    b.opcode = Form.third.word a.opcode ∧ b.opcode ≠ Form.constant.word a.opcode := by decide +kernel
  obtain ⟨a, ha, b, hb, h1, h2, h3, h4, h5, h6, h7⟩ := h
  have key : ∀ {l : List Operand} {x : Operand}, l[6]? = some x → l = l.take 6 ++ x :: l.drop 7 := by
    intro l x hx
    obtain ⟨hl, rfl⟩ := List.getElem?_eq_some_iff.1 hx
    rw [← List.drop_eq_getElem_cons hl, List.take_append_drop]
  have hs : Form.constant.operands a.operands b.operands :=
    ⟨a.operands.take 6, a.operands.drop 7, .gpr 20, .cbuf, key h4, by rw [h2, h3]; exact key h5, rfl⟩
  exact ⟨fun hr => h7 (hr a ha b hb h1 .constant hs).symm, a, ha, b, hb, h1, hs, h6, h7⟩

end Nxas
