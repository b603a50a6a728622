import Verif.Lemmas.Decode
import Verif.Lemmas.Distinct
import Verif.Spec.Fixed
/-
Which bits are set in some, and which in all of the instructions of a list.
-/

namespace Nxas

open Spec

/-- The word and the reuse flags as one number. -/
def Op.mask (o : Op) : Nat := o.value.toNat ||| (o.reuse.toNat <<< 64)

theorem Op.testBit_mask (o : Op) (i : Nat) : o.mask.testBit i = o.bit i := by
  unfold Op.mask Op.bit
  rw [Nat.testBit_or, Nat.testBit_shiftLeft, BitVec.testBit_toNat, BitVec.testBit_toNat]
  split
  · rename_i h
    simp [show ¬ 64 ≤ i by omega]
  · rename_i h
    rw [BitVec.getLsbD_of_ge o.value i (by omega)]
    simp [show 64 ≤ i by omega]

/-- The bits set in some and in all of the sources, which are all encoded by row `n`. -/
def cover (n : Nat) : List Str → Option (Nat × Nat)
  | [] => some (0, 2 ^ 67 - 1)
  | t :: ts =>
    match instrRow true t 0 with
    | some (m, op) =>
      match cover n ts with
      | some (a, b) => if m = n then some (a ||| op.mask, b &&& op.mask) else none
      | none => none
    | none => none

theorem cover_spec {n : Nat} {l : List Str} {a b : Nat} (h : cover n l = some (a, b)) (i : Nat) :
    (a.testBit i = true → ∃ t op, instrRow true t 0 = some (n, op) ∧ op.bit i = true) ∧
    (i < 67 → b.testBit i = false → ∃ t op, instrRow true t 0 = some (n, op) ∧ op.bit i = false) := by
  induction l generalizing a b with
  | nil =>
    simp only [cover, Option.some.injEq, Prod.mk.injEq] at h
    obtain ⟨rfl, rfl⟩ := h
    refine ⟨by simp, fun hi hb => ?_⟩
    rw [Nat.testBit_two_pow_sub_one] at hb
    simp [hi] at hb
  | cons t ts ih =>
    unfold cover at h
    split at h
    · rename_i m op hrow
      split at h
      · rename_i a' b' hc
        split at h
        · rename_i hm
          subst hm
          simp only [Option.some.injEq, Prod.mk.injEq] at h
          obtain ⟨rfl, rfl⟩ := h
          obtain ⟨h1, h2⟩ := ih hc
          constructor
          · intro hb
            rw [Nat.testBit_or, Op.testBit_mask] at hb
            cases ho : op.bit i with
            | true => exact ⟨t, op, hrow, ho⟩
            | false => rw [ho, Bool.or_false] at hb; exact h1 hb
          · intro hi hb
            rw [Nat.testBit_and, Op.testBit_mask] at hb
            cases ho : op.bit i with
            | false => exact ⟨t, op, hrow, ho⟩
            | true => rw [ho, Bool.and_true] at hb; exact h2 hi hb
        · cases h
      · cases h
    · cases h

/-- `maySet` as a number. -/
def Insn.mayMask (row : Insn) : Nat := row.opcode.toNat ||| row.ownMask

theorem Insn.testBit_mayMask {row : Insn} {i : Nat} : row.mayMask.testBit i = true ↔ row.maySet i := by
  unfold Insn.mayMask Insn.maySet
  rw [Nat.testBit_or, Bool.or_eq_true, BitVec.testBit_toNat, testBit_ownMask]

/-- `alwaysSet` as a number. -/
def Insn.alwaysMask (row : Insn) : Nat :=
  row.opcode.toNat ||| ((if row.flags % 2 = 1 then 7 <<< 16 else 0) ||| fieldMask (row.operands.flatMap Operand.fixed))

theorem Insn.testBit_alwaysMask {row : Insn} {i : Nat} : row.alwaysMask.testBit i = true ↔ row.alwaysSet i := by
  unfold Insn.alwaysMask Insn.alwaysSet
  rw [Nat.testBit_or, Bool.or_eq_true, BitVec.testBit_toNat, Nat.testBit_or, Bool.or_eq_true, testBit_fieldMask]
  refine or_congr_right (or_congr ?_ ?_)
  · split
    · rename_i h
      rw [show (7 : Nat) = 2 ^ 3 - 1 from rfl, Nat.testBit_shiftLeft, Nat.testBit_two_pow_sub_one]
      simp only [Bool.and_eq_true, decide_eq_true_eq, h, true_and]
      omega
    · rename_i h
      simp [h]
  · unfold inF
    simp only [List.mem_flatMap]
    constructor
    · rintro ⟨f, ⟨o, ho, hf⟩, hi⟩; exact ⟨o, ho, f, hf, hi⟩
    · rintro ⟨o, ho, f, hf, hi⟩; exact ⟨f, ⟨o, ho, hf⟩, hi⟩

/-- The sources of the lists are encoded by the rows from `n` on, and they use all bits. -/
def covers (n : Nat) (l : List (List Str)) : Bool :=
  (l.zipIdx n).all fun x =>
    match insnTable[x.2]? with
    | some row => cover x.2 x.1 == some (row.mayMask, row.alwaysMask)
    | none => false

theorem covers_append {n m : Nat} {l l' : List (List Str)} (h : covers n l = true) (hm : m = l.length + n) (h' : covers m l' = true) :
    covers n (l ++ l') = true := by
  subst hm
  unfold covers at *
  rw [List.zipIdx_append, List.all_append, h, Nat.add_comm n, h']
  rfl

end Nxas
