import Verif.Spec.Source
/-
Where an instruction is in the code, and what it means that two codes differ in one instruction only.
-/

namespace Nxas.Spec

open Nxas

/-- The index of the word of instruction `k`: every group of three instructions begins with a control word. -/
def wordIndex (k : Nat) : Nat := k + k / 3 + 1

/-- The index of the control word of instruction `k`. -/
def controlIndex (k : Nat) : Nat := 4 * (k / 3)

/-- Bit `p` of the control word belongs to instruction `k`. -/
def ofSlot (k p : Nat) : Prop := 21 * (k % 3) ≤ p ∧ p < 21 * (k % 3) + 21

/-- The codes differ at most in the word of instruction `k` and in its 21 bits of the control word. -/
structure SameElsewhere (k : Nat) (a b : List (BitVec 64)) : Prop where
  length : a.length = b.length
  words : ∀ j, j ≠ wordIndex k → j ≠ controlIndex k → a[j]? = b[j]?
  control : ∃ x y, a[controlIndex k]? = some x ∧ b[controlIndex k]? = some y ∧ ∀ p, ¬ ofSlot k p → x.getLsbD p = y.getLsbD p

/-- The codes differ at most in the guard of instruction `k`, bits 16 to 19 of its word; in `b` it is `g`. -/
structure GuardChanged (k : Nat) (g : BitVec 4) (a b : List (BitVec 64)) : Prop where
  length : a.length = b.length
  words : ∀ j, j ≠ wordIndex k → a[j]? = b[j]?
  word : ∃ x y, a[wordIndex k]? = some x ∧ b[wordIndex k]? = some y ∧ y.extractLsb' 16 4 = g ∧
    ∀ p, ¬ (16 ≤ p ∧ p < 20) → x.getLsbD p = y.getLsbD p

/-- The codes differ at most in the scheduling of instruction `k`, 17 bits of its control word; in `b` they are `s`. -/
structure SchedChanged (k : Nat) (s : BitVec 17) (a b : List (BitVec 64)) : Prop where
  length : a.length = b.length
  words : ∀ j, j ≠ controlIndex k → a[j]? = b[j]?
  control : ∃ x y, a[controlIndex k]? = some x ∧ b[controlIndex k]? = some y ∧ y.extractLsb' (21 * (k % 3)) 17 = s ∧
    ∀ p, ¬ (21 * (k % 3) ≤ p ∧ p < 21 * (k % 3) + 17) → x.getLsbD p = y.getLsbD p

/-- The tokens end with an instruction, or there are none. -/
def Whole (ts : List (Kind × Nat)) : Prop := ts = [] ∨ (ts.map Prod.fst).getLast? = some .semicolon

/-- The number of instructions of the tokens. -/
def instructions (ts : List (Kind × Nat)) : Nat := (ts.map Prod.fst).count .semicolon

end Nxas.Spec
