import Mathlib.Algebra.Order.Field.Rat
import Mathlib.Algebra.Order.Field.Power
import Mathlib.Tactic.Linarith
/-
IEEE 754 binary formats, as far as they are needed to say what rounding to nearest is.  Nothing of the model is
used here.
-/

namespace Nxas.Spec

/-- The magnitude of the pattern `n` (without sign bit) in the format with `p` stored mantissa bits and the exponent
    bias `bias`.  The pattern of infinity gets the power of two that follows the largest finite number. -/
def magnitude (p bias n : Nat) : ℚ :=
  if n / 2 ^ p = 0 then (n % 2 ^ p : Nat) * 2 ^ (1 - (bias : ℤ) - p)
  else (2 ^ p + n % 2 ^ p : Nat) * 2 ^ ((n / 2 ^ p : Nat) - (bias : ℤ) - p)

/-- The pattern `n` is the one nearest to `x` among the patterns up to `inf`, and even if there are two of them.
    (The pattern `inf` is even, so a number halfway between the largest finite number and the next power of two
    becomes infinity, as IEEE 754 demands.) -/
def Nearest (p bias inf : Nat) (x : ℚ) (n : Nat) : Prop :=
  n ≤ inf ∧ ∀ k ≤ inf, |magnitude p bias n - x| ≤ |magnitude p bias k - x| ∧
    (k ≠ n → |magnitude p bias k - x| = |magnitude p bias n - x| → n % 2 = 0)

/-- binary16. -/
abbrev Nearest16 := Nearest 10 15 0x7C00
/-- binary32. -/
abbrev Nearest32 := Nearest 23 127 0x7F800000
/-- binary64. -/
abbrev Nearest64 := Nearest 52 1023 0x7FF0000000000000

end Nxas.Spec
