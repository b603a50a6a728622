import Verif.Spec.Locality
/-
How the hardware goes through the code: the addresses of the instructions, the one executed next, and the target of a branch.
-/

namespace Nxas.Spec

open Nxas

/-- The address in the code of instruction `k`. -/
def place (k : Nat) : Nat := 8 * wordIndex k

/-- The address of the instruction behind the one at address `a`: the control words, at the multiples of 32, are passed over. -/
def successor (a : Nat) : Nat := if (a + 8) % 32 = 0 then a + 16 else a + 8

/-- A field of the word, as a signed number. -/
def displacement (w : BitVec 64) : Int := (w.extractLsb' 20 24).toInt

/-- The target of the branch `w` at address `a`: the distance counts from the end of the branch. -/
def branchTarget (a : Nat) (w : BitVec 64) : Int := a + 8 + displacement w

end Nxas.Spec
