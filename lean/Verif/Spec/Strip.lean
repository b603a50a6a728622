import Verif.Spec.Arrange
/-
Sources and images without reuse flags.
-/

namespace Nxas.Spec

open Nxas

/-- The tokens without `.reuse`. -/
def unmarked (ks : List Kind) : List Kind := ks.filter (· != .ident c!".reuse")

/-- The bits of a control word that hold reuse flags: 17 to 20 of each of its three parts of 21 bits. -/
def flagBits : BitVec 64 := BitVec.ofNat 64 (15 * 2 ^ 17 + 15 * 2 ^ 38 + 15 * 2 ^ 59)

/-- The words with code from index `k` on without reuse flags. Every fourth word is a control word. -/
def unflagged (k : Nat) (ws : List (BitVec 64)) : List (BitVec 64) :=
  ws.mapIdx fun j w => if k ≤ j ∧ j % 4 = 0 then w &&& ~~~flagBits else w

end Nxas.Spec
