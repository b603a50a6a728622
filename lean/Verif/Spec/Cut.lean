/-
Specification for C112: words without the zeros at their end.
-/

namespace Nxas

/-- The words without the zeros at their end. -/
def Spec.trimmed (ws : List (BitVec 64)) : List (BitVec 64) := (ws.reverse.dropWhile (· == 0)).reverse

end Nxas
