import Verif.Spec.Arrange
/-
Ways to write an instruction.
-/

namespace Nxas.Spec

open Nxas

/-- `Spelled u u'`: the same instruction with `@PT` written or left out, and the same annotations in any order, with `@WAIT 0` written or left out and
    `@Y` or `@YIELD`. -/
inductive Spelled : List Kind → List Kind → Prop
  | mk {g g' : Option (Nat × Bool)} {m : Str} {ks x y : List Kind} {as as' : List Annot} (hg : g.getD (7, false) = g'.getD (7, false))
      (hk : .at ∉ ks ∧ .semicolon ∉ ks) (hx : AnnotsText as x) (hy : AnnotsText as' y) (ha : ∀ n, n ≠ .wait 0 → (n ∈ as ↔ n ∈ as')) :
      Spelled (guardTokens g ++ .ident m :: (ks ++ x ++ [.semicolon])) (guardTokens g' ++ .ident m :: (ks ++ y ++ [.semicolon]))

end Nxas.Spec
