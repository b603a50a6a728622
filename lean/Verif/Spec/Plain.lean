import Verif.Spec.Synonyms
/-
Instructions without the combinations of operands that other operands encode as well.
-/

namespace Nxas.Spec

open Nxas

/-- An operand that says something about the signs of the terms of a sum. -/
def isSign : Operand → Bool
  | .po _ _ | .neg _ => true
  | .flag s _ => s = c!".NEG"
  | _ => false

/-- The instruction makes use of none of these, with which other instructions have the same word:
    - two of `.PO`, the minus signs and `.NEG`, in a row that has `.PO`;
    - a lone dot for the format of an operand or the comparison of `VSETP`;
    - the upper half (`.B2` or `.B3`) of an operand of 32 bits;
    - the number 0x100000 next to a register at bit 39;
    - `.BA` after a `.D` that sets the same bit;
    - `.LL` with the types `3D` and `ARRAY_2D` of `TLDS`. -/
structure Plain (os : List Operand) (args : List (List Kind)) : Prop where
  sign : (∃ a b, Operand.po a b ∈ os) → ∀ {j j' : Nat} {o o' : Operand} {ks ks' : List Kind}, j ≠ j' →
    os[j]? = some o → os[j']? = some o' → isSign o = true → isSign o' = true →
    args[j]? = some ks → args[j']? = some ks' → ks = [] ∨ ks' = []
  format : ∀ {j j' a b c short : Nat} {x y : List Str} {ks ks' : List Kind},
    os[j]? = some (.srcFormat a c) → os[j']? = some (.selector b a short x y) →
    args[j]? = some ks → args[j']? = some ks' →
    ks ≠ [.ident c!"."] ∧ (meant [.ident c!".S32"] ks ∈ [[.ident c!".S32"], [.ident c!".U32"]] →
      ks' ∉ [[Kind.ident c!".B2"], [.ident c!".B3"]])
  compare : ∀ {j a b : Nat} {t : List Str}, os[j]? = some (.dotTable none a t) → Operand.bop b ∈ os →
    args[j]? ≠ some [.ident c!"."]
  extended : ∀ {j : Nat}, os[j]? = some .uimmExtended → Operand.gpr 39 ∈ os → args[j]? ≠ some [.imm 0x100000]
  bytes : ∀ {j a : Nat} {pre post : List (BitVec 64)}, os[j]? = some (.flag c!".BA" a) →
    Operand.expect c!".D" pre post ∈ os → field a 1 ∈ pre ++ post → args[j]? ≠ some [.ident c!".BA"]
  level : ∀ {j a : Nat} {s : Str}, os[j]? = some (.tldsType a) → args[j]? = some [.ident s] →
    s ∈ [c!"3D", c!"ARRAY_2D"] → [.ident c!".LL"] ∉ args

end Nxas.Spec
