import Verif.Spec.Clash
import Verif.Spec.Compose
/-
The instructions of a source as lists of tokens, and those of them on which an assertion fails wherever they are.
-/

namespace Nxas.Spec

open Nxas

/-- The number of values after the name of an option. -/
def optionValues (w : Str) : Nat :=
  if w = c!".workgroup_size" then 3
  else if w = c!".dksh" ∨ w = c!".type" ∨ w = c!".shared_memory" ∨ w = c!".local_memory" then 1
  else 0

/-- `Splits ks us`: the tokens `ks` are options, which are left out, and the instructions `us`.  An instruction goes
    up to the next semicolon. -/
inductive Splits : List Kind → List (List Kind) → Prop
  | done : Splits [] []
  | insn {k : Kind} {u rest : List Kind} {us : List (List Kind)} (hk : ¬ IsOptionWord k) (hs : .semicolon ∉ k :: u) (h : Splits rest us) :
      Splits (k :: u ++ .semicolon :: rest) ((k :: u ++ [.semicolon]) :: us)
  | option {w : Str} {vs rest : List Kind} {us : List (List Kind)} (hw : w.head? = some '.') (hv : vs.length = optionValues w)
      (h : Splits rest us) : Splits (.ident w :: vs ++ rest) us

/-- The first tokens of the instruction make two of its parts set the same bit. -/
def Unsound (u : List Kind) : Prop := ∃ e ks, ks <+: u ∧ InsnClash e ks

end Nxas.Spec
