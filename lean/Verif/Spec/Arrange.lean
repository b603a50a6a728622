import Verif.Spec.Solid
/-
Sources with options, and how they can be arranged.
-/

namespace Nxas.Spec

open Nxas

/-- `Listed ks us os`: the tokens `ks` are the instructions `us` and the options `os`, both in the order of the source. -/
inductive Listed : List Kind → List (List Kind) → List (List Kind) → Prop
  | done : Listed [] [] []
  | insn {k : Kind} {u rest : List Kind} {us os : List (List Kind)} (hk : ¬ IsOptionWord k) (hs : .semicolon ∉ k :: u) (h : Listed rest us os) :
      Listed (k :: u ++ .semicolon :: rest) ((k :: u ++ [.semicolon]) :: us) os
  | option {w : Str} {vs rest : List Kind} {us os : List (List Kind)} (hw : w.head? = some '.') (hv : vs.length = optionValues w)
      (h : Listed rest us os) : Listed (.ident w :: vs ++ rest) us ((.ident w :: vs) :: os)

/-- The same for tokens with their lines, every option being in a line of its own, which is not the last one. -/
inductive Neat : List (Kind × Nat) → List (List Kind) → List (List Kind) → Prop
  | done : Neat [] [] []
  | insn {ts rest : List (Kind × Nat)} {us os : List (List Kind)} (h : Neat rest us os) : Neat (ts ++ rest) (ts.map Prod.fst :: us) os
  | option {v : List Kind} {l : Nat} {next : Kind × Nat} {rest : List (Kind × Nat)} {us os : List (List Kind)} (hl : next.2 ≠ l)
      (h : Neat (next :: rest) us os) : Neat (v.map (·, l) ++ next :: rest) us (v :: os)

/-- The options with this name. -/
def named (w : Str) (os : List (List Kind)) : List (List Kind) := os.filter fun v => v.head? = some (.ident w)

/-- The options that declare the type of the program. -/
def declarations (os : List (List Kind)) : List (List Kind) :=
  os.filter fun v => v.head? = some (.ident c!".dksh") ∨ v.head? = some (.ident c!".type")

/-- The options `os'` are some of the options `os`, in any order and any of them more than once, but the program type is declared as often, and the last
    size of each kind is the same. -/
structure Rearranged (os os' : List (List Kind)) : Prop where
  sub : ∀ v ∈ os', v ∈ os
  type : declarations os' = declarations os
  last : ∀ w ∈ [c!".workgroup_size", c!".shared_memory", c!".local_memory"], (named w os').getLast? = (named w os).getLast?

end Nxas.Spec
