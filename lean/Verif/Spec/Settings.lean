import Verif.Spec.Source
/-
What the tokens of a source say about the settings of the program, without following the structure of the
source.
-/

namespace Nxas.Spec

open Nxas

/-- The two options that declare the type of the program; does the option ask for a DKSH container? -/
def declarators : List (Str × Bool) := [(c!".type", false), (c!".dksh", true)]

/-- A token that declares the type of the program. -/
def IsDeclarator (k : Kind) : Prop := ∃ d dk, (d, dk) ∈ declarators ∧ k = .ident d

/-- Exactly one token declares the type of the program; the name of the type follows in the same line. -/
def Declares (ts : List (Kind × Nat)) (p : ProgType) (dk : Bool) : Prop :=
  ∃ pre d l w post, ts = pre ++ (.ident d, l) :: (.ident w, l) :: post ∧ (d, dk) ∈ declarators ∧ (w, p) ∈ typeNames ∧
    ∀ t ∈ pre ++ post, ¬ IsDeclarator t.1

/-- What follows the last occurrence of a word. -/
def behind (n : Str) : List (Kind × Nat) → Option (List Kind)
  | [] => none
  | t :: ts =>
    match behind n ts with
    | some ks => some ks
    | none => if t.1 = .ident n then some (ts.map Prod.fst) else none

/-- The number that follows the last occurrence of a word, 0 if there is none. -/
def lastSize (n : Str) (ts : List (Kind × Nat)) : BitVec 32 :=
  match behind n ts with
  | some (.imm v :: _) => BitVec.ofInt 32 v
  | _ => 0

/-- The three numbers that follow the last occurrence of `.workgroup_size`, 1 1 1 if there are none. -/
def lastDims (ts : List (Kind × Nat)) : BitVec 32 × BitVec 32 × BitVec 32 :=
  match behind c!".workgroup_size" ts with
  | some (.imm x :: .imm y :: .imm z :: _) => (BitVec.ofInt 32 x, BitVec.ofInt 32 y, BitVec.ofInt 32 z)
  | _ => (1, 1, 1)

end Nxas.Spec
