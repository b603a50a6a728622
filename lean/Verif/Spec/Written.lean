import Verif.Spec.Lexical
import Verif.Spec.Text
/-
Which tokens can be written, and in which lines they can stand.
-/

namespace Nxas.Spec

open Nxas

/-- The tokens that some text stands for: names as the lexical grammar has them, registers up to `RZ`, predicates up
    to `PT`, integers of 64 bits, all binary32 numbers that are not NaN, and operators. -/
def Writable : Kind → Prop
  | .none => False
  | .ident s => Word s [] ∧ s.getLast? ≠ some ':' ∧ '\x00' ∉ s
  | .reg n => n ≤ 255
  | .pred i _ => i ≤ 7
  | .imm v => -(2 ^ 63) ≤ v ∧ v < 2 ^ 63
  | .fimm b => b.toNat % 2 ^ 31 ≤ 0x7F800000
  | _ => True

/-- The number of line ends in a token.  Only names can have one, after an initial `P`. -/
def height : Kind → Nat
  | .ident s => lineAfter s
  | _ => 0

/-- Tokens that can be written, in lines that do not decrease, from line `l` on. -/
def Written : Nat → List (Kind × Nat) → Prop
  | _, [] => True
  | l, t :: ts => l ≤ t.2 ∧ Writable t.1 ∧ Written (t.2 + height t.1) ts

/-! ### Sources with labels -/

/-- A source, laid out: tokens and definitions of labels, with their lines. -/
inductive Item
  | token (k : Kind) (l : Nat)
  | label (name : Str) (l : Nat)
  deriving DecidableEq, Repr

/-- No name in the token has a line end or a semicolon in it. -/
def Tidy : Kind → Prop
  | .ident s => '\n' ∉ s ∧ ';' ∉ s
  | _ => True

/-- The items can be written: every definition of a label is in a line that begins there, and the names of labels are
    not taken for anything else. -/
def Laid : Nat → List Item → Prop
  | _, [] => True
  | l, .token k l' :: r => l ≤ l' ∧ Writable k ∧ Tidy k ∧ Laid l' r
  | l, .label name l' :: r => l < l' ∧ IsName name ∧ Word (name ++ [':']) [] ∧ Laid l' r

/-- The tokens among the items. -/
def tokensOf : List Item → List (Kind × Nat)
  | [] => []
  | .token k l :: r => (k, l) :: tokensOf r
  | .label _ _ :: r => tokensOf r

/-- The address of a label after `i` instructions: that of the next instruction, at its first definition. -/
def labelAt (i : Nat) : List Item → Str → Option Nat
  | [], _ => none
  | .token k _ :: r, name => labelAt (if k = .semicolon then i + 1 else i) r name
  | .label n _ :: r, name => if n = name then some (addressOf i) else labelAt i r name

end Nxas.Spec
