import Verif.Spec.Source
/-
Notions for sources put together: options, labels and branches with a number, as seen in the tokens.
-/

namespace Nxas.Spec

open Nxas

/-- A word that starts an option. -/
def IsOptionWord (k : Kind) : Prop := ∃ w, k = .ident w ∧ w.head? = some '.'

/-- No option: no word with a dot at the beginning of the source or after a semicolon. -/
def OptionFree (ks : List Kind) : Prop :=
  ∀ pre k post, ks = pre ++ k :: post → pre = [] ∨ pre.getLast? = some .semicolon → ¬ IsOptionWord k

/-- No line of the text starts with the definition of a label. -/
def LabelFree (t : Str) : Prop := ∀ pre name, ¬ DefAt t pre name

/-- The mnemonics of the instructions that have a target. -/
def branches : List Str := [c!"BRA", c!"PBK", c!"SSY", c!"CAL", c!"PCNT"]

/-- Somewhere, the mnemonic of a branch is followed by a number, before the end of its operands. -/
def NumericBranch (ks : List Kind) : Prop :=
  ∃ pre m post x, ks = pre ++ .ident m :: post ∧ m ∈ branches ∧ .imm x ∈ post.takeWhile (fun k => k ≠ .at && k ≠ .semicolon)

end Nxas.Spec
