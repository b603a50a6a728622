import Verif.Model.Basic
/-
Specification vocabulary about source text: lines, label definitions, addresses.
Independent of the model's lexer: only character classes of `Basic` and lists.
-/

namespace Nxas.Spec

open Nxas

/-- What the assembler sees of a source: the characters before the first NUL. -/
def visible (t : Str) : Str := t.takeWhile (· ≠ '\x00')

/-- Characters that always end a token: blanks, the dot and the operators. -/
def separators : Str :=
  [' ', '\t', '\r', '\n', '.', '+', '-', '~', '|', '[', ']', '@', ',', ';']

/-- Empty, or the last character is a separator. -/
def EndsInSeparator (t : Str) : Prop := ∀ c, t.getLast? = some c → c ∈ separators

/-- Line number, from 0, of the character that follows `pre`. -/
def lineAfter (pre : Str) : Nat := pre.count '\n'

/-- Column, from 0, of the character that follows `pre`: characters since the last new
    line, where a tab counts for four. -/
def columnAfter (pre : Str) : Nat :=
  ((pre.reverse.takeWhile (· ≠ '\n')).map (fun c => if c = '\t' then 4 else 1)).sum

/-- `pre` ends at the beginning of a line: it is empty or ends in a new line. -/
def AtLineStart (pre : Str) : Prop := pre = [] ∨ pre.getLast? = some '\n'

/-- A letter. -/
def letter (c : Char) : Prop := ('a' ≤ c ∧ c ≤ 'z') ∨ ('A' ≤ c ∧ c ≤ 'Z')

/-- A letter, a digit or an underscore. -/
def wordChar (c : Char) : Prop := letter c ∨ ('0' ≤ c ∧ c ≤ '9') ∨ c = '_'

/-- A name: a letter followed by letters, digits and underscores. -/
def IsName (w : Str) : Prop := (∃ c cs, w = c :: cs ∧ letter c) ∧ ∀ c ∈ w, wordChar c

/-- The text `t` has, after `pre`, a definition of the label `name`: at the beginning of a
    line, the name immediately followed by a colon. -/
def DefAt (t pre name : Str) : Prop :=
  AtLineStart pre ∧ IsName name ∧ ∃ rest, t = pre ++ name ++ ':' :: rest

/-- The first definition of `name` in `t` is after `pre`. -/
def FirstDef (t pre name : Str) : Prop :=
  DefAt t pre name ∧ ∀ pre', DefAt t pre' name → pre.length ≤ pre'.length

/-- The last line of the text is a bare word. -/
def LastLineIsWord (t : Str) : Prop := ∃ pre w, t = pre ++ w ∧ AtLineStart pre ∧ IsName w

/-- Byte address, in the emitted code, of the instruction with index `k`: every group of
    three instructions is preceded by a control word, all words have 8 bytes. -/
def addressOf (k : Nat) : Nat := 8 * (k + k / 3 + 1)

/-- Blanks and line ends. -/
def blanks : Str := [' ', '\t', '\r', '\n']

/-- A source that defines labels and contains nothing else: blanks, and names followed by
    a colon and then by a blank or the end.  Names that start with `RZ` are excluded: the
    assembler takes them for the register `RZ`. -/
inductive LabelsOnly : Str → Prop
  | nil : LabelsOnly []
  | blank {c : Char} {t : Str} (hc : c ∈ blanks) (ht : LabelsOnly t) : LabelsOnly (c :: t)
  | label {name t : Str} (hn : IsName name) (hz : ¬ c!"RZ" <+: name)
      (hs : ∀ c, t.head? = some c → c ∈ blanks) (ht : LabelsOnly t) : LabelsOnly (name ++ ':' :: t)

/-- A word that the lexer skips as a label: it ends in a colon and has no separator inside,
    except possibly its first character (a dot) or the character that follows an initial
    `P`, `p`, `!P` or `!p`. -/
inductive SkippedWord : Str → Prop
  | plain {c : Char} {w : Str} (hc : c ∉ separators ∨ c = '.') (hw : ∀ x ∈ w, x ∉ separators)
      (hl : (c :: w).getLast? = some ':') : SkippedWord (c :: w)
  | swallow {p : Str} {c : Char} {w : Str} (hp : p ∈ [c!"P", c!"p", c!"!P", c!"!p"])
      (hw : ∀ x ∈ w, x ∉ separators) (hl : (p ++ c :: w).getLast? = some ':') :
      SkippedWord (p ++ c :: w)

/-- A text that contains nothing but blanks and skipped words. -/
inductive OnlySkipped : Str → Prop
  | nil : OnlySkipped []
  | blank {c : Char} {t : Str} (hc : c ∈ blanks) (ht : OnlySkipped t) : OnlySkipped (c :: t)
  | word {w t : Str} (hw : SkippedWord w) (ht : OnlySkipped t) : OnlySkipped (w ++ t)

/-- What follows the last semicolon. -/
def afterLastSemicolon (t : Str) : Str := (t.reverse.takeWhile (· ≠ ';')).reverse

end Nxas.Spec
