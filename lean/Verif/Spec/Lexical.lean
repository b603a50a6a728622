import Verif.Model.Float
import Verif.Spec.Text
/-
The lexical grammar: which texts are tokens, and how a source is divided into tokens.  Independent of the
model's lexer; only the data types of `Basic` and the rounding function `f32OfRat` are shared.
-/

namespace Nxas.Spec

open Nxas

/-- A decimal digit. -/
def decimal (c : Char) : Prop := '0' ≤ c ∧ c ≤ '9'
/-- An octal digit. -/
def octal (c : Char) : Prop := '0' ≤ c ∧ c ≤ '7'
/-- A hexadecimal digit. -/
def hexadecimal (c : Char) : Prop := decimal c ∨ ('a' ≤ c ∧ c ≤ 'f') ∨ ('A' ≤ c ∧ c ≤ 'F')

/-- The value of a digit. -/
def digit (c : Char) : Nat :=
  if c ≤ '9' then c.toNat - 48 else if c ≤ 'F' then c.toNat - 55 else c.toNat - 87

/-- The number denoted by digits in base `b`. -/
def numeral (b : Nat) : Str → Nat
  | [] => 0
  | d :: ds => digit d * b ^ ds.length + numeral b ds

/-- The operators. -/
def operators : List (Char × Kind) :=
  [('+', .plus), ('-', .minus), ('~', .tilde), ('|', .vbar), ('[', .lbracket), (']', .rbracket), ('@', .at),
    (',', .comma), (';', .semicolon)]

/-- A token may end here. -/
def Ends (rest : Str) : Prop := ∀ c, rest.head? = some c → c ∈ separators

/-- An unsigned integer literal and its value: decimal, octal with a leading zero or hexadecimal. -/
inductive IntLit : Str → Nat → Prop
  | dec {d : Char} {ds : Str} (hd : decimal d) (h0 : d ≠ '0') (h : ∀ c ∈ ds, decimal c) : IntLit (d :: ds) (numeral 10 (d :: ds))
  | oct {ds : Str} (h : ∀ c ∈ ds, octal c) : IntLit ('0' :: ds) (numeral 8 ds)
  | hex {x : Char} {ds : Str} (hx : x = 'x' ∨ x = 'X') (hn : ds ≠ []) (h : ∀ c ∈ ds, hexadecimal c) :
      IntLit ('0' :: x :: ds) (numeral 16 ds)

/-- A sign: is it a minus? -/
inductive Sign : Str → Bool → Prop
  | none : Sign [] false
  | plus : Sign ['+'] false
  | minus : Sign ['-'] true

/-- The signed number; out of the 64-bit range the nearest number of the range. -/
def saturated (neg : Bool) (v : Nat) : Int :=
  if neg then max (-(2 ^ 63)) (-(v : Int)) else min (2 ^ 63 - 1) (v : Int)

/-- The letter of a predicate, negated or not. -/
inductive PredPrefix : Str → Bool → Prop
  | pos {p : Char} (h : p = 'P' ∨ p = 'p') : PredPrefix [p] false
  | neg {p : Char} (h : p = 'P' ∨ p = 'p') : PredPrefix ['!', p] true

/-- The name of a predicate after its letter. -/
inductive PredName : Char → Nat → Prop
  | true {c : Char} (h : c = 'T' ∨ c = 't') : PredName c 7
  | index {c : Char} (h : '0' ≤ c ∧ c ≤ '6') : PredName c (digit c)

/-- White space of the C library, skipped in front of numbers. -/
def spaces : Str := [' ', '\t', '\n', '\x0b', '\x0c', '\r']

/-- After blanks and a sign, a digit. -/
def NumberFollows (rest : Str) : Prop :=
  ∃ bl sg neg d tl, rest = bl ++ sg ++ d :: tl ∧ (∀ c ∈ bl, c ∈ spaces) ∧ Sign sg neg ∧ decimal d

/-- `Word w rest`: in front of `rest`, `w` is a name or the name of a label.  A name may have a separator in
    it at one place: after an initial `P`, `p`, `!P` or `!p`. -/
inductive Word : Str → Str → Prop
  | plain {c : Char} {cs rest : Str} (hc : c ∉ separators ∨ c = '.') (hn : c ∉ ['!', 'P', 'p', 'R']) (hd : ¬ decimal c)
      (hs : ∀ x ∈ cs, x ∉ separators) (he : Ends rest) : Word (c :: cs) rest
  | dimension {c : Char} {cs rest : Str} (hd : decimal c) (hs : ∀ x ∈ cs, x ∉ separators) (he : Ends rest) :
      Word (c :: 'D' :: cs) rest
  | register {cs rest : Str} (hz : cs.head? ≠ some 'Z') (hn : ∃ c ∈ cs, ¬ decimal c) (hs : ∀ x ∈ cs, x ∉ separators)
      (he : Ends rest) : Word ('R' :: cs) rest
  | predicate {p cs rest : Str} {neg : Bool} {c : Char} (hp : PredPrefix p neg)
      (hc : c ∈ ['T', 't'] ∨ decimal c → cs ≠ []) (hs : ∀ x ∈ cs, x ∉ separators) (he : Ends rest) : Word (p ++ c :: cs) rest

/-- `Lexeme w rest k`: in front of `rest`, the text `w` is the token `k`. -/
inductive Lexeme : Str → Str → Kind → Prop
  | operator {c : Char} {k : Kind} {rest : Str} (h : (c, k) ∈ operators)
      (hd : c ∈ ['+', '-'] → ∀ d, rest.head? = some d → ¬ decimal d) : Lexeme [c] rest k
  | pred {p rest : Str} {neg : Bool} {c : Char} {i : Nat} (hp : PredPrefix p neg) (hn : PredName c i) (he : Ends rest) :
      Lexeme (p ++ [c]) rest (.pred i neg)
  | int {sg ds rest : Str} {neg : Bool} {v : Nat} (hs : Sign sg neg) (hv : IntLit ds v)
      (he : Ends rest) (hn : ∀ c, rest.head? = some c → c ∉ ['+', '-', '.']) : Lexeme (sg ++ ds) rest (.imm (saturated neg v))
  | float {sg ip fp rest : Str} {neg : Bool} (hs : Sign sg neg) (hi : ip ≠ []) (h1 : ∀ c ∈ ip, decimal c)
      (h2 : ∀ c ∈ fp, decimal c) (he : Ends rest) :
      Lexeme (sg ++ ip ++ '.' :: fp) rest (.fimm (f32OfRat neg (numeral 10 (ip ++ fp)) (10 ^ fp.length)))
  | zero {rest : Str} (he : Ends rest) : Lexeme ['R', 'Z'] rest (.reg 255)
  | reg {ds rest : Str} (hn : ds ≠ []) (h : ∀ c ∈ ds, decimal c) (hv : numeral 10 ds < 255) (he : Ends rest) :
      Lexeme ('R' :: ds) rest (.reg (numeral 10 ds))
  /-- `R` without a number is register 0, unless a number is the next thing in the text. -/
  | bare {rest : Str} (he : Ends rest) (hf : ¬ NumberFollows rest) : Lexeme ['R'] rest (.reg 0)
  | word {w rest : Str} (h : Word w rest) (hl : w.getLast? ≠ some ':') : Lexeme w rest (.ident w)

/-- `Skipped w rest`: in front of `rest`, the text `w` consists of blanks and labels. -/
inductive Skipped : Str → Str → Prop
  | nil {rest : Str} : Skipped [] rest
  | blank {c : Char} {w rest : Str} (hc : c ∈ blanks) (h : Skipped w rest) : Skipped (c :: w) rest
  | label {v w rest : Str} (hv : Word v (w ++ rest)) (hl : v.getLast? = some ':') (h : Skipped w rest) : Skipped (v ++ w) rest

/-- `Scans l t ts`: the text `t`, which begins in line `l`, consists of the tokens `ts`, given with their lines. -/
inductive Scans : Nat → Str → List (Kind × Nat) → Prop
  | done {l : Nat} {t : Str} (h : Skipped t []) : Scans l t []
  | token {l : Nat} {s w rest : Str} {k : Kind} {ts : List (Kind × Nat)} (hs : Skipped s (w ++ rest)) (hw : Lexeme w rest k)
      (h : Scans (l + lineAfter (s ++ w)) rest ts) : Scans l (s ++ w ++ rest) ((k, l + lineAfter s) :: ts)

end Nxas.Spec
