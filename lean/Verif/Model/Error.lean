import Verif.Model.Assemble
/-
Building error messages: src/error.cpp.
-/

namespace Nxas

/-- A buffer of characters; `none` is a write outside of it. -/
abbrev Buffer := List Char

/-- Write `t` at position `p` of a buffer; `none` if it does not fit. -/
def Buffer.write (b : Buffer) (p : Nat) (t : Str) : Option Buffer :=
  if p + t.length ≤ b.length then some (b.take p ++ t ++ b.drop (p + t.length)) else none

/-- `snprintf(buffer + p, n, ...)` (C library) where `t` is the whole formatted text: nothing is written for
    `n = 0`, otherwise at most `n - 1` characters and a NUL. -/
def snprintf (b : Buffer) (p n : Nat) (t : Str) : Option Buffer :=
  if n = 0 then some b else b.write p (t.take (n - 1) ++ ['\x00'])

/-- A C string: the characters of a buffer before the first NUL; `none` if there is no NUL. -/
def Buffer.cstring (b : Buffer) : Option Str :=
  if '\x00' ∈ b then some (b.takeWhile (· ≠ '\x00')) else none

/-- A decimal number as written by `%d`. -/
def decimalText (n : Nat) : Str := Nat.toDigits 10 n

/-- The text of `errfmt`, src/error.cpp:18: the position is written from 1 on. -/
def errorPrefix (file : Str) (line col : Nat) : Str :=
  c!"\x1b[1m" ++ file ++ c!":\x1b[1m" ++ decimalText (line + 1) ++ c!":" ++ decimalText (col + 1) ++
    c!": \x1b[1;31merror:\x1b[0m "

/-- `fail`, src/error.cpp:16-39; `text` is what `fmt` and its arguments give.  `make_unique` fills the buffer with
    zeros.  Lengths are unbounded here (`int` in the code). -/
def failMessage (file : Str) (line col : Nat) (text : Str) : Option Buffer := do
  let pre := errorPrefix file line col
  let length := pre.length + text.length + 1
  let b ← snprintf (List.replicate length '\x00') 0 length pre
  snprintf b pre.length (length - pre.length) text

/-- `error::raise`, src/error.cpp:9-14: what is written to the standard error output. -/
def raiseOutput (message : Buffer) : Option Str := message.cstring.map (· ++ ['\n'])

/-- `fatal_error` with a token, src/error.cpp:43-57: what is written to the standard error output. -/
def fatalOutput (file : Str) (line col : Nat) (text : Str) : Str :=
  (c!"\x1b[1m" ++ file ++ c!":\x1b[1m" ++ decimalText (line + 1) ++ c!":" ++ decimalText (col + 1) ++ c!": ") ++
    c!"\x1b[1;31merror:\x1b[0m " ++ text ++ ['\n']

/-- A number as written by `%d` and `%ld`. -/
def intText (v : Int) : Str := if v < 0 then '-' :: decimalText (-v).toNat else decimalText v.toNat

/-- The `int` in the low 32 bits of a 64-bit number. -/
def lowInt (v : Int) : Int := (BitVec.ofInt 32 v).toInt

/-- `vsnprintf`, `vfprintf` (C library) for the conversions that occur in the code: the text for a format and its
    arguments, `none` where the C standard leaves the behaviour undefined.  With `lp64` the arguments have the types of the
    code and not those that the format asks for, as it happens on 64-bit Linux: `%d` takes the low 32 bits of an
    `int64_t`, and `.*` those of a `size_t` (which is the length of the text below 2 GiB, others are not considered). -/
def printf (lp64 : Bool) : Str → List Arg → Option Str
  | [], _ => some []
  | '\x00' :: _, _ => some []
  | '%' :: 's' :: r, .text s :: as => (printf lp64 r as).map (cstr s ++ ·)
  | '%' :: '.' :: '*' :: 's' :: r, .text s :: as => (printf lp64 r as).map (cstr s ++ ·)
  | '%' :: '.' :: '*' :: 's' :: r, .sized s :: as =>
    if lp64 && decide (s.length < 2 ^ 31) then (printf lp64 r as).map (cstr s ++ ·) else none
  | '%' :: 'd' :: r, .int v :: as => (printf lp64 r as).map (intText v ++ ·)
  | '%' :: 'd' :: r, .long v :: as => if lp64 then (printf lp64 r as).map (intText (lowInt v) ++ ·) else none
  | '%' :: 'l' :: 'd' :: r, .long v :: as => (printf lp64 r as).map (intText v ++ ·)
  | '%' :: _, _ => none
  | c :: r, as => (printf lp64 r as).map (c :: ·)

/-- The text of a message. -/
def Msg.print (lp64 : Bool) (m : Msg) : Option Str := printf lp64 m.fmt.toList m.args

/-- What a diagnostic writes to the standard error output: `fatal_error` with and without a token, src/error.cpp:43-70, and
    `fail` with `raise` (equal by `C65_same`). -/
def Diag.print (lp64 : Bool) (file : Str) : Diag → Option Str
  | .located e => (e.msg.print lp64).map (fatalOutput file e.line e.col)
  | .plain m => (m.print lp64).map (c!"\x1b[1;31merror:\x1b[0m " ++ · ++ ['\n'])

end Nxas
