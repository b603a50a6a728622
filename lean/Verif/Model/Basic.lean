/-
Basic vocabulary of the model: source text, tokens, diagnostics and outcomes.

All line numbers below refer to files under /repo at the pinned commit.
-/

namespace Nxas

/-- A C++ character string.  One `Char` stands for one byte (`char`).
    Simplification: Lean `Char` has more values than a byte, so every theorem
    quantified over `Str` covers all byte strings (and more). -/
abbrev Str := List Char

open Lean in
/-- `c!"ABC"` is the literal character list `['A','B','C']`. -/
macro:max "c!" s:str : term => do
  let cs := s.getString.toList.map (fun c => Syntax.mkCharLit c)
  `([ $[$(cs.toArray)],* ])

/-- Token classes and payloads: `token_type` and `token_data`, src/token.h:6-38.
    The payload union is modelled by constructor arguments.
    A float payload is the 32-bit pattern returned by `strtof`
    (src/context.cpp:161; the `double` it is stored in holds it exactly). -/
inductive Kind where
  | none
  | ident (s : Str)
  | reg (n : Nat)
  | pred (index : Nat) (negated : Bool)
  | imm (v : Int)
  | fimm (bits : BitVec 32)
  | plus | minus | tilde | vbar | lbracket | rbracket | at | semicolon | comma
  deriving DecidableEq, Repr

/-- `struct token`, src/token.h:40-47.  `filename` is constant for a run and is
    omitted. `line`/`col` are 0-based as in the code; simplification: they are
    unbounded naturals instead of `int`. -/
structure Token where
  kind : Kind
  line : Nat
  col  : Nat
  deriving DecidableEq, Repr

/-- An argument of `printf`. -/
inductive Arg where
  /-- a string: `const char*` for `%s`, or the length as an `int` and the start for `%.*s` -/
  | text (s : Str)
  /-- a string for `%.*s`, with the length as a `size_t` -/
  | sized (s : Str)
  /-- an `int` -/
  | int (v : Int)
  /-- an `int64_t` -/
  | long (v : Int)
  deriving DecidableEq, Repr

/-- A format string with its arguments, as given to `fail` and `fatal_error`
    (src/error.h:31-35).  `PRId64` in a format of the code is written `ld`, its value on
    64-bit Linux. -/
structure Msg where
  fmt  : String
  args : List Arg
  deriving DecidableEq, Repr

/-- a format without arguments -/
instance : Coe String Msg := ⟨fun fmt => ⟨fmt, []⟩⟩

/-- A diagnostic: position of the token it is attached to and the message
    (src/error.cpp:16-39, 43-56).  `Model/Error.lean` says what is printed. -/
structure Err where
  line : Nat
  col  : Nat
  msg  : Msg
  deriving DecidableEq, Repr

/-- `name(token_type)`, src/token.cpp:5-41. -/
def Kind.name : Kind → Str
  | .none => c!"nothing"
  | .ident _ => c!"identifier"
  | .reg _ => c!"register"
  | .pred _ _ => c!"predicate"
  | .imm _ => c!"immediate"
  | .fimm _ => c!"floating-point immediate"
  | .plus => c!"plus"
  | .minus => c!"minus"
  | .tilde => c!"tilde"
  | .vbar => c!"vertical bar"
  | .lbracket => c!"squared bracket left"
  | .rbracket => c!"squared bracket right"
  | .at => c!"at"
  | .semicolon => c!"semicolon"
  | .comma => c!"comma"

/-- `info`, src/token.cpp:43-49; also `token.data.string` of a token for which it is the
    active member of the union (empty unless an identifier has been stored). -/
def Kind.info : Kind → Str
  | .ident s => s
  | _ => []

/-- The reasons for which an execution of the C++ code has undefined behaviour. -/
inductive UB where
  /-- `*text` is read after `text` was moved past the terminating NUL. -/
  | readPastEnd
  /-- a string table without terminating `nullptr` is scanned past its end. -/
  | tableOverrun
  /-- a member of `token_data` other than the active one is read. -/
  | inactiveUnion
  /-- signed 64-bit overflow in the branch displacement. -/
  | signedOverflow
  /-- `opcodes[index]` with `index` outside the vector. -/
  | opcodeOverrun
  /-- signed 32-bit overflow in the scratch-size computation of the DKSH header. -/
  | scratchOverflow
  /-- `vfprintf` called with a null format. -/
  | nullFormat
  /-- not C++ behaviour: a loop bound of the model was exhausted. Proved unreachable
      (`Verif.Props`, property C03). -/
  | fuel
  deriving DecidableEq, Repr

/-- `is_contained`, src/context.cpp:16-19. -/
def isContained (s : Str) (c : Char) : Bool := s.contains c

/-- `is_operator`, src/context.cpp:21-24. -/
def isOperator (c : Char) : Bool := isContained c!"+-~|[]@,;" c

/-- `is_separator`, src/context.cpp:26-29. NUL is represented by `'\x00'`. -/
def isSeparator (c : Char) : Bool :=
  isContained [' ', '\t', '\r', '\n', '.'] c || isOperator c || c == '\x00'

/-- The whitespace skipped between tokens, src/context.cpp:82. -/
def isBlank (c : Char) : Bool := isContained [' ', '\t', '\r', '\n'] c

/-- `is_alpha`, src/context.cpp:31-34. -/
def isAlpha (c : Char) : Bool :=
  ('a' ≤ c && c ≤ 'z') || ('A' ≤ c && c ≤ 'Z')

/-- `is_decimal`, src/context.cpp:36-39. -/
def isDecimal (c : Char) : Bool := '0' ≤ c && c ≤ '9'

/-- `is_alnum`, src/context.cpp:41-44. -/
def isAlnum (c : Char) : Bool := isAlpha c || isDecimal c

/-- The extra characters scanned as part of a number, src/context.cpp:141. -/
def isHexish (c : Char) : Bool := isContained c!"AaBbCcDdEeFfXx" c

/-- `get_operator_type`, src/context.cpp:46-70. The `default: assert(0)` branch is
    represented by `comma`; the only call is guarded by `is_operator`. -/
def operatorKind (c : Char) : Kind :=
  if c = '+' then .plus
  else if c = '-' then .minus
  else if c = '~' then .tilde
  else if c = '|' then .vbar
  else if c = '[' then .lbracket
  else if c = ']' then .rbracket
  else if c = '@' then .at
  else if c = ';' then .semicolon
  else .comma

end Nxas
