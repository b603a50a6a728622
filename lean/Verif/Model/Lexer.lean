import Verif.Model.Float
/-
The lexer: src/context.cpp.
-/

namespace Nxas

/-- The cursor part of `class context`: `text`, `line`, `column`
    (src/context.h:54-56).  `text` is the list of characters from the cursor up to,
    and not including, the terminating NUL; dereferencing at `[]` gives NUL. -/
structure Cur where
  text : Str
  line : Nat
  col  : Nat
  deriving DecidableEq, Repr

/-- `*text` -/
def Cur.peek (c : Cur) : Char := c.text.headD '\x00'

/-- `text[1]`; only evaluated where `*text` is not NUL. -/
def Cur.peek1 (c : Cur) : Char := c.text.tail.headD '\x00'

/-- The line/column update of `context::next`, src/context.cpp:235-250. -/
def nextLine (ch : Char) (line : Nat) : Nat := if ch = '\n' then line + 1 else line
/-- See `nextLine`: a tab counts for four columns, a new line resets. -/
def nextCol (ch : Char) (col : Nat) : Nat :=
  if ch = '\t' then col + 4 else if ch = '\n' then 0 else col + 1

/-- `context::next`, src/context.cpp:235-250.  `none` when it moves past the
    terminating NUL: every caller dereferences `text` afterwards, which is
    undefined behaviour. -/
def Cur.next (c : Cur) : Option Cur :=
  match c.text with
  | [] => none
  | ch :: rest => some ⟨rest, nextLine ch c.line, nextCol ch c.col⟩

/-- `while (p(*text)) next();` for a predicate that is false on NUL. -/
def skipWhile (p : Char → Bool) : Str → Nat → Nat → Cur
  | [], l, c => ⟨[], l, c⟩
  | ch :: rest, l, c =>
    if p ch then skipWhile p rest (nextLine ch l) (nextCol ch c) else ⟨ch :: rest, l, c⟩

/-- `while (p(*text)) next();` on a cursor. -/
def Cur.skip (p : Char → Bool) (c : Cur) : Cur := skipWhile p c.text c.line c.col

/-- The characters between a token start `a` and a later cursor text `b`. -/
def between (a b : Str) : Str := a.take (a.length - b.length)

/-- C `isspace` in the "C" locale, used by `strtoll` to skip leading blanks. -/
def isSpaceC (c : Char) : Bool := isContained [' ', '\t', '\n', '\x0b', '\x0c', '\r'] c

/-- Value of a digit in bases up to 16 (C library `strtoll`). -/
def digitVal (c : Char) : Option Nat :=
  if '0' ≤ c ∧ c ≤ '9' then some (c.toNat - '0'.toNat)
  else if 'a' ≤ c ∧ c ≤ 'f' then some (c.toNat - 'a'.toNat + 10)
  else if 'A' ≤ c ∧ c ≤ 'F' then some (c.toNat - 'A'.toNat + 10)
  else none

/-- Is `c` a digit of base `b`? -/
def isDigitOf (b : Nat) (c : Char) : Bool :=
  match digitVal c with
  | some d => d < b
  | none => false

/-- Value of a digit string, most significant first. -/
def digitsVal (b : Nat) (s : Str) : Nat :=
  s.foldl (fun acc c => acc * b + (digitVal c).getD 0) 0

/-- Clamping performed by `strtoll` on overflow (`LLONG_MIN`/`LLONG_MAX`). -/
def clampI64 (v : Int) : Int :=
  if v < -(2 ^ 63) then -(2 ^ 63) else if v > 2 ^ 63 - 1 then 2 ^ 63 - 1 else v

/-- The base-prefix part of `strtoll(s, &end, base)` for `base` 0 or 10: the base
    actually used and the digits that follow the prefix. A `0x` prefix counts only
    if a hexadecimal digit follows. -/
def strtollBase (base : Nat) (s : Str) : Nat × Str :=
  if base = 0 then
    match s with
    | '0' :: x :: d :: rest =>
      if (x = 'x' ∨ x = 'X') ∧ isDigitOf 16 d = true then (16, d :: rest) else (8, s)
    | '0' :: _ => (8, s)
    | _ => (10, s)
  else (base, s)

/-- The digit part of `strtoll`: `none` if no conversion is possible. -/
def strtollDigits (base : Nat) (neg : Bool) (s : Str) : Option (Int × Str) :=
  let b := (strtollBase base s).1
  let ds := (strtollBase base s).2
  let digits := ds.takeWhile (isDigitOf b)
  if digits = [] then none
  else
    let v : Int := digitsVal b digits
    some (clampI64 (if neg then -v else v), ds.dropWhile (isDigitOf b))

/-- C library `strtoll(s, &end, base)` for `base` 0 or 10: value and text at `end`
    (C17 7.22.1.4: no `0b` prefix). No conversion: `0` and `end = s`. -/
def strtoll (base : Nat) (s : Str) : Int × Str :=
  let s1 := s.dropWhile isSpaceC
  let r := match s1 with
    | '-' :: t => strtollDigits base true t
    | '+' :: t => strtollDigits base false t
    | _ => strtollDigits base false s1
  r.getD (0, s)

/-- C library `strtof(s, &end)` restricted to the inputs that reach it
    (src/context.cpp:161): a decimal literal without exponent.  The lexer has
    checked that the literal, up to `text`, contains only digits, signs and one
    dot, and is followed by a separator, so the exponent, hexadecimal, `inf` and
    `nan` forms of `strtof` cannot occur.  Value and text at `end`. -/
def strtof (s : Str) : BitVec 32 × Str :=
  let neg : Bool := s.head? = some '-'
  let s1 := match s with
    | '-' :: t => t
    | '+' :: t => t
    | _ => s
  let ip := s1.takeWhile isDecimal
  let s2 := s1.dropWhile isDecimal
  match s2 with
  | '.' :: t =>
    let fp := t.takeWhile isDecimal
    if ip = [] ∧ fp = [] then (0#32, s)
    else
      (f32OfRat neg (digitsVal 10 (ip ++ fp)) (10 ^ fp.length), t.dropWhile isDecimal)
  | _ =>
    if ip = [] then (0#32, s) else (f32OfRat neg (digitsVal 10 ip) 1, s2)

/-- Result of reading one token. -/
inductive TokRes where
  | ok (t : Token) (c : Cur)
  | exit (e : Err)
  | ub (u : UB)
  deriving DecidableEq, Repr

/-- The message of src/context.cpp:167. -/
def literalMsg (s : Str) : Msg := ⟨"failed to parse literal \x1b[1;31m%.*s\x1b[0m", [.text s]⟩

/-- The message of src/context.cpp:199. -/
def registerMsg (s : Str) : Msg := ⟨"invalid register index \x1b[1;31m%.*s\x1b[0m", [.text s]⟩

/-- The message of src/context.cpp:203-206. -/
def indexMsg (s : Str) : Msg :=
  ⟨"register index \x1b[1;31m%.*s\x1b[0m is out of range, expected to be from 0 to 254 inclusively", [.text s]⟩

/-- The immediate branch of `tokenize`, src/context.cpp:136-170, started at the first
    character of the literal. -/
def lexNumber (c : Cur) : TokRes :=
  let fatal (msg : Msg) : TokRes := .exit ⟨c.line, c.col, msg⟩
  -- src/context.cpp:140-144
  let c1 := c.skip (fun ch => isDecimal ch || isContained c!"+-" ch || isHexish ch)
  let hasHex := (between c.text c1.text).any isHexish
  -- src/context.cpp:145-153
  let isFloat : Bool := c1.peek = '.'
  if isFloat && hasHex then fatal "floating point literal cannot have hex characters"
  else
    let c2? : Option Cur :=
      if isFloat then (c1.next).map (fun c' => c'.skip isDecimal) else some c1
    match c2? with
    | none => .ub .readPastEnd
    | some c2 =>
      -- src/context.cpp:154-156
      if !isSeparator c2.peek then fatal "no separator after immediate"
      -- src/context.cpp:158-170
      else if isFloat then
        let r := strtof c.text
        if r.2.length ≠ c2.text.length then fatal (literalMsg (between c.text c2.text))
        else .ok ⟨.fimm r.1, c.line, c.col⟩ c2
      else
        let r := strtoll 0 c.text
        if r.2.length ≠ c2.text.length then fatal (literalMsg (between c.text c2.text))
        else .ok ⟨.imm r.1, c.line, c.col⟩ c2

/-- Result of a branch of `tokenize` that may fall through to the identifier branch. -/
inductive LexStep where
  | done (r : TokRes)
  /-- fall through, with the cursor already advanced to `c` -/
  | fall (c : Cur)

/-- The predicate branch of `tokenize`, src/context.cpp:102-133, started at `!`, `P`
    or `p`. -/
def lexPredicate (c : Cur) : LexStep :=
  let fatal (msg : Msg) : LexStep := .done (.exit ⟨c.line, c.col, msg⟩)
  let negated : Bool := c.peek = '!'
  -- src/context.cpp:105-110
  let c1? : Option Cur := if negated then c.next else some c
  match c1? with
  | none => .done (.ub .readPastEnd)
  | some c1 =>
    if negated && !isContained c!"Pp" c1.peek then fatal "fatal: invalid usage of '!'\n"
    else
      -- src/context.cpp:111
      match c1.next with
      | none => .done (.ub .readPastEnd)
      | some c2 =>
        -- src/context.cpp:113-120
        let isTrue : Bool := isContained c!"Tt" c2.peek
        let index : Option Nat :=
          if isTrue then some 7
          else if isDecimal c2.peek then some (c2.peek.toNat - '0'.toNat)
          else none
        match index with
        | none => .fall c2
        | some idx =>
          -- src/context.cpp:121-132
          match c2.next with
          | none => .done (.ub .readPastEnd)
          | some c3 =>
            if isSeparator c3.peek then
              if !isTrue && idx > 6 then fatal "out of range predicate"
              else .done (.ok ⟨.pred idx negated, c.line, c.col⟩ c3)
            else .fall c3

/-- The register branch of `tokenize`, src/context.cpp:172-212, started at `R`. -/
def lexRegister (c : Cur) : LexStep :=
  let fatal (msg : Msg) : LexStep := .done (.exit ⟨c.line, c.col, msg⟩)
  -- src/context.cpp:175
  match c.next with
  | none => .done (.ub .readPastEnd)
  | some c1 =>
    -- src/context.cpp:176-185
    if c1.peek = 'Z' then
      match c1.next with
      | none => .done (.ub .readPastEnd)
      | some c2 =>
        if !isSeparator c2.peek then fatal "no separator after register"
        else .done (.ok ⟨.reg 255, c.line, c.col⟩ c2)
    else
      -- src/context.cpp:186-193
      let c2 := c1.skip (fun ch => !isSeparator ch && isDecimal ch)
      if !isSeparator c2.peek then .fall c2
      else
        -- src/context.cpp:195-210
        let r := strtoll 10 c1.text
        if r.2.length ≠ c2.text.length then fatal (registerMsg (between c.text c2.text))
        else if r.1 < 0 ∨ r.1 ≥ 255 then fatal (indexMsg (between c.text c2.text))
        else .done (.ok ⟨.reg r.1.toNat, c.line, c.col⟩ c2)

/-- Result of the identifier branch. -/
inductive IdentStep where
  | ident (s : Str) (c : Cur)
  | label (c : Cur)
  | ub

/-- The identifier branch of `tokenize`, src/context.cpp:213-223; `start` is the text
    at the first character of the token, `c` the current cursor. -/
def lexIdent (start : Str) (c : Cur) : IdentStep :=
  match c.next with
  | none => .ub
  | some c1 =>
    let c2 := c1.skip (fun ch => !isSeparator ch)
    let s := between start c2.text
    if s.getLast? = some ':' then .label c2 else .ident s c2

/-- What `tokenize` does at a non-blank position, before the identifier branch:
    src/context.cpp:97-212. -/
def lexHead (c : Cur) : LexStep :=
  let ch := c.peek
  -- src/context.cpp:97-101
  if isOperator ch && (!isContained c!"+-" ch || !isDecimal c.peek1) then
    match c.next with
    | none => .done (.ub .readPastEnd)
    | some c1 => .done (.ok ⟨operatorKind ch, c.line, c.col⟩ c1)
  -- src/context.cpp:102-133; a fall through skips the number and register branches
  -- because `character` is `!`, `P` or `p`
  else if isContained c!"!Pp" ch then lexPredicate c
  -- src/context.cpp:135-171
  else if (isDecimal ch || isContained c!"+-" ch) && c.peek1 != 'D' then .done (lexNumber c)
  -- src/context.cpp:172-212
  else if ch = 'R' then lexRegister c
  else .fall c

/-- `context::tokenize`, src/context.cpp:80-224.  The C++ function calls itself after a
    label (line 219); `fuel` bounds that recursion.  Exhausting the fuel is
    represented by `none`; `tokenize` supplies enough (theorem `tokenize_fuel`). -/
def tokenizeAux : Nat → Cur → Option TokRes
  | 0, _ => none
  | fuel + 1, c0 =>
    -- src/context.cpp:82-84
    let c := c0.skip isBlank
    -- src/context.cpp:90-93
    if c.text = [] then some (.ok ⟨.none, c.line, c.col⟩ c)
    else
      match lexHead c with
      | .done r => some r
      | .fall c1 =>
        match lexIdent c.text c1 with
        | .ub => some (.ub .readPastEnd)
        | .label c2 => tokenizeAux fuel c2
        | .ident s c2 => some (.ok ⟨.ident s, c.line, c.col⟩ c2)

/-- `context::tokenize`, src/context.cpp:80-224. -/
def tokenize (c : Cur) : TokRes :=
  (tokenizeAux (c.text.length + 1) c).getD (.ub .fuel)

/-! ### Labels: `context::generate_labels`, src/context.cpp:260-299 -/

/-- Cursor and program counter during the label pass. -/
structure LabelCur where
  cur : Cur
  pc  : Nat
  deriving DecidableEq, Repr

/-- `advance`, src/context.cpp:262-270. -/
def LabelCur.advance (s : LabelCur) : Option LabelCur :=
  let pc1 := if s.cur.peek = ';' then
      (if (s.pc + 8) % 0x20 = 0 then s.pc + 16 else s.pc + 8) else s.pc
  (s.cur.next).map (fun c => ⟨c, pc1⟩)

/-- `next_line`, src/context.cpp:271-275: `do advance(); while (*text && column > 0)`.
    `fuel` bounds the loop; it is given the text length plus one, which is enough
    because each iteration consumes a character. -/
def LabelCur.nextLine : Nat → LabelCur → Except UB LabelCur
  | 0, _ => .error .fuel
  | fuel + 1, s =>
    match s.advance with
    | none => .error .readPastEnd
    | some s1 => if s1.cur.text ≠ [] ∧ s1.cur.col > 0 then LabelCur.nextLine fuel s1 else .ok s1

/-- The character class of labels, src/context.cpp:287. -/
def isLabelChar (c : Char) : Bool := isAlnum c || c == '_'

/-- `labels`, an `unordered_map<string, int64_t>`, as an association list. -/
abbrev Labels := List (Str × Nat)

/-- `labels.find`, src/context.cpp:226-233. -/
def Labels.find (ls : Labels) (s : Str) : Option Nat := ls.lookup s

/-- `labels.insert`: keeps the old entry if the key is present. -/
def Labels.insert (ls : Labels) (s : Str) (pc : Nat) : Labels :=
  if ls.lookup s = none then ls ++ [(s, pc)] else ls

/-- The main loop of `generate_labels`, src/context.cpp:281-296.  The only undefined
    behaviour is reading past the terminating NUL; `fuel` bounds the number of lines. -/
def genLabelsAux : Nat → LabelCur → Labels → Except UB Labels
  | 0, _, _ => .error .fuel
  | fuel + 1, s, ls =>
    if s.cur.text = [] then .ok ls
    -- src/context.cpp:282-285
    else if !isAlpha s.cur.peek then
      match s.nextLine (s.cur.text.length + 1) with
      | .error u => .error u
      | .ok s1 => genLabelsAux fuel s1 ls
    else
      -- src/context.cpp:286-289; label characters are never `;`, so `pc` is unchanged
      let c1 := s.cur.skip isLabelChar
      let name := between s.cur.text c1.text
      -- src/context.cpp:290-295
      let ls1 := if c1.peek = ':' then ls.insert name s.pc else ls
      match LabelCur.nextLine (c1.text.length + 1) ⟨c1, s.pc⟩ with
      | .error u => .error u
      | .ok s1 => genLabelsAux fuel s1 ls1

/-- `context::generate_labels`, src/context.cpp:260-299: the label map. The initial `pc` is 8 (line 279). -/
def genLabels (text : Str) : Except UB Labels :=
  genLabelsAux (text.length + 1) ⟨⟨text, 0, 0⟩, 8⟩ []

end Nxas
