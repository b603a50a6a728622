import Verif.Model.Lexer
/-
The assembler state, its outcomes, and the primitive helpers of src/opcode.h and
src/helper.cpp that every operand is made of.
-/

namespace Nxas

/-- `enum class program_type`, src/context.h:32-40. -/
inductive ProgType where
  | vertex | tessControl | tessEval | geometry | fragment | compute
  deriving DecidableEq, Repr

/-- The numeric value of a program type, src/context.h:32-40. -/
def ProgType.code : ProgType → Nat
  | .vertex => 0 | .tessControl => 1 | .tessEval => 2 | .geometry => 3
  | .fragment => 4 | .compute => 5

/-- The settings carried by `class context`, src/context.h:57-79, that options can
    change.  `int` members are 32-bit patterns.  Members no code ever assigns
    (`entrypoint`, `second_entrypoint`, `second_num_gprs`, `early_fragment_tests`,
    `post_depth_coverage`, `persample_invocation`, `num_barriers`, and in every
    execution without undefined behaviour `num_gprs`) keep their initial values and
    are constants of the model (see `Dksh.lean`). -/
structure Opts where
  type : Option ProgType := none
  isDksh : Bool := false
  localMem : BitVec 32 := 0
  blockDims : BitVec 32 × BitVec 32 × BitVec 32 := (1, 1, 1)
  sharedMem : BitVec 32 := 0
  deriving DecidableEq, Repr

/-- `class context`, src/context.h:15-80. -/
structure Ctx where
  cur : Cur
  labels : Labels
  pc : Nat
  opts : Opts
  deriving DecidableEq, Repr

/-- `struct opcode`, src/opcode.h:23-45. `sched` is the raw view of the bit-field. -/
structure Op where
  value : BitVec 64 := 0
  reuse : BitVec 32 := 0
  sched : BitVec 32 := 0
  deriving DecidableEq, Repr

/-- What an operand parser reads and writes: `context&, token&, opcode&`. -/
structure St where
  ctx : Ctx
  tok : Token
  op  : Op
  deriving DecidableEq, Repr

/-- Outcome of a piece of code that may `return fail(...)`. -/
inductive Out (α : Type) where
  /-- normal return -/
  | ok (a : α) (s : St)
  /-- a returned `error`; the by-reference arguments keep their current values -/
  | fail (e : Err) (s : St)
  /-- `fatal_error` / `error::raise`: message on stderr, `exit(EXIT_FAILURE)` -/
  | exit (e : Err)
  /-- a failed `assert` (only when assertions are compiled in) -/
  | abort
  /-- undefined behaviour -/
  | ub (u : UB)

/-- The operand monad.  The `Bool` says whether `assert` is compiled in
    (`true`: debug build, i.e. `NDEBUG` not defined; `false`: release build). -/
def M (α : Type) := Bool → St → Out α

namespace M

@[inline] def pure (a : α) : M α := fun _ s => .ok a s

@[inline] def bind (m : M α) (f : α → M β) : M β := fun dbg s =>
  match m dbg s with
  | .ok a s' => f a dbg s'
  | .fail e s' => .fail e s'
  | .exit e => .exit e
  | .abort => .abort
  | .ub u => .ub u

instance : Monad M where
  pure := pure
  bind := bind

end M

/-- current token -/
def getTok : M Token := fun _ s => .ok s.tok s
/-- class and payload of the current token -/
def getKind : M Kind := fun _ s => .ok s.tok.kind s
/-- current opcode value -/
def getValue : M (BitVec 64) := fun _ s => .ok s.op.value s
/-- current context -/
def getCtx : M Ctx := fun _ s => .ok s.ctx s
/-- plain assignment `op.value = v` -/
def setValue (v : BitVec 64) : M Unit := fun _ s => .ok () { s with op := { s.op with value := v } }

/-- `return fail(token, msg)` with the current token, src/error.cpp:16-39. -/
def failTok (msg : Msg) : M α := fun _ s => .fail ⟨s.tok.line, s.tok.col, msg⟩ s

/-- `return fail(saved, msg)` inside `m`, where `saved` is a copy of the token at the start
    of `m`: the failure carrying the message `msg` is reported at the starting token. -/
def blameStart (msg : Msg) (m : M α) : M α := fun dbg s =>
  match m dbg s with
  | .fail e s' => .fail (if e.msg = msg then ⟨s.tok.line, s.tok.col, msg⟩ else e) s'
  | r => r

/-- undefined behaviour -/
def ubM (u : UB) : M α := fun _ _ => .ub u

/-- `token = ctx.tokenize()`. -/
def advance : M Unit := fun _ s =>
  match tokenize s.ctx.cur with
  | .ok t c => .ok () { s with ctx := { s.ctx with cur := c }, tok := t }
  | .exit e => .exit e
  | .ub u => .ub u

/-- `opcode::add_bits`, src/opcode.h:47-51. -/
def addBits (bits : BitVec 64) : M Unit := fun dbg s =>
  if dbg && (s.op.value &&& bits) != 0#64 then .abort
  else .ok () { s with op := { s.op with value := s.op.value ||| bits } }

/-- `opcode::add_reuse`, src/opcode.h:53-57. -/
def addReuse (flag : BitVec 32) : M Unit := fun dbg s =>
  if dbg && (s.op.reuse &&& flag) != 0#32 then .abort
  else .ok () { s with op := { s.op with reuse := s.op.reuse ||| (flag &&& 0xFF#32) } }

/-- `reuse_flag`, src/opcode.h:16-21. -/
def reuseGpr8 : BitVec 32 := 1#32
def reuseGpr20 : BitVec 32 := 2#32
def reuseGpr39 : BitVec 32 := 4#32

/-- `max_bits`, src/helper.h:17-20 (used with sizes below 63 only). -/
def maxBits (size : Nat) : Int := 2 ^ size - 1

/-- the `uint64_t` with the same value modulo 2^64: C++ conversion of an `int64_t`. -/
def u64 (v : Int) : BitVec 64 := BitVec.ofInt 64 v

/-- `equal(token, string)`, src/helper.cpp:42-49. -/
def Kind.equal (k : Kind) (s : Str) : Bool := k = .ident s

/-- `equal(token, string)`, src/helper.cpp:42-49. -/
def Token.equal (t : Token) (s : Str) : Bool := t.kind.equal s

/-- Is `token.data.string` the active union member?  The union is constructed with
    `string` active (src/token.h:35) and stays so unless a register, predicate or
    immediate payload is stored. -/
def Kind.stringActive (k : Kind) : Bool :=
  match k with
  | .reg _ | .pred _ _ | .imm _ | .fimm _ => false
  | _ => true

/-- The message of `confirm_type`, src/helper.cpp:34-39; `want` is the name of the
    expected class. -/
def expectedMsg (want : Str) (k : Kind) : Msg :=
  if k = .none then ⟨"expected \x1b[1m%s\x1b[0m", [.text want]⟩
  else ⟨"expected \x1b[1m%s\x1b[0m and got \x1b[1m%s %.*s\x1b[0m", [.text want, .text k.name, .text k.info]⟩

/-- `confirm_type` for token classes without payload (src/helper.cpp:29-40). -/
def confirm (k : Kind) : M Unit := fun _ s =>
  if s.tok.kind = k then .ok () s else .fail ⟨s.tok.line, s.tok.col, expectedMsg k.name s.tok.kind⟩ s

/-- `confirm_type(token, token_type::identifier)`, src/helper.cpp:29-40. -/
def confirmIdent : M Str := fun _ s =>
  match s.tok.kind with
  | .ident x => .ok x s
  | _ => .fail ⟨s.tok.line, s.tok.col, expectedMsg c!"identifier" s.tok.kind⟩ s

/-- `confirm_type(token, token_type::regster)`. -/
def confirmReg : M Nat := fun _ s =>
  match s.tok.kind with
  | .reg n => .ok n s
  | _ => .fail ⟨s.tok.line, s.tok.col, expectedMsg c!"register" s.tok.kind⟩ s

/-- `confirm_type(token, token_type::predicate)`. -/
def confirmPred : M (Nat × Bool) := fun _ s =>
  match s.tok.kind with
  | .pred i n => .ok (i, n) s
  | _ => .fail ⟨s.tok.line, s.tok.col, expectedMsg c!"predicate" s.tok.kind⟩ s

/-- The message of `convert_integer`, src/helper.cpp:57-59: `value` is an `int64_t`
    printed with `%d`. -/
def rangeMsg (v min max : Int) : Msg :=
  ⟨"integer \x1b[1m%d\x1b[0m is out of range, expected to be from %ld to %ld inclusively",
    [.long v, .long min, .long max]⟩

/-- `convert_integer`, src/helper.cpp:51-64: the value of an immediate token in
    `[min, max]`. -/
def convertInteger (min max : Int) : M Int := fun _ s =>
  match s.tok.kind with
  | .imm v =>
    if v < min ∨ v > max then .fail ⟨s.tok.line, s.tok.col, rangeMsg v min max⟩ s
    else .ok v s
  | _ => .fail ⟨s.tok.line, s.tok.col, expectedMsg c!"immediate" s.tok.kind⟩ s

/-- Position of a string in a table. -/
def tableIndex (s : Str) : List Str → Option Nat
  | [] => none
  | x :: xs => if s = x then some 0 else (tableIndex s xs).map (· + 1)

/-- `find_in_table`, src/helper.cpp:66-89.  `terminated` says whether the C array ends
    with `nullptr`; scanning an unterminated array past its end is undefined
    behaviour. -/
def findInTable (terminated : Bool) (table : List Str) (pfx : Str) : M (Option Nat) := fun _ s =>
  match s.tok.kind with
  | .ident text =>
    if pfx ≠ [] ∧ text.take pfx.length ≠ pfx then .ok none s
    else
      match tableIndex (text.drop pfx.length) table with
      | some i => .ok (some i) s
      | none => if terminated then .ok none s else .ub .tableOverrun
  | _ => .ok none s

/-- `try_reuse`, src/helper.cpp:91-112. -/
def tryReuse (address : Nat) : M Unit := do
  let t ← getKind
  if !t.equal c!".reuse" then M.pure ()
  else do
    if address = 8 then addReuse reuseGpr8
    else if address = 20 then addReuse reuseGpr20
    else if address = 39 then addReuse reuseGpr39
    else failTok "register cannot be reused"
    advance

/-- `assemble_gpr`, src/helper.cpp:13-21, reached from `assemble_dest_gpr` and
    `assemble_source_gpr` (src/helper.cpp:114-122). -/
def assembleGpr (address : Nat) : M Unit := do
  let n ← confirmReg
  addBits (BitVec.ofNat 64 n <<< address)
  advance
  tryReuse address

end Nxas
