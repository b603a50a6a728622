import Verif.Model.Parse
/-
`nxas::assemble` (src/nxas.cpp), the container formats (src/write.cpp, src/dksh.cpp)
and the command line (src/command_line.cpp).
-/

namespace Nxas

/-- A message on stderr followed by `exit(EXIT_FAILURE)`: with a position
    (src/error.cpp:9-14, 43-56) or without (src/error.cpp:58-69). -/
inductive Diag where
  | located (e : Err)
  | plain (msg : Msg)
  deriving DecidableEq, Repr

/-- Outcome of a complete run. -/
inductive Res (α : Type) where
  | ok (a : α)
  | exit (d : Diag)
  | abort
  | ub (u : UB)
  deriving DecidableEq, Repr

/-! ### Containers -/

/-- `align256`, src/dksh.cpp:71-74, reduced to the 32 bits its users keep. -/
def align256 (v : BitVec 32) : BitVec 32 := (v + 0xFF#32) &&& ~~~0xFF#32

/-- `align8`, src/dksh.cpp:76-79 (which rounds up to a multiple of 16), reduced to the
    32 bits its user keeps. -/
def align8 (v : BitVec 32) : BitVec 32 := (v + 0xF#32) &&& ~~~0xF#32

/-- The 32-bit words of `dksh_header`, src/dksh.cpp:11-19, 131-137.  `codeSize` is in
    64-bit words. -/
def dkshHeader (codeSize : Nat) : List (BitVec 32) :=
  [0x48534B44#32, 24#32, 256#32, align256 (BitVec.ofNat 32 (codeSize * 8)), 24#32, 1#32]

/-- `(local_pos_sz + local_neg_sz) * 32 + crs_sz` in `int`, src/dksh.cpp:96-98, 107;
    `none` if it overflows. -/
def scratchSize (localMem : BitVec 32) : Option (BitVec 32) :=
  let v : Int := (align8 localMem).toInt * 32 + 0x800
  if v < -(2 ^ 31) ∨ v > 2 ^ 31 - 1 then none else some (BitVec.ofInt 32 v)

/-- The union of `dksh_program_header`, src/dksh.cpp:29-67, 108-129: nine 32-bit words.
    The fragment flags are always false and the dual vertex settings always empty
    (no code assigns them), so only compute programs have non-zero contents. -/
def dkshUnion (o : Opts) : List (BitVec 32) :=
  match o.type with
  | some .compute =>
    [o.blockDims.1, o.blockDims.2.1, o.blockDims.2.2, align256 o.sharedMem, align8 o.localMem,
     0#32, 0x800#32, 0#32, 0#32]
  | _ => List.replicate 9 0#32

/-- Two consecutive 32-bit words seen as 64-bit words through `memcpy` on a
    little-endian machine, src/dksh.cpp:139-142. -/
def pairWords : List (BitVec 32) → List (BitVec 64)
  | lo :: hi :: rest => (lo.setWidth 64 ||| (hi.setWidth 64 <<< 32)) :: pairWords rest
  | [lo] => [lo.setWidth 64]
  | [] => []

/-- `context::write_dksh`, src/dksh.cpp:81-144: the 32 words of the control section. -/
def writeDksh (ctx : Ctx) (codeSize : Nat) : Res (List (BitVec 64)) :=
  match ctx.opts.type with
  | none => .exit (.plain "no type provided, valid are types: vertex, tess_control, tess_eval, geometry, fragment, compute")
  | some type =>
    match ctx.labels.find c!"main" with
    | none => .exit (.plain ⟨"entrypoint \"%s\" not found", [.text c!"main"]⟩)
    | some off =>
      if off % 32 ≠ 8 then .exit (.plain "entrypoint is not aligned")
      else
        match scratchSize ctx.opts.localMem with
        | none => .ub .scratchOverflow
        | some scratch =>
          let program : List (BitVec 32) :=
            [BitVec.ofNat 32 type.code, BitVec.ofNat 32 (off - 8), 8#32, 0#32, 0#32, scratch]
              ++ dkshUnion ctx.opts ++ [0#32]
          let words := pairWords (dkshHeader codeSize ++ program)
          .ok (words ++ List.replicate (32 - words.length) 0#64)

/-- `context::binary`, src/write.cpp:8-28, with `write_gfx_header` (30-33). -/
def binary (ctx : Ctx) (code : List (BitVec 64)) : Res (List (BitVec 64)) :=
  let hasGfx : Bool := match ctx.opts.type with
    | some t => t ≠ .compute
    | none => false
  let codeSize := code.length + (if hasGfx then 8 else 0)
  let gfx : Res (List (BitVec 64)) :=
    if hasGfx then .exit (.plain "write_gfx_header is not implemented") else .ok code
  if ctx.opts.isDksh then
    match writeDksh ctx codeSize with
    | .ok control =>
      match gfx with
      | .ok c => .ok (control ++ c ++ List.replicate (32 - code.length % 32) 0#64)
      | r => r
    | r => r
  else gfx

/-! ### src/nxas.cpp -/

/-- A C string as seen through `c_str()`: the characters before the first NUL. -/
def cstr (s : Str) : Str := s.takeWhile (· ≠ '\x00')

/-- The parse loop, src/nxas.cpp:37-39.  `room` is the number of elements of `opcodes`
    from `index` on; indexing with `room = 0` is out of bounds.  Gives the decoded
    opcodes and the final context. -/
def parseAll (table : List Insn) (dbg : Bool) : Nat → Ctx → Res (List Op × Ctx)
  | 0, _ => .ub .opcodeOverrun
  | room + 1, ctx =>
    match parseInstruction table dbg ⟨ctx, ⟨.none, 0, 0⟩, {}⟩ with
    | .ok false s => .ok ([], s.ctx)
    | .ok true s =>
      match parseAll table dbg room s.ctx with
      | .ok (ops, c) => .ok (s.op :: ops, c)
      | r => r
    | .fail e _ => .exit (.located e)
    | .exit e => .exit (.located e)
    | .abort => .abort
    | .ub u => .ub u

/-- `generate_sched`, src/nxas.cpp:15-23: the contribution of the instruction in slot
    `address`, if there is one. -/
def generateSched (op : Option Op) (address : Nat) : BitVec 64 :=
  match op with
  | none => 0x7E0#64 <<< (address * 21)
  | some op => (op.sched.setWidth 64 ||| (op.reuse.setWidth 64 <<< 17)) <<< (address * 21)

/-- The control word of a group of three instructions, src/nxas.cpp:47-50. -/
def controlWord (ops : List Op) (index : Nat) : BitVec 64 :=
  generateSched ops[index]? 0 ||| generateSched ops[index + 1]? 1 |||
    generateSched ops[index + 2]? 2

/-- The emission loop, src/nxas.cpp:45-54, from position `index`. -/
def emitFrom (ops : List Op) : Nat → List Op → List (BitVec 64)
  | _, [] => []
  | index, op :: rest =>
    (if index % 3 = 0 then [controlWord ops index] else []) ++ op.value :: emitFrom ops (index + 1) rest

/-- The encoding of NOP used as padding, src/nxas.cpp:56. -/
def nopWord : BitVec 64 := 0x50B0000000070F00#64

/-- Emission and padding, src/nxas.cpp:43-57. -/
def emit (ops : List Op) : List (BitVec 64) :=
  let blob := emitFrom ops 0 ops
  blob ++ List.replicate ((4 - blob.length % 4) % 4) nopWord

/-- Number of semicolons of the source, src/nxas.cpp:34. -/
def countSemicolons (s : Str) : Nat := s.count ';'

/-- `nxas::assemble`, src/nxas.cpp:25-59, for an arbitrary instruction table. -/
def assembleWith (table : List Insn) (dbg : Bool) (code : Str) : Res (List (BitVec 64)) :=
  match genLabels (cstr code) with
  | .error u => .ub u
  | .ok labels =>
    let ctx : Ctx := ⟨⟨cstr code, 0, 0⟩, labels, 0, {}⟩
    let maxDecode := countSemicolons code + 1
    match parseAll table dbg maxDecode ctx with
    | .ok (ops, c) =>
      -- src/nxas.cpp:40
      if dbg && (ops.length + 1 != maxDecode) then .abort
      else binary c (emit ops)
    | .exit d => .exit d
    | .abort => .abort
    | .ub u => .ub u

/-- `nxas::assemble`, src/nxas.cpp:25-59.  `dbg`: assertions compiled in. -/
def assemble (dbg : Bool) (code : Str) : Res (List (BitVec 64)) := assembleWith insnTable dbg code

/-! ### src/command_line.cpp -/

/-- The argument loop, src/command_line.cpp:29-46: input and output file. -/
def parseArgs : List Str → Option Str → Option Str → Except Msg (Option Str × Option Str)
  | [], i, o => .ok (i, o)
  | a :: rest, i, o =>
    if a = c!"-o" then
      if o.isSome then .error "command line output file already provided"
      else
        match rest with
        | [] => .error "expected command line syntax: \"-o\" <output file>"
        | f :: rest' => parseArgs rest' i (some f)
    else if i.isSome then .error "command line input file already provided"
    else parseArgs rest (some a) o

/-- The bytes of a 64-bit word in memory order on a little-endian machine. -/
def wordBytes (w : BitVec 64) : List (BitVec 8) :=
  (List.range 8).map (fun i => (w >>> (8 * i)).setWidth 8)

/-- The file system as `main` sees it: contents of readable files, and which output
    files can be opened for writing. -/
structure Files where
  read : Str → Option Str
  canWrite : Str → Bool

/-- What `main` does with files. -/
inductive Event where
  /-- read a file (src/command_line.cpp:12-20) -/
  | read (file : Str)
  /-- open a file for writing, which creates or empties it (src/command_line.cpp:56) -/
  | create (file : Str)
  /-- write bytes to the open file (src/command_line.cpp:60) -/
  | write (file : Str) (bytes : List (BitVec 8))
  deriving DecidableEq, Repr

/-- `main`, src/command_line.cpp:24-64: what is done with files, and how the program ends (`ok`: exit
    status 0).  A file that cannot be opened for reading calls `fatal_error(nullptr, ...)` (line 14), which
    selects the overload whose format is the null pointer.  Not modelled: short reads, input files without
    size (line 17) and write errors (`ofstream::write` reports nothing, so `main` ignores them). -/
def mainProgram (dbg : Bool) (fs : Files) (args : List Str) : List Event × Res Unit :=
  match parseArgs args none none with
  | .error msg => ([], .exit (.plain msg))
  | .ok (none, _) => ([], .exit (.plain "no input file"))
  | .ok (some _, none) => ([], .exit (.plain "no output file"))
  | .ok (some i, some o) =>
    match fs.read i with
    | none => ([], .ub .nullFormat)
    | some text =>
      -- src/command_line.cpp:54: a new string is built from `c_str()`
      match assemble dbg (cstr text) with
      | .ok words =>
        if fs.canWrite o then ([.read i, .create o, .write o (words.flatMap wordBytes)], .ok ())
        else ([.read i], .exit (.plain ⟨"%s: failed to open", [.text o]⟩))
      | .exit d => ([.read i], .exit d)
      | .abort => ([.read i], .abort)
      | .ub u => ([.read i], .ub u)

end Nxas
