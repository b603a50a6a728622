import Verif.Spec.Syntax
import Verif.Spec.Lexical
/-
What a source means: labels, options, instructions, layout of the code and containers.  Together with the
lexical grammar and the grammar of instructions this is a complete description of the accepted sources and of
their images, without cursors, states, fuel or errors.
-/

namespace Nxas.Spec

open Nxas

/-! ### Labels -/

/-- The address of every label: that of the instruction that follows its first definition. -/
def IsLabelMap (t : Str) (f : Str → Option Nat) : Prop :=
  ∀ name a, f name = some a ↔ ∃ pre, FirstDef t pre name ∧ a = addressOf (pre.count ';')

/-! ### Options -/

/-- The names of the program types. -/
def typeNames : List (Str × ProgType) :=
  [(c!"vertex", .vertex), (c!"tess_control", .tessControl), (c!"hull", .tessControl), (c!"tess_eval", .tessEval),
   (c!"domain", .tessEval), (c!"geometry", .geometry), (c!"fragment", .fragment), (c!"pixel", .fragment),
   (c!"compute", .compute)]

/-- The names of the options. -/
def optionNames : List Str :=
  [c!".dksh", c!".type", c!".num_gprs", c!".workgroup_size", c!".shared_memory", c!".local_memory"]

/-- The tokens of an option, with their lines, and its effect on the settings.  The size of the work group must
    end in the line of the option, the program type must be in the line of the option, the sizes of the memories
    may be anywhere.  `.num_gprs` cannot be used.  Unknown options are ignored. -/
inductive OptionText : Opts → List (Kind × Nat) → Opts → Prop
  | dksh {o : Opts} {l : Nat} {w : Str} {p : ProgType} (ht : o.type = none) (hp : (w, p) ∈ typeNames) :
      OptionText o [(.ident c!".dksh", l), (.ident w, l)] { o with isDksh := true, type := some p }
  | type {o : Opts} {l : Nat} {w : Str} {p : ProgType} (ht : o.type = none) (hp : (w, p) ∈ typeNames) :
      OptionText o [(.ident c!".type", l), (.ident w, l)] { o with type := some p }
  | workgroup {o : Opts} {l l1 l2 : Nat} {x y z : Int} :
      OptionText o [(.ident c!".workgroup_size", l), (.imm x, l1), (.imm y, l2), (.imm z, l)]
        { o with blockDims := (BitVec.ofInt 32 x, BitVec.ofInt 32 y, BitVec.ofInt 32 z) }
  | shared {o : Opts} {l l1 : Nat} {v : Int} :
      OptionText o [(.ident c!".shared_memory", l), (.imm v, l1)] { o with sharedMem := BitVec.ofInt 32 v }
  | local {o : Opts} {l l1 : Nat} {v : Int} :
      OptionText o [(.ident c!".local_memory", l), (.imm v, l1)] { o with localMem := BitVec.ofInt 32 v }
  | other {o : Opts} {l : Nat} {name : Str} (hd : name.head? = some '.') (hn : name ∉ optionNames) :
      OptionText o [(.ident name, l)] o

/-! ### Programs -/

/-- `Program lab i o ts ops o'`: the tokens `ts` are a sequence of options and instructions, the first instruction
    having index `i`; `ops` are the instructions; the settings change from `o` to `o'`.  After an option there
    must be something, in another line than the name of the option. -/
inductive Program (lab : Str → Option Nat) : Nat → Opts → List (Kind × Nat) → List Op → Opts → Prop
  | done {i : Nat} {o : Opts} : Program lab i o [] [] o
  | insn {i : Nat} {o o' : Opts} {ts rest : List (Kind × Nat)} {op : Op} {ops : List Op}
      (h : InstrText ⟨lab, addressOf i⟩ (ts.map Prod.fst) op) (hr : Program lab (i + 1) o rest ops o') :
      Program lab i o (ts ++ rest) (op :: ops) o'
  | option {i : Nat} {o o1 o' : Opts} {t next : Kind × Nat} {ts rest : List (Kind × Nat)} {ops : List Op}
      (h : OptionText o (t :: ts) o1) (hl : next.2 ≠ t.2) (hr : Program lab i o1 (next :: rest) ops o') :
      Program lab i o (t :: ts ++ next :: rest) ops o'

/-! ### Layout -/

/-- The 21 bits of an instruction in the control word of its group; 0x7E0 if there is no instruction. -/
def slot : Option Op → Nat
  | some op => op.sched.toNat + op.reuse.toNat * 2 ^ 17
  | none => 0x7E0

/-- The control word of a group of three instructions. -/
def control (a b c : Option Op) : BitVec 64 := BitVec.ofNat 64 (slot a + slot b * 2 ^ 21 + slot c * 2 ^ 42)

/-- The encoding of `NOP;`, which fills the last group. -/
def filler : BitVec 64 := 0x50B0000000070F00

/-- Groups of a control word and three instructions. -/
def groups : List Op → List (BitVec 64)
  | [] => []
  | [a] => [control (some a) none none, a.value, filler, filler]
  | [a, b] => [control (some a) (some b) none, a.value, b.value, filler]
  | a :: b :: c :: rest => control (some a) (some b) (some c) :: a.value :: b.value :: c.value :: groups rest

/-! ### Containers -/

/-- The least multiple of `m` that is not less than `n`. -/
def roundUp (m n : Nat) : Nat := (n + (m - 1)) / m * m

/-- The per-warp scratch size. -/
def scratch (o : Opts) : Int := (BitVec.ofNat 32 (roundUp 16 o.localMem.toNat)).toInt * 32 + 0x800

/-- The fields of the control section of a DKSH container for `n` words of code whose entry point has the byte
    offset `entry`. -/
def dkshFields (o : Opts) (n entry : Nat) : List (BitVec 32) :=
  [0x48534B44,                                 -- "DKSH"
   24,                                         -- size of this header
   256,                                        -- size of the control section
   BitVec.ofNat 32 (roundUp 256 (8 * n)),      -- size of the code
   24,                                         -- offset of the program header
   1,                                          -- number of programs
   5,                                          -- compute program
   BitVec.ofNat 32 entry,                      -- entry point
   8,                                          -- number of registers
   0, 0,                                       -- constant buffer
   BitVec.ofInt 32 (scratch o),                -- per-warp scratch size
   o.blockDims.1, o.blockDims.2.1, o.blockDims.2.2,
   BitVec.ofNat 32 (roundUp 256 o.sharedMem.toNat),
   BitVec.ofNat 32 (roundUp 16 o.localMem.toNat),
   0,                                          -- local memory at negative addresses
   0x800,                                      -- call stack
   0]                                          -- barriers

/-- Field `i` of the control section, 0 after the last one. -/
def dkshField (o : Opts) (n entry i : Nat) : BitVec 32 := (dkshFields o n entry)[i]?.getD 0

/-- The control section: 32 words of two fields, the first one in the lower half. -/
def dkshControl (o : Opts) (n entry : Nat) : List (BitVec 64) :=
  (List.range 32).map fun i => dkshField o n entry (2 * i + 1) ++ dkshField o n entry (2 * i)

/-- The image of a program.  After the code, a DKSH container has between 1 and 32 words of zeros. -/
inductive Image (lab : Str → Option Nat) (o : Opts) (code : List (BitVec 64)) : List (BitVec 64) → Prop
  | raw (hd : o.isDksh = false) (ht : o.type = none ∨ o.type = some .compute) : Image lab o code code
  | dksh {entry : Nat} (hd : o.isDksh = true) (ht : o.type = some .compute) (hm : lab c!"main" = some (entry + 8))
      (ha : entry % 32 = 0) (hs : -(2 ^ 31) ≤ scratch o ∧ scratch o < 2 ^ 31) :
      Image lab o code (dkshControl o code.length entry ++ code ++ List.replicate (32 - code.length % 32) 0)

/-! ### The assembler -/

/-- `Assembles t words`: the text `t` is a valid source with the image `words`. -/
def Assembles (t : Str) (words : List (BitVec 64)) : Prop :=
  ∃ lab ts ops o, IsLabelMap t lab ∧ Scans 0 t ts ∧ Program lab 0 {} ts ops o ∧
    Image lab o (groups ops) words

end Nxas.Spec
