import Verif.Spec.Source
/-
The sources on which the assembler has undefined behaviour, other than reading beyond the end of the text: which
tokens it reads, and which token it cannot deal with.
-/

namespace Nxas.Spec

open Nxas

/-- The names of the sizes of `LDG`. -/
def loadSizes : List Str := [c!"U8", c!"S8", c!"U16", c!"S16", c!"32", c!"64", c!"128", c!"U"]

/-- The names of the types of textures. -/
def textureTypes : List Str :=
  [c!"1D", c!"ARRAY_1D", c!"2D", c!"ARRAY_2D", c!"3D", c!"ARRAY_3D", c!"CUBE", c!"ARRAY_CUBE"]

/-- Registers, predicates and numbers: the tokens that do not store a text. -/
def Textless : Kind → Prop
  | .reg _ | .pred _ _ | .imm _ | .fimm _ => True
  | _ => False

/-- `OperandFault e o k u`: the operand `o` has the undefined behaviour `u` on the token `k`. -/
inductive OperandFault (e : Env) : Operand → Kind → UB → Prop
  /-- the distance to the target of a branch is below the range of 64 bits -/
  | distance {x : Int} (h : x - e.pc - 8 < -(2 ^ 63)) : OperandFault e .label (.imm x) .signedOverflow
  /-- the text of a token without text is put into a message -/
  | register {t : List Str} {k : Kind} (h : Textless k) : OperandFault e (.s2r t) k .inactiveUnion
  /-- the search for a size runs beyond the table -/
  | size {name : Str} (h : name ∉ loadSizes) : OperandFault e .ldgSize (.ident ('.' :: name)) .tableOverrun
  /-- the search for a type of a texture runs beyond the table -/
  | texture {a : Nat} {name : Str} (h : name ∉ textureTypes) : OperandFault e (.texType a) (.ident name) .tableOverrun

/-- The tokens of an instruction up to the one with undefined behaviour: guard, mnemonic, the first operands of a
    row with this mnemonic, and the token `k` that the next operand cannot deal with. -/
inductive InsnFault (e : Env) : List Kind → UB → Prop
  | mk {g : Option (Nat × Bool)} {row : Insn} {os os' : List Operand} {o : Operand} {ks : List Kind} {k : Kind} {v : BitVec 64}
      {r : BitVec 32} {u : UB} (hr : row ∈ insnTable) (hg : row.flags % 2 = 1 → ∀ p n, g = some (p, n) → p = 7)
      (hs : row.operands = os ++ o :: os') (ho : Sequence e os (field 16 (guardBits g).toNat ||| row.opcode) ks k v r)
      (h : OperandFault e o k u) : InsnFault e (guardTokens g ++ .ident row.mnemonic :: (ks ++ [k])) u

/-- The tokens of an option up to the one with undefined behaviour.  `.num_gprs` is followed by anything but a
    number. -/
inductive OptionFault (o : Opts) : List (Kind × Nat) → Prop
  | type {name : Str} {l : Nat} {k : Kind} (hn : name = c!".dksh" ∨ name = c!".type") (ht : o.type = none) (hk : Textless k) :
      OptionFault o [(.ident name, l), (k, l)]
  | registers {l l' : Nat} {k : Kind} (hk : ∀ x, k ≠ .imm x) : OptionFault o [(.ident c!".num_gprs", l), (k, l')]

/-- The tokens of a source up to the one with undefined behaviour. -/
inductive Faults (lab : Str → Option Nat) : Nat → Opts → List (Kind × Nat) → UB → Prop
  | here {i : Nat} {o : Opts} {ts : List (Kind × Nat)} {u : UB} (h : InsnFault ⟨lab, addressOf i⟩ (ts.map Prod.fst) u) :
      Faults lab i o ts u
  | setting {i : Nat} {o : Opts} {ts : List (Kind × Nat)} (h : OptionFault o ts) : Faults lab i o ts .inactiveUnion
  | insn {i : Nat} {o : Opts} {ts rest : List (Kind × Nat)} {op : Op} {u : UB}
      (h : InstrText ⟨lab, addressOf i⟩ (ts.map Prod.fst) op) (hr : Faults lab (i + 1) o rest u) :
      Faults lab i o (ts ++ rest) u
  | option {i : Nat} {o o1 : Opts} {t next : Kind × Nat} {ts rest : List (Kind × Nat)} {u : UB}
      (h : OptionText o (t :: ts) o1) (hl : next.2 ≠ t.2) (hr : Faults lab i o1 (next :: rest) u) :
      Faults lab i o (t :: ts ++ next :: rest) u

/-- `Starts l t ts`: the text `t`, which begins in line `l`, begins with the tokens `ts`; the last one may be the end
    of the text. -/
inductive Starts : Nat → Str → List (Kind × Nat) → Prop
  | nil {l : Nat} {t : Str} : Starts l t []
  | finish {l : Nat} {t : Str} (h : Skipped t []) : Starts l t [(.none, l + lineAfter t)]
  | token {l : Nat} {s w rest : Str} {k : Kind} {ts : List (Kind × Nat)} (hs : Skipped s (w ++ rest)) (hw : Lexeme w rest k)
      (h : Starts (l + lineAfter (s ++ w)) rest ts) : Starts l (s ++ w ++ rest) ((k, l + lineAfter s) :: ts)

/-- `Undefined t u`: the text `t` leads to the undefined behaviour `u`. -/
inductive Undefined (t : Str) : UB → Prop
  /-- in the middle of the text; the last line must not be a bare word, since that is undefined before -/
  | reading {lab : Str → Option Nat} {ts : List (Kind × Nat)} {u : UB} (hw : ¬ LastLineIsWord t) (hl : IsLabelMap t lab)
      (hs : Starts 0 t ts) (h : Faults lab 0 {} ts u) : Undefined t u
  /-- the scratch size of a DKSH container does not fit 32 bits -/
  | writing {lab : Str → Option Nat} {ts : List (Kind × Nat)} {ops : List Op} {o : Opts} {p : ProgType} {entry : Nat}
      (hl : IsLabelMap t lab) (hs : Scans 0 t ts) (h : Program lab 0 {} ts ops o) (hd : o.isDksh = true) (ht : o.type = some p)
      (hm : lab c!"main" = some (entry + 8)) (ha : entry % 32 = 0) (hr : ¬ (-(2 ^ 31) ≤ scratch o ∧ scratch o < 2 ^ 31)) :
      Undefined t .scratchOverflow

end Nxas.Spec
