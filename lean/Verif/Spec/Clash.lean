import Verif.Spec.Undefined
/-
The sources on which an assertion of the assembler fails: which tokens it reads, and which token stands for a bit
that is set already.
-/

namespace Nxas.Spec

open Nxas

/-- `OperandClash v o ks`: after operands that gave the word `v`, the operand `o` reads the tokens `ks` and comes to
    set a bit that is set in `v`. -/
inductive OperandClash (v : BitVec 64) : Operand → List Kind → Prop
  /-- a minus sign -/
  | sign {a : Nat} (h : v &&& field a 1 ≠ 0) : OperandClash v (.neg a) [.minus]
  /-- an optional word -/
  | word {s : Str} {a : Nat} (h : v &&& field a 1 ≠ 0) : OperandClash v (.flag s a) [.ident s]
  /-- a register -/
  | register {a n : Nat} (h : v &&& field a n ≠ 0) : OperandClash v (.gpr a) [.reg n]
  /-- the name of a boolean operation -/
  | operation {a i : Nat} {k : Kind} (hk : Entry c!"." [c!"AND", c!"OR", c!"XOR", c!"INVALIDBOP3"] k i)
      (h : v &&& field a i ≠ 0) : OperandClash v (.bop a) [k]
  /-- the name of a part of a register; the token after it is read before the bits are set -/
  | part {a ta short i : Nat} {shorts bytes : List Str} {k next : Kind}
      (hk : Entry c!"." (if bitsAt v ta 3 = short then shorts else bytes) k i) (h : v &&& field a i ≠ 0) :
      OperandClash v (.selector a ta short shorts bytes) [k, next]

/-- The tokens of an instruction up to a failing assertion: guard, mnemonic, the first operands of a row with this
    mnemonic, and the tokens of the next operand, which stand for a bit that is set already. -/
inductive InsnClash (e : Env) : List Kind → Prop
  | mk {g : Option (Nat × Bool)} {row : Insn} {os os' : List Operand} {o : Operand} {ks more : List Kind} {k : Kind}
      {v : BitVec 64} {r : BitVec 32} (hr : row ∈ insnTable) (hg : row.flags % 2 = 1 → ∀ p n, g = some (p, n) → p = 7)
      (hs : row.operands = os ++ o :: os') (ho : Sequence e os (field 16 (guardBits g).toNat ||| row.opcode) ks k v r)
      (h : OperandClash v o (k :: more)) : InsnClash e (guardTokens g ++ .ident row.mnemonic :: (ks ++ k :: more))

/-- The tokens of a source up to a failing assertion. -/
inductive Clashes (lab : Str → Option Nat) : Nat → Opts → List (Kind × Nat) → Prop
  | here {i : Nat} {o : Opts} {ts : List (Kind × Nat)} (h : InsnClash ⟨lab, addressOf i⟩ (ts.map Prod.fst)) :
      Clashes lab i o ts
  | insn {i : Nat} {o : Opts} {ts rest : List (Kind × Nat)} {op : Op}
      (h : InstrText ⟨lab, addressOf i⟩ (ts.map Prod.fst) op) (hr : Clashes lab (i + 1) o rest) :
      Clashes lab i o (ts ++ rest)
  | option {i : Nat} {o o1 : Opts} {t next : Kind × Nat} {ts rest : List (Kind × Nat)}
      (h : OptionText o (t :: ts) o1) (hl : next.2 ≠ t.2) (hr : Clashes lab i o1 (next :: rest)) :
      Clashes lab i o (t :: ts ++ next :: rest)

/-- An assertion fails on the source `code`. -/
inductive Aborts (code : Str) : Prop
  /-- two parts of an instruction set the same bit -/
  | clash {lab : Str → Option Nat} {ts : List (Kind × Nat)} (hw : ¬ LastLineIsWord (visible code))
      (hl : IsLabelMap (visible code) lab) (hs : Starts 0 (visible code) ts) (h : Clashes lab 0 {} ts) : Aborts code
  /-- there are not as many instructions as semicolons -/
  | count {lab : Str → Option Nat} {ts : List (Kind × Nat)} {ops : List Op} {o : Opts}
      (hl : IsLabelMap (visible code) lab) (hs : Scans 0 (visible code) ts) (h : Program lab 0 {} ts ops o)
      (hn : ops.length ≠ code.count ';') : Aborts code

end Nxas.Spec
