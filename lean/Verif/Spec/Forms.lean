import Verif.Model.Table
/-
The forms of an instruction: its second source is a register, a constant or an immediate, or its third source is a
constant.  The upper bits of the word say which; everything else is the same.
-/

namespace Nxas.Spec

open Nxas

inductive Form where
  /-- the second source is a constant -/
  | constant
  /-- the third source is a constant, and the second source is a register in the place of the third -/
  | third
  /-- the second source is a 20-bit immediate -/
  | immediate
  deriving DecidableEq, Repr

/-- The word of this form, given the word of the form with registers.  Bits 59 to 63 are `01011` for registers, `01001`
    for a constant, `01010` for a constant as third source.  With an immediate, whose sign is bit 56, bits 60 to 63 are
    `0011`, and the three bits below are moved up by one bit. -/
def Form.word : Form → BitVec 64 → BitVec 64
  | .constant, w => w &&& ~~~(1#64 <<< 60)
  | .third, w => w &&& ~~~(1#64 <<< 59)
  | .immediate, w => (w &&& (1#64 <<< 56) - 1) ||| (3#64 <<< 60) ||| (w >>> 56 &&& 7) <<< 57

/-- One operand in the place of another. -/
def replaced (f : Operand → Operand → Bool) (os os' : List Operand) : Prop :=
  ∃ pre post x y, os = pre ++ x :: post ∧ os' = pre ++ y :: post ∧ f x y = true

/-- A constant in the place of the register of the second source, within bars or not. -/
def constantFor : Operand → Operand → Bool
  | .gpr 20, .cbuf => true
  | .abs a (.gpr 20), .abs b .cbuf => a == b
  | _, _ => false

/-- An immediate in the place of the register of the second source. -/
def immediateFor : Operand → Operand → Bool
  | .gpr 20, .imm20 | .gpr 20, .fimm false | .gpr 20, .dimm20 => true
  | _, _ => false

/-- The operands `os'` are those of the form, if `os` are those of the form with registers. -/
def Form.operands : Form → List Operand → List Operand → Prop
  | .constant => replaced constantFor
  | .immediate => replaced immediateFor
  | .third => fun os os' => ∃ pre mid post, os = pre ++ .gpr 20 :: (mid ++ .gpr 39 :: post) ∧
      os' = pre ++ .gpr 39 :: (mid ++ .cbuf :: post)

/-- The rows of a mnemonic agree with each other on its opcode. -/
def Regular (a b : Insn) : Prop :=
  a.mnemonic = b.mnemonic → ∀ f : Form, f.operands a.operands b.operands → f.word a.opcode = b.opcode

end Nxas.Spec
