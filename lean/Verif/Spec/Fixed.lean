import Verif.Spec.Fields
/-
Bits that an operand sets whatever is written.
-/

namespace Nxas

/-- The bits that are set in all instructions with this operand: those of keywords, and the number of the zero register where there is no
    register to write. -/
def Operand.fixed : Operand → List Field
  | .defaultRz a => [(a, 8)]
  | .immAttr => [(8, 8)]
  | .expect _ pre post => (pre ++ post).flatMap setBits
  | _ => []

/-- The bits set in all instructions of the row: those of its opcode, the fixed ones of its operands, and the number of the guard
    predicate if there can be none but `PT`. -/
def Insn.alwaysSet (row : Insn) (i : Nat) : Prop :=
  row.opcode.getLsbD i = true ∨ (row.flags % 2 = 1 ∧ 16 ≤ i ∧ i < 19) ∨ ∃ o ∈ row.operands, inF o.fixed i

/-- The bits that some instruction of the row may set: those of its opcode, those of its operands, and the guard. -/
def Insn.maySet (row : Insn) (i : Nat) : Prop := row.opcode.getLsbD i = true ∨ (16 ≤ i ∧ i < 20) ∨ row.owns i

end Nxas
