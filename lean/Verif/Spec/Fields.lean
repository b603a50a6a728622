import Verif.Model.Parse
/-
Which bits of the instruction word each operand owns.  This is a description of the instruction
format, written independently of what the operand parsers do.
-/

namespace Nxas

/-- A set of bits: first bit and number of bits. Bits 64, 65, 66 stand for the three reuse flags. -/
abbrev Field := Nat × Nat

/-- Bit `i` belongs to one of the fields. -/
def inF (fs : List Field) (i : Nat) : Prop := ∃ f ∈ fs, f.1 ≤ i ∧ i < f.1 + f.2

/-- Two fields have no bit in common. -/
def Field.apart (f g : Field) : Bool := f.1 + f.2 ≤ g.1 || g.1 + g.2 ≤ f.1

/-- All fields of the list are apart. -/
def apartList : List Field → Bool
  | [] => true
  | f :: fs => fs.all f.apart && apartList fs

/-- Number of bits of the numbers up to `n`. -/
def width (n : Nat) : Nat := n.log2 + 1

/-- The set bits of a constant. -/
def setBits (b : BitVec 64) : List Field :=
  ((List.range 64).filter (fun i => b.getLsbD i)).map (fun i => (i, 1))

/-- The reuse flag of a register position. -/
def reuseFields (address : Nat) : List Field :=
  if address = 8 then [(64, 1)] else if address = 20 then [(65, 1)]
  else if address = 39 then [(66, 1)] else []

/-- The bits an operand parser may set.  (`mirrorGpr`, `tldsType` and `texsType` also clear bits, see
    `Operand.cleared`.) -/
def Operand.fields : Operand → List Field
  | .flag _ a => [(a, 1)]
  | .uint m a => [(a, width m.toNat)]
  | .sint b a => [(a, b)]
  | .dotTable d a t => [(a, width (max (t.length - 1) (d.getD 0)))]
  | .uimmExtended => [(20, 20), (56, 1)]
  | .comma => []
  | .label => [(20, 24)]
  | .gpr a => (a, 8) :: reuseFields a
  | .mirrorGpr a => reuseFields a
  | .cbuf => [(34, 5), (20, 14)]
  | .imm20 => [(20, 19), (56, 1)]
  | .fimm w => if w then [(20, 32)] else [(20, 19), (56, 1)]
  | .dimm20 => [(20, 19), (56, 1)]
  | .himm w o n => (o, if w then 16 else 9) :: (match n with | some n => [(n, 1)] | none => [])
  | .bop a => [(a, 2)]
  | .pred a n => (a, 3) :: (if n then [(a + 3, 1)] else [])
  | .invertedPred a => [(a, 3)]
  | .neg a => [(a, 1)]
  | .tilde a => [(a, 1)]
  | .abs a inner => (a, 1) :: inner.fields
  | .po a b => [(a, 1), (b, 1)]
  | .defaultRz a => [(a, 8)]
  | .memAddress i a s _ => (8, 8) :: (64, 1) :: (if i then [(a, s)] else [])
  | .ccTests a t => [(a, width (max (t.length - 1) 15))]
  | .expect _ pre post => (pre ++ post).flatMap setBits
  | .optText _ => []
  | .immAttr => [(20, 10), (8, 8)]
  | .patchAttr => [(8, 8), (64, 1), (20, 11)]
  | .physAttr => [(8, 8), (64, 1)]
  | .xmadSigns => [(48, 1), (49, 1)]
  | .f2fRounding => [(39, 2), (42, 1)]
  | .intFormat u s a b => [(a, width (max (u.length - 1) (s.length - 1))), (b, 1)]
  | .plainTable a t => [(a, width (t.length - 1))]
  | .selector a _ _ s b => [(a, width (max (s.length - 1) (b.length - 1)))]
  | .ldcAddress => [(36, 5), (8, 8), (64, 1), (20, 16)]
  | .s2r t => [(20, width (max (t.length - 1) 39))]
  | .ldgSize => [(48, 3)]
  | .atomicSize a => [(a, 3)]
  | .srcFormat a s => [(a, 2), (s, 1)]
  | .immFormat s => [(s, 1)]
  | .texType a => [(a, 3)]
  | .zero => []
  | .texsMode a => [(a, 3)]
  | .tldsType a => [(a, 4)]
  | .texsType _ => [(53, 4)]
  | .texsSwizzle => [(50, 3)]

/-- Bit `i` of the instruction word, or reuse flag `i - 64`. -/
def Op.bit (o : Op) (i : Nat) : Bool :=
  if i < 64 then o.value.getLsbD i else o.reuse.getLsbD (i - 64)

/-- The bits that an operand parser requires to be unset. -/
def Operand.need : Operand → List Field
  | .tldsType a => [(a + 3, 1)]
  | .texsType _ => [(56, 1)]
  | o => o.fields

/-- The bits owned by the operands of a row. -/
def Insn.owns (row : Insn) (i : Nat) : Prop := ∃ o ∈ row.operands, inF o.fields i

/-- No operand requires a bit that an operand before it (or `used`) owns. -/
def opsApart : List Field → List Operand → Bool
  | _, [] => true
  | used, o :: os => (o.need.all fun f => used.all f.apart) && opsApart (o.fields ++ used) os

/-- The guard predicate and the opcode of a row, and its operands, use different bits. -/
def Insn.apart (row : Insn) : Bool :=
  (setBits row.opcode).all (Field.apart (16, 4)) &&
    opsApart ((16, 4) :: setBits row.opcode) row.operands

/-- The `j`-th operand of a row shares no bit with the other operands. -/
def Insn.alone (row : Insn) (j : Nat) : Bool :=
  match row.operands[j]? with
  | none => true
  | some o => (row.operands.take j ++ row.operands.drop (j + 1)).all fun o' =>
      o.fields.all fun f => o'.fields.all f.apart

end Nxas
