import Verif.Lemmas.Names
/-
C56: names are encoded as their position in their table.
-/

namespace Nxas

set_option Elab.async false

open Spec

variable {dbg : Bool} {code : Str} {i : Nat} {op : Op}

/-- C56. No text is the name of two values of an operand. -/
theorem C56_distinct {row : Insn} (hr : row ∈ insnTable) {o : Operand} (ho : o ∈ row.operands) {T T' : NameTable}
    (hT : T ∈ o.names) (hT' : T' ∈ o.names) {n n' : Nat} {name name' : Str} (hn : T.names[n]? = some name)
    (hn' : T'.names[n']? = some name') (hne : name ≠ []) (hne' : name' ≠ []) (h : T.pfx ++ name = T'.pfx ++ name') : n = n' := by
  have h1 := Operand.mem_spellings hT hn hne
  rw [h] at h1
  exact Operand.named.unique (table_named _ hr _ ho) h1 (Operand.mem_spellings hT' hn' hne')

/-- C56. The instruction was written with the name of value `n` of an operand: then the field of the operand
    contains `n`. Excepted are the rows where the field is shared with another operand. -/
theorem C56_stored {row : Insn} {args : List (List Kind)} {j n : Nat} {o : Operand} {ks : List Kind} {T : NameTable} {name : Str}
    (h : Instr dbg code i row args op) (hj : row.operands[j]? = some o) (ha : args[j]? = some ks)
    (hr : row.mnemonic ∉ [c!"VMAD", c!"VMNMX", c!"VSETP", c!"TLDS"])
    (hT : T ∈ o.names) (hn : T.names[n]? = some name) (hne : name ≠ []) (hk : .ident (T.pfx ++ name) ∈ ks) :
    bitsAt op.value T.pos T.width = n := by
  have ho := List.mem_of_getElem? hj
  have hnamed := table_named _ h.mem _ ho
  obtain ⟨f1, f2, f3⟩ := Operand.named.field hnamed hT
  obtain ⟨e, v, k', b, r, d⟩ := h.decoded hj ha (table_names_alone _ h.mem hr j (List.getElem?_eq_some_iff.1 hj).1 o hj
    (List.ne_nil_of_mem hT))
  obtain ⟨x, rfl, hx⟩ := accepts_names hnamed hT hn hne d.accepts hk
  have hlt : n < T.names.length := (List.getElem?_eq_some_iff.1 hn).1
  rw [d.bits _ _ f3 f1, bitsAt_or, bitsAt_field (by omega) f1]
  rcases hx with rfl | ⟨s, rfl, hs⟩
  · rw [bitsAt_zero, Nat.or_zero]
  · rw [bitsAt_apart (u := 1) (by omega) (by omega), Nat.or_zero]

/-- A system register. -/
example : ∃ ks op, HasOperand true c!"S2R R4, SR_CLOCKLO;" 0 Opnd.s2r ks op ∧ op.value = 0xf0c8000005070004#64 :=
  opCheck_has (j := 2) (by decide +kernel)
example : (⟨[], Opnd.s2rTable, 20, 8⟩ : NameTable) ∈ Opnd.s2r.names ∧ Opnd.s2rTable[80]? = some c!"SR_CLOCKLO" ∧
  bitsAt 0xf0c8000005070004#64 20 8 = 80 := by decide +kernel

/-- A signed format: the names of the unsigned formats have the same values. -/
example : ∃ ks op, HasOperand true c!"I2F.F32.S16 R4, R2;" 0 Opnd.i2f_int_format ks op ∧ op.value = 0x5cb8000000272604#64 :=
  opCheck_has (j := 1) (by decide +kernel)
example : bitsAt 0x5cb8000000272604#64 10 2 = 1 ∧ bitsAt 0x5cb8000000272604#64 13 1 = 1 := by decide +kernel

/-- The text for system register `n`. -/
def systemRegister (n : Nat) : Str :=
  if n = 32 then c!"SR_TID" else if n = 33 then c!"SR_TID.X" else if n = 34 then c!"SR_TID.Y" else if n = 35 then c!"SR_TID.Z"
  else if n = 37 then c!"SR_CTAID.X" else if n = 38 then c!"SR_CTAID.Y" else if n = 39 then c!"SR_CTAID.Z"
  else Opnd.s2rTable.getD n []

/-- The system register `n` is encoded as its number. -/
def systemRegisterOk (n : Nat) : Prop :=
  assemble true (c!"S2R R4, " ++ systemRegister n ++ c!";") =
    .ok [0x001f8000fc0007e0#64, 0xf0c8000000070004#64 ||| field 20 n, 0x50b0000000070f00#64, 0x50b0000000070f00#64]

instance (n : Nat) : Decidable (systemRegisterOk n) := by unfold systemRegisterOk; infer_instance

theorem systemRegisters0 : ∀ n < 64, systemRegisterOk n := by decide +kernel
theorem systemRegisters1 : ∀ n < 64, systemRegisterOk (64 + n) := by decide +kernel
theorem systemRegisters2 : ∀ n < 64, systemRegisterOk (128 + n) := by decide +kernel
theorem systemRegisters3 : ∀ n < 64, systemRegisterOk (192 + n) := by decide +kernel

/-- C56. Every system register can be written, and is encoded as its number. -/
theorem C56_system_registers : ∀ n < 256,
    assemble true (c!"S2R R4, " ++ systemRegister n ++ c!";") =
      .ok [0x001f8000fc0007e0#64, 0xf0c8000000070004#64 ||| field 20 n, 0x50b0000000070f00#64, 0x50b0000000070f00#64] := by
  intro n hn
  by_cases h0 : n < 64
  · exact systemRegisters0 n h0
  by_cases h1 : n < 128
  · have := systemRegisters1 (n - 64) (by omega)
    rwa [show 64 + (n - 64) = n by omega] at this
  by_cases h2 : n < 192
  · have := systemRegisters2 (n - 128) (by omega)
    rwa [show 128 + (n - 128) = n by omega] at this
  · have := systemRegisters3 (n - 192) (by omega)
    rwa [show 192 + (n - 192) = n by omega] at this

end Nxas
