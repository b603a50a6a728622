import Verif.Lemmas.Distinct
import Verif.Lemmas.Witness
/-
C62 and C63: what an instruction word says about the instruction it was assembled from.
-/

namespace Nxas

open Spec

/-- C62. Two accepted instructions, of whatever sources and builds, that are encoded as the same word
    have the same mnemonic. -/
theorem C62_mnemonic {dbg dbg' : Bool} {code code' : Str} {i i' : Nat} {c c' : Ctx} {s s' : St}
    (h : InstrAt dbg code i c s) (h' : InstrAt dbg' code' i' c' s') {g g' : Option (Nat × Bool)} {m m' : Str}
    {r r' : List Kind} {t t' : Cur} (hr : Reads c.cur (guardTokens g ++ .ident m :: r) t)
    (hr' : Reads c'.cur (guardTokens g' ++ .ident m' :: r') t') (hm : m.head? ≠ some '.')
    (hm' : m'.head? ≠ some '.') (hw : s.op.value = s'.op.value) : m = m' := by
  obtain ⟨e⟩ := h.encoding
  obtain ⟨e'⟩ := h'.encoding
  rw [← e.written hr hm, ← e'.written hr' hm']
  by_contra hne
  rcases forall_pairs (R := fun a b => a.differs b = true ∨ a.mnemonic = b.mnemonic)
    (fun a b h => by rw [b.differs_comm]; exact h.imp_right Eq.symm) (fun _ => .inr rfl)
    (table_told.imp fun h => h.imp_right And.left) _ e.inTable _ e'.inTable with hd | hd
  · exact e.differ e' hd hw
  · exact hne hd

/-- `MOV` is encoded like `MOV` with the full mask. -/
example : ∃ c s cur, InstrAt true c!"NOP; @!P3 MOV R1, R2;" 1 c s ∧
    Reads c.cur (guardTokens (some (3, true)) ++ .ident c!"MOV" :: [.reg 1, .comma, .reg 2]) cur ∧
    s.op.value = 0x5c980780002b0001#64 := instrCheck_at (by decide +kernel)
example : ∃ c s cur, InstrAt false c!"@!P3 MOV R1, R2, 0xF;" 0 c s ∧
    Reads c.cur (guardTokens (some (3, true)) ++ .ident c!"MOV" :: [.reg 1, .comma, .reg 2, .comma]) cur ∧
    s.op.value = 0x5c980780002b0001#64 := instrCheck_at (by decide +kernel)

/-- The operands of an instruction can be told apart by its word: two rows whose operands are the same in a
    different order give different words. -/
def OrderEncoded (row row' : Insn) : Prop :=
  row.operands.Perm row'.operands → row ≠ row' → ∀ {dbg dbg' code code' i i' args args' op op'},
    Instr dbg code i row args op → Instr dbg' code' i' row' args' op' → op.value ≠ op'.value

/-- C63 does not hold: `ICMP` with a register and a constant is encoded like `ICMP` with the constant and
    the register. -/
theorem C63_violated : (¬ ∀ row ∈ insnTable, ∀ row' ∈ insnTable, OrderEncoded row row') ∧
    ∃ words, assemble true c!"ICMP.GE.U32 R4, R5, R7, c[2][0];" = .ok words ∧
      assemble true c!"ICMP.GE.U32 R4, R5, c[2][0], R7;" = .ok words := by
  refine ⟨fun h => ?_, [0x001f8000fc0007e0, 0x534c038800070504, 0x50b0000000070f00, 0x50b0000000070f00], by decide +kernel,
    by decide +kernel⟩
  have h1 : (instrRow true c!"ICMP.GE.U32 R4, R5, R7, c[2][0];" 0).map (fun p => (p.1, p.2.value)) =
    some (147, 0x534c038800070504) := by decide +kernel
  have h2 : (instrRow true c!"ICMP.GE.U32 R4, R5, c[2][0], R7;" 0).map (fun p => (p.1, p.2.value)) =
    some (148, 0x534c038800070504) := by decide +kernel
  simp only [Option.map_eq_some_iff, Prod.exists, Prod.mk.injEq] at h1 h2
  obtain ⟨n, op, h1, rfl, hv⟩ := h1
  obtain ⟨n', op', h2, rfl, hv'⟩ := h2
  obtain ⟨row, args, hn, hi⟩ := instr_of_row h1
  obtain ⟨row', args', hn', hi'⟩ := instr_of_row h2
  have hp : ∀ a b, insnTable[147]? = some a → insnTable[148]? = some b → a.operands.Perm b.operands ∧ a ≠ b := by
    have hk : ∀ a ∈ insnTable[147]?, ∀ b ∈ insnTable[148]?, a.operands.isPerm b.operands = true ∧ a ≠ b := by decide +kernel
    intro a b ha hb
    obtain ⟨h1, h2⟩ := hk a ha b hb
    exact ⟨List.isPerm_iff.1 h1, h2⟩
  obtain ⟨h3, h4⟩ := hp _ _ hn hn'
  exact h row hi.mem row' hi'.mem h3 h4 hi hi' (hv.trans hv'.symm)

/-- Missing: `ICMP`, for which it is false. -/
theorem C63_partial {row row' : Insn} (hr : row ∈ insnTable) (hr' : row' ∈ insnTable) (hi : row.mnemonic ≠ c!"ICMP") :
    OrderEncoded row row' := by
  intro hp hne _ _ _ _ _ _ _ _ _ _ h h'
  rcases forall_pairs (R := fun a b => a = b ∨ a.differs b = true ∨ a.mnemonic = b.mnemonic ∧
      (a.operands.isPerm b.operands = true → a.mnemonic = c!"ICMP"))
    (fun a b h => by
      rcases h with rfl | h | ⟨h1, h2⟩
      · exact .inl rfl
      · exact .inr (.inl (by rw [b.differs_comm]; exact h))
      · exact .inr (.inr ⟨h1.symm, fun h => by
          rw [← h1]; exact h2 (List.isPerm_iff.2 (List.isPerm_iff.1 h).symm)⟩))
    (fun _ => .inl rfl) (table_told.imp .inr) _ hr _ hr' with rfl | hd | ⟨-, hd⟩
  · exact (hne rfl).elim
  · exact h.differ h' hd
  · exact (hi (hd (List.isPerm_iff.2 hp))).elim

/-- Two rows of `FCMP`, with the constant before and after the register. -/
example : ∃ row ∈ insnTable, ∃ row' ∈ insnTable, row.mnemonic = c!"FCMP" ∧ row.operands.isPerm row'.operands = true ∧ row ≠ row' := by
  decide +kernel

end Nxas
