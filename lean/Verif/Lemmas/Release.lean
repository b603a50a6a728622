import Verif.Lemmas.Debug
/-
A build without assertions never aborts.
-/

namespace Nxas

open Spec

/-- Without assertions the computation does not abort. -/
def Quiet (m : M α) : Prop := ∀ s, m false s ≠ .abort

namespace Quiet

theorem of_calm {m : M α} (h : Calm m) : Quiet m := h false

theorem bind {m : M α} {f : α → M β} (hm : Quiet m) (hf : ∀ a, Quiet (f a)) : Quiet (m >>= f) := by
  intro s h
  rw [M.bind_def] at h
  cases hr : m false s <;> rw [hr] at h <;> simp at h
  · exact hf _ _ h
  · exact hm _ hr

theorem addBits (b : BitVec 64) : Quiet (addBits b) := by
  intro s
  simp [Nxas.addBits]

theorem addReuse (b : BitVec 32) : Quiet (addReuse b) := by
  intro s
  simp [Nxas.addReuse]

theorem blameStart (msg : Msg) {m : M α} (hm : Quiet m) : Quiet (blameStart msg m) := by
  intro s
  unfold Nxas.blameStart
  have := hm s
  cases h : m false s <;> simp_all

theorem raising {m : M α} (hm : Quiet m) : Quiet (raising m) := by
  intro s
  unfold Nxas.raising
  have := hm s
  cases h : m false s <;> simp_all

theorem closed : Closed @Quiet where
  pure _ := of_calm (Calm.pure _)
  bind _ _ := bind
  getKind := of_calm Calm.getKind
  getValue := of_calm (Calm.of_readOnly ReadOnly.getValue)
  setValue _ := fun s => by simp [setValue]
  failTok _ := of_calm (Calm.failTok _)
  blameStart msg _ := blameStart msg
  advance := of_calm Calm.advance
  addBits := addBits
  addReuse b _ := addReuse b
  confirm _ := of_calm (Calm.of_readOnly (ReadOnly.confirm _))
  confirmIdent := of_calm (Calm.of_readOnly ReadOnly.confirmIdent)
  confirmReg := of_calm (Calm.of_readOnly ReadOnly.confirmReg)
  confirmPred := of_calm (Calm.of_readOnly ReadOnly.confirmPred)
  convertInteger _ _ := of_calm (Calm.of_readOnly (ReadOnly.convertInteger _ _))
  findInTable _ _ := of_calm (Calm.of_readOnly (ReadOnly.findInTable _ _ _))

theorem ite (c : Prop) [Decidable c] (a b : M α) (ha : Quiet a) (hb : Quiet b) :
    Quiet (if c then a else b) := by split <;> assumption

theorem operand (o : Operand) : Quiet o.run :=
  closed.run_all (of_calm Calm.getCtx) (of_calm (Calm.ub _)) (of_calm (Calm.ub _))
    (fun _ _ => of_calm (Calm.of_readOnly (ReadOnly.findInTable _ _ _))) o

theorem parsePrologue : Quiet parsePrologue := by
  refine bind (fun s => by simp [modifyPc]) fun _ => bind (of_calm Calm.getTok) fun t => ?_
  have hend : Quiet (do
      let t2 ← Nxas.getTok
      match t2.kind with
      | .ident _ => M.pure ()
      | _ => Nxas.exitTok "expected mnemonic" : M Unit) := by
    refine bind (of_calm Calm.getTok) fun t => ?_
    cases t.kind <;> first | exact closed.pure _ | exact of_calm (Calm.exitTok _)
  refine ite _ _ _ ?_ ?_
  · exact bind closed.advance fun _ => bind (raising (bind closed.confirmPred fun p => addBits _)) fun _ =>
      bind closed.advance fun _ => hend
  · exact bind (addBits _) fun _ => hend

theorem startInsn (i : Insn) : Quiet (startInsn i) :=
  bind (addBits _) fun _ => bind closed.advance fun _ => bind closed.getValue fun _ =>
    ite _ _ _ (closed.failTok _) (closed.pure _)

end Quiet

theorem runOperands_quiet (os : List Operand) (n : Nat) (s : St) : (runOperands os n false s).1 ≠ .abort := by
  induction os generalizing n s with
  | nil => simp [runOperands]
  | cons o os ih =>
    unfold runOperands
    have := Quiet.operand o s
    cases h : o.run false s <;> simp_all

theorem parseInsn_quiet (i : Insn) (s : St) : (parseInsn i false s).1 ≠ .abort := by
  unfold parseInsn
  have := Quiet.startInsn i s
  cases hs : startInsn i false s with
  | ok a s' =>
    dsimp only
    have h := runOperands_quiet i.operands 1 s'
    obtain ⟨x, hx⟩ : ∃ x, runOperands i.operands 1 false s' = x := ⟨_, rfl⟩
    rw [hx] at h ⊢
    obtain ⟨x1, x2⟩ := x
    cases x1 with
    | ok a s2 => exact Calm.finishInsn false s2
    | _ => simp_all
  | _ => simp_all

theorem tryRows_quiet (mn : Token) (saved : St) (rows : List Insn) (best : Option (Err × Nat)) (s : St) :
    tryRows mn saved rows best false s ≠ .abort := by
  induction rows generalizing best s with
  | nil => unfold tryRows; split <;> simp
  | cons i is ih =>
    unfold tryRows
    split
    · exact ih _ _
    · have h := parseInsn_quiet i s
      obtain ⟨x, hx⟩ : ∃ x, parseInsn i false s = x := ⟨_, rfl⟩
      rw [hx] at h ⊢
      obtain ⟨x1, x2⟩ := x
      cases x1 with
      | fail e s' => exact ih _ _
      | _ => simp_all

theorem parseInstruction_quiet (table : List Insn) : Quiet (parseInstruction table) := by
  refine Quiet.bind Quiet.closed.advance fun _ => Quiet.bind (Quiet.of_calm Calm.getTok) fun t => ?_
  refine Quiet.ite _ _ _ (Quiet.closed.pure _) ?_
  refine Quiet.bind (fun s => Calm.parseOptions _ false s) fun _ => Quiet.bind Quiet.parsePrologue fun _ =>
    Quiet.bind (fun s => tryRows_quiet _ _ _ _ _) fun _ => Quiet.closed.pure _

theorem parseAll_quiet (table : List Insn) (n : Nat) (c : Ctx) : parseAll table false n c ≠ .abort := by
  induction n generalizing c with
  | zero => simp [parseAll]
  | succ n ih =>
    unfold parseAll
    have := parseInstruction_quiet table ⟨c, ⟨.none, 0, 0⟩, {}⟩
    cases h : parseInstruction table false ⟨c, ⟨.none, 0, 0⟩, {}⟩ with
    | ok a s =>
      cases a with
      | false => simp
      | true =>
        dsimp only
        have := ih s.ctx
        cases h : parseAll table false n s.ctx <;> simp_all
    | _ => simp_all

/-- Without assertions nothing aborts. -/
theorem assembleWith_quiet (table : List Insn) (code : Str) : assembleWith table false code ≠ .abort := by
  intro h
  unfold assembleWith at h
  cases hl : genLabels (cstr code) with
  | error u => rw [hl] at h; simp at h
  | ok ls =>
    rw [hl] at h
    dsimp only at h
    have hq := parseAll_quiet table (countSemicolons code + 1) ⟨⟨cstr code, 0, 0⟩, ls, 0, {}⟩
    cases hp : parseAll table false (countSemicolons code + 1) ⟨⟨cstr code, 0, 0⟩, ls, 0, {}⟩ with
    | ok r =>
      obtain ⟨ops, c⟩ := r
      rw [hp] at h
      simp only [Bool.false_and, Bool.false_eq_true, if_false] at h
      exact binary_calm _ _ h
    | abort => exact hq hp
    | _ => rw [hp] at h; simp at h

end Nxas
