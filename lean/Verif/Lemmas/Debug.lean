import Verif.Lemmas.Abort
/-
A build with assertions differs from a build without only by aborting.
-/

namespace Nxas

open Spec

/-- With assertions the computation aborts or does the same as without. -/
def DbgSame (m : M α) : Prop := ∀ s, m true s = .abort ∨ m true s = m false s

namespace DbgSame

theorem bind {m : M α} {f : α → M β} (hm : DbgSame m) (hf : ∀ a, DbgSame (f a)) : DbgSame (m >>= f) := by
  intro s
  rw [M.bind_def, M.bind_def]
  rcases hm s with h | h
  · rw [h]; exact .inl rfl
  · rw [h]
    cases m false s with
    | ok a s' => exact hf a s'
    | _ => exact .inr rfl

/-- Computations that do not ask whether assertions are compiled in. -/
theorem of_eq {m : M α} (h : ∀ s, m true s = m false s) : DbgSame m := fun s => .inr (h s)

theorem addBits (b : BitVec 64) : DbgSame (addBits b) := by
  intro s
  unfold Nxas.addBits
  split
  · exact .inl rfl
  · exact .inr rfl

theorem addReuse (b : BitVec 32) : DbgSame (addReuse b) := by
  intro s
  unfold Nxas.addReuse
  split
  · exact .inl rfl
  · exact .inr rfl

theorem blameStart (msg : Msg) {m : M α} (hm : DbgSame m) : DbgSame (blameStart msg m) := by
  intro s
  unfold Nxas.blameStart
  rcases hm s with h | h
  · rw [h]; exact .inl rfl
  · rw [h]; exact .inr rfl

theorem raising {m : M α} (hm : DbgSame m) : DbgSame (raising m) := by
  intro s
  unfold Nxas.raising
  rcases hm s with h | h
  · rw [h]; exact .inl rfl
  · rw [h]; exact .inr rfl

theorem closed : Closed @DbgSame where
  pure _ := of_eq fun _ => rfl
  bind _ _ := bind
  getKind := of_eq fun _ => rfl
  getValue := of_eq fun _ => rfl
  setValue _ := of_eq fun _ => rfl
  failTok _ := of_eq fun _ => rfl
  blameStart msg _ := blameStart msg
  advance := of_eq fun _ => rfl
  addBits := addBits
  addReuse b _ := addReuse b
  confirm _ := of_eq fun _ => rfl
  confirmIdent := of_eq fun _ => rfl
  confirmReg := of_eq fun _ => rfl
  confirmPred := of_eq fun _ => rfl
  convertInteger _ _ := of_eq fun _ => rfl
  findInTable _ _ := of_eq fun _ => rfl

theorem getTok : DbgSame getTok := of_eq fun _ => rfl
theorem getCtx : DbgSame getCtx := of_eq fun _ => rfl
theorem ub (u : UB) : DbgSame (ubM u : M α) := of_eq fun _ => rfl
theorem exitTok (msg : Msg) : DbgSame (exitTok msg : M α) := of_eq fun _ => rfl
theorem modifyOpts (f : Opts → Opts) : DbgSame (modifyOpts f) := of_eq fun _ => rfl

theorem ite (c : Prop) [Decidable c] (a b : M α) (ha : DbgSame a) (hb : DbgSame b) :
    DbgSame (if c then a else b) := by split <;> assumption

theorem operand (o : Operand) : DbgSame o.run :=
  closed.run_all getCtx (ub _) (ub _) (fun _ _ => of_eq fun _ => rfl) o

theorem checkOptionLine (n : Nat) : DbgSame (checkOptionLine n) :=
  bind getTok fun _ => ite _ _ _ (exitTok _) (closed.pure _)

theorem parseType (n : Nat) : DbgSame (parseType n) := by
  refine bind getCtx fun c => ite _ _ _ (exitTok _) ?_
  refine bind closed.advance fun _ => bind (checkOptionLine n) fun _ => bind getTok fun t => ?_
  cases progTypeOfName t with
  | some p => exact modifyOpts _
  | none => exact ite _ _ _ (exitTok _) (ub _)

theorem nextImmediate (msg : Msg) : DbgSame (nextImmediate msg) := by
  refine bind closed.advance fun _ => bind getTok fun t => ?_
  cases t.kind <;> first | exact closed.pure _ | exact exitTok _

theorem optionBody (t : Token) : DbgSame (optionBody t) := by
  unfold Nxas.optionBody
  refine ite _ _ _ (bind (modifyOpts _) fun _ => parseType _) ?_
  refine ite _ _ _ (parseType _) ?_
  refine ite _ _ _ (bind closed.advance fun _ => bind getTok fun t => ?_) ?_
  · cases t.kind <;> first | exact exitTok _ | exact ub _
  refine ite _ _ _ (bind (nextImmediate _) fun _ => bind (modifyOpts _) fun _ =>
    bind (nextImmediate _) fun _ => bind (modifyOpts _) fun _ => bind (nextImmediate _) fun _ =>
    bind (modifyOpts _) fun _ => checkOptionLine _) ?_
  refine ite _ _ _ (bind (nextImmediate _) fun _ => modifyOpts _) ?_
  exact ite _ _ _ (bind (nextImmediate _) fun _ => modifyOpts _) (closed.pure _)

theorem parseOption : DbgSame parseOption :=
  bind getTok fun t0 => bind (optionBody t0) fun _ => bind closed.advance fun _ => bind getTok fun _ =>
    ite _ _ _ (exitTok _) (closed.pure _)

theorem parseOptions (n : Nat) : DbgSame (parseOptions n) := by
  induction n with
  | zero => exact ub _
  | succ n ih => exact bind getTok fun t => ite _ _ _ (bind parseOption fun _ => ih) (closed.pure _)

theorem schedLoop (n : Nat) (r : Sched) : DbgSame (schedLoop n r) := by
  induction n generalizing r with
  | zero => exact ub _
  | succ n ih =>
    exact bind closed.getKind fun t => ite _ _ _ (bind (closed.schedStep r) fun r' => ih r') (closed.pure _)

theorem finishInsn : DbgSame finishInsn := by
  refine bind ?_ fun _ => closed.confirm _
  intro s
  unfold assembleSched
  exact bind (schedLoop _ _) (fun r => of_eq fun _ => rfl) s

theorem parsePrologue : DbgSame parsePrologue := by
  refine bind (of_eq fun _ => rfl) fun _ => bind getTok fun t => ?_
  have hend : DbgSame (do
      let t2 ← Nxas.getTok
      match t2.kind with
      | .ident _ => M.pure ()
      | _ => Nxas.exitTok "expected mnemonic" : M Unit) := by
    refine bind getTok fun t => ?_
    cases t.kind <;> first | exact closed.pure _ | exact exitTok _
  refine ite _ _ _ ?_ ?_
  · exact bind closed.advance fun _ => bind (raising (bind closed.confirmPred fun p => addBits _)) fun _ =>
      bind closed.advance fun _ => hend
  · exact bind (addBits _) fun _ => hend

theorem startInsn (i : Insn) : DbgSame (startInsn i) :=
  bind (addBits _) fun _ => bind closed.advance fun _ => bind closed.getValue fun _ =>
    ite _ _ _ (closed.failTok _) (closed.pure _)

end DbgSame

theorem runOperands_debug (os : List Operand) (n : Nat) (s : St) :
    (runOperands os n true s).1 = .abort ∨ runOperands os n true s = runOperands os n false s := by
  induction os generalizing n s with
  | nil => exact .inr rfl
  | cons o os ih =>
    unfold runOperands
    rcases DbgSame.operand o s with h | h
    · rw [h]; exact .inl rfl
    · rw [h]
      cases o.run false s with
      | ok a s' => exact ih _ _
      | _ => exact .inr rfl

theorem parseInsn_debug (i : Insn) (s : St) :
    (parseInsn i true s).1 = .abort ∨ parseInsn i true s = parseInsn i false s := by
  unfold parseInsn
  rcases DbgSame.startInsn i s with h | h
  · rw [h]; exact .inl rfl
  · rw [h]
    cases hs : startInsn i false s with
    | ok a s' =>
      dsimp only
      rcases runOperands_debug i.operands 1 s' with h | h
      · generalize runOperands i.operands 1 true s' = x at h
        obtain ⟨x1, x2⟩ := x
        dsimp only at h
        subst h
        exact .inl rfl
      · rw [h]
        generalize runOperands i.operands 1 false s' = x
        obtain ⟨x1, x2⟩ := x
        cases x1 with
        | ok a s2 =>
          dsimp only
          rcases DbgSame.finishInsn s2 with h | h
          · rw [h]; exact .inl rfl
          · rw [h]; exact .inr rfl
        | _ => exact .inr rfl
    | _ => exact .inr rfl

theorem tryRows_debug (mn : Token) (saved : St) (rows : List Insn) (best : Option (Err × Nat)) (s : St) :
    tryRows mn saved rows best true s = .abort ∨
      tryRows mn saved rows best true s = tryRows mn saved rows best false s := by
  induction rows generalizing best s with
  | nil => exact .inr rfl
  | cons i is ih =>
    unfold tryRows
    split
    · exact ih _ _
    · rcases parseInsn_debug i s with h | h
      · generalize parseInsn i true s = x at h
        obtain ⟨x1, x2⟩ := x
        dsimp only at h
        subst h
        exact .inl rfl
      · rw [h]
        generalize parseInsn i false s = x
        obtain ⟨x1, x2⟩ := x
        cases x1 with
        | fail e s' => exact ih _ _
        | _ => exact .inr rfl

theorem parseInstruction_debug (table : List Insn) : DbgSame (parseInstruction table) := by
  refine DbgSame.bind DbgSame.closed.advance fun _ => DbgSame.bind DbgSame.getTok fun t => ?_
  refine DbgSame.ite _ _ _ (DbgSame.closed.pure _) ?_
  refine DbgSame.bind (fun s => DbgSame.parseOptions _ s) fun _ => DbgSame.bind DbgSame.parsePrologue fun _ =>
    DbgSame.bind (fun s => tryRows_debug _ _ _ _ _) fun _ => DbgSame.closed.pure _

theorem parseAll_debug (table : List Insn) (n : Nat) (c : Ctx) :
    parseAll table true n c = .abort ∨ parseAll table true n c = parseAll table false n c := by
  induction n generalizing c with
  | zero => exact .inr rfl
  | succ n ih =>
    unfold parseAll
    rcases parseInstruction_debug table ⟨c, ⟨.none, 0, 0⟩, {}⟩ with h | h
    · rw [h]; exact .inl rfl
    · rw [h]
      cases parseInstruction table false ⟨c, ⟨.none, 0, 0⟩, {}⟩ with
      | ok a s =>
        cases a with
        | false => exact .inr rfl
        | true =>
          dsimp only
          rcases ih s.ctx with h | h
          · rw [h]; exact .inl rfl
          · rw [h]; exact .inr rfl
      | _ => exact .inr rfl

theorem assembleWith_debug (table : List Insn) (code : Str) :
    assembleWith table true code = .abort ∨ assembleWith table true code = assembleWith table false code := by
  unfold assembleWith
  cases genLabels (cstr code) with
  | error u => exact .inr rfl
  | ok ls =>
    dsimp only
    rcases parseAll_debug table (countSemicolons code + 1) ⟨⟨cstr code, 0, 0⟩, ls, 0, {}⟩ with h | h
    · rw [h]; exact .inl rfl
    · rw [h]
      cases parseAll table false (countSemicolons code + 1) ⟨⟨cstr code, 0, 0⟩, ls, 0, {}⟩ with
      | ok a =>
        obtain ⟨ops, c⟩ := a
        dsimp only
        split
        · exact .inl rfl
        · exact .inr (by simp)
      | _ => exact .inr rfl

end Nxas
