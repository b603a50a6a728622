import Verif.Lemmas.Rows
/-
Where an assertion can fire.
-/

namespace Nxas

open Spec

/-- The computation never fires an assertion. -/
def Calm (m : M α) : Prop := ∀ dbg s, m dbg s ≠ .abort

namespace Calm

theorem bind {m : M α} {f : α → M β} (hm : Calm m) (hf : ∀ a, Calm (f a)) : Calm (m >>= f) := by
  intro dbg s h
  rw [M.bind_def] at h
  cases hr : m dbg s <;> rw [hr] at h <;> simp at h
  · exact hf _ _ _ h
  · exact hm _ _ hr

theorem of_readOnly {m : M α} (h : ReadOnly m) : Calm m := by
  intro dbg s hm
  rcases h dbg s with ⟨b, hb⟩ | ⟨msg, hb⟩ | ⟨u, hb⟩ <;> rw [hb] at hm <;> simp at hm

theorem advance : Calm advance := by
  intro dbg s h
  unfold Nxas.advance at h
  split at h <;> simp at h

theorem exitTok (msg : Msg) : Calm (exitTok msg : M α) := by intro dbg s h; simp [Nxas.exitTok] at h
theorem ub (u : UB) : Calm (ubM u : M α) := of_readOnly (ReadOnly.ub u)
theorem pure (a : α) : Calm (M.pure a) := of_readOnly (ReadOnly.pure a)
theorem getTok : Calm getTok := of_readOnly ReadOnly.getTok
theorem getCtx : Calm getCtx := of_readOnly ReadOnly.getCtx
theorem getKind : Calm getKind := of_readOnly ReadOnly.getKind
theorem failTok (msg : Msg) : Calm (failTok msg : M α) := of_readOnly (ReadOnly.failTok msg)
theorem modifyOpts (f : Opts → Opts) : Calm (modifyOpts f) := by
  intro dbg s h; simp [Nxas.modifyOpts] at h

theorem ite (c : Prop) [Decidable c] (a b : M α) (ha : Calm a) (hb : Calm b) :
    Calm (if c then a else b) := by split <;> assumption

theorem checkOptionLine (n : Nat) : Calm (checkOptionLine n) :=
  bind getTok fun _ => ite _ _ _ (exitTok _) (pure _)

theorem parseType (n : Nat) : Calm (parseType n) := by
  refine bind getCtx fun c => ite _ _ _ (exitTok _) ?_
  refine bind advance fun _ => bind (checkOptionLine n) fun _ => bind getTok fun t => ?_
  cases progTypeOfName t with
  | some p => exact modifyOpts _
  | none => exact ite _ _ _ (exitTok _) (ub _)

theorem nextImmediate (msg : Msg) : Calm (nextImmediate msg) := by
  refine bind advance fun _ => bind getTok fun t => ?_
  cases t.kind <;> first | exact pure _ | exact exitTok _

theorem optionBody (t : Token) : Calm (optionBody t) := by
  unfold Nxas.optionBody
  refine ite _ _ _ (bind (modifyOpts _) fun _ => parseType _) ?_
  refine ite _ _ _ (parseType _) ?_
  refine ite _ _ _ (bind advance fun _ => bind getTok fun t => ?_) ?_
  · cases t.kind <;> first | exact exitTok _ | exact ub _
  refine ite _ _ _ (bind (nextImmediate _) fun _ => bind (modifyOpts _) fun _ =>
    bind (nextImmediate _) fun _ => bind (modifyOpts _) fun _ => bind (nextImmediate _) fun _ =>
    bind (modifyOpts _) fun _ => checkOptionLine _) ?_
  refine ite _ _ _ (bind (nextImmediate _) fun _ => modifyOpts _) ?_
  exact ite _ _ _ (bind (nextImmediate _) fun _ => modifyOpts _) (pure _)

theorem parseOption : Calm parseOption :=
  bind getTok fun t0 => bind (optionBody t0) fun _ => bind advance fun _ => bind getTok fun _ =>
    ite _ _ _ (exitTok _) (pure _)

theorem parseOptions (n : Nat) : Calm (parseOptions n) := by
  induction n with
  | zero => exact ub _
  | succ n ih => exact bind getTok fun t => ite _ _ _ (bind parseOption fun _ => ih) (pure _)

theorem schedImmediate (m : Int) (msg : Msg) : Calm (schedImmediate m msg) := by
  refine bind getKind fun k => ?_
  cases k <;> first | exact ite _ _ _ (failTok _) (pure _) | exact failTok _

theorem schedStep (r : Sched) : Calm (schedStep r) := by
  have imm := Calm.schedImmediate
  unfold Nxas.schedStep
  refine bind advance fun _ => bind getKind fun t => ?_
  refine ite _ _ _ (ite _ _ _ (failTok _) ?_) ?_
  · exact bind advance fun _ => bind (imm _ _) fun _ => bind advance fun _ => pure _
  refine ite _ _ _ (ite _ _ _ (failTok _) ?_) ?_
  · exact bind advance fun _ => bind (imm _ _) fun _ => bind advance fun _ => pure _
  refine ite _ _ _ (ite _ _ _ (failTok _) ?_) ?_
  · exact bind advance fun _ => pure _
  refine ite _ _ _ ?_ (failTok _)
  refine bind advance fun _ => bind (imm _ _) fun v => ?_
  exact ite _ _ _ (failTok _) (bind advance fun _ => pure _)

theorem schedLoop (n : Nat) (r : Sched) : Calm (schedLoop n r) := by
  induction n generalizing r with
  | zero => exact ub _
  | succ n ih =>
    exact bind getKind fun t => ite _ _ _ (bind (schedStep r) fun r' => ih r') (pure _)

theorem finishInsn : Calm finishInsn := by
  refine bind ?_ fun _ => of_readOnly (ReadOnly.confirm _)
  intro dbg s
  unfold assembleSched
  refine bind (schedLoop _ _) (fun r => ?_) dbg s
  intro dbg s h; simp [setSched] at h

end Calm

/-- The guard never fires an assertion on an empty word. -/
theorem prologueBody_calm {dbg : Bool} {s : St} (hv : s.op.value = 0#64) :
    prologueBody dbg s ≠ .abort := by
  have hend : Calm (do
      let t2 ← getTok
      match t2.kind with
      | .ident _ => M.pure ()
      | _ => exitTok "expected mnemonic" : M Unit) := by
    refine Calm.bind Calm.getTok fun t => ?_
    cases t.kind <;> first | exact Calm.pure _ | exact Calm.exitTok _
  have hadd : ∀ b (s : St), s.op.value = 0#64 → addBits b dbg s ≠ .abort := by
    intro b s hs h
    unfold addBits at h
    rw [hs] at h
    simp at h
  intro h
  unfold prologueBody at h
  rw [M.bind_def] at h
  simp only [getTok] at h
  by_cases hat : s.tok.kind = .at
  · rw [if_pos hat, M.bind_def] at h
    cases ha : advance dbg s with
    | ok a s1 =>
      obtain ⟨t, c, -, rfl⟩ := advance_ok ha
      simp only [ha] at h
      rw [M.bind_def] at h
      cases hg : raising guardPredicate dbg { s with ctx := { s.ctx with cur := c }, tok := t } with
      | ok a s2 =>
        simp only [hg] at h
        exact Calm.bind Calm.advance (fun _ => hend) _ _ h
      | abort =>
        unfold raising at hg
        split at hg
        · simp at hg
        · unfold guardPredicate at hg
          rw [M.bind_def] at hg
          unfold confirmPred at hg
          cases hk : t.kind <;> simp [hk] at hg
          refine hadd _ _ ?_ hg
          exact hv
      | _ => simp [hg] at h
    | abort => exact Calm.advance _ _ ha
    | _ => simp [ha] at h
  · rw [if_neg hat, M.bind_def] at h
    cases ha : addBits (7#64 <<< 16) dbg s with
    | ok a s1 => simp only [ha] at h; exact hend _ _ h
    | abort => exact hadd _ _ hv ha
    | _ => simp only [ha, reduceCtorEq] at h

/-- A row whose fields are apart never fires an assertion, after any guard. -/
theorem parseInsn_calm {row : Insn} (hr : row ∈ insnTable) (ha : row.apart = true) {dbg : Bool} {s : St}
    {g : Option (Nat × Bool)} (hg : ∀ p n, g = some (p, n) → p ≤ 7) (hs : s.op = ⟨guardWord g, 0, 0⟩) :
    (parseInsn row dbg s).1 ≠ .abort := by
  unfold Insn.apart at ha
  rw [Bool.and_eq_true] at ha
  intro h
  unfold parseInsn at h
  split at h
  · rename_i t1 h1
    have hw : t1.tok.kind.wf := by
      obtain ⟨t, c, ht, -, -, rfl⟩ := startInsn_inv h1
      exact (tokenize_ok ht).wf
    have hop : t1.op = ⟨guardWord g ||| row.opcode, 0, 0⟩ := by
      obtain ⟨t, c, ht, -, -, rfl⟩ := startInsn_inv h1
      simp only [hs]
    have hno := runOperands_noAbort (table_regular row hr) (n := 1) (dbg := dbg) hw (fun i hi => by
      rw [hop] at hi
      unfold Op.bit at hi
      split at hi
      · simp only [BitVec.getLsbD_or, Bool.or_eq_true] at hi
        rcases hi with hi | hi
        · have := guardWord_in hg hi
          exact ⟨(16, 4), by simp, by simp; omega⟩
        · obtain ⟨f, hf, h⟩ := (inF_setBits _ _).2 hi
          exact ⟨f, by simp [hf], h⟩
      · simp at hi) ha.2
    split at h
    · exact Calm.finishInsn _ _ h
    · exact hno h
  · rename_i hno
    unfold startInsn at h
    simp only at h
    rw [M.bind_def] at h
    have h0 : s.op.value &&& row.opcode = 0#64 := by
      rw [hs]
      apply BitVec.eq_of_getLsbD_eq
      intro i hi
      rw [BitVec.getLsbD_and, BitVec.getLsbD_zero]
      cases h1 : (guardWord g).getLsbD i with
      | false => rfl
      | true =>
        cases h2 : row.opcode.getLsbD i with
        | false => rfl
        | true =>
          have := guardWord_in hg h1
          obtain ⟨f, hf, h3⟩ := (inF_setBits _ _).2 h2
          have := List.all_eq_true.1 ha.1 f hf
          simp [Field.apart] at this
          omega
    have : addBits row.opcode dbg s = .ok () { s with op := { s.op with value := s.op.value ||| row.opcode } } := by
      unfold addBits
      rw [h0]; simp
    rw [this] at h
    simp only at h
    refine Calm.bind Calm.advance (fun _ => Calm.bind (Calm.of_readOnly ReadOnly.getValue) fun v => ?_) _ _ h
    exact Calm.ite _ _ _ (Calm.failTok _) (Calm.pure _)

/-- An assertion fires only in a row whose fields overlap. -/
theorem parseInstruction_abort {dbg : Bool} {c : Ctx}
    (h : parseInstruction insnTable dbg c.fresh = .abort) :
    ∃ row ∈ insnTable, row.apart = false ∧ row.mnemonic <:+: c.cur.text := by
  rw [parseInstruction_eq] at h
  cases h1 : advance dbg c.fresh with
  | ok a s1 =>
    rw [h1] at h
    obtain ⟨tk, c1, e1, rfl⟩ := advance_ok h1
    simp only [Out.bind] at h
    split at h
    · simp at h
    have inv1 : TokInv c.cur { c.fresh with ctx := { c.fresh.ctx with cur := c1 }, tok := tk } :=
      ⟨c.cur, Reach.refl _, e1⟩
    generalize hs1 : ({ c.fresh with ctx := { c.fresh.ctx with cur := c1 }, tok := tk } : St) = s1
      at inv1 h
    unfold insnBody at h
    have ho := oframed_parseOptions (s1.ctx.cur.text.length + 2) dbg s1 c.cur inv1
    cases h2 : parseOptions (s1.ctx.cur.text.length + 2) dbg s1 with
    | ok a s2 =>
      rw [h2] at ho h
      simp only [Out.bind] at h
      have h2op : s2.op = ({} : Op) := by rw [ho.1.op, ← hs1]; rfl
      rw [parsePrologue_eq] at h
      have hp := framed_prologueBody dbg { s2 with ctx := { s2.ctx with pc := alignPc s2.ctx.pc } } c.cur ho.2
      cases h3 : prologueBody dbg { s2 with ctx := { s2.ctx with pc := alignPc s2.ctx.pc } } with
      | ok a s3 =>
        rw [h3] at h hp
        simp only at h
        obtain ⟨g, mn, -, -, hgw, hgo, -⟩ := prologueBody_inv h3
        have h3op : s3.op = ⟨guardWord g, 0, 0⟩ := by
          rw [hgo]; simp only [h2op, Op.mk.injEq, and_true]; exact BitVec.zero_or
        rcases tryRows_spec s3.tok s3 dbg insnTable none s3 rfl rfl with ⟨pre, i, post, e1, e2, e3, e4⟩ | ⟨-, e2⟩
        · rw [e4] at h
          have hmem : i ∈ insnTable := by rw [e1]; simp
          cases hro : rowOut dbg s3 i with
          | abort =>
            refine ⟨i, hmem, ?_, ?_⟩
            · cases ha : i.apart with
              | false => rfl
              | true => exact absurd hro (parseInsn_calm hmem ha hgw h3op)
            · refine hp.2.infix ?_
              simpa [Token.equal, Kind.equal] using e2.1
          | _ => rw [hro] at h; simp [rowResult] at h
        · rw [e2] at h; simp at h
      | abort => exact absurd h3 (prologueBody_calm (by simp only [h2op]; rfl))
      | _ => rw [h3] at h; simp at h
    | abort => exact absurd h2 (Calm.parseOptions _ _ _)
    | _ => rw [h2] at h; simp [Out.bind] at h
  | abort => exact absurd h1 (Calm.advance _ _)
  | _ => rw [h1] at h; simp [Out.bind] at h

theorem parseAll_abort {dbg : Bool} {room : Nat} {c : Ctx}
    (h : parseAll insnTable dbg room c = .abort) :
    ∃ row ∈ insnTable, row.apart = false ∧ row.mnemonic <:+: c.cur.text := by
  induction room generalizing c with
  | zero => simp [parseAll] at h
  | succ room ih =>
    unfold parseAll at h
    split at h
    · simp at h
    · rename_i s heq
      cases hp : parseAll insnTable dbg room s.ctx with
      | abort =>
        obtain ⟨row, h1, h2, p, q, h3⟩ := ih hp
        obtain ⟨pre, hpre⟩ := parseInstruction_semicolon heq
        simp only at hpre
        refine ⟨row, h1, h2, pre ++ ';' :: p, q, ?_⟩
        rw [hpre, ← h3]; simp
      | _ => simp [hp] at h
    · simp at h
    · simp at h
    · rename_i heq; exact parseInstruction_abort heq
    · simp at h

theorem binary_calm (c : Ctx) (code : List (BitVec 64)) : binary c code ≠ .abort := by
  have hw : ∀ n, writeDksh c n ≠ .abort := by
    intro n h
    unfold writeDksh at h
    repeat' split at h
    all_goals simp at h
  intro h
  unfold binary at h
  dsimp only at h
  repeat' split at h
  all_goals first
    | simp at h
    | skip
  all_goals exact hw _ h

/-- A complete run aborts only in a row whose fields overlap, or because the instructions are not as
    many as the semicolons. -/
theorem assemble_abort {dbg : Bool} {code : Str} (h : assemble dbg code = .abort) :
    (∃ row ∈ insnTable, row.apart = false ∧ row.mnemonic <:+: visible code) ∨
    (dbg = true ∧ ∃ ops c, Decodes dbg code ops c ∧ ops.length ≠ code.count ';') := by
  unfold assemble assembleWith at h
  split at h
  · simp at h
  · rename_i labels hg
    dsimp only at h
    cases hp : parseAll insnTable dbg (countSemicolons code + 1) ⟨⟨cstr code, 0, 0⟩, labels, 0, {}⟩ with
    | ok r =>
      obtain ⟨ops, c⟩ := r
      rw [hp] at h
      simp only at h
      split at h
      · rename_i hb
        rw [Bool.and_eq_true] at hb
        refine .inr ⟨hb.1, ops, c, ⟨labels, hg, (parseAll_run hp).1⟩, ?_⟩
        have := hb.2
        simp only [countSemicolons, bne_iff_ne] at this
        omega
      · exact absurd h (binary_calm _ _)
    | abort => exact .inl (parseAll_abort hp)
    | _ => rw [hp] at h; simp at h

end Nxas
