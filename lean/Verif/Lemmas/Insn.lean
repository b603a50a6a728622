import Verif.Lemmas.Emit
/-
Inversion of a successful `parse_instruction`, and the ranges of the scheduling data.
-/

namespace Nxas

theorem Out.bind_ok {r : Out α} {f : α → St → Out β} {b : β} {s' : St} (h : r.bind f = .ok b s') :
    ∃ a s, r = .ok a s ∧ f a s = .ok b s' := by
  cases r with
  | ok a s => exact ⟨a, s, rfl, h⟩
  | _ => simp [Out.bind] at h

/-- The intermediate states of a successful `parse_instruction` from `s0`. -/
structure InsnSteps (table : List Insn) (dbg : Bool) (s0 s : St) where
  /-- after the first token -/
  s1 : St
  /-- after the options -/
  s2 : St
  /-- after the guard, at the mnemonic -/
  s3 : St
  /-- after the final semicolon -/
  s4 : St
  /-- the rows tried without success, the accepting row, the others -/
  pre : List Insn
  row : Insn
  post : List Insn
  score : Nat
  first : advance dbg s0 = .ok () s1
  notEnd : s1.tok.kind ≠ .none
  options : parseOptions (s1.ctx.cur.text.length + 2) dbg s1 = .ok () s2
  prologue : prologueBody dbg { s2 with ctx := { s2.ctx with pc := alignPc s2.ctx.pc } } = .ok () s3
  split : table = pre ++ row :: post
  named : s3.tok.kind = .ident row.mnemonic
  failed : ∀ j ∈ pre, ¬ Decides s3.tok dbg s3 j
  accepted : parseInsn row dbg s3 = (.ok () s4, score)
  result : s = { s4 with ctx := { s4.ctx with pc := s4.ctx.pc + 8 } }

theorem parseInstruction_inv {table : List Insn} {dbg : Bool} {s0 s : St}
    (h : parseInstruction table dbg s0 = .ok true s) : Nonempty (InsnSteps table dbg s0 s) := by
  rw [parseInstruction_eq] at h
  obtain ⟨_, s1, h1, h⟩ := Out.bind_ok h
  by_cases hk : s1.tok.kind = .none
  · simp [hk] at h
  rw [if_neg hk] at h
  unfold insnBody at h
  obtain ⟨_, s2, h2, h⟩ := Out.bind_ok h
  obtain ⟨_, s3, h3, h⟩ := Out.bind_ok h
  obtain ⟨_, s5, h5, h⟩ := Out.bind_ok h
  simp only [Out.ok.injEq, true_and] at h
  subst h
  rw [parsePrologue_eq] at h3
  rcases tryRows_spec s3.tok s3 dbg table none s3 rfl rfl with ⟨pre, i, post, e1, e2, e3, e4⟩ | ⟨-, e2⟩
  · rw [e4] at h5
    unfold rowOut at h5
    cases hp : parseInsn i dbg s3 with
    | mk r sc =>
      rw [hp] at h5
      cases r with
      | ok a s4 =>
        simp only [rowResult, Out.ok.injEq] at h5
        exact ⟨⟨s1, s2, s3, s4, pre, i, post, sc, h1, hk, h2, h3, e1, Token.equal_iff.1 e2.1, e3,
          hp, h5.2.symm⟩⟩
      | _ => simp [rowResult] at h5
  · simp [e2] at h5

/-- The steps of a successful `parse_insn`. -/
structure RowSteps (i : Insn) (dbg : Bool) (s s' : St) where
  t1 : St
  t2 : St
  score : Nat
  start : startInsn i dbg s = .ok () t1
  operands : runOperands i.operands 1 dbg t1 = (.ok () t2, score)
  finish : finishInsn dbg t2 = .ok () s'

theorem parseInsn_inv {i : Insn} {dbg : Bool} {s s' : St} {sc : Nat}
    (h : parseInsn i dbg s = (.ok () s', sc)) : Nonempty (RowSteps i dbg s s') := by
  unfold parseInsn at h
  split at h
  · rename_i t1 h1
    split at h
    · rename_i t2 sc2 h2
      simp only [Prod.mk.injEq] at h
      exact ⟨⟨t1, t2, sc2, h1, h2, h.1⟩⟩
    · rename_i hno
      exact (hno _ _ _ h).elim
  · rename_i hno
    simp only [Prod.mk.injEq] at h
    exact absurd h.1 (hno _ _)

/-- The steps of a successful `startInsn`. -/
theorem startInsn_inv {i : Insn} {dbg : Bool} {s s' : St} (h : startInsn i dbg s = .ok () s') :
    ∃ t c, tokenize s.ctx.cur = .ok t c ∧
      (dbg = true → s.op.value &&& i.opcode = 0#64) ∧
      (i.flags % 2 = 1 → (~~~(s.op.value ||| i.opcode) &&& (7#64 <<< 16)) = 0#64) ∧
      s' = { s with ctx := { s.ctx with cur := c }, tok := t,
                    op := { s.op with value := s.op.value ||| i.opcode } } := by
  unfold startInsn at h
  obtain ⟨_, s1, h1, h⟩ := bind_ok h
  obtain ⟨_, s2, h2, h⟩ := bind_ok h
  obtain ⟨v, s3, h3, h⟩ := bind_ok h
  simp only [getValue, Out.ok.injEq] at h3
  obtain ⟨rfl, rfl⟩ := h3
  unfold addBits at h1
  split at h1
  · simp at h1
  · rename_i hd
    simp only [Out.ok.injEq, true_and] at h1
    subst h1
    obtain ⟨t, c, ht, rfl⟩ := advance_ok h2
    refine ⟨t, c, ht, ?_, ?_, ?_⟩
    · intro hdbg; subst hdbg; simpa using hd
    · intro hf
      split at h
      · simp [failTok] at h
      · rename_i hc
        exact Decidable.of_not_not fun hz => hc ⟨hf, hz⟩
    · split at h
      · simp [failTok] at h
      · simp only [M.pure, Out.ok.injEq, true_and] at h
        exact h.symm

/-! ### Reuse flags -/

/-- Only the three reuse flags are ever set. -/
def ReuseOk (m : M α) : Prop := ∀ dbg s, s.op.reuse.toNat < 8 →
  match m dbg s with
  | .ok _ s' => s'.op.reuse.toNat < 8
  | .fail _ s' => s'.op.reuse.toNat < 8
  | _ => True

theorem ReadOnly.reuseOk {m : M α} (h : ReadOnly m) : ReuseOk m := by
  intro dbg s hs
  rcases h dbg s with ⟨a, h⟩ | ⟨msg, h⟩ | ⟨u, h⟩ <;> rw [h]
  · exact hs
  · exact hs
  · trivial

theorem reuseOk_bind {m : M α} {f : α → M β} (hm : ReuseOk m) (hf : ∀ a, ReuseOk (f a)) :
    ReuseOk (m >>= f) := by
  intro dbg s hs
  have h1 := hm dbg s hs
  rw [M.bind_def]
  cases hms : m dbg s with
  | ok a s' => simp only [hms] at h1 ⊢; exact hf a dbg s' h1
  | fail e s' => simpa only [hms] using h1
  | _ => trivial

theorem reuse_or_lt {r b : BitVec 32} (hr : r.toNat < 8)
    (hb : b ∈ [reuseGpr8, reuseGpr20, reuseGpr39]) : (r ||| (b &&& 0xFF#32)).toNat < 8 := by
  have hb' : (b &&& 0xFF#32).toNat < 2 ^ 3 := by
    simp only [List.mem_cons, List.not_mem_nil, or_false] at hb
    rcases hb with rfl | rfl | rfl <;> decide
  rw [BitVec.toNat_or]
  exact Nat.or_lt_two_pow (n := 3) hr hb'

theorem reuseOk_closed : Closed @ReuseOk where
  pure a := (ReadOnly.pure a).reuseOk
  bind _ _ := reuseOk_bind
  getKind := ReadOnly.getKind.reuseOk
  getValue := ReadOnly.getValue.reuseOk
  setValue v := fun _ _ hs => hs
  failTok msg := (ReadOnly.failTok msg).reuseOk
  blameStart msg m hm := by
    intro dbg s hs
    have := hm dbg s hs
    unfold blameStart
    cases hms : m dbg s <;> simp only [hms] at this ⊢ <;> exact this
  advance := by
    intro dbg s hs
    unfold advance
    cases tokenize s.ctx.cur
    · exact hs
    · trivial
    · trivial
  addBits b := by
    intro dbg s hs
    unfold addBits
    by_cases h : (dbg && (s.op.value &&& b) != 0#64) = true
    · rw [if_pos h]; trivial
    · rw [if_neg h]; exact hs
  addReuse b hb := by
    intro dbg s hs
    unfold addReuse
    by_cases h : (dbg && (s.op.reuse &&& b) != 0#32) = true
    · rw [if_pos h]; trivial
    · rw [if_neg h]; exact reuse_or_lt hs hb
  confirm k := (ReadOnly.confirm k).reuseOk
  confirmIdent := ReadOnly.confirmIdent.reuseOk
  confirmReg := ReadOnly.confirmReg.reuseOk
  confirmPred := ReadOnly.confirmPred.reuseOk
  convertInteger a b := (ReadOnly.convertInteger a b).reuseOk
  findInTable t p := (ReadOnly.findInTable true t p).reuseOk

theorem Operand.reuseOk (o : Operand) : ReuseOk o.run :=
  reuseOk_closed.run_all ReadOnly.getCtx.reuseOk (ReadOnly.ub _).reuseOk (ReadOnly.ub _).reuseOk
    (fun t p => (ReadOnly.findInTable false t p).reuseOk) o

theorem runOperands_reuse {os : List Operand} {n sc : Nat} {dbg : Bool} {s s' : St}
    (hs : s.op.reuse.toNat < 8) (h : runOperands os n dbg s = (.ok () s', sc)) :
    s'.op.reuse.toNat < 8 := by
  induction os generalizing n s with
  | nil => simp only [runOperands, Prod.mk.injEq, Out.ok.injEq, true_and] at h; rw [← h.1]; exact hs
  | cons o os ih =>
    unfold runOperands at h
    have ho := o.reuseOk dbg s hs
    split at h
    · rename_i a s1 h1
      rw [h1] at ho
      exact ih ho h
    · rename_i hno
      simp only [Prod.mk.injEq] at h
      exact absurd h.1 (hno _ _)

/-! ### Scheduling data -/

/-- The ranges of the scheduling annotations. -/
structure Sched.Ok (r : Sched) : Prop where
  stall : ∀ v, r.stall = some v → v ≤ 15
  wb : ∀ v, r.wb = some v → v ≤ 5
  rb : ∀ v, r.rb = some v → v ≤ 5
  wait : r.wait.toNat < 64

theorem schedImmediate_ok {m : Int} {msg : Msg} {dbg : Bool} {s s' : St} {v : Nat}
    (h : schedImmediate m msg dbg s = .ok v s') :
    s' = s ∧ s.tok.kind = .imm v ∧ (v : Int) ≤ m := by
  unfold schedImmediate at h
  obtain ⟨t, s1, h1, h⟩ := bind_ok h
  simp only [getKind, Out.ok.injEq] at h1
  obtain ⟨rfl, rfl⟩ := h1
  cases hk : s.tok.kind <;> simp only [hk] at h
  case imm w =>
    split at h
    · simp [failTok] at h
    · rename_i hw
      simp only [M.pure, Out.ok.injEq] at h
      obtain ⟨rfl, rfl⟩ := h
      refine ⟨rfl, by simp; omega, by omega⟩
  all_goals simp [failTok] at h

theorem Sched.Ok.schedBody {dbg : Bool} {r r' : Sched} {s s' : St} (hr : r.Ok)
    (h : schedBody r dbg s = .ok r' s') : r'.Ok := by
  unfold Nxas.schedBody at h
  obtain ⟨t, s1, h1, h⟩ := bind_ok h
  simp only [getKind, Out.ok.injEq] at h1
  obtain ⟨rfl, rfl⟩ := h1
  split at h
  · split at h
    · simp [failTok] at h
    · obtain ⟨_, s1, h1, h⟩ := bind_ok h
      obtain ⟨v, s2, h2, h⟩ := bind_ok h
      obtain ⟨_, s3, h3, h⟩ := bind_ok h
      simp only [M.pure, Out.ok.injEq] at h
      obtain ⟨-, -, hv⟩ := schedImmediate_ok h2
      rw [← h.1]
      exact ⟨fun w hw => by simp at hw; omega, hr.wb, hr.rb, hr.wait⟩
  split at h
  · generalize hb : s.tok.kind.equal c!"WB" = b at h
    by_cases hz : (if b = true then r.wb else r.rb).isSome = true
    · rw [if_pos hz] at h; simp [failTok] at h
    · rw [if_neg hz] at h
      obtain ⟨_, s1, h1, h⟩ := bind_ok h
      obtain ⟨v, s2, h2, h⟩ := bind_ok h
      obtain ⟨_, s3, h3, h⟩ := bind_ok h
      simp only [M.pure, Out.ok.injEq] at h
      obtain ⟨-, -, hv⟩ := schedImmediate_ok h2
      rw [← h.1]
      split
      · exact ⟨hr.stall, fun w hw => by simp at hw; omega, hr.rb, hr.wait⟩
      · exact ⟨hr.stall, hr.wb, fun w hw => by simp at hw; omega, hr.wait⟩
  split at h
  · split at h
    · simp [failTok] at h
    · obtain ⟨_, s1, h1, h⟩ := bind_ok h
      simp only [M.pure, Out.ok.injEq] at h
      rw [← h.1]
      exact ⟨hr.stall, hr.wb, hr.rb, hr.wait⟩
  split at h
  · obtain ⟨_, s1, h1, h⟩ := bind_ok h
    obtain ⟨v, s2, h2, h⟩ := bind_ok h
    obtain ⟨-, -, hv⟩ := schedImmediate_ok h2
    dsimp only at h
    split at h
    · simp [failTok] at h
    · obtain ⟨_, s3, h3, h⟩ := bind_ok h
      simp only [M.pure, Out.ok.injEq] at h
      rw [← h.1]
      refine ⟨hr.stall, hr.wb, hr.rb, ?_⟩
      dsimp only
      rw [BitVec.toNat_or]
      refine Nat.or_lt_two_pow (n := 6) hr.wait ?_
      have : v ≤ 5 := by omega
      have key : ∀ v, v ≤ 5 → (1#32 <<< v).toNat < 2 ^ 6 := by decide
      exact key v this
  · simp [failTok] at h

theorem Sched.Ok.schedLoop {n : Nat} {dbg : Bool} {r r' : Sched} {s s' : St} (hr : r.Ok)
    (h : schedLoop n r dbg s = .ok r' s') : r'.Ok := by
  induction n generalizing r s with
  | zero => simp [Nxas.schedLoop, ubM] at h
  | succ n ih =>
    unfold Nxas.schedLoop at h
    obtain ⟨t, s1, h1, h⟩ := bind_ok h
    split at h
    · obtain ⟨r1, s2, h2, h⟩ := bind_ok h
      rw [schedStep_eq] at h2
      obtain ⟨_, s3, -, h3⟩ := bind_ok h2
      exact ih (hr.schedBody h3) h
    · simp only [M.pure, Out.ok.injEq] at h
      rw [← h.1]; exact hr

theorem Sched.Ok.raw_lt {r : Sched} (h : r.Ok) : r.raw.toNat < 2 ^ 17 := by
  have h1 : (BitVec.ofNat 32 (r.stall.getD 0)).toNat < 2 ^ 17 := by
    have : r.stall.getD 0 ≤ 15 := by
      cases hs : r.stall with
      | none => simp
      | some v => simpa using h.stall v hs
    rw [BitVec.toNat_ofNat]; omega
  have h2 : ((if r.yield then 1#32 else 0#32) <<< 4).toNat < 2 ^ 17 := by cases r.yield <;> decide
  have hb : ∀ (x : Option Nat), (∀ v, x = some v → v ≤ 5) → x.getD 7 ≤ 7 := by
    intro x hx
    cases x with
    | none => simp
    | some v => have := hx v rfl; simp; omega
  have h3 : (BitVec.ofNat 32 (r.wb.getD 7) <<< 5).toNat < 2 ^ 17 := by
    have := hb _ h.wb
    rw [BitVec.toNat_shiftLeft, BitVec.toNat_ofNat, Nat.shiftLeft_eq]; omega
  have h4 : (BitVec.ofNat 32 (r.rb.getD 7) <<< 8).toNat < 2 ^ 17 := by
    have := hb _ h.rb
    rw [BitVec.toNat_shiftLeft, BitVec.toNat_ofNat, Nat.shiftLeft_eq]; omega
  have h5 : (r.wait <<< 11).toNat < 2 ^ 17 := by
    have := h.wait
    rw [BitVec.toNat_shiftLeft, Nat.shiftLeft_eq]; omega
  unfold Sched.raw
  simp only [BitVec.toNat_or]
  exact Nat.or_lt_two_pow (Nat.or_lt_two_pow (Nat.or_lt_two_pow (Nat.or_lt_two_pow h1 h2) h3) h4) h5

theorem finishInsn_inv {dbg : Bool} {s s' : St} (h : finishInsn dbg s = .ok () s') :
    ∃ r s1, schedLoop (s.ctx.cur.text.length + 1) {} dbg s = .ok r s1 ∧ s1.tok.kind = .semicolon ∧
      s' = { s1 with op := { s1.op with sched := r.raw } } := by
  unfold finishInsn at h
  obtain ⟨_, s2, h2, h⟩ := bind_ok h
  obtain ⟨hk, rfl⟩ := confirm_ok h
  unfold assembleSched at h2
  obtain ⟨r, s1, h3, h4⟩ := bind_ok h2
  simp only [setSched, Out.ok.injEq, true_and] at h4
  subst h4
  exact ⟨r, s1, h3, hk, rfl⟩

theorem schedLoop_reuse (n : Nat) (r : Sched) : ReuseOk (schedLoop n r) :=
  reuseOk_closed.schedLoop (ReadOnly.ub _).reuseOk n r

/-- The ranges of the scheduling data of an instruction. -/
structure Op.Ranged (o : Op) : Prop where
  sched : o.sched.toNat < 2 ^ 17
  reuse : o.reuse.toNat < 8

theorem parseInsn_ranged {i : Insn} {dbg : Bool} {s s' : St} {sc : Nat}
    (hs : s.op.reuse.toNat < 8) (h : parseInsn i dbg s = (.ok () s', sc)) : s'.op.Ranged := by
  obtain ⟨⟨t1, t2, sc2, h1, h2, h3⟩⟩ := parseInsn_inv h
  obtain ⟨t, c, -, -, -, e⟩ := startInsn_inv h1
  have hr1 : t1.op.reuse.toNat < 8 := by rw [e]; exact hs
  have hr2 := runOperands_reuse hr1 h2
  obtain ⟨r, s1, h4, -, rfl⟩ := finishInsn_inv h3
  have hok : ({} : Sched).Ok := ⟨by simp, by simp, by simp, by decide⟩
  have hr3 := schedLoop_reuse (List.length t2.ctx.cur.text + 1) {} dbg t2 hr2
  rw [h4] at hr3
  exact ⟨(hok.schedLoop h4).raw_lt, hr3⟩

/-- The guard does not touch the scheduling data. -/
theorem prologueBody_reuse {dbg : Bool} {s s' : St} (hs : s.op.reuse.toNat < 8)
    (h : prologueBody dbg s = .ok () s') : s'.op.reuse.toNat < 8 := by
  have hk : ∀ r : Unit, ReuseOk (do
      let t2 ← getTok
      match t2.kind with
      | .ident _ => M.pure ()
      | _ => exitTok "expected mnemonic" : M Unit) := by
    intro _
    refine reuseOk_bind ReadOnly.getTok.reuseOk fun t2 => ?_
    split
    · exact (ReadOnly.pure _).reuseOk
    · intro _ _ _; trivial
  have hra : ReuseOk (raising guardPredicate) := by
    intro dbg s hs
    have := reuseOk_closed.guardPredicate dbg s hs
    unfold raising
    cases hm : guardPredicate dbg s <;> simp only [hm] at this ⊢ <;> exact this
  have : ReuseOk prologueBody := by
    unfold prologueBody
    refine reuseOk_bind ReadOnly.getTok.reuseOk fun t => ?_
    refine Closed.ite (P := @ReuseOk) _ _ _ ?_ (reuseOk_bind (reuseOk_closed.addBits _) hk)
    exact reuseOk_bind reuseOk_closed.advance fun _ => reuseOk_bind hra fun _ =>
      reuseOk_bind reuseOk_closed.advance hk
  have := this dbg s hs
  rw [h] at this
  exact this

/-- The computation, when it returns, has not changed the instruction word. -/
def KeepsOp (m : M α) : Prop := ∀ dbg s a s', m dbg s = .ok a s' → s'.op = s.op

namespace KeepsOp

theorem bind {m : M α} {f : α → M β} (hm : KeepsOp m) (hf : ∀ a, KeepsOp (f a)) :
    KeepsOp (m >>= f) := by
  intro dbg s b s' h
  obtain ⟨a, s1, h1, h2⟩ := bind_ok h
  exact (hf a dbg s1 b s' h2).trans (hm dbg s a s1 h1)

theorem of_readOnly {m : M α} (h : ReadOnly m) : KeepsOp m := by
  intro dbg s a s' hm
  rcases h dbg s with ⟨a, h⟩ | ⟨msg, h⟩ | ⟨u, h⟩ <;> rw [h] at hm
  · simp only [Out.ok.injEq] at hm; rw [hm.2]
  · simp at hm
  · simp at hm

theorem exitTok (msg : Msg) : KeepsOp (exitTok msg : M α) := by
  intro dbg s a s' hm; simp [Nxas.exitTok] at hm
theorem ub (u : UB) : KeepsOp (ubM u : M α) := of_readOnly (ReadOnly.ub u)
theorem pure (a : α) : KeepsOp (M.pure a) := of_readOnly (ReadOnly.pure a)
theorem getTok : KeepsOp getTok := of_readOnly ReadOnly.getTok
theorem getCtx : KeepsOp getCtx := of_readOnly ReadOnly.getCtx
theorem advance : KeepsOp advance := by
  intro dbg s a s' h
  obtain ⟨t, c, -, rfl⟩ := advance_ok h
  rfl
theorem modifyOpts (f : Opts → Opts) : KeepsOp (modifyOpts f) := by
  intro dbg s a s' h
  rw [modifyOpts_ok h]
theorem ite (c : Prop) [Decidable c] (a b : M α) (ha : KeepsOp a) (hb : KeepsOp b) :
    KeepsOp (if c then a else b) := by split <;> assumption

theorem checkOptionLine (n : Nat) : KeepsOp (checkOptionLine n) := by
  unfold Nxas.checkOptionLine
  exact bind getTok fun _ => ite _ _ _ (exitTok _) (pure _)

theorem parseType (n : Nat) : KeepsOp (parseType n) := by
  unfold Nxas.parseType
  refine bind getCtx fun _ => ite _ _ _ (exitTok _) (bind advance fun _ =>
    bind (checkOptionLine n) fun _ => bind getTok fun _ => ?_)
  split
  · exact modifyOpts _
  · exact ite _ _ _ (exitTok _) (ub _)

theorem nextImmediate (msg : Msg) : KeepsOp (nextImmediate msg) := by
  unfold Nxas.nextImmediate
  refine bind advance fun _ => bind getTok fun _ => ?_
  split
  · exact pure _
  · exact exitTok _

theorem optionBody (t : Token) : KeepsOp (optionBody t) := by
  unfold Nxas.optionBody
  refine ite _ _ _ (bind (modifyOpts _) fun _ => parseType _) ?_
  refine ite _ _ _ (parseType _) ?_
  refine ite _ _ _ (bind advance fun _ => bind getTok fun _ => ?_) ?_
  · split
    · exact exitTok _
    · exact ub _
  refine ite _ _ _ (bind (nextImmediate _) fun _ => bind (modifyOpts _) fun _ =>
    bind (nextImmediate _) fun _ => bind (modifyOpts _) fun _ => bind (nextImmediate _) fun _ =>
    bind (modifyOpts _) fun _ => checkOptionLine _) ?_
  refine ite _ _ _ (bind (nextImmediate _) fun _ => modifyOpts _) ?_
  exact ite _ _ _ (bind (nextImmediate _) fun _ => modifyOpts _) (pure _)

theorem parseOption : KeepsOp parseOption := by
  unfold Nxas.parseOption
  exact bind getTok fun _ => bind (optionBody _) fun _ => bind advance fun _ => bind getTok fun _ =>
    ite _ _ _ (exitTok _) (pure _)

theorem parseOptions (n : Nat) : KeepsOp (parseOptions n) := by
  induction n with
  | zero => exact ub _
  | succ n ih =>
    unfold Nxas.parseOptions
    exact bind getTok fun _ => ite _ _ _ (bind parseOption fun _ => ih) (pure _)

end KeepsOp

theorem parseOptions_op {n : Nat} {dbg : Bool} {s s' : St} (h : parseOptions n dbg s = .ok () s') :
    s'.op = s.op := KeepsOp.parseOptions n dbg s () s' h

theorem parseInstruction_ranged {table : List Insn} {dbg : Bool} {s0 s : St}
    (hs : s0.op.reuse.toNat < 8) (h : parseInstruction table dbg s0 = .ok true s) : s.op.Ranged := by
  obtain ⟨st⟩ := parseInstruction_inv h
  have h1 : st.s1.op = s0.op := by
    obtain ⟨t, c, -, h⟩ := advance_ok st.first
    rw [h]
  have h2 : st.s2.op = s0.op := (parseOptions_op st.options).trans h1
  have h3 := prologueBody_reuse (by simp only; rw [h2]; exact hs) st.prologue
  have h4 := parseInsn_ranged h3 st.accepted
  rw [st.result]
  exact ⟨h4.1, h4.2⟩

theorem Run.ranged {table : List Insn} {dbg : Bool} {ctx c : Ctx} {ops : List Op}
    (h : Run table dbg ctx ops c) : ∀ o ∈ ops, o.Ranged := by
  induction h with
  | done h => simp
  | step h hr ih =>
    intro o ho
    rcases List.mem_cons.mp ho with rfl | ho
    · exact parseInstruction_ranged (show (0#32).toNat < 8 by decide) h
    · exact ih o ho

end Nxas
