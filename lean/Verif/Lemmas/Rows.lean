import Verif.Lemmas.Tokens
/-
The parts of an accepted instruction, and the bits of its word.
-/

namespace Nxas

open Spec

/-- Scheduling annotations do not change the word nor the reuse flags. -/
theorem KeepsOp.schedImmediate (m : Int) (msg : Msg) : KeepsOp (schedImmediate m msg) := by
  intro dbg s a s' h
  rw [(schedImmediate_ok h).1]

theorem KeepsOp.schedStep (r : Sched) : KeepsOp (schedStep r) := by
  have imm := KeepsOp.schedImmediate
  have fl : ∀ msg, KeepsOp (Nxas.failTok msg : M Sched) := fun msg => of_readOnly (ReadOnly.failTok msg)
  unfold Nxas.schedStep
  refine bind KeepsOp.advance fun _ => bind (of_readOnly ReadOnly.getKind) fun t => ?_
  refine ite _ _ _ (ite _ _ _ (fl _) ?_) ?_
  · exact bind KeepsOp.advance fun _ => bind (imm _ _) fun _ => bind KeepsOp.advance fun _ => pure _
  refine ite _ _ _ (ite _ _ _ (fl _) ?_) ?_
  · exact bind KeepsOp.advance fun _ => bind (imm _ _) fun _ => bind KeepsOp.advance fun _ => pure _
  refine ite _ _ _ (ite _ _ _ (fl _) ?_) ?_
  · exact bind KeepsOp.advance fun _ => pure _
  refine ite _ _ _ ?_ (fl _)
  refine bind KeepsOp.advance fun _ => bind (imm _ _) fun v => ?_
  exact ite _ _ _ (fl _) (bind KeepsOp.advance fun _ => pure _)

theorem KeepsOp.schedLoop (n : Nat) (r : Sched) : KeepsOp (schedLoop n r) := by
  induction n generalizing r with
  | zero => exact ub _
  | succ n ih =>
    exact bind (of_readOnly ReadOnly.getKind) fun t =>
      ite _ _ _ (bind (KeepsOp.schedStep r) fun r' => ih r') (pure _)

/-- The parts of an accepted instruction, from the context `c` to the state `s`. -/
structure Encoding (dbg : Bool) (c : Ctx) (s : St) where
  /-- the accepting row -/
  row : Insn
  guard : Option (Nat × Bool)
  /-- the tokens of the options before the instruction -/
  optToks : List Kind
  /-- the tokens of the operands -/
  opToks : List Kind
  /-- the tokens of the scheduling annotations -/
  annToks : List Kind
  /-- at the mnemonic -/
  mnem : St
  /-- at the first operand -/
  start : St
  /-- after the last operand -/
  stop : St
  /-- after the annotations, at the semicolon -/
  last : St
  /-- the rows before `row` -/
  pre : List Insn
  /-- the rows after `row` -/
  post : List Insn
  score : Nat
  annots : Sched
  split : insnTable = pre ++ row :: post
  failed : ∀ j ∈ pre, ¬ Decides mnem.tok dbg mnem j
  reads : Reads c.cur (optToks ++ (guardTokens guard ++ (.ident row.mnemonic :: (opToks ++ (annToks ++
    [.semicolon]))))) s.ctx.cur
  noOption : ∀ t c1, tokenize c.cur = .ok t c1 → t.isOption = false → optToks = []
  guardWf : ∀ p n, guard = some (p, n) → p ≤ 7
  noPred : row.flags % 2 = 1 → ~~~(guardWord guard ||| row.opcode) &&& (7#64 <<< 16) = 0#64
  mnemTok : mnem.tok.kind = .ident row.mnemonic
  mnemOp : mnem.op = ⟨guardWord guard, 0, 0⟩
  mnemLabels : mnem.ctx.labels = c.labels
  mnemPc : mnem.ctx.pc = alignPc c.pc
  mnemStart : startInsn row dbg mnem = .ok () start
  startOp : start.op = ⟨guardWord guard ||| row.opcode, 0, 0⟩
  startLabels : start.ctx.labels = c.labels
  startPc : start.ctx.pc = alignPc c.pc
  startInv : TokInv c.cur start
  operands : runOperands row.operands 1 dbg start = (.ok () stop, score)
  opReads : Toks start.tok.kind start.ctx.cur opToks stop.tok.kind stop.ctx.cur
  sched : schedLoop (stop.ctx.cur.text.length + 1) {} dbg stop = .ok annots last
  annReads : Toks stop.tok.kind stop.ctx.cur annToks .semicolon last.ctx.cur
  result : s = { last with
    ctx := { last.ctx with pc := last.ctx.pc + 8 }, op := { last.op with sched := annots.raw } }
  /-- after `parse_insn` -/
  done : St
  accepted : (parseInsn row dbg mnem).1 = .ok () done
  doneEq : s = { done with ctx := { done.ctx with pc := done.ctx.pc + 8 } }
  mnemReads : Reads c.cur (optToks ++ (guardTokens guard ++ [.ident row.mnemonic])) mnem.ctx.cur
  value : s.op.value = stop.op.value
  reuse : s.op.reuse = stop.op.reuse

theorem InsnSteps.encodingAt {dbg : Bool} {c : Ctx} {s : St} (st : InsnSteps insnTable dbg c.fresh s) :
    ∃ e : Encoding dbg c s, e.row = st.row ∧ e.mnem = st.s3 := by
  obtain ⟨s1, s2, s3, s4, pre, row, post, score, first, notEnd, options, prologue, split, named, failed,
    accepted, result⟩ := st
  change ∃ e : Encoding dbg c s, e.row = row ∧ e.mnem = s3
  obtain ⟨rs⟩ := parseInsn_inv accepted
  obtain ⟨t1, t2, sc, hstart, hops, hfin⟩ := rs
  obtain ⟨tk, c1, e1, rfl⟩ := advance_ok first
  have inv1 : TokInv c.cur { c.fresh with ctx := { c.fresh.ctx with cur := c1 }, tok := tk } :=
    ⟨c.cur, Reach.refl _, e1⟩
  generalize hs1 : ({ c.fresh with ctx := { c.fresh.ctx with cur := c1 }, tok := tk } : St) = s1
    at inv1 options
  have ho := oframed_parseOptions (s1.ctx.cur.text.length + 2) dbg s1 c.cur inv1
  rw [options] at ho
  obtain ⟨optToks, hot, hno⟩ : ∃ ks, Toks tk.kind c1 ks s2.tok.kind s2.ctx.cur ∧
      (tk.isOption = false → ks = []) := by
    cases hop : tk.isOption with
    | true =>
      obtain ⟨ks, hk⟩ := Walk.parseOptions _ _ _ _ _ options
      rw [← hs1] at hk
      exact ⟨ks, hk, by simp⟩
    | false =>
      have := parseOptions_none (by rw [← hs1]; exact hop) options
      rw [this, ← hs1]
      exact ⟨[], .nil, fun _ => rfl⟩
  obtain ⟨g, mn, hg, hmn, hgw, hgo, hgc⟩ := prologueBody_inv prologue
  have hp := framed_prologueBody dbg { s2 with ctx := { s2.ctx with pc := alignPc s2.ctx.pc } } c.cur ho.2
  rw [prologue] at hp
  rw [named] at hmn
  cases hmn
  obtain ⟨tk2, c2, e2, -, hs2, hs3⟩ := startInsn_inv hstart
  have hsf := startInsn_framed row dbg s3 c.cur hp.2.reach
  rw [hstart] at hsf
  have hof := runOperands_framed row.operands 1 dbg t1 c.cur hsf.2
  rw [hops] at hof
  obtain ⟨opToks, hopt⟩ := Walk.operands hops
  obtain ⟨r, s5, hs5, hs6, hs7⟩ := finishInsn_inv hfin
  obtain ⟨annToks, hann⟩ := Walk.schedLoop _ _ _ _ _ _ hs5
  have hkeep := KeepsOp.schedLoop _ _ _ _ _ _ hs5
  rw [hs6] at hann
  have h2op : s2.op = ({} : Op) := by rw [ho.1.op, ← hs1]; rfl
  have h3op : s3.op = ⟨guardWord g, 0, 0⟩ := by
    rw [hgo]; simp only [h2op, Op.mk.injEq, and_true]; exact BitVec.zero_or
  have hl3 : s3.ctx.labels = c.labels := by rw [hgc]; simp only; rw [ho.1.labels, ← hs1]; rfl
  have hp3 : s3.ctx.pc = alignPc c.pc := by rw [hgc]; simp only; rw [ho.1.pc, ← hs1]; rfl
  have e2' : Toks s3.tok.kind s3.ctx.cur [s3.tok.kind] t1.tok.kind t1.ctx.cur := by
    rw [hs3]; exact Toks.one e2
  have hall := (hot.append (hg.append e2')).append (hopt.append hann)
  refine ⟨{
    row, guard := g, optToks, opToks, annToks, mnem := s3, start := t1, stop := t2, last := s5, pre, post
    score := sc, annots := r, split, failed, guardWf := hgw, mnemTok := named, mnemOp := h3op
    mnemLabels := hl3, mnemPc := hp3, mnemStart := hstart, operands := hops, opReads := hopt, sched := hs5
    annReads := hann, startInv := hsf.2
    reads := ?_, noOption := ?_, noPred := ?_, startOp := ?_, startLabels := ?_, startPc := ?_
    done := s4, accepted := by rw [accepted], doneEq := result
    result := ?_, value := ?_, reuse := ?_, mnemReads := ?_ }, rfl, rfl⟩
  · have := Toks.reads (c0 := c.cur) e1 hall
    rw [result, hs7]
    rw [named] at this
    simpa using this
  · intro t c1' ht hopt'
    change tokenize c.cur = _ at e1
    rw [e1] at ht
    simp only [TokRes.ok.injEq] at ht
    rw [← ht.1] at hopt'
    exact hno hopt'
  · intro hf
    have := hs2 hf
    rw [h3op] at this
    exact this
  · rw [hs3]; simp only [h3op]
  · rw [hs3]; exact hl3
  · rw [hs3]; exact hp3
  · rw [result, hs7]
  · have := Toks.reads (c0 := c.cur) e1 (hot.append hg)
    rw [named] at this
    simpa using this
  · rw [result, hs7]; simp only; rw [hkeep]
  · rw [result, hs7]; simp only; rw [hkeep]

theorem InsnSteps.encoding {dbg : Bool} {c : Ctx} {s : St} (st : InsnSteps insnTable dbg c.fresh s) :
    ∃ e : Encoding dbg c s, e.row = st.row :=
  let ⟨e, h, _⟩ := st.encodingAt
  ⟨e, h⟩

theorem InstrAt.encoding {dbg : Bool} {code : Str} {i : Nat} {c : Ctx} {s : St}
    (h : InstrAt dbg code i c s) : Nonempty (Encoding dbg c s) := by
  obtain ⟨st⟩ := h.steps
  obtain ⟨e, -⟩ := st.encoding
  exact ⟨e⟩

/-! ### The bits of a row -/

theorem runOperands_append {os os' : List Operand} {n sc : Nat} {dbg : Bool} {s s' : St}
    (h : runOperands (os ++ os') n dbg s = (.ok () s', sc)) : ∃ u n', 
      runOperands os n dbg s = (.ok () u, n') ∧ runOperands os' n' dbg u = (.ok () s', sc) := by
  induction os generalizing n s with
  | nil => exact ⟨s, n, rfl, h⟩
  | cons o os ih =>
    rw [List.cons_append, runOperands] at h
    rw [runOperands]
    cases hr : o.run dbg s with
    | ok a u => rw [hr] at h; exact ih h
    | _ => rw [hr] at h; simp at h

/-- The operands before the `j`-th, the `j`-th and those after it. -/
theorem runOperands_split {os pre post : List Operand} {o : Operand} {n sc : Nat} {dbg : Bool} {s s' : St}
    (hs : os = pre ++ o :: post) (h : runOperands os n dbg s = (.ok () s', sc)) : ∃ u u' n1,
      runOperands pre n dbg s = (.ok () u, n1) ∧ o.run dbg u = .ok () u' ∧
      runOperands post (n1 + 1) dbg u' = (.ok () s', sc) := by
  subst hs
  obtain ⟨u, n1, h1, h2⟩ := runOperands_append h
  rw [runOperands] at h2
  cases hr : o.run dbg u with
  | ok a u' => rw [hr] at h2; exact ⟨u, u', n1, h1, hr, h2⟩
  | _ => rw [hr] at h2; simp at h2

/-- Bits outside the fields of the operands are unchanged. -/
theorem runOperands_foot {os : List Operand} (ho : ∀ o ∈ os, o.regular = true) {n sc : Nat} {dbg : Bool}
    {s s' : St} (hk : s.tok.kind.wf) (h : runOperands os n dbg s = (.ok () s', sc)) :
    s'.tok.kind.wf ∧ ∀ i, (∀ o ∈ os, ¬ inF o.fields i) → s'.op.bit i = s.op.bit i := by
  induction os generalizing n s with
  | nil =>
    simp only [runOperands, Prod.mk.injEq, Out.ok.injEq, true_and] at h
    rw [← h.1]; exact ⟨hk, fun i _ => rfl⟩
  | cons o os ih =>
    rw [runOperands] at h
    cases hr : o.run dbg s with
    | ok a u =>
      rw [hr] at h
      have hf := Operand.foot (ho o (by simp)) (dbg := dbg) hk
      unfold FootOf at hf
      rw [hr] at hf
      have := ih (fun o' ho' => ho o' (by simp [ho'])) hf.1 h
      refine ⟨this.1, fun i hi => ?_⟩
      rw [this.2 i fun o' ho' => hi o' (by simp [ho']), hf.2 i (hi o (by simp))]
    | _ => rw [hr] at h; simp at h

theorem not_inF_of_apart {fs gs : List Field} (h : (fs.all fun f => gs.all f.apart) = true) {i : Nat}
    (hi : inF fs i) : ¬ inF gs i := by
  rintro ⟨g, hg, h1⟩
  obtain ⟨f, hf, h2⟩ := hi
  have := List.all_eq_true.1 (List.all_eq_true.1 h f hf) g hg
  simp [Field.apart] at this
  omega

/-- If no operand requires a bit used before, no assertion fires. -/
theorem runOperands_noAbort {os : List Operand} (ho : ∀ o ∈ os, o.regular = true) {n : Nat} {dbg : Bool}
    {s : St} {used : List Field} (hk : s.tok.kind.wf) (hu : ∀ i, s.op.bit i = true → inF used i)
    (ha : opsApart used os = true) : (runOperands os n dbg s).1 ≠ .abort := by
  induction os generalizing n s used with
  | nil => simp [runOperands]
  | cons o os ih =>
    unfold opsApart at ha
    rw [Bool.and_eq_true] at ha
    rw [runOperands]
    have hf := Operand.foot (ho o (by simp)) (dbg := dbg) hk
    unfold FootOf at hf
    cases hr : o.run dbg s with
    | ok a u =>
      rw [hr] at hf
      refine ih (fun o' ho' => ho o' (by simp [ho'])) hf.1 ?_ ha.2
      intro i hi
      rw [inF_append]
      by_cases hin : inF o.fields i
      · exact .inl hin
      · rw [hf.2 i hin] at hi
        exact .inr (hu i hi)
    | abort =>
      rw [hr] at hf
      obtain ⟨-, i, h1, h2⟩ := hf
      exact (not_inF_of_apart ha.1 h1 (hu i h2)).elim
    | _ => simp

/-! ### Facts about the whole table -/

theorem table_regular : ∀ row ∈ insnTable, ∀ o ∈ row.operands, o.regular = true := by
  have : (insnTable.all fun r => r.operands.all Operand.regular) = true := by decide +kernel
  intro row hr o ho
  exact List.all_eq_true.1 (List.all_eq_true.1 this row hr) o ho

theorem table_guard : ∀ row ∈ insnTable, (setBits row.opcode).all (Field.apart (16, 4)) = true := by
  have : (insnTable.all fun r => (setBits r.opcode).all (Field.apart (16, 4))) = true := by decide +kernel
  exact List.all_eq_true.1 this

theorem table_fields : ∀ row ∈ insnTable, ∀ o ∈ row.operands,
    (o.fields.all fun f => ((16, 4) :: setBits row.opcode).all f.apart) = true := by
  have : (insnTable.all fun r => r.operands.all fun o =>
      o.fields.all fun f => ((16, 4) :: setBits r.opcode).all f.apart) = true := by decide +kernel
  intro row hr o ho
  exact List.all_eq_true.1 (List.all_eq_true.1 this row hr) o ho

theorem guardWord_bit {g : Option (Nat × Bool)} (hg : ∀ p n, g = some (p, n) → p ≤ 7) (i : Nat) :
    (guardWord g).getLsbD i = (decide (16 ≤ i) && (guardBits g).getLsbD (i - 16)) := by
  cases g with
  | none =>
    unfold guardWord guardBits
    rw [BitVec.getLsbD_shiftLeft]
    by_cases h : i < 64
    · have key : ∀ i : Fin 64, (decide (i.val < 64) && !decide (i.val < 16) && (7#64).getLsbD (i.val - 16)) =
        (decide (16 ≤ i.val) && (7#4).getLsbD (i.val - 16)) := by decide
      exact key ⟨i, h⟩
    · dsimp only; rw [BitVec.getLsbD_of_ge (7 : BitVec 4) _ (by omega)]; simp [h]
  | some pn =>
    obtain ⟨p, n⟩ := pn
    have hp := hg p n rfl
    unfold guardWord guardBits
    by_cases h : i < 64
    · have key : ∀ (p : Fin 8) (n : Bool) (i : Fin 64),
        ((BitVec.ofNat 64 p.val ||| (if n = true then 1#64 else 0#64) <<< 3) <<< 16).getLsbD i.val =
        (decide (16 ≤ i.val) && (BitVec.ofNat 4 (p.val + if n = true then 8 else 0)).getLsbD (i.val - 16)) := by
        decide +kernel
      exact key ⟨p, by omega⟩ n ⟨i, h⟩
    · rw [BitVec.getLsbD_of_ge _ _ (by omega), BitVec.getLsbD_of_ge _ (i - 16) (by omega)]; simp

theorem guardWord_in {g : Option (Nat × Bool)} (hg : ∀ p n, g = some (p, n) → p ≤ 7) {i : Nat}
    (h : (guardWord g).getLsbD i = true) : 16 ≤ i ∧ i < 20 := by
  rw [guardWord_bit hg, Bool.and_eq_true] at h
  have := lt_of_getLsbD h.2
  have h1 := h.1
  simp at h1
  omega

namespace Encoding

variable {dbg : Bool} {c : Ctx} {s : St}

theorem inTable (e : Encoding dbg c s) : e.row ∈ insnTable := by rw [e.split]; simp

theorem startBit (e : Encoding dbg c s) (i : Nat) :
    e.start.op.bit i = ((guardWord e.guard).getLsbD i || e.row.opcode.getLsbD i) := by
  rw [e.startOp]
  unfold Op.bit
  by_cases h : i < 64
  · simp [h]
  · rw [if_neg h, BitVec.getLsbD_of_ge (guardWord _) _ (by omega), BitVec.getLsbD_of_ge e.row.opcode _ (by omega)]
    exact BitVec.getLsbD_zero

theorem bit_eq (e : Encoding dbg c s) (i : Nat) : s.op.bit i = e.stop.op.bit i := by
  unfold Op.bit; rw [e.value, e.reuse]

/-- Bits that no operand owns are those of the guard and the opcode. -/
theorem bit_outside (e : Encoding dbg c s) {i : Nat} (hi : ¬ e.row.owns i) :
    s.op.bit i = ((guardWord e.guard).getLsbD i || e.row.opcode.getLsbD i) := by
  have h := (runOperands_foot (table_regular _ e.inTable) e.startInv.wf e.operands).2 i
    fun o ho hin => hi ⟨o, ho, hin⟩
  rw [e.bit_eq, h, e.startBit]

theorem not_owns (e : Encoding dbg c s) {i : Nat}
    (hi : (16 ≤ i ∧ i < 20) ∨ e.row.opcode.getLsbD i = true) : ¬ e.row.owns i := by
  rintro ⟨o, ho, hin⟩
  refine not_inF_of_apart (table_fields _ e.inTable o ho) hin ?_
  rcases hi with hi | hi
  · exact ⟨(16, 4), by simp, by simp; omega⟩
  · obtain ⟨f, hf, h⟩ := (inF_setBits _ _).2 hi
    exact ⟨f, by simp [hf], h⟩

theorem not_opcode (e : Encoding dbg c s) {i : Nat} (hi : 16 ≤ i ∧ i < 20) :
    e.row.opcode.getLsbD i = false := by
  cases hb : e.row.opcode.getLsbD i with
  | false => rfl
  | true =>
    obtain ⟨f, hf, h⟩ := (inF_setBits _ _).2 hb
    have := List.all_eq_true.1 (table_guard _ e.inTable) f hf
    simp [Field.apart] at this
    omega

end Encoding

end Nxas
