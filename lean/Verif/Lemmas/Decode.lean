import Verif.Lemmas.Syntax
import Verif.Lemmas.Witness
/-
What can be read back from the word of an accepted instruction: each operand's bits, unless another
operand shares them.
-/

namespace Nxas

open Spec

/-- The operands were read one after the other, each from its own tokens. -/
inductive Ran (dbg : Bool) : List Operand → St → List (List Kind) → St → Prop
  | nil {s : St} : Ran dbg [] s [] s
  | cons {o : Operand} {os : List Operand} {s s1 s2 : St} {ks : List Kind} {args : List (List Kind)}
      (h : o.run dbg s = .ok () s1) (ht : Toks s.tok.kind s.ctx.cur ks s1.tok.kind s1.ctx.cur)
      (hn : s1.tok.kind ≠ .none) (hs : Ran dbg os s1 args s2) : Ran dbg (o :: os) s (ks :: args) s2

/-- The `i`-th instruction of the source was encoded by this row of the table, its operands are the
    tokens `args`, and `op` is the result. -/
def Instr (dbg : Bool) (code : Str) (i : Nat) (row : Insn) (args : List (List Kind)) (op : Op) : Prop :=
  ∃ c s, ∃ e : Encoding dbg c s, InstrAt dbg code i c s ∧ e.row = row ∧
    Ran dbg row.operands e.start args e.stop ∧ s.op = op

theorem run_release {o : Operand} {dbg : Bool} {s s' : St} (h : o.run dbg s = .ok () s') :
    o.run false s = .ok () s' := by
  cases dbg with
  | false => exact h
  | true =>
    rcases DbgSame.operand o s with h1 | h1
    · rw [h1] at h; cases h
    · rw [← h1]; exact h

theorem _root_.Nxas.Spec.Toks.le {k k' : Kind} {c c' : Cur} {ks : List Kind} (h : Toks k c ks k' c') :
    c'.text.length ≤ c.text.length := by
  induction h with
  | nil => exact Nat.le_refl _
  | cons h _ ih => exact Nat.le_trans ih (tokenize_ok h).reach.length_le

/-- After the end of the text there is nothing. -/
theorem _root_.Nxas.Spec.Toks.ended {k k' : Kind} {c c' : Cur} {ks : List Kind} (h : Toks k c ks k' c') (hc : c.text = [])
    (hk : k = .none) : k' = .none ∧ c'.text = [] := by
  induction h with
  | nil => exact ⟨hk, hc⟩
  | cons h _ ih =>
    rename_i t _ _
    have ho := tokenize_ok h
    have hn : t.kind = .none := by
      apply Decidable.byContradiction
      intro hn
      have := ho.shorter hn
      rw [hc] at this
      simp at this
    exact ih (ho.ended hn) hn

theorem _root_.Nxas.Spec.Toks.loop {k : Kind} {c : Cur} {ks : List Kind} (h : Toks k c ks k c) (hk : k ≠ .none) : ks = [] := by
  cases h with
  | nil => rfl
  | cons h hr =>
    have ho := tokenize_ok h
    rename_i c1 t ks
    by_cases hn : t.kind = Kind.none
    · exact (hk (hr.ended (ho.ended hn) hn).1).elim
    · have h1 := ho.shorter hn
      have h2 := hr.le
      omega

theorem _root_.Nxas.Spec.Toks.prefix {k k1 k2 : Kind} {c c1 c2 : Cur} {ks ks' : List Kind} (h : Toks k c ks k1 c1)
    (h' : Toks k c ks' k2 c2) (hl : ks.length ≤ ks'.length) : ∃ r, ks' = ks ++ r ∧ Toks k1 c1 r k2 c2 := by
  induction h generalizing ks' with
  | nil => exact ⟨ks', rfl, h'⟩
  | cons h hr ih =>
    cases h' with
    | nil => simp at hl
    | cons h' hr' =>
      rw [h] at h'
      cases h'
      obtain ⟨r, rfl, h2⟩ := ih hr' (by simpa using hl)
      exact ⟨r, rfl, h2⟩

/-- The tokens between two places are determined. -/
theorem _root_.Nxas.Spec.Toks.unique {k k' : Kind} {c c' : Cur} {ks ks' : List Kind} (h : Toks k c ks k' c')
    (h' : Toks k c ks' k' c') (hk : k' ≠ .none) : ks = ks' := by
  rcases Nat.le_total ks.length ks'.length with hl | hl
  · obtain ⟨r, rfl, h2⟩ := h.prefix h' hl
    rw [h2.loop hk, List.append_nil]
  · obtain ⟨r, rfl, h2⟩ := h'.prefix h hl
    rw [h2.loop hk, List.append_nil]

theorem Ran.length {dbg : Bool} {os : List Operand} {s s' : St} {args : List (List Kind)}
    (h : Ran dbg os s args s') : args.length = os.length := by
  induction h with
  | nil => rfl
  | cons _ _ _ _ ih => simp [ih]

theorem Ran.toks {dbg : Bool} {os : List Operand} {s s' : St} {args : List (List Kind)}
    (h : Ran dbg os s args s') : Toks s.tok.kind s.ctx.cur args.flatten s'.tok.kind s'.ctx.cur := by
  induction h with
  | nil => exact .nil
  | cons _ ht _ _ ih => exact ht.append ih

theorem Path.ended {t t' : Token} {c c' : Cur} {ks : List Kind} (h : Path t c ks t' c')
    (hi : t.kind = .none → c.text = []) : t'.kind = .none → c'.text = [] := by
  induction ks generalizing t c with
  | nil =>
    obtain ⟨rfl, rfl⟩ := h
    exact hi
  | cons k ks ih =>
    obtain ⟨-, t1, c1, h1, h2⟩ := h
    exact ih h2 (tokenize_ok h1).ended

theorem ran_of_runOperands {os : List Operand} (ho : ∀ o ∈ os, o.grammatical = true) {n sc : Nat} {dbg : Bool}
    {s s' : St} (hs : s.tok.kind.proper) (hi : s.tok.kind = .none → s.ctx.cur.text = [])
    (h : runOperands os n dbg s = (.ok () s', sc)) (hn : s'.tok.kind = .none → s'.ctx.cur.text ≠ []) :
    ∃ args, Ran dbg os s args s' := by
  induction os generalizing n s with
  | nil =>
    simp only [runOperands, Prod.mk.injEq, Out.ok.injEq, true_and] at h
    rw [← h.1]
    exact ⟨[], .nil⟩
  | cons o os ih =>
    rw [runOperands] at h
    cases hr : o.run dbg s with
    | ok a u =>
      rw [hr] at h
      obtain ⟨ks, b, r, t, c, hp, -, rfl⟩ := (o.run_iff (ho o (by simp)) s hs _).1 (run_release hr)
      have hi' : t.kind = .none → c.text = [] := hp.ended hi
      obtain ⟨args, ha⟩ := ih (fun o' h => ho o' (by simp [h])) (hp.proper hs).1 hi' h
      exact ⟨ks :: args, .cons hr hp.toks (fun hk => hn (ha.toks.ended (hi' hk) hk).1 (ha.toks.ended (hi' hk) hk).2) ha⟩
    | _ => rw [hr] at h; simp at h

theorem InstrAt.instr {dbg : Bool} {code : Str} {i : Nat} {c : Ctx} {s : St} (h : InstrAt dbg code i c s) :
    ∃ row args, Instr dbg code i row args s.op := by
  obtain ⟨e⟩ := h.encoding
  obtain ⟨args, ha⟩ := ran_of_runOperands (table_grammatical _ e.inTable) e.startInv.proper
    e.startInv.ended e.operands
    (fun hk ht => by cases (e.annReads.ended ht hk).1)
  exact ⟨e.row, args, c, s, e, h, rfl, ha, rfl⟩

theorem Ran.kept {dbg : Bool} {os : List Operand} {s s' : St} {args : List (List Kind)}
    (ho : ∀ o ∈ os, o.grammatical = true) (hs : s.tok.kind.proper)
    (h : Ran dbg os s args s') : s'.tok.kind.proper ∧ s'.ctx.env = s.ctx.env ∧
      ∀ ks ∈ args, ∀ k ∈ ks, k.proper := by
  induction h with
  | nil => exact ⟨hs, rfl, by simp⟩
  | cons h ht _ _ ih =>
    rename_i o os s s1 s2 ks args _ _
    obtain ⟨ks', b, r, t, c, hp, -, rfl⟩ := (o.run_iff (ho o (by simp)) s hs _).1 (run_release h)
    obtain ⟨t', ht', hp'⟩ := ht.path
    obtain ⟨h1, h2, h3⟩ := ih (fun o' h => ho o' (by simp [h])) (hp.proper hs).1
    refine ⟨h1, h2, ?_⟩
    intro ks'' hk
    rcases List.mem_cons.1 hk with rfl | hk
    · exact (hp'.proper hs).2
    · exact h3 _ hk

theorem Ran.foot {dbg : Bool} {os : List Operand} {s s' : St} {args : List (List Kind)}
    (ho : ∀ o ∈ os, o.regular = true) (hk : s.tok.kind.wf) (h : Ran dbg os s args s') :
    s'.tok.kind.wf ∧ ∀ i, (∀ o ∈ os, ¬ inF o.fields i) → s'.op.bit i = s.op.bit i := by
  induction h with
  | nil => exact ⟨hk, fun i _ => rfl⟩
  | cons h ht _ _ ih =>
    rename_i o os s s1 s2 ks args _ _
    have hf := Operand.foot (ho o (by simp)) (dbg := dbg) hk
    unfold FootOf at hf
    rw [h] at hf
    have := ih (fun o' ho' => ho o' (by simp [ho'])) hf.1
    refine ⟨this.1, fun i hi => ?_⟩
    rw [this.2 i fun o' ho' => hi o' (by simp [ho']), hf.2 i (hi o (by simp))]

/-- The run of one of the operands. -/
theorem Ran.split {dbg : Bool} {os : List Operand} {s s' : St} {args : List (List Kind)} {j : Nat} {o : Operand}
    (h : Ran dbg os s args s') (hj : os[j]? = some o) : ∃ u u' ks, args[j]? = some ks ∧
      Ran dbg (os.take j) s (args.take j) u ∧ o.run dbg u = .ok () u' ∧
      Toks u.tok.kind u.ctx.cur ks u'.tok.kind u'.ctx.cur ∧ u'.tok.kind ≠ .none ∧
      Ran dbg (os.drop (j + 1)) u' (args.drop (j + 1)) s' := by
  induction h generalizing j with
  | nil => simp at hj
  | cons h ht hn hs ih =>
    rename_i o' os s s1 s2 ks args
    cases j with
    | zero =>
      simp only [List.getElem?_cons_zero, Option.some.injEq] at hj
      subst hj
      exact ⟨s, s1, ks, rfl, .nil, h, ht, hn, hs⟩
    | succ j =>
      simp only [List.getElem?_cons_succ] at hj
      obtain ⟨u, u', ks', h1, h2, h3, h4, h5, h6⟩ := ih hj
      exact ⟨u, u', ks', h1, .cons h ht hn h2, h3, h4, h5, h6⟩

/-- No operand but the `j`-th owns bit `p`. -/
def Insn.sole (row : Insn) (j p : Nat) : Prop :=
  ∀ o' ∈ row.operands.take j ++ row.operands.drop (j + 1), ¬ inF o'.fields p

theorem Insn.sole_of_alone {row : Insn} {j p : Nat} {o : Operand} (hj : row.operands[j]? = some o)
    (hal : row.alone j = true) (hp : inF o.fields p) : row.sole j p := by
  unfold Insn.alone at hal
  rw [hj] at hal
  exact fun o' ho' => not_inF_of_apart (List.all_eq_true.1 hal o' ho') hp

/-- What is true of an operand of an accepted instruction. -/
structure OperandFacts (code : Str) (i : Nat) (row : Insn) (j : Nat) (o : Operand) (ks : List Kind) (op : Op) :
    Prop where
  accepts : ∃ labels v k' b r, genLabels (visible code) = .ok labels ∧
    Accepts ⟨labels.find, addressOf i⟩ v o ks k' b r ∧
    (∀ p, inF o.fields p → row.sole j p → op.bit p = (⟨b, r, 0⟩ : Op).bit p) ∧
    (∀ p, p < 64 → (∀ o' ∈ row.operands.drop j, ¬ inF o'.fields p) → v.getLsbD p = op.value.getLsbD p)
  proper : ∀ k ∈ ks, k.proper

theorem field_bit (a n i : Nat) : (field a n).getLsbD i = (decide (i < 64) && decide (a ≤ i) && n.testBit (i - a)) := by
  rw [field, BitVec.getLsbD_ofNat, Nat.testBit_mul_two_pow]
  cases decide (i < 64) <;> simp

theorem Instr.facts {dbg : Bool} {code : Str} {i : Nat} {row : Insn} {args : List (List Kind)} {op : Op}
    (h : Instr dbg code i row args op) {j : Nat} {o : Operand} (hj : row.operands[j]? = some o) :
    ∃ ks, args[j]? = some ks ∧ OperandFacts code i row j o ks op := by
  obtain ⟨c, s, e, hi, rfl, hr, rfl⟩ := h
  obtain ⟨u, u', ks, h1, h2, h3, h4, h4n, h5⟩ := hr.split hj
  have hgr := table_grammatical _ e.inTable
  have hreg := table_regular _ e.inTable
  have hmem : o ∈ e.row.operands := List.mem_of_getElem? hj
  have hst : e.start.tok.kind.proper := e.startInv.proper
  have k2 := h2.kept (fun o ho => hgr o (List.mem_of_mem_take ho)) hst
  obtain ⟨ks', b, r, t, cc, hp, ha, rfl⟩ := (o.run_iff (hgr o hmem) u k2.1 _).1 (run_release h3)
  obtain rfl : ks = ks' := h4.unique hp.toks h4n
  have hpr := hp.proper k2.1
  have k5 := h5.foot (fun o ho => hreg o (List.mem_of_mem_drop ho)) hpr.1.1
  have f2 := h2.foot (fun o ho => hreg o (List.mem_of_mem_take ho)) hst.1
  refine ⟨ks, h1, ⟨c.labels, u.op.value, t.kind, b, r, hi.labels, ?_, ?_, ?_⟩, hpr.2⟩
  · have : u.ctx.env = ⟨c.labels.find, addressOf i⟩ := by
      rw [k2.2.1]; unfold Ctx.env; rw [e.startLabels, e.startPc, hi.address]
    rw [← this]
    exact ha
  · intro p hpin hall
    unfold Insn.sole at hall
    rw [e.bit_eq, k5.2 p fun o' ho' => hall o' (by simp [ho'])]
    have hz : u.op.bit p = false := by
      rw [f2.2 p fun o' ho' => hall o' (by simp [ho'])]
      have hn := not_inF_of_apart (table_fields _ e.inTable o hmem) hpin
      rw [e.startBit, Bool.or_eq_false_iff]
      constructor
      · cases hc : (guardWord e.guard).getLsbD p with
        | false => rfl
        | true => exact (hn ⟨(16, 4), by simp, by have := guardWord_in e.guardWf hc; simp; omega⟩).elim
      · cases hc : e.row.opcode.getLsbD p with
        | false => rfl
        | true =>
          obtain ⟨f, hf, h⟩ := (inF_setBits _ _).2 hc
          exact (hn ⟨f, by simp [hf], h⟩).elim
    unfold Op.bit at hz ⊢
    simp only [St.set]
    split
    · rename_i hlt
      rw [if_pos hlt] at hz
      simp [hz]
    · rename_i hlt
      rw [if_neg hlt] at hz
      simp [hz]
  · intro p hlt hno
    have hd : e.row.operands.drop j = o :: e.row.operands.drop (j + 1) := by
      obtain ⟨hl, rfl⟩ := List.getElem?_eq_some_iff.1 hj
      exact List.drop_eq_getElem_cons hl
    rw [hd] at hno
    have h6 := (Ran.cons h3 h4 h4n h5).foot (fun o' ho' => hreg o' (by
      rw [← hd] at ho'; exact List.mem_of_mem_drop ho')) k2.1.1
    have h7 := h6.2 p hno
    rw [← e.bit_eq] at h7
    unfold Op.bit at h7
    simpa [hlt] using h7.symm

/-! ### Examples -/

/-- The row that encodes the `i`-th instruction, by evaluation. -/
def instrRow (dbg : Bool) (code : Str) (i : Nat) : Option (Nat × Op) :=
  match instr dbg code i with
  | some (c, s) =>
    match advance dbg c.fresh with
    | .ok _ s1 =>
      match parseOptions (s1.ctx.cur.text.length + 2) dbg s1 with
      | .ok _ s2 =>
        match prologueBody dbg { s2 with ctx := { s2.ctx with pc := alignPc s2.ctx.pc } } with
        | .ok _ s3 =>
          (insnTable.findIdx? fun row => s3.tok.equal row.mnemonic &&
            match (parseInsn row dbg s3).1 with | .ok _ _ => true | _ => false).map (·, s.op)
        | _ => none
      | _ => none
    | _ => none
  | none => none

/-- The first row of this mnemonic that does not fail is the one that encodes the instruction. -/
theorem InsnSteps.index {dbg : Bool} {s0 s : St} (st : InsnSteps insnTable dbg s0 s) {n' : Nat}
    (h : (insnTable.findIdx? fun row => st.s3.tok.equal row.mnemonic &&
      match (parseInsn row dbg st.s3).1 with | .ok _ _ => true | _ => false) = some n') : n' = st.pre.length := by
  rw [List.findIdx?_eq_some_iff_getElem] at h
  obtain ⟨hlt, h1, h2⟩ := h
  rcases Nat.lt_trichotomy n' st.pre.length with hl | rfl | hl
  · exfalso
    have hg : insnTable[n'] = st.pre[n'] := by
      simp only [st.split, List.getElem_append_left hl]
    rw [hg, Bool.and_eq_true] at h1
    refine st.failed _ (List.getElem_mem hl) ⟨h1.1, ?_⟩
    intro er s' hf
    change (parseInsn _ dbg st.s3).1 = _ at hf
    rw [hf] at h1
    simp at h1
  · rfl
  · exfalso
    have := h2 st.pre.length hl
    have hg : insnTable[st.pre.length]'(by omega) = st.row := by
      simp only [st.split]
      simp
    rw [hg] at this
    simp [st.accepted, Token.equal_iff, st.named] at this

theorem instr_of_row {dbg : Bool} {code : Str} {i n : Nat} {op : Op} (h : instrRow dbg code i = some (n, op)) :
    ∃ row args, insnTable[n]? = some row ∧ Instr dbg code i row args op := by
  unfold instrRow at h
  split at h
  · rename_i c s hi
    have hat := instr_at hi
    obtain ⟨st⟩ := hat.steps
    obtain ⟨e, he⟩ := st.encoding
    obtain ⟨args, ha⟩ := ran_of_runOperands (table_grammatical _ e.inTable) e.startInv.proper
      e.startInv.ended e.operands (fun hk ht => by cases (e.annReads.ended ht hk).1)
    rw [st.first] at h
    dsimp only at h
    rw [st.options] at h
    dsimp only at h
    rw [st.prologue] at h
    simp only [Option.map_eq_some_iff, Prod.mk.injEq] at h
    obtain ⟨n', h, rfl, rfl⟩ := h
    refine ⟨e.row, args, ?_, c, s, e, hat, rfl, ha, rfl⟩
    rw [st.index h, he, congrArg (fun l => l[st.pre.length]?) st.split]
    simp
  · simp at h

end Nxas
