import Verif.Lemmas.Parse
/-
Which undefined behaviours are reachable.
-/

namespace Nxas

/-- A framed computation whose undefined behaviours, from states reached from `c0`, are in
    `A`. -/
def GoodBy (R : St → St → Prop) (c0 : Cur) (A : UB → Prop) (m : M α) : Prop :=
  FramedBy R m ∧ ∀ dbg s u, TokInv c0 s → m dbg s = .ub u → A u

theorem goodBy_bind {R : St → St → Prop} (htr : ∀ a b c, R a b → R b c → R a c) {c0 : Cur}
    {A : UB → Prop} {m : M α} {f : α → M β} (hm : GoodBy R c0 A m) (hf : ∀ a, GoodBy R c0 A (f a)) :
    GoodBy R c0 A (m >>= f) := by
  refine ⟨framedBy_bind htr hm.1 fun a => (hf a).1, ?_⟩
  intro dbg s u hi hu
  rcases bind_ub hu with h | ⟨a, s1, h1, h2⟩
  · exact hm.2 _ _ _ hi h
  · have := hm.1 dbg s c0 hi
    rw [h1] at this
    exact (hf a).2 _ _ _ this.2 h2

theorem goodBy_of_ubIn {R : St → St → Prop} {c0 : Cur} {A : UB → Prop} {m : M α}
    (h : FramedBy R m) (hu : UbIn A m) : GoodBy R c0 A m := ⟨h, fun _ _ _ _ h => hu _ _ _ h⟩

/-- The tokens of the text have their undefined behaviours in `A`. -/
def TokUb (c0 : Cur) (A : UB → Prop) : Prop := ∀ c u, Reach c0 c → tokenize c = .ub u → A u

theorem goodBy_advance {R : St → St → Prop} {c0 : Cur} {A : UB → Prop} (hA : TokUb c0 A)
    (h : FramedBy R advance) : GoodBy R c0 A advance :=
  ⟨h, fun _ _ _ hi hu => hA _ _ hi.reach (advance_ub hu)⟩

theorem good_closed {c0 : Cur} {A : UB → Prop} (hA : TokUb c0 A) :
    Closed (fun {α} m => GoodBy Kept (α := α) c0 A m) where
  pure a := goodBy_of_ubIn (framed_closed.pure a) (ubIn_of_not (by simp [M.pure]))
  bind _ _ := goodBy_bind Kept.tr
  getKind := goodBy_of_ubIn framed_closed.getKind (ubIn_of_not (by simp [getKind]))
  getValue := goodBy_of_ubIn framed_closed.getValue (ubIn_of_not (by simp [getValue]))
  setValue v := goodBy_of_ubIn (framed_closed.setValue v) (ubIn_of_not (by simp [setValue]))
  failTok msg := goodBy_of_ubIn (framed_closed.failTok msg) (ubIn_of_not (by simp [failTok]))
  blameStart msg m hm := by
    refine ⟨framed_closed.blameStart msg m hm.1, ?_⟩
    intro dbg s u hi hu
    unfold blameStart at hu
    split at hu
    · simp at hu
    · exact hm.2 _ _ _ hi hu
  advance := goodBy_advance hA framed_advance
  addBits b := goodBy_of_ubIn (framed_closed.addBits b)
    (ubIn_of_not (by intro dbg s u; unfold addBits; split <;> simp))
  addReuse b hb := goodBy_of_ubIn (framed_closed.addReuse b hb)
    (ubIn_of_not (by intro dbg s u; unfold addReuse; split <;> simp))
  confirm k := goodBy_of_ubIn (framed_closed.confirm k)
    (ubIn_of_not (by intro dbg s u; unfold confirm; split <;> simp))
  confirmIdent := goodBy_of_ubIn framed_closed.confirmIdent
    (ubIn_of_not (by intro dbg s u; unfold confirmIdent; split <;> simp))
  confirmReg := goodBy_of_ubIn framed_closed.confirmReg
    (ubIn_of_not (by intro dbg s u; unfold confirmReg; split <;> simp))
  confirmPred := goodBy_of_ubIn framed_closed.confirmPred
    (ubIn_of_not (by intro dbg s u; unfold confirmPred; split <;> simp))
  convertInteger a b := goodBy_of_ubIn (framed_closed.convertInteger a b) (ubIn_of_not (by
    intro dbg s u; unfold convertInteger
    repeat' split
    all_goals simp))
  findInTable t p := goodBy_of_ubIn (framed_closed.findInTable t p) (ubIn_of_not (by
    intro dbg s u; unfold findInTable
    simp only [if_true]
    repeat' split
    all_goals simp))

/-- `A` contains the undefined behaviours of the operand `o` other than reading past the
    end: signed overflow for branch targets, reading the inactive union member for system
    registers, scanning past a table for the two operands with unterminated tables. -/
structure OperandUb (A : UB → Prop) (o : Operand) : Prop where
  label : o.leaf = .label → A .signedOverflow
  s2r : ∀ t, o.leaf = .s2r t → A .inactiveUnion
  ldg : o.leaf = .ldgSize → A .tableOverrun
  tex : ∀ a, o.leaf = .texType a → A .tableOverrun

theorem Operand.good {c0 : Cur} {A : UB → Prop} (hA : TokUb c0 A) (o : Operand) (ho : OperandUb A o) :
    GoodBy Kept c0 A o.run := by
  have hc := good_closed hA
  have hctx : GoodBy Kept c0 A getCtx := goodBy_of_ubIn framed_getCtx ubIn_getCtx
  have hub : ∀ {u : UB}, A u → GoodBy Kept c0 A (ubM u : M Unit) := fun hu =>
    goodBy_of_ubIn (framed_ub _) (by
      intro dbg s u hu'; simp only [ubM, Out.ub.injEq] at hu'; subst hu'; exact hu)
  have ht : A .tableOverrun → ∀ t p, GoodBy Kept c0 A (findInTable false t p) := by
    intro ha t p
    refine goodBy_of_ubIn (framed_findInTable false t p) ?_
    intro dbg s u hu
    unfold findInTable at hu
    repeat' split at hu
    all_goals simp at hu
    subst hu; exact ha
  exact hc.run o (fun h => hc.runLabel hctx (hub (ho.label h)))
    (fun t h => hc.runS2r (hub (ho.s2r t h)) t) (fun h => hc.runLdgSize (ht (ho.ldg h)))
    (fun a h => hc.runTexType (ht (ho.tex a h)) a)

theorem runOperands_ub {c0 : Cur} {A : UB → Prop} (hA : TokUb c0 A)
    {os : List Operand} (ho : ∀ o ∈ os, OperandUb A o) {n sc : Nat} {dbg : Bool} {s : St} {u : UB} (hi : TokInv c0 s)
    (h : runOperands os n dbg s = (.ub u, sc)) : A u := by
  induction os generalizing n s with
  | nil => simp [runOperands] at h
  | cons o os ih =>
    unfold runOperands at h
    split at h
    · rename_i a s' heq
      have hf := o.framed dbg s c0 hi
      rw [heq] at hf
      exact ih (fun o' ho' => ho o' (by simp [ho'])) hf.2 h
    · simp only [Prod.mk.injEq] at h
      exact (o.good hA (ho o (by simp))).2 _ _ _ hi h.1

theorem schedLoop_ub {c0 : Cur} {A : UB → Prop} (hA : TokUb c0 A) {n : Nat} {r : Sched} {dbg : Bool}
    {s : St} {u : UB} (hi : TokInv c0 s) (hn : s.ctx.cur.text.length < n)
    (h : schedLoop n r dbg s = .ub u) : A u := by
  have hg : GoodBy Kept c0 (fun u => A u ∨ u = .fuel) (schedLoop n r) := by
    refine (good_closed (fun c u hr hu => .inl (hA c u hr hu))).schedLoop ?_ n r
    refine goodBy_of_ubIn (framed_ub _) ?_
    intro dbg s u hu; simp only [ubM, Out.ub.injEq] at hu; exact .inr hu.symm
  rcases hg.2 _ _ _ hi h with h' | rfl
  · exact h'
  · exact absurd h (schedLoop_noFuel hi hn)

theorem finishInsn_ub {c0 : Cur} {A : UB → Prop} (hA : TokUb c0 A) {dbg : Bool} {s : St} {u : UB}
    (hi : TokInv c0 s) (h : finishInsn dbg s = .ub u) : A u := by
  unfold finishInsn at h
  rcases bind_ub h with h | ⟨_, s1, -, h⟩
  · unfold assembleSched at h
    rcases bind_ub h with h | ⟨_, s1, -, h⟩
    · exact schedLoop_ub hA hi (by omega) h
    · simp [setSched] at h
  · unfold confirm at h; split at h <;> simp at h

theorem startInsn_ub {c0 : Cur} {A : UB → Prop} (hA : TokUb c0 A) {i : Insn} {dbg : Bool} {s : St}
    {u : UB} (hr : Reach c0 s.ctx.cur) (h : startInsn i dbg s = .ub u) : A u := by
  unfold startInsn at h
  rcases bind_ub h with h | ⟨_, s1, h1, h⟩
  · unfold addBits at h; split at h <;> simp at h
  · have hc : s1.ctx = s.ctx := by
      unfold addBits at h1
      split at h1 <;> simp at h1
      rw [← h1]
    rcases bind_ub h with h | ⟨_, s2, -, h⟩
    · exact hA _ _ (by rw [hc]; exact hr) (advance_ub h)
    · rcases bind_ub h with h | ⟨_, s3, -, h⟩
      · simp [getValue] at h
      · split at h <;> simp [failTok, M.pure] at h

theorem parseInsn_ub {c0 : Cur} {A : UB → Prop} (hA : TokUb c0 A) {i : Insn}
    (ho : ∀ o ∈ i.operands, OperandUb A o) {dbg : Bool} {s : St} {u : UB} {sc : Nat} (hr : Reach c0 s.ctx.cur)
    (h : parseInsn i dbg s = (.ub u, sc)) : A u := by
  unfold parseInsn at h
  split at h
  · rename_i s1 heq
    have hf := startInsn_framed i dbg s c0 hr
    rw [heq] at hf
    have hf2 := runOperands_framed i.operands 1 dbg s1 c0 hf.2
    split at h
    · rename_i s2 sc2 heq2
      rw [heq2] at hf2
      simp only [Prod.mk.injEq] at h
      exact finishInsn_ub hA hf2.2 h.1
    · exact runOperands_ub hA ho hf.2 h
  · simp only [Prod.mk.injEq] at h
    exact startInsn_ub hA hr h.1

theorem tryRows_ub {c0 : Cur} {A : UB → Prop} (hA : TokUb c0 A) {mn : Token}
    {saved : St} {rows : List Insn}
    (ho : ∀ i ∈ rows, mn.equal i.mnemonic = true → ∀ o ∈ i.operands, OperandUb A o) {dbg : Bool} {u : UB} (hr : Reach c0 saved.ctx.cur)
    (h : tryRows mn saved rows none dbg saved = .ub u) : A u := by
  rcases tryRows_spec mn saved dbg rows none saved rfl rfl with
    ⟨pre, i, post, h1, h2, h3, h4⟩ | ⟨h1, h2⟩
  · rw [h4] at h
    unfold rowOut at h
    cases hp : parseInsn i dbg saved with
    | mk r sc =>
      rw [hp] at h
      cases r with
      | ub v =>
        simp only [rowResult, Out.ub.injEq] at h
        subst h
        exact parseInsn_ub hA (ho i (by simp [h1]) h2.1) hr hp
      | _ => simp [rowResult] at h
  · simp [h2] at h

theorem prologueBody_ub {c0 : Cur} {A : UB → Prop} (hA : TokUb c0 A) {dbg : Bool} {s : St} {u : UB}
    (hi : TokInv c0 s) (h : prologueBody dbg s = .ub u) : A u := by
  have hg := good_closed hA
  have hadv : GoodBy Kept c0 A advance := hg.advance
  have hk : ∀ r : Unit, GoodBy Kept c0 A (do
      let t2 ← getTok
      match t2.kind with
      | .ident _ => M.pure ()
      | _ => exitTok "expected mnemonic" : M Unit) := by
    intro _
    refine goodBy_bind Kept.tr (goodBy_of_ubIn framed_getTok ubIn_getTok) fun t2 => ?_
    split
    · exact hg.pure _
    · exact goodBy_of_ubIn (framed_exitTok _) (ubIn_exitTok _)
  have hra : GoodBy Kept c0 A (raising guardPredicate) := by
    refine ⟨framed_raising framed_closed.guardPredicate, ?_⟩
    intro dbg s u hi hu
    unfold raising at hu
    split at hu
    · simp at hu
    · exact hg.guardPredicate.2 _ _ _ hi hu
  have : GoodBy Kept c0 A prologueBody := by
    unfold prologueBody
    refine goodBy_bind Kept.tr (goodBy_of_ubIn framed_getTok ubIn_getTok) fun t => ?_
    refine Closed.ite (P := fun {α} m => GoodBy Kept (α := α) c0 A m) _ _ _ ?_
      (goodBy_bind Kept.tr (hg.addBits _) hk)
    exact goodBy_bind Kept.tr hadv fun _ => goodBy_bind Kept.tr hra fun _ => goodBy_bind Kept.tr hadv hk
  exact this.2 _ _ _ hi h

/-! ### Options -/

/-- The options whose parser can read the inactive union member. -/
def unionOptions : List Str := [c!".dksh", c!".type", c!".num_gprs"]

theorem parseOptions_ub {c0 : Cur} {A : UB → Prop} (hA : TokUb c0 A)
    (hu : ∀ x ∈ unionOptions, x <:+: c0.text → A .inactiveUnion)
    {n : Nat} {dbg : Bool} {s : St} {u : UB} (hi : TokInv c0 s)
    (hn : s.ctx.cur.text.length + 1 < n) (h : parseOptions n dbg s = .ub u) : A u := by
  have hpure : ∀ {α : Type} (a : α), GoodBy MovedPc c0 A (M.pure a) := fun a =>
    goodBy_of_ubIn (oframed_of_ro fun _ s => .inl ⟨_, rfl⟩) (ubIn_pure _)
  have htok : GoodBy MovedPc c0 A getTok :=
    goodBy_of_ubIn (oframed_of_ro fun _ s => .inl ⟨_, rfl⟩) ubIn_getTok
  have hctx : GoodBy MovedPc c0 A getCtx :=
    goodBy_of_ubIn (oframed_of_ro fun _ s => .inl ⟨_, rfl⟩) ubIn_getCtx
  have hexit : ∀ {α : Type} (msg : Msg), GoodBy MovedPc c0 A (exitTok msg : M α) := fun msg =>
    goodBy_of_ubIn (oframed_of_ro fun _ s => .inr (.inl ⟨_, rfl⟩)) (ubIn_exitTok _)
  have hub : A .inactiveUnion → GoodBy MovedPc c0 A (ubM .inactiveUnion : M Unit) := fun hu =>
    goodBy_of_ubIn (oframed_of_ro fun _ s => .inr (.inr ⟨_, rfl⟩)) (by
      intro dbg s u hu'; simp only [ubM, Out.ub.injEq] at hu'; subst hu'; exact hu)
  have hmod : ∀ f, GoodBy MovedPc c0 A (modifyOpts f) := fun f =>
    goodBy_of_ubIn (oframed_modifyOpts f) (ubIn_modifyOpts f)
  have hadv : GoodBy MovedPc c0 A advance := goodBy_advance hA oframed_advance
  have hite : ∀ {α : Type} (c : Prop) [Decidable c] (a b : M α), GoodBy MovedPc c0 A a →
      GoodBy MovedPc c0 A b → GoodBy MovedPc c0 A (if c then a else b) :=
    fun c _ a b ha hb => Closed.ite (P := fun {α} m => GoodBy MovedPc (α := α) c0 A m) c a b ha hb
  have hbind : ∀ {α β : Type} {m : M α} {f : α → M β}, GoodBy MovedPc c0 A m →
      (∀ a, GoodBy MovedPc c0 A (f a)) → GoodBy MovedPc c0 A (m >>= f) :=
    fun hm hf => goodBy_bind MovedPc.tr hm hf
  have hline : ∀ n, GoodBy MovedPc c0 A (checkOptionLine n) := fun n =>
    hbind htok fun t => hite _ _ _ (hexit _) (hpure _)
  have htype : A .inactiveUnion → ∀ n, GoodBy MovedPc c0 A (parseType n) := by
    intro hu n
    unfold parseType
    refine hbind hctx fun c => hite _ _ _ (hexit _) ?_
    refine hbind hadv fun _ => hbind (hline n) fun _ => hbind htok fun t => ?_
    split
    · exact hmod _
    · exact hite _ _ _ (hexit _) (hub hu)
  have hnext : ∀ msg, GoodBy MovedPc c0 A (nextImmediate msg) := by
    intro msg
    unfold nextImmediate
    refine hbind hadv fun _ => hbind htok fun t => ?_
    split
    · exact hpure _
    · exact hexit _
  have hif : ∀ {α : Type} (c : Prop) [Decidable c] (a b : M α), (c → GoodBy MovedPc c0 A a) →
      GoodBy MovedPc c0 A b → GoodBy MovedPc c0 A (if c then a else b) := by
    intro α c _ a b ha hb
    by_cases h : c
    · rw [if_pos h]; exact ha h
    · rw [if_neg h]; exact hb
  have hbody : ∀ t : Token, (∀ x, t.kind = .ident x → x <:+: c0.text) →
      GoodBy MovedPc c0 A (optionBody t) := by
    intro t hin
    have hin' : ∀ x ∈ unionOptions, t.equal x = true → A .inactiveUnion := by
      intro x hx ht
      refine hu x hx (hin x ?_)
      simpa [Token.equal, Kind.equal] using ht
    unfold optionBody
    refine hif _ _ _ (fun h => hbind (hmod _) fun _ => htype (hin' _ (by simp [unionOptions]) h) _) ?_
    refine hif _ _ _ (fun h => htype (hin' _ (by simp [unionOptions]) h) _) ?_
    refine hif _ _ _ (fun h => ?_) ?_
    · refine hbind hadv fun _ => hbind htok fun t => ?_
      split
      · exact hexit _
      · exact hub (hin' _ (by simp [unionOptions]) h)
    refine hite _ _ _ ?_ ?_
    · exact hbind (hnext _) fun _ => hbind (hmod _) fun _ => hbind (hnext _) fun _ =>
        hbind (hmod _) fun _ => hbind (hnext _) fun _ => hbind (hmod _) fun _ => hline _
    refine hite _ _ _ (hbind (hnext _) fun _ => hmod _) ?_
    exact hite _ _ _ (hbind (hnext _) fun _ => hmod _) (hpure _)
  have hend : ∀ t, GoodBy MovedPc c0 A (optionEnd t) := fun t =>
    hbind hadv fun _ => hbind htok fun t => hite _ _ _ (hexit _) (hpure _)
  have hopt : GoodBy MovedPc c0 A parseOption := by
    refine ⟨oframed_parseOption, ?_⟩
    intro dbg s u hi h
    have h' : (optionBody s.tok >>= fun _ => optionEnd s.tok) dbg s = .ub u := h
    exact (hbind (hbody s.tok fun x hx => hi.infix hx) fun _ => hend s.tok).2 _ _ _ hi h'
  have key : ∀ n s, TokInv c0 s → ∀ u, parseOptions n dbg s = .ub u → A u ∨ u = .fuel := by
    intro n
    induction n with
    | zero =>
      intro s hi u h
      simp only [parseOptions, ubM, Out.ub.injEq] at h
      exact .inr h.symm
    | succ n ih =>
      intro s hi u h
      unfold parseOptions at h
      rcases bind_ub h with h | ⟨t, s1, hk, h⟩
      · simp [getTok] at h
      · simp only [getTok, Out.ok.injEq] at hk
        obtain ⟨rfl, rfl⟩ := hk
        split at h
        · rcases bind_ub h with h | ⟨_, s2, h1, h2⟩
          · exact .inl (hopt.2 _ _ _ hi h)
          · have := hopt.1 dbg s c0 hi
            rw [h1] at this
            exact ih s2 this.2 u h2
        · simp [M.pure] at h
  rcases key n s hi u h with h' | rfl
  · exact h'
  · exact absurd h (parseOptions_noFuel hi hn)

theorem Out.bind_ub {r : Out α} {f : α → St → Out β} {u : UB} (h : r.bind f = .ub u) :
    r = .ub u ∨ ∃ a s, r = .ok a s ∧ f a s = .ub u := by
  cases r with
  | ok a s => exact .inr ⟨a, s, rfl, h⟩
  | ub v => simp only [Out.bind, Out.ub.injEq] at h; subst h; exact .inl rfl
  | _ => simp [Out.bind] at h

/-- The undefined behaviours that operands and options named in `text` can have are in
    `A`. -/
structure RowsUb (A : UB → Prop) (table : List Insn) (text : Str) : Prop where
  rows : ∀ i ∈ table, i.mnemonic <:+: text → ∀ o ∈ i.operands, OperandUb A o
  opts : ∀ x ∈ unionOptions, x <:+: text → A .inactiveUnion

theorem RowsUb.mono {A : UB → Prop} {table : List Insn} {a b : Str} (h : RowsUb A table a)
    (hs : b <:+: a) : RowsUb A table b :=
  ⟨fun i hi hm => h.rows i hi (hm.trans hs), fun x hx hi => h.opts x hx (hi.trans hs)⟩

theorem parseInstruction_ub {A : UB → Prop} {table : List Insn} {dbg : Bool} {s : St} {u : UB}
    (hA : TokUb s.ctx.cur A) (hro : RowsUb A table s.ctx.cur.text)
    (h : parseInstruction table dbg s = .ub u) : A u := by
  rw [parseInstruction_eq] at h
  rcases Out.bind_ub h with h | ⟨_, s1, h1, h⟩
  · exact hA _ _ (Reach.refl _) (advance_ub h)
  · obtain ⟨t, c, ht, rfl⟩ := advance_ok h1
    have hi : TokInv s.ctx.cur { s with ctx := { s.ctx with cur := c }, tok := t } :=
      ⟨s.ctx.cur, Reach.refl _, ht⟩
    generalize ({ s with ctx := { s.ctx with cur := c }, tok := t } : St) = s1 at hi h
    split at h
    · simp at h
    · unfold insnBody at h
      rcases Out.bind_ub h with h | ⟨_, s2, h2, h⟩
      · exact parseOptions_ub hA hro.opts hi (by omega) h
      · have ho2 := oframed_parseOptions (s1.ctx.cur.text.length + 2) dbg s1 s.ctx.cur hi
        rw [h2] at ho2
        have hi2 : TokInv s.ctx.cur { s2 with ctx := { s2.ctx with pc := alignPc s2.ctx.pc } } := ho2.2
        rw [parsePrologue_eq] at h
        rcases Out.bind_ub h with h | ⟨_, s3, h3, h⟩
        · exact prologueBody_ub hA hi2 h
        · have hp := framed_prologueBody dbg _ s.ctx.cur hi2
          rw [h3] at hp
          rcases Out.bind_ub h with h | ⟨_, s4, h4, h⟩
          · refine tryRows_ub hA (fun i hi hm => hro.rows i hi ?_) hp.2.reach h
            refine hp.2.infix ?_
            simpa [Token.equal, Kind.equal] using hm
          · simp at h

theorem TokUb.mono {a b : Cur} {A : UB → Prop} (h : TokUb a A) (hr : Reach a b) : TokUb b A :=
  fun c u hc hu => h c u (hr.trans hc) hu

theorem parseAll_ub {A : UB → Prop} {table : List Insn} {dbg : Bool} {room : Nat} {ctx : Ctx}
    {u : UB} (hA : TokUb ctx.cur A) (ho : RowsUb A table ctx.cur.text) (hroom : ctx.cur.text.count ';' < room)
    (h : parseAll table dbg room ctx = .ub u) : A u := by
  induction room generalizing ctx with
  | zero => omega
  | succ room ih =>
    unfold parseAll at h
    split at h
    · simp at h
    · rename_i s heq
      obtain ⟨pre, hp⟩ := parseInstruction_semicolon heq
      have hf := parseInstruction_framed table dbg ⟨ctx, ⟨.none, 0, 0⟩, {}⟩ ctx.cur (Reach.refl _)
      rw [heq] at hf
      simp only at hp
      have hc : s.ctx.cur.text.count ';' < room := by
        rw [hp] at hroom
        simp only [List.count_append, List.count_cons_self] at hroom
        omega
      cases hpa : parseAll table dbg room s.ctx with
      | ok r => simp [hpa] at h
      | exit d => simp [hpa] at h
      | abort => simp [hpa] at h
      | ub v =>
        simp only [hpa, Res.ub.injEq] at h
        subst h
        exact ih (hA.mono hf.1) (ho.mono hf.1.suffix.isInfix) hc hpa
    · simp at h
    · simp at h
    · simp at h
    · rename_i v heq
      simp only [Res.ub.injEq] at h
      subst h
      exact parseInstruction_ub hA ho heq

/-- Undefined behaviours of a whole run. -/
theorem binary_ub {ctx : Ctx} {code : List (BitVec 64)} {u : UB} (h : binary ctx code = .ub u) :
    u = .scratchOverflow := by
  unfold binary at h
  dsimp only at h
  have hg : ∀ c : Bool, ∀ v : UB, (if c = true then Res.exit (Diag.plain "write_gfx_header is not implemented")
      else .ok code : Res (List (BitVec 64))) ≠ .ub v := by
    intro c v; split <;> simp
  split at h
  · split at h
    · rename_i control hc
      split at h
      · simp at h
      · exact absurd h (hg _ _)
    · unfold writeDksh at h
      repeat' split at h
      all_goals simp at h
      exact h.symm
  · exact absurd h (hg _ _)

theorem count_cstr (code : Str) : (cstr code).count ';' ≤ countSemicolons code := by
  unfold cstr countSemicolons
  exact (List.takeWhile_sublist _).count_le _

theorem assembleWith_ub {A : UB → Prop} {table : List Insn} {dbg : Bool} {code : Str} {u : UB}
    (hA : ∀ l c, TokUb ⟨cstr code, l, c⟩ A) (ho : RowsUb A table (cstr code)) (hs : A .scratchOverflow)
    (hl : ∀ u, genLabels (cstr code) = .error u → A u)
    (h : assembleWith table dbg code = .ub u) : A u := by
  unfold assembleWith at h
  split at h
  · rename_i hg
    simp only [Res.ub.injEq] at h
    subst h
    exact hl _ hg
  · dsimp only at h
    have := count_cstr code
    split at h
    · split at h
      · simp at h
      · rw [binary_ub h]; exact hs
    · simp at h
    · simp at h
    · rename_i v heq
      simp only [Res.ub.injEq] at h
      subst h
      exact parseAll_ub (hA 0 0) ho (by simp only; omega) heq

end Nxas
