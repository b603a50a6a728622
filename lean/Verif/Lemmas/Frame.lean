import Verif.Lemmas.Lexer
import Verif.Lemmas.Closed
/-
Frame properties of operand parsers, instructions and options: the cursor only moves
forward, diagnostics are at positions of the text, the context is otherwise unchanged.
-/

namespace Nxas

/-- `(line, col)` is a position reached from `c0`. -/
def PosOf (c0 : Cur) (line col : Nat) : Prop := ∃ c1, Reach c0 c1 ∧ line = c1.line ∧ col = c1.col

theorem PosOf.of_reach {a b : Cur} {l c : Nat} (h : Reach a b) (hp : PosOf b l c) : PosOf a l c := by
  obtain ⟨c1, h1, h2⟩ := hp
  exact ⟨c1, h.trans h1, h2⟩

theorem PosOf.here (c : Cur) : PosOf c c.line c.col := ⟨c, Reach.refl _, rfl, rfl⟩

theorem lexNumber_exit {c : Cur} {e : Err} (h : lexNumber c = .exit e) :
    e.line = c.line ∧ e.col = c.col := by
  unfold lexNumber at h
  dsimp only at h
  repeat' split at h
  all_goals simp only [TokRes.exit.injEq, reduceCtorEq] at h
  all_goals subst h; exact ⟨rfl, rfl⟩

theorem lexPredicate_exit {c : Cur} {e : Err} (h : lexPredicate c = .done (.exit e)) :
    e.line = c.line ∧ e.col = c.col := by
  unfold lexPredicate at h
  dsimp only at h
  repeat' split at h
  all_goals simp only [LexStep.done.injEq, TokRes.exit.injEq, reduceCtorEq] at h
  all_goals subst h; exact ⟨rfl, rfl⟩

theorem lexRegister_exit {c : Cur} {e : Err} (h : lexRegister c = .done (.exit e)) :
    e.line = c.line ∧ e.col = c.col := by
  unfold lexRegister at h
  dsimp only at h
  repeat' split at h
  all_goals simp only [LexStep.done.injEq, TokRes.exit.injEq, reduceCtorEq] at h
  all_goals subst h; exact ⟨rfl, rfl⟩

theorem lexHead_exit {c : Cur} {e : Err} (h : lexHead c = .done (.exit e)) :
    e.line = c.line ∧ e.col = c.col := by
  unfold lexHead at h
  dsimp only at h
  split at h
  · split at h <;> simp at h
  · split at h
    · exact lexPredicate_exit h
    · split at h
      · simp only [LexStep.done.injEq] at h; exact lexNumber_exit h
      · split at h
        · exact lexRegister_exit h
        · simp at h

theorem tokenize_exit {c : Cur} {e : Err} (h : tokenize c = .exit e) : PosOf c e.line e.col := by
  have h' : tokenizeAux (c.text.length + 1) c = some (.exit e) := by rw [tokenize_eq, h]
  revert h'
  generalize c.text.length + 1 = n
  clear h
  intro h
  induction n generalizing c with
  | zero => simp [tokenizeAux] at h
  | succ n ih =>
    unfold tokenizeAux at h
    dsimp only at h
    have hr := Cur.skip_reach isBlank c
    generalize c.skip isBlank = cb at h hr
    split at h
    · simp at h
    · split at h
      · rename_i r hh
        simp only [Option.some.injEq] at h
        subst h
        obtain ⟨h1, h2⟩ := lexHead_exit hh
        rw [h1, h2]
        exact PosOf.of_reach hr (PosOf.here _)
      · rename_i c1 hh
        have hr1 := lexHead_fall hh
        split at h
        · simp at h
        · rename_i c3 hi
          obtain ⟨ha, -, -⟩ := lexIdent_step (.inl hi)
          exact PosOf.of_reach (hr.trans (hr1.trans ha)) (ih h)
        · simp at h

/-- What an operand parser keeps of the state. -/
structure Kept (s s' : St) : Prop where
  reach : Reach s.ctx.cur s'.ctx.cur
  labels : s'.ctx.labels = s.ctx.labels
  pc : s'.ctx.pc = s.ctx.pc
  opts : s'.ctx.opts = s.ctx.opts
  sched : s'.op.sched = s.op.sched

theorem Kept.refl (s : St) : Kept s s := ⟨Reach.refl _, rfl, rfl, rfl, rfl⟩
theorem Kept.trans {a b c : St} (h1 : Kept a b) (h2 : Kept b c) : Kept a c :=
  ⟨h1.reach.trans h2.reach, h2.labels.trans h1.labels, h2.pc.trans h1.pc, h2.opts.trans h1.opts,
    h2.sched.trans h1.sched⟩

/-- Invariant of the current token: it is the last token read, from a position reached
    from `c0`. -/
def TokInv (c0 : Cur) (s : St) : Prop := ∃ c, Reach c0 c ∧ tokenize c = .ok s.tok s.ctx.cur

theorem TokInv.reach {c0 : Cur} {s : St} (h : TokInv c0 s) : Reach c0 s.ctx.cur := by
  obtain ⟨c, h1, h2⟩ := h
  exact h1.trans (tokenize_ok h2).reach

theorem TokInv.pos {c0 : Cur} {s : St} (h : TokInv c0 s) : PosOf c0 s.tok.line s.tok.col := by
  obtain ⟨c, h1, h2⟩ := h
  obtain ⟨c1, h3, h4, h5, -, -⟩ := (tokenize_ok h2).start
  exact ⟨c1, h1.trans h3, h4, h5⟩

theorem TokInv.wf {c0 : Cur} {s : St} (h : TokInv c0 s) : s.tok.kind.wf := by
  obtain ⟨c, h1, h2⟩ := h
  exact (tokenize_ok h2).wf

/-- If the current token is a semicolon, the text before the cursor ends in it. -/
theorem TokInv.semi {c0 : Cur} {s : St} (h : TokInv c0 s) (hk : s.tok.kind = .semicolon) :
    ∃ pre, c0.text = pre ++ ';' :: s.ctx.cur.text := by
  obtain ⟨c, h1, h2⟩ := h
  obtain ⟨c1, h3, -, -, -, h6⟩ := (tokenize_ok h2).start
  obtain ⟨pre, hp, -⟩ := h1.trans h3
  exact ⟨pre, by rw [hp, h6 hk]⟩

/-- If the current token is the end of the text, nothing is left. -/
theorem TokInv.ended {c0 : Cur} {s : St} (h : TokInv c0 s) (hk : s.tok.kind = .none) :
    s.ctx.cur.text = [] := by
  obtain ⟨c, h1, h2⟩ := h
  exact (tokenize_ok h2).ended hk

/-- The text of an identifier is a part of the source text. -/
theorem TokInv.infix {c0 : Cur} {s : St} {x : Str} (h : TokInv c0 s) (hk : s.tok.kind = .ident x) :
    x <:+: c0.text := by
  obtain ⟨c, ⟨p, hp, -⟩, h2⟩ := h
  obtain ⟨pre, hpre⟩ := tokenize_ident h2 hk
  exact ⟨p ++ pre, s.ctx.cur.text, by rw [hp, hpre]; simp⟩

theorem TokInv.mono {a b : Cur} {s : St} (h : TokInv b s) (hr : Reach a b) : TokInv a s := by
  obtain ⟨c, h1, h2⟩ := h
  exact ⟨c, hr.trans h1, h2⟩

/-- The frame property of a computation, for a relation between the states before and
    after. -/
def FramedBy (R : St → St → Prop) (m : M α) : Prop := ∀ dbg s c0, TokInv c0 s →
  match m dbg s with
  | .ok _ s' => R s s' ∧ TokInv c0 s'
  | .fail e s' => R s s' ∧ TokInv c0 s' ∧ PosOf c0 e.line e.col
  | .exit e => PosOf c0 e.line e.col
  | _ => True

/-- The frame property of operand parsers. -/
abbrev Framed (m : M α) : Prop := FramedBy Kept m

theorem FramedBy.mono {R R' : St → St → Prop} {m : M α} (h : FramedBy R m)
    (hr : ∀ s s', R s s' → R' s s') : FramedBy R' m := by
  intro dbg s c0 hi
  have := h dbg s c0 hi
  cases hms : m dbg s <;> simp only [hms] at this ⊢
  · exact ⟨hr _ _ this.1, this.2⟩
  · exact ⟨hr _ _ this.1, this.2⟩
  · exact this

theorem framed_of_ro {m : M α} (h : ∀ dbg s, (∃ a, m dbg s = .ok a s) ∨
    (∃ msg, m dbg s = .fail ⟨s.tok.line, s.tok.col, msg⟩ s) ∨ (∃ u, m dbg s = .ub u)) :
    Framed m := by
  intro dbg s c0 hi
  rcases h dbg s with ⟨a, h⟩ | ⟨msg, h⟩ | ⟨u, h⟩ <;> rw [h]
  · exact ⟨Kept.refl _, hi⟩
  · exact ⟨Kept.refl _, hi, hi.pos⟩
  · trivial

theorem framedBy_bind {R : St → St → Prop} (htr : ∀ a b c, R a b → R b c → R a c)
    {m : M α} {f : α → M β} (hm : FramedBy R m) (hf : ∀ a, FramedBy R (f a)) :
    FramedBy R (m >>= f) := by
  intro dbg s c0 hi
  have h1 := hm dbg s c0 hi
  rw [M.bind_def]
  cases hms : m dbg s with
  | ok a s' =>
    simp only [hms] at h1 ⊢
    have h2 := hf a dbg s' c0 h1.2
    cases hfs : f a dbg s' with
    | ok b s'' => simp only [hfs] at h2 ⊢; exact ⟨htr _ _ _ h1.1 h2.1, h2.2⟩
    | fail e s'' => simp only [hfs] at h2 ⊢; exact ⟨htr _ _ _ h1.1 h2.1, h2.2⟩
    | exit e => simpa only [hfs] using h2
    | abort => trivial
    | ub u => trivial
  | fail e s' => simpa only [hms] using h1
  | exit e => simpa only [hms] using h1
  | abort => trivial
  | ub u => trivial

theorem framed_bind {m : M α} {f : α → M β} (hm : Framed m) (hf : ∀ a, Framed (f a)) :
    Framed (m >>= f) := framedBy_bind (R := Kept) (fun _ _ _ h1 h2 => h1.trans h2) hm hf

theorem framed_advance : Framed advance := by
  intro dbg s c0 hi
  unfold advance
  cases h : tokenize s.ctx.cur with
  | ok t c =>
    have := tokenize_ok h
    exact ⟨⟨this.reach, rfl, rfl, rfl, rfl⟩, s.ctx.cur, hi.reach, h⟩
  | exit e => exact PosOf.of_reach hi.reach (tokenize_exit h)
  | ub u => trivial

theorem framed_findInTable (b : Bool) (t : List Str) (p : Str) : Framed (findInTable b t p) := by
  apply framed_of_ro
  intro dbg s
  unfold findInTable
  repeat' split
  all_goals first
    | exact .inl ⟨_, rfl⟩
    | exact .inr (.inr ⟨_, rfl⟩)

theorem framed_closed : Closed @Framed where
  pure a := framed_of_ro fun _ _ => .inl ⟨a, rfl⟩
  bind _ _ := framed_bind
  getKind := framed_of_ro fun _ s => .inl ⟨s.tok.kind, rfl⟩
  getValue := framed_of_ro fun _ s => .inl ⟨s.op.value, rfl⟩
  setValue v := fun dbg s c0 hi => ⟨⟨Reach.refl _, rfl, rfl, rfl, rfl⟩, hi⟩
  failTok msg := framed_of_ro fun _ s => .inr (.inl ⟨msg, rfl⟩)
  blameStart msg m hm := by
    intro dbg s c0 hi
    have h1 := hm dbg s c0 hi
    unfold blameStart
    cases hms : m dbg s with
    | ok a s' => simpa only [hms] using h1
    | fail e s' =>
      simp only [hms] at h1 ⊢
      refine ⟨h1.1, h1.2.1, ?_⟩
      split
      · exact hi.pos
      · exact h1.2.2
    | exit e => simpa only [hms] using h1
    | abort => trivial
    | ub u => trivial
  advance := framed_advance
  addBits b := by
    intro dbg s c0 hi
    unfold addBits
    by_cases h : (dbg && (s.op.value &&& b) != 0#64) = true
    · rw [if_pos h]; trivial
    · rw [if_neg h]; exact ⟨⟨Reach.refl _, rfl, rfl, rfl, rfl⟩, hi⟩
  addReuse b _ := by
    intro dbg s c0 hi
    unfold addReuse
    by_cases h : (dbg && (s.op.reuse &&& b) != 0#32) = true
    · rw [if_pos h]; trivial
    · rw [if_neg h]; exact ⟨⟨Reach.refl _, rfl, rfl, rfl, rfl⟩, hi⟩
  confirm k := framed_of_ro fun dbg s => by
    unfold confirm; split
    · exact .inl ⟨_, rfl⟩
    · exact .inr (.inl ⟨_, rfl⟩)
  confirmIdent := framed_of_ro fun dbg s => by
    unfold confirmIdent; split
    · exact .inl ⟨_, rfl⟩
    · exact .inr (.inl ⟨_, rfl⟩)
  confirmReg := framed_of_ro fun dbg s => by
    unfold confirmReg; split
    · exact .inl ⟨_, rfl⟩
    · exact .inr (.inl ⟨_, rfl⟩)
  confirmPred := framed_of_ro fun dbg s => by
    unfold confirmPred; split
    · exact .inl ⟨_, rfl⟩
    · exact .inr (.inl ⟨_, rfl⟩)
  convertInteger a b := framed_of_ro fun dbg s => by
    unfold convertInteger
    repeat' split
    all_goals first
      | exact .inl ⟨_, rfl⟩
      | exact .inr (.inl ⟨_, rfl⟩)
  findInTable t p := framed_findInTable true t p

theorem Operand.framed (o : Operand) : Framed o.run :=
  framed_closed.run_all (framed_of_ro fun _ s => .inl ⟨s.ctx, rfl⟩)
    (framed_of_ro fun _ _ => .inr (.inr ⟨_, rfl⟩)) (framed_of_ro fun _ _ => .inr (.inr ⟨_, rfl⟩))
    (framed_findInTable false) o

/-! ### Build modes -/

/-- The release build does the same as the debug build, unless the latter aborts. -/
def Agrees (m : M α) : Prop := ∀ s, m true s = .abort ∨ m true s = m false s

theorem agrees_of_const {m : M α} (h : ∀ s, m true s = m false s) : Agrees m := fun s => .inr (h s)

theorem agrees_bind {m : M α} {f : α → M β} (hm : Agrees m) (hf : ∀ a, Agrees (f a)) :
    Agrees (m >>= f) := by
  intro s
  show M.bind m f true s = _ ∨ M.bind m f true s = M.bind m f false s
  unfold M.bind
  rcases hm s with h | h
  · left; rw [h]
  · rw [← h]
    cases hms : m true s with
    | ok a s' => exact hf a s'
    | fail e s' => exact .inr rfl
    | exit e => exact .inr rfl
    | abort => exact .inr rfl
    | ub u => exact .inr rfl

theorem agrees_closed : Closed @Agrees where
  pure a := agrees_of_const fun _ => rfl
  bind _ _ := agrees_bind
  getKind := agrees_of_const fun _ => rfl
  getValue := agrees_of_const fun _ => rfl
  setValue v := agrees_of_const fun _ => rfl
  failTok msg := agrees_of_const fun _ => rfl
  blameStart msg m hm := by
    intro s
    unfold blameStart
    rcases hm s with h | h
    · left; rw [h]
    · rw [← h]; exact .inr rfl
  advance := agrees_of_const fun _ => rfl
  addBits b := by
    intro s
    unfold addBits
    simp only [Bool.true_and, Bool.false_and, Bool.false_eq_true, if_false]
    split
    · exact .inl rfl
    · exact .inr rfl
  addReuse b _ := by
    intro s
    unfold addReuse
    simp only [Bool.true_and, Bool.false_and, Bool.false_eq_true, if_false]
    split
    · exact .inl rfl
    · exact .inr rfl
  confirm k := agrees_of_const fun _ => rfl
  confirmIdent := agrees_of_const fun _ => rfl
  confirmReg := agrees_of_const fun _ => rfl
  confirmPred := agrees_of_const fun _ => rfl
  convertInteger a b := agrees_of_const fun _ => rfl
  findInTable t p := agrees_of_const fun _ => rfl

theorem Operand.agrees (o : Operand) : Agrees o.run :=
  agrees_closed.run_all (agrees_of_const fun _ => rfl) (agrees_of_const fun _ => rfl)
    (agrees_of_const fun _ => rfl) (fun _ _ => agrees_of_const fun _ => rfl) o

/-! ### Undefined behaviour -/

/-- The release build never aborts. -/
def NoAbort (m : M α) : Prop := ∀ s, m false s ≠ .abort

/-- Every undefined behaviour of `m` is in `A`. -/
def UbIn (A : UB → Prop) (m : M α) : Prop := ∀ dbg s u, m dbg s = .ub u → A u

theorem ubIn_of_not {A : UB → Prop} {m : M α} (h : ∀ dbg s u, m dbg s ≠ .ub u) : UbIn A m :=
  fun dbg s u hu => absurd hu (h dbg s u)

theorem ubIn_bind {A : UB → Prop} {m : M α} {f : α → M β} (hm : UbIn A m) (hf : ∀ a, UbIn A (f a)) :
    UbIn A (m >>= f) := by
  intro dbg s u hu
  replace hu : M.bind m f dbg s = .ub u := hu
  unfold M.bind at hu
  cases hms : m dbg s with
  | ok a s' => simp only [hms] at hu; exact hf a _ _ _ hu
  | ub v => simp only [hms, Out.ub.injEq] at hu; subst hu; exact hm _ _ _ hms
  | fail e s' => simp [hms] at hu
  | exit e => simp [hms] at hu
  | abort => simp [hms] at hu

theorem advance_ub {dbg : Bool} {s : St} {u : UB} (h : advance dbg s = .ub u) :
    tokenize s.ctx.cur = .ub u := by
  unfold advance at h
  split at h <;> simp at h
  rename_i heq; rw [heq, h]

theorem ubIn_closed {A : UB → Prop} (hA : A .readPastEnd) : Closed (fun {α} m => UbIn (α := α) A m) where
  pure a := ubIn_of_not (by simp [M.pure])
  bind _ _ := ubIn_bind
  getKind := ubIn_of_not (by simp [getKind])
  getValue := ubIn_of_not (by simp [getValue])
  setValue v := ubIn_of_not (by simp [setValue])
  failTok msg := ubIn_of_not (by simp [failTok])
  blameStart msg m hm := by
    intro dbg s u hu
    unfold blameStart at hu
    split at hu
    · simp at hu
    · exact hm _ _ _ hu
  advance := by
    intro dbg s u hu
    rw [tokenize_ub_kind (advance_ub hu)]; exact hA
  addBits b := ubIn_of_not (by intro dbg s u; unfold addBits; split <;> simp)
  addReuse b _ := ubIn_of_not (by intro dbg s u; unfold addReuse; split <;> simp)
  confirm k := ubIn_of_not (by intro dbg s u; unfold confirm; split <;> simp)
  confirmIdent := ubIn_of_not (by intro dbg s u; unfold confirmIdent; split <;> simp)
  confirmReg := ubIn_of_not (by intro dbg s u; unfold confirmReg; split <;> simp)
  confirmPred := ubIn_of_not (by intro dbg s u; unfold confirmPred; split <;> simp)
  convertInteger a b := ubIn_of_not (by
    intro dbg s u; unfold convertInteger
    repeat' split
    all_goals simp)
  findInTable t p := ubIn_of_not (by
    intro dbg s u; unfold findInTable
    simp only [if_true]
    repeat' split
    all_goals simp)

/-- The undefined behaviours operands can have. -/
def operandUb (u : UB) : Prop :=
  u = .readPastEnd ∨ u = .tableOverrun ∨ u = .inactiveUnion ∨ u = .signedOverflow

theorem Operand.ubIn (o : Operand) : UbIn operandUb o.run := by
  refine (ubIn_closed (A := operandUb) (.inl rfl)).run_all (ubIn_of_not (by simp [getCtx])) ?_ ?_ ?_ o
  · intro dbg s u hu; simp only [ubM, Out.ub.injEq] at hu; subst hu; simp [operandUb]
  · intro dbg s u hu; simp only [ubM, Out.ub.injEq] at hu; subst hu; simp [operandUb]
  · intro t p dbg s u hu
    unfold findInTable at hu
    repeat' split at hu
    all_goals simp at hu
    subst hu; simp [operandUb]

end Nxas
