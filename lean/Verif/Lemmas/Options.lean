import Verif.Lemmas.Ub
/-
The effect of option lines on the program settings (src/options.cpp).
-/

namespace Nxas

/-- The effect on the settings of an accepted option called `name`. -/
inductive OptEffect (name : Str) (o : Opts) : Opts → Prop
  | dksh (p : ProgType) (hn : name = c!".dksh") (ht : o.type = none) :
      OptEffect name o { o with isDksh := true, type := some p }
  | type (p : ProgType) (hn : name = c!".type") (ht : o.type = none) :
      OptEffect name o { o with type := some p }
  | workgroup (x y z : BitVec 32) (hn : name = c!".workgroup_size") :
      OptEffect name o { o with blockDims := (x, y, z) }
  | shared (v : BitVec 32) (hn : name = c!".shared_memory") :
      OptEffect name o { o with sharedMem := v }
  | local (v : BitVec 32) (hn : name = c!".local_memory") :
      OptEffect name o { o with localMem := v }
  | ignored (hn : name ∉ [c!".dksh", c!".type", c!".num_gprs", c!".workgroup_size",
      c!".shared_memory", c!".local_memory"]) : OptEffect name o o

theorem checkOptionLine_ok {n : Nat} {dbg : Bool} {s s' : St} {a : Unit}
    (h : checkOptionLine n dbg s = .ok a s') : s' = s := by
  unfold checkOptionLine at h
  obtain ⟨t, s1, h1, h⟩ := bind_ok h
  simp only [getTok, Out.ok.injEq] at h1
  obtain ⟨rfl, rfl⟩ := h1
  split at h
  · simp [exitTok] at h
  · simp only [M.pure, Out.ok.injEq] at h; exact h.2.symm

theorem advance_opts {dbg : Bool} {s s' : St} {a : Unit} (h : advance dbg s = .ok a s') :
    s'.ctx.opts = s.ctx.opts := by
  obtain ⟨t, c, -, rfl⟩ := advance_ok h
  rfl

theorem modifyOpts_ok {f : Opts → Opts} {dbg : Bool} {s s' : St} {a : Unit}
    (h : modifyOpts f dbg s = .ok a s') : s' = { s with ctx := { s.ctx with opts := f s.ctx.opts } } := by
  simp only [modifyOpts, Out.ok.injEq] at h
  exact h.2.symm

theorem parseType_ok {n : Nat} {dbg : Bool} {s s' : St} {a : Unit}
    (h : parseType n dbg s = .ok a s') :
    s.ctx.opts.type = none ∧ ∃ p, s'.ctx.opts = { s.ctx.opts with type := some p } := by
  unfold parseType at h
  obtain ⟨c, s1, h1, h⟩ := bind_ok h
  simp only [getCtx, Out.ok.injEq] at h1
  obtain ⟨rfl, rfl⟩ := h1
  split at h
  · simp [exitTok] at h
  · rename_i hn
    obtain ⟨_, s2, h2, h⟩ := bind_ok h
    obtain ⟨_, s3, h3, h⟩ := bind_ok h
    obtain ⟨t, s4, h4, h5⟩ := bind_ok h
    simp only [getTok, Out.ok.injEq] at h4
    obtain ⟨rfl, rfl⟩ := h4
    have ho := advance_opts h2
    rw [← checkOptionLine_ok h3] at ho
    refine ⟨by simpa using hn, ?_⟩
    clear h h3 h2
    cases hp : progTypeOfName s3.tok with
    | some p =>
      simp only [hp] at h5
      have := modifyOpts_ok h5
      subst this
      exact ⟨p, by simp [ho]⟩
    | none =>
      simp only [hp] at h5
      split at h5 <;> simp [exitTok, ubM] at h5

theorem nextImmediate_ok {msg : Msg} {dbg : Bool} {s s' : St} {v : BitVec 32}
    (h : nextImmediate msg dbg s = .ok v s') : s'.ctx.opts = s.ctx.opts := by
  unfold nextImmediate at h
  obtain ⟨_, s2, h2, h⟩ := bind_ok h
  obtain ⟨t, s4, h4, h⟩ := bind_ok h
  simp only [getTok, Out.ok.injEq] at h4
  obtain ⟨rfl, rfl⟩ := h4
  cases hk : s2.tok.kind <;> simp only [hk] at h
  case imm v =>
    simp only [M.pure, Out.ok.injEq] at h
    rw [← h.2]
    exact advance_opts h2
  all_goals simp [exitTok] at h

theorem Token.equal_iff {t : Token} {x : Str} : t.equal x = true ↔ t.kind = .ident x := by
  simp [Token.equal, Kind.equal]

theorem optionBody_ok {t : Token} {name : Str} (ht : t.kind = .ident name) {dbg : Bool} {s s' : St}
    {a : Unit} (h : optionBody t dbg s = .ok a s') : OptEffect name s.ctx.opts s'.ctx.opts := by
  have heq : ∀ x, t.equal x = true ↔ name = x := by
    intro x; rw [Token.equal_iff, ht]; simp
  unfold optionBody at h
  split at h
  · rename_i hn
    obtain ⟨_, s1, h1, h⟩ := bind_ok h
    have := modifyOpts_ok h1
    subst this
    obtain ⟨h2, p, h3⟩ := parseType_ok h
    rw [h3]
    exact .dksh p ((heq _).1 hn) h2
  split at h
  · rename_i hn
    obtain ⟨h2, p, h3⟩ := parseType_ok h
    rw [h3]
    exact .type p ((heq _).1 hn) h2
  split at h
  · obtain ⟨_, s1, h1, h⟩ := bind_ok h
    obtain ⟨t, s4, h4, h⟩ := bind_ok h
    cases hk : t.kind <;> simp [hk, exitTok, ubM] at h
  split at h
  · rename_i hn
    obtain ⟨x, s1, h1, h⟩ := bind_ok h
    obtain ⟨_, s2, h2, h⟩ := bind_ok h
    obtain ⟨y, s3, h3, h⟩ := bind_ok h
    obtain ⟨_, s4, h4, h⟩ := bind_ok h
    obtain ⟨z, s5, h5, h⟩ := bind_ok h
    obtain ⟨_, s6, h6, h⟩ := bind_ok h
    have e1 := nextImmediate_ok h1
    have e2 := modifyOpts_ok h2
    have e3 := nextImmediate_ok h3
    have e4 := modifyOpts_ok h4
    have e5 := nextImmediate_ok h5
    have e6 := modifyOpts_ok h6
    have e7 := checkOptionLine_ok h
    have : s'.ctx.opts = { s.ctx.opts with blockDims := (x, y, z) } := by
      rw [e7, e6]; dsimp only; rw [e5, e4]; dsimp only; rw [e3, e2]; dsimp only; rw [e1]
    rw [this]
    exact .workgroup x y z ((heq _).1 hn)
  split at h
  · rename_i hn
    obtain ⟨x, s1, h1, h⟩ := bind_ok h
    have e1 := nextImmediate_ok h1
    have e2 := modifyOpts_ok h
    rw [e2, ← e1]
    exact .shared x ((heq _).1 hn)
  split at h
  · rename_i hn
    obtain ⟨x, s1, h1, h⟩ := bind_ok h
    have e1 := nextImmediate_ok h1
    have e2 := modifyOpts_ok h
    rw [e2, ← e1]
    exact .local x ((heq _).1 hn)
  · simp only [M.pure, Out.ok.injEq] at h
    rw [← h.2]
    refine .ignored ?_
    simp_all

/-- A sequence of effects of options whose names occur in `text`. -/
inductive OptPath (text : Str) : Opts → Opts → Prop
  | refl (o : Opts) : OptPath text o o
  | step {o o1 o2 : Opts} {name : Str} (hn : name <:+: text) (he : OptEffect name o o1)
      (hp : OptPath text o1 o2) : OptPath text o o2

theorem OptPath.trans {t : Str} {a b c : Opts} (h1 : OptPath t a b) (h2 : OptPath t b c) :
    OptPath t a c := by
  induction h1 with
  | refl => exact h2
  | step hn he _ ih => exact .step hn he (ih h2)

theorem OptPath.mono {t u : Str} {a b : Opts} (h : OptPath t a b) (hs : t <:+: u) : OptPath u a b := by
  induction h with
  | refl => exact .refl _
  | step hn he _ ih => exact .step (hn.trans hs) he ih

theorem parseOption_path {dbg : Bool} {s s' : St} {a : Unit} {c0 : Cur} (hi : TokInv c0 s)
    (ho : s.tok.isOption = true) (h : parseOption dbg s = .ok a s') :
    OptPath c0.text s.ctx.opts s'.ctx.opts := by
  have h' : (optionBody s.tok >>= fun _ => optionEnd s.tok) dbg s = .ok a s' := h
  obtain ⟨_, s1, h1, h2⟩ := bind_ok h'
  cases hk : s.tok.kind with
  | ident x =>
    have he := optionBody_ok hk h1
    refine .step (hi.infix hk) he ?_
    unfold optionEnd at h2
    obtain ⟨_, s2, h2, h⟩ := bind_ok h2
    obtain ⟨t, s3, h3, h⟩ := bind_ok h
    simp only [getTok, Out.ok.injEq] at h3
    obtain ⟨rfl, rfl⟩ := h3
    have := advance_opts h2
    split at h
    · simp [exitTok] at h
    · simp only [M.pure, Out.ok.injEq] at h
      rw [← h.2, this]
      exact .refl _
  | _ => simp [Token.isOption, hk] at ho

theorem parseOptions_path {n : Nat} {dbg : Bool} {s s' : St} {a : Unit} {c0 : Cur} (hi : TokInv c0 s)
    (h : parseOptions n dbg s = .ok a s') : OptPath c0.text s.ctx.opts s'.ctx.opts := by
  induction n generalizing s with
  | zero => simp [parseOptions, ubM] at h
  | succ n ih =>
    unfold parseOptions at h
    obtain ⟨t, s1, h1, h⟩ := bind_ok h
    simp only [getTok, Out.ok.injEq] at h1
    obtain ⟨rfl, rfl⟩ := h1
    split at h
    · rename_i ho
      obtain ⟨_, s2, h2, h⟩ := bind_ok h
      have hf := oframed_parseOption dbg s c0 hi
      rw [h2] at hf
      exact (parseOption_path hi ho h2).trans (ih hf.2 h)
    · simp only [M.pure, Out.ok.injEq] at h
      rw [← h.2]; exact .refl _

theorem parseInstruction_path {table : List Insn} {dbg : Bool} {s0 s : St}
    (h : parseInstruction table dbg s0 = .ok true s) :
    OptPath s0.ctx.cur.text s0.ctx.opts s.ctx.opts := by
  rw [parseInstruction_eq] at h
  cases ha : advance dbg s0 with
  | ok x s1 =>
    rw [ha] at h
    obtain ⟨t, c, ht, rfl⟩ := advance_ok ha
    have hi : TokInv s0.ctx.cur { s0 with ctx := { s0.ctx with cur := c }, tok := t } :=
      ⟨s0.ctx.cur, Reach.refl _, ht⟩
    dsimp only [Out.bind] at h
    split at h
    · simp at h
    · unfold insnBody at h
      generalize hs1 : ({ s0 with ctx := { s0.ctx with cur := c }, tok := t } : St) = s1 at hi h
      have hop : s1.ctx.opts = s0.ctx.opts := by rw [← hs1]
      cases hpo : parseOptions (s1.ctx.cur.text.length + 2) dbg s1 with
      | ok a s2 =>
        have hpath := parseOptions_path hi hpo
        have ho := oframed_parseOptions (s1.ctx.cur.text.length + 2) dbg s1 s0.ctx.cur hi
        rw [hpo] at ho h
        dsimp only [Out.bind] at h
        rw [parsePrologue_eq] at h
        have hi2 : TokInv s0.ctx.cur { s2 with ctx := { s2.ctx with pc := alignPc s2.ctx.pc } } := ho.2
        have hp := framed_prologueBody dbg _ s0.ctx.cur hi2
        cases hpp : prologueBody dbg { s2 with ctx := { s2.ctx with pc := alignPc s2.ctx.pc } } with
        | ok a s3 =>
          rw [hpp] at hp h
          dsimp only at h
          have hrow := tryRows_framed s3.tok s3 dbg table s0.ctx.cur hp.2 hp.2.pos
          cases hrr : tryRows s3.tok s3 table none dbg s3 with
          | ok a s4 =>
            rw [hrr] at hrow h
            simp only [Out.ok.injEq, true_and] at h
            subst h
            rw [hrow.2.2.1, hp.1.opts, ← hop]
            exact hpath
          | _ => simp [hrr] at h
        | _ => simp [hpp] at h
      | _ => simp [hpo, Out.bind] at h
  | _ => simp [ha, Out.bind] at h

theorem Run.path {table : List Insn} {dbg : Bool} {ctx c : Ctx} {ops : List Op}
    (h : Run table dbg ctx ops c) : OptPath ctx.cur.text ctx.opts c.opts := by
  induction h with
  | @done ctx s h =>
    have hf := parseInstruction_framed table dbg ⟨ctx, ⟨.none, 0, 0⟩, {}⟩ ctx.cur (Reach.refl _)
    rw [h] at hf
    have : s.ctx.opts = ctx.opts := by rw [hf.2.2.2.1]
    rw [this]; exact .refl _
  | @step ctx s ops c h hr ih =>
    have hf := parseInstruction_framed table dbg ⟨ctx, ⟨.none, 0, 0⟩, {}⟩ ctx.cur (Reach.refl _)
    rw [h] at hf
    exact (parseInstruction_path h).trans (ih.mono hf.1.suffix.isInfix)

theorem Run.labels {table : List Insn} {dbg : Bool} {ctx c : Ctx} {ops : List Op}
    (h : Run table dbg ctx ops c) : c.labels = ctx.labels := by
  induction h with
  | @done ctx s h =>
    have hf := parseInstruction_framed table dbg ⟨ctx, ⟨.none, 0, 0⟩, {}⟩ ctx.cur (Reach.refl _)
    rw [h] at hf
    rw [hf.2.2.2.1]
  | @step ctx s ops c h hr ih =>
    have hf := parseInstruction_framed table dbg ⟨ctx, ⟨.none, 0, 0⟩, {}⟩ ctx.cur (Reach.refl _)
    rw [h] at hf
    rw [ih, hf.2.1]

/-- Without the option the local memory size is not changed. -/
theorem OptPath.localMem {t : Str} {a b : Opts} (h : OptPath t a b)
    (hn : ¬ c!".local_memory" <:+: t) : b.localMem = a.localMem := by
  induction h with
  | refl => rfl
  | step hm he _ ih =>
    rw [ih]
    cases he with
    | «local» v h => subst h; exact absurd hm hn
    | _ => rfl

theorem OptPath.isDksh {t : Str} {a b : Opts} (h : OptPath t a b)
    (hn : ¬ c!".dksh" <:+: t) : b.isDksh = a.isDksh := by
  induction h with
  | refl => rfl
  | step hm he _ ih =>
    rw [ih]
    cases he with
    | dksh p h => subst h; exact absurd hm hn
    | _ => rfl

/-- How the undefined behaviour of a whole run arises. -/
theorem assembleWith_ub' {A : UB → Prop} {table : List Insn} {dbg : Bool} {code : Str} {u : UB}
    (hA : ∀ l c, TokUb ⟨cstr code, l, c⟩ A) (ho : RowsUb A table (cstr code))
    (hs : c!".local_memory" <:+: cstr code → A .scratchOverflow)
    (hl : ∀ u, genLabels (cstr code) = .error u → A u)
    (h : assembleWith table dbg code = .ub u) : A u := by
  unfold assembleWith at h
  split at h
  · rename_i hg
    simp only [Res.ub.injEq] at h
    subst h
    exact hl _ hg
  · dsimp only at h
    have := count_cstr code
    split at h
    · rename_i ops c hpa
      split at h
      · simp at h
      · have hb := binary_ub h
        subst hb
        by_cases hc : c!".local_memory" <:+: cstr code
        · exact hs hc
        · exfalso
          have hp := (parseAll_run hpa).1.path.localMem hc
          simp only at hp
          unfold binary at h
          dsimp only at h
          unfold writeDksh at h
          rw [hp] at h
          have hsc : scratchSize (0#32) = some 0x800#32 := by decide
          have hz : (0 : BitVec 32) = 0#32 := rfl
          rw [hz, hsc] at h
          repeat' split at h
          all_goals simp_all
    · simp at h
    · simp at h
    · rename_i v heq
      simp only [Res.ub.injEq] at h
      subst h
      exact parseAll_ub (hA 0 0) ho (by simp only; omega) heq

end Nxas
