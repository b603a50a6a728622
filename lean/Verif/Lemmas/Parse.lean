import Verif.Lemmas.Frame
import Verif.Model.Assemble
/-
Lemmas about instructions and options (src/parse.cpp, src/options.cpp).
-/

namespace Nxas

/-! ### Sequencing, inverted -/

theorem bind_ok {m : M α} {f : α → M β} {dbg : Bool} {s s' : St} {b : β}
    (h : (m >>= f) dbg s = .ok b s') : ∃ a s1, m dbg s = .ok a s1 ∧ f a dbg s1 = .ok b s' := by
  rw [M.bind_def] at h
  cases hm : m dbg s with
  | ok a s1 => simp only [hm] at h; exact ⟨a, s1, rfl, h⟩
  | fail e s1 => simp [hm] at h
  | exit e => simp [hm] at h
  | abort => simp [hm] at h
  | ub u => simp [hm] at h

theorem bind_ub {m : M α} {f : α → M β} {dbg : Bool} {s : St} {u : UB}
    (h : (m >>= f) dbg s = .ub u) :
    m dbg s = .ub u ∨ ∃ a s1, m dbg s = .ok a s1 ∧ f a dbg s1 = .ub u := by
  rw [M.bind_def] at h
  cases hm : m dbg s with
  | ok a s1 => simp only [hm] at h; exact .inr ⟨a, s1, rfl, h⟩
  | fail e s1 => simp [hm] at h
  | exit e => simp [hm] at h
  | abort => simp [hm] at h
  | ub v => simp only [hm, Out.ub.injEq] at h; subst h; exact .inl rfl

theorem advance_ok {dbg : Bool} {s s' : St} {a : Unit} (h : advance dbg s = .ok a s') :
    ∃ t c, tokenize s.ctx.cur = .ok t c ∧
      s' = { s with ctx := { s.ctx with cur := c }, tok := t } := by
  unfold advance at h
  split at h <;> simp at h
  rename_i t c heq
  exact ⟨t, c, heq, h.symm⟩

/-! ### Relations between states -/

/-- The cursor moves forward, labels are kept. -/
structure Moved (s s' : St) : Prop where
  reach : Reach s.ctx.cur s'.ctx.cur
  labels : s'.ctx.labels = s.ctx.labels

theorem Moved.refl (s : St) : Moved s s := ⟨Reach.refl _, rfl⟩
theorem Moved.trans {a b c : St} (h1 : Moved a b) (h2 : Moved b c) : Moved a c :=
  ⟨h1.reach.trans h2.reach, h2.labels.trans h1.labels⟩
theorem Moved.tr : ∀ a b c, Moved a b → Moved b c → Moved a c := fun _ _ _ h1 h2 => h1.trans h2
theorem Kept.tr : ∀ a b c, Kept a b → Kept b c → Kept a c := fun _ _ _ h1 h2 => h1.trans h2
theorem Kept.moved {a b : St} (h : Kept a b) : Moved a b := ⟨h.reach, h.labels⟩

/-- The cursor moves forward; labels, position and settings are kept. -/
structure KeptCtx (s s' : St) : Prop where
  reach : Reach s.ctx.cur s'.ctx.cur
  labels : s'.ctx.labels = s.ctx.labels
  pc : s'.ctx.pc = s.ctx.pc
  opts : s'.ctx.opts = s.ctx.opts

theorem KeptCtx.refl (s : St) : KeptCtx s s := ⟨Reach.refl _, rfl, rfl, rfl⟩
theorem KeptCtx.trans {a b c : St} (h1 : KeptCtx a b) (h2 : KeptCtx b c) : KeptCtx a c :=
  ⟨h1.reach.trans h2.reach, h2.labels.trans h1.labels, h2.pc.trans h1.pc, h2.opts.trans h1.opts⟩
theorem KeptCtx.tr : ∀ a b c, KeptCtx a b → KeptCtx b c → KeptCtx a c :=
  fun _ _ _ h1 h2 => h1.trans h2
theorem Kept.ctx {a b : St} (h : Kept a b) : KeptCtx a b := ⟨h.reach, h.labels, h.pc, h.opts⟩
theorem KeptCtx.moved {a b : St} (h : KeptCtx a b) : Moved a b := ⟨h.reach, h.labels⟩

/-! ### Scheduling annotations -/

/-- `schedStep` after the `@`. -/
def schedBody (s : Sched) : M Sched := do
  let t ← getKind
  if t.equal c!"WAIT" then
    if s.stall.isSome then failTok "clocks to stall are already specified"
    else do
      advance
      let v ← schedImmediate 15 "number of waited clocks must be between 0 and 15 inclusively"
      advance
      M.pure { s with stall := some v }
  else if t.equal c!"WB" || t.equal c!"RB" then
    if (if t.equal c!"WB" then s.wb else s.rb).isSome then
      failTok ⟨"%s barrier already specified", [.text (if t.equal c!"WB" then c!"write" else c!"read")]⟩
    else do
      advance
      let v ← schedImmediate 5 "barrier index must be between 0 and 5 inclusively"
      advance
      M.pure (if t.equal c!"WB" then { s with wb := some v } else { s with rb := some v })
  else if t.equal c!"Y" || t.equal c!"YIELD" then
    if s.yield then failTok "yield already specified"
    else do
      advance
      M.pure { s with yield := true }
  else if t.equal c!"DEP" then do
    advance
    let v ← schedImmediate 5 "dependency barrier index must be between 0 and 5 inclusively"
    let mask : BitVec 32 := 1#32 <<< v
    if (s.wait &&& mask) ≠ 0#32 then failTok ⟨"dependency barrier index %d already specified", [.int v]⟩
    else do
      advance
      M.pure { s with wait := s.wait ||| mask }
  else failTok "expected @WAIT, @WB, @RB, @DEP, or @YIELD/@Y"

theorem schedStep_eq (s : Sched) : schedStep s = (advance >>= fun _ => schedBody s) := rfl

theorem Closed.schedBody {P : ∀ {α : Type}, M α → Prop} (h : Closed @P) (s : Sched) :
    P (Nxas.schedBody s) := by
  have h1 := h.schedImmediate 15 "number of waited clocks must be between 0 and 15 inclusively"
  have h2 := h.schedImmediate 5 "barrier index must be between 0 and 5 inclusively"
  have h3 := h.schedImmediate 5 "dependency barrier index must be between 0 and 5 inclusively"
  unfold Nxas.schedBody; closed h

/-- `schedBody` succeeds only on an identifier. -/
theorem schedBody_ident {dbg : Bool} {r : Sched} {st st' : St} {r' : Sched}
    (h : schedBody r dbg st = .ok r' st') : ∃ x, st.tok.kind = .ident x := by
  unfold schedBody at h
  obtain ⟨k, s1, hk, h⟩ := bind_ok h
  simp only [getKind, Out.ok.injEq] at hk
  obtain ⟨rfl, rfl⟩ := hk
  cases hk : st.tok.kind with
  | ident x => exact ⟨x, rfl⟩
  | _ => simp [hk, Kind.equal, failTok] at h

theorem schedStep_shorter {dbg : Bool} {r r' : Sched} {s s' : St} {c0 : Cur} (hi : TokInv c0 s)
    (h : schedStep r dbg s = .ok r' s') : s'.ctx.cur.text.length < s.ctx.cur.text.length := by
  rw [schedStep_eq] at h
  obtain ⟨_, s1, h1, h2⟩ := bind_ok h
  obtain ⟨t, c, ht, rfl⟩ := advance_ok h1
  obtain ⟨x, hx⟩ := schedBody_ident h2
  simp only at hx
  have hs := (tokenize_ok ht).shorter (by simp [hx])
  have hf := framed_closed.schedBody r dbg { s with ctx := { s.ctx with cur := c }, tok := t } c0
    ⟨s.ctx.cur, hi.reach, ht⟩
  rw [h2] at hf
  have := hf.1.reach.length_le
  simp only at this
  omega

theorem Closed.schedLoop {P : ∀ {α : Type}, M α → Prop} (h : Closed @P)
    (hf : P (ubM .fuel : M Sched)) (n : Nat) (s : Sched) : P (Nxas.schedLoop n s) := by
  induction n generalizing s with
  | zero => exact hf
  | succ n ih =>
    unfold Nxas.schedLoop
    refine h.bind _ _ h.getKind ?_
    intro k
    split
    · exact h.bind _ _ (h.schedStep s) (fun r => ih r)
    · exact h.pure _

theorem framed_ub (u : UB) : Framed (ubM u : M α) := framed_of_ro fun _ _ => .inr (.inr ⟨u, rfl⟩)

theorem schedLoop_framed (n : Nat) (r : Sched) : Framed (schedLoop n r) :=
  framed_closed.schedLoop (framed_ub _) n r

/-- The annotation loop never runs out of fuel. -/
theorem schedLoop_noFuel {n : Nat} {dbg : Bool} {r : Sched} {s : St} {c0 : Cur} (hi : TokInv c0 s)
    (hn : s.ctx.cur.text.length < n) : schedLoop n r dbg s ≠ .ub .fuel := by
  induction n generalizing r s with
  | zero => omega
  | succ n ih =>
    unfold schedLoop
    intro h
    rcases bind_ub h with h | ⟨k, s1, hk, h⟩
    · simp [getKind] at h
    · simp only [getKind, Out.ok.injEq] at hk
      obtain ⟨rfl, rfl⟩ := hk
      split at h
      · rcases bind_ub h with h | ⟨r', s2, h1, h2⟩
        · have := (ubIn_closed (A := (· ≠ .fuel)) (by simp)).schedStep r dbg s _ h
          exact this rfl
        · have hf := framed_closed.schedStep r dbg s c0 hi
          rw [h1] at hf
          have := schedStep_shorter hi h1
          exact ih hf.2 (by omega) h2
      · simp [M.pure] at h

/-! ### `parse_insn` -/

theorem assembleSched_framed : FramedBy KeptCtx assembleSched := by
  intro dbg s c0 hi
  have h : FramedBy KeptCtx
      (schedLoop (s.ctx.cur.text.length + 1) {} >>= fun r => setSched r.raw) := by
    refine framedBy_bind KeptCtx.tr
      ((schedLoop_framed _ _).mono fun _ _ => Kept.ctx) ?_
    intro r dbg s c0 hi
    exact ⟨⟨Reach.refl _, rfl, rfl, rfl⟩, hi⟩
  exact h dbg s c0 hi

theorem finishInsn_framed : FramedBy KeptCtx finishInsn :=
  framedBy_bind KeptCtx.tr assembleSched_framed
    fun _ => (framed_closed.confirm _).mono fun _ _ => Kept.ctx

theorem confirm_ok {k : Kind} {dbg : Bool} {s s' : St} {a : Unit}
    (h : confirm k dbg s = .ok a s') : s.tok.kind = k ∧ s' = s := by
  unfold confirm at h
  split at h
  · rename_i hk; simp only [Out.ok.injEq] at h; exact ⟨hk, h.2.symm⟩
  · simp at h

theorem finishInsn_semi {dbg : Bool} {s s' : St} {a : Unit} (h : finishInsn dbg s = .ok a s') :
    s'.tok.kind = .semicolon := by
  unfold finishInsn at h
  obtain ⟨-, s1, -, h2⟩ := bind_ok h
  obtain ⟨h3, rfl⟩ := confirm_ok h2
  exact h3

/-- The frame property of an outcome with score. -/
def OutFramed (R : St → St → Prop) (c0 : Cur) (s : St) : Out α → Prop
  | .ok _ s' => R s s' ∧ TokInv c0 s'
  | .fail e s' => R s s' ∧ TokInv c0 s' ∧ PosOf c0 e.line e.col
  | .exit e => PosOf c0 e.line e.col
  | _ => True

theorem FramedBy.out {R : St → St → Prop} {m : M α} (h : FramedBy R m) {c0 : Cur} {s : St}
    (hi : TokInv c0 s) (dbg : Bool) : OutFramed R c0 s (m dbg s) := by
  have := h dbg s c0 hi
  unfold OutFramed
  split <;> simp_all

theorem OutFramed.trans {R : St → St → Prop} (htr : ∀ a b c, R a b → R b c → R a c) {c0 : Cur}
    {s s1 : St} {r : Out α} (h1 : R s s1) (h : OutFramed R c0 s1 r) : OutFramed R c0 s r := by
  cases r with
  | ok a s' => exact ⟨htr _ _ _ h1 h.1, h.2⟩
  | fail e s' => exact ⟨htr _ _ _ h1 h.1, h.2⟩
  | exit e => exact h
  | abort => trivial
  | ub u => trivial

theorem OutFramed.mono {R R' : St → St → Prop} (hr : ∀ a b, R a b → R' a b) {c0 : Cur}
    {s : St} {r : Out α} (h : OutFramed R c0 s r) : OutFramed R' c0 s r := by
  cases r with
  | ok a s' => exact ⟨hr _ _ h.1, h.2⟩
  | fail e s' => exact ⟨hr _ _ h.1, h.2⟩
  | exit e => exact h
  | abort => trivial
  | ub u => trivial

theorem runOperands_framed (os : List Operand) (n : Nat) (dbg : Bool) (s : St) (c0 : Cur)
    (hi : TokInv c0 s) : OutFramed Kept c0 s (runOperands os n dbg s).1 := by
  induction os generalizing n s with
  | nil => exact ⟨Kept.refl _, hi⟩
  | cons o os ih =>
    unfold runOperands
    have h1 := o.framed.out hi dbg
    cases h : o.run dbg s with
    | ok a s' =>
      rw [h] at h1
      exact (ih (n + 1) s' h1.2).trans Kept.tr h1.1
    | fail e s' => rw [h] at h1; exact h1
    | exit e => rw [h] at h1; exact h1
    | abort => trivial
    | ub u => trivial

/-- `advance` does not read the current token. -/
theorem advance_tok (dbg : Bool) (s : St) (t : Token) :
    advance dbg { s with tok := t } = advance dbg s := rfl

/-- `parse_insn` does not read the token passed to it. -/
theorem startInsn_tok (i : Insn) (dbg : Bool) (s : St) (t : Token) :
    startInsn i dbg { s with tok := t } = startInsn i dbg s := by
  unfold startInsn
  rw [M.bind_def, M.bind_def]
  unfold addBits
  dsimp only
  by_cases h : (dbg && (s.op.value &&& i.opcode) != 0#64) = true
  · rw [if_pos h, if_pos h]
  · rw [if_neg h, if_neg h]; rfl

theorem parseInsn_tok (i : Insn) (dbg : Bool) (s : St) (t : Token) :
    parseInsn i dbg { s with tok := t } = parseInsn i dbg s := by
  unfold parseInsn; rw [startInsn_tok]

theorem startInsn_framed (i : Insn) (dbg : Bool) (s : St) (c0 : Cur) (hr : Reach c0 s.ctx.cur) :
    OutFramed Kept c0 s (startInsn i dbg s) := by
  unfold startInsn
  rw [M.bind_def]
  unfold addBits
  by_cases h : (dbg && (s.op.value &&& i.opcode) != 0#64) = true
  · rw [if_pos h]; trivial
  · rw [if_neg h]
    dsimp only
    rw [M.bind_def]
    unfold advance
    dsimp only
    cases ht : tokenize s.ctx.cur with
    | exit e => exact PosOf.of_reach hr (tokenize_exit ht)
    | ub u => trivial
    | ok t c =>
      dsimp only
      have hk : Kept s ⟨{ s.ctx with cur := c }, t, { s.op with value := s.op.value ||| i.opcode }⟩ :=
        ⟨(tokenize_ok ht).reach, rfl, rfl, rfl, rfl⟩
      have hi : TokInv c0
          ⟨{ s.ctx with cur := c }, t, { s.op with value := s.op.value ||| i.opcode }⟩ :=
        ⟨s.ctx.cur, hr, ht⟩
      refine OutFramed.trans Kept.tr hk ?_
      refine FramedBy.out ?_ hi dbg
      have hc := framed_closed
      closed hc

theorem parseInsn_framed (i : Insn) (dbg : Bool) (s : St) (c0 : Cur) (hr : Reach c0 s.ctx.cur) :
    OutFramed KeptCtx c0 s (parseInsn i dbg s).1 := by
  unfold parseInsn
  have h1 := startInsn_framed i dbg s c0 hr
  cases hs : startInsn i dbg s with
  | ok a s1 =>
    rw [hs] at h1
    dsimp only
    have h2 := runOperands_framed i.operands 1 dbg s1 c0 h1.2
    generalize runOperands i.operands 1 dbg s1 = r at h2
    obtain ⟨r, sc⟩ := r
    refine OutFramed.trans KeptCtx.tr h1.1.ctx ?_
    cases r with
    | ok a s2 =>
      dsimp only at h2 ⊢
      exact (finishInsn_framed.out h2.2 dbg).trans KeptCtx.tr h2.1.ctx
    | fail e s2 => exact ⟨h2.1.ctx, h2.2⟩
    | exit e => exact h2
    | abort => trivial
    | ub u => trivial
  | fail e s1 => rw [hs] at h1; exact ⟨h1.1.ctx, h1.2⟩
  | exit e => rw [hs] at h1; exact h1
  | abort => trivial
  | ub u => trivial

theorem parseInsn_semi {i : Insn} {dbg : Bool} {s s' : St} {a : Unit} {sc : Nat}
    (h : parseInsn i dbg s = (.ok a s', sc)) : s'.tok.kind = .semicolon := by
  unfold parseInsn at h
  split at h
  · split at h
    · simp only [Prod.mk.injEq] at h
      exact finishInsn_semi h.1
    · rename_i hno
      exact absurd h (hno _ _ _)
  · rename_i hno
    simp only [Prod.mk.injEq] at h
    exact absurd h.1 (hno _ _)

/-! ### `parse_instruction`: the row loop -/

/-- What row `i` does on the saved state. -/
abbrev rowOut (dbg : Bool) (saved : St) (i : Insn) : Out Unit := (parseInsn i dbg saved).1

/-- Keep the earlier of two errors unless the later has a greater score. -/
def better (best : Option (Err × Nat)) (x : Err × Nat) : Option (Err × Nat) :=
  match best with
  | none => some x
  | some b => if x.2 > b.2 then some x else some b

/-- The errors, with their scores, of the rows named `mn`. -/
def rowErrors (mn : Token) (dbg : Bool) (saved : St) (rows : List Insn) : List (Err × Nat) :=
  rows.filterMap fun i =>
    if mn.equal i.mnemonic then
      match parseInsn i dbg saved with
      | (.fail e _, sc) => some (e, sc)
      | _ => none
    else none

/-- Row `i` is named `mn` and does not fail. -/
def Decides (mn : Token) (dbg : Bool) (saved : St) (i : Insn) : Prop :=
  mn.equal i.mnemonic = true ∧ ∀ e s', rowOut dbg saved i ≠ .fail e s'

/-- The outcome of `parse_instruction`, given the outcome of the deciding row. -/
def rowResult : Out Unit → Out Unit
  | .ok a s' => .ok a { s' with ctx := { s'.ctx with pc := s'.ctx.pc + 8 } }
  | r => r

/-- The error reported when no row decides. -/
def noRow (mn : Token) : Option (Err × Nat) → Err
  | some (e, _) => e
  | none => ⟨mn.line, mn.col, unknownMsg mn.kind.info⟩

theorem tryRows_spec (mn : Token) (saved : St) (dbg : Bool) (rows : List Insn)
    (best : Option (Err × Nat)) (s : St) (hc : s.ctx = saved.ctx) (ho : s.op = saved.op) :
    (∃ pre i post, rows = pre ++ i :: post ∧ Decides mn dbg saved i ∧
      (∀ j ∈ pre, ¬ Decides mn dbg saved j) ∧
      tryRows mn saved rows best dbg s = rowResult (rowOut dbg saved i)) ∨
    ((∀ j ∈ rows, ¬ Decides mn dbg saved j) ∧ tryRows mn saved rows best dbg s =
      .exit (noRow mn ((rowErrors mn dbg saved rows).foldl better best))) := by
  induction rows generalizing best s with
  | nil =>
    right
    refine ⟨by simp, ?_⟩
    unfold tryRows
    simp only [rowErrors, List.filterMap_nil, List.foldl_nil]
    unfold noRow
    split <;> rfl
  | cons i is ih =>
    by_cases hm : mn.equal i.mnemonic = true
    · have hp : parseInsn i dbg s = parseInsn i dbg saved := by
        have : s = { saved with tok := s.tok } := by cases s; cases saved; simp_all
        rw [this, parseInsn_tok]
      have hun : tryRows mn saved (i :: is) best dbg s =
          (match parseInsn i dbg saved with
          | (.ok _ s', _) => .ok () { s' with ctx := { s'.ctx with pc := s'.ctx.pc + 8 } }
          | (.fail e s', score) =>
            tryRows mn saved is (better best (e, score)) dbg { s' with ctx := saved.ctx, op := saved.op }
          | (.exit e, _) => .exit e
          | (.abort, _) => .abort
          | (.ub u, _) => .ub u) := by
        rw [tryRows, if_neg (by simp [hm]), hp]
        rcases parseInsn i dbg saved with ⟨_ | _ | _ | _ | _, _⟩ <;> try rfl
        rcases best with _ | ⟨_, _⟩ <;> rfl
      rw [hun]
      cases hr : parseInsn i dbg saved with
      | mk r sc =>
        have hro : rowOut dbg saved i = r := by simp [rowOut, hr]
        cases r with
        | fail e s' =>
          dsimp only
          have hnd : ¬ Decides mn dbg saved i := fun h => h.2 e s' hro
          rcases ih (better best (e, sc)) { s' with ctx := saved.ctx, op := saved.op } rfl rfl with
            ⟨pre, k, post, h1, h2, h3, h4⟩ | ⟨h1, h2⟩
          · refine .inl ⟨i :: pre, k, post, by simp [h1], h2, ?_, h4⟩
            intro j hj
            rcases List.mem_cons.mp hj with rfl | hj
            · exact hnd
            · exact h3 j hj
          · refine .inr ⟨?_, ?_⟩
            · intro j hj
              rcases List.mem_cons.mp hj with rfl | hj
              · exact hnd
              · exact h1 j hj
            · rw [h2]
              simp [rowErrors, hm, hr]
        | _ =>
          refine .inl ⟨[], i, is, rfl, ⟨hm, by simp [hro]⟩, by simp, ?_⟩
          simp [hro, rowResult]
    · have hun : tryRows mn saved (i :: is) best dbg s = tryRows mn saved is best dbg s := by
        rw [tryRows, if_pos (by simpa using hm)]
      rw [hun]
      have hnd : ¬ Decides mn dbg saved i := fun h => hm h.1
      rcases ih best s hc ho with ⟨pre, k, post, h1, h2, h3, h4⟩ | ⟨h1, h2⟩
      · refine .inl ⟨i :: pre, k, post, by simp [h1], h2, ?_, h4⟩
        intro j hj
        rcases List.mem_cons.mp hj with rfl | hj
        · exact hnd
        · exact h3 j hj
      · refine .inr ⟨?_, ?_⟩
        · intro j hj
          rcases List.mem_cons.mp hj with rfl | hj
          · exact hnd
          · exact h1 j hj
        · rw [h2]
          simp [rowErrors, hm]

/-! ### Options -/

theorem framed_getTok : Framed getTok := framed_of_ro fun _ s => .inl ⟨s.tok, rfl⟩
theorem framed_getCtx : Framed getCtx := framed_of_ro fun _ s => .inl ⟨s.ctx, rfl⟩

theorem framed_exitTok (msg : Msg) : Framed (exitTok msg : M α) := by
  intro dbg s c0 hi
  exact hi.pos

/-- `Moved` and the position is kept. -/
structure MovedPc (s s' : St) : Prop where
  reach : Reach s.ctx.cur s'.ctx.cur
  labels : s'.ctx.labels = s.ctx.labels
  pc : s'.ctx.pc = s.ctx.pc
  op : s'.op = s.op

theorem MovedPc.tr (a b c : St) (h1 : MovedPc a b) (h2 : MovedPc b c) : MovedPc a c :=
  ⟨h1.reach.trans h2.reach, h2.labels.trans h1.labels, h2.pc.trans h1.pc, h2.op.trans h1.op⟩

abbrev OFramed (m : M α) : Prop := FramedBy MovedPc m

theorem oframed_of_ro {m : M α} (h : ∀ dbg s, (∃ a, m dbg s = .ok a s) ∨
    (∃ msg, m dbg s = .exit ⟨s.tok.line, s.tok.col, msg⟩) ∨ (∃ u, m dbg s = .ub u)) :
    OFramed m := by
  intro dbg s c0 hi
  rcases h dbg s with ⟨a, h⟩ | ⟨msg, h⟩ | ⟨u, h⟩ <;> rw [h]
  · exact ⟨⟨Reach.refl _, rfl, rfl, rfl⟩, hi⟩
  · exact hi.pos
  · trivial

theorem oframed_bind {m : M α} {f : α → M β} (hm : OFramed m) (hf : ∀ a, OFramed (f a)) :
    OFramed (m >>= f) := framedBy_bind MovedPc.tr hm hf

theorem oframed_advance : OFramed advance := by
  intro dbg s c0 hi
  unfold advance
  cases h : tokenize s.ctx.cur with
  | ok t c =>
    have := tokenize_ok h
    exact ⟨⟨this.reach, rfl, rfl, rfl⟩, s.ctx.cur, hi.reach, h⟩
  | exit e => exact PosOf.of_reach hi.reach (tokenize_exit h)
  | ub u => trivial

theorem oframed_ite (c : Prop) [Decidable c] (a b : M α) (ha : OFramed a) (hb : OFramed b) :
    OFramed (if c then a else b) := by
  by_cases h : c
  · rw [if_pos h]; exact ha
  · rw [if_neg h]; exact hb

theorem oframed_modifyOpts (f : Opts → Opts) : OFramed (modifyOpts f) :=
  fun _ _ _ hi => ⟨⟨Reach.refl _, rfl, rfl, rfl⟩, hi⟩

theorem oframed_checkOptionLine (n : Nat) : OFramed (checkOptionLine n) := by
  unfold checkOptionLine
  refine oframed_bind (oframed_of_ro fun _ s => .inl ⟨s.tok, rfl⟩) fun t => ?_
  exact oframed_ite _ _ _ (oframed_of_ro fun _ s => .inr (.inl ⟨_, rfl⟩))
    (oframed_of_ro fun _ s => .inl ⟨_, rfl⟩)

theorem oframed_parseType (n : Nat) : OFramed (parseType n) := by
  unfold parseType
  refine oframed_bind (oframed_of_ro fun _ s => .inl ⟨s.ctx, rfl⟩) fun c => ?_
  refine oframed_ite _ _ _ (oframed_of_ro fun _ s => .inr (.inl ⟨_, rfl⟩)) ?_
  refine oframed_bind oframed_advance fun _ => ?_
  refine oframed_bind (oframed_checkOptionLine n) fun _ => ?_
  refine oframed_bind (oframed_of_ro fun _ s => .inl ⟨s.tok, rfl⟩) fun t => ?_
  split
  · exact oframed_modifyOpts _
  · exact oframed_ite _ _ _ (oframed_of_ro fun _ s => .inr (.inl ⟨_, rfl⟩))
      (oframed_of_ro fun _ s => .inr (.inr ⟨_, rfl⟩))

theorem oframed_nextImmediate (msg : Msg) : OFramed (nextImmediate msg) := by
  unfold nextImmediate
  refine oframed_bind oframed_advance fun _ => ?_
  refine oframed_bind (oframed_of_ro fun _ s => .inl ⟨s.tok, rfl⟩) fun t => ?_
  split
  · exact oframed_of_ro fun _ s => .inl ⟨_, rfl⟩
  · exact oframed_of_ro fun _ s => .inr (.inl ⟨_, rfl⟩)

theorem oframed_optionBody (t : Token) : OFramed (optionBody t) := by
  unfold optionBody
  refine oframed_ite _ _ _ (oframed_bind (oframed_modifyOpts _) fun _ => oframed_parseType _) ?_
  refine oframed_ite _ _ _ (oframed_parseType _) ?_
  refine oframed_ite _ _ _ ?_ ?_
  · refine oframed_bind oframed_advance fun _ => ?_
    refine oframed_bind (oframed_of_ro fun _ s => .inl ⟨s.tok, rfl⟩) fun t => ?_
    split
    · exact oframed_of_ro fun _ s => .inr (.inl ⟨_, rfl⟩)
    · exact oframed_of_ro fun _ s => .inr (.inr ⟨_, rfl⟩)
  refine oframed_ite _ _ _ ?_ ?_
  · refine oframed_bind (oframed_nextImmediate _) fun _ => ?_
    refine oframed_bind (oframed_modifyOpts _) fun _ => ?_
    refine oframed_bind (oframed_nextImmediate _) fun _ => ?_
    refine oframed_bind (oframed_modifyOpts _) fun _ => ?_
    refine oframed_bind (oframed_nextImmediate _) fun _ => ?_
    refine oframed_bind (oframed_modifyOpts _) fun _ => ?_
    exact oframed_checkOptionLine _
  refine oframed_ite _ _ _ (oframed_bind (oframed_nextImmediate _) fun _ => oframed_modifyOpts _) ?_
  refine oframed_ite _ _ _ (oframed_bind (oframed_nextImmediate _) fun _ => oframed_modifyOpts _) ?_
  exact oframed_of_ro fun _ s => .inl ⟨_, rfl⟩

/-- The end of `parse_option`. -/
def optionEnd (t0 : Token) : M Unit := do
  advance
  let t ← getTok
  if t0.line = t.line then exitTok "expected new line after option" else M.pure ()

theorem parseOption_eq : parseOption = (getTok >>= fun t0 => optionBody t0 >>= fun _ => optionEnd t0) :=
  rfl

theorem oframed_optionEnd (t0 : Token) : OFramed (optionEnd t0) := by
  unfold optionEnd
  refine oframed_bind oframed_advance fun _ => ?_
  refine oframed_bind (oframed_of_ro fun _ s => .inl ⟨s.tok, rfl⟩) fun t => ?_
  exact oframed_ite _ _ _ (oframed_of_ro fun _ s => .inr (.inl ⟨_, rfl⟩))
    (oframed_of_ro fun _ s => .inl ⟨_, rfl⟩)

theorem oframed_parseOption : OFramed parseOption := by
  rw [parseOption_eq]
  refine oframed_bind (oframed_of_ro fun _ s => .inl ⟨s.tok, rfl⟩) fun t0 => ?_
  exact oframed_bind (oframed_optionBody _) fun _ => oframed_optionEnd _

theorem oframed_parseOptions (n : Nat) : OFramed (parseOptions n) := by
  induction n with
  | zero => exact oframed_of_ro fun _ s => .inr (.inr ⟨_, rfl⟩)
  | succ n ih =>
    unfold parseOptions
    refine oframed_bind (oframed_of_ro fun _ s => .inl ⟨s.tok, rfl⟩) fun t => ?_
    exact oframed_ite _ _ _ (oframed_bind oframed_parseOption fun _ => ih)
      (oframed_of_ro fun _ s => .inl ⟨_, rfl⟩)

theorem ubIn_ite {A : UB → Prop} (c : Prop) [Decidable c] (a b : M α) (ha : UbIn A a)
    (hb : UbIn A b) : UbIn A (if c then a else b) := by
  by_cases h : c
  · rw [if_pos h]; exact ha
  · rw [if_neg h]; exact hb

/-- The undefined behaviours of options. -/
def optionUb (u : UB) : Prop := u = .readPastEnd ∨ u = .inactiveUnion

theorem ubIn_exitTok {A : UB → Prop} (msg : Msg) : UbIn A (exitTok msg : M α) :=
  ubIn_of_not (by simp [exitTok])
theorem ubIn_getTok {A : UB → Prop} : UbIn A getTok := ubIn_of_not (by simp [getTok])
theorem ubIn_getCtx {A : UB → Prop} : UbIn A getCtx := ubIn_of_not (by simp [getCtx])
theorem ubIn_pure {A : UB → Prop} (a : α) : UbIn A (M.pure a) := ubIn_of_not (by simp [M.pure])
theorem ubIn_modifyOpts {A : UB → Prop} (f : Opts → Opts) : UbIn A (modifyOpts f) :=
  ubIn_of_not (by simp [modifyOpts])
theorem ubIn_inactive : UbIn optionUb (ubM .inactiveUnion : M α) := by
  intro dbg s u hu; simp only [ubM, Out.ub.injEq] at hu; subst hu; simp [optionUb]
theorem ubIn_advance : UbIn optionUb advance := (ubIn_closed (.inl rfl)).advance

theorem ubIn_checkOptionLine {A : UB → Prop} (n : Nat) : UbIn A (checkOptionLine n) := by
  unfold checkOptionLine
  exact ubIn_bind ubIn_getTok fun t => ubIn_ite _ _ _ (ubIn_exitTok _) (ubIn_pure _)

theorem ubIn_parseType (n : Nat) : UbIn optionUb (parseType n) := by
  unfold parseType
  refine ubIn_bind ubIn_getCtx fun c => ?_
  refine ubIn_ite _ _ _ (ubIn_exitTok _) ?_
  refine ubIn_bind ubIn_advance fun _ => ?_
  refine ubIn_bind (ubIn_checkOptionLine n) fun _ => ?_
  refine ubIn_bind ubIn_getTok fun t => ?_
  split
  · exact ubIn_modifyOpts _
  · exact ubIn_ite _ _ _ (ubIn_exitTok _) ubIn_inactive

theorem ubIn_nextImmediate (msg : Msg) : UbIn optionUb (nextImmediate msg) := by
  unfold nextImmediate
  refine ubIn_bind ubIn_advance fun _ => ?_
  refine ubIn_bind ubIn_getTok fun t => ?_
  split
  · exact ubIn_pure _
  · exact ubIn_exitTok _

theorem ubIn_optionBody (t : Token) : UbIn optionUb (optionBody t) := by
  unfold optionBody
  refine ubIn_ite _ _ _ (ubIn_bind (ubIn_modifyOpts _) fun _ => ubIn_parseType _) ?_
  refine ubIn_ite _ _ _ (ubIn_parseType _) ?_
  refine ubIn_ite _ _ _ ?_ ?_
  · refine ubIn_bind ubIn_advance fun _ => ?_
    refine ubIn_bind ubIn_getTok fun t => ?_
    split
    · exact ubIn_exitTok _
    · exact ubIn_inactive
  refine ubIn_ite _ _ _ ?_ ?_
  · refine ubIn_bind (ubIn_nextImmediate _) fun _ => ?_
    refine ubIn_bind (ubIn_modifyOpts _) fun _ => ?_
    refine ubIn_bind (ubIn_nextImmediate _) fun _ => ?_
    refine ubIn_bind (ubIn_modifyOpts _) fun _ => ?_
    refine ubIn_bind (ubIn_nextImmediate _) fun _ => ?_
    refine ubIn_bind (ubIn_modifyOpts _) fun _ => ?_
    exact ubIn_checkOptionLine _
  refine ubIn_ite _ _ _ (ubIn_bind (ubIn_nextImmediate _) fun _ => ubIn_modifyOpts _) ?_
  refine ubIn_ite _ _ _ (ubIn_bind (ubIn_nextImmediate _) fun _ => ubIn_modifyOpts _) ?_
  exact ubIn_pure _

theorem ubIn_optionEnd (t : Token) : UbIn optionUb (optionEnd t) := by
  unfold optionEnd
  refine ubIn_bind ubIn_advance fun _ => ubIn_bind ubIn_getTok fun t => ?_
  exact ubIn_ite _ _ _ (ubIn_exitTok _) (ubIn_pure _)

theorem ubIn_parseOption : UbIn optionUb parseOption := by
  rw [parseOption_eq]
  exact ubIn_bind ubIn_getTok fun t => ubIn_bind (ubIn_optionBody _) fun _ => ubIn_optionEnd _

/-- An option that succeeds and is followed by another one consumed text. -/
theorem parseOption_shorter {dbg : Bool} {s s' : St} {a : Unit} {c0 : Cur} (hi : TokInv c0 s)
    (h : parseOption dbg s = .ok a s') (hk : s'.tok.kind ≠ .none) :
    s'.ctx.cur.text.length < s.ctx.cur.text.length := by
  rw [parseOption_eq] at h
  obtain ⟨t0, s0, h0, h⟩ := bind_ok h
  simp only [getTok, Out.ok.injEq] at h0
  obtain ⟨rfl, rfl⟩ := h0
  obtain ⟨_, s1, h1, h⟩ := bind_ok h
  have hf := oframed_optionBody s.tok dbg s c0 hi
  rw [h1] at hf
  have hl := hf.1.reach.length_le
  unfold optionEnd at h
  obtain ⟨_, s2, h2, h⟩ := bind_ok h
  obtain ⟨t, c, ht, rfl⟩ := advance_ok h2
  obtain ⟨t', s3, h3, h⟩ := bind_ok h
  simp only [getTok, Out.ok.injEq] at h3
  obtain ⟨rfl, rfl⟩ := h3
  have : s' = { s1 with ctx := { s1.ctx with cur := c }, tok := t } := by
    split at h
    · simp [exitTok] at h
    · simp only [M.pure, Out.ok.injEq] at h; exact h.2.symm
  subst this
  have := (tokenize_ok ht).shorter hk
  simp only
  omega

theorem isOption_ne_none {t : Token} (h : t.isOption = true) : t.kind ≠ .none := by
  intro hk; simp [Token.isOption, hk] at h

/-- The option loop never runs out of fuel. -/
theorem parseOptions_noFuel {n : Nat} {dbg : Bool} {s : St} {c0 : Cur} (hi : TokInv c0 s)
    (hn : s.ctx.cur.text.length + 1 < n) : parseOptions n dbg s ≠ .ub .fuel := by
  induction n generalizing s with
  | zero => omega
  | succ n ih =>
    unfold parseOptions
    intro h
    rcases bind_ub h with h | ⟨k, s1, hk, h⟩
    · simp [getTok] at h
    · simp only [getTok, Out.ok.injEq] at hk
      obtain ⟨rfl, rfl⟩ := hk
      split at h
      · rcases bind_ub h with h | ⟨_, s2, h1, h2⟩
        · have := ubIn_parseOption _ _ _ h
          simp [optionUb] at this
        · have hf := oframed_parseOption dbg s c0 hi
          rw [h1] at hf
          have hl := hf.1.reach.length_le
          by_cases hk : s2.tok.isOption = true
          · have := parseOption_shorter hi h1 (isOption_ne_none hk)
            exact ih hf.2 (by omega) h2
          · cases n with
            | zero => omega
            | succ n =>
              unfold parseOptions at h2
              obtain h3 | ⟨k, s3, hk3, h3⟩ := bind_ub h2
              · simp [getTok] at h3
              · simp only [getTok, Out.ok.injEq] at hk3
                obtain ⟨rfl, rfl⟩ := hk3
                rw [if_neg hk] at h3
                simp [M.pure] at h3
      · simp [M.pure] at h

/-! ### `parse_instruction` -/

/-- Address of the next instruction: skip the control word at the start of a group. -/
def alignPc (pc : Nat) : Nat := if pc % 0x20 = 0 then pc + 8 else pc

/-- `parsePrologue` after the position update. -/
def prologueBody : M Unit := do
  let t ← getTok
  if t.kind = .at then do
    advance
    raising guardPredicate
    advance
  else addBits (7#64 <<< 16)
  let t2 ← getTok
  match t2.kind with
  | .ident _ => M.pure ()
  | _ => exitTok "expected mnemonic"

theorem parsePrologue_eq (dbg : Bool) (s : St) : parsePrologue dbg s =
    prologueBody dbg { s with ctx := { s.ctx with pc := alignPc s.ctx.pc } } := rfl

theorem Closed.guardPredicate {P : ∀ {α : Type}, M α → Prop} (h : Closed @P) :
    P Nxas.guardPredicate := by
  unfold Nxas.guardPredicate; closed h

theorem framed_raising {m : M α} (h : Framed m) : Framed (raising m) := by
  intro dbg s c0 hi
  have := h dbg s c0 hi
  unfold raising
  cases hm : m dbg s <;> simp only [hm] at this ⊢
  · exact this
  · exact this.2.2
  · exact this

theorem framed_prologueBody : Framed prologueBody := by
  unfold prologueBody
  refine framed_bind framed_getTok fun t => ?_
  have hk : ∀ r : Unit, Framed (do
      let t2 ← getTok
      match t2.kind with
      | .ident _ => M.pure ()
      | _ => exitTok "expected mnemonic" : M Unit) := by
    intro _
    refine framed_bind framed_getTok fun t2 => ?_
    split
    · exact framed_closed.pure _
    · exact framed_exitTok _
  refine Closed.ite (P := @Framed) _ _ _ ?_ (framed_bind (framed_closed.addBits _) hk)
  exact framed_bind framed_advance fun _ =>
    framed_bind (framed_raising framed_closed.guardPredicate) fun _ => framed_bind framed_advance hk

/-- Sequencing of outcomes. -/
def Out.bind (r : Out α) (f : α → St → Out β) : Out β :=
  match r with
  | .ok a s' => f a s'
  | .fail e s' => .fail e s'
  | .exit e => .exit e
  | .abort => .abort
  | .ub u => .ub u

theorem bind_apply (m : M α) (f : α → M β) (dbg : Bool) (s : St) :
    (m >>= f) dbg s = (m dbg s).bind (fun a s' => f a dbg s') := rfl

/-- `parse_instruction` after its first token. -/
def insnBody (table : List Insn) (dbg : Bool) (s : St) : Out Bool :=
  (parseOptions (s.ctx.cur.text.length + 2) dbg s).bind fun _ s1 =>
  (parsePrologue dbg s1).bind fun _ s2 =>
  (tryRows s2.tok s2 table none dbg s2).bind fun _ s3 => .ok true s3

theorem parseInstruction_eq (table : List Insn) (dbg : Bool) (s0 : St) :
    parseInstruction table dbg s0 =
      (advance dbg s0).bind fun _ s =>
        if s.tok.kind = .none then .ok false s else insnBody table dbg s := by
  unfold parseInstruction
  rw [bind_apply]
  congr
  funext _ s
  by_cases h : s.tok.kind = .none
  · simp only [bind_apply, getTok, Out.bind, h, if_true]; rfl
  · simp only [bind_apply, getTok, Out.bind, h, if_false]; rfl

/-- The frame property of the row loop. -/
theorem tryRows_framed (mn : Token) (saved : St) (dbg : Bool) (rows : List Insn) (c0 : Cur)
    (hi : TokInv c0 saved) (hmn : PosOf c0 mn.line mn.col) :
    match tryRows mn saved rows none dbg saved with
    | .ok _ s' => Reach saved.ctx.cur s'.ctx.cur ∧ s'.ctx.labels = saved.ctx.labels ∧
        s'.ctx.opts = saved.ctx.opts ∧ s'.ctx.pc = saved.ctx.pc + 8 ∧ s'.tok.kind = .semicolon ∧
        TokInv saved.ctx.cur s'
    | .fail _ _ => False
    | .exit e => PosOf c0 e.line e.col
    | _ => True := by
  rcases tryRows_spec mn saved dbg rows none saved rfl rfl with
    ⟨pre, i, post, h1, h2, h3, h4⟩ | ⟨h1, h2⟩
  · rw [h4]
    have hf := parseInsn_framed i dbg saved saved.ctx.cur (Reach.refl _)
    unfold rowOut
    cases hr : parseInsn i dbg saved with
    | mk r sc =>
      rw [hr] at hf
      cases r with
      | ok a s' =>
        have := parseInsn_semi hr
        exact ⟨hf.1.reach, hf.1.labels, hf.1.opts, by simp [hf.1.pc], this, hf.2⟩
      | fail e s' => exact h2.2 e s' (by simp [rowOut, hr])
      | exit e => exact PosOf.of_reach hi.reach hf
      | abort => trivial
      | ub u => trivial
  · rw [h2]
    have hall : ∀ x ∈ rowErrors mn dbg saved rows, PosOf c0 x.1.line x.1.col := by
      intro x hx
      simp only [rowErrors, List.mem_filterMap] at hx
      obtain ⟨i, -, hx⟩ := hx
      split at hx
      · split at hx
        · rename_i e s' sc heq
          simp only [Option.some.injEq] at hx
          subst hx
          have hf := parseInsn_framed i dbg saved c0 hi.reach
          rw [heq] at hf
          exact hf.2.2
        · simp at hx
      · simp at hx
    have hfold : ∀ (l : List (Err × Nat)) (b : Option (Err × Nat)),
        (∀ x ∈ l, PosOf c0 x.1.line x.1.col) → (∀ x, b = some x → PosOf c0 x.1.line x.1.col) →
        ∀ x, l.foldl better b = some x → PosOf c0 x.1.line x.1.col := by
      intro l
      induction l with
      | nil => intro b _ hb x hx; exact hb x hx
      | cons y ys ih =>
        intro b hl hb x hx
        refine ih (better b y) (fun z hz => hl z (by simp [hz])) ?_ x hx
        intro z hz
        unfold better at hz
        split at hz
        · simp only [Option.some.injEq] at hz; subst hz; exact hl _ (by simp)
        · split at hz <;> simp only [Option.some.injEq] at hz <;> subst hz
          · exact hl _ (by simp)
          · exact hb _ rfl
    show PosOf c0 (noRow mn _).line (noRow mn _).col
    cases hb : (rowErrors mn dbg saved rows).foldl better none with
    | none => exact hmn
    | some x => exact hfold _ none hall (by simp) x hb

/-- What one call of `parse_instruction` does, from a cursor reached from `c0`. -/
theorem parseInstruction_framed (table : List Insn) (dbg : Bool) (s0 : St) (c0 : Cur)
    (hr : Reach c0 s0.ctx.cur) :
    match parseInstruction table dbg s0 with
    | .ok false s => s.tok.kind = .none ∧ s.ctx.cur.text = [] ∧ Reach s0.ctx.cur s.ctx.cur ∧
        s.ctx = { s0.ctx with cur := s.ctx.cur } ∧ s.op = s0.op
    | .ok true s => Reach s0.ctx.cur s.ctx.cur ∧ s.ctx.labels = s0.ctx.labels ∧
        s.ctx.pc = alignPc s0.ctx.pc + 8 ∧ s.tok.kind = .semicolon ∧ TokInv s0.ctx.cur s
    | .fail e _ => PosOf c0 e.line e.col
    | .exit e => PosOf c0 e.line e.col
    | _ => True := by
  rw [parseInstruction_eq]
  unfold advance
  cases ht : tokenize s0.ctx.cur with
  | exit e => exact PosOf.of_reach hr (tokenize_exit ht)
  | ub u => trivial
  | ok t c =>
    dsimp only [Out.bind]
    have htok := tokenize_ok ht
    by_cases hk : t.kind = .none
    · rw [if_pos hk]
      exact ⟨hk, htok.ended hk, htok.reach, rfl, rfl⟩
    · rw [if_neg hk]
      have hi : TokInv s0.ctx.cur { s0 with ctx := { s0.ctx with cur := c }, tok := t } :=
        ⟨s0.ctx.cur, Reach.refl _, ht⟩
      generalize hs1 : ({ s0 with ctx := { s0.ctx with cur := c }, tok := t } : St) = s1 at hi
      have hpc1 : s1.ctx.pc = s0.ctx.pc := by rw [← hs1]
      have hl1 : s1.ctx.labels = s0.ctx.labels := by rw [← hs1]
      have ho := oframed_parseOptions (s1.ctx.cur.text.length + 2) dbg s1 s0.ctx.cur hi
      unfold insnBody
      cases hpo : parseOptions (s1.ctx.cur.text.length + 2) dbg s1 with
      | fail e s' => rw [hpo] at ho; exact PosOf.of_reach hr ho.2.2
      | exit e => rw [hpo] at ho; exact PosOf.of_reach hr ho
      | abort => trivial
      | ub u => trivial
      | ok a s2 =>
        rw [hpo] at ho
        dsimp only [Out.bind]
        rw [parsePrologue_eq]
        have hi2 : TokInv s0.ctx.cur { s2 with ctx := { s2.ctx with pc := alignPc s2.ctx.pc } } := ho.2
        have hp := framed_prologueBody dbg _ s0.ctx.cur hi2
        cases hpp : prologueBody dbg { s2 with ctx := { s2.ctx with pc := alignPc s2.ctx.pc } } with
        | fail e s' => rw [hpp] at hp; exact PosOf.of_reach hr hp.2.2
        | exit e => rw [hpp] at hp; exact PosOf.of_reach hr hp
        | abort => trivial
        | ub u => trivial
        | ok a s3 =>
          rw [hpp] at hp
          dsimp only
          have hrow := tryRows_framed s3.tok s3 dbg table s0.ctx.cur hp.2 hp.2.pos
          cases hrr : tryRows s3.tok s3 table none dbg s3 with
          | fail e s' => rw [hrr] at hrow; exact hrow.elim
          | exit e => rw [hrr] at hrow; exact PosOf.of_reach hr hrow
          | abort => trivial
          | ub u => trivial
          | ok a s4 =>
            rw [hrr] at hrow
            obtain ⟨h1, h2, h3, h4, h5, h6⟩ := hrow
            refine ⟨hp.2.reach.trans h1, ?_, ?_, h5, h6.mono hp.2.reach⟩
            · rw [h2, hp.1.labels, ← hl1, ← ho.1.labels]
            · rw [h4, hp.1.pc, ← hpc1, ← ho.1.pc]

/-- Every successful instruction consumes at least one semicolon of the text. -/
theorem parseInstruction_semicolon {table : List Insn} {dbg : Bool} {s0 s : St}
    (h : parseInstruction table dbg s0 = .ok true s) :
    ∃ pre, s0.ctx.cur.text = pre ++ ';' :: s.ctx.cur.text := by
  have := parseInstruction_framed table dbg s0 s0.ctx.cur (Reach.refl _)
  rw [h] at this
  exact this.2.2.2.2.semi this.2.2.2.1

/-! ### The parse loop -/

/-- The successful runs of the parse loop: the instructions decoded from a context, and the
    context at the end. -/
inductive Run (table : List Insn) (dbg : Bool) : Ctx → List Op → Ctx → Prop
  | done {ctx : Ctx} {s : St}
      (h : parseInstruction table dbg ⟨ctx, ⟨.none, 0, 0⟩, {}⟩ = .ok false s) : Run table dbg ctx [] s.ctx
  | step {ctx : Ctx} {s : St} {ops : List Op} {c : Ctx}
      (h : parseInstruction table dbg ⟨ctx, ⟨.none, 0, 0⟩, {}⟩ = .ok true s)
      (hr : Run table dbg s.ctx ops c) : Run table dbg ctx (s.op :: ops) c

theorem parseAll_run {table : List Insn} {dbg : Bool} {room : Nat} {ctx : Ctx} {ops : List Op}
    {c : Ctx} (h : parseAll table dbg room ctx = .ok (ops, c)) :
    Run table dbg ctx ops c ∧ ops.length < room := by
  induction room generalizing ctx ops with
  | zero => simp [parseAll] at h
  | succ room ih =>
    unfold parseAll at h
    split at h
    · rename_i s heq
      simp only [Res.ok.injEq, Prod.mk.injEq] at h
      obtain ⟨rfl, rfl⟩ := h
      exact ⟨.done heq, by simp⟩
    · rename_i s heq
      cases hp : parseAll table dbg room s.ctx with
      | ok r =>
        obtain ⟨ops', c'⟩ := r
        simp only [hp, Res.ok.injEq, Prod.mk.injEq] at h
        obtain ⟨rfl, rfl⟩ := h
        obtain ⟨h1, h2⟩ := ih hp
        exact ⟨.step heq h1, by simpa using h2⟩
      | exit d => simp [hp] at h
      | abort => simp [hp] at h
      | ub u => simp [hp] at h
    all_goals simp at h

theorem run_parseAll {table : List Insn} {dbg : Bool} {room : Nat} {ctx : Ctx} {ops : List Op}
    {c : Ctx} (h : Run table dbg ctx ops c) (hl : ops.length < room) :
    parseAll table dbg room ctx = .ok (ops, c) := by
  induction h generalizing room with
  | done h =>
    obtain ⟨n, rfl⟩ : ∃ n, room = n + 1 := ⟨room - 1, by omega⟩
    rw [parseAll, h]
  | step h hr ih =>
    simp only [List.length_cons] at hl
    obtain ⟨n, rfl⟩ : ∃ n, room = n + 1 := ⟨room - 1, by omega⟩
    rw [parseAll, h]
    simp only
    rw [ih (by omega)]

theorem Run.count {table : List Insn} {dbg : Bool} {ctx c : Ctx} {ops : List Op}
    (h : Run table dbg ctx ops c) : ops.length ≤ ctx.cur.text.count ';' := by
  induction h with
  | done h => simp
  | step h hr ih =>
    obtain ⟨pre, hp⟩ := parseInstruction_semicolon h
    simp only at hp
    rw [hp]
    simp only [List.length_cons, List.count_append, List.count_cons_self]
    omega

/-- With room for one instruction per semicolon, the loop never runs out of room. -/
theorem parseAll_room {table : List Insn} {dbg : Bool} {room : Nat} {ctx : Ctx}
    (hroom : ctx.cur.text.count ';' < room) : parseAll table dbg room ctx = .ub .opcodeOverrun →
    ∃ ctx' s, Reach ctx.cur ctx'.cur ∧ parseInstruction table dbg ⟨ctx', ⟨.none, 0, 0⟩, {}⟩ = s ∧
      s = .ub .opcodeOverrun := by
  induction room generalizing ctx with
  | zero => omega
  | succ room ih =>
    intro h
    unfold parseAll at h
    split at h
    · simp at h
    · rename_i s heq
      obtain ⟨pre, hp⟩ := parseInstruction_semicolon heq
      have hf := parseInstruction_framed table dbg ⟨ctx, ⟨.none, 0, 0⟩, {}⟩ ctx.cur (Reach.refl _)
      rw [heq] at hf
      simp only at hp
      have hc : s.ctx.cur.text.count ';' < room := by
        rw [hp] at hroom
        simp only [List.count_append, List.count_cons_self] at hroom
        omega
      cases hpa : parseAll table dbg room s.ctx with
      | ok r => simp [hpa] at h
      | exit d => simp [hpa] at h
      | abort => simp [hpa] at h
      | ub u =>
        simp only [hpa, Res.ub.injEq] at h
        subst h
        obtain ⟨ctx', r, h1, h2⟩ := ih hc hpa
        exact ⟨ctx', r, hf.1.trans h1, h2⟩
    · simp at h
    · simp at h
    · simp at h
    · rename_i u heq
      simp only [Res.ub.injEq] at h
      subst h
      exact ⟨ctx, _, Reach.refl _, rfl, heq⟩

/-- The diagnostics of the parse loop are at positions of the text. -/
theorem parseAll_exit {table : List Insn} {dbg : Bool} {room : Nat} {ctx : Ctx} {d : Diag}
    (h : parseAll table dbg room ctx = .exit d) :
    ∃ e, d = .located e ∧ PosOf ctx.cur e.line e.col := by
  induction room generalizing ctx with
  | zero => simp [parseAll] at h
  | succ room ih =>
    have hf := parseInstruction_framed table dbg ⟨ctx, ⟨.none, 0, 0⟩, {}⟩ ctx.cur (Reach.refl _)
    unfold parseAll at h
    split at h
    · simp at h
    · rename_i s heq
      rw [heq] at hf
      cases hpa : parseAll table dbg room s.ctx with
      | exit d' =>
        simp only [hpa, Res.exit.injEq] at h
        subst h
        obtain ⟨e, h1, h2⟩ := ih hpa
        exact ⟨e, h1, PosOf.of_reach hf.1 h2⟩
      | _ => simp [hpa] at h
    · rename_i e s heq
      rw [heq] at hf
      simp only [Res.exit.injEq] at h
      exact ⟨e, h.symm, hf⟩
    · rename_i e heq
      rw [heq] at hf
      simp only [Res.exit.injEq] at h
      exact ⟨e, h.symm, hf⟩
    · simp at h
    · simp at h

end Nxas
