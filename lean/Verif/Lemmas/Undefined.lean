import Verif.Lemmas.Faults
import Verif.Lemmas.Image
/-
Undefined behaviour of whole sources, other than reading beyond the end of the text.
-/

namespace Nxas

open Spec

/-! ### Reading the first tokens -/

/-- The tokens `ts` are read from the cursor; the last one may be the end of the text. -/
inductive Peeks : Cur → List Token → Prop
  | nil {c : Cur} : Peeks c []
  | last {c c1 : Cur} {t : Token} (h : tokenize c = .ok t c1) : Peeks c [t]
  | cons {c c1 : Cur} {t : Token} {ts : List Token} (h : tokenize c = .ok t c1) (hk : t.kind ≠ .none) (hr : Peeks c1 ts) :
      Peeks c (t :: ts)

theorem Peeks.after {c c1 : Cur} {as bs : List Token} (h : ReadsT c as c1) (hr : Peeks c1 bs) : Peeks c (as ++ bs) := by
  induction h with
  | nil => exact hr
  | cons h hk _ ih => exact .cons h hk (ih hr)

theorem Peeks.split {c : Cur} {as bs : List Token} (h : Peeks c (as ++ bs)) (hb : bs ≠ []) :
    ∃ c1, ReadsT c as c1 ∧ Peeks c1 bs := by
  induction as generalizing c with
  | nil => exact ⟨c, .nil, h⟩
  | cons t as ih =>
    rw [List.cons_append] at h
    generalize hx : as ++ bs = x at h
    cases h with
    | last h =>
      exact absurd (List.append_eq_nil_iff.1 hx).2 hb
    | cons h hk' hr =>
      subst hx
      obtain ⟨c1, h1, h2⟩ := ih hr
      exact ⟨c1, .cons h hk' h1, h2⟩

/-- The lexical grammar describes the first tokens read by the lexer. -/
theorem starts_iff {c : Cur} (hz : '\x00' ∉ c.text) {ps : List (Kind × Nat)} :
    Starts c.line c.text ps ↔ ∃ ts, Peeks c ts ∧ ps = ts.map Token.pair := by
  constructor
  · obtain ⟨l, hl⟩ : ∃ l, c.line = l := ⟨_, rfl⟩
    obtain ⟨x, hx⟩ : ∃ x, c.text = x := ⟨_, rfl⟩
    rw [hl, hx]
    intro h
    induction h generalizing c with
    | nil => exact ⟨[], .nil, rfl⟩
    | @finish l t h =>
      have h1 := tokenize_skipped hz (by rw [hx, List.append_nil]) h
      rw [tokenize_end (c := c.move t []) rfl] at h1
      refine ⟨_, .last h1, ?_⟩
      simp [Token.pair, Cur.move_line, hl]
    | @token l s w rest k ts hs hw h ih =>
      rw [List.append_assoc] at hx
      have h1 := tokenize_skipped hz hx hs
      have hz1 : '\x00' ∉ (c.move s (w ++ rest)).text := by
        intro hm; exact hz (by rw [hx]; exact List.mem_append_right _ hm)
      rw [tokenize_lexeme hz1 rfl hw, Cur.move_move] at h1
      have hz2 : '\x00' ∉ (c.move (s ++ w) rest).text := by
        intro hm; exact hz (by rw [hx]; exact List.mem_append_right _ (List.mem_append_right _ hm))
      obtain ⟨ts', h2, h3⟩ := ih (c := c.move (s ++ w) rest) hz2 (by rw [Cur.move_line, hl]) rfl
      refine ⟨_ :: ts', .cons h1 hw.ne_none h2, ?_⟩
      rw [List.map_cons, ← h3, Token.pair, Cur.move_line, hl]
  · rintro ⟨ts, h, rfl⟩
    have one : ∀ {c c1 : Cur} {t : Token}, '\x00' ∉ c.text → tokenize c = .ok t c1 → t.kind = .none →
        Starts c.line c.text [t.pair] := by
      intro c c1 t hz h hk
      rcases tokenize_inv hz h with ⟨s, h1, h2, h3, -⟩ | ⟨s, w, -, -, h3, -⟩
      · have hl : t.pair = (.none, c.line + lineAfter c.text) := by
          rw [h3, h1]; simp [Token.pair, Cur.move_line]
        rw [hl]
        exact .finish (by rw [h1]; exact h2)
      · exact absurd hk h3.ne_none
    have more : ∀ {c c1 : Cur} {t : Token} {ps : List (Kind × Nat)}, '\x00' ∉ c.text → tokenize c = .ok t c1 → t.kind ≠ .none →
        Starts c1.line c1.text ps → Starts c.line c.text (t.pair :: ps) := by
      intro c c1 t ps hz h hk this
      rcases tokenize_inv hz h with ⟨s, -, -, h3, -⟩ | ⟨s, w, h1, h2, h3, h4, h5⟩
      · rw [h3] at hk; exact absurd rfl hk
      · rw [h1, ← List.append_assoc]
        have hl : t.line = c.line + lineAfter s := by rw [h4]; exact Cur.move_line c s (w ++ c1.text)
        rw [Token.pair, hl]
        refine .token h2 h3 ?_
        have hl1 : c1.line = c.line + lineAfter (s ++ w) := by rw [h5]; exact Cur.move_line c (s ++ w) c1.text
        rw [← hl1]; exact this
    induction h with
    | nil => exact .nil
    | @last c c1 t h =>
      by_cases hk : t.kind = .none
      · exact one hz h hk
      · exact more hz h hk .nil
    | @cons c c1 t ts h hk hr ih =>
      have hz1 : '\x00' ∉ c1.text := by
        obtain ⟨p, hp, -⟩ := (tokenize_ok h).reach
        intro hm; exact hz (by rw [hp]; exact List.mem_append_right _ hm)
      exact more hz h hk (ih hz1)

/-! ### Options -/

theorem parseType_ub {n : Nat} {s : St} {u : UB} (hu : u ≠ .readPastEnd) : parseType n false s = .ub u ↔
    u = .inactiveUnion ∧ s.ctx.opts.type = none ∧ ∃ t c, tokenize s.ctx.cur = .ok t c ∧ t.line = n ∧ Textless t.kind := by
  unfold parseType
  rw [M.bind_def]
  simp only [getCtx]
  by_cases hn : s.ctx.opts.type = none
  · rw [if_neg (by simp [hn])]
    simp only [hn, true_and]
    constructor
    · intro h
      rcases bind_ub h with h | ⟨_, s1, h1, h⟩
      · exact absurd (tokenize_ub_kind (advance_ub h)) hu
      obtain ⟨t, c, e1, rfl⟩ := advance_ok h1
      rcases bind_ub h with h | ⟨_, s2, h2, h⟩
      · unfold checkOptionLine at h
        simp only [M.bind_def, getTok] at h
        split at h <;> simp [exitTok, M.pure] at h
      obtain ⟨hl, rfl⟩ := checkOptionLine_iff.1 h2
      rw [M.bind_def] at h
      simp only [getTok] at h
      cases hp : progTypeOfName t with
      | some p => simp [hp, modifyOpts] at h
      | none =>
        simp only [hp] at h
        by_cases hx : t.kind.stringActive = true
        · simp [hx, exitTok] at h
        · simp only [hx, Bool.false_eq_true, if_false, ubM, Out.ub.injEq] at h
          exact ⟨h.symm, t, c, e1, hl, textless_iff.2 (by simpa using hx)⟩
    · rintro ⟨rfl, t, c, e1, hl, hx⟩
      rw [textless_iff] at hx
      have hp : progTypeOfName t = none := by
        cases hp : progTypeOfName t with
        | none => rfl
        | some p =>
          obtain ⟨w, hw, -⟩ := typeNames_iff.1 hp
          rw [hw] at hx; simp [Kind.stringActive] at hx
      simp [M.bind_def, advance, e1, checkOptionLine, getTok, hl, M.pure, hp, hx, ubM]
  · rw [if_pos (by cases h : s.ctx.opts.type <;> simp_all)]
    simp [exitTok, hn]

/-- The undefined behaviours of the option-specific part of an option. -/
theorem optionBody_ub {s : St} {u : UB} (hu : u ≠ .readPastEnd) : optionBody s.tok false s = .ub u ↔
    u = .inactiveUnion ∧ ∃ t c, tokenize s.ctx.cur = .ok t c ∧ OptionFault s.ctx.opts [s.tok.pair, t.pair] := by
  have hinv : ∀ {name : Str} {t : Token}, s.tok.kind = .ident name → OptionFault s.ctx.opts [s.tok.pair, t.pair] →
      ((name = c!".dksh" ∨ name = c!".type") ∧ s.ctx.opts.type = none ∧ t.line = s.tok.line ∧ Textless t.kind) ∨
      (name = c!".num_gprs" ∧ ∀ x, t.kind ≠ .imm x) := by
    intro name t hk h
    obtain ⟨a, ha⟩ : ∃ a, s.tok.pair = a := ⟨_, rfl⟩
    obtain ⟨b, hb⟩ : ∃ b, t.pair = b := ⟨_, rfl⟩
    rw [ha, hb] at h
    cases h with
    | type hn ht hx =>
      obtain ⟨a1, a2⟩ := pair_inv ha
      obtain ⟨b1, b2⟩ := pair_inv hb
      rw [hk] at a1
      obtain rfl : name = _ := by simpa using a1
      exact .inl ⟨hn, ht, by rw [a2, b2], by rw [b1]; exact hx⟩
    | registers hx =>
      obtain ⟨a1, a2⟩ := pair_inv ha
      obtain ⟨b1, b2⟩ := pair_inv hb
      rw [hk] at a1
      obtain rfl : name = _ := by simpa using a1
      exact .inr ⟨rfl, by rw [b1]; exact hx⟩
  have hmk : ∀ {name : Str} {t : Token}, s.tok.kind = .ident name → (name = c!".dksh" ∨ name = c!".type") → s.ctx.opts.type = none →
      t.line = s.tok.line → Textless t.kind → OptionFault s.ctx.opts [s.tok.pair, t.pair] := by
    intro name t hk hn ht hl hx
    rw [Token.pair, Token.pair, hk, hl]
    exact .type hn ht hx
  have hno : ∀ {m : M Unit}, (∀ w, m false s = .ub w → w = .readPastEnd) → (∀ t : Token, ¬ OptionFault s.ctx.opts [s.tok.pair, t.pair]) →
      (m false s = .ub u ↔ u = .inactiveUnion ∧ ∃ t c, tokenize s.ctx.cur = .ok t c ∧ OptionFault s.ctx.opts [s.tok.pair, t.pair]) := by
    intro m hm hf
    constructor
    · intro h; exact absurd (hm _ h) hu
    · rintro ⟨-, t, c, -, h⟩; exact absurd h (hf t)
  have himm : ∀ {msg : Msg} {f : BitVec 32 → M Unit} {s : St} {w : UB}, (nextImmediate msg >>= f) false s = .ub w →
      w = .readPastEnd ∨ ∃ x s1, f x false s1 = .ub w := by
    intro msg f s w h
    rcases bind_ub h with h | ⟨x, s1, -, h⟩
    · unfold nextImmediate at h
      rcases bind_ub h with h | ⟨_, s1, -, h⟩
      · exact .inl (tokenize_ub_kind (advance_ub h))
      · simp only [M.bind_def, getTok] at h
        cases hk : s1.tok.kind <;> simp [hk, exitTok, M.pure] at h
    · exact .inr ⟨x, s1, h⟩
  have hset : ∀ {g : Opts → Opts} {f : Unit → M Unit} {s : St} {w : UB}, (modifyOpts g >>= f) false s = .ub w → ∃ s1, f () false s1 = .ub w := by
    intro g f s w h
    rcases bind_ub h with h | ⟨x, s1, -, h⟩
    · simp [modifyOpts] at h
    · exact ⟨s1, h⟩
  cases hk : s.tok.kind with
  | ident name =>
    unfold optionBody
    simp only [Token.equal_iff, hk, Kind.ident.injEq]
    by_cases h1 : name = c!".dksh"
    · rw [if_pos h1, M.bind_def]
      simp only [modifyOpts]
      rw [parseType_ub hu]
      constructor
      · rintro ⟨rfl, h2, t, c, e1, e2, e3⟩
        exact ⟨rfl, t, c, e1, hmk hk (.inl h1) h2 e2 e3⟩
      · rintro ⟨rfl, t, c, e1, e2⟩
        rcases hinv hk e2 with ⟨-, e3, e4, e5⟩ | ⟨e3, -⟩
        · exact ⟨rfl, e3, t, c, e1, e4, e5⟩
        · rw [h1] at e3; simp at e3
    rw [if_neg h1]
    by_cases h2 : name = c!".type"
    · rw [if_pos h2, parseType_ub hu]
      constructor
      · rintro ⟨rfl, h3, t, c, e1, e2, e3⟩
        exact ⟨rfl, t, c, e1, hmk hk (.inr h2) h3 e2 e3⟩
      · rintro ⟨rfl, t, c, e1, e2⟩
        rcases hinv hk e2 with ⟨-, e3, e4, e5⟩ | ⟨e3, -⟩
        · exact ⟨rfl, e3, t, c, e1, e4, e5⟩
        · rw [h2] at e3; simp at e3
    rw [if_neg h2]
    by_cases h3 : name = c!".num_gprs"
    · rw [if_pos h3]
      constructor
      · intro h
        rcases bind_ub h with h | ⟨_, s1, e1, h⟩
        · exact absurd (tokenize_ub_kind (advance_ub h)) hu
        obtain ⟨t, c, e2, rfl⟩ := advance_ok e1
        rw [M.bind_def] at h
        simp only [getTok] at h
        have hx : ∀ x, t.kind ≠ .imm x := by
          intro x hx
          rw [hx] at h
          simp [exitTok] at h
        have hz : u = .inactiveUnion := by
          cases hk : t.kind <;> simp [hk, exitTok, ubM] at h <;> exact h.symm
        refine ⟨hz, t, c, e2, ?_⟩
        rw [Token.pair, Token.pair, hk, h3]
        exact .registers hx
      · rintro ⟨rfl, t, c, e1, e2⟩
        rcases hinv hk e2 with ⟨e3, -⟩ | ⟨-, e3⟩
        · simp [h3] at e3
        · simp only [M.bind_def, advance, e1, getTok]
          rfl
    rw [if_neg h3]
    have hnf : ∀ t : Token, ¬ OptionFault s.ctx.opts [s.tok.pair, t.pair] := by
      intro t h
      rcases hinv hk h with ⟨h | h, -⟩ | ⟨h, -⟩
      · exact h1 h
      · exact h2 h
      · exact h3 h
    by_cases h4 : name = c!".workgroup_size"
    · rw [if_pos h4]
      refine hno ?_ hnf
      intro w h
      rcases himm h with h | ⟨x, s1, h⟩
      · exact h
      obtain ⟨s2, h⟩ := hset h
      rcases himm h with h | ⟨x, s3, h⟩
      · exact h
      obtain ⟨s4, h⟩ := hset h
      rcases himm h with h | ⟨x, s5, h⟩
      · exact h
      obtain ⟨s6, h⟩ := hset h
      unfold checkOptionLine at h
      simp only [M.bind_def, getTok] at h
      split at h <;> simp [exitTok, M.pure] at h
    rw [if_neg h4]
    by_cases h5 : name = c!".shared_memory"
    · rw [if_pos h5]
      refine hno ?_ hnf
      intro w h
      rcases himm h with h | ⟨x, s1, h⟩
      · exact h
      · simp [modifyOpts] at h
    rw [if_neg h5]
    by_cases h6 : name = c!".local_memory"
    · rw [if_pos h6]
      refine hno ?_ hnf
      intro w h
      rcases himm h with h | ⟨x, s1, h⟩
      · exact h
      · simp [modifyOpts] at h
    rw [if_neg h6]
    exact hno (by intro w h; simp [M.pure] at h) hnf
  | _ =>
    unfold optionBody
    simp only [Token.equal_iff, hk, reduceCtorEq, if_false]
    refine hno (by intro w h; simp [M.pure] at h) ?_
    intro t h
    obtain ⟨a, ha⟩ : ∃ a, s.tok.pair = a := ⟨_, rfl⟩
    rw [ha] at h
    obtain ⟨b, hb⟩ : ∃ b, t.pair = b := ⟨_, rfl⟩
    rw [hb] at h
    cases h <;> (have := (pair_inv ha).1; rw [hk] at this; simp at this)

theorem parseOption_ub {s : St} {u : UB} (hu : u ≠ .readPastEnd) : parseOption false s = .ub u ↔
    u = .inactiveUnion ∧ ∃ t c, tokenize s.ctx.cur = .ok t c ∧ OptionFault s.ctx.opts [s.tok.pair, t.pair] := by
  rw [← optionBody_ub hu]
  unfold parseOption
  rw [M.bind_def]
  simp only [getTok]
  constructor
  · intro h
    rcases bind_ub h with h | ⟨_, s1, -, h⟩
    · exact h
    rcases bind_ub h with h | ⟨_, s2, -, h⟩
    · exact absurd (tokenize_ub_kind (advance_ub h)) hu
    rcases bind_ub h with h | ⟨t, s3, -, h⟩
    · simp [getTok] at h
    by_cases hl : s.tok.line = t.line
    · rw [if_pos hl] at h; simp [exitTok] at h
    · rw [if_neg hl] at h; simp [M.pure] at h
  · intro h
    rw [M.bind_def, h]

theorem Peeks.reads {c : Cur} {ts : List Token} (h : Peeks c ts) (hk : ∀ t, ts.getLast? = some t → t.kind ≠ .none) :
    ∃ c', ReadsT c ts c' := by
  induction h with
  | nil => exact ⟨_, .nil⟩
  | last h => exact ⟨_, .cons h (hk _ rfl) .nil⟩
  | @cons c c1 t ts h hk' hr ih =>
    obtain ⟨c', hc⟩ := ih (by
      intro u hu
      refine hk u ?_
      rw [List.getLast?_cons, hu]; rfl)
    exact ⟨c', .cons h hk' hc⟩

/-! ### Instructions -/

/-- After an accepted option, parsing goes on as if it had started there. -/
theorem option_same {table : List Insn} {d : Bool} {x : Ctx} {t t' : Token} {c1 c c' : Cur} {ts : List Token} {o : Opts}
    (ht : tokenize x.cur = .ok t c1) (ho : t.isOption = true) (hr : ReadsT c1 ts c)
    (h : OptionText x.opts ((t :: ts).map Token.pair) o) (ht' : tokenize c = .ok t' c') (hl : t'.line ≠ t.line) (hk' : t'.kind ≠ .none) :
    parseInstruction table d x.fresh = parseInstruction table d (Ctx.fresh { x with cur := c, opts := o }) := by
  have hk : t.kind ≠ .none := by
    intro hk; simp [Token.isOption, hk] at ho
  have hp : parseOption d ⟨{ x with cur := c1 }, t, {}⟩ = .ok () ⟨{ x with cur := c', opts := o }, t', {}⟩ :=
    (parseOption_iff ho).2 ⟨ts, c, o, t', c', hr, h, ht', hl, rfl⟩
  rw [parseInstruction_eq, parseInstruction_eq, Ctx.fresh_advance ht, Ctx.fresh_advance (c := { x with cur := c, opts := o }) ht']
  dsimp only [Out.bind]
  rw [if_neg hk, if_neg hk']
  unfold insnBody
  dsimp only
  have hlen : c'.text.length < c1.text.length := by
    have h1 := (tokenize_ok ht').shorter hk'
    obtain ⟨p, hp, -⟩ := hr.reach
    rw [hp]; simp; omega
  rw [parseOptions_succ, if_pos ho, hp]
  dsimp only [Out.bind]
  rw [parseOptions_mono (m := c'.text.length + 2) (by omega)
    (parseOptions_noFuel (c0 := c) ⟨c, Reach.refl _, ht'⟩ (by simp))]

/-- The end of the text is not an instruction. -/
theorem parsePrologue_end {d : Bool} {s : St} (hk : s.tok.kind = .none) (hv : s.op = {}) (u : UB) : parsePrologue d s ≠ .ub u := by
  rw [parsePrologue_eq]
  unfold prologueBody
  simp [M.bind_def, getTok, hk, hv, addBits, exitTok]

/-- Undefined behaviour of an instruction without an option in front of it. -/
theorem insn_fault {x : Ctx} {t : Token} {c1 : Cur} {i : Nat} {u : UB} (hu : u ≠ .readPastEnd) (hpc : alignPc x.pc = addressOf i)
    (hb : addressOf i + 8 ≤ 2 ^ 63) (ht : tokenize x.cur = .ok t c1) (ho : t.isOption = false) :
    parseInstruction insnTable false x.fresh = .ub u ↔
      ∃ ts c, ReadsT c1 ts c ∧ InsnFault ⟨x.labels.find, addressOf i⟩ ((t :: ts).map Token.kind) u := by
  constructor
  · intro h
    have hk : t.kind ≠ .none := by
      intro hk
      rw [(insn_end (table := insnTable) (d := false)).2 ⟨t, c1, ht, hk, rfl⟩] at h
      simp at h
    rw [parseInstruction_eq, Ctx.fresh_advance ht] at h
    dsimp only [Out.bind] at h
    rw [if_neg hk] at h
    unfold insnBody at h
    rw [parseOptions_succ, if_neg (by simp [ho])] at h
    rcases Out.bind_ub h with h | ⟨_, s1, h1, h⟩
    · simp at h
    simp only [Out.ok.injEq, true_and] at h1
    subst h1
    rcases Out.bind_ub h with h | ⟨_, s1, h1, h⟩
    · rw [parsePrologue_eq] at h
      exact absurd (prologueBody_ub (tokUb_past x.cur) (s := ⟨{ x with cur := c1, pc := alignPc x.pc }, t, {}⟩) ⟨x.cur, Reach.refl _, ht⟩ h) hu
    rcases Out.bind_ub h with h | ⟨_, s2, h2, h⟩
    · rw [parsePrologue_eq] at h1
      obtain ⟨g, mn, e1, e2, e3, e4, e5⟩ := prologueBody_inv h1
      dsimp only at e1 e4 e5
      have e4' : s1.op = ⟨guardWord g, 0, 0⟩ := by rw [e4]; simp
      have henv : s1.ctx.env = ⟨x.labels.find, addressOf i⟩ := by rw [e5, ← hpc]; rfl
      have hpc1 : s1.ctx.pc + 8 ≤ 2 ^ 63 := by rw [e5]; dsimp only; rw [hpc]; exact hb
      rw [tryRows_fault e2 e3 e4' hpc1 hu] at h
      obtain ⟨row, t0, c0, os, o, os', ks, v, r, t', c', r1, r2, r3, r4, r5, r6, r7, r8⟩ := h
      obtain ⟨t1, k1, p1⟩ := e1.path
      have hp : Path t c1 (guardTokens g ++ .ident row.mnemonic :: ks) t' c' :=
        Path.append_iff.2 ⟨t1, _, p1, by rw [k1, e2, r2], t0, c0, r3, r4⟩
      obtain ⟨ts, q1, q2⟩ := hp.reads (Path.ne_none ht hp r8.ne_none) r8.ne_none
      rw [henv] at r7 r8
      refine ⟨ts, c', q1, ?_⟩
      rw [q2, List.append_assoc, List.cons_append]
      exact .mk r1 r5 r6 r7 r8
    · simp at h
  · rintro ⟨ts, c, hr, h⟩
    obtain ⟨kk, hkk⟩ : ∃ kk, (t :: ts).map Token.kind = kk := ⟨_, rfl⟩
    rw [hkk] at h
    cases h with | @mk g row os os' o ks k v r _ h1 h2 h3 h4 h5
    have hkk' : (t :: ts).map Token.kind = (guardTokens g ++ .ident row.mnemonic :: ks) ++ [k] := by
      rw [hkk, List.append_assoc, List.cons_append]
    obtain ⟨t', hpath, hlast⟩ := hr.path hkk'
    obtain ⟨t2, c2, p1, hk2, t0, c0, h0, p2⟩ := Path.append_iff.1 hpath
    have hmain : parsePrologue false ⟨{ x with cur := c1 }, t, {}⟩ = .ok () ⟨{ x with cur := c2, pc := alignPc x.pc }, t2, ⟨guardWord g, 0, 0⟩⟩ ∧
        ∀ p n, g = some (p, n) → p ≤ 7 := by
      rw [parsePrologue_eq]
      rcases g with - | ⟨p, n⟩
      · obtain ⟨rfl, rfl⟩ := p1
        rw [prologueBody_none (mn := row.mnemonic) hk2 rfl]
        exact ⟨rfl, by simp⟩
      · obtain ⟨k1, t3, c3, e3, k3, t4, c4, e4, rfl, rfl⟩ := p1
        rw [prologueBody_some (mn := row.mnemonic) k1 e3 k3 e4 hk2 rfl]
        refine ⟨rfl, ?_⟩
        have hw := (tokenize_ok e3).wf
        rw [k3] at hw
        intro p' n' hg
        simp only [Option.some.injEq, Prod.mk.injEq] at hg
        rw [← hg.1]; exact hw
    obtain ⟨m1, m3⟩ := hmain
    have hk : t.kind ≠ .none := by
      intro hk
      have := congrArg List.head? hkk'
      rcases g with - | ⟨p, n⟩ <;> simp [guardTokens, hk] at this
    have henv : (⟨x.labels.find, addressOf i⟩ : Env) = ({ x with cur := c2, pc := alignPc x.pc } : Ctx).env := by rw [← hpc]; rfl
    rw [henv] at h4 h5
    rw [← hlast] at h4 h5
    have hrow := (tryRows_fault (s := ⟨{ x with cur := c2, pc := alignPc x.pc }, t2, ⟨guardWord g, 0, 0⟩⟩) hk2 m3 rfl
      (by dsimp only; rw [hpc]; exact hb) hu).2 ⟨row, t0, c0, os, o, os', ks, v, r, t', c, h1, rfl, h0, p2, h2, h3, h4, h5⟩
    rw [parseInstruction_eq, Ctx.fresh_advance ht]
    dsimp only [Out.bind]
    rw [if_neg hk]
    unfold insnBody
    rw [parseOptions_succ, if_neg (by simp [ho])]
    dsimp only [Out.bind]
    rw [m1]
    dsimp only
    rw [hrow]

/-- The first token of a faulty instruction is not that of an option. -/
theorem _root_.Nxas.Spec.InsnFault.not_option {e : Env} {t : Token} {ts : List Token} {u : UB}
    (h : InsnFault e ((t :: ts).map Token.kind) u) : t.isOption = false := by
  obtain ⟨ks, hks⟩ : ∃ ks, (t :: ts).map Token.kind = ks := ⟨_, rfl⟩
  rw [hks] at h
  cases h with | @mk g row os os' o ks k v r _ h1 _ _ _ _
  rcases g with - | ⟨p, n⟩
  · simp only [guardTokens, List.nil_append, List.map_cons, List.cons.injEq] at hks
    simp [Token.isOption, hks.1, no_option_row row h1]
  · simp only [guardTokens, List.cons_append, List.map_cons, List.cons.injEq] at hks
    simp [Token.isOption, hks.1]

theorem _root_.Nxas.Spec.InsnFault.ne_past {e : Env} {ks : List Kind} {u : UB} (h : InsnFault e ks u) : u ≠ .readPastEnd := by
  cases h with | mk _ _ _ _ h => exact h.ne_past

theorem _root_.Nxas.Spec.Faults.ne_past {lab : Str → Option Nat} {i : Nat} {o : Opts} {ts : List (Kind × Nat)} {u : UB}
    (h : Faults lab i o ts u) : u ≠ .readPastEnd := by
  induction h with
  | here h => exact h.ne_past
  | setting => simp
  | insn _ _ ih => exact ih
  | option _ _ _ ih => exact ih

theorem _root_.Nxas.Spec.Faults.ne_nil {lab : Str → Option Nat} {i : Nat} {o : Opts} {ts : List (Kind × Nat)} {u : UB}
    (h : Faults lab i o ts u) : ts ≠ [] := by
  induction h with
  | @here i o ts u h =>
    rintro rfl
    obtain ⟨ks, hks⟩ : ∃ ks, List.map Prod.fst ([] : List (Kind × Nat)) = ks := ⟨_, rfl⟩
    rw [hks] at h
    cases h with | mk
    simp at hks
  | setting h => cases h <;> simp
  | insn _ _ ih => simp [ih]
  | option _ _ _ ih => simp

/-- A fault does not begin with the end of the text. -/
theorem _root_.Nxas.Spec.Faults.head_ne_none {lab : Str → Option Nat} {i : Nat} {o : Opts} {t : Kind × Nat} {ts : List (Kind × Nat)} {u : UB}
    (h : Faults lab i o (t :: ts) u) : t.1 ≠ .none := by
  obtain ⟨ps, hps⟩ : ∃ ps, t :: ts = ps := ⟨_, rfl⟩
  rw [hps] at h
  cases h with
  | here h =>
    subst hps
    obtain ⟨ks, hks⟩ : ∃ ks, (t :: ts).map Prod.fst = ks := ⟨_, rfl⟩
    rw [hks] at h
    cases h with | @mk g row os os' o ks k v r
    intro hk
    have := congrArg List.head? hks
    rcases g with - | ⟨p, n⟩ <;> simp [guardTokens, hk] at this
  | setting h => cases h <;> simp at hps <;> simp [hps]
  | @insn _ _ as bs op _ h hr =>
    cases as with
    | nil =>
      obtain ⟨ks, hks⟩ : ∃ ks, List.map Prod.fst ([] : List (Kind × Nat)) = ks := ⟨_, rfl⟩
      rw [hks] at h
      cases h with | mk
      simp at hks
    | cons a as =>
      simp only [List.cons_append, List.cons.injEq] at hps
      rw [hps.1]
      obtain ⟨ks, hks⟩ : ∃ ks, (a :: as).map Prod.fst = ks := ⟨_, rfl⟩
      rw [hks] at h
      cases h with | @mk g row ks op pre post
      intro hk
      have := congrArg List.head? hks
      rcases g with - | ⟨p, n⟩ <;> simp [guardTokens, hk] at this
  | @option _ _ o1 a next as rest _ h _ _ =>
    simp only [List.cons_append, List.cons.injEq] at hps
    rw [hps.1]
    intro hk
    cases h <;> simp at hk

/-- Undefined behaviour of an option at the start of an instruction. -/
theorem setting_fault {x : Ctx} {t : Token} {c1 : Cur} {t' : Token} {c' : Cur} {d : Bool} (ht : tokenize x.cur = .ok t c1)
    (ht' : tokenize c1 = .ok t' c') (h : OptionFault x.opts [t.pair, t'.pair]) (hd : d = false) :
    parseInstruction insnTable d x.fresh = .ub .inactiveUnion := by
  subst hd
  have ho : t.isOption = true := by
    obtain ⟨a, ha⟩ : ∃ a, t.pair = a := ⟨_, rfl⟩
    obtain ⟨b, hb⟩ : ∃ b, t'.pair = b := ⟨_, rfl⟩
    rw [ha, hb] at h
    cases h with
    | type hn =>
      have := (pair_inv ha).1
      rcases hn with rfl | rfl <;> simp [Token.isOption, this]
    | registers =>
      have := (pair_inv ha).1
      simp [Token.isOption, this]
  have hk : t.kind ≠ .none := by
    intro hk; simp [Token.isOption, hk] at ho
  have hp : parseOption false ⟨{ x with cur := c1 }, t, {}⟩ = .ub .inactiveUnion :=
    (parseOption_ub (by simp)).2 ⟨rfl, t', c', ht', h⟩
  rw [parseInstruction_eq, Ctx.fresh_advance ht]
  dsimp only [Out.bind]
  rw [if_neg hk]
  unfold insnBody
  rw [parseOptions_succ, if_pos ho, hp]
  rfl

/-- Undefined behaviour of one call of `parse_instruction`. -/
theorem parseInstruction_faults {x : Ctx} {i : Nat} {u : UB} (hu : u ≠ .readPastEnd) (hpc : alignPc x.pc = addressOf i)
    (hb : addressOf i + 8 ≤ 2 ^ 63) (h : parseInstruction insnTable false x.fresh = .ub u) :
    ∃ ts, Peeks x.cur ts ∧ Faults x.labels.find i x.opts (ts.map Token.pair) u := by
  obtain ⟨n, hn⟩ : ∃ n, n = x.cur.text.length := ⟨_, rfl⟩
  induction n using Nat.strongRecOn generalizing x with
  | ind n ih =>
    cases ht : tokenize x.cur with
    | exit e => rw [parseInstruction_eq, show advance false x.fresh = .exit e by unfold advance Ctx.fresh; simp only [ht]] at h; simp [Out.bind] at h
    | ub w =>
      rw [parseInstruction_eq, show advance false x.fresh = .ub w by unfold advance Ctx.fresh; simp only [ht]] at h
      simp only [Out.bind, Out.ub.injEq] at h
      rw [← h] at hu
      exact absurd (tokenize_ub_kind ht) hu
    | ok t c1 =>
      by_cases ho : t.isOption = true
      · have hk : t.kind ≠ .none := by
          intro hk; simp [Token.isOption, hk] at ho
        have h0 := h
        rw [parseInstruction_eq, Ctx.fresh_advance ht] at h
        dsimp only [Out.bind] at h
        rw [if_neg hk] at h
        unfold insnBody at h
        rw [parseOptions_succ, if_pos ho] at h
        cases hp : parseOption false ⟨{ x with cur := c1 }, t, {}⟩ with
        | ok a s1 =>
          obtain ⟨ts, c, o, t', c', e1, e2, e3, e4, rfl⟩ := (parseOption_iff ho).1 hp
          have hk' : t'.kind ≠ .none := by
            intro hk'
            rw [hp] at h
            dsimp only [Out.bind] at h
            rw [parseOptions_succ, if_neg (by simp [Token.isOption, hk'])] at h
            dsimp only at h
            rcases Out.bind_ub h with h | ⟨_, s2, h2, h⟩
            · exact parsePrologue_end hk' rfl _ h
            · rw [parsePrologue_eq] at h2
              obtain ⟨g, mn, f1, f2, -, -, -⟩ := prologueBody_inv h2
              obtain ⟨t1, k1, p1⟩ := f1.path
              have := p1.head
              dsimp only at this
              rw [hk'] at this
              rcases g with - | ⟨p, n⟩
              · simp [guardTokens, k1, f2] at this
              · simp [guardTokens] at this
          have hs := option_same (table := insnTable) (d := false) ht ho e1 e2 e3 e4 hk'
          have hlen : c.text.length < n := by
            have h1 := (tokenize_ok ht).shorter hk
            obtain ⟨p, hp, -⟩ := e1.reach
            have := congrArg List.length hp
            simp at this
            omega
          obtain ⟨us, r1, r2⟩ := ih _ hlen (x := { x with cur := c, opts := o }) hpc (by rw [← hs]; exact h0) rfl
          have hne : us ≠ [] := by rintro rfl; exact r2.ne_nil rfl
          obtain ⟨w, us, rfl⟩ := List.exists_cons_of_ne_nil hne
          have hw : w = t' := by
            cases r1 with
            | last hw => rw [e3] at hw; simp only [TokRes.ok.injEq] at hw; exact hw.1.symm
            | cons hw _ _ => rw [e3] at hw; simp only [TokRes.ok.injEq] at hw; exact hw.1.symm
          subst hw
          refine ⟨t :: ts ++ w :: us, Peeks.after (.cons ht hk e1) r1, ?_⟩
          rw [List.map_append]
          exact Faults.option (t := t.pair) (ts := ts.map Token.pair) (next := w.pair) (rest := us.map Token.pair) e2 e4 r2
        | ub w =>
          rw [hp] at h
          simp only [Out.bind, Out.ub.injEq] at h
          subst h
          obtain ⟨rfl, t', c', e1, e2⟩ := (parseOption_ub hu).1 hp
          exact ⟨[t, t'], .cons ht hk (.last e1), .setting e2⟩
        | fail e s => rw [hp] at h; simp [Out.bind] at h
        | exit e => rw [hp] at h; simp [Out.bind] at h
        | abort => rw [hp] at h; simp [Out.bind] at h
      · rw [insn_fault hu hpc hb ht (by simpa using ho)] at h
        obtain ⟨ts, c, h1, h2⟩ := h
        have hk : t.kind ≠ .none := by
          intro hk
          obtain ⟨kk, hkk⟩ : ∃ kk, (t :: ts).map Token.kind = kk := ⟨_, rfl⟩
          rw [hkk] at h2
          cases h2 with | @mk g row os os' o ks k v r
          have := congrArg List.head? hkk
          rcases g with - | ⟨p, n⟩ <;> simp [guardTokens, hk] at this
        refine ⟨t :: ts, ?_, .here (by rw [map_pair_kind]; exact h2)⟩
        have := Peeks.after (.cons ht hk h1) .nil
        rwa [List.append_nil] at this

/-- Faults after one call of `parse_instruction`. -/
theorem step_faults {x : Ctx} {s : St} {i : Nat} (hpc : alignPc x.pc = addressOf i)
    (h : parseInstruction insnTable false x.fresh = .ok true s) :
    ∃ ts, ReadsT x.cur ts s.ctx.cur ∧ s.ctx.labels = x.labels ∧ s.ctx.pc = addressOf i + 8 ∧ ts ≠ [] ∧
      ∀ {rest : List (Kind × Nat)} {u : UB}, Faults x.labels.find (i + 1) s.ctx.opts rest u →
        Faults x.labels.find i x.opts (ts.map Token.pair ++ rest) u := by
  obtain ⟨n, hn⟩ : ∃ n, n = x.cur.text.length := ⟨_, rfl⟩
  induction n using Nat.strongRecOn generalizing x with
  | ind n ih =>
    cases ht : tokenize x.cur with
    | exit e => rw [parseInstruction_eq, show advance false x.fresh = .exit e by unfold advance Ctx.fresh; simp only [ht]] at h; simp [Out.bind] at h
    | ub u => rw [parseInstruction_eq, show advance false x.fresh = .ub u by unfold advance Ctx.fresh; simp only [ht]] at h; simp [Out.bind] at h
    | ok t c1 =>
      have hk : t.kind ≠ .none := by
        intro hk
        have := (insn_end (table := insnTable) (d := false)).2 ⟨t, c1, ht, hk, rfl⟩
        rw [h] at this
        simp at this
      by_cases ho : t.isOption = true
      · obtain ⟨ts, c, o, t', c', e1, e2, e3, e4, e5, e6⟩ := (option_step ht ho).1 h
        have hlen : c.text.length < n := by
          have h1 := (tokenize_ok ht).shorter hk
          obtain ⟨p, hp, -⟩ := e1.reach
          have := congrArg List.length hp
          simp at this
          omega
        obtain ⟨ts', r1, r2, r3, r4, r5⟩ := ih _ hlen (x := { x with cur := c, opts := o }) hpc e6 rfl
        refine ⟨t :: ts ++ ts', .cons ht hk (ReadsT.append_iff.2 ⟨_, e1, r1⟩), r2, r3, by simp, ?_⟩
        intro rest u hf
        have hp := r5 hf
        obtain ⟨w, us, rfl⟩ := List.exists_cons_of_ne_nil r4
        have hu : w = t' := by
          cases r1 with
          | cons hu _ _ =>
            rw [e3] at hu
            simp only [TokRes.ok.injEq] at hu
            exact hu.1.symm
        subst hu
        simp only [List.map_cons, List.cons_append, List.map_append] at hp ⊢
        rw [List.append_assoc]
        exact Faults.option (t := t.pair) (ts := ts.map Token.pair) (next := w.pair) e2 e4 hp
      · obtain ⟨ts, e1, e2, e3⟩ := insn_reads ht (by simpa using ho) h
        refine ⟨t :: ts, .cons ht hk e1, by rw [e3], by rw [e3, hpc], by simp, ?_⟩
        intro rest u hf
        refine .insn (op := s.op) ?_ (by rw [e3] at hf; exact hf)
        rw [map_pair_kind, ← hpc]
        exact e2

theorem addressOf_mono {i j : Nat} (h : i ≤ j) : addressOf i ≤ addressOf j := by
  unfold addressOf; omega

/-! ### Programs -/

/-- The parse loop reaches undefined behaviour only at a fault. -/
theorem parseAll_faults {room : Nat} {x : Ctx} {i : Nat} {u : UB} (hu : u ≠ .readPastEnd) (hpc : alignPc x.pc = addressOf i)
    (hroom : x.cur.text.count ';' < room) (hb : addressOf (i + x.cur.text.count ';') + 8 ≤ 2 ^ 63)
    (h : parseAll insnTable false room x = .ub u) :
    ∃ ts, Peeks x.cur ts ∧ Faults x.labels.find i x.opts (ts.map Token.pair) u := by
  induction room generalizing x i with
  | zero => omega
  | succ room ih =>
    unfold parseAll at h
    have hbi : addressOf i + 8 ≤ 2 ^ 63 := by
      have := addressOf_mono (show i ≤ i + x.cur.text.count ';' by omega)
      omega
    cases hp : parseInstruction insnTable false x.fresh with
    | ok b s =>
      cases b with
      | false =>
        rw [show (⟨x, ⟨.none, 0, 0⟩, {}⟩ : St) = x.fresh from rfl, hp] at h
        simp at h
      | true =>
        rw [show (⟨x, ⟨.none, 0, 0⟩, {}⟩ : St) = x.fresh from rfl, hp] at h
        dsimp only at h
        obtain ⟨pre, hpre⟩ := parseInstruction_semicolon hp
        obtain ⟨ts, r1, r2, r3, r4, r5⟩ := step_faults hpc hp
        have hc : x.cur.text.count ';' = pre.count ';' + (s.ctx.cur.text.count ';' + 1) := by
          show x.fresh.ctx.cur.text.count ';' = _
          rw [hpre]; simp only [List.count_append, List.count_cons_self]
        cases hpa : parseAll insnTable false room s.ctx with
        | ub w =>
          rw [hpa] at h
          obtain rfl : w = u := by simpa using h
          have hm := addressOf_mono (show i + 1 + s.ctx.cur.text.count ';' ≤ i + x.cur.text.count ';' by omega)
          obtain ⟨us, q1, q2⟩ := ih (i := i + 1) (by rw [r3, alignPc_next]) (by omega) (by omega) hpa
          rw [r2] at q2
          refine ⟨ts ++ us, Peeks.after r1 q1, ?_⟩
          rw [List.map_append]
          exact r5 q2
        | ok r => rw [hpa] at h; simp at h
        | exit e => rw [hpa] at h; simp at h
        | abort => rw [hpa] at h; simp at h
    | ub w =>
      rw [show (⟨x, ⟨.none, 0, 0⟩, {}⟩ : St) = x.fresh from rfl, hp] at h
      obtain rfl : w = u := by simpa using h
      exact parseInstruction_faults hu hpc hbi hp
    | fail e s => rw [show (⟨x, ⟨.none, 0, 0⟩, {}⟩ : St) = x.fresh from rfl, hp] at h; simp at h
    | exit e => rw [show (⟨x, ⟨.none, 0, 0⟩, {}⟩ : St) = x.fresh from rfl, hp] at h; simp at h
    | abort => rw [show (⟨x, ⟨.none, 0, 0⟩, {}⟩ : St) = x.fresh from rfl, hp] at h; simp at h

theorem parseAll_of_ub {room : Nat} {x : Ctx} {u : UB} (hroom : 0 < room) (h : parseInstruction insnTable false x.fresh = .ub u) :
    parseAll insnTable false room x = .ub u := by
  obtain ⟨n, rfl⟩ : ∃ n, room = n + 1 := ⟨room - 1, by omega⟩
  unfold parseAll
  rw [show (⟨x, ⟨.none, 0, 0⟩, {}⟩ : St) = x.fresh from rfl, h]

/-- At every fault the parse loop has undefined behaviour. -/
theorem faults_parseAll {room : Nat} {x : Ctx} {i : Nat} {u : UB} {ts : List Token} (hpc : alignPc x.pc = addressOf i)
    (hroom : x.cur.text.count ';' < room) (hb : addressOf (i + x.cur.text.count ';') + 8 ≤ 2 ^ 63)
    (hp : Peeks x.cur ts) (h : Faults x.labels.find i x.opts (ts.map Token.pair) u) : parseAll insnTable false room x = .ub u := by
  obtain ⟨ps, hps⟩ : ∃ ps, ts.map Token.pair = ps := ⟨_, rfl⟩
  obtain ⟨o, ho⟩ : ∃ o, x.opts = o := ⟨_, rfl⟩
  rw [hps, ho] at h
  obtain ⟨f, hf⟩ : ∃ f, x.labels.find = f := ⟨_, rfl⟩
  rw [hf] at h
  induction h generalizing x ts room with
  | @here i o ps u h =>
    refine parseAll_of_ub (by omega) ?_
    have hbi : addressOf i + 8 ≤ 2 ^ 63 := by
      have := addressOf_mono (show i ≤ i + x.cur.text.count ';' by omega)
      omega
    subst hps
    rw [map_pair_kind, ← hf] at h
    have hlast : ∀ t, ts.getLast? = some t → t.kind ≠ .none := by
      intro t ht
      have h1 : (ts.map Token.kind).getLast? = some t.kind := by rw [List.getLast?_map, ht]; rfl
      generalize ts.map Token.kind = ks at h h1
      cases h with | @mk g row os os' o ks k v r _ _ _ _ _ h5
      rw [← List.cons_append, ← List.append_assoc, List.getLast?_append] at h1
      have : k = t.kind := by simpa using h1
      rw [← this]; exact h5.ne_none
    obtain ⟨c', hr⟩ := hp.reads hlast
    cases hr with
    | nil =>
      exfalso
      obtain ⟨ks, hks⟩ : ∃ ks, List.map Token.kind [] = ks := ⟨_, rfl⟩
      rw [hks] at h
      cases h with | mk
      simp at hks
    | @cons _ c1 _ t ts ht hk hr =>
      exact (insn_fault h.ne_past hpc hbi ht h.not_option).2 ⟨ts, c', hr, h⟩
  | @setting i o ps h =>
    refine parseAll_of_ub (by omega) ?_
    subst ho
    obtain ⟨a, b, rfl⟩ : ∃ a b, ps = [a, b] := by cases h <;> exact ⟨_, _, rfl⟩
    obtain ⟨t, us, rfl, rfl, hus⟩ := List.map_eq_cons_iff.1 hps
    obtain ⟨t', vs, rfl, rfl, hvs⟩ := List.map_eq_cons_iff.1 hus
    obtain rfl : vs = [] := by simpa using hvs
    cases hp with
    | cons ht hk hr =>
      cases hr with
      | last ht' => exact setting_fault ht ht' h rfl
      | cons ht' _ _ => exact setting_fault ht ht' h rfl
  | @insn i o as bs op u h hr ih =>
    obtain ⟨a, b, rfl, rfl, rfl⟩ := List.map_eq_append_iff.1 hps
    obtain ⟨c, h1, h2⟩ := hp.split (by rintro rfl; exact hr.ne_nil rfl)
    rw [map_pair_kind] at h
    cases h1 with
    | nil =>
      exfalso
      obtain ⟨ks, hks⟩ : ∃ ks, List.map Token.kind [] = ks := ⟨_, rfl⟩
      rw [hks] at h
      cases h with | mk
      simp at hks
    | @cons _ c1 _ t ts ht hk hr1 =>
      rw [← hpc, ← hf] at h
      obtain ⟨t', e1⟩ := insn_accepts ht hr1 h
      obtain ⟨pre, hpre⟩ := parseInstruction_semicolon e1
      have hc : x.cur.text.count ';' = pre.count ';' + (c.text.count ';' + 1) := by
        show x.fresh.ctx.cur.text.count ';' = _
        rw [hpre]; simp only [List.count_append, List.count_cons_self]
      obtain ⟨n, rfl⟩ : ∃ n, room = n + 1 := ⟨room - 1, by omega⟩
      have hm := addressOf_mono (show i + 1 + c.text.count ';' ≤ i + x.cur.text.count ';' by omega)
      have := ih (room := n) (x := { x with cur := c, pc := alignPc x.pc + 8 }) (by dsimp only; rw [hpc, alignPc_next])
        (by dsimp only; omega) (by dsimp only; omega) h2 rfl ho hf
      unfold parseAll
      rw [show (⟨x, ⟨.none, 0, 0⟩, {}⟩ : St) = x.fresh from rfl, e1]
      dsimp only
      rw [this]
  | @option i o o1 t next ps rest u h hl' hr ih =>
    obtain ⟨a, b, rfl, ha, hb'⟩ := List.map_eq_append_iff.1 hps
    obtain ⟨t, ts, rfl, rfl, rfl⟩ := List.map_eq_cons_iff.1 ha
    obtain ⟨w, us, rfl, rfl, rfl⟩ := List.map_eq_cons_iff.1 hb'
    obtain ⟨c, h1, h2⟩ := hp.split (by simp)
    cases h1 with
    | @cons _ c1 _ _ _ ht hk hr1 =>
      rw [← ho, ← List.map_cons] at h
      have hw : ∃ c2, tokenize c = .ok w c2 := by
        cases h2 with
        | last hw => exact ⟨_, hw⟩
        | cons hw _ _ => exact ⟨_, hw⟩
      obtain ⟨c2, hw⟩ := hw
      have hk' : w.kind ≠ .none := by
        intro hk'
        exact hr.head_ne_none hk'
      have hs := option_same (table := insnTable) (d := false) ht h.isOption hr1 h hw hl' hk'
      have hle : c.text.count ';' ≤ x.cur.text.count ';' := by
        obtain ⟨p, hp, -⟩ := (ReadsT.cons ht hk hr1).reach
        rw [hp]; simp
      have hm := addressOf_mono (show i + c.text.count ';' ≤ i + x.cur.text.count ';' by omega)
      have := ih (room := room) (x := { x with cur := c, opts := o1 }) hpc (by dsimp only; omega) (by dsimp only; omega) h2 rfl rfl hf
      obtain ⟨n, rfl⟩ : ∃ n, room = n + 1 := ⟨room - 1, by omega⟩
      unfold parseAll at this ⊢
      rw [show (⟨x, ⟨.none, 0, 0⟩, {}⟩ : St) = x.fresh from rfl, hs]
      exact this

end Nxas
