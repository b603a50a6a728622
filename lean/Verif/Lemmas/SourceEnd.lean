import Verif.Lemmas.TableEnd
import Verif.Lemmas.Undefined
/-
Reading beyond the end of the text in whole sources.
-/

namespace Nxas

open Spec

/-! ### The end of the text -/

/-- The lexer reads beyond the end of the text exactly where the beginning of a predicate is cut off. -/
theorem tokenize_past {c : Cur} (hz : '\x00' ∉ c.text) : tokenize c = .ub .readPastEnd ↔
    ∃ s w, c.text = s ++ w ∧ Skipped s w ∧ w ∈ [c!"P", c!"p", c!"!P", c!"!p"] := by
  constructor
  · intro h
    obtain ⟨n, hn⟩ : ∃ n, n = c.text.length := ⟨_, rfl⟩
    induction n using Nat.strongRecOn generalizing c with
    | ind n ih =>
      cases htext : c.text with
      | nil => rw [tokenize_end htext] at h; simp at h
      | cons x xs =>
        rw [htext] at hn hz
        simp only [List.mem_cons, not_or] at hz
        by_cases hx : x ∈ blanks
        · rw [tokenize_blank htext hx] at h
          obtain ⟨s, w, h1, h2, h3⟩ := ih xs.length (by simp at hn; omega) (c := c.move [x] xs) hz.2 h rfl
          have h1' : xs = s ++ w := h1
          exact ⟨x :: s, w, by rw [h1']; rfl, .blank hx h2, h3⟩
        · have hz' : '\x00' ∉ c.text := by rw [htext]; simp [hz]
          have hne : c.text ≠ [] := by rw [htext]; simp
          rw [tokenize_unfold] at h
          dsimp only at h
          rw [skip_blank_self htext hx, if_neg hne] at h
          cases hh : lexHead c with
          | done r =>
            rw [hh] at h
            dsimp only at h
            subst h
            exact (lexHead_ub hh hne).elim
          | fall c1 =>
            rw [hh] at h
            dsimp only at h
            have hb : c.peek ∉ blanks := by rw [Cur.peek_of htext]; exact hx
            cases hi : lexIdent c.text c1 with
            | ub =>
              refine ⟨[], c.text, by rw [← htext]; rfl, .nil, ?_⟩
              exact lexHead_fall_nil hh hne (lexIdent_ub.mp hi)
            | ident s c2 => rw [hi] at h; simp at h
            | label c2 =>
              rw [hi] at h
              dsimp only at h
              obtain ⟨h1, h2, h3⟩ := lex_fall_inv hz' hb hne hh (.inl ⟨hi, rfl⟩)
              have hl := h3.2 hi
              obtain ⟨v, hv⟩ : ∃ v, between c.text c2.text = v := ⟨_, rfl⟩
              rw [hv] at h1 h2 hl
              obtain ⟨y, ys, rfl, -⟩ := h2.head
              have hlen : c2.text.length < n := by
                have := congrArg List.length h1
                rw [htext] at this
                simp at this hn
                omega
              have hz2 : '\x00' ∉ c2.text := by
                intro hm; exact hz' (by rw [h1]; simp [hm])
              obtain ⟨s, w, e1, e2, e3⟩ := ih _ hlen hz2 h rfl
              rw [e1] at h1 h2
              exact ⟨y :: ys ++ s, w, by rw [← htext, h1, List.append_assoc], .label h2 hl e2, e3⟩
  · rintro ⟨s, w, h1, h2, h3⟩
    rw [tokenize_skipped hz h1 h2]
    have : ∀ l k, tokenize ⟨w, l, k⟩ = .ub .readPastEnd := by
      intro l k
      simp only [List.mem_cons, List.not_mem_nil, or_false] at h3
      rcases h3 with rfl | rfl | rfl | rfl <;> rfl
    exact this _ _

/-- The tokens `ts` can be read from the cursor, and then nothing more. -/
inductive DiesT : Cur → List Token → Prop
  | last {c : Cur} (h : tokenize c = .ub .readPastEnd) : DiesT c []
  | cons {c c1 : Cur} {t : Token} {ts : List Token} (h : tokenize c = .ok t c1) (hr : DiesT c1 ts) : DiesT c (t :: ts)

theorem dies_iff {c : Cur} {ks : List Kind} : Dies c ks ↔ ∃ ts, DiesT c ts ∧ ks = ts.map Token.kind := by
  constructor
  · intro h
    induction ks generalizing c with
    | nil => exact ⟨[], .last h, rfl⟩
    | cons k ks ih =>
      obtain ⟨t1, c1, h1, rfl, h2⟩ := h
      obtain ⟨ts, h3, rfl⟩ := ih h2
      exact ⟨t1 :: ts, .cons h1 h3, rfl⟩
  · rintro ⟨ts, h, rfl⟩
    induction h with
    | last h => exact h
    | cons h _ ih => exact ⟨_, _, h, rfl, ih⟩

theorem DiesT.unique {c : Cur} {as bs : List Token} (h : DiesT c as) (h' : DiesT c bs) : as = bs := by
  induction h generalizing bs with
  | last h =>
    cases h' with
    | last => rfl
    | cons h1 => rw [h] at h1; simp at h1
  | cons h _ ih =>
    cases h' with
    | last h1 => rw [h] at h1; simp at h1
    | cons h1 h2 =>
      rw [h] at h1
      obtain ⟨rfl, rfl⟩ := TokRes.ok.inj h1
      rw [ih h2]

theorem DiesT.ne_none {c c1 : Cur} {t : Token} {ts : List Token} (hz : '\x00' ∉ c.text) (h : tokenize c = .ok t c1) (hr : DiesT c1 ts) :
    t.kind ≠ .none := by
  intro hk
  rcases tokenize_inv hz h with ⟨s, -, -, -, h1⟩ | ⟨s, w, -, -, h3, -⟩
  · have he := tokenize_end (c := c1) (by rw [h1]; rfl)
    have : ∀ {ts}, DiesT c1 ts → False := by
      intro ts h
      obtain ⟨c2, hc2⟩ : ∃ c2, c2 = c1 := ⟨_, rfl⟩
      rw [← hc2] at h
      induction h with
      | last h => rw [hc2, he] at h; simp at h
      | cons h _ ih =>
        rw [hc2, he] at h
        simp only [TokRes.ok.injEq] at h
        exact ih h.2.symm
    exact this hr
  · exact h3.ne_none hk

theorem no_nul_after {c c1 : Cur} {t : Token} (hz : '\x00' ∉ c.text) (h : tokenize c = .ok t c1) : '\x00' ∉ c1.text := by
  obtain ⟨p, hp, -⟩ := (tokenize_ok h).reach
  intro hm; exact hz (by rw [hp]; exact List.mem_append_right _ hm)

theorem DiesT.after {c c1 : Cur} {as bs : List Token} (h : ReadsT c as c1) (hr : DiesT c1 bs) : DiesT c (as ++ bs) := by
  induction h with
  | nil => exact hr
  | cons h hk _ ih => exact .cons h (ih hr)

theorem DiesT.split {c : Cur} {as bs : List Token} (hz : '\x00' ∉ c.text) (h : DiesT c (as ++ bs)) :
    ∃ c1, ReadsT c as c1 ∧ DiesT c1 bs := by
  induction as generalizing c with
  | nil => exact ⟨c, .nil, h⟩
  | cons t as ih =>
    rw [List.cons_append] at h
    cases h with
    | cons h hr =>
      obtain ⟨c1, h1, h2⟩ := ih (no_nul_after hz h) hr
      exact ⟨c1, .cons h (DiesT.ne_none hz h hr) h1, h2⟩

/-- The lexical grammar describes the tokens before the end. -/
theorem breaks_iff {c : Cur} (hz : '\x00' ∉ c.text) {ps : List (Kind × Nat)} :
    Breaks c.line c.text ps ↔ ∃ ts, DiesT c ts ∧ ps = ts.map Token.pair := by
  constructor
  · obtain ⟨l, hl⟩ : ∃ l, c.line = l := ⟨_, rfl⟩
    obtain ⟨x, hx⟩ : ∃ x, c.text = x := ⟨_, rfl⟩
    rw [hl, hx]
    intro h
    induction h generalizing c with
    | last hs hw => exact ⟨[], .last ((tokenize_past hz).2 ⟨_, _, hx, hs, hw⟩), rfl⟩
    | @token l s w rest k ts hs hw h ih =>
      rw [List.append_assoc] at hx
      have h1 := tokenize_skipped hz hx hs
      have hz1 : '\x00' ∉ (c.move s (w ++ rest)).text := by
        intro hm; exact hz (by rw [hx]; exact List.mem_append_right _ hm)
      rw [tokenize_lexeme hz1 rfl hw, Cur.move_move] at h1
      have hz2 : '\x00' ∉ (c.move (s ++ w) rest).text := by
        intro hm; exact hz (by rw [hx]; exact List.mem_append_right _ (List.mem_append_right _ hm))
      obtain ⟨ts', h2, h3⟩ := ih (c := c.move (s ++ w) rest) hz2 (by rw [Cur.move_line, hl]) rfl
      refine ⟨_ :: ts', .cons h1 h2, ?_⟩
      rw [List.map_cons, ← h3, Token.pair, Cur.move_line, hl]
  · rintro ⟨ts, h, rfl⟩
    induction h with
    | last h =>
      obtain ⟨s, w, h1, h2, h3⟩ := (tokenize_past hz).1 h
      rw [h1]
      exact .last h2 h3
    | @cons c c1 t ts h hr ih =>
      have := ih (no_nul_after hz h)
      have hk := DiesT.ne_none hz h hr
      rcases tokenize_inv hz h with ⟨s, -, -, h3, -⟩ | ⟨s, w, h1, h2, h3, h4, h5⟩
      · rw [h3] at hk; exact absurd rfl hk
      · rw [h1, ← List.append_assoc]
        have hl : t.line = c.line + lineAfter s := by rw [h4]; exact Cur.move_line c s (w ++ c1.text)
        rw [List.map_cons, Token.pair, hl]
        refine .token h2 h3 ?_
        have hl1 : c1.line = c.line + lineAfter (s ++ w) := by rw [h5]; exact Cur.move_line c (s ++ w) c1.text
        rw [← hl1]; exact this

/-! ### Options -/

theorem advance_past {d : Bool} {s : St} : advance d s = .ub .readPastEnd ↔ tokenize s.ctx.cur = .ub .readPastEnd := by
  unfold advance
  cases tokenize s.ctx.cur <;> simp

theorem parseType_past {n : Nat} {s : St} : parseType n false s = .ub .readPastEnd ↔
    s.ctx.opts.type = none ∧ tokenize s.ctx.cur = .ub .readPastEnd := by
  unfold parseType
  rw [M.bind_def]
  simp only [getCtx]
  by_cases hn : s.ctx.opts.type = none
  · rw [if_neg (by simp [hn])]
    simp only [hn, true_and]
    constructor
    · intro h
      rcases bind_ub h with h | ⟨_, s1, h1, h⟩
      · exact advance_past.1 h
      rcases bind_ub h with h | ⟨_, s2, h2, h⟩
      · unfold checkOptionLine at h
        simp only [M.bind_def, getTok] at h
        split at h <;> simp [exitTok, M.pure] at h
      rw [M.bind_def] at h
      simp only [getTok] at h
      cases hp : progTypeOfName s2.tok with
      | some p => simp [hp, modifyOpts] at h
      | none =>
        simp only [hp] at h
        split at h <;> simp [exitTok, ubM] at h
    · intro h
      rw [M.bind_def, advance_past.2 h]
  · rw [if_pos (by cases h : s.ctx.opts.type <;> simp_all)]
    simp [exitTok, hn]

/-- `n` numbers in a row. -/
theorem nextImmediate_past {msg : Msg} {f : BitVec 32 → M Unit} {s : St} : (nextImmediate msg >>= f) false s = .ub .readPastEnd ↔
    tokenize s.ctx.cur = .ub .readPastEnd ∨
    ∃ t c x, tokenize s.ctx.cur = .ok t c ∧ t.kind = .imm x ∧ f (toInt32 x) false { s with ctx := { s.ctx with cur := c }, tok := t } = .ub .readPastEnd := by
  constructor
  · intro h
    rcases bind_ub h with h | ⟨x, s1, h1, h⟩
    · unfold nextImmediate at h
      rcases bind_ub h with h | ⟨_, s1, -, h⟩
      · exact .inl (advance_past.1 h)
      · simp only [M.bind_def, getTok] at h
        cases hk : s1.tok.kind <;> simp [hk, exitTok, M.pure] at h
    · unfold nextImmediate at h1
      obtain ⟨_, s2, h2, h1⟩ := bind_ok h1
      obtain ⟨t, c, e1, rfl⟩ := advance_ok h2
      simp only [M.bind_def, getTok] at h1
      cases hk : t.kind <;> simp [hk, exitTok, M.pure] at h1
      obtain ⟨rfl, rfl⟩ := h1
      exact .inr ⟨t, c, _, e1, hk, h⟩
  · rintro (h | ⟨t, c, x, h1, h2, h3⟩)
    · rw [M.bind_def]
      unfold nextImmediate
      rw [M.bind_def, advance_past.2 h]
    · rw [M.bind_def]
      unfold nextImmediate
      simp only [M.bind_def, advance, h1, getTok, h2, M.pure]
      exact h3

theorem optionBody_past {s : St} (ho : s.tok.isOption = true) (h : optionBody s.tok false s = .ub .readPastEnd) :
    ∃ ts, DiesT s.ctx.cur ts ∧ OptionOpen s.ctx.opts ((s.tok :: ts).map Token.pair) := by
  obtain ⟨name, hk⟩ : ∃ name, s.tok.kind = .ident name := by
    unfold Token.isOption at ho
    split at ho
    · rename_i name hk; exact ⟨name, hk⟩
    · simp at ho
  have hp : s.tok.pair = (.ident name, s.tok.line) := by rw [Token.pair, hk]
  unfold optionBody at h
  simp only [Token.equal_iff, hk, Kind.ident.injEq] at h
  simp only [List.map_cons, hp]
  by_cases h1 : name = c!".dksh"
  · rw [if_pos h1, M.bind_def] at h
    simp only [modifyOpts] at h
    obtain ⟨e1, e2⟩ := parseType_past.1 h
    exact ⟨[], .last e2, .type (.inl h1) e1⟩
  rw [if_neg h1] at h
  by_cases h2 : name = c!".type"
  · rw [if_pos h2] at h
    obtain ⟨e1, e2⟩ := parseType_past.1 h
    exact ⟨[], .last e2, .type (.inr h2) e1⟩
  rw [if_neg h2] at h
  by_cases h3 : name = c!".num_gprs"
  · rw [if_pos h3] at h
    rcases bind_ub h with h | ⟨_, s1, e1, h⟩
    · refine ⟨[], .last (advance_past.1 h), ?_⟩
      rw [h3]; exact .registers
    · rw [M.bind_def] at h
      simp only [getTok] at h
      cases hk : s1.tok.kind <;> simp [hk, exitTok, ubM] at h
  rw [if_neg h3] at h
  by_cases h4 : name = c!".workgroup_size"
  · rw [if_pos h4] at h
    rw [h4]
    rcases nextImmediate_past.1 h with h | ⟨t, c, x, e1, e2, h⟩
    · exact ⟨[], .last h, .workgroup (by simp) (by simp)⟩
    rw [M.bind_def] at h
    simp only [modifyOpts] at h
    rcases nextImmediate_past.1 h with h | ⟨t', c', x', e1', e2', h⟩
    · exact ⟨[t], .cons e1 (.last h), .workgroup (by simp) (by simp [Token.pair, e2])⟩
    rw [M.bind_def] at h
    simp only [modifyOpts] at h
    rcases nextImmediate_past.1 h with h | ⟨t2, c2, x2, e3, e4, h⟩
    · exact ⟨[t, t'], .cons e1 (.cons e1' (.last h)), .workgroup (by simp) (by simp [Token.pair, e2, e2'])⟩
    rw [M.bind_def] at h
    simp only [modifyOpts] at h
    unfold checkOptionLine at h
    simp only [M.bind_def, getTok] at h
    split at h <;> simp [exitTok, M.pure] at h
  rw [if_neg h4] at h
  by_cases h5 : name = c!".shared_memory"
  · rw [if_pos h5] at h
    rcases nextImmediate_past.1 h with h | ⟨t, c, x, e1, e2, h⟩
    · exact ⟨[], .last h, .memory (.inl h5)⟩
    · simp [modifyOpts] at h
  rw [if_neg h5] at h
  by_cases h6 : name = c!".local_memory"
  · rw [if_pos h6] at h
    rcases nextImmediate_past.1 h with h | ⟨t, c, x, e1, e2, h⟩
    · exact ⟨[], .last h, .memory (.inr h6)⟩
    · simp [modifyOpts] at h
  rw [if_neg h6] at h
  simp [M.pure] at h

/-- An option asks for another token exactly after the tokens of the specification. -/
theorem parseOption_past {s : St} (hz : '\x00' ∉ s.ctx.cur.text) (ho : s.tok.isOption = true) : parseOption false s = .ub .readPastEnd ↔
    ∃ ts, DiesT s.ctx.cur ts ∧ OptionOpen s.ctx.opts ((s.tok :: ts).map Token.pair) := by
  constructor
  · intro h
    unfold parseOption at h
    rw [M.bind_def] at h
    simp only [getTok] at h
    rcases bind_ub h with h | ⟨_, s1, h1, h⟩
    · exact optionBody_past ho h
    rcases bind_ub h with h | ⟨_, s2, -, h⟩
    · obtain ⟨ts, e1, e2, -⟩ := optionBody_reads ho h1
      refine ⟨ts, ?_, .full e2⟩
      have := DiesT.after e1 (.last (advance_past.1 h))
      rwa [List.append_nil] at this
    rw [M.bind_def] at h
    change (if s.tok.line = s2.tok.line then exitTok _ else M.pure ()) false s2 = _ at h
    obtain ⟨t, ht⟩ : ∃ t, s2.tok = t := ⟨_, rfl⟩
    rw [ht] at h
    by_cases hl : s.tok.line = t.line
    · rw [if_pos hl] at h; simp [exitTok] at h
    · rw [if_neg hl] at h; simp [M.pure] at h
  · rintro ⟨ts, hd, h⟩
    unfold parseOption
    rw [M.bind_def]
    simp only [getTok]
    obtain ⟨ps, hps⟩ : ∃ ps, (s.tok :: ts).map Token.pair = ps := ⟨_, rfl⟩
    rw [hps] at h
    have hbody : ∀ {name : Str} {l : Nat} {qs : List (Kind × Nat)}, (s.tok :: ts).map Token.pair = (.ident name, l) :: qs →
        s.tok.kind = .ident name ∧ qs = ts.map Token.pair := by
      intro name l qs h
      rw [List.map_cons, List.cons.injEq] at h
      exact ⟨(pair_inv h.1).1, h.2.symm⟩
    cases h with
    | full h =>
      subst hps
      rw [← List.append_nil ts] at hd
      obtain ⟨c1, h1, h2⟩ := hd.split hz
      obtain ⟨t, ht⟩ := optionBody_accepts (d := false) h1 h
      rw [M.bind_def, ht]
      dsimp only
      rw [M.bind_def, advance_past.2 (by cases h2 with | last h => exact h)]
    | type hn ht =>
      obtain ⟨hk, hq⟩ := hbody hps
      obtain rfl : ts = [] := by simpa using hq.symm
      cases hd with | last hd =>
      have : optionBody s.tok false s = .ub .readPastEnd := by
        unfold optionBody
        simp only [Token.equal_iff, hk, Kind.ident.injEq]
        rcases hn with rfl | rfl
        · rw [if_pos rfl, M.bind_def]
          simp only [modifyOpts]
          exact parseType_past.2 ⟨ht, hd⟩
        · rw [if_neg (by decide), if_pos rfl]
          exact parseType_past.2 ⟨ht, hd⟩
      rw [M.bind_def, this]
    | registers =>
      obtain ⟨hk, hq⟩ := hbody hps
      obtain rfl : ts = [] := by simpa using hq.symm
      cases hd with | last hd =>
      have : optionBody s.tok false s = .ub .readPastEnd := by
        unfold optionBody
        simp only [Token.equal_iff, hk, Kind.ident.injEq]
        rw [if_neg (by decide), if_neg (by decide), if_pos trivial, M.bind_def, advance_past.2 hd]
      rw [M.bind_def, this]
    | workgroup hn hi =>
      obtain ⟨hk, rfl⟩ := hbody hps
      have : optionBody s.tok false s = .ub .readPastEnd := by
        unfold optionBody
        simp only [Token.equal_iff, hk, Kind.ident.injEq]
        rw [if_neg (by decide), if_neg (by decide), if_neg (by decide), if_pos trivial]
        cases hd with
        | last hd => exact nextImmediate_past.2 (.inl hd)
        | cons h1 hd =>
          obtain ⟨x, hx⟩ := hi _ List.mem_cons_self
          refine nextImmediate_past.2 (.inr ⟨_, _, x, h1, hx, ?_⟩)
          rw [M.bind_def]
          simp only [modifyOpts]
          cases hd with
          | last hd => exact nextImmediate_past.2 (.inl hd)
          | cons h2 hd =>
            obtain ⟨y, hy⟩ := hi _ (List.mem_cons_of_mem _ List.mem_cons_self)
            refine nextImmediate_past.2 (.inr ⟨_, _, y, h2, hy, ?_⟩)
            rw [M.bind_def]
            simp only [modifyOpts]
            cases hd with
            | last hd => exact nextImmediate_past.2 (.inl hd)
            | cons h3 hd => simp at hn
      rw [M.bind_def, this]
    | memory hn =>
      obtain ⟨hk, hq⟩ := hbody hps
      obtain rfl : ts = [] := by simpa using hq.symm
      cases hd with | last hd =>
      have : optionBody s.tok false s = .ub .readPastEnd := by
        unfold optionBody
        simp only [Token.equal_iff, hk, Kind.ident.injEq]
        rcases hn with rfl | rfl
        · rw [if_neg (by decide), if_neg (by decide), if_neg (by decide), if_neg (by decide), if_pos rfl]
          exact nextImmediate_past.2 (.inl hd)
        · rw [if_neg (by decide), if_neg (by decide), if_neg (by decide), if_neg (by decide), if_neg (by decide), if_pos rfl]
          exact nextImmediate_past.2 (.inl hd)
      rw [M.bind_def, this]

/-! ### Instructions -/

theorem guardPredicate_no_past {s : St} : raising guardPredicate false s ≠ .ub .readPastEnd := by
  intro h
  unfold raising guardPredicate at h
  rw [M.bind_def] at h
  unfold confirmPred at h
  cases hk : s.tok.kind <;> simp [hk, addBits] at h

/-- The guard asks for another token after `@` and after the predicate. -/
theorem prologueBody_past {s : St} : prologueBody false s = .ub .readPastEnd ↔ s.tok.kind = .at ∧
    (tokenize s.ctx.cur = .ub .readPastEnd ∨
      ∃ t c p n, tokenize s.ctx.cur = .ok t c ∧ t.kind = .pred p n ∧ tokenize c = .ub .readPastEnd) := by
  have hend : ∀ {s1 : St}, (do
      let t2 ← getTok
      match t2.kind with
      | .ident _ => M.pure ()
      | _ => exitTok "expected mnemonic" : M Unit) false s1 ≠ .ub .readPastEnd := by
    intro s1 h
    rw [M.bind_def] at h
    simp only [getTok] at h
    cases hk : s1.tok.kind <;> simp [hk, exitTok, M.pure] at h
  unfold prologueBody
  rw [M.bind_def]
  simp only [getTok]
  by_cases hk : s.tok.kind = .at
  · rw [if_pos hk]
    simp only [hk, true_and]
    constructor
    · intro h
      rcases bind_ub h with h | ⟨_, s1, h1, h⟩
      · exact .inl (advance_past.1 h)
      obtain ⟨t, c, e1, rfl⟩ := advance_ok h1
      rcases bind_ub h with h | ⟨_, s2, h2, h⟩
      · exact absurd h guardPredicate_no_past
      have h3 : tokenize s2.ctx.cur = .ub .readPastEnd := by
        rcases bind_ub h with h | ⟨_, s3, -, h⟩
        · exact advance_past.1 h
        · exact absurd h hend
      unfold raising guardPredicate at h2
      rw [M.bind_def] at h2
      unfold confirmPred at h2
      cases hk : t.kind with
      | pred p n =>
        simp [hk, addBits] at h2
        rw [← h2] at h3
        exact .inr ⟨t, c, p, n, e1, hk, h3⟩
      | _ => simp [hk] at h2
    · rintro (h | ⟨t, c, p, n, h1, h2, h3⟩)
      · rw [M.bind_def, advance_past.2 h]
      · simp [M.bind_def, advance, h1, raising, guardPredicate, confirmPred, h2, addBits, h3]
  · rw [if_neg hk]
    simp only [hk, false_and, iff_false]
    intro h
    rcases bind_ub h with h | ⟨_, s1, -, h⟩
    · simp [addBits] at h
    · exact hend h

/-- An instruction without an option in front of it asks for another token exactly after the tokens of the specification. -/
theorem insn_past {x : Ctx} {t : Token} {c1 : Cur} {i : Nat} (hpc : alignPc x.pc = addressOf i)
    (hb : addressOf i + 8 ≤ 2 ^ 63) (ht : tokenize x.cur = .ok t c1) (ho : t.isOption = false) :
    parseInstruction insnTable false x.fresh = .ub .readPastEnd ↔
      ∃ ts, DiesT c1 ts ∧ InsnOpen ⟨x.labels.find, addressOf i⟩ ((t :: ts).map Token.kind) := by
  constructor
  · intro h
    have hk : t.kind ≠ .none := by
      intro hk
      rw [(insn_end (table := insnTable) (d := false)).2 ⟨t, c1, ht, hk, rfl⟩] at h
      simp at h
    rw [parseInstruction_eq, Ctx.fresh_advance ht] at h
    dsimp only [Out.bind] at h
    rw [if_neg hk] at h
    unfold insnBody at h
    rw [parseOptions_succ, if_neg (by simp [ho])] at h
    rcases Out.bind_ub h with h | ⟨_, s1, h1, h⟩
    · simp at h
    simp only [Out.ok.injEq, true_and] at h1
    subst h1
    rcases Out.bind_ub h with h | ⟨_, s1, h1, h⟩
    · rw [parsePrologue_eq] at h
      obtain ⟨e1, h | ⟨t', c', p, n, e2, e3, e4⟩⟩ := prologueBody_past.1 h
      · refine ⟨[], .last h, ?_⟩
        have e1' : t.kind = .at := e1
        rw [List.map_cons, e1']; exact .at
      · refine ⟨[t'], .cons e2 (.last e4), ?_⟩
        have e1' : t.kind = .at := e1
        rw [List.map_cons, List.map_cons, e1', e3]; exact .guard
    rcases Out.bind_ub h with h | ⟨_, s2, h2, h⟩
    · rw [parsePrologue_eq] at h1
      obtain ⟨g, mn, e1, e2, e3, e4, e5⟩ := prologueBody_inv h1
      dsimp only at e1 e4 e5
      have e4' : s1.op = ⟨guardWord g, 0, 0⟩ := by rw [e4]; simp
      have henv : s1.ctx.env = ⟨x.labels.find, addressOf i⟩ := by rw [e5, ← hpc]; rfl
      have hpc1 : s1.ctx.pc + 8 ≤ 2 ^ 63 := by rw [e5]; dsimp only; rw [hpc]; exact hb
      rw [tryRows_past e2 e3 e4' hpc1] at h
      obtain ⟨row, ks, r1, r2, r3, r4⟩ := h
      obtain ⟨t1, k1, p1⟩ := e1.path
      obtain ⟨ks', q1, q2⟩ := Dies.of_path p1 r3
      obtain ⟨ts, q3, rfl⟩ := dies_iff.1 q2
      refine ⟨ts, q3, ?_⟩
      rw [List.map_cons, q1, k1, e2, ← r2]
      rw [henv] at r4
      exact .row r1 r4
    · simp at h
  · rintro ⟨ts, hd, h⟩
    obtain ⟨kk, hkk⟩ : ∃ kk, (t :: ts).map Token.kind = kk := ⟨_, rfl⟩
    rw [hkk] at h
    have hk : t.kind ≠ .none := by
      intro hk
      have := congrArg List.head? hkk
      cases h with
      | «at» => simp [hk] at this
      | guard => simp [hk] at this
      | @row g => rcases g with - | ⟨p, n⟩ <;> simp [guardTokens, hk] at this
    rw [parseInstruction_eq, Ctx.fresh_advance ht]
    dsimp only [Out.bind]
    rw [if_neg hk]
    unfold insnBody
    rw [parseOptions_succ, if_neg (by simp [ho])]
    dsimp only [Out.bind]
    have hpro : ∀ {s : St}, prologueBody false { s with ctx := { s.ctx with pc := alignPc s.ctx.pc } } = .ub .readPastEnd →
        parsePrologue false s = .ub .readPastEnd := fun h => by rw [parsePrologue_eq]; exact h
    cases h with
    | «at» =>
      simp only [List.map_cons, List.cons.injEq, List.map_eq_nil_iff] at hkk
      obtain ⟨hk1, rfl⟩ := hkk
      cases hd with | last hd
      rw [hpro (prologueBody_past.2 ⟨hk1, .inl hd⟩)]
    | guard =>
      rw [List.map_cons, List.cons.injEq, List.map_eq_cons_iff] at hkk
      obtain ⟨hk1, t', us, rfl, hk2, hk3⟩ := hkk
      obtain rfl : us = [] := by simpa using hk3
      cases hd with | cons h1 hd
      cases hd with | last hd
      rw [hpro (prologueBody_past.2 ⟨hk1, .inr ⟨_, _, _, _, h1, hk2, hd⟩⟩)]
    | @row g row ks h1 h2 =>
      have hd' : Dies c1 (ts.map Token.kind) := dies_iff.2 ⟨ts, hd, rfl⟩
      obtain ⟨t2, c2, p1, hk2, hd2⟩ := hd'.split (t := t) hkk
      have hmain : parsePrologue false ⟨{ x with cur := c1 }, t, {}⟩ = .ok () ⟨{ x with cur := c2, pc := alignPc x.pc }, t2, ⟨guardWord g, 0, 0⟩⟩ ∧
          ∀ p n, g = some (p, n) → p ≤ 7 := by
        rw [parsePrologue_eq]
        rcases g with - | ⟨p, n⟩
        · obtain ⟨rfl, rfl⟩ := p1
          rw [prologueBody_none (mn := row.mnemonic) hk2 rfl]
          exact ⟨rfl, by simp⟩
        · obtain ⟨k1, t3, c3, e3, k3, t4, c4, e4, rfl, rfl⟩ := p1
          rw [prologueBody_some (mn := row.mnemonic) k1 e3 k3 e4 hk2 rfl]
          refine ⟨rfl, ?_⟩
          have hw := (tokenize_ok e3).wf
          rw [k3] at hw
          intro p' n' hg
          simp only [Option.some.injEq, Prod.mk.injEq] at hg
          rw [← hg.1]; exact hw
      obtain ⟨m1, m3⟩ := hmain
      have henv : (⟨x.labels.find, addressOf i⟩ : Env) = ({ x with cur := c2, pc := alignPc x.pc } : Ctx).env := by rw [← hpc]; rfl
      rw [henv] at h2
      have hrow := (tryRows_past (s := ⟨{ x with cur := c2, pc := alignPc x.pc }, t2, ⟨guardWord g, 0, 0⟩⟩) hk2 m3 rfl
        (by dsimp only; rw [hpc]; exact hb)).2 ⟨row, ks, h1, rfl, hd2, h2⟩
      rw [m1]
      dsimp only
      rw [hrow]

/-- The first token of an instruction is not that of an option. -/
theorem _root_.Nxas.Spec.InsnOpen.not_option {e : Env} {t : Token} {ts : List Token}
    (h : InsnOpen e ((t :: ts).map Token.kind)) : t.isOption = false := by
  obtain ⟨ks, hks⟩ : ∃ ks, (t :: ts).map Token.kind = ks := ⟨_, rfl⟩
  rw [hks] at h
  rw [List.map_cons] at hks
  cases h with
  | «at» => simp [Token.isOption, (List.cons.inj hks).1]
  | guard => simp [Token.isOption, (List.cons.inj hks).1]
  | @row g row ks h1 _ =>
    rcases g with - | ⟨p, n⟩
    · simp only [guardTokens, List.nil_append, List.cons.injEq] at hks
      simp [Token.isOption, hks.1, no_option_row row h1]
    · simp only [guardTokens, List.cons_append, List.cons.injEq] at hks
      simp [Token.isOption, hks.1]

theorem _root_.Nxas.Spec.OptionOpen.isOption {o : Opts} {t : Token} {ts : List Token} (h : OptionOpen o ((t :: ts).map Token.pair)) :
    t.isOption = true := by
  obtain ⟨ps, hps⟩ : ∃ ps, (t :: ts).map Token.pair = ps := ⟨_, rfl⟩
  rw [hps] at h
  have hb : ∀ {name : Str} {l : Nat} {qs : List (Kind × Nat)}, (t :: ts).map Token.pair = (.ident name, l) :: qs →
      name.head? = some '.' → t.isOption = true := by
    intro name l qs h hn
    rw [List.map_cons, List.cons.injEq] at h
    simp [Token.isOption, (pair_inv h.1).1, hn]
  cases h with
  | full h => subst hps; exact h.isOption
  | type hn => exact hb hps (by rcases hn with rfl | rfl <;> rfl)
  | registers => exact hb hps rfl
  | workgroup => exact hb hps rfl
  | memory hn => exact hb hps (by rcases hn with rfl | rfl <;> rfl)

theorem _root_.Nxas.Spec.OptionOpen.ne_nil {o : Opts} {ts : List (Kind × Nat)} (h : OptionOpen o ts) : ts ≠ [] := by
  cases h with
  | full h => cases h <;> simp
  | _ => simp

/-- An option at the start of an instruction that asks for another token. -/
theorem setting_past {x : Ctx} {t : Token} {c1 : Cur} {ts : List Token} (hz : '\x00' ∉ x.cur.text) (ht : tokenize x.cur = .ok t c1)
    (hd : DiesT c1 ts) (h : OptionOpen x.opts ((t :: ts).map Token.pair)) :
    parseInstruction insnTable false x.fresh = .ub .readPastEnd := by
  have ho := h.isOption
  have hk : t.kind ≠ .none := by
    intro hk; simp [Token.isOption, hk] at ho
  have hp : parseOption false ⟨{ x with cur := c1 }, t, {}⟩ = .ub .readPastEnd :=
    (parseOption_past (no_nul_after hz ht) ho).2 ⟨ts, hd, h⟩
  rw [parseInstruction_eq, Ctx.fresh_advance ht]
  dsimp only [Out.bind]
  rw [if_neg hk]
  unfold insnBody
  rw [parseOptions_succ, if_pos ho, hp]
  rfl

theorem parseInstruction_dead {x : Ctx} (h : tokenize x.cur = .ub .readPastEnd) : parseInstruction insnTable false x.fresh = .ub .readPastEnd := by
  rw [parseInstruction_eq, show advance false x.fresh = .ub .readPastEnd by unfold advance Ctx.fresh; simp only [h]]
  rfl

/-- One call of `parse_instruction` that reads beyond the end. -/
theorem parseInstruction_demands {x : Ctx} {i : Nat} (hz : '\x00' ∉ x.cur.text) (hpc : alignPc x.pc = addressOf i)
    (hb : addressOf i + 8 ≤ 2 ^ 63) (h : parseInstruction insnTable false x.fresh = .ub .readPastEnd) :
    ∃ ts, DiesT x.cur ts ∧ Demands x.labels.find i x.opts (ts.map Token.pair) := by
  obtain ⟨n, hn⟩ : ∃ n, n = x.cur.text.length := ⟨_, rfl⟩
  induction n using Nat.strongRecOn generalizing x with
  | ind n ih =>
    cases ht : tokenize x.cur with
    | exit e => rw [parseInstruction_eq, show advance false x.fresh = .exit e by unfold advance Ctx.fresh; simp only [ht]] at h; simp [Out.bind] at h
    | ub w =>
      rw [tokenize_ub_kind ht] at ht
      exact ⟨[], .last ht, .start⟩
    | ok t c1 =>
      by_cases ho : t.isOption = true
      · have hk : t.kind ≠ .none := by
          intro hk; simp [Token.isOption, hk] at ho
        have h0 := h
        rw [parseInstruction_eq, Ctx.fresh_advance ht] at h
        dsimp only [Out.bind] at h
        rw [if_neg hk] at h
        unfold insnBody at h
        rw [parseOptions_succ, if_pos ho] at h
        cases hp : parseOption false ⟨{ x with cur := c1 }, t, {}⟩ with
        | ok a s1 =>
          obtain ⟨ts, c, o, t', c', e1, e2, e3, e4, rfl⟩ := (parseOption_iff ho).1 hp
          have hk' : t'.kind ≠ .none := by
            intro hk'
            rw [hp] at h
            dsimp only [Out.bind] at h
            rw [parseOptions_succ, if_neg (by simp [Token.isOption, hk'])] at h
            dsimp only at h
            rcases Out.bind_ub h with h | ⟨_, s2, h2, h⟩
            · exact parsePrologue_end hk' rfl _ h
            · rw [parsePrologue_eq] at h2
              obtain ⟨g, mn, f1, f2, -, -, -⟩ := prologueBody_inv h2
              obtain ⟨t1, k1, p1⟩ := f1.path
              have := p1.head
              dsimp only at this
              rw [hk'] at this
              rcases g with - | ⟨p, n⟩
              · simp [guardTokens, k1, f2] at this
              · simp [guardTokens] at this
          have hs := option_same (table := insnTable) (d := false) ht ho e1 e2 e3 e4 hk'
          have hreach := (ReadsT.cons ht hk e1).reach
          have hlen : c.text.length < n := by
            have h1 := (tokenize_ok ht).shorter hk
            obtain ⟨p, hp, -⟩ := e1.reach
            have := congrArg List.length hp
            simp at this
            omega
          have hz' : '\x00' ∉ c.text := by
            obtain ⟨p, hp, -⟩ := hreach
            intro hm; exact hz (by rw [hp]; exact List.mem_append_right _ hm)
          obtain ⟨us, r1, r2⟩ := ih _ hlen (x := { x with cur := c, opts := o }) hz' hpc (by rw [← hs]; exact h0) rfl
          cases r1 with
          | last r1 => have r1' : tokenize c = _ := r1; rw [e3] at r1'; simp at r1'
          | @cons _ c2 w us hw hr =>
            have hw' : tokenize c = .ok w c2 := hw
            obtain ⟨rfl, rfl⟩ : t' = w ∧ c' = c2 := by rw [e3] at hw'; simpa using hw'
            refine ⟨t :: ts ++ t' :: us, DiesT.after (.cons ht hk e1) (.cons hw' hr), ?_⟩
            rw [List.map_append]
            exact Demands.option (t := t.pair) (ts := ts.map Token.pair) (next := t'.pair) (rest := us.map Token.pair) e2 e4 r2
        | ub w =>
          rw [hp] at h
          simp only [Out.bind, Out.ub.injEq] at h
          subst h
          obtain ⟨ts, e1, e2⟩ := (parseOption_past (s := ⟨{ x with cur := c1 }, t, {}⟩) (no_nul_after hz ht) ho).1 hp
          exact ⟨t :: ts, .cons ht e1, .setting e2⟩
        | fail e s => rw [hp] at h; simp [Out.bind] at h
        | exit e => rw [hp] at h; simp [Out.bind] at h
        | abort => rw [hp] at h; simp [Out.bind] at h
      · rw [insn_past hpc hb ht (by simpa using ho)] at h
        obtain ⟨ts, h1, h2⟩ := h
        exact ⟨t :: ts, .cons ht h1, .here (by rw [map_pair_kind]; exact h2)⟩

/-- Demands after one call of `parse_instruction`. -/
theorem step_demands {x : Ctx} {s : St} {i : Nat} (hpc : alignPc x.pc = addressOf i)
    (h : parseInstruction insnTable false x.fresh = .ok true s) :
    ∃ ts, ReadsT x.cur ts s.ctx.cur ∧ s.ctx.labels = x.labels ∧ s.ctx.pc = addressOf i + 8 ∧ ts ≠ [] ∧
      ∀ {rest : List (Kind × Nat)}, Demands x.labels.find (i + 1) s.ctx.opts rest →
        Demands x.labels.find i x.opts (ts.map Token.pair ++ rest) := by
  obtain ⟨n, hn⟩ : ∃ n, n = x.cur.text.length := ⟨_, rfl⟩
  induction n using Nat.strongRecOn generalizing x with
  | ind n ih =>
    cases ht : tokenize x.cur with
    | exit e => rw [parseInstruction_eq, show advance false x.fresh = .exit e by unfold advance Ctx.fresh; simp only [ht]] at h; simp [Out.bind] at h
    | ub u => rw [parseInstruction_eq, show advance false x.fresh = .ub u by unfold advance Ctx.fresh; simp only [ht]] at h; simp [Out.bind] at h
    | ok t c1 =>
      have hk : t.kind ≠ .none := by
        intro hk
        have := (insn_end (table := insnTable) (d := false)).2 ⟨t, c1, ht, hk, rfl⟩
        rw [h] at this
        simp at this
      by_cases ho : t.isOption = true
      · obtain ⟨ts, c, o, t', c', e1, e2, e3, e4, e5, e6⟩ := (option_step ht ho).1 h
        have hlen : c.text.length < n := by
          have h1 := (tokenize_ok ht).shorter hk
          obtain ⟨p, hp, -⟩ := e1.reach
          have := congrArg List.length hp
          simp at this
          omega
        obtain ⟨ts', r1, r2, r3, r4, r5⟩ := ih _ hlen (x := { x with cur := c, opts := o }) hpc e6 rfl
        refine ⟨t :: ts ++ ts', .cons ht hk (ReadsT.append_iff.2 ⟨_, e1, r1⟩), r2, r3, by simp, ?_⟩
        intro rest hf
        have hp := r5 hf
        obtain ⟨w, us, rfl⟩ := List.exists_cons_of_ne_nil r4
        have hu : w = t' := by
          cases r1 with
          | cons hu _ _ =>
            rw [e3] at hu
            simp only [TokRes.ok.injEq] at hu
            exact hu.1.symm
        subst hu
        simp only [List.map_cons, List.cons_append, List.map_append] at hp ⊢
        rw [List.append_assoc]
        exact Demands.option (t := t.pair) (ts := ts.map Token.pair) (next := w.pair) e2 e4 hp
      · obtain ⟨ts, e1, e2, e3⟩ := insn_reads ht (by simpa using ho) h
        refine ⟨t :: ts, .cons ht hk e1, by rw [e3], by rw [e3, hpc], by simp, ?_⟩
        intro rest hf
        refine .insn (op := s.op) ?_ (by rw [e3] at hf; exact hf)
        rw [map_pair_kind, ← hpc]
        exact e2

/-! ### Programs -/

/-- The parse loop reads beyond the end only if the tokens demand another one. -/
theorem parseAll_demands {room : Nat} {x : Ctx} {i : Nat} (hz : '\x00' ∉ x.cur.text) (hpc : alignPc x.pc = addressOf i)
    (hroom : x.cur.text.count ';' < room) (hb : addressOf (i + x.cur.text.count ';') + 8 ≤ 2 ^ 63)
    (h : parseAll insnTable false room x = .ub .readPastEnd) :
    ∃ ts, DiesT x.cur ts ∧ Demands x.labels.find i x.opts (ts.map Token.pair) := by
  induction room generalizing x i with
  | zero => omega
  | succ room ih =>
    unfold parseAll at h
    have hbi : addressOf i + 8 ≤ 2 ^ 63 := by
      have := addressOf_mono (show i ≤ i + x.cur.text.count ';' by omega)
      omega
    rw [show (⟨x, ⟨.none, 0, 0⟩, {}⟩ : St) = x.fresh from rfl] at h
    cases hp : parseInstruction insnTable false x.fresh with
    | ok b s =>
      rw [hp] at h
      cases b with
      | false => simp at h
      | true =>
        dsimp only at h
        obtain ⟨pre, hpre⟩ := parseInstruction_semicolon hp
        obtain ⟨ts, r1, r2, r3, r4, r5⟩ := step_demands hpc hp
        have hc : x.cur.text.count ';' = pre.count ';' + (s.ctx.cur.text.count ';' + 1) := by
          show x.fresh.ctx.cur.text.count ';' = _
          rw [hpre]; simp only [List.count_append, List.count_cons_self]
        have hz' : '\x00' ∉ s.ctx.cur.text := by
          obtain ⟨p, hp, -⟩ := r1.reach
          intro hm; exact hz (by rw [hp]; exact List.mem_append_right _ hm)
        cases hpa : parseAll insnTable false room s.ctx with
        | ub w =>
          rw [hpa] at h
          obtain rfl : w = .readPastEnd := by simpa using h
          have hm := addressOf_mono (show i + 1 + s.ctx.cur.text.count ';' ≤ i + x.cur.text.count ';' by omega)
          obtain ⟨us, q1, q2⟩ := ih (i := i + 1) hz' (by rw [r3, alignPc_next]) (by omega) (by omega) hpa
          rw [r2] at q2
          refine ⟨ts ++ us, DiesT.after r1 q1, ?_⟩
          rw [List.map_append]
          exact r5 q2
        | ok r => rw [hpa] at h; simp at h
        | exit e => rw [hpa] at h; simp at h
        | abort => rw [hpa] at h; simp at h
    | ub w =>
      rw [hp] at h
      obtain rfl : w = .readPastEnd := by simpa using h
      exact parseInstruction_demands hz hpc hbi hp
    | fail e s => rw [hp] at h; simp at h
    | exit e => rw [hp] at h; simp at h
    | abort => rw [hp] at h; simp at h

/-- Whenever the tokens demand another one, the parse loop reads beyond the end. -/
theorem demands_parseAll {room : Nat} {x : Ctx} {i : Nat} {ts : List Token} (hz : '\x00' ∉ x.cur.text) (hpc : alignPc x.pc = addressOf i)
    (hroom : x.cur.text.count ';' < room) (hb : addressOf (i + x.cur.text.count ';') + 8 ≤ 2 ^ 63)
    (hp : DiesT x.cur ts) (h : Demands x.labels.find i x.opts (ts.map Token.pair)) : parseAll insnTable false room x = .ub .readPastEnd := by
  obtain ⟨ps, hps⟩ : ∃ ps, ts.map Token.pair = ps := ⟨_, rfl⟩
  obtain ⟨o, ho⟩ : ∃ o, x.opts = o := ⟨_, rfl⟩
  rw [hps, ho] at h
  obtain ⟨f, hf⟩ : ∃ f, x.labels.find = f := ⟨_, rfl⟩
  rw [hf] at h
  induction h generalizing x ts room with
  | @start i o =>
    refine parseAll_of_ub (by omega) ?_
    obtain rfl : ts = [] := by simpa using hps
    cases hp with | last hp
    exact parseInstruction_dead hp
  | @here i o ps h =>
    refine parseAll_of_ub (by omega) ?_
    have hbi : addressOf i + 8 ≤ 2 ^ 63 := by
      have := addressOf_mono (show i ≤ i + x.cur.text.count ';' by omega)
      omega
    subst hps
    rw [map_pair_kind, ← hf] at h
    cases hp with
    | last hp => exact parseInstruction_dead hp
    | @cons _ c1 t ts ht hr => exact (insn_past hpc hbi ht h.not_option).2 ⟨ts, hr, h⟩
  | @setting i o ps h =>
    refine parseAll_of_ub (by omega) ?_
    subst ho
    subst hps
    cases hp with
    | last hp => exact parseInstruction_dead hp
    | @cons _ c1 t ts ht hr => exact setting_past hz ht hr h
  | @insn i o as bs op h hr ih =>
    obtain ⟨a, b, rfl, rfl, rfl⟩ := List.map_eq_append_iff.1 hps
    obtain ⟨c, h1, h2⟩ := hp.split hz
    rw [map_pair_kind] at h
    cases h1 with
    | nil =>
      exfalso
      obtain ⟨ks, hks⟩ : ∃ ks, List.map Token.kind [] = ks := ⟨_, rfl⟩
      rw [hks] at h
      cases h with | mk
      simp at hks
    | @cons _ c1 _ t ts ht hk hr1 =>
      rw [← hpc, ← hf] at h
      obtain ⟨t', e1⟩ := insn_accepts ht hr1 h
      obtain ⟨pre, hpre⟩ := parseInstruction_semicolon e1
      have hc : x.cur.text.count ';' = pre.count ';' + (c.text.count ';' + 1) := by
        show x.fresh.ctx.cur.text.count ';' = _
        rw [hpre]; simp only [List.count_append, List.count_cons_self]
      have hz' : '\x00' ∉ c.text := by
        obtain ⟨p, hp, -⟩ := (ReadsT.cons ht hk hr1).reach
        intro hm; exact hz (by rw [hp]; exact List.mem_append_right _ hm)
      obtain ⟨n, rfl⟩ : ∃ n, room = n + 1 := ⟨room - 1, by omega⟩
      have hm := addressOf_mono (show i + 1 + c.text.count ';' ≤ i + x.cur.text.count ';' by omega)
      have := ih (room := n) (x := { x with cur := c, pc := alignPc x.pc + 8 }) hz' (by dsimp only; rw [hpc, alignPc_next])
        (by dsimp only; omega) (by dsimp only; omega) h2 rfl ho hf
      unfold parseAll
      rw [show (⟨x, ⟨.none, 0, 0⟩, {}⟩ : St) = x.fresh from rfl, e1]
      dsimp only
      rw [this]
  | @option i o o1 t next ps rest h hl' hr ih =>
    obtain ⟨a, b, rfl, ha, hb'⟩ := List.map_eq_append_iff.1 hps
    obtain ⟨t, ts, rfl, rfl, rfl⟩ := List.map_eq_cons_iff.1 ha
    obtain ⟨w, us, rfl, rfl, rfl⟩ := List.map_eq_cons_iff.1 hb'
    obtain ⟨c, h1, h2⟩ := hp.split hz
    cases h1 with
    | @cons _ c1 _ _ _ ht hk hr1 =>
      rw [← ho, ← List.map_cons] at h
      have hle : c.text.count ';' ≤ x.cur.text.count ';' := by
        obtain ⟨p, hp, -⟩ := (ReadsT.cons ht hk hr1).reach
        rw [hp]; simp
      have hz' : '\x00' ∉ c.text := by
        obtain ⟨p, hp, -⟩ := (ReadsT.cons ht hk hr1).reach
        intro hm; exact hz (by rw [hp]; exact List.mem_append_right _ hm)
      have h3 := h2
      cases h2 with | @cons _ c2 _ _ hw h2
      have hk' : w.kind ≠ .none := DiesT.ne_none hz' hw h2
      have hs := option_same (table := insnTable) (d := false) ht h.isOption hr1 h hw hl' hk'
      have hm := addressOf_mono (show i + c.text.count ';' ≤ i + x.cur.text.count ';' by omega)
      have := ih (room := room) (x := { x with cur := c, opts := o1 }) hz' hpc (by dsimp only; omega) (by dsimp only; omega) h3 rfl rfl hf
      obtain ⟨n, rfl⟩ : ∃ n, room = n + 1 := ⟨room - 1, by omega⟩
      unfold parseAll at this ⊢
      rw [show (⟨x, ⟨.none, 0, 0⟩, {}⟩ : St) = x.fresh from rfl, hs]
      exact this

end Nxas
