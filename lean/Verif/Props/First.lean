import Verif.Lemmas.Stay
import Verif.Lemmas.Head
import Verif.Lemmas.NoToken
import Verif.Spec.Program
import Verif.Spec.Tokens
import Verif.Props.Prefix
/-
C92: a diagnostic is about the first instruction that is rejected.
-/

namespace Nxas

open Spec

/-- The beginning of the text that is no token lies behind blanks and labels. -/
theorem tokenize_exit_skipped {c : Cur} {e : Err} (hz : '\x00' ∉ c.text) (h : tokenize c = .exit e) :
    ∃ s rest, c.text = s ++ rest ∧ Skipped s rest ∧ e.line = (c.move s rest).line ∧ e.col = (c.move s rest).col := by
  obtain ⟨n, hn⟩ : ∃ n, n = c.text.length := ⟨_, rfl⟩
  induction n using Nat.strongRecOn generalizing c with
  | ind n ih =>
    cases htext : c.text with
    | nil =>
      rw [tokenize_end htext] at h
      cases h
    | cons x xs =>
      rw [htext] at hn hz
      simp only [List.mem_cons, not_or] at hz
      by_cases hx : x ∈ blanks
      · rw [tokenize_blank htext hx] at h
        obtain ⟨s, rest, h1, h2, h3, h4⟩ := ih xs.length (by simp at hn; omega) (c := c.move [x] xs) hz.2 h rfl
        rw [Cur.move_move] at h3 h4
        refine ⟨x :: s, rest, ?_, .blank hx h2, h3, h4⟩
        rw [List.cons_append, ← h1]; rfl
      · have hz' : '\x00' ∉ c.text := by rw [htext]; simp [hz]
        have hne : c.text ≠ [] := by rw [htext]; simp
        rw [tokenize_unfold] at h
        dsimp only at h
        rw [skip_blank_self htext hx, if_neg hne] at h
        have hmove : c.move [] c.text = c := by cases c; rfl
        cases hh : lexHead c with
        | done r =>
          rw [hh] at h
          dsimp only at h
          subst h
          obtain ⟨h1, h2⟩ := lexHead_exit hh
          refine ⟨[], c.text, by rw [htext]; rfl, .nil, ?_, ?_⟩ <;> rw [hmove] <;> assumption
        | fall c1 =>
          rw [hh] at h
          dsimp only at h
          have hb : c.peek ∉ blanks := by rw [Cur.peek_of htext]; exact hx
          cases hi : lexIdent c.text c1 with
          | ub => rw [hi] at h; simp at h
          | ident s c2 => rw [hi] at h; simp at h
          | label c2 =>
            rw [hi] at h
            dsimp only at h
            obtain ⟨h1, h2, h3⟩ := lex_fall_inv hz' hb hne hh (.inl ⟨hi, rfl⟩)
            have hl := h3.2 hi
            obtain ⟨v, hv⟩ : ∃ v, between c.text c2.text = v := ⟨_, rfl⟩
            rw [hv] at h1 h2 hl
            obtain ⟨y, ys, rfl, -⟩ := h2.head
            have hc2 : c2 = c.move (y :: ys) c2.text :=
              Cur.move_eq ((lexHead_fall hh).trans (lexIdent_step (.inl hi)).1) h1
            have hlen : c2.text.length < n := by
              have := congrArg List.length h1
              rw [htext] at this
              simp at this hn
              omega
            have hz2 : '\x00' ∉ c2.text := by
              intro hm; exact hz' (by rw [h1]; simp [hm])
            obtain ⟨s, rest, e1, e2, e3, e4⟩ := ih _ hlen hz2 h rfl
            rw [hc2, Cur.move_move] at e3 e4
            rw [e1] at h1 h2
            exact ⟨(y :: ys) ++ s, rest, by rw [← htext, h1, List.append_assoc], .label h2 hl e2, e3, e4⟩

/-! ### Semicolons that are tokens -/

/-- Every `P` or `p` that is directly in front of a semicolon follows a letter or a digit; `x` is the character in front of the text. -/
def Spec.Apart : Char → Str → Prop
  | _, [] => True
  | x, c :: cs => (c ∈ ['P', 'p'] → cs.head? = some ';' → x.isAlphanum = true) ∧ Apart c cs

instance decApart : ∀ (x : Char) (t : Str), Decidable (Apart x t)
  | _, [] => .isTrue trivial
  | x, c :: cs =>
    have := decApart c cs
    inferInstanceAs (Decidable ((c ∈ ['P', 'p'] → cs.head? = some ';' → x.isAlphanum = true) ∧ Apart c cs))

theorem apart_other {x : Char} {t : Str} (hx : x.isAlphanum = false) (h : Apart x t) : Apart ' ' t := by
  cases t with
  | nil => trivial
  | cons c cs => exact ⟨fun h1 h2 => absurd (h.1 h1 h2) (by simp [hx]), h.2⟩

theorem apart_drop {x : Char} {w t : Str} (h : Apart x (w ++ t)) : ∃ y, Apart y t := by
  induction w generalizing x with
  | nil => exact ⟨x, h⟩
  | cons c cs ih => exact ih h.2

theorem apart_ends {x : Char} {w t : Str} (he : Ends t) (h : Apart x (w ++ t)) : Apart ' ' t := by
  obtain ⟨y, h⟩ := apart_drop h
  cases t with
  | nil => trivial
  | cons c cs =>
    refine ⟨fun h1 _ => ?_, h.2⟩
    have h2 := he c rfl
    simp only [List.mem_cons, List.not_mem_nil, or_false] at h1
    rcases h1 with rfl | rfl <;> exact absurd h2 (by decide)

theorem no_semi_of_separators {cs : Str} (h : ∀ x ∈ cs, x ∉ separators) : cs.count ';' = 0 :=
  List.count_eq_zero.2 fun hm => h _ hm (by decide)

theorem pred_prefix_count {p : Str} {neg : Bool} (h : PredPrefix p neg) : p.count ';' = 0 := by
  cases h with
  | pos h => rcases h with rfl | rfl <;> rfl
  | neg h => rcases h with rfl | rfl <;> rfl

theorem word_count {w rest : Str} (h : Word w rest) (ht : Apart ' ' (w ++ rest)) : w.count ';' = 0 ∧ Apart ' ' rest := by
  cases h with
  | @plain c cs _ hc hn hd hs he =>
    refine ⟨?_, apart_ends he ht⟩
    rw [List.count_cons, no_semi_of_separators hs]
    have : c ≠ ';' := by
      rintro rfl
      exact hc.elim (fun h => h (by decide)) (by decide)
    simp [this]
  | @dimension c cs _ hd hs he =>
    refine ⟨?_, apart_ends he ht⟩
    have : c ≠ ';' := by rintro rfl; exact absurd hd (by unfold decimal; decide)
    simp [no_semi_of_separators hs, this]
  | @register cs _ hz hn hs he =>
    refine ⟨?_, apart_ends he ht⟩
    simp [no_semi_of_separators hs]
  | @predicate p cs _ neg c hp hc hs he =>
    refine ⟨?_, apart_ends he ht⟩
    have hcc : c ≠ ';' := by
      rintro rfl
      cases hp with
      | pos h => exact absurd (ht.1 (by rcases h with rfl | rfl <;> decide) rfl) (by decide)
      | neg h => exact absurd (ht.2.1 (by rcases h with rfl | rfl <;> decide) rfl) (by decide)
    rw [List.count_append, List.count_cons, no_semi_of_separators hs, pred_prefix_count hp]
    simp [hcc]

theorem skipped_count {s rest : Str} (h : Skipped s rest) (ht : Apart ' ' (s ++ rest)) : s.count ';' = 0 ∧ Apart ' ' rest := by
  induction h with
  | nil => exact ⟨rfl, ht⟩
  | @blank c w rest hc h ih =>
    have hb : c.isAlphanum = false ∧ c ≠ ';' := by
      simp only [blanks, List.mem_cons, List.not_mem_nil, or_false] at hc
      rcases hc with rfl | rfl | rfl | rfl <;> decide
    obtain ⟨h1, h2⟩ := ih (apart_other hb.1 ht.2)
    refine ⟨?_, h2⟩
    rw [List.count_cons, h1]
    simp [hb.2]
  | @label v w rest hv hl h ih =>
    rw [List.append_assoc] at ht
    obtain ⟨h1, h2⟩ := word_count hv ht
    obtain ⟨h3, h4⟩ := ih h2
    exact ⟨by rw [List.count_append, h1, h3], h4⟩

theorem digits_count {ds : Str} (h : ∀ c ∈ ds, hexadecimal c) : ds.count ';' = 0 :=
  List.count_eq_zero.2 fun hm => absurd (h _ hm) (by unfold hexadecimal decimal; decide)

theorem sign_count {sg : Str} {neg : Bool} (h : Sign sg neg) : sg.count ';' = 0 := by cases h <;> rfl

theorem lexeme_count {w rest : Str} {k : Kind} (h : Lexeme w rest k) (ht : Apart ' ' (w ++ rest)) :
    w.count ';' = (if k = .semicolon then 1 else 0) ∧ Apart ' ' rest := by
  have hdec : ∀ {ds : Str}, (∀ c ∈ ds, decimal c) → ds.count ';' = 0 := fun h => digits_count fun c hc => .inl (h c hc)
  cases h with
  | @operator c k _ h hd =>
    have hc : c.isAlphanum = false ∧ [c].count ';' = if k = .semicolon then 1 else 0 := by
      simp only [operators, List.mem_cons, Prod.mk.injEq, List.not_mem_nil, or_false] at h
      rcases h with ⟨rfl, rfl⟩ | ⟨rfl, rfl⟩ | ⟨rfl, rfl⟩ | ⟨rfl, rfl⟩ | ⟨rfl, rfl⟩ | ⟨rfl, rfl⟩ | ⟨rfl, rfl⟩ | ⟨rfl, rfl⟩ | ⟨rfl, rfl⟩ <;> decide
    exact ⟨hc.2, apart_other hc.1 ht.2⟩
  | @pred p _ neg c i hp hn he =>
    refine ⟨?_, apart_ends he ht⟩
    have h2 : c ≠ ';' := by
      rintro rfl
      cases hn with
      | true h => exact absurd h (by decide)
      | index h => exact absurd h (by decide)
    simp [List.count_append, pred_prefix_count hp, h2]
  | int hs hv he hn =>
    refine ⟨?_, apart_ends he ht⟩
    rw [List.count_append, sign_count hs]
    simp only [reduceCtorEq, if_false, Nat.zero_add]
    cases hv with
    | dec hd h0 h => exact hdec (by intro c hc; rcases List.mem_cons.1 hc with rfl | hc; exacts [hd, h c hc])
    | oct h =>
      refine hdec (by
        intro c hc
        rcases List.mem_cons.1 hc with rfl | hc
        · unfold decimal; decide
        · exact ⟨(h c hc).1, Char.le_trans (h c hc).2 (by decide : '7' ≤ '9')⟩)
    | hex hx hn h =>
      rcases hx with rfl | rfl <;> simp [digits_count h]
  | float hs hi h1 h2 he => exact ⟨by simp [List.count_append, sign_count hs, hdec h1, hdec h2], apart_ends he ht⟩
  | zero he => exact ⟨by decide, apart_ends he ht⟩
  | reg hn h hv he => exact ⟨by simp [hdec h], apart_ends he ht⟩
  | bare he hf => exact ⟨by decide, apart_ends he ht⟩
  | word h hl =>
    obtain ⟨h1, h2⟩ := word_count h ht
    exact ⟨by rw [h1]; rfl, h2⟩

/-- The semicolons of the text of a token and of what is skipped in front of it. -/
theorem tokenize_count {c c' : Cur} {t : Token} (hz : '\x00' ∉ c.text) (ht : Apart ' ' c.text) (h : tokenize c = .ok t c') :
    (∃ s, s.count ';' = 0 ∧ ∃ rest, c.text = s ++ rest ∧ t.line = (c.move s rest).line ∧ t.col = (c.move s rest).col) ∧
    ∃ w, w.count ';' = (if t.kind = .semicolon then 1 else 0) ∧ c.text = w ++ c'.text ∧ c' = c.move w c'.text ∧ Apart ' ' c'.text := by
  rcases tokenize_inv hz h with ⟨s, h1, h2, h3, h4⟩ | ⟨s, w, h1, h2, h3, h4, h5⟩
  · obtain ⟨hs, ha⟩ := skipped_count h2 (by rw [List.append_nil, ← h1]; exact ht)
    refine ⟨⟨s, hs, [], by simpa using h1, by rw [h3], by rw [h3]⟩, s, by rw [hs, h3]; rfl, ?_, ?_, ?_⟩
    · rw [h4, h1]; simp [Cur.move]
    · rw [h4]; rfl
    · rw [h4]; trivial
  · obtain ⟨hs, ha⟩ := skipped_count h2 (by rw [← h1]; exact ht)
    obtain ⟨hw, hb⟩ := lexeme_count h3 ha
    refine ⟨⟨s, hs, _, h1, congrArg Token.line h4, congrArg Token.col h4⟩, s ++ w, ?_, by rw [h1, List.append_assoc], h5, hb⟩
    rw [List.count_append, hs, hw, Nat.zero_add]

theorem Spec.Reads.snoc {a b d : Cur} {ks : List Kind} {t : Token} (h1 : Reads a ks b) (h2 : tokenize b = .ok t d) :
    Reads a (ks ++ [t.kind]) d := by
  induction h1 with
  | nil => exact .cons h2 .nil
  | cons h hr ih => exact .cons h (ih h2)

/-- The semicolons of the text of some tokens. -/
theorem Spec.Reads.semicolons {c c' : Cur} {ks : List Kind} (h : Reads c ks c') (hz : '\x00' ∉ c.text) (ht : Apart ' ' c.text) :
    ∃ w, w.count ';' = ks.count .semicolon ∧ c.text = w ++ c'.text ∧ c' = c.move w c'.text ∧ Apart ' ' c'.text := by
  induction h with
  | @nil c => exact ⟨[], rfl, rfl, by cases c; rfl, ht⟩
  | @cons c c1 c' t ks h hr ih =>
    obtain ⟨-, v, h4, h5, h6, h7⟩ := tokenize_count hz ht h
    obtain ⟨w, h1, h2, h3, h8⟩ := ih (fun hm => hz (by rw [h5]; simp [hm])) h7
    refine ⟨v ++ w, ?_, by rw [h5, h2, List.append_assoc], ?_, h8⟩
    · rw [List.count_append, h1, h4, List.count_cons, Nat.add_comm]
      by_cases hk : t.kind = .semicolon <;> simp [hk]
    · rw [h3, h6, Cur.move_move]
      rfl

/-! ### The property -/

theorem path_reads {c t₀ t : _} {c₀ c' : Cur} (h0 : tokenize c = .ok t₀ c₀) (h : Trail t₀ c₀ t c') :
    ∃ ks c1, Reads c ks c1 ∧ Kind.semicolon ∉ ks ∧ tokenize c1 = .ok t c' := by
  induction h with
  | refl => exact ⟨[], _, .nil, by simp, h0⟩
  | @step t t' c c' h hk ht ih =>
    obtain ⟨ks, c1, h1, h2, h3⟩ := ih
    exact ⟨ks ++ [t.kind], c, h1.snoc h3, by simp [h2, Ne.symm hk], ht⟩

/-- The instruction whose rejection ends the program. -/
theorem parseAll_rejected {dbg : Bool} {code : Str} {room i : Nat} {c : Ctx} (hb : Before dbg code i c) {d : Diag}
    (h : parseAll insnTable dbg room c = .exit d) :
    ∃ j c' e, Before dbg code j c' ∧ d = .located e ∧
      (parseInstruction insnTable dbg c'.fresh = .exit e ∨ ∃ s, parseInstruction insnTable dbg c'.fresh = .fail e s) := by
  induction room generalizing i c with
  | zero => simp [parseAll] at h
  | succ room ih =>
    unfold parseAll at h
    cases hp : parseInstruction insnTable dbg ⟨c, ⟨.none, 0, 0⟩, {}⟩ with
    | ok b s =>
      rw [hp] at h
      cases b with
      | false => simp at h
      | true =>
        dsimp only at h
        have hnext : Before dbg code (i + 1) s.ctx := by
          cases hb with
          | first hl => exact .next (.first hl hp)
          | next h' => exact .next (.next h' hp)
        cases hr : parseAll insnTable dbg room s.ctx with
        | exit d' =>
          rw [hr] at h
          simp only [Res.exit.injEq] at h
          subst h
          exact ih hnext hr
        | _ => rw [hr] at h; simp at h
    | fail e s =>
      rw [hp] at h
      simp only [Res.exit.injEq] at h
      exact ⟨i, c, e, hb, h.symm, .inr ⟨s, hp⟩⟩
    | exit e =>
      rw [hp] at h
      simp only [Res.exit.injEq] at h
      exact ⟨i, c, e, hb, h.symm, .inl hp⟩
    | _ => rw [hp] at h; simp at h

/-- C92. A diagnostic with a position is about the first instruction that is rejected: the instructions before it are accepted, it is not, and from
    its beginning to the token that the diagnostic points at no semicolon is passed. -/
theorem C92_first {dbg : Bool} {code : Str} {e : Err} (h : assemble dbg code = .exit (.located e)) :
    ∃ i c ks c1, Before dbg code i c ∧ (∀ s, ¬ InstrAt dbg code i c s) ∧ Reads c.cur ks c1 ∧ Kind.semicolon ∉ ks ∧
      ((∃ t c2, tokenize c1 = .ok t c2 ∧ e.line = t.line ∧ e.col = t.col) ∨ tokenize c1 = .exit e) := by
  unfold assemble assembleWith at h
  split at h
  · simp at h
  · rename_i labels hl
    dsimp only at h
    split at h
    · exfalso
      split at h
      · simp at h
      · exact binary_not_located _ _ _ h
    · rename_i d heq
      obtain ⟨j, c, e', h1, h2, h3⟩ := parseAll_rejected (.first hl) heq
      subst h2
      simp only [Res.exit.injEq, Diag.located.injEq] at h
      subst h
      have hno : ∀ s, ¬ InstrAt dbg code j c s := by
        intro s hs
        have : parseInstruction insnTable dbg c.fresh = .ok true s := by cases hs <;> assumption
        rw [this] at h3
        rcases h3 with h3 | ⟨_, h3⟩ <;> cases h3
      have h4 := parseInstruction_stay (table := insnTable) (dbg := dbg) (s := c.fresh)
      change match tokenize c.cur with
        | .ok t c1 => StayOut t c1 _ _
        | .exit e => _
        | .ub u => _ at h4
      cases hx : tokenize c.cur with
      | ok t c0 =>
        rw [hx] at h4
        have h5 : Blames t c0 e' := by rcases h3 with h3 | ⟨_, h3⟩ <;> (rw [h3] at h4; exact h4)
        obtain ⟨t', c', h6, h7⟩ := h5
        obtain ⟨ks, c1, h8, h9, h10⟩ := path_reads hx h6
        rcases h7 with h7 | ⟨h7, h11⟩
        · exact ⟨j, c, ks, c1, h1, hno, h8, h9, .inl ⟨t', c', h10, h7⟩⟩
        · exact ⟨j, c, ks ++ [t'.kind], c', h1, hno, h8.snoc h10, by simp [h9, Ne.symm h7], .inr h11⟩
      | exit e =>
        rw [hx] at h4
        have : e' = e := by rcases h3 with h3 | ⟨_, h3⟩ <;> (rw [h3] at h4; cases h4; try rfl)
        subst this
        exact ⟨j, c, [], _, h1, hno, .nil, by simp, .inr hx⟩
      | ub u =>
        rw [hx] at h4
        rcases h3 with h3 | ⟨_, h3⟩ <;> (rw [h3] at h4; cases h4)
    · simp at h
    · simp at h

/-- C92. An accepted instruction ends with its first semicolon. -/
theorem C92_accepted {dbg : Bool} {code : Str} {i : Nat} {c : Ctx} {s : St} (h : InstrAt dbg code i c s) :
    ∃ ks, Reads c.cur (ks ++ [.semicolon]) s.ctx.cur ∧ Kind.semicolon ∉ ks := by
  have hp : parseInstruction insnTable dbg c.fresh = .ok true s := by cases h <;> assumption
  have h4 := parseInstruction_stay (table := insnTable) (dbg := dbg) (s := c.fresh)
  rw [hp] at h4
  change match tokenize c.cur with
    | .ok t c1 => StayOut t c1 _ _
    | .exit e => _
    | .ub u => _ at h4
  cases hx : tokenize c.cur with
  | ok t c0 =>
    rw [hx] at h4
    obtain ⟨h5, h6⟩ := h4
    obtain ⟨ks, c1, h8, h9, h10⟩ := path_reads hx h5
    have := h8.snoc h10
    rw [h6 rfl] at this
    exact ⟨ks, this, h9⟩
  | exit e => rw [hx] at h4; cases h4
  | ub u => rw [hx] at h4; cases h4

/-- As many semicolons lie in front of an instruction as there are instructions before it. -/
theorem before_semicolons {dbg : Bool} {code : Str} (ht : Apart ' ' (visible code)) {i : Nat} {c : Ctx} (h : Before dbg code i c) :
    ∃ w, visible code = w ++ c.cur.text ∧ c.cur = (⟨visible code, 0, 0⟩ : Cur).move w c.cur.text ∧ w.count ';' = i ∧ Apart ' ' c.cur.text := by
  have step : ∀ {i : Nat} {c : Ctx} {s : St}, InstrAt dbg code i c s →
      (∃ w, visible code = w ++ c.cur.text ∧ c.cur = (⟨visible code, 0, 0⟩ : Cur).move w c.cur.text ∧ w.count ';' = i ∧ Apart ' ' c.cur.text) →
      ∃ w, visible code = w ++ s.ctx.cur.text ∧ s.ctx.cur = (⟨visible code, 0, 0⟩ : Cur).move w s.ctx.cur.text ∧ w.count ';' = i + 1 ∧
        Apart ' ' s.ctx.cur.text := by
    intro i c s hi ⟨w, h1, h2, h3, ha⟩
    obtain ⟨ks, hr, hks⟩ := C92_accepted hi
    obtain ⟨v, h4, h5, h6, h7⟩ := hr.semicolons (fun hm => visible_no_nul code (by rw [h1]; simp [hm])) ha
    refine ⟨w ++ v, by rw [h1, h5, List.append_assoc], ?_, ?_, h7⟩
    · rw [h6, h2, Cur.move_move]; rfl
    · rw [List.count_append, h3, h4, List.count_append, List.count_eq_zero.2 hks]; rfl
  have first : ∃ w, visible code = w ++ visible code ∧ (⟨visible code, 0, 0⟩ : Cur) = (⟨visible code, 0, 0⟩ : Cur).move w (visible code) ∧
      w.count ';' = 0 ∧ Apart ' ' (visible code) := ⟨[], rfl, rfl, rfl, ht⟩
  have all : ∀ {i : Nat} {c : Ctx} {s : St}, InstrAt dbg code i c s →
      ∃ w, visible code = w ++ c.cur.text ∧ c.cur = (⟨visible code, 0, 0⟩ : Cur).move w c.cur.text ∧ w.count ';' = i ∧ Apart ' ' c.cur.text := by
    intro i c s h
    induction h with
    | first hl h => exact first
    | next h h' ih => exact step h ih
  cases h with
  | first hl => exact first
  | next h => exact step h (all h)

/-- C92. Counted in the text: where every `P` in front of a semicolon ends a longer word, as many semicolons lie before the place that a diagnostic
    points at as there are accepted instructions. -/
theorem C92_text {dbg : Bool} {code : Str} {e : Err} (ht : Apart ' ' (visible code)) (h : assemble dbg code = .exit (.located e)) :
    ∃ pre post c, visible code = pre ++ post ∧ e.line = lineAfter pre ∧ e.col = columnAfter pre ∧
      Before dbg code (pre.count ';') c ∧ ∀ s, ¬ InstrAt dbg code (pre.count ';') c s := by
  obtain ⟨i, c, ks, c1, h1, h2, h3, h4, h5⟩ := C92_first h
  obtain ⟨w, h6, h7, h8, ha⟩ := before_semicolons ht h1
  have hz : '\x00' ∉ c.cur.text := fun hm => visible_no_nul code (by rw [h6]; simp [hm])
  obtain ⟨v, h9, h10, h11, ha1⟩ := h3.semicolons hz ha
  have hz1 : '\x00' ∉ c1.text := fun hm => hz (by rw [h10]; simp [hm])
  have key : ∃ u post, u.count ';' = 0 ∧ c1.text = u ++ post ∧ e.line = (c1.move u post).line ∧ e.col = (c1.move u post).col := by
    rcases h5 with ⟨t, c2, h5, h12, h13⟩ | h5
    · obtain ⟨⟨u, h14, post, h15, h16, h17⟩, -⟩ := tokenize_count hz1 ha1 h5
      exact ⟨u, post, h14, h15, h12.trans h16, h13.trans h17⟩
    · obtain ⟨u, post, h14, h15, h16, h17⟩ := tokenize_exit_skipped hz1 h5
      exact ⟨u, post, (skipped_count h15 (by rw [← h14]; exact ha1)).1, h14, h16, h17⟩
  obtain ⟨u, post, h12, h13, h14, h15⟩ := key
  have hcount : (w ++ v ++ u).count ';' = i := by
    rw [List.count_append, List.count_append, h8, h9, h12, List.count_eq_zero.2 h4]; rfl
  rw [h11, h7, Cur.move_move, Cur.move_move] at h14 h15
  have hpos : (⟨visible code, 0, 0⟩ : Cur).move (w ++ v ++ u) post = ⟨post, lineAfter (w ++ v ++ u), columnAfter (w ++ v ++ u)⟩ := by
    unfold Cur.move
    rw [posAfter_eq]
  rw [← List.append_assoc, hpos] at h14 h15
  refine ⟨w ++ v ++ u, post, c, by rw [h6, h10, h13]; simp, h14, h15, ?_, ?_⟩ <;> rw [hcount] <;> assumption

/-- The second instruction of three is rejected. -/
example : assemble true c!"NOP;\n FOO R1;\n BAR;" = .exit (.located ⟨1, 1, ⟨"unknown mnemonic \x1b[1m%.*s\x1b[0m", [.sized c!"FOO"]⟩⟩) ∧
    Apart ' ' (visible c!"NOP;\n FOO R1;\n BAR;") ∧ lineAfter c!"NOP;\n " = 1 ∧ columnAfter c!"NOP;\n " = 1 := by decide +kernel

/-- Without the condition it fails: a semicolon that is swallowed by a `P` ends no instruction. -/
theorem C92_swallowed : ¬ ∀ (code : Str) (e : Err), assemble false code = .exit (.located e) →
    ∃ pre post c, visible code = pre ++ post ∧ e.line = lineAfter pre ∧ e.col = columnAfter pre ∧
      Before false code (pre.count ';') c ∧ ∀ s, ¬ InstrAt false code (pre.count ';') c s := by
  intro h
  obtain ⟨pre, post, c, h1, -, h2, h3, -⟩ := h c!"P;: FOO;" ⟨0, 4, ⟨"unknown mnemonic \x1b[1m%.*s\x1b[0m", [.sized c!"FOO"]⟩⟩ (by decide +kernel)
  have hv : visible c!"P;: FOO;" = c!"P;: FOO;" := by decide
  rw [hv] at h1
  have hk : pre.count ';' = 1 := by
    have hl : pre.length ≤ 8 := by have := congrArg List.length h1; simp at this; omega
    have hp : pre = c!"P;: FOO;".take pre.length := by rw [h1]; simp
    have : ∀ k ∈ List.range 9, 4 = columnAfter (c!"P;: FOO;".take k) → (c!"P;: FOO;".take k).count ';' = 1 := by decide
    rw [hp]
    exact this _ (by simp; omega) (by rw [← hp]; exact h2)
  rw [hk] at h3
  generalize hn : 1 = n at h3
  cases h3 with
  | first hl => cases hn
  | next hi =>
    obtain rfl : _ = 0 := (Nat.succ.inj hn).symm
    cases hi with
    | first hl h =>
      have hg : genLabels (visible c!"P;: FOO;") = .ok [] := by decide +kernel
      rw [hg] at hl
      cases hl
      have : (match parseInstruction insnTable false (Ctx.fresh ⟨⟨visible c!"P;: FOO;", 0, 0⟩, [], 0, {}⟩) with
        | .ok _ _ => true
        | _ => false) = false := by decide +kernel
      rw [h] at this
      cases this

end Nxas
