import Verif.Lemmas.Lexical
/-
Reading one token: labels and blanks are skipped, then a token of the lexical grammar is read.
-/

namespace Nxas

open Spec

/-- The cursor after the text `w`. -/
def Cur.move (c : Cur) (w rest : Str) : Cur := ⟨rest, (posAfter w (c.line, c.col)).1, (posAfter w (c.line, c.col)).2⟩

theorem Cur.move_eq {c c' : Cur} {w : Str} (h : Reach c c') (ht : c.text = w ++ c'.text) : c' = c.move w c'.text := by
  obtain ⟨p, hp, hq⟩ := h
  obtain rfl := List.append_cancel_right (hp.symm.trans ht)
  unfold Cur.move
  rw [hq]

theorem Cur.move_move (c : Cur) (a b r1 r2 : Str) : (c.move a r1).move b r2 = c.move (a ++ b) r2 := by
  unfold Cur.move
  rw [posAfter_append]

theorem posAfter_line (w : Str) (p : Nat × Nat) : (posAfter w p).1 = p.1 + lineAfter w := by
  induction w generalizing p with
  | nil => rfl
  | cons x xs ih =>
    rw [posAfter, ih]
    unfold nextLine lineAfter
    rw [List.count_cons]
    split <;> (simp_all; try omega)

theorem Cur.move_line (c : Cur) (w r : Str) : (c.move w r).line = c.line + lineAfter w := posAfter_line w _

theorem _root_.Nxas.Spec.Word.head {w rest : Str} (h : Word w rest) : ∃ x xs, w = x :: xs ∧ x ∉ blanks := by
  have key : ∀ x ∈ ['!', 'P', 'p', 'R'], x ∉ blanks := by decide
  have hsep : ∀ x ∈ blanks, x ∈ separators := by decide
  have hd : ∀ x, decimal x → x ∉ blanks := by
    intro x hx hb
    exact (separator_not_hex (hsep x hb)).1 (decimal.hex hx)
  cases h with
  | plain hc =>
    refine ⟨_, _, rfl, ?_⟩
    rcases hc with hc | rfl
    · exact fun hb => hc (hsep _ hb)
    · decide
  | dimension h => exact ⟨_, _, rfl, hd _ h⟩
  | register => exact ⟨_, _, rfl, by decide⟩
  | predicate hp =>
    cases hp with
    | pos h => exact ⟨_, _, rfl, by rcases h with rfl | rfl <;> decide⟩
    | neg h => exact ⟨_, _, rfl, by decide⟩

theorem _root_.Nxas.Spec.Lexeme.head {w rest : Str} {k : Kind} (h : Lexeme w rest k) : ∃ x xs, w = x :: xs ∧ x ∉ blanks := by
  have hsep : ∀ x ∈ blanks, x ∈ separators := by decide
  have hd : ∀ x, decimal x → x ∉ blanks := by
    intro x hx hb
    exact (separator_not_hex (hsep x hb)).1 (decimal.hex hx)
  have hsg : ∀ {sg : Str} {neg : Bool} {d : Char} {ds : Str}, Sign sg neg → decimal d → ∃ x xs, sg ++ d :: ds = x :: xs ∧ x ∉ blanks := by
    intro sg neg d ds h h'
    cases h with
    | none => exact ⟨_, _, rfl, hd _ h'⟩
    | plus => exact ⟨_, _, rfl, by decide⟩
    | minus => exact ⟨_, _, rfl, by decide⟩
  cases h with
  | @operator x k _ h _ =>
    refine ⟨_, _, rfl, ?_⟩
    have : ∀ y ∈ operators, y.1 ∉ blanks := by decide
    exact this _ h
  | pred hp =>
    cases hp with
    | pos h => exact ⟨_, _, rfl, by rcases h with rfl | rfl <;> decide⟩
    | neg h => exact ⟨_, _, rfl, by decide⟩
  | int hs hv =>
    obtain ⟨d, tl, rfl, h⟩ := hv.head
    exact hsg hs h
  | float hs hi h1 =>
    obtain ⟨d, tl, rfl⟩ := List.exists_cons_of_ne_nil hi
    rw [List.append_assoc, List.cons_append]
    exact hsg hs (h1 d (by simp))
  | zero => exact ⟨_, _, rfl, by decide⟩
  | reg => exact ⟨_, _, rfl, by decide⟩
  | bare => exact ⟨_, _, rfl, by decide⟩
  | word h => exact h.head

theorem skip_blank_self {c : Cur} {x : Char} {xs : Str} (ht : c.text = x :: xs) (hx : x ∉ blanks) : c.skip isBlank = c := by
  refine Cur.skip_eq_self ?_
  rw [Cur.peek_of ht, ← Bool.not_eq_true]
  exact fun h => hx (isBlank_iff.1 h)

theorem tokenize_blank {c : Cur} {x : Char} {t : Str} (ht : c.text = x :: t) (hx : x ∈ blanks) : tokenize c = tokenize (c.move [x] t) := by
  have hs : c.skip isBlank = (c.move [x] t).skip isBlank := by
    unfold Cur.skip
    rw [ht, skipWhile, if_pos (isBlank_iff.2 hx)]
    rfl
  rw [tokenize_unfold, tokenize_unfold, hs]

theorem tokenize_label {c : Cur} {v t : Str} (hz : '\x00' ∉ c.text) (ht : c.text = v ++ t) (hv : Word v t) (hl : v.getLast? = some ':') :
    tokenize c = tokenize (c.move v t) := by
  obtain ⟨x, xs, rfl, hx⟩ := hv.head
  have hne : c.text ≠ [] := by rw [ht]; simp
  obtain ⟨c1, c', h1, h2, h3⟩ := lex_word hz ht hv
  rw [if_pos hl] at h3
  have hc' : c' = c.move (x :: xs) t := by
    rw [← h2]
    exact Cur.move_eq ((lexHead_fall h1).trans (lexIdent_step (.inl h3)).1) (by rw [ht, h2])
  rw [tokenize_unfold]
  dsimp only
  rw [skip_blank_self ht hx, if_neg hne, h1]
  dsimp only
  rw [h3]
  dsimp only
  rw [hc']

/-- What may be skipped is skipped. -/
theorem tokenize_skipped {c : Cur} {s rest : Str} (hz : '\x00' ∉ c.text) (ht : c.text = s ++ rest) (h : Skipped s rest) :
    tokenize c = tokenize (c.move s rest) := by
  induction h generalizing c with
  | nil =>
    rw [List.nil_append] at ht
    rw [← ht]
    rfl
  | @blank x w rest hx h ih =>
    rw [List.cons_append] at ht
    rw [tokenize_blank ht hx, ih (c := c.move [x] (w ++ rest)) (fun hm => hz (by rw [ht]; simp; right; simpa [Cur.move] using hm)) rfl, Cur.move_move]
    rfl
  | @label v w rest hv hl h ih =>
    rw [List.append_assoc] at ht
    rw [tokenize_label hz ht hv hl,
      ih (c := c.move v (w ++ rest)) (fun hm => hz (by rw [ht]; simp; right; simpa [Cur.move] using hm)) rfl, Cur.move_move]

theorem tokenize_end {c : Cur} (h : c.text = []) : tokenize c = .ok ⟨.none, c.line, c.col⟩ c := by
  have hs : c.skip isBlank = c := by unfold Cur.skip; rw [h]; cases c; simp at h; subst h; rfl
  rw [tokenize_unfold]
  dsimp only
  rw [hs, if_pos h]

theorem tokenize_lexeme {c : Cur} {w rest : Str} {k : Kind} (hz : '\x00' ∉ c.text) (ht : c.text = w ++ rest) (h : Lexeme w rest k) :
    tokenize c = .ok ⟨k, c.line, c.col⟩ (c.move w rest) := by
  obtain ⟨x, xs, rfl, hx⟩ := h.head
  have hne : c.text ≠ [] := by rw [ht]; simp
  have key : ∃ c', tokenize c = .ok ⟨k, c.line, c.col⟩ c' ∧ c'.text = rest := by
    rw [tokenize_unfold]
    dsimp only
    rw [skip_blank_self ht hx, if_neg hne]
    rcases lex_lexeme hz ht h with ⟨c', h1, h2⟩ | ⟨c1, c', h1, h2, rfl, h3⟩
    · rw [h1]; exact ⟨c', rfl, h2⟩
    · rw [h1]
      dsimp only
      rw [h2]
      exact ⟨c', rfl, h3⟩
  obtain ⟨c', h1, h2⟩ := key
  rw [h1, Cur.move_eq (tokenize_ok h1).reach (by rw [ht, h2]), h2]

theorem tokenize_inv {c c' : Cur} {t : Token} (hz : '\x00' ∉ c.text) (h : tokenize c = .ok t c') :
    (∃ s, c.text = s ∧ Skipped s [] ∧ t = ⟨.none, (c.move s []).line, (c.move s []).col⟩ ∧ c' = c.move s []) ∨
    (∃ s w, c.text = s ++ (w ++ c'.text) ∧ Skipped s (w ++ c'.text) ∧ Lexeme w c'.text t.kind ∧
      t = ⟨t.kind, (c.move s (w ++ c'.text)).line, (c.move s (w ++ c'.text)).col⟩ ∧ c' = c.move (s ++ w) c'.text) := by
  obtain ⟨n, hn⟩ : ∃ n, n = c.text.length := ⟨_, rfl⟩
  induction n using Nat.strongRecOn generalizing c with
  | ind n ih =>
    cases htext : c.text with
    | nil =>
      rw [tokenize_end htext] at h
      simp only [TokRes.ok.injEq] at h
      obtain ⟨rfl, rfl⟩ := h
      left
      refine ⟨[], rfl, .nil, rfl, ?_⟩
      cases c; simp at htext; subst htext; rfl
    | cons x xs =>
      rw [htext] at hn hz
      simp only [List.mem_cons, not_or] at hz
      by_cases hx : x ∈ blanks
      · rw [tokenize_blank htext hx] at h
        rcases ih xs.length (by simp at hn; omega) (c := c.move [x] xs) hz.2 h rfl with ⟨s, h1, h2, h3, h4⟩ | ⟨s, w, h1, h2, h3, h4, h5⟩
        · rw [Cur.move_move] at h3 h4
          exact .inl ⟨x :: s, by rw [← h1]; rfl, .blank hx h2, h3, h4⟩
        · rw [Cur.move_move] at h4 h5
          refine .inr ⟨x :: s, w, ?_, .blank hx h2, h3, h4, h5⟩
          rw [List.cons_append, ← h1]; rfl
      · have hz' : '\x00' ∉ c.text := by rw [htext]; simp [hz]
        have hne : c.text ≠ [] := by rw [htext]; simp
        have hreach := (tokenize_ok h).reach
        have h0 := h
        rw [tokenize_unfold] at h
        dsimp only at h
        rw [skip_blank_self htext hx, if_neg hne] at h
        have hmove : c.move [] c.text = c := by cases c; rfl
        cases hh : lexHead c with
        | done r =>
          rw [hh] at h
          dsimp only at h
          subst h
          obtain ⟨w, h1, h2⟩ := lex_done_inv hz' hne hh
          have hl := lexHead_ok hh
          right
          refine ⟨[], w, by rw [← htext, h1]; rfl, .nil, h2, ?_, ?_⟩
          · rw [← h1, hmove]
            cases t; simp [hl.line.symm, hl.col.symm]
          · rw [List.nil_append]; exact Cur.move_eq hreach h1
        | fall c1 =>
          rw [hh] at h
          dsimp only at h
          have hb : c.peek ∉ blanks := by rw [Cur.peek_of htext]; exact hx
          cases hi : lexIdent c.text c1 with
          | ub => rw [hi] at h; simp at h
          | ident s c2 =>
            rw [hi] at h
            simp only [TokRes.ok.injEq] at h
            obtain ⟨rfl, rfl⟩ := h
            obtain ⟨h1, h2, h3⟩ := lex_fall_inv hz' hb hne hh (.inr hi)
            have hl : s.getLast? ≠ some ':' := by
              intro hl
              have := h3.1 hl
              rw [hi] at this
              simp at this
            right
            refine ⟨[], s, by rw [← htext, h1]; rfl, .nil, .word h2 hl, ?_, ?_⟩
            · rw [← h1, hmove]
            · rw [List.nil_append]; exact Cur.move_eq hreach h1
          | label c2 =>
            rw [hi] at h
            dsimp only at h
            obtain ⟨h1, h2, h3⟩ := lex_fall_inv hz' hb hne hh (.inl ⟨hi, rfl⟩)
            have hl := h3.2 hi
            obtain ⟨v, hv⟩ : ∃ v, between c.text c2.text = v := ⟨_, rfl⟩
            rw [hv] at h1 h2 hl
            obtain ⟨y, ys, rfl, -⟩ := h2.head
            have hc2 : c2 = c.move (y :: ys) c2.text :=
              Cur.move_eq ((lexHead_fall hh).trans (lexIdent_step (.inl hi)).1) h1
            have hlen : c2.text.length < n := by
              have := congrArg List.length h1
              rw [htext] at this
              simp at this hn
              omega
            have hz2 : '\x00' ∉ c2.text := by
              intro hm; exact hz' (by rw [h1]; simp [hm])
            rcases ih _ hlen hz2 h rfl with ⟨s, e1, e2, e3, e4⟩ | ⟨s, w, e1, e2, e3, e4, e5⟩
            · rw [hc2, Cur.move_move] at e3 e4
              left
              rw [e1] at h1 h2
              exact ⟨y :: ys ++ s, by rw [← htext, h1], .label (by simpa using h2) hl e2, e3, e4⟩
            · rw [hc2, Cur.move_move] at e4 e5
              right
              rw [e1] at h1 h2
              refine ⟨y :: ys ++ s, w, by rw [← htext, h1, List.append_assoc], .label h2 hl e2, e3, e4, by rw [e5, List.append_assoc]; rfl⟩

end Nxas
