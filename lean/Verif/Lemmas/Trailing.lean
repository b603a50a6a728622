import Verif.Lemmas.Labels
/-
What the lexer skips before the end of the text.
-/

namespace Nxas

open Spec

theorem isBlank_iff {c : Char} : isBlank c = true ↔ c ∈ blanks := by
  simp [isBlank, isContained, blanks]

theorem not_separator_iff {c : Char} : isSeparator c = false ↔ c ∉ separators ∧ c ≠ '\x00' := by
  rw [← Bool.not_eq_true]
  simp [isSeparator, isOperator, isContained, separators, or_assoc, not_or, and_assoc]

/-- Characters skipped one by one. -/
theorem OnlySkipped.blanks_append {t u : Str} (h : ∀ c ∈ t, isBlank c = true) (hu : OnlySkipped u) :
    OnlySkipped (t ++ u) := by
  induction t with
  | nil => exact hu
  | cons c t ih =>
    exact .blank (isBlank_iff.1 (h c (by simp))) (ih fun x hx => h x (by simp [hx]))

theorem Cur.next_text {c c' : Cur} (h : c.next = some c') : c.text = c.peek :: c'.text := by
  obtain ⟨ch, h1, -, -⟩ := Cur.next_some h
  simp [Cur.peek, h1]

/-- The text consumed before the identifier branch. -/
theorem lexPredicate_fall_text {c c1 : Cur} (h : lexPredicate c = .fall c1)
    (hc : isContained c!"!Pp" c.peek = true) :
    ∃ p ∈ [c!"P", c!"p", c!"!P", c!"!p"], c.text = p ++ c1.text ∨
      ∃ d, isSeparator d = false ∧ isSeparator c1.peek = false ∧ c.text = p ++ d :: c1.text := by
  unfold lexPredicate at h
  dsimp only at h
  split at h
  · simp at h
  · rename_i b hb
    split at h
    · simp at h
    · rename_i hneg
      split at h
      · simp at h
      · rename_i c2 hc2
        have hp : ∃ p ∈ [c!"P", c!"p", c!"!P", c!"!p"], c.text = p ++ c2.text := by
          by_cases hn : c.peek = '!'
          · simp only [hn, decide_true, if_true] at hb hneg
            have hP : isContained c!"Pp" b.peek = true := by simpa using hneg
            have e1 := Cur.next_text hb
            have e2 := Cur.next_text hc2
            rcases isContained_Pp hP with hP | hP
            · exact ⟨c!"!P", by simp, by rw [e1, e2, hn, hP]; rfl⟩
            · exact ⟨c!"!p", by simp, by rw [e1, e2, hn, hP]; rfl⟩
          · simp only [hn, decide_false, Bool.false_eq_true, if_false, Option.some.injEq] at hb
            subst hb
            have e2 := Cur.next_text hc2
            rcases isContained_bangPp hc with hP | hP | hP
            · exact absurd hP hn
            · exact ⟨c!"P", by simp, by rw [e2, hP]; rfl⟩
            · exact ⟨c!"p", by simp, by rw [e2, hP]; rfl⟩
        obtain ⟨p, hp, e⟩ := hp
        refine ⟨p, hp, ?_⟩
        split at h
        · simp only [LexStep.fall.injEq] at h
          subst h
          exact .inl e
        · rename_i idx hidx
          split at h
          · simp at h
          · rename_i c3 hc3
            split at h
            · split at h <;> simp at h
            · rename_i hs
              simp only [LexStep.fall.injEq] at h
              subst h
              refine .inr ⟨c2.peek, ?_, by simpa using hs, by rw [e, Cur.next_text hc3]⟩
              split at hidx
              · rename_i hT
                have : c2.peek = 'T' ∨ c2.peek = 't' := by simpa [isContained] using hT
                rcases this with h | h <;> rw [h] <;> decide
              · split at hidx
                · rename_i hd
                  rw [isDecimal_iff] at hd
                  rw [not_separator_iff]
                  generalize c2.peek = ch at hd
                  have : ∀ x ∈ '\x00' :: separators, ¬ ('0' ≤ x ∧ x ≤ '9') := by decide
                  constructor
                  · intro hm; exact this ch (by simp [hm]) hd
                  · rintro rfl; exact this _ (by simp) hd
                · simp at hidx

theorem digits_not_separator {c : Char} (h : isDecimal c = true) : isSeparator c = false := by
  rw [isDecimal_iff] at h
  rw [not_separator_iff]
  have : ∀ x ∈ '\x00' :: separators, ¬ ('0' ≤ x ∧ x ≤ '9') := by decide
  constructor
  · intro hm; exact this c (by simp [hm]) h
  · rintro rfl; exact this _ (by simp) h

theorem lexRegister_fall_text {c c1 : Cur} (h : lexRegister c = .fall c1) :
    ∃ ds, c.text = c.peek :: (ds ++ c1.text) ∧ (∀ x ∈ ds, isSeparator x = false) ∧
      isSeparator c1.peek = false := by
  have hs := (lexRegister_fall h).2.2
  unfold lexRegister at h
  dsimp only at h
  split at h
  · simp at h
  · rename_i b hb
    split at h
    · split at h
      · simp at h
      · split at h <;> simp at h
    · split at h
      · simp only [LexStep.fall.injEq] at h
        subst h
        refine ⟨b.text.takeWhile fun ch => !isSeparator ch && isDecimal ch, ?_, ?_, hs⟩
        · rw [Cur.skip_text, List.takeWhile_append_dropWhile]; exact Cur.next_text hb
        · intro x hx
          have := List.mem_takeWhile_imp hx
          simp only [Bool.and_eq_true, Bool.not_eq_true'] at this
          exact this.1
      · split at h
        · simp at h
        · split at h <;> simp at h

theorem lexIdent_label_text {start : Str} {c c2 : Cur} (h : lexIdent start c = .label c2) :
    ∃ w, c.text = c.peek :: (w ++ c2.text) ∧ (∀ x ∈ w, isSeparator x = false) ∧
      (between start c2.text).getLast? = some ':' := by
  unfold lexIdent at h
  split at h
  · simp at h
  · rename_i c1 hc1
    dsimp only at h
    split at h
    · rename_i hl
      simp only [IdentStep.label.injEq] at h
      subst h
      refine ⟨c1.text.takeWhile fun ch => !isSeparator ch, ?_, ?_, hl⟩
      · rw [Cur.skip_text, List.takeWhile_append_dropWhile]; exact Cur.next_text hc1
      · intro x hx
        have := List.mem_takeWhile_imp hx
        simpa using this
    · simp at h

theorem lexHead_skipped {c c1 c2 : Cur} (h : lexHead c = .fall c1) (hb : isBlank c.peek = false)
    (hi : lexIdent c.text c1 = .label c2) :
    ∃ w, c.text = w ++ c2.text ∧ SkippedWord w := by
  obtain ⟨w, e1, hw, hl⟩ := lexIdent_label_text hi
  have hw' : ∀ x ∈ w, x ∉ separators := fun x hx => (not_separator_iff.1 (hw x hx)).1
  have hbt : ∀ u : Str, c.text = u ++ c2.text → between c.text c2.text = u := by
    intro u hu
    unfold between
    rw [hu]
    simp
  unfold lexHead at h
  dsimp only at h
  split at h
  · split at h <;> simp at h
  · rename_i hop
    split at h
    · rename_i hP
      obtain ⟨p, hp, e | ⟨d, hd, hs, e⟩⟩ := lexPredicate_fall_text h hP
      · have e' : c.text = (p ++ c1.peek :: w) ++ c2.text := by rw [e, e1]; simp
        rw [hbt _ e'] at hl
        exact ⟨_, e', .swallow hp hw' hl⟩
      · have e' : c.text = (p ++ d :: c1.peek :: w) ++ c2.text := by rw [e, e1]; simp
        rw [hbt _ e'] at hl
        have : ∀ q : Str, q ∈ [c!"P", c!"p", c!"!P", c!"!p"] → ∃ a b, q = a :: b ∧ a ∉ separators ∧
            ∀ x ∈ b, x ∉ separators := by
          intro q hq
          simp only [List.mem_cons, List.not_mem_nil, or_false] at hq
          rcases hq with rfl | rfl | rfl | rfl
          · exact ⟨'P', [], rfl, by decide, by simp⟩
          · exact ⟨'p', [], rfl, by decide, by simp⟩
          · exact ⟨'!', ['P'], rfl, by decide, by decide⟩
          · exact ⟨'!', ['p'], rfl, by decide, by decide⟩
        obtain ⟨a, b, rfl, ha, hb'⟩ := this p hp
        refine ⟨_, e', .plain (.inl ha) ?_ hl⟩
        intro x hx
        simp only [List.append_eq, List.mem_append, List.mem_cons] at hx
        rcases hx with hx | rfl | rfl | hx
        · exact hb' x hx
        · exact (not_separator_iff.1 hd).1
        · exact (not_separator_iff.1 hs).1
        · exact hw' x hx
    · split at h
      · simp at h
      · rename_i hnum
        split at h
        · rename_i hR
          obtain ⟨ds, e, hds, hs⟩ := lexRegister_fall_text h
          have e' : c.text = (c.peek :: (ds ++ c1.peek :: w)) ++ c2.text := by
            rw [e, e1]; simp
          rw [hbt _ e'] at hl
          refine ⟨_, e', .plain (.inl (by rw [hR]; decide)) ?_ hl⟩
          intro x hx
          simp only [List.mem_append, List.mem_cons] at hx
          rcases hx with hx | rfl | hx
          · exact (not_separator_iff.1 (hds x hx)).1
          · exact (not_separator_iff.1 hs).1
          · exact hw' x hx
        · simp only [LexStep.fall.injEq] at h
          subst h
          have e' : c.text = (c.peek :: w) ++ c2.text := by rw [e1]; rfl
          rw [hbt _ e'] at hl
          refine ⟨_, e', .plain ?_ hw' hl⟩
          by_cases hdot : c.peek = '.'
          · exact .inr hdot
          · refine .inl fun hm => ?_
            have hopr : isOperator c.peek = true := by
              simp only [separators, List.mem_cons, List.not_mem_nil, or_false] at hm
              have hb' : ¬ c.peek ∈ blanks := by rw [← isBlank_iff, hb]; simp
              simp only [blanks, List.mem_cons, List.not_mem_nil, or_false, not_or] at hb'
              simp only [isOperator, isContained, List.contains_eq_mem, List.mem_cons,
                List.not_mem_nil, or_false, decide_eq_true_eq]
              rcases hm with h | h | h | h | h | h | h | h | h | h | h | h | h | h <;> simp_all
            rw [hopr] at hop
            simp only [Bool.true_and, Bool.or_eq_true, Bool.not_eq_true', not_or,
              Bool.not_eq_false] at hop
            apply hnum
            rw [hop.1, Bool.or_true, Bool.true_and, bne_iff_ne]
            intro hD
            rw [hD] at hop
            exact absurd hop.2 (by decide)

/-- If the next token is the end of the text, nothing but blanks and skipped words is left. -/
theorem tokenizeAux_ended {n : Nat} {c c2 : Cur} {t : Token}
    (h : tokenizeAux n c = some (.ok t c2)) (hk : t.kind = .none) : OnlySkipped c.text := by
  induction n generalizing c with
  | zero => simp [tokenizeAux] at h
  | succ n ih =>
    unfold tokenizeAux at h
    dsimp only at h
    have e : c.text = c.text.takeWhile isBlank ++ (c.skip isBlank).text := by
      rw [Cur.skip_text, List.takeWhile_append_dropWhile]
    have hpk := Cur.skip_peek isBlank c (by decide)
    rw [e]
    refine OnlySkipped.blanks_append (fun x hx => List.mem_takeWhile_imp hx) ?_
    generalize c.skip isBlank = cb at h hpk
    split at h
    · rename_i he; rw [he]; exact .nil
    · split at h
      · rename_i r hh
        simp only [Option.some.injEq] at h
        subst h
        exact absurd hk (lexHead_ok hh).notNone
      · rename_i c1 hh
        split at h
        · simp at h
        · rename_i c3 hi
          obtain ⟨w, e, hw⟩ := lexHead_skipped hh hpk hi
          rw [e]
          exact .word hw (ih h)
        · simp only [Option.some.injEq, TokRes.ok.injEq] at h
          rw [← h.1] at hk
          simp at hk

theorem tokenize_ended {c c2 : Cur} {t : Token} (h : tokenize c = .ok t c2) (hk : t.kind = .none) :
    OnlySkipped c.text := by
  refine tokenizeAux_ended (n := c.text.length + 1) (c2 := c2) ?_ hk
  rw [tokenize_eq, h]

/-! ### Skipping labels -/

theorem wordChar_not_separator {c : Char} (h : wordChar c) : isSeparator c = false := by
  rw [not_separator_iff]
  have : ∀ x ∈ '\x00' :: separators, ¬ wordChar x := by unfold wordChar letter; decide
  constructor
  · intro hm; exact this c (by simp [hm]) h
  · rintro rfl; exact this _ (by simp) h

theorem colon_not_separator : isSeparator ':' = false := by decide

/-- The identifier branch on the rest of a word that ends in a colon. -/
theorem lexIdent_of_label {start w t : Str} {c : Cur} (hc : c.text = w ++ t)
    (hw : w ≠ []) (hns : ∀ x ∈ w, isSeparator x = false)
    (ht : ∀ x, t.head? = some x → isSeparator x = true) {pre : Str} (hs : start = pre ++ t)
    (hl : pre.getLast? = some ':') : ∃ c2, lexIdent start c = .label c2 ∧ c2.text = t := by
  cases w with
  | nil => exact absurd rfl hw
  | cons x xs =>
    unfold lexIdent
    have hn : c.next = some ⟨xs ++ t, nextLine x c.line, nextCol x c.col⟩ := by
      unfold Cur.next; rw [hc]; rfl
    rw [hn]
    dsimp only
    have htext : (Cur.skip (fun ch => !isSeparator ch)
        ⟨xs ++ t, nextLine x c.line, nextCol x c.col⟩).text = t := by
      rw [Cur.skip_text]
      dsimp only
      rw [List.dropWhile_append_of_pos (by
        intro y hy; simp [hns y (by simp [hy])])]
      cases t with
      | nil => rfl
      | cons y ys => simp [ht y rfl]
    rw [htext]
    have hb : between start t = pre := by
      unfold between; rw [hs]; simp
    rw [hb, hl]
    exact ⟨_, rfl, htext⟩

theorem Spec.IsName.wordChars {w : Str} (h : IsName w) : ∀ c ∈ w, wordChar c := h.2

theorem letter_facts {a : Char} (h : letter a) : isOperator a = false ∧ isDecimal a = false ∧
    isContained c!"+-" a = false ∧ isBlank a = false ∧ a ≠ '!' := by
  have hw : wordChar a := .inl h
  have hs := wordChar_not_separator hw
  have hd : isDecimal a = false := by
    rw [← Bool.not_eq_true, isDecimal_iff]
    rintro ⟨h1, h2⟩
    rcases h with ⟨h3, h4⟩ | ⟨h3, h4⟩
    · exact absurd (Char.le_trans h3 h2) (by decide)
    · exact absurd (Char.le_trans h3 h2) (by decide)
  have hop : isOperator a = false := by
    simp only [isSeparator, Bool.or_eq_false_iff] at hs; exact hs.1.2
  refine ⟨hop, hd, ?_, ?_, ?_⟩
  · simp [isOperator, isContained] at hop ⊢; exact ⟨hop.1, hop.2.1⟩
  · simp [isSeparator, isBlank, isContained] at hs ⊢; simp [hs]
  · rintro rfl
    exact absurd h (by unfold letter; decide)

theorem append_colon_peek {w t : Str} {l k : Nat} (hw : ∀ x ∈ w, isSeparator x = false) :
    isSeparator (Cur.peek ⟨w ++ ':' :: t, l, k⟩) = false := by
  cases w with
  | nil => exact colon_not_separator
  | cons x xs => exact hw x (by simp)

/-- A name followed by a colon reaches the identifier branch. -/
theorem lexHead_name {name t : Str} {l k : Nat} (hn : IsName name) (hz : ¬ c!"RZ" <+: name) :
    ∃ c1 w, lexHead ⟨name ++ ':' :: t, l, k⟩ = .fall c1 ∧ c1.text = w ++ ':' :: t ∧ w <:+ name := by
  obtain ⟨⟨a, r, rfl, ha⟩, hw⟩ := hn
  obtain ⟨h1, h2, h3, h4, h5⟩ := letter_facts ha
  have hr : ∀ x ∈ r, isSeparator x = false := fun x hx => wordChar_not_separator (hw x (by simp [hx]))
  have hpk : Cur.peek ⟨a :: r ++ ':' :: t, l, k⟩ = a := rfl
  unfold lexHead
  dsimp only
  rw [hpk, h1, Bool.false_and, if_neg (by simp)]
  by_cases hP : isContained c!"!Pp" a = true
  · rw [if_pos hP]
    unfold lexPredicate
    dsimp only
    rw [hpk]
    simp only [h5, decide_false, Bool.false_eq_true, if_false, Bool.false_and]
    have hnx : Cur.next ⟨a :: r ++ ':' :: t, l, k⟩ = some ⟨r ++ ':' :: t, nextLine a l, nextCol a k⟩ := rfl
    rw [hnx]
    dsimp only
    split
    · exact ⟨_, r, rfl, rfl, List.suffix_cons a r⟩
    · rename_i idx hidx
      cases r with
      | nil =>
        have : Cur.peek ⟨[] ++ ':' :: t, nextLine a l, nextCol a k⟩ = ':' := rfl
        rw [this] at hidx
        simp [isContained, isDecimal] at hidx
      | cons b r' =>
        have hnx2 : Cur.next ⟨b :: r' ++ ':' :: t, nextLine a l, nextCol a k⟩ =
            some ⟨r' ++ ':' :: t, nextLine b (nextLine a l), nextCol b (nextCol a k)⟩ := rfl
        rw [hnx2]
        dsimp only
        rw [append_colon_peek (fun x hx => hr x (by simp [hx]))]
        exact ⟨_, r', rfl, rfl, (List.suffix_cons b r').trans (List.suffix_cons a _)⟩
  · rw [if_neg hP, h2, h3]
    simp only [Bool.or_false, Bool.false_and, Bool.false_eq_true, if_false]
    by_cases hR : a = 'R'
    · subst hR
      rw [if_pos rfl]
      unfold lexRegister
      dsimp only
      have hnx : Cur.next ⟨'R' :: r ++ ':' :: t, l, k⟩ = some ⟨r ++ ':' :: t, nextLine 'R' l, nextCol 'R' k⟩ := rfl
      rw [hnx]
      dsimp only
      rw [if_neg]
      · have htx : (Cur.skip (fun ch => !isSeparator ch && isDecimal ch)
            ⟨r ++ ':' :: t, nextLine 'R' l, nextCol 'R' k⟩).text =
            r.dropWhile (fun ch => !isSeparator ch && isDecimal ch) ++ ':' :: t := by
          rw [Cur.skip_text]
          dsimp only
          rw [List.dropWhile_append]
          split
          · rename_i he
            have hnil : r.dropWhile (fun ch => !isSeparator ch && isDecimal ch) = [] := by
              simpa using he
            rw [hnil]
            rfl
          · rfl
        have hsuf : r.dropWhile (fun ch => !isSeparator ch && isDecimal ch) <:+ r :=
          List.dropWhile_suffix _
        have hpk2 : isSeparator (Cur.skip (fun ch => !isSeparator ch && isDecimal ch)
            ⟨r ++ ':' :: t, nextLine 'R' l, nextCol 'R' k⟩).peek = false := by
          have := append_colon_peek (t := t) (l := 0) (k := 0)
            (fun x hx => hr x (hsuf.subset hx))
          unfold Cur.peek at this ⊢
          rw [htx]; exact this
        rw [hpk2]
        exact ⟨_, _, rfl, htx, hsuf.trans (List.suffix_cons _ _)⟩
      · intro hZ
        cases r with
        | nil => exact absurd hZ (by simp [Cur.peek])
        | cons b r' =>
          have : b = 'Z' := hZ
          subst this
          exact hz ⟨r', rfl⟩
    · rw [if_neg hR]
      exact ⟨_, a :: r, rfl, rfl, List.suffix_refl _⟩

/-- Labels and blanks are skipped up to the end of the text. -/
theorem tokenize_labelsOnly {t : Str} (h : LabelsOnly t) (l k : Nat) :
    ∃ l' k', tokenize ⟨t, l, k⟩ = .ok ⟨.none, l', k'⟩ ⟨[], l', k'⟩ := by
  induction h generalizing l k with
  | nil => exact ⟨l, k, rfl⟩
  | @blank c t hc ht ih =>
    obtain ⟨l', k', e⟩ := ih (nextLine c l) (nextCol c k)
    refine ⟨l', k', ?_⟩
    rw [← e, tokenize_unfold, tokenize_unfold ⟨t, _, _⟩]
    have : Cur.skip isBlank ⟨c :: t, l, k⟩ = Cur.skip isBlank ⟨t, nextLine c l, nextCol c k⟩ := by
      unfold Cur.skip
      simp only [skipWhile, isBlank_iff.2 hc, if_true]
    rw [this]
  | @label name t hn hz hs ht ih =>
    obtain ⟨c1, w, h1, h2, h3⟩ := lexHead_name (t := t) (l := l) (k := k) hn hz
    have hwc : ∀ x ∈ w, isSeparator x = false := fun x hx =>
      wordChar_not_separator (hn.wordChars x (h3.subset hx))
    obtain ⟨c2, h4, h5⟩ := lexIdent_of_label (start := name ++ ':' :: t) (w := w ++ [':']) (t := t)
      (c := c1) (pre := name ++ [':']) (by rw [h2]; simp) (by simp)
      (by
        intro x hx
        rcases List.mem_append.1 hx with hx | hx
        · exact hwc x hx
        · simp only [List.mem_singleton] at hx; subst hx; exact colon_not_separator)
      (by
        intro x hx
        have := hs x hx
        have key : ∀ y ∈ blanks, isSeparator y = true := by decide
        exact key x this)
      (by simp) (by simp)
    obtain ⟨l', k', e⟩ := ih c2.line c2.col
    refine ⟨l', k', ?_⟩
    have hsk : Cur.skip isBlank ⟨name ++ ':' :: t, l, k⟩ = ⟨name ++ ':' :: t, l, k⟩ := by
      apply Cur.skip_eq_self
      obtain ⟨⟨a, r, rfl, ha⟩, -⟩ := hn
      exact (letter_facts ha).2.2.2.1
    rw [tokenize_unfold, hsk]
    dsimp only
    rw [if_neg (by simp), h1]
    dsimp only
    rw [h4]
    dsimp only
    rw [← e]
    congr 1
    cases c2
    simp_all

theorem LabelsOnly.last {t : Str} (h : LabelsOnly t) : ∀ c, t.getLast? = some c → c ∈ ':' :: blanks := by
  induction h with
  | nil => simp
  | @blank c t hc ht ih =>
    intro x hx
    cases t with
    | nil => simp at hx; subst hx; simp [hc]
    | cons y ys => rw [List.getLast?_cons_cons] at hx; exact ih x hx
  | @label name t hn hz hs ht ih =>
    intro x hx
    cases t with
    | nil => simp at hx; subst hx; simp
    | cons y ys => 
      apply ih
      simpa using hx

theorem LabelsOnly.chars {t : Str} (h : LabelsOnly t) :
    ∀ c ∈ t, wordChar c ∨ c = ':' ∨ c ∈ blanks := by
  induction h with
  | nil => simp
  | @blank c t hc ht ih =>
    intro x hx
    rcases List.mem_cons.1 hx with rfl | hx
    · exact .inr (.inr hc)
    · exact ih x hx
  | @label name t hn hz hs ht ih =>
    intro x hx
    simp only [List.mem_append, List.mem_cons] at hx
    rcases hx with hx | rfl | hx
    · exact .inl (hn.wordChars x hx)
    · exact .inr (.inl rfl)
    · exact ih x hx

end Nxas
