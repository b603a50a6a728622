import Verif.Lemmas.Scan
import Verif.Lemmas.Frame
import Verif.Spec.Messages
/-
The messages of the lexer are true of the text they are reported at.
-/

namespace Nxas

open Spec

/-- What begins with a number. -/
def Numeric (w : Str) : Prop := ∃ sg d ds neg, w = sg ++ d :: ds ∧ Sign sg neg ∧ decimal d

theorem Numeric.append {w : Str} (h : Numeric w) (r : Str) : Numeric (w ++ r) := by
  obtain ⟨sg, d, ds, neg, rfl, h1, h2⟩ := h
  exact ⟨sg, d, ds ++ r, neg, by simp, h1, h2⟩

theorem peek_not_separator {c : Cur} (h : isSeparator c.peek = false) : ∃ r, c.text = c.peek :: r ∧ c.peek ∉ separators := by
  refine ⟨c.text.tail, ?_, (not_separator_iff.1 h).1⟩
  cases ht : c.text with
  | nil => rw [Cur.peek, ht] at h; simp [isSeparator_nul] at h
  | cons x xs => simp [Cur.peek, ht]

theorem lexNumber_tells {c : Cur} {e : Err} {sg : Str} {neg : Bool} {d : Char} {tl : Str} (hz : '\x00' ∉ c.text)
    (ht : c.text = sg ++ d :: tl) (hs : Sign sg neg) (hd : decimal d) (h : lexNumber c = .exit e) : NoToken c.text e.msg := by
  unfold lexNumber at h
  dsimp only at h
  rw [show (fun ch => isDecimal ch || isContained c!"+-" ch || isHexish ch) = numberChar from rfl] at h
  obtain ⟨c1, hc1⟩ : ∃ c1, c.skip numberChar = c1 := ⟨_, rfl⟩
  rw [hc1] at h
  have hr1 : Reach c c1 := hc1 ▸ Cur.skip_reach _ _
  have hb1 := between_reach hr1
  have hdn : numberChar d = true := by simp [numberChar, isDecimal_spec.2 hd]
  have hnum : Numeric (between c.text c1.text) := by
    have e : c1.text = c.text.dropWhile numberChar := by rw [← hc1, Cur.skip_text]
    have : between c.text c1.text = c.text.takeWhile numberChar := by
      have h1 := hb1
      rw [e] at h1
      rw [e]
      exact List.append_cancel_right (h1.symm.trans (List.takeWhile_append_dropWhile).symm)
    rw [this, ht]
    refine ⟨sg, d, tl.takeWhile numberChar, neg, ?_, hs, hd⟩
    cases hs with
    | none => simp [hdn]
    | plus => simp [hdn, show numberChar '+' = true by decide]
    | minus => simp [hdn, show numberChar '-' = true by decide]
  have hz2 : ∀ c2 : Cur, Reach c c2 → '\x00' ∉ c2.text := by
    rintro c2 ⟨p, hp, -⟩ hm
    exact hz (by rw [hp]; simp [hm])
  have hsub : ∀ c2 : Cur, Reach c1 c2 → Numeric (between c.text c2.text) := by
    rintro c2 hr2
    have h1 := between_reach hr2
    have h2 := between_reach (hr1.trans hr2)
    have h3 : c.text = between c.text c1.text ++ between c1.text c2.text ++ c2.text := by rw [List.append_assoc, ← h1, ← hb1]
    rw [List.append_cancel_right (h2.symm.trans h3)]
    exact hnum.append _
  split at h
  · rename_i hf
    simp only [Bool.and_eq_true, decide_eq_true_eq] at hf
    simp only [TokRes.exit.injEq] at h
    subst h
    obtain ⟨r, hr⟩ : ∃ r, c1.text = '.' :: r := by
      cases hx : c1.text with
      | nil => rw [Cur.peek, hx] at hf; exact absurd hf.1 (by decide)
      | cons x xs => rw [Cur.peek, hx] at hf; exact ⟨xs, by rw [← hf.1]; rfl⟩
    rw [hr] at hb1
    refine .float hb1 (by rw [← hr]; exact hnum) ?_
    obtain ⟨x, hx, hh⟩ := List.any_eq_true.mp hf.2
    rw [← hr]
    refine ⟨x, hx, ?_⟩
    unfold isHexish at hh
    revert hh
    generalize c!"AaBbCcDdEeFfXx" = l
    intro hh
    unfold isContained at hh
    simpa using hh
  · split at h
    · simp at h
    · rename_i c2 hc2
      have hr2 : Reach c1 c2 := by
        split at hc2
        · rw [Option.map_eq_some_iff] at hc2
          obtain ⟨c3, h3, rfl⟩ := hc2
          exact (Cur.next_reach h3).trans (Cur.skip_reach _ _)
        · simp only [Option.some.injEq] at hc2
          subst hc2; exact Reach.refl _
      have hb2 := between_reach (hr1.trans hr2)
      split at h
      · rename_i hsep
        simp only [TokRes.exit.injEq] at h
        subst h
        obtain ⟨r, h1, h2⟩ := peek_not_separator (c := c2) (by simpa using hsep)
        exact .unseparated (by rw [← h1]; exact hb2) h2 (hsub c2 hr2)
      · rename_i hsep
        have he : Ends c2.text := ends_of_sep (l := c2.line) (k := c2.col) (hz2 c2 (hr1.trans hr2)) (by simpa using hsep)
        repeat' split at h
        all_goals simp only [TokRes.exit.injEq, reduceCtorEq] at h
        all_goals subst h
        all_goals exact .literal hb2 he (hsub c2 hr2)

theorem predTail_tells {c c2 : Cur} {neg : Bool} {e : Err} {p : Str} (hp : PredPrefix p neg) (ht : c.text = p ++ c2.text) (hz : '\x00' ∉ c2.text)
    (h : predTail c c2 neg = .done (.exit e)) : NoToken c.text e.msg := by
  unfold predTail at h
  dsimp only at h
  split at h
  · simp at h
  · rename_i idx hidx
    split at h
    · simp at h
    · rename_i c3 h3
      have h3' := Cur.next_text h3
      split at h
      · rename_i hsep
        split at h
        · rename_i hr
          simp only [LexStep.done.injEq, TokRes.exit.injEq] at h
          subst h
          have he : Ends c3.text := ends_of_sep (l := c3.line) (k := c3.col) (fun hm => hz (by rw [h3']; simp [hm])) hsep
          simp only [Bool.and_eq_true, Bool.not_eq_true', decide_eq_true_eq] at hr
          rw [hr.1] at hidx
          simp only [Bool.false_eq_true, if_false] at hidx
          split at hidx
          · rename_i hd
            simp only [Option.some.injEq] at hidx
            subst hidx
            refine .predicate hp (by rw [ht, h3']) ?_ he
            have h2 := isDecimal_spec.1 hd
            unfold decimal at h2
            simp only [char_le, show '0'.toNat = 48 from rfl, show '9'.toNat = 57 from rfl] at h2 hr
            obtain ⟨-, hr⟩ := hr
            have hx : c2.peek.toNat = 55 ∨ c2.peek.toNat = 56 ∨ c2.peek.toNat = 57 := by omega
            have hc : c2.peek = Char.ofNat c2.peek.toNat := (Char.ofNat_toNat _).symm
            rcases hx with hx | hx | hx <;> rw [hx] at hc <;> rw [hc] <;> decide
          · simp at hidx
        · simp at h
      · simp at h

theorem lexPredicate_tells {c : Cur} {e : Err} (hz : '\x00' ∉ c.text) (hc : isContained c!"!Pp" c.peek = true)
    (h : lexPredicate c = .done (.exit e)) : NoToken c.text e.msg := by
  have hnil : c.text ≠ [] := by
    intro h; rw [Cur.peek, h] at hc; exact absurd hc (by decide)
  obtain ⟨x, xs, ht⟩ := List.exists_cons_of_ne_nil hnil
  have hx : c.peek = x := Cur.peek_of ht
  have pref : ∀ {p t neg}, PredPrefix p neg → c.text = p ++ t → NoToken c.text e.msg := by
    intro p t neg hp ht
    obtain ⟨c2, h1, h2⟩ := lexPredicate_prefix ht hp
    rw [h2] at h
    exact predTail_tells hp (by rw [ht, h1]) (fun hm => hz (by rw [ht, ← h1]; simp [hm])) h
  rcases isContained_bangPp hc with hb | hb | hb
  · obtain ⟨c1, h1, h1'⟩ := Cur.next_cons ht
    by_cases hp : isContained c!"Pp" c1.peek = true
    · have hnil1 : xs ≠ [] := by
        rintro rfl; rw [Cur.peek, h1'] at hp; exact absurd hp (by decide)
      obtain ⟨y, ys, rfl⟩ := List.exists_cons_of_ne_nil hnil1
      rw [Cur.peek_of h1'] at hp
      exact pref (.neg (isContained_Pp hp)) (t := ys) (by rw [ht, ← hx, hb]; rfl)
    · unfold lexPredicate at h
      simp only [hb, decide_true, if_true, h1, Bool.true_and, hp, Bool.not_false] at h
      simp only [LexStep.done.injEq, TokRes.exit.injEq] at h
      subst h
      refine .negation (r := xs) (by rw [ht, ← hx, hb]) ?_
      intro y hy
      obtain ⟨ys, rfl⟩ : ∃ ys, xs = y :: ys := by
        cases xs with
        | nil => simp at hy
        | cons z zs => simp at hy; exact ⟨zs, by rw [hy]⟩
      rw [Cur.peek_of h1'] at hp
      constructor <;> rintro rfl <;> exact hp rfl
  · exact pref (p := ['P']) (.pos (.inl rfl)) (t := xs) (by rw [ht, ← hx, hb]; rfl)
  · exact pref (p := ['p']) (.pos (.inr rfl)) (t := xs) (by rw [ht, ← hx, hb]; rfl)

theorem lexRegister_tells {c : Cur} {e : Err} (hz : '\x00' ∉ c.text) (hR : c.peek = 'R') (h : lexRegister c = .done (.exit e)) :
    NoToken c.text e.msg := by
  have hnil : c.text ≠ [] := by
    intro h; rw [Cur.peek, h] at hR; exact absurd hR (by decide)
  obtain ⟨x, xs, ht⟩ := List.exists_cons_of_ne_nil hnil
  obtain rfl : x = 'R' := by rw [Cur.peek_of ht] at hR; simpa using hR
  have hz' : '\x00' ∉ xs := by rw [ht] at hz; simp at hz; exact hz
  obtain ⟨c1, h1, h1'⟩ := Cur.next_cons ht
  by_cases hZ : c1.peek = 'Z'
  · unfold lexRegister at h
    rw [h1] at h
    dsimp only at h
    rw [if_pos hZ] at h
    cases h2 : c1.next with
    | none => rw [h2] at h; simp at h
    | some c2 =>
      rw [h2] at h
      dsimp only at h
      split at h
      · rename_i hs
        simp only [LexStep.done.injEq, TokRes.exit.injEq] at h
        subst h
        have h2' := Cur.next_text h2
        rw [hZ, h1'] at h2'
        obtain ⟨r, h3, h4⟩ := peek_not_separator (c := c2) (by simpa using hs)
        exact .zero (by rw [ht, h2', h3]) h4
      · simp at h
  · obtain ⟨ds, rest, hsplit, hds, hrest⟩ : ∃ ds rest, xs = ds ++ rest ∧ (∀ x ∈ ds, decimal x) ∧ (∀ x, rest.head? = some x → ¬ decimal x) := by
      refine ⟨xs.takeWhile isDecimal, xs.dropWhile isDecimal, (List.takeWhile_append_dropWhile).symm,
        fun x hx => isDecimal_spec.1 (takeWhile_mem hx), ?_⟩
      intro x hx hd
      have := dropWhile_head hx
      rw [isDecimal_spec.2 hd] at this; simp at this
    subst hsplit
    have hsk : (c1.skip (fun ch => !isSeparator ch && isDecimal ch)).text = rest := by
      refine Cur.skip_exact h1' (fun x hx => decimal_class.2 (hds x hx)) ?_
      intro x hx
      rw [← Bool.not_eq_true, decimal_class]
      exact hrest x hx
    have he : Ends rest := by
      unfold lexRegister at h
      rw [h1] at h
      dsimp only at h
      rw [if_neg hZ] at h
      split at h
      · simp at h
      · rename_i hs
        refine ends_of_sep (l := 0) (k := 0) (fun hm => hz' (by simp [hm])) ?_
        unfold Cur.peek at hs ⊢
        rw [hsk] at hs
        simpa using hs
    obtain ⟨h5, h6⟩ := lexRegister_digits ht hds he
    rw [h5] at h
    by_cases hne : ds = []
    · subst hne
      by_cases hnf : NumberFollows rest
      · split at h
        · simp only [LexStep.done.injEq, TokRes.exit.injEq] at h
          subst h
          exact .register ht he hnf
        · rename_i hlen
          have := strtoll_follows hnf
          simp at hlen
          omega
      · simp only [List.nil_append, strtoll_none hnf] at h
        simp at h
    · rw [strtoll_digits hne hds hrest] at h
      rw [if_neg (by simp)] at h
      split at h
      · rename_i hrange
        simp only [LexStep.done.injEq, TokRes.exit.injEq] at h
        subst h
        refine .index ht he hne hds ?_
        simp only [saturated, Bool.false_eq_true, if_false] at hrange
        omega
      · simp at h

theorem lexHead_tells {c : Cur} {e : Err} (hz : '\x00' ∉ c.text) (hne : c.text ≠ []) (h : lexHead c = .done (.exit e)) : NoToken c.text e.msg := by
  obtain ⟨x, xs, ht⟩ := List.exists_cons_of_ne_nil hne
  have hp : c.peek = x := Cur.peek_of ht
  unfold lexHead at h
  dsimp only at h
  rw [hp] at h
  split at h
  · split at h <;> simp at h
  · rename_i hop
    split at h
    · rename_i hP
      exact lexPredicate_tells hz (by rw [hp]; exact hP) h
    · split at h
      · rename_i hnum
        rw [Bool.and_eq_true, Bool.or_eq_true] at hnum
        have hstart : ∃ sg neg d tl, c.text = sg ++ d :: tl ∧ Sign sg neg ∧ decimal d := by
          rcases hnum.1 with hd | hs
          · exact ⟨[], false, x, xs, ht, .none, isDecimal_spec.1 hd⟩
          · have hdec : isDecimal c.peek1 = true := by
              by_contra hd
              rw [Bool.not_eq_true] at hd
              apply hop
              rcases plusMinus.1 hs with rfl | rfl <;> simp [isOperator, isContained, hd]
            rw [peek1_of ht] at hdec
            cases xs with
            | nil => exact absurd hdec (by decide)
            | cons y ys =>
              rcases plusMinus.1 hs with rfl | rfl
              · exact ⟨['+'], false, y, ys, ht, .plus, isDecimal_spec.1 hdec⟩
              · exact ⟨['-'], true, y, ys, ht, .minus, isDecimal_spec.1 hdec⟩
        obtain ⟨sg, neg, d, tl, h1, h2, h3⟩ := hstart
        simp only [LexStep.done.injEq] at h
        exact lexNumber_tells hz h1 h2 h3 h
      · split at h
        · rename_i hR
          exact lexRegister_tells hz (hp.trans hR) h
        · simp at h

/-- Where the lexer gives up, there is no token, and the message is true. -/
theorem tokenize_tells {c : Cur} {e : Err} (hz : '\x00' ∉ c.text) (h : tokenize c = .exit e) :
    ∃ c1, Reach c c1 ∧ e.line = c1.line ∧ e.col = c1.col ∧ NoToken c1.text e.msg ∧ ∀ w r k, c1.text = w ++ r → ¬ Lexeme w r k := by
  have h' : tokenizeAux (c.text.length + 1) c = some (.exit e) := by rw [tokenize_eq, h]
  revert h'
  generalize c.text.length + 1 = n
  clear h
  intro h
  induction n generalizing c with
  | zero => simp [tokenizeAux] at h
  | succ n ih =>
    unfold tokenizeAux at h
    dsimp only at h
    have hr := Cur.skip_reach isBlank c
    have hpk := Cur.skip_peek isBlank c (by decide)
    generalize c.skip isBlank = cb at h hr hpk
    have hzb : ∀ c2 : Cur, Reach c c2 → '\x00' ∉ c2.text := by
      rintro c2 ⟨p, hp, -⟩ hm
      exact hz (by rw [hp]; simp [hm])
    split at h
    · simp at h
    · rename_i hne
      split at h
      · rename_i r hh
        simp only [Option.some.injEq] at h
        subst h
        obtain ⟨h1, h2⟩ := lexHead_exit hh
        refine ⟨cb, hr, h1, h2, lexHead_tells (hzb _ hr) hne hh, ?_⟩
        intro w r k hw hl
        have := tokenize_lexeme (hzb _ hr) hw hl
        rw [tokenize_unfold] at this
        dsimp only at this
        rw [Cur.skip_eq_self hpk, if_neg hne, hh] at this
        simp at this
      · rename_i c1 hh
        have hr1 := lexHead_fall hh
        split at h
        · simp at h
        · rename_i c3 hi
          obtain ⟨ha, -, -⟩ := lexIdent_step (.inl hi)
          obtain ⟨c4, h1, h2⟩ := ih (hzb _ (hr.trans (hr1.trans ha))) h
          exact ⟨c4, (hr.trans (hr1.trans ha)).trans h1, h2⟩
        · simp at h

end Nxas
