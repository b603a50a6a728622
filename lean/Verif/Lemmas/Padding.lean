import Verif.Lemmas.Compose
import Verif.Lemmas.Image
/-
Blanks after the last token of a source.
-/

namespace Nxas

open Spec

/-- Where a text ends in blanks, what contains something else reaches less far. -/
theorem split_blanks {a r t b : Str} {c : Char} (h : a ++ r = t ++ b) (hb : ∀ c ∈ b, c ∈ Spec.blanks) (ha : a.getLast? = some c)
    (hc : c ∉ Spec.blanks) : ∃ r', t = a ++ r' ∧ r = r' ++ b := by
  rcases List.append_eq_append_iff.1 h with ⟨x, h1, h2⟩ | ⟨x, h1, h2⟩
  · exact ⟨x, h1, h2⟩
  · cases hx : x.getLast? with
    | none =>
      obtain rfl := List.getLast?_eq_none_iff.1 hx
      exact ⟨[], by rw [h1]; simp, by simpa using h2.symm⟩
    | some y =>
      exfalso
      rw [h1, List.getLast?_append, hx] at ha
      cases ha
      exact hc (hb _ (by rw [h2]; exact List.mem_append_left _ (List.mem_of_getLast? hx)))

theorem ends_pad {b w : Str} (hb : ∀ c ∈ b, c ∈ Spec.blanks) : Ends (w ++ b) ↔ Ends w := by
  cases w with
  | cons x xs => rfl
  | nil =>
    refine ⟨fun _ c hc => by simp at hc, fun _ c hc => ?_⟩
    have : Spec.blanks ⊆ separators := by decide
    exact this (hb c (List.mem_of_head? (by simpa using hc)))

theorem word_pad {v b w : Str} (hb : ∀ c ∈ b, c ∈ Spec.blanks) : Word v (w ++ b) ↔ Word v w := by
  constructor
  · intro h
    cases h with
    | plain h1 h2 h3 h4 he => exact .plain h1 h2 h3 h4 ((ends_pad hb).1 he)
    | dimension h1 h2 he => exact .dimension h1 h2 ((ends_pad hb).1 he)
    | register h1 h2 h3 he => exact .register h1 h2 h3 ((ends_pad hb).1 he)
    | predicate h1 h2 h3 he => exact .predicate h1 h2 h3 ((ends_pad hb).1 he)
  · intro h
    cases h with
    | plain h1 h2 h3 h4 he => exact .plain h1 h2 h3 h4 ((ends_pad hb).2 he)
    | dimension h1 h2 he => exact .dimension h1 h2 ((ends_pad hb).2 he)
    | register h1 h2 h3 he => exact .register h1 h2 h3 ((ends_pad hb).2 he)
    | predicate h1 h2 h3 he => exact .predicate h1 h2 h3 ((ends_pad hb).2 he)

theorem skipped_all {b : Str} (hb : ∀ c ∈ b, c ∈ Spec.blanks) (rest : Str) : Skipped b rest := by
  induction b with
  | nil => exact .nil
  | cons x xs ih => exact .blank (hb x (by simp)) (ih fun c hc => hb c (by simp [hc]))

theorem skipped_pad {s b : Str} (hb : ∀ c ∈ b, c ∈ Spec.blanks) : Skipped (s ++ b) [] ↔ Skipped s [] := by
  constructor
  · intro h
    generalize hx : s ++ b = x at h
    generalize hr : ([] : Str) = rest at h
    induction h generalizing s with
    | nil =>
      obtain rfl : s = [] := (List.append_eq_nil_iff.1 hx).1
      exact .nil
    | @blank c w rest hc _ ih =>
      cases s with
      | nil => exact .nil
      | cons y ys =>
        cases hx
        exact .blank hc (ih rfl hr)
    | @label v w rest hv hl _ ih =>
      subst hr
      obtain ⟨r, rfl, rfl⟩ := split_blanks hx.symm hb hl (by decide)
      refine .label ?_ hl (ih rfl rfl)
      rw [List.append_nil] at hv ⊢
      exact (word_pad hb).1 hv
  · intro h
    generalize hr : ([] : Str) = rest at h
    induction h with
    | nil => subst hr; exact skipped_all hb _
    | blank hc _ ih => exact .blank hc (ih hr)
    | @label v w rest hv hl _ ih =>
      subst hr
      rw [List.append_assoc]
      refine .label ?_ hl (ih rfl)
      rw [List.append_nil] at hv ⊢
      exact (word_pad hb).2 hv

theorem skipped_pad_front {s w b : Str} (hb : ∀ c ∈ b, c ∈ Spec.blanks) : Skipped s (w ++ b) ↔ Skipped s w := by
  constructor
  · intro h
    generalize hr : w ++ b = rest at h
    induction h with
    | nil => exact .nil
    | blank hc _ ih => exact .blank hc (ih hr)
    | @label v u rest hv hl _ ih =>
      subst hr
      refine .label ?_ hl (ih rfl)
      rw [← List.append_assoc] at hv
      exact (word_pad hb).1 hv
  · intro h
    induction h with
    | nil => exact .nil
    | blank hc _ ih => exact .blank hc ih
    | @label v u rest hv hl _ ih =>
      refine .label ?_ hl ih
      rw [← List.append_assoc]
      exact (word_pad hb).2 hv

theorem head_pad {w b : Str} (hb : ∀ c ∈ b, c ∈ Spec.blanks) {P : Char → Prop} (hP : ∀ c ∈ Spec.blanks, P c) :
    (∀ c, (w ++ b).head? = some c → P c) ↔ ∀ c, w.head? = some c → P c := by
  cases w with
  | cons x xs => rfl
  | nil =>
    refine ⟨fun _ c hc => by simp at hc, fun _ c hc => hP c (hb c (List.mem_of_head? (by simpa using hc)))⟩

theorem numberFollows_pad {w b : Str} (hb : ∀ c ∈ b, c ∈ Spec.blanks) : NumberFollows (w ++ b) ↔ NumberFollows w := by
  constructor
  · rintro ⟨bl, sg, neg, d, tl, h1, h2, h3, h4⟩
    rw [show bl ++ sg ++ d :: tl = (bl ++ sg ++ [d]) ++ tl by simp] at h1
    obtain ⟨r, rfl, -⟩ := split_blanks (c := d) h1.symm hb (by simp) (by
      intro hd
      simp only [Spec.blanks, List.mem_cons, List.not_mem_nil, or_false] at hd
      rcases hd with rfl | rfl | rfl | rfl <;> exact absurd h4 (by unfold decimal; decide))
    exact ⟨bl, sg, neg, d, r, by simp, h2, h3, h4⟩
  · rintro ⟨bl, sg, neg, d, tl, rfl, h2, h3, h4⟩
    exact ⟨bl, sg, neg, d, tl ++ b, by simp, h2, h3, h4⟩

theorem decimal_blank {c : Char} (h : c ∈ Spec.blanks) : ¬ decimal c := by
  simp only [Spec.blanks, List.mem_cons, List.not_mem_nil, or_false] at h
  rcases h with rfl | rfl | rfl | rfl <;> (unfold decimal; decide)

theorem lexeme_pad {w rest b : Str} {k : Kind} (hb : ∀ c ∈ b, c ∈ Spec.blanks) : Lexeme w (rest ++ b) k ↔ Lexeme w rest k := by
  have hh : ∀ {P : Char → Prop}, (∀ c ∈ Spec.blanks, P c) → ((∀ c, (rest ++ b).head? = some c → P c) ↔ ∀ c, rest.head? = some c → P c) :=
    fun h => head_pad hb h
  constructor
  · intro h
    cases h with
    | operator h hd => exact .operator h fun hc => (hh fun c hc => decimal_blank hc).1 (hd hc)
    | pred hp hn he => exact .pred hp hn ((ends_pad hb).1 he)
    | int h1 h2 h3 h4 => exact .int h1 h2 ((ends_pad hb).1 h3) ((hh (by decide)).1 h4)
    | float h1 h2 h3 h4 h5 => exact .float h1 h2 h3 h4 ((ends_pad hb).1 h5)
    | zero he => exact .zero ((ends_pad hb).1 he)
    | reg h1 h2 h3 h4 => exact .reg h1 h2 h3 ((ends_pad hb).1 h4)
    | bare he hf => exact .bare ((ends_pad hb).1 he) fun h => hf ((numberFollows_pad hb).2 h)
    | word h hl => exact .word ((word_pad hb).1 h) hl
  · intro h
    cases h with
    | operator h hd => exact .operator h fun hc => (hh fun c hc => decimal_blank hc).2 (hd hc)
    | pred hp hn he => exact .pred hp hn ((ends_pad hb).2 he)
    | int h1 h2 h3 h4 => exact .int h1 h2 ((ends_pad hb).2 h3) ((hh (by decide)).2 h4)
    | float h1 h2 h3 h4 h5 => exact .float h1 h2 h3 h4 ((ends_pad hb).2 h5)
    | zero he => exact .zero ((ends_pad hb).2 he)
    | reg h1 h2 h3 h4 => exact .reg h1 h2 h3 ((ends_pad hb).2 h4)
    | bare he hf => exact .bare ((ends_pad hb).2 he) fun h => hf ((numberFollows_pad hb).1 h)
    | word h hl => exact .word ((word_pad hb).2 h) hl

theorem scans_pad {l : Nat} {t b : Str} {ts : List (Kind × Nat)} (hb : ∀ c ∈ b, c ∈ Spec.blanks)
    (he : ∀ x, ts.getLast? = some x → x.1 = .semicolon) : Scans l (t ++ b) ts ↔ Scans l t ts := by
  constructor
  · intro h
    generalize hx : t ++ b = x at h
    induction h generalizing t with
    | done h => subst hx; exact .done ((skipped_pad hb).1 h)
    | @token l s w rest k ts hs hw h ih =>
      obtain ⟨r, rfl, rfl⟩ : ∃ r, t = s ++ w ++ r ∧ rest = r ++ b := by
        cases ts with
        | nil =>
          obtain rfl : k = .semicolon := he (k, l + lineAfter s) rfl
          obtain rfl := hw.semicolon
          exact split_blanks hx.symm hb (c := ';') (by simp) (by decide)
        | cons z zs =>
          obtain ⟨pre, s', rfl, -, h2⟩ := h.ending fun x hx => he x (by rw [List.getLast?_cons_cons]; exact hx)
          rcases h2 with ⟨h2, -⟩ | ⟨-, h2⟩
          · simp at h2
          · rw [← List.append_assoc] at hx
            obtain ⟨r, rfl, rfl⟩ := split_blanks hx.symm hb (c := ';') (by rw [List.getLast?_append, h2]; rfl) (by decide)
            exact ⟨pre ++ r, by simp, by simp⟩
      refine .token ?_ ((lexeme_pad hb).1 hw) (ih (fun y hy => ?_) rfl)
      · rw [← List.append_assoc] at hs
        exact (skipped_pad_front hb).1 hs
      · cases ts with
        | nil => simp at hy
        | cons z zs => exact he y (by rw [List.getLast?_cons_cons]; exact hy)
  · intro h
    induction h with
    | done h => exact .done ((skipped_pad hb).2 h)
    | @token l s w rest k ts hs hw h ih =>
      rw [List.append_assoc]
      refine .token (by rw [← List.append_assoc]; exact (skipped_pad_front hb).2 hs) ((lexeme_pad hb).2 hw) (ih fun y hy => ?_)
      cases ts with
      | nil => simp at hy
      | cons z zs => exact he y (by rw [List.getLast?_cons_cons]; exact hy)

theorem defAt_pad {t b pre name : Str} (hb : ∀ c ∈ b, c ∈ Spec.blanks) : DefAt (t ++ b) pre name ↔ DefAt t pre name := by
  constructor
  · rintro ⟨h1, h2, rest, h3⟩
    rw [show pre ++ name ++ ':' :: rest = (pre ++ name ++ [':']) ++ rest by simp] at h3
    obtain ⟨r, rfl, -⟩ := split_blanks (c := ':') h3.symm hb (by simp) (by decide)
    exact ⟨h1, h2, r, by simp⟩
  · rintro ⟨h1, h2, rest, h3⟩
    exact ⟨h1, h2, rest ++ b, by rw [h3]; simp⟩

theorem isLabelMap_pad {t b : Str} (hb : ∀ c ∈ b, c ∈ Spec.blanks) {lab : Str → Option Nat} : IsLabelMap (t ++ b) lab ↔ IsLabelMap t lab := by
  unfold IsLabelMap FirstDef
  simp only [defAt_pad hb]

theorem assembles_pad {t b : Str} (hb : ∀ c ∈ b, c ∈ Spec.blanks) {ws : List (BitVec 64)} : Assembles (t ++ b) ws ↔ Assembles t ws := by
  constructor
  · rintro ⟨lab, ts, ops, o, h1, h2, h3, h4⟩
    exact ⟨lab, ts, ops, o, (isLabelMap_pad hb).1 h1, (scans_pad hb h3.ending).1 h2, h3, h4⟩
  · rintro ⟨lab, ts, ops, o, h1, h2, h3, h4⟩
    exact ⟨lab, ts, ops, o, (isLabelMap_pad hb).2 h1, (scans_pad hb h3.ending).2 h2, h3, h4⟩

end Nxas
