import Verif.Spec.Written
import Verif.Lemmas.Floats
import Verif.Lemmas.Digits
import Verif.Lemmas.Compose
import Verif.Lemmas.Image
/-
Tokens are written as text.
-/

namespace Nxas

open Spec

/-- What follows a written token. -/
def Gap (rest : Str) : Prop := ∀ c, rest.head? = some c → c = ' ' ∨ c = '\n'

theorem Gap.ends {rest : Str} (h : Gap rest) : Ends rest := by
  intro c hc
  rcases h c hc with rfl | rfl <;> simp [separators]

theorem Gap.noDigit {rest : Str} (h : Gap rest) : ∀ d, rest.head? = some d → ¬ decimal d := by
  intro c hc
  rcases h c hc with rfl | rfl <;> unfold decimal <;> decide

theorem _root_.Nxas.Spec.Word.change {w r r' : Str} (h : Word w r) (he : Ends r') : Word w r' := by
  cases h with
  | plain h1 h2 h3 h4 _ => exact .plain h1 h2 h3 h4 he
  | dimension h1 h2 _ => exact .dimension h1 h2 he
  | register h1 h2 h3 _ => exact .register h1 h2 h3 he
  | predicate h1 h2 h3 _ => exact .predicate h1 h2 h3 he

theorem decimal_plain {w : Str} (h : ∀ c ∈ w, decimal c) : lineAfter w = 0 ∧ '\x00' ∉ w := by
  constructor
  · unfold lineAfter
    rw [List.count_eq_zero]
    intro hm
    exact absurd (h _ hm) (by unfold decimal; decide)
  · intro hm
    exact absurd (h _ hm) (by unfold decimal; decide)

/-! ### Floating point numbers -/

theorem numeral_zeros (b n : Nat) (s : Str) : numeral b (List.replicate n '0' ++ s) = numeral b s := by
  induction n with
  | zero => rfl
  | succ n ih =>
    rw [List.replicate_succ, List.cons_append]
    show digit '0' * _ + numeral b _ = _
    rw [ih]
    have : digit '0' = 0 := by decide
    rw [this]; simp

/-- Every pattern up to infinity is the one nearest to some decimal fraction. -/
theorem roundRat_exact {n : Nat} (h : n ≤ 0x7F800000) : roundRat 23 127 0x7F800000 (sig 23 n * 5 ^ 149) (10 ^ 149) = n := by
  have h1 := roundRat_nearest (p := 23) (bias := 127) (inf := 0x7F800000) (num := sig 23 n * 5 ^ 149) (den := 10 ^ 149) (by decide)
    (by decide) (by decide) (Nat.pow_pos (by decide))
  have hx : (((sig 23 n * 5 ^ 149 : Nat) : ℚ) / ((10 ^ 149 : Nat) : ℚ)) = magnitude 23 127 n := by
    rw [magnitude_sig (by decide)]
    rw [show (10 : Nat) ^ 149 = 2 ^ 149 * 5 ^ 149 by decide, Nat.cast_mul, Nat.cast_mul]
    rw [mul_div_mul_right _ _ (by positivity)]
    rw [Nat.cast_pow]
    rfl
  rw [hx] at h1
  refine Nearest.unique (by decide) h1 ⟨h, fun k hk => ⟨by simp, fun hne he => ?_⟩⟩
  exfalso
  apply hne
  rw [sub_self, abs_zero, abs_eq_zero, sub_eq_zero, magnitude_sig (by decide), magnitude_sig (by decide)] at he
  rw [div_left_inj' (by positivity)] at he
  exact (sig_strictMono 23).injective (by exact_mod_cast he)

/-- The digits of a decimal fraction with 149 digits after the dot. -/
def fractionDigits (n : Nat) : Str := List.replicate 150 '0' ++ Nat.toDigits 10 (sig 23 n * 5 ^ 149)

theorem toDigits_decimal' (n : Nat) : ∀ c ∈ Nat.toDigits 10 n, decimal c := by
  intro c hc
  obtain ⟨k, hk, rfl⟩ := toDigits_chars (by decide) n c hc
  have : ∀ k < 10, decimal k.digitChar := by unfold decimal; decide
  exact this k hk

theorem float_written (b : BitVec 32) (h : b.toNat % 2 ^ 31 ≤ 0x7F800000) :
    ∃ w, lineAfter w = 0 ∧ '\x00' ∉ w ∧ ∀ rest, Gap rest → Lexeme w rest (.fimm b) := by
  generalize hn : b.toNat % 2 ^ 31 = n at h
  have hds : ∀ c ∈ fractionDigits n, decimal c := by
    intro c hc
    rcases List.mem_append.1 hc with hc | hc
    · rw [List.eq_of_mem_replicate hc]; unfold decimal; decide
    · exact toDigits_decimal' _ c hc
  have hlen : 149 < (fractionDigits n).length := by
    unfold fractionDigits
    rw [List.length_append, List.length_replicate]
    omega
  obtain ⟨ip, fp, hsplit, hfp⟩ : ∃ ip fp, fractionDigits n = ip ++ fp ∧ fp.length = 149 :=
    ⟨_, _, (List.take_append_drop ((fractionDigits n).length - 149) _).symm, by rw [List.length_drop]; omega⟩
  have hip : ip ≠ [] := by
    rintro rfl
    rw [hsplit] at hlen
    simp [hfp] at hlen
  have h1 : ∀ c ∈ ip, decimal c := fun c hc => hds c (by rw [hsplit]; exact List.mem_append.2 (.inl hc))
  have h2 : ∀ c ∈ fp, decimal c := fun c hc => hds c (by rw [hsplit]; exact List.mem_append.2 (.inr hc))
  have hnum : numeral 10 (ip ++ fp) = sig 23 n * 5 ^ 149 := by
    rw [← hsplit]
    unfold fractionDigits
    rw [numeral_zeros, numeral_toDigits (by decide) (by decide)]
  have hval : f32OfRat (2 ^ 31 ≤ b.toNat) (numeral 10 (ip ++ fp)) (10 ^ fp.length) = b := by
    unfold f32OfRat
    rw [hnum, hfp, roundRat_exact h]
    apply BitVec.eq_of_toNat_eq
    rw [BitVec.toNat_ofNat, ← hn]
    have := b.isLt
    simp only [decide_eq_true_eq]
    split <;> omega
  obtain ⟨sg, hsg, q1, q2⟩ : ∃ sg, Sign sg (2 ^ 31 ≤ b.toNat) ∧ lineAfter sg = 0 ∧ '\x00' ∉ sg := by
    cases decide (2 ^ 31 ≤ b.toNat)
    · exact ⟨[], .none, by decide, by decide⟩
    · exact ⟨['-'], .minus, by decide, by decide⟩
  have d1 := decimal_plain h1
  have d2 := decimal_plain h2
  refine ⟨sg ++ ip ++ '.' :: fp, ?_, ?_, fun rest hr => ?_⟩
  · rw [lineAfter_append, lineAfter_append, show '.' :: fp = ['.'] ++ fp from rfl, lineAfter_append, q1, d1.1, d2.1]
    decide
  · simp only [List.mem_append, List.mem_cons, not_or]
    exact ⟨⟨q2, d1.2⟩, by decide, d2.2⟩
  · have := Lexeme.float (rest := rest) hsg hip h1 h2 hr.ends
    rwa [hval] at this

/-! ### Tokens -/

theorem writable_text {k : Kind} (h : Writable k) :
    ∃ w, lineAfter w = height k ∧ '\x00' ∉ w ∧ ∀ rest, Gap rest → Lexeme w rest k := by
  have hop : ∀ {c : Char} {k : Kind}, (c, k) ∈ operators → height k = 0 →
      ∃ w, lineAfter w = height k ∧ '\x00' ∉ w ∧ ∀ rest, Gap rest → Lexeme w rest k := by
    intro c k hm hk
    refine ⟨[c], ?_, ?_, fun rest hr => .operator hm fun _ => hr.noDigit⟩
    · rw [hk]
      have : ∀ x ∈ operators, lineAfter [x.1] = 0 := by decide
      exact this _ hm
    · have : ∀ x ∈ operators, '\x00' ∉ [x.1] := by decide
      exact this _ hm
  cases k with
  | none => exact h.elim
  | ident s => exact ⟨s, rfl, h.2.2, fun rest hr => .word (h.1.change hr.ends) h.2.1⟩
  | reg n =>
    unfold Writable at h
    by_cases hn : n = 255
    · subst hn
      exact ⟨c!"RZ", by decide, by decide, fun rest hr => .zero hr.ends⟩
    · have hd := toDigits_decimal' n
      have hp := decimal_plain hd
      refine ⟨'R' :: Nat.toDigits 10 n, ?_, ?_, fun rest hr => ?_⟩
      · rw [show 'R' :: Nat.toDigits 10 n = ['R'] ++ Nat.toDigits 10 n from rfl, lineAfter_append, hp.1]; rfl
      · simp only [List.mem_cons, not_or]
        exact ⟨by decide, hp.2⟩
      · have hv := numeral_toDigits (b := 10) (by decide) (by decide) n
        have := Lexeme.reg (rest := rest) Nat.toDigits_ne_nil hd (by rw [hv]; omega) hr.ends
        rwa [hv] at this
  | pred i n =>
    unfold Writable at h
    obtain ⟨p, hp, q1, q2⟩ : ∃ p, PredPrefix p n ∧ lineAfter p = 0 ∧ '\x00' ∉ p := by
      cases n
      · exact ⟨['P'], .pos (.inl rfl), by decide, by decide⟩
      · exact ⟨['!', 'P'], .neg (.inl rfl), by decide, by decide⟩
    obtain ⟨c, hc, q3, q4⟩ : ∃ c, PredName c i ∧ lineAfter [c] = 0 ∧ '\x00' ∉ [c] := by
      by_cases hi : i = 7
      · subst hi; exact ⟨'T', .true (.inl rfl), by decide, by decide⟩
      · have : ∀ j < 7, ∃ c ∈ c!"0123456", (('0' ≤ c ∧ c ≤ '6') ∧ digit c = j) ∧ lineAfter [c] = 0 ∧ '\x00' ∉ [c] := by decide
        obtain ⟨c, -, ⟨h1, rfl⟩, h2, h3⟩ := this i (by omega)
        exact ⟨c, .index h1, h2, h3⟩
    refine ⟨p ++ [c], ?_, ?_, fun rest hr => .pred hp hc hr.ends⟩
    · rw [lineAfter_append, q1, q3]; rfl
    · rw [List.mem_append, not_or]; exact ⟨q2, q4⟩
  | imm v =>
    obtain ⟨h1, h2⟩ := h
    have hd := toDigits_decimal' v.natAbs
    have hp := decimal_plain hd
    obtain ⟨sg, hsg, q1, q2⟩ : ∃ sg, Sign sg (decide (v < 0)) ∧ lineAfter sg = 0 ∧ '\x00' ∉ sg := by
      cases decide (v < 0)
      · exact ⟨[], .none, by decide, by decide⟩
      · exact ⟨['-'], .minus, by decide, by decide⟩
    refine ⟨sg ++ Nat.toDigits 10 v.natAbs, ?_, ?_, fun rest hr => ?_⟩
    · rw [lineAfter_append, q1, hp.1]; rfl
    · rw [List.mem_append, not_or]; exact ⟨q2, hp.2⟩
    · have := Lexeme.int (rest := rest) hsg (intLit_dec v.natAbs) hr.ends (fun c hc => by rcases hr c hc with rfl | rfl <;> decide)
      have he : saturated (decide (v < 0)) v.natAbs = v := by
        unfold saturated
        simp only [decide_eq_true_eq]
        split <;> omega
      rwa [he] at this
  | fimm b => exact float_written b h
  | plus => exact hop (c := '+') (by decide) rfl
  | minus => exact hop (c := '-') (by decide) rfl
  | tilde => exact hop (c := '~') (by decide) rfl
  | vbar => exact hop (c := '|') (by decide) rfl
  | lbracket => exact hop (c := '[') (by decide) rfl
  | rbracket => exact hop (c := ']') (by decide) rfl
  | «at» => exact hop (c := '@') (by decide) rfl
  | semicolon => exact hop (c := ';') (by decide) rfl
  | comma => exact hop (c := ',') (by decide) rfl

theorem skipped_blanks {s rest : Str} (h : ∀ c ∈ s, c ∈ blanks) : Skipped s rest := by
  induction s with
  | nil => exact .nil
  | cons c s ih => exact .blank (h c (by simp)) (ih fun x hx => h x (by simp [hx]))

theorem _root_.Nxas.Spec.Skipped.blanks {s rest : Str} (h : Skipped s rest) (n : Nat) : Skipped (List.replicate n '\n' ++ s) rest := by
  induction n with
  | zero => exact h
  | succ n ih => rw [List.replicate_succ]; exact .blank (by decide) ih

theorem append_cons_cases {a b pre rest : Str} {c : Char} (h : a ++ b = pre ++ c :: rest) :
    (∃ r, a = pre ++ c :: r ∧ rest = r ++ b) ∨ ∃ p, b = p ++ c :: rest ∧ pre = a ++ p := by
  rw [List.append_eq_append_iff] at h
  rcases h with ⟨as, h1, h2⟩ | ⟨bs, h1, h2⟩
  · exact .inr ⟨as, h2, h1⟩
  · cases bs with
    | nil => exact .inr ⟨[], by simpa using h2.symm, by simpa using h1.symm⟩
    | cons x bs =>
      simp only [List.cons_append, List.cons.injEq] at h2
      obtain ⟨rfl, rfl⟩ := h2
      exact .inl ⟨bs, h1, rfl⟩

/-- The blanks in front of a token. -/
def lead (n : Nat) : Str := List.replicate n '\n' ++ [' ']

theorem lead_blanks (n : Nat) : ∀ c ∈ lead n, c ∈ blanks := by
  intro c hc
  rcases List.mem_append.1 hc with hc | hc
  · rw [List.eq_of_mem_replicate hc]; decide
  · simp only [List.mem_singleton] at hc; subst hc; decide

theorem lineAfter_replicate (n : Nat) : lineAfter (List.replicate n '\n') = n := by
  unfold lineAfter
  rw [List.count_replicate]
  simp

theorem lead_line (n : Nat) : lineAfter (lead n) = n := by
  unfold lead
  rw [lineAfter_append, lineAfter_replicate]
  rfl

theorem gap_lines {n : Nat} (h : 0 < n) (r : Str) : Gap (List.replicate n '\n' ++ r) := by
  intro c hc
  cases n with
  | zero => omega
  | succ n => rw [List.replicate_succ] at hc; right; simpa using hc.symm

theorem gap_lead (n : Nat) (r : Str) : Gap (lead n ++ r) := by
  unfold lead
  cases n with
  | zero => intro c hc; left; simpa using hc.symm
  | succ n => rw [List.append_assoc]; exact gap_lines (by omega) _

theorem lead_no_nul (n : Nat) : '\x00' ∉ lead n := fun hc => absurd (lead_blanks n _ hc) (by decide)

/-- What follows a line end in front of a token is blank. -/
theorem lead_gap {n : Nat} {pre r : Str} (h : lead n = pre ++ '\n' :: r) (t : Str) : Gap (r ++ t) := by
  unfold lead at h
  rcases append_cons_cases h with ⟨r', e2, rfl⟩ | ⟨p, e2, -⟩
  · have hm : ∀ c ∈ r', c = '\n' := by
      intro c hc
      apply List.eq_of_mem_replicate (n := n)
      rw [e2]
      exact List.mem_append.2 (.inr (List.mem_cons_of_mem _ hc))
    intro c hc
    cases r' with
    | nil => left; simpa using hc.symm
    | cons y r' =>
      right
      have := hm y (by simp)
      subst this
      simpa using hc.symm
  · exfalso
    have := congrArg List.length e2
    rw [List.length_append] at this
    cases p with
    | nil => simp at e2
    | cons y p => simp at this; omega

/-- A token in front of a text that is scanned. -/
theorem scans_lead {l l' : Nat} {w t : Str} {k : Kind} {ts : List (Kind × Nat)} (hl : l ≤ l') (hw : Lexeme w t k)
    (hh : lineAfter w = height k) (h : Scans (l' + height k) t ts) : Scans l (lead (l' - l) ++ w ++ t) ((k, l') :: ts) := by
  have := Scans.token (l := l) (s := lead (l' - l)) (w := w) (rest := t) (k := k) (ts := ts)
    (skipped_blanks (lead_blanks _)) hw (by
      rw [lineAfter_append, lead_line, hh]
      rwa [show l + (l' - l + height k) = l' + height k by omega])
  rw [lead_line] at this
  rwa [show l + (l' - l) = l' by omega] at this

/-- Tokens that can be written are written. -/
theorem written_text {l : Nat} {ts : List (Kind × Nat)} (h : Written l ts) : ∃ t, Gap t ∧ '\x00' ∉ t ∧ Scans l t ts := by
  induction ts generalizing l with
  | nil => exact ⟨[], by simp [Gap], by simp, .done .nil⟩
  | cons x ts ih =>
    obtain ⟨k, l'⟩ := x
    obtain ⟨hl, hk, hts⟩ := h
    obtain ⟨w, w1, w2, w3⟩ := writable_text hk
    obtain ⟨t, t1, t2, t3⟩ := ih hts
    refine ⟨lead (l' - l) ++ w ++ t, ?_, ?_, scans_lead hl (w3 t t1) w1 t3⟩
    · rw [List.append_assoc]; exact gap_lead _ _
    · rw [List.mem_append, List.mem_append, not_or, not_or]
      exact ⟨⟨lead_no_nul _, w2⟩, t2⟩

/-! ### Labels -/

theorem letter_gap {c : Char} (h : letter c) : ¬ (c = ' ' ∨ c = '\n') := by
  rintro (rfl | rfl) <;> revert h <;> unfold letter <;> decide

/-- Where a label is defined, if the text does not begin with a word. -/
theorem defAt_iff {t pre name : Str} (hg : Gap t) :
    DefAt t pre name ↔ IsName name ∧ ∃ q rest, pre = q ++ ['\n'] ∧ t = q ++ '\n' :: (name ++ ':' :: rest) := by
  constructor
  · rintro ⟨h1, hn, rest, h2⟩
    refine ⟨hn, ?_⟩
    rcases h1 with rfl | h1
    · exfalso
      obtain ⟨⟨c, cs, rfl, hc⟩, -⟩ := hn
      exact letter_gap hc (hg c (by rw [h2]; rfl))
    · rw [List.getLast?_eq_some_iff] at h1
      obtain ⟨q, rfl⟩ := h1
      exact ⟨q, rest, rfl, by rw [h2]; simp⟩
  · rintro ⟨hn, q, rest, rfl, h2⟩
    exact ⟨.inr (by simp), hn, rest, by rw [h2]; simp⟩

theorem gap_no_name {name rest : Str} (hn : IsName name) : ¬ Gap (name ++ rest) := by
  intro h
  obtain ⟨⟨c, cs, rfl, hc⟩, -⟩ := hn
  exact letter_gap hc (h c rfl)

/-- In front of a text, a piece without words at the beginning of lines defines no labels. -/
theorem defAt_token {p t : Str} (hg : Gap (p ++ t)) (ht : Gap t) (hp : ∀ pre rest, p = pre ++ '\n' :: rest → Gap (rest ++ t))
    {pre name : Str} : DefAt (p ++ t) pre name ↔ ∃ q, pre = p ++ q ∧ DefAt t q name := by
  rw [defAt_iff hg]
  constructor
  · rintro ⟨hn, q, rest, rfl, h2⟩
    rcases append_cons_cases h2 with ⟨r, e1, e2⟩ | ⟨q', e1, rfl⟩
    · have := hp _ _ e1
      rw [← e2] at this
      exact absurd this (gap_no_name hn)
    · exact ⟨q' ++ ['\n'], by simp, (defAt_iff ht).2 ⟨hn, q', rest, rfl, e1⟩⟩
  · rintro ⟨q, rfl, h⟩
    obtain ⟨hn, q', rest, rfl, h2⟩ := (defAt_iff ht).1 h
    exact ⟨hn, p ++ q', rest, by simp, by rw [h2]; simp⟩

theorem name_colon {a b x y : Str} (ha : IsName a) (hb : IsName b) (h : a ++ ':' :: x = b ++ ':' :: y) : a = b := by
  have hc : ∀ {w : Str}, IsName w → ':' ∉ w := by
    intro w hw hm
    have := hw.2 _ hm
    revert this
    unfold wordChar letter
    decide
  rcases append_cons_cases h with ⟨r, rfl, -⟩ | ⟨p, h1, rfl⟩
  · exact absurd (by simp) (hc ha)
  · cases p with
    | nil => simp
    | cons z p =>
      simp only [List.cons_append, List.cons.injEq] at h1
      obtain ⟨rfl, -⟩ := h1
      exact absurd (by simp) (hc hb)

/-- A line that begins with a label, in front of a text. -/
theorem defAt_label {n : Nat} {nm t : Str} (hpos : 0 < n) (hnm : IsName nm) (ht : Gap t) {pre name : Str} :
    DefAt (List.replicate n '\n' ++ (nm ++ [':']) ++ t) pre name ↔
      (pre = List.replicate n '\n' ∧ name = nm) ∨
        ∃ q, pre = List.replicate n '\n' ++ (nm ++ [':']) ++ q ∧ DefAt t q name := by
  have hg : Gap (List.replicate n '\n' ++ (nm ++ [':']) ++ t) := by
    rw [List.append_assoc]; exact gap_lines hpos _
  rw [defAt_iff hg]
  have hnl : '\n' ∉ nm ++ [':'] := by
    intro hm
    rcases List.mem_append.1 hm with hm | hm
    · have := hnm.2 _ hm
      revert this
      unfold wordChar letter
      decide
    · revert hm; decide
  constructor
  · rintro ⟨hn, q, rest, rfl, h2⟩
    rcases append_cons_cases h2 with ⟨r, e1, e2⟩ | ⟨q', e1, rfl⟩
    · rcases append_cons_cases e1 with ⟨r', e3, rfl⟩ | ⟨q', e3, rfl⟩
      · left
        have hm : ∀ c ∈ r', c = '\n' := by
          intro c hc
          apply List.eq_of_mem_replicate (n := n)
          rw [e3]
          exact List.mem_append.2 (.inr (List.mem_cons_of_mem _ hc))
        cases r' with
        | cons y r' =>
          exfalso
          have := hm y (by simp)
          subst this
          apply gap_no_name (rest := ':' :: rest) hn
          rw [e2]
          intro c hc
          right
          simpa using hc.symm
        | nil =>
          refine ⟨e3.symm, ?_⟩
          rw [List.nil_append, List.append_assoc] at e2
          exact name_colon hn hnm e2
      · exact absurd (by rw [e3]; simp) hnl
    · exact .inr ⟨q' ++ ['\n'], by simp, (defAt_iff ht).2 ⟨hn, q', rest, rfl, e1⟩⟩
  · rintro (⟨rfl, rfl⟩ | ⟨q, rfl, h⟩)
    · obtain ⟨m, rfl⟩ : ∃ m, n = m + 1 := ⟨n - 1, by omega⟩
      exact ⟨hnm, List.replicate m '\n', t, by rw [List.replicate_succ'], by rw [List.replicate_succ']; simp⟩
    · obtain ⟨hn, q', rest, rfl, h2⟩ := (defAt_iff ht).1 h
      exact ⟨hn, List.replicate n '\n' ++ (nm ++ [':']) ++ q', rest, by simp, by rw [h2]; simp⟩

theorem _root_.Nxas.Spec.FirstDef.unique {t name p q : Str} (h1 : FirstDef t p name) (h2 : FirstDef t q name) : p = q := by
  have hl : p.length = q.length := Nat.le_antisymm (h1.2 q h2.1) (h2.2 p h1.1)
  obtain ⟨-, -, r1, e1⟩ := h1.1
  obtain ⟨-, -, r2, e2⟩ := h2.1
  rw [e1, List.append_assoc, List.append_assoc] at e2
  exact (List.append_inj e2 hl).1

theorem intLit_chars {ds : Str} {v : Nat} (h : IntLit ds v) : ∀ c ∈ ds, hexadecimal c ∨ c ∈ ['x', 'X'] := by
  intro c hc
  cases h with
  | dec h1 _ h2 =>
    rcases List.mem_cons.1 hc with rfl | hc
    · exact .inl (.inl h1)
    · exact .inl (.inl (h2 c hc))
  | oct h1 =>
    rcases List.mem_cons.1 hc with rfl | hc
    · exact .inl (.inl (by unfold decimal; decide))
    · exact .inl (.inl (octal.dec (h1 c hc)))
  | hex hx _ h1 =>
    rcases List.mem_cons.1 hc with rfl | hc
    · exact .inl (.inl (by unfold decimal; decide))
    · rcases List.mem_cons.1 hc with rfl | hc
      · exact .inr (by rcases hx with rfl | rfl <;> simp)
      · exact .inl (h1 c hc)

theorem count_lexeme {w rest : Str} {k : Kind} (h : Lexeme w rest k) (ht : Tidy k) :
    w.count ';' = if k = .semicolon then 1 else 0 := by
  have hsg : ∀ {sg : Str} {neg : Bool}, Sign sg neg → sg.count ';' = 0 := by
    rintro _ _ (_ | _ | _) <;> decide
  have hcount : ∀ {w : Str}, (∀ c ∈ w, hexadecimal c ∨ c ∈ ['x', 'X']) → w.count ';' = 0 := by
    intro w hw
    rw [List.count_eq_zero]
    intro hm
    rcases hw _ hm with h | h
    · revert h; unfold hexadecimal decimal; decide
    · revert h; decide
  have hdec : ∀ {w : Str}, (∀ c ∈ w, decimal c) → w.count ';' = 0 := fun h => hcount fun c hc => .inl (.inl (h c hc))
  cases h with
  | @operator c k _ hm _ =>
    have : ∀ x ∈ operators, [x.1].count ';' = if x.2 = .semicolon then 1 else 0 := by decide
    exact this _ hm
  | @pred p _ neg c i hp hn _ =>
    rw [if_neg (by simp), List.count_append]
    have h1 : p.count ';' = 0 := by
      cases hp with
      | pos h => rcases h with rfl | rfl <;> decide
      | neg h => rcases h with rfl | rfl <;> decide
    have h2 : [c].count ';' = 0 := by
      cases hn with
      | true h => rcases h with rfl | rfl <;> decide
      | index h =>
        apply hdec
        intro x hx
        simp only [List.mem_singleton] at hx
        subst hx
        exact ⟨h.1, Char.le_trans h.2 (by decide)⟩
    omega
  | @int sg ds _ neg v hs hv _ _ =>
    rw [if_neg (by simp), List.count_append, hsg hs, Nat.zero_add]
    apply hcount
    exact intLit_chars hv
  | @float sg ip fp _ neg hs _ h1 h2 _ =>
    rw [if_neg (by simp), List.count_append, List.count_append, hsg hs, hdec h1, show '.' :: fp = ['.'] ++ fp from rfl, List.count_append,
      hdec h2]
    decide
  | zero _ => decide
  | @reg ds _ _ h hv _ =>
    rw [if_neg (by simp), show 'R' :: ds = ['R'] ++ ds from rfl, List.count_append, hdec h]; decide
  | bare _ _ => decide
  | @word w _ h hl =>
    rw [if_neg (by simp)]
    exact List.count_eq_zero.2 ht.2

/-- Items that are laid out are written. -/
theorem laid_text {l : Nat} {items : List Item} (h : Laid l items) :
    ∃ t, Gap t ∧ '\x00' ∉ t ∧ Scans l t (tokensOf items) ∧
      ∀ i name a, labelAt i items name = some a ↔ ∃ pre, FirstDef t pre name ∧ a = addressOf (i + pre.count ';') := by
  induction items generalizing l with
  | nil =>
    refine ⟨[], by simp [Gap], by simp, .done .nil, fun i name a => ⟨fun h => by simp [labelAt] at h, ?_⟩⟩
    rintro ⟨pre, ⟨⟨-, -, rest, h⟩, -⟩, -⟩
    simp at h
  | cons x items ih =>
    cases x with
    | token k l' =>
      obtain ⟨hl, hk, hti, hr⟩ := h
      obtain ⟨w, w1, w2, w3⟩ := writable_text hk
      obtain ⟨t, t1, t2, t3, t4⟩ := ih hr
      have h0 : height k = 0 := by
        cases k <;> try rfl
        exact List.count_eq_zero.2 hti.1
      have hgap : Gap (lead (l' - l) ++ w ++ t) := by rw [List.append_assoc]; exact gap_lead _ _
      have hiff : ∀ {pre name : Str}, DefAt (lead (l' - l) ++ w ++ t) pre name ↔ ∃ q, pre = (lead (l' - l) ++ w) ++ q ∧ DefAt t q name := by
        intro pre name
        apply defAt_token hgap t1
        intro pre rest he
        rcases append_cons_cases he with ⟨r, e1, rfl⟩ | ⟨q, e1, -⟩
        · rw [List.append_assoc]; exact lead_gap e1 _
        · exfalso
          rw [h0] at w1
          exact List.count_eq_zero.1 w1 (by rw [e1]; simp)
      have hcount : (lead (l' - l) ++ w).count ';' = if k = .semicolon then 1 else 0 := by
        rw [List.count_append, count_lexeme (w3 t t1) hti]
        have : (lead (l' - l)).count ';' = 0 :=
          List.count_eq_zero.2 fun hc => absurd (lead_blanks _ _ hc) (by decide)
        omega
      refine ⟨lead (l' - l) ++ w ++ t, hgap, ?_, scans_lead hl (w3 t t1) w1 (by rwa [h0]), fun i name a => ?_⟩
      · rw [List.mem_append, List.mem_append, not_or, not_or]
        exact ⟨⟨lead_no_nul _, w2⟩, t2⟩
      · show labelAt (if k = .semicolon then i + 1 else i) items name = some a ↔ _
        rw [t4]
        have hi : ∀ q : Str, (if k = .semicolon then i + 1 else i) + q.count ';' = i + (lead (l' - l) ++ w ++ q).count ';' := by
          intro q
          rw [List.count_append, hcount]
          split <;> omega
        constructor
        · rintro ⟨q, hq, rfl⟩
          refine ⟨lead (l' - l) ++ w ++ q, ⟨hiff.2 ⟨q, rfl, hq.1⟩, fun p' hp' => ?_⟩, by rw [hi]⟩
          obtain ⟨q', rfl, hq'⟩ := hiff.1 hp'
          have := hq.2 q' hq'
          simp only [List.length_append]
          omega
        · rintro ⟨p, hp, rfl⟩
          obtain ⟨q, rfl, hq⟩ := hiff.1 hp.1
          refine ⟨q, ⟨hq, fun q' hq' => ?_⟩, by rw [hi]⟩
          have := hp.2 _ (hiff.2 ⟨q', rfl, hq'⟩)
          simp only [List.length_append] at this
          omega
    | label nm l' =>
      obtain ⟨hl, hnm, hw, hr⟩ := h
      obtain ⟨t, t1, t2, t3, t4⟩ := ih hr
      have hpos : 0 < l' - l := by omega
      have hiff : ∀ {pre name : Str}, _ := fun {pre name} => defAt_label (n := l' - l) hpos hnm t1 (pre := pre) (name := name)
      generalize hP : List.replicate (l' - l) '\n' ++ (nm ++ [':']) = P at hiff
      have hword : ∀ c ∈ nm ++ [':'], wordChar c ∨ c = ':' := by
        intro c hc
        rcases List.mem_append.1 hc with hc | hc
        · exact .inl (hnm.2 c hc)
        · exact .inr (by simpa using hc)
      have hcol : ∀ x ∈ ['\n', ';', '\x00'], x ∉ nm ++ [':'] := by
        intro x hx hm
        have := hword x hm
        simp only [List.mem_cons, List.not_mem_nil, or_false] at hx
        rcases hx with rfl | rfl | rfl <;> revert this <;> unfold wordChar letter <;> decide
      have hcount : P.count ';' = 0 := by
        rw [← hP, List.count_eq_zero, List.mem_append, not_or]
        exact ⟨fun hm => absurd (List.eq_of_mem_replicate hm) (by decide), hcol _ (by simp)⟩
      have hrep : (List.replicate (l' - l) '\n').count ';' = 0 :=
        List.count_eq_zero.2 fun hm => absurd (List.eq_of_mem_replicate hm) (by decide)
      have hlen : (List.replicate (l' - l) '\n').length < P.length := by
        rw [← hP]; simp only [List.length_append, List.length_cons]; omega
      have hline : lineAfter P = l' - l := by
        rw [← hP, lineAfter_append, lineAfter_replicate]
        have : lineAfter (nm ++ [':']) = 0 := List.count_eq_zero.2 (hcol _ (by simp))
        omega
      refine ⟨P ++ t, ?_, ?_, ?_, fun i name a => ?_⟩
      · rw [← hP, List.append_assoc]; exact gap_lines hpos _
      · rw [List.mem_append, not_or]
        refine ⟨?_, t2⟩
        rw [← hP, List.mem_append, not_or]
        exact ⟨fun hm => absurd (List.eq_of_mem_replicate hm) (by decide), hcol _ (by simp)⟩
      · have hskip : ∀ r, Ends r → ∀ {s r'}, r = s ++ r' → Skipped s r' → Skipped (P ++ s) r' := by
          intro r he s r' hrs hs
          rw [← hP, List.append_assoc]
          have : Skipped ((nm ++ [':']) ++ s) r' := .label (hw.change (by rwa [← hrs])) (by simp) hs
          exact this.blanks _
        show Scans l (P ++ t) (tokensOf items)
        obtain ⟨ts, hts⟩ : ∃ ts, tokensOf items = ts := ⟨_, rfl⟩
        rw [hts] at t3 ⊢
        cases t3 with
        | done hs => exact .done (hskip t t1.ends (by simp) hs)
        | @token _ s w rest k ts hs hw' hts' =>
          have := Scans.token (l := l) (s := P ++ s) (hskip _ t1.ends (by simp) hs) hw' (by
            rw [List.append_assoc, lineAfter_append, hline]
            rwa [← Nat.add_assoc, show l + (l' - l) = l' by omega])
          rw [lineAfter_append, hline, ← Nat.add_assoc, show l + (l' - l) = l' by omega] at this
          simpa [List.append_assoc] using this
      · show (if nm = name then some (addressOf i) else labelAt i items name) = some a ↔ _
        by_cases he : nm = name
        · subst he
          rw [if_pos rfl]
          have hf : FirstDef (P ++ t) (List.replicate (l' - l) '\n') nm := by
            refine ⟨hiff.2 (.inl ⟨rfl, rfl⟩), fun p' hp' => ?_⟩
            rcases hiff.1 hp' with ⟨rfl, -⟩ | ⟨q, rfl, -⟩
            · exact Nat.le_refl _
            · rw [List.length_append]; omega
          constructor
          · intro h
            cases h
            exact ⟨_, hf, by rw [hrep, Nat.add_zero]⟩
          · rintro ⟨p, hp, rfl⟩
            rw [hp.unique hf, hrep, Nat.add_zero]
        · rw [if_neg he, t4]
          have hi : ∀ q : Str, i + q.count ';' = i + (P ++ q).count ';' := by
            intro q
            rw [List.count_append, hcount]
            omega
          constructor
          · rintro ⟨q, hq, rfl⟩
            refine ⟨P ++ q, ⟨hiff.2 (.inr ⟨q, rfl, hq.1⟩), fun p' hp' => ?_⟩, by rw [hi]⟩
            rcases hiff.1 hp' with ⟨-, rfl⟩ | ⟨q', rfl, hq'⟩
            · exact absurd rfl he
            · have := hq.2 q' hq'
              simp only [List.length_append]
              omega
          · rintro ⟨p, hp, rfl⟩
            rcases hiff.1 hp.1 with ⟨-, rfl⟩ | ⟨q, rfl, hq⟩
            · exact absurd rfl he
            · refine ⟨q, ⟨hq, fun q' hq' => ?_⟩, by rw [← hi]⟩
              have := hp.2 _ (hiff.2 (.inr ⟨q', rfl, hq'⟩))
              simp only [List.length_append] at this
              omega

/-- The lexer reads nothing but tokens that can be written. -/
theorem _root_.Nxas.Spec.Lexeme.writable {w rest : Str} {k : Kind} (h : Lexeme w rest k) (hz : '\x00' ∉ w) :
    Writable k ∧ lineAfter w = height k := by
  have hsg : ∀ {sg : Str} {neg : Bool}, Sign sg neg → lineAfter sg = 0 := by
    rintro _ _ (_ | _ | _) <;> decide
  have hcount : ∀ {w : Str}, (∀ c ∈ w, hexadecimal c ∨ c ∈ ['x', 'X']) → lineAfter w = 0 := by
    intro w hw
    unfold lineAfter
    rw [List.count_eq_zero]
    intro hm
    rcases hw _ hm with h | h
    · revert h; unfold hexadecimal decimal; decide
    · revert h; decide
  have hdec : ∀ {w : Str}, (∀ c ∈ w, decimal c) → lineAfter w = 0 := fun h => hcount fun c hc => .inl (.inl (h c hc))
  cases h with
  | @operator c k _ hm _ =>
    have : ∀ x ∈ operators, height x.2 = 0 ∧ lineAfter [x.1] = 0 := by decide
    have h1 := this _ hm
    dsimp only at h1
    refine ⟨?_, by rw [h1.1, h1.2]⟩
    simp only [operators, List.mem_cons, Prod.mk.injEq, List.not_mem_nil, or_false] at hm
    rcases hm with ⟨-, rfl⟩ | ⟨-, rfl⟩ | ⟨-, rfl⟩ | ⟨-, rfl⟩ | ⟨-, rfl⟩ | ⟨-, rfl⟩ | ⟨-, rfl⟩ | ⟨-, rfl⟩ | ⟨-, rfl⟩ <;> trivial
  | @pred p _ neg c i hp hn _ =>
    constructor
    · cases hn with
      | true => exact Nat.le_refl 7
      | index h =>
        show digit c ≤ 7
        unfold digit
        obtain ⟨q1, q2⟩ := h
        rw [char_le] at q1 q2
        have : ('0' : Char).toNat = 48 := rfl
        have : ('6' : Char).toNat = 54 := rfl
        rw [if_pos (by rw [char_le]; have : ('9' : Char).toNat = 57 := rfl; omega)]
        omega
    · show _ = 0
      rw [lineAfter_append]
      have h1 : lineAfter p = 0 := by
        cases hp with
        | pos h => rcases h with rfl | rfl <;> decide
        | neg h => rcases h with rfl | rfl <;> decide
      have h2 : lineAfter [c] = 0 := by
        cases hn with
        | true h => rcases h with rfl | rfl <;> decide
        | index h =>
          apply hdec
          intro x hx
          simp only [List.mem_singleton] at hx
          subst hx
          exact ⟨h.1, Char.le_trans h.2 (by decide)⟩
      omega
  | @int sg ds _ neg v hs hv _ _ =>
    constructor
    · show _ ≤ _ ∧ _ < _
      unfold saturated
      cases neg
      · simp only [Bool.false_eq_true, if_false]; omega
      · simp only [if_true]; omega
    · show _ = 0
      rw [lineAfter_append, hsg hs]
      rw [Nat.zero_add]
      exact hcount (intLit_chars hv)
  | @float sg ip fp _ neg hs _ h1 h2 _ =>
    constructor
    · show _ ≤ _
      unfold f32OfRat
      have := (roundRat_nearest (p := 23) (bias := 127) (inf := 0x7F800000) (num := numeral 10 (ip ++ fp)) (den := 10 ^ fp.length) (by decide)
        (by decide) (by decide) (Nat.pow_pos (by decide))).1
      rw [BitVec.toNat_ofNat]
      split <;> omega
    · show _ = 0
      rw [lineAfter_append, lineAfter_append, hsg hs, hdec h1, show '.' :: fp = ['.'] ++ fp from rfl, lineAfter_append, hdec h2]
      decide
  | zero _ => exact ⟨Nat.le_refl 255, by decide⟩
  | @reg ds _ _ h hv _ =>
    refine ⟨Nat.le_of_lt hv, ?_⟩
    show _ = 0
    rw [show 'R' :: ds = ['R'] ++ ds from rfl, lineAfter_append, hdec h]; decide
  | bare _ _ => exact ⟨Nat.zero_le 255, by decide⟩
  | @word w _ h hl => exact ⟨⟨h.change (by simp [Ends]), hl, hz⟩, rfl⟩

/-- The tokens of a text can be written, and are in lines that do not decrease. -/
theorem _root_.Nxas.Spec.Scans.written {l : Nat} {t : Str} {ts : List (Kind × Nat)} (h : Scans l t ts) (hz : '\x00' ∉ t) :
    Written l ts := by
  induction h with
  | done _ => trivial
  | @token l s w rest k ts hs hw _ ih =>
    simp only [List.mem_append, not_or] at hz
    obtain ⟨h1, h2⟩ := hw.writable hz.1.2
    refine ⟨Nat.le_add_right _ _, h1, ?_⟩
    have := ih hz.2
    rw [lineAfter_append, h2] at this
    rwa [Nat.add_assoc]

theorem visible_of_no_nul {t : Str} (h : '\x00' ∉ t) : visible t = t := by
  unfold visible
  rw [List.takeWhile_eq_self_iff]
  intro c hc
  simp only [ne_eq, decide_eq_true_eq]
  rintro rfl
  exact h hc

end Nxas
