import Verif.Lemmas.Scan
/-
Numerals as printed by `Nat.toDigits`, and literals of instructions.
-/

namespace Nxas

open Spec

theorem numeral_append (b : Nat) (s t : Str) : numeral b (s ++ t) = numeral b s * b ^ t.length + numeral b t := by
  induction s with
  | nil => simp [numeral]
  | cons d ds ih =>
    simp only [List.cons_append, numeral, ih, List.length_append, Nat.pow_add, Nat.add_mul, Nat.mul_assoc, Nat.add_assoc]

theorem digit_digitChar {k : Nat} (h : k < 16) : digit k.digitChar = k ∧ hexadecimal k.digitChar := by
  have : ∀ k < 16, digit (Nat.digitChar k) = k ∧ hexadecimal (Nat.digitChar k) := by
    unfold hexadecimal decimal; decide
  exact this k h

theorem digitChar_decimal {k : Nat} (h : k < 10) : decimal k.digitChar := by
  have : ∀ k < 10, decimal (Nat.digitChar k) := by unfold decimal; decide
  exact this k h

theorem digitChar_octal {k : Nat} (h : k < 8) : octal k.digitChar := by
  have : ∀ k < 8, octal (Nat.digitChar k) := by unfold octal; decide
  exact this k h

/-- The printed digits denote the number. -/
theorem numeral_toDigits {b : Nat} (h1 : 1 < b) (h2 : b ≤ 16) (n : Nat) : numeral b (Nat.toDigits b n) = n := by
  induction n using Nat.strongRecOn with
  | ind n ih =>
    rw [Nat.toDigits_eq_if h1]
    split
    · simp [numeral, (digit_digitChar (show n < 16 by omega)).1]
    · rw [numeral_append, ih _ (Nat.div_lt_self (by omega) h1)]
      have hm : n % b < b := Nat.mod_lt _ (by omega)
      simp only [numeral, (digit_digitChar (show n % b < 16 by omega)).1, List.length_singleton, List.length_nil, Nat.pow_one, Nat.pow_zero, Nat.mul_one,
        Nat.add_zero]
      rw [Nat.mul_comm]
      exact Nat.div_add_mod n b

theorem toDigits_chars {b : Nat} (h1 : 1 < b) (n : Nat) : ∀ c ∈ Nat.toDigits b n, ∃ k < b, c = k.digitChar := by
  induction n using Nat.strongRecOn with
  | ind n ih =>
    intro c hc
    rw [Nat.toDigits_eq_if h1] at hc
    split at hc
    · exact ⟨n, by omega, List.mem_singleton.1 hc⟩
    · rcases List.mem_append.1 hc with hc | hc
      · exact ih _ (Nat.div_lt_self (by omega) h1) c hc
      · exact ⟨n % b, Nat.mod_lt _ (by omega), List.mem_singleton.1 hc⟩

theorem toDigits_head {b : Nat} (h1 : 1 < b) {n : Nat} (hn : n ≠ 0) : (Nat.toDigits b n).head? ≠ some '0' := by
  induction n using Nat.strongRecOn with
  | ind n ih =>
    rw [Nat.toDigits_eq_if h1]
    split
    · simpa using hn
    · have h0 : n / b ≠ 0 := by
        have := Nat.div_pos (show b ≤ n by omega) (by omega)
        omega
      have := ih _ (Nat.div_lt_self (by omega) h1) h0
      cases ht : Nat.toDigits b (n / b) with
      | nil => exact absurd ht Nat.toDigits_ne_nil
      | cons d ds => rw [ht] at this; simpa using this

theorem intLit_dec (n : Nat) : IntLit (Nat.toDigits 10 n) n := by
  by_cases hn : n = 0
  · subst hn
    exact .oct (ds := []) (by simp)
  · have h := numeral_toDigits (b := 10) (by decide) (by decide) n
    have hc := toDigits_chars (b := 10) (by decide) n
    have hh := toDigits_head (b := 10) (by decide) hn
    cases hd : Nat.toDigits 10 n with
    | nil => exact absurd hd Nat.toDigits_ne_nil
    | cons d ds =>
      rw [hd] at h hc hh
      have hdec : ∀ c ∈ d :: ds, decimal c := by
        intro c h'
        obtain ⟨k, hk, rfl⟩ := hc c h'
        exact digitChar_decimal hk
      have := IntLit.dec (hdec d (by simp)) (by simpa using hh) (ds := ds) (fun c h' => hdec c (by simp [h']))
      rwa [h] at this

theorem intLit_oct (n : Nat) : IntLit ('0' :: Nat.toDigits 8 n) n := by
  have := IntLit.oct (ds := Nat.toDigits 8 n) (by
    intro c hc
    obtain ⟨k, hk, rfl⟩ := toDigits_chars (by decide) n c hc
    exact digitChar_octal hk)
  rwa [numeral_toDigits (by decide) (by decide)] at this

theorem intLit_hex (n : Nat) {x : Char} (hx : x = 'x' ∨ x = 'X') : IntLit ('0' :: x :: Nat.toDigits 16 n) n := by
  have := IntLit.hex (ds := Nat.toDigits 16 n) hx Nat.toDigits_ne_nil (by
    intro c hc
    obtain ⟨k, hk, rfl⟩ := toDigits_chars (by decide) n c hc
    exact (digit_digitChar hk).2)
  rwa [numeral_toDigits (by decide) (by decide)] at this

theorem toDigits_decimal (n : Nat) : ∀ c ∈ Nat.toDigits 10 n, decimal c := by
  intro c hc
  obtain ⟨k, hk, rfl⟩ := toDigits_chars (by decide) n c hc
  exact digitChar_decimal hk

/-- A token decided at its first characters. -/
theorem tokenize_done {c : Cur} {x : Char} {xs : Str} {r : TokRes} (ht : c.text = x :: xs) (hx : x ∉ blanks) (h : lexHead c = .done r) :
    tokenize c = r := by
  rw [tokenize_unfold]
  dsimp only
  rw [skip_blank_self ht hx, if_neg (by rw [ht]; simp), h]

theorem register_out_of_range {c : Cur} {ds rest : Str} (ht : c.text = 'R' :: (ds ++ rest)) (hn : ds ≠ []) (hd : ∀ x ∈ ds, decimal x)
    (hv : 255 ≤ numeral 10 ds) (he : Ends rest) : tokenize c = .exit ⟨c.line, c.col, indexMsg ('R' :: ds)⟩ := by
  refine tokenize_done ht (by decide) ?_
  rw [lexHead_R ht, (lexRegister_digits ht hd he).1, strtoll_digits hn hd he.not_decimal]
  dsimp only
  rw [if_neg (by simp), if_pos]
  right
  unfold saturated
  simp only [Bool.false_eq_true, if_false]
  omega

theorem predicate_out_of_range {c : Cur} {p rest : Str} {neg : Bool} {x : Char} (hp : PredPrefix p neg) (ht : c.text = p ++ x :: rest)
    (hx : x ∈ ['7', '8', '9']) (he : Ends rest) : tokenize c = .exit ⟨c.line, c.col, "out of range predicate"⟩ := by
  have hh : ∃ y ys, c.text = y :: ys ∧ y ∉ blanks := by
    cases hp with
    | pos h => exact ⟨_, _, ht, by rcases h with rfl | rfl <;> decide⟩
    | neg h => exact ⟨_, _, ht, by decide⟩
  obtain ⟨y, ys, hy, hb⟩ := hh
  refine tokenize_done hy hb ?_
  obtain ⟨c2, h2, h3⟩ := lexPredicate_prefix ht hp
  obtain ⟨c3, h4, h5⟩ := Cur.next_cons h2
  have hsep : isSeparator c3.peek = true := by
    rw [← h5] at he; exact he.peek
  rw [lexHead_pred ht hp, h3]
  unfold predTail
  rw [Cur.peek_of h2]
  simp only [List.mem_cons, List.not_mem_nil, or_false] at hx
  rcases hx with rfl | rfl | rfl <;> simp [isContained, isDecimal, h4, hsep]

end Nxas
