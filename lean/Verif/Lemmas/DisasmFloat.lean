import Verif.Lemmas.Disasm
import Verif.Props.Floats
/-
The floating point literals of the disassembler: a binary16 number as binary32 number, and the upper bits of a binary64 number that
comes from a literal as binary32 number.
-/

namespace Nxas

open Spec

/-! ### Binary16 -/

theorem widened_exact {m : Nat} (hm : m ≤ 0x7C00) : widened m < 0x7F800000 ∧ magnitude 23 127 (widened m) = magnitude 10 15 m := by
  obtain ⟨m', hm', hs⟩ := sig_form (p := 10) m
  obtain ⟨k, hk⟩ := sig_exists (p := 23) (m := m') (by omega) (m / 2 ^ 10 - 1 + 125)
  have hx : magnitude 23 127 k = ((sig 10 m : Nat) : ℚ) / ((2 ^ 24 : Nat) : ℚ) := by
    rw [magnitude_sig (by omega), hk, hs, pow_add]
    push_cast
    rw [div_eq_div_iff (by positivity) (by positivity)]
    ring
  have hb : sig 23 k < sig 23 0x7F800000 := by
    have h1 : sig 23 0x7F800000 = 2 ^ 23 * 2 ^ 254 := by unfold sig; norm_num
    have h2 : 2 ^ (m / 2 ^ 10 - 1 + 125) ≤ 2 ^ 155 := Nat.pow_le_pow_right (by omega) (by omega)
    rw [hk, h1]
    calc m' * 2 ^ (m / 2 ^ 10 - 1 + 125) ≤ 2 ^ 11 * 2 ^ 155 := Nat.mul_le_mul (by omega) h2
      _ < 2 ^ 23 * 2 ^ 254 := by norm_num
  have hk' : k < 0x7F800000 := (sig_strictMono 23).lt_iff_lt.1 hb
  have hn := roundRat_nearest (p := 23) (bias := 127) (inf := 0x7F800000) (num := sig 10 m) (den := 2 ^ 24) (by omega) (by omega) (by omega) (by omega)
  have he := Nearest.exact hn (by omega) hx
  change magnitude 23 127 (widened m) = _ at he
  have hwk : widened m = k := by
    rw [← hx, magnitude_sig (by omega), magnitude_sig (by omega)] at he
    have : (sig 23 (widened m) : ℚ) = sig 23 k := by
      have h2 : (2 : ℚ) ^ (127 + 23 - 1) ≠ 0 := by positivity
      exact (div_left_inj' h2).1 he
    exact (sig_strictMono 23).injective (by exact_mod_cast this)
  refine ⟨by omega, ?_⟩
  rw [he, magnitude_sig (by omega)]
  norm_num

theorem magnitude_injective {p bias : Nat} (hb : 1 ≤ bias) {a b : Nat} (h : magnitude p bias a = magnitude p bias b) : a = b := by
  rw [magnitude_sig hb, magnitude_sig hb] at h
  have h2 : (2 : ℚ) ^ (bias + p - 1) ≠ 0 := by positivity
  have := (div_left_inj' h2).1 h
  exact (sig_strictMono p).injective (by exact_mod_cast this)

theorem half16_widened {m : Nat} (hm : m ≤ 0x7C00) : half16 (widened m) = m := by
  obtain ⟨h1, h2⟩ := widened_exact hm
  have hn := half16_nearest h1
  rw [h2] at hn
  exact magnitude_injective (by omega) (Nearest.exact hn hm rfl)

theorem half16_le {n : Nat} (hn : n ≤ 0x7F800000) : half16 n ≤ 0x7C00 := by
  rcases Nat.lt_or_eq_of_le hn with h | rfl
  · exact (half16_nearest h).1
  · decide

theorem widened_zero {m : Nat} (hm : m ≤ 0x7C00) : widened m = 0 ↔ m = 0 := by
  obtain ⟨-, h2⟩ := widened_exact hm
  constructor
  · intro h
    rw [h, magnitude_zero _ (by omega), ← magnitude_zero 10 (bias := 15) (by omega)] at h2
    exact (magnitude_injective (by omega) h2).symm
  · rintro rfl
    rw [magnitude_zero _ (by omega), ← magnitude_zero 23 (bias := 127) (by omega)] at h2
    exact magnitude_injective (by omega) h2

/-! ### Binary64 -/

theorem sig_trunc {X : Nat} (hd : 2 ^ 925 ∣ sig 52 X) : 2 ^ 925 ∣ sig 52 (X / 2 ^ 44 * 2 ^ 44) ∧ (X ≠ 0 → X / 2 ^ 44 ≠ 0) := by
  have e1 : X / 2 ^ 44 * 2 ^ 44 / 2 ^ 52 = X / 2 ^ 52 := by omega
  have e2 : X / 2 ^ 44 * 2 ^ 44 % 2 ^ 52 = X % 2 ^ 52 / 2 ^ 44 * 2 ^ 44 := by omega
  unfold sig at hd ⊢
  rw [e1, e2]
  by_cases h0 : X / 2 ^ 52 = 0
  · rw [if_pos h0] at hd ⊢
    have hx : X % 2 ^ 52 = 0 := by
      refine Nat.eq_zero_of_dvd_of_lt hd (lt_of_lt_of_le (Nat.mod_lt _ (by positivity)) ?_)
      exact Nat.pow_le_pow_right (by omega) (by omega)
    rw [hx]
    refine ⟨by simp, ?_⟩
    omega
  · rw [if_neg h0] at hd ⊢
    refine ⟨?_, by omega⟩
    generalize X % 2 ^ 52 = M at hd ⊢
    generalize X / 2 ^ 52 - 1 = E at hd ⊢
    by_cases hE : 925 ≤ E
    · exact Dvd.dvd.mul_left (pow_dvd_pow 2 hE) _
    · obtain ⟨d, hE'⟩ : ∃ d, 925 = d + E := ⟨925 - E, by omega⟩
      rw [hE', pow_add] at hd ⊢
      have hd := Nat.dvd_of_mul_dvd_mul_right (Nat.two_pow_pos E) hd
      refine Nat.mul_dvd_mul_right ?_ _
      by_cases hd44 : d ≤ 44
      · have h1 : 2 ^ d ∣ 2 ^ 44 := pow_dvd_pow 2 hd44
        have h2 : (2 : Nat) ^ 52 + M / 2 ^ 44 * 2 ^ 44 = (2 ^ 8 + M / 2 ^ 44) * 2 ^ 44 := by omega
        rw [h2]
        exact Dvd.dvd.mul_left h1 _
      · have h1 : 2 ^ 44 ∣ 2 ^ 52 + M := (pow_dvd_pow 2 (by omega)).trans hd
        have h2 : M / 2 ^ 44 * 2 ^ 44 = M := by omega
        rw [h2]
        exact hd

/-- The magnitude of the number that is written for the upper bits of a binary64 number. -/
def upper (t : Nat) : Nat := roundRat 23 127 0x7F800000 (sig 52 (t * 2 ^ 44)) (2 ^ 1074)

theorem narrowed_toNat (t s : Nat) (hs : s ≤ 1) : (narrowed t s).toNat % 2 ^ 31 = upper t ∧ (narrowed t s).toNat / 2 ^ 31 = s := by
  have h := roundRat_le 23 127 0x7F800000 (sig 52 (t * 2 ^ 44)) (2 ^ 1074)
  change upper t ≤ _ at h
  have : (narrowed t s).toNat = (s * 2 ^ 31 + upper t) % 2 ^ 32 := BitVec.toNat_ofNat _ _
  omega

theorem upper_le (t : Nat) : upper t ≤ 0x7F800000 := roundRat_le _ _ _ _ _

theorem upper_exact {X : Nat} (hd : 2 ^ 925 ∣ sig 52 X) (hX : sig 52 X < sig 23 0x7F800000 * 2 ^ 925) :
    upper (X / 2 ^ 44) < 0x7F800000 ∧ magnitude 23 127 (upper (X / 2 ^ 44)) = magnitude 52 1023 (X / 2 ^ 44 * 2 ^ 44) := by
  obtain ⟨⟨c, hc⟩, -⟩ := sig_trunc hd
  -- nine significant bits
  obtain ⟨m, hm, j, hj⟩ : ∃ m, m < 2 ^ 24 ∧ ∃ j, c = m * 2 ^ j := by
    have e1 : X / 2 ^ 44 * 2 ^ 44 % 2 ^ 52 = X % 2 ^ 52 / 2 ^ 44 * 2 ^ 44 := by omega
    obtain ⟨m, hm, i, hi⟩ : ∃ m, m < 2 ^ 9 ∧ ∃ i, sig 52 (X / 2 ^ 44 * 2 ^ 44) = m * 2 ^ i := by
      unfold sig
      rw [e1]
      split
      · exact ⟨X % 2 ^ 52 / 2 ^ 44, by omega, 44, rfl⟩
      · refine ⟨2 ^ 8 + X % 2 ^ 52 / 2 ^ 44, by omega, 44 + (X / 2 ^ 44 * 2 ^ 44 / 2 ^ 52 - 1), ?_⟩
        rw [pow_add, ← mul_assoc]
        congr 1
        omega
    rw [hi] at hc
    by_cases h : 925 ≤ i
    · obtain ⟨j, rfl⟩ := Nat.exists_eq_add_of_le h
      refine ⟨m, by omega, j, ?_⟩
      have : 2 ^ 925 * c = 2 ^ 925 * (m * 2 ^ j) := by rw [← hc, pow_add]; ring
      exact Nat.eq_of_mul_eq_mul_left (Nat.two_pow_pos _) this
    · refine ⟨c, ?_, 0, by simp⟩
      obtain ⟨d, hd⟩ : ∃ d, 925 = i + d := ⟨925 - i, by omega⟩
      rw [hd, pow_add, mul_comm, mul_assoc] at hc
      have h2 : m = 2 ^ d * c := Nat.eq_of_mul_eq_mul_left (Nat.two_pow_pos i) hc
      have h3 : c ≤ 2 ^ d * c := Nat.le_mul_of_pos_left _ (Nat.two_pow_pos d)
      omega
  obtain ⟨k, hk⟩ := sig_exists (p := 23) (m := m) (by omega) j
  rw [← hj] at hk
  have hlt : k < 0x7F800000 := by
    rw [← (sig_strictMono 23).lt_iff_lt, hk]
    have h1 : sig 52 (X / 2 ^ 44 * 2 ^ 44) ≤ sig 52 X := (sig_strictMono 52).monotone (by omega)
    rw [hc] at h1
    have h2 : 2 ^ 925 * c < 2 ^ 925 * sig 23 0x7F800000 := by rw [mul_comm _ (sig 23 _)]; omega
    exact Nat.lt_of_mul_lt_mul_left h2
  have hx : magnitude 23 127 k = ((sig 52 (X / 2 ^ 44 * 2 ^ 44) : Nat) : ℚ) / ((2 ^ 1074 : Nat) : ℚ) := by
    rw [magnitude_sig (by omega), hk, hc]
    push_cast
    have h4 : (2 : ℚ) ^ 1074 = 2 ^ 925 * 2 ^ (127 + 23 - 1) := by rw [← pow_add]
    rw [h4, mul_div_mul_left _ _ (by positivity)]
  have hn := roundRat_nearest (p := 23) (bias := 127) (inf := 0x7F800000) (num := sig 52 (X / 2 ^ 44 * 2 ^ 44)) (den := 2 ^ 1074) (by omega) (by omega)
    (by omega) (Nat.two_pow_pos _)
  have he := Nearest.exact hn (by omega) hx
  change magnitude 23 127 (upper (X / 2 ^ 44)) = _ at he
  rw [← hx] at he
  have hwk := magnitude_injective (by omega) he
  refine ⟨by omega, ?_⟩
  rw [he, hx, magnitude_sig (by omega)]
  norm_num

theorem sig_inf : sig 23 0x7F800000 = 2 ^ 23 * 2 ^ 254 := by unfold sig; norm_num

/-- A literal that is not infinite. -/
theorem dimm_finite {X : Nat} (hd : 2 ^ 925 ∣ sig 52 X) (hX : sig 52 X < sig 23 0x7F800000 * 2 ^ 925) {s : Nat} (hs : s ≤ 1) :
    (f64OfF32 (narrowed (X / 2 ^ 44) s)).toNat % 2 ^ 63 = X / 2 ^ 44 * 2 ^ 44 := by
  obtain ⟨h1, h2⟩ := upper_exact hd hX
  obtain ⟨h3, h4⟩ := narrowed_toNat (X / 2 ^ 44) s hs
  have := f64OfF32_exact (f := narrowed (X / 2 ^ 44) s) (by rw [h3]; exact h1)
  rw [h3, h2] at this
  exact magnitude_injective (by omega) this

theorem int_finite {v : Int} (hv : |(v : ℚ)| ≤ 2 ^ 63) : 2 ^ 925 ∣ sig 52 ((f64OfInt v).toNat % 2 ^ 63) ∧
    sig 52 ((f64OfInt v).toNat % 2 ^ 63) < sig 23 0x7F800000 * 2 ^ 925 := by
  have hn := (f64OfInt_nearest v).2
  generalize (f64OfInt v).toNat % 2 ^ 63 = X at hn
  constructor
  · by_cases h0 : v = 0
    · subst h0
      have : X = 0 := by
        refine magnitude_injective (p := 52) (bias := 1023) (by omega) ?_
        have := Nearest.exact hn (k := 0) (by omega) (by rw [magnitude_zero _ (by omega)]; simp)
        rw [this, magnitude_zero _ (by omega)]
        simp
      subst this
      simp [sig]
    · have h1 : (1 : ℚ) ≤ |(v : ℚ)| := by
        have : 1 ≤ |v| := Int.one_le_abs h0
        exact_mod_cast this
      have hX : 0x3FF0000000000000 ≤ X := by
        have one64 : magnitude 52 1023 0x3FF0000000000000 = 1 := by
          have h1 : sig 52 0x3FF0000000000000 = 2 ^ 52 * 2 ^ 1022 := by unfold sig; norm_num
          rw [magnitude_sig (by omega), h1, ← pow_add, Nat.cast_pow]
          exact div_self (by positivity)
        by_contra hlt
        have hm : magnitude 52 1023 X < magnitude 52 1023 0x3FF0000000000000 := by
          rw [magnitude_sig (by omega), magnitude_sig (by omega)]
          have : (sig 52 X : ℚ) < sig 52 0x3FF0000000000000 := by exact_mod_cast sig_strictMono 52 (by omega)
          exact div_lt_div_of_pos_right this (by positivity)
        have := (hn.2 0x3FF0000000000000 (by omega)).1
        rw [one64] at this hm
        generalize |(v : ℚ)| = y at this h1
        rw [abs_of_nonpos (by linarith), abs_of_nonpos (by linarith)] at this
        linarith
      unfold sig
      rw [if_neg (by omega)]
      exact Dvd.dvd.mul_left (pow_dvd_pow 2 (by omega)) _
  · have := (hn.2 0 (by omega)).1
    rw [magnitude_zero _ (by omega), zero_sub, abs_neg, abs_abs] at this
    have h2 : magnitude 52 1023 X ≤ 2 ^ 64 := by
      have := abs_le.1 this
      linarith [this.2]
    rw [magnitude_sig (by omega), div_le_iff₀ (by positivity)] at h2
    have h3 : sig 52 X ≤ 2 ^ 64 * 2 ^ (1023 + 52 - 1) := by exact_mod_cast h2
    rw [sig_inf, ← pow_add, ← pow_add]
    rw [← pow_add] at h3
    exact lt_of_le_of_lt h3 (Nat.pow_lt_pow_right (by omega) (by omega))

theorem single_finite {f : BitVec 32} (hf : f.toNat % 2 ^ 31 < 0x7F800000) : 2 ^ 925 ∣ sig 52 ((f64OfF32 f).toNat % 2 ^ 63) ∧
    sig 52 ((f64OfF32 f).toNat % 2 ^ 63) < sig 23 0x7F800000 * 2 ^ 925 := by
  have h := f64OfF32_exact hf
  rw [magnitude_sig (by omega), magnitude_sig (by omega), div_eq_div_iff (by positivity) (by positivity)] at h
  have h2 : sig 52 ((f64OfF32 f).toNat % 2 ^ 63) * 2 ^ (127 + 23 - 1) = sig 23 (f.toNat % 2 ^ 31) * 2 ^ (1023 + 52 - 1) := by exact_mod_cast h
  have h3 : sig 52 ((f64OfF32 f).toNat % 2 ^ 63) = sig 23 (f.toNat % 2 ^ 31) * 2 ^ 925 := by
    rw [show 1023 + 52 - 1 = 925 + (127 + 23 - 1) from rfl, pow_add, ← mul_assoc] at h2
    exact Nat.eq_of_mul_eq_mul_right (Nat.two_pow_pos _) h2
  rw [h3]
  exact ⟨Dvd.intro_left _ rfl, Nat.mul_lt_mul_of_pos_right (sig_strictMono 23 hf) (Nat.two_pow_pos _)⟩

theorem upper_inf : upper 0x7FF00 = 0x7F800000 := by
  have hn := roundRat_nearest (p := 23) (bias := 127) (inf := 0x7F800000) (num := sig 52 (0x7FF00 * 2 ^ 44)) (den := 2 ^ 1074) (by omega) (by omega)
    (by omega) (Nat.two_pow_pos _)
  refine Nearest.unique (by omega) hn (nearest_above (by omega) ?_)
  rw [magnitude_sig (by omega), sig_inf]
  have h1 : sig 52 (0x7FF00 * 2 ^ 44) = 2 ^ 52 * 2 ^ 2046 := by unfold sig; norm_num
  rw [h1, ← pow_add, ← pow_add, Nat.cast_pow, Nat.cast_pow, Nat.cast_pow, Nat.cast_ofNat]
  rw [div_le_div_iff₀ (by positivity) (by positivity), ← pow_add, ← pow_add]
  exact pow_le_pow_right₀ (by norm_num) (by omega)

/-- The upper bits and the sign of a binary64 literal. -/
theorem dimm_text {ks : List Kind} {x : BitVec 64} (hw : ∀ k ∈ ks, Writable k) (h : (∃ f, ks = [.fimm f] ∧ x = f64OfF32 f) ∨ ∃ v, ks = [.imm v] ∧ x = f64OfInt v) :
    (f64OfF32 (narrowed (x.toNat / 2 ^ 44 % 2 ^ 19) (bit (literalNegative ks)))).toNat / 2 ^ 44 % 2 ^ 19 = x.toNat / 2 ^ 44 % 2 ^ 19 ∧
      f32LtZero (narrowed (x.toNat / 2 ^ 44 % 2 ^ 19) (bit (literalNegative ks))) = literalNegative ks := by
  have hb := bit_le (literalNegative ks)
  rw [f32LtZero_iff]
  have et : x.toNat / 2 ^ 44 % 2 ^ 19 = x.toNat % 2 ^ 63 / 2 ^ 44 := by omega
  rw [et]
  obtain ⟨h3, h4⟩ := narrowed_toNat (x.toNat % 2 ^ 63 / 2 ^ 44) _ hb
  have finite (hd : 2 ^ 925 ∣ sig 52 (x.toNat % 2 ^ 63)) (hX : sig 52 (x.toNat % 2 ^ 63) < sig 23 0x7F800000 * 2 ^ 925)
      (h0 : literalNegative ks = true → x.toNat % 2 ^ 63 ≠ 0) :
      (f64OfF32 (narrowed (x.toNat % 2 ^ 63 / 2 ^ 44) (bit (literalNegative ks)))).toNat / 2 ^ 44 % 2 ^ 19 = x.toNat % 2 ^ 63 / 2 ^ 44 ∧
      decide ((narrowed (x.toNat % 2 ^ 63 / 2 ^ 44) (bit (literalNegative ks))).toNat % 2 ^ 31 ≠ 0 ∧
        (narrowed (x.toNat % 2 ^ 63 / 2 ^ 44) (bit (literalNegative ks))).toNat / 2 ^ 31 = 1) = literalNegative ks := by
    have h5 := dimm_finite hd hX hb
    refine ⟨by omega, ?_⟩
    rw [h3, h4]
    cases hn : literalNegative ks with
    | false => simp [bit]
    | true =>
      have h6 := (sig_trunc hd).2 (h0 hn)
      have h7 : upper (x.toNat % 2 ^ 63 / 2 ^ 44) ≠ 0 := by
        intro h8
        have h9 := (upper_exact hd hX).2
        rw [h8, magnitude_zero _ (by omega), ← magnitude_zero 52 (bias := 1023) (by omega)] at h9
        have := magnitude_injective (by omega) h9
        omega
      exact decide_eq_true ⟨h7, rfl⟩
  rcases h with ⟨f, rfl, rfl⟩ | ⟨v, rfl, rfl⟩
  · have hf : f.toNat % 2 ^ 31 ≤ 0x7F800000 := hw (.fimm f) (by simp)
    rcases Nat.lt_or_eq_of_le hf with hf | hf
    · obtain ⟨h1, h2⟩ := single_finite hf
      refine finite h1 h2 ?_
      intro hn
      simp only [literalNegative, f32LtZero_iff, decide_eq_true_eq] at hn
      rw [ne_eq, f64OfF32_zero hf]
      exact hn.1
    · have hi := f64OfF32_infinite hf
      rw [hi] at h3 h4 ⊢
      rw [show 0x7FF0000000000000 / 2 ^ 44 = 0x7FF00 from rfl] at h3 h4 ⊢
      rw [upper_inf] at h3
      have hj := f64OfF32_infinite h3
      refine ⟨by omega, ?_⟩
      rw [h3, h4]
      cases literalNegative [.fimm f] <;> simp [bit]
  · have hv : -(2 ^ 63) ≤ v ∧ v < 2 ^ 63 := hw (.imm v) (by simp)
    have hv' : |(v : ℚ)| ≤ 2 ^ 63 := by
      have : |v| ≤ 2 ^ 63 := by rw [abs_le]; omega
      exact_mod_cast this
    obtain ⟨h1, h2⟩ := int_finite hv'
    refine finite h1 h2 ?_
    intro hn
    simp only [literalNegative, decide_eq_true_eq] at hn
    refine nearest64_pos (f64OfInt_nearest v).2 ?_
    have : 1 ≤ |v| := Int.one_le_abs (by omega)
    exact_mod_cast this

end Nxas
