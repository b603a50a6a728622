import Verif.Lemmas.Half
import Verif.Spec.Grammar
/-
Conversions to binary32 and binary64, and from the one to the other.
-/

namespace Nxas

open Spec

theorem roundRat_le (p bias inf num den : Nat) : roundRat p bias inf num den ≤ inf := by
  unfold roundRat
  split
  · omega
  · exact Nat.min_le_right _ _

theorem f32OfRat_toNat (neg : Bool) (num den : Nat) :
    (f32OfRat neg num den).toNat = bit neg * 2 ^ 31 + roundRat 23 127 0x7F800000 num den := by
  have := roundRat_le 23 127 0x7F800000 num den
  unfold f32OfRat bit
  rw [BitVec.toNat_ofNat]
  cases neg <;> simp <;> omega

theorem f64OfRat_toNat (neg : Bool) (num den : Nat) :
    (f64OfRat neg num den).toNat = bit neg * 2 ^ 63 + roundRat 52 1023 0x7FF0000000000000 num den := by
  have := roundRat_le 52 1023 0x7FF0000000000000 num den
  unfold f64OfRat bit
  rw [BitVec.toNat_ofNat]
  cases neg <;> simp <;> omega

theorem bit_le (b : Bool) : bit b ≤ 1 := by cases b <;> simp [bit]

theorem f32OfRat_nearest (neg : Bool) (num : Nat) {den : Nat} (hd : 0 < den) :
    (f32OfRat neg num den).toNat / 2 ^ 31 = bit neg ∧ Nearest32 ((num : ℚ) / den) ((f32OfRat neg num den).toNat % 2 ^ 31) := by
  have h1 := roundRat_le 23 127 0x7F800000 num den
  have h2 := bit_le neg
  rw [f32OfRat_toNat]
  refine ⟨by omega, ?_⟩
  rw [show (bit neg * 2 ^ 31 + roundRat 23 127 0x7F800000 num den) % 2 ^ 31 = roundRat 23 127 0x7F800000 num den by omega]
  exact roundRat_nearest (by omega) (by omega) (by omega) hd

theorem f64OfRat_nearest (neg : Bool) (num : Nat) {den : Nat} (hd : 0 < den) :
    (f64OfRat neg num den).toNat / 2 ^ 63 = bit neg ∧ Nearest64 ((num : ℚ) / den) ((f64OfRat neg num den).toNat % 2 ^ 63) := by
  have h1 := roundRat_le 52 1023 0x7FF0000000000000 num den
  have h2 := bit_le neg
  rw [f64OfRat_toNat]
  refine ⟨by omega, ?_⟩
  rw [show (bit neg * 2 ^ 63 + roundRat 52 1023 0x7FF0000000000000 num den) % 2 ^ 63 = roundRat 52 1023 0x7FF0000000000000 num den by omega]
  exact roundRat_nearest (by omega) (by omega) (by omega) hd

theorem natAbs_div (v : Int) : ((v.natAbs : Nat) : ℚ) / ((1 : Nat) : ℚ) = |(v : ℚ)| := by
  rw [Nat.cast_one, div_one, Nat.cast_natAbs, Int.cast_abs]

theorem f32OfInt_nearest (v : Int) : (f32OfInt v).toNat / 2 ^ 31 = bit (v < 0) ∧ Nearest32 |(v : ℚ)| ((f32OfInt v).toNat % 2 ^ 31) := by
  rw [← natAbs_div]
  exact f32OfRat_nearest _ _ (by omega)

theorem f64OfInt_nearest (v : Int) : (f64OfInt v).toNat / 2 ^ 63 = bit (v < 0) ∧ Nearest64 |(v : ℚ)| ((f64OfInt v).toNat % 2 ^ 63) := by
  rw [← natAbs_div]
  exact f64OfRat_nearest _ _ (by omega)

/-! ### Exact conversions -/

theorem sig_exists {p m : Nat} (hm : m ≤ 2 ^ (p + 1)) : ∀ j, ∃ n, sig p n = m * 2 ^ j := by
  intro j
  induction j generalizing m with
  | zero => exact ⟨m, by have := sig_binade (be := 0) (.inl rfl) hm; simpa using this⟩
  | succ j ih =>
    by_cases h : 2 ^ p ≤ m
    · exact ⟨_, sig_binade (.inr h) hm⟩
    · obtain ⟨n, hn⟩ := ih (m := 2 * m) (by rw [pow_succ]; omega)
      exact ⟨n, by rw [hn, pow_succ]; ring⟩

theorem Nearest.exact {p bias inf : Nat} {x : ℚ} {n k : Nat} (h : Nearest p bias inf x n) (hk : k ≤ inf) (hx : magnitude p bias k = x) :
    magnitude p bias n = x := by
  have := (h.2 k hk).1
  rw [hx, sub_self, abs_zero] at this
  exact sub_eq_zero.1 (abs_nonpos_iff.1 this)

theorem sig_lt {p n : Nat} : sig p n < 2 ^ (p + 1) * 2 ^ (n / 2 ^ p - 1) := by
  have h1 := Nat.mod_lt n (Nat.two_pow_pos p)
  unfold sig
  rw [pow_succ]
  split
  · next h => rw [h]; simp; omega
  · exact Nat.mul_lt_mul_of_pos_right (by omega) (Nat.two_pow_pos _)

theorem sig_form {p : Nat} (n : Nat) : ∃ m, m < 2 ^ (p + 1) ∧ sig p n = m * 2 ^ (n / 2 ^ p - 1) := by
  have h1 := Nat.mod_lt n (Nat.two_pow_pos p)
  unfold sig
  rw [pow_succ]
  split
  · next h => exact ⟨n % 2 ^ p, by omega, by rw [h]; simp⟩
  · exact ⟨_, by omega, rfl⟩

/-- Every finite binary32 number is a binary64 number. -/
theorem widen_exists {n : Nat} (hn : n < 0x7F800000) : ∃ k ≤ 0x7FF0000000000000, magnitude 52 1023 k = magnitude 23 127 n := by
  obtain ⟨m, hm, hs⟩ := sig_form (p := 23) n
  obtain ⟨k, hk⟩ := sig_exists (p := 52) (m := m) (by omega) (n / 2 ^ 23 - 1 + 925)
  refine ⟨k, ?_, ?_⟩
  · rw [← (sig_strictMono 52).le_iff_le, hk]
    have h1 : n / 2 ^ 23 - 1 + 925 ≤ 2046 := by omega
    have h2 : 2 ^ (n / 2 ^ 23 - 1 + 925) ≤ 2 ^ 2046 := Nat.pow_le_pow_right (by omega) h1
    have h3 : sig 52 0x7FF0000000000000 = 2 ^ 52 * 2 ^ 2046 := by
      unfold sig
      norm_num
    rw [h3]
    exact Nat.mul_le_mul (by omega) h2
  · rw [magnitude_sig (by omega), magnitude_sig (by omega), hk, hs, pow_add]
    push_cast
    have h4 : (2 : ℚ) ^ (1023 + 52 - 1) = 2 ^ 925 * 2 ^ (127 + 23 - 1) := by rw [← pow_add]
    rw [h4, ← mul_assoc, mul_comm (2 ^ 925 : ℚ), mul_div_mul_right _ _ (by positivity)]

theorem f64OfF32_sign (f : BitVec 32) : (f64OfF32 f).toNat / 2 ^ 63 = f.toNat / 2 ^ 31 := by
  have hf := f.isLt
  have hneg : bit (f32Neg f) = f.toNat / 2 ^ 31 := by
    unfold f32Neg bit
    rw [BitVec.getLsbD, Nat.testBit_eq_decide_div_mod_eq]
    have : f.toNat / 2 ^ 31 = 0 ∨ f.toNat / 2 ^ 31 = 1 := by omega
    rcases this with h | h <;> rw [h] <;> simp
  have rat (num den : Nat) : (f64OfRat (f32Neg f) num den).toNat / 2 ^ 63 = f.toNat / 2 ^ 31 := by
    have := roundRat_le 52 1023 0x7FF0000000000000 num den
    rw [f64OfRat_toNat, hneg]
    omega
  unfold f64OfF32
  dsimp only
  split
  · rw [BitVec.toNat_ofNat]
    have h2 : f32Man f < 2 ^ 23 := Nat.mod_lt _ (by omega)
    have h3 : (if f32Neg f = true then 2 ^ 63 else 0) = bit (f32Neg f) * 2 ^ 63 := by unfold bit; cases f32Neg f <;> rfl
    rw [h3, hneg]
    omega
  · split
    · exact rat _ _
    · split <;> exact rat _ _

/-- Widening a finite number is exact. -/
theorem f64OfF32_exact {f : BitVec 32} (hf : f.toNat % 2 ^ 31 < 0x7F800000) :
    magnitude 52 1023 ((f64OfF32 f).toNat % 2 ^ 63) = magnitude 23 127 (f.toNat % 2 ^ 31) := by
  obtain ⟨k, hk, he⟩ := widen_exists hf
  have hE : f32Exp f = f.toNat % 2 ^ 31 / 2 ^ 23 := by unfold f32Exp; omega
  have hM : f32Man f = f.toNat % 2 ^ 31 % 2 ^ 23 := by unfold f32Man; omega
  have key (num den : Nat) (hd : 0 < den) (hx : (num : ℚ) / den = magnitude 23 127 (f.toNat % 2 ^ 31)) :
      magnitude 52 1023 ((f64OfRat (f32Neg f) num den).toNat % 2 ^ 63) = magnitude 23 127 (f.toNat % 2 ^ 31) := by
    have := (f64OfRat_nearest (f32Neg f) num hd).2
    rw [hx] at this
    exact Nearest.exact this hk he
  unfold f64OfF32
  dsimp only
  rw [if_neg (by omega)]
  have hm : magnitude 23 127 (f.toNat % 2 ^ 31) = if f32Exp f = 0 then ((f32Man f : Nat) : ℚ) / 2 ^ 149 else
      ((f32Man f + 2 ^ 23 : Nat) : ℚ) * 2 ^ (f32Exp f - 1) / 2 ^ 149 := by
    rw [magnitude_sig (by omega), sig, ← hE, ← hM]
    split
    · rfl
    · push_cast
      ring
  split
  · next h0 =>
    refine key _ _ (by positivity) ?_
    rw [hm, if_pos h0]
    push_cast
    rfl
  · next h0 =>
    rw [if_neg h0] at hm
    split
    · next h1 =>
      refine key _ _ (by positivity) ?_
      rw [hm, div_eq_div_iff (by positivity) (by positivity), mul_assoc]
      congr 1
      push_cast
      rw [← pow_add]
      congr 1
      omega
    · next h1 =>
      refine key _ _ (by omega) ?_
      rw [hm, eq_div_iff (by positivity)]
      push_cast
      rw [div_one, mul_assoc, ← pow_add]
      congr 2
      omega

end Nxas
