import Verif.Lemmas.Meaning
/-
The bits an operand adds, as fields.
-/

namespace Nxas

open Spec

theorem shl_eq (x : BitVec 64) (a : Nat) : x <<< a = field a x.toNat := by
  rw [← field_eq]; simp

theorem field_toNat (a n : Nat) : (field a n).toNat = n * 2 ^ a % 2 ^ 64 := by simp [field]

theorem u64_emod (v : Int) : (u64 v).toNat = (v % 2 ^ 64).toNat := by
  simp [u64]

theorem u64_shl {x : Int} (h : 0 ≤ x) (a : Nat) : u64 x <<< a = field a x.toNat := by
  rw [← field_eq]
  obtain ⟨n, rfl⟩ := Int.eq_ofNat_of_zero_le h
  congr 1

theorem field_mod {a n m : Nat} (h : n % 2 ^ 64 = m % 2 ^ 64) : field a n = field a m := by
  rw [← field_eq, ← field_eq]
  congr 1
  apply BitVec.eq_of_toNat_eq
  simpa using h

theorem mask_shl (v : Int) (w a : Nat) : (u64 v &&& BitVec.ofNat 64 (2 ^ w - 1)) <<< a = sfield a w v := by
  rw [shl_eq, sfield]
  apply field_mod
  rw [BitVec.toNat_and, u64_emod, BitVec.toNat_ofNat]
  have h64 : ((2 ^ 64 : Nat) : Int) = 2 ^ 64 := rfl
  by_cases hw : w ≤ 64
  · have h1 : 2 ^ w ≤ 2 ^ 64 := Nat.pow_le_pow_right (by omega) hw
    have h0 : 0 < 2 ^ w := Nat.pow_pos (by omega)
    rw [Nat.mod_eq_of_lt (a := 2 ^ w - 1) (by omega), Nat.and_two_pow_sub_one_eq_mod]
    congr 1
    have hd : (2 : Int) ^ w ∣ 2 ^ 64 := by
      rw [show 64 = w + (64 - w) by omega, Int.pow_add]
      exact Int.dvd_mul_right ..
    apply Int.ofNat.inj
    show ((_ % _ : Nat) : Int) = ((_ : Nat) : Int)
    rw [Int.natCast_emod, Int.toNat_of_nonneg (Int.emod_nonneg _ (by omega)),
      Int.toNat_of_nonneg (Int.emod_nonneg _ (by
        have : (0 : Int) < 2 ^ w := Int.pow_pos (by omega)
        omega))]
    rw [Int.natCast_pow]
    exact Int.emod_emod_of_dvd v hd
  · have : (2 ^ w - 1) % 2 ^ 64 = 2 ^ 64 - 1 := by
      obtain ⟨d, rfl⟩ : ∃ d, w = 64 + d := ⟨w - 64, by omega⟩
      rw [Nat.pow_add]
      have : 0 < 2 ^ d := Nat.pow_pos (by omega)
      obtain ⟨q, hq⟩ : ∃ q, 2 ^ d = q + 1 := ⟨2 ^ d - 1, by omega⟩
      rw [hq]
      omega
    rw [this, Nat.and_two_pow_sub_one_eq_mod, Nat.mod_mod]
    have hd : (2 : Int) ^ 64 ∣ 2 ^ w := by
      rw [show w = 64 + (w - 64) by omega, Int.pow_add]
      exact Int.dvd_mul_right ..
    apply Int.ofNat.inj
    show ((_ % _ : Nat) : Int) = ((_ % _ : Nat) : Int)
    have hw0 : (0 : Int) < 2 ^ w := Int.pow_pos (by omega)
    rw [Int.natCast_emod, Int.natCast_emod, Int.toNat_of_nonneg (Int.emod_nonneg _ (by omega)),
      Int.toNat_of_nonneg (Int.emod_nonneg _ (by omega)), h64, Int.emod_emod_of_dvd v hd, Int.emod_emod_of_dvd v
      (Int.dvd_refl _)]

/-- Two fields one above the other. -/
theorem field_or {a c n m : Nat} (hac : a ≤ c) (hn : n < 2 ^ (c - a)) :
    field a n ||| field c m = field a (n + m * 2 ^ (c - a)) := by
  obtain ⟨d, rfl⟩ : ∃ d, c = a + d := ⟨c - a, by omega⟩
  rw [Nat.add_sub_cancel_left] at hn ⊢
  unfold field
  have : (n + m * 2 ^ d) * 2 ^ a = n * 2 ^ a ||| m * 2 ^ (a + d) := by
    rw [Nat.add_mul, Nat.mul_assoc, ← Nat.pow_add, Nat.add_comm d a, Nat.add_comm (n * 2 ^ a), Nat.or_comm]
    rw [Nat.mul_comm m]
    apply Nat.two_pow_add_eq_or_of_lt
    rw [Nat.pow_add, Nat.mul_comm]
    exact Nat.mul_lt_mul_of_pos_left hn (Nat.pow_pos (by omega))
  rw [this, BitVec.ofNat_or]

theorem bit_shl (c : Bool) (a : Nat) : (if c = true then 1#64 else 0#64) <<< a = field a (bit c) := by
  cases c <;> simp [bit, shl_eq, field_zero]

theorem ite_bit_shl (c : Prop) [Decidable c] (a : Nat) :
    (if c then 1#64 else 0#64) <<< a = field a (bit (decide c)) := by
  rw [← bit_shl]; simp

theorem label_bits {v : Int} (h1 : -(2 ^ 23) ≤ v) (h2 : v < 2 ^ 23) :
    (u64 v &&& 0x7FFFFF#64) <<< 20 ||| (if v < 0 then 1#64 else 0#64) <<< 43 = sfield 20 24 v := by
  rw [show 0x7FFFFF#64 = BitVec.ofNat 64 (2 ^ 23 - 1) from rfl, mask_shl, ite_bit_shl, sfield, field_or (by omega) (by omega),
    sfield]
  congr 1
  unfold bit
  split
  · rename_i h; simp only [decide_eq_true_eq] at h; omega
  · rename_i h; simp only [decide_eq_true_eq] at h; omega

theorem imm20_bits {v : Int} (h1 : -(2 ^ 19) ≤ v) (h2 : v < 2 ^ 19) :
    (if v < 0 then u64 (v - 2 ^ 19) &&& BitVec.ofNat 64 (2 ^ 19 - 1) else u64 v) <<< 20 = sfield 20 19 v := by
  split
  · rw [mask_shl, sfield, sfield]
    congr 2
    omega
  · rw [u64_shl (by omega), sfield]
    congr 1
    omega

theorem cbuf_bits {v : Int} : (((BitVec.ofInt 16 v) >>> 2).setWidth 64) <<< 20 = sfield 20 14 (v / 4) := by
  rw [shl_eq, sfield]
  congr 1
  simp only [BitVec.toNat_setWidth, BitVec.toNat_ushiftRight, BitVec.toNat_ofInt, Nat.shiftRight_eq_div_pow]
  omega

theorem fimm_bits (x : BitVec 32) : (((x <<< 1) >>> 13).setWidth 64) <<< 20 = field 20 (x.toNat / 2 ^ 12 % 2 ^ 19) := by
  rw [shl_eq]
  congr 1
  simp only [BitVec.toNat_setWidth, BitVec.toNat_ushiftRight, BitVec.toNat_shiftLeft, Nat.shiftRight_eq_div_pow,
    Nat.shiftLeft_eq]
  omega

theorem fimm_sign (x : BitVec 32) : x >>> 31 ≠ 0#32 ↔ x.toNat / 2 ^ 31 = 1 := by
  rw [ne_eq, ← BitVec.toNat_inj]
  simp only [BitVec.toNat_ushiftRight, Nat.shiftRight_eq_div_pow, BitVec.toNat_ofNat]
  omega

theorem dimm_bits (x : BitVec 64) : ((x <<< 1) >>> 45) <<< 20 = field 20 (x.toNat / 2 ^ 44 % 2 ^ 19) := by
  rw [shl_eq]
  congr 1
  simp only [BitVec.toNat_ushiftRight, BitVec.toNat_shiftLeft, Nat.shiftRight_eq_div_pow,
    Nat.shiftLeft_eq]
  omega

theorem himm_bits (x : BitVec 16) (a : Nat) :
    (((x <<< 1) >>> 7).setWidth 64) <<< a = field a (x.toNat / 2 ^ 6 % 2 ^ 9) := by
  rw [shl_eq]
  congr 1
  simp only [BitVec.toNat_setWidth, BitVec.toNat_ushiftRight, BitVec.toNat_shiftLeft, Nat.shiftRight_eq_div_pow,
    Nat.shiftLeft_eq]
  omega

theorem bitsAt_mask (v : BitVec 64) (a w : Nat) (hw : w ≤ 64) :
    ((v >>> a) &&& BitVec.ofNat 64 (2 ^ w - 1)).toNat = bitsAt v a w := by
  have h1 : 2 ^ w ≤ 2 ^ 64 := Nat.pow_le_pow_right (by omega) hw
  have h0 : 0 < 2 ^ w := Nat.pow_pos (by omega)
  rw [BitVec.toNat_and, BitVec.toNat_ofNat, Nat.mod_eq_of_lt (by omega), Nat.and_two_pow_sub_one_eq_mod,
    BitVec.toNat_ushiftRight, Nat.shiftRight_eq_div_pow, bitsAt]

end Nxas
