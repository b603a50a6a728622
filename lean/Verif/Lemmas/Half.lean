import Verif.Lemmas.Floats
import Mathlib.Data.Nat.Bitwise
/-
The masks and shifts of `fp32_to_fp16` as arithmetic.
-/

namespace Nxas

open Spec

theorem or_disjoint {a b i : Nat} (h : b < 2 ^ i) : a * 2 ^ i ||| b = a * 2 ^ i + b := by
  rw [Nat.mul_comm]
  exact (Nat.two_pow_add_eq_or_of_lt h a).symm

/-- The rounding increment. -/
theorem increment (g s : BitVec 32) (h : BitVec 16) (hg : g.toNat < 2) (hs : s.toNat < 2) :
    (g &&& (s ||| h.setWidth 32)).setWidth 16 = if g.toNat = 1 ∧ (s.toNat = 1 ∨ h.toNat % 2 = 1) then 1#16 else 0#16 := by
  apply BitVec.eq_of_toNat_eq
  have h1 : (g &&& (s ||| h.setWidth 32)).toNat < 2 := by
    rw [BitVec.toNat_and]
    exact Nat.lt_of_le_of_lt Nat.and_le_left hg
  have h2 : (g &&& (s ||| h.setWidth 32)).toNat % 2 = 1 ↔ g.toNat = 1 ∧ (s.toNat = 1 ∨ h.toNat % 2 = 1) := by
    rw [BitVec.toNat_and, BitVec.toNat_or, Nat.and_mod_two_eq_one, Nat.or_mod_two_eq_one, BitVec.toNat_setWidth]
    omega
  rw [BitVec.toNat_setWidth]
  split
  · next h => rw [Nat.mod_eq_of_lt (by omega)]; show _ = 1; omega
  · next h => rw [Nat.mod_eq_of_lt (by omega)]; show _ = 0; omega

theorem rounded {h : BitVec 16} {g s : BitVec 32} {sg n : Nat} (hg : g.toNat < 2) (hs : s.toNat < 2) (hh : h.toNat = sg * 2 ^ 15 + n)
    (_ : sg = 0 ∨ sg = 1) {P Q : Prop} [Decidable P] [Decidable Q] (hP : g.toNat = 1 ↔ P) (hQ : s.toNat = 1 ↔ Q)
    (hl : (n + if P ∧ (Q ∨ n % 2 = 1) then 1 else 0) < 2 ^ 15) :
    (h + (g &&& (s ||| h.setWidth 32)).setWidth 16).toNat = sg * 2 ^ 15 + (n + if P ∧ (Q ∨ n % 2 = 1) then 1 else 0) := by
  rw [increment g s h hg hs, BitVec.toNat_add, hh]
  have : (g.toNat = 1 ∧ (s.toNat = 1 ∨ (sg * 2 ^ 15 + n) % 2 = 1)) ↔ (P ∧ (Q ∨ n % 2 = 1)) := by
    rw [hP, hQ, show (sg * 2 ^ 15 + n) % 2 = n % 2 by omega]
  by_cases hc : P ∧ (Q ∨ n % 2 = 1)
  · rw [if_pos hc] at hl
    rw [if_pos hc, if_pos (this.2 hc)]
    show (_ + 1) % _ = _
    omega
  · rw [if_neg hc] at hl
    rw [if_neg hc, if_neg (fun h => hc (this.1 h))]
    show (_ + 0) % _ = _
    omega

/-- A flag that says whether some bits are not all zero. -/
theorem sticky_iff (b : BitVec 32) : (if (b != 0#32) = true then 1#32 else 0#32).toNat < 2 ∧
    ((if (b != 0#32) = true then 1#32 else 0#32).toNat = 1 ↔ b.toNat ≠ 0) := by
  by_cases h : b = 0#32
  · simp [h]
  · have : b.toNat ≠ 0 := fun h' => h (BitVec.eq_of_toNat_eq (by simpa using h'))
    have h2 : (b != 0#32) = true := by simpa using h
    simp [h2, this]

theorem fp32ToFp16_toNat (v : BitVec 32) : (fp32ToFp16 v).toNat = v.toNat / 2 ^ 31 * 2 ^ 15 + half16 (v.toNat % 2 ^ 31) := by
  have hv := v.isLt
  have hlt := half16_lt (v.toNat % 2 ^ 31) (by omega)
  unfold fp32ToFp16
  dsimp only
  obtain ⟨hb, hhb⟩ : ∃ hb, hb = ((v >>> 16) &&& 0x8000#32).setWidth 16 := ⟨_, rfl⟩
  obtain ⟨bits, hbits⟩ : ∃ bits, bits = v &&& 0x7FFFFFFF#32 := ⟨_, rfl⟩
  rw [← hhb, ← hbits]
  have e1 : hb.toNat = v.toNat / 2 ^ 31 * 2 ^ 15 := by
    rw [hhb, BitVec.toNat_setWidth, BitVec.toNat_and, BitVec.toNat_ushiftRight]
    show (_ &&& 2 ^ 15) % _ = _
    rw [Nat.and_two_pow, Nat.testBit_eq_decide_div_mod_eq, Nat.shiftRight_eq_div_pow, Nat.div_div_eq_div_mul]
    have : v.toNat / 2 ^ 31 = 0 ∨ v.toNat / 2 ^ 31 = 1 := by omega
    rw [← pow_add, show 16 + 15 = 31 from rfl]
    rcases this with h | h <;> rw [h] <;> rfl
  have e2 : bits.toNat = v.toNat % 2 ^ 31 := by
    rw [hbits, BitVec.toNat_and]
    exact Nat.and_two_pow_sub_one_eq_mod _ 31
  have hn : v.toNat % 2 ^ 31 < 2 ^ 31 := by omega
  generalize v.toNat % 2 ^ 31 = n at *
  have hs : v.toNat / 2 ^ 31 = 0 ∨ v.toNat / 2 ^ 31 = 1 := by omega
  generalize v.toNat / 2 ^ 31 = sg at *
  clear hhb hbits hv v
  have e3 : (bits >>> 23).toNat = n / 2 ^ 23 := by rw [BitVec.toNat_ushiftRight, Nat.shiftRight_eq_div_pow, e2]
  have e4 : (bits &&& 0x7FFFFF#32).toNat = n % 2 ^ 23 := by
    rw [BitVec.toNat_and, e2]
    exact Nat.and_two_pow_sub_one_eq_mod _ 23
  have or16 (h : BitVec 16) (hh : h.toNat < 2 ^ 15) : (hb ||| h).toNat = sg * 2 ^ 15 + h.toNat := by
    rw [BitVec.toNat_or, e1, or_disjoint hh]
  unfold half16 at hlt ⊢
  by_cases h1 : n / 2 ^ 23 = 255
  · rw [if_pos h1, if_pos (by apply BitVec.eq_of_toNat_eq; rw [e3, h1]; rfl)]
    have : hb = BitVec.ofNat 16 (sg * 2 ^ 15) := by
      apply BitVec.eq_of_toNat_eq
      rw [e1, BitVec.toNat_ofNat]
      omega
    by_cases h2 : n % 2 ^ 23 ≠ 0
    · have h3 : ((bits &&& 0x7FFFFF#32) != 0#32) = true := by
        rw [bne_iff_ne]
        intro h
        rw [h] at e4
        exact h2 e4.symm
      rw [if_pos h2, h3, this]
      rcases hs with rfl | rfl <;> decide
    · have h3 : ((bits &&& 0x7FFFFF#32) != 0#32) = false := by
        rw [bne_eq_false_iff_eq]
        apply BitVec.eq_of_toNat_eq
        rw [e4]
        simp at h2 ⊢
        exact h2
      rw [if_neg h2, h3, this]
      rcases hs with rfl | rfl <;> decide
  rw [if_neg h1] at hlt
  rw [if_neg h1, if_neg (by intro h; rw [h] at e3; exact h1 e3.symm), e3]
  by_cases h2 : n / 2 ^ 23 > 142
  · rw [if_pos h2, if_pos h2]
    have : hb = BitVec.ofNat 16 (sg * 2 ^ 15) := by
      apply BitVec.eq_of_toNat_eq
      rw [e1, BitVec.toNat_ofNat]
      omega
    rw [this]
    rcases hs with rfl | rfl <;> decide
  rw [if_neg h2] at hlt ⊢
  rw [if_neg h2]
  by_cases h3 : n / 2 ^ 23 > 112
  · rw [if_pos h3] at hlt ⊢
    rw [if_pos h3]
    have e5 : ((bits >>> 12) &&& 1#32).toNat = n / 2 ^ 12 % 2 := by
      rw [BitVec.toNat_and, BitVec.toNat_ushiftRight, Nat.shiftRight_eq_div_pow, e2]
      exact Nat.and_two_pow_sub_one_eq_mod _ 1
    have e6 : (bits &&& 0xFFF#32).toNat = n % 2 ^ 12 := by
      rw [BitVec.toNat_and, e2]
      exact Nat.and_two_pow_sub_one_eq_mod _ 12
    have e7 : ((((bits >>> 23) - 112#32) <<< 10) ||| ((bits >>> 13) &&& 0x3FF#32)).toNat = (n - 112 * 2 ^ 23) / 2 ^ 13 := by
      have a1 : (((bits >>> 23) - 112#32) <<< 10).toNat = (n / 2 ^ 23 - 112) * 2 ^ 10 := by
        rw [BitVec.toNat_shiftLeft, BitVec.toNat_sub_of_le (by rw [BitVec.le_def, e3]; show 112 ≤ _; omega), e3, Nat.shiftLeft_eq]
        show (n / 2 ^ 23 - 112) * 2 ^ 10 % 2 ^ 32 = _
        omega
      have a2 : ((bits >>> 13) &&& 0x3FF#32).toNat = n / 2 ^ 13 % 2 ^ 10 := by
        rw [BitVec.toNat_and, BitVec.toNat_ushiftRight, Nat.shiftRight_eq_div_pow, e2]
        exact Nat.and_two_pow_sub_one_eq_mod _ 10
      rw [BitVec.toNat_or, a1, a2, or_disjoint (by omega)]
      omega
    have e8 : (hb ||| ((((bits >>> 23) - 112#32) <<< 10) ||| ((bits >>> 13) &&& 0x3FF#32)).setWidth 16).toNat = sg * 2 ^ 15 + (n - 112 * 2 ^ 23) / 2 ^ 13 := by
      have a3 : (((((bits >>> 23) - 112#32) <<< 10) ||| ((bits >>> 13) &&& 0x3FF#32)).setWidth 16).toNat = (n - 112 * 2 ^ 23) / 2 ^ 13 := by
        rw [BitVec.toNat_setWidth, e7]
        omega
      rw [or16 _ (by rw [a3]; omega), a3]
    have e9 := sticky_iff (bits &&& 0xFFF#32)
    rw [e6] at e9
    exact rounded (by omega) e9.1 e8 hs (by rw [e5]) e9.2 hlt
  rw [if_neg h3] at hlt ⊢
  rw [if_neg h3]
  by_cases h4 : n / 2 ^ 23 > 101
  · rw [if_pos h4] at hlt ⊢
    rw [if_pos h4]
    obtain ⟨j, hj⟩ : ∃ j, 125 - n / 2 ^ 23 = j := ⟨_, rfl⟩
    rw [hj] at hlt ⊢
    have e5 : ((bits &&& 0x7FFFFF#32) ||| 0x800000#32).toNat = 2 ^ 23 + n % 2 ^ 23 := by
      rw [BitVec.toNat_or, e4, Nat.or_comm]
      have := or_disjoint (a := 1) (b := n % 2 ^ 23) (i := 23) (by omega)
      simpa using this
    generalize ((bits &&& 0x7FFFFF#32) ||| 0x800000#32) = b at *
    generalize ha : 2 ^ 23 + n % 2 ^ 23 = a at *
    have e6 : ((b >>> j) &&& 1#32).toNat = a / 2 ^ j % 2 := by
      rw [BitVec.toNat_and, BitVec.toNat_ushiftRight, Nat.shiftRight_eq_div_pow, e5]
      exact Nat.and_two_pow_sub_one_eq_mod _ 1
    have hpow : 2 ^ j ≤ 2 ^ 23 := Nat.pow_le_pow_right (by omega) (by omega)
    have e7 : (b &&& BitVec.ofNat 32 (2 ^ j - 1)).toNat = a % 2 ^ j := by
      rw [BitVec.toNat_and, BitVec.toNat_ofNat, Nat.mod_eq_of_lt (by omega), e5]
      exact Nat.and_two_pow_sub_one_eq_mod _ j
    have e8 : (hb ||| (b >>> (j + 1)).setWidth 16).toNat = sg * 2 ^ 15 + a / 2 ^ (j + 1) := by
      have hl : a / 2 ^ (j + 1) < 2 ^ 15 := by omega
      have a3 : ((b >>> (j + 1)).setWidth 16).toNat = a / 2 ^ (j + 1) := by
        rw [BitVec.toNat_setWidth, BitVec.toNat_ushiftRight, Nat.shiftRight_eq_div_pow, e5]
        exact Nat.mod_eq_of_lt (by omega)
      rw [or16 _ (by rw [a3]; exact hl), a3]
    have e9 := sticky_iff (b &&& BitVec.ofNat 32 (2 ^ j - 1))
    rw [e7] at e9
    exact rounded (by omega) e9.1 e8 hs (by rw [e6]) e9.2 hlt
  · rw [if_neg h4, if_neg h4]
    have e9 := sticky_iff bits
    have := rounded (g := 0#32) (n := 0) (P := False) (by decide) e9.1 (by rw [e1, Nat.add_zero]) hs (by decide) e9.2 (by simp)
    simpa using this

end Nxas
