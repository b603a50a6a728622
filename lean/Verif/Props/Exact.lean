import Verif.Props.Floats
import Verif.Props.Reported
/-
C90: integers that are given where a floating point immediate is expected.
-/

namespace Nxas

open Spec

/-- The number has a binary representation with at most `b` digits from the first to the last one. -/
def Spec.Digits (b n : Nat) : Prop := ∃ m e, m < 2 ^ b ∧ n = m * 2 ^ e

theorem sig_digits {b n q v : Nat} (hb : b ≤ 23) (hn : n = q * 2 ^ b) (h : sig 23 n = v * 2 ^ 149) : Digits (24 - b) v := by
  have hp : (2 : Nat) ^ 23 = 2 ^ (23 - b) * 2 ^ b := by rw [← pow_add]; congr 1; omega
  have hp' : (2 : Nat) ^ 24 = 2 ^ (24 - b) * 2 ^ b := by rw [← pow_add]; congr 1; omega
  have hpos : 0 < 2 ^ b := Nat.two_pow_pos b
  -- the significand is a multiple of `2 ^ b`
  obtain ⟨m, e, hm, hs⟩ : ∃ m e, m < 2 ^ (24 - b) ∧ sig 23 n = m * 2 ^ b * 2 ^ e := by
    have hr : n % 2 ^ 23 = q % 2 ^ (23 - b) * 2 ^ b := by rw [hn, hp, Nat.mul_mod_mul_right]
    have hlt : q % 2 ^ (23 - b) < 2 ^ (23 - b) := Nat.mod_lt _ (Nat.two_pow_pos _)
    have h24 : 2 ^ (24 - b) = 2 * 2 ^ (23 - b) := by rw [← pow_succ']; congr 1; omega
    unfold sig
    split
    · exact ⟨q % 2 ^ (23 - b), 0, by omega, by rw [hr]; simp⟩
    · refine ⟨2 ^ (23 - b) + q % 2 ^ (23 - b), n / 2 ^ 23 - 1, by omega, ?_⟩
      rw [hr]
      nth_rewrite 1 [hp]
      rw [← Nat.add_mul]
  rw [h, Nat.mul_assoc, ← pow_add] at hs
  by_cases he : 149 ≤ b + e
  · refine ⟨m, b + e - 149, hm, ?_⟩
    have : (2 : Nat) ^ (b + e) = 2 ^ (b + e - 149) * 2 ^ 149 := by rw [← pow_add, Nat.sub_add_cancel he]
    rw [this, ← Nat.mul_assoc] at hs
    exact Nat.eq_of_mul_eq_mul_right (Nat.two_pow_pos 149) hs
  · refine ⟨v, 0, ?_, by simp⟩
    have : (2 : Nat) ^ 149 = 2 ^ (149 - (b + e)) * 2 ^ (b + e) := by rw [← pow_add]; congr 1; omega
    rw [this, ← Nat.mul_assoc] at hs
    have hv := Nat.eq_of_mul_eq_mul_right (Nat.two_pow_pos _) hs
    have : v ≤ v * 2 ^ (149 - (b + e)) := Nat.le_mul_of_pos_right _ (Nat.two_pow_pos _)
    omega

/-- An integer of at most `24 - b` digits is a binary32 number whose last `b` bits are zero. -/
theorem digits_sig {b v : Nat} (hb : b ≤ 23) (hv : v ≤ 2 ^ 63) (h : Digits (24 - b) v) :
    ∃ k, k < 0x7F800000 ∧ k % 2 ^ b = 0 ∧ magnitude 23 127 k = v := by
  obtain ⟨m, e, hm, rfl⟩ := h
  have hp' : (2 : Nat) ^ 24 = 2 ^ (24 - b) * 2 ^ b := by rw [← pow_add]; congr 1; omega
  have hmb : m * 2 ^ b < 2 ^ 24 := by rw [hp']; exact Nat.mul_lt_mul_of_pos_right hm (Nat.two_pow_pos b)
  have hfin : ∀ k, sig 23 k = m * 2 ^ e * 2 ^ 149 → k < 0x7F800000 ∧ magnitude 23 127 k = ((m * 2 ^ e : Nat) : ℚ) := by
    intro k hk
    constructor
    · rw [← (sig_strictMono 23).lt_iff_lt, hk]
      have h3 : sig 23 0x7F800000 = 2 ^ 128 * 2 ^ 149 := by
        unfold sig
        norm_num
      rw [h3]
      exact Nat.mul_lt_mul_of_lt_of_le (lt_of_le_of_lt hv (by norm_num)) le_rfl (by norm_num)
    · rw [magnitude_sig (by omega), hk]
      push_cast
      exact mul_div_cancel_right₀ _ (by positivity)
  -- shift the digits to the left as far as they go
  have key : ∀ j m, m * 2 ^ b < 2 ^ 24 → ∃ k, k % 2 ^ b = 0 ∧ sig 23 k = m * 2 ^ b * 2 ^ j := by
    intro j
    induction j with
    | zero =>
      intro m hm
      refine ⟨m * 2 ^ b, Nat.mul_mod_left _ _, ?_⟩
      have := sig_binade (p := 23) (be := 0) (m := m * 2 ^ b) (.inl rfl) (by omega)
      simpa using this
    | succ j ih =>
      intro m hm
      by_cases h : 2 ^ 23 ≤ m * 2 ^ b
      · refine ⟨_, ?_, sig_binade (.inr h) (by omega)⟩
        have hp : (2 : Nat) ^ 23 = 2 ^ (23 - b) * 2 ^ b := by rw [← pow_add]; congr 1; omega
        rw [hp, ← Nat.mul_assoc, ← Nat.add_mul]
        exact Nat.mul_mod_left _ _
      · obtain ⟨k, h1, h2⟩ := ih (2 * m) (by rw [Nat.mul_assoc]; omega)
        exact ⟨k, h1, by rw [h2, pow_succ]; ring⟩
  obtain ⟨k, h1, h2⟩ := key (149 + e - b) m hmb
  have : m * 2 ^ b * 2 ^ (149 + e - b) = m * 2 ^ e * 2 ^ 149 := by
    rw [Nat.mul_assoc, Nat.mul_assoc, ← pow_add, ← pow_add]
    congr 2
    omega
  obtain ⟨h3, h4⟩ := hfin k (h2.trans this)
  exact ⟨k, h3, h1, by rw [h4]⟩

theorem magnitude_inj {a b : Nat} (h : magnitude 23 127 a = magnitude 23 127 b) : a = b := by
  rw [magnitude_sig (by omega), magnitude_sig (by omega), div_left_inj' (by positivity), Nat.cast_inj] at h
  exact (sig_strictMono 23).injective h

theorem magnitude_int {n v : Nat} (h : magnitude 23 127 n = v) : sig 23 n = v * 2 ^ 149 := by
  rw [magnitude_sig (by omega), div_eq_iff (by positivity)] at h
  exact_mod_cast h

theorem abs_natAbs (v : Int) : |(v : ℚ)| = (v.natAbs : Nat) := by rw [Nat.cast_natAbs, Int.cast_abs]

/-- C90. An integer where a 32-bit floating point immediate is expected: the sign is kept, and the number is stored exactly if it has at
    most 24 digits, in the binary system and without zeros at the end. What is missing: other integers, which the assembler stores
    inexactly instead of rejecting them. -/
theorem C90_wide_partial {v : Int} (h : HasOperand dbg code i (.fimm true) [.imm v] op) :
    bitsAt op.value 20 32 / 2 ^ 31 = bit (v < 0) ∧
    (magnitude 23 127 (bitsAt op.value 20 32 % 2 ^ 31) = |(v : ℚ)| ↔ Digits 24 v.natAbs) := by
  have hw : (Kind.imm v).wf := by
    obtain ⟨_, _, _, _, _, _, d⟩ := h.decoded rfl
    exact (d.proper _ (List.mem_singleton.2 rfl)).1
  have hv : v.natAbs ≤ 2 ^ 63 := by have : -(2 ^ 63) ≤ v ∧ v ≤ 2 ^ 63 - 1 := hw; omega
  have h1 := C32_wide h
  cases h1 with
  | int hs hn =>
    refine ⟨hs, ?_, ?_⟩
    · intro he
      rw [abs_natAbs] at he
      exact sig_digits (b := 0) (by omega) (Nat.mul_one _).symm (magnitude_int he)
    · intro hd
      obtain ⟨k, h1, -, h2⟩ := digits_sig (b := 0) (by omega) hv hd
      rw [← abs_natAbs] at h2
      exact Nearest.exact hn h1.le h2

/-- C90. The same of 20-bit floating point immediates, which have 12 digits. -/
theorem C90_short_partial {v : Int} (h : HasOperand dbg code i (.fimm false) [.imm v] op) :
    bitsAt op.value 56 1 = bit (v < 0) ∧
    (magnitude 23 127 (bitsAt op.value 20 19 * 2 ^ 12) = |(v : ℚ)| ↔ Digits 12 v.natAbs) := by
  have hw : (Kind.imm v).wf := by
    obtain ⟨_, _, _, _, _, _, d⟩ := h.decoded rfl
    exact (d.proper _ (List.mem_singleton.2 rfl)).1
  have hv : v.natAbs ≤ 2 ^ 63 := by have : -(2 ^ 63) ≤ v ∧ v ≤ 2 ^ 63 - 1 := hw; omega
  obtain ⟨n, h1, h2, h3⟩ := C32_short h
  cases h1 with
  | int hs hn =>
    rw [h2, h3]
    refine ⟨hs, ?_, ?_⟩
    · intro he
      rw [abs_natAbs] at he
      exact sig_digits (b := 12) (by omega) rfl (magnitude_int he)
    · intro hd
      obtain ⟨k, h1, h4, h5⟩ := digits_sig (b := 12) (by omega) hv hd
      rw [← abs_natAbs] at h5
      have hk := magnitude_inj ((Nearest.exact hn h1.le h5).trans h5.symm)
      rw [← h5]
      congr 1
      omega

/-- 2^24 + 1 has too many digits, 2^24 + 2 and 2^62 have not. -/
example : ¬ Digits 24 16777217 ∧ Digits 24 16777218 ∧ Digits 24 4611686018427387904 := by
  refine ⟨?_, ⟨8388609, 1, by decide, by decide⟩, ⟨1, 62, by decide, by decide⟩⟩
  rintro ⟨m, e, h1, h2⟩
  cases e with
  | zero => simp at h2; omega
  | succ e => rw [pow_succ, ← Nat.mul_assoc] at h2; omega

example : ∃ ks op, HasOperand true c!"FADD32I R0, R1, -16777218;" 0 (.fimm true) ks op ∧ bitsAt op.value 20 32 = 0xcb800001 := by
  obtain ⟨ks, op, h, hw⟩ := opCheck_has (dbg := true) (code := c!"FADD32I R0, R1, -16777218;") (i := 0) (j := 7)
    (o := .fimm true) (w := 0x080cb80000170100#64) (by decide +kernel)
  exact ⟨ks, op, h, by rw [hw]; decide⟩

/-- C90 is violated: the integers 2^24 + 1 and 2^24 are given the same words, and in the 20-bit form 2^12 + 1 and 2^12; and the message for
    this case is never reported. -/
theorem C90_violated :
    (∃ w, ∀ dbg, assemble dbg c!"FADD32I R0, R1, 16777217;" = .ok w ∧ assemble dbg c!"FADD32I R0, R1, 16777216;" = .ok w) ∧
    (∃ w, ∀ dbg, assemble dbg c!"FADD R0, R1, 4097;" = .ok w ∧ assemble dbg c!"FADD R0, R1, 4096;" = .ok w) ∧
    ∀ dbg code d, assemble dbg code = .exit d → d.msg.fmt ≠ "integer immediate ldcannot be represented as float" := by
  refine ⟨⟨[0x001f8000fc0007e0#64, 0x0804b80000070100#64, 0x50b0000000070f00#64, 0x50b0000000070f00#64], ?_⟩,
    ⟨[0x001f8000fc0007e0#64, 0x3858004580070100#64, 0x50b0000000070f00#64, 0x50b0000000070f00#64], ?_⟩, fun dbg code d h => C91_unreported (by decide +kernel) h⟩
  · rintro (_ | _) <;> exact ⟨by decide +kernel, by decide +kernel⟩
  · rintro (_ | _) <;> exact ⟨by decide +kernel, by decide +kernel⟩

end Nxas
