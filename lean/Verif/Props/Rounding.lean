import Verif.Lemmas.Twice
import Verif.Props.Floats
/-
C80, C81: what rounding twice does to half and double precision immediates.  C60 and C61 say that these are what is
nearest to the literal, which is false; here is exactly when it is false and by how much.
-/

namespace Nxas
open Spec

variable {dbg : Bool} {code : Str} {i : Nat} {ks : List Kind} {op : Op}

/-- The tokens of a numeric literal of the magnitude `x`, which is read as the binary32 magnitude `m`. (That a fraction
    has such a token is `C32_literal`.) -/
inductive Literal : List Kind → ℚ → Nat → Prop
  | fraction {f : BitVec 32} {x : ℚ} (h : Nearest32 x (f.toNat % 2 ^ 31)) : Literal [.fimm f] x (f.toNat % 2 ^ 31)
  | integer {v : Int} {m : Nat} (h : Nearest32 |(v : ℚ)| m) : Literal [.imm v] |(v : ℚ)| m

theorem Literal.nearest {x : ℚ} {m : Nat} (h : Literal ks x m) : Nearest32 x m := by cases h <;> assumption

/-- The binary16 number `k` is next to `g`, the binary32 number `m` is in the middle of both, and `k` is nearer to `x`
    than `g` is. -/
def Astray (x : ℚ) (m g : Nat) : Prop :=
  ∃ k ≤ 0x7C00, (k = g + 1 ∨ k + 1 = g) ∧ 2 * magnitude 23 127 m = magnitude 10 15 g + magnitude 10 15 k ∧
    |magnitude 10 15 k - x| < |magnitude 10 15 g - x|

/-- A literal and what a half precision immediate makes of it: rounded to binary32 first. -/
theorem half_twice {a : Nat} {x : ℚ} {m : Nat} (h : HasOperand dbg code i (.himm true a none) ks op) (hl : Literal ks x m) :
    Nearest16 (magnitude 23 127 m) (bitsAt op.value a 16 % 2 ^ 15) := by
  obtain ⟨n, h1, -, h2, h3, -⟩ := C33_wide h
  have key : n % 2 ^ 31 ≤ 0x7F800000 → Nearest16 (magnitude 23 127 (n % 2 ^ 31)) (bitsAt op.value a 16 % 2 ^ 15) := by
    intro hn
    rcases Nat.lt_or_eq_of_le hn with hn | hn
    · exact h2 hn
    · rw [hn, h3 hn]
      refine nearest_above (by omega) ?_
      rw [magnitude_sig (by omega), magnitude_sig (by omega), sig_inf16, sig_inf32]
      norm_num
  cases hl with
  | fraction hf => cases h1; exact key hf.1
  | integer hi =>
    cases h1 with
    | int hs hn => rw [Nearest.unique (by omega) hi hn]; exact key hn.1

/-- C80. A 16-bit immediate is the binary16 number nearest to the literal unless the binary32 number nearest to the
    literal is in the middle of two binary16 numbers, of which the other one is nearer to the literal. -/
theorem C80_nearest {a : Nat} {x : ℚ} {m : Nat} (h : HasOperand dbg code i (.himm true a none) ks op) (hl : Literal ks x m) :
    Nearest16 x (bitsAt op.value a 16 % 2 ^ 15) ↔ ¬ Astray x m (bitsAt op.value a 16 % 2 ^ 15) := by
  have h1 := half_twice h hl
  constructor
  · rintro h2 ⟨k, hk, -, -, h3⟩
    exact absurd (h2.2 k hk).1 (not_le.2 h3)
  · intro h2
    refine nearest_twice (by omega) middle32 hl.nearest h1 fun k hk h3 h4 => ?_
    by_contra h5
    exact h2 ⟨k, hk, h3, h4, not_le.1 h5⟩

/-- C80. In any case no binary16 number lies strictly between the literal and the one that is encoded. -/
theorem C80_faithful {a : Nat} {x : ℚ} {m : Nat} (h : HasOperand dbg code i (.himm true a none) ks op) (hl : Literal ks x m) (k : Nat)
    (hk : k ≤ 0x7C00) :
    ¬ (magnitude 10 15 (bitsAt op.value a 16 % 2 ^ 15) < magnitude 10 15 k ∧ magnitude 10 15 k < x) ∧
    ¬ (x < magnitude 10 15 k ∧ magnitude 10 15 k < magnitude 10 15 (bitsAt op.value a 16 % 2 ^ 15)) := by
  obtain ⟨j, hj, ej⟩ := half32 k hk
  exact faithful_twice hj ej hl.nearest (half_twice h hl) hk

/-- A number of the format is nearest to itself. -/
theorem nearest_self {p bias inf n : Nat} (hb : 1 ≤ bias) (hn : n ≤ inf) : Nearest p bias inf (magnitude p bias n) n := by
  refine ⟨hn, fun k _ => ?_⟩
  rw [sub_self, abs_zero]
  exact ⟨abs_nonneg _, fun h1 h2 => absurd ((magnitude_strictMono p hb).injective (sub_eq_zero.1 (abs_eq_zero.1 h2))) h1⟩

/-- A 16-bit immediate that meets the hypotheses of both theorems. -/
example : ∃ ks op x m, HasOperand true c!"HADD2_32I R0, R1, -1, 2049;" 0 (.himm true 20 none) ks op ∧ Literal ks x m := by
  obtain ⟨ks, op, h, hw⟩ := opCheck_has (dbg := true) (code := c!"HADD2_32I R0, R1, -1, 2049;") (i := 0) (j := 10)
    (o := .himm true 20 none) (w := 0x2c0bc00680070100#64) (by decide +kernel)
  obtain ⟨n, h1, h2, h3, h4, h5⟩ := C33_wide h
  have hb : bitsAt op.value 20 16 = 0x6800 := by rw [hw]; decide
  rw [hb] at h2 h3 h4 h5
  have hn : n % 2 ^ 31 < 0x7F800000 := by
    rcases Nat.lt_trichotomy (n % 2 ^ 31) 0x7F800000 with hn | hn | hn
    · exact hn
    · exact absurd (h4 hn) (by decide)
    · exact absurd (h5 hn) (by decide)
  have hs : ∀ {w m}, special w = some m → m = 0x7F800000 ∨ m = 0x7FC00000 := by
    intro w m hw
    unfold special at hw
    split at hw
    · simp_all
    · split at hw <;> simp_all
  cases h1 with
  | float => exact ⟨_, op, _, _, h, .fraction (nearest_self (by omega) hn.le)⟩
  | int hs hn => exact ⟨_, op, _, _, h, .integer hn⟩
  | word hw | plus hw | minus hw => rcases hs hw with rfl | rfl <;> omega

/-- An immediate of the right kind, which is a literal that goes astray: its binary32 number is in the middle of 0x3C00 and
    0x3C01, and the latter is nearer. -/
example : ∃ ks op, HasOperand true c!"HADD2_32I R0, R1, 1.000488281250001, 1.0;" 0 (.himm true 36 none) ks op ∧ bitsAt op.value 36 16 = 0x3C00 := by
  obtain ⟨ks, op, h, hw⟩ := opCheck_has (dbg := true) (code := c!"HADD2_32I R0, R1, 1.000488281250001, 1.0;") (i := 0) (j := 8)
    (o := .himm true 36 none) (w := 0x2c03c003c0070100#64) (by decide +kernel)
  exact ⟨ks, op, h, by rw [hw]; decide⟩
example : tokenize ⟨c!"1.000488281250001,", 0, 0⟩ = .ok ⟨.fimm 0x3f801000#32, 0, 0⟩ ⟨c!",", 0, 17⟩ := by decide +kernel
example : Literal [.fimm 0x3f801000#32] (1000488281250001 / 10 ^ 15) 0x3f801000 := by
  have := roundRat_nearest (p := 23) (bias := 127) (inf := 0x7F800000) (num := 1000488281250001) (den := 10 ^ 15) (by omega) (by omega) (by omega) (by omega)
  rw [show roundRat 23 127 0x7F800000 1000488281250001 (10 ^ 15) = 0x3f801000 by decide +kernel] at this
  refine .fraction (f := 0x3f801000#32) ?_
  norm_num at this ⊢
  exact this
example : Astray (1000488281250001 / 10 ^ 15) 0x3f801000 0x3C00 := by
  refine ⟨0x3C01, by omega, .inl rfl, ?_, ?_⟩
  · unfold magnitude; norm_num
  · unfold magnitude
    rw [abs_of_pos (by norm_num), abs_of_neg (by norm_num)]
    norm_num

/-! ### C81: double precision immediates -/

/-- C81. The immediate of a fraction whose binary32 number is normal holds the upper bits of the binary64 number nearest
    to the fraction, unless that is less than the binary32 number and the latter has no bits below those that are stored; then
    it holds the number that follows. -/
theorem C81_double {f : BitVec 32} {x : ℚ} {m N : Nat} (h : HasOperand dbg code i .dimm20 [.fimm f] op) (hl : Literal [.fimm f] x m)
    (hN : Nearest64 x N) (hlo : 2 ^ 23 ≤ m) (hhi : m < 0x7F800000) :
    bitsAt op.value 20 19 = if m % 2 ^ 15 = 0 ∧ magnitude 52 1023 N < magnitude 23 127 m then N / 2 ^ 44 + 1 else N / 2 ^ 44 := by
  obtain ⟨n, h1, h2, -⟩ := C61_partial h
  have h3 := upper64 hl.nearest hN hlo hhi
  have hmono := magnitude_strictMono 52 (bias := 1023) (by omega)
  cases hl with
  | fraction hf =>
    cases h1 with
    | infinite hs hf' hn => omega
    | float hs hf' hn =>
      rw [← widen64 hlo] at hn
      have := hmono.injective hn
      rw [h2]
      by_cases hc : f.toNat % 2 ^ 31 % 2 ^ 15 = 0 ∧ magnitude 52 1023 N < magnitude 23 127 (f.toNat % 2 ^ 31)
      · rw [if_pos hc] at h3 ⊢
        omega
      · rw [if_neg hc] at h3 ⊢
        omega

/-- C81. If the binary32 number is less than every normal one, so is what is encoded; if it is infinite, infinity is encoded,
    although the nearest binary64 number may be finite. -/
theorem C81_range {f : BitVec 32} {x : ℚ} {m : Nat} (h : HasOperand dbg code i .dimm20 [.fimm f] op) (hl : Literal [.fimm f] x m) :
    (m < 2 ^ 23 → bitsAt op.value 20 19 < 897 * 2 ^ 8) ∧ (m = 0x7F800000 → bitsAt op.value 20 19 = 0x7FF00) := by
  obtain ⟨n, h1, h2, -⟩ := C61_partial h
  have hmono := magnitude_strictMono 52 (bias := 1023) (by omega)
  cases hl with
  | fraction hf =>
    cases h1 with
    | infinite hs hf' hn => exact ⟨by omega, fun _ => by omega⟩
    | float hs hf' hn =>
      refine ⟨fun hm => ?_, by omega⟩
      have h4 := magnitude_strictMono 23 (bias := 127) (by omega) hm
      rw [← hn, ← widen64 le_rfl, hmono.lt_iff_lt] at h4
      omega

/-- A fraction that is stored right, and one that is not: 1.99999999999 is stored as 2. -/
example : ∃ ks op, HasOperand true c!"DADD R0, R1, 1.99999999999;" 0 .dimm20 ks op ∧ bitsAt op.value 20 19 = 0x40000 := by
  obtain ⟨ks, op, h, hw⟩ := opCheck_has (dbg := true) (code := c!"DADD R0, R1, 1.99999999999;") (i := 0) (j := 7)
    (o := .dimm20) (w := 0x3870004000070100#64) (by decide +kernel)
  exact ⟨ks, op, h, by rw [hw]; decide⟩
example : roundRat 52 1023 0x7FF0000000000000 199999999999 (10 ^ 11) / 2 ^ 44 = 0x3FFFF := by decide +kernel

end Nxas
