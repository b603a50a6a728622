import Verif.Lemmas.Widen
import Verif.Lemmas.Readback
import Verif.Lemmas.Compose
import Verif.Props.Literals
/-
C32 to C34, C60 and C61: floating point immediates.
-/

namespace Nxas

open Spec

variable {dbg : Bool} {code : Str} {i : Nat} {op : Op} {ks : List Kind}

/-! ### C32: binary32 -/

/-- C32. A decimal fraction is read as the binary32 number nearest to it, with its sign. `ip` and `fp` are the digits
    before and after the dot. -/
theorem C32_literal {c : Cur} {sg ip fp rest : Str} {neg : Bool} (hz : '\x00' ∉ c.text) (ht : c.text = sg ++ ip ++ '.' :: fp ++ rest)
    (hs : Sign sg neg) (hi : ip ≠ []) (h1 : ∀ x ∈ ip, decimal x) (h2 : ∀ x ∈ fp, decimal x) (he : Ends rest) :
    ∃ f : BitVec 32, tokenize c = .ok ⟨.fimm f, c.line, c.col⟩ (c.move (sg ++ ip ++ '.' :: fp) rest) ∧ f.toNat / 2 ^ 31 = bit neg ∧
      Nearest32 ((numeral 10 (ip ++ fp) : ℚ) / 10 ^ fp.length) (f.toNat % 2 ^ 31) := by
  refine ⟨_, tokenize_lexeme hz ht (.float hs hi h1 h2 he), ?_⟩
  have := f32OfRat_nearest neg (numeral 10 (ip ++ fp)) (den := 10 ^ fp.length) (by positivity)
  push_cast at this
  exact this

example : tokenize ⟨c!"-0.1;", 0, 0⟩ = .ok ⟨.fimm 0xbdcccccd#32, 0, 0⟩ ⟨c!";", 0, 4⟩ := by decide +kernel

/-- The keywords for infinity and for a number that is none. -/
def special (w : Str) : Option Nat := if w = c!"INF" then some 0x7F800000 else if w = c!"QNAN" then some 0x7FC00000 else none

/-- The binary32 pattern `n`, with sign bit, is what the tokens of a floating point immediate stand for. -/
inductive Value32 : List Kind → Nat → Prop
  | float {f : BitVec 32} : Value32 [.fimm f] f.toNat
  | int {v : Int} {n : Nat} (hs : n / 2 ^ 31 = bit (v < 0)) (hn : Nearest32 |(v : ℚ)| (n % 2 ^ 31)) : Value32 [.imm v] n
  | word {w : Str} {n : Nat} (h : special w = some n) : Value32 [.ident w] n
  | plus {w : Str} {n : Nat} (h : special w = some n) : Value32 [.plus, .ident w] n
  | minus {w : Str} {n : Nat} (h : special w = some n) : Value32 [.minus, .ident w] (2 ^ 31 + n)

theorem special_bound {w : Str} {n : Nat} (h : special w = some n) : n < 2 ^ 31 := by
  unfold special at h
  split at h
  · simp at h; omega
  · split at h
    · simp at h; omega
    · simp at h

theorem Value32.bound {n : Nat} (h : Value32 ks n) : n < 2 ^ 32 := by
  cases h with
  | float => exact BitVec.isLt _
  | @int v _ hs _ => have := bit_le (decide (v < 0)); rw [← hs] at this; omega
  | word h => have := special_bound h; omega
  | plus h => have := special_bound h; omega
  | minus h => have := special_bound h; omega

theorem floatWord_special {k : Kind} {x : BitVec 32} (h : floatWord 0x7FC00000#32 0x7F800000#32 k x) : ∃ w, k = .ident w ∧ special w = some x.toNat := by
  rcases h with ⟨rfl, rfl⟩ | ⟨rfl, rfl⟩
  · exact ⟨_, rfl, by decide⟩
  · exact ⟨_, rfl, by decide⟩

theorem FloatText.value32 {neg : Bool} {x : BitVec 32} (h : FloatText 32 id f32OfInt 0x7FC00000 0x7F800000 ks neg x) :
    Value32 ks (x.toNat ^^^ (2 ^ 31 * bit neg)) ∧ (x.toNat ^^^ (2 ^ 31 * bit neg)) / 2 ^ 12 % 2 ^ 19 = x.toNat / 2 ^ 12 % 2 ^ 19 ∧
      (x.toNat ^^^ (2 ^ 31 * bit neg)) / 2 ^ 31 = x.toNat / 2 ^ 31 ^^^ bit neg := by
  cases h with
  | float => simp only [bit, Bool.false_eq_true, if_false, Nat.mul_zero, Nat.xor_zero, id]; exact ⟨.float, trivial, trivial⟩
  | int =>
    simp only [bit, Bool.false_eq_true, if_false, Nat.mul_zero, Nat.xor_zero]
    obtain ⟨h1, h2⟩ := f32OfInt_nearest _
    exact ⟨.int h1 h2, trivial, trivial⟩
  | word h =>
    simp only [bit, Bool.false_eq_true, if_false, Nat.mul_zero, Nat.xor_zero]
    obtain ⟨w, rfl, h'⟩ := floatWord_special h
    exact ⟨.word h', trivial, trivial⟩
  | plus h =>
    simp only [bit, Bool.false_eq_true, if_false, Nat.mul_zero, Nat.xor_zero]
    obtain ⟨w, rfl, h'⟩ := floatWord_special h
    exact ⟨.plus h', trivial, trivial⟩
  | minus h =>
    rcases h with ⟨rfl, rfl⟩ | ⟨rfl, rfl⟩
    · exact ⟨.minus (n := 0x7FC00000) (by decide), by decide, by decide⟩
    · exact ⟨.minus (n := 0x7F800000) (by decide), by decide, by decide⟩

/-- C32. The 32-bit immediate is stored as it is. -/
theorem C32_wide (h : HasOperand dbg code i (.fimm true) ks op) : Value32 ks (bitsAt op.value 20 32) := by
  obtain ⟨hin, e, v, k', b, r, d⟩ := h.decoded rfl
  obtain ⟨rfl, neg, x, h1, rfl⟩ := d.accepts
  obtain ⟨h2, -, -⟩ := FloatText.value32 h1
  rw [d.bits 20 32 (by simp [Operand.fields]) (by omega), if_pos rfl, bitsAt_field h2.bound (by omega)]
  exact h2

/-- C32. The 20-bit immediate is stored without the lower 12 bits. -/
theorem C32_short (h : HasOperand dbg code i (.fimm false) ks op) :
    ∃ n, Value32 ks n ∧ bitsAt op.value 20 19 = n / 2 ^ 12 % 2 ^ 19 ∧ bitsAt op.value 56 1 = n / 2 ^ 31 := by
  obtain ⟨hin, e, v, k', b, r, d⟩ := h.decoded rfl
  obtain ⟨rfl, neg, x, h1, rfl⟩ := d.accepts
  obtain ⟨h2, h3, h4⟩ := FloatText.value32 h1
  have h5 : x.toNat / 2 ^ 12 % 2 ^ 19 < 2 ^ 19 := Nat.mod_lt _ (by omega)
  have h6 : x.toNat / 2 ^ 31 ^^^ bit neg < 2 ^ 1 := by rw [← h4]; have := h2.bound; omega
  refine ⟨_, h2, ?_, ?_⟩
  · rw [d.bits 20 19 (by simp [Operand.fields]) (by omega), if_neg (by simp), bitsAt_or, bitsAt_field h5 (by omega), bitsAt_apart h6 (by omega), h3,
      Nat.or_zero]
  · rw [d.bits 56 1 (by simp [Operand.fields]) (by omega), if_neg (by simp), bitsAt_or, bitsAt_field h6 (by omega), bitsAt_apart h5 (by omega), h4,
      Nat.zero_or]

/-- C32. This is rounding towards zero: the number is between the stored one and the next that could be stored. -/
theorem C32_truncates (n : Nat) : magnitude 23 127 (n / 2 ^ 12 % 2 ^ 19 * 2 ^ 12) ≤ magnitude 23 127 (n % 2 ^ 31) ∧
    magnitude 23 127 (n % 2 ^ 31) < magnitude 23 127 ((n / 2 ^ 12 % 2 ^ 19 + 1) * 2 ^ 12) := by
  constructor
  · rw [magnitude_sig (by omega), magnitude_sig (by omega), div_le_div_iff_of_pos_right (by positivity), Nat.cast_le, (sig_strictMono 23).le_iff_le]
    omega
  · rw [magnitude_sig (by omega), magnitude_sig (by omega), div_lt_div_iff_of_pos_right (by positivity), Nat.cast_lt, (sig_strictMono 23).lt_iff_lt]
    omega

/-- Immediates of both forms: 0.1 is 0x3dcccccd. -/
example : ∃ ks op, HasOperand true c!"FADD32I R0, R1, 0.1;" 0 (.fimm true) ks op ∧ bitsAt op.value 20 32 = 0x3dcccccd := by
  obtain ⟨ks, op, h, hw⟩ := opCheck_has (dbg := true) (code := c!"FADD32I R0, R1, 0.1;") (i := 0) (j := 7)
    (o := .fimm true) (w := 0x0803dcccccd70100#64) (by decide +kernel)
  exact ⟨ks, op, h, by rw [hw]; decide⟩
example : ∃ ks op, HasOperand true c!"FADD R0, R1, -0.1;" 0 (.fimm false) ks op ∧ bitsAt op.value 20 19 = 0x3dccc ∧ bitsAt op.value 56 1 = 1 := by
  obtain ⟨ks, op, h, hw⟩ := opCheck_has (dbg := true) (code := c!"FADD R0, R1, -0.1;") (i := 0) (j := 9)
    (o := .fimm false) (w := 0x3958003dccc70100#64) (by decide +kernel)
  exact ⟨ks, op, h, by rw [hw]; decide, by rw [hw]; decide⟩

/-! ### C33: binary16 -/

/-- The binary16 pattern `h` is the binary32 pattern `n` rounded; both have their sign bit. -/
def Half (n h : Nat) : Prop := h / 2 ^ 15 = n / 2 ^ 31 ∧
  (n % 2 ^ 31 < 0x7F800000 → Nearest16 (magnitude 23 127 (n % 2 ^ 31)) (h % 2 ^ 15)) ∧
  (n % 2 ^ 31 = 0x7F800000 → h % 2 ^ 15 = 0x7C00) ∧ (n % 2 ^ 31 > 0x7F800000 → h % 2 ^ 15 > 0x7C00)

/-- C33. `fp32_to_fp16` rounds to nearest, ties to even; what is too large becomes infinity, infinity and not-a-number stay
    what they are, and the sign is kept. -/
theorem C33_half (f : BitVec 32) : Half f.toNat (fp32ToFp16 f).toNat := by
  have hf := f.isLt
  have h1 := half16_lt (f.toNat % 2 ^ 31) (by omega)
  rw [fp32ToFp16_toNat]
  have h2 : (f.toNat / 2 ^ 31 * 2 ^ 15 + half16 (f.toNat % 2 ^ 31)) % 2 ^ 15 = half16 (f.toNat % 2 ^ 31) := by omega
  refine ⟨by omega, ?_, ?_, ?_⟩ <;> rw [h2]
  · exact half16_nearest
  · intro h; rw [h]; decide
  · intro h
    unfold half16
    rw [if_pos (by omega), if_pos (by omega)]
    omega

/-- Ties, subnormal numbers and the largest number that is not rounded to infinity. -/
example : fp32ToFp16 0x3f801000#32 = 0x3c00#16 ∧ fp32ToFp16 0x3f803000#32 = 0x3c02#16 ∧ fp32ToFp16 0xb3000001#32 = 0x8001#16 ∧
    fp32ToFp16 0x477fefff#32 = 0x7bff#16 ∧ fp32ToFp16 0x477ff000#32 = 0x7c00#16 := by decide

theorem magnitude_zero (p : Nat) {bias : Nat} (hb : 1 ≤ bias) : magnitude p bias 0 = 0 := by
  rw [magnitude_sig hb]; simp [sig]

theorem one32 : magnitude 23 127 0x3F800000 = 1 := by
  rw [magnitude_sig (by omega)]
  unfold sig
  norm_num

/-- A number of at least one is not rounded to zero. -/
theorem nearest32_pos {x : ℚ} {n : Nat} (h : Nearest32 x n) (hx : 1 ≤ x) : n ≠ 0 := by
  rintro rfl
  have := (h.2 0x3F800000 (by omega)).1
  rw [one32, magnitude_zero _ (by omega), zero_sub, abs_neg, abs_of_nonneg (by linarith), abs_of_nonpos (by linarith)] at this
  linarith

theorem f32LtZero_iff (f : BitVec 32) : f32LtZero f = decide (f.toNat % 2 ^ 31 ≠ 0 ∧ f.toNat / 2 ^ 31 = 1) := by
  have hf := f.isLt
  unfold f32LtZero f32Neg
  rw [BitVec.getLsbD, Nat.testBit_eq_decide_div_mod_eq, show f.toNat / 2 ^ 31 % 2 = f.toNat / 2 ^ 31 by omega]
  rw [Bool.eq_iff_iff]
  simp only [Bool.and_eq_true, decide_eq_true_eq, bne_iff_ne]
  exact And.comm

theorem FloatText.half {neg : Bool} {x : BitVec 16} (h : FloatText 16 fp32ToFp16 (fun v => fp32ToFp16 (f32OfInt v)) 0x7FFF 0x7C00 ks neg x) :
    ∃ n, Value32 ks n ∧ Half n (x.toNat + 2 ^ 15 * bit neg) ∧ x.toNat + 2 ^ 15 * bit neg < 2 ^ 16 ∧
      (neg || literalNegative ks) = decide (n % 2 ^ 31 ≠ 0 ∧ n / 2 ^ 31 = 1) := by
  cases h with
  | @float f =>
    refine ⟨_, .float, ?_, ?_, ?_⟩
    · simp only [bit, Bool.false_eq_true, if_false, Nat.mul_zero, Nat.add_zero]
      exact C33_half f
    · have := (fp32ToFp16 f).isLt
      simp only [bit, Bool.false_eq_true, if_false]
      omega
    · simp only [Bool.false_or, literalNegative]
      exact f32LtZero_iff f
  | @int v =>
    obtain ⟨h1, h2⟩ := f32OfInt_nearest v
    refine ⟨_, .int h1 h2, ?_, ?_, ?_⟩
    · simp only [bit, Bool.false_eq_true, if_false, Nat.mul_zero, Nat.add_zero]
      exact C33_half _
    · have := (fp32ToFp16 (f32OfInt v)).isLt
      simp only [bit, Bool.false_eq_true, if_false]
      omega
    · simp only [Bool.false_or, literalNegative]
      rw [Bool.eq_iff_iff, decide_eq_true_eq, decide_eq_true_eq, h1]
      unfold bit
      constructor
      · intro hv
        refine ⟨nearest32_pos h2 ?_, by simp [hv]⟩
        rw [abs_of_neg (by exact_mod_cast hv)]
        have : v + 1 ≤ 0 := by omega
        have : (v : ℚ) + 1 ≤ 0 := by exact_mod_cast this
        linarith
      · rintro ⟨-, h⟩
        by_contra hv
        simp [hv] at h
  | word h =>
    rcases h with ⟨rfl, rfl⟩ | ⟨rfl, rfl⟩
    · exact ⟨0x7FC00000, .word (by decide), by unfold Half bit; simp, by decide, by decide⟩
    · exact ⟨0x7F800000, .word (by decide), by unfold Half bit; simp, by decide, by decide⟩
  | plus h =>
    rcases h with ⟨rfl, rfl⟩ | ⟨rfl, rfl⟩
    · exact ⟨0x7FC00000, .plus (by decide), by unfold Half bit; simp, by decide, by decide⟩
    · exact ⟨0x7F800000, .plus (by decide), by unfold Half bit; simp, by decide, by decide⟩
  | minus h =>
    rcases h with ⟨rfl, rfl⟩ | ⟨rfl, rfl⟩
    · exact ⟨_, .minus (n := 0x7FC00000) (by decide), by unfold Half bit; simp, by decide, by decide⟩
    · exact ⟨_, .minus (n := 0x7F800000) (by decide), by unfold Half bit; simp, by decide, by decide⟩

/-- C33. There are no other half precision immediates than those of the two theorems that follow. -/
theorem C33_forms : ∀ row ∈ insnTable, ∀ o ∈ row.operands, ∀ w a n, o = .himm w a n → (w = true ↔ n = none) := by
  have : ∀ row ∈ insnTable, ∀ o ∈ row.operands, (match o with | .himm w _ n => w == n.isNone | _ => true) = true := by decide +kernel
  rintro row hr _ ho w a n rfl
  have := this row hr _ ho
  cases w <;> cases n <;> simp_all

/-- C33. The 16-bit immediate is stored as it is. -/
theorem C33_wide {a : Nat} (h : HasOperand dbg code i (.himm true a none) ks op) : ∃ n, Value32 ks n ∧ Half n (bitsAt op.value a 16) := by
  obtain ⟨hin, e, v, k', b, r, d⟩ := h.decoded rfl
  have ha : a + 16 ≤ 64 := by simpa [Operand.inside] using hin
  obtain ⟨rfl, neg, x, h1, rfl⟩ := d.accepts
  obtain ⟨n, h2, h3, h4, -⟩ := FloatText.half h1
  refine ⟨n, h2, ?_⟩
  rw [d.bits a 16 (by simp [Operand.fields]) ha]
  simp only [if_true, Option.isNone_none, Bool.and_true]
  rw [bitsAt_or, bitsAt_field h4 ha, bitsAt_zero, Nat.or_zero]
  exact h3

/-- C33. The 9-bit immediate is stored without sign and the lower 6 bits; a sign bit beside it is set for numbers less
    than zero. -/
theorem C33_short {a m : Nat} (h : HasOperand dbg code i (.himm false a (some m)) ks op) :
    ∃ n h, Value32 ks n ∧ Half n h ∧ bitsAt op.value a 9 = h / 2 ^ 6 % 2 ^ 9 ∧
      bitsAt op.value m 1 = if n % 2 ^ 31 = 0 then 0 else n / 2 ^ 31 := by
  obtain ⟨hin, e, v, k', b, r, d⟩ := h.decoded rfl
  have hin : a + 9 ≤ 64 ∧ m < 64 ∧ a + 9 ≤ m := by simpa [Operand.inside, and_assoc] using hin
  obtain ⟨rfl, neg, x, h1, rfl⟩ := d.accepts
  obtain ⟨n, h2, h3, h4, h5⟩ := FloatText.half h1
  have hn := h2.bound
  have h6 : x.toNat / 2 ^ 6 % 2 ^ 9 < 2 ^ 9 := Nat.mod_lt _ (by omega)
  have h7 : bit (neg || literalNegative ks) < 2 ^ 1 := by have := bit_le (neg || literalNegative ks); omega
  refine ⟨n, _, h2, h3, ?_, ?_⟩
  · rw [d.bits a 9 (by simp [Operand.fields]) hin.1]
    simp only [Bool.false_eq_true, if_false]
    rw [bitsAt_or, bitsAt_field h6 hin.1, bitsAt_apart h7 (by omega), Nat.or_zero]
    omega
  · rw [d.bits m 1 (by simp [Operand.fields]) hin.2.1]
    simp only [Bool.false_eq_true, if_false]
    rw [bitsAt_or, bitsAt_field h7 (by omega), bitsAt_apart h6 (by omega), Nat.zero_or, h5]
    unfold bit
    by_cases h8 : n % 2 ^ 31 = 0
    · rw [if_pos h8, if_neg (by simp only [decide_eq_true_eq]; tauto)]
    · rw [if_neg h8]
      simp only [decide_eq_true_eq]
      split <;> omega

example : ∃ ks op, HasOperand true c!"HADD2 R0, R1, -1.5, 1.0;" 0 (.himm false 30 (some 56)) ks op ∧ bitsAt op.value 30 9 = 0x3E00 / 2 ^ 6 ∧
    bitsAt op.value 56 1 = 1 := by
  obtain ⟨ks, op, h, hw⟩ := opCheck_has (dbg := true) (code := c!"HADD2 R0, R1, -1.5, 1.0;") (i := 0) (j := 9)
    (o := .himm false 30 (some 56)) (w := 0x7b00003e0f070100#64) (by decide +kernel)
  exact ⟨ks, op, h, by rw [hw]; decide, by rw [hw]; decide⟩

/-! ### C34: the sign of zero -/

/-- C34. 32-bit, 20-bit and 16-bit immediates have the sign of the literal, also if it is zero. What is missing: the double
    and 9-bit half immediates. -/
theorem C34_partial {f : BitVec 32} {a : Nat} :
    (HasOperand dbg code i (.fimm true) [.fimm f] op → bitsAt op.value 20 32 / 2 ^ 31 = f.toNat / 2 ^ 31) ∧
    (HasOperand dbg code i (.fimm false) [.fimm f] op → bitsAt op.value 56 1 = f.toNat / 2 ^ 31) ∧
    (HasOperand dbg code i (.himm true a none) [.fimm f] op → bitsAt op.value a 16 / 2 ^ 15 = f.toNat / 2 ^ 31) := by
  have only {n : Nat} (h : Value32 [.fimm f] n) : n = f.toNat := by cases h; rfl
  refine ⟨fun h => ?_, fun h => ?_, fun h => ?_⟩
  · rw [only (C32_wide h)]
  · obtain ⟨n, h1, -, h2⟩ := C32_short h
    rw [h2, only h1]
  · obtain ⟨n, h1, h2, -⟩ := C33_wide h
    rw [h2, only h1]

example : tokenize ⟨c!"-0.0;", 0, 0⟩ = .ok ⟨.fimm 0x80000000#32, 0, 0⟩ ⟨c!";", 0, 4⟩ := by decide +kernel
example : ∃ ks op, HasOperand true c!"HADD2_32I R0, R1, -0.0, 1.0;" 0 (.himm true 36 none) ks op ∧ bitsAt op.value 36 16 = 0x8000 := by
  obtain ⟨ks, op, h, hw⟩ := opCheck_has (dbg := true) (code := c!"HADD2_32I R0, R1, -0.0, 1.0;") (i := 0) (j := 8)
    (o := .himm true 36 none) (w := 0x2c080003c0070100#64) (by decide +kernel)
  exact ⟨ks, op, h, by rw [hw]; decide⟩

/-- C34 is violated by double and by 9-bit half immediates: the sign of `-0.0` is lost. -/
theorem C34_violated :
    (∃ w, assemble true c!"DADD R0, R1, -0.0;" = .ok w ∧ assemble true c!"DADD R0, R1, 0.0;" = .ok w) ∧
    (∃ w, assemble true c!"HADD2 R0, R1, -0.0, 1.0;" = .ok w ∧ assemble true c!"HADD2 R0, R1, 0.0, 1.0;" = .ok w) :=
  ⟨⟨[0x001f8000fc0007e0#64, 0x3870000000070100#64, 0x50b0000000070f00#64, 0x50b0000000070f00#64], by decide +kernel, by decide +kernel⟩,
   ⟨[0x001f8000fc0007e0#64, 0x7a0000000f070100#64, 0x50b0000000070f00#64, 0x50b0000000070f00#64], by decide +kernel, by decide +kernel⟩⟩

/-! ### C60: half precision immediates are rounded twice -/

/-- C60 is violated: 1.000488281250001 is nearer to the next number after one than to one, but is encoded as one. -/
theorem C60_violated :
    Nearest16 (1000488281250001 / 10 ^ 15) 0x3C01 ∧ Nearest16 1 0x3C00 ∧
    ∃ w, assemble true c!"HADD2_32I R0, R1, 1.000488281250001, 1.0;" = .ok w ∧ assemble true c!"HADD2_32I R0, R1, 1.0, 1.0;" = .ok w := by
  refine ⟨?_, ?_, [0x001f8000fc0007e0#64, 0x2c03c003c0070100#64, 0x50b0000000070f00#64, 0x50b0000000070f00#64], by decide +kernel, by decide +kernel⟩
  · have := roundRat_nearest (p := 10) (bias := 15) (inf := 0x7C00) (num := 1000488281250001) (den := 10 ^ 15) (by omega) (by omega) (by omega) (by omega)
    rw [show roundRat 10 15 0x7C00 1000488281250001 (10 ^ 15) = 0x3C01 by decide +kernel] at this
    norm_num at this ⊢
    exact this
  · have := roundRat_nearest (p := 10) (bias := 15) (inf := 0x7C00) (num := 1) (den := 1) (by omega) (by omega) (by omega) (by omega)
    rw [show roundRat 10 15 0x7C00 1 1 = 0x3C00 by decide +kernel] at this
    norm_num at this ⊢
    exact this

/-- C60. A 16-bit immediate is the binary16 number nearest to the literal if that is a binary32 number. What is missing:
    other literals. -/
theorem C60_partial {a : Nat} {f : BitVec 32} {x : ℚ} (h : HasOperand dbg code i (.himm true a none) [.fimm f] op)
    (hf : f.toNat % 2 ^ 31 < 0x7F800000) (hx : magnitude 23 127 (f.toNat % 2 ^ 31) = x) : Nearest16 x (bitsAt op.value a 16 % 2 ^ 15) := by
  obtain ⟨n, h1, h2⟩ := C33_wide h
  cases h1
  rw [← hx]
  exact h2.2.1 hf

/-- C60. An integer of at most 24 bits is rounded only once. -/
theorem C60_integer {a : Nat} {v : Int} (h : HasOperand dbg code i (.himm true a none) [.imm v] op) (hv : |v| ≤ 2 ^ 24) :
    Nearest16 |(v : ℚ)| (bitsAt op.value a 16 % 2 ^ 15) := by
  obtain ⟨n, h1, h2⟩ := C33_wide h
  cases h1 with
  | int hs hn =>
    have hv2 : v.natAbs ≤ 2 ^ 24 := by rw [Int.abs_eq_natAbs] at hv; omega
    obtain ⟨k, hk⟩ := sig_exists (p := 23) (m := v.natAbs) hv2 149
    have he : magnitude 23 127 k = |(v : ℚ)| := by
      rw [magnitude_sig (by omega), hk, ← natAbs_div]
      push_cast
      rw [div_one]
      exact mul_div_cancel_right₀ _ (by positivity)
    have hk2 : k < 0x7F800000 := by
      rw [← (sig_strictMono 23).lt_iff_lt, hk]
      have h3 : sig 23 0x7F800000 = 2 ^ 24 * 2 ^ 253 := by
        unfold sig
        norm_num
      rw [h3]
      exact Nat.mul_lt_mul_of_le_of_lt hv2 (by norm_num) (by norm_num)
    have hm := Nearest.exact hn hk2.le he
    have hn2 : n % 2 ^ 31 = k := (sig_strictMono 23).injective (by
      have := hm.trans he.symm
      rw [magnitude_sig (by omega), magnitude_sig (by omega), div_left_inj' (by positivity), Nat.cast_inj] at this
      exact this)
    rw [← hm]
    exact h2.2.1 (by omega)

/-- An integer that needs rounding. -/
example : ∃ ks op, HasOperand true c!"HADD2_32I R0, R1, -1, 2049;" 0 (.himm true 20 none) ks op ∧ bitsAt op.value 20 16 = 0x6800 := by
  obtain ⟨ks, op, h, hw⟩ := opCheck_has (dbg := true) (code := c!"HADD2_32I R0, R1, -1, 2049;") (i := 0) (j := 10)
    (o := .himm true 20 none) (w := 0x2c0bc00680070100#64) (by decide +kernel)
  exact ⟨ks, op, h, by rw [hw]; decide⟩

/-! ### C61: double precision immediates -/

/-- The binary64 pattern `n`, with sign bit, is what the tokens of a double precision immediate stand for. -/
inductive Value64 : List Kind → Nat → Prop
  | float {f : BitVec 32} {n : Nat} (hs : n / 2 ^ 63 = f.toNat / 2 ^ 31) (hf : f.toNat % 2 ^ 31 < 0x7F800000)
      (hn : magnitude 52 1023 (n % 2 ^ 63) = magnitude 23 127 (f.toNat % 2 ^ 31)) : Value64 [.fimm f] n
  | infinite {f : BitVec 32} {n : Nat} (hs : n / 2 ^ 63 = f.toNat / 2 ^ 31) (hf : f.toNat % 2 ^ 31 = 0x7F800000)
      (hn : n % 2 ^ 63 = 0x7FF0000000000000) : Value64 [.fimm f] n
  | int {v : Int} {n : Nat} (hs : n / 2 ^ 63 = bit (v < 0)) (hn : Nearest64 |(v : ℚ)| (n % 2 ^ 63)) : Value64 [.imm v] n
  | inf : Value64 [.ident c!"INF"] 0x7FF0000000000000
  | plusInf : Value64 [.plus, .ident c!"INF"] 0x7FF0000000000000
  | minusInf : Value64 [.minus, .ident c!"INF"] 0xFFF0000000000000
  | nan : Value64 [.ident c!"QNAN"] 0x7FF8000000000000
  | plusNan : Value64 [.plus, .ident c!"QNAN"] 0x7FF8000000000000
  | minusNan : Value64 [.minus, .ident c!"QNAN"] 0xFFF8000000000000

/-- A number of at least one is not rounded to zero. -/
theorem nearest64_pos {x : ℚ} {n : Nat} (h : Nearest64 x n) (hx : 1 ≤ x) : n ≠ 0 := by
  rintro rfl
  have := (h.2 0x3FF0000000000000 (by omega)).1
  have one64 : magnitude 52 1023 0x3FF0000000000000 = 1 := by
    have h1 : sig 52 0x3FF0000000000000 = 2 ^ 52 * 2 ^ 1022 := by unfold sig; norm_num
    rw [magnitude_sig (by omega), h1]
    rw [← pow_add, Nat.cast_pow]
    exact div_self (by positivity)
  rw [one64, magnitude_zero _ (by omega), zero_sub, abs_neg, abs_of_nonneg (by linarith), abs_of_nonpos (by linarith)] at this
  linarith

theorem f64OfF32_infinite {f : BitVec 32} (h : f.toNat % 2 ^ 31 = 0x7F800000) : (f64OfF32 f).toNat % 2 ^ 63 = 0x7FF0000000000000 := by
  unfold f64OfF32
  dsimp only
  have h1 : f32Man f = 0 := by unfold f32Man; omega
  rw [if_pos (by unfold f32Exp; omega), h1, BitVec.toNat_ofNat]
  split <;> rfl

theorem f64OfF32_zero {f : BitVec 32} (hf : f.toNat % 2 ^ 31 < 0x7F800000) : (f64OfF32 f).toNat % 2 ^ 63 = 0 ↔ f.toNat % 2 ^ 31 = 0 := by
  have h := f64OfF32_exact hf
  rw [magnitude_sig (by omega), magnitude_sig (by omega)] at h
  constructor
  · intro h0
    rw [h0] at h
    have : sig 23 (f.toNat % 2 ^ 31) = 0 := by
      have z : sig 52 0 = 0 := by simp [sig]
      rw [z, Nat.cast_zero, zero_div, eq_comm, div_eq_zero_iff] at h
      rcases h with h | h
      · exact_mod_cast h
      · exact absurd h (by positivity)
    exact (sig_strictMono 23).injective (this.trans (by simp [sig]))
  · intro h0
    rw [h0] at h
    have : sig 52 ((f64OfF32 f).toNat % 2 ^ 63) = 0 := by
      have z : sig 23 0 = 0 := by simp [sig]
      rw [z, Nat.cast_zero, zero_div, div_eq_zero_iff] at h
      rcases h with h | h
      · exact_mod_cast h
      · exact absurd h (by positivity)
    exact (sig_strictMono 52).injective (this.trans (by simp [sig]))

theorem FloatText.value64 {neg : Bool} {x : BitVec 64} (hk : ∀ k ∈ ks, k.wf)
    (h : FloatText 64 f64OfF32 f64OfInt 0x7FF8000000000000 0x7FF0000000000000 ks neg x) :
    ∃ n, Value64 ks n ∧ n / 2 ^ 44 % 2 ^ 19 = x.toNat / 2 ^ 44 % 2 ^ 19 ∧ n < 2 ^ 64 ∧
      bit (neg || literalNegative ks) = if n % 2 ^ 63 = 0 then 0 else n / 2 ^ 63 := by
  cases h with
  | @float f =>
    have h1 := f64OfF32_sign f
    have hx := (f64OfF32 f).isLt
    have hk : f.toNat % 2 ^ 31 ≤ 0x7F800000 := hk _ (List.mem_singleton.2 rfl)
    have hfl := f.isLt
    have hsg : f.toNat / 2 ^ 31 = 0 ∨ f.toNat / 2 ^ 31 = 1 := by omega
    rcases Nat.lt_or_eq_of_le hk with hf | hf
    · refine ⟨_, .float h1 hf (f64OfF32_exact hf), rfl, hx, ?_⟩
      have h2 := f64OfF32_zero hf
      simp only [Bool.false_or, literalNegative, f32LtZero_iff, h1, bit, decide_eq_true_eq]
      by_cases h0 : f.toNat % 2 ^ 31 = 0
      · rw [if_pos (h2.2 h0), if_neg (by tauto)]
      · rw [if_neg (fun h => h0 (h2.1 h))]
        split <;> omega
    · have h2 := f64OfF32_infinite hf
      refine ⟨_, .infinite h1 hf h2, rfl, hx, ?_⟩
      simp only [Bool.false_or, literalNegative, f32LtZero_iff, h1, bit, decide_eq_true_eq]
      rw [if_neg (by omega : ¬ (f64OfF32 f).toNat % 2 ^ 63 = 0)]
      split <;> omega
  | @int v =>
    obtain ⟨h1, h2⟩ := f64OfInt_nearest v
    refine ⟨_, .int h1 h2, rfl, BitVec.isLt _, ?_⟩
    simp only [Bool.false_or, literalNegative]
    by_cases hv : v < 0
    · rw [if_neg, h1]
      refine nearest64_pos h2 ?_
      rw [abs_of_neg (by exact_mod_cast hv)]
      have : v + 1 ≤ 0 := by omega
      have : (v : ℚ) + 1 ≤ 0 := by exact_mod_cast this
      linarith
    · rw [h1]
      simp [bit, hv]
  | word h =>
    rcases h with ⟨rfl, rfl⟩ | ⟨rfl, rfl⟩
    · exact ⟨_, .nan, by decide, by decide, by decide⟩
    · exact ⟨_, .inf, by decide, by decide, by decide⟩
  | plus h =>
    rcases h with ⟨rfl, rfl⟩ | ⟨rfl, rfl⟩
    · exact ⟨_, .plusNan, by decide, by decide, by decide⟩
    · exact ⟨_, .plusInf, by decide, by decide, by decide⟩
  | minus h =>
    rcases h with ⟨rfl, rfl⟩ | ⟨rfl, rfl⟩
    · exact ⟨_, .minusNan, by decide, by decide, by decide⟩
    · exact ⟨_, .minusInf, by decide, by decide, by decide⟩

/-- C61. A double precision immediate is stored without the lower 44 bits of a binary64 number: for an integer of that
    nearest to it, for a fraction of its binary32 value. The sign of zero is lost. What is missing: the binary64 number
    nearest to a fraction. -/
theorem C61_partial (h : HasOperand dbg code i .dimm20 ks op) :
    ∃ n, Value64 ks n ∧ bitsAt op.value 20 19 = n / 2 ^ 44 % 2 ^ 19 ∧ bitsAt op.value 56 1 = if n % 2 ^ 63 = 0 then 0 else n / 2 ^ 63 := by
  obtain ⟨hin, e, v, k', b, r, d⟩ := h.decoded rfl
  obtain ⟨rfl, neg, x, h1, rfl⟩ := d.accepts
  obtain ⟨n, h2, h3, h4, h5⟩ := FloatText.value64 (fun k hk => (d.proper k hk).1) h1
  have h6 : x.toNat / 2 ^ 44 % 2 ^ 19 < 2 ^ 19 := Nat.mod_lt _ (by omega)
  have h7 : bit (neg || literalNegative ks) < 2 ^ 1 := by have := bit_le (neg || literalNegative ks); omega
  refine ⟨n, h2, ?_, ?_⟩
  · rw [d.bits 20 19 (by simp [Operand.fields]) (by omega), bitsAt_or, bitsAt_field h6 (by omega), bitsAt_apart h7 (by omega), h3, Nat.or_zero]
  · rw [d.bits 56 1 (by simp [Operand.fields]) (by omega), bitsAt_or, bitsAt_field h7 (by omega), bitsAt_apart h6 (by omega), h5, Nat.zero_or]

example : ∃ ks op, HasOperand true c!"DADD R0, R1, -0.1;" 0 .dimm20 ks op ∧ bitsAt op.value 20 19 = 0x3fb99 ∧ bitsAt op.value 56 1 = 1 := by
  obtain ⟨ks, op, h, hw⟩ := opCheck_has (dbg := true) (code := c!"DADD R0, R1, -0.1;") (i := 0) (j := 7)
    (o := .dimm20) (w := 0x3970003fb9970100#64) (by decide +kernel)
  exact ⟨ks, op, h, by rw [hw]; decide, by rw [hw]; decide⟩

/-- C61 is violated: 10^39 is a finite binary64 number, but is encoded as infinity, because it is read as a binary32 number. -/
theorem C61_violated :
    (∃ n, Nearest64 (10 ^ 39) n ∧ n / 2 ^ 44 = 0x48078) ∧
    ∃ w, assemble true c!"DADD R0, R1, 1000000000000000000000000000000000000000.0;" = .ok w ∧ assemble true c!"DADD R0, R1, INF;" = .ok w := by
  refine ⟨⟨roundRat 52 1023 0x7FF0000000000000 (10 ^ 39) 1, ?_, ?_⟩,
    [0x001f8000fc0007e0#64, 0x3870007ff0070100#64, 0x50b0000000070f00#64, 0x50b0000000070f00#64], by decide +kernel, by decide +kernel⟩
  · have := roundRat_nearest (p := 52) (bias := 1023) (inf := 0x7FF0000000000000) (num := 10 ^ 39) (den := 1) (by omega) (by omega) (by omega) (by omega)
    push_cast at this
    rw [div_one] at this
    exact this
  · decide +kernel

end Nxas
