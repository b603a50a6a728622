import Verif.Lemmas.Widen
/-
Rounding twice: to nearest in a fine format first and then in a coarse one (lemmas for C80).
-/

namespace Nxas
open Spec

theorem magnitude_strictMono (p : Nat) {bias : Nat} (hb : 1 ≤ bias) : StrictMono (magnitude p bias) := by
  intro a b hab
  rw [magnitude_sig hb, magnitude_sig hb, div_lt_div_iff_of_pos_right (by positivity), Nat.cast_lt]
  exact sig_strictMono p hab

/-- What the fine format has at `m` separates what is rounded to the left of `m` from what lies to the right of it. -/
theorem Nearest.le_of_lt {p bias inf : Nat} {x : ℚ} {n m : Nat} (h : Nearest p bias inf x n) (hm : m ≤ inf)
    (hlt : magnitude p bias n < magnitude p bias m) : 2 * x ≤ magnitude p bias n + magnitude p bias m := by
  have := (h.2 m hm).1
  by_contra hx
  push Not at hx
  rw [abs_of_neg (by linarith)] at this
  rcases abs_cases (magnitude p bias m - x) with ⟨e, -⟩ | ⟨e, -⟩ <;> rw [e] at this <;> linarith

theorem Nearest.ge_of_gt {p bias inf : Nat} {x : ℚ} {n m : Nat} (h : Nearest p bias inf x n) (hm : m ≤ inf)
    (hlt : magnitude p bias m < magnitude p bias n) : magnitude p bias n + magnitude p bias m ≤ 2 * x := by
  have := (h.2 m hm).1
  by_contra hx
  push Not at hx
  rw [abs_of_pos (by linarith)] at this
  rcases abs_cases (magnitude p bias m - x) with ⟨e, -⟩ | ⟨e, -⟩ <;> rw [e] at this <;> linarith

/-- A number is the nearest one if neither of its neighbours is nearer, and even if a neighbour is as near. -/
theorem nearest_of_neighbours {p bias inf : Nat} (hb : 1 ≤ bias) {x : ℚ} {h : Nat} (hi : h ≤ inf)
    (hu : h < inf → 2 * x < magnitude p bias h + magnitude p bias (h + 1) ∨
      (2 * x = magnitude p bias h + magnitude p bias (h + 1) ∧ h % 2 = 0))
    (hl : ∀ k, k + 1 = h → magnitude p bias k + magnitude p bias h < 2 * x ∨
      (magnitude p bias k + magnitude p bias h = 2 * x ∧ h % 2 = 0)) : Nearest p bias inf x h := by
  have mono := magnitude_strictMono p hb
  refine ⟨hi, fun k hk => ?_⟩
  rcases Nat.lt_trichotomy h k with hlt | rfl | hgt
  · have h1 := mono hlt
    have h2 := mono.monotone (show h + 1 ≤ k from hlt)
    have h3 := hu (by omega)
    have h4 : 2 * x ≤ magnitude p bias h + magnitude p bias k := by rcases h3 with h3 | ⟨h3, -⟩ <;> linarith
    rw [abs_of_nonneg (by linarith : 0 ≤ magnitude p bias k - x)]
    constructor
    · rcases abs_cases (magnitude p bias h - x) with ⟨e, -⟩ | ⟨e, -⟩ <;> rw [e] <;> linarith
    · intro _ he
      rcases h3 with h3 | ⟨-, h3⟩
      · exfalso
        rcases abs_cases (magnitude p bias h - x) with ⟨e, -⟩ | ⟨e, -⟩ <;> rw [e] at he <;> linarith
      · exact h3
  · exact ⟨le_rfl, fun hn => absurd rfl hn⟩
  · have h1 := mono hgt
    obtain ⟨l, rfl⟩ : ∃ l, h = l + 1 := ⟨h - 1, by omega⟩
    have h2 := mono.monotone (show k ≤ l by omega)
    have h3 := hl l rfl
    have h4 : magnitude p bias k + magnitude p bias (l + 1) ≤ 2 * x := by rcases h3 with h3 | ⟨h3, -⟩ <;> linarith
    rw [abs_of_nonpos (by linarith : magnitude p bias k - x ≤ 0)]
    constructor
    · rcases abs_cases (magnitude p bias (l + 1) - x) with ⟨e, -⟩ | ⟨e, -⟩ <;> rw [e] <;> linarith
    · intro _ he
      rcases h3 with h3 | ⟨-, h3⟩
      · exfalso
        rcases abs_cases (magnitude p bias (l + 1) - x) with ⟨e, -⟩ | ⟨e, -⟩ <;> rw [e] at he <;> linarith
      · exact h3

/-- Rounding twice goes wrong only if the first rounding ends exactly in the middle of two numbers of the coarse format. -/
theorem nearest_twice {p b i q c j : Nat} (hb : 1 ≤ b) {x : ℚ} {n h : Nat}
    (mid : ∀ k < i, ∃ m ≤ j, 2 * magnitude q c m = magnitude p b k + magnitude p b (k + 1))
    (h1 : Nearest q c j x n) (h2 : Nearest p b i (magnitude q c n) h)
    (ha : ∀ k ≤ i, k = h + 1 ∨ k + 1 = h → 2 * magnitude q c n = magnitude p b h + magnitude p b k →
      |magnitude p b h - x| ≤ |magnitude p b k - x|) : Nearest p b i x h := by
  have mono := magnitude_strictMono p hb
  refine nearest_of_neighbours hb h2.1 (fun hi => ?_) ?_
  · obtain ⟨m, hm, em⟩ := mid h hi
    have hlt := mono (show h < h + 1 by omega)
    have h3 := Nearest.le_of_lt h2 hi hlt
    rcases lt_or_eq_of_le h3 with h3 | h3
    · have := Nearest.le_of_lt h1 hm (by linarith)
      exact .inl (by linarith)
    · have h4 := ha (h + 1) hi (.inl rfl) h3
      have h5 : 2 * x ≤ magnitude p b h + magnitude p b (h + 1) := by
        by_contra hx
        push Not at hx
        rw [abs_of_neg (by linarith : magnitude p b h - x < 0)] at h4
        rcases abs_cases (magnitude p b (h + 1) - x) with ⟨e, -⟩ | ⟨e, -⟩ <;> rw [e] at h4 <;> linarith
      rcases lt_or_eq_of_le h5 with h5 | h5
      · exact .inl h5
      · refine .inr ⟨h5, (h2.2 (h + 1) hi).2 (by omega) ?_⟩
        rw [abs_of_pos (by linarith), abs_of_neg (by linarith)]
        linarith
  · rintro k rfl
    obtain ⟨m, hm, em⟩ := mid k h2.1
    have hlt := mono (show k < k + 1 by omega)
    have h3 := Nearest.ge_of_gt h2 (show k ≤ i from (Nat.le_succ k).trans h2.1) hlt
    rcases lt_or_eq_of_le h3 with h3 | h3
    · have := Nearest.ge_of_gt h1 hm (by linarith)
      exact .inl (by linarith)
    · have h4 := ha k ((Nat.le_succ k).trans h2.1) (.inr rfl) h3.symm
      have h5 : magnitude p b k + magnitude p b (k + 1) ≤ 2 * x := by
        by_contra hx
        push Not at hx
        rw [abs_of_pos (by linarith : 0 < magnitude p b (k + 1) - x)] at h4
        rcases abs_cases (magnitude p b k - x) with ⟨e, -⟩ | ⟨e, -⟩ <;> rw [e] at h4 <;> linarith
      rcases lt_or_eq_of_le h5 with h5 | h5
      · exact .inl h5
      · refine .inr ⟨h5, (h2.2 k ((Nat.le_succ k).trans h2.1)).2 (by omega) ?_⟩
        rw [abs_of_neg (by linarith), abs_of_pos (by linarith)]
        linarith

/-- No number of the coarse format lies strictly between the number and what rounding twice makes of it. -/
theorem faithful_twice {p b i q c j : Nat} {x : ℚ} {n h k m : Nat} (hm : m ≤ j) (em : magnitude q c m = magnitude p b k)
    (h1 : Nearest q c j x n) (h2 : Nearest p b i (magnitude q c n) h) (hk : k ≤ i) :
    ¬ (magnitude p b h < magnitude p b k ∧ magnitude p b k < x) ∧ ¬ (x < magnitude p b k ∧ magnitude p b k < magnitude p b h) := by
  constructor
  · rintro ⟨h3, h4⟩
    have h5 := Nearest.le_of_lt h2 hk h3
    have := Nearest.le_of_lt h1 hm (by linarith)
    linarith
  · rintro ⟨h4, h3⟩
    have h5 := Nearest.ge_of_gt h2 hk h3
    have := Nearest.ge_of_gt h1 hm (by linarith)
    linarith

/-- The significand and its successor share their exponent. -/
theorem sig_pair (p k : Nat) : ∃ a e, a < 2 ^ (p + 1) ∧ sig p k = a * 2 ^ e ∧ sig p (k + 1) = (a + 1) * 2 ^ e := by
  have hp : 0 < 2 ^ p := Nat.two_pow_pos p
  have hpp : 2 ^ (p + 1) = 2 * 2 ^ p := by rw [pow_succ]; ring
  have hm := Nat.mod_lt k hp
  have hn := Nat.div_add_mod k (2 ^ p)
  by_cases h0 : k / 2 ^ p = 0
  · have hk : k < 2 ^ p := by rw [h0] at hn; omega
    refine ⟨k, 0, by omega, ?_, ?_⟩
    · have := sig_binade (p := p) (be := 0) (m := k) (.inl rfl) (by omega)
      simpa using this
    · have := sig_binade (p := p) (be := 0) (m := k + 1) (.inl rfl) (by omega)
      simpa using this
  · obtain ⟨e, he⟩ : ∃ e, k / 2 ^ p = e + 1 := ⟨_, (Nat.succ_pred h0).symm⟩
    have hk : k = e * 2 ^ p + (2 ^ p + k % 2 ^ p) := by
      rw [he] at hn
      nlinarith
    refine ⟨2 ^ p + k % 2 ^ p, e, by omega, ?_, ?_⟩
    · have := sig_binade (p := p) (be := e) (m := 2 ^ p + k % 2 ^ p) (.inr (by omega)) (by omega)
      rwa [← hk] at this
    · have := sig_binade (p := p) (be := e) (m := 2 ^ p + k % 2 ^ p + 1) (.inr (by omega)) (by omega)
      rwa [← Nat.add_assoc, ← hk] at this

theorem sig_inf32 : sig 23 0x7F800000 = 2 ^ 24 * 2 ^ 253 := by
  unfold sig
  norm_num

theorem sig_inf16 : sig 10 0x7C00 = 2 ^ 40 := by
  unfold sig
  norm_num

/-- Every multiple of a half of the smallest binary16 number with few digits is a binary32 number. -/
theorem exists32 {a e : Nat} (ha : a ≤ 2 ^ 24) (hl : a * 2 ^ e ≤ 2 ^ 41) : ∃ m ≤ 0x7F800000, magnitude 23 127 m = ((a * 2 ^ e : Nat) : ℚ) / 2 ^ 25 := by
  obtain ⟨m, hm⟩ := sig_exists (p := 23) ha (e + 124)
  refine ⟨m, ?_, ?_⟩
  · rw [← (sig_strictMono 23).le_iff_le, hm, sig_inf32, pow_add, ← Nat.mul_assoc]
    exact (Nat.mul_le_mul_right _ hl).trans (by norm_num)
  · rw [magnitude_sig (by omega), hm, pow_add, ← Nat.mul_assoc]
    generalize a * 2 ^ e = y
    push_cast
    norm_num
    ring

/-- The middle of two neighbouring binary16 numbers is a binary32 number. -/
theorem middle32 (k : Nat) (hk : k < 0x7C00) : ∃ m ≤ 0x7F800000, 2 * magnitude 23 127 m = magnitude 10 15 k + magnitude 10 15 (k + 1) := by
  obtain ⟨a, e, h1, h2, h3⟩ := sig_pair 10 k
  have h4 : sig 10 (k + 1) ≤ 2 ^ 40 := by rw [← sig_inf16]; exact (sig_strictMono 10).monotone hk
  obtain ⟨m, hm, em⟩ := exists32 (a := 2 * a + 1) (e := e) (by omega) (by rw [h3] at h4; nlinarith [Nat.two_pow_pos e])
  refine ⟨m, hm, ?_⟩
  rw [em, magnitude_sig (by omega), magnitude_sig (by omega), h2, h3]
  push_cast
  norm_num
  ring

/-- Every binary16 number is a binary32 number. -/
theorem half32 (k : Nat) (hk : k ≤ 0x7C00) : ∃ m ≤ 0x7F800000, magnitude 23 127 m = magnitude 10 15 k := by
  obtain ⟨a, e, h1, h2, -⟩ := sig_pair 10 k
  have h4 : sig 10 k ≤ 2 ^ 40 := by rw [← sig_inf16]; exact (sig_strictMono 10).monotone hk
  obtain ⟨m, hm, em⟩ := exists32 (a := 2 * a) (e := e) (by omega) (by rw [h2] at h4; nlinarith [Nat.two_pow_pos e])
  refine ⟨m, hm, ?_⟩
  rw [em, magnitude_sig (by omega), h2]
  push_cast
  norm_num
  ring

/-! ### binary32 and binary64 -/

theorem sig_inf64 : sig 52 0x7FF0000000000000 = 2 ^ 53 * 2 ^ 2045 := by
  unfold sig
  rw [if_neg (by norm_num)]
  rw [show (2 ^ 52 + 0x7FF0000000000000 % 2 ^ 52 : Nat) = 2 ^ 52 by norm_num, show (0x7FF0000000000000 / 2 ^ 52 - 1 : Nat) = 2046 by norm_num,
    ← pow_add, ← pow_add]

/-- The middle of two neighbouring binary32 numbers is a binary64 number. -/
theorem middle64 (k : Nat) (hk : k < 0x7F800000) :
    ∃ m ≤ 0x7FF0000000000000, 2 * magnitude 52 1023 m = magnitude 23 127 k + magnitude 23 127 (k + 1) := by
  obtain ⟨a, e, h1, h2, h3⟩ := sig_pair 23 k
  have h4 : sig 23 (k + 1) ≤ 2 ^ 277 := by
    rw [show (2 : Nat) ^ 277 = 2 ^ 24 * 2 ^ 253 by rw [← pow_add], ← sig_inf32]; exact (sig_strictMono 23).monotone hk
  rw [h3] at h4
  have h5 : (2 * a + 1) * 2 ^ e ≤ 2 ^ 278 := by
    calc (2 * a + 1) * 2 ^ e ≤ 2 * ((a + 1) * 2 ^ e) := by nlinarith [Nat.two_pow_pos e]
      _ ≤ 2 * 2 ^ 277 := Nat.mul_le_mul_left _ h4
      _ = 2 ^ 278 := (pow_succ' 2 277).symm
  obtain ⟨m, hm⟩ := sig_exists (p := 52) (m := 2 * a + 1) (by omega) (e + 924)
  refine ⟨m, ?_, ?_⟩
  · rw [← (sig_strictMono 52).le_iff_le, hm, sig_inf64, pow_add, ← Nat.mul_assoc]
    calc (2 * a + 1) * 2 ^ e * 2 ^ 924 ≤ 2 ^ 278 * 2 ^ 924 := Nat.mul_le_mul_right _ h5
      _ = 2 ^ 1202 := (pow_add 2 278 924).symm
      _ ≤ 2 ^ 2098 := Nat.pow_le_pow_right (by omega) (by omega)
      _ = 2 ^ 53 * 2 ^ 2045 := by rw [← pow_add]
  · rw [magnitude_sig (by omega), magnitude_sig (by omega), magnitude_sig (by omega), hm, h2, h3]
    rw [show (1023 + 52 - 1 : Nat) = 150 + 924 by norm_num, show (127 + 23 - 1 : Nat) = 149 by norm_num, pow_add (2 : Nat) e 924, pow_add (2 : ℚ) 150 924]
    push_cast
    have h924 : (2 : ℚ) ^ 924 ≠ 0 := by positivity
    rw [← mul_assoc, mul_div_mul_right _ _ h924, pow_succ (2 : ℚ) 149]
    generalize (2 : ℚ) ^ e = y
    have h149 : (2 : ℚ) ^ 149 ≠ 0 := by positivity
    field_simp
    ring

/-- A normal binary32 number as a binary64 number. -/
theorem widen64 {m : Nat} (hm : 2 ^ 23 ≤ m) : magnitude 52 1023 ((m + 896 * 2 ^ 23) * 2 ^ 29) = magnitude 23 127 m := by
  have h1 : (m + 896 * 2 ^ 23) * 2 ^ 29 / 2 ^ 52 = m / 2 ^ 23 + 896 := by omega
  have h2 : (m + 896 * 2 ^ 23) * 2 ^ 29 % 2 ^ 52 = m % 2 ^ 23 * 2 ^ 29 := by omega
  unfold magnitude
  rw [h1, h2, if_neg (by omega), if_neg (by omega)]
  have h3 : ((m / 2 ^ 23 : Nat) : ℤ) - (127 : Nat) - (23 : Nat) = ((m / 2 ^ 23 + 896 : Nat) : ℤ) - (1023 : Nat) - (52 : Nat) + 29 := by push_cast; ring
  rw [h3, zpow_add₀ (by norm_num)]
  push_cast
  ring

/-- The upper bits of a binary64 number are those of the binary32 number it becomes, if that is normal, unless it is less
    than that and that has no lower bits. -/
theorem upper64 {x : ℚ} {m N : Nat} (h1 : Nearest32 x m) (h2 : Nearest64 x N) (hlo : 2 ^ 23 ≤ m) (hhi : m < 0x7F800000) :
    if m % 2 ^ 15 = 0 ∧ magnitude 52 1023 N < magnitude 23 127 m then N / 2 ^ 44 + 1 = (m + 896 * 2 ^ 23) / 2 ^ 15
    else N / 2 ^ 44 = (m + 896 * 2 ^ 23) / 2 ^ 15 := by
  have mono32 := magnitude_strictMono 23 (bias := 127) (by omega)
  have mono64 := magnitude_strictMono 52 (bias := 1023) (by omega)
  have up : ∀ k, m < k → N < (k + 896 * 2 ^ 23) * 2 ^ 29 := by
    intro k hk
    obtain ⟨M, hM, eM⟩ := middle64 m hhi
    have h3 := Nearest.le_of_lt h1 (show m + 1 ≤ 0x7F800000 by omega) (mono32 (Nat.lt_succ_self m))
    have h4 := mono32.monotone (show m + 1 ≤ k from hk)
    have h5 := mono32 (show m < m + 1 by omega)
    by_contra hN
    have h6 := mono64.monotone (Nat.le_of_not_lt hN)
    rw [widen64 (by omega)] at h6
    have := Nearest.ge_of_gt h2 hM (by linarith)
    linarith
  have low : ∀ k, 2 ^ 23 ≤ k → k < m → (k + 896 * 2 ^ 23) * 2 ^ 29 < N := by
    intro k hk0 hk
    obtain ⟨l, rfl⟩ : ∃ l, m = l + 1 := ⟨m - 1, by omega⟩
    obtain ⟨M, hM, eM⟩ := middle64 l (by omega)
    have h3 := Nearest.ge_of_gt h1 (show l ≤ 0x7F800000 by omega) (mono32 (Nat.lt_succ_self l))
    have h4 := mono32.monotone (show k ≤ l by omega)
    have h5 := mono32 (show l < l + 1 by omega)
    by_contra hN
    have h6 := mono64.monotone (Nat.le_of_not_lt hN)
    rw [widen64 hk0] at h6
    have := Nearest.le_of_lt h2 hM (by linarith)
    linarith
  have hu := up ((m / 2 ^ 15 + 1) * 2 ^ 15) (by omega)
  have hw := widen64 hlo
  by_cases h0 : m % 2 ^ 15 = 0
  · by_cases hN : N < (m + 896 * 2 ^ 23) * 2 ^ 29
    · rw [if_pos ⟨h0, by rw [← hw]; exact mono64 hN⟩]
      have hl : (m - 2 ^ 15 + 896 * 2 ^ 23) * 2 ^ 29 ≤ N := by
        by_cases hm : 2 ^ 23 + 2 ^ 15 ≤ m
        · exact (low (m - 2 ^ 15) (by omega) (by omega)).le
        · obtain rfl : m = 2 ^ 23 := by omega
          by_contra hl
          have h3 := Nearest.ge_of_gt h1 (show 2 ^ 23 - 1 ≤ 0x7F800000 by omega) (mono32 (by omega))
          obtain ⟨M, hM, eM⟩ := middle64 (2 ^ 23 - 1) (by omega)
          have h6 := mono64 (Nat.lt_of_not_le hl)
          have e1 : magnitude 52 1023 ((2 ^ 23 - 2 ^ 15 + 896 * 2 ^ 23) * 2 ^ 29) < magnitude 23 127 (2 ^ 23 - 1) := by
            unfold magnitude
            norm_num
          have e2 := mono32 (show 2 ^ 23 - 1 < 2 ^ 23 by omega)
          rw [show 2 ^ 23 - 1 + 1 = 2 ^ 23 by omega] at eM
          have := Nearest.le_of_lt h2 hM (by linarith)
          linarith
      omega
    · rw [if_neg (fun h => hN (by rw [← hw] at h; exact mono64.lt_iff_lt.1 h.2))]
      omega
  · rw [if_neg (fun h => h0 h.1)]
    have hl := low (m / 2 ^ 15 * 2 ^ 15) (by omega) (by omega)
    omega

end Nxas
