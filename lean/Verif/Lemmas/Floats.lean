import Verif.Spec.Floats
import Verif.Model.Float
import Mathlib.Tactic.Ring
import Mathlib.Tactic.FieldSimp
import Mathlib.Algebra.Order.Field.Basic
import Mathlib.Tactic.Positivity
/-
Rounding to nearest.
-/

namespace Nxas

open Spec

/-- The magnitude of a pattern in units of the smallest subnormal number. -/
def sig (p n : Nat) : Nat := if n / 2 ^ p = 0 then n % 2 ^ p else (2 ^ p + n % 2 ^ p) * 2 ^ (n / 2 ^ p - 1)

theorem magnitude_sig {p bias : Nat} (hb : 1 ≤ bias) (n : Nat) : magnitude p bias n = sig p n / 2 ^ (bias + p - 1) := by
  unfold magnitude sig
  have h2 : (2 : ℚ) ≠ 0 := by norm_num
  generalize n / 2 ^ p = q
  split
  · rw [show (1 - (bias : ℤ) - p) = -((bias + p - 1 : Nat) : ℤ) by omega, zpow_neg, zpow_natCast]
    rfl
  · next h =>
    rw [show ((q : ℤ) - (bias : ℤ) - p) = ((q - 1 : Nat) : ℤ) - ((bias + p - 1 : Nat) : ℤ) by omega, zpow_sub₀ h2, zpow_natCast,
      zpow_natCast]
    push_cast
    ring

/-- A pattern given by a significand of the binade `be`. -/
theorem sig_binade {p be m : Nat} (h1 : be = 0 ∨ 2 ^ p ≤ m) (h2 : m ≤ 2 ^ (p + 1)) : sig p (be * 2 ^ p + m) = m * 2 ^ be := by
  have hp : 0 < 2 ^ p := Nat.two_pow_pos p
  have hpp : 2 ^ (p + 1) = 2 * 2 ^ p := by rw [pow_succ]; ring
  unfold sig
  rw [Nat.add_comm (be * 2 ^ p) m, Nat.add_mul_div_right _ _ hp, Nat.add_mul_mod_self_right]
  rcases Nat.lt_or_ge m (2 ^ p) with hm | hm
  · rcases h1 with rfl | h1
    · rw [Nat.div_eq_of_lt hm, Nat.mod_eq_of_lt hm]
      simp
    · omega
  · rcases Nat.lt_or_ge m (2 ^ (p + 1)) with hm2 | hm2
    · have hd : m / 2 ^ p = 1 := by
        rw [Nat.div_eq_iff hp]
        omega
      have hmm : m % 2 ^ p = m - 2 ^ p := by
        have := Nat.div_add_mod m (2 ^ p)
        rw [hd] at this
        omega
      rw [hd, hmm, if_neg (by omega), show 1 + be - 1 = be by omega, show 2 ^ p + (m - 2 ^ p) = m by omega]
    · have hm3 : m = 2 * 2 ^ p := by omega
      have hd : m / 2 ^ p = 2 := by rw [hm3, Nat.mul_div_cancel _ hp]
      have hmm : m % 2 ^ p = 0 := by rw [hm3]; simp
      rw [hd, hmm, if_neg (by omega), show 2 + be - 1 = be + 1 by omega, hm3, pow_succ]
      ring

theorem sig_succ (p n : Nat) : sig p n < sig p (n + 1) := by
  have hp : 0 < 2 ^ p := Nat.two_pow_pos p
  have hpp : 2 ^ (p + 1) = 2 * 2 ^ p := by rw [pow_succ]; ring
  have hm := Nat.mod_lt n hp
  have hn := Nat.div_add_mod n (2 ^ p)
  rcases Nat.eq_zero_or_pos (n / 2 ^ p) with h0 | h0
  · rw [h0] at hn
    have e1 := sig_binade (p := p) (be := 0) (m := n) (.inl rfl) (by omega)
    have e2 := sig_binade (p := p) (be := 0) (m := n + 1) (.inl rfl) (by omega)
    simp only [Nat.zero_mul, Nat.zero_add, pow_zero, Nat.mul_one] at e1 e2
    omega
  · obtain ⟨be, hbe⟩ : ∃ be, n / 2 ^ p = be + 1 := ⟨n / 2 ^ p - 1, by omega⟩
    rw [hbe, Nat.mul_comm, Nat.add_mul] at hn
    have e1 := sig_binade (p := p) (be := be) (m := 2 ^ p + n % 2 ^ p) (.inr (by omega)) (by omega)
    have e2 := sig_binade (p := p) (be := be) (m := 2 ^ p + n % 2 ^ p + 1) (.inr (by omega)) (by omega)
    rw [show be * 2 ^ p + (2 ^ p + n % 2 ^ p) = n by omega] at e1
    rw [show be * 2 ^ p + (2 ^ p + n % 2 ^ p + 1) = n + 1 by omega] at e2
    rw [e1, e2]
    exact Nat.mul_lt_mul_of_pos_right (by omega) (Nat.two_pow_pos be)

theorem sig_strictMono (p : Nat) : StrictMono (sig p) := strictMono_nat_of_lt_succ (sig_succ p)

/-- A number between two neighbouring patterns: the nearer one, the even one in the middle. -/
theorem nearest_between {p bias inf : Nat} (hb : 1 ≤ bias) {x : ℚ} {lo : Nat} (hlo : lo < inf) (h1 : magnitude p bias lo ≤ x)
    (h2 : x < magnitude p bias (lo + 1)) {up : Bool}
    (hd : up = false → x - magnitude p bias lo < magnitude p bias (lo + 1) - x ∨
      (x - magnitude p bias lo = magnitude p bias (lo + 1) - x ∧ lo % 2 = 0))
    (hu : up = true → magnitude p bias (lo + 1) - x < x - magnitude p bias lo ∨
      (x - magnitude p bias lo = magnitude p bias (lo + 1) - x ∧ lo % 2 = 1)) :
    Nearest p bias inf x (if up then lo + 1 else lo) := by
  have hmono : ∀ {a b : Nat}, a ≤ b → magnitude p bias a ≤ magnitude p bias b := by
    intro a b hab
    rw [magnitude_sig hb, magnitude_sig hb]
    have : (sig p a : ℚ) ≤ sig p b := by exact_mod_cast (sig_strictMono p).monotone hab
    exact div_le_div_of_nonneg_right this (by positivity)
  have hstrict : ∀ {a b : Nat}, a < b → magnitude p bias a < magnitude p bias b := by
    intro a b hab
    rw [magnitude_sig hb, magnitude_sig hb]
    have : (sig p a : ℚ) < sig p b := by exact_mod_cast sig_strictMono p hab
    exact div_lt_div_of_pos_right this (by positivity)
  have below : ∀ k ≤ lo, |magnitude p bias k - x| = x - magnitude p bias k := by
    intro k hk
    rw [abs_of_nonpos (by have := hmono hk; linarith)]
    ring
  have above : ∀ k, lo + 1 ≤ k → |magnitude p bias k - x| = magnitude p bias k - x := by
    intro k hk
    rw [abs_of_nonneg (by have := hmono hk; linarith)]
  cases up with
  | false =>
    have hd := hd rfl
    simp only [Bool.false_eq_true, if_false]
    refine ⟨by omega, fun k _ => ?_⟩
    rw [below lo (le_refl _)]
    rcases Nat.lt_or_ge lo k with hk | hk
    · rw [above k hk]
      have h3 := hmono (show lo + 1 ≤ k from hk)
      rcases hd with hd | ⟨hd, he⟩
      · exact ⟨by linarith, fun _ h => by linarith⟩
      · exact ⟨by linarith, fun _ _ => he⟩
    · rw [below k hk]
      have h3 := hmono hk
      refine ⟨by linarith, fun hne h => ?_⟩
      have := hstrict (lt_of_le_of_ne hk hne)
      linarith
  | true =>
    have hu := hu rfl
    simp only [if_true]
    refine ⟨by omega, fun k _ => ?_⟩
    rw [above (lo + 1) (le_refl _)]
    rcases Nat.lt_or_ge lo k with hk | hk
    · rw [above k hk]
      have h3 := hmono (show lo + 1 ≤ k from hk)
      refine ⟨by linarith, fun hne h => ?_⟩
      have := hstrict (lt_of_le_of_ne (show lo + 1 ≤ k from hk) (Ne.symm hne))
      linarith
    · rw [below k hk]
      have h3 := hmono hk
      rcases hu with hu | ⟨hu, he⟩
      · exact ⟨by linarith, fun _ h => by linarith⟩
      · exact ⟨by linarith, fun _ _ => by omega⟩

/-- Beyond infinity's place there is nothing nearer. -/
theorem nearest_above {p bias inf : Nat} (hb : 1 ≤ bias) {x : ℚ} (h : magnitude p bias inf ≤ x) : Nearest p bias inf x inf := by
  have hstrict : ∀ {a b : Nat}, a < b → magnitude p bias a < magnitude p bias b := by
    intro a b hab
    rw [magnitude_sig hb, magnitude_sig hb]
    have : (sig p a : ℚ) < sig p b := by exact_mod_cast sig_strictMono p hab
    exact div_lt_div_of_pos_right this (by positivity)
  refine ⟨le_refl _, fun k hk => ?_⟩
  rcases Nat.lt_or_eq_of_le hk with hk | rfl
  · have := hstrict hk
    rw [abs_of_nonpos (by linarith : magnitude p bias inf - x ≤ 0), abs_of_nonpos (by linarith : magnitude p bias k - x ≤ 0)]
    exact ⟨by linarith, fun _ h => by linarith⟩
  · exact ⟨le_refl _, fun h => absurd rfl h⟩

/-- At most one pattern is nearest. -/
theorem Nearest.unique {p bias inf : Nat} (hb : 1 ≤ bias) {x : ℚ} {a b : Nat} (ha : Nearest p bias inf x a) (hb' : Nearest p bias inf x b) : a = b := by
  by_contra hne
  have h1 := ha.2 b hb'.1
  have h2 := hb'.2 a ha.1
  have he : |magnitude p bias a - x| = |magnitude p bias b - x| := le_antisymm h1.1 h2.1
  have hea := h1.2 (Ne.symm hne) he.symm
  have heb := h2.2 hne he
  have hstrict : ∀ {a b : Nat}, a < b → magnitude p bias a < magnitude p bias b := by
    intro a b hab
    rw [magnitude_sig hb, magnitude_sig hb]
    have : (sig p a : ℚ) < sig p b := by exact_mod_cast sig_strictMono p hab
    exact div_lt_div_of_pos_right this (by positivity)
  -- the odd pattern between them is nearer
  have key : ∀ a b : Nat, a < b → a % 2 = 0 → b % 2 = 0 → b ≤ inf → |magnitude p bias a - x| = |magnitude p bias b - x| →
      (∀ k ≤ inf, |magnitude p bias a - x| ≤ |magnitude p bias k - x|) → False := by
    intro a b hlt ha hb hbi he hmin
    have hl1 := hstrict (show a < a + 1 by omega)
    have hl2 := hstrict (show a + 1 < b by omega)
    have h := hmin (a + 1) (by omega)
    rw [abs_eq_abs] at he
    rcases he with he | he
    · linarith
    · have hx : x = (magnitude p bias a + magnitude p bias b) / 2 := by linarith
      rw [hx] at h
      rw [abs_of_nonpos (by linarith : magnitude p bias a - (magnitude p bias a + magnitude p bias b) / 2 ≤ 0)] at h
      rcases abs_cases (magnitude p bias (a + 1) - (magnitude p bias a + magnitude p bias b) / 2) with ⟨h3, -⟩ | ⟨h3, -⟩ <;> rw [h3] at h <;> linarith
  rcases Nat.lt_or_gt_of_ne hne with h | h
  · exact key a b h hea heb hb'.1 he (fun k hk => (ha.2 k hk).1)
  · exact key b a h heb hea ha.1 he.symm (fun k hk => (hb'.2 k hk).1)

/-! ### `roundRat` -/

theorem two_zpow_toNat {k : ℤ} (h : 0 ≤ k) : (2 : ℚ) ^ k = ((2 ^ k.toNat : Nat) : ℚ) := by
  conv_lhs => rw [← Int.toNat_of_nonneg h]
  rw [zpow_natCast]
  push_cast
  rfl

/-- The binade of a positive rational number, as `roundRat` finds it. -/
theorem binade {num den : Nat} (hn : num ≠ 0) (hd : 0 < den) :
    let e0 : Int := (Nat.log2 num : Int) - (Nat.log2 den : Int)
    let lt : Bool := if 0 ≤ e0 then num < den * 2 ^ e0.toNat else num * 2 ^ (-e0).toNat < den
    let e1 : Int := if lt then e0 - 1 else e0
    (2 : ℚ) ^ e1 ≤ (num : ℚ) / den ∧ (num : ℚ) / den < 2 ^ (e1 + 1) := by
  intro e0 lt e1
  have h2 : (2 : ℚ) ≠ 0 := by norm_num
  have hdq : (0 : ℚ) < den := by exact_mod_cast hd
  have n1 : 2 ^ Nat.log2 num ≤ num := Nat.log2_self_le hn
  have n2 : num < 2 ^ (Nat.log2 num + 1) := Nat.lt_log2_self
  have d1 : 2 ^ Nat.log2 den ≤ den := Nat.log2_self_le (by omega)
  have d2 : den < 2 ^ (Nat.log2 den + 1) := Nat.lt_log2_self
  have hlt : lt = true ↔ (num : ℚ) / den < 2 ^ e0 := by
    rw [div_lt_iff₀ hdq]
    by_cases h0 : 0 ≤ e0
    · simp only [lt, h0, if_true, decide_eq_true_eq]
      rw [two_zpow_toNat h0, Nat.mul_comm]
      exact_mod_cast Iff.rfl
    · simp only [lt, h0, if_false, decide_eq_true_eq]
      have h3 : (2 : ℚ) ^ e0 = (((2 ^ (-e0).toNat : Nat) : ℚ))⁻¹ := by
        rw [← two_zpow_toNat (by omega : 0 ≤ -e0), zpow_neg, inv_inv]
      have h4 : (0 : ℚ) < ((2 ^ (-e0).toNat : Nat) : ℚ) := by positivity
      rw [h3, inv_mul_eq_div, lt_div_iff₀ h4]
      exact_mod_cast Iff.rfl
  have up : (num : ℚ) / den < 2 ^ (e0 + 1) := by
    have h3 : (2 : ℚ) ^ (e0 + 1) = 2 ^ (Nat.log2 num + 1) / 2 ^ Nat.log2 den := by
      rw [show e0 + 1 = ((Nat.log2 num + 1 : Nat) : ℤ) - (Nat.log2 den : ℤ) by simp only [e0]; omega, zpow_sub₀ h2, zpow_natCast, zpow_natCast]
    rw [h3, div_lt_div_iff₀ hdq (by positivity)]
    calc (num : ℚ) * 2 ^ Nat.log2 den < 2 ^ (Nat.log2 num + 1) * 2 ^ Nat.log2 den := by
          apply mul_lt_mul_of_pos_right _ (by positivity)
          exact_mod_cast n2
      _ ≤ 2 ^ (Nat.log2 num + 1) * den := by
          apply mul_le_mul_of_nonneg_left _ (by positivity)
          exact_mod_cast d1
  have down : (2 : ℚ) ^ (e0 - 1) ≤ (num : ℚ) / den := by
    have h3 : (2 : ℚ) ^ (e0 - 1) = 2 ^ Nat.log2 num / 2 ^ (Nat.log2 den + 1) := by
      rw [show e0 - 1 = (Nat.log2 num : ℤ) - ((Nat.log2 den + 1 : Nat) : ℤ) by simp only [e0]; omega, zpow_sub₀ h2, zpow_natCast, zpow_natCast]
    rw [h3, div_le_div_iff₀ (by positivity) hdq]
    calc (2 : ℚ) ^ Nat.log2 num * den ≤ num * den := by
          apply mul_le_mul_of_nonneg_right _ hdq.le
          exact_mod_cast n1
      _ ≤ num * 2 ^ (Nat.log2 den + 1) := by
          apply mul_le_mul_of_nonneg_left _ (by positivity)
          exact_mod_cast d2.le
  by_cases h : lt = true
  · simp only [e1, h, if_true, sub_add_cancel]
    exact ⟨down, hlt.1 h⟩
  · simp only [e1, h]
    exact ⟨not_lt.1 fun h' => h (hlt.2 h'), up⟩

/-- Rounding the quotient `n / d`, scaled to the binade `be`. -/
theorem nearest_div {p bias inf be n d : Nat} {x : ℚ} (hb : 1 ≤ bias) (hp : 1 ≤ p) (hdpos : 0 < d) (hm1 : be = 0 ∨ 2 ^ p ≤ n / d)
    (hm2 : n / d < 2 ^ (p + 1)) (hx : x = (n : ℚ) / d * (2 ^ be / 2 ^ (bias + p - 1))) :
    Nearest p bias inf x (min (be * 2 ^ p + if 2 * (n % d) > d ∨ (2 * (n % d) = d ∧ n / d % 2 = 1) then n / d + 1 else n / d) inf) := by
  have hdp : (0 : ℚ) < d := by exact_mod_cast hdpos
  have hdm := Nat.div_add_mod n d
  have hr := Nat.mod_lt n hdpos
  generalize n / d = m at *
  generalize n % d = r at *
  obtain ⟨K, hKe⟩ : ∃ K : ℚ, K = 2 ^ be / 2 ^ (bias + p - 1) := ⟨_, rfl⟩
  have hK : 0 < K := by rw [hKe]; positivity
  have hyq : (n : ℚ) / d = m + (r : ℚ) / d := by
    rw [← hdm]
    push_cast
    field_simp
  have hrq : (0 : ℚ) ≤ (r : ℚ) / d := by positivity
  have hrq1 : (r : ℚ) / d < 1 := by rw [div_lt_one hdp]; exact_mod_cast hr
  have mlo : magnitude p bias (be * 2 ^ p + m) = m * K := by
    rw [magnitude_sig hb, sig_binade hm1 hm2.le, hKe]
    push_cast
    ring
  have mhi : magnitude p bias (be * 2 ^ p + m + 1) = (m + 1) * K := by
    rw [magnitude_sig hb, Nat.add_assoc, sig_binade (hm1.imp id (by omega)) (by omega), hKe]
    push_cast
    ring
  rw [hyq, ← hKe] at hx
  have heven : (be * 2 ^ p + m) % 2 = m % 2 := by
    obtain ⟨q, rfl⟩ : ∃ q, p = q + 1 := ⟨p - 1, by omega⟩
    rw [pow_succ, ← Nat.mul_assoc, Nat.add_comm, Nat.add_mul_mod_self_right]
  have b1 : magnitude p bias (be * 2 ^ p + m) ≤ x := by
    rw [mlo, hx]; exact mul_le_mul_of_nonneg_right (by linarith) hK.le
  have b2 : x < magnitude p bias (be * 2 ^ p + m + 1) := by
    rw [mhi, hx]; exact mul_lt_mul_of_pos_right (by linarith) hK
  have c1 : x - magnitude p bias (be * 2 ^ p + m) = ((r : ℚ) / d) * K := by
    rw [mlo, hx]; ring
  have c2 : magnitude p bias (be * 2 ^ p + m + 1) - x = (1 - (r : ℚ) / d) * K := by
    rw [mhi, hx]; ring
  have lt1 : 2 * r < d → (r : ℚ) / d < 1 - (r : ℚ) / d := by
    intro h
    have h : (r : ℚ) / d < 1 / 2 := by
      rw [div_lt_div_iff₀ hdp (by norm_num)]
      have : ((2 * r : Nat) : ℚ) < d := by exact_mod_cast h
      push_cast at this
      linarith
    linarith
  have lt2 : d < 2 * r → 1 - (r : ℚ) / d < (r : ℚ) / d := by
    intro h
    have h : 1 / 2 < (r : ℚ) / d := by
      rw [div_lt_div_iff₀ (by norm_num) hdp]
      have : (d : ℚ) < ((2 * r : Nat) : ℚ) := by exact_mod_cast h
      push_cast at this
      linarith
    linarith
  have eq1 : 2 * r = d → (r : ℚ) / d = 1 - (r : ℚ) / d := by
    intro h
    have h : (r : ℚ) / d = 1 / 2 := by
      rw [div_eq_div_iff hdp.ne' (by norm_num)]
      have : ((2 * r : Nat) : ℚ) = d := by exact_mod_cast h
      push_cast at this
      linarith
    linarith
  rcases Nat.lt_or_ge (be * 2 ^ p + m) inf with hl | hl
  · have key := nearest_between hb hl b1 b2 (up := decide (2 * r > d ∨ (2 * r = d ∧ m % 2 = 1))) ?_ ?_
    · by_cases hc : 2 * r > d ∨ (2 * r = d ∧ m % 2 = 1)
      · rw [if_pos hc, Nat.min_eq_left (by omega)]
        rw [decide_eq_true hc] at key
        exact key
      · rw [if_neg hc, Nat.min_eq_left (by omega)]
        rw [decide_eq_false hc] at key
        exact key
    · intro hc
      rw [decide_eq_false_iff_not] at hc
      rw [c1, c2]
      rcases Nat.lt_trichotomy (2 * r) d with h | h | h
      · exact .inl (mul_lt_mul_of_pos_right (lt1 h) hK)
      · exact .inr ⟨by congr 1; exact eq1 h, by omega⟩
      · omega
    · intro hc
      rw [decide_eq_true_eq] at hc
      rw [c1, c2]
      rcases hc with h | ⟨h, h'⟩
      · exact .inl (mul_lt_mul_of_pos_right (lt2 h) hK)
      · exact .inr ⟨by congr 1; exact eq1 h, by omega⟩
  · rw [Nat.min_eq_right (by split <;> omega)]
    refine nearest_above hb (le_trans ?_ b1)
    rw [magnitude_sig hb, magnitude_sig hb]
    have : (sig p inf : ℚ) ≤ sig p (be * 2 ^ p + m) := by exact_mod_cast (sig_strictMono p).monotone hl
    exact div_le_div_of_nonneg_right this (by positivity)

theorem roundRat_nearest {p bias inf num den : Nat} (hb : 1 ≤ bias) (hp : 1 ≤ p) (hi : 0 < inf) (hd : 0 < den) :
    Nearest p bias inf ((num : ℚ) / den) (roundRat p bias inf num den) := by
  unfold roundRat
  by_cases hn : num = 0
  · rw [if_pos hn]
    subst hn
    have h0 : magnitude p bias 0 = 0 := by rw [magnitude_sig hb]; simp [sig]
    have h1 : 0 < magnitude p bias (0 + 1) := by
      rw [magnitude_sig hb]
      have := sig_succ p 0
      have : (0 : ℚ) < sig p (0 + 1) := by exact_mod_cast (by omega : 0 < sig p (0 + 1))
      positivity
    have := nearest_between (p := p) (bias := bias) hb (x := ((0 : Nat) : ℚ) / den) (lo := 0) hi (by rw [h0]; simp) (by simpa using h1) (up := false)
      (fun _ => .inl (by rw [h0]; simpa using h1)) (by simp)
    simpa using this
  · rw [if_neg hn]
    obtain ⟨hlo, hhi⟩ := binade hn hd
    dsimp only at hlo hhi ⊢
    generalize (if (if 0 ≤ (Nat.log2 num : Int) - (Nat.log2 den : Int) then
        decide (num < den * 2 ^ ((Nat.log2 num : Int) - (Nat.log2 den : Int)).toNat)
      else decide (num * 2 ^ (-((Nat.log2 num : Int) - (Nat.log2 den : Int))).toNat < den)) = true then
        (Nat.log2 num : Int) - (Nat.log2 den : Int) - 1 else (Nat.log2 num : Int) - (Nat.log2 den : Int)) = e1 at hlo hhi ⊢
    obtain ⟨e, he⟩ : ∃ e : ℤ, e = max e1 (1 - (bias : ℤ)) := ⟨_, rfl⟩
    rw [← he]
    have heb : 1 - (bias : ℤ) ≤ e := by omega
    have h2 : (2 : ℚ) ≠ 0 := by norm_num
    have hdq : (0 : ℚ) < den := by exact_mod_cast hd
    obtain ⟨n, hne⟩ : ∃ n, n = (if 0 ≤ (p : ℤ) - e then num * 2 ^ ((p : ℤ) - e).toNat else num) := ⟨_, rfl⟩
    obtain ⟨d, hde⟩ : ∃ d, d = (if 0 ≤ (p : ℤ) - e then den else den * 2 ^ (-((p : ℤ) - e)).toNat) := ⟨_, rfl⟩
    rw [← hne, ← hde]
    have hdpos : 0 < d := by
      rw [hde]
      split
      · exact hd
      · exact Nat.mul_pos hd (Nat.two_pow_pos _)
    have hdp : (0 : ℚ) < d := by exact_mod_cast hdpos
    have hK : (0 : ℚ) < 2 ^ ((p : ℤ) - e) := by positivity
    -- the scaled number
    have hy : (n : ℚ) / d = (num : ℚ) / den * 2 ^ ((p : ℤ) - e) := by
      rw [hne, hde]
      by_cases hk : 0 ≤ (p : ℤ) - e
      · rw [if_pos hk, if_pos hk, two_zpow_toNat hk]
        push_cast
        ring
      · rw [if_neg hk, if_neg hk]
        have : (2 : ℚ) ^ ((p : ℤ) - e) = (((2 ^ (-((p : ℤ) - e)).toNat : Nat) : ℚ))⁻¹ := by
          rw [← two_zpow_toNat (by omega : 0 ≤ -((p : ℤ) - e)), zpow_neg, inv_inv]
        rw [this]
        push_cast
        field_simp
    have hfl : (n / d : Nat) ≤ (n : ℚ) / d := by
      rw [le_div_iff₀ hdp]
      exact_mod_cast Nat.div_mul_le_self n d
    have hfl' : (n : ℚ) / d < (n / d : Nat) + 1 := by
      rw [div_lt_iff₀ hdp]
      have : n < (n / d + 1) * d := by
        have := Nat.lt_div_mul_add (a := n) hdpos
        rw [Nat.add_mul, Nat.one_mul]
        exact this
      exact_mod_cast this
    refine nearest_div hb hp hdpos ?_ ?_ ?_
    · by_cases hbe : (e + (bias : ℤ) - 1).toNat = 0
      · exact .inl hbe
      · right
        have hee : e = e1 := by omega
        have h4 : (2 : ℚ) ^ p ≤ (n : ℚ) / d := by
          rw [hy]
          calc (2 : ℚ) ^ p = 2 ^ e1 * 2 ^ ((p : ℤ) - e) := by rw [← zpow_add₀ h2, ← zpow_natCast, hee]; congr 1; ring
            _ ≤ _ := mul_le_mul_of_nonneg_right hlo hK.le
        have h5 : ((2 ^ p : Nat) : ℚ) < ((n / d + 1 : Nat) : ℚ) := by push_cast at hfl' ⊢; linarith
        have h6 : 2 ^ p < n / d + 1 := by exact_mod_cast h5
        omega
    · have h3 : (num : ℚ) / den < 2 ^ (e + 1) := lt_of_lt_of_le hhi (zpow_le_zpow_right₀ (by norm_num) (by omega))
      have h4 : (n : ℚ) / d < 2 ^ (p + 1) := by
        rw [hy]
        calc (num : ℚ) / den * 2 ^ ((p : ℤ) - e) < 2 ^ (e + 1) * 2 ^ ((p : ℤ) - e) := mul_lt_mul_of_pos_right h3 hK
          _ = 2 ^ (p + 1) := by rw [← zpow_add₀ h2, ← zpow_natCast]; congr 1; push_cast; ring
      have h5 : ((n / d : Nat) : ℚ) < 2 ^ (p + 1) := by linarith
      exact_mod_cast h5
    · have : (2 : ℚ) ^ (e + (bias : ℤ) - 1).toNat / 2 ^ (bias + p - 1) = (2 ^ ((p : ℤ) - e))⁻¹ := by
        rw [← zpow_natCast, ← zpow_natCast, ← zpow_sub₀ h2, ← zpow_neg]
        congr 1
        omega
      rw [this, hy, mul_assoc, mul_inv_cancel₀ hK.ne', mul_one]

/-! ### `fp32_to_fp16` -/

/-- `fp32_to_fp16` on the pattern without sign, with arithmetic instead of masks. -/
def half16 (n : Nat) : Nat :=
  if n / 2 ^ 23 = 255 then 0x7C00 + if n % 2 ^ 23 ≠ 0 then 0x3FF else 0
  else if n / 2 ^ 23 > 142 then 0x7C00
  else if n / 2 ^ 23 > 112 then
    (n - 112 * 2 ^ 23) / 2 ^ 13 + if n / 2 ^ 12 % 2 = 1 ∧ (n % 2 ^ 12 ≠ 0 ∨ (n - 112 * 2 ^ 23) / 2 ^ 13 % 2 = 1) then 1 else 0
  else if n / 2 ^ 23 > 101 then
    (2 ^ 23 + n % 2 ^ 23) / 2 ^ (125 - n / 2 ^ 23 + 1) +
      if (2 ^ 23 + n % 2 ^ 23) / 2 ^ (125 - n / 2 ^ 23) % 2 = 1 ∧
        ((2 ^ 23 + n % 2 ^ 23) % 2 ^ (125 - n / 2 ^ 23) ≠ 0 ∨ (2 ^ 23 + n % 2 ^ 23) / 2 ^ (125 - n / 2 ^ 23 + 1) % 2 = 1) then 1 else 0
  else 0

theorem half16_lt (n : Nat) (hn : n < 2 ^ 31) : half16 n < 2 ^ 15 := by
  unfold half16
  split
  · split <;> omega
  split
  · omega
  split
  · split <;> omega
  split
  · have : (2 ^ 23 + n % 2 ^ 23) / 2 ^ (125 - n / 2 ^ 23 + 1) ≤ 2 ^ 11 := by
      have h3 : 2 ^ 13 ≤ 2 ^ (125 - n / 2 ^ 23 + 1) := Nat.pow_le_pow_right (by omega) (by omega)
      calc (2 ^ 23 + n % 2 ^ 23) / 2 ^ (125 - n / 2 ^ 23 + 1) ≤ (2 ^ 23 + n % 2 ^ 23) / 2 ^ 13 := Nat.div_le_div_left h3 (by omega)
        _ ≤ 2 ^ 11 := by omega
    split <;> omega
  · omega

theorem guard_sticky (a j : Nat) : (a / 2 ^ j % 2 = 1 ∧ (a % 2 ^ j ≠ 0 ∨ a / 2 ^ (j + 1) % 2 = 1)) ↔
    (2 * (a % 2 ^ (j + 1)) > 2 ^ (j + 1) ∨ (2 * (a % 2 ^ (j + 1)) = 2 ^ (j + 1) ∧ a / 2 ^ (j + 1) % 2 = 1)) := by
  have h1 : a % 2 ^ (j + 1) = a / 2 ^ j % 2 * 2 ^ j + a % 2 ^ j := by
    rw [pow_succ, Nat.mod_mul, Nat.mul_comm, Nat.add_comm]
  have h2 := Nat.mod_lt a (Nat.two_pow_pos j)
  rw [h1, pow_succ]
  generalize a / (2 ^ j * 2) = q
  generalize a % 2 ^ j = r at *
  generalize a / 2 ^ j = g at *
  rcases Nat.mod_two_eq_zero_or_one g with h | h <;> rw [h] <;> omega

theorem half16_nearest {n : Nat} (hn : n < 0x7F800000) : Nearest16 (magnitude 23 127 n) (half16 n) := by
  have e := Nat.div_add_mod n (2 ^ 23)
  have hm := Nat.mod_lt n (Nat.two_pow_pos 23)
  have hE : n / 2 ^ 23 < 255 := by omega
  unfold half16
  rw [if_neg (by omega)]
  have value (h : n / 2 ^ 23 ≠ 0) : magnitude 23 127 n = ((2 ^ 23 + n % 2 ^ 23 : Nat) : ℚ) * 2 ^ (n / 2 ^ 23 - 1) / 2 ^ 149 := by
    rw [magnitude_sig (by omega)]
    unfold sig
    rw [if_neg h]
    push_cast
    rfl
  have le2 (m : Nat) (hm : m < 0x7F800000) : (magnitude 23 127 n ≤ magnitude 23 127 m ↔ n ≤ m) := by
    rw [magnitude_sig (by omega), magnitude_sig (by omega), div_le_div_iff_of_pos_right (by positivity), Nat.cast_le]
    exact (sig_strictMono 23).le_iff_le
  by_cases h1 : n / 2 ^ 23 > 142
  · rw [if_pos h1]
    refine nearest_above (by omega) ?_
    have : magnitude 10 15 0x7C00 = magnitude 23 127 (143 * 2 ^ 23) := by
      rw [magnitude_sig (by omega), magnitude_sig (by omega)]
      simp only [sig]
      norm_num
    rw [this, magnitude_sig (by omega), magnitude_sig (by omega), div_le_div_iff_of_pos_right (by positivity), Nat.cast_le]
    exact (sig_strictMono 23).monotone (by omega)
  rw [if_neg h1]
  by_cases h2 : n / 2 ^ 23 > 112
  · rw [if_pos h2]
    have := nearest_div (p := 10) (bias := 15) (inf := 0x7C00) (be := n / 2 ^ 23 - 113) (n := 2 ^ 23 + n % 2 ^ 23) (d := 2 ^ 13)
      (x := magnitude 23 127 n) (by omega) (by omega) (by omega) (.inr (by omega)) (by omega) ?_
    · have h3 := guard_sticky (2 ^ 23 + n % 2 ^ 23) 12
      have h4 : (2 ^ 23 + n % 2 ^ 23) / 2 ^ 12 % 2 = n / 2 ^ 12 % 2 := by omega
      have h5 : (2 ^ 23 + n % 2 ^ 23) % 2 ^ 12 = n % 2 ^ 12 := by omega
      have h6 : (2 ^ 23 + n % 2 ^ 23) / 2 ^ 13 % 2 = (n - 112 * 2 ^ 23) / 2 ^ 13 % 2 := by omega
      have h7 : (n / 2 ^ 23 - 113) * 2 ^ 10 + (2 ^ 23 + n % 2 ^ 23) / 2 ^ 13 = (n - 112 * 2 ^ 23) / 2 ^ 13 := by omega
      simp only [Nat.reduceAdd] at h3
      simp only [← h3] at this
      rw [h4, h5, h6] at this
      by_cases hc : n / 2 ^ 12 % 2 = 1 ∧ (n % 2 ^ 12 ≠ 0 ∨ (n - 112 * 2 ^ 23) / 2 ^ 13 % 2 = 1)
      · rw [if_pos hc] at this ⊢
        rw [← h7]
        rwa [Nat.min_eq_left (by omega), ← Nat.add_assoc] at this
      · rw [if_neg hc] at this ⊢
        rw [← h7, Nat.add_zero]
        rwa [Nat.min_eq_left (by omega)] at this
    · rw [value (by omega)]
      obtain ⟨j, hj⟩ : ∃ j, n / 2 ^ 23 = j + 113 := ⟨n / 2 ^ 23 - 113, by omega⟩
      rw [hj, show j + 113 - 1 = j + 112 by omega, show j + 113 - 113 = j by omega, pow_add]
      push_cast
      ring
  rw [if_neg h2]
  by_cases h3 : n / 2 ^ 23 > 101
  · rw [if_pos h3]
    obtain ⟨j, hj⟩ : ∃ j, 125 - n / 2 ^ 23 = j := ⟨_, rfl⟩
    rw [hj]
    have hj2 : 13 ≤ j ∧ j ≤ 23 := by omega
    have h4 : (2 ^ 23 + n % 2 ^ 23) / 2 ^ (j + 1) < 2 ^ 10 := by
      rw [Nat.div_lt_iff_lt_mul (Nat.two_pow_pos _)]
      have : 2 ^ 14 ≤ 2 ^ (j + 1) := Nat.pow_le_pow_right (by omega) (by omega)
      calc 2 ^ 23 + n % 2 ^ 23 < 2 ^ 10 * 2 ^ 14 := by omega
        _ ≤ _ := Nat.mul_le_mul_left _ this
    have := nearest_div (p := 10) (bias := 15) (inf := 0x7C00) (be := 0) (n := 2 ^ 23 + n % 2 ^ 23) (d := 2 ^ (j + 1))
      (x := magnitude 23 127 n) (by omega) (by omega) (Nat.two_pow_pos _) (.inl rfl) (by omega) ?_
    · have h5 := guard_sticky (2 ^ 23 + n % 2 ^ 23) j
      simp only [← h5] at this
      by_cases hc : (2 ^ 23 + n % 2 ^ 23) / 2 ^ j % 2 = 1 ∧ ((2 ^ 23 + n % 2 ^ 23) % 2 ^ j ≠ 0 ∨ (2 ^ 23 + n % 2 ^ 23) / 2 ^ (j + 1) % 2 = 1)
      · rw [if_pos hc] at this ⊢
        rwa [Nat.min_eq_left (by omega), Nat.zero_mul, Nat.zero_add] at this
      · rw [if_neg hc] at this ⊢
        rwa [Nat.min_eq_left (by omega), Nat.zero_mul, Nat.zero_add] at this
    · rw [value (by omega)]
      obtain ⟨k, hk⟩ : ∃ k, n / 2 ^ 23 = k + 1 := ⟨n / 2 ^ 23 - 1, by omega⟩
      have h6 : (2 : ℚ) ^ k * 2 ^ (j + 1) = 2 ^ 125 := by rw [← pow_add]; congr 1; omega
      rw [hk, Nat.add_sub_cancel]
      push_cast
      have h7 : (0 : ℚ) < 2 ^ (j + 1) := by positivity
      rw [eq_comm, div_mul_eq_mul_div, div_eq_iff h7.ne', div_mul_eq_mul_div, mul_assoc, h6]
      ring
  rw [if_neg h3]
  have h0 : magnitude 10 15 0 = 0 := by rw [magnitude_sig (by omega)]; simp [sig]
  have h1 : magnitude 10 15 (0 + 1) = 2 * magnitude 23 127 (102 * 2 ^ 23) := by
    rw [magnitude_sig (by omega), magnitude_sig (by omega)]
    simp only [sig]
    norm_num
  have h4 : magnitude 23 127 n < magnitude 23 127 (102 * 2 ^ 23) := by
    rw [magnitude_sig (by omega), magnitude_sig (by omega), div_lt_div_iff_of_pos_right (by positivity), Nat.cast_lt]
    exact sig_strictMono 23 (by omega)
  have h5 : 0 ≤ magnitude 23 127 n := by rw [magnitude_sig (by omega)]; positivity
  have := nearest_between (p := 10) (bias := 15) (inf := 0x7C00) (by omega) (x := magnitude 23 127 n) (lo := 0) (by omega) (by rw [h0]; exact h5)
    (by rw [h1]; linarith) (up := false) (fun _ => .inl (by rw [h0, h1]; linarith)) (by simp)
  simpa using this

end Nxas
