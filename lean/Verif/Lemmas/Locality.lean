import Verif.Lemmas.Orthogonal
import Verif.Spec.Locality
/-
The words of a program one by one, and what changes if one of the instructions is changed.
-/

namespace Nxas

open Spec

theorem groups_size (ops : List Op) : (groups ops).length = (ops.length + 2) / 3 * 4 := by
  induction ops using groups.induct with
  | case1 => rfl
  | case2 a => simp [groups]
  | case3 a b => simp [groups]
  | case4 a b c rest ih => simp only [groups, List.length_cons, ih]; omega

theorem groups_control {ops : List Op} {q : Nat} (h : 3 * q < ops.length) :
    (groups ops)[4 * q]? = some (control ops[3 * q]? ops[3 * q + 1]? ops[3 * q + 2]?) := by
  induction ops using groups.induct generalizing q with
  | case1 => simp at h
  | case2 a => obtain rfl : q = 0 := by simp at h; omega
               rfl
  | case3 a b => obtain rfl : q = 0 := by simp at h; omega
                 rfl
  | case4 a b c rest ih =>
    cases q with
    | zero => rfl
    | succ q =>
      have h1 := ih (q := q) (by simp at h; omega)
      rw [groups, show 4 * (q + 1) = 4 * q + 4 by omega, show 3 * (q + 1) = 3 * q + 3 by omega, show 3 * q + 3 + 1 = 3 * q + 1 + 3 by omega,
        show 3 * q + 3 + 2 = 3 * q + 2 + 3 by omega]
      simpa only [List.getElem?_cons_succ] using h1

theorem groups_value {ops : List Op} {q r : Nat} (hr : r < 3) (h : 3 * q < ops.length) :
    (groups ops)[4 * q + r + 1]? = some ((ops[3 * q + r]?.map Op.value).getD filler) := by
  induction ops using groups.induct generalizing q with
  | case1 => simp at h
  | case2 a =>
    obtain rfl : q = 0 := by simp at h; omega
    obtain rfl | rfl | rfl : r = 0 ∨ r = 1 ∨ r = 2 := by omega
    all_goals rfl
  | case3 a b =>
    obtain rfl : q = 0 := by simp at h; omega
    obtain rfl | rfl | rfl : r = 0 ∨ r = 1 ∨ r = 2 := by omega
    all_goals rfl
  | case4 a b c rest ih =>
    cases q with
    | zero =>
      obtain rfl | rfl | rfl : r = 0 ∨ r = 1 ∨ r = 2 := by omega
      all_goals rfl
    | succ q =>
      have h1 := ih (q := q) (by simp at h; omega)
      rw [groups, show 4 * (q + 1) + r + 1 = 4 * q + r + 1 + 4 by omega, show 3 * (q + 1) + r = 3 * q + r + 3 by omega]
      simpa only [List.getElem?_cons_succ] using h1

/-- Codes of the same number of instructions have the same words where they have the same instructions. -/
theorem groups_same {A B : List Op} (hl : A.length = B.length) {j : Nat}
    (h : ∀ k, (j = wordIndex k → A[k]?.map Op.value = B[k]?.map Op.value) ∧ (j = controlIndex k → slot A[k]? = slot B[k]?)) :
    (groups A)[j]? = (groups B)[j]? := by
  by_cases hj : j < (A.length + 2) / 3 * 4
  · have hq : 3 * (j / 4) < A.length := by omega
    rcases Nat.eq_zero_or_pos (j % 4) with h0 | h0
    · obtain ⟨q, rfl⟩ : ∃ q, j = 4 * q := ⟨j / 4, by omega⟩
      rw [Nat.mul_div_cancel_left q (by omega)] at hq
      rw [groups_control hq, groups_control (hl ▸ hq)]
      unfold Spec.control
      rw [(h (3 * q)).2 (by unfold controlIndex; omega), (h (3 * q + 1)).2 (by unfold controlIndex; omega),
        (h (3 * q + 2)).2 (by unfold controlIndex; omega)]
    · obtain ⟨r, hr⟩ : ∃ r, r + 1 = j % 4 := ⟨j % 4 - 1, by omega⟩
      have hr3 : r < 3 := by omega
      have he : 4 * (j / 4) + r + 1 = j := by omega
      rw [← he, groups_value hr3 hq, groups_value hr3 (hl ▸ hq), (h (3 * (j / 4) + r)).1 (by unfold wordIndex; omega)]
  · rw [List.getElem?_eq_none (by rw [groups_size]; omega), List.getElem?_eq_none (by rw [groups_size]; omega)]

/-- The bits of the instructions in their control word. -/
theorem control_bit {a b c : Option Op} (ha : slot a < 2 ^ 21) (hb : slot b < 2 ^ 21) (hc : slot c < 2 ^ 21) (p : Nat) :
    (control a b c).getLsbD p = (if p < 21 then (slot a).testBit p else if p < 42 then (slot b).testBit (p - 21) else (slot c).testBit (p - 42)) := by
  unfold Spec.control
  have he : slot a + slot b * 2 ^ 21 + slot c * 2 ^ 42 = 2 ^ 21 * (2 ^ 21 * slot c + slot b) + slot a := by
    rw [show (2 : Nat) ^ 42 = 2 ^ 21 * 2 ^ 21 by norm_num]; ring
  rw [BitVec.getLsbD_ofNat, he, Nat.testBit_two_pow_mul_add _ ha, Nat.testBit_two_pow_mul_add _ hb]
  by_cases h1 : p < 21
  · simp [h1, show p < 64 by omega]
  · by_cases h2 : p < 42
    · simp [h1, h2, show p < 64 by omega, show p - 21 < 21 by omega]
    · rw [if_neg h1, if_neg (by omega), if_neg h1, if_neg h2, show p - 21 - 21 = p - 42 by omega]
      by_cases h3 : p < 64
      · simp [h3]
      · rw [Nat.testBit_lt_two_pow (lt_of_lt_of_le hc (Nat.pow_le_pow_right (by omega) (by omega)))]
        simp

theorem slot_lt {o : Option Op} (h : ∀ op, o = some op → op.reuse.toNat < 8 ∧ op.sched.toNat < 2 ^ 17) : slot o < 2 ^ 21 := by
  cases o with
  | none => decide
  | some op =>
    have := h op rfl
    unfold slot
    dsimp only
    omega

/-- Every bit of a control word belongs to one instruction. -/
theorem groups_bit {ops : List Op} (h : ∀ op ∈ ops, op.reuse.toNat < 8 ∧ op.sched.toNat < 2 ^ 17) {k : Nat} (hk : k < ops.length) :
    ∃ x, (groups ops)[controlIndex k]? = some x ∧
      ∀ p, x.getLsbD p = (slot ops[3 * (k / 3) + min (p / 21) 2]?).testBit (p - 21 * min (p / 21) 2) := by
  refine ⟨_, groups_control (q := k / 3) (by omega), fun p => ?_⟩
  have hs : ∀ i, slot ops[i]? < 2 ^ 21 := fun i => slot_lt fun op ho => h op (List.mem_of_getElem? ho)
  rw [control_bit (hs _) (hs _) (hs _)]
  split
  · rw [show p / 21 = 0 by omega]; simp
  · split
    · rw [show p / 21 = 1 by omega]; simp
    · rw [show min (p / 21) 2 = 2 by omega]

/-- One instruction exchanged. -/
theorem groups_swap {A B : List Op} {op op' : Op} (h : ∀ x ∈ A ++ op :: B, x.reuse.toNat < 8 ∧ x.sched.toNat < 2 ^ 17)
    (h' : op'.reuse.toNat < 8 ∧ op'.sched.toNat < 2 ^ 17) :
    (∀ j, j ≠ wordIndex A.length → j ≠ controlIndex A.length → (groups (A ++ op :: B))[j]? = (groups (A ++ op' :: B))[j]?) ∧
    (groups (A ++ op :: B))[wordIndex A.length]? = some op.value ∧ (groups (A ++ op' :: B))[wordIndex A.length]? = some op'.value ∧
    ∃ x y, (groups (A ++ op :: B))[controlIndex A.length]? = some x ∧ (groups (A ++ op' :: B))[controlIndex A.length]? = some y ∧
      (∀ p, ¬ ofSlot A.length p → x.getLsbD p = y.getLsbD p) ∧
      (∀ p, ofSlot A.length p → x.getLsbD p = (slot (some op)).testBit (p - 21 * (A.length % 3)) ∧
        y.getLsbD p = (slot (some op')).testBit (p - 21 * (A.length % 3))) := by
  have hat : ∀ x : Op, (A ++ x :: B)[A.length]? = some x := by intro x; simp
  have hne : ∀ i, i ≠ A.length → (A ++ op :: B)[i]? = (A ++ op' :: B)[i]? := by
    intro i hi
    rcases Nat.lt_or_ge i A.length with h1 | h1
    · rw [List.getElem?_append_left h1, List.getElem?_append_left h1]
    · rw [List.getElem?_append_right h1, List.getElem?_append_right h1]
      obtain ⟨n, hn⟩ : ∃ n, i - A.length = n + 1 := ⟨i - A.length - 1, by omega⟩
      rw [hn, List.getElem?_cons_succ, List.getElem?_cons_succ]
  have hw : ∀ x : Op, (groups (A ++ x :: B))[wordIndex A.length]? = some x.value := by
    intro x
    have := groups_value (ops := A ++ x :: B) (q := A.length / 3) (r := A.length % 3) (by omega) (by simp; omega)
    rw [show 4 * (A.length / 3) + A.length % 3 + 1 = wordIndex A.length by unfold wordIndex; omega,
      show 3 * (A.length / 3) + A.length % 3 = A.length by omega, hat] at this
    simpa using this
  have hall : ∀ x ∈ A ++ op' :: B, x.reuse.toNat < 8 ∧ x.sched.toNat < 2 ^ 17 := by
    intro x hx
    rcases List.mem_append.1 hx with h1 | h1
    · exact h x (by simp [h1])
    · rcases List.mem_cons.1 h1 with rfl | h1
      · exact h'
      · exact h x (by simp [h1])
  refine ⟨?_, hw op, hw op', ?_⟩
  · intro j h1 h2
    refine groups_same (by simp) fun i => ⟨fun hi => ?_, fun hi => ?_⟩
    · rw [hne i (by rintro rfl; exact h1 hi)]
    · rw [hne i (by rintro rfl; exact h2 hi)]
  · obtain ⟨x, hx, hx1⟩ := groups_bit h (k := A.length) (by simp)
    obtain ⟨y, hy, hy1⟩ := groups_bit hall (k := A.length) (by simp)
    refine ⟨x, y, hx, hy, ?_, ?_⟩
    · intro p hp
      by_cases h64 : p < 64
      · rw [hx1, hy1]
        unfold ofSlot at hp
        by_cases h63 : p = 63
        · have hs : ∀ (i : Nat) (ops : List Op), (∀ x ∈ ops, x.reuse.toNat < 8 ∧ x.sched.toNat < 2 ^ 17) → (slot ops[i]?).testBit (p - 21 * min (p / 21) 2) = false := by
            intro i ops ho
            have : slot ops[i]? < 2 ^ 21 := slot_lt fun op h1 => ho op (List.mem_of_getElem? h1)
            subst h63
            exact Nat.testBit_lt_two_pow this
          rw [hs _ _ h, hs _ _ hall]
        · rw [hne _ (by omega)]
      · rw [BitVec.getLsbD_of_ge x p (by omega), BitVec.getLsbD_of_ge y p (by omega)]
    · intro p hp
      unfold ofSlot at hp
      rw [hx1, hy1, show min (p / 21) 2 = A.length % 3 by omega, show 3 * (A.length / 3) + A.length % 3 = A.length by omega, hat, hat]
      exact ⟨rfl, rfl⟩

end Nxas
