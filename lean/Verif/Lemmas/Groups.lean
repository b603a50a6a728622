import Verif.Lemmas.Sharing
/-
Operands that share bits, in groups.
-/

namespace Nxas

open Spec

variable {row : Insn} {args args' : List (List Kind)} {e e' : Env} {W W' : Nat → Op} {B B' : Nat → BitVec 64}
  {R R' : Nat → BitVec 32} {K K' : Nat → Kind}

theorem op_bit_lt {b : BitVec 64} {r : BitVec 32} {p : Nat} (hp : p < 64) : (⟨b, r, 0⟩ : Op).bit p = b.getLsbD p := by
  unfold Op.bit
  rw [if_pos hp]

/-! ### Formats and selectors -/

theorem format_text {e : Env} {v b : BitVec 64} {a c : Nat} {ks : List Kind} {k : Kind} {r : BitVec 32}
    (h : Accepts e v (.srcFormat a c) ks k b r) : ∃ x z, b = field a x ||| field c z ∧
      (meant [.ident c!".S32"] ks, x, z) ∈ formatCodes := by
  obtain ⟨-, ⟨k, i, rfl, he, rfl⟩ | ⟨s, x, hm, rfl, rfl⟩ | ⟨rfl, -, rfl⟩⟩ := h
  · refine ⟨i, 1, rfl, ?_⟩
    have hl := he.lt
    obtain ⟨n, rfl, hn, -⟩ := he
    simp only [List.length_cons, List.length_nil] at hl
    have hi : i = 0 ∨ i = 1 ∨ i = 2 ∨ i = 3 := by omega
    rcases hi with rfl | rfl | rfl | rfl <;> simp at hn <;> subst hn <;> simp [meant, formatCodes]
  · refine ⟨x, 0, by simp [field_zero], ?_⟩
    simp only [List.mem_cons, Prod.mk.injEq, List.not_mem_nil, or_false] at hm
    rcases hm with ⟨rfl, rfl⟩ | ⟨rfl, rfl⟩ | ⟨rfl, rfl⟩ <;> simp [meant, formatCodes]
  · exact ⟨3, 1, rfl, by simp [meant, formatCodes]⟩

/-- The halves and bytes of a register. -/
def halves : List Str := [c!"H0", c!"H1"]
def quarters : List Str := [c!"B0", c!"B1", c!"B2", c!"B3"]

/-- The format at bits `a`, `a + 1` and `c`; the part of the register at bits `a - 1` and `a`. -/
def formatGroup (row : Insn) (j0 j1 a c : Nat) : Bool :=
  decide (1 ≤ a ∧ a + 2 < c ∧ c < 64) && row.operands[j0]? == some (.srcFormat a c) &&
  row.operands[j1]? == some (.selector (a - 1) a 2 halves quarters) &&
  row.set row.operands.length (a - 1) [j1] && row.set row.operands.length a [j0, j1] &&
  row.set row.operands.length (a + 1) [j0] && row.set row.operands.length c [j0] &&
  row.set j1 a [j0] && row.set j1 (a + 1) [j0] && row.set j1 (a + 2) []

/-- One of the instructions. -/
theorem Parts.format (h : Parts e row.operands args W B R K)
    (h0 : ∀ p, ((16, 4) :: setBits row.opcode).all (Field.apart (p, 1)) = true → (W 0).bit p = false)
    (hp : Plain row.operands args) {j0 j1 a c : Nat} (hg : formatGroup row j0 j1 a c = true) {ks0 ks1 : List Kind}
    (hk0 : args[j0]? = some ks0) (hk1 : args[j1]? = some ks1) : ∃ x z s,
      (meant [.ident c!".S32"] ks0, x, z) ∈ formatCodes ∧ x ≠ 1 ∧
      (s < if x = 0 then 4 else 2) ∧
      meant (nameTokens (if x = 2 then halves else quarters) 0) ks1 = nameTokens (if x = 2 then halves else quarters) s ∧
      (⟨B j1, R j1, 0⟩ : Op).bit (a - 1) = s.testBit 0 ∧ (⟨B j1, R j1, 0⟩ : Op).bit a = s.testBit 1 ∧
      (⟨B j0, R j0, 0⟩ : Op).bit a = x.testBit 0 ∧ (⟨B j0, R j0, 0⟩ : Op).bit (a + 1) = x.testBit 1 ∧
      (⟨B j0, R j0, 0⟩ : Op).bit c = z.testBit 0 := by
  unfold formatGroup at hg
  simp only [Bool.and_eq_true, decide_eq_true_eq, beq_iff_eq] at hg
  obtain ⟨⟨⟨⟨⟨⟨⟨⟨⟨⟨ha, hac, hc⟩, ho0⟩, ho1⟩, -⟩, -⟩, -⟩, -⟩, hs0⟩, hs1⟩, hs2⟩ := hg
  obtain ⟨x, z, hb, hm⟩ := format_text (h.accepts ho0 hk0)
  have hA := h.accepts ho1 hk1
  have hpl := hp.format ho0 ho1 hk0 hk1
  have hx1 : x ≠ 1 := by
    rintro rfl
    have : meant [.ident c!".S32"] ks0 = [.ident c!"."] := by
      simp only [formatCodes, List.mem_cons, Prod.mk.injEq, List.not_mem_nil, or_false] at hm
      simp at hm
      exact hm.1
    apply hpl.1
    unfold meant at this
    split at this
    · simp at this
    · exact this
  have hxz := format_codes _ hm
  dsimp only at hxz
  have hb0 : (⟨B j0, R j0, 0⟩ : Op).bit a = x.testBit 0 := by
    rw [op_bit_lt (by omega), hb, BitVec.getLsbD_or, field_bit, field_bit]
    simp [show a < 64 by omega, show ¬ c ≤ a by omega]
  have hb1 : (⟨B j0, R j0, 0⟩ : Op).bit (a + 1) = x.testBit 1 := by
    rw [op_bit_lt (by omega), hb, BitVec.getLsbD_or, field_bit, field_bit]
    simp [show a + 1 < 64 by omega, show ¬ c ≤ a + 1 by omega]
  have hbc : (⟨B j0, R j0, 0⟩ : Op).bit c = z.testBit 0 := by
    rw [op_bit_lt (by omega), hb, BitVec.getLsbD_or, field_bit, field_bit]
    have : x.testBit (c - a) = false := Nat.testBit_lt_two_pow (Nat.lt_of_lt_of_le hxz.1 (by
      exact Nat.pow_le_pow_right (n := 2) (i := 2) (by omega) (by omega)))
    simp [hc, this]
  have hv : bitsAt (W j1).value a 3 = x := by
    have v0 := h.before h0 hs0
    have v1 := h.before h0 hs1
    have v2 := h.before h0 hs2
    simp only [List.any_cons, List.any_nil, Bool.or_false] at v0 v1 v2
    rw [hb0] at v0
    rw [hb1] at v1
    unfold Op.bit at v0 v1 v2
    rw [if_pos (by omega)] at v0 v1 v2
    apply Nat.eq_of_testBit_eq
    intro i
    rw [bitsAt_testBit]
    rcases i with _ | _ | _ | i
    · simpa using v0
    · simpa using v1
    · rw [v2]
      have : x.testBit 2 = false := Nat.testBit_lt_two_pow (by omega)
      simp [this]
    · have : x.testBit (i + 3) = false := Nat.testBit_lt_two_pow (Nat.lt_of_lt_of_le hxz.1 (by
        exact Nat.pow_le_pow_right (n := 2) (i := 2) (by omega) (by omega)))
      simp [this]
  simp only [Accepts, hv] at hA
  have key : ∃ s, meant (nameTokens (if x = 2 then halves else quarters) 0) ks1 = nameTokens (if x = 2 then halves else quarters) s ∧
      B j1 = field (a - 1) s ∧ (s < if x = 0 then 4 else 2) := by
    obtain ⟨-, ⟨k, s, rfl, he, hb⟩ | ⟨d, hd, rfl, -, hb⟩⟩ := hA
    · refine ⟨s, by rw [he.name]; rfl, hb, ?_⟩
      have hl := he.lt
      obtain ⟨n, rfl, hn, -⟩ := he
      have hx : x = 0 ∨ x = 2 ∨ x = 3 := by omega
      rcases hx with rfl | rfl | rfl
      · simpa [quarters] using hl
      · simpa [halves] using hl
      · have h3 := hpl.2 (by
          simp only [formatCodes, List.mem_cons, Prod.mk.injEq, List.not_mem_nil, or_false] at hm
          simp at hm
          simpa using hm.imp And.left And.left)
        simp [quarters] at hl
        have hs : s = 0 ∨ s = 1 ∨ s = 2 ∨ s = 3 := by omega
        rcases hs with rfl | rfl | rfl | rfl
        · simp
        · simp
        · simp [quarters] at hn
          subst hn
          simp at h3
        · simp [quarters] at hn
          subst hn
          simp at h3
    · cases hd
      exact ⟨0, rfl, hb, by split <;> omega⟩
  obtain ⟨s, hs, hbs, hlt⟩ := key
  refine ⟨x, z, s, hm, hx1, hlt, hs, ?_, ?_, hb0, hb1, hbc⟩
  · rw [op_bit_lt (by omega), hbs, field_bit]
    simp [show a - 1 < 64 by omega]
  · rw [op_bit_lt (by omega), hbs, field_bit]
    simp [show a < 64 by omega, show a - (a - 1) = 1 by omega]

theorem format_key : ∀ x ∈ [0, 2, 3], ∀ x' ∈ [0, 2, 3], ∀ s ∈ [0, 1, 2, 3], ∀ s' ∈ [0, 1, 2, 3], (x != 1 && x' != 1 && decide (s < if x = 0 then 4 else 2) &&
    decide (s' < if x' = 0 then 4 else 2) && s.testBit 0 == s'.testBit 0 &&
    (x.testBit 0 || s.testBit 1) == (x'.testBit 0 || s'.testBit 1) && x.testBit 1 == x'.testBit 1) = true → x = x' ∧ s = s' := by
  decide +kernel

theorem Twins.format (h : Twins row args args' e e' W W' B B' R R' K K') {j0 j1 a c : Nat}
    (hg : formatGroup row j0 j1 a c = true) {j : Nat} (hj : j ∈ [j0, j1]) : SameAt row args args' e e' j := by
  have hg' := hg
  unfold formatGroup at hg'
  simp only [Bool.and_eq_true, decide_eq_true_eq, beq_iff_eq] at hg'
  obtain ⟨⟨⟨⟨⟨⟨⟨⟨⟨-, ho0⟩, ho1⟩, hs1⟩, hs2⟩, hs3⟩, hs4⟩, -⟩, -⟩, -⟩ := hg'
  obtain ⟨x0, x0', hx0, hx0', -, -⟩ := h.both ho0
  obtain ⟨x1, x1', hx1, hx1', -, -⟩ := h.both ho1
  obtain ⟨x, z, s, hm, hx, hs, ht, b1, b2, b3, b4, b5⟩ := h.left.format h.zero h.plain hg hx0 hx1
  obtain ⟨x', z', s', hm', hx', hs', ht', b1', b2', b3', b4', b5'⟩ := h.right.format h.zero' h.plain' hg hx0' hx1'
  have e1 := h.bits hs1
  have e2 := h.bits hs2
  have e3 := h.bits hs3
  have e4 := h.bits hs4
  simp only [List.any_cons, List.any_nil, Bool.or_false, b1, b2, b3, b4, b5, b1', b2', b3', b4', b5'] at e1 e2 e3 e4
  have h1 := format_codes _ hm
  have h2 := format_codes _ hm'
  dsimp only at h1 h2
  have key : x = x' ∧ z = z' ∧ s = s' := by
    have l1 : s < 4 := by split at hs <;> omega
    have l2 : s' < 4 := by split at hs' <;> omega
    have h3 := format_key x (by simp; omega) x' (by simp; omega) s (by simp; omega) s' (by simp; omega) (by
      simp only [Bool.and_eq_true, bne_iff_ne, beq_iff_eq, decide_eq_true_eq]
      exact ⟨⟨⟨⟨⟨⟨hx, hx'⟩, hs⟩, hs'⟩, e1⟩, e2⟩, e3⟩)
    refine ⟨h3.1, ?_, h3.2⟩
    have z1 := h1.2.1
    have z2 := h2.2.1
    simp only [Nat.testBit_zero, decide_eq_decide] at e4
    omega
  obtain ⟨rfl, rfl, rfl⟩ := key
  have hf := h1.2.2 _ hm' rfl
  intro o ks ks' ho hk hk'
  simp only [List.mem_cons, List.not_mem_nil, or_false] at hj
  rcases hj with rfl | rfl
  · cases ho0.symm.trans ho
    cases hx0.symm.trans hk
    cases hx0'.symm.trans hk'
    exact hf
  · cases ho1.symm.trans ho
    cases hx1.symm.trans hk
    cases hx1'.symm.trans hk'
    exact ⟨if x = 2 then halves else quarters, by split <;> simp, ht.trans ht'.symm⟩

/-! ### Comparisons -/

/-- The comparison at bits 43, 44 and 47, the logic operation at 45 and 46. -/
def compareGroup (row : Insn) (j0 j1 : Nat) : Bool :=
  (match row.operands[j0]? with
  | some (.dotTable none 43 t) => decide (t.length ≤ 32) && (List.range t.length).all fun i => t[i]? == some [] || i / 4 % 4 == 0
  | _ => false) &&
  row.operands[j1]? == some (.bop 45) && row.set row.operands.length 43 [j0] && row.set row.operands.length 44 [j0] &&
  row.set row.operands.length 45 [j0, j1] && row.set row.operands.length 46 [j0, j1] && row.set row.operands.length 47 [j0]

theorem Parts.compare (h : Parts e row.operands args W B R K) (hp : Plain row.operands args) {j0 j : Nat} {t : List Str}
    (hj : row.operands[j0]? = some (.dotTable none 43 t)) (hb : row.operands[j]? = some (.bop 45))
    (ht : (List.range t.length).all (fun i => t[i]? == some [] || i / 4 % 4 == 0) = true)
    {ks : List Kind} (hk : args[j0]? = some ks) (hl : t.length ≤ 32) :
    ∃ k i, ks = [k] ∧ Entry c!"." t k i ∧ i < 32 ∧ i / 4 % 4 = 0 ∧ B j0 = field 43 i := by
  obtain ⟨-, ⟨k, i, rfl, he, hbf⟩ | ⟨d, hd, -⟩⟩ := h.accepts hj hk
  · have hlt := he.lt
    refine ⟨k, i, rfl, he, by omega, ?_, hbf⟩
    have := List.all_eq_true.1 ht i (by simpa using hlt)
    simp only [Bool.or_eq_true, beq_iff_eq] at this
    refine this.resolve_left fun h0 => ?_
    obtain ⟨n, rfl, hn, -⟩ := he
    rw [h0] at hn
    cases hn
    exact hp.compare hj (List.mem_of_getElem? hb) hk
  · cases hd

theorem compare_key : ∀ i < 32, ∀ i' < 32, (i / 4 % 4 = 0 ∧ i' / 4 % 4 = 0 ∧ i.testBit 0 = i'.testBit 0 ∧ i.testBit 1 = i'.testBit 1 ∧
    i.testBit 4 = i'.testBit 4) → i = i' := by decide +kernel

theorem compare_zero : ∀ i < 32, i / 4 % 4 = 0 → i.testBit 2 = false ∧ i.testBit 3 = false := by decide +kernel

theorem Twins.compare (h : Twins row args args' e e' W W' B B' R R' K K') {j0 j1 : Nat}
    (hg : compareGroup row j0 j1 = true) {j : Nat} (hj : j ∈ [j0, j1]) : SameAt row args args' e e' j := by
  unfold compareGroup at hg
  simp only [Bool.and_eq_true, beq_iff_eq] at hg
  obtain ⟨⟨⟨⟨⟨⟨ht, ho1⟩, hs1⟩, hs2⟩, hs3⟩, hs4⟩, hs5⟩ := hg
  obtain ⟨t, ho0, hlen, hall⟩ : ∃ t, row.operands[j0]? = some (.dotTable none 43 t) ∧ t.length ≤ 32 ∧
      (List.range t.length).all (fun i => t[i]? == some [] || i / 4 % 4 == 0) = true := by
    split at ht
    · rename_i t heq
      simp only [Bool.and_eq_true, decide_eq_true_eq] at ht
      exact ⟨t, heq, ht⟩
    · cases ht
  obtain ⟨x0, x0', hx0, hx0', -, -⟩ := h.both ho0
  obtain ⟨x1, x1', hx1, hx1', hA1, hA1'⟩ := h.both ho1
  obtain ⟨k, i, rfl, he, hi, hz, hb⟩ := h.left.compare h.plain ho0 ho1 hall hx0 hlen
  obtain ⟨k', i', rfl, he', hi', hz', hb'⟩ := h.right.compare h.plain' ho0 ho1 hall hx0' hlen
  have e1 := h.bits hs1
  have e2 := h.bits hs2
  have e3 := h.bits hs3
  have e4 := h.bits hs4
  have e5 := h.bits hs5
  simp only [List.any_cons, List.any_nil, Bool.or_false] at e1 e2 e3 e4 e5
  rw [op_bit_lt (by omega), op_bit_lt (by omega)] at e1 e2 e5
  rw [op_bit_lt (by omega), op_bit_lt (by omega), op_bit_lt (by omega), op_bit_lt (by omega)] at e3 e4
  simp only [hb, hb', field_bit] at e1 e2 e3 e4 e5
  simp [-Nat.testBit_zero, compare_zero i hi hz, compare_zero i' hi' hz'] at e1 e2 e3 e4 e5
  obtain rfl := compare_key i hi i' hi' ⟨hz, hz', e1, e2, e5⟩
  have hk := he.token he'
  intro o ks ks' ho hk0 hk0'
  simp only [List.mem_cons, List.not_mem_nil, or_false] at hj
  rcases hj with rfl | rfl
  · cases ho0.symm.trans ho
    cases hx0.symm.trans hk0
    cases hx0'.symm.trans hk0'
    rw [hk]
    rfl
  · cases ho1.symm.trans ho
    cases hx1.symm.trans hk0
    cases hx1'.symm.trans hk0'
    refine accepts_same (by decide) hA1 hA1' (h.left.proper hx1) (h.right.proper hx1') ?_ ?_ ?_
    · intro a w haw _
      simp only [Operand.own, Operand.fields, List.mem_cons, Prod.mk.injEq, List.not_mem_nil, or_false] at haw
      obtain ⟨rfl, rfl⟩ := haw
      apply bitsAt_congr
      intro q h1 h2
      have : q = 45 ∨ q = 46 := by omega
      rcases this with rfl | rfl
      · exact e3
      · exact e4
    · intro q hq
      simp [Operand.own, Operand.fields] at hq
    · intro a w haw
      simp [Operand.looks] at haw

/-! ### Extended numbers -/

/-- The number up to bit 39, the register from bit 39 on. -/
def extendedGroup (row : Insn) (j0 j1 : Nat) : Bool :=
  row.operands[j0]? == some .uimmExtended && row.operands[j1]? == some (.gpr 39) &&
  row.set row.operands.length 39 [j0, j1] && ((66 :: List.range' 40 7).all fun p => row.set row.operands.length p [j1])

theorem Parts.extended (h : Parts e row.operands args W B R K) (hp : Plain row.operands args) {j0 j1 : Nat}
    (h0 : row.operands[j0]? = some .uimmExtended) (h1 : row.operands[j1]? = some (.gpr 39)) {ks : List Kind}
    (hk : args[j0]? = some ks) : (B j0).getLsbD 39 = false := by
  obtain ⟨-, x, rfl, hx, hb⟩ := h.accepts h0 hk
  have hne : x ≠ 2 ^ 20 := by
    rintro rfl
    exact hp.extended h0 (List.mem_of_getElem? h1) hk
  rw [hb]
  split
  · rename_i hl
    rw [field_bit, Nat.testBit_lt_two_pow (by simpa using hl)]
    simp
  · rw [BitVec.getLsbD_or, field_bit, field_bit, Nat.testBit_lt_two_pow (x := x - 2 ^ 19) (by simp; omega)]
    simp

theorem Twins.extended (h : Twins row args args' e e' W W' B B' R R' K K') {j0 j1 : Nat}
    (hg : extendedGroup row j0 j1 = true) {j : Nat} (hj : j ∈ [j1]) : SameAt row args args' e e' j := by
  unfold extendedGroup at hg
  simp only [Bool.and_eq_true, beq_iff_eq] at hg
  obtain ⟨⟨⟨ho0, ho1⟩, hs1⟩, hs2⟩ := hg
  obtain ⟨x0, x0', hx0, hx0', -, -⟩ := h.both ho0
  obtain ⟨x1, x1', hx1, hx1', hA1, hA1'⟩ := h.both ho1
  have e1 := h.bits hs1
  simp only [List.any_cons, List.any_nil, Bool.or_false] at e1
  rw [op_bit_lt (by omega), op_bit_lt (by omega), op_bit_lt (by omega), op_bit_lt (by omega),
    h.left.extended h.plain ho0 ho1 hx0, h.right.extended h.plain' ho0 ho1 hx0', Bool.false_or, Bool.false_or] at e1
  have e2 : ∀ p ∈ 66 :: List.range' 40 7, (⟨B j1, R j1, 0⟩ : Op).bit p = (⟨B' j1, R' j1, 0⟩ : Op).bit p := by
    intro p hp
    have := h.bits (List.all_eq_true.1 hs2 p hp)
    simpa using this
  intro o ks ks' ho hk0 hk0'
  simp only [List.mem_cons, List.not_mem_nil, or_false] at hj
  subst hj
  cases ho1.symm.trans ho
  cases hx1.symm.trans hk0
  cases hx1'.symm.trans hk0'
  refine accepts_same (by decide) hA1 hA1' (h.left.proper hx1) (h.right.proper hx1') ?_ ?_ ?_
  · intro a w haw hle
    have : a = 39 ∧ w = 8 := by
      simp [Operand.own, Operand.fields, reuseFields] at haw
      omega
    obtain ⟨rfl, rfl⟩ := this
    apply bitsAt_congr
    intro q h1 h2
    by_cases hq : q = 39
    · rw [hq, e1]
    · have := e2 q (by simp; omega)
      rwa [op_bit_lt (by omega), op_bit_lt (by omega)] at this
  · intro q hq
    have : q = 2 := by
      simp [Operand.own, Operand.fields, reuseFields] at hq
      omega
    subst this
    have := e2 66 (by simp)
    unfold Op.bit at this
    simpa using this
  · intro a w haw
    simp [Operand.looks] at haw

/-! ### Byte addresses -/

def bytesGroup (row : Insn) (j0 j1 : Nat) : Bool :=
  row.operands[j0]? == some (.expect c!".D" [field 52 1] []) && row.operands[j1]? == some (.flag c!".BA" 52)

theorem Twins.bytes (h : Twins row args args' e e' W W' B B' R R' K K') {j0 j1 : Nat}
    (hg : bytesGroup row j0 j1 = true) {j : Nat} (hj : j ∈ [j0, j1]) : SameAt row args args' e e' j := by
  unfold bytesGroup at hg
  simp only [Bool.and_eq_true, beq_iff_eq] at hg
  obtain ⟨ho0, ho1⟩ := hg
  obtain ⟨x0, x0', hx0, hx0', hA0, hA0'⟩ := h.both ho0
  obtain ⟨x1, x1', hx1, hx1', hA1, hA1'⟩ := h.both ho1
  have hmem := List.mem_of_getElem? ho0
  have p1 := h.plain.bytes ho1 hmem (by simp)
  have p2 := h.plain'.bytes ho1 hmem (by simp)
  obtain ⟨-, rfl, -⟩ := hA0
  obtain ⟨-, rfl, -⟩ := hA0'
  obtain ⟨-, ⟨rfl, -⟩ | ⟨rfl, -, -⟩⟩ := hA1
  · exact (p1 hx1).elim
  obtain ⟨-, ⟨rfl, -⟩ | ⟨rfl, -, -⟩⟩ := hA1'
  · exact (p2 hx1').elim
  intro o ks ks' ho hk0 hk0'
  simp only [List.mem_cons, List.not_mem_nil, or_false] at hj
  rcases hj with rfl | rfl
  · cases ho0.symm.trans ho
    cases hx0.symm.trans hk0
    cases hx0'.symm.trans hk0'
    rfl
  · cases ho1.symm.trans ho
    cases hx1.symm.trans hk0
    cases hx1'.symm.trans hk0'
    rfl

/-! ### Types of textures -/

/-- From the `j`-th operand on no operand sets or clears bit `p`. -/
def Insn.quiet (row : Insn) (j p : Nat) : Bool :=
  decide (j ≤ row.operands.length) && (row.operands.drop j).all (·.keeps p) && setters row.operands j row.operands.length p == []

theorem Parts.after (h : Parts e row.operands args W B R K) {j p : Nat} (hq : row.quiet j p = true) :
    (W row.operands.length).bit p = (W j).bit p := by
  unfold Insn.quiet at hq
  simp only [Bool.and_eq_true, decide_eq_true_eq, beq_iff_eq] at hq
  obtain ⟨⟨hj, hk⟩, hq⟩ := hq
  rw [h.bit hj, hq]
  · simp
  · intro i h1 h2
    refine ⟨row.operands[i], List.getElem?_eq_getElem h2, ?_⟩
    exact List.all_eq_true.1 hk _ (by
      rw [List.mem_drop_iff_getElem]
      exact ⟨i - j, by omega, by simp [show j + (i - j) = i by omega]⟩)

/-- A type of texture at bits 53 to 56, of which it clears the first three. -/
def typeBits (row : Insn) (j : Nat) : Bool :=
  (List.range' 53 4).all (row.quiet (j + 1)) && row.set j 56 [] &&
  match row.operands[j]? with
  | some (.tldsType 53) | some (.texsType 53) => true
  | _ => false

theorem Parts.type (h : Parts e row.operands args W B R K)
    (h0 : ∀ p, ((16, 4) :: setBits row.opcode).all (Field.apart (p, 1)) = true → (W 0).bit p = false) {j : Nat}
    (ht : typeBits row j = true) {p : Nat} (hp : 53 ≤ p ∧ p < 57) : (W row.operands.length).bit p = (B j).getLsbD p := by
  unfold typeBits at ht
  simp only [Bool.and_eq_true] at ht
  obtain ⟨⟨hq, hs⟩, ho⟩ := ht
  rw [h.after (List.all_eq_true.1 hq p (by simp; omega))]
  obtain ⟨o, ho, hc⟩ : ∃ o, row.operands[j]? = some o ∧ clears o = field 53 7 := by
    split at ho
    · exact ⟨_, by assumption, rfl⟩
    · exact ⟨_, by assumption, rfl⟩
    · cases ho
  rw [show (W (j + 1)).bit p = (W (j + 1)).value.getLsbD p by unfold Op.bit; rw [if_pos (by omega)], h.value ho, hc]
  rw [BitVec.getLsbD_or, BitVec.getLsbD_and, BitVec.getLsbD_not, field_bit]
  have : p = 53 ∨ p = 54 ∨ p = 55 ∨ p = 56 := by omega
  rcases this with rfl | rfl | rfl | rfl
  · simp
  · simp [Nat.testBit]
  · simp [Nat.testBit]
  · have h56 := h.before h0 hs
    simp only [List.any_nil] at h56
    unfold Op.bit at h56
    rw [if_pos (by omega)] at h56
    rw [h56]
    simp

theorem type_code {x x' : Nat} (hx : x < 16) (hx' : x' < 16) (h : ∀ p, 53 ≤ p → p < 57 → (field 53 x).getLsbD p = (field 53 x').getLsbD p) :
    x = x' :=
  field_inj (a := 53) (w := 4) (by omega) (by omega) (by omega) (bitsAt_congr fun p h1 h2 => h p h1 (by omega))

/-- The bits of the word before an operand, one by one. -/
theorem Parts.look (h : Parts e row.operands args W B R K)
    (h0 : ∀ p, ((16, 4) :: setBits row.opcode).all (Field.apart (p, 1)) = true → (W 0).bit p = false) {j i p : Nat} (hp : p < 64)
    (hs : row.set j p [i] = true) : (W j).value.getLsbD p = (B i).getLsbD p := by
  have := h.before h0 hs
  simp only [List.any_cons, List.any_nil, Bool.or_false] at this
  unfold Op.bit at this
  simpa [hp] using this

def texsGroup (row : Insn) (j0 j1 : Nat) : Bool :=
  row.operands[j0]? == some (.texsMode 53) && row.operands[j1]? == some (.texsType 53) && typeBits row j1 &&
  (List.range' 53 3).all fun p => row.set j1 p [j0]

theorem texsMode_text {e : Env} {v b : BitVec 64} {a : Nat} {ks : List Kind} {k : Kind} {r : BitVec 32}
    (h : Accepts e v (.texsMode a) ks k b r) : ∃ x, b = field a x ∧ (ks, x) ∈ texsModeCodes := by
  obtain ⟨-, lod, dc, x, y, rfl, rfl, hx, hy⟩ := h
  refine ⟨_, rfl, ?_⟩
  rcases hx with ⟨rfl, rfl⟩ | ⟨rfl, rfl⟩ | ⟨rfl, -, -, rfl⟩ <;> rcases hy with ⟨rfl, rfl⟩ | ⟨rfl, -, rfl⟩ <;> simp [texsModeCodes]

set_option synthInstance.maxHeartbeats 400000 in
set_option synthInstance.maxSize 2000 in
theorem texs_codes : ∀ p ∈ texsCodes, p.2.2.2 < 16 ∧ ∀ q ∈ texsCodes, p.2.1 ≠ 3 → q.2.1 ≠ 3 → p.2.2.2 = q.2.2.2 → p = q := by
  decide +kernel

theorem texsMode_levels : ∀ p ∈ texsModeCodes, p.2 % 4 ≠ 3 ∧ p.2 < 8 := by decide

theorem Parts.texs (h : Parts e row.operands args W B R K)
    (h0 : ∀ p, ((16, 4) :: setBits row.opcode).all (Field.apart (p, 1)) = true → (W 0).bit p = false) {j0 j1 : Nat}
    (hg : texsGroup row j0 j1 = true) {ks0 ks1 : List Kind} (hk0 : args[j0]? = some ks0) (hk1 : args[j1]? = some ks1) :
    ∃ y s x, (ks0, y) ∈ texsModeCodes ∧ ks1 = [.ident s] ∧ (s, y % 4, y / 4 == 1, x) ∈ texsCodes ∧ B j1 = field 53 x := by
  unfold texsGroup at hg
  simp only [Bool.and_eq_true, beq_iff_eq] at hg
  obtain ⟨⟨⟨ho0, ho1⟩, -⟩, hs⟩ := hg
  obtain ⟨y, hb, hy⟩ := texsMode_text (h.accepts ho0 hk0)
  obtain ⟨-, s, x, rfl, hbx, hx⟩ := h.accepts ho1 hk1
  refine ⟨y, s, x, hy, rfl, ?_, hbx⟩
  have hlt := (texsMode_levels _ hy).2
  dsimp only at hlt
  have key : bitsAt (W j1).value 53 3 = y := by
    rw [← bitsAt_field (a := 53) (w := 3) (n := y) (by omega) (by omega), ← hb]
    apply bitsAt_congr
    intro p h1 h2
    exact h.look h0 (by omega) (List.all_eq_true.1 hs p (by simp; omega))
  have k1 : bitsAt (W j1).value 53 2 = y % 4 := by
    rw [← key]
    unfold bitsAt
    omega
  have k2 : bitsAt (W j1).value 55 1 = y / 4 := by
    rw [← key]
    unfold bitsAt
    omega
  rw [k1, show (53 : Nat) + 2 = 55 from rfl, k2] at hx
  exact hx

theorem Twins.texs (h : Twins row args args' e e' W W' B B' R R' K K') {j0 j1 : Nat}
    (hg : texsGroup row j0 j1 = true) {j : Nat} (hj : j ∈ [j0, j1]) : SameAt row args args' e e' j := by
  have hg' := hg
  unfold texsGroup at hg'
  simp only [Bool.and_eq_true, beq_iff_eq] at hg'
  obtain ⟨⟨⟨ho0, ho1⟩, ht⟩, hs⟩ := hg'
  obtain ⟨x0, x0', hx0, hx0', -, -⟩ := h.both ho0
  obtain ⟨x1, x1', hx1, hx1', -, -⟩ := h.both ho1
  obtain ⟨y, s, x, hy, rfl, hm, hb⟩ := h.left.texs h.zero hg hx0 hx1
  obtain ⟨y', s', x', hy', rfl, hm', hb'⟩ := h.right.texs h.zero' hg hx0' hx1'
  have c1 := texs_codes _ hm
  have c2 := texs_codes _ hm'
  have l1 := texsMode_levels _ hy
  have l2 := texsMode_levels _ hy'
  dsimp only at c1 c2 l1 l2
  obtain rfl : x = x' := type_code c1.1 c2.1 fun p h1 h2 => by
    rw [← hb, ← hb', ← h.left.type h.zero ht ⟨h1, h2⟩, ← h.right.type h.zero' ht ⟨h1, h2⟩, h.same]
  have he := c1.2 _ hm' l1.1 l2.1 rfl
  simp only [Prod.mk.injEq, and_true] at he
  obtain ⟨rfl, he1, he2⟩ := he
  obtain rfl : y = y' := by
    have : y / 4 = y' / 4 := by
      have a1 : y / 4 < 2 := by omega
      have a2 : y' / 4 < 2 := by omega
      rcases Nat.lt_or_ge (y / 4) 1 with b1 | b1 <;> rcases Nat.lt_or_ge (y' / 4) 1 with b2 | b2
      · omega
      · rw [show y / 4 = 0 by omega, show y' / 4 = 1 by omega] at he2; cases he2
      · rw [show y / 4 = 1 by omega, show y' / 4 = 0 by omega] at he2; cases he2
      · omega
    omega
  have hk := (texsMode_codes _ hy).2 _ hy' rfl
  intro o ks ks' ho hk0 hk0'
  simp only [List.mem_cons, List.not_mem_nil, or_false] at hj
  rcases hj with rfl | rfl
  · cases ho0.symm.trans ho
    cases hx0.symm.trans hk0
    cases hx0'.symm.trans hk0'
    exact hk
  · cases ho1.symm.trans ho
    cases hx1.symm.trans hk0
    cases hx1'.symm.trans hk0'
    rfl

def levels : List Str := [c!"LZ", c!"LL"]

def tldsGroup (row : Insn) (j0 j1 j2 j3 : Nat) : Bool :=
  row.operands[j0]? == some (.dotTable none 53 levels) && row.operands[j1]? == some (.flag c!".AOFFI" 54) &&
  row.operands[j2]? == some (.flag c!".MS" 55) && row.operands[j3]? == some (.tldsType 53) && typeBits row j3 &&
  row.set j3 53 [j0] && row.set j3 54 [j1] && row.set j3 55 [j2]

set_option synthInstance.maxHeartbeats 400000 in
set_option synthInstance.maxSize 2000 in
theorem tlds_codes : ∀ p ∈ tldsCodes, p.2.2.2.2 < 16 ∧ ∀ q ∈ tldsCodes, (p.1 ∈ [c!"3D", c!"ARRAY_2D"] → p.2.1 = false) →
    (q.1 ∈ [c!"3D", c!"ARRAY_2D"] → q.2.1 = false) → p.2.2.2.2 = q.2.2.2.2 → p = q := by
  decide +kernel

theorem Parts.tlds (h : Parts e row.operands args W B R K)
    (h0 : ∀ p, ((16, 4) :: setBits row.opcode).all (Field.apart (p, 1)) = true → (W 0).bit p = false)
    (hp : Plain row.operands args) {j0 j1 j2 j3 : Nat}
    (hg : tldsGroup row j0 j1 j2 j3 = true) {ks0 ks1 ks2 ks3 : List Kind} (hk0 : args[j0]? = some ks0) (hk1 : args[j1]? = some ks1)
    (hk2 : args[j2]? = some ks2) (hk3 : args[j3]? = some ks3) :
    ∃ (ll ao ms : Bool) (s : Str) (x : Nat), ks0 = [.ident (if ll then c!".LL" else c!".LZ")] ∧
      ks1 = (if ao then [.ident c!".AOFFI"] else []) ∧ ks2 = (if ms then [.ident c!".MS"] else []) ∧ ks3 = [.ident s] ∧
      (s, ll, ao, ms, x) ∈ tldsCodes ∧ B j3 = field 53 x ∧ (s ∈ [c!"3D", c!"ARRAY_2D"] → ll = false) := by
  unfold tldsGroup at hg
  simp only [Bool.and_eq_true, beq_iff_eq] at hg
  obtain ⟨⟨⟨⟨⟨⟨⟨ho0, ho1⟩, ho2⟩, ho3⟩, -⟩, hs0⟩, hs1⟩, hs2⟩ := hg
  obtain ⟨ll, rfl, hb0⟩ : ∃ ll : Bool, ks0 = [.ident (if ll then c!".LL" else c!".LZ")] ∧ B j0 = field 53 (Spec.bit ll) := by
    obtain ⟨-, ⟨k, i, rfl, he, hb⟩ | ⟨d, hd, -⟩⟩ := h.accepts ho0 hk0
    · have hl := he.lt
      obtain ⟨n, rfl, hn, -⟩ := he
      have hi : i = 0 ∨ i = 1 := by simp [levels] at hl; omega
      rcases hi with rfl | rfl
      · simp [levels] at hn
        subst hn
        exact ⟨false, rfl, hb⟩
      · simp [levels] at hn
        subst hn
        exact ⟨true, rfl, hb⟩
    · cases hd
  obtain ⟨ao, ⟨rfl, hb1⟩⟩ := optional_of (k := .ident c!".AOFFI") rfl (h.accepts ho1 hk1)
  obtain ⟨ms, ⟨rfl, hb2⟩⟩ := optional_of (k := .ident c!".MS") rfl (h.accepts ho2 hk2)
  obtain ⟨-, s, x, rfl, hbx, hx⟩ := h.accepts ho3 hk3
  have one : ∀ {p : Nat} {w : Bool} {c : BitVec 64}, (W j3).value.getLsbD p = c.getLsbD p → c.getLsbD p = w →
      (bitsAt (W j3).value p 1 == 1) = w := by
    intro p w c h1 h2
    rw [h2] at h1
    have : bitsAt (W j3).value p 1 = Spec.bit w := by
      apply Nat.eq_of_testBit_eq
      intro i
      rw [bitsAt_testBit]
      rcases i with _ | i
      · simp [h1]; cases w <;> rfl
      · cases w <;> simp [Spec.bit, Nat.testBit_succ]
    rw [this]
    cases w <;> rfl
  have l0 := one (w := ll) (h.look h0 (by omega) hs0) (by rw [hb0, field_bit]; cases ll <;> rfl)
  have l1 := one (w := ao) (h.look h0 (by omega) hs1) (by rw [hb1]; cases ao <;> rfl)
  have l2 := one (w := ms) (h.look h0 (by omega) hs2) (by rw [hb2]; cases ms <;> rfl)
  rw [l0, show (53 : Nat) + 1 = 54 from rfl, l1, show (53 : Nat) + 2 = 55 from rfl, l2] at hx
  refine ⟨ll, ao, ms, s, x, rfl, rfl, rfl, rfl, hx, hbx, ?_⟩
  intro hsm
  have := hp.level ho3 hk3 hsm
  cases ll
  · rfl
  · exact (this (List.mem_of_getElem? hk0)).elim

theorem Twins.tlds (h : Twins row args args' e e' W W' B B' R R' K K') {j0 j1 j2 j3 : Nat}
    (hg : tldsGroup row j0 j1 j2 j3 = true) {j : Nat} (hj : j ∈ [j0, j1, j2, j3]) : SameAt row args args' e e' j := by
  have hg' := hg
  unfold tldsGroup at hg'
  simp only [Bool.and_eq_true, beq_iff_eq] at hg'
  obtain ⟨⟨⟨⟨⟨⟨⟨ho0, ho1⟩, ho2⟩, ho3⟩, ht⟩, -⟩, -⟩, -⟩ := hg'
  obtain ⟨x0, x0', hx0, hx0', -, -⟩ := h.both ho0
  obtain ⟨x1, x1', hx1, hx1', -, -⟩ := h.both ho1
  obtain ⟨x2, x2', hx2, hx2', -, -⟩ := h.both ho2
  obtain ⟨x3, x3', hx3, hx3', -, -⟩ := h.both ho3
  obtain ⟨ll, ao, ms, s, x, rfl, rfl, rfl, rfl, hm, hb, hl⟩ := h.left.tlds h.zero h.plain hg hx0 hx1 hx2 hx3
  obtain ⟨ll', ao', ms', s', x', rfl, rfl, rfl, rfl, hm', hb', hl'⟩ := h.right.tlds h.zero' h.plain' hg hx0' hx1' hx2' hx3'
  have c1 := tlds_codes _ hm
  have c2 := tlds_codes _ hm'
  dsimp only at c1 c2
  obtain rfl : x = x' := type_code c1.1 c2.1 fun p h1 h2 => by
    rw [← hb, ← hb', ← h.left.type h.zero ht ⟨h1, h2⟩, ← h.right.type h.zero' ht ⟨h1, h2⟩, h.same]
  have he := c1.2 _ hm' hl hl' rfl
  simp only [Prod.mk.injEq, and_true] at he
  obtain ⟨rfl, rfl, rfl, rfl⟩ := he
  intro o ks ks' ho hk0 hk0'
  simp only [List.mem_cons, List.not_mem_nil, or_false] at hj
  rcases hj with rfl | rfl | rfl | rfl
  · cases ho0.symm.trans ho
    cases hx0.symm.trans hk0
    cases hx0'.symm.trans hk0'
    rfl
  · cases ho1.symm.trans ho
    cases hx1.symm.trans hk0
    cases hx1'.symm.trans hk0'
    rfl
  · cases ho2.symm.trans ho
    cases hx2.symm.trans hk0
    cases hx2'.symm.trans hk0'
    rfl
  · cases ho3.symm.trans ho
    cases hx3.symm.trans hk0
    cases hx3'.symm.trans hk0'
    rfl

/-! ### The table -/

/-- Operands that share bits. -/
inductive Group where
  | sign (j0 j1 j2 a1 a2 : Nat)
  | sign2 (j0 j1 a1 a2 : Nat)
  | format (j0 j1 a c : Nat)
  | compare (j0 j1 : Nat)
  | extended (j0 j1 : Nat)
  | bytes (j0 j1 : Nat)
  | texs (j0 j1 : Nat)
  | tlds (j0 j1 j2 j3 : Nat)

def Group.check (row : Insn) : Group → Bool
  | .sign j0 j1 j2 a1 a2 => signGroup row j0 j1 j2 a1 a2
  | .sign2 j0 j1 a1 a2 => signGroup2 row j0 j1 a1 a2
  | .format j0 j1 a c => formatGroup row j0 j1 a c
  | .compare j0 j1 => compareGroup row j0 j1
  | .extended j0 j1 => extendedGroup row j0 j1
  | .bytes j0 j1 => bytesGroup row j0 j1
  | .texs j0 j1 => texsGroup row j0 j1
  | .tlds j0 j1 j2 j3 => tldsGroup row j0 j1 j2 j3

def Group.members : Group → List Nat
  | .sign j0 j1 j2 _ _ => [j0, j1, j2]
  | .sign2 j0 j1 _ _ => [j0, j1]
  | .format j0 j1 _ _ => [j0, j1]
  | .compare j0 j1 => [j0, j1]
  | .extended _ j1 => [j1]
  | .bytes j0 j1 => [j0, j1]
  | .texs j0 j1 => [j0, j1]
  | .tlds j0 j1 j2 j3 => [j0, j1, j2, j3]

theorem Twins.group (h : Twins row args args' e e' W W' B B' R R' K K') {g : Group} (hg : g.check row = true) {j : Nat}
    (hj : j ∈ g.members) : SameAt row args args' e e' j := by
  cases g with
  | sign => exact h.sign hg hj
  | sign2 => exact h.sign2 hg hj
  | format => exact h.format hg hj
  | compare => exact h.compare hg hj
  | extended => exact h.extended hg hj
  | bytes => exact h.bytes hg hj
  | texs => exact h.texs hg hj
  | tlds => exact h.tlds hg hj

/-- The groups that occur in the table. -/
def groups : List Group := [.sign 0 6 9 48 49, .sign 0 6 10 48 49, .sign2 0 6 55 56, .extended 7 11, .sign 0 4 7 48 49, .bytes 0 1,
  .format 0 10 37 48, .format 1 13 29 49, .sign 2 8 15 53 54, .sign 2 8 14 53 54, .format 1 10 37 48, .format 2 13 29 49,
  .compare 0 3, .format 1 9 37 48, .format 2 12 29 49, .texs 1 13, .tlds 1 2 3 15]

/-- Every operand of the row has its bits for itself or is in one of the groups. -/
theorem table_groups : ∀ row ∈ insnTable, ∀ j < row.operands.length,
    row.ownsAlone j = true ∨ groups.any (fun g => g.check row && g.members.contains j) = true := by decide +kernel

end Nxas
