import Verif.Lemmas.Drop
import Verif.Props.Shift
/-
C107: which annotations, reuse flags and guards an instruction of an image can have.
-/

namespace Nxas

open Spec

theorem isImage_text {d : Bool} {v : BitVec 64} {s : Nat} (hs : s < 2 ^ 21) :
    IsImage d (alone v s) ↔ ∃ ks, (∀ x ∈ ks, Writable x) ∧ InstrText ⟨fun _ => none, addressOf 0⟩ ks (opOf v s) := by
  rw [isImage_alone hs]
  constructor
  · rintro ⟨ks, h⟩
    obtain ⟨h1, h2⟩ := decodeAt_sound h
    exact ⟨ks, fun x hx => (h1 x hx).1, h2⟩
  · rintro ⟨ks, h1, h2⟩
    exact decodeAt_complete (i := 0) (by decide) h1 h2 (slot_opOf (by omega)).symm

/-- The two barriers of an instruction are among the six or absent; `s` are its bits of the control word. -/
def Spec.Barriers (s : Nat) : Prop := (s / 2 ^ 5 % 8 ≤ 5 ∨ s / 2 ^ 5 % 8 = 7) ∧ (s / 2 ^ 8 % 8 ≤ 5 ∨ s / 2 ^ 8 % 8 = 7)

/-- C107. Whether a word is an instruction does not depend on its annotations, except that its barriers have to exist and bit 20 is never set: any stall count,
    yield flag, barriers and set of barriers to wait for can go with any instruction. -/
theorem C107_schedule {d : Bool} {v : BitVec 64} {s : Nat} (hs : s < 2 ^ 21) :
    IsImage d (alone v s) ↔ s < 2 ^ 20 ∧ Barriers s ∧ IsImage d (alone v (s / 2 ^ 17 * 2 ^ 17 + 0x7E0)) := by
  have hv : ∀ s' t : Nat, s' / 2 ^ 17 = s / 2 ^ 17 → s' % 2 ^ 17 = t → { opOf v s with sched := BitVec.ofNat 32 t } = opOf v s' := by
    rintro s' t h rfl
    simp only [opOf, h]
  rw [isImage_text hs, isImage_text (by omega)]
  constructor
  · rintro ⟨ks, h1, h2⟩
    have hb := instr_barriers h2
    have hsm := (instr_small h2).1
    simp only [opOf, BitVec.toNat_ofNat] at hb hsm
    rw [Nat.mod_eq_of_lt (a := s % 2 ^ 17) (by omega), show s % 2 ^ 17 / 2 ^ 5 % 8 = s / 2 ^ 5 % 8 by omega,
      show s % 2 ^ 17 / 2 ^ 8 % 8 = s / 2 ^ 8 % 8 by omega] at hb
    refine ⟨by omega, hb, ?_⟩
    obtain ⟨ks', h3, h4⟩ := instr_sched h2 h1 (s := 0x7E0) (by decide) (.inr rfl) (.inr rfl)
    rw [hv (s / 2 ^ 17 * 2 ^ 17 + 0x7E0) _ (by omega) (by omega)] at h4
    exact ⟨ks', h3, h4⟩
  · rintro ⟨-, ⟨hw, hr⟩, ks, h1, h2⟩
    obtain ⟨ks', h3, h4⟩ := instr_sched h2 h1 (s := s % 2 ^ 17) (by omega) (by omega) (by omega)
    refine ⟨ks', h3, ?_⟩
    have : opOf v s = { opOf v (s / 2 ^ 17 * 2 ^ 17 + 0x7E0) with sched := BitVec.ofNat 32 (s % 2 ^ 17) } := by
      simp only [opOf, show (s / 2 ^ 17 * 2 ^ 17 + 0x7E0) / 2 ^ 17 = s / 2 ^ 17 by omega]
    rw [this]
    exact h4

/-- C107. Any of the reuse flags of an instruction can be taken away. -/
theorem C107_reuse {d : Bool} {v : BitVec 64} {s s' : Nat} (hs : s < 2 ^ 21) (h : IsImage d (alone v s)) (hsame : s' % 2 ^ 17 = s % 2 ^ 17)
    (hsub : ∀ i, 17 ≤ i → s'.testBit i = true → s.testBit i = true) : IsImage d (alone v s') := by
  have hand : s' / 2 ^ 17 = s / 2 ^ 17 &&& s' / 2 ^ 17 := by
    apply Nat.eq_of_testBit_eq
    intro i
    rw [Nat.testBit_and, Nat.testBit_div_two_pow, Nat.testBit_div_two_pow]
    cases hi : s'.testBit (i + 17) with
    | false => simp
    | true => simp [hsub _ (by omega) hi]
  have hle : s' / 2 ^ 17 ≤ s / 2 ^ 17 := by rw [hand]; exact Nat.and_le_left
  have hs' : s' < 2 ^ 21 := by omega
  rw [isImage_text hs] at h
  rw [isImage_text hs']
  obtain ⟨ks, h1, h2⟩ := h
  obtain ⟨ks', h3, h4⟩ := instr_drop h2 h1 (BitVec.ofNat 32 (s' / 2 ^ 17))
  refine ⟨ks', h3, ?_⟩
  have : opOf v s' = { opOf v s with reuse := (opOf v s).reuse &&& BitVec.ofNat 32 (s' / 2 ^ 17) } := by
    simp only [opOf, hsame, Op.mk.injEq, true_and, and_true]
    rw [← BitVec.ofNat_and, ← hand]
  rw [this]
  exact h4

/-- C107. An instruction with another guard: any guard will do if it had one other than the constant, and the constant always does. -/
theorem C107_guard {d : Bool} {v v' : BitVec 64} {s : Nat} (hs : s < 2 ^ 21) (h : IsImage d (alone v s))
    (hsame : ∀ i, ¬ (16 ≤ i ∧ i < 20) → v'.getLsbD i = v.getLsbD i) (hg : v.extractLsb' 16 3 ≠ 7 ∨ v'.extractLsb' 16 3 = 7) :
    IsImage d (alone v' s) := by
  rw [isImage_text hs] at h ⊢
  obtain ⟨ks, h1, h2⟩ := h
  have hx : ∀ x : BitVec 4, ∃ p n, p ≤ 7 ∧ guardBits (some (p, n)) = x ∧ (x.extractLsb' 0 3 = 7 → p = 7) := by
    intro x
    refine ⟨x.toNat % 8, decide (8 ≤ x.toNat), by omega, ?_, ?_⟩
    · revert x; decide
    · revert x; decide
  obtain ⟨p, n, hp, hpn, h7⟩ := hx (v'.extractLsb' 16 4)
  have h5 : (v'.extractLsb' 16 4).extractLsb' 0 3 = v'.extractLsb' 16 3 := by
    apply BitVec.eq_of_getLsbD_eq
    intro i hi
    simp only [BitVec.getLsbD_extractLsb', Nat.zero_add, hi, decide_true, Bool.true_and]
    rw [decide_eq_true (show i < 4 by omega), Bool.true_and]
  rw [h5] at h7
  obtain ⟨ks', op', h3, h4, hr, hsd, hv, ho⟩ := instr_guard h2 h1 (g' := some (p, n)) (by
    rcases hg with hg | hg
    · exact .inl hg
    · refine .inr ?_
      intro p' n' he
      simp only [Option.some.injEq, Prod.mk.injEq] at he
      rw [← he.1]
      exact h7 hg) (by
    intro p' n' he
    simp only [Option.some.injEq, Prod.mk.injEq] at he
    rw [← he.1]
    exact hp)
  refine ⟨ks', h3, ?_⟩
  have : op' = opOf v' s := by
    obtain ⟨x, r, t⟩ := op'
    simp only at hr hsd hv ho
    subst hr hsd
    simp only [opOf, Op.mk.injEq, and_true, and_self]
    apply BitVec.eq_of_getLsbD_eq
    intro i hi
    by_cases hin : 16 ≤ i ∧ i < 20
    · have := congrArg (·.getLsbD (i - 16)) (hv.trans hpn)
      simp only [BitVec.getLsbD_extractLsb'] at this
      rw [decide_eq_true (show i - 16 < 4 by omega), Bool.true_and, Bool.true_and, show 16 + (i - 16) = i by omega] at this
      exact this
    · rw [ho i hin]
      exact (hsame i hin).symm
  rw [← this]
  exact h4

/-- C107. So the guards that can go with the rest of an instruction are all of them, or the constant and its negation only, or none. -/
theorem C107_guards {d : Bool} {v : BitVec 64} {s : Nat} (hs : s < 2 ^ 21) :
    let with_ (g : BitVec 4) : BitVec 64 := (v &&& ~~~(0xF0000 : BitVec 64)) ||| (g.zeroExtend 64 <<< 16)
    (∀ g, IsImage d (alone (with_ g) s)) ∨ (∀ g, IsImage d (alone (with_ g) s) ↔ g = 7 ∨ g = 15) ∨ ∀ g, ¬ IsImage d (alone (with_ g) s) := by
  intro with_
  have hout : ∀ g g' : BitVec 4, ∀ i, ¬ (16 ≤ i ∧ i < 20) → (with_ g').getLsbD i = (with_ g).getLsbD i := by
    intro g g' i hi
    simp only [with_, BitVec.getLsbD_or, BitVec.getLsbD_shiftLeft]
    congr 1
    by_cases h : i < 16
    · simp [h]
    · simp only [BitVec.truncate_eq_setWidth, BitVec.getLsbD_setWidth]
      rw [BitVec.getLsbD_of_ge g _ (by omega), BitVec.getLsbD_of_ge g' _ (by omega)]
  have hin : ∀ g : BitVec 4, (with_ g).extractLsb' 16 3 = g.extractLsb' 0 3 := by
    intro g
    apply BitVec.eq_of_getLsbD_eq
    intro i hi
    have hm : (0xF0000 : BitVec 64).getLsbD (16 + i) = true := by
      have : i = 0 ∨ i = 1 ∨ i = 2 := by omega
      rcases this with rfl | rfl | rfl <;> rfl
    simp only [BitVec.getLsbD_extractLsb', with_, BitVec.getLsbD_or, BitVec.getLsbD_and, BitVec.getLsbD_not, hm, BitVec.getLsbD_shiftLeft,
      BitVec.truncate_eq_setWidth, BitVec.getLsbD_setWidth, hi, decide_true, Bool.true_and, Nat.zero_add]
    simp only [Bool.not_true, Bool.and_false, Bool.false_or]
    rw [show 16 + i - 16 = i by omega, decide_eq_true (show 16 + i < 64 by omega), decide_eq_true (show i < 64 by omega)]
    simp
  have h8 : ∀ g : BitVec 4, g.extractLsb' 0 3 = 7 ↔ g = 7 ∨ g = 15 := by decide
  by_cases h : ∃ g, IsImage d (alone (with_ g) s) ∧ ¬ (g = 7 ∨ g = 15)
  · obtain ⟨g, h1, h2⟩ := h
    exact .inl fun g' => C107_guard hs h1 (hout g g') (.inl (by rw [hin, ne_eq, h8]; exact h2))
  · have h' : ∀ g, IsImage d (alone (with_ g) s) → g = 7 ∨ g = 15 := fun g hg => by_contra fun hn => h ⟨g, hg, hn⟩
    by_cases h1 : ∃ g, IsImage d (alone (with_ g) s)
    · obtain ⟨g, h1⟩ := h1
      refine .inr (.inl fun g' => ⟨h' g', fun h7 => C107_guard hs h1 (hout g g') (.inr (by rw [hin, h8]; exact h7))⟩)
    · exact .inr (.inr fun g hg => h1 ⟨g, hg⟩)

/-- An instruction with a guard, two reuse flags and a stall count. -/
theorem C107_case : assemble true c!"@P3 FADD R0, R1.reuse, R2.reuse @WAIT 4;" = .ok (alone 0x5c58000000230100 0x607e4) ∧
    NoContainer c!"@P3 FADD R0, R1.reuse, R2.reuse @WAIT 4;" := by
  refine ⟨by decide +kernel, ?_⟩
  intro ts hs
  obtain rfl := scans_unique (by decide) hs (lexAll_scans (n := 40) (ps := [(.at, 0), (.pred 3 false, 0), (.ident c!"FADD", 0), (.reg 0, 0), (.comma, 0),
    (.reg 1, 0), (.ident c!".reuse", 0), (.comma, 0), (.reg 2, 0), (.ident c!".reuse", 0), (.at, 0), (.ident c!"WAIT", 0), (.imm 4, 0), (.semicolon, 0)])
    (by decide) (by decide +kernel))
  decide

/-- The same with two barriers, a barrier to wait for and the yield flag; with the second reuse flag only; with the guard `!P1`; with no guard. -/
example : IsImage true (alone 0x5c58000000230100 0x60a5f) ∧ IsImage true (alone 0x5c58000000230100 0x407e4) ∧
    IsImage true (alone 0x5c58000000290100 0x607e4) ∧ IsImage true (alone 0x5c58000000270100 0x607e4) := by
  have h : IsImage true (alone 0x5c58000000230100 0x607e4) := ⟨_, C107_case⟩
  have hout : ∀ v' : BitVec 64, (∀ i : Fin 64, ¬ (16 ≤ i.val ∧ i.val < 20) → v'.getLsbD i.val = (0x5c58000000230100 : BitVec 64).getLsbD i.val) →
      ∀ i, ¬ (16 ≤ i ∧ i < 20) → v'.getLsbD i = (0x5c58000000230100 : BitVec 64).getLsbD i := by
    intro v' hv i hi
    by_cases hl : i < 64
    · exact hv ⟨i, hl⟩ hi
    · rw [BitVec.getLsbD_of_ge _ i (by omega), BitVec.getLsbD_of_ge _ i (by omega)]
  refine ⟨(C107_schedule (by decide)).2 ⟨by decide, ⟨by decide, by decide⟩, ((C107_schedule (by decide)).1 h).2.2⟩, ?_, ?_, ?_⟩
  · refine C107_reuse (by decide) h (by decide) ?_
    intro i hi ht
    by_cases hl : i < 19
    · have : i = 17 ∨ i = 18 := by omega
      rcases this with rfl | rfl
      · exact absurd ht (by decide)
      · decide
    · rw [Nat.testBit_lt_two_pow (lt_of_lt_of_le (by decide : 0x407e4 < 2 ^ 19) (Nat.pow_le_pow_right (by decide) (by omega)))] at ht
      exact absurd ht (by decide)
  · exact C107_guard (by decide) h (hout _ (by decide)) (.inl (by decide))
  · exact C107_guard (by decide) h (hout _ (by decide)) (.inl (by decide))

/-- There is no barrier 6, and `SSY` has no guard but the constant. -/
example (d : Bool) : ¬ IsImage d (alone 0x5c58000000230100 0x607c4) ∧ IsImage d (alone 0xe290000000070000 0x7e0) ∧ ¬ IsImage d (alone 0xe290000000000000 0x7e0) := by
  refine ⟨fun h => absurd ((C107_schedule (by decide)).1 h).2.1.1 (by decide), ?_, ?_⟩
  · rw [isImage_alone (by decide), ← Option.isSome_iff_exists]
    decide +kernel
  · rw [isImage_alone (by decide), ← Option.isSome_iff_exists]
    decide +kernel

end Nxas
