import Verif.Lemmas.Words
import Verif.Lemmas.Declared
/-
The integers that can occur in an instruction.
-/

namespace Nxas

open Spec

/-- Operands that take a floating point value. -/
def Operand.float : Operand → Bool
  | .fimm _ | .dimm20 | .himm _ _ _ => true
  | .abs _ inner => inner.float
  | _ => false

/-- The parameters of integer operands are small. -/
def Operand.narrow : Operand → Bool
  | .uint m _ => m < 2 ^ 62
  | .sint w _ => 1 ≤ w && w ≤ 62
  | .memAddress _ _ w _ => 1 ≤ w && w ≤ 62
  | .abs _ inner => inner.narrow
  | _ => true

/-- Not one of the numbers that stand for literals out of range. -/
def Moderate (v : Int) : Prop := -(2 ^ 63) < v ∧ v < 2 ^ 63 - 1

theorem moderate_signed {w : Nat} {x : Int} (h1 : 1 ≤ w) (hw : w ≤ 62) (h2 : -(2 ^ (w - 1)) ≤ x) (h3 : x < 2 ^ (w - 1)) : Moderate x := by
  have : (2 : Int) ^ (w - 1) ≤ 2 ^ 61 := by
    have := Nat.pow_le_pow_right (show 0 < 2 by decide) (show w - 1 ≤ 61 by omega)
    exact_mod_cast this
  unfold Moderate
  omega

theorem moderate_unsigned {w : Nat} {x : Int} (hw : w ≤ 62) (h2 : 0 ≤ x) (h3 : x < 2 ^ w) : Moderate x := by
  have : (2 : Int) ^ w ≤ 2 ^ 62 := by
    have := Nat.pow_le_pow_right (show 0 < 2 by decide) hw
    exact_mod_cast this
  unfold Moderate
  omega

theorem reuse_imm {a : Nat} {ks : List Kind} {k : Kind} {r : BitVec 32} (h : Spec.reuse a ks k r) {v : Int} : .imm v ∉ ks := by
  rcases h with ⟨rfl, -⟩ | ⟨rfl, -⟩ <;> simp

theorem optWord_imm {w : Str} {bits : BitVec 64} {ks : List Kind} {k : Kind} {b : BitVec 64} {r : BitVec 32}
    (h : optWord w bits ks k b r) {v : Int} : .imm v ∉ ks := by
  obtain ⟨-, ⟨rfl, -⟩ | ⟨rfl, -⟩⟩ := h <;> simp

theorem Entry.imm {p : Str} {t : List Str} {k : Kind} {i : Nat} (h : Entry p t k i) {v : Int} : .imm v ∉ [k] := by
  obtain ⟨name, rfl, -⟩ := h
  simp

theorem modifier_imm {d : Option Nat} {a : Nat} {t : List Str} {ks : List Kind} {k : Kind} {b : BitVec 64}
    {r : BitVec 32} (h : modifier d a t ks k b r) {v : Int} : .imm v ∉ ks := by
  obtain ⟨-, ⟨k, i, rfl, h, -⟩ | ⟨d, -, rfl, -⟩⟩ := h
  · exact Entry.imm h
  · simp

theorem memory_imm {i : Bool} {a z j : Nat} {ks : List Kind} {k : Kind} {b : BitVec 64} {r : BitVec 32} (hz : 1 ≤ z) (hz2 : z ≤ 62)
    (h : memory i a z j ks k b r) {v : Int} (hs : .imm v ∈ ks) : Moderate v := by
  obtain ⟨n, base, off, rfl, h1, h2⟩ := h
  have hb : Kind.imm v ∉ base := by
    rcases h1 with ⟨rest, rfl, h⟩ | ⟨rfl, -⟩
    · have := reuse_imm (v := v) h
      simp [this]
    · simp
  simp only [List.mem_cons, List.mem_append, hb, reduceCtorEq, List.not_mem_nil, false_or, or_false] at hs
  rcases h2 with ⟨rfl, -⟩ | ⟨-, y, rfl, h, -⟩
  · simp at hs
  · simp only [List.mem_singleton, Kind.imm.injEq] at hs
    subst hs
    split at h
    · exact moderate_unsigned hz2 h.1 h.2
    · exact moderate_signed hz hz2 h.1 h.2

theorem accepts_imm {e : Env} (he : e.pc < 2 ^ 62) {v : BitVec 64} {o : Operand} {ks : List Kind} {k : Kind} {b : BitVec 64}
    {r : BitVec 32} (hf : o.float = false) (hn : o.narrow = true) (h : Accepts e v o ks k b r) {x : Int} (hs : .imm x ∈ ks) : Moderate x := by
  induction o generalizing v ks k b with
  | flag | po | optText => exact absurd hs (optWord_imm h)
  | dotTable | immFormat | selector => exact absurd hs (modifier_imm h)
  | fimm | dimm20 | himm => simp [Operand.float] at hf
  | memAddress =>
    simp only [Operand.narrow, Bool.and_eq_true, decide_eq_true_eq] at hn
    exact memory_imm hn.1 hn.2 h hs
  | uint m a =>
    obtain ⟨-, y, rfl, h, -⟩ := h
    simp only [Operand.narrow, decide_eq_true_eq] at hn
    simp only [List.mem_singleton, Kind.imm.injEq] at hs
    unfold Moderate
    omega
  | sint w a =>
    obtain ⟨-, y, rfl, h1, h2, -⟩ := h
    simp only [Operand.narrow, Bool.and_eq_true, decide_eq_true_eq] at hn
    simp only [List.mem_singleton, Kind.imm.injEq] at hs
    subst hs
    exact moderate_signed hn.1 hn.2 h1 h2
  | abs a inner ih =>
    rcases h with ⟨ks1, b1, rfl, -, h⟩ | ⟨-, h⟩
    · exact ih hf hn h (by simpa using hs)
    · exact ih hf hn h hs
  | gpr =>
    obtain ⟨n, rest, rfl, -, h⟩ := h
    exact absurd (by simpa using hs) (reuse_imm (v := x) h)
  | mirrorGpr =>
    obtain ⟨-, n, rest, rfl, -, h⟩ := h
    exact absurd (by simpa using hs) (reuse_imm (v := x) h)
  | patchAttr =>
    obtain ⟨n, rest, plus, y, rfl, h1, h2, h3, h4, -⟩ := h
    have := reuse_imm (v := x) h2
    have hx : x = y := by
      rcases h1 with rfl | rfl <;> simp [this] at hs <;> exact hs
    subst hx
    exact ⟨by omega, by omega⟩
  | physAttr =>
    obtain ⟨n, rest, rfl, h, -⟩ := h
    exact absurd (by simpa using hs) (reuse_imm (v := x) h)
  | ldcAddress =>
    obtain ⟨y, rest, b1, rfl, hy, -, h⟩ := h
    simp only [List.mem_cons, reduceCtorEq, false_or, Kind.imm.injEq] at hs
    rcases hs with rfl | hs
    · exact ⟨by omega, by omega⟩
    · exact memory_imm (by decide) (by decide) h hs
  | label =>
    obtain ⟨-, target, ⟨s', a, rfl, h, -⟩ | rfl, h1, h2, -⟩ := h
    · simp at hs
    · simp only [List.mem_singleton, Kind.imm.injEq] at hs
      subst hs
      exact ⟨by omega, by omega⟩
  | f2fRounding =>
    unfold Accepts at h
    split at h
    · obtain ⟨-, ⟨k, s', y, rfl, hm, rfl, -⟩ | ⟨rfl, -⟩⟩ := h <;> simp at hs
    · exact absurd hs (modifier_imm h)
  | zero | cbuf | imm20 | immAttr | uimmExtended =>
    unfold Accepts at h
    unfold Moderate
    grind
  | srcFormat | s2r | ldgSize | intFormat | plainTable | texType | ccTests | bop | texsSwizzle | texsMode | atomicSize =>
    have hE := @Entry.imm
    unfold Accepts at h
    exfalso
    grind
  | _ =>
    unfold Accepts at h
    exfalso
    grind

/-- The mnemonics that take floating point values. -/
def floatMnemonics : List Str :=
  [c!"DADD", c!"DFMA", c!"DMNMX", c!"DMUL", c!"DSET", c!"DSETP", c!"FADD", c!"FADD32I", c!"FFMA", c!"FFMA32I", c!"FMNMX", c!"FMUL",
   c!"FMUL32I", c!"FSET", c!"FSETP", c!"F2F", c!"HADD2", c!"HADD2_32I", c!"HFMA2", c!"HFMA2_32I", c!"HMUL2", c!"HMUL2_32I", c!"HSET2",
   c!"HSETP2", c!"FCMP", c!"RRO"]

theorem float_rows : (insnTable.all fun row => row.operands.all (fun o => o.narrow && !o.float) ||
    (floatMnemonics.contains row.mnemonic && row.operands.all (·.narrow))) = true := by
  decide +kernel

theorem sequence_imm {e : Env} (he : e.pc < 2 ^ 62) {os : List Operand} (hos : ∀ o ∈ os, o.float = false ∧ o.narrow = true) {v v' : BitVec 64}
    {ks : List Kind} {k : Kind} {r : BitVec 32} (h : Sequence e os v ks k v' r) {x : Int} (hx : .imm x ∈ ks) : Moderate x := by
  induction h with
  | nil => simp at hx
  | cons h _ ih =>
    rcases List.mem_append.1 hx with hx | hx
    · exact accepts_imm he (hos _ (by simp)).1 (hos _ (by simp)).2 h hx
    · exact ih (fun o ho => hos o (by simp [ho])) hx

theorem annots_imm {as : List Annot} {ks : List Kind} (h : AnnotsText as ks) {x : Int} (hx : .imm x ∈ ks) : Moderate x := by
  induction h with
  | nil => simp at hx
  | cons h _ _ ih =>
    rcases List.mem_append.1 hx with hx | hx
    · unfold Moderate
      cases h <;> simp at hx <;> omega
    · exact ih hx

theorem instr_imm {e : Env} (he : e.pc < 2 ^ 62) {ks : List Kind} {op : Op} (h : InstrText e ks op) (hm : ∀ m ∈ floatMnemonics, .ident m ∉ ks)
    {x : Int} (hx : .imm x ∈ ks) : Moderate x := by
  cases h with | @mk g row ks op pre post hsplit h hp
  have hrow : row ∈ insnTable := by rw [hsplit]; simp
  have hf := List.all_eq_true.1 float_rows row hrow
  simp only [Bool.or_eq_true, Bool.and_eq_true, List.all_eq_true, List.contains_iff_mem] at hf
  rcases hf with hf | ⟨hf, -⟩
  · cases h with | @mk ks ks' v r as _ ho ha
    simp only [List.mem_append, List.mem_cons, reduceCtorEq, List.not_mem_nil, or_false, false_or] at hx
    rcases hx with hx | hx | hx
    · rcases g with - | ⟨p, n⟩ <;> simp [guardTokens] at hx
    · exact sequence_imm he (fun o ho => ⟨by simpa using (hf o ho).2, (hf o ho).1⟩) ho hx
    · exact annots_imm ha hx
  · exact absurd (by simp) (hm _ hf)

end Nxas
