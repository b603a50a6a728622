import Verif.Lemmas.Drop
import Verif.Lemmas.Arrange
import Verif.Props.Locality
import Verif.Spec.Strip
/-
Sources without reuse flags (for C114).
-/

namespace Nxas

open Spec

/-! ### Operands -/

theorem unmarked_append (a b : List Kind) : unmarked (a ++ b) = unmarked a ++ unmarked b := List.filter_append ..

theorem unmarked_cons {x : Kind} (h : x ≠ again) (l : List Kind) : unmarked (x :: l) = x :: unmarked l := by
  unfold unmarked
  rw [List.filter_cons, if_pos (by simpa using h)]

theorem unmarked_self {l : List Kind} (h : again ∉ l) : unmarked l = l := by
  induction l with
  | nil => rfl
  | cons x l ih =>
    rw [List.mem_cons, not_or] at h
    rw [unmarked_cons (fun e => h.1 e.symm), ih h.2]

theorem unmarked_head {l : List Kind} (h : l.head? ≠ some again) : (unmarked l).head? = l.head? := by
  cases l with
  | nil => rfl
  | cons x l => rw [unmarked_cons (by simpa using h)]; rfl

theorem reuse_unmarked {a : Nat} {ks : List Kind} {k : Kind} {r : BitVec 32} (h : reuse a ks k r) : unmarked ks = [] := by
  rcases h with ⟨rfl, -⟩ | ⟨rfl, -⟩ <;> decide

/-- `.reuse` is read by the operand as a mark of a register only. -/
def Operand.strippable : Operand → Bool
  | .gpr _ | .mirrorGpr _ | .memAddress .. | .patchAttr | .physAttr | .ldcAddress | .label => true
  | .abs _ o => o.strippable
  | o => (Nxas.shapes o).all (·.all Pat.fresh)

theorem table_strippable : (insnTable.all fun row => row.operands.all Operand.strippable) = true := by decide +kernel

theorem fits_fresh : ∀ {p : List Pat} {ks : List Kind}, fitsAll p ks → p.all Pat.fresh = true → again ∉ ks
  | [], [], _, _ => by simp
  | p :: s, k :: ks, h, hp => by
    rw [List.all_cons, Bool.and_eq_true] at hp
    rw [List.mem_cons, not_or]
    refine ⟨?_, fits_fresh h.2 hp.2⟩
    rintro rfl
    have h1 := h.1
    cases p with
    | tok a =>
      obtain ⟨rfl, -⟩ := h1
      simp [Pat.fresh] at hp
    | word => simp [Pat.fresh] at hp
    | pred => obtain ⟨_, _, h1⟩ := h1; cases h1
    | imm | out => obtain ⟨_, h1, -⟩ := h1; cases h1
    | _ => obtain ⟨_, h1⟩ := h1; cases h1

theorem memory_strip {i : Bool} {a s n : Nat} {ks : List Kind} {k : Kind} {b : BitVec 64} {r : BitVec 32} (h : memory i a s n ks k b r) :
    memory i a s n (unmarked ks) k b 0 := by
  obtain ⟨m, base, off, rfl, h1, h2⟩ := h
  have hoff : off.headD .rbracket ≠ again ∧ unmarked off = off := by
    rcases h2 with ⟨rfl, -⟩ | ⟨-, y, rfl, -⟩
    · exact ⟨by simp, rfl⟩
    · exact ⟨by simp, unmarked_self (by simp)⟩
  have hb : unmarked [.rbracket] = [.rbracket] := by decide
  rw [unmarked_cons (by simp), unmarked_append, unmarked_append, hoff.2, hb]
  rcases h1 with ⟨rest, rfl, h1⟩ | ⟨rfl, rfl, rfl⟩
  · rw [unmarked_cons (by simp), reuse_unmarked h1]
    exact ⟨m, [.reg m], off, rfl, .inl ⟨[], rfl, .inr ⟨rfl, hoff.1, rfl⟩⟩, h2⟩
  · exact ⟨255, [], off, rfl, .inr ⟨rfl, rfl, rfl⟩, h2⟩

theorem accepts_strip {o : Operand} (ho : o.strippable = true) {e : Env} (he : e.label c!".reuse" = none) {v b : BitVec 64} {ks : List Kind} {k : Kind}
    {r : BitVec 32} (h : Accepts e v o ks k b r) (hk : k ≠ again) : ks.head? ≠ some again ∧ Accepts e v o (unmarked ks) k b 0 := by
  have same {o : Operand} {v b : BitVec 64} {ks : List Kind} {k : Kind} (h : Accepts e v o ks k b r) (hr : r = 0)
      (ho : (shapes o).all (·.all Pat.fresh) = true) : ks.head? ≠ some again ∧ Accepts e v o (unmarked ks) k b 0 := by
    subst hr
    obtain ⟨p, hp, hf⟩ := shapes_of h
    have hn := fits_fresh hf (List.all_eq_true.1 ho p hp)
    rw [unmarked_self hn]
    exact ⟨fun hh => hn (List.mem_of_mem_head? hh), h⟩
  induction o generalizing v ks k b with
  | gpr a =>
    obtain ⟨n, rest, rfl, h1, h⟩ := h
    rw [unmarked_cons (by simp), reuse_unmarked h]
    exact ⟨by simp, n, [], rfl, h1, .inr ⟨rfl, hk, rfl⟩⟩
  | mirrorGpr a =>
    obtain ⟨h0, n, rest, rfl, h1, h⟩ := h
    rw [unmarked_cons (by simp), reuse_unmarked h]
    exact ⟨by simp, h0, n, [], rfl, h1, .inr ⟨rfl, hk, rfl⟩⟩
  | memAddress i a s n =>
    refine ⟨?_, memory_strip h⟩
    obtain ⟨m, base, off, rfl, -⟩ := h
    simp
  | patchAttr =>
    obtain ⟨n, rest, plus, y, rfl, h1, h, h2⟩ := h
    have hp : unmarked (plus ++ [.imm y, .rbracket]) = plus ++ [.imm y, .rbracket] := unmarked_self (by rcases h1 with rfl | rfl <;> simp)
    rw [unmarked_cons (by decide), unmarked_cons (by simp), unmarked_cons (by simp), unmarked_append, reuse_unmarked h, hp]
    refine ⟨by simp, n, [], plus, y, rfl, h1, .inr ⟨rfl, ?_, rfl⟩, h2⟩
    rcases h1 with rfl | rfl <;> simp
  | physAttr =>
    obtain ⟨n, rest, rfl, h, h2⟩ := h
    have hp : unmarked [.rbracket] = [.rbracket] := by decide
    rw [unmarked_cons (by decide), unmarked_cons (by simp), unmarked_cons (by simp), unmarked_append, reuse_unmarked h, hp]
    exact ⟨by simp, n, [], rfl, .inr ⟨rfl, by simp, rfl⟩, h2⟩
  | ldcAddress =>
    obtain ⟨x, rest, b1, rfl, h1, h2, h⟩ := h
    rw [unmarked_cons (by decide), unmarked_cons (by simp), unmarked_cons (by simp), unmarked_cons (by simp)]
    exact ⟨by simp, x, _, b1, rfl, h1, h2, memory_strip h⟩
  | label =>
    obtain ⟨rfl, t, h1, h2⟩ := h
    have : again ∉ ks := by
      rcases h1 with ⟨s, a, rfl, hs, -⟩ | rfl
      · simp only [List.mem_singleton, Kind.ident.injEq]
        rintro rfl
        rw [he] at hs
        cases hs
      · simp
    rw [unmarked_self this]
    exact ⟨fun hh => this (List.mem_of_mem_head? hh), rfl, t, h1, h2⟩
  | abs a inner ih =>
    rcases h with ⟨ks1, b1, rfl, h2, h⟩ | ⟨h1, h⟩
    · have hp : unmarked [.vbar] = [.vbar] := by decide
      rw [unmarked_cons (by simp), unmarked_append, hp]
      exact ⟨by simp, .inl ⟨_, b1, rfl, h2, (ih ho h (by simp)).2⟩⟩
    · obtain ⟨hh, h3⟩ := ih ho h hk
      refine ⟨hh, .inr ⟨?_, h3⟩⟩
      rwa [List.headD_eq_head?_getD, unmarked_head hh, ← List.headD_eq_head?_getD]
  | f2fRounding =>
    have hr : r = 0 := by
      rw [Accepts] at h
      split at h
      · exact h.1
      · exact h.1
    exact same h hr ho
  | _ => exact same h h.1 ho

theorem sequence_strip {os : List Operand} (ho : ∀ o ∈ os, o.strippable = true) {e : Env} (he : e.label c!".reuse" = none) {v v' : BitVec 64} {ks : List Kind}
    {k : Kind} {r : BitVec 32} (h : Sequence e os v ks k v' r) (hk : k ≠ again) : ks.head? ≠ some again ∧ Sequence e os v (unmarked ks) k v' 0 := by
  induction h with
  | nil => exact ⟨by simp, .nil⟩
  | @cons o os v b v' ks ks' k r r' h hs ih =>
    obtain ⟨h0, h1⟩ := ih (fun o h => ho o (by simp [h])) hk
    have hnext : ks'.headD k ≠ again := by
      cases ks' with
      | nil => exact hk
      | cons x xs => simpa using h0
    have hsame : (unmarked ks').headD k = ks'.headD k := by rw [List.headD_eq_head?_getD, unmarked_head h0, ← List.headD_eq_head?_getD]
    obtain ⟨h2, h3⟩ := accepts_strip (ho o (by simp)) he h hnext
    refine ⟨?_, ?_⟩
    · cases ks with
      | nil => exact h0
      | cons x xs => simpa using h2
    · rw [unmarked_append, show (0 : BitVec 32) = 0 ||| 0 by rfl]
      exact .cons (by rwa [hsame]) h1

/-! ### Instructions -/

/-- The instruction without reuse flags. -/
def Op.unflagged (op : Op) : Op := { op with reuse := 0 }

theorem mnemonic_fresh : (insnTable.all fun row => row.mnemonic != c!".reuse") = true := by decide +kernel

theorem annots_fresh {as : List Annot} {ks : List Kind} (h : AnnotsText as ks) : again ∉ ks := by
  induction h with
  | nil => simp
  | cons h _ _ ih => cases h <;> simpa using ih

theorem instr_strip {e : Env} (he : e.label c!".reuse" = none) {ks : List Kind} {op : Op} (h : InstrText e ks op) : InstrText e (unmarked ks) op.unflagged := by
  obtain ⟨g, row, hrow, ks, rfl, hr⟩ := C70_grammar.1 h
  clear h
  cases hr with | @mk ks ks' v r as hg ho ha
  obtain ⟨-, h1⟩ := sequence_strip (fun o h => List.all_eq_true.1 (List.all_eq_true.1 table_strippable row hrow) o h) he ho
    (by rcases annots_close ha with h | h <;> rw [h] <;> simp)
  have hm : Kind.ident row.mnemonic ≠ again := by
    have := List.all_eq_true.1 mnemonic_fresh row hrow
    simpa using this
  have hgt : unmarked (guardTokens g) = guardTokens g := unmarked_self (by rcases g with - | ⟨p, n⟩ <;> simp [guardTokens])
  have hsc : unmarked [.semicolon] = [.semicolon] := by decide
  rw [unmarked_append, unmarked_cons hm, unmarked_append, unmarked_append, hgt, hsc, unmarked_self (annots_fresh ha)]
  exact C70_grammar.2 ⟨g, row, hrow, _, rfl, .mk hg h1 ha⟩

theorem codes_strip {f : Str → Option Nat} (hf : f c!".reuse" = none) {i : Nat} {us : List (List Kind)} {ops : List Op} (h : Codes f i us ops) :
    Codes f i (us.map unmarked) (ops.map Op.unflagged) ∧ ∀ x ∈ ops, x.reuse.toNat < 8 ∧ x.sched.toNat < 2 ^ 17 := by
  induction h with
  | nil => exact ⟨.nil, by simp⟩
  | cons h _ ih =>
    refine ⟨.cons (instr_strip hf h) ih.1, fun x hx => ?_⟩
    rcases List.mem_cons.1 hx with rfl | hx
    · exact instr_small h
    · exact ih.2 x hx

/-- A label cannot have this name. -/
theorem no_reuse {t : Str} {f : Str → Option Nat} (h : IsLabelMap t f) : f c!".reuse" = none := by
  cases hr : f c!".reuse" with
  | none => rfl
  | some a =>
    obtain ⟨⟨c, cs, h1, h2⟩, -⟩ := IsLabelMap.name h hr
    cases h1
    exact absurd h2 (by unfold letter; decide)

/-! ### Words -/

theorem flagBits_bit : ∀ p < 64, flagBits.getLsbD p = (decide (17 ≤ p ∧ p < 21) || decide (38 ≤ p ∧ p < 42) || decide (59 ≤ p ∧ p < 63)) := by decide

/-- The flags are in the upper bits of a slot. -/
theorem slot_unflagged {o : Option Op} (h : ∀ op, o = some op → op.reuse.toNat < 8 ∧ op.sched.toNat < 2 ^ 17) (i : Nat) :
    (slot (o.map Op.unflagged)).testBit i = ((slot o).testBit i && decide (i < 17)) := by
  cases o with
  | none =>
    by_cases hi : i < 17
    · simp [hi]
    · have : (slot none).testBit i = false := Nat.testBit_lt_two_pow (Nat.lt_of_lt_of_le (by decide : slot none < 2 ^ 17) (Nat.pow_le_pow_right (by decide) (by omega)))
      simp [this]
  | some op =>
    have := (h op rfl).2
    rw [Option.map_some, slot_bit this, slot_bit (show op.unflagged.sched.toNat < 2 ^ 17 from this)]
    by_cases hi : i < 17
    · simp [hi, Op.unflagged]
    · simp [hi, Op.unflagged]

theorem control_unflagged {a b c : Option Op} (ha : ∀ op, a = some op → op.reuse.toNat < 8 ∧ op.sched.toNat < 2 ^ 17)
    (hb : ∀ op, b = some op → op.reuse.toNat < 8 ∧ op.sched.toNat < 2 ^ 17) (hc : ∀ op, c = some op → op.reuse.toNat < 8 ∧ op.sched.toNat < 2 ^ 17) :
    control (a.map Op.unflagged) (b.map Op.unflagged) (c.map Op.unflagged) = control a b c &&& ~~~flagBits := by
  have small {o : Option Op} (h : ∀ op, o = some op → op.reuse.toNat < 8 ∧ op.sched.toNat < 2 ^ 17) : slot (o.map Op.unflagged) < 2 ^ 21 := by
    refine slot_lt fun op ho => ?_
    obtain ⟨op', h1, rfl⟩ := Option.map_eq_some_iff.1 ho
    exact ⟨by simp [Op.unflagged], (h op' h1).2⟩
  have big {o : Option Op} (h : ∀ op, o = some op → op.reuse.toNat < 8 ∧ op.sched.toNat < 2 ^ 17) {i : Nat} (hi : 20 ≤ i) : (slot o).testBit i = false := by
    refine Nat.testBit_lt_two_pow (Nat.lt_of_lt_of_le (m := 2 ^ 20) ?_ (Nat.pow_le_pow_right (by decide) hi))
    cases o with
    | none => decide
    | some op =>
      have := h op rfl
      unfold slot
      dsimp only
      omega
  apply BitVec.eq_of_getLsbD_eq
  intro p hp
  rw [BitVec.getLsbD_and, BitVec.getLsbD_not, flagBits_bit p hp, control_bit (slot_lt ha) (slot_lt hb) (slot_lt hc), control_bit (small ha) (small hb) (small hc)]
  by_cases h1 : p < 21
  · rw [if_pos h1, if_pos h1, slot_unflagged ha]
    congr 1
    rw [Bool.eq_iff_iff]
    simp only [decide_eq_true_eq, Bool.and_eq_true, Bool.not_eq_true', Bool.or_eq_false_iff, decide_eq_false_iff_not]
    omega
  · rw [if_neg h1, if_neg h1]
    by_cases h2 : p < 42
    · rw [if_pos h2, if_pos h2, slot_unflagged hb]
      congr 1
      rw [Bool.eq_iff_iff]
      simp only [decide_eq_true_eq, Bool.and_eq_true, Bool.not_eq_true', Bool.or_eq_false_iff, decide_eq_false_iff_not]
      omega
    · rw [if_neg h2, if_neg h2, slot_unflagged hc]
      by_cases h4 : p = 63
      · rw [h4, big hc (by decide)]; simp
      · congr 1
        rw [Bool.eq_iff_iff]
        simp only [decide_eq_true_eq, Bool.and_eq_true, Bool.not_eq_true', Bool.or_eq_false_iff, decide_eq_false_iff_not]
        omega

theorem groups_unflagged : ∀ {ops : List Op}, (∀ x ∈ ops, x.reuse.toNat < 8 ∧ x.sched.toNat < 2 ^ 17) → ∀ j : Nat,
    (groups (ops.map Op.unflagged))[j]? = (groups ops)[j]?.map fun w => if j % 4 = 0 then w &&& ~~~flagBits else w
  | [], _, j => by simp [groups]
  | [a], h, j => by
    have := control_unflagged (a := some a) (b := none) (c := none) (by simpa using h) (by simp) (by simp)
    simp only [Option.map_some, Option.map_none] at this
    rcases j with - | - | - | - | j
    · simp [groups, this]
    all_goals simp [groups, Op.unflagged]
  | [a, b], h, j => by
    have := control_unflagged (a := some a) (b := some b) (c := none) (by simpa using h a (by simp)) (by simpa using h b (by simp)) (by simp)
    simp only [Option.map_some, Option.map_none] at this
    rcases j with - | - | - | - | j
    · simp [groups, this]
    all_goals simp [groups, Op.unflagged]
  | a :: b :: c :: rest, h, j => by
    have := control_unflagged (a := some a) (b := some b) (c := some c) (by simpa using h a (by simp)) (by simpa using h b (by simp)) (by simpa using h c (by simp))
    simp only [Option.map_some] at this
    rcases j with - | - | - | - | j
    · simp [groups, this]
    iterate 3 · simp [groups, Op.unflagged]
    · have ih := groups_unflagged (ops := rest) (fun x hx => h x (by simp [hx])) j
      simp only [List.map_cons, groups, List.getElem?_cons_succ, ih]
      congr 1
      funext w
      rw [show j + 1 + 1 + 1 + 1 = j + 4 by rfl, Nat.add_mod_right]

theorem unflagged_container {C A A' : List (BitVec 64)} (hC : C.length = 32)
    (hA : ∀ j : Nat, A'[j]? = A[j]?.map fun w => if j % 4 = 0 then w &&& ~~~flagBits else w) (n : Nat) :
    unflagged 32 (C ++ A ++ List.replicate n 0) = C ++ A' ++ List.replicate n 0 := by
  unfold unflagged
  rw [List.mapIdx_append, List.mapIdx_append]
  congr 1
  · congr 1
    · apply List.ext_getElem?
      intro j
      rw [List.getElem?_mapIdx]
      by_cases h : j < 32
      · simp [show ¬ 32 ≤ j by omega]
      · rw [List.getElem?_eq_none (by omega)]
        rfl
    · apply List.ext_getElem?
      intro j
      rw [List.getElem?_mapIdx, hA, hC]
      congr 1
      funext w
      exact if_congr (by omega) rfl rfl
  · apply List.ext_getElem?
    intro j
    rw [List.getElem?_mapIdx, List.getElem?_replicate]
    by_cases h : j < n <;> simp [h]

end Nxas
