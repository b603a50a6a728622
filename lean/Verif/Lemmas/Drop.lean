import Verif.Lemmas.Shift
/-
Instructions with other annotations and guards and with less reuse flags.
-/

namespace Nxas

open Spec

/-! ### Reuse flags -/

theorem reuse_single {a : Nat} {ks : List Kind} {k : Kind} {r : BitVec 32} (h : reuse a ks k r) (q : BitVec 32) : r &&& q = r ∨ r &&& q = 0 := by
  have key (j : Nat) (hr : ∀ i, r.getLsbD i = true → i = j) : r &&& q = r ∨ r &&& q = 0 := by
    cases hq : q.getLsbD j with
    | true =>
      left
      apply BitVec.eq_of_getLsbD_eq
      intro i hi
      rw [BitVec.getLsbD_and]
      cases hri : r.getLsbD i with
      | false => rfl
      | true => rw [hr i hri, hq]; rfl
    | false =>
      right
      apply BitVec.eq_of_getLsbD_eq
      intro i hi
      rw [BitVec.getLsbD_and]
      cases hri : r.getLsbD i with
      | false => simp
      | true => rw [hr i hri, hq]; simp
  have bits (j : Nat) (hj : j < 32) : ∀ i, (BitVec.twoPow 32 j).getLsbD i = true → i = j := by
    intro i h
    rw [BitVec.getLsbD_twoPow] at h
    simp at h
    omega
  rcases h with ⟨-, h⟩ | ⟨-, -, rfl⟩
  · unfold reuseFlag at h
    split at h
    · cases h; exact key 0 (bits 0 (by decide))
    · cases h; exact key 1 (bits 1 (by decide))
    · cases h; exact key 2 (bits 2 (by decide))
    · simp at h
  · exact .inr (by simp)

/-- The token that marks a register. -/
abbrev again : Kind := .ident c!".reuse"

theorem mem_drop (a b c : List Kind) : ∀ x ∈ a ++ c, x ∈ a ++ (b ++ c) := by
  intro x hx
  rw [List.mem_append] at hx ⊢
  rw [List.mem_append]
  tauto

theorem memory_drop {i : Bool} {a s n : Nat} {ks : List Kind} {k : Kind} {b : BitVec 64} {r : BitVec 32} (h : memory i a s n ks k b r) :
    (∀ q : BitVec 32, r &&& q = r ∨ r &&& q = 0) ∧ ∃ ks', memory i a s n ks' k b 0 ∧ (∀ x ∈ ks', x ∈ ks) ∧ ks'.head? = ks.head? := by
  obtain ⟨m, base, off, rfl, h1, h2⟩ := h
  have hoff : off.headD .rbracket ≠ again := by
    rcases h2 with ⟨rfl, -⟩ | ⟨-, y, rfl, -⟩ <;> simp
  rcases h1 with ⟨rest, rfl, h1⟩ | ⟨rfl, rfl, rfl⟩
  · refine ⟨reuse_single h1, .lbracket :: ([.reg m] ++ (off ++ [.rbracket])), ⟨m, [.reg m], off, rfl, .inl ⟨[], rfl, .inr ⟨rfl, hoff, rfl⟩⟩, h2⟩, ?_, rfl⟩
    intro x hx
    simp only [List.mem_cons, List.mem_append, List.not_mem_nil, or_false] at hx ⊢
    tauto
  · exact ⟨fun q => .inr (by simp), _, ⟨255, [], off, rfl, .inr ⟨rfl, rfl, rfl⟩, h2⟩, fun x hx => hx, rfl⟩

/-- An operand can be written without `.reuse`. -/
theorem accepts_drop {o : Operand} {e : Env} {v b : BitVec 64} {ks : List Kind} {k : Kind} {r : BitVec 32} (h : Accepts e v o ks k b r) (hk : k ≠ again) :
    (∀ q : BitVec 32, r &&& q = r ∨ r &&& q = 0) ∧ ∃ ks', Accepts e v o ks' k b 0 ∧ (∀ x ∈ ks', x ∈ ks) ∧ ks'.head? = ks.head? := by
  have zero : ∀ q : BitVec 32, 0 &&& q = 0 ∨ 0 &&& q = 0 := fun q => .inr (by simp)
  induction o generalizing v ks k b with
  | gpr a =>
    obtain ⟨n, rest, rfl, h1, h⟩ := h
    exact ⟨reuse_single h, [.reg n], ⟨n, [], rfl, h1, .inr ⟨rfl, hk, rfl⟩⟩, by simp, rfl⟩
  | mirrorGpr a =>
    obtain ⟨h0, n, rest, rfl, h1, h⟩ := h
    exact ⟨reuse_single h, [.reg n], ⟨h0, n, [], rfl, h1, .inr ⟨rfl, hk, rfl⟩⟩, by simp, rfl⟩
  | memAddress i a s n => exact memory_drop h
  | patchAttr =>
    obtain ⟨n, rest, plus, y, rfl, h1, h, h2⟩ := h
    refine ⟨reuse_single h, _, ⟨n, [], plus, y, rfl, h1, .inr ⟨rfl, ?_, rfl⟩, h2⟩, ?_, rfl⟩
    · rcases h1 with rfl | rfl <;> simp
    · exact fun x hx => mem_drop [_, _, _] rest _ x hx
  | physAttr =>
    obtain ⟨n, rest, rfl, h, h2⟩ := h
    exact ⟨reuse_single h, _, ⟨n, [], rfl, .inr ⟨rfl, by simp, rfl⟩, h2⟩, fun x hx => mem_drop [_, _, _] rest _ x hx, rfl⟩
  | ldcAddress =>
    obtain ⟨x, rest, b1, rfl, h1, h2, h⟩ := h
    obtain ⟨h3, ks', h4, h5, -⟩ := memory_drop h
    refine ⟨h3, _, ⟨x, ks', b1, rfl, h1, h2, h4⟩, ?_, rfl⟩
    intro y hy
    simp only [List.mem_cons] at hy ⊢
    rcases hy with hy | hy | hy | hy | hy
    · exact .inl hy
    · exact .inr (.inl hy)
    · exact .inr (.inr (.inl hy))
    · exact .inr (.inr (.inr (.inl hy)))
    · exact .inr (.inr (.inr (.inr (h5 y hy))))
  | abs a inner ih =>
    rcases h with ⟨ks1, b1, rfl, h2, h⟩ | ⟨h1, h⟩
    · obtain ⟨h3, ks', h4, h5, -⟩ := ih h (by simp)
      refine ⟨h3, _, .inl ⟨ks', b1, rfl, h2, h4⟩, ?_, rfl⟩
      intro y hy
      simp only [List.mem_cons, List.mem_append, List.not_mem_nil, or_false] at hy ⊢
      rcases hy with hy | hy | hy
      · exact .inl hy
      · exact .inr (.inl (h5 y hy))
      · exact .inr (.inr hy)
    · obtain ⟨h3, ks', h4, h5, h6⟩ := ih h hk
      refine ⟨h3, ks', .inr ⟨?_, h4⟩, h5, h6⟩
      rwa [List.headD_eq_head?_getD, h6, ← List.headD_eq_head?_getD]
  | f2fRounding =>
    have hr : r = 0 := by
      rw [Accepts] at h
      split at h
      · exact h.1
      · exact h.1
    subst hr
    exact ⟨zero, ks, h, fun x hx => hx, rfl⟩
  | _ =>
    have hr : r = 0 := h.1
    subst hr
    exact ⟨zero, ks, h, fun x hx => hx, rfl⟩

/-- The pattern cannot be the mark of a register. -/
def Pat.fresh : Pat → Bool
  | .word => false
  | .tok k => k != again
  | _ => true

theorem table_fresh : (insnTable.all fun row => row.operands.all fun o => o == .label || (shapes o).all fun p => match p with
    | [] => true
    | p :: _ => p.fresh) = true := by decide +kernel

theorem accepts_fresh {row : Insn} (hr : row ∈ insnTable) {o : Operand} (ho : o ∈ row.operands) {pc : Nat} {v b : BitVec 64} {ks : List Kind} {k : Kind}
    {r : BitVec 32} (h : Accepts ⟨fun _ => none, pc⟩ v o ks k b r) : ks.head? ≠ some again := by
  have ht := List.all_eq_true.1 (List.all_eq_true.1 table_fresh row hr) o ho
  rw [Bool.or_eq_true] at ht
  rcases ht with ht | ht
  · obtain rfl : o = .label := by simpa using ht
    obtain ⟨-, t, ⟨s, a, -, h1, -⟩ | rfl, -⟩ := h
    · simp at h1
    · simp
  · obtain ⟨p, hp, hf⟩ := shapes_of h
    have hq := List.all_eq_true.1 ht p hp
    cases ks with
    | nil => simp
    | cons x ks =>
      cases p with
      | nil => exact hf.elim
      | cons q p =>
        have h1 := hf.1
        simp only at hq
        simp only [List.head?_cons, ne_eq, Option.some.injEq]
        rintro rfl
        cases q with
        | tok a =>
          obtain ⟨rfl, -⟩ := h1
          simp [Pat.fresh] at hq
        | word => simp [Pat.fresh] at hq
        | pred => obtain ⟨_, _, h1⟩ := h1; cases h1
        | imm | out => obtain ⟨_, h1, -⟩ := h1; cases h1
        | _ => obtain ⟨_, h1⟩ := h1; cases h1

theorem sequence_drop {row : Insn} (hr : row ∈ insnTable) {os : List Operand} (ho : ∀ o ∈ os, o ∈ row.operands) {pc : Nat} {v v' : BitVec 64} {ks : List Kind}
    {k : Kind} {r : BitVec 32} (h : Sequence ⟨fun _ => none, pc⟩ os v ks k v' r) (hk : k ≠ again) (q : BitVec 32) :
    ks.head? ≠ some again ∧ ∃ ks', Sequence ⟨fun _ => none, pc⟩ os v ks' k v' (r &&& q) ∧ (∀ x ∈ ks', x ∈ ks) ∧ ks'.head? = ks.head? := by
  induction h with
  | nil => exact ⟨by simp, [], by simpa using Sequence.nil, by simp, rfl⟩
  | @cons o os v b v' ks ks' k r r' h hs ih =>
    obtain ⟨h0, ks1, h1, h2, h3⟩ := ih (fun o h => ho o (by simp [h])) hk
    have hnext : ks'.headD k ≠ again := by
      cases ks' with
      | nil => exact hk
      | cons x xs => simpa using h0
    have hsame : ks1.headD k = ks'.headD k := by rw [List.headD_eq_head?_getD, h3, ← List.headD_eq_head?_getD]
    have hhead : (ks ++ ks').head? ≠ some again := by
      cases ks with
      | nil => exact h0
      | cons x xs => simpa using accepts_fresh hr (ho o (by simp)) h
    refine ⟨hhead, ?_⟩
    obtain ⟨h4, ks2, h5, h6, h7⟩ := accepts_drop h hnext
    have hand : (r ||| r') &&& q = (r &&& q) ||| (r' &&& q) := by
      apply BitVec.eq_of_getLsbD_eq
      intro i hi
      simp only [BitVec.getLsbD_and, BitVec.getLsbD_or]
      cases r.getLsbD i <;> simp
    rw [hand]
    rcases h4 q with hq | hq
    · rw [hq]
      refine ⟨ks ++ ks1, .cons (by rwa [hsame]) h1, ?_, by rw [List.head?_append, List.head?_append, h3]⟩
      intro x hx
      rcases List.mem_append.1 hx with hx | hx
      · exact List.mem_append_left _ hx
      · exact List.mem_append_right _ (h2 x hx)
    · rw [hq]
      refine ⟨ks2 ++ ks1, .cons (by rwa [hsame]) h1, ?_, by rw [List.head?_append, List.head?_append, h3, h7]⟩
      intro x hx
      rcases List.mem_append.1 hx with hx | hx
      · exact List.mem_append_left _ (h6 x hx)
      · exact List.mem_append_right _ (h2 x hx)

theorem annots_close {as : List Annot} {ks : List Kind} (h : AnnotsText as ks) : ks.headD .semicolon = .at ∨ ks.headD .semicolon = .semicolon := by
  have := annots_head h
  cases ks with
  | nil => exact .inr rfl
  | cons x xs => exact .inl this

/-- An instruction with some of its reuse flags only. -/
theorem instr_drop {pc : Nat} {ks : List Kind} {op : Op} (h : InstrText ⟨fun _ => none, pc⟩ ks op) (hw : ∀ x ∈ ks, Writable x) (q : BitVec 32) :
    ∃ ks', (∀ x ∈ ks', Writable x) ∧ InstrText ⟨fun _ => none, pc⟩ ks' { op with reuse := op.reuse &&& q } := by
  obtain ⟨g, row, hrow, ks, rfl, hr⟩ := C70_grammar.1 h
  clear h
  cases hr with | @mk ks ks' v r as hg ho ha
  obtain ⟨-, ks1, h1, h2, -⟩ := sequence_drop hrow (fun o h => h) ho (by rcases annots_close ha with h | h <;> rw [h] <;> simp) q
  refine ⟨_, ?_, C70_grammar.2 ⟨g, row, hrow, ks1 ++ ks', rfl, .mk hg h1 ha⟩⟩
  intro x hx
  refine hw x ?_
  simp only [List.mem_append, List.mem_cons, List.not_mem_nil, or_false] at hx ⊢
  rcases hx with hx | hx | (hx | hx) | hx
  · exact .inl hx
  · exact .inr (.inl hx)
  · exact .inr (.inr (.inl (.inl (h2 x hx))))
  · exact .inr (.inr (.inl (.inr hx)))
  · exact .inr (.inr (.inr hx))

/-! ### Annotations -/

/-- An instruction with other annotations. -/
theorem instr_sched {e : Env} {ks : List Kind} {op : Op} (h : InstrText e ks op) (hw : ∀ x ∈ ks, Writable x) {s : Nat} (hs : s < 2 ^ 17)
    (hwb : s / 2 ^ 5 % 8 ≤ 5 ∨ s / 2 ^ 5 % 8 = 7) (hrb : s / 2 ^ 8 % 8 ≤ 5 ∨ s / 2 ^ 8 % 8 = 7) :
    ∃ ks', (∀ x ∈ ks', Writable x) ∧ InstrText e ks' { op with sched := BitVec.ofNat 32 s } := by
  obtain ⟨g, row, hrow, ks, rfl, hr⟩ := C70_grammar.1 h
  clear h
  cases hr with | @mk ks ks' v r as hg ho ha
  obtain ⟨ha1, ha2⟩ := annotsOf_bits hs hwb hrb
  have h1 := RowText.mk hg (sequence_close ho (annots_close ha1) (annots_close ha)) ha1
  rw [ha2] at h1
  refine ⟨_, ?_, C70_grammar.2 ⟨g, row, hrow, _, rfl, h1⟩⟩
  intro x hx
  simp only [List.mem_append, List.mem_cons, List.not_mem_nil, or_false] at hx hw
  rcases hx with hx | hx | (hx | hx) | hx
  · exact hw x (.inl hx)
  · exact hw x (.inr (.inl hx))
  · exact hw x (.inr (.inr (.inl (.inl hx))))
  · exact (annots_fine x hx).1
  · exact hw x (.inr (.inr (.inr hx)))

theorem instr_barriers {e : Env} {ks : List Kind} {op : Op} (h : InstrText e ks op) :
    (op.sched.toNat / 2 ^ 5 % 8 ≤ 5 ∨ op.sched.toNat / 2 ^ 5 % 8 = 7) ∧ (op.sched.toNat / 2 ^ 8 % 8 ≤ 5 ∨ op.sched.toNat / 2 ^ 8 % 8 = 7) := by
  obtain ⟨g, row, hrow, ks, rfl, hr⟩ := C70_grammar.1 h
  clear h
  cases hr with | @mk ks ks' v r as hg ho ha
  obtain ⟨h1, h2, h3⟩ := sched_parts ha
  simp only
  rw [BitVec.toNat_ofNat, Nat.mod_eq_of_lt (a := schedBits as) (lt_trans h1 (by decide))]
  exact ⟨h2, h3⟩

/-! ### Guards -/

/-- The bits of the guard are those of the guard. -/
theorem rowText_bits {e : Env} {row : Insn} (hr : row ∈ insnTable) {g : Option (Nat × Bool)} {ks : List Kind} {op : Op}
    (h : RowText e row g ks op) (hw : ∀ k ∈ ks, Writable k) : op.value.extractLsb' 16 4 = guardBits g := by
  cases h with
  | @mk ks ks' v r as hg0 ho ha =>
    apply BitVec.eq_of_getLsbD_eq
    intro p hp
    rw [BitVec.getLsbD_extractLsb', decide_eq_true hp, Bool.true_and]
    change v.getLsbD (16 + p) = _
    rw [sequence_foot (fun o h => table_grammatical row hr o h) (fun o h => table_regular row hr o h) (fun o h => (table_peeks row hr o h).2) ho
      (fun x hx => hw x (by simp [hx])) (by
        cases ks' with
        | nil => exact trivial
        | cons x xs => exact hw x (by simp)) (by omega) (by
        intro o ho hin
        refine not_inF_of_apart (table_fields _ hr o ho) hin ⟨(16, 4), by simp, by simp; omega⟩)]
    rw [BitVec.getLsbD_or, guardField_bit]
    have : row.opcode.getLsbD (16 + p) = false := by
      cases hb : row.opcode.getLsbD (16 + p) with
      | false => rfl
      | true =>
        obtain ⟨f, hf, h⟩ := (inF_setBits _ _).2 hb
        have := List.all_eq_true.1 (table_guard _ hr) f hf
        simp [Field.apart] at this
        omega
    rw [this]
    simp

/-- An instruction with another guard: any, if it has one other than `PT`, and `PT` or its negation otherwise. -/
theorem instr_guard {e : Env} {ks : List Kind} {op : Op} (h : InstrText e ks op) (hw : ∀ x ∈ ks, Writable x) {g' : Option (Nat × Bool)}
    (hg : op.value.extractLsb' 16 3 ≠ 7 ∨ ∀ p n, g' = some (p, n) → p = 7) (hp : ∀ p n, g' = some (p, n) → p ≤ 7) :
    ∃ ks' op', (∀ x ∈ ks', Writable x) ∧ InstrText e ks' op' ∧ op'.reuse = op.reuse ∧ op'.sched = op.sched ∧
      op'.value.extractLsb' 16 4 = guardBits g' ∧ ∀ p, ¬ (16 ≤ p ∧ p < 20) → op'.value.getLsbD p = op.value.getLsbD p := by
  obtain ⟨g, row, hrow, ks, rfl, hr⟩ := C70_grammar.1 h
  have hfl : row.flags % 2 = 1 → ∀ p n, g' = some (p, n) → p = 7 := by
    intro hf
    rcases hg with hg | hg
    · exfalso
      have hpt : ∀ p n, g = some (p, n) → p = 7 := by
        clear h
        cases hr with | mk h1 ho ha => exact h1 hf
      have h4 := rowText_bits hrow hr (fun k hk => hw k (by simp [hk]))
      have h5 : op.value.extractLsb' 16 3 = (op.value.extractLsb' 16 4).extractLsb' 0 3 := by
        apply BitVec.eq_of_getLsbD_eq
        intro i hi
        simp only [BitVec.getLsbD_extractLsb', Nat.zero_add, hi, decide_true, Bool.true_and]
        rw [decide_eq_true (show i < 4 by omega), Bool.true_and]
      rw [h5, h4] at hg
      cases g with
      | none => exact hg rfl
      | some pn =>
        obtain ⟨p, n⟩ := pn
        obtain rfl := hpt p n rfl
        cases n <;> exact hg rfl
    · exact hg
  obtain ⟨op', h1, h2, h3, h4, h5⟩ := rowText_guard hrow hr (fun k hk => hw k (by simp [hk])) hfl
  refine ⟨_, op', ?_, C70_grammar.2 ⟨g', row, hrow, ks, rfl, h1⟩, h2, h3, h4, h5⟩
  intro x hx
  rcases List.mem_append.1 hx with hx | hx
  · cases g' with
    | none => simp [guardTokens] at hx
    | some pn =>
      obtain ⟨p, n⟩ := pn
      simp only [guardTokens, List.mem_cons, List.not_mem_nil, or_false] at hx
      rcases hx with rfl | rfl
      · trivial
      · exact hp p n rfl
  · exact hw x (List.mem_append_right _ hx)

end Nxas
