import Verif.Lemmas.Decode
/-
Reading the fields of an operand back from the instruction word.
-/

namespace Nxas

open Spec

/-! ### Fields -/

theorem bitsAt_lt (v : BitVec 64) (a w : Nat) : bitsAt v a w < 2 ^ w := Nat.mod_lt _ (Nat.two_pow_pos w)

theorem bitsAt_congr {v v' : BitVec 64} {a w : Nat} (h : ∀ i, a ≤ i → i < a + w → v.getLsbD i = v'.getLsbD i) :
    bitsAt v a w = bitsAt v' a w := by
  apply Nat.eq_of_testBit_eq
  intro i
  rw [bitsAt_testBit, bitsAt_testBit]
  by_cases hi : i < w
  · rw [h (a + i) (by omega) (by omega)]
  · simp [hi]

theorem bitsAt_or (v v' : BitVec 64) (a w : Nat) : bitsAt (v ||| v') a w = bitsAt v a w ||| bitsAt v' a w := by
  apply Nat.eq_of_testBit_eq
  intro i
  rw [Nat.testBit_or, bitsAt_testBit, bitsAt_testBit, bitsAt_testBit, BitVec.getLsbD_or, Bool.and_or_distrib_left]

theorem bitsAt_field {a w n : Nat} (hn : n < 2 ^ w) (ha : a + w ≤ 64) : bitsAt (field a n) a w = n := by
  apply Nat.eq_of_testBit_eq
  intro i
  rw [bitsAt_testBit, field_bit]
  by_cases hi : i < w
  · have : a + i < 64 := by omega
    simp [hi, this]
  · rw [Nat.testBit_lt_two_pow (Nat.lt_of_lt_of_le hn (Nat.pow_le_pow_right (by omega) (by omega : w ≤ i)))]
    simp [hi]

theorem bitsAt_apart {a u n c w : Nat} (hn : n < 2 ^ u) (h : a + u ≤ c ∨ c + w ≤ a) : bitsAt (field a n) c w = 0 := by
  apply Nat.eq_of_testBit_eq
  intro i
  rw [bitsAt_testBit, field_bit, Nat.zero_testBit]
  by_cases hi : i < w
  · by_cases hb : a ≤ c + i
    · rw [Nat.testBit_lt_two_pow (Nat.lt_of_lt_of_le hn (Nat.pow_le_pow_right (by omega) (by omega : u ≤ c + i - a)))]
      simp
    · simp [hb]
  · simp [hi]

theorem bitsAt_zero (a w : Nat) : bitsAt 0 a w = 0 := by simp [bitsAt]

theorem lt_width {x m : Nat} (h : x ≤ m) : x < 2 ^ width m := by
  unfold width
  exact Nat.lt_of_le_of_lt h Nat.lt_log2_self

theorem sfield_lt (w : Nat) (v : Int) : (v % 2 ^ w).toNat < 2 ^ w := by
  have h0 : (0 : Int) < 2 ^ w := Int.pow_pos (by omega)
  have h1 := Int.emod_lt_of_pos v h0
  have h2 := Int.emod_nonneg v (Int.ne_of_gt h0)
  have : ((2 : Nat) ^ w : Int) = (((2 : Nat) ^ w : Nat) : Int) := by rw [Int.natCast_pow]
  have h3 : ((2 ^ w : Nat) : Int) = 2 ^ w := Int.natCast_pow 2 w
  omega

/-- The number that `w` bits denote in two's complement. -/
def signedOf (w n : Nat) : Int := if n < 2 ^ (w - 1) then n else (n : Int) - 2 ^ w

theorem signedOf_emod {w : Nat} {v : Int} (hw : 0 < w) (h1 : -(2 ^ (w - 1)) ≤ v) (h2 : v < 2 ^ (w - 1)) :
    signedOf w (v % 2 ^ w).toNat = v := by
  obtain ⟨u, rfl⟩ : ∃ u, w = u + 1 := ⟨w - 1, by omega⟩
  simp only [Nat.add_sub_cancel] at h1 h2
  unfold signedOf
  rw [Nat.add_sub_cancel]
  have h3 : ((2 ^ u : Nat) : Int) = 2 ^ u := Int.natCast_pow 2 u
  have hp : (2 : Int) ^ (u + 1) = 2 * 2 ^ u := by rw [Int.pow_succ]; omega
  rw [hp]
  have h0 : (0 : Int) < 2 ^ u := Int.pow_pos (by omega)
  obtain ⟨P, hP⟩ : ∃ P : Int, 2 ^ u = P := ⟨_, rfl⟩
  obtain ⟨N, hN⟩ : ∃ N : Nat, 2 ^ u = N := ⟨_, rfl⟩
  rw [hP] at h0 h1 h2 h3
  rw [hN] at h3
  rw [hP, hN]
  rcases Int.lt_or_le v 0 with hv | hv
  · have : v % (2 * P) = v + 2 * P := by
      rw [← Int.add_emod_right, Int.emod_eq_of_lt (by omega) (by omega)]
    rw [this]
    split <;> omega
  · rw [Int.emod_eq_of_lt hv (by omega)]
    split <;> omega

/-! ### Operands with bits of their own -/

/-- Operands that share their bits with no other operand, in whatever row they are. -/
def Operand.isolated : Operand → Bool
  | .uint .. | .sint .. | .label | .mirrorGpr .. | .cbuf | .imm20 | .fimm .. | .dimm20 | .himm .. | .pred ..
  | .invertedPred .. | .memAddress .. | .immAttr | .patchAttr | .physAttr | .ldcAddress | .s2r .. | .plainTable ..
  | .texType .. | .defaultRz .. | .ccTests .. | .comma | .zero | .optText .. => true
  | .abs _ inner => inner.isolated
  | _ => false

/-- The fields are inside the word. -/
def Operand.inside : Operand → Bool
  | .uint m a => a + width m.toNat ≤ 64
  | .sint w a => 0 < w && a + w ≤ 64
  | .gpr a => a + 8 ≤ 64
  | .mirrorGpr a => a + 8 ≤ 64
  | .pred a _ => a + 4 ≤ 64
  | .invertedPred a => a + 3 ≤ 64
  | .memAddress _ a w _ => 16 ≤ a && 0 < w && a + w ≤ 64
  | .himm wide a n => a + (if wide then 16 else 9) ≤ 64 &&
      match n with | some n => n < 64 && a + (if wide then 16 else 9) ≤ n | none => true
  | .plainTable a t => a + width (t.length - 1) ≤ 64
  | .texType a => a + 3 ≤ 64
  | .defaultRz a => a + 8 ≤ 64
  | .flag _ a => a + 1 ≤ 64
  | .neg a => a + 1 ≤ 64
  | .tilde a => a + 1 ≤ 64
  | .bop a => a + 2 ≤ 64
  | .dotTable d a t => a + width (max (t.length - 1) (d.getD 0)) ≤ 64
  | .abs a inner => a + 1 ≤ 64 && inner.inside
  | _ => true

theorem table_alone : ∀ row ∈ insnTable, ∀ j < row.operands.length, ∀ o ∈ row.operands[j]?,
    o.isolated = true → row.alone j = true := by
  decide +kernel

/-- A register. -/
def Operand.isGpr : Operand → Bool
  | .gpr _ => true
  | _ => false

/-- The extended immediate. -/
def Operand.isExtended : Operand → Bool
  | .uimmExtended => true
  | _ => false

/-- General purpose registers have bits of their own everywhere but beside the extended immediate. -/
theorem table_gpr_alone : ∀ row ∈ insnTable, ∀ j < row.operands.length, ∀ o ∈ row.operands[j]?, o.isGpr = true →
    row.operands.all (! ·.isExtended) = true → row.alone j = true := by
  decide +kernel

theorem table_inside : ∀ row ∈ insnTable, ∀ o ∈ row.operands, o.inside = true := by decide +kernel

/-- The `i`-th instruction of the source has an operand `o`, written with the tokens `ks`; `op` is the
    encoded instruction. -/
def HasOperand (dbg : Bool) (code : Str) (i : Nat) (o : Operand) (ks : List Kind) (op : Op) : Prop :=
  ∃ (row : Insn) (args : List (List Kind)) (j : Nat), Instr dbg code i row args op ∧ row.operands[j]? = some o ∧ args[j]? = some ks

/-- Every operand of the row of an accepted instruction is written in the source. -/
theorem Instr.hasOperand {dbg : Bool} {code : Str} {i j : Nat} {row : Insn} {args : List (List Kind)} {op : Op}
    {o : Operand} (h : Instr dbg code i row args op) (hj : row.operands[j]? = some o) :
    ∃ ks, args[j]? = some ks ∧ HasOperand dbg code i o ks op := by
  obtain ⟨ks, h1, -⟩ := h.facts hj
  exact ⟨ks, h1, row, args, j, h, hj, h1⟩

/-- What the word and the reuse flags of an instruction say about one of its operands. -/
structure Decoded (code : Str) (i : Nat) (o : Operand) (ks : List Kind) (op : Op) (e : Env) (v : BitVec 64) (k' : Kind)
    (b : BitVec 64) (r : BitVec 32) : Prop where
  labels : ∃ labels, genLabels (visible code) = .ok labels ∧ e.label = labels.find
  pc : e.pc = addressOf i
  accepts : Accepts e v o ks k' b r
  bits : ∀ a w, (a, w) ∈ o.fields → a + w ≤ 64 → bitsAt op.value a w = bitsAt b a w
  flags : ∀ q, (64 + q, 1) ∈ o.fields → op.reuse.getLsbD q = r.getLsbD q
  proper : ∀ k ∈ ks, k.proper

theorem Instr.mem {dbg : Bool} {code : Str} {i : Nat} {row : Insn} {args : List (List Kind)} {op : Op}
    (h : Instr dbg code i row args op) : row ∈ insnTable := by
  obtain ⟨c, s, e, -, rfl, -⟩ := h
  exact e.inTable

theorem Instr.decoded {dbg : Bool} {code : Str} {i j : Nat} {row : Insn} {args : List (List Kind)} {op : Op}
    {o : Operand} {ks : List Kind} (h : Instr dbg code i row args op) (hj : row.operands[j]? = some o)
    (ha : args[j]? = some ks) (hal : row.alone j = true) : ∃ e v k' b r, Decoded code i o ks op e v k' b r := by
  obtain ⟨ks', h1, ⟨labels, v, k', b, r, hl, hacc, hb, -⟩, hp⟩ := h.facts hj
  obtain rfl : ks = ks' := by simpa [ha] using h1
  refine ⟨_, v, k', b, r, ⟨labels, hl, rfl⟩, rfl, hacc, ?_, ?_, hp⟩
  · intro a w hf haw
    apply bitsAt_congr
    intro p h1 h2
    have := hb p ⟨_, hf, h1, h2⟩ (Insn.sole_of_alone hj hal ⟨_, hf, h1, h2⟩)
    unfold Op.bit at this
    simpa [show p < 64 by omega] using this
  · intro q hf
    have := hb (64 + q) ⟨_, hf, by simp, by simp⟩ (Insn.sole_of_alone hj hal ⟨_, hf, by simp, by simp⟩)
    unfold Op.bit at this
    simpa [show ¬ 64 + q < 64 by omega] using this

theorem HasOperand.decoded {dbg : Bool} {code : Str} {i : Nat} {op : Op} {o : Operand} {ks : List Kind}
    (h : HasOperand dbg code i o ks op) (ho : o.isolated = true) :
    o.inside = true ∧ ∃ e v k' b r, Decoded code i o ks op e v k' b r := by
  obtain ⟨row, args, j, hi, hj, ha⟩ := h
  have hl : j < row.operands.length := (List.getElem?_eq_some_iff.1 hj).1
  exact ⟨table_inside _ hi.mem _ (List.mem_of_getElem? hj),
    hi.decoded hj ha (table_alone _ hi.mem j hl o hj ho)⟩

/-- In every row the extended immediate is the only owner of its bits but bit 39. -/
theorem table_extended : ∀ row ∈ insnTable, ∀ j < row.operands.length, ∀ o ∈ row.operands[j]?, o.isExtended = true →
    ((row.operands.take j ++ row.operands.drop (j + 1)).all fun o' =>
      [(20, 19), (56, 1)].all fun f => o'.fields.all (Field.apart f)) = true := by
  decide +kernel

/-! ### Reuse flags -/

/-- Only registers have reuse flags. -/
def Operand.flagless : Operand → Bool
  | .gpr _ | .mirrorGpr _ | .memAddress .. | .patchAttr | .physAttr | .ldcAddress => true
  | .abs a inner => a < 64 && inner.flagless
  | o => o.fields.all fun f => f.1 + f.2 ≤ 64

theorem table_flagless : ∀ row ∈ insnTable, ∀ o ∈ row.operands, o.flagless = true ∧ o.inside = true := by decide +kernel

/-- No two operands of a row have the same reuse flag. -/
theorem table_flags : ∀ row ∈ insnTable, ∀ j < row.operands.length, ∀ o ∈ row.operands[j]?, ∀ q < 3,
    (o.fields.any fun f => f.1 ≤ 64 + q && 64 + q < f.1 + f.2) = true →
    ((row.operands.take j ++ row.operands.drop (j + 1)).all fun o' => o'.fields.all (Field.apart (64 + q, 1))) = true := by
  decide +kernel

theorem table_flags_bound : ∀ row ∈ insnTable, ∀ o ∈ row.operands, (o.fields.all fun f => f.1 + f.2 ≤ 67) = true := by
  decide +kernel

theorem not_inF_flag {fs : List Field} (h : fs.all (fun f => f.1 + f.2 ≤ 64) = true) (q : Nat) : ¬ inF fs (64 + q) := by
  rintro ⟨f, hf, h1, h2⟩
  have := List.all_eq_true.1 h f hf
  simp only [decide_eq_true_eq] at this
  omega

/-- The position of a flag in the control word. -/
theorem reuse_flag {a : Nat} {rest : List Kind} {k' : Kind} {r : BitVec 32} (h : reuse a rest k' r) {q : Nat}
    (hq : inF (reuseFields a) (64 + q)) : r.getLsbD q = true ↔ .ident c!".reuse" ∈ rest := by
  unfold reuseFields at hq
  rcases h with ⟨rfl, h⟩ | ⟨rfl, -, rfl⟩
  · simp only [List.mem_cons, List.not_mem_nil, or_false, iff_true]
    unfold reuseFlag at h
    split at h <;> simp only [Option.some.injEq, reduceCtorEq] at h
    all_goals
      subst h
      simp only [reduceIte, Nat.reduceEqDiff] at hq
      obtain ⟨f, hf, h1, h2⟩ := hq
      simp only [List.mem_cons, List.not_mem_nil, or_false] at hf
      subst hf
      have hq : q = 0 ∨ q = 1 ∨ q = 2 := by simp only at h1 h2; omega
      rcases hq with rfl | rfl | rfl <;> first | decide | (simp only at h1 h2; omega)
  · simp

theorem reuse_rest {a : Nat} {rest : List Kind} {k' : Kind} {r : BitVec 32} (h : reuse a rest k' r) :
    rest = [] ∨ rest = [.ident c!".reuse"] := by
  rcases h with ⟨rfl, h⟩ | ⟨rfl, -, rfl⟩
  · exact .inr rfl
  · exact .inl rfl

theorem memory_flag {imm : Bool} {a w sh : Nat} {ks : List Kind} {k' : Kind} {b : BitVec 64} {r : BitVec 32}
    (h : memory imm a w sh ks k' b r) : r.getLsbD 0 = true ↔ .ident c!".reuse" ∈ ks := by
  obtain ⟨n, base, off, rfl, hb, ho⟩ := h
  have h1 : .ident c!".reuse" ∉ off := by
    rcases ho with ⟨rfl, -⟩ | ⟨-, y, rfl, -⟩ <;> simp
  have h2 : r.getLsbD 0 = true ↔ .ident c!".reuse" ∈ base := by
    rcases hb with ⟨rest, rfl, h⟩ | ⟨rfl, -, rfl⟩
    · rw [reuse_flag h (q := 0) ⟨(64, 1), by simp [reuseFields], by simp, by simp⟩]
      simp
    · simp
  rw [h2]
  simp [h1]

/-- A reuse flag is set by an operand that has it exactly if the operand contains `.reuse`. -/
theorem accepts_flag {o : Operand} (hf : o.flagless = true ∧ o.inside = true) {e : Env} {v : BitVec 64} {ks : List Kind} {k' : Kind}
    {b : BitVec 64} {r : BitVec 32} (h : Accepts e v o ks k' b r) {q : Nat} (hq : inF o.fields (64 + q)) :
    r.getLsbD q = true ↔ .ident c!".reuse" ∈ ks := by
  have h1 : ∀ p, inF [(8, 8), (64, 1)] p → 64 ≤ p → p = 64 := by
    rintro p ⟨f, hf, h1, h2⟩ h3
    simp only [List.mem_cons, List.not_mem_nil, or_false] at hf
    rcases hf with rfl | rfl <;> simp only at h1 h2 <;> omega
  induction o generalizing ks k' b r v with
  | gpr a =>
    obtain ⟨n, rest, rfl, -, hr⟩ := h
    simp only [Operand.inside, decide_eq_true_eq] at hf
    rw [reuse_flag hr (q := q)]
    · simp
    · obtain ⟨f, hm, h1, h2⟩ := hq
      simp only [Operand.fields, List.mem_cons] at hm
      rcases hm with rfl | hm
      · simp only at h1 h2; omega
      · exact ⟨f, hm, h1, h2⟩
  | mirrorGpr a =>
    obtain ⟨-, n, rest, rfl, -, hr⟩ := h
    rw [reuse_flag hr (q := q) hq]
    simp
  | memAddress imm a w sh =>
    have := memory_flag h
    obtain rfl : q = 0 := by
      simp only [Operand.inside, Bool.and_eq_true, decide_eq_true_eq] at hf
      obtain ⟨f, hm, h1, h2⟩ := hq
      simp only [Operand.fields, List.mem_cons] at hm
      rcases hm with rfl | rfl | hm
      · simp only at h1 h2; omega
      · simp only at h1 h2; omega
      · cases imm <;> simp at hm
        subst hm
        simp only at h1 h2; omega
    exact this
  | patchAttr =>
    obtain ⟨n, rest, plus, y, rfl, hp, hr, -, -, -⟩ := h
    obtain rfl : q = 0 := by
      obtain ⟨f, hm, h1, h2⟩ := hq
      simp only [Operand.fields, List.mem_cons, List.not_mem_nil, or_false] at hm
      rcases hm with rfl | rfl | rfl <;> simp only at h1 h2 <;> omega
    rw [reuse_flag hr (q := 0) ⟨(64, 1), by simp [reuseFields], by simp, by simp⟩]
    rcases hp with rfl | rfl <;> simp
  | physAttr =>
    obtain ⟨n, rest, rfl, hr, -⟩ := h
    obtain rfl : q = 0 := by
      obtain ⟨f, hm, h1, h2⟩ := hq
      simp only [Operand.fields, List.mem_cons, List.not_mem_nil, or_false] at hm
      rcases hm with rfl | rfl <;> simp only at h1 h2 <;> omega
    rw [reuse_flag hr (q := 0) ⟨(64, 1), by simp [reuseFields], by simp, by simp⟩]
    simp
  | ldcAddress =>
    obtain ⟨x, rest, b1, rfl, -, -, hm⟩ := h
    obtain rfl : q = 0 := by
      obtain ⟨f, hm, h1, h2⟩ := hq
      simp only [Operand.fields, List.mem_cons, List.not_mem_nil, or_false] at hm
      rcases hm with rfl | rfl | rfl | rfl <;> simp only at h1 h2 <;> omega
    rw [memory_flag hm]
    simp
  | abs a inner ih =>
    simp only [Operand.flagless, Operand.inside, Bool.and_eq_true, decide_eq_true_eq] at hf
    have hq' : inF inner.fields (64 + q) := by
      obtain ⟨f, hm, h1, h2⟩ := hq
      simp only [Operand.fields, List.mem_cons] at hm
      rcases hm with rfl | hm
      · simp only at h1 h2; omega
      · exact ⟨f, hm, h1, h2⟩
    rcases h with ⟨ks1, b1, rfl, -, h⟩ | ⟨-, h⟩
    · have := ih ⟨hf.1.2, hf.2.2⟩ h hq'
      exact this.trans (by simp)
    · exact ih ⟨hf.1.2, hf.2.2⟩ h hq'
  | _ => exact (not_inF_flag hf.1 q hq).elim

/-- The reuse flags of an instruction. -/
theorem Instr.flags {dbg : Bool} {code : Str} {i : Nat} {row : Insn} {args : List (List Kind)} {op : Op}
    (h : Instr dbg code i row args op) (q : Nat) : op.reuse.getLsbD q = true ↔
      ∃ (j : Nat) (o : Operand) (ks : List Kind), row.operands[j]? = some o ∧ args[j]? = some ks ∧ inF o.fields (64 + q) ∧ .ident c!".reuse" ∈ ks := by
  have hm := h.mem
  have key : ∀ {j : Nat} {o : Operand}, row.operands[j]? = some o → inF o.fields (64 + q) → ∃ ks, args[j]? = some ks ∧
      (op.reuse.getLsbD q = true ↔ .ident c!".reuse" ∈ ks) := by
    intro j o hj hq
    obtain ⟨ks, h1, ⟨labels, v, k', b, r, hl, hacc, hb, -⟩, hp⟩ := h.facts hj
    have hf := table_flagless _ hm o (List.mem_of_getElem? hj)
    refine ⟨ks, h1, ?_⟩
    rw [← accepts_flag hf hacc hq]
    have hlen : j < row.operands.length := (List.getElem?_eq_some_iff.1 hj).1
    have hq3 : q < 3 := by
      apply Decidable.byContradiction
      intro hge
      have := table_flags_bound _ hm o (List.mem_of_getElem? hj)
      obtain ⟨f, hf, h1, h2⟩ := hq
      have := List.all_eq_true.1 this f hf
      simp only [decide_eq_true_eq] at this
      omega
    have hall := table_flags row hm j hlen o hj q hq3 (by
      obtain ⟨f, hf, h1, h2⟩ := hq
      exact List.any_eq_true.2 ⟨f, hf, by simp [h1, h2]⟩)
    have hsole : row.sole j (64 + q) := by
      intro o' ho' hc
      have := List.all_eq_true.1 hall o' ho'
      obtain ⟨f, hf, h1, h2⟩ := hc
      have := List.all_eq_true.1 this f hf
      simp only [Field.apart, Bool.or_eq_true, decide_eq_true_eq] at this
      omega
    have := hb (64 + q) hq hsole
    unfold Op.bit at this
    simp only [show ¬ 64 + q < 64 by omega, if_false, Nat.add_sub_cancel_left] at this
    rw [this]
  constructor
  · intro hset
    obtain ⟨c, s, e, hi, rfl, hr, rfl⟩ := h
    obtain ⟨o, ho, hin⟩ : ∃ o ∈ e.row.operands, inF o.fields (64 + q) := by
      apply Classical.byContradiction
      intro hno
      have := (hr.foot (table_regular _ e.inTable) e.startInv.proper.1).2 (64 + q)
        (fun o ho hc => hno ⟨o, ho, hc⟩)
      rw [← e.bit_eq] at this
      unfold Op.bit at this
      simp only [show ¬ 64 + q < 64 by omega, if_false, Nat.add_sub_cancel_left, hset, e.startOp] at this
      simp at this
    obtain ⟨j, hj⟩ := List.mem_iff_getElem?.1 ho
    obtain ⟨ks, h1, h2⟩ := key hj hin
    exact ⟨j, o, ks, hj, h1, hin, h2.1 hset⟩
  · rintro ⟨j, o, ks, hj, ha, hin, hr⟩
    obtain ⟨ks', h1, h2⟩ := key hj hin
    obtain rfl : ks = ks' := by simpa [ha] using h1
    exact h2.2 hr

/-! ### Examples -/

/-- The `j`-th operand of the `i`-th instruction is `o`, and the word is `w`. -/
def opCheck (dbg : Bool) (code : Str) (i j : Nat) (o : Operand) (w : BitVec 64) : Bool :=
  match instrRow dbg code i with
  | some (n, op) => (insnTable[n]?.bind (·.operands[j]?)) == some o && op.value == w
  | none => false

theorem opCheck_has {dbg : Bool} {code : Str} {i j : Nat} {o : Operand} {w : BitVec 64}
    (h : opCheck dbg code i j o w = true) : ∃ ks op, HasOperand dbg code i o ks op ∧ op.value = w := by
  unfold opCheck at h
  split at h
  · rename_i n op hr
    simp only [Bool.and_eq_true, beq_iff_eq] at h
    obtain ⟨row, args, h1, h2⟩ := instr_of_row hr
    rw [h1] at h
    obtain ⟨ks, -, h3⟩ := h2.hasOperand h.1
    exact ⟨ks, op, h3, h.2⟩
  · simp at h

end Nxas
