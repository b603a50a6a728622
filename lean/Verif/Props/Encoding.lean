import Verif.Lemmas.Abort
import Verif.Lemmas.Witness
import Verif.Props.Layout
/-
C22-C25: the bits of an instruction word, the guard predicate, and the assertions.
-/

namespace Nxas

open Spec

/-! ### C22 -/

/-- The word of an accepted instruction contains the opcode of a table row with the mnemonic of the
    instruction, the guard, and bits that the operands of the row own. -/
theorem C22_bits {dbg : Bool} {code : Str} {i : Nat} {c : Ctx} {s : St} (h : InstrAt dbg code i c s) :
    ∃ row ∈ insnTable, ∃ front rest, Reads c.cur (front ++ .ident row.mnemonic :: rest) s.ctx.cur ∧
      (∀ b, row.opcode.getLsbD b = true → s.op.value.getLsbD b = true) ∧
      ∀ b, s.op.value.getLsbD b = true →
        row.opcode.getLsbD b = true ∨ (16 ≤ b ∧ b < 20) ∨ row.owns b := by
  obtain ⟨e⟩ := h.encoding
  have hbit : ∀ b, b < 64 → s.op.bit b = s.op.value.getLsbD b := fun b hb => by simp [Op.bit, hb]
  refine ⟨e.row, e.inTable, e.optToks ++ guardTokens e.guard, e.opToks ++ (e.annToks ++ [.semicolon]),
    by simpa using e.reads, ?_, ?_⟩
  · intro b hb
    rw [← hbit b (lt_of_getLsbD hb), e.bit_outside (e.not_owns (.inr hb)), hb]
    simp
  · intro b hb
    by_cases ho : e.row.owns b
    · exact .inr (.inr ho)
    · rw [← hbit b (lt_of_getLsbD hb), e.bit_outside ho, Bool.or_eq_true] at hb
      rcases hb with hb | hb
      · exact .inr (.inl (guardWord_in e.guardWf hb))
      · exact .inl hb

/-- The operands of a row own no bit of its opcode nor of the guard. -/
theorem C22_owns {row : Insn} (hr : row ∈ insnTable) {b : Nat} (hb : row.owns b) :
    row.opcode.getLsbD b = false ∧ ¬ (16 ≤ b ∧ b < 20) := by
  obtain ⟨o, ho, hin⟩ := hb
  have hn := not_inF_of_apart (table_fields _ hr o ho) hin
  constructor
  · cases hc : row.opcode.getLsbD b with
    | false => rfl
    | true =>
      obtain ⟨f, hf, h⟩ := (inF_setBits _ _).2 hc
      exact (hn ⟨f, by simp [hf], h⟩).elim
  · intro h
    exact hn ⟨(16, 4), by simp, by simp; omega⟩

/-- Every word of the output is a control word, the word of an instruction of the source, or the NOP
    that fills the last group. -/
theorem C22_output {dbg : Bool} {code : Str} {words : List (BitVec 64)}
    (hd : ¬ c!".dksh" <:+: visible code) (h : assemble dbg code = .ok words) {j : Nat} {w : BitVec 64}
    (hw : words[j]? = some w) : j % 4 = 0 ∨ w = 0x50B0000000070F00#64 ∨
      ∃ i c s, j = i + i / 3 + 1 ∧ InstrAt dbg code i c s ∧ s.op.value = w := by
  obtain ⟨ops, c, h1, rfl, -⟩ := assemble_raw hd h
  by_cases hj : j % 4 = 0
  · exact .inl hj
  · right
    have hlen : j < (emit ops).length := (List.getElem?_eq_some_iff.1 hw).1
    rw [emit_length] at hlen
    have hij : j = (j - j / 4 - 1) + (j - j / 4 - 1) / 3 + 1 := by omega
    generalize j - j / 4 - 1 = i at hij
    by_cases hi : i < ops.length
    · obtain ⟨c', s, h2, h3⟩ := h1.at i hi
      refine .inr ⟨i, c', s, hij, h2, ?_⟩
      rw [hij, emit_value ops i hi] at hw
      rw [h3]
      simpa using hw
    · rw [hij, emit_padding ops i (by omega) (by omega)] at hw
      left
      simp only [Option.some.injEq] at hw
      rw [← hw]; rfl

/-- The negated, predicated `FADD` with a constant: opcode `0x4C58 << 48`. -/
example : ∃ c s cur, InstrAt true c!"NOP; @!P3 FADD.FTZ R1, -R2, c[1][4];" 1 c s ∧
    Reads c.cur [.at, .pred 3 true, .ident c!"FADD", .ident c!".FTZ", .reg 1] cur ∧
    s.op.value = 0x4c591004001b0201#64 := instrCheck_at (by decide +kernel)

example : assemble true c!"FADD.FTZ R1, -R2, c[1][4];" = .ok
    [0x001f8000fc0007e0#64, 0x4c59100400170201#64, 0x50b0000000070f00#64, 0x50b0000000070f00#64] ∧
    ¬ c!".dksh" <:+: visible c!"FADD.FTZ R1, -R2, c[1][4];" := ⟨by decide +kernel, by decide⟩

/-! ### C23 -/

/-- The bits 16 to 19 are those of the guard of the instruction. -/
theorem C23_guard {dbg : Bool} {code : Str} {i : Nat} {c : Ctx} {s : St} (h : InstrAt dbg code i c s) :
    ∃ options guard mn rest,
      Reads c.cur (options ++ (guardTokens guard ++ .ident mn :: rest)) s.ctx.cur ∧
      (∀ t c', tokenize c.cur = .ok t c' → t.isOption = false → options = []) ∧
      s.op.value.extractLsb' 16 4 = guardBits guard := by
  obtain ⟨e⟩ := h.encoding
  refine ⟨e.optToks, e.guard, e.row.mnemonic, e.opToks ++ (e.annToks ++ [.semicolon]), e.reads,
    e.noOption, ?_⟩
  apply BitVec.eq_of_getLsbD_eq
  intro b hb
  rw [BitVec.getLsbD_extractLsb', decide_eq_true hb, Bool.true_and]
  have h1 : s.op.bit (16 + b) = s.op.value.getLsbD (16 + b) := by
    unfold Op.bit; rw [if_pos (by omega)]
  have h2 : 16 ≤ 16 + b ∧ 16 + b < 20 := by omega
  rw [← h1, e.bit_outside (e.not_owns (.inl h2)), e.not_opcode h2, guardWord_bit e.guardWf]
  simp

/-- An instruction written with a guard. -/
theorem C23_guarded {dbg : Bool} {code : Str} {i : Nat} {c : Ctx} {s : St} {cur : Cur}
    (h : InstrAt dbg code i c s) {p : Nat} {n : Bool} (hr : Reads c.cur [.at, .pred p n] cur) :
    s.op.value.extractLsb' 16 4 = BitVec.ofNat 4 (p + if n then 8 else 0) := by
  obtain ⟨os, g, mn, rest, h1, h2, h3⟩ := C23_guard h
  obtain ⟨t, c1, ht, hk, hr1⟩ := hr.head
  have ho := h2 t c1 ht (by simp [Token.isOption, hk])
  subst ho
  rw [h3]
  cases g with
  | none =>
    obtain ⟨t', c2, ht', hk', -⟩ := Reads.head h1
    rw [ht] at ht'
    simp only [TokRes.ok.injEq] at ht'
    rw [← ht'.1, hk] at hk'
    simp at hk'
  | some pn =>
    have := hr.take h1 (by simp [guardTokens])
    obtain ⟨p', n'⟩ := pn
    simp only [guardTokens, List.nil_append, List.cons_append, List.length_cons, List.length_nil,
      List.take_succ_cons, List.take_zero, List.cons.injEq, Kind.pred.injEq, and_true, true_and] at this
    obtain ⟨rfl, rfl⟩ := this
    rfl

/-- An instruction written without guard. -/
theorem C23_unguarded {dbg : Bool} {code : Str} {i : Nat} {c : Ctx} {s : St} {cur : Cur}
    (h : InstrAt dbg code i c s) {mn : Str} (hm : mn.head? ≠ some '.') (hr : Reads c.cur [.ident mn] cur) :
    s.op.value.extractLsb' 16 4 = 7#4 := by
  obtain ⟨os, g, mn', rest, h1, h2, h3⟩ := C23_guard h
  obtain ⟨t, c1, ht, hk, hr1⟩ := hr.head
  have ho := h2 t c1 ht (by simp [Token.isOption, hk, hm])
  subst ho
  rw [h3]
  cases g with
  | none => rfl
  | some pn =>
    obtain ⟨t', c2, ht', hk', -⟩ := Reads.head h1
    rw [ht] at ht'
    simp only [TokRes.ok.injEq] at ht'
    rw [← ht'.1, hk] at hk'
    simp at hk'

example : ∃ c s cur, InstrAt true c!"@!P3 MOV R1, R2;" 0 c s ∧
    Reads c.cur [.at, .pred 3 true] cur ∧ s.op.value = 0x5c980780002b0001#64 :=
  instrCheck_at (by decide +kernel)

example : ∃ c s cur, InstrAt true c!"MOV R1, R2;" 0 c s ∧
    Reads c.cur [.ident c!"MOV"] cur ∧ s.op.value = 0x5c98078000270001#64 :=
  instrCheck_at (by decide +kernel)

/-! ### C24 -/

/-- The mnemonics of the rows that do not support predicated execution. -/
def noPredNames : List Str := [c!"PBK", c!"SSY", c!"CAL", c!"PCNT"]

theorem C24_rows : ∀ row ∈ insnTable, row.flags % 2 = 1 ↔ row.mnemonic ∈ noPredNames := by
  have : (insnTable.all fun r => decide (r.flags % 2 = 1 ↔ r.mnemonic ∈ noPredNames)) = true := by
    decide +kernel
  intro row hr
  simpa using List.all_eq_true.1 this row hr

/-- What C24 asks for: such an instruction is not accepted after a guard other than `@PT`. -/
def C24_claim : Prop := ∀ dbg code i c s cur p n mn, InstrAt dbg code i c s →
  Reads c.cur [.at, .pred p n, .ident mn] cur → mn ∈ noPredNames → p = 7 ∧ n = false

/-- A guard must name `PT`.  Missing from `C24_claim`: it may be negated. -/
theorem C24_partial {dbg : Bool} {code : Str} {i : Nat} {c : Ctx} {s : St} {cur : Cur}
    (h : InstrAt dbg code i c s) {p : Nat} {n : Bool} {mn : Str}
    (hr : Reads c.cur [.at, .pred p n, .ident mn] cur) (hm : mn ∈ noPredNames) : p = 7 := by
  obtain ⟨e⟩ := h.encoding
  obtain ⟨t, c1, ht, hk, hr1⟩ := hr.head
  have ho := e.noOption t c1 ht (by simp [Token.isOption, hk])
  have hreads := e.reads
  rw [ho] at hreads
  cases hg : e.guard with
  | none =>
    rw [hg] at hreads
    obtain ⟨t', c2, ht', hk', -⟩ := Reads.head hreads
    rw [ht] at ht'
    simp only [TokRes.ok.injEq] at ht'
    rw [← ht'.1, hk] at hk'
    simp at hk'
  | some pn =>
    obtain ⟨p', n'⟩ := pn
    rw [hg] at hreads
    have := hr.take hreads (by simp [guardTokens])
    simp only [guardTokens, List.nil_append, List.cons_append, List.length_cons, List.length_nil,
      List.take_succ_cons, List.take_zero, List.cons.injEq, Kind.pred.injEq, Kind.ident.injEq, and_true,
      true_and] at this
    obtain ⟨⟨rfl, rfl⟩, hmn⟩ := this
    have hf := (C24_rows _ e.inTable).2 (by rw [hmn]; exact hm)
    have hz := e.noPred hf
    have hp := e.guardWf p' n' hg
    have hbit : ∀ b, 16 ≤ b → b < 19 → (guardWord e.guard).getLsbD b = true := by
      intro b h1 h2
      have hb : (~~~(guardWord e.guard ||| e.row.opcode) &&& (7#64 <<< 16)).getLsbD b = false := by
        rw [hz]; exact BitVec.getLsbD_zero
      have h7 : (7#64 <<< 16).getLsbD b = true := by
        have key : ∀ b : Fin 64, 16 ≤ b.val → b.val < 19 → (7#64 <<< 16).getLsbD b.val = true := by decide
        exact key ⟨b, by omega⟩ h1 h2
      rw [BitVec.getLsbD_and, h7, Bool.and_true, BitVec.getLsbD_not, decide_eq_true (by omega),
        Bool.true_and, BitVec.getLsbD_or, e.not_opcode ⟨h1, by omega⟩, Bool.or_false] at hb
      simpa using hb
    have key : ∀ (p : Fin 8) (n : Bool), (∀ b, 16 ≤ b → b < 19 →
        (guardWord (some (p.val, n))).getLsbD b = true) → p.val = 7 := by
      intro p n h
      have h16 := h 16 (by omega) (by omega)
      have h17 := h 17 (by omega) (by omega)
      have h18 := h 18 (by omega) (by omega)
      revert p n
      intro p n h h16 h17 h18
      clear h
      revert p n
      decide
    rw [hg] at hbit
    exact key ⟨p', by omega⟩ n' hbit

example : ∃ c s cur, InstrAt true c!"@PT SSY 0x10;" 0 c s ∧
    Reads c.cur [.at, .pred 7 false, .ident c!"SSY"] cur ∧ s.op.value = 0xe290000000070000#64 :=
  instrCheck_at (by decide +kernel)

/-- The code violates `C24_claim`: `@!PT SSY` is accepted and encoded. -/
theorem C24_violated : ¬ C24_claim ∧
    assemble true c!"@!PT SSY 0x10;" = .ok
      [0x001f8000fc0007e0#64, 0xe2900000000f0000#64, 0x50b0000000070f00#64, 0x50b0000000070f00#64] := by
  constructor
  · intro hc
    obtain ⟨c, s, cur, h1, h2, -⟩ := instrCheck_at (dbg := true) (code := c!"@!PT SSY 0x10;") (i := 0)
      (ks := [.at, .pred 7 true, .ident c!"SSY"]) (w := 0xe2900000000f0000#64) (by decide +kernel)
    have := hc _ _ _ _ _ _ _ _ _ h1 h2 (by decide)
    simp at this
  · decide +kernel

/-- Other guards are rejected. -/
example : assemble true c!"@P0 SSY 0x10;" =
    .exit (.located ⟨0, 8, ⟨"%s does not support predicated execution", [.text c!"SSY"]⟩⟩) := by decide +kernel

/-! ### C25 -/

/-- A row whose operand fields are pairwise disjoint, started with nothing but the guard, never runs into
    the assertion of `add_bits`. -/
theorem C25_row {row : Insn} (hr : row ∈ insnTable) (ha : row.apart = true) (s : St) (g : Option (Nat × Bool))
    (hg : ∀ p n, g = some (p, n) → p ≤ 7) (hs : s.op = ⟨guardWord g, 0, 0⟩) (dbg : Bool) :
    (parseInsn row dbg s).1 ≠ .abort := parseInsn_calm hr ha hg hs

/-- A source aborts only if it mentions a mnemonic of a row with overlapping fields, or if its number of
    instructions is not its number of semicolons. -/
theorem C25_abort {dbg : Bool} {code : Str} (h : assemble dbg code = .abort) :
    (∃ row ∈ insnTable, row.apart = false ∧ row.mnemonic <:+: visible code) ∨
      (dbg = true ∧ ∃ ops c, Decodes dbg code ops c ∧ ops.length ≠ code.count ';') :=
  assemble_abort h

/-- The rows with overlapping fields, and for each a source that makes it abort. -/
def overlapping : List (Nat × Str) :=
  [(139, c!"IADD.PO R0, -R1, R2;"), (140, c!"IADD.PO R0, -R1, c[0][0];"), (141, c!"IADD.PO R0, -R1, 1;"),
   (142, c!"IADD32I.PO R0, -R1, 1;"), (145, c!"IADD3 R0, R1, 0x100000, R1;"),
   (153, c!"ISCADD.PO R0, -R1, R2, 1;"), (154, c!"ISCADD.PO R0, -R1, c[0][0], 1;"),
   (155, c!"ISCADD.PO R0, -R1, 1, 1;"), (223, c!"SUST.D.BA.1D.32.IGN [R1], R2, R3;"),
   (224, c!"SUST.D.BA.1D.32.IGN [R1], R2, 1;"), (230, c!"VMAD.U32.U32 R0, R1.B2, R2, R3;"),
   (231, c!"VMAD.U32.U16 R0, R1.B2, 1, R3;"), (232, c!"VMNMX.U32.U32 R0, R1.B2, R2, R3;"),
   (233, c!"VMNMX.U32.U16 R0, R1.B2, 1, R3;"), (234, c!"VSETP.EQ.U32.U32.AND P0, P1, R1.B2, R2, PT;"),
   (235, c!"VSETP.EQ.U32.U16.AND P0, P1, R1.B2, 1, PT;")]

theorem C25_overlapping (n : Nat) (row : Insn) (hn : insnTable[n]? = some row) :
    row.apart = false ↔ n ∈ overlapping.map (·.1) := by
  have key : ∀ n : Fin insnTable.length,
      insnTable[n.val].apart = false ↔ n.val ∈ overlapping.map (·.1) := by decide +kernel
  obtain ⟨hl, rfl⟩ := List.getElem?_eq_some_iff.1 hn
  exact key ⟨n, hl⟩

/-- Each of the sources makes the assembler abort, already when its row is the only one of the table. -/
theorem C25_witnesses : ∀ w ∈ overlapping, assemble true w.2 = .abort ∧
    ∃ row, insnTable[w.1]? = some row ∧ assembleWith [row] true w.2 = .abort := by
  have key : (overlapping.all fun w => decide (assemble true w.2 = .abort) &&
      match insnTable[w.1]? with
      | some row => decide (assembleWith [row] true w.2 = .abort)
      | none => false) = true := by decide +kernel
  intro w hw
  have := List.all_eq_true.1 key w hw
  rw [Bool.and_eq_true, decide_eq_true_eq] at this
  refine ⟨this.1, ?_⟩
  have h2 := this.2
  split at h2
  · rename_i row hr
    exact ⟨row, hr, by simpa using h2⟩
  · simp at h2

end Nxas
