import Verif.Lemmas.DisasmRow
import Verif.Lemmas.Locality
/-
Every instruction that the assembler gives is found by the disassembler, and so is every image.
-/

namespace Nxas

open Spec

set_option Elab.async false

theorem table_shown : ∀ row ∈ insnTable, height (.ident row.mnemonic) = 0 ∧ ∀ o ∈ row.operands, o.shown = true := by decide +kernel

/-- The numbers of a row are apart from all else. -/
theorem table_numbers : ∀ row ∈ insnTable, apartNum row.cleared row.operands = true ∧
    ∀ o ∈ row.operands, Field.clear o.num ((16, 4) :: setBits row.opcode) = true := by decide +kernel

theorem cleared_mem {row : Insn} {o : Operand} (ho : o ∈ row.operands) {p : Nat} (hp : (clears o).getLsbD p = true) : row.cleared.getLsbD p = true := by
  unfold Insn.cleared
  generalize row.operands = os at ho
  induction os with
  | nil => simp at ho
  | cons x xs ih =>
    rw [List.foldr_cons, BitVec.getLsbD_or]
    rcases List.mem_cons.1 ho with rfl | ho
    · rw [hp, Bool.true_or]
    · rw [ih ho, Bool.or_true]

/-- The first word of a row. -/
theorem start_bit {row : Insn} {g : Option (Nat × Bool)} {p : Nat} (h : (field 16 (guardBits g).toNat ||| row.opcode).getLsbD p = true) :
    row.opcode.getLsbD p = true ∨ 16 ≤ p ∧ p < 20 := by
  rw [BitVec.getLsbD_or, Bool.or_eq_true] at h
  rcases h with h | h
  · exact .inr (field_inF (w := 4) (guardBits g).isLt h)
  · exact .inl h

theorem annots_fine {s : Nat} : ∀ x ∈ (annotsOf s).flatMap Annot.tokens, Fine x := by
  have word (t : Str) (h : t = c!"WAIT" ∨ t = c!"WB" ∨ t = c!"RB" ∨ t = c!"Y" ∨ t = c!"DEP") : Fine (.ident t) := by
    rcases h with rfl | rfl | rfl | rfl | rfl
    · exact ⟨⟨.plain (c := 'W') (by decide) (by decide) (by unfold decimal; decide) (by decide) (by simp [Ends]), by decide, by decide⟩, rfl⟩
    · exact ⟨⟨.plain (c := 'W') (by decide) (by decide) (by unfold decimal; decide) (by decide) (by simp [Ends]), by decide, by decide⟩, rfl⟩
    · exact ⟨⟨.register (by decide) ⟨'B', by decide, by unfold decimal; decide⟩ (by decide) (by simp [Ends]), by decide, by decide⟩, rfl⟩
    · exact ⟨⟨.plain (c := 'Y') (by decide) (by decide) (by unfold decimal; decide) (by decide) (by simp [Ends]), by decide, by decide⟩, rfl⟩
    · exact ⟨⟨.plain (c := 'D') (by decide) (by decide) (by unfold decimal; decide) (by decide) (by simp [Ends]), by decide, by decide⟩, rfl⟩
  intro x hx
  obtain ⟨a, ha, hx⟩ := List.mem_flatMap.1 hx
  have num (n : Nat) (hn : n < 2 ^ 17) : Fine (.imm n) := fine_imm (by omega) (by omega)
  unfold annotsOf at ha
  simp only [List.mem_append, List.mem_map, List.mem_filter, List.mem_range] at ha
  rcases ha with (((ha | ha) | ha) | ha) | ⟨j, ⟨hj, -⟩, rfl⟩
  · split at ha
    · simp at ha
    · rw [List.mem_singleton.1 ha] at hx
      simp only [Annot.tokens, List.mem_cons, List.not_mem_nil, or_false] at hx
      rcases hx with rfl | rfl | rfl
      · exact ⟨trivial, rfl⟩
      · exact word _ (by simp)
      · exact num _ (by omega)
  · split at ha
    · simp at ha
    · rw [List.mem_singleton.1 ha] at hx
      simp only [Annot.tokens, List.mem_cons, List.not_mem_nil, or_false] at hx
      rcases hx with rfl | rfl
      · exact ⟨trivial, rfl⟩
      · exact word _ (by simp)
  · split at ha
    · simp at ha
    · rw [List.mem_singleton.1 ha] at hx
      simp only [Annot.tokens, List.mem_cons, List.not_mem_nil, or_false] at hx
      rcases hx with rfl | rfl | rfl
      · exact ⟨trivial, rfl⟩
      · exact word _ (by simp)
      · exact num _ (by omega)
  · split at ha
    · simp at ha
    · rw [List.mem_singleton.1 ha] at hx
      simp only [Annot.tokens, List.mem_cons, List.not_mem_nil, or_false] at hx
      rcases hx with rfl | rfl | rfl
      · exact ⟨trivial, rfl⟩
      · exact word _ (by simp)
      · exact num _ (by omega)
  · simp only [Annot.tokens, List.mem_cons, List.not_mem_nil, or_false] at hx
    rcases hx with rfl | rfl | rfl
    · exact ⟨trivial, rfl⟩
    · exact word _ (by simp)
    · exact num _ (by omega)

/-- An instruction is found. -/
theorem decode_complete {e : Env} {i : Nat} (he : e.pc = addressOf i) (hi : addressOf i < 2 ^ 62) {ts : List Kind} {op : Op}
    (hi' : InstrText e ts op) (hw : ∀ x ∈ ts, Writable x) : (decode (addressOf i) op).isSome = true := by
  obtain ⟨g, row, hrow, ks, rfl, h⟩ := C70_grammar.1 hi'
  obtain ⟨hgd, ho, ha⟩ := h
  rename_i ks ks' v r as
  obtain ⟨hm, hs⟩ := table_shown row hrow
  obtain ⟨hap1, hap2⟩ := table_numbers row hrow
  have hg := table_grammatical row hrow
  have hreg := table_regular row hrow
  have ht : ∀ o ∈ row.operands, o.target = false ∨ o = .label := fun o ho => (table_peeks row hrow o ho).2
  have hw1 : ∀ x ∈ ks, Writable x := fun x hx => hw x (by simp [hx])
  have hwm : Writable (.ident row.mnemonic) := hw _ (by simp)
  have hclose (as : List Annot) (ks : List Kind) (h : AnnotsText as ks) : ks.headD .semicolon = .at ∨ ks.headD .semicolon = .semicolon := by
    have := annots_head h
    cases ks with
    | nil => exact .inr rfl
    | cons x xs => exact .inl this
  have hk : Writable (ks'.headD .semicolon) := by rcases hclose as ks' ha with h | h <;> rw [h] <;> trivial
  -- the bits of the word
  have hfoot {p : Nat} (hp : p < 64) (hf : ∀ o ∈ row.operands, ¬ inF o.fields p) :
      v.getLsbD p = (field 16 (guardBits g).toNat ||| row.opcode).getLsbD p := sequence_foot hg hreg ht ho hw1 hk hp hf
  have hguard : bitsAt v 16 4 = (guardBits g).toNat := by
    have h1 : bitsAt v 16 4 = bitsAt (field 16 (guardBits g).toNat ||| row.opcode) 16 4 := by
      refine bitsAt_congr fun p h1 h2 => hfoot (by omega) fun o ho => ?_
      intro hin
      exact not_inF_of_apart (table_fields row hrow o ho) hin ⟨(16, 4), by simp, h1, h2⟩
    rw [h1, bitsAt_or, bitsAt_field (guardBits g).isLt (by omega)]
    have : bitsAt row.opcode 16 4 = 0 := bitsAt_clear (fs := [(16, 4)]) (by simpa [Field.clear] using table_guard row hrow) (f := (16, 4)) (by simp)
    rw [this, Nat.or_zero]
  obtain ⟨hb1, hb2⟩ := guardOf_bits (v := v)
  rw [hguard] at hb1 hb2
  -- annotations
  obtain ⟨hs1, hs2, hs3⟩ := sched_parts ha
  have hsched : (BitVec.ofNat 32 (schedBits as)).toNat = schedBits as := by rw [BitVec.toNat_ofNat]; omega
  obtain ⟨ha1, ha2⟩ := annotsOf_bits hs1 hs2 hs3
  -- operands
  have hz : ∀ o ∈ row.operands, ∀ f ∈ o.num, bitsAt (field 16 (guardBits g).toNat ||| row.opcode) f.1 f.2 = 0 := by
    intro o ho f hf
    refine bitsAt_none fun p h1 h2 => ?_
    by_contra hne
    have hne : (field 16 (guardBits g).toNat ||| row.opcode).getLsbD p = true := by rwa [Bool.not_eq_false] at hne
    refine not_inF_of_apart (hap2 o ho) ⟨f, hf, h1, h2⟩ ?_
    rw [inF_cons, inF_setBits]
    exact (start_bit hne).symm
  obtain ⟨kss, h1, h2, h3, h4⟩ := sequence_texts hg hreg ht hs hap1 (fun o ho p => cleared_mem ho) (e' := bareEnv i) he.symm (by rw [he]; exact hi) ho hw1 hk hz
    (sub_self _ r)
  have h3 := sequence_close h3 (hclose _ _ ha1) (hclose _ _ ha)
  rw [he] at h1
  -- the row is tried
  have hpos : row.possible v = true := by
    unfold Insn.possible
    rw [Bool.and_eq_true]
    constructor
    · refine beq_iff_eq.2 ?_
      apply BitVec.eq_of_getLsbD_eq
      intro p hp
      simp only [BitVec.getLsbD_and, BitVec.getLsbD_or, BitVec.getLsbD_not, hp, decide_true, Bool.true_and]
      cases hop : row.opcode.getLsbD p with
      | false => simp
      | true =>
        by_cases hx : ∃ o ∈ row.operands, (clears o).getLsbD p = true
        · obtain ⟨o, ho, hx⟩ := hx
          simp [cleared_mem ho hx]
        · have : v.getLsbD p = true := by
            refine sequence_mono ho (by simp [hop]) fun o ho => ?_
            by_contra hne
            exact hx ⟨o, ho, by simpa using hne⟩
          simp [this]
    · refine List.all_eq_true.2 fun p hp => ?_
      have hp := List.mem_range.1 hp
      cases hv : v.getLsbD p with
      | false => rfl
      | true =>
        by_cases hx : ∃ o ∈ row.operands, o.sets p = true
        · rw [List.any_eq_true.2 hx, Bool.or_true]
        · have := hfoot hp fun o ho hin => hx ⟨o, ho, (o.sets_iff p).2 hin⟩
          rw [hv] at this
          rcases start_bit this.symm with h | h
          · simp [h]
          · simp [h.1, h.2]
  -- the text is found
  have hcheck : assembles (addressOf i) ⟨v, r, BitVec.ofNat 32 (schedBits as)⟩
      (guardTokens (guardOf v) ++ .ident row.mnemonic :: (kss.flatten ++ (annotsOf (schedBits as)).flatMap Annot.tokens)) = true := by
    refine assembles_iff.2 ⟨?_, ?_⟩
    · intro x hx
      simp only [List.mem_append, List.mem_cons] at hx
      rcases hx with hx | rfl | hx | hx
      · exact guard_fine x hx
      · exact ⟨hwm, hm⟩
      · exact h4 x hx
      · exact annots_fine x hx
    · refine C70_grammar.2 ⟨guardOf v, row, hrow, kss.flatten ++ (annotsOf (schedBits as)).flatMap Annot.tokens, by simp, ?_⟩
      have hstart : field 16 (guardBits (guardOf v)).toNat ||| row.opcode = field 16 (guardBits g).toNat ||| row.opcode := by rw [hb1]
      rw [← hstart] at h3
      have := RowText.mk (g := guardOf v) (row := row) ?_ h3 ha1
      · rw [ha2] at this
        exact this
      · intro hfl p n hp
        rw [hb2 p n hp]
        cases g with
        | none => rfl
        | some g =>
          obtain ⟨p', n'⟩ := g
          have := hgd hfl p' n' rfl
          subst this
          cases n' <;> rfl
  have hdec := search_complete (check := fun ks => assembles (addressOf i) ⟨v, r, BitVec.ofNat 32 (schedBits as)⟩
    (guardTokens (guardOf v) ++ .ident row.mnemonic :: (ks ++ (annotsOf (schedBits as)).flatMap Annot.tokens))) h1 (acc := []) hcheck
  unfold decode
  rw [List.isSome_findSome?]
  refine List.any_eq_true.2 ⟨row, hrow, ?_⟩
  rw [if_pos hpos]
  simp only [hsched, Option.isSome_map]
  exact hdec

/-! ### Images -/

/-- The words that fill the last group are those of an instruction. -/
theorem nop_text (e : Env) : InstrText e [.ident c!"NOP", .semicolon] (opOf filler 0x7E0) := by
  refine C70_grammar.2 ⟨none, ⟨0x50B0000000000F00#64, 0, c!"NOP", [Opnd.nop_trig]⟩, by decide +kernel, [], rfl, ?_⟩
  have hs : Sequence e [Opnd.nop_trig] (field 16 (guardBits none).toNat ||| 0x50B0000000000F00#64) [] .semicolon filler 0 := by
    have h1 : Accepts e (field 16 (guardBits none).toNat ||| 0x50B0000000000F00#64) Opnd.nop_trig [] .semicolon 0 0 := ⟨rfl, .inr ⟨rfl, by simp, rfl⟩⟩
    have h2 := Sequence.cons (os := []) (ks := []) (ks' := []) h1 .nil
    rwa [show (0 : BitVec 32) ||| 0 = 0 by decide,
      show (field 16 (guardBits none).toNat ||| 0x50B0000000000F00#64) &&& ~~~clears Opnd.nop_trig ||| 0 = filler by decide] at h2
  have h3 := RowText.mk (e := e) (row := ⟨0x50B0000000000F00#64, 0, c!"NOP", [Opnd.nop_trig]⟩) (g := none) (by simp) hs .nil
  have h4 : (⟨filler, 0, BitVec.ofNat 32 (schedBits [])⟩ : Op) = opOf filler 0x7E0 := by decide
  rwa [h4] at h3

theorem opOf_slot {op : Op} (h : op.reuse.toNat < 8 ∧ op.sched.toNat < 2 ^ 17) : opOf op.value (slot (some op)) = op := by
  obtain ⟨v, r, s⟩ := op
  simp only [opOf, slot, Op.mk.injEq, true_and] at h ⊢
  constructor
  · apply BitVec.eq_of_toNat_eq
    rw [BitVec.toNat_ofNat]
    omega
  · apply BitVec.eq_of_toNat_eq
    rw [BitVec.toNat_ofNat]
    omega

/-- The instructions from index `i` on are read from tokens. -/
def Texts (lab : Str → Option Nat) : Nat → List Op → Prop
  | _, [] => True
  | i, op :: ops => (∃ ts, (∀ x ∈ ts, Writable x) ∧ InstrText ⟨lab, addressOf i⟩ ts op) ∧ Texts lab (i + 1) ops

theorem program_texts {lab : Str → Option Nat} {i : Nat} {o o' : Opts} {ts : List (Kind × Nat)} {ops : List Op} (h : Program lab i o ts ops o')
    (hw : ∀ x ∈ ts, Writable x.1) : Texts lab i ops := by
  induction h with
  | done => trivial
  | @insn i o o' ts rest op ops h _ ih =>
    refine ⟨⟨_, ?_, h⟩, ih fun x hx => hw x (List.mem_append_right _ hx)⟩
    intro x hx
    obtain ⟨y, hy, rfl⟩ := List.mem_map.1 hx
    exact hw y (List.mem_append_left _ hy)
  | option _ _ _ ih => exact ih fun x hx => hw x (List.mem_append_right _ hx)

theorem decodeAt_complete {lab : Str → Option Nat} {i : Nat} (hi : addressOf i < 2 ^ 62) {op : Op} {ts : List Kind} (hw : ∀ x ∈ ts, Writable x)
    (h : InstrText ⟨lab, addressOf i⟩ ts op) {s : Nat} (hs : s = slot (some op)) : ∃ ks, decodeAt i op.value s = some ks := by
  subst hs
  have := decode_complete rfl hi h hw
  unfold decodeAt
  rw [opOf_slot (instr_small h)]
  obtain ⟨ks, hk⟩ := Option.isSome_iff_exists.1 this
  exact ⟨_, by rw [hk]; rfl⟩

theorem filler_complete {i : Nat} (hi : addressOf i < 2 ^ 62) {s : Nat} (hs : s = 0x7E0) : ∃ ks, decodeAt i filler s = some ks := by
  refine decodeAt_complete (lab := fun _ => none) hi (op := opOf filler 0x7E0) ?_ (nop_text _) (by rw [hs]; decide)
  intro x hx
  simp only [List.mem_cons, List.not_mem_nil, or_false] at hx
  rcases hx with rfl | rfl
  · exact ⟨.plain (c := 'N') (by decide) (by decide) (by unfold decimal; decide) (by decide) (by simp [Ends]), by decide, by decide⟩
  · trivial

theorem control_slots {a b c : Option Op} (ha : slot a < 2 ^ 21) (hb : slot b < 2 ^ 21) (hc : slot c < 2 ^ 21) :
    (Spec.control a b c).toNat % 2 ^ 21 = slot a ∧ (Spec.control a b c).toNat / 2 ^ 21 % 2 ^ 21 = slot b ∧ (Spec.control a b c).toNat / 2 ^ 42 = slot c := by
  unfold Spec.control
  rw [BitVec.toNat_ofNat]
  omega

theorem slot_small {op : Op} {e : Env} {ts : List Kind} (h : InstrText e ts op) : slot (some op) < 2 ^ 21 :=
  slot_lt fun _ ho => Option.some.inj ho ▸ instr_small h

theorem decodeAll_complete {lab : Str → Option Nat} : ∀ {i : Nat} {ops : List Op}, i % 3 = 0 → addressOf i + 8 * (groups ops).length ≤ 2 ^ 62 →
    Texts lab i ops → ∃ ks, decodeAll i (groups ops) = some ks
  | i, [], _, _, _ => ⟨[], rfl⟩
  | i, [a], h3, hl, ⟨⟨t1, w1, h1⟩, _⟩ => by
    simp only [groups, List.length_cons, List.length_nil, addressOf] at hl
    obtain ⟨e1, e2, e4⟩ := control_slots (slot_small h1) (b := none) (by decide) (c := none) (by decide)
    obtain ⟨k1, d1⟩ := decodeAt_complete (by unfold addressOf; omega) w1 h1 e1
    obtain ⟨k2, d2⟩ := filler_complete (i := i + 1) (by unfold addressOf; omega) e2
    obtain ⟨k3, d3⟩ := filler_complete (i := i + 2) (by unfold addressOf; omega) e4
    exact ⟨_, by simp only [groups, decodeAll, d1, d2, d3]; rfl⟩
  | i, [a, b], h3, hl, ⟨⟨t1, w1, h1⟩, ⟨t2, w2, h2⟩, _⟩ => by
    simp only [groups, List.length_cons, List.length_nil, addressOf] at hl
    obtain ⟨e1, e2, e4⟩ := control_slots (slot_small h1) (slot_small h2) (c := none) (by decide)
    obtain ⟨k1, d1⟩ := decodeAt_complete (by unfold addressOf; omega) w1 h1 e1
    obtain ⟨k2, d2⟩ := decodeAt_complete (by unfold addressOf; omega) w2 h2 e2
    obtain ⟨k3, d3⟩ := filler_complete (i := i + 2) (by unfold addressOf; omega) e4
    exact ⟨_, by simp only [groups, decodeAll, d1, d2, d3]; rfl⟩
  | i, a :: b :: c :: rest, h3, hl, ⟨⟨t1, w1, h1⟩, ⟨t2, w2, h2⟩, ⟨t3, w3, h4⟩, hr⟩ => by
    simp only [groups, List.length_cons, addressOf] at hl
    obtain ⟨e1, e2, e4⟩ := control_slots (slot_small h1) (slot_small h2) (slot_small h4)
    obtain ⟨k1, d1⟩ := decodeAt_complete (by unfold addressOf; omega) w1 h1 e1
    obtain ⟨k2, d2⟩ := decodeAt_complete (by unfold addressOf; omega) w2 h2 e2
    obtain ⟨k3, d3⟩ := decodeAt_complete (by unfold addressOf; omega) w3 h4 e4
    obtain ⟨k4, d4⟩ := decodeAll_complete (i := i + 3) (by omega) (by unfold addressOf; omega) hr
    exact ⟨_, by simp only [groups, decodeAll, d1, d2, d3, d4]; rfl⟩

theorem written_writable {l : Nat} {ts : List (Kind × Nat)} (h : Written l ts) : ∀ x ∈ ts, Writable x.1 := by
  induction ts generalizing l with
  | nil => simp
  | cons x ts ih =>
    obtain ⟨k, n⟩ := x
    obtain ⟨-, h1, h2⟩ := h
    intro y hy
    rcases List.mem_cons.1 hy with rfl | hy
    · exact h1
    · exact ih h2 y hy

/-- The image of a source without container is disassembled. -/
theorem disassemble_complete {t : Str} (hz : '\x00' ∉ t) {lab : Str → Option Nat} {ts : List (Kind × Nat)} {ops : List Op} {o : Opts}
    (hs : Scans 0 t ts) (hp : Program lab 0 {} ts ops o) (hl : (groups ops).length < 2 ^ 58) : (disassemble (groups ops)).isSome = true := by
  obtain ⟨ks, hk⟩ := decodeAll_complete rfl (by unfold addressOf; omega) (program_texts hp (written_writable (hs.written hz)))
  unfold disassemble
  rw [hk]
  rfl

end Nxas
