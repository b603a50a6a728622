import Verif.Lemmas.Footprint
import Verif.Lemmas.Labels
import Verif.Spec.Program
/-
The instructions of a source, one by one: where each is parsed, its address, and its row of the table.
-/

namespace Nxas

open Spec

namespace InstrAt

variable {dbg : Bool} {code : Str} {i : Nat} {c : Ctx} {s : St}

theorem parsed (h : InstrAt dbg code i c s) : parseInstruction insnTable dbg c.fresh = .ok true s := by
  cases h <;> assumption

theorem framed (h : InstrAt dbg code i c s) : Reach c.cur s.ctx.cur ∧ s.ctx.labels = c.labels ∧
    s.ctx.pc = alignPc c.pc + 8 ∧ s.tok.kind = .semicolon ∧ TokInv c.cur s := by
  have := parseInstruction_framed insnTable dbg c.fresh c.cur (Reach.refl _)
  rw [h.parsed] at this
  exact this

/-- The labels are those of the source. -/
theorem labels (h : InstrAt dbg code i c s) : genLabels (visible code) = .ok c.labels := by
  induction h with
  | first hl h => exact hl
  | next h h' ih => rw [h.framed.2.1]; exact ih

/-- The program counter, after the update at the start of `parse_instruction`, is the address at which
    the instruction will be emitted. -/
theorem address (h : InstrAt dbg code i c s) : alignPc c.pc = addressOf i := by
  induction h with
  | first hl h => rfl
  | @next i c s s' h h' ih =>
    rw [h.framed.2.2.1, ih, addressOf_succ]
    unfold alignPc
    split <;> rfl

/-- The text before an instruction is empty or ends in a semicolon; it contains at least as many
    semicolons as there are instructions. -/
theorem text (h : InstrAt dbg code i c s) : ∃ pre, visible code = pre ++ c.cur.text ∧
    (pre = [] ∨ pre.getLast? = some ';') ∧ i ≤ pre.count ';' ∧ Reach ⟨visible code, 0, 0⟩ c.cur := by
  induction h with
  | first hl h => exact ⟨[], rfl, .inl rfl, by simp, Reach.refl _⟩
  | @next i c s s' h h' ih =>
    obtain ⟨pre, h1, h2, h3, h4⟩ := ih
    obtain ⟨p, hp⟩ := parseInstruction_semicolon h.parsed
    change c.cur.text = _ at hp
    refine ⟨pre ++ (p ++ [';']), by rw [h1, hp]; simp, .inr ?_, ?_, h4.trans h.framed.1⟩
    · rw [List.getLast?_append, List.getLast?_append]; rfl
    · rw [List.count_append, List.count_append, List.count_singleton_self]; omega

/-- Every instruction ends in a semicolon. -/
theorem ends (h : InstrAt dbg code i c s) : ∃ p, c.cur.text = p ++ ';' :: s.ctx.cur.text :=
  parseInstruction_semicolon h.parsed

theorem steps (h : InstrAt dbg code i c s) : Nonempty (InsnSteps insnTable dbg c.fresh s) :=
  parseInstruction_inv h.parsed

/-- An instruction is determined by its index. -/
theorem unique (h : InstrAt dbg code i c s) {c' : Ctx} {s' : St} (h' : InstrAt dbg code i c' s') :
    c = c' ∧ s = s' := by
  induction h generalizing c' s' with
  | first hl h =>
    cases h' with
    | first hl' h' =>
      rw [hl] at hl'
      cases hl'
      rw [h] at h'
      exact ⟨rfl, by simpa using h'⟩
  | next h h1 ih =>
    cases h' with
    | next h' h2 =>
      obtain ⟨rfl, rfl⟩ := ih h'
      rw [h1] at h2
      exact ⟨rfl, by simpa using h2⟩

end InstrAt

theorem Run.at {table : List Insn} {dbg : Bool} {ctx c : Ctx} {ops : List Op}
    (h : Run table dbg ctx ops c) (P : Nat → Ctx → St → Prop) (n : Nat)
    (h0 : ∀ s, parseInstruction table dbg ctx.fresh = .ok true s → P n ctx s)
    (hs : ∀ i c s s', P i c s → parseInstruction table dbg s.ctx.fresh = .ok true s' →
      P (i + 1) s.ctx s') :
    ∀ i (hi : i < ops.length), ∃ c s, P (n + i) c s ∧ s.op = ops[i] := by
  induction h generalizing n with
  | done h => intro i hi; simp at hi
  | @step ctx s ops c h hr ih =>
    intro i hi
    have hp := h0 s h
    cases i with
    | zero => exact ⟨ctx, s, hp, rfl⟩
    | succ i =>
      have := ih (n + 1) (fun s' h' => hs n ctx s s' hp h') i (by simpa using hi)
      rw [Nat.add_right_comm, Nat.add_assoc] at this
      simpa using this

/-- Every decoded instruction is one of the source. -/
theorem Decodes.at {dbg : Bool} {code : Str} {ops : List Op} {c : Ctx} (h : Decodes dbg code ops c)
    (i : Nat) (hi : i < ops.length) : ∃ c s, InstrAt dbg code i c s ∧ s.op = ops[i] := by
  obtain ⟨ls, hg, hr⟩ := h
  have := hr.at (InstrAt dbg code) 0 (fun s h => .first hg h) (fun i c s s' h1 h2 => .next h1 h2) i hi
  simpa using this

theorem Run.after {table : List Insn} {dbg : Bool} {ctx c : Ctx} {ops : List Op} {s : St}
    (h : Run table dbg ctx ops c) (h1 : parseInstruction table dbg ctx.fresh = .ok true s) :
    ∃ ops', ops = s.op :: ops' ∧ Run table dbg s.ctx ops' c := by
  cases h with
  | done h => unfold Ctx.fresh at h1; rw [h] at h1; simp at h1
  | step h hr =>
    unfold Ctx.fresh at h1
    rw [h] at h1
    simp only [Out.ok.injEq, true_and] at h1
    subst h1
    exact ⟨_, rfl, hr⟩

theorem InstrAt.run {dbg : Bool} {code : Str} {i : Nat} {c : Ctx} {s : St} (h : InstrAt dbg code i c s)
    {ops : List Op} {c' : Ctx} (hd : Decodes dbg code ops c') :
    ∃ ops', ops.drop i = s.op :: ops' ∧ Run insnTable dbg s.ctx ops' c' := by
  induction h with
  | first hl h =>
    obtain ⟨ls, hg, hr⟩ := hd
    change genLabels (visible code) = _ at hg
    rw [hl] at hg
    cases hg
    exact hr.after h
  | @next i c s s' h h' ih =>
    obtain ⟨ops', h1, h2⟩ := ih
    obtain ⟨ops2, rfl, h3⟩ := h2.after h'
    refine ⟨ops2, ?_, h3⟩
    rw [← List.drop_drop, h1]; rfl

/-- Every instruction of a decoded source is among the decoded instructions. -/
theorem InstrAt.decoded {dbg : Bool} {code : Str} {i : Nat} {c : Ctx} {s : St}
    (h : InstrAt dbg code i c s) {ops : List Op} {c' : Ctx} (hd : Decodes dbg code ops c') :
    ops[i]? = some s.op := by
  obtain ⟨ops', h1, -⟩ := h.run hd
  have : (ops.drop i)[0]? = some s.op := by rw [h1]; rfl
  simpa using this

theorem Decodes.unique {dbg : Bool} {code : Str} {ops ops' : List Op} {c c' : Ctx}
    (h : Decodes dbg code ops c) (h' : Decodes dbg code ops' c') : ops = ops' ∧ c = c' := by
  obtain ⟨ls, hg, hr⟩ := h
  obtain ⟨ls', hg', hr'⟩ := h'
  rw [hg] at hg'
  cases hg'
  have h1 := run_parseAll hr (room := ops.length + ops'.length + 1) (by omega)
  have h2 := run_parseAll hr' (room := ops.length + ops'.length + 1) (by omega)
  rw [h1] at h2
  simpa using h2

/-- The word of an instruction in the output. -/
theorem InstrAt.word {dbg : Bool} {code : Str} {words : List (BitVec 64)} {i : Nat} {c : Ctx} {s : St}
    (h : InstrAt dbg code i c s) (ha : assemble dbg code = .ok words)
    (hd : ¬ c!".dksh" <:+: visible code) : words[i + i / 3 + 1]? = some s.op.value := by
  obtain ⟨ops, c', h1, rfl, -⟩ := assemble_raw hd ha
  have h2 := h.decoded h1
  obtain ⟨hi, he⟩ := List.getElem?_eq_some_iff.1 h2
  rw [emit_value ops i hi, he]

/-- In a debug build the text before the `i`-th instruction of an accepted source contains exactly `i`
    semicolons. -/
theorem InstrAt.count {code : Str} {words : List (BitVec 64)} {i : Nat} {c : Ctx} {s : St}
    (h : InstrAt true code i c s) (ha : assemble true code = .ok words) :
    ∃ pre p, visible code = pre ++ p ++ ';' :: s.ctx.cur.text ∧ c.cur.text = p ++ ';' :: s.ctx.cur.text ∧
      (pre = [] ∨ pre.getLast? = some ';') ∧ pre.count ';' = i ∧ p.count ';' = 0 := by
  obtain ⟨ops, c', h1, -, h3⟩ := assemble_ok ha
  obtain ⟨pre, e1, e2, e3, -⟩ := h.text
  obtain ⟨p, e4⟩ := h.ends
  obtain ⟨ops', h4, h5⟩ := h.run h1
  have hlen : ops.length = i + (ops'.length + 1) := by
    have := congrArg List.length h4
    rw [List.length_drop, List.length_cons] at this
    have hi : i < ops.length := by
      apply Decidable.byContradiction
      intro hn
      rw [List.drop_of_length_le (by omega)] at h4
      simp at h4
    omega
  have hc := h5.count
  have h3 := h3 rfl
  have hv : (visible code).count ';' ≤ code.count ';' := count_cstr code
  have htot : (visible code).count ';' = pre.count ';' + p.count ';' + 1 + s.ctx.cur.text.count ';' := by
    rw [e1, e4]; simp only [List.count_append, List.count_cons_self]; omega
  have hlow : code.count ';' ≤ (visible code).count ';' := by
    obtain ⟨ls, -, hr⟩ := h1
    have := hr.count
    change ops.length ≤ (visible code).count ';' at this
    omega
  refine ⟨pre, p, by rw [e1, e4]; simp, e4, e2, ?_, ?_⟩ <;> omega

end Nxas
