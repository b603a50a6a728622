import Verif.Lemmas.Options
import Verif.Lemmas.Labels
/-
C01-C05 and C43: bounds, termination, undefined behaviour, positions of diagnostics.
-/

namespace Nxas

open Spec

/-! ### Bridges between the specification vocabulary and the model -/

theorem cstr_eq_visible (code : Str) : cstr code = visible code := rfl

theorem isSeparator_of_mem {c : Char} (h : c ∈ separators) : isSeparator c = true := by
  have key : ∀ x ∈ separators, isSeparator x = true := by decide
  exact key c h

theorem EndsInSeparator.safe {t : Str} (h : EndsInSeparator t) : SafeEnd t :=
  fun c hc => isSeparator_of_mem (h c hc)

theorem mem_separators {c : Char} (h : isSeparator c = true) (h0 : c ≠ '\x00') : c ∈ separators := by
  simpa [isSeparator, isOperator, isContained, separators, or_assoc, h0] using h

theorem posAfter_eq (pre : Str) : posAfter pre (0, 0) = (lineAfter pre, columnAfter pre) := by
  obtain ⟨r, rfl⟩ : ∃ r : Str, pre = r.reverse := ⟨pre.reverse, by simp⟩
  induction r with
  | nil => rfl
  | cons c l ih =>
    rw [List.reverse_cons, posAfter_append, ih]
    simp only [posAfter, lineAfter, columnAfter, nextLine, nextCol]
    by_cases h : c = '\n'
    · subst h; simp
    · by_cases ht : c = '\t'
      · subst ht; simp; omega
      · simp [h, ht]; omega

/-- The mnemonics with a branch target operand. -/
def branchMnemonics : List Str := [c!"BRA", c!"PBK", c!"SSY", c!"CAL", c!"PCNT"]
/-- The mnemonics with a size or texture type whose table has no terminator. -/
def openTableMnemonics : List Str := [c!"LDG", c!"TEX", c!"TLD4", c!"TLD", c!"TMML", c!"TXD"]

/-- The operand can only occur in rows of these mnemonics. -/
def Operand.placed (m : Str) (o : Operand) : Bool :=
  match o.leaf with
  | .label => branchMnemonics.contains m
  | .s2r _ => m == c!"S2R"
  | .ldgSize => openTableMnemonics.contains m
  | .texType _ => openTableMnemonics.contains m
  | _ => true

theorem insnTable_placed :
    (insnTable.all fun i => i.operands.all (Operand.placed i.mnemonic)) = true := by
  decide +kernel

/-- What has to be in the source for each undefined behaviour to be possible. -/
def Cause (t : Str) : UB → Prop
  | .readPastEnd => ∃ pre w, t = pre ++ w ∧
      (w ∈ [c!"P", c!"p", c!"!P", c!"!p"] ∨ (AtLineStart pre ∧ IsName w))
  | .tableOverrun => ∃ m ∈ openTableMnemonics, m <:+: t
  | .inactiveUnion => ∃ m ∈ [c!"S2R", c!".dksh", c!".type", c!".num_gprs"], m <:+: t
  | .signedOverflow => ∃ m ∈ branchMnemonics, m <:+: t
  | .scratchOverflow => c!".local_memory" <:+: t
  | .opcodeOverrun | .nullFormat | .fuel => False

theorem rowsUb_cause (t : Str) : RowsUb (Cause t) insnTable t where
  rows i hi hm o ho := by
    have h := insnTable_placed
    rw [List.all_eq_true] at h
    have := h i hi
    rw [List.all_eq_true] at this
    have hp := this o ho
    unfold Operand.placed at hp
    constructor
    · intro hl
      rw [hl] at hp
      exact ⟨i.mnemonic, by simpa using hp, hm⟩
    · intro t hl
      rw [hl] at hp
      simp only [beq_iff_eq] at hp
      exact ⟨c!"S2R", by simp, by rw [← hp]; exact hm⟩
    · intro hl
      rw [hl] at hp
      exact ⟨i.mnemonic, by simpa using hp, hm⟩
    · intro a hl
      rw [hl] at hp
      exact ⟨i.mnemonic, by simpa using hp, hm⟩
  opts x hx h := by
    refine ⟨x, ?_, h⟩
    revert hx; unfold unionOptions; simp only [List.mem_cons, List.not_mem_nil, or_false]
    rintro (rfl | rfl | rfl) <;> simp

/-! ### C05 -/

/-- Every undefined behaviour of the assembler needs its cause in the source text.  This is
    the general theorem behind C01, C02, C03 and C05. -/
theorem C05_causes {dbg : Bool} {code : Str} {u : UB} (h : assemble dbg code = .ub u) :
    Cause (visible code) u := by
  refine assembleWith_ub' ?_ (rowsUb_cause _) (fun h => h) ?_ h
  · rintro l c c' u ⟨p, hp, -⟩ hu
    rw [tokenize_ub_kind hu]
    obtain ⟨pre, w, h1, h2⟩ := tokenize_ub_tail hu
    exact ⟨p ++ pre, w, by rw [← cstr_eq_visible]; simp only at hp; rw [hp, h1, List.append_assoc],
      .inl h2⟩
  · intro u hu
    obtain ⟨rfl, pre, w, h1, h2, h3⟩ := genLabels_error hu
    exact ⟨pre, w, h1, .inr ⟨h2, h3⟩⟩

/-- Five undefined behaviours do occur, in both build modes: the assembler does not have
    defined behaviour on all inputs. -/
theorem C05_violated : ∀ u ∈ [UB.readPastEnd, .tableOverrun, .inactiveUnion, .signedOverflow,
    .scratchOverflow], ∃ code, ∀ dbg, assemble dbg code = .ub u := by
  intro u hu
  simp only [List.mem_cons, List.not_mem_nil, or_false] at hu
  rcases hu with rfl | rfl | rfl | rfl | rfl
  · exact ⟨c!"NOP", by decide +kernel⟩
  · exact ⟨c!"LDG.X R0, [R1];\n", by decide +kernel⟩
  · exact ⟨c!"S2R R0, R1;\n", by decide +kernel⟩
  · exact ⟨c!"BRA -0x8000000000000000;\n", by decide +kernel⟩
  · exact ⟨c!".dksh compute\n.local_memory 0x3fffff0\nmain:\nNOP;\n", by decide +kernel⟩

/-- The words that have to be avoided for defined behaviour. -/
def riskyWords : List Str :=
  branchMnemonics ++ openTableMnemonics ++
    [c!"S2R", c!".dksh", c!".type", c!".num_gprs", c!".local_memory"]

/-- The safe fragment of C05: sources that end in a separator and contain none of the listed
    words.  (Partial: the property asks for defined behaviour on every source, which is
    false by `C05_violated`.) -/
theorem C05_defined_partial {code : Str} (hend : EndsInSeparator (visible code))
    (hw : ∀ w ∈ riskyWords, ¬ w <:+: visible code) (dbg : Bool) (u : UB) :
    assemble dbg code ≠ .ub u := by
  intro h
  have hc := C05_causes h
  cases u with
  | readPastEnd =>
    obtain ⟨pre, w, h1, h2⟩ := hc
    have hs := (EndsInSeparator.safe hend)
    rcases h2 with h2 | ⟨h2, h3⟩
    · have hsb := hs.suffix (b := w) ⟨pre, h1.symm⟩
      simp only [List.mem_cons, List.not_mem_nil, or_false] at h2
      rcases h2 with h | h | h | h
      · have := hsb 'P' (by simp [h]); simp [isSeparator, isOperator, isContained] at this
      · have := hsb 'p' (by simp [h]); simp [isSeparator, isOperator, isContained] at this
      · have := hsb 'P' (by simp [h]); simp [isSeparator, isOperator, isContained] at this
      · have := hsb 'p' (by simp [h]); simp [isSeparator, isOperator, isContained] at this
    · exact hs.not_bareTail ⟨pre, w, h1, h2, h3⟩
  | tableOverrun =>
    obtain ⟨m, h1, h2⟩ := hc
    exact hw m (by simp only [riskyWords, List.mem_append]; exact .inl (.inr h1)) h2
  | inactiveUnion =>
    obtain ⟨m, h1, h2⟩ := hc
    refine hw m ?_ h2
    simp only [riskyWords, List.mem_append]
    right
    simp only [List.mem_cons, List.not_mem_nil, or_false] at h1 ⊢
    rcases h1 with h | h | h | h <;> simp [h]
  | signedOverflow =>
    obtain ⟨m, h1, h2⟩ := hc
    exact hw m (by simp only [riskyWords, List.mem_append]; exact .inl (.inl h1)) h2
  | scratchOverflow => exact hw c!".local_memory" (by simp [riskyWords]) hc
  | opcodeOverrun => exact hc
  | nullFormat => exact hc
  | fuel => exact hc

-- a source in the safe fragment, and one that is rejected but still safe
example : EndsInSeparator (visible c!"foo: MOV R0, R1;\n") ∧
    ∀ w ∈ riskyWords, ¬ w <:+: visible c!"foo: MOV R0, R1;\n" := by
  refine ⟨by unfold EndsInSeparator; decide, by decide +kernel⟩
example : assemble true c!"foo: MOV R0, R1;\n" = .ok [0x1f8000fc0007e0#64, 0x5c98078000170000#64,
    0x50b0000000070f00#64, 0x50b0000000070f00#64] := by decide +kernel

/-! ### C01 -/

/-- The parse loop never indexes the instruction buffer out of bounds. -/
theorem C01_buffer (dbg : Bool) (code : Str) : assemble dbg code ≠ .ub .opcodeOverrun :=
  fun h => C05_causes h

/-- The same for every instruction table, i.e. not only for the one of the code: what bounds
    the number of decoded instructions is that each consumes a semicolon. -/
theorem C01_decoded {table : List Insn} {dbg : Bool} {code : Str} {labels : Labels} {ops : List Op}
    {c : Ctx} {room : Nat}
    (h : parseAll table dbg room ⟨⟨visible code, 0, 0⟩, labels, 0, {}⟩ = .ok (ops, c)) :
    ops.length ≤ code.count ';' :=
  ((parseAll_run h).1.count).trans (count_cstr code)

-- the bound is attained, also when the text after a NUL contains semicolons
example : assemble false (c!"NOP;\n" ++ ['\x00'] ++ c!";;;") = assemble true c!"NOP;\n" := by
  decide +kernel

/-! ### C02 -/

/-- A source that is empty or ends in a separator is never read past its end. -/
theorem C02_no_overread {code : Str} (hend : EndsInSeparator (visible code)) (dbg : Bool) :
    assemble dbg code ≠ .ub .readPastEnd := by
  intro h
  obtain ⟨pre, w, h1, h2⟩ := C05_causes h
  have hs := (EndsInSeparator.safe hend)
  rcases h2 with h2 | ⟨h2, h3⟩
  · have hsb := hs.suffix (b := w) ⟨pre, h1.symm⟩
    simp only [List.mem_cons, List.not_mem_nil, or_false] at h2
    rcases h2 with h | h | h | h
    · have := hsb 'P' (by simp [h]); simp [isSeparator, isOperator, isContained] at this
    · have := hsb 'p' (by simp [h]); simp [isSeparator, isOperator, isContained] at this
    · have := hsb 'P' (by simp [h]); simp [isSeparator, isOperator, isContained] at this
    · have := hsb 'p' (by simp [h]); simp [isSeparator, isOperator, isContained] at this
  · exact hs.not_bareTail ⟨pre, w, h1, h2, h3⟩

-- hypotheses met by a rejected source; both alternatives of the condition are needed
example : EndsInSeparator (visible c!"NOP;\n P ") ∧
    assemble true c!"NOP;\n P " = .exit (.located ⟨1, 1, ⟨"unknown mnemonic \x1b[1m%.*s\x1b[0m", [.sized c!"P "]⟩⟩) := by
  refine ⟨by unfold EndsInSeparator; decide, by decide +kernel⟩
example : assemble true c!"NOP;\n P" = .ub .readPastEnd := by decide +kernel
example : assemble true c!"NOP;\nfoo" = .ub .readPastEnd := by decide +kernel

/-! ### C03 -/

/-- No loop bound of the model is ever exhausted: every loop of the code terminates by its
    own condition. -/
theorem C03_terminates (dbg : Bool) (code : Str) : assemble dbg code ≠ .ub .fuel :=
  fun h => C05_causes h

/-- The tokenizer terminates from every position. -/
theorem C03_tokenizer (c : Cur) : tokenize c ≠ .ub .fuel := by
  intro h
  have := tokenize_ub_kind h
  simp at this

/-- Every token other than the end consumes text. -/
theorem C03_progress {c c' : Cur} {t : Token} (h : tokenize c = .ok t c') (hk : t.kind ≠ .none) :
    c'.text.length < c.text.length := (tokenize_ok h).shorter hk

/-- The label pass terminates on every text. -/
theorem C03_labels (t : Str) : genLabels t ≠ .error .fuel := by
  intro h
  have := (genLabels_error h).1
  simp at this

example : tokenize ⟨c!"foo: bar: RZ;", 0, 0⟩ = .ok ⟨.reg 255, 0, 10⟩ ⟨c!";", 0, 12⟩ := by
  decide +kernel

/-! ### C04 -/

/-- The label pass reads past the end exactly if the last line is a bare word. -/
theorem C04_label_pass (t : Str) : genLabels t = .error .readPastEnd ↔ LastLineIsWord t :=
  genLabels_readPastEnd t

/-- It is the first thing the assembler does, so such a source is undefined in both modes. -/
theorem C04_assemble {code : Str} (h : LastLineIsWord (visible code)) (dbg : Bool) :
    assemble dbg code = .ub .readPastEnd := by
  have := (genLabels_readPastEnd _).2 h
  unfold assemble assembleWith
  rw [cstr_eq_visible, this]

example : LastLineIsWord (visible c!"NOP;\nfoo_1") :=
  ⟨c!"NOP;\n", c!"foo_1", rfl, .inr rfl, ⟨'f', c!"oo_1", rfl, by unfold letter; decide⟩,
    by unfold wordChar letter; decide⟩
example : ¬ LastLineIsWord c!"NOP;\n foo" := by
  rw [← C04_label_pass]; decide +kernel

/-! ### C43 -/

/-- A located diagnostic is at a position of the source. -/
theorem C43_position {dbg : Bool} {code : Str} {e : Err}
    (h : assemble dbg code = .exit (.located e)) :
    ∃ pre post, visible code = pre ++ post ∧ e.line = lineAfter pre ∧ e.col = columnAfter pre := by
  unfold assemble assembleWith at h
  split at h
  · simp at h
  · dsimp only at h
    split at h
    · exfalso
      split at h
      · simp at h
      · unfold binary writeDksh at h
        dsimp only at h
        repeat' split at h
        all_goals simp at h
    · rename_i d heq
      obtain ⟨e', h1, ⟨c1, ⟨pre, hp, hq⟩, h2, h3⟩⟩ := parseAll_exit heq
      simp only [h1, Res.exit.injEq, Diag.located.injEq] at h
      subst h
      simp only [posAfter_eq, Prod.mk.injEq] at hq
      exact ⟨pre, c1.text, hp, by rw [h2, hq.1], by rw [h3, hq.2]⟩
    · simp at h
    · simp at h

example : assemble true c!"NOP;\n\tFOO;" = .exit (.located ⟨1, 4, ⟨"unknown mnemonic \x1b[1m%.*s\x1b[0m", [.sized c!"FOO"]⟩⟩) ∧
    lineAfter c!"NOP;\n\t" = 1 ∧ columnAfter c!"NOP;\n\t" = 4 := by
  refine ⟨by decide +kernel, by decide, by decide⟩

end Nxas
