import Verif.Lemmas.SourceEnd
import Verif.Props.Undefined
/-
C76: the sources on which the assembler reads beyond the end of the text.
C77: the outcome of the assembler on every source.
-/

namespace Nxas

open Spec

/-- **C76**: the release build reads beyond the end of the text on exactly these sources: those whose last line is a
    bare word, and those that end in the beginning of a predicate without a name where the parser asks for a token. -/
theorem C76_past_end {code : Str} (hlen : code.length ≤ 2 ^ 59) : assemble false code = .ub .readPastEnd ↔ PastEnd (visible code) := by
  have hz := visible_no_nul code
  have hcs : cstr code = visible code := rfl
  have hpc : alignPc 0 = addressOf 0 := rfl
  have hle : (visible code).count ';' ≤ code.count ';' := (List.takeWhile_sublist _).count_le _
  have hroom : (visible code).count ';' < countSemicolons code + 1 := by
    show _ < code.count ';' + 1
    omega
  have hb : addressOf (0 + (visible code).count ';') + 8 ≤ 2 ^ 63 := by
    have : code.count ';' ≤ code.length := List.count_le_length
    unfold addressOf
    omega
  constructor
  · intro h
    unfold assemble assembleWith at h
    rw [hcs] at h
    cases hg : genLabels (visible code) with
    | error w => exact .labels (genLabels_error hg).2
    | ok ls =>
      rw [hg] at h
      dsimp only at h
      cases hp : parseAll insnTable false (countSemicolons code + 1) ⟨⟨visible code, 0, 0⟩, ls, 0, {}⟩ with
      | ok r =>
        obtain ⟨ops, c⟩ := r
        rw [hp] at h
        simp only [Bool.false_and, Bool.false_eq_true, if_false] at h
        exact absurd (binary_ub_iff.1 h).1 (by simp)
      | ub w =>
        rw [hp] at h
        obtain rfl : w = .readPastEnd := by simpa using h
        obtain ⟨ts, q1, q2⟩ := parseAll_demands (i := 0) hz hpc hroom hb hp
        exact .reading (fun name a => genLabels_find hg name a) ((breaks_iff (c := ⟨visible code, 0, 0⟩) hz).2 ⟨ts, q1, rfl⟩) q2
      | exit e => rw [hp] at h; simp at h
      | abort => rw [hp] at h; simp at h
  · intro h
    unfold assemble assembleWith
    rw [hcs]
    cases hg : genLabels (visible code) with
    | error w => rw [(genLabels_error hg).1]
    | ok ls =>
      cases h with
      | labels h =>
        have := (genLabels_readPastEnd _).2 h
        rw [hg] at this
        simp at this
      | @reading lab ps hl hs h =>
        obtain rfl := Labels.map_unique hg hl
        obtain ⟨ts, h1, rfl⟩ := (breaks_iff (c := ⟨visible code, 0, 0⟩) hz).1 hs
        dsimp only
        rw [demands_parseAll (x := ⟨⟨visible code, 0, 0⟩, ls, 0, {}⟩) (i := 0) hz hpc hroom hb h1 h]

/-- The debug build reads beyond the end on the same sources, unless an assertion fails first. -/
theorem C76_debug {code : Str} (hlen : code.length ≤ 2 ^ 59) :
    (assemble true code = .ub .readPastEnd → PastEnd (visible code)) ∧
    (PastEnd (visible code) → assemble true code = .ub .readPastEnd ∨ assemble true code = .abort) := by
  rw [← C76_past_end hlen]
  unfold assemble
  rcases assembleWith_debug insnTable code with h1 | h1
  · rw [h1]; simp
  · rw [h1]; exact ⟨id, .inl⟩

/-- **C77**: on every source, the release build writes the words of a valid program, or has the undefined behaviour of
    the specification, or stops with a message; and the three kinds of sources are disjoint. -/
theorem C77_outcome {code : Str} (hlen : code.length ≤ 2 ^ 59) :
    (∃ ws, assemble false code = .ok ws ∧ Assembles (visible code) ws) ∨
    (assemble false code = .ub .readPastEnd ∧ PastEnd (visible code)) ∨
    (∃ u, u ≠ .readPastEnd ∧ assemble false code = .ub u ∧ Undefined (visible code) u) ∨
    (∃ d, assemble false code = .exit d) ∧ (∀ ws, ¬ Assembles (visible code) ws) ∧ ¬ PastEnd (visible code) ∧
      ∀ u, ¬ Undefined (visible code) u := by
  cases h : assemble false code with
  | ok ws => exact .inl ⟨ws, rfl, assemble_iff.1 h⟩
  | exit d =>
    refine .inr (.inr (.inr ⟨⟨d, rfl⟩, fun ws hw => ?_, fun hp => ?_, fun u hu => ?_⟩))
    · rw [← assemble_iff, h] at hw; simp at hw
    · rw [← C76_past_end hlen, h] at hp; simp at hp
    · have hne : u ≠ .readPastEnd := by
        cases hu with
        | reading _ _ _ h => exact h.ne_past
        | writing => simp
      rw [← C73_undefined hlen hne, h] at hu; simp at hu
  | abort => exact absurd h (assembleWith_quiet _ _)
  | ub u =>
    by_cases hu : u = .readPastEnd
    · subst hu; exact .inr (.inl ⟨rfl, (C76_past_end hlen).1 h⟩)
    · exact .inr (.inr (.inl ⟨u, hu, rfl, (C73_undefined hlen hu).1 h⟩))

/-- A source that is valid, or has another undefined behaviour, is not read beyond its end. -/
theorem C77_disjoint {code : Str} (hlen : code.length ≤ 2 ^ 59) (h : PastEnd (visible code)) :
    (∀ ws, ¬ Assembles (visible code) ws) ∧ ∀ u, ¬ Undefined (visible code) u := by
  have h1 := (C76_past_end hlen).2 h
  constructor
  · intro ws hw
    rw [← assemble_iff, h1] at hw; simp at hw
  · intro u hu
    have hne : u ≠ .readPastEnd := by
      cases hu with
      | reading _ _ _ h => exact h.ne_past
      | writing => simp
    rw [← C73_undefined hlen hne, h1] at hu
    exact hne (by simpa using hu.symm)

/-- **C05** (exact): the release build has undefined behaviour on the sources of the specification only; the claim
    that it has none holds of all others, and the debug build has none there either. -/
theorem C05_exact {code : Str} (hlen : code.length ≤ 2 ^ 59) :
    ((∀ u, assemble false code ≠ .ub u) ↔ ¬ PastEnd (visible code) ∧ ∀ u, ¬ Undefined (visible code) u) ∧
    ((∀ u, assemble false code ≠ .ub u) → ∀ u, assemble true code ≠ .ub u) := by
  refine ⟨⟨fun h => ⟨fun hp => h _ ((C76_past_end hlen).2 hp), fun u hu => ?_⟩, fun ⟨h1, h2⟩ u hu => ?_⟩, fun h u hu => ?_⟩
  · have hne : u ≠ .readPastEnd := by
      cases hu with
      | reading _ _ _ h => exact h.ne_past
      | writing => simp
    exact h u ((C73_undefined hlen hne).2 hu)
  · by_cases hne : u = .readPastEnd
    · subst hne; exact h1 ((C76_past_end hlen).1 hu)
    · exact h2 u ((C73_undefined hlen hne).1 hu)
  · unfold assemble at h hu
    rcases assembleWith_debug insnTable code with e | e
    · rw [e] at hu; simp at hu
    · rw [e] at hu; exact h u hu

/-- The exact condition on a source that does not end in a separator, which `C05_defined_partial` does not cover. -/
example : ¬ PastEnd c!"NOP; R0" ∧ ∀ u, ¬ Undefined c!"NOP; R0" u :=
  (C05_exact (code := c!"NOP; R0") (by decide)).1.1 (by
    have : assemble false c!"NOP; R0" = .exit (.located ⟨0, 5, "expected mnemonic"⟩) := by decide +kernel
    rw [this]; simp)

/-! Every case occurs: where a token is asked for, where none is, and where another fault comes first. -/

example : assemble true c!"NOP; P" = .ub .readPastEnd := by decide +kernel
example : assemble true c!"NOP; @!P" = .ub .readPastEnd := by decide +kernel
example : assemble true c!"MOV R0, p" = .ub .readPastEnd := by decide +kernel
example : assemble true c!"MOV R0, R1 @WAIT P" = .ub .readPastEnd := by decide +kernel
example : assemble true c!".type P" = .ub .readPastEnd := by decide +kernel
example : assemble true c!".foo\n P" = .ub .readPastEnd := by decide +kernel
example : assemble true c!".type compute .foo P" = .exit (.located ⟨0, 14, "expected new line after option"⟩) := by decide +kernel
example : assemble true c!"MOV R0 R1 P" = .exit (.located ⟨0, 7,
    ⟨"expected \x1b[1m%s\x1b[0m and got \x1b[1m%s %.*s\x1b[0m", [.text c!"comma", .text c!"register", .text []]⟩⟩) := by decide +kernel
example : assemble true c!"S2R R0, R1 P" = .ub .inactiveUnion := by decide +kernel

/-- the specification on one of them -/
example : PastEnd c!"NOP; @!P" :=
  (C76_past_end (code := c!"NOP; @!P") (by decide)).1 (by decide +kernel)

/-- and directly: after `@` there is nothing but the beginning of a predicate -/
example : PastEnd c!" @P" := by
  have hl : ∃ lab, IsLabelMap c!" @P" lab := by
    cases hg : genLabels c!" @P" with
    | error u => exact absurd (genLabels_error hg).1 (by
        have : genLabels c!" @P" = .ok [] := by decide +kernel
        rw [hg] at this; simp at this)
    | ok ls => exact ⟨_, fun name a => genLabels_find hg name a⟩
  obtain ⟨lab, hl⟩ := hl
  refine .reading (ts := [(.at, 0)]) hl ?_ (.here .at)
  exact .token (s := c!" ") (w := c!"@") (rest := c!"P") (.blank (by decide) .nil) (.operator (by decide) fun h => absurd h (by decide))
    (.last (s := []) .nil (by simp))

end Nxas
