import Verif.Lemmas.Undefined
import Verif.Lemmas.Debug
/-
C73: the sources on which the assembler has undefined behaviour, other than reading beyond the end of the text.
-/

namespace Nxas

open Spec

theorem scratchSize_none (o : Opts) : scratchSize o.localMem = none ↔ ¬ (-(2 ^ 31) ≤ scratch o ∧ scratch o < 2 ^ 31) := by
  constructor
  · intro h hs
    have := (scratchSize_iff o _).2 ⟨hs, rfl⟩
    rw [h] at this
    simp at this
  · intro h
    cases hs : scratchSize o.localMem with
    | none => rfl
    | some v => exact absurd ((scratchSize_iff o v).1 hs).1 h

theorem writeDksh_ub {c : Ctx} {n : Nat} {u : UB} : writeDksh c n = .ub u ↔ u = .scratchOverflow ∧ (∃ p, c.opts.type = some p) ∧
    ∃ entry, c.labels.find c!"main" = some (entry + 8) ∧ entry % 32 = 0 ∧ ¬ (-(2 ^ 31) ≤ scratch c.opts ∧ scratch c.opts < 2 ^ 31) := by
  unfold writeDksh
  cases ht : c.opts.type with
  | none => simp
  | some p =>
    dsimp only
    cases hl : c.labels.find c!"main" with
    | none => simp
    | some off =>
      dsimp only
      by_cases ha : off % 32 = 8
      · rw [if_neg (by simpa using ha), ← scratchSize_none]
        cases hs : scratchSize c.opts.localMem with
        | none =>
          simp only [Res.ub.injEq, Option.some.injEq, and_true]
          constructor
          · rintro rfl; exact ⟨rfl, ⟨p, rfl⟩, off - 8, by omega, by omega⟩
          · rintro ⟨rfl, -⟩; rfl
        | some v => simp
      · rw [if_pos (by simpa using ha)]
        simp only [reduceCtorEq, Option.some.injEq, false_iff]
        rintro ⟨-, -, e, h1, h2, -⟩
        omega

theorem binary_ub_iff {c : Ctx} {code : List (BitVec 64)} {u : UB} : binary c code = .ub u ↔
    u = .scratchOverflow ∧ c.opts.isDksh = true ∧ (∃ p, c.opts.type = some p) ∧
    ∃ entry, c.labels.find c!"main" = some (entry + 8) ∧ entry % 32 = 0 ∧ ¬ (-(2 ^ 31) ≤ scratch c.opts ∧ scratch c.opts < 2 ^ 31) := by
  obtain ⟨g, hg⟩ : ∃ g : Bool, binary c code =
      if c.opts.isDksh then
        match writeDksh c (code.length + if g = true then 8 else 0) with
        | .ok ctl =>
          match (if g = true then .exit (.plain "write_gfx_header is not implemented") else .ok code : Res (List (BitVec 64))) with
          | .ok c => .ok (ctl ++ c ++ List.replicate (32 - code.length % 32) 0#64)
          | r => r
        | r => r
      else if g = true then .exit (.plain "write_gfx_header is not implemented") else .ok code := ⟨_, rfl⟩
  rw [hg]
  by_cases hd : c.opts.isDksh = true
  · rw [if_pos hd]
    cases hw : writeDksh c (code.length + if g = true then 8 else 0) with
    | ok ws =>
      have hno : ∀ v, writeDksh c (code.length + if g = true then 8 else 0) ≠ .ub v := by simp [hw]
      simp only [ne_eq, writeDksh_ub] at hno
      have : ¬ (u = .scratchOverflow ∧ c.opts.isDksh = true ∧ (∃ p, c.opts.type = some p) ∧
          ∃ entry, c.labels.find c!"main" = some (entry + 8) ∧ entry % 32 = 0 ∧
            ¬ (-(2 ^ 31) ≤ scratch c.opts ∧ scratch c.opts < 2 ^ 31)) := fun ⟨h1, _, h2⟩ => hno u ⟨h1, h2⟩
      refine iff_of_false ?_ this
      cases g <;> simp
    | ub w =>
      dsimp only
      have := writeDksh_ub.1 hw
      simp only [Res.ub.injEq]
      constructor
      · rintro rfl; exact ⟨this.1, hd, this.2⟩
      · rintro ⟨rfl, -⟩; exact this.1
    | exit e =>
      have hno : ∀ v, writeDksh c (code.length + if g = true then 8 else 0) ≠ .ub v := by simp [hw]
      simp only [ne_eq, writeDksh_ub] at hno
      simp only [reduceCtorEq, false_iff]
      rintro ⟨h1, -, h2⟩; exact hno u ⟨h1, h2⟩
    | abort =>
      have hno : ∀ v, writeDksh c (code.length + if g = true then 8 else 0) ≠ .ub v := by simp [hw]
      simp only [ne_eq, writeDksh_ub] at hno
      simp only [reduceCtorEq, false_iff]
      rintro ⟨h1, -, h2⟩; exact hno u ⟨h1, h2⟩
  · rw [if_neg hd]
    cases g <;> simp [hd]

/-- **C73**: the undefined behaviours of the release build, other than reading beyond the end of the text, are exactly
    the listed ones, in exactly the sources in which the parser gets to them. -/
theorem C73_undefined {code : Str} {u : UB} (hlen : code.length ≤ 2 ^ 59) (hu : u ≠ .readPastEnd) :
    assemble false code = .ub u ↔ Undefined (visible code) u := by
  have hz := visible_no_nul code
  have hcs : cstr code = visible code := rfl
  have hpc : alignPc 0 = addressOf 0 := rfl
  have hle : (visible code).count ';' ≤ code.count ';' := (List.takeWhile_sublist _).count_le _
  have hroom : (visible code).count ';' < countSemicolons code + 1 := by
    show _ < code.count ';' + 1
    omega
  have hb : addressOf (0 + (visible code).count ';') + 8 ≤ 2 ^ 63 := by
    have : code.count ';' ≤ code.length := List.count_le_length
    unfold addressOf
    omega
  constructor
  · intro h
    unfold assemble assembleWith at h
    rw [hcs] at h
    cases hg : genLabels (visible code) with
    | error w =>
      rw [hg] at h
      obtain rfl : w = u := by simpa using h
      exact absurd (genLabels_error hg).1 hu
    | ok ls =>
      rw [hg] at h
      dsimp only at h
      have hw : ¬ LastLineIsWord (visible code) := by
        intro hw
        have := (genLabels_readPastEnd _).2 hw
        rw [hg] at this
        simp at this
      cases hp : parseAll insnTable false (countSemicolons code + 1) ⟨⟨visible code, 0, 0⟩, ls, 0, {}⟩ with
      | ok r =>
        obtain ⟨ops, c⟩ := r
        rw [hp] at h
        simp only [Bool.false_and, Bool.false_eq_true, if_false] at h
        obtain ⟨rfl, h1, ⟨p, h2⟩, entry, h3, h4, h5⟩ := binary_ub_iff.1 h
        obtain ⟨hr, -⟩ := parseAll_run hp
        obtain ⟨q1, ts, q2, q3⟩ := Run.program (i := 0) hpc hr
        rw [q1] at h3
        exact .writing (fun name a => genLabels_find hg name a) ((scans_iff (c := ⟨visible code, 0, 0⟩) hz).2 ⟨ts, q2, rfl⟩) q3 h1 h2 h3 h4 h5
      | ub w =>
        rw [hp] at h
        obtain rfl : w = u := by simpa using h
        obtain ⟨ts, q1, q2⟩ := parseAll_faults (i := 0) hu hpc hroom hb hp
        exact .reading hw (fun name a => genLabels_find hg name a) ((starts_iff (c := ⟨visible code, 0, 0⟩) hz).2 ⟨ts, q1, rfl⟩) q2
      | exit e => rw [hp] at h; simp at h
      | abort => rw [hp] at h; simp at h
  · intro h
    have hlab : (∃ u, genLabels (visible code) = .error u) → LastLineIsWord (visible code) := by
      rintro ⟨u, hg⟩; exact (genLabels_error hg).2
    unfold assemble assembleWith
    rw [hcs]
    cases h with
    | @reading lab ps _ hw hl hs h =>
      cases hg : genLabels (visible code) with
      | error w => exact absurd (hlab ⟨w, hg⟩) hw
      | ok ls =>
        obtain rfl := Labels.map_unique hg hl
        obtain ⟨ts, h1, rfl⟩ := (starts_iff (c := ⟨visible code, 0, 0⟩) hz).1 hs
        dsimp only
        rw [faults_parseAll (x := ⟨⟨visible code, 0, 0⟩, ls, 0, {}⟩) (i := 0) hpc hroom hb h1 h]
    | @writing lab ps ops o p entry hl hs h hd ht hm ha hr =>
      have hw := Scans.no_word hs h.ending
      cases hg : genLabels (visible code) with
      | error w => exact absurd (hlab ⟨w, hg⟩) hw
      | ok ls =>
        obtain rfl := Labels.map_unique hg hl
        obtain ⟨ts, h6, rfl⟩ := (scans_iff (c := ⟨visible code, 0, 0⟩) hz).1 hs
        obtain ⟨c, h7, h8, rfl⟩ := program_run (x := ⟨⟨visible code, 0, 0⟩, ls, 0, {}⟩) (i := 0) hpc h6 h
        have hc : ops.length < countSemicolons code + 1 := by
          have := h7.count
          simp only at this
          omega
        dsimp only
        rw [run_parseAll h7 hc]
        simp only [Bool.false_and, Bool.false_eq_true, if_false]
        exact binary_ub_iff.2 ⟨rfl, hd, ⟨p, ht⟩, entry, by rw [h8]; exact hm, ha, hr⟩

/-- The debug build has no other undefined behaviours. -/
theorem C73_debug {code : Str} {u : UB} (hlen : code.length ≤ 2 ^ 59) (hu : u ≠ .readPastEnd) (h : assemble true code = .ub u) :
    Undefined (visible code) u := by
  rw [← C73_undefined hlen hu]
  rcases assembleWith_debug insnTable code with h1 | h1
  · unfold assemble at h; rw [h1] at h; simp at h
  · unfold assemble at h ⊢; rw [← h1]; exact h

/-- In a debug build an assertion may come first. -/
theorem C73_debug_conv {code : Str} {u : UB} (hlen : code.length ≤ 2 ^ 59) (h : Undefined (visible code) u) :
    assemble true code = .ub u ∨ assemble true code = .abort := by
  have hu : u ≠ .readPastEnd := by
    cases h with
    | reading _ _ _ h => exact h.ne_past
    | writing => simp
  rw [← C73_undefined hlen hu] at h
  rcases assembleWith_debug insnTable code with h1 | h1
  · exact .inr h1
  · exact .inl (by unfold assemble at h ⊢; rw [h1]; exact h)

/-- A source has at most one of these undefined behaviours, and none if it is valid. -/
theorem C73_unique {code : Str} (hlen : code.length ≤ 2 ^ 59) {u : UB} (h : Undefined (visible code) u) :
    (∀ v, Undefined (visible code) v → v = u) ∧ ∀ words, ¬ Assembles (visible code) words := by
  have hne : ∀ {u}, Undefined (visible code) u → u ≠ .readPastEnd := by
    intro u h
    cases h with
    | reading _ _ _ h => exact h.ne_past
    | writing => simp
  have h1 := (C73_undefined hlen (hne h)).2 h
  constructor
  · intro v hv
    have h2 := (C73_undefined hlen (hne hv)).2 hv
    rw [h1] at h2
    simpa using h2.symm
  · intro words hw
    rw [← assemble_iff, h1] at hw
    simp at hw

/-! Every case occurs. -/

example : assemble true c!"NOP;\nLDG.X R0, [R1];" = .ub .tableOverrun := by decide +kernel
example : assemble true c!"S2R R0, R1;" = .ub .inactiveUnion := by decide +kernel
example : assemble true c!"BRA -0x8000000000000000;" = .ub .signedOverflow := by decide +kernel
example : assemble true c!".dksh compute\n.local_memory 0x3fffff0\nmain:\nNOP;\n" = .ub .scratchOverflow := by decide +kernel
example : assemble true c!".dksh vertex\n.local_memory 0x3fffff0\nmain:\nNOP;\n" = .ub .scratchOverflow := by decide +kernel
example : assemble true c!"NOP;\n.num_gprs " = .ub .inactiveUnion := by decide +kernel
example : assemble true c!".type 5\nNOP;" = .ub .inactiveUnion := by decide +kernel
/-- the token that cannot be dealt with is not reached: it is in another line -/
example : assemble true c!".type\n5\nNOP;" = .exit (.located ⟨1, 0, "unexpected new line in option"⟩) := by decide +kernel

end Nxas
