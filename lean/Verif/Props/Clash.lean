import Verif.Lemmas.ClashProg
import Verif.Props.Ending
/-
C79: on which sources an assertion fails.
-/

namespace Nxas

open Spec

/-- **C79**: a debug build is aborted by an assertion on exactly the sources of the specification: those in which two
    parts of an instruction set the same bit, before any error or undefined behaviour, and the programs that have not
    as many instructions as semicolons. -/
theorem C79_aborts (code : Str) : assemble true code = .abort ↔ Aborts code := by
  have hz := visible_no_nul code
  have hcs : cstr code = visible code := rfl
  have hpc : alignPc 0 = addressOf 0 := rfl
  have hle : (visible code).count ';' ≤ code.count ';' := (List.takeWhile_sublist _).count_le _
  have hroom : (visible code).count ';' < countSemicolons code + 1 := by
    show _ < code.count ';' + 1
    omega
  constructor
  · intro h
    unfold assemble assembleWith at h
    rw [hcs] at h
    cases hg : genLabels (visible code) with
    | error w => rw [hg] at h; simp at h
    | ok ls =>
      rw [hg] at h
      dsimp only at h
      have hw : ¬ LastLineIsWord (visible code) := by
        intro hw
        have := (genLabels_readPastEnd _).2 hw
        rw [hg] at this
        simp at this
      cases hp : parseAll insnTable true (countSemicolons code + 1) ⟨⟨visible code, 0, 0⟩, ls, 0, {}⟩ with
      | ok r =>
        obtain ⟨ops, c⟩ := r
        rw [hp] at h
        dsimp only at h
        have hp' : parseAll insnTable false (countSemicolons code + 1) ⟨⟨visible code, 0, 0⟩, ls, 0, {}⟩ = .ok (ops, c) := by
          rcases parseAll_debug insnTable (countSemicolons code + 1) ⟨⟨visible code, 0, 0⟩, ls, 0, {}⟩ with e | e
          · rw [hp] at e; simp at e
          · rw [← e, hp]
        obtain ⟨hr, -⟩ := parseAll_run hp'
        obtain ⟨q1, ts, q2, q3⟩ := Run.program (i := 0) hpc hr
        refine .count (fun name a => genLabels_find hg name a) ((scans_iff (c := ⟨visible code, 0, 0⟩) hz).2 ⟨ts, q2, rfl⟩) q3 ?_
        intro hn
        rw [if_neg (by simp [hn, countSemicolons])] at h
        exact binary_calm _ _ h
      | abort =>
        obtain ⟨ts, q1, q2⟩ := parseAll_clashes (i := 0) hpc hp
        exact .clash hw (fun name a => genLabels_find hg name a) ((starts_iff (c := ⟨visible code, 0, 0⟩) hz).2 ⟨ts, q1, rfl⟩) q2
      | ub w => rw [hp] at h; simp at h
      | exit e => rw [hp] at h; simp at h
  · intro h
    have hlab : (∃ u, genLabels (visible code) = .error u) → LastLineIsWord (visible code) := by
      rintro ⟨u, hg⟩; exact (genLabels_error hg).2
    unfold assemble assembleWith
    rw [hcs]
    cases h with
    | @clash lab ps hw hl hs h =>
      cases hg : genLabels (visible code) with
      | error w => exact absurd (hlab ⟨w, hg⟩) hw
      | ok ls =>
        obtain rfl := Labels.map_unique hg hl
        obtain ⟨ts, h1, rfl⟩ := (starts_iff (c := ⟨visible code, 0, 0⟩) hz).1 hs
        dsimp only
        rw [clashes_parseAll (x := ⟨⟨visible code, 0, 0⟩, ls, 0, {}⟩) (i := 0) hpc hroom h1 h]
    | @count lab ps ops o hl hs h hn =>
      have hw := Scans.no_word hs h.ending
      cases hg : genLabels (visible code) with
      | error w => exact absurd (hlab ⟨w, hg⟩) hw
      | ok ls =>
        obtain rfl := Labels.map_unique hg hl
        obtain ⟨ts, h6, rfl⟩ := (scans_iff (c := ⟨visible code, 0, 0⟩) hz).1 hs
        obtain ⟨c, h7, h8, rfl⟩ := program_run (x := ⟨⟨visible code, 0, 0⟩, ls, 0, {}⟩) (i := 0) hpc h6 h
        have hc : ops.length < countSemicolons code + 1 := by
          have := h7.count
          simp only at this
          omega
        dsimp only
        have hrel := run_parseAll h7 hc
        rcases parseAll_debug insnTable (countSemicolons code + 1) ⟨⟨visible code, 0, 0⟩, ls, 0, {}⟩ with e | e
        · rw [e]
        · rw [e, hrel]
          dsimp only
          rw [if_pos]
          simpa [countSemicolons] using hn

/-- The debug build is the release build on all other sources. -/
theorem C79_builds (code : Str) :
    (Aborts code ∧ assemble true code = .abort) ∨ (¬ Aborts code ∧ assemble true code = assemble false code) := by
  by_cases h : Aborts code
  · exact .inl ⟨h, (C79_aborts code).2 h⟩
  · refine .inr ⟨h, ?_⟩
    rcases assembleWith_debug insnTable code with e | e
    · exact absurd ((C79_aborts code).1 e) h
    · exact e

/-- Every outcome of the debug build, given by the specification alone. -/
theorem C79_outcome {code : Str} (hlen : code.length ≤ 2 ^ 59) :
    (assemble true code = .abort ↔ Aborts code) ∧
    (∀ ws, assemble true code = .ok ws ↔ Assembles (visible code) ws ∧ ¬ Aborts code) ∧
    (assemble true code = .ub .readPastEnd ↔ PastEnd (visible code) ∧ ¬ Aborts code) ∧
    (∀ u, u ≠ .readPastEnd → (assemble true code = .ub u ↔ Undefined (visible code) u ∧ ¬ Aborts code)) ∧
    ((∃ d, assemble true code = .exit d) ↔ ¬ Aborts code ∧ (∀ ws, ¬ Assembles (visible code) ws) ∧ ¬ PastEnd (visible code) ∧
      ∀ u, ¬ Undefined (visible code) u) := by
  refine ⟨C79_aborts code, ?_⟩
  rcases C79_builds code with ⟨h, e⟩ | ⟨h, e⟩
  · rw [e]
    refine ⟨fun ws => by simp [h], by simp [h], fun u _ => by simp [h], by simp [h]⟩
  · rw [e]
    refine ⟨fun ws => by rw [assemble_iff]; simp [h], by rw [C76_past_end hlen]; simp [h], fun u hu => by rw [C73_undefined hlen hu]; simp [h], ?_⟩
    constructor
    · rintro ⟨d, hd⟩
      rcases C77_outcome hlen with ⟨ws, h1, -⟩ | ⟨h1, -⟩ | ⟨u, -, h1, -⟩ | ⟨-, h1⟩
      · rw [hd] at h1; simp at h1
      · rw [hd] at h1; simp at h1
      · rw [hd] at h1; simp at h1
      · exact ⟨h, h1⟩
    · rintro ⟨-, h1, h2, h3⟩
      rcases C77_outcome hlen with ⟨ws, -, h4⟩ | ⟨-, h4⟩ | ⟨u, -, -, h4⟩ | ⟨h4, -⟩
      · exact absurd h4 (h1 ws)
      · exact absurd h4 h2
      · exact absurd h4 (h3 u)
      · exact h4

/-- An assertion fails in `SUST.D.BA` whatever comes after it, because `.D` has set the bit of `.BA`. -/
theorem C79_sust (e : Env) : InsnClash e [.ident c!"SUST", .ident c!".D", .ident c!".BA"] := by
  obtain ⟨row, hrow⟩ : ∃ row, insnTable[223]? = some row := ⟨_, rfl⟩
  have hin : row ∈ insnTable := List.mem_of_getElem? hrow
  have h : insnTable[223]?.map (fun r => (r.mnemonic, r.opcode, r.operands.take 2)) =
      some (c!"SUST", 0xEB20000000000000#64, [.expect c!".D" [0x0010000000000000#64] [], .flag c!".BA" 52]) := by decide +kernel
  have hf : insnTable[223]?.map (·.flags) = some 0 := by decide +kernel
  rw [hrow] at h hf
  simp only [Option.map_some, Option.some.injEq, Prod.mk.injEq] at h hf
  obtain ⟨h1, h2, h3⟩ := h
  rw [← h1]
  refine InsnClash.mk (g := none) (os := [.expect c!".D" [0x0010000000000000#64] []]) (o := .flag c!".BA" 52) (os' := row.operands.drop 2)
    (ks := [.ident c!".D"]) (more := []) (k := .ident c!".BA") (v := 0xEB30000000070000#64) (r := 0) hin (by simp) ?_ ?_ (.word (by decide))
  · rw [← List.take_append_drop 2 row.operands, h3]; simp
  · have hv : ((field 16 (guardBits none).toNat ||| row.opcode) &&& ~~~(clears (.expect c!".D" [0x0010000000000000#64] []))) |||
        0x0010000000000000#64 = 0xEB30000000070000#64 := by rw [h2]; decide
    have := Sequence.cons (e := e) (o := .expect c!".D" [0x0010000000000000#64] []) (os := []) (v := field 16 (guardBits none).toNat ||| row.opcode)
      (b := 0x0010000000000000#64) (ks := [.ident c!".D"]) (ks' := []) (k := .ident c!".BA") (r := 0) (r' := 0) ⟨rfl, rfl, by decide⟩ .nil
    rw [hv] at this
    exact this

/-! Every part of the specification is used. -/

/-- a sign after `.PO`, a second sign is not reached -/
example : assemble true c!"NOP;\nIADD.PO R0, -R1, -R2 oops" = .abort := by decide +kernel
example : Aborts c!"IADD.PO R0, -R1, R2;" := (C79_aborts _).1 (by decide +kernel)
/-- an odd register after the immediate 2^20 -/
example : Aborts c!"IADD3 R0, R1, 0x100000, R3;" := (C79_aborts _).1 (by decide +kernel)
example : ¬ Aborts c!"IADD3 R0, R1, 0x100000, R2;" := by
  rw [← C79_aborts]
  have : assemble true c!"IADD3 R0, R1, 0x100000, R2;" = .ok [8866465994246112#64, 4161327704958238976#64, 5814147118935772928#64,
      5814147118935772928#64] := by decide +kernel
  rw [this]; simp
/-- a word -/
example : Aborts c!"SUST.D.BA" := (C79_aborts _).1 (by decide +kernel)
/-- a part of a register; the token after it has to be readable -/
example : Aborts c!"VMAD.U32.U32 R0, R1.B2" := (C79_aborts _).1 (by decide +kernel)
example : assemble true c!"VMAD.U32.U32 R0, R1.B2 P" = .ub .readPastEnd := by decide +kernel
/-- a boolean operation -/
example : Aborts c!"VSETP..U32.U32.OR" := (C79_aborts _).1 (by decide +kernel)
/-- a semicolon beyond the end of the text -/
example : Aborts c!"NOP;\x00;" := (C79_aborts _).1 (by decide +kernel)

end Nxas
