import Verif.Model.Tester
import Verif.Lemmas.Lexical
import Verif.Props.Layout
import Verif.Lemmas.Decode
/-
C64: the test driver.
-/

namespace Nxas

open Spec

theorem visible_semicolon {e : Str} (h : '\x00' ∉ e) : cstr (e ++ c!";") = e ++ c!";" :=
  cstr_of_no_nul (by simp [h])

/-- A source that ends in a semicolon has an instruction. -/
theorem Decodes.nonempty {dbg : Bool} {e : Str} {ops : List Op} {c : Ctx} (hz : '\x00' ∉ e)
    (h : Decodes dbg (e ++ c!";") ops c) : ops ≠ [] := by
  rintro rfl
  obtain ⟨ls, -, hr⟩ := h
  have hs : OnlySkipped (e ++ c!";") := by
    cases hr with
    | @done _ s h =>
      rw [parseInstruction_eq] at h
      obtain ⟨_, s1, h1, h2⟩ := Out.bind_ok h
      obtain ⟨t, c, ht, rfl⟩ := advance_ok h1
      split at h2
      · rename_i hk
        have := tokenize_ended ht hk
        rwa [← visible_semicolon hz]
      · exfalso
        unfold insnBody at h2
        obtain ⟨_, s2, -, h2⟩ := Out.bind_ok h2
        obtain ⟨_, s3, -, h2⟩ := Out.bind_ok h2
        obtain ⟨_, s5, -, h2⟩ := Out.bind_ok h2
        simp at h2
  rcases hs.cases_last with h1 | ⟨a, b, h1, hb⟩
  · exact absurd (h1 ';' (by simp)) (by decide)
  · have h2 := congrArg List.getLast? h1
    rcases List.eq_nil_or_concat b with rfl | ⟨b', x, rfl⟩
    · simp at h2
    · have hx := hb x (by simp)
      rw [List.concat_eq_append, ← List.cons_append, ← List.append_assoc, List.getLast?_append, List.getLast?_append] at h2
      simp only [List.getLast?_singleton, Option.some_or, Option.some.injEq] at h2
      subst h2
      exact absurd hx (by decide)

theorem assemble_second {dbg : Bool} {e : Str} {ws : List (BitVec 64)} (hz : '\x00' ∉ e)
    (h : assemble dbg (e ++ c!";") = .ok ws) : ∃ w, ws[1]? = some w := by
  obtain ⟨ops, c, h1, h2, -⟩ := assemble_ok h
  have hne := h1.nonempty hz
  have hl : 0 < ops.length := List.length_pos_iff.2 hne
  have h3 := binary_code h2 1 (by rw [emit_length]; omega)
  have h4 := emit_value ops 0 hl
  rw [h4] at h3
  have h5 := (List.getElem?_eq_some_iff.1 h3).1
  exact ⟨_, List.getElem?_eq_getElem (by omega)⟩

/-- C64. The result that the driver looks at has at least two words. -/
theorem C64_bounds {dbg : Bool} {e : Str} {ws : List (BitVec 64)} (hz : '\x00' ∉ e)
    (h : assemble dbg (e ++ c!";") = .ok ws) : 2 ≤ ws.length := by
  obtain ⟨w, hw⟩ := assemble_second hz h
  have := (List.getElem?_eq_some_iff.1 hw).1
  omega

/-- C64. Undefined behaviour of the driver is undefined behaviour of the assembler. -/
theorem C64_defined {dbg : Bool} {e : Str} {rest : List Str} (hz : '\x00' ∉ e) :
    tester dbg (e :: rest) ≠ .outOfBounds ∧
      ∀ u, tester dbg (e :: rest) = .ub u → assemble dbg (e ++ c!";") = .ub u := by
  unfold tester
  dsimp only
  cases h : assemble dbg (e ++ c!";") with
  | exit d => simp
  | abort => simp
  | ub u => simp
  | ok ws =>
    obtain ⟨w, hw⟩ := assemble_second hz h
    cases rest with
    | nil => simp
    | cons x rest =>
      dsimp only
      unfold testerCheck
      rw [hw]
      repeat' split
      all_goals simp_all

/-- The digits at the beginning. -/
theorem fromCharsHex_some {s : Str} {v : BitVec 64} : fromCharsHex s = some v ↔ ∃ ds tail, s = ds ++ tail ∧ ds ≠ [] ∧
    (∀ a ∈ ds, hexadecimal a) ∧ (∀ a, tail.head? = some a → ¬ hexadecimal a) ∧ numeral 16 ds = v.toNat := by
  constructor
  · intro h
    unfold fromCharsHex at h
    dsimp only at h
    split at h
    · simp at h
    · rename_i hne
      split at h
      · rename_i hlt
        simp only [Option.some.injEq] at h
        subst h
        have hx : ∀ a ∈ s.takeWhile (isDigitOf 16), hexadecimal a := fun a ha =>
          isDigitOf_16.1 (List.mem_takeWhile_imp ha)
        refine ⟨_, s.dropWhile (isDigitOf 16), (List.takeWhile_append_dropWhile).symm, hne, hx, ?_, ?_⟩
        · intro a ha hh
          have := List.head?_dropWhile_not (isDigitOf 16) s
          rw [ha] at this
          simp [isDigitOf_16.2 hh] at this
        · rw [digitsVal_spec hx] at hlt ⊢
          rw [BitVec.toNat_ofNat, Nat.mod_eq_of_lt hlt]
      · simp at h
  · rintro ⟨ds, tail, rfl, hne, hx, ht, hv⟩
    have h1 : (ds ++ tail).takeWhile (isDigitOf 16) = ds :=
      takeWhile_all (fun c hc => isDigitOf_16.2 (hx c hc)) fun c hc => by
        cases hd : isDigitOf 16 c with
        | false => rfl
        | true => exact (ht c hc (isDigitOf_16.1 hd)).elim
    unfold fromCharsHex
    dsimp only
    rw [h1, if_neg hne, digitsVal_spec hx, hv, if_pos v.isLt]
    simp

/-- C64. The driver succeeds if and only if the text with a semicolon is accepted and the expected word is `0x` followed by
    the hexadecimal digits of the word of the first instruction, and by anything else. -/
theorem C64_passes {dbg : Bool} {e x : Str} (hz : '\x00' ∉ e) (hd : ¬ c!".dksh" <:+: e ++ c!";") (rest : List Str) :
    tester dbg (e :: x :: rest) = .returns 0 ↔ ∃ ws c s p ds tail, assemble dbg (e ++ c!";") = .ok ws ∧
      InstrAt dbg (e ++ c!";") 0 c s ∧ x = '0' :: p :: (ds ++ tail) ∧ (p = 'x' ∨ p = 'X') ∧ ds ≠ [] ∧
      (∀ a ∈ ds, hexadecimal a) ∧ (∀ a, tail.head? = some a → ¬ hexadecimal a) ∧ numeral 16 ds = s.op.value.toNat := by
  have hfirst : ∀ ws, assemble dbg (e ++ c!";") = .ok ws → ∀ w, ws[1]? = some w ↔
      ∃ c s, InstrAt dbg (e ++ c!";") 0 c s ∧ s.op.value = w := by
    intro ws h w
    obtain ⟨ops, c, h1, rfl, -⟩ := assemble_raw (by rwa [visible_semicolon hz]) h
    have hl : 0 < ops.length := List.length_pos_iff.2 (h1.nonempty hz)
    have h2 := emit_value ops 0 hl
    rw [show 0 + 0 / 3 + 1 = 1 from rfl] at h2
    rw [h2, Option.some.injEq]
    constructor
    · rintro rfl
      obtain ⟨c', s, h3, h4⟩ := h1.at 0 hl
      exact ⟨c', s, h3, by rw [h4]⟩
    · rintro ⟨c', s, h3, rfl⟩
      obtain ⟨c2, s2, h4, h5⟩ := h1.at 0 hl
      cases h3 with
      | first hl h =>
        cases h4 with
        | first hl' h' =>
          rw [hl] at hl'
          cases hl'
          rw [h] at h'
          cases h'
          rw [h5]
  unfold tester
  dsimp only
  cases h : assemble dbg (e ++ c!";") with
  | exit d => simp
  | abort => simp
  | ub u => simp
  | ok ws =>
    have hf := hfirst ws h
    obtain ⟨w, hw⟩ := assemble_second hz h
    obtain ⟨c, s, hi, rfl⟩ := (hf w).1 hw
    have hu : ∀ c' s', InstrAt dbg (e ++ c!";") 0 c' s' → s'.op.value = s.op.value := fun c' s' h' =>
      Option.some.inj (((hf _).2 ⟨c', s', h', rfl⟩).symm.trans hw)
    dsimp only
    constructor
    · intro ht
      unfold testerCheck at ht
      rw [hw] at ht
      split at ht
      · rename_i z p d ds
        split at ht
        · simp at ht
        · rename_i hp
          simp only [ne_eq, not_or, not_and, Decidable.not_not] at hp
          obtain ⟨rfl, hp⟩ := hp
          split at ht
          · simp at ht
          · rename_i v hv
            dsimp only at ht
            split at ht
            · simp at ht
            · rename_i hwv
              obtain ⟨ds', tail, h1, h2, h3, h4, h5⟩ := fromCharsHex_some.1 hv
              simp only [ne_eq, Decidable.not_not] at hwv
              exact ⟨ws, c, s, p, ds', tail, rfl, hi, by rw [h1], by grind, h2, h3, h4, by rw [h5, hwv]⟩
      · simp at ht
    · rintro ⟨_, c', s', p, ds, tail, -, h1, rfl, h2, h3, h4, h5, h6⟩
      rw [hu _ _ h1] at h6
      obtain ⟨d, ds, rfl⟩ := List.exists_cons_of_ne_nil h3
      unfold testerCheck
      rw [List.cons_append]
      dsimp only
      rw [if_neg (by rcases h2 with rfl | rfl <;> simp), ← List.cons_append, fromCharsHex_some.2 ⟨_, tail, rfl, h3, h4, h5, h6⟩, hw]
      simp

/-- What follows the digits is ignored. -/
example : tester true [c!"FADD.FTZ R1, -R2, c[1][4]", c!"0x4C59100400170201"] = .returns 0 ∧
    tester true [c!"FADD.FTZ R1, -R2, c[1][4]", c!"0x4c59100400170201, or so"] = .returns 0 ∧
    tester true [c!"FADD.FTZ R1, -R2, c[1][4]", c!"0x4C59100400170200"] = .returns 1 ∧
    tester true [c!"FADD.FTZ R1, -R2, c[1][4]"] = .returns 0 := by decide +kernel

/-- With an option for a container the driver compares a word of the header. -/
example : tester true [c!".dksh compute\nmain: NOP", c!"0x0000010000000100"] = .returns 0 := by decide +kernel

/-- A text that is empty or only a label is rejected: the semicolon is not an instruction. -/
example : ∃ d, tester true [c!"", c!"0x0"] = .exits d := ⟨.located ⟨0, 0, "expected mnemonic"⟩, by decide +kernel⟩

end Nxas
