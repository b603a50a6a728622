import Verif.Lemmas.Written
import Verif.Lemmas.Debug
import Verif.Props.Unambiguous
/-
C78: what can be written.
-/

namespace Nxas

open Spec

/-- C78: the lists of tokens that some text consists of are those in which every token can be written and the lines do
    not decrease. -/
theorem C78_tokens {ts : List (Kind × Nat)} : (∃ t, '\x00' ∉ t ∧ Scans 0 t ts) ↔ Written 0 ts := by
  constructor
  · rintro ⟨t, hz, h⟩
    exact h.written hz
  · intro h
    obtain ⟨t, -, hz, h⟩ := written_text h
    exact ⟨t, hz, h⟩

/-- The least number greater than zero, in line 0, a name with a line end, and an operator in line 1. -/
example : Written 0 [(.fimm 1, 0), (.ident c!"P\nQ", 0), (.at, 1)] := by
  refine ⟨Nat.le_refl 0, by show _ ≤ _; decide, Nat.le_refl 0, ⟨?_, by decide, by decide⟩, by decide, trivial, trivial⟩
  exact Word.predicate (p := ['P']) (c := '\n') (cs := ['Q']) (neg := false) (.pos (.inl rfl)) (by simp) (by decide) (by simp [Ends])

/-- A name after which the lines decrease. -/
example : ¬ Written 0 [(.ident c!"P\nQ", 0), (.at, 0)] := by
  rintro ⟨-, -, h, -⟩
  exact absurd h (by decide)

/-- C78: every layout of tokens and labels that is a program of the grammar is the source of its image. -/
theorem C78_programs {items : List Item} {ops : List Op} {o : Opts} {words : List (BitVec 64)} (h : Laid 0 items)
    (hp : Program (labelAt 0 items) 0 {} (tokensOf items) ops o) (hi : Image (labelAt 0 items) o (groups ops) words) :
    ∃ code, assemble false code = .ok words ∧ (assemble true code = .ok words ∨ assemble true code = .abort) := by
  obtain ⟨t, -, hz, hs, hl⟩ := laid_text h
  have ha : assemble false t = .ok words := by
    rw [assemble_iff, visible_of_no_nul hz]
    refine ⟨_, _, _, _, ?_, hs, hp, hi⟩
    intro name a
    rw [hl]
    simp only [Nat.zero_add]
  refine ⟨t, ha, ?_⟩
  rcases assembleWith_debug insnTable t with hd | hd
  · exact .inr hd
  · exact .inl (hd.trans ha)

/-- A label and an instruction that refers to it. -/
example : ∃ items ops o, items = [.label c!"a" 1, .token (.ident c!"SSY") 1, .token (.ident c!"a") 1, .token .semicolon 1] ∧
    Laid 0 items ∧ Program (labelAt 0 items) 0 {} (tokensOf items) ops o ∧
      Image (labelAt 0 items) o (groups ops) [0x001F8000FC0007E0, 0xE2900FFFFF870000, 0x50B0000000070F00, 0x50B0000000070F00] := by
  refine ⟨_, [⟨0xE2900FFFFF870000, 0, 0x7E0⟩], {}, rfl, ?_, ?_, ?_⟩
  · refine ⟨by decide, ⟨⟨_, _, rfl, by unfold letter; decide⟩, ?_⟩, ?_, Nat.le_refl 1, ⟨?_, by decide, by decide⟩, ⟨by decide, by decide⟩, Nat.le_refl 1,
      ⟨?_, by decide, by decide⟩, ⟨by decide, by decide⟩, Nat.le_refl 1, trivial, trivial, trivial⟩
    · unfold wordChar letter; decide
    all_goals exact .plain (.inl (by decide)) (by decide) (by unfold decimal; decide) (by decide) (by simp [Ends])
  · refine Program.insn (ts := [(.ident c!"SSY", 1), (.ident c!"a", 1), (.semicolon, 1)]) (rest := []) ?_ .done
    refine C70_grammar.2 ⟨none, ⟨0xE290000000000000, 1, c!"SSY", [.label]⟩, by decide +kernel, [.ident c!"a"], rfl, ?_⟩
    have h1 (v : BitVec 64) : Accepts ⟨labelAt 0 [.label c!"a" 1, .token (.ident c!"SSY") 1, .token (.ident c!"a") 1, .token .semicolon 1], addressOf 0⟩
        v .label [.ident c!"a"] .semicolon 0x00000FFFFF800000 0 :=
      ⟨rfl, 8, .inl ⟨_, 8, rfl, by decide, rfl⟩, by decide, by decide, by decide⟩
    exact RowText.mk (ks := [.ident c!"a"]) (ks' := []) (r := 0) (as := []) (by simp) (.cons (h1 _) .nil) .nil
  · exact .raw rfl (.inl rfl)

theorem laid_tokens {ks : List Kind} (h : ∀ k ∈ ks, Writable k ∧ Tidy k) : Laid 0 (ks.map fun k => .token k 0) := by
  induction ks with
  | nil => trivial
  | cons k ks ih => exact ⟨Nat.le_refl 0, (h k (by simp)).1, (h k (by simp)).2, ih fun x hx => h x (by simp [hx])⟩

theorem tokensOf_map (ks : List Kind) (l : Nat) : tokensOf (ks.map fun k => .token k l) = ks.map fun k => (k, l) := by
  induction ks with
  | nil => rfl
  | cons k ks ih => exact congrArg _ ih

theorem labelAt_map (ks : List Kind) (l i : Nat) (name : Str) : labelAt i (ks.map fun k => .token k l) name = none := by
  induction ks generalizing i with
  | nil => rfl
  | cons k ks ih => exact ih _

/-- C78: every instruction of the grammar whose tokens can be written is assembled from some source. -/
theorem C78_instructions {ks : List Kind} {op : Op} (h : InstrText ⟨fun _ => none, 8⟩ ks op) (hw : ∀ k ∈ ks, Writable k ∧ Tidy k) :
    ∃ code, assemble false code = .ok [control (some op) none none, op.value, filler, filler] := by
  have hlab : labelAt 0 (ks.map fun k => .token k 0) = fun _ => none := by
    funext name
    exact labelAt_map ks 0 0 name
  obtain ⟨code, hc, -⟩ := C78_programs (ops := [op]) (o := {}) (words := [control (some op) none none, op.value, filler, filler])
    (laid_tokens hw)
    (by
      rw [hlab, tokensOf_map]
      have := Program.insn (lab := fun _ => none) (i := 0) (o := {}) (o' := {}) (ts := ks.map fun k => (k, 0)) (rest := []) (op := op)
        (ops := []) (by rw [List.map_map]; simpa [Function.comp_def] using! h) .done
      simpa using this)
    (.raw rfl (.inl rfl))
  exact ⟨code, hc⟩

theorem floatField (b : BitVec 32) : b.setWidth 64 <<< 20 = field 20 (b.toNat ^^^ (2 ^ 31 * bit false)) := by
  apply BitVec.eq_of_toNat_eq
  rw [BitVec.toNat_shiftLeft, BitVec.toNat_setWidth, Nat.shiftLeft_eq]
  unfold field
  rw [BitVec.toNat_ofNat]
  simp only [bit, Bool.false_eq_true, if_false, Nat.mul_zero, Nat.xor_zero]
  have := b.isLt
  omega

theorem plainControl (v : BitVec 64) : Spec.control (some ⟨v, 0, 0x7E0⟩) none none = 0x001F8000FC0007E0 := by
  simp only [Spec.control, Spec.slot]
  decide

/-- C78: every binary32 number that is not NaN is the factor of some source with `FMUL32I`. -/
theorem C78_floats (b : BitVec 32) (h : b.toNat % 2 ^ 31 ≤ 0x7F800000) :
    ∃ code, assemble false code =
      .ok [0x001F8000FC0007E0, 0x1E00000000070000 ||| (b.setWidth 64 <<< 20), 0x50B0000000070F00, 0x50B0000000070F00] := by
  have hacc : InstrText ⟨fun _ => none, 8⟩
      [.ident c!"FMUL32I", .reg 0, .comma, .reg 0, .comma, .fimm b, .semicolon]
      ⟨0x1E00000000070000 ||| (b.setWidth 64 <<< 20), 0, 0x7e0⟩ := by
    refine C70_grammar.2 ⟨none, ⟨0x1E00000000000000, 0, c!"FMUL32I", [.dotTable (some 0) 53 [[], c!"FTZ", c!"FMZ", c!"INVALIDFMZ3"],
      .flag c!".SAT" 55, .gpr 0, .flag c!".CC" 52, .comma, .gpr 8, .comma, .fimm true]⟩,
      by decide +kernel, [.reg 0, .comma, .reg 0, .comma, .fimm b], rfl, ?_⟩
    rw [floatField b]
    have a1 (v : BitVec 64) : Accepts ⟨fun _ => none, 8⟩ v (.dotTable (some 0) 53 [[], c!"FTZ", c!"FMZ", c!"INVALIDFMZ3"]) [] (.reg 0) 0 0 :=
      ⟨rfl, .inr ⟨0, rfl, rfl, fun n _ h => (by cases h), rfl⟩⟩
    have a2 (v : BitVec 64) : Accepts ⟨fun _ => none, 8⟩ v (.flag c!".SAT" 55) [] (.reg 0) 0 0 := ⟨rfl, .inr ⟨rfl, by simp, rfl⟩⟩
    have a3 (v : BitVec 64) : Accepts ⟨fun _ => none, 8⟩ v (.gpr 0) [.reg 0] .comma 0 0 := ⟨0, [], rfl, rfl, .inr ⟨rfl, by simp, rfl⟩⟩
    have a4 (v : BitVec 64) : Accepts ⟨fun _ => none, 8⟩ v (.flag c!".CC" 52) [] .comma 0 0 := ⟨rfl, .inr ⟨rfl, by simp, rfl⟩⟩
    have a5 (v : BitVec 64) (k : Kind) : Accepts ⟨fun _ => none, 8⟩ v .comma [.comma] k 0 0 := ⟨rfl, rfl, rfl⟩
    have a6 (v : BitVec 64) : Accepts ⟨fun _ => none, 8⟩ v (.gpr 8) [.reg 0] .comma 0 0 := ⟨0, [], rfl, rfl, .inr ⟨rfl, by simp, rfl⟩⟩
    have a7 (v : BitVec 64) : Accepts ⟨fun _ => none, 8⟩ v (.fimm true) [.fimm b] .semicolon
        (field 20 (b.toNat ^^^ (2 ^ 31 * bit false))) 0 := ⟨rfl, false, b, .float, rfl⟩
    exact RowText.mk (ks := [.reg 0, .comma, .reg 0, .comma, .fimm b]) (ks' := []) (r := 0) (as := []) (by simp)
      (.cons (ks := []) (a1 _) (.cons (ks := []) (a2 _) (.cons (ks := [.reg 0]) (a3 _) (.cons (ks := []) (a4 _) (.cons (ks := [.comma]) (a5 _ _)
        (.cons (ks := [.reg 0]) (a6 _) (.cons (ks := [.comma]) (a5 _ _) (.cons (ks := [.fimm b]) (a7 _) .nil)))))))) .nil
  obtain ⟨code, hc⟩ := C78_instructions hacc (by
    simp only [List.forall_mem_cons]
    refine ⟨⟨⟨.plain (.inl (by decide)) (by decide) (by unfold decimal; decide) (by decide) (by simp [Ends]), by decide, by decide⟩, by decide, by decide⟩,
      ⟨?_, trivial⟩, ⟨trivial, trivial⟩, ⟨?_, trivial⟩, ⟨trivial, trivial⟩, ⟨h, trivial⟩, ⟨trivial, trivial⟩, by simp⟩
    · exact Nat.zero_le 255
    · exact Nat.zero_le 255)
  refine ⟨code, ?_⟩
  rw [hc, plainControl]
  rfl

/-- The least denormalized number. -/
example : ∃ code, assemble false code = .ok [0x001F8000FC0007E0, 0x1E00000000170000, 0x50B0000000070F00, 0x50B0000000070F00] :=
  C78_floats 1 (by decide)

end Nxas
