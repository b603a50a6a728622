import Verif.Lemmas.Spell
import Verif.Props.Solid
/-
C113: there are several ways to write an instruction.
-/

namespace Nxas

open Spec

/-- C113. A source with the instructions of an accepted one written in another way (`@PT` and `@WAIT 0` written or left out, annotations in another order,
    `@Y` or `@YIELD`) is accepted by the build without assertions and has the same output, also if its options are arranged in another way. -/
theorem C113_spelled {d : Bool} {a b : Str} {ws : List (BitVec 64)} {ta tb : List (Kind × Nat)} {us us' os os' : List (List Kind)} {f : Str → Option Nat}
    (h : assemble d a = .ok ws) (sa : Scans 0 (visible a) ta) (sb : Scans 0 (visible b) tb) (la : IsLabelMap (visible a) f) (lb : IsLabelMap (visible b) f)
    (ha : Listed (ta.map Prod.fst) us os) (hb : Neat tb us' os') (hu : List.Forall₂ Spelled us us') (hr : Rearranged os os') : assemble false b = .ok ws := by
  obtain ⟨f', ts', ops, o, l1, s1, p1, i1⟩ := accepted h
  obtain rfl := scans_unique (visible_no_nul a) sa s1
  obtain rfl := IsLabelMap.unique la l1
  obtain ⟨us1, os1, h1, h2, h3⟩ := program_listed p1
  obtain ⟨rfl, rfl⟩ := Listed.unique h1 ha
  exact assemble_iff.2 ⟨f, tb, ops, o, lb, sb, neat_program hb (codes_spelled h2 hu) (chain_rearranged h3 hr), i1⟩

/-- C113. So it is by the build with assertions, if there are as many semicolons. -/
theorem C113_debug {a b : Str} {ws : List (BitVec 64)} {ta tb : List (Kind × Nat)} {us us' os os' : List (List Kind)} {f : Str → Option Nat}
    (h : assemble true a = .ok ws) (sa : Scans 0 (visible a) ta) (sb : Scans 0 (visible b) tb) (la : IsLabelMap (visible a) f) (lb : IsLabelMap (visible b) f)
    (ha : Listed (ta.map Prod.fst) us os) (hb : Neat tb us' os') (hu : List.Forall₂ Spelled us us') (hr : Rearranged os os')
    (hn : b.count ';' = a.count ';') : assemble true b = .ok ws := by
  obtain ⟨f', ts', ops, o, l1, s1, p1, i1⟩ := accepted h
  obtain rfl := scans_unique (visible_no_nul a) sa s1
  obtain rfl := IsLabelMap.unique la l1
  obtain ⟨us1, os1, h1, h2, h3⟩ := program_listed p1
  obtain ⟨rfl, rfl⟩ := Listed.unique h1 ha
  obtain ⟨-, h4, h5⟩ := (C102_debug sa (Listed.splits ha) ws).1 h
  have h6 := Listed.splits (neat_listed hb (codes_spelled h2 hu) (chain_rearranged h3 hr))
  refine (C102_debug sb h6 ws).2 ⟨C113_spelled h sa sb la lb ha hb hu hr, by rw [← hu.length_eq, h4, hn], fun u' hm hc => ?_⟩
  obtain ⟨j, hj, rfl⟩ := List.mem_iff_getElem.1 hm
  have hj' : j < us1.length := by rw [hu.length_eq]; exact hj
  exact h5 _ (List.getElem_mem hj') (unsound_spelled (hu.get hj' hj) hc)

/-- C113. The ways to write an instruction are equivalent. -/
theorem C113_symm {u u' : List Kind} (h : Spelled u u') : Spelled u' u := by
  cases h with
  | mk hg hk hx hy ha => exact .mk hg.symm hk hy hx fun n hn => (ha n hn).symm

/-- C113. So of two sources that differ in this way both are accepted or none. -/
theorem C113_iff {a b : Str} {ws : List (BitVec 64)} {ta tb : List (Kind × Nat)} {us us' os : List (List Kind)} {f : Str → Option Nat}
    (sa : Scans 0 (visible a) ta) (sb : Scans 0 (visible b) tb) (la : IsLabelMap (visible a) f) (lb : IsLabelMap (visible b) f)
    (ha : Listed (ta.map Prod.fst) us os) (na : Neat ta us os) (hb : Listed (tb.map Prod.fst) us' os) (nb : Neat tb us' os) (hu : List.Forall₂ Spelled us us') :
    assemble false a = .ok ws ↔ assemble false b = .ok ws :=
  have hr : Rearranged os os := ⟨fun _ h => h, rfl, fun _ _ => rfl⟩
  ⟨fun h => C113_spelled h sa sb la lb ha nb hu hr, fun h => C113_spelled h sb sa lb la hb na (hu.flip.imp fun _ _ => C113_symm) hr⟩

/-- Instructions of `C113_case`. -/
def Spec.written : List (List Kind) :=
  [[.at, .pred 7 false, .ident c!"BRA", .ident c!"L", .at, .ident c!"WAIT", .imm 0, .at, .ident c!"Y", .at, .ident c!"DEP", .imm 3, .semicolon],
    [.ident c!"EXIT", .semicolon]]

/-- The same instructions. -/
def Spec.rewritten : List (List Kind) :=
  [[.ident c!"BRA", .ident c!"L", .at, .ident c!"DEP", .imm 3, .at, .ident c!"YIELD", .semicolon],
    [.at, .pred 7 false, .ident c!"EXIT", .at, .ident c!"WAIT", .imm 0, .semicolon]]

theorem written_spelled : List.Forall₂ Spelled written rewritten := by
  refine .cons ?_ (.cons ?_ .nil)
  · exact .mk (g := some (7, false)) (g' := none) (m := c!"BRA") (ks := [.ident c!"L"]) (as := [.wait 0, .yield, .dep 3]) (as' := [.dep 3, .yield]) rfl (by decide)
      (.cons (.wait (by omega)) (by simp [Annot.clash]) (.cons .y (by simp [Annot.clash]) (.cons (.dep (by omega)) (by simp) .nil)))
      (.cons (.dep (by omega)) (by simp [Annot.clash]) (.cons .yield (by simp) .nil))
      (fun n hn => by simp only [List.mem_cons, List.not_mem_nil, or_false, hn, false_or]; exact or_comm)
  · exact .mk (g := none) (g' := some (7, false)) (m := c!"EXIT") (ks := []) (as := []) (as' := [.wait 0]) rfl (by decide) .nil
      (.cons (.wait (by omega)) (by simp) .nil) (fun n hn => by simp [hn])

/-- A source with these instructions, a label and an option. -/
theorem C113_case : (∃ ws, assemble true c!".type compute\nL:\n@PT BRA L @WAIT 0 @Y @DEP 3;\nEXIT;" = .ok ws) ∧
    ∃ ta tb f, Scans 0 (visible c!".type compute\nL:\n@PT BRA L @WAIT 0 @Y @DEP 3;\nEXIT;") ta ∧
      Scans 0 (visible c!".type compute\nL:\nBRA L @DEP 3 @YIELD;\n@PT EXIT @WAIT 0;") tb ∧
      IsLabelMap (visible c!".type compute\nL:\n@PT BRA L @WAIT 0 @Y @DEP 3;\nEXIT;") f ∧
      IsLabelMap (visible c!".type compute\nL:\nBRA L @DEP 3 @YIELD;\n@PT EXIT @WAIT 0;") f ∧
      Listed (ta.map Prod.fst) written [[.ident c!".type", .ident c!"compute"]] ∧ Neat tb rewritten [[.ident c!".type", .ident c!"compute"]] ∧
      Rearranged [[.ident c!".type", .ident c!"compute"]] [[.ident c!".type", .ident c!"compute"]] := by
  constructor
  · have : (match assemble true c!".type compute\nL:\n@PT BRA L @WAIT 0 @Y @DEP 3;\nEXIT;" with
      | .ok _ => true | _ => false) = true := by decide +kernel
    revert this
    generalize assemble true _ = r
    intro h
    cases r with
    | ok ws => exact ⟨ws, rfl⟩
    | _ => cases h
  refine ⟨[(.ident c!".type", 0), (.ident c!"compute", 0)] ++ ([.at, .pred 7 false, .ident c!"BRA", .ident c!"L", .at, .ident c!"WAIT", .imm 0, .at, .ident c!"Y",
      .at, .ident c!"DEP", .imm 3, .semicolon].map (·, 2) ++ [.ident c!"EXIT", .semicolon].map (·, 3)),
    [.ident c!".type", .ident c!"compute"].map (·, 0) ++ (.ident c!"BRA", 2) :: ([.ident c!"L", .at, .ident c!"DEP", .imm 3, .at, .ident c!"YIELD", .semicolon].map (·, 2) ++
      [.at, .pred 7 false, .ident c!"EXIT", .at, .ident c!"WAIT", .imm 0, .semicolon].map (·, 3)), Labels.find [(c!"L", 8)],
    lexAll_scans (n := 60) (by decide) (by decide +kernel), lexAll_scans (n := 60) (by decide) (by decide +kernel),
    fun name a => genLabels_find (by decide +kernel) name a, fun name a => genLabels_find (by decide +kernel) name a, ?_, ?_, ⟨by decide, by decide, by decide⟩⟩
  · have hat : ¬ IsOptionWord .at := by rintro ⟨w, h, -⟩; cases h
    have hexit : ¬ IsOptionWord (.ident c!"EXIT") := by rintro ⟨w, h, hw⟩; cases h; simp at hw
    exact .option (vs := [.ident c!"compute"]) rfl rfl (.insn (u := [.pred 7 false, .ident c!"BRA", .ident c!"L", .at, .ident c!"WAIT", .imm 0, .at, .ident c!"Y",
      .at, .ident c!"DEP", .imm 3]) hat (by decide) (.insn (u := []) hexit (by decide) .done))
  · exact .option (v := [.ident c!".type", .ident c!"compute"]) (l := 0) (by decide)
      (.insn (ts := (.ident c!"BRA", 2) :: ([.ident c!"L", .at, .ident c!"DEP", .imm 3, .at, .ident c!"YIELD", .semicolon] : List Kind).map (·, 2))
        (.insn (ts := ([.at, .pred 7 false, .ident c!"EXIT", .at, .ident c!"WAIT", .imm 0, .semicolon] : List Kind).map (·, 3)) .done))

example : ∃ ws, assemble true c!".type compute\nL:\n@PT BRA L @WAIT 0 @Y @DEP 3;\nEXIT;" = .ok ws ∧
    assemble true c!".type compute\nL:\nBRA L @DEP 3 @YIELD;\n@PT EXIT @WAIT 0;" = .ok ws := by
  obtain ⟨⟨ws, h⟩, ta, tb, f, sa, sb, la, lb, ha, hb, hr⟩ := C113_case
  exact ⟨ws, h, C113_debug h sa sb la lb ha hb written_spelled hr (by decide)⟩

/-- Two sources that are rejected, or would be accepted, together: the register is missing. -/
example (ws : List (BitVec 64)) : assemble false c!"MOV R0, @Y;" = .ok ws ↔ assemble false c!"@PT MOV R0, @WAIT 0 @YIELD;" = .ok ws := by
  have hmov : ¬ IsOptionWord (.ident c!"MOV") := by rintro ⟨w, h, hw⟩; cases h; simp at hw
  have hat : ¬ IsOptionWord .at := by rintro ⟨w, h, -⟩; cases h
  refine C113_iff (ta := ([.ident c!"MOV", .reg 0, .comma, .at, .ident c!"Y", .semicolon] : List Kind).map (·, 0))
    (tb := ([.at, .pred 7 false, .ident c!"MOV", .reg 0, .comma, .at, .ident c!"WAIT", .imm 0, .at, .ident c!"YIELD", .semicolon] : List Kind).map (·, 0))
    (f := Labels.find []) (os := []) (us := [[.ident c!"MOV", .reg 0, .comma, .at, .ident c!"Y", .semicolon]])
    (us' := [[.at, .pred 7 false, .ident c!"MOV", .reg 0, .comma, .at, .ident c!"WAIT", .imm 0, .at, .ident c!"YIELD", .semicolon]])
    (lexAll_scans (n := 30) (by decide) (by decide +kernel)) (lexAll_scans (n := 30) (by decide) (by decide +kernel))
    (fun name a => genLabels_find (by decide +kernel) name a) (fun name a => genLabels_find (by decide +kernel) name a)
    (.insn (u := [.reg 0, .comma, .at, .ident c!"Y"]) hmov (by decide) .done) ?_
    (.insn (u := [.pred 7 false, .ident c!"MOV", .reg 0, .comma, .at, .ident c!"WAIT", .imm 0, .at, .ident c!"YIELD"]) hat (by decide) .done) ?_ (.cons ?_ .nil)
  · exact .insn (ts := ([.ident c!"MOV", .reg 0, .comma, .at, .ident c!"Y", .semicolon] : List Kind).map (·, 0)) .done
  · exact .insn (ts := ([.at, .pred 7 false, .ident c!"MOV", .reg 0, .comma, .at, .ident c!"WAIT", .imm 0, .at, .ident c!"YIELD", .semicolon] : List Kind).map (·, 0)) .done
  · exact .mk (g := none) (g' := some (7, false)) (m := c!"MOV") (ks := [.reg 0, .comma]) (as := [.yield]) (as' := [.wait 0, .yield]) rfl (by decide)
      (.cons .y (by simp) .nil) (.cons (.wait (by omega)) (by simp [Annot.clash]) (.cons .yield (by simp) .nil)) (fun n hn => by simp [hn])

/-- The other annotations and `@!PT` cannot be left out. -/
theorem C113_needed : ∀ b ∈ [c!"NOP @WAIT 1;", c!"NOP @WB 0;", c!"NOP @RB 0;", c!"NOP @Y;", c!"NOP @DEP 0;", c!"@!PT NOP;"],
    (match assemble true b, assemble true c!"NOP;" with | .ok ws, .ok ws' => decide (ws ≠ ws') | _, _ => false) = true := by decide +kernel

end Nxas
