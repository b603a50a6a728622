import Verif.Lemmas.Arrange
import Verif.Props.Solid
/-
C111: where the options are does not matter.
-/

namespace Nxas

open Spec

/-- C111. The tokens of an accepted source are instructions and options, in one way. -/
theorem C111_listed {d : Bool} {a : Str} {ws : List (BitVec 64)} {ts : List (Kind × Nat)} (h : assemble d a = .ok ws) (sa : Scans 0 (visible a) ts) :
    ∃ us os, Listed (ts.map Prod.fst) us os ∧ ∀ us' os', Listed (ts.map Prod.fst) us' os' → us' = us ∧ os' = os := by
  obtain ⟨f, ts', ops, o, -, s1, p1, -⟩ := accepted h
  obtain rfl := scans_unique (visible_no_nul a) sa s1
  obtain ⟨us, os, h1, -⟩ := program_listed p1
  exact ⟨us, os, h1, fun us' os' h2 => Listed.unique h2 h1⟩

/-- C111. A source with the instructions and labels of an accepted one, and its options at other places, in another order, some of them repeated or left out,
    is accepted by the build without assertions and has the same output, provided that the type of the program is declared as before, that of each size the
    last one is the same, and that the options are in lines of their own. -/
theorem C111_options {d : Bool} {a b : Str} {ws : List (BitVec 64)} {ta tb : List (Kind × Nat)} {us os os' : List (List Kind)} {f : Str → Option Nat}
    (h : assemble d a = .ok ws) (sa : Scans 0 (visible a) ta) (sb : Scans 0 (visible b) tb) (la : IsLabelMap (visible a) f) (lb : IsLabelMap (visible b) f)
    (ha : Listed (ta.map Prod.fst) us os) (hb : Neat tb us os') (hr : Rearranged os os') : assemble false b = .ok ws := by
  obtain ⟨f', ts', ops, o, l1, s1, p1, i1⟩ := accepted h
  obtain rfl := scans_unique (visible_no_nul a) sa s1
  obtain rfl := IsLabelMap.unique la l1
  obtain ⟨us1, os1, h1, h2, h3⟩ := program_listed p1
  obtain ⟨rfl, rfl⟩ := Listed.unique h1 ha
  exact assemble_iff.2 ⟨f, tb, ops, o, lb, sb, neat_program hb h2 (chain_rearranged h3 hr), i1⟩

/-- C111. So it is by the build with assertions, if there are as many semicolons. -/
theorem C111_debug {a b : Str} {ws : List (BitVec 64)} {ta tb : List (Kind × Nat)} {us os os' : List (List Kind)} {f : Str → Option Nat}
    (h : assemble true a = .ok ws) (sa : Scans 0 (visible a) ta) (sb : Scans 0 (visible b) tb) (la : IsLabelMap (visible a) f) (lb : IsLabelMap (visible b) f)
    (ha : Listed (ta.map Prod.fst) us os) (hb : Neat tb us os') (hr : Rearranged os os') (hn : b.count ';' = a.count ';') : assemble true b = .ok ws := by
  obtain ⟨f', ts', ops, o, l1, s1, p1, i1⟩ := accepted h
  obtain rfl := scans_unique (visible_no_nul a) sa s1
  obtain rfl := IsLabelMap.unique la l1
  obtain ⟨us1, os1, h1, h2, h3⟩ := program_listed p1
  obtain ⟨rfl, rfl⟩ := Listed.unique h1 ha
  obtain ⟨-, h4, h5⟩ := (C102_debug sa (Listed.splits ha) ws).1 h
  have h6 := Listed.splits (neat_listed hb h2 (chain_rearranged h3 hr))
  exact (C102_debug sb h6 ws).2 ⟨C111_options h sa sb la lb ha hb hr, by rw [h4, hn], h5⟩

/-- The options of `C111_case`. -/
def Spec.before : List (List Kind) := [[.ident c!".dksh", .ident c!"compute"], [.ident c!".shared_memory", .imm 4], [.ident c!".foo"],
  [.ident c!".workgroup_size", .imm 8, .imm 4, .imm 2], [.ident c!".shared_memory", .imm 512]]

/-- The options of the other source there. -/
def Spec.after : List (List Kind) := [[.ident c!".shared_memory", .imm 512], [.ident c!".workgroup_size", .imm 8, .imm 4, .imm 2],
  [.ident c!".dksh", .ident c!"compute"]]

/-- A container: the options are elsewhere, a size that does not count and an unknown option are left out. -/
theorem C111_case : (∃ ws, assemble true c!".dksh compute\nmain:\n.shared_memory 4\nNOP;\n.foo\n.workgroup_size 8 4 2\n.shared_memory 512\nEXIT;" = .ok ws) ∧
    ∃ ta tb f us, Scans 0 (visible c!".dksh compute\nmain:\n.shared_memory 4\nNOP;\n.foo\n.workgroup_size 8 4 2\n.shared_memory 512\nEXIT;") ta ∧
      Scans 0 (visible c!".shared_memory 512\nmain:\nNOP;\n.workgroup_size 8 4 2\n.dksh compute\nEXIT;") tb ∧
      IsLabelMap (visible c!".dksh compute\nmain:\n.shared_memory 4\nNOP;\n.foo\n.workgroup_size 8 4 2\n.shared_memory 512\nEXIT;") f ∧
      IsLabelMap (visible c!".shared_memory 512\nmain:\nNOP;\n.workgroup_size 8 4 2\n.dksh compute\nEXIT;") f ∧
      Listed (ta.map Prod.fst) us before ∧ Neat tb us after ∧ Rearranged before after := by
  constructor
  · have : (match assemble true c!".dksh compute\nmain:\n.shared_memory 4\nNOP;\n.foo\n.workgroup_size 8 4 2\n.shared_memory 512\nEXIT;" with
      | .ok _ => true | _ => false) = true := by decide +kernel
    revert this
    generalize assemble true _ = r
    intro h
    cases r with
    | ok ws => exact ⟨ws, rfl⟩
    | _ => cases h
  refine ⟨[(.ident c!".dksh", 0), (.ident c!"compute", 0), (.ident c!".shared_memory", 2), (.imm 4, 2), (.ident c!"NOP", 3), (.semicolon, 3), (.ident c!".foo", 4),
    (.ident c!".workgroup_size", 5), (.imm 8, 5), (.imm 4, 5), (.imm 2, 5), (.ident c!".shared_memory", 6), (.imm 512, 6), (.ident c!"EXIT", 7), (.semicolon, 7)],
    [(.ident c!".shared_memory", 0), (.imm 512, 0), (.ident c!"NOP", 2), (.semicolon, 2), (.ident c!".workgroup_size", 3), (.imm 8, 3), (.imm 4, 3), (.imm 2, 3),
    (.ident c!".dksh", 4), (.ident c!"compute", 4), (.ident c!"EXIT", 5), (.semicolon, 5)], Labels.find [(c!"main", 8)],
    [[.ident c!"NOP", .semicolon], [.ident c!"EXIT", .semicolon]],
    lexAll_scans (n := 60) (by decide) (by decide +kernel), lexAll_scans (n := 60) (by decide) (by decide +kernel),
    fun name a => genLabels_find (by decide +kernel) name a, fun name a => genLabels_find (by decide +kernel) name a, ?_, ?_, ?_⟩
  · have hnop : ¬ IsOptionWord (.ident c!"NOP") := by rintro ⟨w, h, hw⟩; cases h; simp at hw
    have hexit : ¬ IsOptionWord (.ident c!"EXIT") := by rintro ⟨w, h, hw⟩; cases h; simp at hw
    exact .option (vs := [.ident c!"compute"]) rfl rfl (.option (vs := [.imm 4]) rfl rfl (.insn (u := []) hnop (by decide) (.option (vs := []) rfl rfl
      (.option (vs := [.imm 8, .imm 4, .imm 2]) rfl rfl (.option (vs := [.imm 512]) rfl rfl (.insn (u := []) hexit (by decide) .done))))))
  · exact .option (v := [.ident c!".shared_memory", .imm 512]) (l := 0) (by decide) (.insn (ts := [(.ident c!"NOP", 2), (.semicolon, 2)])
      (.option (v := [.ident c!".workgroup_size", .imm 8, .imm 4, .imm 2]) (l := 3) (by decide) (.option (v := [.ident c!".dksh", .ident c!"compute"]) (l := 4) (by decide)
      (.insn (ts := [(.ident c!"EXIT", 5), (.semicolon, 5)]) .done))))
  · exact ⟨by decide, by decide, by decide⟩

example : ∃ ws, assemble true c!".dksh compute\nmain:\n.shared_memory 4\nNOP;\n.foo\n.workgroup_size 8 4 2\n.shared_memory 512\nEXIT;" = .ok ws ∧
    assemble true c!".shared_memory 512\nmain:\nNOP;\n.workgroup_size 8 4 2\n.dksh compute\nEXIT;" = .ok ws := by
  obtain ⟨⟨ws, h⟩, ta, tb, f, us, sa, sb, la, lb, ha, hb, hr⟩ := C111_case
  exact ⟨ws, h, C111_debug h sa sb la lb ha hb hr (by decide)⟩

/-- The last size counts, so two sizes cannot change places. -/
theorem C111_last : (match assemble true c!".dksh compute\n.shared_memory 4\n.shared_memory 512\nmain:\nNOP;",
    assemble true c!".dksh compute\n.shared_memory 512\n.shared_memory 4\nmain:\nNOP;" with
    | .ok ws, .ok ws' => decide (ws ≠ ws')
    | _, _ => false) = true := by decide +kernel

/-- An option and what follows cannot be in one line. -/
theorem C111_lines : (∃ ws, assemble true c!".type compute\nNOP;" = .ok ws) ∧ ¬ ∃ ws, assemble false c!".type compute NOP;" = .ok ws := by
  constructor
  · exact ⟨[0x001f8000fc0007e0, 0x50b0000000070f00, 0x50b0000000070f00, 0x50b0000000070f00], by decide +kernel⟩
  · rintro ⟨ws, h⟩
    have : (match assemble false c!".type compute NOP;" with | .ok _ => false | _ => true) = true := by decide +kernel
    rw [h] at this
    cases this

end Nxas
