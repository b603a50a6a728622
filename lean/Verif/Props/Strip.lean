import Verif.Lemmas.Strip
import Verif.Props.Containers
/-
C114: reuse flags can be left out.
-/

namespace Nxas

open Spec

/-- C114. A source with the instructions of an accepted one, all without `.reuse`, is accepted by the build without assertions, and the output is the same
    but for the reuse flags in the control words, which are zero. -/
theorem C114_raw {d : Bool} {a b : Str} {ws : List (BitVec 64)} {ta tb : List (Kind × Nat)} {us os os' : List (List Kind)} {f : Str → Option Nat}
    (h : assemble d a = .ok ws) (sa : Scans 0 (visible a) ta) (sb : Scans 0 (visible b) tb) (la : IsLabelMap (visible a) f) (lb : IsLabelMap (visible b) f)
    (ha : Listed (ta.map Prod.fst) us os) (hb : Neat tb (us.map unmarked) os') (hr : Rearranged os os') (da : ∀ t ∈ ta, t.1 ≠ .ident c!".dksh") :
    assemble false b = .ok (unflagged 0 ws) := by
  obtain ⟨f', ts', ops, o, l1, s1, p1, i1⟩ := accepted h
  obtain rfl := scans_unique (visible_no_nul a) sa s1
  obtain rfl := IsLabelMap.unique la l1
  obtain ⟨rfl, hi⟩ := raw_image la p1 da i1
  obtain ⟨us1, os1, h1, h2, h3⟩ := program_listed p1
  obtain ⟨rfl, rfl⟩ := Listed.unique h1 ha
  obtain ⟨h4, h5⟩ := codes_strip (no_reuse la) h2
  have h6 : unflagged 0 (groups ops) = groups (ops.map Op.unflagged) := by
    apply List.ext_getElem?
    intro j
    rw [groups_unflagged h5, unflagged, List.getElem?_mapIdx]
    simp
  rw [h6]
  exact assemble_iff.2 ⟨f, tb, _, o, lb, sb, neat_program hb h4 (chain_rearranged h3 hr), hi _⟩

/-- C114. The same with a container. -/
theorem C114_container {d : Bool} {a b : Str} {ws : List (BitVec 64)} {ta tb : List (Kind × Nat)} {us os os' : List (List Kind)} {f : Str → Option Nat}
    (h : assemble d a = .ok ws) (sa : Scans 0 (visible a) ta) (sb : Scans 0 (visible b) tb) (la : IsLabelMap (visible a) f) (lb : IsLabelMap (visible b) f)
    (ha : Listed (ta.map Prod.fst) us os) (hb : Neat tb (us.map unmarked) os') (hr : Rearranged os os') (da : DkshSource ta) :
    assemble false b = .ok (unflagged 32 ws) := by
  obtain ⟨f', ops, o, l1, p1, i1, hdecl⟩ := accepted_declares h sa
  have hdk : o.isDksh = true := by
    rcases hdecl with ⟨-, -, h1⟩ | ⟨-, h1⟩
    · obtain ⟨pre, d, l, w, post, rfl, h2, -⟩ := da
      exact absurd ⟨d, true, h2, rfl⟩ (h1 (.ident d, l) (by simp))
    · exact declares_unique h1 da
  obtain rfl := IsLabelMap.unique la l1
  obtain ⟨us1, os1, h1, h2, h3⟩ := program_listed p1
  obtain ⟨rfl, rfl⟩ := Listed.unique h1 ha
  obtain ⟨h4, h5⟩ := codes_strip (no_reuse la) h2
  have hlen : (groups (ops.map Op.unflagged)).length = (groups ops).length := by rw [groups_length, groups_length, List.length_map]
  cases i1 with
  | raw hd => rw [hdk] at hd; cases hd
  | @dksh entry hd ht hm he hs =>
    have h6 : unflagged 32 (dkshControl o (groups ops).length entry ++ groups ops ++ List.replicate (32 - (groups ops).length % 32) 0) =
        dkshControl o (groups (ops.map Op.unflagged)).length entry ++ groups (ops.map Op.unflagged) ++
          List.replicate (32 - (groups (ops.map Op.unflagged)).length % 32) 0 := by
      have h32 : (dkshControl o (groups ops).length entry).length = 32 := by simp [dkshControl]
      rw [hlen]
      exact unflagged_container h32 (groups_unflagged h5) _
    rw [h6]
    exact assemble_iff.2 ⟨f, tb, _, o, lb, sb, neat_program hb h4 (chain_rearranged h3 hr), .dksh hd ht hm he hs⟩

/-- The instructions of the cases. -/
def Spec.marked : List (List Kind) :=
  [[.ident c!"MOV", .reg 0, .comma, .reg 1, .ident c!".reuse", .semicolon], [.ident c!"BRA", .ident c!"main", .semicolon]]

/-- A source with a reuse flag, and the same without. -/
example : assemble true c!"main:\nMOV R0, R1.reuse;\nBRA main;" = .ok [0x001f8000fc0407e0, 0x5c98078000170000, 0xe2400fffff07000f, 0x50b0000000070f00] ∧
    assemble false c!"main:\nMOV R0, R1;\nBRA main;" = .ok [0x001f8000fc0007e0, 0x5c98078000170000, 0xe2400fffff07000f, 0x50b0000000070f00] := by
  have h : assemble true c!"main:\nMOV R0, R1.reuse;\nBRA main;" = .ok [0x001f8000fc0407e0, 0x5c98078000170000, 0xe2400fffff07000f, 0x50b0000000070f00] := by decide +kernel
  have hmov : ¬ IsOptionWord (.ident c!"MOV") := by rintro ⟨w, h, hw⟩; cases h; simp at hw
  have hbra : ¬ IsOptionWord (.ident c!"BRA") := by rintro ⟨w, h, hw⟩; cases h; simp at hw
  refine ⟨h, ?_⟩
  have := C114_raw (b := c!"main:\nMOV R0, R1;\nBRA main;") (us := marked) (os := []) (os' := []) (f := Labels.find [(c!"main", 8)])
    (ta := [(.ident c!"MOV", 1), (.reg 0, 1), (.comma, 1), (.reg 1, 1), (.ident c!".reuse", 1), (.semicolon, 1), (.ident c!"BRA", 2), (.ident c!"main", 2), (.semicolon, 2)])
    (tb := [(.ident c!"MOV", 1), (.reg 0, 1), (.comma, 1), (.reg 1, 1), (.semicolon, 1), (.ident c!"BRA", 2), (.ident c!"main", 2), (.semicolon, 2)])
    h (lexAll_scans (n := 30) (by decide) (by decide +kernel)) (lexAll_scans (n := 30) (by decide) (by decide +kernel))
    (fun name a => genLabels_find (by decide +kernel) name a) (fun name a => genLabels_find (by decide +kernel) name a)
    (.insn (u := [.reg 0, .comma, .reg 1, .ident c!".reuse"]) hmov (by decide) (.insn (u := [.ident c!"main"]) hbra (by decide) .done))
    (.insn (ts := [(.ident c!"MOV", 1), (.reg 0, 1), (.comma, 1), (.reg 1, 1), (.semicolon, 1)])
      (.insn (ts := [(.ident c!"BRA", 2), (.ident c!"main", 2), (.semicolon, 2)]) .done))
    ⟨by simp, rfl, fun _ _ => rfl⟩ (by decide)
  rw [this]
  decide +kernel

/-- The same in a container. -/
example : ∃ ws, assemble true c!".dksh compute\nmain:\nMOV R0, R1.reuse;\nBRA main;" = .ok ws ∧
    assemble false c!".dksh compute\nmain:\nMOV R0, R1;\nBRA main;" = .ok (unflagged 32 ws) := by
  obtain ⟨ws, h⟩ : ∃ ws, assemble true c!".dksh compute\nmain:\nMOV R0, R1.reuse;\nBRA main;" = .ok ws := by
    have : (match assemble true c!".dksh compute\nmain:\nMOV R0, R1.reuse;\nBRA main;" with | .ok _ => true | _ => false) = true := by decide +kernel
    revert this
    generalize assemble true _ = r
    intro h
    cases r with
    | ok ws => exact ⟨ws, rfl⟩
    | _ => cases h
  have hmov : ¬ IsOptionWord (.ident c!"MOV") := by rintro ⟨w, h, hw⟩; cases h; simp at hw
  have hbra : ¬ IsOptionWord (.ident c!"BRA") := by rintro ⟨w, h, hw⟩; cases h; simp at hw
  refine ⟨ws, h, ?_⟩
  refine C114_container (us := marked) (os := [[.ident c!".dksh", .ident c!"compute"]]) (os' := [[.ident c!".dksh", .ident c!"compute"]]) (f := Labels.find [(c!"main", 8)])
    (ta := [(.ident c!".dksh", 0), (.ident c!"compute", 0), (.ident c!"MOV", 2), (.reg 0, 2), (.comma, 2), (.reg 1, 2), (.ident c!".reuse", 2), (.semicolon, 2),
      (.ident c!"BRA", 3), (.ident c!"main", 3), (.semicolon, 3)])
    (tb := [(.ident c!".dksh", 0), (.ident c!"compute", 0), (.ident c!"MOV", 2), (.reg 0, 2), (.comma, 2), (.reg 1, 2), (.semicolon, 2),
      (.ident c!"BRA", 3), (.ident c!"main", 3), (.semicolon, 3)])
    h (lexAll_scans (n := 40) (by decide) (by decide +kernel)) (lexAll_scans (n := 40) (by decide) (by decide +kernel))
    (fun name a => genLabels_find (by decide +kernel) name a) (fun name a => genLabels_find (by decide +kernel) name a)
    (.option (vs := [.ident c!"compute"]) rfl rfl
      (.insn (u := [.reg 0, .comma, .reg 1, .ident c!".reuse"]) hmov (by decide) (.insn (u := [.ident c!"main"]) hbra (by decide) .done)))
    (.option (v := [.ident c!".dksh", .ident c!"compute"]) (l := 0) (by decide) (.insn (ts := [(.ident c!"MOV", 2), (.reg 0, 2), (.comma, 2), (.reg 1, 2), (.semicolon, 2)])
      (.insn (ts := [(.ident c!"BRA", 3), (.ident c!"main", 3), (.semicolon, 3)]) .done)))
    ⟨fun _ h => h, rfl, fun _ _ => rfl⟩ ⟨[], c!".dksh", 0, c!"compute", [(.ident c!"MOV", 2), (.reg 0, 2), (.comma, 2), (.reg 1, 2), (.ident c!".reuse", 2),
      (.semicolon, 2), (.ident c!"BRA", 3), (.ident c!"main", 3), (.semicolon, 3)], rfl, by decide, by decide, by decide⟩

end Nxas
