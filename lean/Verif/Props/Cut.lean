import Verif.Lemmas.Cut
/-
C112: the code in a container can be cut out of it without knowing its size.
-/

namespace Nxas

open Spec

/-- C112. In the image of a source without container, every word that is not a control word is at least 2^56. -/
theorem C112_words {d : Bool} {a : Str} {ws : List (BitVec 64)} {ts : List (Kind × Nat)} (h : assemble d a = .ok ws) (sa : Scans 0 (visible a) ts)
    (da : ∀ t ∈ ts, t.1 ≠ .ident c!".dksh") {j : Nat} {w : BitVec 64} (hj : ws[j]? = some w) (hc : j % 4 ≠ 0) : 2 ^ 56 ≤ w.toNat := by
  obtain ⟨f, ts', ops, o, hl, s1, p1, i1⟩ := accepted h
  obtain rfl := scans_unique (visible_no_nul a) sa s1
  obtain ⟨rfl, -⟩ := raw_image hl p1 da i1
  exact groups_large (program_large p1) hj hc

/-- C112. The code in a container is what is behind its 32 words, without the zeros at the end: it has the groups of the source, and it is what the same
    program is assembled to with `.type` in the place of `.dksh`. -/
theorem C112_cut {d : Bool} {a : Str} {ws : List (BitVec 64)} {ts : List (Kind × Nat)} (h : assemble d a = .ok ws) (sa : Scans 0 (visible a) ts)
    (da : DkshSource ts) : (trimmed (ws.drop 32)).length = 4 * groupCount ts ∧
      ∀ b, Scans 0 (visible b) (asRaw ts) → (∀ lab, IsLabelMap (visible a) lab → IsLabelMap (visible b) lab) →
        assemble false b = .ok (trimmed (ws.drop 32)) := by
  obtain ⟨lab, ops, o, k, hl, hp, -, -, -, hw⟩ := C48_embeds h sa da
  have h1 := groups_last (program_large hp)
  rw [hw, trimmed_zeros h1]
  refine ⟨?_, fun b sb lb => ?_⟩
  · rw [groups_length, Program.semicolons hp]
    rfl
  · obtain ⟨lab', ops', o', entry, hlab, hp', -, -, -, ht, rfl⟩ := accepted_dksh h sa da
    have hraw := assemble_iff.2 ⟨lab', _, ops', _, lb lab' hlab, sb, Program.asRaw (fun s a => hlab.name) hp' false, .raw rfl (.inr ht)⟩
    have hlen : (dkshControl o' (groups ops').length entry).length = 32 := by simp [dkshControl]
    rw [List.append_assoc, ← hlen, List.drop_left] at hw
    rw [hraw, zeros_unique (groups_last (program_large hp')) h1 hw]

/-- The bound cannot be raised, and control words can be 0. -/
theorem C112_sharp : assemble true c!"@P0 MOV32I R0, 0, 0 @WB 0 @RB 0;@P0 MOV32I R0, 0, 0 @WB 0 @RB 0;@P0 MOV32I R0, 0, 0 @WB 0 @RB 0;" =
    .ok [0, 2 ^ 56, 2 ^ 56, 2 ^ 56] := by decide +kernel

/-- `C112_words` for a word of this source. -/
example : 2 ^ 56 ≤ (0x0100000000000000 : BitVec 64).toNat := by
  have h : assemble true c!"@P0 MOV32I R0, 0, 0 @WB 0 @RB 0;" = .ok [0x001f8000fc000000, 0x0100000000000000, 0x50b0000000070f00, 0x50b0000000070f00] := by decide +kernel
  exact C112_words h (ts := [(.at, 0), (.pred 0 false, 0), (.ident c!"MOV32I", 0), (.reg 0, 0), (.comma, 0), (.imm 0, 0), (.comma, 0), (.imm 0, 0), (.at, 0),
    (.ident c!"WB", 0), (.imm 0, 0), (.at, 0), (.ident c!"RB", 0), (.imm 0, 0), (.semicolon, 0)]) (lexAll_scans (n := 30) (by decide) (by decide +kernel))
    (by decide) (j := 1) rfl (by decide)

/-- The code is cut out of a container. -/
example : assemble false c!".type compute\n.shared_memory 300\nmain:\n.local_memory 8\n.workgroup_size 4 5 6\nNOP;" = .ok (trimmed (sampleImage.drop 32)) ∧
    trimmed (sampleImage.drop 32) = [0x001f8000fc0007e0, 0x50b0000000070f00, 0x50b0000000070f00, 0x50b0000000070f00] := by
  refine ⟨(C112_cut sample_ok sample_scans sample_dksh).2 _ ?_ fun lab h => ?_, by decide⟩
  · exact lexAll_scans (n := 14) (by decide) (by decide +kernel)
  · have hs : IsLabelMap (visible sample) (Labels.find [(c!"main", 8)]) := fun name a => genLabels_find (by decide +kernel) name a
    obtain rfl := IsLabelMap.unique h hs
    exact fun name a => genLabels_find (by decide +kernel) name a

end Nxas
