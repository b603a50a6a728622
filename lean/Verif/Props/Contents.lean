import Verif.Props.Shift
import Verif.Props.Entry
/-
C106: a container has any code, any settings and any entry point.
-/

namespace Nxas

open Spec

/-- Some source with container has these words as its image. -/
def Spec.IsContainer (d : Bool) (ws : List (BitVec 64)) : Prop := ∃ code ts, assemble d code = .ok ws ∧ Scans 0 (visible code) ts ∧ DkshSource ts

/-- A container: header, code and zeros up to the next multiple of 256 bytes. -/
def Spec.packed (o : Opts) (entry : Nat) (words : List (BitVec 64)) : List (BitVec 64) :=
  dkshControl o words.length entry ++ words ++ List.replicate (32 - words.length % 32) 0

theorem control_mod (o : Opts) (n entry : Nat) : dkshControl o n (entry % 2 ^ 32) = dkshControl o n entry := by
  have : BitVec.ofNat 32 (entry % 2 ^ 32) = BitVec.ofNat 32 entry := by
    apply BitVec.eq_of_toNat_eq
    rw [BitVec.toNat_ofNat, BitVec.toNat_ofNat, Nat.mod_mod]
  unfold dkshControl dkshField dkshFields
  rw [this]

theorem packed_entry {o : Opts} {entry : Nat} {words : List (BitVec 64)} (he : entry < 2 ^ 32) : (half (packed o entry words) 7).toNat = entry := by
  unfold packed
  rw [List.append_assoc, half_control (by omega)]
  exact (BitVec.toNat_ofNat _ _).trans (Nat.mod_eq_of_lt he)

theorem packed_release {o : Opts} {entry : Nat} {words : List (BitVec 64)} {d : Bool} (hw : IsImage d words) (hne : words ≠ []) (ht : o.type = some .compute)
    (ho : o.isDksh = true) (ha : entry % 32 = 0) (hr : -(2 ^ 31) ≤ scratch o ∧ scratch o < 2 ^ 31) (hb : (packed o entry words).length < 2 ^ 58) :
    IsContainer false (packed o entry words) := by
  have hl : words.length < 2 ^ 58 := by unfold packed at hb; simp only [List.length_append] at hb; omega
  obtain ⟨ks, hk⟩ := (isImage_iff hl).1 hw
  obtain ⟨hf, ops, rfl, hp⟩ := decodeAll_sound hk
  cases ks with
  | nil =>
    obtain rfl : ops = [] := by
      have := Program.semicolons (hp {})
      simpa [semicolons] using this
    exact absurd rfl hne
  | cons k ks =>
    have hfine := dkshLines_fine (o := o) hf
    have hs := scans_lines (l := 0) hfine
    obtain ⟨t, h⟩ := Option.isSome_iff_exists.1 (disassembleDksh_complete (linesText_no_nul hfine) hs (dksh_program ht ho hp) hl ho ha hr)
    have h1 := C97_sound h
    obtain ⟨lab, ts, ops, o, -, hs, -⟩ := accepted h1
    refine ⟨t, ts, h1, hs, dksh_asked h1 hs fun hn => ?_⟩
    obtain ⟨t', ht', -⟩ := C96_complete h1 hn hb
    rw [C97_apart h] at ht'
    simp at ht'

/-- C106. Which words are containers: the code is any image that is not empty, the settings any for which the scratch memory has a size, and the entry point
    is any multiple of 32 without assertions and one that is not behind the end of the code with assertions. -/
theorem C106_containers {d : Bool} {ws : List (BitVec 64)} (hb : ws.length < 2 ^ 58) : IsContainer d ws ↔
    ∃ o entry words, ws = packed o entry words ∧ IsImage d words ∧ words ≠ [] ∧ o.type = some .compute ∧ o.isDksh = true ∧ entry % 32 = 0 ∧
      entry < 2 ^ 32 ∧ (-(2 ^ 31) ≤ scratch o ∧ scratch o < 2 ^ 31) ∧ (d = true → entry ≤ 8 * words.length) := by
  constructor
  · rintro ⟨code, ts, h, hs, hd⟩
    obtain ⟨o, entry, words, ks, hw, hk, hn, hty, hdk, ha, hsc, hne⟩ := container_code h hs hd hb
    have hw' : ws = packed o (entry % 2 ^ 32) words := by
      unfold packed
      rw [control_mod]
      exact hw
    have hl : words.length < 2 ^ 58 := by rw [hw] at hb; simp only [List.length_append] at hb; omega
    refine ⟨o, entry % 2 ^ 32, words, hw', (isImage_iff hl).2 ⟨ks, hk⟩, hne, hty, hdk, by omega, Nat.mod_lt _ (by decide), hsc, ?_⟩
    rintro rfl
    have := C104_entry h hs hd
    rw [hw', packed_entry (Nat.mod_lt _ (by decide))] at this
    omega
  · rintro ⟨o, entry, words, rfl, h1, h2, h3, h4, h5, h6, h7, h8⟩
    have hrel := packed_release h1 h2 h3 h4 h5 h7 hb
    cases d with
    | false => exact hrel
    | true =>
      obtain ⟨code, ts, h, hs, hd⟩ := hrel
      have hl : words.length < 2 ^ 58 := by unfold packed at hb; simp only [List.length_append] at hb; omega
      obtain ⟨ks, hk⟩ := (isImage_iff hl).1 h1
      obtain ⟨o', e', A, ks', hA, hkA, hn, -⟩ := container_code h hs hd hb
      have hAw : words = A := by
        unfold packed at hA
        rw [List.append_assoc, List.append_assoc] at hA
        exact zeros_unique (decodeAll_last hk) (decodeAll_last hkA) (List.append_inj hA (by rw [dkshControl_length, dkshControl_length])).2
      obtain ⟨t, ht⟩ := C104_images h hs hd hb (by rw [packed_entry h6]; have := h8 rfl; rw [hAw, hn] at this; omega)
      obtain ⟨lab, ts', ops, o'', -, hs', -⟩ := accepted ht
      exact ⟨t, ts', ht, hs', dksh_asked ht hs' fun hn => DkshSource.asks hs hd (C97_kind ht h hn hb)⟩

theorem container_packed {d : Bool} {ws : List (BitVec 64)} (hb : ws.length < 2 ^ 58) (h : IsContainer d ws) :
    ∃ o entry words, ws = packed o entry words ∧ IsImage d words ∧ words ≠ [] ∧ o.type = some .compute ∧ o.isDksh = true ∧ entry % 32 = 0 ∧
      entry < 2 ^ 32 ∧ (-(2 ^ 31) ≤ scratch o ∧ scratch o < 2 ^ 31) ∧ (d = true → entry ≤ 8 * words.length) ∧ codeSize ws = 8 * words.length := by
  obtain ⟨o, entry, words, hw, h1, h2, h3, h4, h5, h6, h7, h8⟩ := (C106_containers hb).1 h
  refine ⟨o, entry, words, hw, h1, h2, h3, h4, h5, h6, h7, h8, ?_⟩
  obtain ⟨code, ts, h, hs, hd⟩ := h
  obtain ⟨o', e', A, ks', hA, hkA, hn, -⟩ := container_code h hs hd hb
  have hl : words.length < 2 ^ 58 := by rw [hw] at hb; unfold packed at hb; simp only [List.length_append] at hb; omega
  obtain ⟨ks, hk⟩ := (isImage_iff hl).1 h1
  rw [hw] at hA
  unfold packed at hA
  rw [List.append_assoc, List.append_assoc] at hA
  have := zeros_unique (decodeAll_last hk) (decodeAll_last hkA) (List.append_inj hA (by rw [dkshControl_length, dkshControl_length])).2
  rw [codeSize_container h hs hd hb, this, hn]
  omega

theorem packed_parts (o : Opts) (entry : Nat) (words : List (BitVec 64)) : (packed o entry words).take 32 = dkshControl o words.length entry ∧
    ((packed o entry words).drop 32).take words.length = words ∧ (packed o entry words).drop (32 + words.length) = List.replicate (32 - words.length % 32) 0 := by
  have hc := dkshControl_length o words.length entry
  unfold packed
  refine ⟨?_, ?_, ?_⟩
  · rw [List.append_assoc, List.take_append_of_le_length (by omega), List.take_of_length_le (by omega)]
  · rw [List.append_assoc, List.drop_append_of_le_length (by omega), List.drop_eq_nil_of_le (by omega), List.nil_append,
      List.take_append_of_le_length (Nat.le_refl _), List.take_length]
  · rw [List.drop_append_of_le_length (by rw [List.length_append]; omega), List.drop_eq_nil_of_le (by rw [List.length_append]; omega), List.nil_append]

/-- C106. The code of a container is an image on its own, in both builds. -/
theorem C106_code {d : Bool} {ws : List (BitVec 64)} (hb : ws.length < 2 ^ 58) (h : IsContainer d ws) (d' : Bool) :
    IsImage d' ((ws.drop 32).take (codeSize ws / 8)) := by
  obtain ⟨o, entry, words, rfl, h1, -, -, -, -, -, -, -, h2⟩ := container_packed hb h
  have hl : words.length < 2 ^ 58 := by unfold packed at hb; simp only [List.length_append] at hb; omega
  rw [h2, Nat.mul_div_cancel_left _ (by decide), (packed_parts o entry words).2.1, isImage_iff hl]
  exact (isImage_iff hl).1 h1

/-- C106. And it can be exchanged for any other image of the same size, under the same header. -/
theorem C106_exchange {d d' : Bool} {ws words : List (BitVec 64)} (hb : ws.length < 2 ^ 58) (h : IsContainer d ws) (hw : IsImage d' words)
    (hl : 8 * words.length = codeSize ws) : IsContainer d (ws.take 32 ++ words ++ ws.drop (32 + words.length)) := by
  obtain ⟨o, entry, code, rfl, h1, h2, h3, h4, h5, h6, h7, h8, h9⟩ := container_packed hb h
  have hn : words.length = code.length := by omega
  have hsame : (packed o entry code).take 32 ++ words ++ (packed o entry code).drop (32 + words.length) = packed o entry words := by
    rw [hn, (packed_parts o entry code).1, (packed_parts o entry code).2.2]
    unfold packed
    rw [hn]
  rw [hsame]
  have hb' : (packed o entry words).length < 2 ^ 58 := by
    unfold packed at hb ⊢
    simp only [List.length_append, List.length_replicate, dkshControl_length] at hb ⊢
    omega
  have hlen : words.length < 2 ^ 58 := by unfold packed at hb'; simp only [List.length_append] at hb'; omega
  refine (C106_containers hb').2 ⟨o, entry, words, rfl, (isImage_iff hlen).2 ((isImage_iff hlen).1 hw), ?_, h3, h4, h5, h6, h7, fun hd => ?_⟩
  · rintro rfl
    exact h2 (List.length_eq_zero_iff.1 (by simpa using hn.symm))
  · rw [hn]; exact h8 hd

/-- The container with one group of C104 is one, whose code can be exchanged for the branch of C105. -/
theorem C106_case : IsContainer true (oneGroup 32) ∧ codeSize (oneGroup 32) = 8 * 4 ∧
    IsContainer true ((oneGroup 32).take 32 ++ alone 0xe2400ffffd87000f 0x7E0 ++ (oneGroup 32).drop 36) := by
  have h : IsContainer true (oneGroup 32) := by
    refine ⟨c!".dksh compute\nEXIT;NOP;NOP;\nmain:\n", _, C104_end.2.2, lexAll_scans (n := 40) (ps := [(.ident c!".dksh", 0), (.ident c!"compute", 0),
      (.ident c!"EXIT", 1), (.semicolon, 1), (.ident c!"NOP", 1), (.semicolon, 1), (.ident c!"NOP", 1), (.semicolon, 1)]) (by decide) (by decide +kernel), ?_⟩
    exact ⟨[], c!".dksh", 0, c!"compute", _, rfl, by decide, by decide, by decide⟩
  have hs : codeSize (oneGroup 32) = 8 * 4 := by decide +kernel
  have hi : IsImage true (alone 0xe2400ffffd87000f 0x7E0) := (isImage_iff (by decide)).2 (by
    obtain ⟨ks, hk⟩ : ∃ ks, decodeAll 0 (alone 0xe2400ffffd87000f 0x7E0) = some ks := Option.isSome_iff_exists.1 (by decide +kernel)
    exact ⟨ks, hk⟩)
  exact ⟨h, hs, C106_exchange (by decide) h hi (by rw [hs]; rfl)⟩

end Nxas
