import Verif.Lemmas.Shift
import Verif.Props.Placid
/-
C105: images are sequences of instructions that are images on their own.
-/

namespace Nxas

open Spec

/-- Some source without container has these words as its image. -/
def Spec.IsImage (d : Bool) (ws : List (BitVec 64)) : Prop := ∃ code, assemble d code = .ok ws ∧ NoContainer code

theorem isImage_iff {d : Bool} {ws : List (BitVec 64)} (hb : ws.length < 2 ^ 58) : IsImage d ws ↔ ∃ ks, decodeAll 0 ws = some ks := by
  have h : IsImage d ws ↔ (disassemble ws).isSome = true := by
    cases d
    · exact C96_image hb
    · exact C103_decide hb
  rw [h, disassemble, Option.isSome_map, Option.isSome_iff_exists]

theorem decodeAll_cons {i : Nat} {c x y z : BitVec 64} {rest : List (BitVec 64)} : (∃ ks, decodeAll i (c :: x :: y :: z :: rest) = some ks) ↔
    (∃ k, decodeAt i x (c.toNat % 2 ^ 21) = some k) ∧ (∃ k, decodeAt (i + 1) y (c.toNat / 2 ^ 21 % 2 ^ 21) = some k) ∧
    (∃ k, decodeAt (i + 2) z (c.toNat / 2 ^ 42) = some k) ∧ ∃ ks, decodeAll (i + 3) rest = some ks := by
  simp only [decodeAll, Option.bind_eq_bind, Option.pure_def, Option.bind_eq_some_iff, Option.some.injEq]
  constructor
  · rintro ⟨ks, k1, h1, k2, h2, k3, h3, k4, h4, rfl⟩
    exact ⟨⟨_, h1⟩, ⟨_, h2⟩, ⟨_, h3⟩, ⟨_, h4⟩⟩
  · rintro ⟨⟨k1, h1⟩, ⟨k2, h2⟩, ⟨k3, h3⟩, ⟨k4, h4⟩⟩
    exact ⟨_, k1, h1, k2, h2, k3, h3, k4, h4, rfl⟩

theorem decodeAll_shift : ∀ {i j : Nat} {ws : List (BitVec 64)}, j % 3 = 0 → addressOf j + 8 * ws.length ≤ 2 ^ 62 →
    (∃ ks, decodeAll i ws = some ks) → ∃ ks, decodeAll j ws = some ks
  | _, _, [], _, _, _ => ⟨[], rfl⟩
  | i, j, c :: x :: y :: z :: rest, h3, hb, h => by
    obtain ⟨⟨k1, h1⟩, ⟨k2, h2⟩, ⟨k4, h4⟩, h5⟩ := decodeAll_cons.1 h
    simp only [List.length_cons, addressOf] at hb
    have := c.isLt
    exact decodeAll_cons.2 ⟨decodeAt_shift h1 (by omega) (by unfold addressOf; omega), decodeAt_shift h2 (by omega) (by unfold addressOf; omega),
      decodeAt_shift h4 (by omega) (by unfold addressOf; omega), decodeAll_shift (by omega) (by unfold addressOf; omega) h5⟩
  | _, _, [_], _, _, h => by simp [decodeAll] at h
  | _, _, [_, _], _, _, h => by simp [decodeAll] at h
  | _, _, [_, _, _], _, _, h => by simp [decodeAll] at h

theorem decodeAll_four : ∀ {i : Nat} {ws : List (BitVec 64)} {ks : List Kind}, decodeAll i ws = some ks → 4 ∣ ws.length
  | _, [], _, _ => by simp
  | i, c :: x :: y :: z :: rest, ks, h => by
    obtain ⟨-, -, -, ks', h5⟩ := decodeAll_cons.1 ⟨ks, h⟩
    have := decodeAll_four h5
    simp only [List.length_cons]
    omega
  | _, [_], _, h => by simp [decodeAll] at h
  | _, [_, _], _, h => by simp [decodeAll] at h
  | _, [_, _, _], _, h => by simp [decodeAll] at h

theorem decodeAll_parts : ∀ {i : Nat} {a b : List (BitVec 64)}, 4 ∣ a.length →
    ((∃ ks, decodeAll i (a ++ b) = some ks) ↔ (∃ ks, decodeAll i a = some ks) ∧ ∃ ks, decodeAll (i + 3 * (a.length / 4)) b = some ks)
  | i, [], b, _ => by simp [decodeAll]
  | i, c :: x :: y :: z :: rest, b, h => by
    simp only [List.length_cons] at h
    have ih := decodeAll_parts (i := i + 3) (a := rest) (b := b) (by omega)
    simp only [List.cons_append, List.length_cons]
    rw [decodeAll_cons, decodeAll_cons, ih, show i + 3 * ((rest.length + 1 + 1 + 1 + 1) / 4) = i + 3 + 3 * (rest.length / 4) by omega]
    simp only [and_assoc]
  | _, [_], _, h => by simp at h
  | _, [_, _], _, h => by simp at h
  | _, [_, _, _], _, h => by simp at h

/-- C105. Two images in a row are an image, and an image cut between two groups is two images, whatever its branches are. -/
theorem C105_append {d : Bool} {a b : List (BitVec 64)} (hb : (a ++ b).length < 2 ^ 58) (h4 : 4 ∣ a.length) :
    IsImage d (a ++ b) ↔ IsImage d a ∧ IsImage d b := by
  rw [List.length_append] at hb
  rw [isImage_iff (by rw [List.length_append]; exact hb), isImage_iff (by omega), isImage_iff (by omega), decodeAll_parts h4]
  refine and_congr_right fun _ => ⟨decodeAll_shift rfl ?_, decodeAll_shift (by omega) ?_⟩
  · unfold addressOf; omega
  · unfold addressOf; omega

/-- C105. So the images are the sequences of groups each of which is an image on its own, in either build. -/
theorem C105_groups {d : Bool} {ws : List (BitVec 64)} (hb : ws.length < 2 ^ 58) :
    IsImage d ws ↔ ∃ gs : List (List (BitVec 64)), ws = gs.flatten ∧ ∀ g ∈ gs, g.length = 4 ∧ ∀ d', IsImage d' g := by
  constructor
  · intro h
    obtain ⟨ks, hk⟩ := (isImage_iff hb).1 h
    obtain ⟨n, hn⟩ := decodeAll_four hk
    clear hk ks
    induction n generalizing ws with
    | zero => exact ⟨[], by simpa using hn, by simp⟩
    | succ n ih =>
      have h1 : (ws.take 4).length = 4 := by rw [List.length_take]; omega
      have h2 : (ws.drop 4).length = 4 * n := by rw [List.length_drop]; omega
      rw [← List.take_append_drop 4 ws, C105_append (by rwa [List.take_append_drop]) (by omega)] at h
      obtain ⟨gs, hg, hall⟩ := ih (by omega) h.2 h2
      refine ⟨ws.take 4 :: gs, by rw [List.flatten_cons, ← hg, List.take_append_drop], ?_⟩
      intro g hg
      rcases List.mem_cons.1 hg with rfl | hg
      · exact ⟨h1, fun d' => (isImage_iff (by omega)).2 ((isImage_iff (by omega)).1 h.1)⟩
      · exact hall g hg
  · rintro ⟨gs, rfl, hg⟩
    induction gs with
    | nil => exact (isImage_iff (by simp)).2 ⟨[], rfl⟩
    | cons g gs ih =>
      rw [List.flatten_cons] at hb ⊢
      have := (hg g (by simp)).1
      rw [C105_append hb (by omega)]
      rw [List.length_append] at hb
      exact ⟨(hg g (by simp)).2 d, ih (fun g' h => hg g' (by simp [h])) (by omega)⟩

/-- An instruction followed by two that do nothing; `s` are its bits of the control word. -/
def Spec.alone (v : BitVec 64) (s : Nat) : List (BitVec 64) := [BitVec.ofNat 64 (s + 0x7E0 * 2 ^ 21 + 0x7E0 * 2 ^ 42), v, 0x50b0000000070f00, 0x50b0000000070f00]

theorem isImage_alone {d : Bool} {v : BitVec 64} {s : Nat} (hs : s < 2 ^ 21) : IsImage d (alone v s) ↔ ∃ k, decodeAt 0 v s = some k := by
  rw [isImage_iff (by simp [alone]), alone, decodeAll_cons]
  have h0 : (BitVec.ofNat 64 (s + 0x7E0 * 2 ^ 21 + 0x7E0 * 2 ^ 42)).toNat = s + 0x7E0 * 2 ^ 21 + 0x7E0 * 2 ^ 42 := by
    rw [BitVec.toNat_ofNat]
    omega
  rw [h0, show (s + 0x7E0 * 2 ^ 21 + 0x7E0 * 2 ^ 42) % 2 ^ 21 = s by omega, show (s + 0x7E0 * 2 ^ 21 + 0x7E0 * 2 ^ 42) / 2 ^ 21 % 2 ^ 21 = 0x7E0 by omega,
    show (s + 0x7E0 * 2 ^ 21 + 0x7E0 * 2 ^ 42) / 2 ^ 42 = 0x7E0 by omega]
  constructor
  · exact fun h => h.1
  · intro h
    exact ⟨h, filler_complete (by decide) rfl, filler_complete (by decide) rfl, [], rfl⟩

/-- C105. A group is an image if each of its instructions is, with its bits of the control word; the last bit of that is not used. -/
theorem C105_instructions {d : Bool} {c x y z : BitVec 64} : IsImage d [c, x, y, z] ↔ c.toNat < 2 ^ 63 ∧ IsImage d (alone x (c.toNat % 2 ^ 21)) ∧
    IsImage d (alone y (c.toNat / 2 ^ 21 % 2 ^ 21)) ∧ IsImage d (alone z (c.toNat / 2 ^ 42 % 2 ^ 21)) := by
  rw [isImage_iff (by simp), decodeAll_cons, isImage_alone (by omega), isImage_alone (by omega), isImage_alone (by omega)]
  have := c.isLt
  constructor
  · rintro ⟨h1, ⟨k2, h2⟩, ⟨k3, h3⟩, -⟩
    have h4 := decodeAt_slot h3 (by omega)
    refine ⟨by omega, h1, decodeAt_shift h2 (by omega) (by decide), ?_⟩
    rw [Nat.mod_eq_of_lt h4]
    exact decodeAt_shift h3 (by omega) (by decide)
  · rintro ⟨h0, h1, ⟨k2, h2⟩, ⟨k3, h3⟩⟩
    rw [Nat.mod_eq_of_lt (by omega)] at h3
    exact ⟨h1, decodeAt_shift h2 (by omega) (by decide), decodeAt_shift h3 (by omega) (by decide), [], rfl⟩

/-- C105. The groups of an image in any order, left out or repeated, are an image. -/
theorem C105_select {d : Bool} {ws : List (BitVec 64)} (hb : ws.length < 2 ^ 58) (h : IsImage d ws) :
    ∃ gs : List (List (BitVec 64)), ws = gs.flatten ∧ (∀ g ∈ gs, g.length = 4) ∧
      ∀ gs' : List (List (BitVec 64)), (∀ g ∈ gs', g ∈ gs) → gs'.flatten.length < 2 ^ 58 → IsImage d gs'.flatten := by
  obtain ⟨gs, rfl, hg⟩ := (C105_groups hb).1 h
  exact ⟨gs, rfl, fun g h => (hg g h).1, fun gs' hs hl => (C105_groups hl).2 ⟨gs', rfl, fun g h => hg g (hs g h)⟩⟩

/-- The second group of this image branches back to the first, so it stands at another place below. -/
theorem C105_case : assemble true c!"NOP;NOP;NOP;BRA 8;" = .ok ([0x001f8000fc0007e0, 0x50b0000000070f00, 0x50b0000000070f00, 0x50b0000000070f00] ++
      [0x001f8000fc0007e0, 0xe2400ffffd87000f, 0x50b0000000070f00, 0x50b0000000070f00]) ∧ NoContainer c!"NOP;NOP;NOP;BRA 8;" := by
  refine ⟨by decide +kernel, ?_⟩
  intro ts hs
  obtain rfl := scans_unique (by decide) hs (lexAll_scans (n := 20) (ps := [(.ident c!"NOP", 0), (.semicolon, 0), (.ident c!"NOP", 0), (.semicolon, 0),
    (.ident c!"NOP", 0), (.semicolon, 0), (.ident c!"BRA", 0), (.imm 8, 0), (.semicolon, 0)]) (by decide) (by decide +kernel))
  decide

/-- The groups of that image the other way round, and its branch on its own. -/
example : IsImage true ([0x001f8000fc0007e0, 0xe2400ffffd87000f, 0x50b0000000070f00, 0x50b0000000070f00] ++
      [0x001f8000fc0007e0, 0x50b0000000070f00, 0x50b0000000070f00, 0x50b0000000070f00]) ∧ IsImage false (alone 0xe2400ffffd87000f 0x7E0) := by
  have h := (C105_append (d := true) (by decide) (by decide)).1 ⟨_, C105_case⟩
  exact ⟨(C105_append (by decide) (by decide)).2 h.symm, (isImage_alone (by decide)).2 ((isImage_alone (by decide)).1 (C105_instructions.1 h.2).2.1)⟩

/-- It has another target there. -/
example : assemble true c!"BRA -24;" = .ok (alone 0xe2400ffffd87000f 0x7E0) := by decide +kernel

/-- A group with the last bit of the control word set is no image. -/
example (d : Bool) : ¬ IsImage d [0x801f8000fc0007e0, 0x50b0000000070f00, 0x50b0000000070f00, 0x50b0000000070f00] :=
  fun h => absurd (C105_instructions.1 h).1 (by decide)

end Nxas
