import Verif.Lemmas.DisasmDksh
import Verif.Props.Disasm
/-
C97: which words are an image.
-/

namespace Nxas

open Spec

/-- C97. What the disassembler of containers gives is a source of the container. -/
theorem C97_sound {ws : List (BitVec 64)} {t : Str} (h : disassembleDksh ws = some t) : assemble false t = .ok ws := disassembleDksh_sound h

/-- The container of a source with `.shared_memory 0x1fe` whose entry point is its fourth instruction. -/
def sampleContainer : List (BitVec 64) :=
  [0x0000001848534b44, 0x0000010000000100, 0x0000000100000018, 0x0000002000000005, 0x0000000000000008, 0x0000080000000000, 0x0000000100000001,
    0x0000020000000001, 0x0000000000000000, 0x0000000000000800] ++ List.replicate 22 0 ++
  [0x001f8000fc0007e0, 0x50b0000000070f00, 0x50b0000000070f00, 0x50b0000000070f00, 0x001f8000fc0007e0, 0x50b0000000070f00, 0x50b0000000070f00,
    0x50b0000000070f00] ++ List.replicate 24 0

/-- Another source of the same container. -/
example : assemble true c!"NOP;NOP;NOP;\nmain:\n.dksh compute\n.shared_memory 0x1fe\nNOP;" = .ok sampleContainer ∧
    disassembleDksh sampleContainer =
      some c!"P;:\nP;:\nP;:\nmain:\n .dksh compute\n .workgroup_size 1 1 1\n .shared_memory 512\n .local_memory 0\n NOP ; NOP ; NOP ; NOP ; NOP ; NOP ;" := by
  decide +kernel

/-- C97. One of the two disassemblers finds a source for every image. -/
theorem C97_complete {d : Bool} {code : Str} {ws : List (BitVec 64)} (h : assemble d code = .ok ws) (hb : ws.length < 2 ^ 58) :
    (disassemble ws).isSome = true ∨ (disassembleDksh ws).isSome = true := by
  obtain ⟨lab, ts, ops, o, hl, hs, hp, hi⟩ := accepted h
  cases hi with
  | raw hd ht => exact .inl (disassemble_complete (visible_no_nul code) hs hp hb)
  | dksh hd ht hm ha hr =>
    refine .inr (disassembleDksh_complete (visible_no_nul code) hs hp ?_ hd ha hr)
    simp only [List.length_append] at hb
    omega

/-- C97. So they decide which words are the image of some source. -/
theorem C97_image {ws : List (BitVec 64)} (hb : ws.length < 2 ^ 58) :
    (∃ code, assemble false code = .ok ws) ↔ (disassemble ws).isSome = true ∨ (disassembleDksh ws).isSome = true := by
  constructor
  · rintro ⟨code, h⟩
    exact C97_complete h hb
  · rintro (h | h)
    · obtain ⟨t, ht⟩ := Option.isSome_iff_exists.1 h
      exact ⟨t, C96_sound ht⟩
    · obtain ⟨t, ht⟩ := Option.isSome_iff_exists.1 h
      exact ⟨t, C97_sound ht⟩

/-- A container with a word of code changed is the image of nothing. -/
example : (∃ code, assemble false code = .ok sampleContainer) ∧ ¬ ∃ code, assemble false code = .ok (sampleContainer.set 33 0x50b0000000070f40) := by
  rw [C97_image (by decide), C97_image (by decide)]
  decide +kernel

theorem no_row : ∀ row ∈ insnTable, row.possible 0x0000000100000018#64 = false := by decide +kernel

theorem decodeAt_row {i s : Nat} {v : BitVec 64} {ks : List Kind} (h : decodeAt i v s = some ks) : ∃ row ∈ insnTable, row.possible v = true := by
  unfold decodeAt at h
  obtain ⟨a, h, -⟩ := Option.map_eq_some_iff.1 h
  obtain ⟨row, hr, h⟩ := List.exists_of_findSome?_eq_some h
  refine ⟨row, hr, ?_⟩
  split at h
  next hp => exact hp
  next => simp at h

theorem decodeAll_second {i : Nat} {c x y : BitVec 64} {rest : List (BitVec 64)} {ks : List Kind} (h : decodeAll i (c :: x :: y :: rest) = some ks) :
    ∃ row ∈ insnTable, row.possible y = true := by
  match rest with
  | [] => simp [decodeAll] at h
  | z :: rest =>
    unfold decodeAll at h
    obtain ⟨a, -, h⟩ := Option.bind_eq_some_iff.1 h
    obtain ⟨b, hb, -⟩ := Option.bind_eq_some_iff.1 h
    exact decodeAt_row hb

/-- C97. Not both of them do: no container is the code of a program, because nothing has the third word of a header. -/
theorem C97_apart {ws : List (BitVec 64)} {t : Str} (h : disassembleDksh ws = some t) : disassemble ws = none := by
  obtain ⟨n, -, hn⟩ := List.exists_of_findSome?_eq_some h
  unfold disassembleAt at hn
  split at hn
  next hc =>
    unfold isContainer at hc
    simp only [Bool.and_eq_true, decide_eq_true_eq, beq_iff_eq] at hc
    obtain ⟨⟨-, h3⟩, -⟩ := hc
    cases hd : disassemble ws with
    | none => rfl
    | some t =>
      obtain ⟨ks, hk, -⟩ := Option.map_eq_some_iff.1 hd
      rw [h3, List.append_assoc] at hk
      obtain ⟨row, hr, hp⟩ := decodeAll_second (rest := _) (y := dkshField (optsOf ws) n (fieldOf ws 7).toNat 5 ++ dkshField (optsOf ws) n (fieldOf ws 7).toNat 4) hk
      rw [show dkshField (optsOf ws) n (fieldOf ws 7).toNat 5 = 1#32 from rfl, show dkshField (optsOf ws) n (fieldOf ws 7).toNat 4 = 24#32 from rfl,
        show 1#32 ++ 24#32 = 0x0000000100000018#64 by decide, no_row row hr] at hp
      simp at hp
  next => simp at hn

/-- C97. So the image says whether the source asked for a container. -/
theorem C97_kind {d d' : Bool} {a b : Str} {ws : List (BitVec 64)} (ha : assemble d a = .ok ws) (hb : assemble d' b = .ok ws) (hn : NoContainer a)
    (hl : ws.length < 2 ^ 58) : NoContainer b := by
  obtain ⟨t, ht, -⟩ := C96_complete ha hn hl
  obtain ⟨lab, ts, ops, o, hm, hs, hp, hi⟩ := accepted hb
  have ho : o.isDksh = false := by
    cases hi with
    | raw hd => exact hd
    | dksh hd ht' hm ha' hr =>
      have := disassembleDksh_complete (visible_no_nul b) hs hp (by simp only [List.length_append] at hl; omega) hd ha' hr
      obtain ⟨t', h'⟩ := Option.isSome_iff_exists.1 this
      rw [C97_apart h'] at ht
      simp at ht
  intro ts' hs' x hx he
  obtain rfl := scans_unique (visible_no_nul b) hs hs'
  rcases hp.declared (fun s a => hm.name) rfl rfl with ⟨-, -, h4⟩ | ⟨p, -, pre, dd, l, w, post, rfl, h1, h2, h4⟩
  · exact h4 x hx ⟨_, true, by decide, he⟩
  · rw [ho] at h1
    have hdd : dd = c!".type" := by simpa [declarators] using h1
    have hw : c!".dksh" ≠ w := by
      rintro rfl
      simp [typeNames] at h2
    rcases List.mem_append.1 hx with hx | hx
    · exact h4 x (by simp [hx]) ⟨_, true, by decide, he⟩
    · rcases List.mem_cons.1 hx with rfl | hx
      · simp [hdd] at he
      · rcases List.mem_cons.1 hx with rfl | hx
        · exact hw (by simpa using he.symm)
        · exact h4 x (by simp [hx]) ⟨_, true, by decide, he⟩

/-- A source that gives the same words as `NOP;`. -/
example : NoContainer c!".type compute\nNOP;NOP;" := by
  refine C97_kind (d := true) (d' := true) (a := c!"NOP;") (ws := [0x001f8000fc0007e0, 0x50b0000000070f00, 0x50b0000000070f00, 0x50b0000000070f00])
    (by decide +kernel) (by decide +kernel) ?_ (by decide)
  intro ts hs
  obtain rfl := scans_unique (by decide) hs (lexAll_scans (n := 9) (ps := [(.ident c!"NOP", 0), (.semicolon, 0)]) (by decide) (by decide +kernel))
  decide

end Nxas
