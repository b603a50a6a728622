import Verif.Lemmas.Placid
import Verif.Props.Disasm
import Verif.Props.Solid
/-
C103: assertions take away sources but no images.
-/

namespace Nxas

open Spec

/-- C103. Every image of a source without container, in either build, is that of a source the build with assertions accepts.  It can be written in one
    line without labels and container. -/
theorem C103_images {d : Bool} {code : Str} {ws : List (BitVec 64)} (h : assemble d code = .ok ws) (hd : NoContainer code) (hb : ws.length < 2 ^ 58) :
    ∃ t, assemble true t = .ok ws ∧ assemble false t = .ok ws ∧ '\n' ∉ t ∧ '\x00' ∉ t ∧ (∀ s, ¬ Defines t s) ∧ NoContainer t := by
  obtain ⟨lab, ts, ops, o, hl, hs, hp, hi⟩ := accepted h
  have ho := not_dksh hl hp (hd ts hs)
  have hw : ws = groups ops := by
    cases hi with
    | raw => rfl
    | dksh h1 => rw [ho] at h1; simp at h1
  subst hw
  obtain ⟨t, ks, us, h1, h2, h3, h4, h5, h6, h7, h8⟩ := calm_source (visible_no_nul code) hs hp hb
  have hrel : assemble false t = .ok (groups ops) := by
    rw [assemble_iff, visible_self h1]
    exact ⟨_, _, ops, {}, no_labels h3 h2, h4, h5, .raw rfl (.inl rfl)⟩
  refine ⟨t, ?_, hrel, h2, h1, ?_, ?_⟩
  · refine (C102_debug (ts := ks.map fun k => (k, 0)) (us := us) (by rwa [visible_self h1]) ?_ _).2 ⟨hrel, h8, h7⟩
    rw [List.map_map]
    simpa [Function.comp_def] using h6
  · rintro s ⟨pre, hd⟩
    obtain ⟨-, q, rest, -, he⟩ := (defAt_iff h3).1 hd
    rw [he] at h2
    simp at h2
  · intro ts hs x hx he
    rw [visible_self h1] at hs
    obtain rfl := scans_unique h1 h4 hs
    rcases h5.declared (by simp) rfl rfl with ⟨-, -, h9⟩ | ⟨p, h9, -⟩
    · exact h9 x hx ⟨_, true, by decide, he⟩
    · simp at h9

/-- C103. So the two builds have the same images. -/
theorem C103_builds {ws : List (BitVec 64)} (hb : ws.length < 2 ^ 58) :
    (∃ code, assemble true code = .ok ws ∧ NoContainer code) ↔ ∃ code, assemble false code = .ok ws ∧ NoContainer code := by
  constructor
  · rintro ⟨code, h, hd⟩
    exact ⟨code, C26_accepted h, hd⟩
  · rintro ⟨code, h, hd⟩
    obtain ⟨t, h1, -, -, -, -, h2⟩ := C103_images h hd hb
    exact ⟨t, h1, h2⟩

/-- C103. And the disassembler decides which words are an image of the build with assertions, although the source it gives need not be one there. -/
theorem C103_decide {ws : List (BitVec 64)} (hb : ws.length < 2 ^ 58) :
    (∃ code, assemble true code = .ok ws ∧ NoContainer code) ↔ (disassemble ws).isSome = true := by
  rw [C103_builds hb, C96_image hb]

/-- The sign of the first source sets a bit that `.PO` sets, so an assertion fails, and one fails in what the disassembler gives too.  The image is also
    that of the instruction without sign, in which none fails. -/
theorem C103_case : ∃ ws t, assemble false c!"IADD.PO R0, -R1, R2;" = .ok ws ∧ NoContainer c!"IADD.PO R0, -R1, R2;" ∧
    assemble true c!"IADD.PO R0, -R1, R2;" = .abort ∧ disassemble ws = some t ∧ assemble true t = .abort ∧
    assemble true c!"IADD.PO R0, R1, R2;" = .ok ws := by
  refine ⟨[0x001f8000fc0007e0, 0x5c13000000270100, 0x50b0000000070f00, 0x50b0000000070f00], c!" IADD .PO R0 , - R1 , - R2 ; NOP ; NOP ;",
    by decide +kernel, ?_, by decide +kernel, by decide +kernel, by decide +kernel, by decide +kernel⟩
  intro ts hs
  obtain rfl := scans_unique (by decide) hs (lexAll_scans (n := 20) (ps := [(.ident c!"IADD", 0), (.ident c!".PO", 0), (.reg 0, 0), (.comma, 0), (.minus, 0),
    (.reg 1, 0), (.comma, 0), (.reg 2, 0), (.semicolon, 0)]) (by decide) (by decide +kernel))
  decide

/-- That image satisfies the hypotheses of `C103_images` in the build without assertions. -/
example : ∃ ws t, assemble false c!"IADD.PO R0, -R1, R2;" = .ok ws ∧ assemble true t = .ok ws ∧ t ≠ c!"IADD.PO R0, -R1, R2;" := by
  obtain ⟨ws, -, h1, h2, h3, -⟩ := C103_case
  have hb : ws.length < 2 ^ 58 := by
    have h4 : assemble false c!"IADD.PO R0, -R1, R2;" = .ok [0x001f8000fc0007e0, 0x5c13000000270100, 0x50b0000000070f00, 0x50b0000000070f00] := by decide +kernel
    rw [h4] at h1
    cases h1
    decide
  obtain ⟨t, h4, -⟩ := C103_images h1 h2 hb
  exact ⟨ws, t, h1, h4, by rintro rfl; rw [h3] at h4; simp at h4⟩

/-- Words that are an image of neither build. -/
example : ¬ ∃ code, assemble true code = .ok [0x001f8000fc0007e0, 0xe2400fffff87000f, 0x50b0000000070f00, 0x50b0000000070f40] ∧ NoContainer code := by
  rw [C103_decide (by decide)]
  decide +kernel

end Nxas
