import Verif.Lemmas.DisasmComplete
/-
C96: a disassembler for the images of the assembler.
-/

namespace Nxas

open Spec

/-- No word `.dksh` in a source: it asks for no container. -/
def Spec.NoContainer (code : Str) : Prop := ∀ ts, Scans 0 (visible code) ts → ∀ t ∈ ts, t.1 ≠ .ident c!".dksh"

/-- C96. What the disassembler gives is a source of the image. -/
theorem C96_sound {ws : List (BitVec 64)} {t : Str} (h : disassemble ws = some t) : assemble false t = .ok ws :=
  disassemble_sound h

/-- The words of `L: @P1 IADD R0, -R1.reuse, c[1][0x10] @WAIT 3; LDS.U.128 R4, [R2+0x20] @WB 1; BRA L;` (the label in its own line): the target is a number now. -/
example : disassemble [0x001f8000e40207e3, 0x4c12000400410100, 0xef4e100002070204, 0xe2400ffffe87000f] =
    some c!" @ P1 IADD R0 , - R1 .reuse , c [ 1 ] [ 16 ] @ WAIT 3 ; LDS .U .128 R4 , [ R2 32 ] @ WB 1 ; BRA CC .T , 8 ;" := by
  decide +kernel

/-- Words that are no image: nothing has the opcode 0. -/
example : disassemble [0x001f8000e40207e3, 0x4c12000400410100, 0, 0xe2400ffffe87000f] = none := by decide +kernel

/-- C96. It is one line without labels and options. -/
theorem C96_plain {ws : List (BitVec 64)} {t : Str} (h : disassemble ws = some t) :
    '\n' ∉ t ∧ '\x00' ∉ t ∧ (∀ s, ¬ Defines t s) ∧ NoContainer t := by
  unfold disassemble at h
  obtain ⟨ks, hk, rfl⟩ := Option.map_eq_some_iff.1 h
  obtain ⟨hf, ops, rfl, hp⟩ := decodeAll_sound hk
  obtain ⟨h1, h2, h3⟩ := textOf_scans hf
  refine ⟨h3, h2, ?_, ?_⟩
  · rintro s ⟨pre, hd⟩
    obtain ⟨-, q, rest, -, he⟩ := (defAt_iff (textOf_gap ks)).1 hd
    rw [he] at h3
    simp at h3
  · intro ts hs x hx he
    rw [visible_self h2] at hs
    obtain rfl := scans_unique h2 h1 hs
    rcases (hp {}).declared (by simp) rfl rfl with ⟨-, -, h4⟩ | ⟨p, h4, -⟩
    · exact h4 x hx ⟨_, true, by decide, he⟩
    · simp at h4

/-- C96. It finds a source for every image that has one without container, in both builds.  The bound is there because the target of a
    branch is written as a 64-bit number. -/
theorem C96_complete {d : Bool} {code : Str} {ws : List (BitVec 64)} (h : assemble d code = .ok ws) (hd : NoContainer code)
    (hb : ws.length < 2 ^ 58) : ∃ t, disassemble ws = some t ∧ assemble false t = .ok ws := by
  obtain ⟨lab, ts, ops, o, hl, hs, hp, hi⟩ := accepted h
  have ho := not_dksh hl hp (hd ts hs)
  have hw : ws = groups ops := by
    cases hi with
    | raw => rfl
    | dksh h1 => rw [ho] at h1; simp at h1
  subst hw
  obtain ⟨t, ht⟩ := Option.isSome_iff_exists.1 (disassemble_complete (visible_no_nul code) hs hp hb)
  exact ⟨t, ht, disassemble_sound ht⟩

/-- A source with a label and without container. -/
example : ∃ ws t, assemble true c!"a:\nBRA a;" = .ok ws ∧ NoContainer c!"a:\nBRA a;" ∧ disassemble ws = some t ∧ t = c!" BRA CC .T , 8 ; NOP ; NOP ;" := by
  refine ⟨[0x001f8000fc0007e0, 0xe2400fffff87000f, 0x50b0000000070f00, 0x50b0000000070f00], _, by decide +kernel, ?_, by decide +kernel, rfl⟩
  intro ts hs
  obtain rfl := scans_unique (by decide) hs
    (lexAll_scans (n := 9) (ps := [(.ident c!"BRA", 1), (.ident c!"a", 1), (.semicolon, 1)]) (by decide) (by decide +kernel))
  decide

/-- C96. So it decides which words are an image. -/
theorem C96_image {ws : List (BitVec 64)} (hb : ws.length < 2 ^ 58) :
    (∃ code, assemble false code = .ok ws ∧ NoContainer code) ↔ (disassemble ws).isSome = true := by
  constructor
  · rintro ⟨code, h, hd⟩
    obtain ⟨t, ht, -⟩ := C96_complete h hd hb
    rw [ht]
    rfl
  · intro h
    obtain ⟨t, ht⟩ := Option.isSome_iff_exists.1 h
    exact ⟨t, C96_sound ht, (C96_plain ht).2.2.2⟩

/-- C96. Labels, options and line ends add nothing: every image of a source without container is that of one line of instructions. -/
theorem C96_line {d : Bool} {code : Str} {ws : List (BitVec 64)} (h : assemble d code = .ok ws) (hd : NoContainer code) (hb : ws.length < 2 ^ 58) :
    ∃ t, assemble false t = .ok ws ∧ '\n' ∉ t ∧ ∀ s, ¬ Defines t s := by
  obtain ⟨t, ht, h1⟩ := C96_complete h hd hb
  obtain ⟨h2, -, h3, -⟩ := C96_plain ht
  exact ⟨t, h1, h2, h3⟩

/-- Some words are an image and others are not. -/
example : (∃ code, assemble false code = .ok [0x001f8000fc0007e0, 0xe2400fffff87000f, 0x50b0000000070f00, 0x50b0000000070f00] ∧ NoContainer code) ∧
    ¬ ∃ code, assemble false code = .ok [0x001f8000fc0007e0, 0xe2400fffff87000f, 0x50b0000000070f00, 0x50b0000000070f40] ∧ NoContainer code := by
  rw [C96_image (by decide), C96_image (by decide)]
  decide +kernel

end Nxas
