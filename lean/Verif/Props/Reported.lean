import Verif.Lemmas.Loud
import Verif.Props.Printf
import Verif.Spec.Reports
/-
C91: which messages the assembler can report.
-/

namespace Nxas

open Spec

/-! ### What can be reported -/

theorem fits_reported {v : Words} {k : Kind} {m : Msg} (h : Spec.Fits false v k m) : m.fmt ∈ reported ∨ m.fmt ∈ silent := by
  cases h with
  | @listing fmt names h hk => exact (by decide +kernel : ∀ p ∈ listings, p.1 ∈ reported ∨ p.1 ∈ silent) _ h
  | @noSize fmt h hk => exact (by decide +kernel : ∀ p ∈ sizes, p ∈ reported ∨ p ∈ silent) _ h
  | @unspecific fmt h => exact (by decide +kernel : ∀ p ∈ Spec.unspecific, p ∈ reported ∨ p ∈ silent) _ h
  | @misplaced fmt names h hk => exact (by decide +kernel : ∀ p ∈ Spec.misplaced, p.1 ∈ reported ∨ p.1 ∈ silent) _ h
  | _ => exact .inl (by simp [reported])

theorem located_reported {dbg : Bool} {code : Str} {e : Err} (h : assemble dbg code = .exit (.located e)) : e.msg.fmt ∈ reported := by
  have hs : e.msg.fmt ∉ silent := by
    have h' := h
    unfold assemble assembleWith at h'
    split at h'
    · simp at h'
    · dsimp only at h'
      split at h'
      · exfalso
        split at h'
        · simp at h'
        · unfold binary writeDksh at h'
          dsimp only at h'
          repeat' split at h'
          all_goals simp at h'
      · rename_i d heq
        simp only [Res.exit.injEq] at h'
        subst h'
        exact parseAll_loud heq
      · simp at h'
      · simp at h'
  obtain ⟨pre, post, -, -, -, ht⟩ := C71_partial h
  cases ht with
  | token _ _ hf => exact (fits_reported hf).resolve_right hs
  | ended _ hf => exact (fits_reported hf).resolve_right hs
  | none _ hn =>
    have := noToken_fmt hn
    revert this
    generalize e.msg.fmt = f
    exact fun h => (by decide +kernel : ∀ f ∈ _, f ∈ reported) f h

/-- A `.dksh` line gives a type. -/
theorem OptPath.typed {t : Str} {a b : Opts} (h : OptPath t a b) (ha : a.isDksh = true → a.type ≠ none) : b.isDksh = true → b.type ≠ none := by
  induction h with
  | refl => exact ha
  | step _ he _ ih =>
    refine ih ?_
    cases he with
    | dksh | type => simp
    | _ => exact ha

theorem plain_reported {dbg : Bool} {code : Str} {m : Msg} (h : assemble dbg code = .exit (.plain m)) : m.fmt ∈ reported := by
  rcases plain_messages h with rfl | rfl | rfl | rfl
  · exfalso
    unfold assemble assembleWith at h
    split at h
    · simp at h
    · rename_i labels hl
      dsimp only at h
      split at h
      · rename_i ops c hp
        split at h
        · simp at h
        · have ht := ((parseAll_run hp).1.path).typed (by simp)
          unfold binary at h
          dsimp only at h
          by_cases hd : c.opts.isDksh = true
          · obtain ⟨ty, hty⟩ := Option.ne_none_iff_exists'.1 (ht hd)
            rw [if_pos hd] at h
            unfold writeDksh at h
            rw [hty] at h
            dsimp only at h
            repeat' split at h
            all_goals simp_all
          · rw [if_neg hd] at h
            repeat' split at h
            all_goals simp at h
      · rename_i d heq
        obtain ⟨e', h1, h2⟩ := parseAll_good (c0 := ⟨cstr code, 0, 0⟩) (words_of hl) rfl (Reach.refl _) heq
        simp [h1] at h
      · simp at h
      · simp at h
  · simp [reported]
  · simp [reported]
  · simp [reported]

/-! ### What is reported -/

/-- Both builds report a message of this format for the source. -/
def reportsFor (p : String × Str) : Bool :=
  [true, false].all fun dbg =>
    match assemble dbg p.2 with
    | .exit d => d.msg.fmt == p.1
    | _ => false

def witnesses1 : List (String × Str) :=
  [("%s barrier already specified", c!"NOP @WB 0 @WB 1;"),
   ("%s does not support predicated execution", c!"@P0 SSY 0;"),
   ("1D has no AOFFI", c!"TLDS.LZ.AOFFI R0, R1, R2, R3, 0, 1D, R;"),
   ("1D has no MS", c!"TLDS.LZ.MS R0, R1, R2, R3, 0, 1D, R;"),
   ("1D is only valid with LZ and no-DC", c!"TEXS R0, R1, R2, R3, 0, 1D, R;"),
   ("3D can only have the default lod or LZ", c!"TEXS.LL R0, R1, R2, R3, 0, 3D, R;"),
   ("3D cannot be DC", c!"TEXS.DC R0, R1, R2, R3, 0, 3D, R;"),
   ("AOFFI and MS can't be used at the same time", c!"TLDS.LZ.AOFFI.MS R0, R1, R2, R3, 0, 2D, R;"),
   ("AOFFI can't be used in 3D", c!"TLDS.LZ.AOFFI R0, R1, R2, R3, 0, 3D, R;"),
   ("AOFFI can't be used in ARRAY_2D", c!"TLDS.LZ.AOFFI R0, R1, R2, R3, 0, ARRAY_2D, R;"),
   ("CUBE can only have the default lod or LL", c!"TEXS.LZ R0, R1, R2, R3, 0, CUBE, R;"),
   ("CUBE cannot be DC", c!"TEXS.DC R0, R1, R2, R3, 0, CUBE, R;"),
   ("DC ARRAY_2D is only valid with LZ", c!"TEXS.DC R0, R1, R2, R3, 0, ARRAY_2D, R;"),
   ("LL ARRAY_2D is illegal", c!"TEXS.LL R0, R1, R2, R3, 0, ARRAY_2D, R;")]

def witnesses2 : List (String × Str) :=
  [("LL can't be used with MS in 2D", c!"TLDS.LL.MS R0, R1, R2, R3, 0, 2D, R;"),
   ("MS can't be used in 3D", c!"TLDS.LZ.MS R0, R1, R2, R3, 0, 3D, R;"),
   ("MS can't be used in ARRAY_2D", c!"TLDS.LZ.MS R0, R1, R2, R3, 0, ARRAY_2D, R;"),
   ("barrier index must be between 0 and 5 inclusively", c!"NOP @WB 6;"),
   ("clocks to stall are already specified", c!"NOP @WAIT 1 @WAIT 2;"),
   ("dependency barrier index %d already specified", c!"NOP @DEP 0 @DEP 0;"),
   ("dependency barrier index must be between 0 and 5 inclusively", c!"NOP @DEP 6;"),
   ("entrypoint \"%s\" not found", c!".dksh compute\nNOP;"),
   ("entrypoint is not aligned", c!".dksh compute\nNOP;\nmain:\nNOP;"),
   ("expected 'a'", c!"ALD R0, foo;"),
   ("expected .AND, .OR or .XOR", c!"CSET R0, foo, PT;"),
   ("expected .LOD", c!"TMML R0;"),
   ("expected .LUT", c!"LOP3 R0, R1;"),
   ("expected .P or .B", c!"SUST.B.2D.IGN [R0], R1, 0x0;")]

def witnesses3 : List (String × Str) :=
  [("expected .R", c!"SHF R0;"),
   ("expected .S16 or .U16", c!"XMAD.S16.FOO R0;"),
   ("expected .U16, .U32, .U64, .S16, .S32 or .S64", c!"F2I R0, R1;"),
   ("expected .U32, .S32, .U64, .S64, .F32.FTZ.RN, .F16x2.RN or .S64", c!"ATOM.ADD.F32.U32 R0, [R2], R1;"),
   ("expected .U8, .S8, .U16, .S16, .32, .64, .128 or .U.128", c!"LDG.U.64 R0, [R2];"),
   ("expected .U8, .U16, .U32, .S8, .S16 or .S32", c!"I2I R0, R1;"),
   ("expected .U8, .U16, .U32, .U64, .S8, .S16, .S32 or .S64", c!"I2F R0, R1;"),
   ("expected .X, .Y or .Z after SR_CTAID", c!"S2R R0, SR_CTAID.W;"),
   ("expected 0", c!"TXQ.B R0, R1, TEX_HEADER_DIMENSION, 5, 1;"),
   ("expected 1D, 2D, ARRAY_2D, 3D, or CUBE", c!"TEXS R0, R1, R2, R3, 0, foo, R;"),
   ("expected 1D, 2D, ARRAY_2D, or 3D", c!"TLDS.LZ R0, R1, R2, R3, 0, foo, R;"),
   ("expected 1D, ARRAY_1D, 2D, ARRAY_2D, 3D, ARRAY_3D, CUBE, or ARRAY_CUBE", c!"TEX P0, R0, R1, R2, 0, R5, 1;"),
   ("expected @WAIT, @WB, @RB, @DEP, or @YIELD/@Y", c!"NOP @FOO;"),
   ("expected CC", c!"CSET.AND R0, foo, PT;")]

def witnesses4 : List (String × Str) :=
  [("expected PR or CC", c!"P2R R0, foo, R1, R2;"),
   ("expected \x1b[1m%s\x1b[0m and got \x1b[1m%s %.*s\x1b[0m", c!"NOP 5 5;"),
   ("expected \x1b[1m%s\x1b[0m", c!"NOP\n"),
   ("expected constant buffer", c!"LDC.32 R0, foo;"),
   ("expected floating-point literal, QNAN, or INF", c!"FADD32I R0, R1, - 1.0;"),
   ("expected label", c!"SSY R0;"),
   ("expected local memory size", c!".local_memory foo"),
   ("expected mnemonic", c!"5.5."),
   ("expected new line after option", c!".type compute foo"),
   ("expected number of general purpose registers", c!".num_gprs 5"),
   ("expected shared memory size", c!".shared_memory foo"),
   ("expected workgroup sizes", c!".workgroup_size foo"),
   ("failed to parse literal \x1b[1;31m%.*s\x1b[0m", c!"5+3;"),
   ("fatal: invalid usage of '!'\n", c!"!")]

def witnesses5 : List (String × Str) :=
  [("floating point literal cannot have hex characters", c!"0x5.5"),
   ("immediate constant buffer access has to be aligned to 4 bytes", c!"HFMA2 R0, R1, R2, c[0][1];"),
   ("integer \x1b[1m%d\x1b[0m is out of range, expected to be from %ld to %ld inclusively", c!"MOV32I R1, 0x100000000;"),
   ("invalid RGBA swizzle", c!"TLDS.LZ R0, R1, R2, R3, 0, 1D, FOO;"),
   ("invalid identifier", c!"TLD4 R0;"),
   ("invalid mode", c!"TXQ R0, R1, foo, 0, 1;"),
   ("invalid program type \x1b[1m%.*s\x1b[0m", c!".type foo"),
   ("invalid register index \x1b[1;31m%.*s\x1b[0m", c!"R 5"),
   ("invalid system register \x1b[1m%.*s\x1b[0m", c!"S2R R0, SR_FOO;"),
   ("label \x1b[1m%.*s\x1b[0m not defined", c!"SSY foo;"),
   ("label out of range", c!"SSY 0x1000000;"),
   ("no separator after immediate", c!"5foo"),
   ("no separator after register", c!"RZa;"),
   ("number of waited clocks must be between 0 and 15 inclusively", c!"NOP @WAIT 16;")]

def witnesses6 : List (String × Str) :=
  [("out of range predicate", c!"P9;"),
   ("predicate can't be negated", c!"ISETP.EQ.AND !P0, P1, R0, R1, P2;"),
   ("program type already specified", c!".type compute\n.type compute\n"),
   ("register cannot be reused", c!"IADD R0.reuse, R1, R2;"),
   ("register index \x1b[1;31m%.*s\x1b[0m is out of range, expected to be from 0 to 254 inclusively", c!"R255;"),
   ("source register is not mirrored to destination register", c!"FFMA32I R0, R1, 1.0, R2;"),
   ("unexpected new line in option", c!".type\ncompute\n"),
   ("unexpected test %.*s", c!"BRA CC.FOO L;"),
   ("unknown mnemonic \x1b[1m%.*s\x1b[0m", c!"FOO;"),
   ("write_gfx_header is not implemented", c!".type vertex\nNOP;"),
   ("yield already specified", c!"NOP @YIELD @YIELD;")]

theorem witnesses1_report : witnesses1.all reportsFor = true := by decide +kernel

theorem witnesses2_report : witnesses2.all reportsFor = true := by decide +kernel

theorem witnesses3_report : witnesses3.all reportsFor = true := by decide +kernel

theorem witnesses4_report : witnesses4.all reportsFor = true := by decide +kernel

theorem witnesses5_report : witnesses5.all reportsFor = true := by decide +kernel

theorem witnesses6_report : witnesses6.all reportsFor = true := by decide +kernel

/-- A source for every message. -/
def witnesses : List (String × Str) := witnesses1 ++ witnesses2 ++ witnesses3 ++ witnesses4 ++ witnesses5 ++ witnesses6

theorem witnesses_report : ∀ p ∈ witnesses, reportsFor p = true := by
  simp only [witnesses, List.mem_append]
  have h := fun (l : List (String × Str)) (h : l.all reportsFor = true) => List.all_eq_true.1 h
  rintro p (((((hp | hp) | hp) | hp) | hp) | hp)
  · exact h _ witnesses1_report p hp
  · exact h _ witnesses2_report p hp
  · exact h _ witnesses3_report p hp
  · exact h _ witnesses4_report p hp
  · exact h _ witnesses5_report p hp
  · exact h _ witnesses6_report p hp

theorem witnesses_formats : reported = witnesses.map (·.1) := by decide +kernel

/-- C91. The formats of the messages that the assembler reports are exactly those of the list; every one is reported by both builds for
    some source, and no other one is reported by any build for any source. -/
theorem C91_reported (f : String) :
    (f ∈ reported → ∃ code, ∀ dbg, ∃ d, assemble dbg code = .exit d ∧ d.msg.fmt = f) ∧
    ((∃ dbg code d, assemble dbg code = .exit d ∧ d.msg.fmt = f) → f ∈ reported) := by
  constructor
  · intro h
    rw [witnesses_formats] at h
    obtain ⟨p, hp, rfl⟩ := List.mem_map.1 h
    have := witnesses_report p hp
    unfold reportsFor at this
    rw [List.all_eq_true] at this
    refine ⟨p.2, fun dbg => ?_⟩
    have := this dbg (by cases dbg <;> simp)
    split at this
    · rename_i d heq
      exact ⟨d, heq, by simpa using this⟩
    · simp at this
  · rintro ⟨dbg, code, d, h, rfl⟩
    cases d with
    | located e => exact located_reported h
    | plain m => exact plain_reported h

/-- C91. Nine messages of the source code are never reported, whatever the source. -/
theorem C91_unreported {f : String} (hf : f ∈ unreported) {dbg : Bool} {code : Str} {d : Diag} (h : assemble dbg code = .exit d) : d.msg.fmt ≠ f := by
  rintro rfl
  exact (by decide +kernel : ∀ f ∈ unreported, f ∉ reported) _ hf ((C91_reported _).2 ⟨dbg, code, d, h, rfl⟩)

/-- A row of `ALD` builds the message `expected .P` for this source; the row of plain `ALD` gets further, and its message is reported. -/
example : parseInsn ⟨0xEFD8000000000000#64, 0, c!"ALD", [.flag c!".O" 32, .expect c!".P" [0x80000000#64] []]⟩ true
      ⟨⟨⟨c!" R0, foo;", 0, 3⟩, [], 8, {}⟩, ⟨.ident c!"ALD", 0, 0⟩, {}⟩ =
    (.fail ⟨0, 4, "expected .P"⟩ ⟨⟨⟨c!", foo;", 0, 6⟩, [], 8, {}⟩, ⟨.reg 0, 0, 4⟩, ⟨0xEFD8000000000000#64, 0, 0⟩⟩, 2) ∧
    assemble true c!"ALD R0, foo;" = .exit (.located ⟨0, 8, "expected 'a'"⟩) := by
  decide +kernel

end Nxas
