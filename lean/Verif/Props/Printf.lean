import Verif.Model.Error
import Verif.Props.Messages
import Verif.Props.Error
/-
C72: the arguments of the messages have the types of their formats.
-/

namespace Nxas

open Spec

/-- The message of a diagnostic. -/
def Diag.msg : Diag → Msg
  | .located e => e.msg
  | .plain m => m

/-- The claim: printing a diagnostic has defined behaviour. -/
def C72_claim : Prop := ∀ (dbg : Bool) (code : Str) (d : Diag), assemble dbg code = .exit d → ∃ t, d.msg.print false = some t

/-- The formats whose arguments have other types. -/
def mistyped : List String :=
  ["integer \x1b[1m%d\x1b[0m is out of range, expected to be from %ld to %ld inclusively",
   "label \x1b[1m%.*s\x1b[0m not defined", "unknown mnemonic \x1b[1m%.*s\x1b[0m", "unexpected test %.*s"]

/-- Each of these formats is used, and printing it is undefined. -/
theorem C72_violated : ∀ f ∈ mistyped, ∃ code d, assemble true code = .exit d ∧ d.msg.fmt = f ∧ d.msg.print false = none := by
  intro f hf
  simp only [mistyped, List.mem_cons, List.not_mem_nil, or_false] at hf
  rcases hf with rfl | rfl | rfl | rfl
  · exact ⟨c!"MOV32I R1, 0x100000000;", .located ⟨0, 11,
      ⟨"integer \x1b[1m%d\x1b[0m is out of range, expected to be from %ld to %ld inclusively",
        [.long 4294967296, .long 0, .long 4294967295]⟩⟩, by decide +kernel, rfl, by decide +kernel⟩
  · exact ⟨c!"SSY foo;", .located ⟨0, 4, ⟨"label \x1b[1m%.*s\x1b[0m not defined", [.sized c!"foo"]⟩⟩,
      by decide +kernel, rfl, by decide +kernel⟩
  · exact ⟨c!"FOO;", .located ⟨0, 0, ⟨"unknown mnemonic \x1b[1m%.*s\x1b[0m", [.sized c!"FOO"]⟩⟩,
      by decide +kernel, rfl, by decide +kernel⟩
  · exact ⟨c!"KIL CC.FOO;", .located ⟨0, 6, ⟨"unexpected test %.*s", [.sized c!".FOO"]⟩⟩, by decide +kernel, rfl, by decide +kernel⟩

theorem C72_not_claim : ¬ C72_claim := by
  intro h
  obtain ⟨code, d, h1, -, h2⟩ := C72_violated _ (by simp [mistyped] : "unexpected test %.*s" ∈ mistyped)
  obtain ⟨t, ht⟩ := h true code d h1
  rw [h2] at ht
  simp at ht

/-! ### Plain formats -/

theorem printf_plain (lp64 : Bool) (f : Str) (as : List Arg) (h : '%' ∉ f) (hz : '\x00' ∉ f) : printf lp64 f as = some f := by
  induction f generalizing as with
  | nil => simp [printf]
  | cons c r ih =>
    simp only [List.mem_cons, not_or] at h hz
    rw [printf, ih as h.2 hz.2]
    · rfl
    all_goals grind

/-- A format without directives. -/
def bare (f : String) : Bool := !f.toList.contains '%' && !f.toList.contains '\x00'

theorem bare_print {f : String} (h : bare f = true) (lp64 : Bool) : Msg.print lp64 ⟨f, []⟩ = some f.toList := by
  simp only [bare, Bool.and_eq_true, Bool.not_eq_true', List.contains_eq_mem, decide_eq_false_iff_not] at h
  exact printf_plain lp64 _ _ h.1 h.2

theorem listings_bare : ∀ p ∈ listings, bare p.1 = true := by decide +kernel
theorem misplaced_bare : ∀ p ∈ misplaced, bare p.1 = true := by decide +kernel
theorem sizes_bare : ∀ p ∈ sizes, bare p = true := by decide +kernel
theorem unspecific_bare : ∀ p ∈ Spec.unspecific, bare p = true := by decide +kernel

/-! ### The texts of the other messages -/

theorem print_expected (l : Bool) (a : Str) (b : Str) (c : Str) :
    Msg.print l ⟨"expected \x1b[1m%s\x1b[0m and got \x1b[1m%s %.*s\x1b[0m", [.text a, .text b, .text c]⟩ =
      some (c!"expected \x1b[1m" ++ cstr a ++ c!"\x1b[0m and got \x1b[1m" ++ cstr b ++ c!" " ++ cstr c ++ c!"\x1b[0m") := by
  simp [Msg.print, printf]

theorem print_missing (l : Bool) (a : Str) :
    Msg.print l ⟨"expected \x1b[1m%s\x1b[0m", [.text a]⟩ =
      some (c!"expected \x1b[1m" ++ cstr a ++ c!"\x1b[0m") := by
  simp [Msg.print, printf]

theorem print_range (a : Int) (b : Int) (c : Int) :
    Msg.print true ⟨"integer \x1b[1m%d\x1b[0m is out of range, expected to be from %ld to %ld inclusively", [.long a, .long b, .long c]⟩ =
      some (c!"integer \x1b[1m" ++ intText (lowInt a) ++ c!"\x1b[0m is out of range, expected to be from " ++ intText b ++ c!" to " ++ intText c ++ c!" inclusively") := by
  simp [Msg.print, printf]

theorem print_label (a : Str) (h : a.length < 2 ^ 31) :
    Msg.print true ⟨"label \x1b[1m%.*s\x1b[0m not defined", [.sized a]⟩ =
      some (c!"label \x1b[1m" ++ cstr a ++ c!"\x1b[0m not defined") := by
  simp [Msg.print, printf, h]

theorem print_mnemonic (a : Str) (h : a.length < 2 ^ 31) :
    Msg.print true ⟨"unknown mnemonic \x1b[1m%.*s\x1b[0m", [.sized a]⟩ =
      some (c!"unknown mnemonic \x1b[1m" ++ cstr a ++ c!"\x1b[0m") := by
  simp [Msg.print, printf, h]

theorem print_test (a : Str) (h : a.length < 2 ^ 31) :
    Msg.print true ⟨"unexpected test %.*s", [.sized a]⟩ =
      some (c!"unexpected test " ++ cstr a) := by
  simp [Msg.print, printf, h]

theorem print_register (l : Bool) (a : Str) :
    Msg.print l ⟨"invalid system register \x1b[1m%.*s\x1b[0m", [.text a]⟩ =
      some (c!"invalid system register \x1b[1m" ++ cstr a ++ c!"\x1b[0m") := by
  simp [Msg.print, printf]

theorem print_type (l : Bool) (a : Str) :
    Msg.print l ⟨"invalid program type \x1b[1m%.*s\x1b[0m", [.text a]⟩ =
      some (c!"invalid program type \x1b[1m" ++ cstr a ++ c!"\x1b[0m") := by
  simp [Msg.print, printf]

theorem print_always (l : Bool) (a : Str) :
    Msg.print l ⟨"%s does not support predicated execution", [.text a]⟩ =
      some (cstr a ++ c!" does not support predicated execution") := by
  simp [Msg.print, printf]

theorem print_barrier (l : Bool) (a : Str) :
    Msg.print l ⟨"%s barrier already specified", [.text a]⟩ =
      some (cstr a ++ c!" barrier already specified") := by
  simp [Msg.print, printf]

theorem print_dependency (l : Bool) (a : Int) :
    Msg.print l ⟨"dependency barrier index %d already specified", [.int a]⟩ =
      some (c!"dependency barrier index " ++ intText a ++ c!" already specified") := by
  simp [Msg.print, printf]

theorem print_literal (l : Bool) (a : Str) :
    Msg.print l ⟨"failed to parse literal \x1b[1;31m%.*s\x1b[0m", [.text a]⟩ =
      some (c!"failed to parse literal \x1b[1;31m" ++ cstr a ++ c!"\x1b[0m") := by
  simp [Msg.print, printf]

theorem print_noIndex (l : Bool) (a : Str) :
    Msg.print l ⟨"invalid register index \x1b[1;31m%.*s\x1b[0m", [.text a]⟩ =
      some (c!"invalid register index \x1b[1;31m" ++ cstr a ++ c!"\x1b[0m") := by
  simp [Msg.print, printf]

theorem print_index (l : Bool) (a : Str) :
    Msg.print l ⟨"register index \x1b[1;31m%.*s\x1b[0m is out of range, expected to be from 0 to 254 inclusively", [.text a]⟩ =
      some (c!"register index \x1b[1;31m" ++ cstr a ++ c!"\x1b[0m is out of range, expected to be from 0 to 254 inclusively") := by
  simp [Msg.print, printf]

theorem print_entry (l : Bool) (a : Str) :
    Msg.print l ⟨"entrypoint \"%s\" not found", [.text a]⟩ =
      some (c!"entrypoint \"" ++ cstr a ++ c!"\" not found") := by
  simp [Msg.print, printf]

theorem print_open (l : Bool) (a : Str) :
    Msg.print l ⟨"%s: failed to open", [.text a]⟩ =
      some (cstr a ++ c!": failed to open") := by
  simp [Msg.print, printf]

theorem fits_print {full : Bool} {v : Words} {k : Kind} {m : Msg} (h : Fits full v k m) :
    (∃ t, m.print false = some t) ∨ m.fmt ∈ mistyped := by
  cases h with
  | @misplaced fmt names h hk => exact .inl ⟨_, bare_print (misplaced_bare _ h) _⟩
  | @listing fmt names h hk => exact .inl ⟨_, bare_print (listings_bare _ h) _⟩
  | @noSize fmt h hk => exact .inl ⟨_, bare_print (sizes_bare _ h) _⟩
  | @unspecific fmt h => exact .inl ⟨_, bare_print (unspecific_bare _ h) _⟩
  | range => exact .inr (by simp [mistyped])
  | label => exact .inr (by simp [mistyped])
  | mnemonic => exact .inr (by simp [mistyped])
  | test => exact .inr (by simp [mistyped])
  | expected => exact .inl ⟨_, print_expected ..⟩
  | missing => exact .inl ⟨_, print_missing ..⟩
  | register => exact .inl ⟨_, print_register ..⟩
  | type => exact .inl ⟨_, print_type ..⟩
  | always => exact .inl ⟨_, print_always ..⟩
  | write => exact .inl ⟨_, print_barrier ..⟩
  | read => exact .inl ⟨_, print_barrier ..⟩
  | dependency => exact .inl ⟨_, print_dependency ..⟩
  | _ => exact .inl ⟨_, bare_print (by decide +kernel) _⟩

theorem noToken_print {post : Str} {m : Msg} (h : NoToken post m) (l : Bool) : ∃ t, m.print l = some t := by
  cases h with
  | literal => exact ⟨_, print_literal ..⟩
  | register => exact ⟨_, print_noIndex ..⟩
  | index => exact ⟨_, print_index ..⟩
  | _ => exact ⟨_, bare_print (by decide +kernel) _⟩

/-- The messages without a position, of the assembler. -/
theorem plain_messages {dbg : Bool} {code : Str} {m : Msg} (h : assemble dbg code = .exit (.plain m)) :
    m = "no type provided, valid are types: vertex, tess_control, tess_eval, geometry, fragment, compute" ∨
    m = ⟨"entrypoint \"%s\" not found", [.text c!"main"]⟩ ∨ m = "entrypoint is not aligned" ∨
    m = "write_gfx_header is not implemented" := by
  unfold assemble assembleWith at h
  split at h
  · simp at h
  · rename_i labels hl
    dsimp only at h
    split at h
    · split at h
      · simp at h
      · unfold binary writeDksh at h
        dsimp only at h
        repeat' split at h
        all_goals (try simp only [reduceCtorEq, Res.exit.injEq, Diag.plain.injEq] at h)
        all_goals (try simp_all)
    · rename_i d heq
      obtain ⟨e', h1, h2⟩ := parseAll_good (c0 := ⟨cstr code, 0, 0⟩) (words_of hl) rfl (Reach.refl _) heq
      simp [h1] at h
    · simp at h
    · simp at h

theorem plain_print {dbg : Bool} {code : Str} {m : Msg} (h : assemble dbg code = .exit (.plain m)) (l : Bool) :
    ∃ t, m.print l = some t := by
  rcases plain_messages h with rfl | rfl | rfl | rfl
  · exact ⟨_, bare_print (by decide +kernel) _⟩
  · exact ⟨_, print_entry ..⟩
  · exact ⟨_, bare_print (by decide +kernel) _⟩
  · exact ⟨_, bare_print (by decide +kernel) _⟩

/-- C72 for all other messages: their arguments have the types of the format. -/
theorem C72_partial {dbg : Bool} {code : Str} {d : Diag} (h : assemble dbg code = .exit d) (hm : d.msg.fmt ∉ mistyped) :
    ∃ t, d.msg.print false = some t := by
  cases d with
  | plain m => exact plain_print h _
  | located e =>
    obtain ⟨pre, post, -, -, -, ht⟩ := C71_partial h
    cases ht with
    | token _ _ hf => exact (fits_print hf).resolve_right hm
    | ended _ hf => exact (fits_print hf).resolve_right hm
    | none _ hn => exact noToken_print hn _

theorem printf_lp64 {f : Str} {as : List Arg} {t : Str} (h : printf false f as = some t) : printf true f as = some t := by
  fun_induction printf false f as generalizing t with
  | case1 | case2 => exact h
  | case5 _ _ _ h' | case8 _ _ _ h' => simp at h'
  | case6 | case9 | case11 => simp at h
  | case3 r s as ih | case4 r s as ih | case7 r v as ih | case10 r v as ih =>
    simp only [Option.map_eq_some_iff] at h
    obtain ⟨u, h1, rfl⟩ := h
    rw [printf, ih h1]
    rfl
  | case12 c r as _ _ _ _ _ _ _ _ ih =>
    simp only [Option.map_eq_some_iff] at h
    obtain ⟨u, h1, rfl⟩ := h
    rw [printf, ih h1]
    · rfl
    all_goals assumption

theorem print_lp64 {m : Msg} {t : Str} (h : m.print false = some t) : m.print true = some t := printf_lp64 h

theorem lexeme_ident {w r name : Str} (h : Lexeme w r (.ident name)) : name = w := by
  cases h with
  | operator h => simp [operators] at h
  | word => rfl

theorem fits_print_lp64 {full : Bool} {v : Words} {k : Kind} {m : Msg} (h : Fits full v k m)
    (hk : ∀ name, k = .ident name → name.length < 2 ^ 31) : ∃ t, m.print true = some t := by
  rcases fits_print h with ⟨t, ht⟩ | hm
  · exact ⟨t, print_lp64 ht⟩
  · cases h with
    | range => exact ⟨_, print_range ..⟩
    | label e => exact ⟨_, print_label _ (hk _ e)⟩
    | mnemonic e => exact ⟨_, print_mnemonic _ (hk _ e)⟩
    | test e => exact ⟨_, print_test _ (hk _ e)⟩
    | @misplaced fmt names h hk => exact ⟨_, bare_print (misplaced_bare _ h) _⟩
    | @listing fmt names h hk => exact ⟨_, bare_print (listings_bare _ h) _⟩
    | @noSize fmt h hk => exact ⟨_, bare_print (sizes_bare _ h) _⟩
    | @unspecific fmt h => exact ⟨_, bare_print (unspecific_bare _ h) _⟩
    | _ => simp [mistyped] at hm

/-- C72. On 64-bit Linux every diagnostic is printed, for sources below 2 GiB. -/
theorem C72_printed {dbg : Bool} {code : Str} {d : Diag} (hl : code.length < 2 ^ 31) (h : assemble dbg code = .exit d) :
    ∃ t, d.msg.print true = some t := by
  cases d with
  | plain m => exact plain_print h _
  | located e =>
    obtain ⟨pre, post, hv, -, -, ht⟩ := C71_partial h
    have hle : (visible code).length ≤ code.length := (List.takeWhile_prefix _).length_le
    cases ht with
    | @token w r k _ hp hw hf =>
      refine fits_print_lp64 hf fun name e => ?_
      subst e
      rw [lexeme_ident hw]
      rw [hv, hp] at hle
      simp only [List.length_append] at hle
      omega
    | ended _ hf => exact fits_print_lp64 hf (by simp)
    | none _ hn => exact noToken_print hn _

theorem lowInt_self {x : Int} : lowInt x = x ↔ -2 ^ 31 ≤ x ∧ x < 2 ^ 31 := by
  unfold lowInt
  rw [BitVec.toInt_ofInt, Int.bmod_def]
  constructor
  · intro h
    split at h <;> omega
  · intro h
    split <;> omega

/-- The format of the message about the range of an integer. -/
def rangeFormat : String := "integer \x1b[1m%d\x1b[0m is out of range, expected to be from %ld to %ld inclusively"

theorem fits_range {full : Bool} {v : Words} {k : Kind} {m : Msg} (h : Fits full v k m) (hm : m.fmt = rangeFormat) :
    ∃ x lo hi, k = .imm x ∧ ¬ (lo ≤ x ∧ x ≤ hi) ∧ m = ⟨rangeFormat, [.long x, .long lo, .long hi]⟩ := by
  cases h with
  | range hk hr => exact ⟨_, _, _, hk, hr, rfl⟩
  | @misplaced fmt names h hk => exact absurd hm ((by decide : ∀ p ∈ misplaced, p.1 ≠ rangeFormat) _ h)
  | @listing fmt names h hk => exact absurd hm ((by decide : ∀ p ∈ listings, p.1 ≠ rangeFormat) _ h)
  | @noSize fmt h hk => exact absurd hm ((by decide : ∀ p ∈ sizes, p ≠ rangeFormat) _ h)
  | @unspecific fmt h => exact absurd hm ((by decide : ∀ p ∈ Spec.unspecific, p ≠ rangeFormat) _ h)
  | _ => simp [rangeFormat] at hm

/-- C72. The integer in a message about its range is the one in the source iff it fits 32 bits. -/
theorem C72_range {dbg : Bool} {code : Str} {e : Err} (h : assemble dbg code = .exit (.located e))
    (hm : e.msg.fmt = "integer \x1b[1m%d\x1b[0m is out of range, expected to be from %ld to %ld inclusively") :
    ∃ pre w r, ∃ x lo hi : Int, visible code = pre ++ (w ++ r) ∧ e.line = lineAfter pre ∧ e.col = columnAfter pre ∧
      Lexeme w r (.imm x) ∧ ¬ (lo ≤ x ∧ x ≤ hi) ∧
      e.msg.print true = some (c!"integer \x1b[1m" ++ intText (lowInt x) ++ c!"\x1b[0m is out of range, expected to be from " ++
        intText lo ++ c!" to " ++ intText hi ++ c!" inclusively") ∧ (lowInt x = x ↔ -2 ^ 31 ≤ x ∧ x < 2 ^ 31) := by
  obtain ⟨pre, post, hv, h1, h2, ht⟩ := C71_partial h
  cases ht with
  | @token w r k _ hp hw hf =>
    subst hp
    obtain ⟨x, lo, hi, rfl, hr, hm⟩ := fits_range hf hm
    exact ⟨pre, w, r, x, lo, hi, hv, h1, h2, hw, hr, by rw [hm]; exact print_range .., lowInt_self⟩
  | ended _ hf =>
    obtain ⟨x, lo, hi, hk, -⟩ := fits_range hf hm
    simp at hk
  | none _ hn => exact absurd (noToken_fmt hn) (by rw [hm]; decide)

/-- The range of this message contains the integer it prints: the source has 4294967296. -/
theorem C72_misprint : ∃ e, assemble true c!"MOV32I R1, 0x100000000;" = .exit (.located e) ∧
    e.msg.print true = some c!"integer \x1b[1m0\x1b[0m is out of range, expected to be from 0 to 4294967295 inclusively" :=
  ⟨⟨0, 11, ⟨rangeFormat, [.long 4294967296, .long 0, .long 4294967295]⟩⟩, by decide +kernel, by decide +kernel⟩

example : ∃ e, assemble true c!"LDG R1, [R2+0x1000000];" = .exit (.located e) ∧
    e.msg.print true = some c!"integer \x1b[1m16777216\x1b[0m is out of range, expected to be from -8388608 to 8388607 inclusively" :=
  ⟨⟨0, 11, ⟨rangeFormat, [.long 16777216, .long (-8388608), .long 8388607]⟩⟩, by decide +kernel, by decide +kernel⟩

/-! ### The output of the program -/

theorem parseArgs_print {args : List Str} {i o : Option Str} {m : Msg} (h : parseArgs args i o = .error m) (l : Bool) :
    ∃ t, m.print l = some t := by
  fun_induction parseArgs args i o with
  | case1 => simp at h
  | case4 _ _ _ _ _ ih => exact ih h
  | case6 _ _ _ _ _ _ ih => exact ih h
  | _ =>
    simp only [Except.error.injEq] at h
    subst h
    exact ⟨_, bare_print (by decide +kernel) _⟩

/-- C72. Whenever the program ends with an error, it prints a message, on 64-bit Linux and for files below 2 GiB: the position
    counted from 1 if the error has one, the word `error`, and the text of the error. -/
theorem C72_output {dbg : Bool} {fs : Files} {args : List Str} {evs : List Event} {d : Diag}
    (hl : ∀ i text, fs.read i = some text → text.length < 2 ^ 31) (h : mainProgram dbg fs args = (evs, .exit d)) (file : Str) :
    ∃ t, d.msg.print true = some t ∧ d.print true file = some (match d with
      | .located e => errorPrefix file e.line e.col ++ t ++ ['\n']
      | .plain _ => c!"\x1b[1;31merror:\x1b[0m " ++ t ++ ['\n']) := by
  have key : ∃ t, d.msg.print true = some t := by
    unfold mainProgram at h
    split at h
    · rename_i m hm
      simp only [Prod.mk.injEq, Res.exit.injEq] at h
      rw [← h.2]
      exact parseArgs_print hm _
    · simp only [Prod.mk.injEq, Res.exit.injEq] at h
      rw [← h.2]
      exact ⟨_, bare_print (by decide +kernel) _⟩
    · simp only [Prod.mk.injEq, Res.exit.injEq] at h
      rw [← h.2]
      exact ⟨_, bare_print (by decide +kernel) _⟩
    · split at h
      · simp at h
      · rename_i text ht
        split at h
        · split at h
          · simp at h
          · simp only [Prod.mk.injEq, Res.exit.injEq] at h
            rw [← h.2]
            exact ⟨_, print_open ..⟩
        · rename_i d' hd
          simp only [Prod.mk.injEq, Res.exit.injEq] at h
          rw [← h.2]
          refine C72_printed (lt_of_le_of_lt (List.takeWhile_prefix _).length_le (hl _ _ ht)) hd
        · simp at h
        · simp at h
  obtain ⟨t, ht⟩ := key
  refine ⟨t, ht, ?_⟩
  cases d with
  | located e =>
    change e.msg.print true = some t at ht
    simp only [Diag.print, ht, Option.map_some]
    simp [fatalOutput, errorPrefix]
  | plain m =>
    change m.print true = some t at ht
    simp only [Diag.print, ht, Option.map_some]

example : (Diag.print true c!"a.s" (.located ⟨1, 2, ⟨"unknown mnemonic \x1b[1m%.*s\x1b[0m", [.sized c!"FOO"]⟩⟩)) =
    some c!"\x1b[1ma.s:\x1b[1m2:3: \x1b[1;31merror:\x1b[0m unknown mnemonic \x1b[1mFOO\x1b[0m\n" := by decide +kernel

end Nxas
