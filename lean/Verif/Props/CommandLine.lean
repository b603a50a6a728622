import Verif.Lemmas.Head
/-
C53, C54, C55: the command line program.
-/

namespace Nxas

open Spec

/-! ### C53 -/

/-- The accepted command lines: an input file, and `-o` with an output file, in both orders.  The input file
    cannot be called `-o`. -/
inductive CommandLine : List Str → Str → Str → Prop
  | inputFirst {i o : Str} (h : i ≠ c!"-o") : CommandLine [i, c!"-o", o] i o
  | outputFirst {i o : Str} (h : i ≠ c!"-o") : CommandLine [c!"-o", o, i] i o

theorem parseArgs_full {args : List Str} {a b i o : Str} :
    parseArgs args (some a) (some b) = .ok (some i, some o) ↔ args = [] ∧ i = a ∧ o = b := by
  cases args with
  | nil => simp only [parseArgs, Except.ok.injEq, Prod.mk.injEq, Option.some.injEq, true_and]; grind
  | cons x args =>
    unfold parseArgs
    by_cases hx : x = c!"-o"
    · simp [hx]
    · simp [hx]

theorem parseArgs_input {args : List Str} {a i o : Str} :
    parseArgs args (some a) none = .ok (some i, some o) ↔ args = [c!"-o", o] ∧ i = a := by
  cases args with
  | nil => simp [parseArgs]
  | cons x args =>
    unfold parseArgs
    by_cases hx : x = c!"-o"
    · subst hx
      simp only [if_true, Option.isSome_none, Bool.false_eq_true, if_false]
      cases args with
      | nil => simp
      | cons y args =>
        dsimp only
        rw [parseArgs_full]
        simp only [List.cons.injEq, true_and]
        grind
    · rw [if_neg hx]
      simp [hx]

theorem parseArgs_output {args : List Str} {b i o : Str} :
    parseArgs args none (some b) = .ok (some i, some o) ↔ args = [i] ∧ i ≠ c!"-o" ∧ o = b := by
  cases args with
  | nil => simp [parseArgs]
  | cons x args =>
    unfold parseArgs
    by_cases hx : x = c!"-o"
    · subst hx
      simp only [if_true, Option.isSome_some]
      constructor
      · intro h; cases h
      · rintro ⟨h1, h2, -⟩
        simp only [List.cons.injEq] at h1
        exact (h2 h1.1.symm).elim
    · rw [if_neg hx]
      simp only [Option.isSome_none, Bool.false_eq_true, if_false]
      rw [parseArgs_full]
      simp only [List.cons.injEq]
      grind

/-- C53. The arguments accepted. -/
theorem C53_arguments {args : List Str} {i o : Str} :
    parseArgs args none none = .ok (some i, some o) ↔ CommandLine args i o := by
  constructor
  · intro h
    cases args with
    | nil => simp [parseArgs] at h
    | cons x args =>
      unfold parseArgs at h
      by_cases hx : x = c!"-o"
      · subst hx
        simp only [if_true, Option.isSome_none, Bool.false_eq_true, if_false] at h
        cases args with
        | nil => simp at h
        | cons y args =>
          obtain ⟨rfl, h1, rfl⟩ := parseArgs_output.1 h
          exact .outputFirst h1
      · rw [if_neg hx] at h
        simp only [Option.isSome_none, Bool.false_eq_true, if_false] at h
        obtain ⟨rfl, rfl⟩ := parseArgs_input.1 h
        exact .inputFirst hx
  · intro h
    cases h with
    | inputFirst h => simp [parseArgs, h]
    | outputFirst h => simp [parseArgs, h]

/-- C53. All other command lines end with a diagnostic, whatever the files are; no file is touched. -/
theorem C53_rejected {args : List Str} (h : ∀ i o, ¬ CommandLine args i o) :
    ∃ msg, ∀ dbg fs, mainProgram dbg fs args = ([], .exit (.plain msg)) := by
  unfold mainProgram
  cases hp : parseArgs args none none with
  | error msg => exact ⟨msg, fun _ _ => rfl⟩
  | ok p =>
    obtain ⟨_ | i, o⟩ := p
    · exact ⟨_, fun _ _ => rfl⟩
    · cases o with
      | none => exact ⟨_, fun _ _ => rfl⟩
      | some o => exact (h i o (C53_arguments.1 hp)).elim

/-- C53. With an accepted command line and a readable input file, how the program ends is decided by the
    assembler (and by whether the output file can be opened). -/
theorem C53_runs {args : List Str} {i o text : Str} (h : CommandLine args i o) {dbg : Bool} {fs : Files}
    (hr : fs.read i = some text) (hw : fs.canWrite o = true) :
    (mainProgram dbg fs args).2 = (match assemble dbg (visible text) with
      | .ok _ => .ok ()
      | .exit d => .exit d
      | .abort => .abort
      | .ub u => .ub u) := by
  unfold mainProgram
  rw [C53_arguments.2 h]
  dsimp only
  rw [hr]
  dsimp only
  rw [show cstr text = visible text from rfl]
  cases assemble dbg (visible text) <;> simp [hw]

/-- C53. An input file that cannot be opened is undefined behaviour (the message is formatted with a null
    pointer), not a diagnostic. -/
theorem C53_unreadable {args : List Str} {i o : Str} (h : CommandLine args i o) {dbg : Bool} {fs : Files}
    (hr : fs.read i = none) : mainProgram dbg fs args = ([], .ub .nullFormat) := by
  unfold mainProgram
  rw [C53_arguments.2 h]
  dsimp only
  rw [hr]

example : CommandLine [c!"a.asm", c!"-o", c!"a.bin"] c!"a.asm" c!"a.bin" := .inputFirst (by decide)
example : ∀ i o, ¬ CommandLine [c!"-o", c!"a.bin"] i o := by rintro i o ⟨⟩
example : ∀ i o, ¬ CommandLine [c!"-o", c!"a.bin", c!"-o", c!"b.bin", c!"a.asm"] i o := by rintro i o ⟨⟩

/-! ### C54 -/

/-- The number stored in bytes, least significant first. -/
def littleEndian : List (BitVec 8) → Nat
  | [] => 0
  | b :: bs => b.toNat + 256 * littleEndian bs

/-- The 64-bit words stored in a file. -/
def wordsOf : Nat → List (BitVec 8) → List Nat
  | 0, _ => []
  | n + 1, bs => littleEndian (bs.take 8) :: wordsOf n (bs.drop 8)

theorem wordBytes_length (w : BitVec 64) : (wordBytes w).length = 8 := by simp [wordBytes]

theorem wordBytes_value (w : BitVec 64) : littleEndian (wordBytes w) = w.toNat := by
  have h : wordBytes w = [(w >>> 0).setWidth 8, (w >>> 8).setWidth 8, (w >>> 16).setWidth 8, (w >>> 24).setWidth 8,
    (w >>> 32).setWidth 8, (w >>> 40).setWidth 8, (w >>> 48).setWidth 8, (w >>> 56).setWidth 8] := rfl
  rw [h]
  simp only [littleEndian, BitVec.toNat_setWidth, BitVec.toNat_ushiftRight, Nat.shiftRight_eq_div_pow]
  have := w.isLt
  omega

theorem wordsOf_bytes (words : List (BitVec 64)) :
    wordsOf words.length (words.flatMap wordBytes) = words.map BitVec.toNat := by
  induction words with
  | nil => rfl
  | cons w ws ih =>
    rw [List.flatMap_cons, List.length_cons, wordsOf, List.take_append_of_le_length (by rw [wordBytes_length]),
      List.drop_append_of_le_length (by rw [wordBytes_length])]
    rw [List.take_of_length_le (by rw [wordBytes_length]), List.drop_of_length_le (by rw [wordBytes_length])]
    rw [List.nil_append, ih, wordBytes_value, List.map_cons]

theorem bytes_length (words : List (BitVec 64)) : (words.flatMap wordBytes).length = 8 * words.length := by
  induction words with
  | nil => rfl
  | cons w ws ih => rw [List.flatMap_cons, List.length_append, ih, wordBytes_length, List.length_cons]; omega

/-- C54. On success the program has read the input, created the output file and written to it, once, the
    words of the assembled text: 8 bytes each, least significant first. -/
theorem C54_written {args : List Str} {dbg : Bool} {fs : Files} (h : (mainProgram dbg fs args).2 = .ok ()) :
    ∃ i o text words bytes, CommandLine args i o ∧ fs.read i = some text ∧
      assemble dbg (visible text) = .ok words ∧
      (mainProgram dbg fs args).1 = [.read i, .create o, .write o bytes] ∧
      bytes.length = 8 * words.length ∧ wordsOf words.length bytes = words.map BitVec.toNat := by
  unfold mainProgram at h ⊢
  cases hp : parseArgs args none none with
  | error msg => simp [hp] at h
  | ok p =>
    obtain ⟨_ | i, _ | o⟩ := p
    · simp [hp] at h
    · simp [hp] at h
    · simp [hp] at h
    · simp only [hp] at h ⊢
      cases hr : fs.read i with
      | none => simp [hr] at h
      | some text =>
        simp only [hr] at h ⊢
        cases ha : assemble dbg (cstr text) with
        | ok words =>
          simp only [ha] at h ⊢
          by_cases hw : fs.canWrite o = true
          · rw [if_pos hw] at h ⊢
            exact ⟨i, o, text, words, _, C53_arguments.1 hp, hr, ha, rfl, bytes_length _, wordsOf_bytes _⟩
          · rw [if_neg hw] at h
            simp at h
        | _ => simp [ha] at h

/-- C54. If the program does not succeed, no file is created, emptied or written. -/
theorem C54_untouched {args : List Str} {dbg : Bool} {fs : Files} (h : (mainProgram dbg fs args).2 ≠ .ok ()) :
    ∀ e ∈ (mainProgram dbg fs args).1, ∃ f, e = .read f := by
  unfold mainProgram at h ⊢
  cases hp : parseArgs args none none with
  | error msg => simp
  | ok p =>
    obtain ⟨_ | i, _ | o⟩ := p
    · simp
    · simp
    · simp
    · simp only [hp] at h ⊢
      cases hr : fs.read i with
      | none => simp
      | some text =>
        simp only [hr] at h ⊢
        cases ha : assemble dbg (cstr text) with
        | ok words =>
          simp only [ha] at h ⊢
          by_cases hw : fs.canWrite o = true
          · rw [if_pos hw] at h
            exact (h rfl).elim
          · rw [if_neg hw]
            simp
        | _ => simp

example : mainProgram true ⟨fun f => if f = c!"a" then some c!"NOP;\n" else none, fun _ => true⟩
    [c!"-o", c!"b", c!"a"] = ([.read c!"a", .create c!"b", .write c!"b"
      [0xe0, 0x07, 0x00, 0xfc, 0x00, 0x80, 0x1f, 0x00, 0x00, 0x0f, 0x07, 0x00, 0x00, 0x00, 0xb0, 0x50,
       0x00, 0x0f, 0x07, 0x00, 0x00, 0x00, 0xb0, 0x50, 0x00, 0x0f, 0x07, 0x00, 0x00, 0x00, 0xb0, 0x50]], .ok ()) := by
  decide +kernel
example : mainProgram true ⟨fun f => if f = c!"a" then some c!"NOPE;\n" else none, fun _ => true⟩
    [c!"-o", c!"b", c!"a"] = ([.read c!"a"], .exit (.located ⟨0, 0, ⟨"unknown mnemonic \x1b[1m%.*s\x1b[0m", [.sized c!"NOPE"]⟩⟩)) := by
  decide +kernel

/-! ### C55 -/

theorem visible_idem (t : Str) : visible (visible t) = visible t := by
  unfold visible
  rw [List.takeWhile_takeWhile]
  simp

/-- C55. The command line program sees nothing of a file but what precedes its first NUL byte. -/
theorem C55_command_line (dbg : Bool) (fs : Files) (args : List Str) :
    mainProgram dbg fs args = mainProgram dbg { fs with read := fun f => (fs.read f).map visible } args := by
  unfold mainProgram
  cases hp : parseArgs args none none with
  | error msg => rfl
  | ok p =>
    obtain ⟨_ | i, _ | o⟩ := p
    · rfl
    · rfl
    · rfl
    · dsimp only
      cases fs.read i with
      | none => rfl
      | some text =>
        dsimp only [Option.map_some]
        rw [show cstr (visible text) = cstr text from visible_idem text]

/-- The parse loop does not depend on the size of the buffer, if there is room for as many instructions as
    there are semicolons. -/
theorem parseAll_enough {table : List Insn} {dbg : Bool} {ctx : Ctx} {n m : Nat} (hn : ctx.cur.text.count ';' < n)
    (hm : ctx.cur.text.count ';' < m) : parseAll table dbg n ctx = parseAll table dbg m ctx := by
  induction n generalizing ctx m with
  | zero => omega
  | succ n ih =>
    obtain ⟨m, rfl⟩ : ∃ k, m = k + 1 := ⟨m - 1, by omega⟩
    rw [parseAll, parseAll]
    cases hp : parseInstruction table dbg ⟨ctx, ⟨.none, 0, 0⟩, {}⟩ with
    | ok b s =>
      cases b with
      | false => rfl
      | true =>
        obtain ⟨p, hp⟩ := parseInstruction_semicolon hp
        dsimp only at hp
        rw [hp, List.count_append, List.count_cons_self] at hn hm
        dsimp only
        rw [ih (m := m) (by omega) (by omega)]
    | _ => rfl

/-- C55. The library in a release build ignores what follows a NUL. -/
theorem C55_release (code : Str) : assemble false code = assemble false (visible code) := by
  unfold assemble assembleWith
  rw [show cstr (visible code) = cstr code from visible_idem code]
  cases hg : genLabels (cstr code) with
  | error u => rfl
  | ok labels =>
    dsimp only
    have h : (cstr code).count ';' ≤ code.count ';' := (List.takeWhile_sublist _).count_le _
    rw [parseAll_enough (n := countSemicolons code + 1) (m := countSemicolons (visible code) + 1)
      (by unfold countSemicolons; dsimp only; omega) (by unfold countSemicolons; exact Nat.lt_succ_self _)]
    rfl

/-- C55. In a debug build it does so only if no semicolon follows the NUL. -/
theorem C55_debug {code : Str} (h : code.count ';' = (visible code).count ';') (dbg : Bool) :
    assemble dbg code = assemble dbg (visible code) := by
  unfold assemble assembleWith
  rw [show cstr (visible code) = cstr code from visible_idem code]
  unfold countSemicolons
  rw [h]

/-- C55. Otherwise a debug build accepts nothing: where a text without NUL would be accepted, an assertion
    fails. -/
theorem C55_assert {code : Str} (h : code.count ';' ≠ (visible code).count ';') (words : List (BitVec 64)) :
    assemble true code ≠ .ok words ∧ (assemble true (visible code) = .ok words → assemble true code = .abort) := by
  have hle : (cstr code).count ';' ≤ code.count ';' := (List.takeWhile_sublist _).count_le _
  have h' : (cstr code).count ';' ≠ code.count ';' := fun e => h e.symm
  constructor
  · intro ha
    obtain ⟨ops, c, ⟨ls, -, hr⟩, -, h2⟩ := assemble_ok ha
    have h3 := hr.count
    dsimp only at h3
    have := h2 rfl
    omega
  · intro ha
    obtain ⟨ops, c, ⟨ls, hl, hr⟩, -, h2⟩ := assemble_ok ha
    rw [show cstr (visible code) = cstr code from visible_idem code] at hl hr
    have h3 := hr.count
    dsimp only at h3
    unfold assemble assembleWith
    rw [hl]
    dsimp only
    rw [run_parseAll hr (by unfold countSemicolons; omega)]
    dsimp only
    rw [if_pos]
    unfold countSemicolons
    simp
    omega

example : assemble true (c!"NOP;\n" ++ ['\x00'] ++ c!"NOP;") = .abort := by decide +kernel
example : (c!"NOP;\n" ++ ['\x00'] ++ c!"NOP;").count ';' ≠ (visible (c!"NOP;\n" ++ ['\x00'] ++ c!"NOP;")).count ';' := by
  decide

end Nxas
