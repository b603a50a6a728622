import Verif.Model.World
import Verif.Lemmas.Padding
import Verif.Lemmas.Declared
import Verif.Props.CommandLine
/-
C75: the exit status tells whether the output has been written (violated); input files that change while they are read.
-/

namespace Nxas

open Spec

/-- C75. If the program ends with status 0, the output file contains the whole image. -/
def C75_claim : Prop := ∀ (dbg : Bool) (w : World) (args : List Str), (mainWorld dbg w args).2 = .ok () →
  ∃ i o src size words, CommandLine args i o ∧ w.source i = some src ∧ src.size = some size ∧
    assemble dbg (visible (readText size src.chars)) = .ok words ∧ .write o (words.flatMap wordBytes) ∈ (mainWorld dbg w args).1

/-- The files without faults that look the same when they are opened. -/
def World.files (w : World) : Files where
  read f := (w.source f).bind fun s => s.size.map fun n => readText n s.chars
  canWrite f := decide (w.sink f ≠ .closed)

/-- What a write to a faultless file amounts to. -/
def World.cut (w : World) : Event → Event
  | .write f bytes => .write f ((w.sink f).keeps bytes)
  | e => e

/-- C75. Faults while writing go unnoticed: if every file that can be opened has a size, the program does the same and ends in the
    same way as with faultless files, but for the bytes that get lost. -/
theorem C75_unnoticed {w : World} (hs : ∀ f src, w.source f = some src → src.size ≠ none) (dbg : Bool) (args : List Str) :
    mainWorld dbg w args = ((mainProgram dbg w.files args).1.map w.cut, (mainProgram dbg w.files args).2) := by
  unfold mainWorld mainProgram
  cases hp : parseArgs args none none with
  | error msg => rfl
  | ok p =>
    obtain ⟨_ | i, _ | o⟩ := p
    · rfl
    · rfl
    · rfl
    · dsimp only
      cases hi : w.source i with
      | none => simp [World.files, hi]
      | some src =>
        cases hz : src.size with
        | none => exact absurd hz (hs i src hi)
        | some size =>
          have hr : w.files.read i = some (readText size src.chars) := by simp [World.files, hi, hz]
          simp only [hr, hz]
          cases assemble dbg (cstr (readText size src.chars)) with
          | ok words =>
            cases hk : w.sink o with
            | closed => simp [World.files, hk, World.cut]
            | full n => simp [World.files, hk, World.cut]
            | unlimited => simp [World.files, hk, World.cut]
          | exit d => rfl
          | abort => rfl
          | ub u => rfl

/-- C75. What can be said of a run with status 0: a beginning of the image is written, all of it iff there is room for it. -/
theorem C75_partial {dbg : Bool} {w : World} {args : List Str} (h : (mainWorld dbg w args).2 = .ok ()) :
    ∃ i o src size words, CommandLine args i o ∧ w.source i = some src ∧ src.size = some size ∧
      assemble dbg (visible (readText size src.chars)) = .ok words ∧ w.sink o ≠ .closed ∧
      (mainWorld dbg w args).1 = [.read i, .create o, .write o ((w.sink o).keeps (words.flatMap wordBytes))] ∧
      ((w.sink o).keeps (words.flatMap wordBytes) = words.flatMap wordBytes ↔ ∀ n, w.sink o = .full n → 8 * words.length ≤ n) := by
  have hlen : ∀ words : List (BitVec 64), (words.flatMap wordBytes).length = 8 * words.length := by
    intro words
    induction words with
    | nil => rfl
    | cons x xs ih => rw [List.flatMap_cons, List.length_append, ih, List.length_cons]; simp [wordBytes]; omega
  unfold mainWorld at h ⊢
  cases hp : parseArgs args none none with
  | error msg => simp [hp] at h
  | ok p =>
    obtain ⟨_ | i, _ | o⟩ := p
    · simp [hp] at h
    · simp [hp] at h
    · simp [hp] at h
    · simp only [hp] at h ⊢
      cases hi : w.source i with
      | none => simp [hi] at h
      | some src =>
        simp only [hi] at h ⊢
        cases hz : src.size with
        | none => simp [hz] at h
        | some size =>
          simp only [hz] at h ⊢
          cases ha : assemble dbg (cstr (readText size src.chars)) with
          | ok words =>
            refine ⟨i, o, src, size, words, C53_arguments.1 hp, hi, hz, ha, ?_⟩
            rw [ha] at h
            cases hk : w.sink o with
            | closed => simp [hk] at h
            | full n =>
              refine ⟨by simp, rfl, ?_⟩
              simp only [Sink.keeps, Sink.full.injEq, forall_eq']
              rw [← hlen]
              refine ⟨fun h => ?_, fun h => List.take_of_length_le h⟩
              rw [← h, List.length_take]
              exact Nat.min_le_left ..
            | unlimited =>
              refine ⟨by simp, rfl, ?_⟩
              simp [Sink.keeps]
          | exit d => simp [ha] at h
          | abort => simp [ha] at h
          | ub u => simp [ha] at h

/-- C75. A file without a size, such as a pipe or a directory, ends the program with an uncaught exception. -/
theorem C75_unsized {args : List Str} {i o : Str} (h : CommandLine args i o) {w : World} {src : Source} (hi : w.source i = some src)
    (hs : src.size = none) (dbg : Bool) : mainWorld dbg w args = ([], .abort) := by
  unfold mainWorld
  rw [C53_arguments.2 h]
  dsimp only
  rw [hi]
  dsimp only
  rw [hs]

theorem visible_pad {t b : Str} (hb : ∀ c ∈ b, c ∈ Spec.blanks) :
    ∃ b', visible (t ++ b) = visible t ++ b' ∧ ∀ c ∈ b', c ∈ Spec.blanks := by
  unfold visible
  rw [List.takeWhile_append]
  split
  · rename_i h
    refine ⟨b, ?_, hb⟩
    have h1 : t.takeWhile (· ≠ '\x00') = t := (List.takeWhile_prefix _).eq_of_length h
    rw [h1]
    congr 1
    rw [List.takeWhile_eq_self_iff]
    intro c hc
    have := hb c hc
    simp only [Spec.blanks, List.mem_cons, List.not_mem_nil, or_false] at this
    rcases this with rfl | rfl | rfl | rfl <;> decide
  · exact ⟨[], by simp, by simp⟩

/-- C75. Blanks at the end of a source do not matter. -/
theorem C75_blanks {t b : Str} (hb : ∀ c ∈ b, c ∈ Spec.blanks) (words : List (BitVec 64)) :
    assemble false (t ++ b) = .ok words ↔ assemble false t = .ok words := by
  obtain ⟨b', h1, h2⟩ := visible_pad hb (t := t)
  rw [assemble_iff, assemble_iff, h1]
  exact assembles_pad h2

/-- C75. A file that has become shorter since its size was determined is assembled as it is now. -/
theorem C75_shrunk {size : Nat} {chars : Str} (h : chars.length ≤ size) (words : List (BitVec 64)) :
    assemble false (readText size chars) = .ok words ↔ assemble false chars = .ok words := by
  unfold readText
  rw [List.take_of_length_le h]
  exact C75_blanks (fun c hc => by rw [(List.mem_replicate.1 hc).2]; decide) words

/-- C75. A file that has become longer is cut off at its former size. -/
theorem C75_grown {size : Nat} {chars : Str} (h : size ≤ chars.length) : readText size chars = chars.take size := by
  unfold readText
  rw [Nat.sub_eq_zero_of_le h]
  simp

/-! ### The claim is false: a full disk -/

/-- A readable source of one instruction, and a disk with room for 16 bytes. -/
def fullDisk : World where
  source _ := some ⟨some 4, c!"NOP;"⟩
  sink _ := .full 16

/-- C75 is violated: one instruction and its group are 32 bytes, 16 of them get lost, and the exit status is 0. -/
theorem C75_violated : (mainWorld true fullDisk [c!"a.asm", c!"-o", c!"a.bin"]).2 = .ok () ∧
    ∃ words bytes, assemble true c!"NOP;" = .ok words ∧ (words.flatMap wordBytes).length = 32 ∧ bytes.length = 16 ∧
      (mainWorld true fullDisk [c!"a.asm", c!"-o", c!"a.bin"]).1 = [.read c!"a.asm", .create c!"a.bin", .write c!"a.bin" bytes] := by
  have ha : assemble true c!"NOP;" =
      .ok [0x001f8000fc0007e0#64, 0x50b0000000070f00#64, 0x50b0000000070f00#64, 0x50b0000000070f00#64] := by decide +kernel
  have hm : mainWorld true fullDisk [c!"a.asm", c!"-o", c!"a.bin"] = ([.read c!"a.asm", .create c!"a.bin", .write c!"a.bin"
      [0xe0, 0x07, 0x00, 0xfc, 0x00, 0x80, 0x1f, 0x00, 0x00, 0x0f, 0x07, 0x00, 0x00, 0x00, 0xb0, 0x50]], .ok ()) := by decide +kernel
  rw [hm]
  exact ⟨rfl, _, _, ha, by decide, rfl, rfl⟩

theorem C75_not_claim : ¬ C75_claim := by
  intro h
  obtain ⟨h1, words, bytes, ha, h32, h16, he⟩ := C75_violated
  obtain ⟨i, o, src, size, words', hc, hi, hz, ha', hm⟩ := h _ _ _ h1
  cases hi
  cases hz
  have : assemble true c!"NOP;" = .ok words' := ha'
  rw [ha] at this
  cases this
  rw [he] at hm
  simp only [List.mem_cons, Event.write.injEq, reduceCtorEq, List.not_mem_nil, or_false, false_or] at hm
  rw [← hm.2, h32] at h16
  cases h16

/-! ### Examples -/

-- a file that shrinks from 10 to 5 characters, and one that grows from 4 to 9
example : readText 10 c!"NOP;\n" = c!"NOP;\n     " := rfl
example : assemble false (readText 10 c!"NOP;\n") =
    .ok [0x001f8000fc0007e0#64, 0x50b0000000070f00#64, 0x50b0000000070f00#64, 0x50b0000000070f00#64] :=
  (C75_shrunk (by decide) _).2 (by decide +kernel)
example : readText 4 c!"NOP; NOP;" = c!"NOP;" := C75_grown (by decide)

-- blanks after other texts do matter: this one is read past its end
example : assemble false c!"NOP; @P" = .ub .readPastEnd ∧ assemble false c!"NOP; @P " ≠ .ub .readPastEnd := by decide +kernel

-- the hypothesis of `C75_unnoticed`
example : ∀ f src, fullDisk.source f = some src → src.size ≠ none := by
  intro f src h
  cases h
  simp

end Nxas
