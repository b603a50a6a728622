import Verif.Model.Error
import Verif.Lemmas.Digits
/-
C65: error messages are complete.
-/

namespace Nxas

theorem Buffer.write_length {b b' : Buffer} {p : Nat} {t : Str} (h : b.write p t = some b') : b'.length = b.length := by
  unfold Buffer.write at h
  split at h
  · simp only [Option.some.injEq] at h
    subst h
    simp
    omega
  · simp at h

/-- The message that `fail` builds, exactly. -/
theorem failMessage_eq (file : Str) (line col : Nat) (text : Str) :
    failMessage file line col text = some (errorPrefix file line col ++ text ++ ['\x00']) := by
  unfold failMessage
  generalize errorPrefix file line col = pre
  have h1 : snprintf (List.replicate (pre.length + text.length + 1) '\x00') 0 (pre.length + text.length + 1) pre =
      some (pre ++ List.replicate (text.length + 1) '\x00') := by
    unfold snprintf Buffer.write
    rw [if_neg (by omega), List.take_of_length_le (by omega), if_pos (by simp)]
    simp only [List.take_zero, List.nil_append, List.length_append, List.length_singleton, Nat.zero_add,
      List.drop_replicate, Option.some.injEq, List.append_assoc]
    rw [show pre.length + text.length + 1 - (pre.length + 1) = text.length by omega]
    simp [List.replicate_succ]
  simp only [h1, Option.bind_eq_bind, Option.bind_some]
  unfold snprintf Buffer.write
  rw [if_neg (by omega), show pre.length + text.length + 1 - pre.length - 1 = text.length by omega,
    List.take_of_length_le (by omega), if_pos (by simp)]
  simp

/-- C65. `fail` writes inside its buffer, and what `raise` prints is the whole message: the file, the position counted from 1
    and the text. -/
theorem C65_complete {file text : Str} (hf : '\x00' ∉ file) (ht : '\x00' ∉ text) (line col : Nat) :
    ∃ b, failMessage file line col text = some b ∧
      raiseOutput b = some (errorPrefix file line col ++ text ++ ['\n']) := by
  refine ⟨_, failMessage_eq file line col text, ?_⟩
  have hn : '\x00' ∉ errorPrefix file line col ++ text := by
    have hd : ∀ n : Nat, '\x00' ∉ decimalText n := by
      intro n h
      obtain ⟨k, hk, he⟩ := toDigits_chars (by decide) n _ h
      have : ∀ k < 10, '\x00' ≠ Nat.digitChar k := by decide
      exact this k hk he
    simp [errorPrefix, hf, ht, hd]
  unfold raiseOutput Buffer.cstring
  rw [if_pos (by simp), List.takeWhile_append_of_pos (by
    intro a ha
    simp only [ne_eq, decide_not, Bool.not_eq_eq_eq_not, Bool.not_true, decide_eq_false_iff_not]
    rintro rfl
    exact hn ha)]
  simp

/-- C65. Errors that end the program at once are printed in the same way. -/
theorem C65_same {file text : Str} (hf : '\x00' ∉ file) (ht : '\x00' ∉ text) (line col : Nat) :
    (failMessage file line col text).bind raiseOutput = some (fatalOutput file line col text) := by
  obtain ⟨b, h1, h2⟩ := C65_complete hf ht line col
  rw [h1, Option.bind_some, h2]
  simp [errorPrefix, fatalOutput]

example : (failMessage c!"a.s" 0 11 c!"expected comma").bind raiseOutput =
    some c!"\x1b[1ma.s:\x1b[1m1:12: \x1b[1;31merror:\x1b[0m expected comma\n" := by decide +kernel

end Nxas
