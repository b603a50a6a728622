import Verif.Lemmas.Debug
import Verif.Lemmas.Abort
/-
C26: the build with assertions against the build without.
-/

namespace Nxas

/-- **C26.** Enabling assertions can only turn an outcome into an abort: on every source the build with
    assertions aborts or behaves exactly like the build without (same output, same diagnostic). -/
theorem C26_same (code : Str) : assemble true code = .abort ∨ assemble true code = assemble false code :=
  assembleWith_debug ..

/-- **C26.** A source accepted by the build with assertions gives the same words in the build without. -/
theorem C26_accepted {code : Str} {ws : List (BitVec 64)} (h : assemble true code = .ok ws) :
    assemble false code = .ok ws := by
  rcases C26_same code with h' | h'
  · simp [h'] at h
  · rw [← h', h]

/-- The hypothesis of `C26_accepted` holds of a source with two instructions. -/
example : ∃ ws, assemble true c!"IADD R0, -R1, R2;\nEXIT;\n" = .ok ws ∧ ws.length = 4 :=
  ⟨[0x001f8000fc0007e0#64, 0x5c12000000270100#64, 0xe30000000007000f#64, 0x50b0000000070f00#64], by decide +kernel,
    rfl⟩

/-- **C26.** A source rejected by the build with assertions is rejected with the same diagnostic. -/
theorem C26_rejected {code : Str} {d : Diag} (h : assemble true code = .exit d) :
    assemble false code = .exit d := by
  rcases C26_same code with h' | h'
  · simp [h'] at h
  · rw [← h', h]

/-- The hypothesis of `C26_rejected` holds of an unknown mnemonic. -/
example : ∃ d, assemble true c!"FOO R0;" = .exit d :=
  ⟨.located ⟨0, 0, ⟨"unknown mnemonic \x1b[1m%.*s\x1b[0m", [.sized c!"FOO"]⟩⟩, by decide +kernel⟩

/-- **C26.** The converse of `C26_accepted` is false: without assertions a source is accepted, and encoded,
    on which the build with assertions aborts. -/
theorem C26_converse_false : ∃ code ws, assemble false code = .ok ws ∧ assemble true code = .abort :=
  ⟨c!"IADD.PO R0, -R1, R2;",
    [0x001f8000fc0007e0#64, 0x5c13000000270100#64, 0x50b0000000070f00#64, 0x50b0000000070f00#64],
    by decide +kernel, by decide +kernel⟩

end Nxas
