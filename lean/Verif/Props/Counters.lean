import Verif.Lemmas.Counters
import Verif.Props.Safety
import Verif.Lemmas.Witness
/-
C74: the counters of the assembler fit their types (`int line`, `int column`, printed plus one, src/token.h, src/error.cpp;
`int64_t pc`, src/context.h:29), for all sources of less than half a gigabyte.
-/

namespace Nxas

open Spec

/-- A value of the C++ type `int`, here of 32 bits. -/
def FitsInt (n : Nat) : Prop := n < 2 ^ 31

/-- A value of the C++ type `int64_t`. -/
def FitsInt64 (n : Nat) : Prop := n < 2 ^ 63

/-- C74. Wherever in the text the tokenizer gets to, the line and the column, also if counted from 1, fit an `int`. -/
theorem C74_position {code : Str} (hs : code.length < 2 ^ 29) {c : Cur} (h : Reach ⟨visible code, 0, 0⟩ c) :
    FitsInt (c.line + 1) ∧ FitsInt (c.col + 1) := by
  have h1 := h.bounds
  have h2 := visible_length code
  unfold FitsInt
  omega

/-- C74. The position of every diagnostic, as it is printed, fits an `int`. -/
theorem C74_message {dbg : Bool} {code : Str} (hs : code.length < 2 ^ 29) {e : Err} (h : assemble dbg code = .exit (.located e)) :
    FitsInt (e.line + 1) ∧ FitsInt (e.col + 1) := by
  obtain ⟨pre, post, ht, hl, hc⟩ := C43_position h
  have h1 := lineAfter_le pre
  have h2 := columnAfter_le pre
  have h3 := visible_length code
  have h4 := congrArg List.length ht
  simp only [List.length_append] at h4
  unfold FitsInt
  omega

/-- C74. Whatever the text, the program counter fits its type while an instruction is parsed and after it; and so does the position at
    which it begins and that of the token at which it ends. -/
theorem C74_instruction {dbg : Bool} {code : Str} (hs : code.length < 2 ^ 29) {i : Nat} {c : Ctx} {s : St} (h : InstrAt dbg code i c s) :
    FitsInt64 (alignPc c.pc) ∧ FitsInt64 s.ctx.pc ∧ FitsInt64 (alignPc s.ctx.pc) ∧ FitsInt (c.cur.col + 1) ∧ FitsInt (s.tok.col + 1) ∧
    FitsInt (s.ctx.cur.col + 1) := by
  obtain ⟨pre, ht, -, hi, hr⟩ := h.text
  have h1 := visible_length code
  have h2 : pre.count ';' ≤ pre.length := List.count_le_length
  have h3 := congrArg List.length ht
  simp only [List.length_append] at h3
  have ha := h.address
  obtain ⟨hf, -, hp, -, ht⟩ := h.framed
  have hb : alignPc s.ctx.pc ≤ s.ctx.pc + 8 := by unfold alignPc; split <;> omega
  have hx : addressOf i < 2 ^ 62 := by unfold addressOf; omega
  obtain ⟨c1, hc1, -, h5⟩ := ht.pos
  refine ⟨?_, ?_, ?_, (C74_position hs hr).2, ?_, (C74_position hs (hr.trans hf)).2⟩
  · unfold FitsInt64; omega
  · unfold FitsInt64; omega
  · unfold FitsInt64; omega
  · rw [h5]; exact (C74_position hs (hr.trans hc1)).2

/-- C74. Every label has an address that fits its type, as has the counter of the label pass after any part of the text. -/
theorem C74_label {code : Str} (hs : code.length < 2 ^ 29) {labels : Labels} (h : genLabels (visible code) = .ok labels) {name : Str} {a : Nat}
    (hf : labels.find name = some a) : FitsInt64 a := by
  obtain ⟨pre, ⟨⟨-, -, rest, hd⟩, -⟩, rfl⟩ := (genLabels_find h name a).1 hf
  have h1 := visible_length code
  have h2 : pre.count ';' ≤ pre.length := List.count_le_length
  have h3 := congrArg List.length hd
  simp only [List.length_append] at h3
  unfold FitsInt64 addressOf
  omega

-- the hypotheses are met: an instruction and a label at address 40, and a diagnostic in the second line behind two tabs
example : (genLabels c!"NOP; NOP; NOP;\nfoo: BRA foo;").toOption.bind (·.find c!"foo") = some 40 := by decide +kernel

example : ∃ c s cur, InstrAt true c!"NOP; @!P3 MOV R1, R2;" 1 c s ∧ Reads c.cur [.at, .pred 3 true] cur ∧
    s.op.value = 0x5c980780002b0001#64 := instrCheck_at (by decide +kernel)

example : assemble true (c!"NOP;\n\tNOP\t?;") = .exit (.located ⟨1, 11, expectedMsg c!"semicolon" (.ident c!"?")⟩) := by
  decide +kernel

/-- C74. The bound is sharp: behind `2 ^ 29` tabs or more, the column of a diagnostic does not fit. -/
theorem C74_sharp (dbg : Bool) {n : Nat} (hn : 2 ^ 29 ≤ n) :
    ∃ code e, code.length = n + 1 ∧ assemble dbg code = .exit (.located e) ∧ ¬ FitsInt e.col := by
  refine ⟨List.replicate n '\t' ++ c!";", _, ?_, assemble_tabs dbg n, ?_⟩
  · rw [List.length_append, List.length_replicate]; rfl
  · unfold FitsInt
    dsimp only
    omega

end Nxas
