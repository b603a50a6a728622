import Verif.Lemmas.Bounds
import Verif.Lemmas.Digits
import Verif.Lemmas.Compose
/-
C12 to C15: literals, registers and predicates denote what they say.
-/

namespace Nxas

open Spec

/-! ### Integers -/

/-- An integer literal may be followed by the end of the text or a separator, but not by a sign or a dot. -/
def EndsNumber (rest : Str) : Prop := Ends rest ∧ ∀ c, rest.head? = some c → c ∉ ['+', '-', '.']

/-- C12. A literal of the 64-bit range is read as the integer it denotes: `sg` is the sign, `ds` the digits of `v` with
    the prefix of the base. -/
theorem C12_literal {c : Cur} {sg ds rest : Str} {neg : Bool} {v : Nat} (hz : '\x00' ∉ c.text) (ht : c.text = sg ++ ds ++ rest) (hs : Sign sg neg)
    (hv : IntLit ds v) (he : EndsNumber rest) {x : Int} (hx : x = if neg then -(v : Int) else v) (h1 : -(2 ^ 63) ≤ x) (h2 : x < 2 ^ 63) :
    tokenize c = .ok ⟨.imm x, c.line, c.col⟩ (c.move (sg ++ ds) rest) := by
  have : saturated neg v = x := by
    unfold saturated
    cases neg
    · simp only [Bool.false_eq_true, if_false] at hx ⊢; omega
    · simp only [if_true] at hx ⊢; omega
  rw [← this]
  exact tokenize_lexeme hz ht (.int hs hv he.1 he.2)

/-- The sign of an integer as it is written. -/
def signOf (x : Int) : Str := if x < 0 then ['-'] else []

theorem sign_signOf (x : Int) : Sign (signOf x) (decide (x < 0)) := by
  unfold signOf
  split
  · next h => rw [decide_eq_true h]; exact .minus
  · next h => rw [decide_eq_false h]; exact .none

theorem C12_written {c : Cur} {ds rest : Str} (hz : '\x00' ∉ c.text) (x : Int) (hd : IntLit ds x.natAbs) (ht : c.text = signOf x ++ ds ++ rest)
    (h1 : -(2 ^ 63) ≤ x) (h2 : x < 2 ^ 63) (he : EndsNumber rest) :
    tokenize c = .ok ⟨.imm x, c.line, c.col⟩ (c.move (signOf x ++ ds) rest) := by
  refine C12_literal hz ht (sign_signOf x) hd he ?_ h1 h2
  split <;> simp_all <;> omega

/-- Decimal. -/
theorem C12_decimal {c : Cur} {rest : Str} (hz : '\x00' ∉ c.text) (x : Int) (ht : c.text = signOf x ++ Nat.toDigits 10 x.natAbs ++ rest)
    (h1 : -(2 ^ 63) ≤ x) (h2 : x < 2 ^ 63) (he : EndsNumber rest) :
    tokenize c = .ok ⟨.imm x, c.line, c.col⟩ (c.move (signOf x ++ Nat.toDigits 10 x.natAbs) rest) :=
  C12_written hz x (intLit_dec _) ht h1 h2 he

/-- Hexadecimal. -/
theorem C12_hexadecimal {c : Cur} {rest : Str} (hz : '\x00' ∉ c.text) (x : Int)
    (ht : c.text = signOf x ++ (c!"0x" ++ Nat.toDigits 16 x.natAbs) ++ rest)
    (h1 : -(2 ^ 63) ≤ x) (h2 : x < 2 ^ 63) (he : EndsNumber rest) :
    tokenize c = .ok ⟨.imm x, c.line, c.col⟩ (c.move (signOf x ++ (c!"0x" ++ Nat.toDigits 16 x.natAbs)) rest) :=
  C12_written hz x (intLit_hex _ (.inl rfl)) ht h1 h2 he

/-- Octal. -/
theorem C12_octal {c : Cur} {rest : Str} (hz : '\x00' ∉ c.text) (x : Int) (ht : c.text = signOf x ++ (c!"0" ++ Nat.toDigits 8 x.natAbs) ++ rest)
    (h1 : -(2 ^ 63) ≤ x) (h2 : x < 2 ^ 63) (he : EndsNumber rest) :
    tokenize c = .ok ⟨.imm x, c.line, c.col⟩ (c.move (signOf x ++ (c!"0" ++ Nat.toDigits 8 x.natAbs)) rest) :=
  C12_written hz x (intLit_oct _) ht h1 h2 he

/-- Numbers to which the theorems apply, at both ends of the range. -/
example : signOf (-(2 ^ 63)) ++ Nat.toDigits 10 (-(2 ^ 63) : Int).natAbs = c!"-9223372036854775808" ∧ EndsNumber c!", R1;" :=
  ⟨by decide, by unfold EndsNumber Ends; decide⟩
example : tokenize ⟨c!"-9223372036854775808, R1;", 0, 0⟩ = .ok ⟨.imm (-(2 ^ 63)), 0, 0⟩ ⟨c!", R1;", 0, 20⟩ :=
  C12_decimal (by decide) (-(2 ^ 63)) (by decide) (by decide) (by decide) (by unfold EndsNumber Ends; decide)
example : tokenize ⟨c!"0xff;", 0, 0⟩ = .ok ⟨.imm 255, 0, 0⟩ ⟨c!";", 0, 4⟩ :=
  C12_hexadecimal (by decide) 255 (by decide) (by decide) (by decide) (by unfold EndsNumber Ends; decide)
example : tokenize ⟨c!"-0377;", 0, 0⟩ = .ok ⟨.imm (-255), 0, 0⟩ ⟨c!";", 0, 5⟩ :=
  C12_octal (by decide) (-255) (by decide) (by decide) (by decide) (by unfold EndsNumber Ends; decide)
/-- A sign or a dot, though a separator, must not follow. -/
example : tokenize ⟨c!"5+3;", 0, 0⟩ = .exit ⟨0, 0, ⟨"failed to parse literal \x1b[1;31m%.*s\x1b[0m", [.text c!"5+3"]⟩⟩ ∧ tokenize ⟨c!"5.;", 0, 0⟩ = .ok ⟨.fimm 0x40A00000, 0, 0⟩ ⟨c!";", 0, 2⟩ :=
  ⟨by decide +kernel, by decide +kernel⟩

/-! ### Out of range -/

/-- A literal out of the 64-bit range is read as an end of the range. -/
theorem C13_token {c : Cur} {sg ds rest : Str} {neg : Bool} {v : Nat} (hz : '\x00' ∉ c.text) (ht : c.text = sg ++ ds ++ rest) (hs : Sign sg neg)
    (hv : IntLit ds v) (he : EndsNumber rest) (h : if neg then 2 ^ 63 ≤ v else 2 ^ 63 - 1 ≤ v) :
    tokenize c = .ok ⟨.imm (if neg then -(2 ^ 63) else 2 ^ 63 - 1), c.line, c.col⟩ (c.move (sg ++ ds) rest) := by
  have : saturated neg v = if neg then -(2 ^ 63) else 2 ^ 63 - 1 := by
    unfold saturated
    cases neg
    · simp only [Bool.false_eq_true, if_false] at h ⊢; omega
    · simp only [if_true] at h ⊢; omega
  rw [← this]
  exact tokenize_lexeme hz ht (.int hs hv he.1 he.2)

/-- The converse: if the ends of the range are read, the text is a literal for them or beyond them. -/
theorem C13_ends {w rest : Str} {x : Int} (h : Lexeme w rest (.imm x)) (hx : x = -(2 ^ 63) ∨ x = 2 ^ 63 - 1) :
    ∃ sg ds neg v, w = sg ++ ds ∧ Sign sg neg ∧ IntLit ds v ∧ if neg then 2 ^ 63 ≤ v else 2 ^ 63 - 1 ≤ v := by
  generalize hk : Kind.imm x = k at h
  cases h with
  | @int sg ds rest neg v hs hv he hn =>
    simp only [Kind.imm.injEq] at hk
    refine ⟨sg, ds, neg, v, rfl, hs, hv, ?_⟩
    subst hk
    unfold saturated at hx
    cases neg
    · simp only [Bool.false_eq_true, if_false] at hx ⊢; omega
    · simp only [if_true] at hx ⊢; omega
  | operator h => 
    have : ∀ y ∈ operators, ∀ v, y.2 ≠ .imm v := by
      intro y hy v
      simp [operators] at hy
      rcases hy with rfl | rfl | rfl | rfl | rfl | rfl | rfl | rfl | rfl <;> simp
    exact absurd hk.symm (this _ h _)
  | _ => simp at hk

theorem Program.imm {lab : Str → Option Nat} {i : Nat} {o o' : Opts} {ts : List (Kind × Nat)} {ops : List Op} (h : Program lab i o ts ops o')
    (ho : OptionFree (ts.map Prod.fst)) (hi : i + ts.length < 2 ^ 57) (hm : ∀ m ∈ floatMnemonics, .ident m ∉ ts.map Prod.fst) {x : Int}
    (hx : .imm x ∈ ts.map Prod.fst) : Moderate x := by
  induction h with
  | done => simp at hx
  | @insn i o o' ts rest op ops h hr ih =>
    rw [List.map_append] at hx hm ho
    have hne : ts.length ≠ 0 := by
      obtain ⟨k, r, h6, -⟩ := InstrText.start h
      have := congrArg List.length h6
      simp at this
      omega
    rw [List.length_append] at hi
    rcases List.mem_append.1 hx with hx | hx
    · refine instr_imm (e := ⟨lab, addressOf i⟩) ?_ h (fun m hm' hin => hm m hm' (List.mem_append.2 (.inl hin))) hx
      show addressOf i < 2 ^ 62
      unfold addressOf
      omega
    · exact ih (OptionFree.append ho (InstrText.last h)) (by omega) (fun m hm' hin => hm m hm' (List.mem_append.2 (.inr hin))) hx
  | option h hl _ ih => exact absurd (OptionText.word h) (ho [] _ _ rfl (.inl rfl))

/-- C13, for sources without options and without floating point instructions: an accepted source contains no literal out
    of range (so none is replaced by another number).  The last hypothesis excludes texts of more than 2^57 tokens. -/
theorem C13_partial {d : Bool} {code : Str} {ws : List (BitVec 64)} {ts : List (Kind × Nat)} (h : assemble d code = .ok ws)
    (hs : Scans 0 (visible code) ts) (ho : OptionFree (ts.map Prod.fst)) (hm : ∀ m ∈ floatMnemonics, .ident m ∉ ts.map Prod.fst)
    (hl : ts.length < 2 ^ 57) {x : Int} (hx : .imm x ∈ ts.map Prod.fst) : -(2 ^ 63) < x ∧ x < 2 ^ 63 - 1 := by
  obtain ⟨lab, ts0, ops, o, h1, h2, h3, h4⟩ := accepted h
  obtain rfl := scans_unique (visible_no_nul code) hs h2
  exact Program.imm h3 ho (by omega) hm hx

example : ∃ ws, assemble true c!"IADD R0, R1, 0x7ffff;" = .ok ws ∧
    Scans 0 (visible c!"IADD R0, R1, 0x7ffff;") [(.ident c!"IADD", 0), (.reg 0, 0), (.comma, 0), (.reg 1, 0), (.comma, 0), (.imm 0x7FFFF, 0), (.semicolon, 0)] :=
  ⟨[0x001F8000FC0007E0, 0x3810007FFFF70100, 0x50B0000000070F00, 0x50B0000000070F00], by decide +kernel,
    lexAll_scans (n := 9) (by decide) (by decide +kernel)⟩
example : assemble true c!"IADD R0, R1, 100000000000000000000;" = .exit (.located ⟨0, 13, ⟨"expected \x1b[1m%s\x1b[0m and got \x1b[1m%s %.*s\x1b[0m", [.text c!"register", .text c!"immediate", .text []]⟩⟩) := by decide +kernel

/-- C13 is violated by floating point instructions, which convert integer literals: 10^20 is encoded as 2^63. -/
theorem C13_violated : ∃ ws, assemble true c!"FADD32I R0, R1, 100000000000000000000;" = .ok ws ∧
    assemble true c!"FADD32I R0, R1, 9223372036854775808.0;" = .ok ws ∧ assemble true c!"FADD32I R0, R1, 100000000000000000000.0;" ≠ .ok ws :=
  ⟨[0x001F8000FC0007E0, 0x0805F00000070100, 0x50B0000000070F00, 0x50B0000000070F00], by decide +kernel, by decide +kernel, by decide +kernel⟩

/-! ### Registers -/

/-- C14. `R` and the decimal digits of a number below 255 (leading zeros allowed). -/
theorem C14_register {c : Cur} {ds rest : Str} (hz : '\x00' ∉ c.text) (ht : c.text = 'R' :: (ds ++ rest)) (hn : ds ≠ []) (hd : ∀ x ∈ ds, decimal x)
    (he : Ends rest) :
    tokenize c = if numeral 10 ds < 255 then .ok ⟨.reg (numeral 10 ds), c.line, c.col⟩ (c.move ('R' :: ds) rest)
      else .exit ⟨c.line, c.col, ⟨"register index \x1b[1;31m%.*s\x1b[0m is out of range, expected to be from 0 to 254 inclusively", [.text ('R' :: ds)]⟩⟩ := by
  split
  · next hv => exact tokenize_lexeme hz ht (.reg hn hd hv he)
  · next hv => exact register_out_of_range ht hn hd (by omega) he

/-- The register of index `n`, written in decimal. -/
theorem C14_index {c : Cur} {rest : Str} (hz : '\x00' ∉ c.text) (n : Nat) (ht : c.text = 'R' :: (Nat.toDigits 10 n ++ rest)) (he : Ends rest) :
    tokenize c = if n < 255 then .ok ⟨.reg n, c.line, c.col⟩ (c.move ('R' :: Nat.toDigits 10 n) rest)
      else .exit ⟨c.line, c.col, ⟨"register index \x1b[1;31m%.*s\x1b[0m is out of range, expected to be from 0 to 254 inclusively", [.text ('R' :: Nat.toDigits 10 n)]⟩⟩ := by
  have := C14_register hz ht Nat.toDigits_ne_nil (toDigits_decimal n) he
  rwa [numeral_toDigits (by decide) (by decide)] at this

/-- The zero register. -/
theorem C14_zero {c : Cur} {rest : Str} (hz : '\x00' ∉ c.text) (ht : c.text = c!"RZ" ++ rest) (he : Ends rest) :
    tokenize c = .ok ⟨.reg 255, c.line, c.col⟩ (c.move c!"RZ" rest) :=
  tokenize_lexeme hz ht (.zero he)

example : tokenize ⟨c!"R254.reuse", 3, 4⟩ = .ok ⟨.reg 254, 3, 4⟩ ⟨c!".reuse", 3, 8⟩ := C14_index (by decide) 254 (by decide) (by unfold Ends; decide)
example : tokenize ⟨c!"R255;", 3, 4⟩ = .exit ⟨3, 4, ⟨"register index \x1b[1;31m%.*s\x1b[0m is out of range, expected to be from 0 to 254 inclusively", [.text c!"R255"]⟩⟩ := C14_index (rest := c!";") (by decide) 255 (by decide) (by unfold Ends; decide)
/-- 2^64, which would wrap around to 0. -/
example : tokenize ⟨c!"R18446744073709551616;", 0, 0⟩ = .exit ⟨0, 0, ⟨"register index \x1b[1;31m%.*s\x1b[0m is out of range, expected to be from 0 to 254 inclusively", [.text c!"R18446744073709551616"]⟩⟩ :=
  C14_index (rest := c!";") (by decide) 18446744073709551616 (by decide) (by unfold Ends; decide)

/-! ### Predicates -/

/-- C15. `p` is the letter, negated or not. -/
theorem C15_predicate {c : Cur} {p rest : Str} {neg : Bool} {x : Char} (hz : '\x00' ∉ c.text) (ht : c.text = p ++ x :: rest) (hp : PredPrefix p neg)
    (he : Ends rest) :
    (x ∈ ['T', 't'] → tokenize c = .ok ⟨.pred 7 neg, c.line, c.col⟩ (c.move (p ++ [x]) rest)) ∧
    (∀ i < 7, x = Nat.digitChar i → tokenize c = .ok ⟨.pred i neg, c.line, c.col⟩ (c.move (p ++ [x]) rest)) ∧
    (x ∈ ['7', '8', '9'] → tokenize c = .exit ⟨c.line, c.col, "out of range predicate"⟩) := by
  have ht' : c.text = p ++ [x] ++ rest := by rw [ht]; simp
  refine ⟨?_, ?_, fun h => predicate_out_of_range hp ht h he⟩
  · intro h
    exact tokenize_lexeme hz ht' (.pred hp (.true (by simpa using h)) he)
  · rintro i hi rfl
    have h1 : PredName i.digitChar (digit i.digitChar) := .index (by
      have : ∀ i < 7, '0' ≤ Nat.digitChar i ∧ Nat.digitChar i ≤ '6' := by decide
      exact this i hi)
    rw [(digit_digitChar (by omega)).1] at h1
    exact tokenize_lexeme hz ht' (.pred hp h1 he)

example : tokenize ⟨c!"!p6, R1", 0, 0⟩ = .ok ⟨.pred 6 true, 0, 0⟩ ⟨c!", R1", 0, 3⟩ :=
  (C15_predicate (p := c!"!p") (by decide) rfl (.neg (.inr rfl)) (by unfold Ends; decide)).2.1 6 (by decide) rfl
example : tokenize ⟨c!"PT, R1", 0, 0⟩ = .ok ⟨.pred 7 false, 0, 0⟩ ⟨c!", R1", 0, 2⟩ :=
  (C15_predicate (c := ⟨c!"PT, R1", 0, 0⟩) (x := 'T') (rest := c!", R1") (p := c!"P") (by decide) rfl (.pos (.inl rfl)) (by unfold Ends; decide)).1 (by decide)
example : tokenize ⟨c!"P7, R1", 0, 0⟩ = .exit ⟨0, 0, "out of range predicate"⟩ :=
  (C15_predicate (p := c!"P") (by decide) rfl (.pos (.inl rfl)) (by unfold Ends; decide)).2.2 (by decide)

end Nxas
