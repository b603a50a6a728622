import Verif.Lemmas.Insn
import Verif.Lemmas.Trailing
import Verif.Props.Safety
/-
C06-C10 and C42: the layout of the output and the end of the source.
-/

namespace Nxas

open Spec

/-! ### C06 -/

/-- Without container, in a debug build, the length of the output is determined by the number of
    semicolons. -/
theorem C06_length {code : Str} {words : List (BitVec 64)} (hd : ¬ c!".dksh" <:+: visible code)
    (h : assemble true code = .ok words) : words.length = 4 * ((code.count ';' + 2) / 3) := by
  obtain ⟨ops, c, -, rfl, h3⟩ := assemble_raw hd h
  rw [emit_length, h3 rfl]

/-- In a debug build the accepted instructions are as many as the semicolons; `C07_word` says where
    their words are. -/
theorem C06_count {code : Str} {words : List (BitVec 64)} (h : assemble true code = .ok words) :
    ∃ ops c, Decodes true code ops c ∧ ops.length = code.count ';' ∧ binary c (emit ops) = .ok words := by
  obtain ⟨ops, c, h1, h2, h3⟩ := assemble_ok h
  exact ⟨ops, c, h1, h3 rfl, h2⟩

/-- In both modes there are at most as many instructions as semicolons. -/
theorem C06_at_most {dbg : Bool} {code : Str} {words : List (BitVec 64)}
    (h : assemble dbg code = .ok words) : ∃ ops c, Decodes dbg code ops c ∧
      binary c (emit ops) = .ok words ∧ ops.length ≤ (visible code).count ';' := by
  obtain ⟨ops, c, h1, h2, -⟩ := assemble_ok h
  obtain ⟨ls, -, hr⟩ := id h1
  exact ⟨ops, c, h1, h2, hr.count⟩

/-- A release build violates the claim: four semicolons, room for one instruction. -/
theorem C06_violated_release : ∃ code words, ¬ c!".dksh" <:+: visible code ∧
    assemble false code = .ok words ∧ words.length ≠ 4 * ((code.count ';' + 2) / 3) := by
  refine ⟨c!"P;:\nP;:\nP;:\nNOP;", [0x001f8000fc0007e0#64, 0x50b0000000070f00#64,
    0x50b0000000070f00#64, 0x50b0000000070f00#64], ?_, ?_, ?_⟩
  · decide
  · decide +kernel
  · decide

example : assemble true c!"NOP;\nNOP; NOP; NOP;" = .ok
    [0x001f8000fc0007e0#64, 0x50b0000000070f00#64, 0x50b0000000070f00#64, 0x50b0000000070f00#64,
     0x001f8000fc0007e0#64, 0x50b0000000070f00#64, 0x50b0000000070f00#64, 0x50b0000000070f00#64] ∧
    ¬ c!".dksh" <:+: visible c!"NOP;\nNOP; NOP; NOP;" := by
  constructor
  · decide +kernel
  · decide

/-! ### C07 -/

/-- The word of the `i`-th instruction is word `i + i/3 + 1` of the code, which starts at word 0 or,
    in a container, at word 32. -/
theorem C07_word {dbg : Bool} {code : Str} {words : List (BitVec 64)}
    (h : assemble dbg code = .ok words) : ∃ ops c, Decodes dbg code ops c ∧
      ∀ i (hi : i < ops.length), words[codeBase c + (i + i / 3 + 1)]? = some ops[i].value := by
  obtain ⟨ops, c, h1, h2, -⟩ := assemble_ok h
  refine ⟨ops, c, h1, fun i hi => ?_⟩
  rw [binary_code h2 _ (by rw [emit_length]; omega), emit_value ops i hi]

example : assemble true c!"NOP;NOP;NOP;IADD R1, R2, R3;" = .ok
    [0x001f8000fc0007e0#64, 0x50b0000000070f00#64, 0x50b0000000070f00#64, 0x50b0000000070f00#64,
     0x001f8000fc0007e0#64, 0x5c10000000370201#64, 0x50b0000000070f00#64, 0x50b0000000070f00#64] := by
  decide +kernel

/-! ### C08 and C09 -/

/-- What the control word of a group has to say about an instruction. -/
def schedData (o : Option Op) : Nat :=
  match o with
  | some o => o.sched.toNat + 2 ^ 17 * o.reuse.toNat
  | none => 0x7E0

theorem schedData_lt {ops : List Op} (h : ∀ o ∈ ops, o.Ranged) (i : Nat) : schedData ops[i]? < 2 ^ 21 := by
  cases hi : ops[i]? with
  | none => simp [schedData]
  | some o =>
    have := h o (List.mem_of_getElem? hi)
    have h1 := this.sched
    have h2 := this.reuse
    simp only [schedData]; omega

theorem generateSched_toNat {ops : List Op} (h : ∀ o ∈ ops, o.Ranged) (i j : Nat) (hj : j < 3) :
    (generateSched ops[i]? j).toNat = 2 ^ (21 * j) * schedData ops[i]? := by
  have hlt := schedData_lt h i
  have hpow : 2 ^ (21 * j) * schedData ops[i]? < 2 ^ 64 := by
    have : j = 0 ∨ j = 1 ∨ j = 2 := by omega
    rcases this with rfl | rfl | rfl <;> omega
  cases hi : ops[i]? with
  | none =>
    rw [hi] at hpow
    simp only [schedData, generateSched] at hpow ⊢
    rw [BitVec.toNat_shiftLeft, Nat.shiftLeft_eq, Nat.mul_comm j 21]
    have : (0x7E0#64).toNat = 0x7E0 := rfl
    rw [this, Nat.mul_comm, Nat.mod_eq_of_lt hpow]
  | some o =>
    rw [hi] at hpow
    have hm := h o (List.mem_of_getElem? hi)
    have h1 := hm.sched
    have h2 := hm.reuse
    simp only [schedData, generateSched] at hpow ⊢
    have e : (o.sched.setWidth 64 ||| o.reuse.setWidth 64 <<< 17).toNat =
        o.sched.toNat + 2 ^ 17 * o.reuse.toNat := by
      rw [BitVec.toNat_or, BitVec.toNat_shiftLeft, BitVec.toNat_setWidth, BitVec.toNat_setWidth,
        Nat.shiftLeft_eq, Nat.mod_eq_of_lt (by omega), Nat.mod_eq_of_lt (by omega),
        Nat.mod_eq_of_lt (by omega), Nat.or_comm, Nat.mul_comm, ← Nat.two_pow_add_eq_or_of_lt h1]
      omega
    rw [BitVec.toNat_shiftLeft, Nat.shiftLeft_eq, Nat.mul_comm j 21, e, Nat.mul_comm,
      Nat.mod_eq_of_lt hpow]

theorem controlWord_toNat {ops : List Op} (h : ∀ o ∈ ops, o.Ranged) (i : Nat) :
    (controlWord ops i).toNat = schedData ops[i]? + 2 ^ 21 * schedData ops[i + 1]? +
      2 ^ 42 * schedData ops[i + 2]? := by
  have h0 := schedData_lt h i
  have h1 := schedData_lt h (i + 1)
  unfold controlWord
  rw [BitVec.toNat_or, BitVec.toNat_or, generateSched_toNat h _ 0 (by omega),
    generateSched_toNat h _ 1 (by omega), generateSched_toNat h _ 2 (by omega)]
  simp only [Nat.mul_zero, Nat.pow_zero, Nat.one_mul, Nat.mul_one]
  rw [Nat.or_comm (schedData ops[i]?), ← Nat.two_pow_add_eq_or_of_lt h0, Nat.or_comm]
  have : 2 ^ (21 * 2) = 2 ^ 42 := rfl
  rw [this, ← Nat.two_pow_add_eq_or_of_lt (i := 42) (by omega)]
  omega

/-- In bits `21*(i%3) .. 21*(i%3)+20` of the control word of its group every instruction's
    annotations (17 bits) and reuse flags can be read back; the top bit is zero. -/
theorem C08_control {dbg : Bool} {code : Str} {words : List (BitVec 64)}
    (h : assemble dbg code = .ok words) : ∃ ops c, Decodes dbg code ops c ∧
      ∀ i (hi : i < ops.length), ∃ w, words[codeBase c + 4 * (i / 3)]? = some w ∧
        w.toNat / 2 ^ (21 * (i % 3)) % 2 ^ 17 = ops[i].sched.toNat ∧
        w.toNat / 2 ^ (21 * (i % 3) + 17) % 2 ^ 4 = ops[i].reuse.toNat ∧
        w.toNat < 2 ^ 63 := by
  obtain ⟨ops, c, h1, h2, -⟩ := assemble_ok h
  obtain ⟨ls, -, hr⟩ := id h1
  have hrg := hr.ranged
  refine ⟨ops, c, h1, fun i hi => ⟨controlWord ops (3 * (i / 3)), ?_, ?_⟩⟩
  · rw [binary_code h2 _ (by rw [emit_length]; omega), emit_control ops _ (by omega)]
  · rw [controlWord_toNat hrg]
    have h0 := schedData_lt hrg (3 * (i / 3))
    have h1 := schedData_lt hrg (3 * (i / 3) + 1)
    have h2 := schedData_lt hrg (3 * (i / 3) + 2)
    have ho := hrg ops[i] (List.getElem_mem hi)
    have ho1 := ho.sched
    have ho2 := ho.reuse
    have hd : schedData ops[i]? = ops[i].sched.toNat + 2 ^ 17 * ops[i].reuse.toNat := by
      rw [List.getElem?_eq_getElem hi]; rfl
    have hm : i % 3 = 0 ∨ i % 3 = 1 ∨ i % 3 = 2 := by omega
    rcases hm with hm | hm | hm
    · have e : 3 * (i / 3) = i := by omega
      rw [e] at h0 h1 h2 ⊢
      rw [hm]; simp only [Nat.mul_zero, Nat.zero_add]
      omega
    · have e : 3 * (i / 3) + 1 = i := by omega
      rw [e] at h1 ⊢
      rw [hm]
      omega
    · have e : 3 * (i / 3) + 2 = i := by omega
      rw [e] at h2 ⊢
      rw [hm]
      omega

/-- `NOP` with `@WAIT 4` and a register with `.reuse`, read back from the first control word. -/
example : assemble true c!"NOP; IADD R1, R2.reuse, R3 @WAIT 4 @Y @DEP 2; NOP;" = .ok
    [0x001f8044fe8007e0#64, 0x50b0000000070f00#64, 0x5c10000000370201#64, 0x50b0000000070f00#64] ∧
    (0x001f8044fe8007e0#64).toNat / 2 ^ (21 * 1) % 2 ^ 17 = 4 + 2 ^ 4 + 7 * 2 ^ 5 + 7 * 2 ^ 8 + 4 * 2 ^ 11 ∧
    (0x001f8044fe8007e0#64).toNat / 2 ^ (21 * 1 + 17) % 2 ^ 4 = 1 := by
  refine ⟨by decide +kernel, by decide, by decide⟩

/-- The unused slots of the last group: default annotations in the control word and NOP words. -/
theorem C09_padding {dbg : Bool} {code : Str} {words : List (BitVec 64)}
    (h : assemble dbg code = .ok words) : ∃ ops c, Decodes dbg code ops c ∧
      ∀ i, ops.length ≤ i → i < 3 * ((ops.length + 2) / 3) →
        words[codeBase c + (i + i / 3 + 1)]? = some 0x50B0000000070F00#64 ∧
        ∃ w, words[codeBase c + 4 * (i / 3)]? = some w ∧
          w.toNat / 2 ^ (21 * (i % 3)) % 2 ^ 21 = 0x7E0 := by
  obtain ⟨ops, c, h1, h2, -⟩ := assemble_ok h
  obtain ⟨ls, -, hr⟩ := id h1
  have hrg := hr.ranged
  refine ⟨ops, c, h1, fun i hi1 hi2 => ⟨?_, controlWord ops (3 * (i / 3)), ?_, ?_⟩⟩
  · rw [binary_code h2 _ (by rw [emit_length]; omega), emit_padding ops i hi1 hi2]; rfl
  · rw [binary_code h2 _ (by rw [emit_length]; omega), emit_control ops _ (by omega)]
  · rw [controlWord_toNat hrg]
    have h0 := schedData_lt hrg (3 * (i / 3))
    have h1 := schedData_lt hrg (3 * (i / 3) + 1)
    have hd : schedData ops[i]? = 0x7E0 := by
      rw [List.getElem?_eq_none hi1]; rfl
    have hm : i % 3 = 0 ∨ i % 3 = 1 ∨ i % 3 = 2 := by omega
    rcases hm with hm | hm | hm
    · omega
    · have e : 3 * (i / 3) + 1 = i := by omega
      rw [e] at h1 ⊢
      rw [hm]
      omega
    · have e : 3 * (i / 3) + 2 = i := by omega
      rw [e] 
      rw [hm]
      omega

/-- Whole groups only. -/
theorem C09_groups {dbg : Bool} {code : Str} {words : List (BitVec 64)}
    (hd : ¬ c!".dksh" <:+: visible code) (h : assemble dbg code = .ok words) :
    words.length % 4 = 0 := by
  obtain ⟨ops, c, -, rfl, -⟩ := assemble_raw hd h
  rw [emit_length]; omega

/-- The padding word is what the assembler itself gives for `NOP;`. -/
example : assemble true c!"NOP;" = .ok
    [0x001f8000fc0007e0#64, 0x50B0000000070F00#64, 0x50B0000000070F00#64, 0x50B0000000070F00#64] := by
  decide +kernel

/-! ### C10 -/

theorem cstr_of_no_nul {t : Str} (h : '\x00' ∉ t) : cstr t = t := by
  unfold cstr
  induction t with
  | nil => rfl
  | cons c t ih =>
    simp only [List.mem_cons, not_or] at h
    rw [List.takeWhile_cons_of_pos (by simpa using fun e => h.1 e.symm), ih h.2]

/-- Labels, blanks and line ends give an empty output. -/
theorem C10_empty {t : Str} (h : LabelsOnly t) (dbg : Bool) : assemble dbg t = .ok [] := by
  have hch := LabelsOnly.chars h
  have hnul : '\x00' ∉ t := by
    intro hm
    rcases hch _ hm with h | h | h
    · revert h; unfold wordChar letter; decide
    · exact absurd h (by decide)
    · exact absurd h (by decide)
  have hsemi : ';' ∉ t := by
    intro hm
    rcases hch _ hm with h | h | h
    · revert h; unfold wordChar letter; decide
    · exact absurd h (by decide)
    · exact absurd h (by decide)
  unfold assemble assembleWith
  rw [cstr_of_no_nul hnul]
  cases hg : genLabels t with
  | error u =>
    exfalso
    obtain ⟨-, pre, w, rfl, -, hw⟩ := genLabels_error hg
    have hne := hw.ne_nil
    have hl := LabelsOnly.last h (w.getLast hne) (by
      rw [List.getLast?_append, List.getLast?_eq_some_getLast hne]; rfl)
    have := hw.wordChars _ (List.getLast_mem hne)
    generalize w.getLast hne = x at hl this
    have key : ∀ y ∈ ':' :: blanks, ¬ wordChar y := by unfold wordChar letter; decide
    exact key x hl this
  | ok labels =>
    dsimp only
    obtain ⟨l', k', e⟩ := tokenize_labelsOnly h 0 0
    have hp : parseInstruction insnTable dbg ⟨⟨⟨t, 0, 0⟩, labels, 0, {}⟩, ⟨.none, 0, 0⟩, {}⟩ =
        .ok false ⟨⟨⟨[], l', k'⟩, labels, 0, {}⟩, ⟨.none, l', k'⟩, {}⟩ := by
      rw [parseInstruction_eq]
      simp only [advance, e, Out.bind, if_true]
    have hr : Run insnTable dbg ⟨⟨t, 0, 0⟩, labels, 0, {}⟩ [] ⟨⟨[], l', k'⟩, labels, 0, {}⟩ := .done hp
    rw [run_parseAll hr (by simp [countSemicolons])]
    dsimp only
    have hc : countSemicolons t = 0 := List.count_eq_zero.2 hsemi
    rw [hc, if_neg (by simp)]
    rfl

example : LabelsOnly c!" foo:\n\tP1: R7:\n" ∧ ∀ dbg, assemble dbg c!" foo:\n\tP1: R7:\n" = .ok [] := by
  have hn : LabelsOnly c!" foo:\n\tP1: R7:\n" := by
    refine .blank (by decide) (.label (name := c!"foo") (t := c!"\n\tP1: R7:\n") ?_ (by decide) (by decide)
      (.blank (by decide) (.blank (by decide) (.label (name := c!"P1") (t := c!" R7:\n") ?_ (by decide)
        (by decide) (.blank (by decide) (.label (name := c!"R7") (t := c!"\n") ?_ (by decide) (by decide)
          (.blank (by decide) .nil)))))))
    · exact ⟨⟨'f', c!"oo", rfl, by unfold letter; decide⟩, by unfold wordChar letter; decide⟩
    · exact ⟨⟨'P', c!"1", rfl, by unfold letter; decide⟩, by unfold wordChar letter; decide⟩
    · exact ⟨⟨'R', c!"7", rfl, by unfold letter; decide⟩, by unfold wordChar letter; decide⟩
  exact ⟨hn, C10_empty hn⟩

/-! ### C42 -/

theorem Run.tail {table : List Insn} {dbg : Bool} {ctx c : Ctx} {ops : List Op}
    (h : Run table dbg ctx ops c) : ∃ pre post, ctx.cur.text = pre ++ post ∧ OnlySkipped post ∧
      (ops = [] ∧ pre = [] ∨ pre.getLast? = some ';') := by
  induction h with
  | @done ctx s h =>
    rw [parseInstruction_eq] at h
    obtain ⟨_, s1, h1, h2⟩ := Out.bind_ok h
    obtain ⟨t, c, ht, rfl⟩ := advance_ok h1
    split at h2
    · rename_i hk
      exact ⟨[], _, rfl, tokenize_ended ht hk, .inl ⟨rfl, rfl⟩⟩
    · exfalso
      unfold insnBody at h2
      obtain ⟨_, s2, -, h2⟩ := Out.bind_ok h2
      obtain ⟨_, s3, -, h2⟩ := Out.bind_ok h2
      obtain ⟨_, s5, -, h2⟩ := Out.bind_ok h2
      simp at h2
  | step h hr ih =>
    obtain ⟨pre, post, h1, h2, h3⟩ := ih
    obtain ⟨p, hp⟩ := parseInstruction_semicolon h
    dsimp only at hp
    refine ⟨p ++ ';' :: pre, post, by rw [hp, h1]; simp, h2, .inr ?_⟩
    rcases h3 with ⟨-, rfl⟩ | h3
    · simp
    · cases pre with
      | nil => simp at h3
      | cons a b => simpa using h3

/-- In an accepted source everything after the last instruction's semicolon is blanks and words that
    end in a colon. -/
theorem C42_tail {dbg : Bool} {code : Str} {words : List (BitVec 64)}
    (h : assemble dbg code = .ok words) : ∃ pre post, visible code = pre ++ post ∧ OnlySkipped post ∧
      (pre = [] ∨ pre.getLast? = some ';') := by
  obtain ⟨ops, c, ⟨ls, -, hr⟩, -, -⟩ := assemble_ok h
  obtain ⟨pre, post, h1, h2, h3⟩ := hr.tail
  exact ⟨pre, post, h1, h2, h3.imp (·.2) id⟩

theorem Spec.SkippedWord.last {w : Str} (h : SkippedWord w) : w.getLast? = some ':' := by
  cases h <;> assumption

theorem Spec.OnlySkipped.cases_last {t : Str} (h : OnlySkipped t) : (∀ c ∈ t, c ∈ blanks) ∨
    ∃ a b, t = a ++ ':' :: b ∧ ∀ c ∈ b, c ∈ blanks := by
  induction h with
  | nil => simp
  | @blank c t hc ht ih =>
    rcases ih with h | ⟨a, b, rfl, hb⟩
    · exact .inl fun x hx => by
        rcases List.mem_cons.1 hx with rfl | hx
        · exact hc
        · exact h x hx
    · exact .inr ⟨c :: a, b, by simp, hb⟩
  | @word w t hw ht ih =>
    refine .inr ?_
    rcases ih with h | ⟨a, b, rfl, hb⟩
    · obtain ⟨a, ha⟩ := List.getLast?_eq_some_iff.1 (hw.last)
      exact ⟨a, t, by rw [ha]; simp, h⟩
    · exact ⟨w ++ a, b, by simp, hb⟩

theorem afterLast_append (a b : Str) (h : ';' ∉ b) (ha : a = [] ∨ a.getLast? = some ';') :
    afterLastSemicolon (a ++ b) = b := by
  unfold afterLastSemicolon
  rw [List.reverse_append]
  have hb : ∀ x ∈ b.reverse, (decide (x ≠ ';')) = true := by
    intro x hx
    simp only [decide_eq_true_eq]
    rintro rfl
    exact h (by simpa using hx)
  rw [List.takeWhile_append_of_pos hb]
  rcases ha with rfl | ha
  · simp
  · obtain ⟨a', rfl⟩ := List.getLast?_eq_some_iff.1 ha
    simp

/-- The text after the last semicolon is a suffix of the text after any earlier one. -/
theorem afterLast_suffix (a b : Str) (ha : a = [] ∨ a.getLast? = some ';') :
    afterLastSemicolon (a ++ b) <:+ b := by
  have key : ∀ b : Str, ∃ p q, b = p ++ q ∧ ';' ∉ q ∧ (p = [] ∨ p.getLast? = some ';') := by
    intro b
    obtain ⟨r, rfl⟩ : ∃ r : Str, b = r.reverse := ⟨b.reverse, by simp⟩
    induction r with
    | nil => exact ⟨[], [], rfl, by simp, .inl rfl⟩
    | cons c l ih =>
      obtain ⟨p, q, h1, h2, h3⟩ := ih
      by_cases hc : c = ';'
      · exact ⟨l.reverse ++ [';'], [], by simp [hc], by simp, .inr (by simp)⟩
      · exact ⟨p, q ++ [c], by simp [h1], by simp [h2, Ne.symm hc], h3⟩
  obtain ⟨p, q, rfl, hq, hp⟩ := key b
  rw [← List.append_assoc, afterLast_append _ _ hq]
  · exact List.suffix_append _ _
  · rcases hp with rfl | hp
    · simpa using ha
    · refine .inr ?_
      rw [List.getLast?_append, hp]; rfl

/-- A missing final semicolon or trailing garbage is rejected: if no colon follows the last
    semicolon, only blanks do. -/
theorem C42_no_garbage {dbg : Bool} {code : Str} {words : List (BitVec 64)}
    (h : assemble dbg code = .ok words) (hc : ':' ∉ afterLastSemicolon (visible code)) :
    ∀ c ∈ afterLastSemicolon (visible code), c ∈ blanks := by
  obtain ⟨pre, post, e, h1, h2⟩ := C42_tail h
  have hs := afterLast_suffix pre post h2
  rw [← e] at hs
  rcases h1.cases_last with hb | ⟨a, b, rfl, hb⟩
  · exact fun c hx => hb c (hs.subset hx)
  · by_cases hlen : (afterLastSemicolon (visible code)).length ≤ b.length
    · have : afterLastSemicolon (visible code) <:+ b := by
        refine List.suffix_of_suffix_length_le hs ⟨a ++ [':'], by simp⟩ hlen
      exact fun c hx => hb c (this.subset hx)
    · exfalso
      have : ':' :: b <:+ afterLastSemicolon (visible code) :=
        List.suffix_of_suffix_length_le ⟨a, by simp⟩ hs (by simp; omega)
      exact hc (this.subset (by simp))

example : assemble true c!"NOP;\nNOP" = .ub .readPastEnd ∧
    assemble true c!"NOP;\n NOP " = .exit (.located ⟨1, 5, ⟨"expected \x1b[1m%s\x1b[0m", [.text c!"semicolon"]⟩⟩) ∧
    assemble true c!"NOP; \n\t" = .ok
      [0x001f8000fc0007e0#64, 0x50b0000000070f00#64, 0x50b0000000070f00#64, 0x50b0000000070f00#64] ∧
    ':' ∉ afterLastSemicolon (visible c!"NOP; \n\t") := by
  refine ⟨by decide +kernel, by decide +kernel, by decide +kernel, by decide⟩

/-- The exception for `P`: here the blank becomes part of the skipped word. -/
example : assemble true c!"NOP; P :" = .ok
      [0x001f8000fc0007e0#64, 0x50b0000000070f00#64, 0x50b0000000070f00#64, 0x50b0000000070f00#64] ∧
    OnlySkipped c!" P :" := by
  refine ⟨by decide +kernel, .blank (by decide) ?_⟩
  exact .word (w := c!"P :") (t := []) (.swallow (p := c!"P") (c := ' ') (w := c!":") (by decide)
    (by decide) (by decide)) .nil

end Nxas
