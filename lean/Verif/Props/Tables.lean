import Verif.Lemmas.Trace
import Verif.Lemmas.Image
/-
C88: what of the instruction table matters.  The theorems hold for every table, not only for that of the assembler.
-/

namespace Nxas

open Spec Opnd

/-- The rows of a mnemonic, in their order. -/
def Spec.rowsOf (table : List Insn) (m : Str) : List Insn := table.filter fun row => row.mnemonic = m

/-! ### The row loop -/

theorem tryRows_own {mn : Token} {m : Str} (hk : mn.kind = .ident m) (saved : St) (table : List Insn) (best : Option (Err × Nat)) (dbg : Bool) (s : St) :
    tryRows mn saved table best dbg s = tryRows mn saved (rowsOf table m) best dbg s := by
  have he : ∀ row : Insn, mn.equal row.mnemonic = decide (row.mnemonic = m) := by
    intro row
    rw [Bool.eq_iff_iff, Token.equal_iff, hk, decide_eq_true_iff, Kind.ident.injEq]
    exact eq_comm
  induction table generalizing best s with
  | nil => rfl
  | cons row table ih =>
    rw [tryRows]
    by_cases hm : row.mnemonic = m
    · rw [show rowsOf (row :: table) m = row :: rowsOf table m by simp [rowsOf, hm], tryRows]
      have hn : (!mn.equal row.mnemonic) = false := by rw [he]; simp [hm]
      simp only [hn, Bool.false_eq_true, if_false]
      cases parseInsn row dbg s with
      | mk r sc =>
        cases r with
        | fail e s' => exact ih _ _
        | _ => rfl
    · rw [show rowsOf (row :: table) m = rowsOf table m by simp [rowsOf, hm], he, ih]
      simp [hm]

theorem tryRows_extend {mn : Token} {saved : St} {table more : List Insn} {best : Option (Err × Nat)} {dbg : Bool} {s s' : St}
    (h : tryRows mn saved table best dbg s = .ok () s') : tryRows mn saved (table ++ more) best dbg s = .ok () s' := by
  induction table generalizing best s with
  | nil => cases best <;> simp [tryRows] at h
  | cons row table ih =>
    rw [List.cons_append, tryRows]
    rw [tryRows] at h
    split at h
    · rw [if_pos (by assumption)]; exact ih h
    · rw [if_neg (by assumption)]
      cases hp : parseInsn row dbg s with
      | mk r sc =>
        rw [hp] at h
        cases r with
        | fail e s' => exact ih h
        | _ => exact h

/-! ### Instructions -/

/-- The row loop is entered with a word of the text. -/
theorem insnHead_word {dbg : Bool} {s0 s : St} (h : insnHead dbg s0 = .ok true s) : ∃ m, s.tok.kind = .ident m ∧ m <:+: s0.ctx.cur.text := by
  rw [insnHead_eq] at h
  cases ha : advance dbg s0 with
  | ok x s1 =>
    rw [ha] at h
    obtain ⟨t, c, ht, rfl⟩ := advance_ok ha
    have hi : TokInv s0.ctx.cur { s0 with ctx := { s0.ctx with cur := c }, tok := t } := ⟨s0.ctx.cur, Reach.refl _, ht⟩
    generalize ({ s0 with ctx := { s0.ctx with cur := c }, tok := t } : St) = s1 at h hi
    dsimp only [Out.bind] at h
    split at h
    · simp at h
    · have ho := oframed_parseOptions (s1.ctx.cur.text.length + 2) dbg s1 s0.ctx.cur hi
      cases hpo : parseOptions (s1.ctx.cur.text.length + 2) dbg s1 with
      | ok a s2 =>
        rw [hpo] at ho h
        dsimp only [Out.bind] at h
        rw [parsePrologue_eq] at h
        have hp := framed_prologueBody dbg { s2 with ctx := { s2.ctx with pc := alignPc s2.ctx.pc } } s0.ctx.cur ho.2
        cases hpp : prologueBody dbg { s2 with ctx := { s2.ctx with pc := alignPc s2.ctx.pc } } with
        | ok a s3 =>
          rw [hpp] at hp h
          dsimp only at h
          cases h
          obtain ⟨g, m, h1⟩ := prologueBody_inv hpp
          exact ⟨m, h1.2.1, hp.2.infix h1.2.1⟩
        | _ => rw [hpp] at h; simp at h
      | _ => rw [hpo] at h; simp at h
  | _ => rw [ha] at h; simp [Out.bind] at h

theorem parseInstruction_own {T T' : List Insn} {dbg : Bool} {s0 : St} (h : ∀ m, m <:+: s0.ctx.cur.text → rowsOf T m = rowsOf T' m) :
    parseInstruction T dbg s0 = parseInstruction T' dbg s0 := by
  rw [parseInstruction_head, parseInstruction_head]
  cases hh : insnHead dbg s0 with
  | ok b s =>
    cases b with
    | false => rfl
    | true =>
      obtain ⟨m, h1, h2⟩ := insnHead_word hh
      dsimp only
      rw [tryRows_own h1 s T, tryRows_own h1 s T', h m h2]
  | _ => rfl

theorem parseInstruction_extend {T R : List Insn} {dbg b : Bool} {s0 s : St} (h : parseInstruction T dbg s0 = .ok b s) :
    parseInstruction (T ++ R) dbg s0 = .ok b s := by
  rw [parseInstruction_head] at h ⊢
  cases hh : insnHead dbg s0 with
  | ok b' s' =>
    rw [hh] at h
    cases b' with
    | false => exact h
    | true =>
      dsimp only at h ⊢
      cases ht : tryRows s'.tok s' T none dbg s' with
      | ok a s2 => rw [ht] at h; rw [tryRows_extend ht]; exact h
      | _ => rw [ht] at h; simp [Out.bind] at h
  | _ => rw [hh] at h; exact h

theorem parseAll_own {T T' : List Insn} {dbg : Bool} {room : Nat} {x : Ctx} (h : ∀ m, m <:+: x.cur.text → rowsOf T m = rowsOf T' m) :
    parseAll T dbg room x = parseAll T' dbg room x := by
  induction room generalizing x with
  | zero => rfl
  | succ room ih =>
    unfold parseAll
    have hs := parseInstruction_framed T' dbg ⟨x, ⟨.none, 0, 0⟩, {}⟩ x.cur (Reach.refl _)
    rw [parseInstruction_own (T' := T') h]
    cases hp : parseInstruction T' dbg ⟨x, ⟨.none, 0, 0⟩, {}⟩ with
    | ok b s =>
      cases b with
      | false => rfl
      | true =>
        rw [hp] at hs
        dsimp only
        rw [ih fun m hm => h m (hm.trans hs.1.suffix.isInfix)]
    | _ => rfl

theorem parseAll_extend {T R : List Insn} {dbg : Bool} {room : Nat} {x c : Ctx} {ops : List Op} (h : parseAll T dbg room x = .ok (ops, c)) :
    parseAll (T ++ R) dbg room x = .ok (ops, c) := by
  induction room generalizing x ops with
  | zero => simp [parseAll] at h
  | succ room ih =>
    unfold parseAll at h ⊢
    cases hp : parseInstruction T dbg ⟨x, ⟨.none, 0, 0⟩, {}⟩ with
    | ok b s =>
      rw [hp] at h
      rw [parseInstruction_extend hp]
      cases b with
      | false => exact h
      | true =>
        dsimp only at h ⊢
        cases hr : parseAll T dbg room s.ctx with
        | ok y =>
          obtain ⟨ops2, c2⟩ := y
          rw [hr] at h
          simp only [Res.ok.injEq, Prod.mk.injEq] at h
          obtain ⟨rfl, rfl⟩ := h
          rw [ih hr]
        | _ => rw [hr] at h; simp at h
    | _ => rw [hp] at h; simp at h

/-! ### Sources -/

/-- C88. Only the rows of the words of a source matter, and only their order within the same mnemonic: tables that agree in this give
    the same outcome, words, diagnostic or undefined behaviour, in both builds. -/
theorem C88_rows {T T' : List Insn} {code : Str} (h : ∀ m, m <:+: visible code → rowsOf T m = rowsOf T' m) (dbg : Bool) :
    assembleWith T dbg code = assembleWith T' dbg code := by
  unfold assembleWith
  cases genLabels (cstr code) with
  | error u => rfl
  | ok ls =>
    dsimp only
    rw [parseAll_own (T' := T') h]

/-- A source of one instruction, and the table without the rows of all others: 264 of 265. -/
example : (∀ m, m <:+: visible c!"EXIT;" → rowsOf insnTable m = rowsOf [⟨0xE300000000000000#64, 0, c!"EXIT", [Opnd.keeprefcount, Opnd.flow_tests]⟩] m) := by
  intro m hm
  have hall : ∀ row ∈ insnTable, row.mnemonic <:+: c!"EXIT;" → row.mnemonic = c!"EXIT" := by decide +kernel
  by_cases he : m = c!"EXIT"
  · subst he; decide +kernel
  · unfold rowsOf
    rw [List.filter_eq_nil_iff.2, List.filter_eq_nil_iff.2]
    · intro row hr
      simp only [List.mem_singleton] at hr
      subst hr
      simpa using Ne.symm he
    · intro row hr
      simp only [decide_eq_true_eq]
      rintro rfl
      exact he (hall row hr hm)

/-- Rows of different mnemonics can change places, for the diagnostics as well. -/
example : ∃ T T' : List Insn, T ≠ T' ∧ (∀ m, rowsOf T m = rowsOf T' m) ∧
    (match assembleWith T true c!"NOP R1;" with | .exit (.located _) => true | _ => false) = true :=
  ⟨[⟨0x50B0000000000F00#64, 0, c!"NOP", []⟩, ⟨0xE300000000000000#64, 0, c!"EXIT", []⟩],
    [⟨0xE300000000000000#64, 0, c!"EXIT", []⟩, ⟨0x50B0000000000F00#64, 0, c!"NOP", []⟩], by decide, by
      intro m
      by_cases h1 : m = c!"NOP"
      · subst h1; decide
      · unfold rowsOf
        by_cases h2 : m = c!"EXIT"
        · subst h2; decide
        · simp [Ne.symm h1, Ne.symm h2], by decide +kernel⟩

/-- C88. A source accepted with a table is accepted with every extension of it, and gives the same words. -/
theorem C88_extend {T R : List Insn} {code : Str} {dbg : Bool} {ws : List (BitVec 64)} (h : assembleWith T dbg code = .ok ws) :
    assembleWith (T ++ R) dbg code = .ok ws := by
  unfold assembleWith at h ⊢
  cases hg : genLabels (cstr code) with
  | error u => rw [hg] at h; simp at h
  | ok ls =>
    rw [hg] at h
    dsimp only at h ⊢
    cases hp : parseAll T dbg (countSemicolons code + 1) ⟨⟨cstr code, 0, 0⟩, ls, 0, {}⟩ with
    | ok y =>
      obtain ⟨ops, c⟩ := y
      rw [hp] at h
      rw [parseAll_extend hp]
      exact h
    | _ => rw [hp] at h; simp at h

/-- With the first half of the table, and thus with the whole. -/
example : assembleWith (insnTable.take 130) true c!"NOP;" =
    .ok [0x001f8000fc0007e0, 0x50b0000000070f00, 0x50b0000000070f00, 0x50b0000000070f00] ∧ (insnTable.drop 130).length = 135 :=
  ⟨by decide +kernel, by decide +kernel⟩

/-- Not so in front: a row put before the others can take their place. -/
example : ∃ R ws, assembleWith [⟨0xE300000000000000#64, 0, c!"EXIT", []⟩] true c!"EXIT;" = .ok ws ∧
    assembleWith (R ++ [⟨0xE300000000000000#64, 0, c!"EXIT", []⟩]) true c!"EXIT;" ≠ .ok ws :=
  ⟨[⟨0xE310000000000000#64, 0, c!"EXIT", []⟩], [0x001f8000fc0007e0, 0xe300000000070000, 0x50b0000000070f00, 0x50b0000000070f00],
    by decide +kernel, by decide +kernel⟩

end Nxas
