import Verif.Model.Lexer
/-
Lemmas about the cursor and the tokenizer: progress, positions, safety at the end of the
text, payload bounds.
-/

namespace Nxas

/-- Position reached by stepping over `pre` (specification of the position counters). -/
def posAfter : Str → Nat × Nat → Nat × Nat
  | [], p => p
  | ch :: rest, p => posAfter rest (nextLine ch p.1, nextCol ch p.2)

theorem posAfter_append (a b : Str) (p : Nat × Nat) :
    posAfter (a ++ b) p = posAfter b (posAfter a p) := by
  induction a generalizing p with
  | nil => rfl
  | cons x xs ih => simp [posAfter, ih]

/-- `c'` is reached from `c` by stepping over characters. -/
def Reach (c c' : Cur) : Prop :=
  ∃ pre, c.text = pre ++ c'.text ∧ posAfter pre (c.line, c.col) = (c'.line, c'.col)

theorem Reach.refl (c : Cur) : Reach c c := ⟨[], rfl, rfl⟩

theorem Reach.trans {a b c : Cur} (h1 : Reach a b) (h2 : Reach b c) : Reach a c := by
  obtain ⟨p, hp, hp'⟩ := h1
  obtain ⟨q, hq, hq'⟩ := h2
  exact ⟨p ++ q, by rw [hp, hq, List.append_assoc], by rw [posAfter_append, hp', hq']⟩

theorem Reach.suffix {a b : Cur} (h : Reach a b) : b.text <:+ a.text := by
  obtain ⟨p, hp, _⟩ := h
  exact ⟨p, hp.symm⟩

theorem Reach.length_le {a b : Cur} (h : Reach a b) : b.text.length ≤ a.text.length :=
  h.suffix.length_le

theorem Cur.next_eq_none {c : Cur} : c.next = none ↔ c.text = [] := by
  unfold Cur.next; split <;> simp_all

theorem Cur.next_some {c c' : Cur} (h : c.next = some c') :
    ∃ ch, c.text = ch :: c'.text ∧ c'.line = nextLine ch c.line ∧ c'.col = nextCol ch c.col := by
  unfold Cur.next at h
  split at h
  · simp at h
  · rename_i ch rest heq
    simp only [Option.some.injEq] at h
    subst h
    exact ⟨ch, heq, rfl, rfl⟩

theorem Cur.next_reach {c c' : Cur} (h : c.next = some c') : Reach c c' := by
  obtain ⟨ch, h1, h2, h3⟩ := Cur.next_some h
  exact ⟨[ch], by simp [h1], by simp [posAfter, h2, h3]⟩

theorem Cur.next_length {c c' : Cur} (h : c.next = some c') :
    c'.text.length + 1 = c.text.length := by
  obtain ⟨ch, h1, _, _⟩ := Cur.next_some h
  simp [h1]

theorem skipWhile_reach (p : Char → Bool) (t : Str) (l c : Nat) :
    Reach ⟨t, l, c⟩ (skipWhile p t l c) := by
  induction t generalizing l c with
  | nil => exact Reach.refl _
  | cons ch rest ih =>
    unfold skipWhile
    split
    · obtain ⟨pre, h1, h2⟩ := ih (nextLine ch l) (nextCol ch c)
      exact ⟨ch :: pre, by simp at h1 ⊢; exact h1, by simpa [posAfter] using h2⟩
    · exact Reach.refl _

theorem Cur.skip_reach (p : Char → Bool) (c : Cur) : Reach c (c.skip p) :=
  skipWhile_reach p c.text c.line c.col

theorem skipWhile_text (p : Char → Bool) (t : Str) (l c : Nat) :
    (skipWhile p t l c).text = t.dropWhile p := by
  induction t generalizing l c with
  | nil => rfl
  | cons ch rest ih =>
    unfold skipWhile
    by_cases h : p ch <;> simp [h, ih]

theorem Cur.skip_text (p : Char → Bool) (c : Cur) : (c.skip p).text = c.text.dropWhile p :=
  skipWhile_text p _ _ _

/-- the cursor stopped by `skip` does not satisfy `p` -/
theorem Cur.skip_peek (p : Char → Bool) (c : Cur) (h0 : p '\x00' = false) :
    p (c.skip p).peek = false := by
  unfold Cur.peek
  rw [Cur.skip_text]
  induction c.text with
  | nil => simpa using h0
  | cons x xs ih =>
    by_cases h : p x
    · simpa [h] using ih
    · simp [h]

theorem Cur.skip_eq_self {p : Char → Bool} {c : Cur} (h : p c.peek = false) : c.skip p = c := by
  obtain ⟨t, l, k⟩ := c
  unfold Cur.skip
  cases t with
  | nil => rfl
  | cons x xs =>
    simp only [Cur.peek, List.headD_cons] at h
    simp [skipWhile, h]

theorem between_reach {a b : Cur} (h : Reach a b) :
    a.text = between a.text b.text ++ b.text := by
  obtain ⟨p, hp, _⟩ := h
  unfold between
  rw [hp]
  simp

/-! ### Character classes -/

theorem isSeparator_nul : isSeparator '\x00' = true := by decide

theorem isDecimal_iff {c : Char} : isDecimal c = true ↔ '0' ≤ c ∧ c ≤ '9' := by
  simp [isDecimal]

theorem not_separator_of_mem {c : Char} (h : c ∈ ['P', 'p', 'R', '!', 'Z']) :
    isSeparator c = false := by
  simp only [List.mem_cons, List.not_mem_nil, or_false] at h
  rcases h with rfl | rfl | rfl | rfl | rfl <;> decide

/-! ### The end of the text -/

/-- The remaining text is empty or ends in a separator. -/
def SafeEnd (t : Str) : Prop := ∀ ch, t.getLast? = some ch → isSeparator ch = true

theorem SafeEnd.suffix {a b : Str} (h : SafeEnd a) (hs : b <:+ a) : SafeEnd b := by
  intro ch hch
  obtain ⟨p, rfl⟩ := hs
  apply h
  rw [List.getLast?_append, hch]; rfl

theorem SafeEnd.of_reach {a b : Cur} (h : SafeEnd a.text) (hr : Reach a b) : SafeEnd b.text :=
  h.suffix hr.suffix

theorem SafeEnd.next_ne_nil {c c' : Cur} (h : SafeEnd c.text) (hn : c.next = some c')
    (hp : isSeparator c.peek = false) : c'.text ≠ [] := by
  intro he
  obtain ⟨ch, h1, _, _⟩ := Cur.next_some hn
  rw [he] at h1
  have := h ch (by simp [h1])
  simp [Cur.peek, h1] at hp
  simp [hp] at this

/-- `isSeparator` of the character under the cursor is false only inside the text. -/
theorem ne_nil_of_not_separator {c : Cur} (h : isSeparator c.peek = false) : c.text ≠ [] := by
  intro he
  simp [Cur.peek, he, isSeparator_nul] at h

/-! ### One token -/

/-- Bounds on token payloads. -/
def Kind.wf : Kind → Prop
  | .reg n => n ≤ 255
  | .pred i _ => i ≤ 7
  | .imm v => -(2 ^ 63) ≤ v ∧ v ≤ 2 ^ 63 - 1
  | .fimm f => f.toNat % 2 ^ 31 ≤ 0x7F800000
  | _ => True

theorem f32OfRat_wf (neg : Bool) (num den : Nat) : (f32OfRat neg num den).toNat % 2 ^ 31 ≤ 0x7F800000 := by
  have h : roundRat 23 127 0x7F800000 num den ≤ 0x7F800000 := by
    unfold roundRat
    split
    · omega
    · exact Nat.min_le_right _ _
  unfold f32OfRat
  rw [BitVec.toNat_ofNat]
  cases neg <;> simp only [Bool.false_eq_true, if_false, if_true] <;> omega

/-- `strtof` never gives a number that is none. -/
theorem strtof_wf (s : Str) : (strtof s).1.toNat % 2 ^ 31 ≤ 0x7F800000 := by
  unfold strtof
  dsimp only
  repeat' split
  all_goals first | exact f32OfRat_wf _ _ _ | (dsimp only; decide)

/-- What is known of the token read from `c` at the non-blank position `c1`. -/
structure LexOk (c1 : Cur) (t : Token) (c2 : Cur) : Prop where
  reach : Reach c1 c2
  line : t.line = c1.line
  col : t.col = c1.col
  shorter : c2.text.length < c1.text.length
  wf : t.kind.wf
  notNone : t.kind ≠ .none
  semi : t.kind = .semicolon → c1.text = ';' :: c2.text

theorem clampI64_bounds (v : Int) : -(2 ^ 63) ≤ clampI64 v ∧ clampI64 v ≤ 2 ^ 63 - 1 := by
  unfold clampI64; repeat' split
  all_goals omega

theorem strtollDigits_bounds {b : Nat} {n : Bool} {s : Str} {r : Int × Str}
    (h : strtollDigits b n s = some r) : -(2 ^ 63) ≤ r.1 ∧ r.1 ≤ 2 ^ 63 - 1 := by
  unfold strtollDigits at h
  dsimp only at h
  split at h
  · simp at h
  · simp only [Option.some.injEq] at h
    rw [← h]
    exact clampI64_bounds _

theorem strtoll_bounds (b : Nat) (s : Str) :
    -(2 ^ 63) ≤ (strtoll b s).1 ∧ (strtoll b s).1 ≤ 2 ^ 63 - 1 := by
  unfold strtoll
  dsimp only
  have key : ∀ r : Option (Int × Str),
      (∀ x, r = some x → -(2 ^ 63) ≤ x.1 ∧ x.1 ≤ 2 ^ 63 - 1) →
      -(2 ^ 63) ≤ (r.getD (0, s)).1 ∧ (r.getD (0, s)).1 ≤ 2 ^ 63 - 1 := by
    intro r hr
    cases r with
    | none => simp
    | some r => exact hr r rfl
  apply key
  intro x hx
  split at hx <;> exact strtollDigits_bounds hx

/-- One step of a loop that starts at a character satisfying the loop condition. -/
theorem Cur.skip_shorter {p : Char → Bool} {c : Cur} (h : p c.peek = true)
    (h0 : p '\x00' = false) : (c.skip p).text.length < c.text.length := by
  rw [Cur.skip_text]
  unfold Cur.peek at h
  cases hc : c.text with
  | nil => simp [hc, h0] at h
  | cons x xs =>
    simp only [hc, List.headD_cons] at h
    simp only [List.dropWhile_cons, h, if_true, List.length_cons]
    exact Nat.lt_succ_of_le (List.dropWhile_suffix p).length_le

theorem lexNumber_ok {c c2 : Cur} {t : Token} (h : lexNumber c = .ok t c2)
    (hc : (isDecimal c.peek || isContained c!"+-" c.peek) = true) :
    LexOk c t c2 ∧ isSeparator c2.peek = true := by
  unfold lexNumber at h
  dsimp only at h
  have hr : Reach c (c.skip (fun ch => isDecimal ch || isContained c!"+-" ch || isHexish ch)) :=
    Cur.skip_reach _ _
  have hs : (c.skip (fun ch => isDecimal ch || isContained c!"+-" ch || isHexish ch)).text.length
      < c.text.length := Cur.skip_shorter (by simp [hc]) (by decide)
  generalize c.skip (fun ch => isDecimal ch || isContained c!"+-" ch || isHexish ch) = c1 at h hr hs
  split at h
  · simp at h
  · split at h
    · simp at h
    · rename_i c2' hc2
      have hr2 : Reach c1 c2' := by
        split at hc2
        · simp only [Option.map_eq_some_iff] at hc2
          obtain ⟨a, ha, rfl⟩ := hc2
          exact (Cur.next_reach ha).trans (Cur.skip_reach _ _)
        · simp only [Option.some.injEq] at hc2
          subst hc2; exact Reach.refl _
      have hlen := hr2.length_le
      split at h
      · simp at h
      · rename_i hsep
        split at h <;> split at h
        · simp at h
        · simp only [TokRes.ok.injEq] at h
          obtain ⟨rfl, rfl⟩ := h
          exact ⟨⟨hr.trans hr2, rfl, rfl, by omega, strtof_wf _, by simp, by simp⟩, by simpa using hsep⟩
        · simp at h
        · simp only [TokRes.ok.injEq] at h
          obtain ⟨rfl, rfl⟩ := h
          exact ⟨⟨hr.trans hr2, rfl, rfl, by omega, strtoll_bounds _ _, by simp, by simp⟩,
            by simpa using hsep⟩

theorem lexNumber_ub {c : Cur} {u : UB} (h : lexNumber c = .ub u) : False := by
  unfold lexNumber at h
  dsimp only at h
  generalize c.skip (fun ch => isDecimal ch || isContained c!"+-" ch || isHexish ch) = c1 at h
  split at h
  · simp at h
  · split at h
    · rename_i hc2
      split at hc2
      · rename_i hd
        simp only [Option.map_eq_none_iff, Cur.next_eq_none] at hc2
        simp [Cur.peek, hc2] at hd
      · simp at hc2
    · split at h
      · simp at h
      · split at h <;> split at h <;> simp at h

/-- What is known after a fall-through: the cursor moved on by at least `n` characters. -/
theorem lexPredicate_ok {c c2 : Cur} {t : Token} (h : lexPredicate c = .done (.ok t c2)) :
    LexOk c t c2 ∧ isSeparator c2.peek = true := by
  unfold lexPredicate at h
  dsimp only at h
  split at h
  · simp at h
  · rename_i c1 hc1
    have hr1 : Reach c c1 := by
      split at hc1
      · exact Cur.next_reach hc1
      · simp only [Option.some.injEq] at hc1; subst hc1; exact Reach.refl _
    split at h
    · simp at h
    · split at h
      · simp at h
      · rename_i c2' hc2'
        split at h
        · simp at h
        · rename_i idx hidx
          split at h
          · simp at h
          · rename_i c3 hc3
            split at h
            · rename_i hsep
              split at h
              · simp at h
              · rename_i hrange
                simp only [LexStep.done.injEq, TokRes.ok.injEq] at h
                obtain ⟨rfl, rfl⟩ := h
                have h1 := Cur.next_length hc2'
                have h2 := Cur.next_length hc3
                have h3 := hr1.length_le
                refine ⟨⟨hr1.trans ((Cur.next_reach hc2').trans (Cur.next_reach hc3)), rfl, rfl,
                  by omega, ?_, by simp, by simp⟩, hsep⟩
                simp only [Kind.wf]
                split at hidx
                · simp only [Option.some.injEq] at hidx; omega
                · rename_i hT
                  simp only [Bool.not_eq_true] at hT
                  simp only [hT, Bool.not_false, Bool.true_and, decide_eq_true_eq] at hrange
                  omega
            · simp at h

theorem lexPredicate_fall {c c2 : Cur} (h : lexPredicate c = .fall c2) :
    Reach c c2 ∧ c2.text.length < c.text.length := by
  unfold lexPredicate at h
  dsimp only at h
  split at h
  · simp at h
  · rename_i c1 hc1
    have hr1 : Reach c c1 := by
      split at hc1
      · exact Cur.next_reach hc1
      · simp only [Option.some.injEq] at hc1; subst hc1; exact Reach.refl _
    have h3 := hr1.length_le
    split at h
    · simp at h
    · split at h
      · simp at h
      · rename_i c2' hc2'
        have h1 := Cur.next_length hc2'
        split at h
        · simp only [LexStep.fall.injEq] at h
          subst h
          exact ⟨hr1.trans (Cur.next_reach hc2'), by omega⟩
        · split at h
          · simp at h
          · rename_i c3 hc3
            have h2 := Cur.next_length hc3
            split at h
            · split at h <;> simp at h
            · simp only [LexStep.fall.injEq] at h
              subst h
              exact ⟨hr1.trans ((Cur.next_reach hc2').trans (Cur.next_reach hc3)), by omega⟩

theorem isContained_Pp {c : Char} (h : isContained c!"Pp" c = true) : c = 'P' ∨ c = 'p' := by
  simpa [isContained] using h

theorem isContained_bangPp {c : Char} (h : isContained c!"!Pp" c = true) :
    c = '!' ∨ c = 'P' ∨ c = 'p' := by
  simpa [isContained] using h

/-- Reading a predicate never reads past the end of the text. -/
theorem lexPredicate_ub {c : Cur} {u : UB} (h : lexPredicate c = .done (.ub u))
    (hc : isContained c!"!Pp" c.peek = true) : False := by
  unfold lexPredicate at h
  dsimp only at h
  have hne : c.text ≠ [] := by
    intro he; simp [Cur.peek, he, isContained] at hc
  split at h
  · rename_i hc1
    split at hc1
    · exact hne (Cur.next_eq_none.mp hc1)
    · simp at hc1
  · rename_i c1 hc1
    split at h
    · simp at h
    · rename_i hneg
      have hpk : isContained c!"Pp" c1.peek = true := by
        split at hc1
        · rename_i hb
          simpa [hb] using hneg
        · rename_i hb
          simp only [Option.some.injEq] at hc1
          subst hc1
          rcases isContained_bangPp hc with h | h | h
          · simp [h] at hb
          · simp [h, isContained]
          · simp [h, isContained]
      split at h
      · rename_i hn
        rw [Cur.next_eq_none] at hn
        simp [Cur.peek, hn, isContained] at hpk
      · split at h
        · simp at h
        · rename_i idx hidx
          split at h
          · rename_i hn
            rw [Cur.next_eq_none] at hn
            simp [Cur.peek, hn, isContained, isDecimal] at hidx
          · split at h
            · split at h <;> simp at h
            · simp at h

/-- After a fall-through of the predicate branch the text is not exhausted, unless the
    text ends in a letter `P` or `p`. -/
theorem lexPredicate_fall_nil {c c2 : Cur} (h : lexPredicate c = .fall c2)
    (hc : isContained c!"!Pp" c.peek = true) (he : c2.text = []) :
    c.text ∈ [c!"P", c!"p", c!"!P", c!"!p"] := by
  unfold lexPredicate at h
  dsimp only at h
  split at h
  · simp at h
  · rename_i c1 hc1
    split at h
    · simp at h
    · rename_i hneg
      split at h
      · simp at h
      · rename_i c2' hc2'
        split at h
        · simp only [LexStep.fall.injEq] at h
          subst h
          obtain ⟨ch, h1, -, -⟩ := Cur.next_some hc2'
          rw [he] at h1
          split at hc1
          · rename_i hb
            obtain ⟨ch0, h0, -, -⟩ := Cur.next_some hc1
            simp only [Cur.peek, h0, List.headD_cons, decide_eq_true_eq] at hb
            subst hb
            rw [h1] at h0
            have : isContained c!"Pp" c1.peek = true := by
              simpa [Cur.peek, h0] using hneg
            rcases isContained_Pp this with h | h <;>
              · simp [Cur.peek, h1] at h; simp [h0, h]
          · rename_i hb
            simp only [Option.some.injEq] at hc1
            subst hc1
            simp only [Cur.peek, h1, List.headD_cons] at hc hb
            rcases isContained_bangPp hc with h | h | h
            · simp [h] at hb
            · simp [h1, h]
            · simp [h1, h]
        · split at h
          · simp at h
          · split at h
            · split at h <;> simp at h
            · rename_i hsep
              simp only [LexStep.fall.injEq] at h
              subst h
              exact absurd he (ne_nil_of_not_separator (by simpa using hsep))

theorem lexRegister_ok {c c2 : Cur} {t : Token} (h : lexRegister c = .done (.ok t c2)) :
    LexOk c t c2 ∧ isSeparator c2.peek = true := by
  unfold lexRegister at h
  dsimp only at h
  split at h
  · simp at h
  · rename_i c1 hc1
    have hl1 := Cur.next_length hc1
    split at h
    · split at h
      · simp at h
      · rename_i c2' hc2
        have hl2 := Cur.next_length hc2
        split at h
        · simp at h
        · rename_i hsep
          simp only [LexStep.done.injEq, TokRes.ok.injEq] at h
          obtain ⟨rfl, rfl⟩ := h
          exact ⟨⟨(Cur.next_reach hc1).trans (Cur.next_reach hc2), rfl, rfl, by omega,
            by simp [Kind.wf], by simp, by simp⟩, by simpa using hsep⟩
    · split at h
      · simp at h
      · rename_i hsep
        split at h
        · simp at h
        · split at h
          · simp at h
          · rename_i hrange
            simp only [LexStep.done.injEq, TokRes.ok.injEq] at h
            obtain ⟨rfl, rfl⟩ := h
            have hl2 := (Cur.skip_reach (fun ch => !isSeparator ch && isDecimal ch) c1).length_le
            exact ⟨⟨(Cur.next_reach hc1).trans (Cur.skip_reach _ _), rfl, rfl, by omega,
              by simp only [Kind.wf]; omega, by simp, by simp⟩, by simpa using hsep⟩

theorem lexRegister_fall {c c2 : Cur} (h : lexRegister c = .fall c2) :
    Reach c c2 ∧ c2.text.length < c.text.length ∧ isSeparator c2.peek = false := by
  unfold lexRegister at h
  dsimp only at h
  split at h
  · simp at h
  · rename_i c1 hc1
    have hl1 := Cur.next_length hc1
    split at h
    · split at h
      · simp at h
      · split at h <;> simp at h
    · split at h
      · rename_i hsep
        simp only [LexStep.fall.injEq] at h
        subst h
        have hl2 := (Cur.skip_reach (fun ch => !isSeparator ch && isDecimal ch) c1).length_le
        exact ⟨(Cur.next_reach hc1).trans (Cur.skip_reach _ _), by omega, by simpa using hsep⟩
      · split at h
        · simp at h
        · split at h <;> simp at h

theorem lexRegister_ub {c : Cur} {u : UB} (h : lexRegister c = .done (.ub u))
    (hc : c.text ≠ []) : False := by
  unfold lexRegister at h
  dsimp only at h
  split at h
  · rename_i hn; exact hc (Cur.next_eq_none.mp hn)
  · split at h
    · rename_i hz
      split at h
      · rename_i hn
        rw [Cur.next_eq_none] at hn
        simp [Cur.peek, hn] at hz
      · split at h <;> simp at h
    · split at h
      · simp at h
      · split at h
        · simp at h
        · split at h <;> simp at h

theorem operatorKind_wf (ch : Char) : (operatorKind ch).wf ∧ operatorKind ch ≠ .none := by
  unfold operatorKind
  repeat' split
  all_goals exact ⟨trivial, by simp⟩

theorem operatorKind_semi {ch : Char} (h : operatorKind ch = .semicolon) : ch = ';' := by
  unfold operatorKind at h
  repeat' split at h
  all_goals first | assumption | simp at h

theorem lexHead_ok {c c2 : Cur} {t : Token} (h : lexHead c = .done (.ok t c2)) : LexOk c t c2 := by
  unfold lexHead at h
  dsimp only at h
  split at h
  · split at h
    · simp at h
    · rename_i c1 hc1
      simp only [LexStep.done.injEq, TokRes.ok.injEq] at h
      obtain ⟨rfl, rfl⟩ := h
      have hl := Cur.next_length hc1
      obtain ⟨ch, htext, -, -⟩ := Cur.next_some hc1
      refine ⟨Cur.next_reach hc1, rfl, rfl, by omega, (operatorKind_wf _).1, (operatorKind_wf _).2,
        ?_⟩
      intro hs
      have := operatorKind_semi hs
      simp [Cur.peek, htext] at this
      rw [htext, this]
  · split at h
    · exact (lexPredicate_ok h).1
    · split at h
      · rename_i hnum
        simp only [LexStep.done.injEq] at h
        simp only [Bool.and_eq_true] at hnum
        exact (lexNumber_ok h hnum.1).1
      · split at h
        · exact (lexRegister_ok h).1
        · simp at h

theorem lexHead_fall {c c1 : Cur} (h : lexHead c = .fall c1) : Reach c c1 := by
  unfold lexHead at h
  dsimp only at h
  split at h
  · split at h <;> simp at h
  · split at h
    · exact (lexPredicate_fall h).1
    · split at h
      · simp at h
      · split at h
        · exact (lexRegister_fall h).1
        · simp only [LexStep.fall.injEq] at h; subst h; exact Reach.refl _

theorem lexHead_ub {c : Cur} {u : UB} (h : lexHead c = .done (.ub u)) (hne : c.text ≠ []) :
    False := by
  unfold lexHead at h
  dsimp only at h
  split at h
  · split at h
    · rename_i hn; exact hne (Cur.next_eq_none.mp hn)
    · simp at h
  · split at h
    · rename_i hp; exact lexPredicate_ub h hp
    · split at h
      · simp only [LexStep.done.injEq] at h; exact lexNumber_ub h
      · split at h
        · exact lexRegister_ub h hne
        · simp at h

theorem lexHead_fall_nil {c c1 : Cur} (h : lexHead c = .fall c1) (hne : c.text ≠ [])
    (he : c1.text = []) : c.text ∈ [c!"P", c!"p", c!"!P", c!"!p"] := by
  unfold lexHead at h
  dsimp only at h
  split at h
  · split at h <;> simp at h
  · split at h
    · rename_i hp; exact lexPredicate_fall_nil h hp he
    · split at h
      · simp at h
      · split at h
        · exact absurd he (ne_nil_of_not_separator (lexRegister_fall h).2.2)
        · simp only [LexStep.fall.injEq] at h; subst h; exact absurd he hne

theorem lexIdent_ub {s : Str} {c : Cur} : lexIdent s c = .ub ↔ c.text = [] := by
  unfold lexIdent
  rw [← Cur.next_eq_none]
  split
  · simp_all
  · dsimp only; split <;> simp_all

theorem lexIdent_step {s : Str} {c c2 : Cur}
    (h : lexIdent s c = .label c2 ∨ ∃ x, lexIdent s c = .ident x c2) :
    Reach c c2 ∧ c2.text.length < c.text.length ∧ isSeparator c2.peek = true := by
  unfold lexIdent at h
  split at h
  · simp at h
  · rename_i c1 hc1
    have hl := Cur.next_length hc1
    have hl2 := (Cur.skip_reach (fun ch => !isSeparator ch) c1).length_le
    have : c2 = c1.skip (fun ch => !isSeparator ch) := by
      dsimp only at h
      split at h <;> simp at h
      · exact h.symm
      · exact h.symm
    subst this
    refine ⟨(Cur.next_reach hc1).trans (Cur.skip_reach _ _), by omega, ?_⟩
    have := Cur.skip_peek (fun ch => !isSeparator ch) c1 (by decide)
    simpa using this

theorem operatorKind_ident {ch : Char} {x : Str} (h : operatorKind ch = .ident x) : False := by
  unfold operatorKind at h
  repeat' split at h
  all_goals simp at h

/-- Only the identifier branch gives identifiers. -/
theorem lexHead_ident {c c2 : Cur} {t : Token} {x : Str} (h : lexHead c = .done (.ok t c2))
    (hx : t.kind = .ident x) : False := by
  unfold lexHead at h
  dsimp only at h
  split at h
  · split at h
    · simp at h
    · simp only [LexStep.done.injEq, TokRes.ok.injEq] at h
      obtain ⟨rfl, -⟩ := h
      exact operatorKind_ident hx
  · split at h
    · unfold lexPredicate at h
      dsimp only at h
      repeat' split at h
      all_goals simp only [LexStep.done.injEq, TokRes.ok.injEq, reduceCtorEq] at h
      obtain ⟨rfl, -⟩ := h
      simp at hx
    · split at h
      · simp only [LexStep.done.injEq] at h
        unfold lexNumber at h
        dsimp only at h
        repeat' split at h
        all_goals simp only [TokRes.ok.injEq, reduceCtorEq] at h
        all_goals
          obtain ⟨rfl, -⟩ := h
          simp at hx
      · split at h
        · unfold lexRegister at h
          dsimp only at h
          repeat' split at h
          all_goals simp only [LexStep.done.injEq, TokRes.ok.injEq, reduceCtorEq] at h
          all_goals
            obtain ⟨rfl, -⟩ := h
            simp at hx
        · simp at h

/-- What is known of a token read from `c`. -/
structure TokOk (c : Cur) (t : Token) (c2 : Cur) : Prop where
  /-- the token starts at a position reached from `c` ... -/
  start : ∃ c1, Reach c c1 ∧ t.line = c1.line ∧ t.col = c1.col ∧ Reach c1 c2 ∧
    (t.kind = .semicolon → c1.text = ';' :: c2.text)
  shorter : t.kind ≠ .none → c2.text.length < c.text.length
  ended : t.kind = .none → c2.text = []
  wf : t.kind.wf

theorem TokOk.reach {c c2 : Cur} {t : Token} (h : TokOk c t c2) : Reach c c2 := by
  obtain ⟨c1, h1, -, -, h2, -⟩ := h.start
  exact h1.trans h2

theorem tokenizeAux_ok {n : Nat} {c c2 : Cur} {t : Token}
    (h : tokenizeAux n c = some (.ok t c2)) : TokOk c t c2 := by
  induction n generalizing c with
  | zero => simp [tokenizeAux] at h
  | succ n ih =>
    unfold tokenizeAux at h
    dsimp only at h
    have hr := Cur.skip_reach isBlank c
    generalize c.skip isBlank = cb at h hr
    have hlen := hr.length_le
    split at h
    · rename_i he
      simp only [Option.some.injEq, TokRes.ok.injEq] at h
      obtain ⟨rfl, rfl⟩ := h
      exact ⟨⟨_, hr, rfl, rfl, Reach.refl _, by simp⟩, by simp, fun _ => he, trivial⟩
    · split at h
      · rename_i r hh
        simp only [Option.some.injEq] at h
        subst h
        have hl := lexHead_ok hh
        have := hl.shorter
        exact ⟨⟨cb, hr, hl.line, hl.col, hl.reach, hl.semi⟩, fun _ => by omega,
          fun h => absurd h hl.notNone, hl.wf⟩
      · rename_i c1 hh
        have hr1 := lexHead_fall hh
        have hlen1 := hr1.length_le
        split at h
        · simp at h
        · rename_i c3 hi
          obtain ⟨ha, hb, -⟩ := lexIdent_step (.inl hi)
          have := ih h
          obtain ⟨d, hd, h1, h2, h3, h4⟩ := this.start
          refine ⟨⟨d, hr.trans (hr1.trans (ha.trans hd)), h1, h2, h3, h4⟩, ?_, this.ended, this.wf⟩
          intro hk
          have := this.shorter hk
          omega
        · rename_i s c3 hi
          obtain ⟨ha, hb, -⟩ := lexIdent_step (.inr ⟨s, hi⟩)
          simp only [Option.some.injEq, TokRes.ok.injEq] at h
          obtain ⟨rfl, rfl⟩ := h
          exact ⟨⟨cb, hr, rfl, rfl, hr1.trans ha, by simp⟩, fun _ => by omega, by simp, trivial⟩

theorem tokenizeAux_fuel {n : Nat} {c : Cur} (h : c.text.length < n) : tokenizeAux n c ≠ none := by
  induction n generalizing c with
  | zero => omega
  | succ n ih =>
    unfold tokenizeAux
    dsimp only
    have hlen := (Cur.skip_reach isBlank c).length_le
    generalize c.skip isBlank = cb at hlen
    split
    · simp
    · split
      · simp
      · rename_i c1 hh
        have hlen1 := (lexHead_fall hh).length_le
        split
        · simp
        · rename_i c3 hi
          obtain ⟨ha, hb, -⟩ := lexIdent_step (.inl hi)
          exact ih (by omega)
        · simp

/-- More fuel does not change the result. -/
theorem tokenizeAux_mono {n : Nat} {c : Cur} {r : TokRes} (h : tokenizeAux n c = some r)
    (m : Nat) (hm : n ≤ m) : tokenizeAux m c = some r := by
  induction n generalizing c m with
  | zero => simp [tokenizeAux] at h
  | succ n ih =>
    obtain ⟨m, rfl⟩ : ∃ k, m = k + 1 := ⟨m - 1, by omega⟩
    unfold tokenizeAux at h ⊢
    dsimp only at h ⊢
    split at h
    · rename_i he; simpa [he] using h
    · rename_i he
      rw [if_neg he]
      cases hh : lexHead (c.skip isBlank) with
      | done r' => simpa [hh] using h
      | fall c1 =>
        simp only [hh] at h ⊢
        cases hi : lexIdent (c.skip isBlank).text c1 with
        | ub => simpa [hi] using h
        | label c2 => simp only [hi] at h ⊢; exact ih h m (by omega)
        | ident s c2 => simpa [hi] using h

/-- The tokenizer never runs out of fuel. -/
theorem tokenize_eq {c : Cur} : tokenizeAux (c.text.length + 1) c = some (tokenize c) := by
  unfold tokenize
  have := tokenizeAux_fuel (n := c.text.length + 1) (c := c) (by omega)
  cases h : tokenizeAux (c.text.length + 1) c with
  | none => exact absurd h this
  | some r => rfl

theorem tokenizeAux_eq {n : Nat} {c : Cur} (h : c.text.length < n) :
    tokenizeAux n c = some (tokenize c) := tokenizeAux_mono tokenize_eq n (by omega)

/-- The recursion equation of `tokenize`, without fuel. -/
theorem tokenize_unfold (c0 : Cur) : tokenize c0 =
    (let c := c0.skip isBlank
     if c.text = [] then .ok ⟨.none, c.line, c.col⟩ c
     else match lexHead c with
      | .done r => r
      | .fall c1 =>
        match lexIdent c.text c1 with
        | .ub => .ub .readPastEnd
        | .label c2 => tokenize c2
        | .ident s c2 => .ok ⟨.ident s, c.line, c.col⟩ c2) := by
  have h : tokenizeAux (c0.text.length + 1) c0 = some (tokenize c0) := tokenize_eq
  apply Option.some.inj
  rw [← h]
  unfold tokenizeAux
  dsimp only
  have hlen := (Cur.skip_reach isBlank c0).length_le
  split
  · rfl
  · cases hh : lexHead (c0.skip isBlank) with
    | done r => rfl
    | fall c1 =>
      have hlen1 := (lexHead_fall hh).length_le
      dsimp only
      cases hi : lexIdent (c0.skip isBlank).text c1 with
      | ub => rfl
      | label c3 =>
        obtain ⟨ha, hb, -⟩ := lexIdent_step (.inl hi)
        exact tokenizeAux_eq (by omega)
      | ident s c2 => rfl

theorem tokenize_ok {c c2 : Cur} {t : Token} (h : tokenize c = .ok t c2) : TokOk c t c2 :=
  tokenizeAux_ok (n := c.text.length + 1) (by rw [tokenize_eq, h])

theorem tokenize_ub_kind {c : Cur} {u : UB} (h : tokenize c = .ub u) : u = .readPastEnd := by
  have h' : tokenizeAux (c.text.length + 1) c = some (.ub u) := by rw [tokenize_eq, h]
  revert h'
  generalize c.text.length + 1 = n
  clear h
  intro h
  induction n generalizing c with
  | zero => simp [tokenizeAux] at h
  | succ n ih =>
    unfold tokenizeAux at h
    dsimp only at h
    split at h
    · simp at h
    · rename_i hne
      split at h
      · rename_i r hh
        simp only [Option.some.injEq] at h
        subst h
        exact (lexHead_ub hh hne).elim
      · split at h
        · simpa using h.symm
        · exact ih h
        · simp at h

/-- The tokenizer reads past the end of the text only if the text ends in one of the four
    incomplete predicates. -/
theorem tokenize_ub_tail {c : Cur} {u : UB} (h : tokenize c = .ub u) :
    ∃ pre w, c.text = pre ++ w ∧ w ∈ [c!"P", c!"p", c!"!P", c!"!p"] := by
  have h' : tokenizeAux (c.text.length + 1) c = some (.ub u) := by rw [tokenize_eq, h]
  revert h'
  generalize c.text.length + 1 = n
  clear h
  intro h
  induction n generalizing c with
  | zero => simp [tokenizeAux] at h
  | succ n ih =>
    unfold tokenizeAux at h
    dsimp only at h
    have hr := Cur.skip_reach isBlank c
    generalize c.skip isBlank = cb at h hr
    split at h
    · simp at h
    · rename_i hne
      split at h
      · rename_i r hh
        simp only [Option.some.injEq] at h
        subst h
        exact (lexHead_ub hh hne).elim
      · rename_i c1 hh
        have hr1 := lexHead_fall hh
        split at h
        · rename_i hi
          obtain ⟨pre, hp, -⟩ := hr
          exact ⟨pre, cb.text, hp, lexHead_fall_nil hh hne (lexIdent_ub.mp hi)⟩
        · rename_i c3 hi
          obtain ⟨ha, hb, -⟩ := lexIdent_step (.inl hi)
          obtain ⟨pre, w, hp, hw⟩ := ih h
          obtain ⟨q, hq, -⟩ := hr.trans (hr1.trans ha)
          exact ⟨q ++ pre, w, by rw [hq, hp, List.append_assoc], hw⟩
        · simp at h

/-- The tokenizer never reads past the end of a text that ends in a separator. -/
theorem tokenize_safe {c : Cur} {u : UB} (hs : SafeEnd c.text) (h : tokenize c = .ub u) : False := by
  obtain ⟨pre, w, hp, hw⟩ := tokenize_ub_tail h
  have hsb := hs.suffix (b := w) ⟨pre, hp.symm⟩
  simp only [List.mem_cons, List.not_mem_nil, or_false] at hw
  rcases hw with h | h | h | h
  · have := hsb 'P' (by simp [h]); simp [isSeparator, isOperator, isContained] at this
  · have := hsb 'p' (by simp [h]); simp [isSeparator, isOperator, isContained] at this
  · have := hsb 'P' (by simp [h]); simp [isSeparator, isOperator, isContained] at this
  · have := hsb 'p' (by simp [h]); simp [isSeparator, isOperator, isContained] at this

/-- The text of an identifier token is the text up to the cursor. -/
theorem tokenize_ident {c c2 : Cur} {t : Token} {x : Str} (h : tokenize c = .ok t c2)
    (hx : t.kind = .ident x) : ∃ pre, c.text = pre ++ x ++ c2.text := by
  have h' : tokenizeAux (c.text.length + 1) c = some (.ok t c2) := by rw [tokenize_eq, h]
  revert h'
  generalize c.text.length + 1 = n
  clear h
  intro h
  induction n generalizing c with
  | zero => simp [tokenizeAux] at h
  | succ n ih =>
    unfold tokenizeAux at h
    dsimp only at h
    obtain ⟨p0, hp0, -⟩ := Cur.skip_reach isBlank c
    generalize c.skip isBlank = cb at h hp0
    split at h
    · simp only [Option.some.injEq, TokRes.ok.injEq] at h
      obtain ⟨rfl, -⟩ := h
      simp at hx
    · split at h
      · rename_i r hh
        simp only [Option.some.injEq] at h
        subst h
        exact (lexHead_ident hh hx).elim
      · rename_i c1 hh
        have hr1 := lexHead_fall hh
        split at h
        · simp at h
        · rename_i c3 hi
          obtain ⟨ha, -, -⟩ := lexIdent_step (.inl hi)
          obtain ⟨pre, hpre⟩ := ih h
          obtain ⟨p1, hp1, -⟩ := hr1.trans ha
          exact ⟨p0 ++ p1 ++ pre, by rw [hp0, hp1, hpre]; simp⟩
        · rename_i s c3 hi
          obtain ⟨ha, -, -⟩ := lexIdent_step (.inr ⟨s, hi⟩)
          simp only [Option.some.injEq, TokRes.ok.injEq] at h
          obtain ⟨rfl, rfl⟩ := h
          simp only [Kind.ident.injEq] at hx
          subst hx
          have hb := between_reach (hr1.trans ha)
          have : s = between cb.text c3.text := by
            unfold lexIdent at hi
            split at hi
            · simp at hi
            · dsimp only at hi
              split at hi
              · simp at hi
              · simp only [IdentStep.ident.injEq] at hi
                rw [← hi.1, ← hi.2]
          refine ⟨p0, ?_⟩
          rw [hp0, List.append_assoc]
          congr 1
          rw [this]
          exact hb

end Nxas
