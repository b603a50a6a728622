import Verif.Lemmas.Lexer
import Verif.Spec.Text
import Mathlib.Data.List.TakeWhile
/-
Lemmas about the label pass.
-/

namespace Nxas

open Spec

/-- The text after the first new line. -/
def afterLine (t : Str) : Str := (t.dropWhile (· != '\n')).tail
/-- The first line with its new line, if any. -/
def lineOf : Str → Str
  | [] => []
  | ch :: r => if ch = '\n' then [ch] else ch :: lineOf r

theorem lineOf_append (t : Str) : lineOf t ++ afterLine t = t := by
  induction t with
  | nil => rfl
  | cons c r ih =>
    by_cases h : c = '\n'
    · subst h; simp [lineOf, afterLine]
    · simp only [lineOf, if_neg h, afterLine]
      unfold afterLine at ih
      simp [h, ih]

theorem afterLine_cons_ne {c : Char} {r : Str} (h : c ≠ '\n') : afterLine (c :: r) = afterLine r := by
  simp [afterLine, h]

theorem addressOf_succ (k : Nat) : addressOf (k + 1) =
    (if (addressOf k + 8) % 0x20 = 0 then addressOf k + 16 else addressOf k + 8) := by
  unfold addressOf
  split <;> omega

theorem LabelCur.advance_cons {s : LabelCur} {ch : Char} {rest : Str} (h : s.cur.text = ch :: rest)
    {k : Nat} (hk : s.pc = addressOf k) :
    s.advance = some ⟨⟨rest, Nxas.nextLine ch s.cur.line, nextCol ch s.cur.col⟩,
      addressOf (k + [ch].count ';')⟩ := by
  unfold LabelCur.advance
  simp only [Cur.peek, h, List.headD_cons, Cur.next, Option.map_some]
  by_cases hc : ch = ';'
  · subst hc
    simp only [if_true, List.count_singleton_self, addressOf_succ, hk]
  · have : [ch].count ';' = 0 := by simp [hc]
    simp [hc, hk]

theorem nextCol_pos {ch : Char} (c : Nat) : nextCol ch c > 0 ↔ ch ≠ '\n' := by
  unfold nextCol
  split
  · rename_i h; subst h; simp
  · split <;> simp_all

theorem LabelCur.nextLine_spec {n : Nat} {s : LabelCur} {k : Nat} (hk : s.pc = addressOf k)
    (hne : s.cur.text ≠ []) (hn : s.cur.text.length < n) :
    ∃ s1, s.nextLine n = .ok s1 ∧ s1.cur.text = afterLine s.cur.text ∧
      s1.pc = addressOf (k + (lineOf s.cur.text).count ';') := by
  induction n generalizing s k with
  | zero => omega
  | succ n ih =>
    obtain ⟨ch, rest, ht⟩ : ∃ ch rest, s.cur.text = ch :: rest := by
      cases h : s.cur.text with
      | nil => exact absurd h hne
      | cons a b => exact ⟨a, b, rfl⟩
    unfold LabelCur.nextLine
    rw [LabelCur.advance_cons ht hk]
    simp only
    by_cases hc : ch = '\n'
    · subst hc
      simp [nextCol, ht, afterLine, lineOf]
    · by_cases hr : rest = []
      · subst hr
        simp [ht, afterLine, lineOf, hc]
      · have hpos : nextCol ch s.cur.col > 0 := (nextCol_pos _).mpr hc
        simp only [ne_eq, hr, not_false_eq_true, hpos, and_self, if_true]
        have := ih (s := ⟨⟨rest, Nxas.nextLine ch s.cur.line, nextCol ch s.cur.col⟩,
          addressOf (k + [ch].count ';')⟩) (k := k + [ch].count ';') rfl hr
          (by simp only; rw [ht] at hn; simp at hn; omega)
        obtain ⟨s1, h1, h2, h3⟩ := this
        refine ⟨s1, h1, ?_, ?_⟩
        · rw [h2, ht, afterLine_cons_ne hc]
        · rw [h3, ht]
          simp only [lineOf, hc, if_false]
          congr 1
          rw [List.count_cons (b := ch) (l := lineOf rest), List.count_singleton]
          omega

theorem LabelCur.nextLine_nil {n : Nat} {s : LabelCur} (h : s.cur.text = []) :
    s.nextLine (n + 1) = .error .readPastEnd := by
  simp [LabelCur.nextLine, LabelCur.advance, Cur.next, h]

theorem isAlpha_iff (c : Char) : isAlpha c = true ↔ letter c := by
  simp [isAlpha, letter]

theorem isLabelChar_iff (c : Char) : isLabelChar c = true ↔ wordChar c := by
  simp [isLabelChar, isAlnum, wordChar, isAlpha, letter, isDecimal, or_assoc]

theorem isLabelChar_nl : isLabelChar '\n' = false := by decide
theorem isLabelChar_colon : isLabelChar ':' = false := by decide
theorem isLabelChar_semi : isLabelChar ';' = false := by decide

theorem afterLine_length {t : Str} (h : t ≠ []) : (afterLine t).length < t.length := by
  cases t with
  | nil => exact absurd rfl h
  | cons c r =>
    unfold afterLine
    have := (List.dropWhile_suffix (l := c :: r) (· != '\n')).length_le
    rw [List.length_tail]
    simp only [List.length_cons] at *
    omega

theorem lineOf_atLineStart {t : Str} (h : afterLine t ≠ []) : (lineOf t).getLast? = some '\n' := by
  induction t with
  | nil => simp [afterLine] at h
  | cons c r ih =>
    by_cases hc : c = '\n'
    · subst hc; simp [lineOf]
    · rw [afterLine_cons_ne hc] at h
      have := ih h
      simp only [lineOf, hc, if_false]
      rw [List.getLast?_cons]
      simp [this]

/-- A non-empty prefix that ends at a line start contains the first line. -/
theorem lineOf_prefix {t pre rest : Str} (h : t = pre ++ rest) (hp : AtLineStart pre)
    (hne : pre ≠ []) : ∃ pre', pre = lineOf t ++ pre' ∧ AtLineStart pre' := by
  induction pre generalizing t with
  | nil => exact absurd rfl hne
  | cons c r ih =>
    subst h
    by_cases hc : c = '\n'
    · subst hc
      refine ⟨r, by simp [lineOf], ?_⟩
      cases r with
      | nil => exact .inl rfl
      | cons a b =>
        rcases hp with hp | hp
        · simp at hp
        · right; simpa [List.getLast?_cons] using hp
    · have hr : r ≠ [] := by
        rintro rfl
        rcases hp with hp | hp
        · simp at hp
        · simp at hp; exact hc hp
      have hp' : AtLineStart r := by
        rcases hp with hp | hp
        · simp at hp
        · right
          cases r with
          | nil => exact absurd rfl hr
          | cons a b => simpa [List.getLast?_cons] using hp
      obtain ⟨pre', h1, h2⟩ := ih (t := r ++ rest) rfl hp' hr
      refine ⟨pre', ?_, h2⟩
      simp only [List.cons_append, lineOf, hc, if_false]
      rw [← h1]

theorem Spec.AtLineStart.lineOf_append {t pre : Str} (h : AtLineStart pre) (ht : afterLine t ≠ []) :
    AtLineStart (lineOf t ++ pre) := by
  have := lineOf_atLineStart ht
  right
  rcases h with rfl | h
  · simpa using this
  · rw [List.getLast?_append, h]; rfl

/-- Definitions after the first line are definitions in the remaining text. -/
theorem defAt_afterLine {t pre name : Str} :
    DefAt (afterLine t) pre name → DefAt t (lineOf t ++ pre) name := by
  rintro ⟨h1, h2, rest, h3⟩
  refine ⟨AtLineStart.lineOf_append h1 ?_, h2, rest, ?_⟩
  · rw [h3]; simp
  · have := lineOf_append t
    rw [h3] at this
    exact this.symm.trans (by simp)

theorem defAt_cases {t pre name : Str} (h : DefAt t pre name) :
    pre = [] ∨ ∃ pre', pre = lineOf t ++ pre' ∧ DefAt (afterLine t) pre' name := by
  by_cases hp : pre = []
  · exact .inl hp
  · right
    obtain ⟨h1, h2, rest, h3⟩ := h
    obtain ⟨pre', h4, h5⟩ := lineOf_prefix (t := t) (by rw [h3, List.append_assoc]) h1 hp
    refine ⟨pre', h4, h5, h2, rest, ?_⟩
    have := lineOf_append t
    rw [h4] at h3
    conv at this => rhs; rw [h3]
    simp only [List.append_assoc, List.append_cancel_left_eq] at this
    rw [this]; simp

theorem Spec.IsName.ne_nil {w : Str} (h : IsName w) : w ≠ [] := by
  obtain ⟨⟨c, cs, rfl, -⟩, -⟩ := h; simp

theorem takeWhile_of_all_append {p : Char → Bool} {w : Str} {c : Char} {r : Str}
    (h : ∀ x ∈ w, p x = true) (hc : p c = false) : (w ++ c :: r).takeWhile p = w := by
  induction w with
  | nil => simp [hc]
  | cons a b ih =>
    simp only [List.cons_append, List.takeWhile_cons, h a (by simp), if_true]
    rw [ih (fun x hx => h x (by simp [hx]))]

theorem dropWhile_of_all_append {p : Char → Bool} {w : Str} {c : Char} {r : Str}
    (h : ∀ x ∈ w, p x = true) (hc : p c = false) : (w ++ c :: r).dropWhile p = c :: r := by
  induction w with
  | nil => simp [hc]
  | cons a b ih =>
    simp only [List.cons_append, List.dropWhile_cons, h a (by simp), if_true]
    exact ih (fun x hx => h x (by simp [hx]))

theorem between_dropWhile (p : Char → Bool) (t : Str) : between t (t.dropWhile p) = t.takeWhile p := by
  have h := List.takeWhile_append_dropWhile (p := p) (l := t)
  have hl : t.length - (t.dropWhile p).length = (t.takeWhile p).length := by
    have := congrArg List.length h
    rw [List.length_append] at this
    omega
  unfold between
  rw [hl]
  exact List.prefix_iff_eq_take.mp (List.takeWhile_prefix p) |>.symm

/-- The label found at the start of a line. -/
theorem defAt_nil_iff {t name : Str} :
    DefAt t [] name ↔ (∃ c cs, t = c :: cs ∧ isAlpha c = true) ∧
      (t.dropWhile isLabelChar).head? = some ':' ∧ name = t.takeWhile isLabelChar := by
  constructor
  · rintro ⟨-, ⟨⟨c, cs, rfl, hl⟩, hw⟩, rest, rfl⟩
    have hall : ∀ x ∈ c :: cs, isLabelChar x = true := fun x hx => (isLabelChar_iff x).mpr (hw x hx)
    refine ⟨⟨c, cs ++ ':' :: rest, by simp, (isAlpha_iff c).mpr hl⟩, ?_, ?_⟩
    · rw [List.nil_append, dropWhile_of_all_append hall isLabelChar_colon]; rfl
    · rw [List.nil_append, takeWhile_of_all_append hall isLabelChar_colon]
  · rintro ⟨⟨c, cs, rfl, hl⟩, hd, rfl⟩
    have hc : isLabelChar c = true := by simp [isLabelChar, isAlnum, hl]
    refine ⟨.inl rfl, ⟨⟨c, cs.takeWhile isLabelChar, by simp [hc], (isAlpha_iff c).mp hl⟩, ?_⟩, ?_⟩
    · intro x hx
      exact (isLabelChar_iff x).mp (List.mem_takeWhile_imp hx)
    · cases hdr : (c :: cs).dropWhile isLabelChar with
      | nil => simp [hdr] at hd
      | cons a b =>
        simp only [hdr, List.head?_cons, Option.some.injEq] at hd
        subst hd
        refine ⟨b, ?_⟩
        have := List.takeWhile_append_dropWhile (p := isLabelChar) (l := c :: cs)
        rw [hdr] at this
        simpa using this.symm

theorem Labels.find_insert (ls : Labels) (s name : Str) (pc : Nat) :
    (ls.insert s pc).find name =
      (ls.find name).or (if name = s then some pc else none) := by
  unfold Labels.insert Labels.find
  split
  · rename_i h
    rw [List.lookup_append]
    by_cases hn : name = s
    · subst hn; simp [h]
    · have : (name == s) = false := by simpa using hn
      simp [List.lookup_cons, this, hn]
  · rename_i h
    by_cases hn : name = s
    · subst hn
      cases hl : List.lookup name ls with
      | none => exact absurd hl h
      | some a => simp
    · simp [hn]

theorem lineOf_skip {t : Str} (hne : t.dropWhile isLabelChar ≠ []) :
    afterLine (t.dropWhile isLabelChar) = afterLine t ∧
    (lineOf (t.dropWhile isLabelChar)).count ';' = (lineOf t).count ';' := by
  induction t with
  | nil => simp at hne
  | cons c r ih =>
    by_cases hc : isLabelChar c = true
    · simp only [List.dropWhile_cons, hc, if_true] at hne ⊢
      have hnl : c ≠ '\n' := by rintro rfl; simp [isLabelChar_nl] at hc
      have hsm : c ≠ ';' := by rintro rfl; simp [isLabelChar_semi] at hc
      obtain ⟨h1, h2⟩ := ih hne
      rw [afterLine_cons_ne hnl]
      refine ⟨h1, ?_⟩
      simp [lineOf, hnl, h2, hsm]
    · simp [hc]

/-- The last line of the text is a bare word: the only case in which the label pass reads
    past the end. -/
abbrev BareTail (t : Str) : Prop := LastLineIsWord t

theorem bareTail_afterLine {t : Str} : BareTail (afterLine t) → BareTail t := by
  rintro ⟨pre, w, h1, h2, h3⟩
  refine ⟨lineOf t ++ pre, w, ?_, AtLineStart.lineOf_append h2 ?_, h3⟩
  · have := lineOf_append t
    rw [h1] at this
    exact this.symm.trans (by simp)
  · rw [h1]; simp [IsName.ne_nil h3]

theorem bareTail_cases {t : Str} (h : BareTail t) : IsName t ∨ BareTail (afterLine t) := by
  obtain ⟨pre, w, h1, h2, h3⟩ := h
  by_cases hp : pre = []
  · subst hp; left; rw [h1]; exact h3
  · right
    obtain ⟨pre', h4, h5⟩ := lineOf_prefix (t := t) h1 h2 hp
    refine ⟨pre', w, ?_, h5, h3⟩
    have := lineOf_append t
    rw [h4] at h1
    conv at this => rhs; rw [h1]
    simpa only [List.append_assoc, List.append_cancel_left_eq] using this

theorem isName_iff_skip {t : Str} : IsName t ↔
    (∃ c cs, t = c :: cs ∧ isAlpha c = true) ∧ t.dropWhile isLabelChar = [] := by
  constructor
  · rintro ⟨⟨c, cs, rfl, hl⟩, hw⟩
    refine ⟨⟨c, cs, rfl, (isAlpha_iff c).mpr hl⟩, ?_⟩
    rw [List.dropWhile_eq_nil_iff]
    exact fun x hx => (isLabelChar_iff x).mpr (hw x hx)
  · rintro ⟨⟨c, cs, rfl, hl⟩, hd⟩
    rw [List.dropWhile_eq_nil_iff] at hd
    exact ⟨⟨c, cs, rfl, (isAlpha_iff c).mp hl⟩, fun x hx => (isLabelChar_iff x).mp (hd x hx)⟩

/-- What the label pass computes from `t`, with `k` semicolons before and `ls` found. -/
def LabelResult (t : Str) (k : Nat) (ls : Labels) : Except UB Labels → Prop
  | .error u => u = .readPastEnd ∧ BareTail t
  | .ok ls' => ¬ BareTail t ∧ ∀ name a, ls'.find name = some a ↔
      ls.find name = some a ∨
      (ls.find name = none ∧ ∃ pre, FirstDef t pre name ∧ a = addressOf (k + pre.count ';'))

theorem firstDef_of_nil {t pre name : Str} (h0 : DefAt t [] name) :
    FirstDef t pre name ↔ pre = [] := by
  constructor
  · rintro ⟨-, h⟩
    have := h [] h0
    simpa using this
  · rintro rfl; exact ⟨h0, fun _ _ => by simp⟩

theorem firstDef_afterLine {t name : Str} (h0 : ¬ DefAt t [] name) (k a : Nat) :
    (∃ pre, FirstDef t pre name ∧ a = addressOf (k + pre.count ';')) ↔
    (∃ pre, FirstDef (afterLine t) pre name ∧
      a = addressOf (k + (lineOf t).count ';' + pre.count ';')) := by
  constructor
  · rintro ⟨pre, ⟨hd, hmin⟩, ha⟩
    rcases defAt_cases hd with rfl | ⟨pre', rfl, hd'⟩
    · exact absurd hd h0
    · refine ⟨pre', ⟨hd', fun q hq => ?_⟩, ?_⟩
      · have := hmin _ (defAt_afterLine hq)
        simp at this; exact this
      · rw [ha, List.count_append]; congr 1; omega
  · rintro ⟨pre, ⟨hd, hmin⟩, ha⟩
    refine ⟨lineOf t ++ pre, ⟨defAt_afterLine hd, fun q hq => ?_⟩, ?_⟩
    · rcases defAt_cases hq with rfl | ⟨q', rfl, hq'⟩
      · exact absurd hq h0
      · have := hmin _ hq'
        simp; exact this
    · rw [ha, List.count_append]; congr 1; omega

theorem genLabelsAux_spec {n : Nat} {s : LabelCur} {k : Nat} {ls : Labels}
    (hk : s.pc = addressOf k) (hn : s.cur.text.length < n) :
    LabelResult s.cur.text k ls (genLabelsAux n s ls) := by
  induction n generalizing s k ls with
  | zero => omega
  | succ n ih =>
    unfold genLabelsAux
    by_cases h0 : s.cur.text = []
    · simp only [h0, if_true, LabelResult]
      constructor
      · rintro ⟨pre, w, h1, -, h3⟩
        have := IsName.ne_nil h3
        simp at h1
        exact this h1.2
      · intro name a
        constructor
        · exact .inl
        · rintro (h | ⟨-, pre, ⟨⟨-, -, rest, h⟩, -⟩, -⟩)
          · exact h
          · simp at h
    · rw [if_neg h0]
      have hal := afterLine_length h0
      obtain ⟨ch, rest, ht⟩ : ∃ ch rest, s.cur.text = ch :: rest := by
        cases h : s.cur.text with
        | nil => exact absurd h h0
        | cons a b => exact ⟨a, b, rfl⟩
      have hpk : s.cur.peek = ch := by simp [Cur.peek, ht]
      rw [hpk]
      by_cases ha : isAlpha ch = true
      · simp only [ha, Bool.not_true, Bool.false_eq_true, if_false]
        rw [Cur.skip_text, between_dropWhile]
        by_cases hd : s.cur.text.dropWhile isLabelChar = []
        · rw [LabelCur.nextLine_nil (by simp only [Cur.skip_text, hd])]
          simp only [LabelResult]
          exact ⟨trivial, [], s.cur.text, by simp, .inl rfl, isName_iff_skip.mpr ⟨⟨ch, rest, ht, ha⟩, hd⟩⟩
        · obtain ⟨hl1, hl2⟩ := lineOf_skip hd
          obtain ⟨s1, h1, h2, h3⟩ := LabelCur.nextLine_spec
            (n := (s.cur.text.dropWhile isLabelChar).length + 1)
            (s := ⟨s.cur.skip isLabelChar, s.pc⟩) (k := k) hk
            (by simp only [Cur.skip_text]; exact hd) (by simp only [Cur.skip_text]; omega)
          simp only [Cur.skip_text] at h2 h3
          rw [hl1] at h2
          rw [hl2] at h3
          rw [h1]
          simp only
          have hpk2 : (s.cur.skip isLabelChar).peek = ':' ↔
              (s.cur.text.dropWhile isLabelChar).head? = some ':' := by
            unfold Cur.peek
            rw [Cur.skip_text]
            cases s.cur.text.dropWhile isLabelChar <;> simp
          have := ih (s := s1) (ls := if (s.cur.skip isLabelChar).peek = ':' then
            ls.insert (s.cur.text.takeWhile isLabelChar) s.pc else ls) h3 (by rw [h2]; omega)
          rw [h2] at this
          revert this
          generalize genLabelsAux n s1 _ = r
          cases r with
          | error u => exact fun h => ⟨h.1, bareTail_afterLine h.2⟩
          | ok ls' =>
            rintro ⟨hb, hf⟩
            refine ⟨fun h => ?_, fun name a => ?_⟩
            · rcases bareTail_cases h with h | h
              · exact hd (isName_iff_skip.mp h).2
              · exact hb h
            · rw [hf]
              by_cases hdef : DefAt s.cur.text [] name
              · obtain ⟨-, hcol, hname⟩ := defAt_nil_iff.mp hdef
                rw [if_pos (hpk2.mpr hcol), Labels.find_insert, if_pos hname]
                cases hfn : ls.find name with
                | some b => simp
                | none =>
                  simp only [Option.or_some, Option.getD_none, Option.some.injEq, reduceCtorEq,
                    false_and, or_false]
                  simp only [firstDef_of_nil hdef, exists_eq_left, List.count_nil, Nat.add_zero,
                    true_and, hk, false_or]
                  exact eq_comm
              · have hins : ∀ (x : Option Nat), (if (s.cur.skip isLabelChar).peek = ':' then
                    ls.insert (s.cur.text.takeWhile isLabelChar) s.pc else ls).find name = x ↔
                    ls.find name = x := by
                  intro x
                  split
                  · rename_i hcol
                    rw [Labels.find_insert, if_neg, Option.or_none]
                    intro hname
                    exact hdef (defAt_nil_iff.mpr ⟨⟨ch, rest, ht, ha⟩, hpk2.mp hcol, hname⟩)
                  · rfl
                rw [hins, hins, firstDef_afterLine hdef]
      · simp only [ha, Bool.not_false, if_true]
        obtain ⟨s1, h1, h2, h3⟩ := LabelCur.nextLine_spec (n := s.cur.text.length + 1) hk h0 (by omega)
        rw [h1]
        simp only
        have := ih (s := s1) (ls := ls) h3 (by rw [h2]; omega)
        rw [h2] at this
        have hno : ∀ name, ¬ DefAt s.cur.text [] name := by
          intro name hdef
          obtain ⟨⟨c, cs, hcs, hca⟩, -, -⟩ := defAt_nil_iff.mp hdef
          rw [ht] at hcs
          simp only [List.cons.injEq] at hcs
          rw [← hcs.1] at hca
          exact ha hca
        revert this
        generalize genLabelsAux n s1 ls = r
        cases r with
        | error u => exact fun h => ⟨h.1, bareTail_afterLine h.2⟩
        | ok ls' =>
          rintro ⟨hb, hf⟩
          refine ⟨fun h => ?_, fun name a => ?_⟩
          · rcases bareTail_cases h with h | h
            · obtain ⟨⟨c, cs, hcs, hca⟩, -⟩ := isName_iff_skip.mp h
              rw [ht] at hcs
              simp only [List.cons.injEq] at hcs
              rw [← hcs.1] at hca
              exact ha hca
            · exact hb h
          · rw [hf, firstDef_afterLine (hno name)]

theorem genLabels_spec (t : Str) : LabelResult t 0 [] (genLabels t) :=
  genLabelsAux_spec (s := ⟨⟨t, 0, 0⟩, 8⟩) (k := 0) rfl (by simp)

theorem genLabels_error {t : Str} {u : UB} (h : genLabels t = .error u) :
    u = .readPastEnd ∧ BareTail t := by
  have := genLabels_spec t
  rw [h] at this
  exact this

theorem genLabels_readPastEnd (t : Str) : genLabels t = .error .readPastEnd ↔ BareTail t := by
  have := genLabels_spec t
  cases h : genLabels t with
  | error u => rw [h] at this; simp [this.1, this.2]
  | ok ls => rw [h] at this; simp [this.1]

theorem genLabels_find {t : Str} {ls : Labels} (h : genLabels t = .ok ls) (name : Str) (a : Nat) :
    ls.find name = some a ↔ ∃ pre, FirstDef t pre name ∧ a = addressOf (pre.count ';') := by
  have := genLabels_spec t
  rw [h] at this
  rw [this.2]
  simp [Labels.find]

/-- A text that ends in a separator has no bare last line. -/
theorem SafeEnd.not_bareTail {t : Str} (h : SafeEnd t) : ¬ BareTail t := by
  rintro ⟨pre, w, rfl, -, ⟨⟨c, cs, rfl, -⟩, hw⟩⟩
  obtain ⟨x, hx⟩ : ∃ x, (c :: cs).getLast? = some x := by
    cases h : (c :: cs).getLast? with
    | none => simp at h
    | some x => exact ⟨x, rfl⟩
  have h1 := h x (by rw [List.getLast?_append, hx]; rfl)
  have h2 := hw x (List.mem_of_getLast? hx)
  rw [← isLabelChar_iff] at h2
  have h3 : x ∈ [' ', '\t', '\r', '\n', '.', '+', '-', '~', '|', '[', ']', '@', ',', ';', '\x00'] := by
    simpa [isSeparator, isOperator, isContained, or_assoc] using h1
  have key : ∀ y ∈ [' ', '\t', '\r', '\n', '.', '+', '-', '~', '|', '[', ']', '@', ',', ';', '\x00'],
      isLabelChar y = false := by decide
  simp [key x h3] at h2

end Nxas
