import Verif.Lemmas.Memory
import Verif.Lemmas.Declared
import Verif.Lemmas.Trailing
import Verif.Props.Safety
/-
C94: what the lexer does with the characters of a `std::string` behind a NUL.
-/

namespace Nxas

open Spec

namespace Spec

/-- With the function `step` for one token, the tokens `ts` are read from `c` to the end of the text. -/
inductive ReadsOn (step : Cur → TokRes) : Cur → List (Kind × Nat) → Prop
  | done {c c' : Cur} {t : Token} (h : step c = .ok t c') (hk : t.kind = .none) : ReadsOn step c []
  | token {c c' : Cur} {t : Token} {ts : List (Kind × Nat)} (h : step c = .ok t c') (hk : t.kind ≠ .none) (hr : ReadsOn step c' ts) :
      ReadsOn step c ((t.kind, t.line) :: ts)

end Spec

theorem split_visible (code : Str) : ∃ z, code = visible code ++ z ∧ Tail z := by
  refine ⟨code.dropWhile (· ≠ '\x00'), (List.takeWhile_append_dropWhile).symm, ?_⟩
  unfold Tail
  induction code with
  | nil => rfl
  | cons a t ih =>
    rw [List.dropWhile_cons]
    split
    · exact ih
    · rename_i h
      simpa using h

theorem reads_plus {z : Str} (hz : Tail z) {ts : List Token} {c : Cur} (h0 : '\x00' ∉ c.text) (h : Lexes c ts) :
    ReadsOn tokenizeMem (c.plus z) (ts.map Token.pair) := by
  induction ts generalizing c with
  | nil =>
    obtain ⟨c', hr, t, c'', he, hk⟩ := h
    cases hr
    exact .done (c' := c''.plus z) (by rw [tokenizeMem_plus hz h0 (by rw [he]; simp), he]; rfl) hk
  | cons t ts ih =>
    obtain ⟨c1, he, hk, hl⟩ := Lexes.cons_iff.1 h
    exact .token (c' := c1.plus z) (by rw [tokenizeMem_plus hz h0 (by rw [he]; simp), he]; rfl) hk
      (ih ((tokenize_ok he).reach.nul h0) hl)

/-- **C94**: the tokens of the text before the first NUL are the tokens that the code reads in the whole string, whatever is behind the
    NUL.  The next theorem is about the labels. -/
theorem C94_tokens {code : Str} {ts : List (Kind × Nat)} (h : Scans 0 (visible code) ts) : ReadsOn tokenizeMem ⟨code, 0, 0⟩ ts := by
  obtain ⟨z, hc, hz⟩ := split_visible code
  have h0 := visible_no_nul code
  obtain ⟨us, hl, rfl⟩ := (scans_iff (c := ⟨visible code, 0, 0⟩) h0).1 h
  have := reads_plus hz h0 hl
  unfold Cur.plus at this
  rw [← hc] at this
  exact this

/-- **C94**, the labels: if the last line before the NUL is not a bare word, the labels defined before the NUL are all that the code finds. -/
theorem C94_labels {code : Str} (h : ¬ LastLineIsWord (visible code)) : ∃ ls, genLabelsMem code = .ok ls ∧ IsLabelMap (visible code) ls.find := by
  obtain ⟨z, hc, hz⟩ := split_visible code
  have h0 := visible_no_nul code
  cases hg : genLabels (visible code) with
  | error u =>
    obtain ⟨rfl, hb⟩ := genLabels_error hg
    exact absurd hb h
  | ok ls =>
    refine ⟨ls, ?_, fun name a => genLabels_find hg name a⟩
    have := genLabelsMem_plus hz h0 hg
    rwa [← hc] at this

example : Scans 0 (visible c!"L: NOP;\x00P R;") [(.ident c!"NOP", 0), (.semicolon, 0)] ∧ ¬ LastLineIsWord (visible c!"L: NOP;\x00P R;") ∧
    genLabelsMem c!"L: NOP;\x00P R;" = .ok [(c!"L", 8)] :=
  ⟨lexAll_scans (n := 9) (by decide) (by decide +kernel), by rw [← C04_label_pass]; decide +kernel, by decide +kernel⟩

/-- **C94**, one token, with its errors: nothing behind a NUL is read unless the lexer of the model is undefined. -/
theorem C94_step {u z : Str} {l k : Nat} (h0 : '\x00' ∉ u) (hu : ∀ e, tokenize ⟨u, l, k⟩ ≠ .ub e) :
    tokenizeMem ⟨u ++ '\x00' :: z, l, k⟩ = match tokenize ⟨u, l, k⟩ with
      | .ok t c => .ok t ⟨c.text ++ '\x00' :: z, c.line, c.col⟩
      | r => r := by
  have := tokenizeMem_plus (z := '\x00' :: z) rfl h0 hu
  unfold Cur.plus at this
  rw [this]
  cases tokenize ⟨u, l, k⟩ <;> rfl

/-- **C94**: on a string without NUL, which is what the command line passes, the two lexers agree in all cases, the undefined ones
    included. -/
theorem C94_exact {t : Str} (h0 : '\x00' ∉ t) (l k : Nat) : tokenizeMem ⟨t, l, k⟩ = tokenize ⟨t, l, k⟩ ∧ genLabelsMem t = genLabels t :=
  ⟨tokenizeMem_nul h0, genLabelsMem_nul h0⟩

/-- **C94**, beyond the NUL: if a text ends in the letter of a predicate, the NUL becomes a part of a name, which goes on with the
    characters behind it. -/
theorem C94_beyond {p : Char} (hp : p = 'P' ∨ p = 'p') {w z : Str} (hw : ∀ c ∈ w, c ∉ separators ∧ c ≠ '\x00') (hl : w.getLast? ≠ some ':')
    (hz : ∀ c, z.head? = some c → c ∈ separators ∨ c = '\x00') (l k : Nat) :
    tokenizeMem ⟨p :: '\x00' :: (w ++ z), l, k⟩ =
      .ok ⟨.ident (p :: '\x00' :: w), l, k⟩ ⟨z, l, k + 2 + w.length⟩ := by
  have hskip : ∀ (w : Str) (k : Nat), (∀ c ∈ w, c ∉ separators ∧ c ≠ '\x00') →
      skipWhile (fun ch => !isSeparator ch) (w ++ z) l k = ⟨z, l, k + w.length⟩ := by
    intro w
    induction w with
    | nil =>
      intro k _
      cases z with
      | nil => rfl
      | cons a z =>
        have ha : isSeparator a = true := by
          rw [← Bool.not_eq_false, not_separator_iff]
          rintro ⟨h1, h2⟩
          rcases hz a rfl with h | h
          · exact h1 h
          · exact h2 h
        simp [skipWhile, ha]
    | cons a w ih =>
      intro k hw
      have ha := hw a (by simp)
      have hs : isSeparator a = false := not_separator_iff.2 ha
      have h1 : a ≠ '\n' := by rintro rfl; exact ha.1 (by decide)
      have h2 : a ≠ '\t' := by rintro rfl; exact ha.1 (by decide)
      simp only [List.cons_append, skipWhile, hs, Bool.not_false, if_true, nextLine, nextCol, if_neg h1, if_neg h2]
      rw [ih _ (fun c hc => hw c (by simp [hc]))]
      simp only [List.length_cons, Nat.add_assoc, Nat.add_comm 1]
  have hid : lexIdent (p :: '\x00' :: (w ++ z)) ⟨'\x00' :: (w ++ z), l, k + 1⟩ = .ident (p :: '\x00' :: w) ⟨z, l, k + 2 + w.length⟩ := by
    have hn : Cur.next ⟨'\x00' :: (w ++ z), l, k + 1⟩ = some ⟨w ++ z, l, k + 2⟩ := rfl
    unfold lexIdent
    rw [hn]
    dsimp only
    have hs : Cur.skip (fun ch => !isSeparator ch) ⟨w ++ z, l, k + 2⟩ = ⟨z, l, k + 2 + w.length⟩ := hskip w (k + 2) hw
    rw [hs]
    have hb : between (p :: '\x00' :: (w ++ z)) z = p :: '\x00' :: w := by
      unfold between
      simp only [List.length_cons, List.length_append]
      rw [show w.length + z.length + 1 + 1 - z.length = w.length + 2 by omega]
      simp
    rw [hb]
    have hlast : ¬ (p :: '\x00' :: w).getLast? = some ':' := by
      cases w with
      | nil => simp
      | cons a w => simpa [List.getLast?_cons_cons] using hl
    rw [if_neg hlast]
  have hh : lexHead ⟨p :: '\x00' :: (w ++ z), l, k⟩ = .fall ⟨'\x00' :: (w ++ z), l, k + 1⟩ := by
    rcases hp with rfl | rfl <;> rfl
  have hb : Cur.skip isBlank ⟨p :: '\x00' :: (w ++ z), l, k⟩ = ⟨p :: '\x00' :: (w ++ z), l, k⟩ := by
    rcases hp with rfl | rfl <;> rfl
  have hp0 : ¬ Cur.peek ⟨p :: '\x00' :: (w ++ z), l, k⟩ = '\x00' := by
    rcases hp with rfl | rfl <;> simp [Cur.peek]
  unfold tokenizeMem tokenizeMemAux
  dsimp only
  rw [hb, if_neg hp0, hh]
  dsimp only
  rw [hid]
  rfl

example : tokenizeMem ⟨c!"P\x00foo;", 0, 0⟩ = .ok ⟨.ident c!"P\x00foo", 0, 0⟩ ⟨c!";", 0, 5⟩ :=
  C94_beyond (w := c!"foo") (z := c!";") (.inl rfl) (by decide) (by decide) (by simp [separators]) 0 0

/-- **C94**: so there is a string, undefined in the model, that the code reads to its end: the label in it contains the NUL, and an
    instruction follows. -/
theorem C94_gap : let code := c!"NOP;\nP\x00:\nNOP;\n"
    assemble true code = .ub .readPastEnd ∧ genLabelsMem code = .ok [] ∧
    ReadsOn tokenizeMem ⟨code, 0, 0⟩ [(.ident c!"NOP", 0), (.semicolon, 0), (.ident c!"NOP", 2), (.semicolon, 2)] := by
  refine ⟨by decide +kernel, by decide +kernel, ?_⟩
  refine .token (t := ⟨.ident c!"NOP", 0, 0⟩) (c' := ⟨c!";\nP\x00:\nNOP;\n", 0, 3⟩) (by decide +kernel) (by simp) ?_
  refine .token (t := ⟨.semicolon, 0, 3⟩) (c' := ⟨c!"\nP\x00:\nNOP;\n", 0, 4⟩) (by decide +kernel) (by simp) ?_
  refine .token (t := ⟨.ident c!"NOP", 2, 0⟩) (c' := ⟨c!";\n", 2, 3⟩) (by decide +kernel) (by simp) ?_
  refine .token (t := ⟨.semicolon, 2, 3⟩) (c' := ⟨c!"\n", 2, 4⟩) (by decide +kernel) (by simp) ?_
  exact .done (t := ⟨.none, 3, 0⟩) (c' := ⟨[], 3, 0⟩) (by decide +kernel) rfl

end Nxas
