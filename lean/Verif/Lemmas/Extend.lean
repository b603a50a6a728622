import Verif.Lemmas.Lexer
/-
The lexer on a text that ends with a semicolon reads the same tokens when the text is continued.
-/

namespace Nxas

/-- The text ends with a semicolon. -/
def EndsSemi (t : Str) : Prop := t.getLast? = some ';'

/-- The text ends with a semicolon that no predicate token swallows. -/
def Sealed (t : Str) : Prop := EndsSemi t ∧ ¬ ['P', ';'] <:+ t ∧ ¬ ['p', ';'] <:+ t

theorem EndsSemi.ne {t : Str} (h : EndsSemi t) : t ≠ [] := by
  rintro rfl
  simp [EndsSemi] at h

theorem EndsSemi.suffix {t u : Str} (h : EndsSemi t) (hu : u <:+ t) (hn : u ≠ []) : EndsSemi u := by
  obtain ⟨x, rfl⟩ := hu
  unfold EndsSemi at h ⊢
  rw [List.getLast?_append] at h
  cases hu : u.getLast? with
  | none => exact absurd (List.getLast?_eq_none_iff.mp hu) hn
  | some x => simpa [hu] using h

theorem EndsSemi.tail {c : Char} {t : Str} (h : EndsSemi (c :: t)) (hn : t ≠ []) : EndsSemi t := h.suffix ⟨[c], rfl⟩ hn

theorem EndsSemi.tail_of_ne {c : Char} {t : Str} (h : EndsSemi (c :: t)) (hc : c ≠ ';') : EndsSemi t := by
  refine h.tail ?_
  rintro rfl
  simp only [EndsSemi, List.getLast?_singleton, Option.some.injEq] at h
  exact hc h

theorem Sealed.suffix {t u : Str} (h : Sealed t) (hu : u <:+ t) (hn : u ≠ []) : Sealed u :=
  ⟨h.1.suffix hu hn, fun h' => h.2.1 (h'.trans hu), fun h' => h.2.2 (h'.trans hu)⟩

/-- The same cursor in the continued text. -/
def Cur.ext (r : Str) (c : Cur) : Cur := ⟨c.text ++ r, c.line, c.col⟩

variable {r : Str}

theorem Cur.peek_ext {c : Cur} (h : c.text ≠ []) : (c.ext r).peek = c.peek := by
  obtain ⟨t, l, k⟩ := c
  cases t with
  | nil => simp at h
  | cons a t => rfl

theorem Cur.next_ext {c : Cur} (h : c.text ≠ []) : (c.ext r).next = c.next.map (Cur.ext r) := by
  obtain ⟨t, l, k⟩ := c
  cases t with
  | nil => simp at h
  | cons a t => rfl

theorem skipWhile_ext {p : Char → Bool} (hp : p ';' = false) {t : Str} {l k : Nat} (h : EndsSemi t) :
    skipWhile p (t ++ r) l k = (skipWhile p t l k).ext r ∧ EndsSemi (skipWhile p t l k).text := by
  induction t generalizing l k with
  | nil => exact absurd rfl h.ne
  | cons a t ih =>
    simp only [List.cons_append, skipWhile]
    split
    · next hpa =>
      exact ih (h.tail_of_ne (by rintro rfl; simp [hp] at hpa))
    · exact ⟨rfl, h⟩

theorem Cur.skip_ext {p : Char → Bool} (hp : p ';' = false) {c : Cur} (h : EndsSemi c.text) : (c.ext r).skip p = (c.skip p).ext r :=
  (skipWhile_ext hp h).1

theorem Cur.skip_ends {p : Char → Bool} (hp : p ';' = false) {c : Cur} (h : EndsSemi c.text) : EndsSemi (c.skip p).text :=
  (skipWhile_ext (r := []) hp h).2

theorem between_ext (a b : Str) : between (a ++ r) (b ++ r) = between a b := by
  unfold between
  rw [List.length_append, List.length_append, Nat.add_sub_add_right]
  exact List.take_append_of_le_length (Nat.sub_le _ _)

theorem takeWhile_ext {p : Char → Bool} (hp : p ';' = false) {t : Str} (h : EndsSemi t) : (t ++ r).takeWhile p = t.takeWhile p := by
  induction t with
  | nil => exact absurd rfl h.ne
  | cons a t ih =>
    simp only [List.cons_append, List.takeWhile_cons]
    split
    · next hpa => rw [ih (h.tail_of_ne (by rintro rfl; simp [hp] at hpa))]
    · rfl

theorem dropWhile_ext {p : Char → Bool} (hp : p ';' = false) {t : Str} (h : EndsSemi t) : (t ++ r).dropWhile p = t.dropWhile p ++ r := by
  induction t with
  | nil => exact absurd rfl h.ne
  | cons a t ih =>
    simp only [List.cons_append, List.dropWhile_cons]
    split
    · next hpa => rw [ih (h.tail_of_ne (by rintro rfl; simp [hp] at hpa))]
    · rfl

theorem dropWhile_ends {p : Char → Bool} (hp : p ';' = false) {t : Str} (h : EndsSemi t) : EndsSemi (t.dropWhile p) := by
  refine h.suffix (List.dropWhile_suffix p) ?_
  induction t with
  | nil => exact absurd rfl h.ne
  | cons a t ih =>
    simp only [List.dropWhile_cons]
    split
    · next hpa => exact ih (h.tail_of_ne (by rintro rfl; simp [hp] at hpa))
    · simp

theorem digit_semicolon {b : Nat} : isDigitOf b ';' = false := by
  have : digitVal ';' = none := by decide
  simp [isDigitOf, this]

theorem strtollBase_ext {b : Nat} {t : Str} (h : EndsSemi t) :
    strtollBase b (t ++ r) = ((strtollBase b t).1, (strtollBase b t).2 ++ r) ∧ EndsSemi (strtollBase b t).2 := by
  unfold strtollBase
  by_cases hb : b = 0
  · simp only [hb, if_true]
    match t, h with
    | [], h => exact absurd rfl h.ne
    | [x], h =>
      simp only [EndsSemi, List.getLast?_singleton, Option.some.injEq] at h
      subst h
      exact ⟨rfl, rfl⟩
    | [x, y], h =>
      have hy : y = ';' := by simpa [EndsSemi] using h
      subst hy
      by_cases hx : x = '0'
      · subst hx
        cases r with
        | nil => exact ⟨rfl, h⟩
        | cons z zs =>
          simp only [List.cons_append, List.nil_append]
          rw [if_neg (by rintro ⟨h' | h', -⟩ <;> simp at h')]
          exact ⟨rfl, h⟩
      · simp only [List.cons_append]
        split <;> simp_all
    | x :: y :: z :: t, h =>
      simp only [List.cons_append]
      by_cases hx : x = '0'
      · subst hx
        change (if (y = 'x' ∨ y = 'X') ∧ isDigitOf 16 z = true then (16, z :: (t ++ r)) else (8, '0' :: y :: z :: (t ++ r)) : Nat × Str) =
          ((if (y = 'x' ∨ y = 'X') ∧ isDigitOf 16 z = true then (16, z :: t) else (8, '0' :: y :: z :: t) : Nat × Str).1, (if (y = 'x' ∨ y = 'X') ∧ isDigitOf 16 z = true then (16, z :: t) else (8, '0' :: y :: z :: t) : Nat × Str).2 ++ r) ∧
          EndsSemi (if (y = 'x' ∨ y = 'X') ∧ isDigitOf 16 z = true then (16, z :: t) else (8, '0' :: y :: z :: t) : Nat × Str).2
        split
        · exact ⟨rfl, h.suffix ⟨['0', y], rfl⟩ (by simp)⟩
        · exact ⟨rfl, h⟩
      · split <;> simp_all
  · simp only [hb, if_false]
    exact ⟨trivial, h⟩

theorem strtollDigits_ext {b : Nat} {n : Bool} {t : Str} (h : EndsSemi t) :
    strtollDigits b n (t ++ r) = (strtollDigits b n t).map fun p => (p.1, p.2 ++ r) := by
  obtain ⟨h1, h2⟩ := strtollBase_ext (r := r) (b := b) h
  unfold strtollDigits
  rw [h1]
  dsimp only
  rw [takeWhile_ext digit_semicolon h2, dropWhile_ext digit_semicolon h2]
  split <;> rfl

theorem strtoll_ext {b : Nat} {t : Str} (h : EndsSemi t) :
    strtoll b (t ++ r) = ((strtoll b t).1, (strtoll b t).2 ++ r) := by
  have h1 : EndsSemi (t.dropWhile isSpaceC) := dropWhile_ends (by decide) h
  unfold strtoll
  rw [dropWhile_ext (by decide) h]
  generalize t.dropWhile isSpaceC = u at h1
  have hf : ∀ o : Option (Int × Str), (o.map fun p => (p.1, p.2 ++ r)).getD (0, t ++ r) = ((o.getD (0, t)).1, (o.getD (0, t)).2 ++ r) := by
    rintro (_ | p) <;> rfl
  match u, h1 with
  | [], h1 => exact absurd rfl h1.ne
  | x :: u, h1 =>
    by_cases hm : x = '-'
    · subst hm
      simp only [List.cons_append]
      rw [strtollDigits_ext (h1.tail_of_ne (by decide)), hf]
    by_cases hp : x = '+'
    · subst hp
      simp only [List.cons_append]
      rw [strtollDigits_ext (h1.tail_of_ne (by decide)), hf]
    simp only [List.cons_append]
    split
    · simp_all
    · simp_all
    split
    · simp_all
    · simp_all
    rw [← List.cons_append, strtollDigits_ext h1, hf]

theorem strtof_ext {t : Str} (h : EndsSemi t) : strtof (t ++ r) = ((strtof t).1, (strtof t).2 ++ r) := by
  have key : ∀ (n : Bool) (s1 s : Str), EndsSemi s1 →
      (match (s1 ++ r).dropWhile isDecimal with
      | '.' :: u =>
        if (s1 ++ r).takeWhile isDecimal = [] ∧ u.takeWhile isDecimal = [] then (0#32, s ++ r)
        else (f32OfRat n (digitsVal 10 ((s1 ++ r).takeWhile isDecimal ++ u.takeWhile isDecimal)) (10 ^ (u.takeWhile isDecimal).length), u.dropWhile isDecimal)
      | _ => if (s1 ++ r).takeWhile isDecimal = [] then (0#32, s ++ r)
        else (f32OfRat n (digitsVal 10 ((s1 ++ r).takeWhile isDecimal)) 1, (s1 ++ r).dropWhile isDecimal)) =
      ((match s1.dropWhile isDecimal with
      | '.' :: u =>
        if s1.takeWhile isDecimal = [] ∧ u.takeWhile isDecimal = [] then (0#32, s)
        else (f32OfRat n (digitsVal 10 (s1.takeWhile isDecimal ++ u.takeWhile isDecimal)) (10 ^ (u.takeWhile isDecimal).length), u.dropWhile isDecimal)
      | _ => if s1.takeWhile isDecimal = [] then (0#32, s)
        else (f32OfRat n (digitsVal 10 (s1.takeWhile isDecimal)) 1, s1.dropWhile isDecimal)).1,
      (match s1.dropWhile isDecimal with
      | '.' :: u =>
        if s1.takeWhile isDecimal = [] ∧ u.takeWhile isDecimal = [] then (0#32, s)
        else (f32OfRat n (digitsVal 10 (s1.takeWhile isDecimal ++ u.takeWhile isDecimal)) (10 ^ (u.takeWhile isDecimal).length), u.dropWhile isDecimal)
      | _ => if s1.takeWhile isDecimal = [] then (0#32, s)
        else (f32OfRat n (digitsVal 10 (s1.takeWhile isDecimal)) 1, s1.dropWhile isDecimal)).2 ++ r) := by
    intro n s1 s h1
    rw [dropWhile_ext (by decide) h1, takeWhile_ext (by decide) h1]
    have h2 := dropWhile_ends (p := isDecimal) (by decide) h1
    generalize s1.dropWhile isDecimal = u at h2
    match u, h2 with
    | [], h2 => exact absurd rfl h2.ne
    | x :: u, h2 =>
      by_cases hx : x = '.'
      · subst hx
        have h3 := h2.tail_of_ne (by decide)
        simp only [List.cons_append]
        rw [takeWhile_ext (by decide) h3, dropWhile_ext (by decide) h3]
        split <;> rfl
      · simp only [List.cons_append]
        split
        · simp_all
        split
        · simp_all
        split <;> simp_all
  match t, h with
  | [], h => exact absurd rfl h.ne
  | x :: t, h =>
    by_cases hm : x = '-'
    · subst hm
      exact key true t ('-' :: t) (h.tail_of_ne (by decide))
    by_cases hp : x = '+'
    · subst hp
      exact key false t ('+' :: t) (h.tail_of_ne (by decide))
    have e : ∀ y : Str, Nxas.strtof.match_1 (motive := fun _ => Str) (x :: y) (fun t => t) (fun t => t) (fun _ => x :: y) = x :: y := by
      intro y
      split <;> simp_all
    have hd : decide (List.head? (x :: t) = some '-') = false := by simp [hm]
    have hd' : decide (List.head? (x :: (t ++ r)) = some '-') = false := by simp [hm]
    unfold strtof
    simp only [List.cons_append]
    rw [hd, hd', e, e]
    exact key false (x :: t) (x :: t) h

/-- The result of reading a token in the continued text: only after undefined behaviour in the first text anything is possible. -/
def TokExt (r : Str) : TokRes → TokRes → Prop
  | .ok t c, y => y = .ok t (c.ext r) ∧ (c.text = [] → t.kind = .semicolon)
  | .exit e, y => y = .exit e
  | .ub _, _ => True

theorem length_ext {a b : Str} : ((a ++ r).length ≠ (b ++ r).length) = (a.length ≠ b.length) := by
  simp

theorem lexNumber_ext {c : Cur} (h : EndsSemi c.text) : TokExt r (lexNumber c) (lexNumber (c.ext r)) := by
  have e1 := Cur.skip_ext (r := r) (p := fun ch => isDecimal ch || isContained c!"+-" ch || isHexish ch) (by decide) h
  have h1 := Cur.skip_ends (p := fun ch => isDecimal ch || isContained c!"+-" ch || isHexish ch) (by decide) h
  unfold lexNumber
  dsimp only
  rw [e1]
  generalize c.skip (fun ch => isDecimal ch || isContained c!"+-" ch || isHexish ch) = c1 at h1
  rw [Cur.peek_ext h1.ne]
  have hb : between (c.ext r).text (c1.ext r).text = between c.text c1.text := between_ext _ _
  rw [hb]
  split
  · rfl
  by_cases hf : c1.peek = '.'
  · simp only [hf, decide_true, if_true, Cur.next_ext h1.ne]
    obtain ⟨t1, l1, k1⟩ := c1
    cases t1 with
    | nil => exact absurd rfl h1.ne
    | cons x t1 =>
      have hx : x = '.' := hf
      subst hx
      have h2 := h1.tail_of_ne (by decide)
      simp only [Cur.next, Option.map_some]
      rw [Cur.skip_ext (by decide) (by exact h2)]
      have h3 := Cur.skip_ends (p := isDecimal) (c := ⟨t1, nextLine '.' l1, nextCol '.' k1⟩) (by decide) h2
      generalize Cur.skip isDecimal ⟨t1, nextLine '.' l1, nextCol '.' k1⟩ = c2 at h3
      rw [Cur.peek_ext h3.ne]
      split
      · rfl
      have e : strtof (c.ext r).text = ((strtof c.text).1, (strtof c.text).2 ++ r) := strtof_ext h
      rw [e]
      have eb : between (c.ext r).text (c2.ext r).text = between c.text c2.text := between_ext _ _
      rw [eb]
      simp only [Cur.ext, length_ext]
      split
      · rfl
      · exact ⟨rfl, fun h' => absurd h' h3.ne⟩
  · simp only [hf, decide_false, if_false, Bool.false_eq_true]
    rw [Cur.peek_ext h1.ne]
    split
    · rfl
    have e : strtoll 0 (c.ext r).text = ((strtoll 0 c.text).1, (strtoll 0 c.text).2 ++ r) := strtoll_ext h
    rw [e, hb]
    simp only [Cur.ext, length_ext]
    split
    · rfl
    · exact ⟨rfl, fun h' => absurd h' h1.ne⟩

/-- The same for the branches that fall through; the identifier branch then finds a character that is not the last semicolon. -/
def StepExt (r : Str) : LexStep → LexStep → Prop
  | .done x, y => ∃ x', y = .done x' ∧ TokExt r x x'
  | .fall c, y => y = .fall (c.ext r) ∧ EndsSemi c.text ∧ c.text ≠ [';']

theorem StepExt.exit {e : Err} : StepExt r (.done (.exit e)) (.done (.exit e)) := ⟨_, rfl, rfl⟩

theorem lexRegister_ext {c : Cur} (h : EndsSemi c.text) (hp : c.peek = 'R') : StepExt r (lexRegister c) (lexRegister (c.ext r)) := by
  obtain ⟨t, l, k⟩ := c
  cases t with
  | nil => exact absurd rfl h.ne
  | cons x t =>
    have hx : x = 'R' := hp
    subst hx
    have h1 := h.tail_of_ne (by decide)
    unfold lexRegister
    dsimp only
    rw [Cur.next_ext (by simp)]
    simp only [Cur.next, Option.map_some]
    rw [Cur.peek_ext h1.ne]
    split
    · next hz =>
      cases t with
      | nil => exact absurd rfl h1.ne
      | cons y t =>
        have hy : y = 'Z' := hz
        subst hy
        have h2 := h1.tail_of_ne (by decide)
        dsimp only [Cur.ext, List.cons_append]
        have e : (⟨t ++ r, nextLine 'Z' (nextLine 'R' l), nextCol 'Z' (nextCol 'R' k)⟩ : Cur) =
          Cur.ext r ⟨t, nextLine 'Z' (nextLine 'R' l), nextCol 'Z' (nextCol 'R' k)⟩ := rfl
        rw [e, Cur.peek_ext h2.ne]
        split
        · exact .exit
        · exact ⟨_, rfl, rfl, fun h' => absurd h' h2.ne⟩
    · rw [Cur.skip_ext (by decide) h1]
      have h3 := Cur.skip_ends (p := fun ch => !isSeparator ch && isDecimal ch) (c := ⟨t, nextLine 'R' l, nextCol 'R' k⟩) (by decide) h1
      generalize Cur.skip (fun ch => !isSeparator ch && isDecimal ch) ⟨t, nextLine 'R' l, nextCol 'R' k⟩ = c2 at h3
      rw [Cur.peek_ext h3.ne]
      split
      · next hs =>
        refine ⟨rfl, h3, fun h' => ?_⟩
        simp only [Cur.peek, h', List.headD_cons] at hs
        revert hs
        decide
      · have e : strtoll 10 (Cur.ext r ⟨t, nextLine 'R' l, nextCol 'R' k⟩).text = ((strtoll 10 t).1, (strtoll 10 t).2 ++ r) := strtoll_ext h1
        rw [e]
        have eb : between (Cur.ext r ⟨'R' :: t, l, k⟩).text (c2.ext r).text = between ('R' :: t) c2.text := between_ext _ _
        rw [eb]
        simp only [Cur.ext, length_ext]
        split
        · exact .exit
        split
        · exact .exit
        · exact ⟨_, rfl, rfl, fun h' => absurd h' h3.ne⟩

/-- The predicate branch after `!`. -/
theorem lexPredicate_ext {c : Cur} (h : Sealed c.text) (hp : isContained c!"!Pp" c.peek = true) :
    StepExt r (lexPredicate c) (lexPredicate (c.ext r)) := by
  have tail : ∀ (neg : Bool) (c1 : Cur), Sealed c1.text → (c1.peek = 'P' ∨ c1.peek = 'p') →
      StepExt r (match c1.next with
        | none => .done (.ub .readPastEnd)
        | some c2 =>
          match (if isContained c!"Tt" c2.peek then some 7 else if isDecimal c2.peek then some (c2.peek.toNat - '0'.toNat) else none : Option Nat) with
          | none => .fall c2
          | some idx =>
            match c2.next with
            | none => .done (.ub .readPastEnd)
            | some c3 =>
              if isSeparator c3.peek then
                if (!isContained c!"Tt" c2.peek && idx > 6 : Bool) then .done (.exit ⟨c.line, c.col, "out of range predicate"⟩)
                else .done (.ok ⟨.pred idx neg, c.line, c.col⟩ c3)
              else .fall c3)
        (match (c1.ext r).next with
        | none => .done (.ub .readPastEnd)
        | some c2 =>
          match (if isContained c!"Tt" c2.peek then some 7 else if isDecimal c2.peek then some (c2.peek.toNat - '0'.toNat) else none : Option Nat) with
          | none => .fall c2
          | some idx =>
            match c2.next with
            | none => .done (.ub .readPastEnd)
            | some c3 =>
              if isSeparator c3.peek then
                if (!isContained c!"Tt" c2.peek && idx > 6 : Bool) then .done (.exit ⟨c.line, c.col, "out of range predicate"⟩)
                else .done (.ok ⟨.pred idx neg, c.line, c.col⟩ c3)
              else .fall c3) := by
    rintro neg ⟨t, l, k⟩ h1 hpp
    cases t with
    | nil => exact absurd rfl h1.1.ne
    | cons x t =>
      have hx : x = 'P' ∨ x = 'p' := hpp
      have h2 : EndsSemi t := h1.1.tail_of_ne (by rcases hx with rfl | rfl <;> decide)
      have h2' : t ≠ [';'] := by
        rintro rfl
        rcases hx with rfl | rfl
        · exact h1.2.1 List.suffix_rfl
        · exact h1.2.2 List.suffix_rfl
      rw [Cur.next_ext (by simp)]
      simp only [Cur.next, Option.map_some]
      rw [Cur.peek_ext h2.ne]
      split
      · exact ⟨rfl, h2, h2'⟩
      · next idx hi =>
        cases t with
        | nil => exact absurd rfl h2.ne
        | cons y t =>
          have h3 : EndsSemi t := by
            refine h2.tail_of_ne ?_
            rintro rfl
            simp [Cur.peek, isContained, isDecimal] at hi
          dsimp only [Cur.ext, List.cons_append]
          have e : (⟨t ++ r, nextLine y (nextLine x l), nextCol y (nextCol x k)⟩ : Cur) =
            Cur.ext r ⟨t, nextLine y (nextLine x l), nextCol y (nextCol x k)⟩ := rfl
          rw [e, Cur.peek_ext h3.ne]
          split
          · split
            · exact .exit
            · exact ⟨_, rfl, rfl, fun h' => absurd h' h3.ne⟩
          · next hs =>
            refine ⟨rfl, h3, fun h' => ?_⟩
            simp only at h'
            subst h'
            exact hs rfl
  have hne := h.1.ne
  unfold lexPredicate
  dsimp only
  rw [Cur.peek_ext hne]
  by_cases hneg : c.peek = '!'
  · simp only [hneg, decide_true, if_true, Cur.next_ext hne, Bool.true_and]
    obtain ⟨t, l, k⟩ := c
    cases t with
    | nil => exact absurd rfl hne
    | cons x t =>
      have hx : x = '!' := hneg
      subst hx
      have h1 := h.1.tail_of_ne (by decide)
      simp only [Cur.next, Option.map_some]
      rw [Cur.peek_ext h1.ne]
      split
      · exact .exit
      · next hc =>
        refine tail true ⟨t, nextLine '!' l, nextCol '!' k⟩ (h.suffix ⟨['!'], rfl⟩ h1.ne) ?_
        by_cases hq : (⟨t, nextLine '!' l, nextCol '!' k⟩ : Cur).peek = 'P'
        · exact .inl hq
        · exact .inr (by simpa [isContained, hq] using hc)
  · simp only [hneg, decide_false, if_false, Bool.false_and, Bool.false_eq_true]
    refine tail false c h ?_
    simpa [isContained, hneg] using hp

theorem semicolon_operator {ch : Char} (h : ch = ';') : isOperator ch = true ∧ isContained c!"+-" ch = false := by
  subst h
  decide

theorem lexHead_ext {c : Cur} (h : Sealed c.text) : StepExt r (lexHead c) (lexHead (c.ext r)) := by
  have hne := h.1.ne
  unfold lexHead
  dsimp only
  rw [Cur.peek_ext hne]
  by_cases hs : c.peek = ';'
  · obtain ⟨h1, h2⟩ := semicolon_operator hs
    simp only [h1, h2, Bool.not_false, Bool.true_or, Bool.and_self, if_true]
    obtain ⟨t, l, k⟩ := c
    cases t with
    | nil => exact absurd rfl hne
    | cons x t =>
      have hx : x = ';' := hs
      subst hx
      exact ⟨_, rfl, rfl, fun _ => rfl⟩
  · have h1 : (c.ext r).peek1 = c.peek1 := by
      obtain ⟨t, l, k⟩ := c
      match t, hs, h with
      | [], _, h => exact absurd rfl h.1.ne
      | [x], hs, h =>
        have : x = ';' := by simpa [EndsSemi] using h.1
        exact absurd this hs
      | x :: y :: t, _, _ => rfl
    have hnext : ∃ c1, c.next = some c1 ∧ EndsSemi c1.text ∧ (c.ext r).next = some (c1.ext r) := by
      obtain ⟨t, l, k⟩ := c
      cases t with
      | nil => exact absurd rfl hne
      | cons x t => exact ⟨_, rfl, h.1.tail_of_ne hs, rfl⟩
    rw [h1]
    split
    · obtain ⟨c1, e1, h2, e2⟩ := hnext
      rw [e1, e2]
      exact ⟨_, rfl, rfl, fun h' => absurd h' h2.ne⟩
    split
    · next hp => exact lexPredicate_ext h hp
    split
    · exact ⟨_, rfl, lexNumber_ext h.1⟩
    split
    · next hR => exact lexRegister_ext h.1 hR
    · refine ⟨rfl, h.1, fun h' => hs ?_⟩
      simp [Cur.peek, h']

/-- The identifier branch in the continued text. -/
theorem lexIdent_ext {start : Str} {c : Cur} (h : EndsSemi c.text) (hn : c.text ≠ [';']) :
    (∃ s c2, lexIdent start c = .ident s c2 ∧ EndsSemi c2.text ∧ lexIdent (start ++ r) (c.ext r) = .ident s (c2.ext r)) ∨
    (∃ c2, lexIdent start c = .label c2 ∧ EndsSemi c2.text ∧ lexIdent (start ++ r) (c.ext r) = .label (c2.ext r)) := by
  obtain ⟨t, l, k⟩ := c
  cases t with
  | nil => exact absurd rfl h.ne
  | cons x t =>
    have h1 : EndsSemi t := by
      refine h.tail ?_
      rintro rfl
      have : x = ';' := by simpa [EndsSemi] using h
      exact hn (by rw [this])
    unfold lexIdent
    rw [Cur.next_ext (by simp)]
    simp only [Cur.next, Option.map_some]
    rw [Cur.skip_ext (by decide) (by exact h1)]
    have h2 := Cur.skip_ends (p := fun ch => !isSeparator ch) (c := ⟨t, nextLine x l, nextCol x k⟩) (by decide) h1
    generalize Cur.skip (fun ch => !isSeparator ch) ⟨t, nextLine x l, nextCol x k⟩ = c2 at h2
    have eb : between (start ++ r) (c2.ext r).text = between start c2.text := between_ext _ _
    rw [eb]
    by_cases hl : (between start c2.text).getLast? = some ':'
    · simp only [hl, if_true]
      exact .inr ⟨c2, rfl, h2, rfl⟩
    · simp only [hl, if_false]
      exact .inl ⟨_, c2, rfl, h2, rfl⟩

theorem tokenizeAux_ext {n : Nat} {c : Cur} (h : Sealed c.text) {x : TokRes} (hx : tokenizeAux n c = some x) :
    ∃ y, tokenizeAux n (c.ext r) = some y ∧ TokExt r x y := by
  induction n generalizing c with
  | zero => simp [tokenizeAux] at hx
  | succ n ih =>
    unfold tokenizeAux at hx ⊢
    dsimp only at hx ⊢
    have hsuf := (Cur.skip_reach isBlank c).suffix
    rw [Cur.skip_ext (by decide) h.1]
    have h1 := h.suffix hsuf (Cur.skip_ends (by decide) h.1).ne
    generalize c.skip isBlank = d at h1 hx hsuf
    rw [if_neg h1.1.ne] at hx
    rw [if_neg (by simp [Cur.ext, h1.1.ne])]
    have hh := lexHead_ext (r := r) h1
    cases hd : lexHead d with
    | done z =>
      rw [hd] at hh hx
      obtain ⟨y, hy, hz⟩ := hh
      simp only [Option.some.injEq] at hx
      subst hx
      exact ⟨y, by rw [hy], hz⟩
    | fall c1 =>
      rw [hd] at hh hx
      obtain ⟨e, h2, h3⟩ := hh
      rw [e]
      dsimp only at hx ⊢
      rcases lexIdent_ext (r := r) (start := d.text) h2 h3 with ⟨s, c2, e1, h4, e2⟩ | ⟨c2, e1, h4, e2⟩
      · rw [e1] at hx
        have e2' : lexIdent (d.ext r).text (c1.ext r) = _ := e2
        rw [e2']
        simp only [Option.some.injEq] at hx
        subst hx
        exact ⟨_, rfl, rfl, fun h' => absurd h' h4.ne⟩
      · rw [e1] at hx
        have e2' : lexIdent (d.ext r).text (c1.ext r) = _ := e2
        rw [e2']
        exact ih (h1.suffix ((lexHead_fall hd).trans (lexIdent_step (.inl e1)).1).suffix h4.ne) hx

theorem tokenize_ext {c : Cur} (h : Sealed c.text) : TokExt r (tokenize c) (tokenize (c.ext r)) := by
  obtain ⟨y, h1, h2⟩ := tokenizeAux_ext (r := r) h (tokenize_eq (c := c))
  rwa [Option.some.inj ((tokenizeAux_mono h1 _ (by simp [Cur.ext])).symm.trans (tokenize_eq (c := c.ext r)))] at h2

end Nxas
