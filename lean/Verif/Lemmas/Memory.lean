import Verif.Model.Memory
import Verif.Lemmas.Scan
/-
What is behind a NUL does not matter to the branches of the lexer that do not step over it.
-/

namespace Nxas

/-- Empty, or behind a NUL. -/
def Tail (z : Str) : Prop := z.headD '\x00' = '\x00'

theorem Tail.cases {z : Str} (h : Tail z) : z = [] ∨ ∃ w, z = '\x00' :: w := by
  cases z with
  | nil => exact .inl rfl
  | cons c w => exact .inr ⟨w, by rw [show c = '\x00' from h]⟩

/-- The cursor in the whole buffer. -/
def Cur.plus (c : Cur) (z : Str) : Cur := ⟨c.text ++ z, c.line, c.col⟩

def TokRes.plus (z : Str) : TokRes → TokRes
  | .ok t c => .ok t (c.plus z)
  | r => r

section
variable {z : Str} (hz : Tail z)
include hz

theorem peek_plus (c : Cur) : (c.plus z).peek = c.peek := by
  obtain ⟨t, l, k⟩ := c
  cases t with
  | nil => exact hz
  | cons => rfl

theorem peek1_plus {c : Cur} (h : c.text ≠ []) : (c.plus z).peek1 = c.peek1 := by
  obtain ⟨t, l, k⟩ := c
  cases t with
  | nil => exact absurd rfl h
  | cons a t =>
    cases t with
    | nil => exact hz
    | cons => rfl

omit hz in
theorem next_plus {c c' : Cur} (h : c.next = some c') : (c.plus z).next = some (c'.plus z) := by
  obtain ⟨t, l, k⟩ := c
  cases t with
  | nil => cases h
  | cons a t => cases h; rfl

theorem skipWhile_plus {p : Char → Bool} (hp : p '\x00' = false) (t : Str) (l k : Nat) :
    skipWhile p (t ++ z) l k = (skipWhile p t l k).plus z := by
  induction t generalizing l k with
  | nil =>
    rcases hz.cases with rfl | ⟨w, rfl⟩
    · rfl
    · simp [skipWhile, hp, Cur.plus]
  | cons a t ih =>
    simp only [List.cons_append, skipWhile]
    split
    · exact ih _ _
    · rfl

theorem skip_plus {p : Char → Bool} (hp : p '\x00' = false) (c : Cur) : (c.plus z).skip p = (c.skip p).plus z := skipWhile_plus hz hp _ _ _

omit hz in
theorem between_plus {a b : Str} (h : b.length ≤ a.length) : between (a ++ z) (b ++ z) = between a b := by
  unfold between
  rw [List.length_append, List.length_append, Nat.add_sub_add_right, List.take_append_of_le_length (by omega)]

theorem takeWhile_plus {p : Char → Bool} (hp : p '\x00' = false) (t : Str) : (t ++ z).takeWhile p = t.takeWhile p := by
  induction t with
  | nil =>
    rcases hz.cases with rfl | ⟨w, rfl⟩
    · rfl
    · simp [hp]
  | cons a t ih =>
    rw [List.cons_append, List.takeWhile_cons, List.takeWhile_cons, ih]

theorem dropWhile_plus {p : Char → Bool} (hp : p '\x00' = false) (t : Str) : (t ++ z).dropWhile p = t.dropWhile p ++ z := by
  induction t with
  | nil =>
    rcases hz.cases with rfl | ⟨w, rfl⟩
    · rfl
    · simp [hp]
  | cons a t ih =>
    rw [List.cons_append, List.dropWhile_cons, List.dropWhile_cons]
    split
    · exact ih
    · rfl

theorem strtollBase_plus (b : Nat) (t : Str) : strtollBase b (t ++ z) = ((strtollBase b t).1, (strtollBase b t).2 ++ z) := by
  have h0 : isDigitOf 16 '\x00' = false := by decide
  unfold strtollBase
  split
  · rcases hz.cases with rfl | ⟨w, rfl⟩
    · simp
    · match t with
      | [] => rfl
      | [a] =>
        by_cases ha : a = '0'
        · subst ha
          cases w with
          | nil => rfl
          | cons d w => simp
        · simp only [List.singleton_append]
          split
          · simp_all
          · simp_all
          · split <;> simp_all
      | [a, x] =>
        by_cases ha : a = '0'
        · subst ha
          simp [h0]
        · simp only [List.cons_append, List.nil_append]
          split
          · simp_all
          · simp_all
          · split <;> simp_all
      | a :: x :: d :: t =>
        by_cases ha : a = '0'
        · subst ha
          simp only [List.cons_append]
          split <;> simp
        · simp only [List.cons_append]
          split
          · simp_all
          · simp_all
          · split <;> simp_all
  · rfl

theorem strtollDigits_plus (b : Nat) (neg : Bool) (t : Str) :
    strtollDigits b neg (t ++ z) = (strtollDigits b neg t).map fun r => (r.1, r.2 ++ z) := by
  unfold strtollDigits
  rw [strtollBase_plus hz]
  dsimp only
  rw [takeWhile_plus hz rfl, dropWhile_plus hz rfl]
  split <;> rfl

theorem strtoll_plus (b : Nat) (t : Str) : strtoll b (t ++ z) = ((strtoll b t).1, (strtoll b t).2 ++ z) := by
  unfold strtoll
  dsimp only
  rw [dropWhile_plus hz (by decide)]
  have fin : ∀ (o : Option (Int × Str)), (o.map fun r => (r.1, r.2 ++ z)).getD (0, t ++ z) = ((o.getD (0, t)).1, (o.getD (0, t)).2 ++ z) := by
    intro o; cases o <;> rfl
  generalize List.dropWhile isSpaceC t = u
  cases u with
  | nil =>
    have h := strtollDigits_plus hz b false []
    rcases hz.cases with rfl | ⟨w, rfl⟩
    · simp
    · refine Eq.trans (congrArg (fun o => Option.getD o _) h) (fin _)
  | cons a u =>
    by_cases h1 : a = '-'
    · subst h1; exact Eq.trans (congrArg (fun o => Option.getD o _) (strtollDigits_plus hz b true u)) (fin _)
    · by_cases h2 : a = '+'
      · subst h2; exact Eq.trans (congrArg (fun o => Option.getD o _) (strtollDigits_plus hz b false u)) (fin _)
      · have h := strtollDigits_plus hz b false (a :: u)
        have hm : ∀ v : Str, (match a :: v with
          | '-' :: t => strtollDigits b true t
          | '+' :: t => strtollDigits b false t
          | _ => strtollDigits b false (a :: v)) = strtollDigits b false (a :: v) := by
          intro v
          split <;> simp_all
        simp only [List.cons_append] at h ⊢
        split
        · simp_all
        · simp_all
        · rw [h]
          split
          · simp_all
          · simp_all
          · exact fin _

omit hz in
/-- The part of `strtof` after the sign. -/
def strtofCore (neg : Bool) (s s1 : Str) : BitVec 32 × Str :=
  let ip := s1.takeWhile isDecimal
  let s2 := s1.dropWhile isDecimal
  match s2 with
  | '.' :: t =>
    let fp := t.takeWhile isDecimal
    if ip = [] ∧ fp = [] then (0#32, s)
    else
      (f32OfRat neg (digitsVal 10 (ip ++ fp)) (10 ^ fp.length), t.dropWhile isDecimal)
  | _ =>
    if ip = [] then (0#32, s) else (f32OfRat neg (digitsVal 10 ip) 1, s2)

theorem strtofCore_plus (neg : Bool) (s u : Str) : strtofCore neg (s ++ z) (u ++ z) = ((strtofCore neg s u).1, (strtofCore neg s u).2 ++ z) := by
  unfold strtofCore
  dsimp only
  rw [takeWhile_plus hz (by decide), dropWhile_plus hz (by decide)]
  generalize List.dropWhile isDecimal u = v
  cases v with
  | nil =>
    rcases hz.cases with rfl | ⟨w, rfl⟩
    · simp
    · simp only [List.nil_append]
      split
      · simp_all
      · split <;> simp_all
  | cons a v =>
    by_cases h : a = '.'
    · subst h
      simp only [List.cons_append]
      rw [takeWhile_plus hz (by decide), dropWhile_plus hz (by decide)]
      split <;> rfl
    · simp only [List.cons_append]
      split
      · simp_all
      · split
        · split <;> simp_all
        · split <;> simp_all

theorem strtof_plus (t : Str) : strtof (t ++ z) = ((strtof t).1, (strtof t).2 ++ z) := by
  cases t with
  | nil =>
    rcases hz.cases with rfl | ⟨w, rfl⟩
    · rfl
    · exact strtofCore_plus (z := '\x00' :: w) hz false [] []
  | cons a u =>
    by_cases h1 : a = '-'
    · subst h1; exact strtofCore_plus hz true ('-' :: u) u
    · by_cases h2 : a = '+'
      · subst h2; exact strtofCore_plus hz false ('+' :: u) u
      · have hr : ∀ v : Str, strtof (a :: v) = strtofCore false (a :: v) (a :: v) := by
          intro v
          unfold strtof
          have hd : decide ((a :: v).head? = some '-') = false := by simp [h1]
          rw [hd]
          dsimp only
          split <;> simp_all [strtofCore]
        rw [List.cons_append, hr, hr]
        exact strtofCore_plus hz false (a :: u) (a :: u)

omit hz in
theorem skipWhile_length (p : Char → Bool) (t : Str) (l k : Nat) : (skipWhile p t l k).text.length ≤ t.length := by
  induction t generalizing l k with
  | nil => exact Nat.le_refl _
  | cons a t ih =>
    unfold skipWhile
    split
    · exact Nat.le_succ_of_le (ih _ _)
    · exact Nat.le_refl _

theorem lexNumber_plus {c : Cur} (hu : ∀ u, lexNumber c ≠ .ub u) : lexNumber (c.plus z) = (lexNumber c).plus z := by
  have hl : ∀ (p : Char → Bool) (d : Cur), (d.skip p).text.length ≤ d.text.length := fun p d => skipWhile_length p _ _ _
  unfold lexNumber at hu ⊢
  dsimp only at hu ⊢
  rw [skip_plus hz (by decide), peek_plus hz]
  have e1 : between (c.plus z).text ((c.skip fun ch => isDecimal ch || isContained c!"+-" ch || isHexish ch).plus z).text =
      between c.text (c.skip fun ch => isDecimal ch || isContained c!"+-" ch || isHexish ch).text := between_plus (hl _ _)
  rw [e1]
  have hle := hl (fun ch => isDecimal ch || isContained c!"+-" ch || isHexish ch) c
  generalize (c.skip fun ch => isDecimal ch || isContained c!"+-" ch || isHexish ch) = c1 at hu hle ⊢
  split
  · rfl
  · rename_i hh
    rw [if_neg hh] at hu
    have hnum : ∀ c2 : Cur, c2.text.length ≤ c.text.length →
        ((strtof (c.plus z).text).2.length ≠ (c2.plus z).text.length ↔ (strtof c.text).2.length ≠ c2.text.length) ∧
        ((strtoll 0 (c.plus z).text).2.length ≠ (c2.plus z).text.length ↔ (strtoll 0 c.text).2.length ≠ c2.text.length) ∧
        between (c.plus z).text (c2.plus z).text = between c.text c2.text ∧ (strtof (c.plus z).text).1 = (strtof c.text).1 ∧
        (strtoll 0 (c.plus z).text).1 = (strtoll 0 c.text).1 := by
      intro c2 h2
      refine ⟨?_, ?_, between_plus h2, ?_, ?_⟩
      · show (strtof (c.text ++ z)).2.length ≠ (c2.text ++ z).length ↔ _
        rw [strtof_plus hz]; simp
      · show (strtoll 0 (c.text ++ z)).2.length ≠ (c2.text ++ z).length ↔ _
        rw [strtoll_plus hz]; simp
      · show (strtof (c.text ++ z)).1 = _
        rw [strtof_plus hz]
      · show (strtoll 0 (c.text ++ z)).1 = _
        rw [strtoll_plus hz]
    by_cases hf : c1.peek = '.'
    · simp only [hf, decide_true, if_true] at hu ⊢
      cases hn : c1.next with
      | none => rw [hn] at hu; exact absurd rfl (hu .readPastEnd)
      | some c' =>
        rw [next_plus hn]
        simp only [Option.map_some]
        rw [skip_plus hz (by decide), peek_plus hz]
        have hc' : (c'.skip isDecimal).text.length ≤ c.text.length := by
          have h1 := hl isDecimal c'
          have h2 : c'.text.length ≤ c1.text.length := by
            unfold Cur.next at hn
            split at hn
            · cases hn
            · rename_i he
              cases hn
              rw [he]; simp
          omega
        obtain ⟨g1, g2, g3, g4, g5⟩ := hnum _ hc'
        split
        · rfl
        · simp only [g1, g3, g4]
          split <;> rfl
    · simp only [hf, decide_false, Bool.false_eq_true, if_false] at hu ⊢
      rw [peek_plus hz]
      obtain ⟨g1, g2, g3, g4, g5⟩ := hnum _ hle
      split
      · rfl
      · simp only [g2, g3, g5]
        split <;> rfl

def LexStep.plus (z : Str) : LexStep → LexStep
  | .done r => .done (r.plus z)
  | .fall c => .fall (c.plus z)

def IdentStep.plus (z : Str) : IdentStep → IdentStep
  | .ident s c => .ident s (c.plus z)
  | .label c => .label (c.plus z)
  | .ub => .ub

omit hz in
/-- `lexPredicate` after an exclamation mark, if any. -/
def lexPredicateTail (c c1 : Cur) (negated : Bool) : LexStep :=
  match c1.next with
  | none => .done (.ub .readPastEnd)
  | some c2 =>
    let isTrue : Bool := isContained c!"Tt" c2.peek
    let index : Option Nat :=
      if isTrue then some 7
      else if isDecimal c2.peek then some (c2.peek.toNat - '0'.toNat)
      else none
    match index with
    | none => .fall c2
    | some idx =>
      match c2.next with
      | none => .done (.ub .readPastEnd)
      | some c3 =>
        if isSeparator c3.peek then
          if !isTrue && idx > 6 then .done (.exit ⟨c.line, c.col, "out of range predicate"⟩)
          else .done (.ok ⟨.pred idx negated, c.line, c.col⟩ c3)
        else .fall c3

theorem lexPredicateTail_plus {c c1 : Cur} {n : Bool} (hu : ∀ u, lexPredicateTail c c1 n ≠ .done (.ub u)) :
    lexPredicateTail (c.plus z) (c1.plus z) n = (lexPredicateTail c c1 n).plus z := by
  unfold lexPredicateTail at hu ⊢
  cases h1 : c1.next with
  | none => rw [h1] at hu; exact absurd rfl (hu .readPastEnd)
  | some c2 =>
    rw [h1] at hu
    rw [next_plus h1]
    dsimp only at hu ⊢
    rw [peek_plus hz]
    generalize (if isContained c!"Tt" c2.peek then some 7 else if isDecimal c2.peek then some (c2.peek.toNat - '0'.toNat) else none) = o at hu ⊢
    cases o with
    | none => rfl
    | some idx =>
      dsimp only at hu ⊢
      cases h2 : c2.next with
      | none => rw [h2] at hu; exact absurd rfl (hu .readPastEnd)
      | some c3 =>
        rw [next_plus h2]
        dsimp only
        rw [peek_plus hz]
        split
        · split <;> rfl
        · rfl

theorem lexPredicate_plus {c : Cur} (hu : ∀ u, lexPredicate c ≠ .done (.ub u)) : lexPredicate (c.plus z) = (lexPredicate c).plus z := by
  have hpos : ∀ c : Cur, c.peek ≠ '!' → lexPredicate c = lexPredicateTail c c false := by
    intro c h
    unfold lexPredicate
    simp only [h, decide_false, Bool.false_eq_true, if_false, Bool.false_and]
    rfl
  have hneg : ∀ c : Cur, c.peek = '!' → lexPredicate c = match c.next with
      | none => .done (.ub .readPastEnd)
      | some c1 => if !isContained c!"Pp" c1.peek then .done (.exit ⟨c.line, c.col, "fatal: invalid usage of '!'\n"⟩) else lexPredicateTail c c1 true := by
    intro c h
    unfold lexPredicate
    simp only [h, decide_true, if_true, Bool.true_and]
    rfl
  by_cases hn : c.peek = '!'
  · rw [hneg _ hn] at hu ⊢
    rw [hneg _ (by rw [peek_plus hz]; exact hn)]
    cases h1 : c.next with
    | none => rw [h1] at hu; exact absurd rfl (hu .readPastEnd)
    | some c1 =>
      rw [h1] at hu
      rw [next_plus h1]
      dsimp only at hu ⊢
      rw [peek_plus hz]
      by_cases hp : (!isContained c!"Pp" c1.peek) = true
      · rw [if_pos hp, if_pos hp]; rfl
      · rw [if_neg hp] at hu
        rw [if_neg hp, if_neg hp]
        exact lexPredicateTail_plus hz hu
  · rw [hpos _ hn] at hu ⊢
    rw [hpos _ (by rw [peek_plus hz]; exact hn)]
    exact lexPredicateTail_plus hz hu

theorem lexRegister_plus {c : Cur} (hu : ∀ u, lexRegister c ≠ .done (.ub u)) : lexRegister (c.plus z) = (lexRegister c).plus z := by
  unfold lexRegister at hu ⊢
  dsimp only at hu ⊢
  cases h1 : c.next with
  | none => rw [h1] at hu; exact absurd rfl (hu .readPastEnd)
  | some c1 =>
    rw [h1] at hu
    rw [next_plus h1]
    dsimp only at hu ⊢
    rw [peek_plus hz]
    by_cases hz' : c1.peek = 'Z'
    · rw [if_pos hz'] at hu
      rw [if_pos hz', if_pos hz']
      cases h2 : c1.next with
      | none => rw [h2] at hu; exact absurd rfl (hu .readPastEnd)
      | some c2 =>
        rw [next_plus h2]
        dsimp only
        rw [peek_plus hz]
        split <;> rfl
    · rw [if_neg hz', if_neg hz', skip_plus hz (by decide), peek_plus hz]
      have hl : c1.text.length ≤ c.text.length := by
        unfold Cur.next at h1
        split at h1
        · cases h1
        · rename_i he
          cases h1
          rw [he]; simp
      have h3 : (c1.skip fun ch => !isSeparator ch && isDecimal ch).text.length ≤ c1.text.length := skipWhile_length _ _ _ _
      generalize (c1.skip fun ch => !isSeparator ch && isDecimal ch) = c2 at h3 ⊢
      have hb : between (c.plus z).text (c2.plus z).text = between c.text c2.text := between_plus (by omega)
      have hs : strtoll 10 (c1.plus z).text = ((strtoll 10 c1.text).1, (strtoll 10 c1.text).2 ++ z) := strtoll_plus hz 10 c1.text
      rw [hb, hs]
      have hlen : ((strtoll 10 c1.text).2 ++ z).length ≠ (c2.plus z).text.length ↔ (strtoll 10 c1.text).2.length ≠ c2.text.length := by
        show _ ≠ (c2.text ++ z).length ↔ _
        simp
      simp only [hlen]
      split
      · rfl
      · split
        · rfl
        · split <;> rfl

theorem lexHead_plus {c : Cur} (hne : c.text ≠ []) (hu : ∀ u, lexHead c ≠ .done (.ub u)) : lexHead (c.plus z) = (lexHead c).plus z := by
  unfold lexHead at hu ⊢
  dsimp only at hu ⊢
  rw [peek_plus hz, peek1_plus hz hne]
  split at hu
  · rename_i h
    rw [if_pos h, if_pos h]
    cases h1 : c.next with
    | none => rw [h1] at hu; exact absurd rfl (hu .readPastEnd)
    | some c1 => rw [next_plus h1]; rfl
  · rename_i h
    rw [if_neg h, if_neg h]
    split at hu
    · rename_i h
      rw [if_pos h, if_pos h]
      exact lexPredicate_plus hz hu
    · rename_i h
      rw [if_neg h, if_neg h]
      split at hu
      · rename_i h
        rw [if_pos h, if_pos h, lexNumber_plus hz (fun u h => hu u (by rw [h]))]
        rfl
      · rename_i h
        rw [if_neg h, if_neg h]
        split at hu
        · rename_i h
          rw [if_pos h, if_pos h]
          exact lexRegister_plus hz hu
        · rename_i h
          rw [if_neg h, if_neg h]
          rfl

theorem lexIdent_plus {a : Str} {c : Cur} (hl : c.text.length ≤ a.length) (hu : lexIdent a c ≠ .ub) :
    lexIdent (a ++ z) (c.plus z) = (lexIdent a c).plus z := by
  unfold lexIdent at hu ⊢
  cases hn : c.next with
  | none => rw [hn] at hu; exact absurd rfl hu
  | some c1 =>
    rw [next_plus hn]
    dsimp only
    rw [skip_plus hz (by decide)]
    have h2 : c1.text.length ≤ c.text.length := by
      unfold Cur.next at hn
      split at hn
      · cases hn
      · rename_i he
        cases hn
        rw [he]; simp
    have h3 := skipWhile_length (fun ch => !isSeparator ch) c1.text c1.line c1.col
    have h4 : between (a ++ z) ((c1.skip fun ch => !isSeparator ch).plus z).text = between a (c1.skip fun ch => !isSeparator ch).text :=
      between_plus (by unfold Cur.skip; omega)
    rw [h4]
    split <;> rfl

omit hz in
theorem peek_nul {c : Cur} (h : '\x00' ∉ c.text) : c.peek = '\x00' ↔ c.text = [] := by
  obtain ⟨t, l, k⟩ := c
  cases t with
  | nil => simp [Cur.peek]
  | cons a t =>
    simp only [Cur.peek, List.headD_cons, List.mem_cons, not_or] at h ⊢
    constructor
    · intro e; exact absurd e.symm h.1
    · simp

omit hz in
theorem Reach.nul {c d : Cur} (h : Reach c d) (hc : '\x00' ∉ c.text) : '\x00' ∉ d.text := fun hm => hc (h.suffix.subset hm)

theorem tokenizeMemAux_plus {n : Nat} {c : Cur} (h0 : '\x00' ∉ c.text) {r : TokRes} (h : tokenizeAux n c = some r) (hu : ∀ u, r ≠ .ub u) :
    tokenizeMemAux n (c.plus z) = some (r.plus z) := by
  induction n generalizing c with
  | zero => simp [tokenizeAux] at h
  | succ n ih =>
    unfold tokenizeAux at h
    unfold tokenizeMemAux
    dsimp only at h ⊢
    rw [skip_plus hz (by decide), peek_plus hz]
    have hr := Cur.skip_reach isBlank c
    have h0' := hr.nul h0
    generalize c.skip isBlank = c' at h hr h0' ⊢
    simp only [peek_nul h0']
    by_cases he : c'.text = []
    · rw [if_pos he] at h ⊢
      cases h
      rfl
    · rw [if_neg he] at h ⊢
      cases hh : lexHead c' with
      | done r' =>
        rw [hh] at h
        cases h
        rw [lexHead_plus hz he (by rw [hh]; intro u e; cases e; exact hu u rfl), hh]
        rfl
      | fall c1 =>
        rw [hh] at h
        rw [lexHead_plus hz he (by rw [hh]; simp), hh]
        dsimp only [LexStep.plus] at h ⊢
        have hr1 := lexHead_fall hh
        have hi' : lexIdent c'.text c1 ≠ .ub → lexIdent (c'.plus z).text (c1.plus z) = (lexIdent c'.text c1).plus z :=
          lexIdent_plus hz hr1.length_le
        cases hi : lexIdent c'.text c1 with
        | ub =>
          rw [hi] at h
          cases h
          exact absurd rfl (hu .readPastEnd)
        | label c2 =>
          rw [hi] at h hi'
          rw [hi' (by simp)]
          obtain ⟨ha, -, -⟩ := lexIdent_step (.inl hi)
          exact ih (ha.nul (hr1.nul h0')) h
        | ident x c2 =>
          rw [hi] at h hi'
          rw [hi' (by simp)]
          cases h
          rfl

omit hz in
theorem tokenizeMemAux_mono {n : Nat} {c : Cur} {r : TokRes} (h : tokenizeMemAux n c = some r)
    (m : Nat) (hm : n ≤ m) : tokenizeMemAux m c = some r := by
  induction n generalizing c m with
  | zero => simp [tokenizeMemAux] at h
  | succ n ih =>
    obtain ⟨m, rfl⟩ : ∃ k, m = k + 1 := ⟨m - 1, by omega⟩
    unfold tokenizeMemAux at h ⊢
    dsimp only at h ⊢
    split at h
    · rename_i he; simpa [he] using h
    · rename_i he
      rw [if_neg he]
      cases hh : lexHead (c.skip isBlank) with
      | done r' => simpa [hh] using h
      | fall c1 =>
        simp only [hh] at h ⊢
        cases hi : lexIdent (c.skip isBlank).text c1 with
        | ub => simpa [hi] using h
        | label c2 => simp only [hi] at h ⊢; exact ih h m (by omega)
        | ident s c2 => simpa [hi] using h

theorem tokenizeMem_plus {c : Cur} (h0 : '\x00' ∉ c.text) (hu : ∀ u, tokenize c ≠ .ub u) :
    tokenizeMem (c.plus z) = (tokenize c).plus z := by
  have h := tokenizeMemAux_plus hz h0 tokenize_eq hu
  unfold tokenizeMem
  rw [tokenizeMemAux_mono h ((c.plus z).text.length + 1) (by simp [Cur.plus])]
  rfl

omit hz in
/-- On a text without NUL the two lexers agree. -/
theorem tokenizeMemAux_nul {n : Nat} {c : Cur} (h0 : '\x00' ∉ c.text) : tokenizeMemAux n c = tokenizeAux n c := by
  induction n generalizing c with
  | zero => rfl
  | succ n ih =>
    unfold tokenizeAux tokenizeMemAux
    dsimp only
    have hr := Cur.skip_reach isBlank c
    have h0' := hr.nul h0
    generalize c.skip isBlank = c' at hr h0' ⊢
    simp only [peek_nul h0']
    split
    · rfl
    · cases hh : lexHead c' with
      | done r' => rfl
      | fall c1 =>
        have hr1 := lexHead_fall hh
        dsimp only
        cases hi : lexIdent c'.text c1 with
        | ub => rfl
        | label c2 =>
          obtain ⟨ha, -, -⟩ := lexIdent_step (.inl hi)
          exact ih (ha.nul (hr1.nul h0'))
        | ident x c2 => rfl

omit hz in
theorem tokenizeMem_nul {c : Cur} (h0 : '\x00' ∉ c.text) : tokenizeMem c = tokenize c := by
  unfold tokenizeMem tokenize
  rw [tokenizeMemAux_nul h0]

/-! ### Labels -/

omit hz in
def LabelCur.plus (s : LabelCur) (z : Str) : LabelCur := ⟨s.cur.plus z, s.pc⟩

omit hz in
theorem LabelCur.advance_reach {s s1 : LabelCur} (h : s.advance = some s1) : Reach s.cur s1.cur := by
  unfold LabelCur.advance at h
  cases hn : s.cur.next with
  | none => simp [hn] at h
  | some c => simp only [hn, Option.map_some, Option.some.injEq] at h; subst h; exact Cur.next_reach hn

theorem advance_plus {s s1 : LabelCur} (h : s.advance = some s1) : (s.plus z).advance = some (s1.plus z) := by
  unfold LabelCur.advance at h ⊢
  cases hn : s.cur.next with
  | none => simp [hn] at h
  | some c =>
    simp only [hn, Option.map_some, Option.some.injEq] at h
    subst h
    have hn' : (s.plus z).cur.next = some (c.plus z) := next_plus hn
    rw [hn']
    simp only [LabelCur.plus, peek_plus hz, Option.map_some]
    rfl

theorem nextLine_plus {n : Nat} {s s1 : LabelCur} (h0 : '\x00' ∉ s.cur.text) (h : s.nextLine n = .ok s1) :
    (s.plus z).nextLineMem n = .ok (s1.plus z) ∧ Reach s.cur s1.cur := by
  induction n generalizing s with
  | zero => simp [LabelCur.nextLine] at h
  | succ n ih =>
    unfold LabelCur.nextLine at h
    unfold LabelCur.nextLineMem
    cases ha : s.advance with
    | none => simp [ha] at h
    | some s2 =>
      rw [ha] at h
      rw [advance_plus hz ha]
      dsimp only at h ⊢
      have hr := LabelCur.advance_reach ha
      have hp : (s2.plus z).cur.peek ≠ '\x00' ↔ s2.cur.text ≠ [] := by
        show (s2.cur.plus z).peek ≠ _ ↔ _
        rw [peek_plus hz, Ne, peek_nul (hr.nul h0)]
      have hc : (s2.plus z).cur.col = s2.cur.col := rfl
      rw [hc]
      simp only [hp]
      split at h
      · rename_i hi
        rw [if_pos hi]
        obtain ⟨h1, h2⟩ := ih (hr.nul h0) h
        exact ⟨h1, hr.trans h2⟩
      · rename_i hi
        rw [if_neg hi]
        cases h
        exact ⟨rfl, hr⟩

omit hz in
theorem nextLineMem_mono {n : Nat} {s s1 : LabelCur} (h : s.nextLineMem n = .ok s1) (m : Nat) (hm : n ≤ m) : s.nextLineMem m = .ok s1 := by
  induction n generalizing s m with
  | zero => simp [LabelCur.nextLineMem] at h
  | succ n ih =>
    obtain ⟨m, rfl⟩ : ∃ k, m = k + 1 := ⟨m - 1, by omega⟩
    unfold LabelCur.nextLineMem at h ⊢
    cases ha : s.advance with
    | none => simp [ha] at h
    | some s2 =>
      rw [ha] at h
      dsimp only at h ⊢
      split at h
      · rename_i hi
        rw [if_pos hi]
        exact ih h m (by omega)
      · rename_i hi
        rw [if_neg hi]
        exact h

omit hz in
theorem genLabelsMemAux_mono {n : Nat} {s : LabelCur} {ls r : Labels} (h : genLabelsMemAux n s ls = .ok r) (m : Nat) (hm : n ≤ m) :
    genLabelsMemAux m s ls = .ok r := by
  induction n generalizing s ls m with
  | zero => simp [genLabelsMemAux] at h
  | succ n ih =>
    obtain ⟨m, rfl⟩ : ∃ k, m = k + 1 := ⟨m - 1, by omega⟩
    unfold genLabelsMemAux at h ⊢
    dsimp only at h ⊢
    split at h
    · rename_i hi
      rw [if_pos hi]; exact h
    · rename_i hi
      rw [if_neg hi]
      split at h
      · rename_i hj
        rw [if_pos hj]
        cases hn : s.nextLineMem (s.cur.text.length + 1) with
        | error u => rw [hn] at h; cases h
        | ok s1 => rw [hn] at h; exact ih h m (by omega)
      · rename_i hj
        rw [if_neg hj]
        cases hn : LabelCur.nextLineMem ((s.cur.skip isLabelChar).text.length + 1) ⟨s.cur.skip isLabelChar, s.pc⟩ with
        | error u => rw [hn] at h; cases h
        | ok s1 => rw [hn] at h; exact ih h m (by omega)

theorem genLabelsMemAux_plus {n : Nat} {s : LabelCur} {ls r : Labels} (h0 : '\x00' ∉ s.cur.text) (h : genLabelsAux n s ls = .ok r) :
    genLabelsMemAux n (s.plus z) ls = .ok r := by
  induction n generalizing s ls with
  | zero => simp [genLabelsAux] at h
  | succ n ih =>
    unfold genLabelsAux at h
    unfold genLabelsMemAux
    dsimp only at h ⊢
    have hp : (s.plus z).cur.peek = s.cur.peek := peek_plus hz s.cur
    rw [hp]
    simp only [peek_nul h0]
    split at h
    · rename_i hi
      rw [if_pos hi]; exact h
    · rename_i hi
      rw [if_neg hi]
      split at h
      · rename_i hj
        rw [if_pos hj]
        cases hn : s.nextLine (s.cur.text.length + 1) with
        | error u => rw [hn] at h; cases h
        | ok s1 =>
          rw [hn] at h
          obtain ⟨g1, g2⟩ := nextLine_plus hz h0 hn
          rw [nextLineMem_mono g1 ((s.plus z).cur.text.length + 1) (by simp [LabelCur.plus, Cur.plus])]
          exact ih (g2.nul h0) h
      · rename_i hj
        rw [if_neg hj]
        have hk : (s.plus z).cur.skip isLabelChar = (s.cur.skip isLabelChar).plus z := skip_plus hz (by decide) s.cur
        have hr := Cur.skip_reach isLabelChar s.cur
        rw [hk]
        have hb : between (s.plus z).cur.text ((s.cur.skip isLabelChar).plus z).text = between s.cur.text (s.cur.skip isLabelChar).text :=
          between_plus hr.length_le
        rw [hb, peek_plus hz]
        have hpc : (s.plus z).pc = s.pc := rfl
        rw [hpc]
        generalize s.cur.skip isLabelChar = c1 at h hr ⊢
        cases hn : LabelCur.nextLine (c1.text.length + 1) ⟨c1, s.pc⟩ with
        | error u => rw [hn] at h; cases h
        | ok s1 =>
          rw [hn] at h
          obtain ⟨g1, g2⟩ := nextLine_plus hz (hr.nul h0) hn
          have g3 : LabelCur.nextLineMem ((c1.plus z).text.length + 1) ⟨c1.plus z, s.pc⟩ = .ok (s1.plus z) :=
            nextLineMem_mono g1 _ (by simp [Cur.plus])
          rw [g3]
          exact ih (g2.nul (hr.nul h0)) h

theorem genLabelsMem_plus {t : Str} {ls : Labels} (h0 : '\x00' ∉ t) (h : genLabels t = .ok ls) : genLabelsMem (t ++ z) = .ok ls :=
  genLabelsMemAux_mono (genLabelsMemAux_plus hz (s := ⟨⟨t, 0, 0⟩, 8⟩) h0 h) _ (by simp)

omit hz in
theorem nextLineMem_nul {n : Nat} {s : LabelCur} (h0 : '\x00' ∉ s.cur.text) : s.nextLineMem n = s.nextLine n := by
  induction n generalizing s with
  | zero => rfl
  | succ n ih =>
    unfold LabelCur.nextLine LabelCur.nextLineMem
    cases ha : s.advance with
    | none => rfl
    | some s2 =>
      have hr := LabelCur.advance_reach ha
      simp only [Ne, peek_nul (hr.nul h0), ih (hr.nul h0)]

omit hz in
theorem nextLine_reach {n : Nat} {s s1 : LabelCur} (h : s.nextLine n = .ok s1) : Reach s.cur s1.cur := by
  induction n generalizing s with
  | zero => simp [LabelCur.nextLine] at h
  | succ n ih =>
    unfold LabelCur.nextLine at h
    cases ha : s.advance with
    | none => simp [ha] at h
    | some s2 =>
      rw [ha] at h
      dsimp only at h
      split at h
      · exact (LabelCur.advance_reach ha).trans (ih h)
      · cases h; exact LabelCur.advance_reach ha

omit hz in
theorem genLabelsMemAux_nul {n : Nat} {s : LabelCur} {ls : Labels} (h0 : '\x00' ∉ s.cur.text) : genLabelsMemAux n s ls = genLabelsAux n s ls := by
  induction n generalizing s ls with
  | zero => rfl
  | succ n ih =>
    unfold genLabelsAux genLabelsMemAux
    have hr := Cur.skip_reach isLabelChar s.cur
    have e2 : LabelCur.nextLineMem ((s.cur.skip isLabelChar).text.length + 1) ⟨s.cur.skip isLabelChar, s.pc⟩ =
        LabelCur.nextLine ((s.cur.skip isLabelChar).text.length + 1) ⟨s.cur.skip isLabelChar, s.pc⟩ := nextLineMem_nul (hr.nul h0)
    simp only [peek_nul h0, nextLineMem_nul h0, e2]
    split
    · rfl
    · split
      · cases hn : s.nextLine (s.cur.text.length + 1) with
        | error u => rfl
        | ok s1 => exact ih ((nextLine_reach hn).nul h0)
      · cases hn : LabelCur.nextLine ((s.cur.skip isLabelChar).text.length + 1) ⟨s.cur.skip isLabelChar, s.pc⟩ with
        | error u => rfl
        | ok s1 => exact ih ((nextLine_reach hn).nul (hr.nul h0))

omit hz in
theorem genLabelsMem_nul {t : Str} (h0 : '\x00' ∉ t) : genLabelsMem t = genLabels t := genLabelsMemAux_nul h0

end

end Nxas
