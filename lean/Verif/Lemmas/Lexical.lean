import Verif.Spec.Lexical
import Verif.Lemmas.Trailing
/-
The lexer divides a text into the tokens of the lexical grammar.
-/

namespace Nxas

open Spec

/-! ### Characters -/

theorem char_le {a b : Char} : a ≤ b ↔ a.toNat ≤ b.toNat := Iff.rfl

theorem char_eq {a b : Char} : a = b ↔ a.toNat = b.toNat := by
  constructor
  · rintro rfl; rfl
  · intro h; exact Char.ext (UInt32.toNat_inj.1 h)

theorem isDecimal_spec {c : Char} : isDecimal c = true ↔ decimal c := isDecimal_iff

theorem digitVal_hex {c : Char} (h : hexadecimal c) : digitVal c = some (digit c) := by
  unfold hexadecimal decimal at h
  unfold digitVal digit
  simp only [char_le] at h ⊢
  simp only [show '0'.toNat = 48 from rfl, show '9'.toNat = 57 from rfl, show 'a'.toNat = 97 from rfl,
    show 'f'.toNat = 102 from rfl, show 'A'.toNat = 65 from rfl, show 'F'.toNat = 70 from rfl] at h ⊢
  repeat' split
  all_goals first | rfl | omega | (congr 1; omega)

theorem digitVal_none {c : Char} (h : ¬ hexadecimal c) : digitVal c = none := by
  unfold hexadecimal decimal at h
  unfold digitVal
  simp only [not_or] at h
  rw [if_neg h.1, if_neg h.2.1, if_neg h.2.2]

theorem decimal.hex {c : Char} (h : decimal c) : hexadecimal c := .inl h

theorem octal.dec {c : Char} (h : octal c) : decimal c := by
  unfold octal at h
  unfold decimal
  simp only [char_le] at h ⊢
  exact ⟨h.1, Nat.le_trans h.2 (by decide)⟩

theorem isDigitOf_16 {c : Char} : isDigitOf 16 c = true ↔ hexadecimal c := by
  unfold isDigitOf
  by_cases h : hexadecimal c
  · rw [digitVal_hex h]
    simp only [h, iff_true, decide_eq_true_eq]
    unfold hexadecimal decimal at h
    unfold digit
    simp only [char_le, show '0'.toNat = 48 from rfl, show '9'.toNat = 57 from rfl, show 'a'.toNat = 97 from rfl,
      show 'f'.toNat = 102 from rfl, show 'A'.toNat = 65 from rfl, show 'F'.toNat = 70 from rfl] at h ⊢
    repeat' split
    all_goals omega
  · rw [digitVal_none h]; simp [h]

theorem isDigitOf_10 {c : Char} : isDigitOf 10 c = true ↔ decimal c := by
  unfold isDigitOf
  by_cases h : hexadecimal c
  · rw [digitVal_hex h]
    simp only [decide_eq_true_eq]
    unfold hexadecimal decimal at h
    unfold digit decimal
    simp only [char_le, show '0'.toNat = 48 from rfl, show '9'.toNat = 57 from rfl, show 'a'.toNat = 97 from rfl,
      show 'f'.toNat = 102 from rfl, show 'A'.toNat = 65 from rfl, show 'F'.toNat = 70 from rfl] at h ⊢
    repeat' split
    all_goals omega
  · rw [digitVal_none h]
    simp only [Bool.false_eq_true, false_iff]
    exact fun h' => h (decimal.hex h')

theorem isDigitOf_8 {c : Char} : isDigitOf 8 c = true ↔ octal c := by
  unfold isDigitOf
  by_cases h : hexadecimal c
  · rw [digitVal_hex h]
    simp only [decide_eq_true_eq]
    unfold hexadecimal decimal at h
    unfold digit octal
    simp only [char_le, show '0'.toNat = 48 from rfl, show '9'.toNat = 57 from rfl, show 'a'.toNat = 97 from rfl,
      show 'f'.toNat = 102 from rfl, show 'A'.toNat = 65 from rfl, show 'F'.toNat = 70 from rfl, show '7'.toNat = 55 from rfl] at h ⊢
    repeat' split
    all_goals omega
  · rw [digitVal_none h]
    simp only [Bool.false_eq_true, false_iff]
    exact fun h' => h (decimal.hex (octal.dec h'))

theorem digitsVal_aux (b : Nat) (s : Str) (h : ∀ c ∈ s, hexadecimal c) (acc : Nat) :
    s.foldl (fun acc c => acc * b + (digitVal c).getD 0) acc = acc * b ^ s.length + numeral b s := by
  induction s generalizing acc with
  | nil => simp [numeral]
  | cons d ds ih =>
    rw [List.foldl_cons, ih (fun c hc => h c (by simp [hc])), digitVal_hex (h d (by simp))]
    simp only [Option.getD_some, List.length_cons, numeral, Nat.pow_succ]
    grind

theorem digitsVal_spec {b : Nat} {s : Str} (h : ∀ c ∈ s, hexadecimal c) : digitsVal b s = numeral b s := by
  unfold digitsVal
  rw [digitsVal_aux b s h]; simp

theorem clamp_spec (neg : Bool) (v : Nat) : clampI64 (if neg then -(v : Int) else v) = saturated neg v := by
  unfold clampI64 saturated
  cases neg <;> simp <;> repeat' split
  all_goals omega

/-! ### Cutting texts -/

theorem takeWhile_all {p : Char → Bool} {w rest : Str} (h : ∀ c ∈ w, p c = true) (hr : ∀ c, rest.head? = some c → p c = false) :
    (w ++ rest).takeWhile p = w := by
  induction w with
  | nil =>
    cases rest with
    | nil => rfl
    | cons c cs => simp [hr c rfl]
  | cons c w ih =>
    simp only [List.cons_append, List.takeWhile_cons, h c (by simp), if_true]
    rw [ih fun x hx => h x (by simp [hx])]

theorem dropWhile_all {p : Char → Bool} {w rest : Str} (h : ∀ c ∈ w, p c = true) (hr : ∀ c, rest.head? = some c → p c = false) :
    (w ++ rest).dropWhile p = rest := by
  induction w with
  | nil =>
    cases rest with
    | nil => rfl
    | cons c cs => simp [hr c rfl]
  | cons c w ih =>
    simp only [List.cons_append, List.dropWhile_cons, h c (by simp), if_true]
    rw [ih fun x hx => h x (by simp [hx])]

theorem dropWhile_head {p : Char → Bool} {t : Str} {c : Char} (h : (t.dropWhile p).head? = some c) : p c = false := by
  induction t with
  | nil => simp at h
  | cons x xs ih =>
    rw [List.dropWhile_cons] at h
    split at h
    · exact ih h
    · simp at h; subst h; simpa using ‹¬ p x = true›

theorem takeWhile_mem {p : Char → Bool} {t : Str} {c : Char} (h : c ∈ t.takeWhile p) : p c = true := by
  induction t with
  | nil => simp at h
  | cons x xs ih =>
    rw [List.takeWhile_cons] at h
    split at h
    · rcases List.mem_cons.1 h with rfl | h
      · assumption
      · exact ih h
    · simp at h

theorem between_append (w rest : Str) : between (w ++ rest) rest = w := by simp [between]

/-- Suffixes of the same length. -/
theorem suffix_eq {a b c d : Str} (h : a ++ b = c ++ d) (hl : b.length = d.length) : a = c ∧ b = d :=
  List.append_inj' h hl

theorem _root_.Nxas.Spec.Ends.sep {rest : Str} (h : Ends rest) {l k : Nat} : isSeparator (Cur.peek ⟨rest, l, k⟩) = true := by
  cases rest with
  | nil => exact isSeparator_nul
  | cons c cs =>
    by_contra hn
    exact (not_separator_iff.1 (by simpa [Cur.peek] using hn)).1 (h c rfl)

theorem ends_of_sep {rest : Str} (h : '\x00' ∉ rest) {l k : Nat} (hs : isSeparator (Cur.peek ⟨rest, l, k⟩) = true) : Ends rest := by
  intro c hc
  cases rest with
  | nil => simp at hc
  | cons x xs =>
    simp at hc h
    subst hc
    by_contra hn
    have := not_separator_iff.2 ⟨hn, fun e => h.1 e.symm⟩
    rw [show Cur.peek ⟨x :: xs, l, k⟩ = x from rfl] at hs
    rw [hs] at this
    simp at this

/-! ### Integer literals -/

/-- Separators are no digits. -/
theorem separator_not_hex {c : Char} (h : c ∈ separators) : ¬ hexadecimal c ∧ c ≠ 'x' ∧ c ≠ 'X' := by
  unfold hexadecimal decimal
  simp only [separators, List.mem_cons, List.not_mem_nil, or_false] at h
  rcases h with rfl | rfl | rfl | rfl | rfl | rfl | rfl | rfl | rfl | rfl | rfl | rfl | rfl | rfl <;> decide

theorem isDigitOf_hex {b : Nat} {c : Char} (h : isDigitOf b c = true) : hexadecimal c := by
  unfold isDigitOf at h
  by_contra hn
  rw [digitVal_none hn] at h
  simp at h

theorem _root_.Nxas.Spec.Ends.not_digit {rest : Str} (h : Ends rest) (b : Nat) : ∀ c, rest.head? = some c → isDigitOf b c = false := by
  intro c hc
  rw [← Bool.not_eq_true]
  exact fun hd => (separator_not_hex (h c hc)).1 (isDigitOf_hex hd)

theorem strtollBase_spec {ds rest : Str} {v : Nat} (h : IntLit ds v) (he : Ends rest) :
    ∃ b dg, strtollBase 0 (ds ++ rest) = (b, dg ++ rest) ∧ dg ≠ [] ∧ (∀ c ∈ dg, isDigitOf b c = true) ∧ numeral b dg = v := by
  cases h with
  | @dec d ds hd h0 h =>
    refine ⟨10, d :: ds, ?_, by simp, ?_, rfl⟩
    · unfold strtollBase
      rw [if_pos rfl]
      split
      · rename_i heq; simp at heq; exact absurd heq.1 h0
      · rename_i heq; simp at heq; exact absurd heq.1 h0
      · rfl
    · intro c hc
      rw [isDigitOf_10]
      rcases List.mem_cons.1 hc with rfl | hc
      · exact hd
      · exact h c hc
  | @oct ds h =>
    refine ⟨8, '0' :: ds, ?_, by simp, ?_, by simp [numeral, digit]⟩
    · unfold strtollBase
      rw [if_pos rfl]
      split
      · rename_i x d r heq
        have hx : x ≠ 'x' ∧ x ≠ 'X' := by
          cases ds with
          | nil =>
            simp at heq
            exact (separator_not_hex (he x (by rw [heq]; rfl))).2
          | cons y ys =>
            simp at heq
            have := h y (by simp)
            rw [heq.1] at this
            unfold octal at this
            constructor <;> rintro rfl <;> exact absurd this (by decide)
        rw [if_neg (by simp [hx])]
      · rfl
      · rename_i heq; exact absurd rfl (heq (ds ++ rest))
    · intro c hc
      rw [isDigitOf_8]
      rcases List.mem_cons.1 hc with rfl | hc
      · unfold octal; decide
      · exact h c hc
  | @hex x ds hx hn h =>
    refine ⟨16, ds, ?_, hn, fun c hc => isDigitOf_16.2 (h c hc), rfl⟩
    obtain ⟨d, ds, rfl⟩ := List.exists_cons_of_ne_nil hn
    unfold strtollBase
    simp [hx, isDigitOf_16.2 (h d (by simp))]

theorem strtollDigits_spec {ds rest : Str} {v : Nat} (neg : Bool) (h : IntLit ds v) (he : Ends rest) :
    strtollDigits 0 neg (ds ++ rest) = some (saturated neg v, rest) := by
  obtain ⟨b, dg, h1, h2, h3, rfl⟩ := strtollBase_spec h he
  unfold strtollDigits
  dsimp only
  rw [h1]
  dsimp only
  rw [takeWhile_all h3 (he.not_digit b), dropWhile_all h3 (he.not_digit b), if_neg h2,
    digitsVal_spec fun c hc => isDigitOf_hex (h3 c hc), clamp_spec]

theorem _root_.Nxas.Spec.IntLit.head {ds : Str} {v : Nat} (h : IntLit ds v) : ∃ d tl, ds = d :: tl ∧ decimal d := by
  cases h with
  | dec hd => exact ⟨_, _, rfl, hd⟩
  | oct => exact ⟨_, _, rfl, by unfold decimal; decide⟩
  | hex => exact ⟨_, _, rfl, by unfold decimal; decide⟩

theorem decimal_not_space {c : Char} (h : decimal c) : isSpaceC c = false ∧ c ≠ '+' ∧ c ≠ '-' := by
  have key : ∀ x ∈ spaces ++ ['+', '-'], ¬ decimal x := by unfold decimal; decide
  refine ⟨?_, fun e => key c (by simp [e]) h, fun e => key c (by simp [e]) h⟩
  rw [← Bool.not_eq_true]
  intro hs
  refine key c ?_ h
  simp [isSpaceC, isContained, spaces] at hs ⊢
  grind

theorem strtoll_spec {sg ds rest : Str} {neg : Bool} {v : Nat} (hs : Sign sg neg) (h : IntLit ds v) (he : Ends rest) :
    strtoll 0 (sg ++ ds ++ rest) = (saturated neg v, rest) := by
  obtain ⟨d, tl, e, hd⟩ := h.head
  obtain ⟨n1, n2, n3⟩ := decimal_not_space hd
  have key := fun neg => strtollDigits_spec neg h he
  unfold strtoll
  dsimp only
  cases hs with
  | none =>
    rw [List.nil_append, e, List.cons_append, List.dropWhile_cons, n1]
    simp only [Bool.false_eq_true, if_false]
    split
    · rename_i heq; simp at heq; exact absurd heq.1 n3
    · rename_i heq; simp at heq; exact absurd heq.1 n2
    · have := key false
      rw [e] at this
      rw [List.cons_append] at this
      rw [this]; rfl
  | plus =>
    simp only [List.cons_append, List.nil_append, List.dropWhile_cons, show isSpaceC '+' = false from by decide, Bool.false_eq_true, if_false]
    rw [key]; rfl
  | minus =>
    simp only [List.cons_append, List.nil_append, List.dropWhile_cons, show isSpaceC '-' = false from by decide, Bool.false_eq_true, if_false]
    rw [key]; rfl

theorem strtollDigits_inv {neg : Bool} {s rest : Str} {v : Int} (h : strtollDigits 0 neg s = some (v, rest)) :
    ∃ ds n, s = ds ++ rest ∧ IntLit ds n ∧ v = saturated neg n := by
  unfold strtollDigits at h
  dsimp only at h
  obtain ⟨⟨b, dg⟩, hb⟩ : ∃ x, strtollBase 0 s = x := ⟨_, rfl⟩
  rw [hb] at h
  dsimp only at h
  split at h
  · simp at h
  · rename_i hne
    simp only [Option.some.injEq, Prod.mk.injEq] at h
    obtain ⟨h1, h2⟩ := h
    have hsplit : dg = dg.takeWhile (isDigitOf b) ++ rest := by rw [← h2, List.takeWhile_append_dropWhile]
    have hmem : ∀ c ∈ dg.takeWhile (isDigitOf b), isDigitOf b c = true := fun c hc => takeWhile_mem hc
    rw [digitsVal_spec fun c hc => isDigitOf_hex (hmem c hc), clamp_spec] at h1
    obtain ⟨d, ds, hds⟩ := List.exists_cons_of_ne_nil hne
    rw [hds] at hsplit hmem h1
    clear hne h2 hds
    unfold strtollBase at hb
    rw [if_pos rfl] at hb
    split at hb
    · split at hb
      · rename_i x d' r hx
        simp only [Prod.mk.injEq] at hb
        obtain ⟨rfl, hb⟩ := hb
        refine ⟨'0' :: x :: d :: ds, _, ?_, .hex hx.1 (by simp) fun c hc => isDigitOf_16.1 (hmem c hc), h1.symm⟩
        rw [hb, hsplit]; rfl
      · simp only [Prod.mk.injEq] at hb
        obtain ⟨rfl, hb⟩ := hb
        rw [← hb] at hsplit
        simp at hsplit
        obtain ⟨rfl, hsplit⟩ := hsplit
        refine ⟨'0' :: ds, _, by simp [hsplit], .oct fun c hc => isDigitOf_8.1 (hmem c (by simp [hc])), ?_⟩
        rw [← h1]; simp [numeral, digit]
    · simp only [Prod.mk.injEq] at hb
      obtain ⟨rfl, hb⟩ := hb
      rw [← hb] at hsplit
      simp at hsplit
      obtain ⟨rfl, hsplit⟩ := hsplit
      refine ⟨'0' :: ds, _, by simp [hsplit], .oct fun c hc => isDigitOf_8.1 (hmem c (by simp [hc])), ?_⟩
      rw [← h1]; simp [numeral, digit]
    · rename_i hz
      simp only [Prod.mk.injEq] at hb
      obtain ⟨rfl, rfl⟩ := hb
      refine ⟨d :: ds, _, hsplit, .dec (isDigitOf_10.1 (hmem d (by simp))) ?_ fun c hc => isDigitOf_10.1 (hmem c (by simp [hc])), h1.symm⟩
      rintro rfl
      exact hz _ hsplit

/-- `strtoll` reads a literal or nothing. -/
theorem strtoll_inv {s : Str} (hs : ∀ c, s.head? = some c → isSpaceC c = false) :
    (strtoll 0 s).2 = s ∨
      ∃ sg ds neg n, s = sg ++ ds ++ (strtoll 0 s).2 ∧ Sign sg neg ∧ IntLit ds n ∧ (strtoll 0 s).1 = saturated neg n := by
  have hd : s.dropWhile isSpaceC = s := by
    have := dropWhile_all (p := isSpaceC) (w := []) (rest := s) (by simp) hs
    simpa using this
  unfold strtoll
  dsimp only
  rw [hd]
  split
  · rename_i t
    cases h : strtollDigits 0 true t with
    | none => exact .inl rfl
    | some r =>
      obtain ⟨v, r⟩ := r
      obtain ⟨ds, n, rfl, h1, h2⟩ := strtollDigits_inv h
      exact .inr ⟨['-'], ds, true, n, by simp, .minus, h1, by simp [h2]⟩
  · rename_i t
    cases h : strtollDigits 0 false t with
    | none => exact .inl rfl
    | some r =>
      obtain ⟨v, r⟩ := r
      obtain ⟨ds, n, rfl, h1, h2⟩ := strtollDigits_inv h
      exact .inr ⟨['+'], ds, false, n, by simp, .plus, h1, by simp [h2]⟩
  · cases h : strtollDigits 0 false s with
    | none => exact .inl rfl
    | some r =>
      obtain ⟨v, r⟩ := r
      obtain ⟨ds, n, e, h1, h2⟩ := strtollDigits_inv h
      exact .inr ⟨[], ds, false, n, by simpa using e, .none, h1, by simp [h2]⟩

/-! ### Numbers -/

/-- The characters of numbers. -/
def numberChar (ch : Char) : Bool := isDecimal ch || isContained c!"+-" ch || isHexish ch

theorem hexadecimal_numberChar {c : Char} (h : hexadecimal c) : isDecimal c = true ∨ isHexish c = true := by
  rcases h with h | h | h
  · exact .inl (isDecimal_spec.2 h)
  · right
    simp only [char_le, show 'a'.toNat = 97 from rfl, show 'f'.toNat = 102 from rfl] at h
    simp only [isHexish, isContained, List.contains_eq_mem, List.mem_cons, List.not_mem_nil, or_false, decide_eq_true_eq, char_eq, Char.reduceToNat]
    omega
  · right
    simp only [char_le, show 'A'.toNat = 65 from rfl, show 'F'.toNat = 70 from rfl] at h
    simp only [isHexish, isContained, List.contains_eq_mem, List.mem_cons, List.not_mem_nil, or_false, decide_eq_true_eq, char_eq, Char.reduceToNat]
    omega

theorem _root_.Nxas.Spec.Sign.chars {sg : Str} {neg : Bool} (h : Sign sg neg) : ∀ c ∈ sg, isContained c!"+-" c = true := by
  cases h <;> simp [isContained]

theorem _root_.Nxas.Spec.IntLit.chars {ds : Str} {v : Nat} (h : IntLit ds v) : ∀ c ∈ ds, isDecimal c = true ∨ isHexish c = true := by
  cases h with
  | dec hd h0 h =>
    intro c hc
    rcases List.mem_cons.1 hc with rfl | hc
    · exact .inl (isDecimal_spec.2 hd)
    · exact .inl (isDecimal_spec.2 (h c hc))
  | oct h =>
    intro c hc
    rcases List.mem_cons.1 hc with rfl | hc
    · exact .inl (by decide)
    · exact .inl (isDecimal_spec.2 (octal.dec (h c hc)))
  | hex hx hn h =>
    intro c hc
    rcases List.mem_cons.1 hc with rfl | hc
    · exact .inl (by decide)
    · rcases List.mem_cons.1 hc with rfl | hc
      · rcases hx with rfl | rfl <;> exact .inr (by decide)
      · exact hexadecimal_numberChar (h c hc)

theorem Cur.skip_exact {p : Char → Bool} {c : Cur} {w rest : Str} (ht : c.text = w ++ rest) (h : ∀ x ∈ w, p x = true)
    (hr : ∀ x, rest.head? = some x → p x = false) : (c.skip p).text = rest := by
  rw [Cur.skip_text, ht, dropWhile_all h hr]

theorem separator_numberChar {c : Char} (h : c ∈ separators) (hn : c ∉ ['+', '-']) : numberChar c = false := by
  simp only [separators, List.mem_cons, List.not_mem_nil, or_false] at h
  rcases h with rfl | rfl | rfl | rfl | rfl | rfl | rfl | rfl | rfl | rfl | rfl | rfl | rfl | rfl <;>
    first | decide | simp at hn

theorem lexNumber_int {c : Cur} {sg ds rest : Str} {neg : Bool} {v : Nat} (ht : c.text = sg ++ ds ++ rest) (hs : Sign sg neg)
    (hv : IntLit ds v) (he : Ends rest) (hn : ∀ x, rest.head? = some x → x ∉ ['+', '-', '.']) :
    ∃ c', lexNumber c = .ok ⟨.imm (saturated neg v), c.line, c.col⟩ c' ∧ c'.text = rest := by
  obtain ⟨c1, hc1⟩ : ∃ c1, c.skip numberChar = c1 := ⟨_, rfl⟩
  have hskip : c1.text = rest := by
    rw [← hc1]
    refine Cur.skip_exact ht ?_ ?_
    · intro x hx
      unfold numberChar
      rcases List.mem_append.1 hx with hx | hx
      · simp [hs.chars x hx]
      · rcases hv.chars x hx with h | h <;> simp [h]
    · intro x hx
      have := hn x hx
      refine separator_numberChar (he x hx) ?_
      simp at this ⊢; exact ⟨this.1, this.2.1⟩
  have hdot : c1.peek ≠ '.' := by
    unfold Cur.peek
    rw [hskip]
    cases rest with
    | nil => decide
    | cons x xs =>
      have := hn x rfl
      simp at this
      exact this.2.2
  have hsep : isSeparator c1.peek = true := by
    have := he.sep (l := 0) (k := 0)
    unfold Cur.peek at this ⊢
    rw [hskip]; exact this
  refine ⟨c1, ?_, hskip⟩
  unfold lexNumber
  dsimp only
  rw [show (fun ch => isDecimal ch || isContained c!"+-" ch || isHexish ch) = numberChar from rfl, hc1]
  simp [hdot, hsep, ht, -List.append_assoc, strtoll_spec hs hv he, hskip]

/-- A text without its sign. -/
def unsigned (s : Str) : Str :=
  match s with
  | '-' :: t => t
  | '+' :: t => t
  | _ => s

/-- `strtof` after the sign. -/
def strtofBody (neg : Bool) (s s1 : Str) : BitVec 32 × Str :=
  match s1.dropWhile isDecimal with
  | '.' :: t =>
    if s1.takeWhile isDecimal = [] ∧ t.takeWhile isDecimal = [] then (0#32, s)
    else
      (f32OfRat neg (digitsVal 10 (s1.takeWhile isDecimal ++ t.takeWhile isDecimal)) (10 ^ (t.takeWhile isDecimal).length),
        t.dropWhile isDecimal)
  | _ =>
    if s1.takeWhile isDecimal = [] then (0#32, s)
    else (f32OfRat neg (digitsVal 10 (s1.takeWhile isDecimal)) 1, s1.dropWhile isDecimal)

theorem strtof_eq (s : Str) : strtof s = strtofBody (s.head? = some '-') s (unsigned s) := rfl

theorem unsigned_digit {d : Char} {tl : Str} (h : decimal d) : unsigned (d :: tl) = d :: tl := by
  obtain ⟨n1, n2, n3⟩ := decimal_not_space h
  unfold unsigned
  split
  · rename_i heq; simp at heq; exact absurd heq.1 n3
  · rename_i heq; simp at heq; exact absurd heq.1 n2
  · rfl

theorem strtof_spec {sg ip fp rest : Str} {neg : Bool} (hs : Sign sg neg) (hi : ip ≠ []) (h1 : ∀ c ∈ ip, decimal c)
    (h2 : ∀ c ∈ fp, decimal c) (he : Ends rest) :
    strtof (sg ++ ip ++ '.' :: (fp ++ rest)) = (f32OfRat neg (numeral 10 (ip ++ fp)) (10 ^ fp.length), rest) := by
  obtain ⟨d, tl, rfl⟩ := List.exists_cons_of_ne_nil hi
  obtain ⟨n1, n2, n3⟩ := decimal_not_space (h1 d (by simp))
  have e1 : ∀ t, (d :: tl ++ '.' :: t).takeWhile isDecimal = d :: tl := fun t =>
    takeWhile_all (fun c hc => isDecimal_spec.2 (h1 c hc)) (by simp; decide)
  have e2 : ∀ t, (d :: tl ++ '.' :: t).dropWhile isDecimal = '.' :: t := fun t =>
    dropWhile_all (fun c hc => isDecimal_spec.2 (h1 c hc)) (by simp; decide)
  have hr : ∀ c, rest.head? = some c → isDecimal c = false := by
    intro c hc
    rw [← Bool.not_eq_true, isDecimal_spec]
    exact fun hd => (separator_not_hex (he c hc)).1 (decimal.hex hd)
  have e3 : (fp ++ rest).takeWhile isDecimal = fp := takeWhile_all (fun c hc => isDecimal_spec.2 (h2 c hc)) hr
  have e4 : (fp ++ rest).dropWhile isDecimal = rest := dropWhile_all (fun c hc => isDecimal_spec.2 (h2 c hc)) hr
  have e5 : digitsVal 10 (d :: tl ++ fp) = numeral 10 (d :: tl ++ fp) := digitsVal_spec fun c hc => by
    rcases List.mem_append.1 hc with hc | hc
    · exact decimal.hex (h1 c hc)
    · exact decimal.hex (h2 c hc)
  have key : ∀ (neg : Bool) (s : Str), strtofBody neg s (d :: tl ++ '.' :: (fp ++ rest)) =
      (f32OfRat neg (numeral 10 (d :: tl ++ fp)) (10 ^ fp.length), rest) := by
    intro neg s
    unfold strtofBody
    simp only [e1, e2, e3, e4, e5, reduceCtorEq, false_and, if_false]
  rw [strtof_eq]
  cases hs with
  | none =>
    rw [List.nil_append, List.cons_append, unsigned_digit (h1 d (by simp)), ← List.cons_append, key]
    simp [n3]
  | plus => exact key false _
  | minus => exact key true _

theorem lexNumber_float {c : Cur} {sg ip fp rest : Str} {neg : Bool} (ht : c.text = sg ++ ip ++ '.' :: (fp ++ rest))
    (hs : Sign sg neg) (hi : ip ≠ []) (h1 : ∀ c ∈ ip, decimal c) (h2 : ∀ c ∈ fp, decimal c) (he : Ends rest) :
    ∃ c', lexNumber c = .ok ⟨.fimm (f32OfRat neg (numeral 10 (ip ++ fp)) (10 ^ fp.length)), c.line, c.col⟩ c' ∧ c'.text = rest := by
  obtain ⟨c1, hc1⟩ : ∃ c1, c.skip numberChar = c1 := ⟨_, rfl⟩
  have hskip : c1.text = '.' :: (fp ++ rest) := by
    rw [← hc1]
    refine Cur.skip_exact ht ?_ ?_
    · intro x hx
      unfold numberChar
      rcases List.mem_append.1 hx with hx | hx
      · simp [hs.chars x hx]
      · simp [isDecimal_spec.2 (h1 x hx)]
    · simp; decide
  have hbet : between c.text c1.text = sg ++ ip := by rw [ht, hskip, between_append]
  have hhex : (sg ++ ip).any isHexish = false := by
    rw [List.any_eq_false]
    intro x hx
    rcases List.mem_append.1 hx with hx | hx
    · cases hs <;> simp at hx <;> subst hx <;> decide
    · have := h1 x hx
      unfold decimal at this
      simp only [char_le, show '0'.toNat = 48 from rfl, show '9'.toNat = 57 from rfl] at this
      simp only [isHexish, isContained, List.contains_eq_mem, List.mem_cons, List.not_mem_nil, or_false, decide_eq_true_eq, char_eq, Char.reduceToNat]
      omega
  have hdot : c1.peek = '.' := by unfold Cur.peek; rw [hskip]; rfl
  obtain ⟨c2, hc2⟩ : ∃ c2, c1.next = some c2 := by
    unfold Cur.next; rw [hskip]; exact ⟨_, rfl⟩
  have hc2t : c2.text = fp ++ rest := by
    have := Cur.next_text hc2
    rw [hskip, hdot] at this
    simpa using this.symm
  have hr : ∀ c, rest.head? = some c → isDecimal c = false := by
    intro c hc
    rw [← Bool.not_eq_true, isDecimal_spec]
    exact fun hd => (separator_not_hex (he c hc)).1 (decimal.hex hd)
  have hc3 : (c2.skip isDecimal).text = rest := Cur.skip_exact hc2t (fun x hx => isDecimal_spec.2 (h2 x hx)) hr
  have hsep : isSeparator (c2.skip isDecimal).peek = true := by
    have := he.sep (l := 0) (k := 0)
    unfold Cur.peek at this ⊢
    rw [hc3]; exact this
  refine ⟨_, ?_, hc3⟩
  unfold lexNumber
  dsimp only
  rw [show (fun ch => isDecimal ch || isContained c!"+-" ch || isHexish ch) = numberChar from rfl, hc1]
  rw [hbet, hhex, hdot]
  simp only [decide_true, Bool.and_false, Bool.false_eq_true, if_false, if_true, hc2, Option.map_some]
  rw [hsep, ht, strtof_spec hs hi h1 h2 he, hc3]
  simp

theorem strtof_inv {sg : Str} {neg : Bool} {d : Char} {tl : Str} (hs : Sign sg neg) (hd : decimal d) :
    ∃ ip tl', d :: tl = ip ++ tl' ∧ ip ≠ [] ∧ (∀ c ∈ ip, decimal c) ∧
      ((strtof (sg ++ d :: tl)).2 = tl' ∨ ∃ fp, (∀ c ∈ fp, decimal c) ∧ tl' = '.' :: (fp ++ (strtof (sg ++ d :: tl)).2) ∧
        (strtof (sg ++ d :: tl)).1 = f32OfRat neg (numeral 10 (ip ++ fp)) (10 ^ fp.length)) := by
  refine ⟨(d :: tl).takeWhile isDecimal, (d :: tl).dropWhile isDecimal, by rw [List.takeWhile_append_dropWhile], ?_,
    fun c hc => isDecimal_spec.1 (takeWhile_mem hc), ?_⟩
  · rw [List.takeWhile_cons, isDecimal_spec.2 hd]; simp
  · have hne : (d :: tl).takeWhile isDecimal ≠ [] := by rw [List.takeWhile_cons, isDecimal_spec.2 hd]; simp
    obtain ⟨n1, n2, n3⟩ := decimal_not_space hd
    have e : strtof (sg ++ d :: tl) = strtofBody neg (sg ++ d :: tl) (d :: tl) := by
      rw [strtof_eq]
      cases hs with
      | none => rw [List.nil_append, unsigned_digit hd]; simp [n3]
      | plus => rfl
      | minus => rfl
    rw [e]
    generalize sg ++ d :: tl = s
    generalize d :: tl = s1 at *
    unfold strtofBody
    split
    · rename_i t ht
      right
      rw [if_neg (by simp [hne])]
      refine ⟨t.takeWhile isDecimal, fun c hc => isDecimal_spec.1 (takeWhile_mem hc), ?_, ?_⟩
      · dsimp only
        rw [ht, List.takeWhile_append_dropWhile]
      · dsimp only
        rw [digitsVal_spec]
        intro c hc
        rcases List.mem_append.1 hc with hc | hc
        · exact decimal.hex (isDecimal_spec.1 (takeWhile_mem hc))
        · exact decimal.hex (isDecimal_spec.1 (takeWhile_mem hc))
    · left
      rw [if_neg hne]

/-- Where a number begins. -/
theorem lexNumber_inv {c c' : Cur} {t : Token} {sg : Str} {neg : Bool} {d : Char} {tl : Str} (hz : '\x00' ∉ c.text)
    (ht : c.text = sg ++ d :: tl) (hs : Sign sg neg) (hd : decimal d) (h : lexNumber c = .ok t c') :
    ∃ w, c.text = w ++ c'.text ∧ Lexeme w c'.text t.kind := by
  obtain ⟨n1, n2, n3⟩ := decimal_not_space hd
  unfold lexNumber at h
  dsimp only at h
  rw [show (fun ch => isDecimal ch || isContained c!"+-" ch || isHexish ch) = numberChar from rfl] at h
  obtain ⟨c1, hc1⟩ : ∃ c1, c.skip numberChar = c1 := ⟨_, rfl⟩
  rw [hc1] at h
  have hr1 : Reach c c1 := hc1 ▸ Cur.skip_reach _ _
  have hb1 := between_reach hr1
  have hall : ∀ x ∈ between c.text c1.text, numberChar x = true := by
    have e : c1.text = c.text.dropWhile numberChar := by rw [← hc1, Cur.skip_text]
    have : between c.text c1.text = c.text.takeWhile numberChar := by
      have h1 := hb1
      rw [e] at h1
      rw [e]
      exact List.append_cancel_right (h1.symm.trans (List.takeWhile_append_dropWhile).symm)
    rw [this]
    exact fun x hx => takeWhile_mem hx
  have hstop : ∀ x, c1.text.head? = some x → numberChar x = false := by
    intro x hx
    rw [← hc1, Cur.skip_text] at hx
    exact dropWhile_head hx
  obtain ⟨u, hu⟩ : ∃ u, between c.text c1.text = u := ⟨_, rfl⟩
  rw [hu] at hb1 hall h
  by_cases hdot : c1.peek = '.'
  · simp only [hdot, decide_true, Bool.true_and, if_true] at h
    split at h
    · simp at h
    · rename_i hhex
      cases hn : c1.next with
      | none => rw [hn] at h; simp at h
      | some c2 =>
        rw [hn] at h
        simp only [Option.map_some] at h
        split at h
        · simp at h
        · rename_i hsep
          split at h
          · simp at h
          · rename_i hlen
            simp only [TokRes.ok.injEq] at h
            obtain ⟨rfl, rfl⟩ := h
            have hc2 : c1.text = '.' :: c2.text := by rw [Cur.next_text hn, hdot]
            have hr2 := between_reach (Cur.skip_reach isDecimal c2)
            obtain ⟨c3, hc3⟩ : ∃ c3, c2.skip isDecimal = c3 := ⟨_, rfl⟩
            rw [hc3] at hr2 hsep hlen ⊢
            have htext : c.text = (u ++ '.' :: between c2.text c3.text) ++ c3.text := by
              rw [hb1, hc2, List.append_assoc, List.cons_append, ← hr2]
            have hends : Ends c3.text := by
              refine ends_of_sep (l := c3.line) (k := c3.col) ?_ (by simpa using hsep)
              intro hm
              exact hz (by rw [htext]; simp [hm])
            obtain ⟨ip, tl', e1, e2, e3, e4⟩ := strtof_inv (tl := tl) hs hd
            rw [← ht] at e4
            have hl : (strtof c.text).2.length = c3.text.length := by simpa using hlen
            rcases e4 with e4 | ⟨fp, f1, f2, f3⟩
            · exfalso
              have hh : c.text = (sg ++ ip) ++ (strtof c.text).2 := by rw [e4, List.append_assoc, ← e1, ← ht]
              have := (suffix_eq (hh.symm.trans htext) hl).1
              have hm : '.' ∈ sg ++ ip := by rw [this]; simp
              rcases List.mem_append.1 hm with hm | hm
              · exact absurd (hs.chars _ hm) (by decide)
              · exact absurd (e3 _ hm) (by unfold decimal; decide)
            · have hh : c.text = (sg ++ ip ++ '.' :: fp) ++ (strtof c.text).2 := by
                rw [List.append_assoc, List.append_assoc, List.cons_append, ← f2, ← e1, ← ht]
              obtain ⟨h5, h6⟩ := suffix_eq (hh.symm.trans htext) hl
              refine ⟨sg ++ ip ++ '.' :: fp, by rw [h5, ← htext], ?_⟩
              dsimp only
              rw [f3]
              exact .float hs e2 e3 f1 hends
  · simp only [hdot, decide_false, Bool.false_and, Bool.false_eq_true, if_false] at h
    split at h
    · simp at h
    · rename_i hsep
      split at h
      · simp at h
      · rename_i hlen
        simp only [TokRes.ok.injEq] at h
        obtain ⟨rfl, rfl⟩ := h
        have hl : (strtoll 0 c.text).2.length = c1.text.length := by simpa using hlen
        have hends : Ends c1.text := by
          refine ends_of_sep (l := c1.line) (k := c1.col) ?_ (by simpa using hsep)
          intro hm
          exact hz (by rw [hb1]; simp [hm])
        have hne : u ≠ [] := by
          rintro rfl
          rw [List.nil_append] at hb1
          have hh := hstop
          rw [← hb1, ht] at hh
          cases hs with
          | none =>
            have := hh d rfl
            simp [numberChar, isDecimal_spec.2 hd] at this
          | plus => exact absurd (hh _ rfl) (by decide)
          | minus => exact absurd (hh _ rfl) (by decide)
        have hsp : ∀ x, c.text.head? = some x → isSpaceC x = false := by
          intro x hx
          rw [ht] at hx
          cases hs with
          | none => simp at hx; subst hx; exact n1
          | plus => simp at hx; subst hx; decide
          | minus => simp at hx; subst hx; decide
        rcases strtoll_inv hsp with h5 | ⟨sg', ds, neg', n, h5, h6, h7, h8⟩
        · rw [h5] at hl
          rw [hb1, List.length_append] at hl
          have := List.length_pos_iff.2 hne
          omega
        · obtain ⟨h9, h10⟩ := suffix_eq (h5.symm.trans hb1) hl
          refine ⟨sg' ++ ds, by rw [h9, ← hb1], ?_⟩
          dsimp only
          rw [h8]
          refine .int h6 h7 hends ?_
          intro x hx
          have h11 := hstop x hx
          have h12 : x ≠ '.' := by
            rintro rfl
            apply hdot
            unfold Cur.peek
            cases hcc : c1.text with
            | nil => rw [hcc] at hx; simp at hx
            | cons y ys => rw [hcc] at hx; simpa using hx
          simp only [List.mem_cons, List.not_mem_nil, or_false, not_or]
          refine ⟨?_, ?_, h12⟩ <;> rintro rfl <;> exact absurd h11 (by decide)

/-! ### Registers -/

theorem strtollDigits10 {neg : Bool} {ds rest : Str} (hn : ds ≠ []) (h : ∀ c ∈ ds, decimal c)
    (hr : ∀ c, rest.head? = some c → ¬ decimal c) :
    strtollDigits 10 neg (ds ++ rest) = some (saturated neg (numeral 10 ds), rest) := by
  have h1 : ∀ c ∈ ds, isDigitOf 10 c = true := fun c hc => isDigitOf_10.2 (h c hc)
  have h2 : ∀ c, rest.head? = some c → isDigitOf 10 c = false := fun c hc => by
    rw [← Bool.not_eq_true, isDigitOf_10]; exact hr c hc
  unfold strtollDigits strtollBase
  simp only [Nat.reduceEqDiff, if_false]
  rw [takeWhile_all h1 h2, dropWhile_all h1 h2, if_neg hn, digitsVal_spec fun c hc => decimal.hex (h c hc), clamp_spec]

theorem strtollDigits10_none {neg : Bool} {t : Str} (h : ∀ c, t.head? = some c → ¬ decimal c) : strtollDigits 10 neg t = none := by
  have h2 : ∀ c, t.head? = some c → isDigitOf 10 c = false := fun c hc => by
    rw [← Bool.not_eq_true, isDigitOf_10]; exact h c hc
  have := takeWhile_all (p := isDigitOf 10) (w := []) (rest := t) (by simp) h2
  rw [List.nil_append] at this
  unfold strtollDigits strtollBase
  simp [this]

theorem strtollDigits10_shorter {neg : Bool} {d : Char} {tl : Str} (h : decimal d) :
    ∃ v r, strtollDigits 10 neg (d :: tl) = some (v, r) ∧ r.length < (d :: tl).length := by
  have hd := isDigitOf_10.2 h
  unfold strtollDigits strtollBase
  simp only [Nat.reduceEqDiff, if_false]
  rw [List.takeWhile_cons, hd, List.dropWhile_cons, hd]
  refine ⟨_, _, rfl, ?_⟩
  have := (List.dropWhile_suffix (l := tl) (isDigitOf 10)).length_le
  simp only [if_true, List.length_cons]
  omega

theorem mem_spaces {c : Char} : isSpaceC c = true ↔ c ∈ spaces := by simp [isSpaceC, isContained, spaces]

/-- `strtoll` without its blanks and sign. -/
theorem strtoll_none {t : Str} (h : ¬ NumberFollows t) : strtoll 10 t = (0, t) := by
  have hsplit : t = t.takeWhile isSpaceC ++ t.dropWhile isSpaceC := (List.takeWhile_append_dropWhile).symm
  have hsp : ∀ c ∈ t.takeWhile isSpaceC, c ∈ spaces := fun c hc => mem_spaces.1 (takeWhile_mem hc)
  unfold strtoll
  dsimp only
  generalize t.dropWhile isSpaceC = s1 at *
  split
  · rename_i u
    rw [strtollDigits10_none]; · rfl
    intro c hc hd
    obtain ⟨tl, rfl⟩ : ∃ tl, u = c :: tl := by cases u with
      | nil => simp at hc
      | cons x xs => simp at hc; exact ⟨xs, by rw [hc]⟩
    exact h ⟨_, ['-'], true, c, tl, by rw [List.append_assoc]; exact hsplit, hsp, .minus, hd⟩
  · rename_i u
    rw [strtollDigits10_none]; · rfl
    intro c hc hd
    obtain ⟨tl, rfl⟩ : ∃ tl, u = c :: tl := by cases u with
      | nil => simp at hc
      | cons x xs => simp at hc; exact ⟨xs, by rw [hc]⟩
    exact h ⟨_, ['+'], false, c, tl, by rw [List.append_assoc]; exact hsplit, hsp, .plus, hd⟩
  · rw [strtollDigits10_none]; · rfl
    intro c hc hd
    obtain ⟨tl, rfl⟩ : ∃ tl, s1 = c :: tl := by cases s1 with
      | nil => simp at hc
      | cons x xs => simp at hc; exact ⟨xs, by rw [hc]⟩
    exact h ⟨_, [], false, c, tl, by rw [List.append_assoc]; exact hsplit, hsp, .none, hd⟩

theorem strtoll_signed {bl sg : Str} {neg : Bool} {d : Char} {tl : Str} (hb : ∀ c ∈ bl, c ∈ spaces) (hs : Sign sg neg) (hd : decimal d) :
    strtoll 10 (bl ++ sg ++ d :: tl) = (strtollDigits 10 neg (d :: tl)).getD (0, bl ++ sg ++ d :: tl) := by
  obtain ⟨n1, n2, n3⟩ := decimal_not_space hd
  have hdrop : (bl ++ (sg ++ d :: tl)).dropWhile isSpaceC = sg ++ d :: tl := by
    refine dropWhile_all (fun c hc => mem_spaces.2 (hb c hc)) ?_
    intro c hc
    cases hs with
    | none => simp at hc; subst hc; exact n1
    | plus => simp at hc; subst hc; decide
    | minus => simp at hc; subst hc; decide
  unfold strtoll
  dsimp only
  rw [List.append_assoc, hdrop]
  cases hs with
  | none =>
    rw [List.nil_append]
    split
    · rename_i heq; simp at heq; exact absurd heq.1 n3
    · rename_i heq; simp at heq; exact absurd heq.1 n2
    · rfl
  | plus => rfl
  | minus => rfl

theorem strtoll_follows {t : Str} (h : NumberFollows t) : (strtoll 10 t).2.length < t.length := by
  obtain ⟨bl, sg, neg, d, tl, rfl, hb, hs, hd⟩ := h
  rw [strtoll_signed hb hs hd]
  obtain ⟨v, r, h1, h2⟩ := strtollDigits10_shorter (neg := neg) (tl := tl) hd
  rw [h1]
  simp only [Option.getD_some, List.length_append]
  omega

theorem strtoll_digits {ds rest : Str} (hn : ds ≠ []) (h : ∀ c ∈ ds, decimal c) (hr : ∀ c, rest.head? = some c → ¬ decimal c) :
    strtoll 10 (ds ++ rest) = (saturated false (numeral 10 ds), rest) := by
  obtain ⟨d, tl, rfl⟩ := List.exists_cons_of_ne_nil hn
  have := strtoll_signed (bl := []) (sg := []) (tl := tl ++ rest) (by simp) .none (h d (by simp))
  rw [List.nil_append, List.nil_append, ← List.cons_append, strtollDigits10 hn h hr] at this
  exact this

theorem _root_.Nxas.Spec.Ends.not_decimal {rest : Str} (h : Ends rest) : ∀ c, rest.head? = some c → ¬ decimal c :=
  fun c hc hd => (separator_not_hex (h c hc)).1 (decimal.hex hd)

theorem Cur.peek_of {c : Cur} {rest : Str} (h : c.text = rest) : c.peek = rest.headD '\x00' := by rw [Cur.peek, h]

theorem _root_.Nxas.Spec.Ends.peek {c : Cur} (h : Ends c.text) : isSeparator c.peek = true :=
  h.sep (l := c.line) (k := c.col)

theorem Cur.next_cons {c : Cur} {x : Char} {xs : Str} (h : c.text = x :: xs) : ∃ c', c.next = some c' ∧ c'.text = xs := by
  unfold Cur.next; rw [h]; exact ⟨_, rfl, rfl⟩

theorem decimal_class {x : Char} : (!isSeparator x && isDecimal x) = true ↔ decimal x := by
  rw [Bool.and_eq_true, isDecimal_spec]
  constructor
  · exact fun h => h.2
  · exact fun h => ⟨by simp [digits_not_separator (isDecimal_spec.2 h)], h⟩

theorem lexRegister_zero {c : Cur} {rest : Str} (ht : c.text = 'R' :: 'Z' :: rest) (he : Ends rest) :
    ∃ c', lexRegister c = .done (.ok ⟨.reg 255, c.line, c.col⟩ c') ∧ c'.text = rest := by
  obtain ⟨c1, h1, h1'⟩ := Cur.next_cons ht
  obtain ⟨c2, h2, h2'⟩ := Cur.next_cons h1'
  refine ⟨c2, ?_, h2'⟩
  subst h2'
  unfold lexRegister
  simp [h1, Cur.peek_of h1', h2, he.peek]

theorem lexRegister_digits {c : Cur} {ds rest : Str} (ht : c.text = 'R' :: (ds ++ rest)) (hd : ∀ x ∈ ds, decimal x) (he : Ends rest) :
    lexRegister c = (if (strtoll 10 (ds ++ rest)).2.length ≠ rest.length then .done (.exit ⟨c.line, c.col, registerMsg ('R' :: ds)⟩)
      else if (strtoll 10 (ds ++ rest)).1 < 0 ∨ (strtoll 10 (ds ++ rest)).1 ≥ 255 then .done (.exit ⟨c.line, c.col, indexMsg ('R' :: ds)⟩)
      else .done (.ok ⟨.reg (strtoll 10 (ds ++ rest)).1.toNat, c.line, c.col⟩ ((c.next.getD c).skip (fun ch => !isSeparator ch && isDecimal ch)))) ∧
    ((c.next.getD c).skip (fun ch => !isSeparator ch && isDecimal ch)).text = rest := by
  obtain ⟨c1, h1, h1'⟩ := Cur.next_cons ht
  have hz : c1.peek ≠ 'Z' := by
    rw [Cur.peek_of h1']
    cases ds with
    | nil =>
      cases rest with
      | nil => decide
      | cons x xs =>
        have := he x rfl
        rintro h
        simp at h
        subst h
        simp [separators] at this
    | cons x xs =>
      have := hd x (by simp)
      unfold decimal at this
      rintro h
      simp at h
      subst h
      exact absurd this (by decide)
  have h2 : (c1.skip (fun ch => !isSeparator ch && isDecimal ch)).text = rest := by
    refine Cur.skip_exact h1' (fun x hx => decimal_class.2 (hd x hx)) ?_
    intro x hx
    rw [← Bool.not_eq_true, decimal_class]
    exact he.not_decimal x hx
  have h3 : isSeparator (c1.skip (fun ch => !isSeparator ch && isDecimal ch)).peek = true := by
    have := he
    rw [← h2] at this
    exact this.peek
  rw [h1, Option.getD_some]
  refine ⟨?_, h2⟩
  unfold lexRegister
  rw [h1]
  dsimp only
  have hb : between c.text rest = 'R' :: ds := by
    unfold between
    rw [ht]
    simp only [List.length_cons, List.length_append]
    rw [show ds.length + rest.length + 1 - rest.length = ds.length + 1 by omega, List.take_succ_cons, List.take_left]
  rw [if_neg hz, h3, h2, h1', hb]
  simp only [Bool.not_true, Bool.false_eq_true, if_false]

theorem lexRegister_inv {c c' : Cur} {t : Token} (hz : '\x00' ∉ c.text) (hR : c.peek = 'R') (h : lexRegister c = .done (.ok t c')) :
    ∃ w, c.text = w ++ c'.text ∧ Lexeme w c'.text t.kind := by
  have hnil : c.text ≠ [] := by
    intro h; rw [Cur.peek, h] at hR; exact absurd hR (by decide)
  obtain ⟨x, xs, ht⟩ := List.exists_cons_of_ne_nil hnil
  obtain rfl : x = 'R' := by rw [Cur.peek_of ht] at hR; simpa using hR
  have hz' : '\x00' ∉ xs := by rw [ht] at hz; simp at hz; exact hz
  obtain ⟨c1, h1, h1'⟩ := Cur.next_cons ht
  by_cases hZ : c1.peek = 'Z'
  · unfold lexRegister at h
    rw [h1] at h
    dsimp only at h
    rw [if_pos hZ] at h
    cases h2 : c1.next with
    | none => rw [h2] at h; simp at h
    | some c2 =>
      rw [h2] at h
      dsimp only at h
      split at h
      · simp at h
      · rename_i hs
        simp only [LexStep.done.injEq, TokRes.ok.injEq] at h
        obtain ⟨rfl, rfl⟩ := h
        have h2' := Cur.next_text h2
        rw [hZ, h1'] at h2'
        refine ⟨['R', 'Z'], by rw [ht, h2']; rfl, .zero (ends_of_sep (l := c2.line) (k := c2.col) ?_ (by simpa using hs))⟩
        intro hm; apply hz'; rw [h2']; simp [hm]
  · obtain ⟨ds, rest, hsplit, hds, hrest⟩ : ∃ ds rest, xs = ds ++ rest ∧ (∀ x ∈ ds, decimal x) ∧ (∀ x, rest.head? = some x → ¬ decimal x) := by
      refine ⟨xs.takeWhile isDecimal, xs.dropWhile isDecimal, (List.takeWhile_append_dropWhile).symm,
        fun x hx => isDecimal_spec.1 (takeWhile_mem hx), ?_⟩
      intro x hx hd
      have := dropWhile_head hx
      rw [isDecimal_spec.2 hd] at this; simp at this
    subst hsplit
    have hsk : (c1.skip (fun ch => !isSeparator ch && isDecimal ch)).text = rest := by
      refine Cur.skip_exact h1' (fun x hx => decimal_class.2 (hds x hx)) ?_
      intro x hx
      rw [← Bool.not_eq_true, decimal_class]
      exact hrest x hx
    have he : Ends rest := by
      unfold lexRegister at h
      rw [h1] at h
      dsimp only at h
      rw [if_neg hZ] at h
      split at h
      · simp at h
      · rename_i hs
        refine ends_of_sep (l := 0) (k := 0) (fun hm => hz' (by simp [hm])) ?_
        unfold Cur.peek at hs ⊢
        rw [hsk] at hs
        simpa using hs
    obtain ⟨h5, h6⟩ := lexRegister_digits ht hds he
    rw [h5] at h
    split at h
    · simp at h
    · rename_i hlen
      split at h
      · simp at h
      · rename_i hrange
        simp only [LexStep.done.injEq, TokRes.ok.injEq] at h
        obtain ⟨rfl, rfl⟩ := h
        refine ⟨'R' :: ds, by rw [h6, ht]; rfl, ?_⟩
        rw [h6]
        by_cases hne : ds = []
        · subst hne
          have hnf : ¬ NumberFollows rest := fun hf => by
            have := strtoll_follows hf
            simp at hlen
            omega
          simp only [List.nil_append, strtoll_none hnf, Int.toNat_zero]
          exact .bare he hnf
        · rw [strtoll_digits hne hds hrest] at hrange ⊢
          simp only [saturated, Bool.false_eq_true, if_false, not_or, Int.not_lt, ge_iff_le, Int.not_le] at hrange ⊢
          rw [show (min (2 ^ 63 - 1) (numeral 10 ds : Int)).toNat = numeral 10 ds by omega]
          exact .reg hne hds (by omega) he

/-! ### Names -/

theorem lexIdent_word {start pre v rest : Str} {x : Char} {c : Cur} (hc : c.text = x :: (v ++ rest)) (hs : start = pre ++ x :: v ++ rest)
    (hv : ∀ y ∈ v, isSeparator y = false) (he : Ends rest) :
    ∃ c', c'.text = rest ∧ lexIdent start c = if (pre ++ x :: v).getLast? = some ':' then .label c' else .ident (pre ++ x :: v) c' := by
  obtain ⟨c1, h1, h1'⟩ := Cur.next_cons hc
  have h2 : (c1.skip (fun ch => !isSeparator ch)).text = rest := by
    refine Cur.skip_exact h1' (fun y hy => by simp [hv y hy]) ?_
    intro y hy
    have := he.sep (l := 0) (k := 0)
    cases rest with
    | nil => simp at hy
    | cons z zs => simp at hy; subst hy; simpa [Cur.peek] using this
  refine ⟨_, h2, ?_⟩
  unfold lexIdent
  rw [h1]
  dsimp only
  rw [h2, hs, between_append]

theorem lexIdent_inv {start pre s : Str} {c c2 : Cur} (hs : start = pre ++ c.text) (hz : '\x00' ∉ c.text)
    (h : (lexIdent start c = .label c2 ∧ s = between start c2.text) ∨ lexIdent start c = .ident s c2) :
    ∃ x v, c.text = x :: (v ++ c2.text) ∧ (∀ y ∈ v, y ∉ separators) ∧ Ends c2.text ∧ s = pre ++ x :: v ∧
      (s.getLast? = some ':' ↔ lexIdent start c = .label c2) := by
  unfold lexIdent at h ⊢
  cases h1 : c.next with
  | none => rw [h1] at h; simp at h
  | some c1 =>
    have h1' := Cur.next_text h1
    rw [h1] at h
    dsimp only at h ⊢
    obtain ⟨c3, hc3⟩ : ∃ c3, c1.skip (fun ch => !isSeparator ch) = c3 := ⟨_, rfl⟩
    rw [hc3] at h ⊢
    have h4 : c1.text = c1.text.takeWhile (fun ch => !isSeparator ch) ++ c3.text := by
      rw [← hc3, Cur.skip_text, List.takeWhile_append_dropWhile]
    have h5 : start = (pre ++ c.peek :: c1.text.takeWhile (fun ch => !isSeparator ch)) ++ c3.text := by
      rw [List.append_assoc, List.cons_append, ← h4, ← h1', hs]
    have h6 : c3 = c2 ∧ s = pre ++ c.peek :: c1.text.takeWhile (fun ch => !isSeparator ch) := by
      have hb : between start c3.text = pre ++ c.peek :: c1.text.takeWhile (fun ch => !isSeparator ch) := by
        rw [h5, between_append]
      rcases h with ⟨h, h'⟩ | h
      · split at h
        · simp only [IdentStep.label.injEq] at h; subst h; exact ⟨rfl, h'.trans hb⟩
        · simp at h
      · split at h
        · simp at h
        · simp only [IdentStep.ident.injEq] at h; exact ⟨h.2, h.1.symm.trans hb⟩
    obtain ⟨rfl, h7⟩ := h6
    refine ⟨c.peek, _, by rw [h1', ← h4], ?_, ?_, h7, ?_⟩
    · intro y hy
      have h8 := takeWhile_mem hy
      simp only [Bool.not_eq_true'] at h8
      exact (not_separator_iff.1 h8).1
    · refine ends_of_sep (l := c3.line) (k := c3.col) ?_ ?_
      · intro hm; apply hz; rw [h1', h4]; simp [hm]
      · have := Cur.skip_peek (fun ch => !isSeparator ch) c1 (by decide)
        rw [hc3] at this
        simpa using this
    · rw [h7, h5, between_append]
      generalize (pre ++ c.peek :: c1.text.takeWhile (fun ch => !isSeparator ch)) = y
      split
      · rename_i hl; simp [hl]
      · rename_i hl; simp [hl]

/-! ### Predicates -/

/-- `lexPredicate` after the letter. -/
def predTail (c c2 : Cur) (negated : Bool) : LexStep :=
  let isTrue : Bool := isContained c!"Tt" c2.peek
  let index : Option Nat :=
    if isTrue then some 7
    else if isDecimal c2.peek then some (c2.peek.toNat - '0'.toNat)
    else none
  match index with
  | none => .fall c2
  | some idx =>
    match c2.next with
    | none => .done (.ub .readPastEnd)
    | some c3 =>
      if isSeparator c3.peek then
        if !isTrue && idx > 6 then .done (.exit ⟨c.line, c.col, "out of range predicate"⟩)
        else .done (.ok ⟨.pred idx negated, c.line, c.col⟩ c3)
      else .fall c3

theorem lexPredicate_prefix {c : Cur} {p t : Str} {neg : Bool} (ht : c.text = p ++ t) (hp : PredPrefix p neg) :
    ∃ c2, c2.text = t ∧ lexPredicate c = predTail c c2 neg := by
  cases hp with
  | @pos p h =>
    obtain ⟨c2, h2, h2'⟩ := Cur.next_cons ht
    have hp : c.peek = p := Cur.peek_of ht
    have hn : p ≠ '!' := by rcases h with rfl | rfl <;> decide
    refine ⟨c2, h2', ?_⟩
    unfold lexPredicate
    simp only [hp, hn, decide_false, Bool.false_eq_true, if_false, Bool.false_and, h2]
    rfl
  | @neg p h =>
    obtain ⟨c1, h1, h1'⟩ := Cur.next_cons ht
    obtain ⟨c2, h2, h2'⟩ := Cur.next_cons h1'
    have hp : c.peek = '!' := Cur.peek_of ht
    have hp1 : isContained c!"Pp" c1.peek = true := by
      rw [Cur.peek_of h1']
      rcases h with rfl | rfl <;> rfl
    refine ⟨c2, h2', ?_⟩
    unfold lexPredicate
    simp only [hp, decide_true, if_true, h1, hp1, Bool.not_true, Bool.and_false, Bool.false_eq_true, if_false, h2]
    rfl

theorem lexPredicate_shape {c : Cur} (hc : isContained c!"!Pp" c.peek = true) :
    (∃ p t neg, PredPrefix p neg ∧ c.text = p ++ t) ∨ ∃ e, lexPredicate c = .done (.exit e) := by
  have hnil : c.text ≠ [] := by
    intro h; rw [Cur.peek, h] at hc; exact absurd hc (by decide)
  obtain ⟨x, xs, ht⟩ := List.exists_cons_of_ne_nil hnil
  have hx : c.peek = x := Cur.peek_of ht
  rcases isContained_bangPp hc with h | h | h
  · obtain ⟨c1, h1, h1'⟩ := Cur.next_cons ht
    by_cases hp : isContained c!"Pp" c1.peek = true
    · left
      have hnil1 : xs ≠ [] := by
        rintro rfl; rw [Cur.peek, h1'] at hp; exact absurd hp (by decide)
      obtain ⟨y, ys, rfl⟩ := List.exists_cons_of_ne_nil hnil1
      rw [Cur.peek_of h1'] at hp
      exact ⟨['!', y], ys, true, .neg (isContained_Pp hp), by rw [ht, ← hx, h]; rfl⟩
    · right
      unfold lexPredicate
      simp only [h, decide_true, if_true, h1]
      simp only [Bool.not_eq_true] at hp
      simp only [hp, Bool.not_false, Bool.and_self, if_true]
      exact ⟨_, rfl⟩
  · exact .inl ⟨[x], xs, false, .pos (.inl (hx ▸ h)), ht⟩
  · exact .inl ⟨[x], xs, false, .pos (.inr (hx ▸ h)), ht⟩

theorem isContained_Tt {c : Char} : isContained c!"Tt" c = true ↔ c = 'T' ∨ c = 't' := by
  simp [isContained]

theorem _root_.Nxas.Spec.PredName.chars {x : Char} {i : Nat} (h : PredName x i) : x ∈ ['T', 't'] ∨ decimal x := by
  cases h with
  | true h => left; simpa using h
  | index h =>
    right
    unfold decimal
    simp only [char_le] at h ⊢
    exact ⟨h.1, Nat.le_trans h.2 (by decide)⟩

theorem predTail_pred {c c2 : Cur} {neg : Bool} {x : Char} {rest : Str} {i : Nat} (ht : c2.text = x :: rest) (hn : PredName x i)
    (he : Ends rest) : ∃ c', predTail c c2 neg = .done (.ok ⟨.pred i neg, c.line, c.col⟩ c') ∧ c'.text = rest := by
  obtain ⟨c3, h3, h3'⟩ := Cur.next_cons ht
  have hsep : isSeparator c3.peek = true := by
    rw [← h3'] at he; exact he.peek
  have hp : c2.peek = x := Cur.peek_of ht
  refine ⟨c3, ?_, h3'⟩
  unfold predTail
  rw [hp]
  cases hn with
  | true h =>
    simp only [isContained_Tt.2 h, if_true, h3, hsep]
    rfl
  | index h =>
    have hd : isDecimal x = true := isDecimal_spec.2 (by
      unfold decimal
      simp only [char_le] at h ⊢
      exact ⟨h.1, Nat.le_trans h.2 (by decide)⟩)
    have ht : isContained c!"Tt" x = false := by
      rw [← Bool.not_eq_true, isContained_Tt]
      rintro (rfl | rfl) <;> exact absurd hd (by decide)
    have hv : digit x = x.toNat - '0'.toNat := by
      unfold digit
      rw [if_pos (by rw [char_le]; simp only [char_le] at h; exact Nat.le_trans h.2 (by decide))]
      rfl
    have h6 : ¬ x.toNat - '0'.toNat > 6 := by
      simp only [char_le, show '0'.toNat = 48 from rfl, show '6'.toNat = 54 from rfl] at h ⊢
      omega
    simp only [ht, Bool.false_eq_true, if_false, hd, if_true, h3, hsep, Bool.not_false, Bool.true_and, h6, decide_false, hv]

theorem predTail_word {c c2 : Cur} {neg : Bool} {x : Char} {cs rest : Str} (ht : c2.text = x :: (cs ++ rest))
    (hc : x ∈ ['T', 't'] ∨ decimal x → cs ≠ []) (hs : ∀ y ∈ cs, isSeparator y = false) :
    ∃ pre x' cs', x :: cs = pre ++ x' :: cs' ∧ (∀ y ∈ cs', isSeparator y = false) ∧
      ∃ c', predTail c c2 neg = .fall c' ∧ c'.text = x' :: (cs' ++ rest) := by
  have hp : c2.peek = x := Cur.peek_of ht
  by_cases hx : x ∈ ['T', 't'] ∨ decimal x
  · obtain ⟨y, ys, rfl⟩ := List.exists_cons_of_ne_nil (hc hx)
    obtain ⟨c3, h3, h3'⟩ := Cur.next_cons ht
    refine ⟨[x], y, ys, rfl, fun z hz => hs z (by simp [hz]), c3, ?_, h3'⟩
    have hy : isSeparator c3.peek = false := by rw [Cur.peek_of h3']; exact hs y (by simp)
    unfold predTail
    rw [hp]
    by_cases hT : isContained c!"Tt" x = true
    · simp only [hT, if_true, h3, hy, Bool.false_eq_true, if_false]
    · have hd : isDecimal x = true := by
        rcases hx with hx | hx
        · exact absurd (isContained_Tt.2 (by simpa using hx)) hT
        · exact isDecimal_spec.2 hx
      simp only [hT, hd, if_true, h3, hy, Bool.false_eq_true, if_false]
  · refine ⟨[], x, cs, rfl, hs, c2, ?_, ht⟩
    rw [not_or] at hx
    have hT : isContained c!"Tt" x = false := by
      rw [← Bool.not_eq_true, isContained_Tt]; simpa using hx.1
    have hd : isDecimal x = false := by rw [← Bool.not_eq_true, isDecimal_spec]; exact hx.2
    unfold predTail
    simp only [hp, hT, hd, Bool.false_eq_true, if_false]

theorem predTail_done {c c2 c' : Cur} {neg : Bool} {t : Token} (hz : '\x00' ∉ c2.text) (h : predTail c c2 neg = .done (.ok t c')) :
    ∃ x i, c2.text = x :: c'.text ∧ PredName x i ∧ Ends c'.text ∧ t.kind = .pred i neg := by
  unfold predTail at h
  dsimp only at h
  obtain ⟨x, hx⟩ : ∃ x, c2.peek = x := ⟨_, rfl⟩
  rw [hx] at h
  have fin : ∀ i, (match c2.next with
      | none => .done (.ub .readPastEnd)
      | some c3 =>
        if isSeparator c3.peek then
          if !isContained c!"Tt" x && decide (i > 6) then .done (.exit ⟨c.line, c.col, "out of range predicate"⟩)
          else .done (.ok ⟨.pred i neg, c.line, c.col⟩ c3)
        else .fall c3) = LexStep.done (.ok t c') → (isContained c!"Tt" x = true ∧ i = 7 ∨ (isContained c!"Tt" x = false ∧ isDecimal x = true ∧ i = x.toNat - '0'.toNat)) →
      ∃ x i, c2.text = x :: c'.text ∧ PredName x i ∧ Ends c'.text ∧ t.kind = .pred i neg := by
    intro i h hi
    cases h3 : c2.next with
    | none => rw [h3] at h; simp at h
    | some c3 =>
      have h3' := Cur.next_text h3
      rw [hx] at h3'
      rw [h3] at h
      dsimp only at h
      split at h
      · rename_i hsep
        split at h
        · simp at h
        · rename_i hr
          simp only [LexStep.done.injEq, TokRes.ok.injEq] at h
          obtain ⟨rfl, rfl⟩ := h
          refine ⟨x, i, h3', ?_, ends_of_sep (l := c3.line) (k := c3.col) (fun hm => hz (by rw [h3']; simp [hm])) hsep, rfl⟩
          rcases hi with ⟨h1, rfl⟩ | ⟨h1, h2, rfl⟩
          · exact .true (isContained_Tt.1 h1)
          · rw [h1] at hr
            have h2 := isDecimal_spec.1 h2
            have h6 : x ≤ '6' := by
              unfold decimal at h2
              simp only [char_le, show '0'.toNat = 48 from rfl, show '9'.toNat = 57 from rfl, show '6'.toNat = 54 from rfl] at h2 hr ⊢
              simp at hr
              omega
            have := PredName.index ⟨h2.1, h6⟩
            unfold digit at this
            rw [if_pos h2.2] at this
            exact this
      · simp at h
  by_cases hT : isContained c!"Tt" x = true
  · rw [hT] at h
    simp only [if_true] at h
    exact fin 7 (by rw [hT]; exact h) (.inl ⟨hT, rfl⟩)
  · rw [Bool.not_eq_true] at hT
    rw [hT] at h
    simp only [Bool.false_eq_true, if_false] at h
    by_cases hd : isDecimal x = true
    · rw [if_pos hd] at h
      exact fin _ (by rw [hT]; exact h) (.inr ⟨hT, hd, rfl⟩)
    · rw [if_neg hd] at h; simp at h

theorem predTail_fall {c c2 c1 : Cur} {neg : Bool} (h : predTail c c2 neg = .fall c1) (hn : c2.text ≠ []) :
    (c1 = c2 ∧ ∃ x tl, c2.text = x :: tl ∧ ¬ (x ∈ ['T', 't'] ∨ decimal x)) ∨ ∃ x, c2.text = x :: c1.text ∧ isSeparator c1.peek = false := by
  obtain ⟨x, tl, ht⟩ := List.exists_cons_of_ne_nil hn
  have hx : c2.peek = x := Cur.peek_of ht
  unfold predTail at h
  dsimp only at h
  rw [hx] at h
  have fin : ∀ i, (match c2.next with
      | none => .done (.ub .readPastEnd)
      | some c3 =>
        if isSeparator c3.peek then
          if !isContained c!"Tt" x && decide (i > 6) then .done (.exit ⟨c.line, c.col, "out of range predicate"⟩)
          else .done (.ok ⟨.pred i neg, c.line, c.col⟩ c3)
        else .fall c3) = LexStep.fall c1 → ∃ x, c2.text = x :: c1.text ∧ isSeparator c1.peek = false := by
    intro i h
    cases h3 : c2.next with
    | none => rw [h3] at h; simp at h
    | some c3 =>
      have h3' := Cur.next_text h3
      rw [h3] at h
      dsimp only at h
      split at h
      · split at h <;> simp at h
      · rename_i hs
        simp only [LexStep.fall.injEq] at h
        subst h
        exact ⟨_, h3', by simpa using hs⟩
  by_cases hT : isContained c!"Tt" x = true
  · rw [hT] at h
    simp only [if_true] at h
    exact .inr (fin 7 (by rw [hT]; exact h))
  · rw [Bool.not_eq_true] at hT
    rw [hT] at h
    simp only [Bool.false_eq_true, if_false] at h
    by_cases hd : isDecimal x = true
    · rw [if_pos hd] at h
      exact .inr (fin _ (by rw [hT]; exact h))
    · rw [if_neg hd] at h
      simp only [LexStep.fall.injEq] at h
      refine .inl ⟨h.symm, x, tl, ht, ?_⟩
      rw [not_or]
      refine ⟨?_, fun h => hd (isDecimal_spec.2 h)⟩
      intro hm
      rw [isContained_Tt.2 (by simpa using hm)] at hT
      simp at hT

/-! ### One token -/

theorem operator_spec {x : Char} : isOperator x = true ↔ ∃ k, (x, k) ∈ operators := by
  simp only [isOperator, isContained, operators, List.contains_eq_mem, List.mem_cons, List.not_mem_nil, or_false, decide_eq_true_eq,
    Prod.mk.injEq]
  constructor
  · rintro (h | h | h | h | h | h | h | h | h) <;> simp [h]
  · rintro ⟨k, h⟩
    grind

theorem operatorKind_spec {x : Char} {k : Kind} (h : (x, k) ∈ operators) : operatorKind x = k := by
  simp only [operators, List.mem_cons, List.not_mem_nil, or_false, Prod.mk.injEq] at h
  rcases h with ⟨rfl, rfl⟩ | ⟨rfl, rfl⟩ | ⟨rfl, rfl⟩ | ⟨rfl, rfl⟩ | ⟨rfl, rfl⟩ | ⟨rfl, rfl⟩ | ⟨rfl, rfl⟩ | ⟨rfl, rfl⟩ | ⟨rfl, rfl⟩ <;> rfl

theorem operator_mem {x : Char} (h : isOperator x = true) : (x, operatorKind x) ∈ operators := by
  obtain ⟨k, hk⟩ := operator_spec.1 h
  rwa [operatorKind_spec hk]

theorem operator_separator {x : Char} (h : isOperator x = true) : x ∈ separators := by
  simp only [isOperator, isContained, List.contains_eq_mem, List.mem_cons, List.not_mem_nil, or_false, decide_eq_true_eq] at h
  simp only [separators, List.mem_cons, List.not_mem_nil, or_false]
  grind

theorem separator_cases {x : Char} (h : x ∈ separators) : x ∈ blanks ∨ x = '.' ∨ isOperator x = true := by
  simp only [isOperator, isContained, List.contains_eq_mem, List.mem_cons, List.not_mem_nil, or_false, decide_eq_true_eq, blanks]
  simp only [separators, List.mem_cons, List.not_mem_nil, or_false] at h
  grind

theorem plusMinus {x : Char} : isContained c!"+-" x = true ↔ x = '+' ∨ x = '-' := by simp [isContained]

theorem peek1_of {c : Cur} {x : Char} {xs : Str} (h : c.text = x :: xs) : c.peek1 = xs.headD '\x00' := by
  rw [Cur.peek1, h]; rfl

theorem not_decimal_nul : isDecimal '\x00' = false := by decide

theorem lexHead_operator {c : Cur} {x : Char} {k : Kind} {rest : Str} (ht : c.text = x :: rest) (h : (x, k) ∈ operators)
    (hd : x ∈ ['+', '-'] → ∀ d, rest.head? = some d → ¬ decimal d) :
    ∃ c', lexHead c = .done (.ok ⟨k, c.line, c.col⟩ c') ∧ c'.text = rest := by
  obtain ⟨c1, h1, h1'⟩ := Cur.next_cons ht
  have hp : c.peek = x := Cur.peek_of ht
  have hcond : (!isContained c!"+-" x || !isDecimal c.peek1) = true := by
    by_cases hx : isContained c!"+-" x = true
    · have hx' : x ∈ ['+', '-'] := by simpa using plusMinus.1 hx
      rw [peek1_of ht]
      cases rest with
      | nil => simp [not_decimal_nul]
      | cons y ys =>
        have := hd hx' y rfl
        rw [← isDecimal_spec, Bool.not_eq_true] at this
        simp [this]
    · simp [hx]
  refine ⟨c1, ?_, h1'⟩
  unfold lexHead
  simp only [hp, operator_spec.2 ⟨k, h⟩, hcond, Bool.and_self, if_true, h1, operatorKind_spec h]

theorem decimal_facts {d : Char} (hd : decimal d) : isOperator d = false ∧ isContained c!"!Pp" d = false ∧ isContained c!"+-" d = false ∧ d ≠ 'D' := by
  have h : isSeparator d = false := digits_not_separator (isDecimal_spec.2 hd)
  have hP : ∀ x ∈ ['!', 'P', 'p', '+', '-', 'D'], ¬ decimal x := by unfold decimal; decide
  refine ⟨?_, ?_, ?_, fun e => hP d (by simp [e]) hd⟩
  · rw [← Bool.not_eq_true]
    exact fun ho => (not_separator_iff.1 h).1 (operator_separator ho)
  · rw [← Bool.not_eq_true]
    intro hc
    rcases isContained_bangPp hc with rfl | rfl | rfl <;> exact hP _ (by simp) hd
  · rw [← Bool.not_eq_true]
    intro hc
    rcases plusMinus.1 hc with rfl | rfl <;> exact hP _ (by simp) hd

theorem lexHead_number {c : Cur} {sg : Str} {neg : Bool} {d : Char} {tl : Str} (ht : c.text = sg ++ d :: tl) (hs : Sign sg neg)
    (hd : decimal d) (hn : sg = [] → tl.head? ≠ some 'D') : lexHead c = .done (lexNumber c) := by
  obtain ⟨f1, f2, f3, f4⟩ := decimal_facts hd
  cases hs with
  | none =>
    have hp : c.peek = d := Cur.peek_of ht
    have h1 : (c.peek1 != 'D') = true := by
      rw [peek1_of ht]
      have := hn rfl
      cases tl with
      | nil => decide
      | cons y ys => simp at this; simpa using this
    unfold lexHead
    simp [hp, f1, f2, isDecimal_spec.2 hd, h1]
  | plus =>
    have hp : c.peek = '+' := Cur.peek_of ht
    have h1 : c.peek1 = d := peek1_of ht
    unfold lexHead
    simp [hp, h1, isDecimal_spec.2 hd, f4, isOperator, isContained]
  | minus =>
    have hp : c.peek = '-' := Cur.peek_of ht
    have h1 : c.peek1 = d := peek1_of ht
    unfold lexHead
    simp [hp, h1, isDecimal_spec.2 hd, f4, isOperator, isContained]

theorem lexHead_pred {c : Cur} {p t : Str} {neg : Bool} (ht : c.text = p ++ t) (hp : PredPrefix p neg) : lexHead c = lexPredicate c := by
  unfold lexHead
  cases hp with
  | pos h =>
    rw [Cur.peek_of ht]
    rcases h with rfl | rfl <;> simp [isOperator, isContained]
  | neg h =>
    rw [Cur.peek_of ht]
    simp [isOperator, isContained]

theorem lexHead_R {c : Cur} {t : Str} (ht : c.text = 'R' :: t) : lexHead c = lexRegister c := by
  unfold lexHead
  rw [Cur.peek_of ht]
  simp [isOperator, isContained, isDecimal]

theorem not_sep {t : Str} (hz : '\x00' ∉ t) {cs : Str} (hm : ∀ x ∈ cs, x ∈ t) (hs : ∀ x ∈ cs, x ∉ separators) :
    ∀ x ∈ cs, isSeparator x = false :=
  fun x hx => not_separator_iff.2 ⟨hs x hx, fun e => hz (e ▸ hm x hx)⟩

/-- A name is read as an identifier or skipped as a label. -/
theorem lex_word {c : Cur} {w rest : Str} (hz : '\x00' ∉ c.text) (ht : c.text = w ++ rest) (h : Word w rest) :
    ∃ c1 c', lexHead c = .fall c1 ∧ c'.text = rest ∧
      lexIdent c.text c1 = if w.getLast? = some ':' then .label c' else .ident w c' := by
  cases h with
  | @plain x cs rest hc hn hd hs he =>
    have hp : c.peek = x := Cur.peek_of ht
    have hop : isOperator x = false := by
      rw [← Bool.not_eq_true]
      rintro ho
      rcases hc with hc | rfl
      · exact hc (operator_separator ho)
      · exact absurd ho (by decide)
    have hpm : isContained c!"+-" x = false := by
      rw [← Bool.not_eq_true]
      intro h
      rcases plusMinus.1 h with rfl | rfl <;> exact absurd hop (by decide)
    have hP : isContained c!"!Pp" x = false := by
      rw [← Bool.not_eq_true]
      intro h
      rcases isContained_bangPp h with rfl | rfl | rfl <;> simp at hn
    have hR : x ≠ 'R' := by rintro rfl; simp at hn
    have hd' : isDecimal x = false := by rw [← Bool.not_eq_true, isDecimal_spec]; exact hd
    obtain ⟨c', h1, h2⟩ := lexIdent_word (start := c.text) (pre := []) (v := cs) (x := x) (c := c) ht (by simp [ht])
      (not_sep hz (by intro y hy; rw [ht]; simp [hy]) hs) he
    refine ⟨c, c', ?_, h1, h2⟩
    unfold lexHead
    simp [hp, hop, hP, hd', hpm, hR]
  | @dimension x cs rest hd hs he =>
    obtain ⟨f1, f2, f3, f4⟩ := decimal_facts hd
    have hp : c.peek = x := Cur.peek_of ht
    have h1 : c.peek1 = 'D' := peek1_of ht
    have hR : x ≠ 'R' := by rintro rfl; exact absurd hd (by unfold decimal; decide)
    obtain ⟨c', h1', h2⟩ := lexIdent_word (start := c.text) (pre := []) (v := 'D' :: cs) (x := x) (c := c) ht (by simp [ht])
      (not_sep hz (by intro y hy; rw [ht]; simp at hy ⊢; grind) (by intro y hy; rcases List.mem_cons.1 hy with rfl | hy; · decide
                                                                    · exact hs y hy)) he
    refine ⟨c, c', ?_, h1', h2⟩
    unfold lexHead
    simp [hp, f1, f2, h1, hR]
  | @register cs rest hzz hn hs he =>
    have hs' := not_sep hz (cs := cs) (by intro y hy; rw [ht]; simp [hy]) hs
    rw [lexHead_R ht]
    obtain ⟨c1, h1, h1'⟩ := Cur.next_cons ht
    obtain ⟨ds, x, v, hcs, hds, hx⟩ : ∃ ds x v, cs = ds ++ x :: v ∧ (∀ y ∈ ds, decimal y) ∧ ¬ decimal x := by
      have e := (List.takeWhile_append_dropWhile (p := isDecimal) (l := cs)).symm
      cases hdw : cs.dropWhile isDecimal with
      | nil =>
        obtain ⟨y, hy, hyd⟩ := hn
        rw [hdw, List.append_nil] at e
        rw [e] at hy
        exact absurd (isDecimal_spec.1 (takeWhile_mem hy)) hyd
      | cons x v =>
        rw [hdw] at e
        refine ⟨_, x, v, e, fun y hy => isDecimal_spec.1 (takeWhile_mem hy), ?_⟩
        intro hd
        have := dropWhile_head (p := isDecimal) (t := cs) (c := x) (by rw [hdw]; rfl)
        rw [isDecimal_spec.2 hd] at this
        simp at this
    subst hcs
    have hZ : c1.peek ≠ 'Z' := by
      rw [Cur.peek_of h1']
      intro h
      apply hzz
      cases ds with
      | nil => simpa using h
      | cons y ys => simpa using h
    have h2 : (c1.skip (fun ch => !isSeparator ch && isDecimal ch)).text = x :: (v ++ rest) := by
      refine Cur.skip_exact (w := ds) (by rw [h1']; simp) (fun y hy => decimal_class.2 (hds y hy)) ?_
      intro y hy
      simp at hy
      subst hy
      rw [← Bool.not_eq_true, decimal_class]
      exact hx
    have h3 : isSeparator (c1.skip (fun ch => !isSeparator ch && isDecimal ch)).peek = false := by
      rw [Cur.peek_of h2]
      exact hs' x (by simp)
    obtain ⟨c', h4, h5⟩ := lexIdent_word (start := c.text) (pre := 'R' :: ds) (v := v) (x := x) h2 (by simp [ht])
      (fun y hy => hs' y (by simp [hy])) he
    refine ⟨_, c', ?_, h4, h5⟩
    unfold lexRegister
    rw [h1]
    dsimp only
    rw [if_neg hZ, h3]
    simp
  | @predicate p cs rest neg x hp hc hs he =>
    have hs' := not_sep hz (cs := cs) (by intro y hy; rw [ht]; simp [hy]) hs
    rw [List.append_assoc, List.cons_append] at ht
    obtain ⟨c2, h2, h3⟩ := lexPredicate_prefix ht hp
    obtain ⟨pre, x', cs', h4, h5, c', h6, h7⟩ := predTail_word (c := c) (neg := neg) h2 hc hs'
    obtain ⟨c3, h8, h9⟩ := lexIdent_word (start := c.text) (pre := p ++ pre) (v := cs') (x := x') h7
      (by rw [ht, ← List.cons_append, h4]; simp) h5 he
    refine ⟨c', c3, by rw [lexHead_pred ht hp, h3, h6], h8, ?_⟩
    rw [h9]
    simp only [h4, List.append_assoc]

/-- A token of the grammar is read as such. -/
theorem lex_lexeme {c : Cur} {w rest : Str} {k : Kind} (hz : '\x00' ∉ c.text) (ht : c.text = w ++ rest) (h : Lexeme w rest k) :
    (∃ c', lexHead c = .done (.ok ⟨k, c.line, c.col⟩ c') ∧ c'.text = rest) ∨
    (∃ c1 c', lexHead c = .fall c1 ∧ lexIdent c.text c1 = .ident w c' ∧ k = .ident w ∧ c'.text = rest) := by
  cases h with
  | operator h hd => exact .inl (lexHead_operator ht h hd)
  | @pred p rest neg x i hp hn he =>
    left
    rw [List.append_assoc] at ht
    obtain ⟨c2, h2, h3⟩ := lexPredicate_prefix ht hp
    rw [lexHead_pred ht hp, h3]
    exact predTail_pred h2 hn he
  | @int sg ds rest neg v hs hv he hn =>
    left
    obtain ⟨d, tl, rfl, hd⟩ := hv.head
    have hD : sg = [] → (tl ++ rest).head? ≠ some 'D' := by
      intro _ hh
      cases tl with
      | nil => exact absurd (he _ hh) (by decide)
      | cons y ys =>
        obtain rfl : y = 'D' := by simpa using hh
        cases hv with
        | dec _ _ h => exact absurd (h 'D' (by simp)) (by unfold decimal; decide)
        | oct h => exact absurd (h 'D' (by simp)) (by unfold octal; decide)
        | hex hx => rcases hx with hx | hx <;> exact absurd hx (by decide)
    rw [lexHead_number (sg := sg) (d := d) (tl := tl ++ rest) (by rw [ht]; simp) hs hd hD]
    obtain ⟨c', h1, h2⟩ := lexNumber_int ht hs hv he hn
    exact ⟨c', by rw [h1], h2⟩
  | @float sg ip fp rest neg hs hi h1 h2 he =>
    left
    obtain ⟨d, tl, rfl⟩ := List.exists_cons_of_ne_nil hi
    have hD : sg = [] → (tl ++ '.' :: (fp ++ rest)).head? ≠ some 'D' := by
      intro _ hh
      cases tl with
      | nil => simp at hh
      | cons y ys =>
        obtain rfl : y = 'D' := by simpa using hh
        exact absurd (h1 'D' (by simp)) (by unfold decimal; decide)
    rw [lexHead_number (sg := sg) (d := d) (tl := tl ++ '.' :: (fp ++ rest)) (by rw [ht]; simp) hs (h1 d (by simp)) hD]
    obtain ⟨c', h3, h4⟩ := lexNumber_float (c := c) (by rw [ht]; simp) hs hi h1 h2 he
    exact ⟨c', by rw [h3], h4⟩
  | zero he =>
    left
    rw [lexHead_R ht]
    exact lexRegister_zero ht he
  | @reg ds rest hn h hv he =>
    left
    rw [lexHead_R ht]
    obtain ⟨h5, h6⟩ := lexRegister_digits ht h he
    refine ⟨_, ?_, h6⟩
    rw [h5, strtoll_digits hn h he.not_decimal]
    simp only [saturated, Bool.false_eq_true, if_false, ne_eq, not_true_eq_false]
    rw [if_neg (by omega), show (min (2 ^ 63 - 1) (numeral 10 ds : Int)).toNat = numeral 10 ds by omega]
  | bare he hf =>
    left
    rw [lexHead_R ht]
    obtain ⟨h5, h6⟩ := lexRegister_digits (ds := []) ht (by simp) he
    refine ⟨_, ?_, h6⟩
    rw [h5, List.nil_append, strtoll_none hf]
    simp
  | word h hl =>
    right
    obtain ⟨c1, c', h1, h2, h3⟩ := lex_word hz ht h
    rw [if_neg hl] at h3
    exact ⟨c1, c', h1, h3, rfl, h2⟩

/-- What is read in one step is a token of the grammar. -/
theorem lex_done_inv {c c' : Cur} {t : Token} (hz : '\x00' ∉ c.text) (hne : c.text ≠ []) (h : lexHead c = .done (.ok t c')) :
    ∃ w, c.text = w ++ c'.text ∧ Lexeme w c'.text t.kind := by
  obtain ⟨x, xs, ht⟩ := List.exists_cons_of_ne_nil hne
  have hp : c.peek = x := Cur.peek_of ht
  have hh := h
  unfold lexHead at h
  dsimp only at h
  rw [hp] at h
  split at h
  · rename_i hop
    rw [Bool.and_eq_true] at hop
    obtain ⟨c1, h1, h1'⟩ := Cur.next_cons ht
    rw [h1] at h
    simp only [LexStep.done.injEq, TokRes.ok.injEq] at h
    obtain ⟨rfl, rfl⟩ := h
    refine ⟨[x], by rw [ht, h1']; rfl, .operator (operator_mem hop.1) ?_⟩
    intro hx d hd
    rw [h1'] at hd
    have h2 := hop.2
    rw [plusMinus.2 (by simpa using hx), peek1_of ht] at h2
    cases xs with
    | nil => simp at hd
    | cons y ys =>
      simp at hd h2
      subst hd
      rw [← isDecimal_spec, h2]; simp
  · rename_i hop
    split at h
    · rename_i hP
      rcases lexPredicate_shape (c := c) (by rw [hp]; exact hP) with ⟨p, t', neg, h1, h2⟩ | ⟨e, h1⟩
      · obtain ⟨c2, h3, h4⟩ := lexPredicate_prefix h2 h1
        rw [h4] at h
        obtain ⟨y, i, h5, h6, h7, h8⟩ := predTail_done (by rw [h3]; intro hm; exact hz (by rw [h2]; simp [hm])) h
        refine ⟨p ++ [y], by rw [h2, ← h3, h5]; simp, ?_⟩
        rw [h8]
        exact .pred h1 h6 h7
      · rw [h1] at h; simp at h
    · split at h
      · rename_i hnum
        rw [Bool.and_eq_true, Bool.or_eq_true] at hnum
        have hstart : ∃ sg neg d tl, c.text = sg ++ d :: tl ∧ Sign sg neg ∧ decimal d := by
          rcases hnum.1 with hd | hs
          · exact ⟨[], false, x, xs, ht, .none, isDecimal_spec.1 hd⟩
          · have hdec : isDecimal c.peek1 = true := by
              by_contra hd
              rw [Bool.not_eq_true] at hd
              apply hop
              rcases plusMinus.1 hs with rfl | rfl <;> simp [isOperator, isContained, hd]
            rw [peek1_of ht] at hdec
            cases xs with
            | nil => exact absurd hdec (by decide)
            | cons y ys =>
              rcases plusMinus.1 hs with rfl | rfl
              · exact ⟨['+'], false, y, ys, ht, .plus, isDecimal_spec.1 hdec⟩
              · exact ⟨['-'], true, y, ys, ht, .minus, isDecimal_spec.1 hdec⟩
        obtain ⟨sg, neg, d, tl, h1, h2, h3⟩ := hstart
        simp only [LexStep.done.injEq] at h
        exact lexNumber_inv hz h1 h2 h3 h
      · split at h
        · rename_i hR
          exact lexRegister_inv hz (hp.trans hR) h
        · simp at h

/-- What goes through the identifier branch is a name of the grammar. -/
theorem lex_fall_inv {c c1 c2 : Cur} {w : Str} (hz : '\x00' ∉ c.text) (hb : c.peek ∉ blanks) (hne : c.text ≠ []) (h : lexHead c = .fall c1)
    (hi : (lexIdent c.text c1 = .label c2 ∧ w = between c.text c2.text) ∨ lexIdent c.text c1 = .ident w c2) :
    c.text = w ++ c2.text ∧ Word w c2.text ∧ (w.getLast? = some ':' ↔ lexIdent c.text c1 = .label c2) := by
  obtain ⟨y, ys, ht⟩ := List.exists_cons_of_ne_nil hne
  have hp : c.peek = y := Cur.peek_of ht
  obtain ⟨pre, hpre, -⟩ := lexHead_fall h
  obtain ⟨x, v, h1, h2, h3, h4, h5⟩ := lexIdent_inv hpre (by intro hm; exact hz (by rw [hpre]; simp [hm])) hi
  have htext : c.text = w ++ c2.text := by rw [h4, hpre, h1]; simp
  refine ⟨htext, ?_, h5⟩
  have hh := h
  unfold lexHead at h
  dsimp only at h
  rw [hp] at h hb
  split at h
  · split at h <;> simp at h
  · rename_i hop
    split at h
    · rename_i hP
      rcases lexPredicate_shape (c := c) (by rw [hp]; exact hP) with ⟨p, t', neg, hp1, hp2⟩ | ⟨e, he⟩
      · obtain ⟨c3, h6, h7⟩ := lexPredicate_prefix hp2 hp1
        rw [h7] at h
        have hne3 : c3.text ≠ [] := by
          intro he
          have h8 : c1.text = [] := by
            have : predTail c c3 neg = .fall c3 := by
              unfold predTail
              rw [Cur.peek_of he]
              rfl
            rw [this] at h
            simp only [LexStep.fall.injEq] at h
            rw [← h, he]
          rw [h8] at h1
          simp at h1
        rcases predTail_fall h hne3 with ⟨rfl, z, tl, h8, h9⟩ | ⟨z, h8, h9⟩
        · have hx : pre = p := by
            have := hp2.symm.trans hpre
            rw [← h6] at this
            exact (List.append_cancel_right this).symm
          rw [h4, hx]
          rw [h1] at h8
          simp at h8
          exact .predicate hp1 (fun hc => absurd (h8.1 ▸ hc) h9) h2 h3
        · have hx : pre = p ++ [z] := by
            have := hp2.symm.trans hpre
            rw [← h6, h8] at this
            rw [show p ++ z :: c1.text = (p ++ [z]) ++ c1.text by simp] at this
            exact (List.append_cancel_right this).symm
          rw [h4, hx, List.append_assoc]
          refine .predicate hp1 (fun _ => by simp) ?_ h3
          intro y' hy
          simp at hy
          rcases hy with rfl | hy
          · rw [Cur.peek_of h1] at h9
            exact (not_separator_iff.1 h9).1
          · exact h2 y' hy
      · rw [he] at h; simp at h
    · rename_i hP
      split at h
      · simp at h
      · rename_i hnum
        split at h
        · rename_i hR
          subst hR
          obtain ⟨cn, hn1, hn2⟩ := Cur.next_cons ht
          have hfs := (lexRegister_fall h).2.2
          rw [Cur.peek_of h1] at hfs
          unfold lexRegister at h
          rw [hn1] at h
          dsimp only at h
          split at h
          · split at h
            · simp at h
            · split at h <;> simp at h
          · rename_i hZ
            split at h
            · simp only [LexStep.fall.injEq] at h
              have hc1 : ys = ys.takeWhile (fun ch => !isSeparator ch && isDecimal ch) ++ c1.text := by
                rw [← h, Cur.skip_text, hn2, List.takeWhile_append_dropWhile]
              have hmem : ∀ z ∈ ys.takeWhile (fun ch => !isSeparator ch && isDecimal ch), decimal z :=
                fun z hz => decimal_class.1 (takeWhile_mem (p := fun ch => !isSeparator ch && isDecimal ch) hz)
              generalize ys.takeWhile (fun ch => !isSeparator ch && isDecimal ch) = ds at hc1 hmem
              have hx : pre = 'R' :: ds := by
                have := ht.symm.trans hpre
                rw [hc1, ← List.cons_append] at this
                exact (List.append_cancel_right this).symm
              have hxd : ¬ decimal x := by
                intro hd
                have := dropWhile_head (p := fun ch => !isSeparator ch && isDecimal ch) (t := ys) (c := x) (by
                  rw [← hn2, ← Cur.skip_text, h, h1]; rfl)
                rw [decimal_class.2 hd] at this
                simp at this
              rw [h4, hx]
              refine .register ?_ ⟨x, by simp, hxd⟩ ?_ h3
              · intro hz'
                apply hZ
                rw [Cur.peek_of hn2, hc1, h1]
                cases ds with
                | nil => simpa using hz'
                | cons a as => simpa using hz'
              · intro z hz'
                simp at hz'
                rcases hz' with hz' | rfl | hz'
                · exact (not_separator_iff.1 (digits_not_separator (isDecimal_spec.2 (hmem z hz')))).1
                · exact (not_separator_iff.1 hfs).1
                · exact h2 z hz'
            · split at h
              · simp at h
              · split at h <;> simp at h
        · rename_i hR
          simp only [LexStep.fall.injEq] at h
          subst h
          have hx : pre = [] := by
            have := congrArg List.length hpre
            rw [List.length_append] at this
            exact List.length_eq_zero_iff.1 (by omega)
          subst hx
          rw [List.nil_append] at h4
          obtain rfl : x = y := by rw [ht] at h1; simp at h1; exact h1.1.symm
          subst h4
          by_cases hd : decimal x
          · have hD : v.head? = some 'D' := by
              rw [isDecimal_spec.2 hd] at hnum
              simp at hnum
              rw [peek1_of ht] at hnum
              rw [ht] at h1
              simp at h1
              rw [h1] at hnum
              cases v with
              | nil =>
                cases hc2 : c2.text with
                | nil => rw [hc2] at hnum; exact absurd hnum (by decide)
                | cons a as =>
                  rw [hc2] at hnum
                  simp at hnum
                  have := h3 a (by rw [hc2]; rfl)
                  rw [hnum] at this
                  exact absurd this (by decide)
              | cons a as => simpa using hnum
            cases v with
            | nil => simp at hD
            | cons a as =>
              simp at hD
              subst hD
              exact .dimension hd (fun z hz => h2 z (by simp [hz])) h3
          · refine .plain ?_ ?_ hd h2 h3
            · by_cases hs : x ∈ separators
              · rcases separator_cases hs with h | h | h
                · exact absurd h hb
                · exact .inr h
                · exfalso
                  have h6 : isContained c!"+-" x = true := by
                    by_contra hpm
                    rw [Bool.not_eq_true] at hpm
                    apply hop
                    simp [h, hpm]
                  rw [h6] at hnum hop
                  simp [h] at hop hnum
                  rw [hnum] at hop
                  exact absurd hop (by decide)
              · exact .inl hs
            · have : x ≠ '!' ∧ x ≠ 'P' ∧ x ≠ 'p' := by
                simpa [isContained] using hP
              simp [this, hR]

end Nxas
