import Verif.Lemmas.Words
import Verif.Lemmas.Image
import Verif.Spec.Settings
/-
The options of a program: declarations of the program type, the last value of each size.  Uniqueness of the
tokens and of the image of a source.
-/

namespace Nxas

open Spec

/-! ### Uniqueness -/

theorem Lexes.unique {c : Cur} {as bs : List Token} (ha : Lexes c as) (hb : Lexes c bs) : as = bs := by
  induction as generalizing c bs with
  | nil =>
    cases bs with
    | nil => rfl
    | cons b bs =>
      obtain ⟨c', h0, t, c'', h1, h2⟩ := ha
      cases h0
      obtain ⟨c1, h3, h4, -⟩ := Lexes.cons_iff.1 hb
      rw [h3] at h1
      cases h1
      exact absurd h2 h4
  | cons a as ih =>
    obtain ⟨c1, h3, h4, h5⟩ := Lexes.cons_iff.1 ha
    cases bs with
    | nil =>
      obtain ⟨c', h0, t, c'', h1, h2⟩ := hb
      cases h0
      rw [h3] at h1
      cases h1
      exact absurd h2 h4
    | cons b bs =>
      obtain ⟨c2, h6, -, h7⟩ := Lexes.cons_iff.1 hb
      rw [h3] at h6
      cases h6
      rw [ih h5 h7]

/-- A source has one division into tokens. -/
theorem scans_unique {l : Nat} {t : Str} (hz : '\x00' ∉ t) {as bs : List (Kind × Nat)} (ha : Scans l t as) (hb : Scans l t bs) :
    as = bs := by
  obtain ⟨as, h1, rfl⟩ := (scans_iff (c := ⟨t, l, 0⟩) hz).1 ha
  obtain ⟨bs, h2, rfl⟩ := (scans_iff (c := ⟨t, l, 0⟩) hz).1 hb
  rw [h1.unique h2]

theorem visible_self {t : Str} (hz : '\x00' ∉ t) : visible t = t := by
  unfold visible
  rw [List.takeWhile_eq_self_iff]
  intro a ha
  simp only [ne_eq, decide_not, Bool.not_eq_eq_eq_not, Bool.not_true, decide_eq_false_iff_not]
  rintro rfl
  exact hz ha

/-- A source has at most one image. -/
theorem assembles_unique {t : Str} (hz : '\x00' ∉ t) {ws ws' : List (BitVec 64)} (h : Assembles t ws) (h' : Assembles t ws') : ws = ws' := by
  rw [← visible_self hz] at h h'
  have h1 := assemble_iff.2 h
  rw [assemble_iff.2 h'] at h1
  cases h1
  rfl

theorem _root_.Nxas.Spec.IsLabelMap.name {t : Str} {lab : Str → Option Nat} (h : IsLabelMap t lab) {s : Str} {a : Nat} (hs : lab s = some a) :
    IsName s := by
  obtain ⟨pre, h, -⟩ := (h s a).1 hs
  exact h.1.2.1

/-! ### Options -/

theorem type_not_option {w : Str} {p : ProgType} (h : (w, p) ∈ typeNames) : w ∉ optionNames := by
  have : ∀ y ∈ typeNames, y.1 ∉ optionNames := by decide
  exact this _ h

theorem declarator_option {d : Str} {dk : Bool} (h : (d, dk) ∈ declarators) : d ∈ optionNames := by
  have : ∀ y ∈ declarators, y.1 ∈ optionNames := by decide
  exact this _ h

theorem IsDeclarator.iff {s : Str} : IsDeclarator (.ident s) ↔ s = c!".type" ∨ s = c!".dksh" := by
  unfold IsDeclarator declarators
  simp

theorem IsDeclarator.iff_kind {k : Kind} : IsDeclarator k ↔ k = .ident c!".type" ∨ k = .ident c!".dksh" := by
  constructor
  · rintro ⟨d, dk, h, rfl⟩
    exact (IsDeclarator.iff.1 ⟨d, dk, h, rfl⟩).imp (congrArg _) (congrArg _)
  · rintro (rfl | rfl)
    · exact IsDeclarator.iff.2 (.inl rfl)
    · exact IsDeclarator.iff.2 (.inr rfl)

instance (k : Kind) : Decidable (IsDeclarator k) := decidable_of_iff _ IsDeclarator.iff_kind.symm

theorem IsDeclarator.option {k : Kind} (h : IsDeclarator k) : ∃ s ∈ optionNames, k = .ident s := by
  obtain ⟨d, dk, h, rfl⟩ := h
  exact ⟨d, declarator_option h, rfl⟩

theorem not_option_declarator {s : Str} (h : s ∉ optionNames) : ¬ IsDeclarator (.ident s) := by
  intro hd
  obtain ⟨s', h1, h2⟩ := IsDeclarator.option hd
  cases h2
  exact h h1

/-- The words of options in an instruction. -/
theorem instr_no_option' {lab : Str → Option Nat} (hl : ∀ s a, lab s = some a → IsName s) {i : Nat} {ts : List (Kind × Nat)} {op : Op}
    (h : InstrText ⟨lab, addressOf i⟩ (ts.map Prod.fst) op) {t : Kind × Nat} (ht : t ∈ ts) {s : Str} (hs : s ∈ optionNames) : t.1 ≠ .ident s := by
  intro hk
  exact instr_no_option (e := ⟨lab, addressOf i⟩) hl h hs (List.mem_map.2 ⟨t, ht, hk⟩)

theorem _root_.Nxas.Spec.Program.no_gprs {lab : Str → Option Nat} (hl : ∀ s a, lab s = some a → IsName s) {i : Nat} {o o' : Opts} {ts : List (Kind × Nat)}
    {ops : List Op} (h : Program lab i o ts ops o') : ∀ t ∈ ts, t.1 ≠ .ident c!".num_gprs" := by
  induction h with
  | done => simp
  | insn h _ ih =>
    intro t ht
    rcases List.mem_append.1 ht with ht | ht
    · exact instr_no_option' hl h ht (by decide)
    · exact ih t ht
  | option h _ _ ih =>
    intro t ht
    rcases List.mem_append.1 ht with ht | ht
    · cases h with
      | dksh _ hp | type _ hp =>
        have := type_not_option hp
        simp only [List.mem_cons, List.not_mem_nil, or_false] at ht
        rcases ht with rfl | rfl
        · simp
        · simp only [ne_eq, Kind.ident.injEq]
          rintro rfl
          exact this (by decide)
      | other _ hn =>
        simp only [List.mem_singleton] at ht
        subst ht
        simp only [ne_eq, Kind.ident.injEq]
        rintro rfl
        exact hn (by decide)
      | _ => simp only [List.mem_cons, List.not_mem_nil, or_false] at ht; grind
    · exact ih t ht

/-- Once the program type is declared, there is no further declaration. -/
theorem _root_.Nxas.Spec.Program.typed {lab : Str → Option Nat} (hl : ∀ s a, lab s = some a → IsName s) {i : Nat} {o o' : Opts} {ts : List (Kind × Nat)}
    {ops : List Op} (h : Program lab i o ts ops o') {p : ProgType} (hp : o.type = some p) :
    o'.type = some p ∧ o'.isDksh = o.isDksh ∧ ∀ t ∈ ts, ¬ IsDeclarator t.1 := by
  induction h with
  | done => exact ⟨hp, rfl, by simp⟩
  | insn h _ ih =>
    obtain ⟨h1, h2, h3⟩ := ih hp
    refine ⟨h1, h2, ?_⟩
    intro t ht hd
    rcases List.mem_append.1 ht with ht | ht
    · obtain ⟨s, h4, h5⟩ := IsDeclarator.option hd
      exact instr_no_option' hl h ht h4 h5
    · exact h3 t ht hd
  | option h _ _ ih =>
    cases h with
    | dksh h | type h => rw [hp] at h; simp at h
    | other _ hn =>
      obtain ⟨h1, h2, h3⟩ := ih hp
      refine ⟨h1, h2, ?_⟩
      intro t ht hd
      rcases List.mem_append.1 ht with ht | ht
      · simp only [List.mem_singleton] at ht
        subst ht
        exact not_option_declarator hn hd
      · exact h3 t ht hd
    | _ =>
      obtain ⟨h1, h2, h3⟩ := ih hp
      refine ⟨h1, h2, ?_⟩
      intro t ht hd
      rcases List.mem_append.1 ht with ht | ht
      · obtain ⟨d, dk, h4, h5⟩ := hd
        simp [declarators] at h4
        simp at ht
        grind
      · exact h3 t ht hd

/-- The declaration of the program type. -/
theorem _root_.Nxas.Spec.Program.declared {lab : Str → Option Nat} (hl : ∀ s a, lab s = some a → IsName s) {i : Nat} {o o' : Opts} {ts : List (Kind × Nat)}
    {ops : List Op} (h : Program lab i o ts ops o') (ho : o.type = none) (hd : o.isDksh = false) :
    (o'.type = none ∧ o'.isDksh = false ∧ ∀ t ∈ ts, ¬ IsDeclarator t.1) ∨
      ∃ p, o'.type = some p ∧ Declares ts p o'.isDksh := by
  induction h with
  | done => exact .inl ⟨ho, hd, by simp⟩
  | @insn i o o' ts rest op ops h _ ih =>
    have hno : ∀ t ∈ ts, ¬ IsDeclarator t.1 := by
      intro t ht hd
      obtain ⟨s, h4, h5⟩ := IsDeclarator.option hd
      exact instr_no_option' hl h ht h4 h5
    rcases ih ho hd with ⟨h1, h2, h3⟩ | ⟨p, h1, pre, d, l, w, post, rfl, h2, h3, h4⟩
    · refine .inl ⟨h1, h2, ?_⟩
      intro t ht
      rcases List.mem_append.1 ht with ht | ht
      · exact hno t ht
      · exact h3 t ht
    · refine .inr ⟨p, h1, ts ++ pre, d, l, w, post, by simp, h2, h3, ?_⟩
      intro t ht
      rw [List.append_assoc] at ht
      rcases List.mem_append.1 ht with ht | ht
      · exact hno t ht
      · exact h4 t ht
  | @option i o o1 o' t next ts rest ops h hline hr ih =>
    have skip : o1.type = none → o1.isDksh = false → (∀ t' ∈ t :: ts, ¬ IsDeclarator t'.1) →
        (o'.type = none ∧ o'.isDksh = false ∧ ∀ t' ∈ t :: ts ++ next :: rest, ¬ IsDeclarator t'.1) ∨
          ∃ p, o'.type = some p ∧ Declares (t :: ts ++ next :: rest) p o'.isDksh := by
      intro h1 h2 hno
      rcases ih h1 h2 with ⟨h1, h2, h3⟩ | ⟨p, h1, pre, d, l, w, post, h5, h2, h3, h4⟩
      · refine .inl ⟨h1, h2, ?_⟩
        intro t ht
        rcases List.mem_append.1 ht with ht | ht
        · exact hno t ht
        · exact h3 t ht
      · refine .inr ⟨p, h1, t :: ts ++ pre, d, l, w, post, by rw [h5]; simp, h2, h3, ?_⟩
        intro t ht
        rw [List.append_assoc] at ht
        rcases List.mem_append.1 ht with ht | ht
        · exact hno t ht
        · exact h4 t ht
    cases h with
    | @dksh l w p _ hp =>
      obtain ⟨h1, h2, h3⟩ := hr.typed hl (p := p) rfl
      refine .inr ⟨p, h1, [], c!".dksh", l, w, next :: rest, rfl, ?_, hp, h3⟩
      rw [h2]; exact List.mem_cons_of_mem _ (List.mem_singleton.2 rfl)
    | @type l w p _ hp =>
      obtain ⟨h1, h2, h3⟩ := hr.typed hl (p := p) rfl
      refine .inr ⟨p, h1, [], c!".type", l, w, next :: rest, rfl, ?_, hp, h3⟩
      rw [h2]; simp only [hd]; decide
    | other _ hn =>
      refine skip ho hd ?_
      intro t ht
      simp only [List.mem_singleton] at ht
      subst ht
      exact not_option_declarator hn
    | _ =>
      refine skip ho hd ?_
      intro t ht hd
      obtain ⟨d, dk, h4, h5⟩ := hd
      simp [declarators] at h4
      simp at ht
      grind

/-! ### Sizes -/

theorem behind_none {n : Str} {ts : List (Kind × Nat)} (h : ∀ t ∈ ts, t.1 ≠ .ident n) : behind n ts = none := by
  induction ts with
  | nil => rfl
  | cons t ts ih =>
    rw [behind, ih (fun t ht => h t (by simp [ht]))]
    exact if_neg (h t (by simp))

theorem behind_append {n : Str} {ts rest : List (Kind × Nat)} (h : ∀ t ∈ ts, t.1 ≠ .ident n) :
    behind n (ts ++ rest) = behind n rest := by
  induction ts with
  | nil => rfl
  | cons t ts ih =>
    rw [List.cons_append, behind, ih (fun t ht => h t (by simp [ht]))]
    cases behind n rest with
    | none => exact if_neg (h t (by simp))
    | some ks => rfl

theorem behind_here {n : Str} {t : Kind × Nat} {ts rest : List (Kind × Nat)} (ht : t.1 = .ident n) (h : ∀ t ∈ ts, t.1 ≠ .ident n) :
    behind n (t :: ts ++ rest) = (behind n rest <|> some ((ts ++ rest).map Prod.fst)) := by
  rw [List.cons_append, behind, behind_append h]
  cases behind n rest with
  | none => exact if_pos ht
  | some ks => rfl

/-- The words of options in the text of an option: only the first one. -/
theorem OptionText.tail {o o' : Opts} {t : Kind × Nat} {ts : List (Kind × Nat)} (h : OptionText o (t :: ts) o') {n : Str} (hn : n ∈ optionNames) :
    ∀ t' ∈ ts, t'.1 ≠ .ident n := by
  cases h with
  | dksh _ hp | type _ hp =>
    have := type_not_option hp
    simp only [List.mem_singleton, forall_eq, ne_eq, Kind.ident.injEq]
    rintro rfl
    exact this hn
  | _ => simp

/-- A setting has the value given by the last option with its name. -/
theorem Program.setting {α : Type} {get : Opts → α} {n : Str} {f : List Kind → α} (hn : n ∈ optionNames)
    (hf : ∀ o o1 t ts, OptionText o (t :: ts) o1 → (t.1 ≠ .ident n ∧ get o1 = get o) ∨
      (t.1 = .ident n ∧ ∀ rest, f ((ts ++ rest).map Prod.fst) = get o1))
    {lab : Str → Option Nat} (hl : ∀ s a, lab s = some a → IsName s) {i : Nat} {o o' : Opts} {ts : List (Kind × Nat)}
    {ops : List Op} (h : Program lab i o ts ops o') : get o' = (behind n ts).elim (get o) f := by
  induction h with
  | done => rfl
  | insn h _ ih =>
    rw [behind_append (fun t ht => instr_no_option' hl h ht hn)]
    exact ih
  | @option i o o1 o' t next ts rest ops h hline hr ih =>
    have ht := OptionText.tail h hn
    rcases hf _ _ _ _ h with ⟨h1, h2⟩ | ⟨h1, h2⟩
    · rw [behind_append, ih, h2]
      intro t' ht'
      rcases List.mem_cons.1 ht' with rfl | ht'
      · exact h1
      · exact ht t' ht'
    · rw [behind_here h1 ht, ih]
      cases behind n (next :: rest) with
      | none => exact (h2 (next :: rest)).symm
      | some ks => rfl

theorem _root_.Nxas.Spec.Program.shared {lab : Str → Option Nat} (hl : ∀ s a, lab s = some a → IsName s) {i : Nat} {o' : Opts}
    {ts : List (Kind × Nat)} {ops : List Op} (h : Program lab i {} ts ops o') : o'.sharedMem = lastSize c!".shared_memory" ts := by
  rw [Program.setting (get := (·.sharedMem)) (n := c!".shared_memory")
    (f := fun ks => match ks with | .imm v :: _ => BitVec.ofInt 32 v | _ => 0) (by decide) ?_ hl h]
  · unfold lastSize
    cases behind c!".shared_memory" ts with
    | none => rfl
    | some ks => dsimp only [Option.elim]; grind
  · intro o o1 t ts h
    cases h with
    | shared => exact .inr ⟨rfl, fun _ => rfl⟩
    | other _ hn =>
      refine .inl ⟨?_, rfl⟩
      simp only [ne_eq, Kind.ident.injEq]
      rintro rfl
      exact hn (by decide)
    | _ => exact .inl ⟨by simp, rfl⟩

theorem _root_.Nxas.Spec.Program.local {lab : Str → Option Nat} (hl : ∀ s a, lab s = some a → IsName s) {i : Nat} {o' : Opts}
    {ts : List (Kind × Nat)} {ops : List Op} (h : Program lab i {} ts ops o') : o'.localMem = lastSize c!".local_memory" ts := by
  rw [Program.setting (get := (·.localMem)) (n := c!".local_memory")
    (f := fun ks => match ks with | .imm v :: _ => BitVec.ofInt 32 v | _ => 0) (by decide) ?_ hl h]
  · unfold lastSize
    cases behind c!".local_memory" ts with
    | none => rfl
    | some ks => dsimp only [Option.elim]; grind
  · intro o o1 t ts h
    cases h with
    | «local» => exact .inr ⟨rfl, fun _ => rfl⟩
    | other _ hn =>
      refine .inl ⟨?_, rfl⟩
      simp only [ne_eq, Kind.ident.injEq]
      rintro rfl
      exact hn (by decide)
    | _ => exact .inl ⟨by simp, rfl⟩

theorem _root_.Nxas.Spec.Program.dims {lab : Str → Option Nat} (hl : ∀ s a, lab s = some a → IsName s) {i : Nat} {o' : Opts}
    {ts : List (Kind × Nat)} {ops : List Op} (h : Program lab i {} ts ops o') : o'.blockDims = lastDims ts := by
  rw [Program.setting (get := (·.blockDims)) (n := c!".workgroup_size")
    (f := fun ks => match ks with
      | .imm x :: .imm y :: .imm z :: _ => (BitVec.ofInt 32 x, BitVec.ofInt 32 y, BitVec.ofInt 32 z)
      | _ => (1, 1, 1)) (by decide) ?_ hl h]
  · unfold lastDims
    cases behind c!".workgroup_size" ts with
    | none => rfl
    | some ks => dsimp only [Option.elim]; grind
  · intro o o1 t ts h
    cases h with
    | workgroup => exact .inr ⟨rfl, fun _ => rfl⟩
    | other _ hn =>
      refine .inl ⟨?_, rfl⟩
      simp only [ne_eq, Kind.ident.injEq]
      rintro rfl
      exact hn (by decide)
    | _ => exact .inl ⟨by simp, rfl⟩

/-! ### Accepted sources -/

/-- What is known about an accepted source. -/
theorem accepted {d : Bool} {code : Str} {ws : List (BitVec 64)} (h : assemble d code = .ok ws) : Assembles (visible code) ws := by
  refine assemble_iff.1 ?_
  cases d with
  | false => exact h
  | true =>
    rcases assembleWith_debug insnTable code with h1 | h1
    · unfold assemble at h; rw [h1] at h; simp at h
    · unfold assemble at h ⊢; rw [← h1]; exact h

/-! ### Tokens of concrete sources -/

/-- The tokens of a source, for examples. -/
def lexAll : Nat → Cur → Option (List (Kind × Nat))
  | 0, _ => none
  | n + 1, c =>
    match tokenize c with
    | .ok t c' => if t.kind = .none then some [] else (lexAll n c').map (t.pair :: ·)
    | _ => none

theorem lexAll_lexes {n : Nat} {c : Cur} {ps : List (Kind × Nat)} (h : lexAll n c = some ps) : ∃ ts, Lexes c ts ∧ ps = ts.map Token.pair := by
  induction n generalizing c ps with
  | zero => simp [lexAll] at h
  | succ n ih =>
    unfold lexAll at h
    split at h
    · rename_i t c' ht
      split at h
      · rename_i hk
        cases h
        exact ⟨[], ⟨c, .nil, t, c', ht, hk⟩, rfl⟩
      · rename_i hk
        obtain ⟨ps', h1, rfl⟩ := Option.map_eq_some_iff.1 h
        obtain ⟨ts, h2, rfl⟩ := ih h1
        exact ⟨t :: ts, Lexes.cons_iff.2 ⟨c', ht, hk, h2⟩, rfl⟩
    · simp at h

theorem lexAll_scans {n : Nat} {t : Str} {ps : List (Kind × Nat)} (hz : '\x00' ∉ t) (h : lexAll n ⟨t, 0, 0⟩ = some ps) : Scans 0 t ps :=
  (scans_iff (c := ⟨t, 0, 0⟩) hz).2 (lexAll_lexes h)

end Nxas
