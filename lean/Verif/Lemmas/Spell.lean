import Verif.Lemmas.Arrange
import Verif.Lemmas.Orthogonal
import Verif.Props.Synonyms
import Verif.Props.Unambiguous
import Verif.Spec.Spell
/-
Ways to write an instruction (for C113).
-/

namespace Nxas

open Spec

/-- A number given with an annotation is determined by the annotations without the one that gives the default. -/
theorem given_spelled {f : Annot → Option Nat} {d : Nat} {as as' : List Annot} (h : as.Pairwise (fun a a' => a.clash a' = false))
    (h' : as'.Pairwise (fun a a' => a.clash a' = false)) (hf : ∀ a b, f a ≠ none → f b ≠ none → a.clash b = true)
    (ha : ∀ a, f a ≠ none → f a ≠ some d → (a ∈ as ↔ a ∈ as')) : given f d as = given f d as' := by
  have key : ∀ {as as' : List Annot}, as'.Pairwise (fun a a' => a.clash a' = false) → (∀ a, f a ≠ none → f a ≠ some d → (a ∈ as ↔ a ∈ as')) →
      given f d as ≠ d → given f d as' = given f d as := by
    intro as as' h' ha hn
    obtain ⟨a, hm, hv⟩ := given_ne hn
    have hm' := (ha a (by simp [hv]) (by rw [hv]; simpa using hn)).1 hm
    refine given_mem hm' hv fun b hb m hbm => ?_
    by_cases hab : a = b
    · subst hab
      rw [hv] at hbm
      exact (Option.some.inj hbm).symm
    · have hs : ∀ x y : Annot, x.clash y = false → y.clash x = false := by
        intro x y hxy
        cases x <;> cases y <;> simp_all [Annot.clash]
        exact fun e => hxy e.symm
      have : Std.Symm (fun a a' : Annot => a.clash a' = false) := ⟨hs⟩
      have := h'.forall hm' hb hab
      rw [hf a b (by simp [hv]) (by simp [hbm])] at this
      cases this
  by_cases h1 : given f d as = d
  · by_cases h2 : given f d as' = d
    · rw [h1, h2]
    · exact key h (fun a hn hd => (ha a hn hd).symm) h2
  · exact (key h' ha h1).symm

theorem schedBits_spelled {as as' : List Annot} {x y : List Kind} (hx : AnnotsText as x) (hy : AnnotsText as' y)
    (ha : ∀ n, n ≠ .wait 0 → (n ∈ as ↔ n ∈ as')) : schedBits as = schedBits as' := by
  obtain ⟨-, -, -, h⟩ := annotsText_iff.1 hx
  obtain ⟨-, -, -, h'⟩ := annotsText_iff.1 hy
  have h1 : stall as = stall as' := given_spelled h h' (by intro a b; cases a <;> cases b <;> simp [Annot.clash])
    (fun a _ hd => ha a (by rintro rfl; exact hd rfl))
  have h2 : writeBarrier as = writeBarrier as' := given_spelled h h' (by intro a b; cases a <;> cases b <;> simp [Annot.clash])
    (fun a hn _ => ha a (by rintro rfl; exact hn rfl))
  have h3 : readBarrier as = readBarrier as' := given_spelled h h' (by intro a b; cases a <;> cases b <;> simp [Annot.clash])
    (fun a hn _ => ha a (by rintro rfl; exact hn rfl))
  unfold schedBits waitMask
  have hd : ∀ i, Annot.dep i ∈ as ↔ Annot.dep i ∈ as' := fun i => ha _ (by simp)
  have hw : Annot.yield ∈ as ↔ Annot.yield ∈ as' := ha _ (by simp)
  simp only [h1, h2, h3, hd, hw]

theorem guardBits_spelled {g g' : Option (Nat × Bool)} (h : g.getD (7, false) = g'.getD (7, false)) : guardBits g = guardBits g' := by
  rcases g with - | ⟨p, n⟩ <;> rcases g' with - | ⟨p', n'⟩ <;> simp at h
  · rfl
  · obtain ⟨rfl, rfl⟩ := h; rfl
  · obtain ⟨rfl, rfl⟩ := h; rfl
  · obtain ⟨rfl, rfl⟩ := h; rfl

theorem rowText_spelled {e : Env} {row : Insn} {g g' : Option (Nat × Bool)} {ks : List Kind} {op : Op} (h : RowText e row g ks op)
    (hg : g.getD (7, false) = g'.getD (7, false)) : RowText e row g' ks op := by
  cases h with
  | @mk ks ks' v r as hg0 ho ha =>
    refine .mk (fun hf p n hp => ?_) (guardBits_spelled hg ▸ ho) ha
    subst hp
    rcases g with - | ⟨p0, n0⟩ <;> simp at hg
    · exact hg.1.symm
    · exact hg.1 ▸ hg0 hf p0 n0 rfl

theorem instr_spelled {e : Env} {u u' : List Kind} {op : Op} (h : InstrText e u op) (hs : Spelled u u') : InstrText e u' op := by
  cases hs with
  | @mk g g' m ks x y as as' hg hk hx hy ha =>
    obtain ⟨g0, row, hr, ks0, h3, h4⟩ := C70_grammar.1 h
    obtain ⟨rfl, rfl, rfl⟩ : g0 = g ∧ row.mnemonic = m ∧ ks0 = ks ++ x := by
      rcases g with - | ⟨p, n⟩ <;> rcases g0 with - | ⟨p0, n0⟩ <;>
        simp only [guardTokens, List.nil_append, List.cons_append, List.cons.injEq, List.append_cancel_right_eq, Kind.ident.injEq, Kind.pred.injEq, reduceCtorEq, false_and, true_and] at h3
      · exact ⟨rfl, h3.1.symm, h3.2.symm⟩
      · obtain ⟨⟨rfl, rfl⟩, h3, h4⟩ := h3
        exact ⟨rfl, h3.symm, h4.symm⟩
    obtain ⟨h5, h6⟩ := rowText_annots h4 hk.1 hx hy
    rw [← schedBits_spelled hx hy ha, ← h5] at h6
    exact C70_grammar.2 ⟨g', row, hr, _, rfl, rowText_spelled h6 hg⟩

theorem codes_spelled {f : Str → Option Nat} {i : Nat} {us us' : List (List Kind)} {ops : List Op} (h : Codes f i us ops) (hs : List.Forall₂ Spelled us us') :
    Codes f i us' ops := by
  induction h generalizing us' with
  | nil => cases hs; exact .nil
  | cons h _ ih =>
    cases hs with | cons h1 h2
    exact .cons (instr_spelled h h1) (ih h2)

/-! ### Assertions -/

/-- The token after a clash does not matter. -/
theorem OperandClash.after {v : BitVec 64} {o : Operand} {k : Kind} {more : List Kind} (h : OperandClash v o (k :: more)) :
    k ≠ .at ∧ ∀ z : Kind, ∃ more', more' <+: [z] ∧ OperandClash v o (k :: more') := by
  cases h with
  | sign h => exact ⟨by simp, fun z => ⟨[], by simp, .sign h⟩⟩
  | word h => exact ⟨by simp, fun z => ⟨[], by simp, .word h⟩⟩
  | register h => exact ⟨by simp, fun z => ⟨[], by simp, .register h⟩⟩
  | operation hk h =>
    refine ⟨?_, fun z => ⟨[], by simp, .operation hk h⟩⟩
    obtain ⟨name, rfl, -⟩ := hk
    simp
  | part hk h =>
    refine ⟨?_, fun z => ⟨[z], List.prefix_rfl, .part hk h⟩⟩
    obtain ⟨name, rfl, -⟩ := hk
    simp

/-- Tokens up to a mark. -/
theorem prefix_mark {l ks rest : List Kind} {z : Kind} (h : l <+: ks ++ z :: rest) (hz : z ∉ l) : l <+: ks := by
  rcases List.prefix_or_prefix_of_prefix h (List.prefix_append ks (z :: rest)) with h1 | ⟨t, rfl⟩
  · exact h1
  · rw [List.prefix_append_right_inj] at h
    cases t with
    | nil => simp
    | cons y t =>
      obtain ⟨rfl, -⟩ := List.cons_prefix_cons.1 h
      simp at hz

theorem unsound_spelled {u u' : List Kind} (hs : Spelled u u') (h : Unsound u') : Unsound u := by
  cases hs with
  | @mk g g' m ks x y as as' hg hk hx hy ha =>
    obtain ⟨e, c, hc, h⟩ := h
    cases h with | @mk g1 row os os' o ks1 more k v r hr hf hs ho h
    obtain ⟨rfl, rfl, hp⟩ : g1 = g' ∧ row.mnemonic = m ∧ ks1 ++ k :: more <+: ks ++ y ++ [.semicolon] := by
      rcases g1 with - | ⟨p, n⟩ <;> rcases g' with - | ⟨p0, n0⟩ <;>
        simp only [guardTokens, List.nil_append, List.cons_append, List.cons_prefix_cons, Kind.ident.injEq, Kind.pred.injEq, reduceCtorEq, false_and, true_and] at hc
      · exact ⟨rfl, hc.1, hc.2⟩
      · obtain ⟨⟨rfl, rfl⟩, h1, h2⟩ := hc
        exact ⟨rfl, h1, h2⟩
    obtain ⟨h1, h2⟩ := OperandClash.after h
    have h3 : ks1 ++ [k] <+: ks := by
      have h4 : ks1 ++ [k] <+: ks ++ y ++ [.semicolon] := List.IsPrefix.trans ⟨more, by simp⟩ hp
      have h5 : Kind.at ∉ ks1 ++ [k] := by simp [sequence_no_at ho, h1.symm]
      have h6 : Kind.semicolon ∉ ks1 ++ [k] := by simp [sequence_no_semicolon ho, (OperandClash.first h).1.symm]
      have h7 := annots_head hy
      cases y with
      | nil => exact prefix_mark (rest := []) (by simpa using h4) h6
      | cons z y =>
        obtain rfl : z = .at := h7
        exact prefix_mark (rest := y ++ [.semicolon]) (by simpa using h4) h5
    obtain ⟨t, rfl⟩ := h3
    obtain ⟨z, t', ht⟩ : ∃ z t', t ++ x ++ [Kind.semicolon] = z :: t' := by
      cases t with
      | nil => cases x with
        | nil => exact ⟨_, _, rfl⟩
        | cons => exact ⟨_, _, rfl⟩
      | cons => exact ⟨_, _, rfl⟩
    obtain ⟨more', ⟨s, hm⟩, h8⟩ := h2 z
    refine ⟨e, guardTokens g ++ .ident row.mnemonic :: (ks1 ++ k :: more'), ?_, .mk hr (fun hfl p n hp => ?_) hs (guardBits_spelled hg ▸ ho) h8⟩
    · refine ⟨s ++ t', ?_⟩
      have : ks1 ++ [k] ++ t ++ x ++ [Kind.semicolon] = ks1 ++ k :: (more' ++ (s ++ t')) := by
        rw [← List.append_assoc more', hm, List.singleton_append, ← ht]
        simp
      rw [this]
      simp
    · subst hp
      rcases g1 with - | ⟨p0, n0⟩ <;> simp at hg
      · exact hg.1
      · exact hg.1 ▸ hf hfl p0 n0 rfl

end Nxas
