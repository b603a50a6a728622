import Verif.Lemmas.Retarget
import Verif.Props.Refinement
/-
C83: sources with labels put one after the other.  C84: what the targets of branches are called does not matter.
-/

namespace Nxas

open Spec

/-! ### Linking -/

theorem not_dksh {t : Str} {f : Str → Option Nat} {ts : List (Kind × Nat)} {ops : List Op} {o' : Opts} (hl : IsLabelMap t f)
    (hp : Program f 0 {} ts ops o') (hd : ∀ t ∈ ts, t.1 ≠ .ident c!".dksh") : o'.isDksh = false := by
  rcases hp.declared (fun s a => hl.name) rfl rfl with ⟨-, h, -⟩ | ⟨p, -, pre, d, l, w, post, rfl, h1, -⟩
  · exact h
  · cases h : o'.isDksh with
    | false => rfl
    | true =>
      rw [h] at h1
      have : d = c!".dksh" := by simpa [declarators] using h1
      exact absurd (by rw [this]) (hd (.ident d, l) (by simp))

/-- C83. A source without options that has whole groups of instructions and ends with a line can be put in front of another one without
    changing the code of either, even if both have labels and branches: no name that is defined in both may be used in the second, and
    the second must not branch to numbers. -/
theorem C83_link {d : Bool} {a b : Str} {wa wb : List (BitVec 64)} {ta tb : List (Kind × Nat)} (ha : assemble d a = .ok wa)
    (hb : assemble d b = .ok wb) (hz : '\x00' ∉ a) (hl : AtLineStart a) (sa : Scans 0 a ta) (sb : Scans 0 (visible b) tb)
    (oa : OptionFree (ta.map Prod.fst)) (hd : ∀ t ∈ tb, t.1 ≠ .ident c!".dksh") (nb : ¬ NumericBranch (tb.map Prod.fst))
    (hdis : ∀ s, Defines a s → Defines (visible b) s → .ident s ∉ tb.map Prod.fst) {k : Nat} (hk : a.count ';' = 3 * k)
    (hs : ta.countP (fun t => t.1 = .semicolon) = 3 * k) : assemble false (a ++ b) = .ok (wa ++ wb) := by
  obtain ⟨f, t1, A, o, l1, s1, p1, i1⟩ := accepted ha
  rw [visible_self hz] at l1 s1
  obtain rfl := scans_unique hz sa s1
  obtain ⟨f', t2, B, o', l2, s2, p2, i2⟩ := accepted hb
  obtain rfl := scans_unique (visible_no_nul b) sb s2
  obtain ⟨rfl, -⟩ := Program.option_free p1 oa
  have hA : A.length = 3 * k := by rw [Nxas.Program.semicolons p1]; exact hs
  have hdk := not_dksh l2 p2 hd
  have hwa : wa = groups A := by
    cases i1 with
    | raw => rfl
    | dksh h => simp at h
  have hwb : wb = groups B ∧ (o'.type = none ∨ o'.type = some .compute) := by
    cases i2 with
    | raw _ h => exact ⟨rfl, h⟩
    | dksh h => rw [hdk] at h; simp at h
  obtain ⟨g, hg⟩ := exists_labels (a ++ visible b)
  rw [hwa, hwb.1, ← groups_append (by omega), assemble_iff, count_visible hz]
  refine ⟨g, ta ++ shift (lineAfter a) tb, A ++ B, o', hg, Scans.join sa hl p1.ending (Scans.shift sb _), ?_, .raw hdk hwb.2⟩
  refine Program.append (o1 := {}) ?_ (Program.shift ?_ _)
  · have := Program.carry (n := 0) p1 (lab' := g) (fun j s x _ hx => ⟨x, lab_left hl l1 hg hx, by simp⟩) (.inl rfl)
    simpa using this
  · rw [hA, Nat.add_comm]
    refine Program.carry p2 (fun j s x hin hx => ?_) (.inr nb)
    have hdef : Defines (visible b) s := by
      obtain ⟨pre, h, -⟩ := (l2 s x).1 hx
      exact ⟨pre, h.1⟩
    refine ⟨x + 32 * k, lab_right hl hk l2 hg (fun h => hdis s h hdef hin) hx, ?_⟩
    unfold addressOf
    dsimp only
    omega

/-- A label that is defined has an address. -/
theorem defines_find {t s : Str} {ls : Labels} (h : genLabels t = .ok ls) (hs : Defines t s) : ls.find s ≠ none := by
  classical
  have hex : ∃ n pre, DefAt t pre s ∧ pre.length = n := by
    obtain ⟨pre, hp⟩ := hs
    exact ⟨_, pre, hp, rfl⟩
  obtain ⟨pre, h1, h2⟩ := Nat.find_spec hex
  have : FirstDef t pre s := ⟨h1, fun p hp => h2 ▸ Nat.find_min' hex ⟨p, hp, rfl⟩⟩
  rw [(genLabels_find h s _).2 ⟨pre, this, rfl⟩]
  simp

theorem optionFree_of {ks : List Kind} (h : ∀ k ∈ ks, ∀ w, k = .ident w → w.head? ≠ some '.') : OptionFree ks := by
  rintro pre k post rfl - ⟨w, rfl, hw⟩
  exact h (.ident w) (by simp) w rfl hw

theorem not_numeric_of {ks : List Kind} (h : ∀ x, Kind.imm x ∉ ks) : ¬ NumericBranch ks := by
  rintro ⟨pre, m, post, x, rfl, -, hx⟩
  exact h x (by simp [(List.takeWhile_sublist _).subset hx])

/-- Two loops. -/
example : ∃ wa wb ta tb, assemble true c!"L:\nNOP;\nNOP;\nBRA L;\n" = .ok wa ∧ assemble true c!"K:\nBRA K;" = .ok wb ∧
    AtLineStart c!"L:\nNOP;\nNOP;\nBRA L;\n" ∧ Scans 0 c!"L:\nNOP;\nNOP;\nBRA L;\n" ta ∧ Scans 0 (visible c!"K:\nBRA K;") tb ∧
    OptionFree (ta.map Prod.fst) ∧ (∀ t ∈ tb, t.1 ≠ .ident c!".dksh") ∧ ¬ NumericBranch (tb.map Prod.fst) ∧
    (∀ s, Defines c!"L:\nNOP;\nNOP;\nBRA L;\n" s → Defines (visible c!"K:\nBRA K;") s → .ident s ∉ tb.map Prod.fst) ∧
    c!"L:\nNOP;\nNOP;\nBRA L;\n".count ';' = 3 * 1 ∧ ta.countP (fun t => t.1 = .semicolon) = 3 * 1 ∧ wa ≠ [] ∧ wb ≠ [] := by
  refine ⟨[0x001f8000fc0007e0, 0x50b0000000070f00, 0x50b0000000070f00, 0xe2400ffffe87000f],
    [0x001f8000fc0007e0, 0xe2400fffff87000f, 0x50b0000000070f00, 0x50b0000000070f00],
    [(.ident c!"NOP", 1), (.semicolon, 1), (.ident c!"NOP", 2), (.semicolon, 2), (.ident c!"BRA", 3), (.ident c!"L", 3), (.semicolon, 3)],
    [(.ident c!"BRA", 1), (.ident c!"K", 1), (.semicolon, 1)], by decide +kernel, by decide +kernel, .inr (by decide),
    lexAll_scans (n := 12) (by decide) (by decide +kernel), lexAll_scans (n := 9) (by decide) (by decide +kernel), optionFree_of ?_, by decide,
    not_numeric_of ?_, ?_, by decide, by decide, by simp, by simp⟩
  · simp +contextual
  · simp
  · intro s h _ hin
    have h1 := defines_find (ls := [(c!"L", 8)]) (by decide +kernel) h
    simp only [List.map_cons, List.map_nil, List.mem_cons, List.not_mem_nil, or_false, Kind.ident.injEq, reduceCtorEq] at hin
    rcases hin with rfl | rfl <;> exact h1 (by decide)

/-- If the name is defined in both, the second loop becomes a branch into the first. -/
example : assemble true c!"K:\nNOP;\nNOP;\nBRA K;\n" = .ok [0x001f8000fc0007e0, 0x50b0000000070f00, 0x50b0000000070f00, 0xe2400ffffe87000f] ∧
    assemble true (c!"K:\nNOP;\nNOP;\nBRA K;\n" ++ c!"K:\nBRA K;") = .ok [0x001f8000fc0007e0, 0x50b0000000070f00, 0x50b0000000070f00,
      0xe2400ffffe87000f, 0x001f8000fc0007e0, 0xe2400ffffd87000f, 0x50b0000000070f00, 0x50b0000000070f00] :=
  ⟨by decide +kernel, by decide +kernel⟩

/-! ### Targets -/

/-- C84. Sources that differ only in the targets of their branches, which stand for the same addresses, are assembled to the same
    words: labels can be renamed, and replaced by numbers and by other labels. -/
theorem C84_targets {d : Bool} {a b : Str} {ws : List (BitVec 64)} {ta tb : List (Kind × Nat)} {f g : Str → Option Nat}
    (h : assemble d a = .ok ws) (sa : Scans 0 (visible a) ta) (sb : Scans 0 (visible b) tb) (la : IsLabelMap (visible a) f)
    (lb : IsLabelMap (visible b) g) (hr : Retargets f g ta tb) (hm : (∀ t ∈ ta, t.1 ≠ .ident c!".dksh") ∨ f c!"main" = g c!"main") :
    assemble false b = .ok ws := by
  obtain ⟨f', t1, A, o, l1, s1, p1, i1⟩ := accepted h
  obtain rfl := scans_unique (visible_no_nul a) sa s1
  obtain rfl := IsLabelMap.unique la l1
  refine assemble_iff.2 ⟨g, tb, A, o, lb, sb, Program.retarget (fun s a => lb.name) p1 hr, ?_⟩
  cases i1 with
  | raw h1 h2 => exact .raw h1 h2
  | dksh h1 h2 h3 h4 h5 =>
    rcases hm with hm | hm
    · rw [not_dksh la p1 hm] at h1; cases h1
    · exact .dksh h1 h2 (hm ▸ h3) h4 h5

/-- Names exchanged, and one of them replaced by its address. -/
example : ∃ ws f g ta tb, assemble true c!"a:\nBRA b;\nb:\nBRA a;" = .ok ws ∧ Scans 0 (visible c!"a:\nBRA b;\nb:\nBRA a;") ta ∧
    Scans 0 (visible c!"b:\nBRA a;\na:\nBRA 8;") tb ∧ IsLabelMap (visible c!"a:\nBRA b;\nb:\nBRA a;") f ∧
    IsLabelMap (visible c!"b:\nBRA a;\na:\nBRA 8;") g ∧ Retargets f g ta tb ∧ (∀ t ∈ ta, t.1 ≠ .ident c!".dksh") ∧ ta ≠ tb := by
  refine ⟨[0x001f8000fc0007e0, 0xe24000000007000f, 0xe2400fffff07000f, 0x50b0000000070f00], Labels.find [(c!"a", 8), (c!"b", 16)],
    Labels.find [(c!"b", 8), (c!"a", 16)],
    [(.ident c!"BRA", 1), (.ident c!"b", 1), (.semicolon, 1), (.ident c!"BRA", 3), (.ident c!"a", 3), (.semicolon, 3)],
    [(.ident c!"BRA", 1), (.ident c!"a", 1), (.semicolon, 1), (.ident c!"BRA", 3), (.imm 8, 3), (.semicolon, 3)],
    by decide +kernel, lexAll_scans (n := 9) (by decide) (by decide +kernel), lexAll_scans (n := 9) (by decide) (by decide +kernel),
    fun name a => genLabels_find (by decide +kernel) name a, fun name a => genLabels_find (by decide +kernel) name a, ?_, by decide, by decide⟩
  refine .branch (mid := []) (x := 16) (by decide) (by simp) (.inr rfl) (.label (a := 16) (by decide)) (.label (a := 16) (by decide))
    (.branch (mid := []) (x := 8) (by decide) (by simp) (.inr rfl) (.label (a := 8) (by decide)) .number .nil)

theorem label_bound {t : Str} {f : Str → Option Nat} (h : IsLabelMap t f) (hn : t.length < 2 ^ 58) : ∀ s a, f s = some a → a < 2 ^ 63 := by
  intro s a hs
  obtain ⟨pre, ⟨⟨-, -, rest, h1⟩, -⟩, rfl⟩ := (h s a).1 hs
  have h2 : pre.length ≤ t.length := by rw [h1]; simp only [List.length_append]; omega
  have h3 : pre.count ';' ≤ pre.length := List.count_le_length
  unfold addressOf
  omega

/-- C84. No source needs labels, except for the entry point of a container: there is a source without labels that is assembled to the
    same words. -/
theorem C84_numbers {d : Bool} {a : Str} {ws : List (BitVec 64)} {ta : List (Kind × Nat)} (h : assemble d a = .ok ws)
    (sa : Scans 0 (visible a) ta) (hd : ∀ t ∈ ta, t.1 ≠ .ident c!".dksh") (hn : a.length < 2 ^ 58) :
    ∃ b, '\x00' ∉ b ∧ LabelFree b ∧ assemble false b = .ok ws := by
  obtain ⟨f, t1, A, o, l1, s1, p1, i1⟩ := accepted h
  obtain rfl := scans_unique (visible_no_nul a) sa s1
  obtain ⟨tb, h1, h2⟩ := Program.numbers p1
  have hlen : (visible a).length < 2 ^ 58 := lt_of_le_of_lt ((List.takeWhile_sublist _).length_le) hn
  have h3 := numbered_laid (fun s a => l1.name) (label_bound l1 hlen) h2 (sa.written (visible_no_nul a))
  obtain ⟨b, -, hz, hs, hl⟩ := laid_text h3
  rw [tokensOf_pairs] at hs
  have hfree : LabelFree b := by
    intro pre name hp
    have hex : ∃ lab, IsLabelMap b lab := exists_labels b
    obtain ⟨lab, hlab⟩ := hex
    have hnone : ∀ s x, lab s ≠ some x := by
      intro s x hx
      obtain ⟨p, h4, h5⟩ := (hlab s x).1 hx
      have := (hl 0 s x).2 ⟨p, h4, by simpa using h5⟩
      rw [labelAt_pairs] at this
      cases this
    classical
    have hex : ∃ n pre, DefAt b pre name ∧ pre.length = n := ⟨_, pre, hp, rfl⟩
    obtain ⟨p, h4, h5⟩ := Nat.find_spec hex
    exact hnone name _ ((hlab name _).2 ⟨p, ⟨h4, fun q hq => h5 ▸ Nat.find_min' hex ⟨q, hq, rfl⟩⟩, rfl⟩)
  refine ⟨b, hz, hfree, ?_⟩
  have hv := visible_self hz
  exact C84_targets h sa (by rw [hv]; exact hs) l1 (by rw [hv]; exact LabelFree.isMap hfree) h1 (.inl hd)

example : ∃ ws ta, assemble true c!"a:\nBRA a;" = .ok ws ∧ Scans 0 (visible c!"a:\nBRA a;") ta ∧ (∀ t ∈ ta, t.1 ≠ .ident c!".dksh") ∧
    assemble true c!"\nBRA 8;" = .ok ws ∧ ¬ LabelFree c!"a:\nBRA a;" := by
  refine ⟨[0x001f8000fc0007e0, 0xe2400fffff87000f, 0x50b0000000070f00, 0x50b0000000070f00],
    [(.ident c!"BRA", 1), (.ident c!"a", 1), (.semicolon, 1)], by decide +kernel, lexAll_scans (n := 9) (by decide) (by decide +kernel), by decide,
    by decide +kernel, fun h => h [] c!"a" ⟨.inl rfl, ⟨⟨_, _, rfl, by unfold letter; decide⟩, ?_⟩, _, rfl⟩⟩
  unfold wordChar letter
  decide

/-- The entry point of a container is a label. -/
example : assemble true c!".dksh compute\nEXIT;" = .exit (.plain ⟨"entrypoint \"%s\" not found", [.text c!"main"]⟩) := by decide +kernel

end Nxas
