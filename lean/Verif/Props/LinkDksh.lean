import Verif.Props.Link
/-
C98: putting sources together when one of them asks for a container.
-/

namespace Nxas

open Spec

/-- A container with this code. -/
def Spec.container (o : Opts) (entry : Nat) (code : List (BitVec 64)) : List (BitVec 64) :=
  dkshControl o code.length entry ++ code ++ List.replicate (32 - code.length % 32) 0

theorem is_dksh {t : Str} {f : Str → Option Nat} {ts : List (Kind × Nat)} {ops : List Op} {o' : Opts} (hl : IsLabelMap t f)
    (hp : Program f 0 {} ts ops o') {l : Nat} (hd : (.ident c!".dksh", l) ∈ ts) : o'.isDksh = true := by
  rcases hp.declared (fun s a => hl.name) rfl rfl with ⟨-, -, h⟩ | ⟨p, -, pre, d, l', w, post, rfl, h1, h2, h3⟩
  · exact absurd ⟨_, true, by decide, rfl⟩ (h _ hd)
  · have hno : (.ident c!".dksh", l) ∉ pre ++ post := fun hx => h3 _ hx ⟨_, true, by decide, rfl⟩
    have hw : c!".dksh" ≠ w := by
      rintro rfl
      simp [typeNames] at h2
    simp only [List.mem_append, List.mem_cons, Prod.mk.injEq, Kind.ident.injEq, not_or] at hd hno
    have hdd : c!".dksh" = d := by
      rcases hd with hd | hd | hd | hd
      · exact absurd hd hno.1
      · exact hd.1
      · exact absurd hd.1 hw
      · exact absurd hd hno.2
    subst hdd
    simpa [declarators] using h1

/-- C98. Code without options in front of a source with a container becomes the first part of its code: the sizes grow, and the entry
    point moves. -/
theorem C98_before {d : Bool} {a b : Str} {wa wb : List (BitVec 64)} {ta tb : List (Kind × Nat)} (ha : assemble d a = .ok wa)
    (hb : assemble d b = .ok wb) (hz : '\x00' ∉ a) (hl : AtLineStart a) (sa : Scans 0 a ta) (sb : Scans 0 (visible b) tb)
    (oa : OptionFree (ta.map Prod.fst)) {l : Nat} (hd : (.ident c!".dksh", l) ∈ tb) (nb : ¬ NumericBranch (tb.map Prod.fst))
    (hdis : ∀ s, Defines a s → Defines (visible b) s → .ident s ∉ tb.map Prod.fst) (hmain : ¬ Defines a c!"main") {k : Nat} (hk : a.count ';' = 3 * k)
    (hs : ta.countP (fun t => t.1 = .semicolon) = 3 * k) :
    ∃ o entry code, wb = container o entry code ∧ assemble false (a ++ b) = .ok (container o (entry + 8 * wa.length) (wa ++ code)) := by
  obtain ⟨f, t1, A, o, l1, s1, p1, i1⟩ := accepted ha
  rw [visible_self hz] at l1 s1
  obtain rfl := scans_unique hz sa s1
  obtain ⟨f', t2, B, o', l2, s2, p2, i2⟩ := accepted hb
  obtain rfl := scans_unique (visible_no_nul b) sb s2
  obtain ⟨rfl, -⟩ := Program.option_free p1 oa
  have hA : A.length = 3 * k := by rw [Nxas.Program.semicolons p1]; exact hs
  have hdk := is_dksh l2 p2 hd
  have hwa : wa = groups A := by
    cases i1 with
    | raw => rfl
    | dksh h => simp at h
  cases i2 with
  | raw h => rw [hdk] at h; simp at h
  | @dksh entry h1 h2 h3 h4 h5 =>
    refine ⟨o', entry, groups B, rfl, ?_⟩
    obtain ⟨g, hg⟩ := exists_labels (a ++ visible b)
    have hlen : (groups A).length = 4 * k := by rw [groups_length]; omega
    rw [hwa, assemble_iff, count_visible hz]
    have hcar : ∀ {s x}, f' s = some x → ¬ Defines a s → g s = some (x + 32 * k) := fun hx hn => lab_right hl hk l2 hg hn hx
    have hent := hcar h3 hmain
    rw [← groups_append (by omega)]
    refine ⟨g, ta ++ shift (lineAfter a) tb, A ++ B, o', hg, Scans.join sa hl p1.ending (Scans.shift sb _), ?_,
      .dksh h1 h2 (by rw [hent, hlen]; congr 1; omega) (by omega) h5⟩
    refine Program.append (o1 := {}) ?_ (Program.shift ?_ _)
    · have := Program.carry (n := 0) p1 (lab' := g) (fun j s x _ hx => ⟨x, lab_left hl l1 hg hx, by simp⟩) (.inl rfl)
      simpa using this
    · rw [hA, Nat.add_comm]
      refine Program.carry p2 (fun j s x hin hx => ?_) (.inr nb)
      have hdef : Defines (visible b) s := by
        obtain ⟨pre, h, -⟩ := (l2 s x).1 hx
        exact ⟨pre, h.1⟩
      refine ⟨x + 32 * k, hcar hx fun h => hdis s h hdef hin, ?_⟩
      unfold addressOf
      dsimp only
      omega

/-- A loop in front of a container. -/
example : ∃ o entry code wb, assemble true c!"main:\n.dksh compute\nBRA main;\n" = .ok wb ∧ wb = container o entry code ∧
    assemble false (c!"L:\nNOP;\nNOP;\nBRA L;\n" ++ c!"main:\n.dksh compute\nBRA main;\n") =
      .ok (container o (entry + 32) ([0x001f8000fc0007e0, 0x50b0000000070f00, 0x50b0000000070f00, 0xe2400ffffe87000f] ++ code)) := by
  have h1 : assemble true c!"main:\n.dksh compute\nBRA main;\n" = .ok (container { type := some .compute, isDksh := true } 0
      [0x001f8000fc0007e0, 0xe2400fffff87000f, 0x50b0000000070f00, 0x50b0000000070f00]) := by decide +kernel
  obtain ⟨o, entry, code, h2, h3⟩ := C98_before (a := c!"L:\nNOP;\nNOP;\nBRA L;\n") (k := 1) (l := 1)
    (wa := [0x001f8000fc0007e0, 0x50b0000000070f00, 0x50b0000000070f00, 0xe2400ffffe87000f])
    (ta := [(.ident c!"NOP", 1), (.semicolon, 1), (.ident c!"NOP", 2), (.semicolon, 2), (.ident c!"BRA", 3), (.ident c!"L", 3), (.semicolon, 3)])
    (tb := [(.ident c!".dksh", 1), (.ident c!"compute", 1), (.ident c!"BRA", 2), (.ident c!"main", 2), (.semicolon, 2)])
    (by decide +kernel) h1 (by decide) (.inr (by decide)) (lexAll_scans (n := 12) (by decide) (by decide +kernel))
    (lexAll_scans (n := 9) (by decide) (by decide +kernel)) (optionFree_of (by simp +contextual)) (by simp) (not_numeric_of (by simp))
    (by
      intro s h _ hin
      have h1 := defines_find (ls := [(c!"L", 8)]) (by decide +kernel) h
      simp only [List.map_cons, List.map_nil, List.mem_cons, List.not_mem_nil, or_false, Kind.ident.injEq, reduceCtorEq] at hin
      rcases hin with rfl | rfl | rfl | rfl <;> exact h1 (by decide))
    (fun h => defines_find (ls := [(c!"L", 8)]) (by decide +kernel) h (by decide)) (by decide) (by decide)
  exact ⟨o, entry, code, _, h1, h2, h3⟩

/-- C98. Code without options behind a source with a container becomes the last part of its code: the sizes grow, and the entry point
    stays. -/
theorem C98_behind {d : Bool} {a b : Str} {wa wb : List (BitVec 64)} {ta tb : List (Kind × Nat)} (ha : assemble d a = .ok wa)
    (hb : assemble d b = .ok wb) (hz : '\x00' ∉ a) (hl : AtLineStart a) (sa : Scans 0 a ta) (sb : Scans 0 (visible b) tb) {l : Nat}
    (hd : (.ident c!".dksh", l) ∈ ta) (ob : OptionFree (tb.map Prod.fst)) (nb : ¬ NumericBranch (tb.map Prod.fst))
    (hdis : ∀ s, Defines a s → Defines (visible b) s → .ident s ∉ tb.map Prod.fst) {k : Nat} (hk : a.count ';' = 3 * k)
    (hs : ta.countP (fun t => t.1 = .semicolon) = 3 * k) :
    ∃ o entry code, wa = container o entry code ∧ assemble false (a ++ b) = .ok (container o entry (code ++ wb)) := by
  obtain ⟨f, t1, A, o, l1, s1, p1, i1⟩ := accepted ha
  rw [visible_self hz] at l1 s1
  obtain rfl := scans_unique hz sa s1
  obtain ⟨f', t2, B, o', l2, s2, p2, i2⟩ := accepted hb
  obtain rfl := scans_unique (visible_no_nul b) sb s2
  obtain ⟨rfl, hall⟩ := Program.option_free p2 ob
  have hA : A.length = 3 * k := by rw [Nxas.Program.semicolons p1]; exact hs
  have hdk := is_dksh l1 p1 hd
  have hwb : wb = groups B := by
    cases i2 with
    | raw => rfl
    | dksh h => simp at h
  cases i1 with
  | raw h => rw [hdk] at h; simp at h
  | @dksh entry h1 h2 h3 h4 h5 =>
    refine ⟨o, entry, groups A, rfl, ?_⟩
    obtain ⟨g, hg⟩ := exists_labels (a ++ visible b)
    rw [hwb, assemble_iff, count_visible hz, ← groups_append (by omega)]
    refine ⟨g, ta ++ shift (lineAfter a) tb, A ++ B, o, hg, Scans.join sa hl p1.ending (Scans.shift sb _), ?_,
      .dksh h1 h2 (lab_left hl l1 hg h3) h4 h5⟩
    refine Program.append (o1 := o) ?_ (Program.shift ?_ _)
    · have := Program.carry (n := 0) p1 (lab' := g) (fun j s x _ hx => ⟨x, lab_left hl l1 hg hx, by simp⟩) (.inl rfl)
      simpa using this
    · rw [hA, Nat.add_comm]
      refine Program.carry (hall tb rfl o) (fun j s x hin hx => ?_) (.inr nb)
      have hdef : Defines (visible b) s := by
        obtain ⟨pre, h, -⟩ := (l2 s x).1 hx
        exact ⟨pre, h.1⟩
      refine ⟨x + 32 * k, lab_right hl hk l2 hg (fun h => hdis s h hdef hin) hx, ?_⟩
      unfold addressOf
      dsimp only
      omega

/-- A loop behind a container. -/
example : ∃ o entry code wa, assemble true c!"main:\n.dksh compute\nNOP;NOP;BRA main;\n" = .ok wa ∧ wa = container o entry code ∧
    assemble false (c!"main:\n.dksh compute\nNOP;NOP;BRA main;\n" ++ c!"L:\nNOP;\nNOP;\nBRA L;\n") =
      .ok (container o entry (code ++ [0x001f8000fc0007e0, 0x50b0000000070f00, 0x50b0000000070f00, 0xe2400ffffe87000f])) := by
  have h1 : assemble true c!"main:\n.dksh compute\nNOP;NOP;BRA main;\n" = .ok (container { type := some .compute, isDksh := true } 0
      [0x001f8000fc0007e0, 0x50b0000000070f00, 0x50b0000000070f00, 0xe2400ffffe87000f]) := by decide +kernel
  obtain ⟨o, entry, code, h2, h3⟩ := C98_behind (b := c!"L:\nNOP;\nNOP;\nBRA L;\n") (k := 1) (l := 1)
    (wb := [0x001f8000fc0007e0, 0x50b0000000070f00, 0x50b0000000070f00, 0xe2400ffffe87000f])
    (ta := [(.ident c!".dksh", 1), (.ident c!"compute", 1), (.ident c!"NOP", 2), (.semicolon, 2), (.ident c!"NOP", 2), (.semicolon, 2), (.ident c!"BRA", 2),
      (.ident c!"main", 2), (.semicolon, 2)])
    (tb := [(.ident c!"NOP", 1), (.semicolon, 1), (.ident c!"NOP", 2), (.semicolon, 2), (.ident c!"BRA", 3), (.ident c!"L", 3), (.semicolon, 3)])
    h1 (by decide +kernel) (by decide) (.inr (by decide)) (lexAll_scans (n := 12) (by decide) (by decide +kernel))
    (lexAll_scans (n := 9) (by decide) (by decide +kernel)) (by simp) (optionFree_of (by simp +contextual)) (not_numeric_of (by simp))
    (by
      intro s h _ hin
      have h1 := defines_find (ls := [(c!"main", 8)]) (by decide +kernel) h
      simp only [List.map_cons, List.map_nil, List.mem_cons, List.not_mem_nil, or_false, Kind.ident.injEq, reduceCtorEq, false_or] at hin
      rcases hin with rfl | rfl | rfl | rfl <;> exact h1 (by decide))
    (by decide) (by decide)
  exact ⟨o, entry, code, _, h1, h2, h3⟩

end Nxas
