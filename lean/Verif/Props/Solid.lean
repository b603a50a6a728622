import Verif.Lemmas.Solid
import Verif.Props.Insert
import Verif.Props.LinkDksh
import Verif.Props.Room
/-
C102: acceptance with assertions, instruction by instruction.
-/

namespace Nxas

open Spec

/-- C102. The tokens of an accepted source are options and instructions, in one way. -/
theorem C102_splits {d : Bool} {code : Str} {ws : List (BitVec 64)} {ts : List (Kind × Nat)} (h : assemble d code = .ok ws)
    (hs : Scans 0 (visible code) ts) : ∃ us, Splits (ts.map Prod.fst) us ∧ ∀ us', Splits (ts.map Prod.fst) us' → us' = us := by
  obtain ⟨f, ts', ops, o, hl, s1, p1, -⟩ := accepted h
  obtain rfl := scans_unique (visible_no_nul code) hs s1
  obtain ⟨us, h1, -, -⟩ := program_splits p1
  exact ⟨us, h1, fun us' h2 => Splits.unique h2 h1⟩

/-- C102. A source is accepted with assertions if it is accepted without, has as many instructions as semicolons and no instruction of which two
    parts set the same bit. -/
theorem C102_debug {code : Str} {ts : List (Kind × Nat)} {us : List (List Kind)} (hs : Scans 0 (visible code) ts) (hu : Splits (ts.map Prod.fst) us)
    (ws : List (BitVec 64)) :
    assemble true code = .ok ws ↔ assemble false code = .ok ws ∧ us.length = code.count ';' ∧ ∀ u ∈ us, ¬ Unsound u := by
  constructor
  · intro h
    have h1 := C26_accepted h
    refine ⟨h1, ?_⟩
    have h2 : ¬ Aborts code := fun ha => by rw [(C79_aborts code).2 ha] at h; simp at h
    rw [aborts_iff h1 hs hu, not_or] at h2
    exact ⟨not_not.1 h2.1, fun u hm hun => h2.2 ⟨u, hm, hun⟩⟩
  · rintro ⟨h, h1, h2⟩
    have h3 : ¬ Aborts code := by
      rw [aborts_iff h hs hu]
      rintro (hn | ⟨u, hm, hun⟩)
      · exact hn h1
      · exact h2 u hm hun
    rcases C79_builds code with ⟨ha, -⟩ | ⟨-, he⟩
    · exact absurd ha h3
    · rw [he, h]

/-- C102. An instruction that is accepted with assertions in one source is so in all: a source accepted without assertions whose instructions
    are all taken from sources accepted with assertions is accepted with them. -/
theorem C102_everywhere {code : Str} {ws : List (BitVec 64)} {ts : List (Kind × Nat)} {us : List (List Kind)} (h : assemble false code = .ok ws)
    (hs : Scans 0 (visible code) ts) (hu : Splits (ts.map Prod.fst) us) (hn : us.length = code.count ';')
    (hi : ∀ u ∈ us, ∃ a wa ta ua, assemble true a = .ok wa ∧ Scans 0 (visible a) ta ∧ Splits (ta.map Prod.fst) ua ∧ u ∈ ua) :
    assemble true code = .ok ws := by
  refine (C102_debug hs hu ws).2 ⟨h, hn, fun u hm => ?_⟩
  obtain ⟨a, wa, ta, ua, h1, h2, h3, h4⟩ := hi u hm
  exact ((C102_debug h2 h3 wa).1 h1).2.2 u h4

/-- C102. Whether an assertion fails depends on the tokens and the number of semicolons only. -/
theorem C102_layout {a b : Str} {wa wb : List (BitVec 64)} {ta tb : List (Kind × Nat)} (ha : assemble true a = .ok wa) (hb : assemble false b = .ok wb)
    (sa : Scans 0 (visible a) ta) (sb : Scans 0 (visible b) tb) (hk : tb.map Prod.fst = ta.map Prod.fst) (hn : a.count ';' = b.count ';') :
    assemble true b = .ok wb := by
  obtain ⟨us, hu, -⟩ := C102_splits ha sa
  obtain ⟨-, h1, h2⟩ := (C102_debug sa hu wa).1 ha
  exact (C102_debug sb (hk ▸ hu) wb).2 ⟨hb, by rw [h1, hn], h2⟩

/-- C102. Inserting blanks, empty lines and labels that are not used does not change the image, with assertions either. -/
theorem C102_insert {d : Bool} {a x b : Str} {ta tb : List (Kind × Nat)} (hz : '\x00' ∉ a ++ x) (ha : AtLineStart a) (hx : AtLineStart x)
    (sa : Scans 0 a ta) (he : ∀ t, ta.getLast? = some t → t.1 = .semicolon) (sx : Skipped x []) (hc : ';' ∉ x) (sb : Scans 0 (visible b) tb)
    (hu : ∀ s, Defines x s → .ident s ∉ (ta ++ tb).map Prod.fst ∧ (s = c!"main" → .ident c!".dksh" ∉ (ta ++ tb).map Prod.fst))
    (ws : List (BitVec 64)) : assemble d (a ++ b) = .ok ws ↔ assemble d (a ++ x ++ b) = .ok ws := by
  have key := C99_insert hz ha hx sa he sx hc sb hu ws
  cases d with
  | false => exact key
  | true =>
    have hz1 : '\x00' ∉ a := fun h => hz (by simp [h])
    have s1 : Scans 0 (visible (a ++ b)) (ta ++ shift (lineAfter a) tb) := by
      rw [count_visible hz1]
      exact Scans.join sa ha he (Scans.shift sb _)
    have s2 : Scans 0 (visible (a ++ x ++ b)) (ta ++ shift (lineAfter (a ++ x)) tb) := by
      rw [count_visible hz, List.append_assoc]
      refine Scans.join sa ha he ?_
      rw [lineAfter_append]
      exact Scans.skip (Skipped.free sx hx) (by simpa using Scans.shift sb (lineAfter a + lineAfter x))
    have hn : (a ++ b).count ';' = (a ++ x ++ b).count ';' := by
      simp [List.count_append, List.count_eq_zero.2 hc]
    constructor
    · intro h
      exact C102_layout h (key.1 (C26_accepted h)) s1 s2 (by simp [shift]) hn
    · intro h
      exact C102_layout h (key.2 (C26_accepted h)) s2 s1 (by simp [shift]) hn.symm

/-- C102. Two sources accepted with assertions, one behind the other: if that is accepted at all, it is so with assertions. -/
theorem C102_append {a b : Str} {wa wb ws : List (BitVec 64)} {ta tb : List (Kind × Nat)} (ha : assemble true a = .ok wa)
    (hb : assemble true b = .ok wb) (hz : '\x00' ∉ a) (hl : AtLineStart a) (sa : Scans 0 a ta) (sb : Scans 0 (visible b) tb)
    (h : assemble false (a ++ b) = .ok ws) : assemble true (a ++ b) = .ok ws := by
  have sa' : Scans 0 (visible a) ta := by rwa [visible_self hz]
  obtain ⟨ua, h1, -⟩ := C102_splits ha sa'
  obtain ⟨ub, h2, -⟩ := C102_splits hb sb
  obtain ⟨-, n1, c1⟩ := (C102_debug sa' h1 wa).1 ha
  obtain ⟨-, n2, c2⟩ := (C102_debug sb h2 wb).1 hb
  obtain ⟨f, ts', ops, o, -, s1, p1, -⟩ := accepted ha
  obtain rfl := scans_unique (visible_no_nul a) sa' s1
  have s : Scans 0 (visible (a ++ b)) (ta ++ shift (lineAfter a) tb) := by
    rw [count_visible hz]
    exact Scans.join sa hl p1.ending (Scans.shift sb _)
  have hk : (ta ++ shift (lineAfter a) tb).map Prod.fst = ta.map Prod.fst ++ tb.map Prod.fst := by simp [shift]
  refine (C102_debug s (us := ua ++ ub) (hk ▸ Splits.append h1 h2) ws).2 ⟨h, by rw [List.length_append, n1, n2, List.count_append], ?_⟩
  intro u hu
  rcases List.mem_append.1 hu with hu | hu
  · exact c1 u hu
  · exact c2 u hu

/-- C102. Two sources accepted with assertions can be linked, with assertions. -/
theorem C102_link {a b : Str} {wa wb : List (BitVec 64)} {ta tb : List (Kind × Nat)} (ha : assemble true a = .ok wa)
    (hb : assemble true b = .ok wb) (hz : '\x00' ∉ a) (hl : AtLineStart a) (sa : Scans 0 a ta) (sb : Scans 0 (visible b) tb)
    (oa : OptionFree (ta.map Prod.fst)) (hd : ∀ t ∈ tb, t.1 ≠ .ident c!".dksh") (nb : ¬ NumericBranch (tb.map Prod.fst))
    (hdis : ∀ s, Defines a s → Defines (visible b) s → .ident s ∉ tb.map Prod.fst) {k : Nat} (hk : a.count ';' = 3 * k) :
    assemble true (a ++ b) = .ok (wa ++ wb) :=
  C102_append ha hb hz hl sa sb (C83_link ha hb hz hl sa sb oa hd nb hdis hk
    ((debug_semicolons ha (by rwa [visible_self hz])).trans hk))

/-- C102. A container can be extended with code in front of it, with assertions. -/
theorem C102_before {a b : Str} {wa wb : List (BitVec 64)} {ta tb : List (Kind × Nat)} (ha : assemble true a = .ok wa)
    (hb : assemble true b = .ok wb) (hz : '\x00' ∉ a) (hl : AtLineStart a) (sa : Scans 0 a ta) (sb : Scans 0 (visible b) tb)
    (oa : OptionFree (ta.map Prod.fst)) {l : Nat} (hd : (.ident c!".dksh", l) ∈ tb) (nb : ¬ NumericBranch (tb.map Prod.fst))
    (hdis : ∀ s, Defines a s → Defines (visible b) s → .ident s ∉ tb.map Prod.fst) (hmain : ¬ Defines a c!"main") {k : Nat}
    (hk : a.count ';' = 3 * k) :
    ∃ o entry code, wb = container o entry code ∧ assemble true (a ++ b) = .ok (container o (entry + 8 * wa.length) (wa ++ code)) := by
  obtain ⟨o, entry, code, h1, h2⟩ := C98_before ha hb hz hl sa sb oa hd nb hdis hmain hk
    ((debug_semicolons ha (by rwa [visible_self hz])).trans hk)
  exact ⟨o, entry, code, h1, C102_append ha hb hz hl sa sb h2⟩

/-- C102. A container can be extended with code behind it, with assertions. -/
theorem C102_behind {a b : Str} {wa wb : List (BitVec 64)} {ta tb : List (Kind × Nat)} (ha : assemble true a = .ok wa)
    (hb : assemble true b = .ok wb) (hz : '\x00' ∉ a) (hl : AtLineStart a) (sa : Scans 0 a ta) (sb : Scans 0 (visible b) tb) {l : Nat}
    (hd : (.ident c!".dksh", l) ∈ ta) (ob : OptionFree (tb.map Prod.fst)) (nb : ¬ NumericBranch (tb.map Prod.fst))
    (hdis : ∀ s, Defines a s → Defines (visible b) s → .ident s ∉ tb.map Prod.fst) {k : Nat} (hk : a.count ';' = 3 * k) :
    ∃ o entry code, wa = container o entry code ∧ assemble true (a ++ b) = .ok (container o entry (code ++ wb)) := by
  obtain ⟨o, entry, code, h1, h2⟩ := C98_behind ha hb hz hl sa sb hd ob nb hdis hk
    ((debug_semicolons ha (by rwa [visible_self hz])).trans hk)
  exact ⟨o, entry, code, h1, C102_append ha hb hz hl sa sb h2⟩

/-! ### Examples -/

/-- A program type and two instructions. -/
theorem C102_case : Splits [.ident c!".type", .ident c!"compute", .ident c!"MOV", .reg 0, .comma, .reg 1, .semicolon, .ident c!"EXIT", .semicolon]
    [[.ident c!"MOV", .reg 0, .comma, .reg 1, .semicolon], [.ident c!"EXIT", .semicolon]] := by
  have ho : ∀ {w : Str}, w.head? ≠ some '.' → ¬ IsOptionWord (.ident w) := by rintro w hw ⟨w', h, h'⟩; cases h; exact hw h'
  exact .option (vs := [.ident c!"compute"]) rfl rfl (.insn (u := [.reg 0, .comma, .reg 1]) (ho (by decide)) (by decide)
    (.insn (u := []) (ho (by decide)) (by decide) .done))

/-- None of them sets a bit twice. -/
example : ¬ Unsound [.ident c!"MOV", .reg 0, .comma, .reg 1, .semicolon] ∧ ¬ Unsound [.ident c!"EXIT", .semicolon] := by
  have h := (C102_debug (code := c!".type compute\nMOV R0, R1;\nEXIT;") (ts := [(.ident c!".type", 0), (.ident c!"compute", 0), (.ident c!"MOV", 1), (.reg 0, 1),
    (.comma, 1), (.reg 1, 1), (.semicolon, 1), (.ident c!"EXIT", 2), (.semicolon, 2)]) (lexAll_scans (n := 20) (by decide) (by decide +kernel)) C102_case
    [0x001f8000fc0007e0, 0x5c98078000170000, 0xe30000000007000f, 0x50b0000000070f00]).1 (by decide +kernel)
  exact ⟨h.2.2 _ (by simp), h.2.2 _ (by simp)⟩

/-- `SUST.D.BA` sets a bit twice, wherever it is. -/
example (rest : List Kind) : Unsound ([.ident c!"SUST", .ident c!".D", .ident c!".BA"] ++ rest) :=
  ⟨⟨fun _ => none, 0⟩, _, List.prefix_append _ _, C79_sust _⟩

/-- A loop linked behind three instructions. -/
example : assemble true (c!"NOP;NOP;NOP;\n" ++ c!"L:\nBRA L;") = .ok ([0x001f8000fc0007e0, 0x50b0000000070f00, 0x50b0000000070f00, 0x50b0000000070f00] ++
    [0x001f8000fc0007e0, 0xe2400fffff87000f, 0x50b0000000070f00, 0x50b0000000070f00]) := by
  refine C102_link (k := 1) (ta := [(.ident c!"NOP", 0), (.semicolon, 0), (.ident c!"NOP", 0), (.semicolon, 0), (.ident c!"NOP", 0), (.semicolon, 0)])
    (tb := [(.ident c!"BRA", 1), (.ident c!"L", 1), (.semicolon, 1)]) (by decide +kernel) (by decide +kernel) (by decide) (.inr (by decide))
    (lexAll_scans (n := 9) (by decide) (by decide +kernel)) (lexAll_scans (n := 9) (by decide) (by decide +kernel)) (optionFree_of (by simp +contextual)) (by decide)
    (not_numeric_of (by simp)) ?_ (by decide)
  intro s hs
  exact absurd rfl (defines_find (ls := []) (by decide +kernel) hs)

/-- The same tokens in one line. -/
example : assemble true c!"MOV R0,R1;EXIT;" = .ok [0x001f8000fc0007e0, 0x5c98078000170000, 0xe30000000007000f, 0x50b0000000070f00] :=
  C102_layout (a := c!"MOV R0, R1;\n EXIT ;") (wa := [0x001f8000fc0007e0, 0x5c98078000170000, 0xe30000000007000f, 0x50b0000000070f00])
    (ta := [(.ident c!"MOV", 0), (.reg 0, 0), (.comma, 0), (.reg 1, 0), (.semicolon, 0), (.ident c!"EXIT", 1), (.semicolon, 1)])
    (tb := [(.ident c!"MOV", 0), (.reg 0, 0), (.comma, 0), (.reg 1, 0), (.semicolon, 0), (.ident c!"EXIT", 0), (.semicolon, 0)])
    (by decide +kernel) (by decide +kernel) (lexAll_scans (n := 20) (by decide) (by decide +kernel))
    (lexAll_scans (n := 20) (by decide) (by decide +kernel)) rfl (by decide)

/-- A label that is not used, in the middle of a loop. -/
example : assemble true (c!"L:\nNOP;\n" ++ c!"\nother:  \n" ++ c!"BRA L;") =
    .ok [0x001f8000fc0007e0, 0x50b0000000070f00, 0xe2400fffff07000f, 0x50b0000000070f00] := by
  refine (C102_insert (a := c!"L:\nNOP;\n") (x := c!"\nother:  \n") (b := c!"BRA L;") (ta := [(.ident c!"NOP", 1), (.semicolon, 1)])
    (tb := [(.ident c!"BRA", 0), (.ident c!"L", 0), (.semicolon, 0)]) (by decide) (.inr (by decide)) (.inr (by decide))
    (lexAll_scans (n := 9) (by decide) (by decide +kernel)) (by simp) ?_ (by decide) (lexAll_scans (n := 9) (by decide) (by decide +kernel)) ?_ _).1
    (by decide +kernel)
  · have : Scans 0 c!"\nother:  \n" [] := lexAll_scans (n := 9) (ps := []) (by decide) (by decide +kernel)
    generalize c!"\nother:  \n" = x at this
    cases this
    assumption
  · intro s hs
    have h1 := defines_find (ls := [(c!"other", 8)]) (by decide +kernel) hs
    refine ⟨fun hin => ?_, ?_⟩
    · simp only [List.map_cons, List.map_nil, List.mem_cons, List.not_mem_nil, or_false, Kind.ident.injEq, reduceCtorEq, List.cons_append,
        List.nil_append, false_or] at hin
      rcases hin with rfl | rfl | rfl <;> exact h1 (by decide)
    · rintro rfl; exact absurd (by decide) h1

/-- A loop in front of a container. -/
example : ∃ o entry code wb, assemble true c!"main:\n.dksh compute\nBRA main;\n" = .ok wb ∧ wb = container o entry code ∧
    assemble true (c!"L:\nNOP;\nNOP;\nBRA L;\n" ++ c!"main:\n.dksh compute\nBRA main;\n") =
      .ok (container o (entry + 32) ([0x001f8000fc0007e0, 0x50b0000000070f00, 0x50b0000000070f00, 0xe2400ffffe87000f] ++ code)) := by
  have h1 : assemble true c!"main:\n.dksh compute\nBRA main;\n" = .ok (container { type := some .compute, isDksh := true } 0
      [0x001f8000fc0007e0, 0xe2400fffff87000f, 0x50b0000000070f00, 0x50b0000000070f00]) := by decide +kernel
  obtain ⟨o, entry, code, h2, h3⟩ := C102_before (a := c!"L:\nNOP;\nNOP;\nBRA L;\n") (k := 1) (l := 1)
    (wa := [0x001f8000fc0007e0, 0x50b0000000070f00, 0x50b0000000070f00, 0xe2400ffffe87000f])
    (ta := [(.ident c!"NOP", 1), (.semicolon, 1), (.ident c!"NOP", 2), (.semicolon, 2), (.ident c!"BRA", 3), (.ident c!"L", 3), (.semicolon, 3)])
    (tb := [(.ident c!".dksh", 1), (.ident c!"compute", 1), (.ident c!"BRA", 2), (.ident c!"main", 2), (.semicolon, 2)])
    (by decide +kernel) h1 (by decide) (.inr (by decide)) (lexAll_scans (n := 12) (by decide) (by decide +kernel))
    (lexAll_scans (n := 9) (by decide) (by decide +kernel)) (optionFree_of (by simp +contextual)) (by simp) (not_numeric_of (by simp))
    (by
      intro s h _ hin
      have h1 := defines_find (ls := [(c!"L", 8)]) (by decide +kernel) h
      simp only [List.map_cons, List.map_nil, List.mem_cons, List.not_mem_nil, or_false, Kind.ident.injEq, reduceCtorEq] at hin
      rcases hin with rfl | rfl | rfl | rfl <;> exact h1 (by decide))
    (fun h => defines_find (ls := [(c!"L", 8)]) (by decide +kernel) h (by decide)) (by decide)
  exact ⟨o, entry, code, _, h1, h2, h3⟩

/-- A loop behind a container. -/
example : ∃ o entry code wa, assemble true c!"main:\n.dksh compute\nNOP;NOP;BRA main;\n" = .ok wa ∧ wa = container o entry code ∧
    assemble true (c!"main:\n.dksh compute\nNOP;NOP;BRA main;\n" ++ c!"L:\nNOP;\nNOP;\nBRA L;\n") =
      .ok (container o entry (code ++ [0x001f8000fc0007e0, 0x50b0000000070f00, 0x50b0000000070f00, 0xe2400ffffe87000f])) := by
  have h1 : assemble true c!"main:\n.dksh compute\nNOP;NOP;BRA main;\n" = .ok (container { type := some .compute, isDksh := true } 0
      [0x001f8000fc0007e0, 0x50b0000000070f00, 0x50b0000000070f00, 0xe2400ffffe87000f]) := by decide +kernel
  obtain ⟨o, entry, code, h2, h3⟩ := C102_behind (b := c!"L:\nNOP;\nNOP;\nBRA L;\n") (k := 1) (l := 1)
    (wb := [0x001f8000fc0007e0, 0x50b0000000070f00, 0x50b0000000070f00, 0xe2400ffffe87000f])
    (ta := [(.ident c!".dksh", 1), (.ident c!"compute", 1), (.ident c!"NOP", 2), (.semicolon, 2), (.ident c!"NOP", 2), (.semicolon, 2), (.ident c!"BRA", 2),
      (.ident c!"main", 2), (.semicolon, 2)])
    (tb := [(.ident c!"NOP", 1), (.semicolon, 1), (.ident c!"NOP", 2), (.semicolon, 2), (.ident c!"BRA", 3), (.ident c!"L", 3), (.semicolon, 3)])
    h1 (by decide +kernel) (by decide) (.inr (by decide)) (lexAll_scans (n := 12) (by decide) (by decide +kernel))
    (lexAll_scans (n := 9) (by decide) (by decide +kernel)) (by simp) (optionFree_of (by simp +contextual)) (not_numeric_of (by simp))
    (by
      intro s h _ hin
      have h1 := defines_find (ls := [(c!"main", 8)]) (by decide +kernel) h
      simp only [List.map_cons, List.map_nil, List.mem_cons, List.not_mem_nil, or_false, Kind.ident.injEq, reduceCtorEq, false_or] at hin
      rcases hin with rfl | rfl | rfl | rfl <;> exact h1 (by decide))
    (by decide)
  exact ⟨o, entry, code, _, h1, h2, h3⟩

end Nxas
