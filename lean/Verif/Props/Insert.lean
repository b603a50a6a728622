import Verif.Props.Link
/-
C99: what can be inserted into a source without changing its image.
-/

namespace Nxas

open Spec

theorem AtLineStart.join {a x : Str} (ha : AtLineStart a) (hx : AtLineStart x) : AtLineStart (a ++ x) := by
  rcases hx with rfl | hx
  · simpa using ha
  · right; rw [List.getLast?_append, hx]; rfl

/-- The tokens of a text that ends with a line are in the lines before its end. -/
theorem Scans.above {l : Nat} {a : Str} {ts : List (Kind × Nat)} (h : Scans l a ts) (ha : AtLineStart a) : ∀ t ∈ ts, t.2 < l + lineAfter a := by
  induction h with
  | done => simp
  | @token l s w rest k ts hs hw _ ih =>
    obtain ⟨y, ys, hy, -⟩ := hw.head
    have hlast : (w ++ rest).getLast? = some '\n' := by
      rcases ha with ha | ha
      · simp [hy] at ha
      · rwa [List.append_assoc, List.getLast?_append, Option.or_of_isSome] at ha
        rw [hy]; simp
    have hpos : 0 < lineAfter (w ++ rest) := List.count_pos_iff.2 (List.mem_of_getLast? hlast)
    intro t ht
    rcases List.mem_cons.1 ht with rfl | ht
    · rw [List.append_assoc, lineAfter_append]
      dsimp only
      omega
    · have ha' : AtLineStart rest := by
        cases hl : rest.getLast? with
        | none => left; simpa using hl
        | some z => right; rw [List.getLast?_append, hl] at hlast; simpa using hlast.symm ▸ hl
      have := ih ha' t ht
      rw [lineAfter_append (s ++ w)]
      omega

/-- Text without semicolons in between changes no label but those it defines. -/
theorem labels_insert {a x b : Str} (ha : AtLineStart a) (hx : AtLineStart x) (hc : ';' ∉ x) {f g : Str → Option Nat} (hf : IsLabelMap (a ++ b) f)
    (hg : IsLabelMap (a ++ x ++ b) g) {s : Str} (hs : ¬ Defines x s) : f s = g s := by
  have hax := AtLineStart.join ha hx
  have hcx : x.count ';' = 0 := List.count_eq_zero.2 hc
  by_cases h1 : Defines a s
  · obtain ⟨p, hp⟩ := h1
    obtain ⟨p, hp, -⟩ := firstDef_exists hp
    rw [(hf s _).2 ⟨p, firstDef_left ha hp, rfl⟩, List.append_assoc] at *
    exact ((hg s _).2 ⟨p, firstDef_left ha hp, rfl⟩).symm
  · have h1' : ¬ Defines (a ++ x) s := by
      rintro ⟨p, hp⟩
      rcases DefAt.split ha hp with hp | ⟨p, -, hp⟩
      · exact h1 ⟨_, hp⟩
      · exact hs ⟨_, hp⟩
    by_cases h2 : Defines b s
    · obtain ⟨p, hp⟩ := h2
      obtain ⟨p, hp, -⟩ := firstDef_exists hp
      rw [(hf s _).2 ⟨_, firstDef_right ha h1 hp, rfl⟩, (hg s _).2 ⟨_, firstDef_right hax h1' hp, rfl⟩]
      simp only [List.count_append, hcx, Nat.add_zero]
    · have e1 : f s = none := by
        rw [Option.eq_none_iff_forall_ne_some]
        intro v hv
        obtain ⟨p, hp, -⟩ := (hf s v).1 hv
        rcases DefAt.split ha hp.1 with hp | ⟨p, -, hp⟩
        · exact h1 ⟨_, hp⟩
        · exact h2 ⟨_, hp⟩
      have e2 : g s = none := by
        rw [Option.eq_none_iff_forall_ne_some]
        intro v hv
        obtain ⟨p, hp, -⟩ := (hg s v).1 hv
        rcases DefAt.split hax hp.1 with hp | ⟨p, -, hp⟩
        · exact h1' ⟨_, hp⟩
        · exact h2 ⟨_, hp⟩
      rw [e1, e2]

/-- The lines of the second part of the tokens moved on. -/
theorem program_lower {lab : Str → Option Nat} {i n m m' : Nat} {o o' : Opts} {ta tb : List (Kind × Nat)} {ops : List Op} (hm : n ≤ m) (hm' : n ≤ m')
    (ha : ∀ t ∈ ta, t.2 < n) (h : Program lab i o (ta ++ shift m tb) ops o') : Program lab i o (ta ++ shift m' tb) ops o' := by
  have e : ∀ (p : Kind × Nat × Nat → Nat), (∀ t : Kind × Nat, p (t.1, t.2, t.2) = t.2) →
      (ta.map (fun t => (t.1, t.2, t.2)) ++ tb.map fun t => (t.1, t.2 + m, t.2 + m')).map (fun z => (z.1, p z)) =
        ta ++ tb.map fun t => (t.1, p (t.1, t.2 + m, t.2 + m')) := by
    intro p hp
    rw [List.map_append, List.map_map, List.map_map]
    congr 1
    exact (List.map_congr_left fun t _ => by simp [hp]).trans (List.map_id ta)
  have := Program.relabel h (zs := ta.map (fun t => (t.1, t.2, t.2)) ++ tb.map fun t => (t.1, t.2 + m, t.2 + m'))
    (e (fun z => z.2.1) (by simp)).symm (by
      intro u hu v hv
      rcases List.mem_append.1 hu with hu | hu <;> rcases List.mem_append.1 hv with hv | hv <;>
        obtain ⟨u, hu', rfl⟩ := List.mem_map.1 hu <;> obtain ⟨v, hv', rfl⟩ := List.mem_map.1 hv
      · simp
      · have := ha u hu'; dsimp only; omega
      · have := ha v hv'; dsimp only; omega
      · dsimp only; omega)
  rwa [e (fun z => z.2.2) (by simp)] at this

/-- C99. Between two lines, the first of which ends an instruction, blanks, empty lines and labels that are not used can be inserted, and
    removed: the source is accepted with the same image. -/
theorem C99_insert {a x b : Str} {ta tb : List (Kind × Nat)} (hz : '\x00' ∉ a ++ x) (ha : AtLineStart a) (hx : AtLineStart x) (sa : Scans 0 a ta)
    (he : ∀ t, ta.getLast? = some t → t.1 = .semicolon) (sx : Skipped x []) (hc : ';' ∉ x) (sb : Scans 0 (visible b) tb)
    (hu : ∀ s, Defines x s → .ident s ∉ (ta ++ tb).map Prod.fst ∧ (s = c!"main" → .ident c!".dksh" ∉ (ta ++ tb).map Prod.fst))
    (ws : List (BitVec 64)) : assemble false (a ++ b) = .ok ws ↔ assemble false (a ++ x ++ b) = .ok ws := by
  have hz1 : '\x00' ∉ a := fun h => hz (by simp [h])
  obtain ⟨f, hf⟩ := exists_labels (a ++ visible b)
  obtain ⟨g, hg⟩ := exists_labels (a ++ x ++ visible b)
  have s1 : Scans 0 (a ++ visible b) (ta ++ shift (lineAfter a) tb) := Scans.join sa ha he (Scans.shift sb _)
  have s2 : Scans 0 (a ++ x ++ visible b) (ta ++ shift (lineAfter (a ++ x)) tb) := by
    rw [List.append_assoc]
    refine Scans.join sa ha he ?_
    rw [lineAfter_append]
    exact Scans.skip (Skipped.free sx hx) (by simpa using Scans.shift sb (lineAfter a + lineAfter x))
  have hab := Scans.above sa ha
  have hle : lineAfter a ≤ lineAfter (a ++ x) := by rw [lineAfter_append]; omega
  have hfg : ∀ s, ¬ Defines x s → f s = g s := fun s => labels_insert ha hx hc hf hg
  have hks : ∀ n, (ta ++ shift n tb).map Prod.fst = (ta ++ tb).map Prod.fst := fun n => by simp [shift]
  have key : ∀ {f g : Str → Option Nat} {n m : Nat} {t t' : Str}, 0 + lineAfter a ≤ n → 0 + lineAfter a ≤ m → (∀ s, ¬ Defines x s → f s = g s) →
      IsLabelMap t f → IsLabelMap t' g → '\x00' ∉ t → Scans 0 t (ta ++ shift n tb) → Scans 0 t' (ta ++ shift m tb) → Assembles t ws → Assembles t' ws := by
    intro f g n m t t' hn hm hfg hf hg hz s1 s2 h
    obtain ⟨f', ts, ops, o, l1, s1', p1, i1⟩ := h
    obtain rfl := IsLabelMap.unique hf l1
    obtain rfl := scans_unique hz s1 s1'
    refine ⟨g, _, ops, o, hg, s2, program_lower hn hm hab ?_, ?_⟩
    · have hcar : ∀ j, Carries ⟨f, addressOf j⟩ ⟨g, addressOf (0 + j)⟩ ((ta ++ shift n tb).map Prod.fst) := fun j s v hin hv => ⟨v, ?_, by simp⟩
      · simpa using Program.carry (n := 0) p1 (lab' := g) hcar (.inl rfl)
      · exact (hfg s fun hd => (hu s hd).1 (by rwa [hks] at hin)).symm.trans hv
    · cases i1 with
      | raw h1 h2 => exact .raw h1 h2
      | dksh h1 h2 h3 h4 h5 =>
        refine .dksh h1 h2 ?_ h4 h5
        rw [← hfg _ fun hd => ?_]
        · exact h3
        · have hno := (hu _ hd).2 rfl
          rw [← hks n] at hno
          rw [not_dksh l1 p1 fun t ht hk => hno (List.mem_map.2 ⟨t, ht, hk⟩)] at h1
          simp at h1
  rw [assemble_iff, assemble_iff, count_visible hz1, count_visible hz]
  refine ⟨key (by omega) (by omega) hfg hf hg ?_ s1 s2, key (by omega) (by omega) (fun s hs => (hfg s hs).symm) hg hf ?_ s2 s1⟩
  · simp [hz1, visible_no_nul b]
  · rw [List.mem_append]
    exact not_or.2 ⟨hz, visible_no_nul b⟩

/-- A label that is not used, in the middle of a loop. -/
example : assemble false (c!"L:\nNOP;\n" ++ c!"\n unused:\nother:  \n" ++ c!"BRA L;") =
    .ok [0x001f8000fc0007e0, 0x50b0000000070f00, 0xe2400fffff07000f, 0x50b0000000070f00] := by
  refine (C99_insert (a := c!"L:\nNOP;\n") (x := c!"\n unused:\nother:  \n") (b := c!"BRA L;") (ta := [(.ident c!"NOP", 1), (.semicolon, 1)])
    (tb := [(.ident c!"BRA", 0), (.ident c!"L", 0), (.semicolon, 0)]) (by decide) (.inr (by decide)) (.inr (by decide))
    (lexAll_scans (n := 9) (by decide) (by decide +kernel)) (by simp) ?_ (by decide) (lexAll_scans (n := 9) (by decide) (by decide +kernel)) ?_ _).1
    (by decide +kernel)
  · have : Scans 0 c!"\n unused:\nother:  \n" [] := lexAll_scans (n := 9) (ps := []) (by decide) (by decide +kernel)
    generalize c!"\n unused:\nother:  \n" = x at this
    cases this
    assumption
  · intro s hs
    have h1 := defines_find (ls := [(c!"other", 8)]) (by decide +kernel) hs
    refine ⟨fun hin => ?_, ?_⟩
    · simp only [List.map_cons, List.map_nil, List.mem_cons, List.not_mem_nil, or_false, Kind.ident.injEq, reduceCtorEq, List.cons_append,
        List.nil_append, false_or] at hin
      rcases hin with rfl | rfl | rfl <;> exact h1 (by decide)
    · rintro rfl; exact absurd (by decide) h1

/-- A label that is used cannot be inserted: the branch leads elsewhere. -/
example : assemble true (c!"NOP;\n" ++ c!"NOP;\nL:\nBRA L;") =
      .ok [0x001f8000fc0007e0, 0x50b0000000070f00, 0x50b0000000070f00, 0xe2400fffff87000f] ∧
    assemble true (c!"NOP;\n" ++ c!"L:\n" ++ c!"NOP;\nL:\nBRA L;") =
      .ok [0x001f8000fc0007e0, 0x50b0000000070f00, 0x50b0000000070f00, 0xe2400fffff07000f] := by
  decide +kernel

end Nxas
