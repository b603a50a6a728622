import Verif.Lemmas.Compose
import Verif.Props.Builds
import Verif.Props.Containers
/-
C11, C16, C47, C58, C59: which sources are accepted and what they are assembled to.
-/

namespace Nxas

open Spec

/-! ### Refinement -/

/-- C58. The assembler (release build) accepts exactly the sources of the grammar and writes their images. -/
theorem C58_refinement (code : Str) (words : List (BitVec 64)) : assemble false code = .ok words ↔ Assembles (visible code) words :=
  assemble_iff

/-- The debug build accepts no other source and writes the same image. -/
theorem C58_debug {code : Str} {words : List (BitVec 64)} (h : assemble true code = .ok words) : Assembles (visible code) words :=
  accepted h

/-- The grammar gives a source at most one image. -/
theorem C58_unambiguous {t : Str} (hz : '\x00' ∉ t) {ws ws' : List (BitVec 64)} (h : Assembles t ws) (h' : Assembles t ws') : ws = ws' :=
  assembles_unique hz h h'

/-- A source that is not in the grammar is not accepted. -/
theorem C58_rejected {code : Str} (h : ∀ ws, ¬ Assembles (visible code) ws) (d : Bool) (ws : List (BitVec 64)) : assemble d code ≠ .ok ws :=
  fun h' => h ws (accepted h')

/-- A label in the line of an instruction, an option and a branch. -/
example : Assembles c!".type compute\nL:\nBRA L;\n" [0x001F8000FC0007E0, 0xE2400FFFFF87000F, 0x50B0000000070F00, 0x50B0000000070F00] :=
  (assemble_iff (code := c!".type compute\nL:\nBRA L;\n")).1 (by decide +kernel)
/-- Nothing is assembled to nothing; a semicolon alone is not an instruction. -/
example : Assembles [] [] := (assemble_iff (code := [])).1 (by decide +kernel)
example (ws : List (BitVec 64)) : ¬ Assembles c!";" ws := by
  intro h
  have h1 := (assemble_iff (code := c!";")).2 h
  have h2 : assemble false c!";" = .exit (.located ⟨0, 0, "expected mnemonic"⟩) := by decide +kernel
  rw [h2] at h1
  simp at h1

/-- C59. The release build never aborts: a source is accepted, rejected with a diagnostic, or its treatment is
    undefined behaviour. -/
theorem C59_release (code : Str) : (∃ ws, assemble false code = .ok ws) ∨ (∃ e, assemble false code = .exit e) ∨ ∃ u, assemble false code = .ub u := by
  cases h : assemble false code with
  | ok ws => exact .inl ⟨ws, rfl⟩
  | exit e => exact .inr (.inl ⟨e, rfl⟩)
  | ub u => exact .inr (.inr ⟨u, rfl⟩)
  | abort => exact absurd h (assembleWith_quiet insnTable code)

/-- The debug build does abort. -/
example : assemble true c!"P;:\nNOP;" = .abort := by decide +kernel

/-! ### Layout -/

/-- C16. Sources without options that have the same tokens, in whatever lines, and the same labels are assembled
    to the same words. -/
theorem C16_layout {d : Bool} {a b : Str} {ws : List (BitVec 64)} {ts ts' : List (Kind × Nat)} (h : assemble d a = .ok ws)
    (ha : Scans 0 (visible a) ts) (hb : Scans 0 (visible b) ts') (hk : ts'.map Prod.fst = ts.map Prod.fst) (ho : OptionFree (ts.map Prod.fst))
    (hl : ∀ lab, IsLabelMap (visible a) lab → IsLabelMap (visible b) lab) : assemble false b = .ok ws := by
  obtain ⟨lab, ts0, ops, o, h1, h2, h3, h4⟩ := accepted h
  obtain rfl := scans_unique (visible_no_nul a) ha h2
  obtain ⟨rfl, h5⟩ := Program.option_free h3 ho
  exact assemble_iff.2 ⟨lab, ts', ops, {}, hl lab h1, hb, h5 ts' hk _, h4⟩

/-- With options, lines matter only in so far as tokens are in the same line or not. -/
theorem C16_lines {d : Bool} {a b : Str} {ws : List (BitVec 64)} {zs : List (Kind × Nat × Nat)} (h : assemble d a = .ok ws)
    (ha : Scans 0 (visible a) (zs.map fun z => (z.1, z.2.1))) (hb : Scans 0 (visible b) (zs.map fun z => (z.1, z.2.2)))
    (he : ∀ x ∈ zs, ∀ y ∈ zs, x.2.1 = y.2.1 ↔ x.2.2 = y.2.2)
    (hl : ∀ lab, IsLabelMap (visible a) lab → IsLabelMap (visible b) lab) : assemble false b = .ok ws := by
  obtain ⟨lab, ts0, ops, o, h1, h2, h3, h4⟩ := accepted h
  obtain rfl := scans_unique (visible_no_nul a) ha h2
  exact assemble_iff.2 ⟨lab, _, ops, o, hl lab h1, hb, Program.relabel h3 rfl he, h4⟩

example : ∃ ws ts ts', assemble true c!"MOV R0,R1;" = .ok ws ∧ Scans 0 (visible c!"MOV R0,R1;") ts ∧
    Scans 0 (visible c!"\n MOV\n\tR0 ,\nR1\n;\n") ts' ∧ ts ≠ ts' ∧ ts'.map Prod.fst = ts.map Prod.fst ∧
    assemble true c!"\n MOV\n\tR0 ,\nR1\n;\n" = .ok ws :=
  ⟨[0x001F8000FC0007E0, 0x5C98078000170000, 0x50B0000000070F00, 0x50B0000000070F00],
    [(.ident c!"MOV", 0), (.reg 0, 0), (.comma, 0), (.reg 1, 0), (.semicolon, 0)],
    [(.ident c!"MOV", 1), (.reg 0, 2), (.comma, 2), (.reg 1, 3), (.semicolon, 4)], by decide +kernel,
    lexAll_scans (n := 9) (by decide) (by decide +kernel), lexAll_scans (n := 9) (by decide) (by decide +kernel), by decide, rfl, by decide +kernel⟩
/-- Options are different: the line of the option must end after it. -/
example : assemble true c!".type compute NOP;" = .exit (.located ⟨0, 14, "expected new line after option"⟩) := by decide +kernel

/-! ### Parts of a source -/

/-- Word `k` of the instructions in raw code. -/
theorem groups_word (ops : List Op) (k : Nat) (hk : k < ops.length) : (groups ops)[k + k / 3 + 1]? = ops[k]?.map (·.value) := by
  induction ops using groups.induct generalizing k with
  | case1 => simp at hk
  | case2 a => obtain rfl : k = 0 := by simpa using hk
               rfl
  | case3 a b =>
    rcases k with - | - | k
    · rfl
    · rfl
    · simp at hk; omega
  | case4 a b c rest ih =>
    rcases k with - | - | - | k
    · rfl
    · rfl
    · rfl
    · have h := ih k (by simpa using hk)
      rw [groups, show k + 1 + 1 + 1 + (k + 1 + 1 + 1) / 3 + 1 = (k + k / 3 + 1) + 4 by omega]
      simpa using h

/-- C11. Two sources without labels and options, the second one without numeric branch targets, one after the
    other: the instructions of the one followed by those of the other. -/
theorem C11_parts {d : Bool} {a b : Str} {wa wb : List (BitVec 64)} {ta tb : List (Kind × Nat)} (ha : assemble d a = .ok wa)
    (hb : assemble d b = .ok wb) (hz : '\x00' ∉ a) (hend : a.getLast? = some ';') (sa : Scans 0 (visible a) ta) (sb : Scans 0 (visible b) tb)
    (la : LabelFree (visible a)) (lb : LabelFree (visible b)) (oa : OptionFree (ta.map Prod.fst)) (ob : OptionFree (tb.map Prod.fst))
    (nb : ¬ NumericBranch (tb.map Prod.fst)) :
    ∃ A B, wa = groups A ∧ wb = groups B ∧ assemble false (a ++ b) = .ok (groups (A ++ B)) := by
  have hv : visible (a ++ b) = a ++ visible b := by
    unfold visible
    rw [List.takeWhile_append_of_pos]
    intro c hc
    simp only [ne_eq, decide_not, Bool.not_eq_eq_eq_not, Bool.not_true, decide_eq_false_iff_not]
    rintro rfl
    exact hz hc
  obtain ⟨lab, t1, A, o, l1, s1, p1, i1⟩ := accepted ha
  obtain rfl := scans_unique (visible_no_nul a) sa s1
  obtain ⟨lab', t2, B, o', l2, s2, p2, i2⟩ := accepted hb
  obtain rfl := scans_unique (visible_no_nul b) sb s2
  obtain rfl := LabelFree.map la l1
  obtain rfl := LabelFree.map lb l2
  obtain ⟨rfl, -⟩ := Program.option_free p1 oa
  obtain ⟨rfl, -⟩ := Program.option_free p2 ob
  rw [visible_self hz] at sa la
  refine ⟨A, B, ?_, ?_, ?_⟩
  · cases i1 with
    | raw => rfl
    | dksh h => simp at h
  · cases i2 with
    | raw => rfl
    | dksh h => simp at h
  · rw [assemble_iff, hv]
    refine ⟨fun _ => none, ta ++ shift (lineAfter a) tb, A ++ B, {}, LabelFree.isMap (LabelFree.append la lb hend), ?_, ?_, .raw rfl (.inl rfl)⟩
    · exact Scans.append sa hend p1.ending (Scans.shift sb _)
    · refine Program.append p1 (Program.shift ?_ _)
      rw [Nat.add_comm]
      exact Program.env p2 (fun j s => rfl) nb

example : ∃ wa wb, assemble true c!"MOV R0, R1;" = .ok wa ∧ assemble true c!"EXIT;" = .ok wb ∧
    Scans 0 (visible c!"EXIT;") [(.ident c!"EXIT", 0), (.semicolon, 0)] ∧ ¬ NumericBranch [.ident c!"EXIT", .semicolon] ∧
    OptionFree [.ident c!"EXIT", .semicolon] ∧ LabelFree c!"EXIT;" := by
  refine ⟨[0x001F8000FC0007E0, 0x5C98078000170000, 0x50B0000000070F00, 0x50B0000000070F00],
    [0x001F8000FC0007E0, 0xE30000000007000F, 0x50B0000000070F00, 0x50B0000000070F00], by decide +kernel, by decide +kernel,
    lexAll_scans (n := 9) (by decide) (by decide +kernel), ?_, ?_, ?_⟩
  · rintro ⟨pre, m, post, x, h, hm, hx⟩
    rcases pre with - | ⟨p, - | ⟨q, pre⟩⟩
    · simp at h; obtain ⟨rfl, rfl⟩ := h; revert hm; decide
    · simp at h
    · simp at h
  · rintro pre k post h hp ⟨w, rfl, hw⟩
    rcases pre with - | ⟨p, - | ⟨q, pre⟩⟩
    · simp at h; obtain ⟨rfl, rfl⟩ := h; revert hw; decide
    · simp at h
    · simp at h
  · rintro pre name ⟨-, -, rest, h⟩
    have : ':' ∈ c!"EXIT;" := by rw [h]; simp
    revert this
    decide
example : assemble true c!"MOV R0, R1;EXIT;" = .ok [0x001F8000FC0007E0, 0x5C98078000170000, 0xE30000000007000F, 0x50B0000000070F00] := by
  decide +kernel

/-- The encoding of an instruction without numeric branch target depends on its position only through the distances
    to the labels, so not at all if it is no branch. -/
theorem C11_position {lab lab' : Str → Option Nat} {i j : Nat} {ks : List Kind} {op : Op} (h : InstrText ⟨lab, addressOf i⟩ ks op) :
    ((∀ m ∈ branches, .ident m ∉ ks) → InstrText ⟨lab', addressOf j⟩ ks op) ∧
    ((∀ s, (lab s).map (fun a : Nat => (a : Int) - addressOf i) = (lab' s).map (fun a : Nat => (a : Int) - addressOf j)) → ¬ NumericBranch ks →
      InstrText ⟨lab', addressOf j⟩ ks op) :=
  ⟨fun hb => instr_any hb h, fun hs hb => instr_env (e := ⟨lab, addressOf i⟩) (e' := ⟨lab', addressOf j⟩) (fun s => hs s) hb h⟩

/-- Numeric branches do depend on it: the target is an address. -/
example : assemble true c!"BRA 8;BRA 8;" = .ok [0x001F8000FC0007E0, 0xE2400FFFFF87000F, 0xE2400FFFFF07000F, 0x50B0000000070F00] := by
  decide +kernel

/-- A source with labels after whole groups of instructions other than branches: its labels move along. -/
theorem C11_groups {d : Bool} {a b : Str} {wa wb : List (BitVec 64)} {ta tb : List (Kind × Nat)} (ha : assemble d (a ++ c!";") = .ok wa)
    (hb : assemble d b = .ok wb) (hz : '\x00' ∉ a) (sa : Scans 0 (a ++ c!";") ta) (sb : Scans 0 (visible b) tb)
    (la : LabelFree (a ++ c!";\n")) (oa : OptionFree (ta.map Prod.fst)) (hd : ∀ t ∈ tb, t.1 ≠ .ident c!".dksh")
    (na : ∀ m ∈ branches, .ident m ∉ ta.map Prod.fst) (nb : ¬ NumericBranch (tb.map Prod.fst)) {k : Nat} (hk : (a ++ c!";").count ';' = 3 * k)
    (hs : ta.countP (fun t => t.1 = .semicolon) = 3 * k) : assemble false (a ++ c!";\n" ++ b) = .ok (wa ++ wb) := by
  have hz1 : '\x00' ∉ a ++ c!";" := by simp [hz]
  have hz2 : '\x00' ∉ a ++ c!";\n" := by simp [hz]
  have hv : visible (a ++ c!";\n" ++ b) = a ++ c!";\n" ++ visible b := by
    unfold visible
    rw [List.takeWhile_append_of_pos]
    intro c hc
    simp only [ne_eq, decide_not, Bool.not_eq_eq_eq_not, Bool.not_true, decide_eq_false_iff_not]
    rintro rfl
    exact hz2 hc
  obtain ⟨lab, t1, A, o, l1, s1, p1, i1⟩ := accepted ha
  rw [visible_self hz1] at l1 s1
  obtain rfl := scans_unique hz1 sa s1
  obtain ⟨lab', t2, B, o', l2, s2, p2, i2⟩ := accepted hb
  obtain rfl := scans_unique (visible_no_nul b) sb s2
  obtain ⟨rfl, -⟩ := Program.option_free p1 oa
  have hA : A.length = 3 * k := by rw [Nxas.Program.semicolons p1]; exact hs
  have hdk : o'.isDksh = false := by
    rcases p2.declared (fun s a => l2.name) rfl rfl with ⟨-, h, -⟩ | ⟨p, -, pre, d, l, w, post, rfl, h1, -⟩
    · exact h
    · cases h : o'.isDksh with
      | false => rfl
      | true =>
        rw [h] at h1
        have : d = c!".dksh" := by simpa [declarators] using h1
        exact absurd (by rw [this]) (hd (.ident d, l) (by simp))
  have hwa : wa = groups A := by
    cases i1 with
    | raw => rfl
    | dksh h => simp at h
  have hwb : wb = groups B ∧ (o'.type = none ∨ o'.type = some .compute) := by
    cases i2 with
    | raw _ h => exact ⟨rfl, h⟩
    | dksh h => rw [hdk] at h; simp at h
  rw [hwa, hwb.1, ← groups_append (by omega), assemble_iff, hv]
  have hk' : (a ++ c!";\n").count ';' = 3 * k := by
    rw [List.count_append] at hk ⊢
    exact hk
  refine ⟨_, ta ++ shift (lineAfter (a ++ c!";\n")) tb, A ++ B, o', IsLabelMap.after la (by simp) hk' l2, ?_, ?_, .raw hdk hwb.2⟩
  · have := Scans.append (b := c!"\n" ++ visible b) sa (by simp) p1.ending (ts' := shift (lineAfter (a ++ c!";\n")) tb) (Scans.blanks (by decide) ?_)
    · simpa using this
    · have h := Scans.shift sb (lineAfter (a ++ c!";\n"))
      have he : 0 + lineAfter (a ++ c!";\n") = 0 + lineAfter (a ++ c!";") + lineAfter c!"\n" := by
        rw [lineAfter_append, lineAfter_append]
        have h1 : lineAfter c!";\n" = 1 := by decide
        have h2 : lineAfter c!";" = 0 := by decide
        have h3 : lineAfter c!"\n" = 1 := by decide
        omega
      rw [he] at h
      rw [← he]
      rw [← he] at h
      exact h
  · refine Program.append (Program.any p1 na) (Program.shift ?_ _)
    rw [hA, Nat.add_comm]
    refine Program.env p2 ?_ nb
    intro j s
    dsimp only
    cases lab' s with
    | none => rfl
    | some x =>
      have h : addressOf (3 * k + j) = addressOf j + 32 * k := by
        unfold addressOf
        omega
      show some ((x : Int) - addressOf j) = some (((x + 32 * k : Nat) : Int) - addressOf (3 * k + j))
      rw [h]
      congr 1
      omega

/-- A loop after a group. -/
example : assemble true c!"NOP;NOP;NOP;" = .ok [0x001F8000FC0007E0, 0x50B0000000070F00, 0x50B0000000070F00, 0x50B0000000070F00] ∧
    assemble true c!"L:\nBRA L;" = .ok [0x001F8000FC0007E0, 0xE2400FFFFF87000F, 0x50B0000000070F00, 0x50B0000000070F00] ∧
    assemble true c!"NOP;NOP;NOP;\nL:\nBRA L;" = .ok [0x001F8000FC0007E0, 0x50B0000000070F00, 0x50B0000000070F00, 0x50B0000000070F00,
      0x001F8000FC0007E0, 0xE2400FFFFF87000F, 0x50B0000000070F00, 0x50B0000000070F00] :=
  ⟨by decide +kernel, by decide +kernel, by decide +kernel⟩
/-- The branch is different if its label is in front of a control word and itself is not. -/
example : assemble true c!"NOP;NOP;\nL:\nNOP;BRA L;" ≠ .ok [0x001F8000FC0007E0, 0x50B0000000070F00, 0x50B0000000070F00, 0x50B0000000070F00,
      0x001F8000FC0007E0, 0xE2400FFFFF07000F, 0x50B0000000070F00, 0x50B0000000070F00] := by decide +kernel

/-! ### Declaration of a compute program -/

/-- C47. The line `.type compute` in front of a source that is not empty and has no declaration does not change the
    words; in front of other sources it is rejected. -/
theorem C47_type (code : Str) (ws : List (BitVec 64)) : assemble false (typeLine ++ code) = .ok ws ↔
    assemble false code = .ok ws ∧ ∃ ts, Scans 0 (visible code) ts ∧ ts ≠ [] ∧ ∀ t ∈ ts, ¬ IsDeclarator t.1 := by
  have hz := visible_no_nul code
  have hv : visible (typeLine ++ code) = typeLine ++ visible code := rfl
  have hlm : ∀ {lab}, IsLabelMap (visible code) lab → IsLabelMap (typeLine ++ visible code) lab := by
    intro lab hl
    have := IsLabelMap.after (k := 0) typeLine_free (by decide) (by decide) hl
    have he : (fun s => (lab s).map (· + 32 * 0)) = lab := by funext s; cases lab s <;> rfl
    rwa [he] at this
  rw [assemble_iff, assemble_iff, hv]
  constructor
  · rintro ⟨lab0, ps, ops, o, h1, h2, h3, h4⟩
    obtain ⟨ts, h5, rfl⟩ := (scans_typeLine hz).1 h2
    generalize hps : (Kind.ident c!".type", 0) :: (Kind.ident c!"compute", 0) :: shift 1 ts = ps at h3
    cases h3 with
    | done => simp at hps
    | @insn i o o' ts' rest op ops h hr =>
      exfalso
      obtain ⟨k, r, h6, h7⟩ := InstrText.start h
      obtain ⟨x, xs, rfl, rfl, -⟩ := List.map_eq_cons_iff.1 h6
      simp only [List.cons_append, List.cons.injEq] at hps
      rw [← hps.1] at h7
      exact h7 ⟨_, rfl, rfl⟩
    | @option i o o1 o' t next ts' rest ops h hl hr =>
      simp only [List.cons_append, List.cons.injEq] at hps
      obtain ⟨rfl, hps⟩ := hps
      cases h with
      | @type l w p ht hp =>
        simp only [List.cons_append, List.nil_append, List.cons.injEq, Prod.mk.injEq, Kind.ident.injEq] at hps
        obtain ⟨⟨rfl, -⟩, hps⟩ := hps
        have hpc : p = .compute := by
          have : ∀ y ∈ typeNames, y.1 = c!"compute" → y.2 = .compute := by decide
          exact this _ hp rfl
        subst hpc
        obtain ⟨lab, h8⟩ := exists_labels (visible code)
        obtain rfl := IsLabelMap.unique (hlm h8) h1
        rw [← hps] at hr
        obtain ⟨h9, h10, h11⟩ := hr.typed (fun s a => h8.name) rfl
        have hts : ts ≠ [] := by
          rintro rfl
          simp [shift] at hps
        have hnd : ∀ t ∈ ts, ¬ IsDeclarator t.1 := fun t ht => h11 (t.1, t.2 + 1) (List.mem_map.2 ⟨t, ht, rfl⟩)
        have hp := Program.retype (Program.unshift hr) hnd none
        refine ⟨⟨lab, ts, _, _, h8, h5, hp, ?_⟩, ts, h5, hts, hnd⟩
        cases h4 with
        | raw h _ => exact .raw h (.inl rfl)
        | dksh h => rw [h10] at h; simp at h
      | other hd hn => exact absurd (by decide) hn
  · rintro ⟨⟨lab, ps, ops, o, h1, h2, h3, h4⟩, ts, h5, h6, h7⟩
    obtain rfl := scans_unique hz h5 h2
    have hn := h3.declared (fun s a => h1.name) rfl rfl
    have ho : o.type = none ∧ o.isDksh = false := by
      rcases hn with ⟨h8, h9, -⟩ | ⟨p, -, pre, d, l, w, post, rfl, h8, -⟩
      · exact ⟨h8, h9⟩
      · exact absurd ⟨d, _, h8, rfl⟩ (h7 (.ident d, l) (by simp))
    refine ⟨lab, _, ops, { o with type := some .compute }, hlm h1, (scans_typeLine hz).2 ⟨ts, h5, rfl⟩, ?_, ?_⟩
    · cases ts with
      | nil => exact absurd rfl h6
      | cons t ts =>
        have := Program.shift (Program.retype h3 h7 (some .compute)) 1
        refine .option (t := (.ident c!".type", 0)) (ts := [(.ident c!"compute", 0)]) (next := (t.1, t.2 + 1)) (rest := shift 1 ts)
          (.type rfl (by decide)) (by simp) this
    · cases h4 with
      | raw => exact .raw ho.2 (.inr rfl)
      | dksh h => rw [ho.2] at h; simp at h

example : assemble true c!".type compute\nMOV R0, R1;" = assemble true c!"MOV R0, R1;" ∧
    assemble true c!"MOV R0, R1;" = .ok [0x001F8000FC0007E0, 0x5C98078000170000, 0x50B0000000070F00, 0x50B0000000070F00] :=
  ⟨by decide +kernel, by decide +kernel⟩
/-- Nothing, or another declaration, after the line. -/
example : assemble true c!".type compute\n" ≠ .ok [] ∧ assemble true [] = .ok [] := ⟨by decide +kernel, by decide +kernel⟩
example (ws : List (BitVec 64)) : assemble true c!".type compute\n.type compute\nNOP;" ≠ .ok ws := by
  have h : assemble true c!".type compute\n.type compute\nNOP;" = .exit (.located ⟨1, 0, "program type already specified"⟩) := by decide +kernel
  rw [h]
  simp

end Nxas
