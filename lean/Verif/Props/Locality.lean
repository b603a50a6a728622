import Verif.Lemmas.Locality
import Verif.Lemmas.Link
import Verif.Props.Unambiguous
import Verif.Props.Containers
import Verif.Props.Encoding
import Verif.Props.Link
/-
C87: instructions, guards and annotations can be changed one by one.  What belongs to other instructions, and to the other
parts of the same instruction, stays as it is.
-/

namespace Nxas

open Spec

/-! ### The grammar gives one meaning -/

/-- The labels among the tokens. -/
def labelsIn (f : Str → Option Nat) : List Kind → Labels
  | [] => []
  | .ident s :: ks => (match f s with
    | some a => [(s, a)]
    | none => []) ++ labelsIn f ks
  | _ :: ks => labelsIn f ks

theorem labelsIn_find {f : Str → Option Nat} {ks : List Kind} {s : Str} {a : Nat} (hs : .ident s ∈ ks) (ha : f s = some a) :
    (labelsIn f ks).find s = some a := by
  induction ks with
  | nil => simp at hs
  | cons k ks ih =>
    rcases List.mem_cons.1 hs with rfl | hm
    · simp [labelsIn, ha, Labels.find]
    · cases k with
      | ident x =>
        rw [labelsIn]
        cases hx : f x with
        | none => exact ih hm
        | some b =>
          rw [List.singleton_append, Labels.find, List.lookup_cons]
          by_cases he : s = x
          · subst he; rw [hx] at ha; cases ha; simp
          · rw [beq_false_of_ne he]; exact ih hm
      | _ => exact ih hm

theorem instr_unique {f : Str → Option Nat} {i : Nat} {ks : List Kind} {op op' : Op} (h : InstrText ⟨f, addressOf i⟩ ks op)
    (h' : InstrText ⟨f, addressOf i⟩ ks op') (hw : ∀ k ∈ ks, Writable k) : op = op' := by
  have hc : Carries ⟨f, addressOf i⟩ ⟨(labelsIn f ks).find, addressOf i⟩ ks := fun s a hs ha => ⟨a, labelsIn_find hs ha, rfl⟩
  have h := instr_carry hc (.inl rfl) h
  have h' := instr_carry hc (.inl rfl) h'
  obtain ⟨ts, rfl, h2⟩ := written_kinds ks hw 0
  obtain ⟨t, -, hz, hs⟩ := written_text h2
  obtain ⟨toks, h3, rfl⟩ := (scans_iff (c := ⟨t, 0, 0⟩) hz).1 hs
  simp only [map_pair_kind] at h h'
  cases toks with
  | nil => obtain ⟨k, r, h4, -⟩ := InstrText.start h; simp at h4
  | cons t0 toks =>
    obtain ⟨c1, h4, -, c', h5, -⟩ := Lexes.cons_iff.1 h3
    have hpc : alignPc (addressOf i) = addressOf i := by unfold alignPc addressOf; split <;> omega
    obtain ⟨t1, h6⟩ := insn_accepts (x := ⟨⟨t, 0, 0⟩, labelsIn f ((t0 :: toks).map Token.kind), addressOf i, {}⟩) h4 h5 (by rw [hpc]; exact h)
    obtain ⟨t2, h7⟩ := insn_accepts (x := ⟨⟨t, 0, 0⟩, labelsIn f ((t0 :: toks).map Token.kind), addressOf i, {}⟩) h4 h5 (by rw [hpc]; exact h')
    rw [h6] at h7
    cases h7
    rfl

theorem option_length {o o1 o' o1' : Opts} {t t' : Kind × Nat} {ts ts' : List (Kind × Nat)} (h : OptionText o (t :: ts) o1)
    (h' : OptionText o' (t' :: ts') o1') (hk : t.1 = t'.1) : ts.length = ts'.length := by
  cases h <;> cases h' <;> simp_all [optionNames]

theorem append_semicolon {ks ks' r r' : List Kind} (h : ks ++ .semicolon :: r = ks' ++ .semicolon :: r') (hk : .semicolon ∉ ks)
    (hk' : .semicolon ∉ ks') : ks = ks' ∧ r = r' := by
  rcases List.append_eq_append_iff.1 h with ⟨c, h1, h2⟩ | ⟨c, h1, h2⟩
  · cases c with
    | nil => simp_all
    | cons y c =>
      rw [List.cons_append, List.cons.injEq] at h2
      exact (hk' (by rw [h1, ← h2.1]; simp)).elim
  · cases c with
    | nil => simp_all
    | cons y c =>
      rw [List.cons_append, List.cons.injEq] at h2
      exact (hk (by rw [h1, ← h2.1]; simp)).elim

/-- The same tokens, in whatever lines, are the same instructions. -/
theorem Program.kinds {f : Str → Option Nat} {i : Nat} {o o1 o' o1' : Opts} {ts ts' : List (Kind × Nat)} {A A' : List Op}
    (h : Program f i o ts A o1) (h' : Program f i o' ts' A' o1') (hk : ts.map Prod.fst = ts'.map Prod.fst)
    (hw : ∀ k ∈ ts.map Prod.fst, Writable k) : A = A' := by
  induction h generalizing o' ts' A' with
  | done =>
    obtain rfl := List.map_eq_nil_iff.1 hk.symm
    generalize hn : ([] : List (Kind × Nat)) = l at h'
    cases h' with
    | done => rfl
    | insn h hr =>
      obtain ⟨k, r, h2, -⟩ := InstrText.start h
      obtain ⟨rfl, -⟩ := List.append_eq_nil_iff.1 hn.symm
      simp at h2
    | option => simp at hn
  | @insn i o o2 ts rest op ops h hr ih =>
    cases h' with
    | done => 
      obtain ⟨k, r, h2, -⟩ := InstrText.start h
      rw [List.map_append, h2] at hk
      simp at hk
    | @insn _ _ _ ts' rest' op' ops' h' hr' =>
      obtain ⟨a, h1, h2⟩ := instr_semicolon h
      obtain ⟨b, h3, h4⟩ := instr_semicolon h'
      rw [List.map_append, List.map_append] at hk
      have hk0 := hk
      rw [h1, h3] at hk
      simp only [List.append_assoc, List.singleton_append] at hk
      obtain ⟨rfl, h5⟩ := append_semicolon hk h2 h4
      rw [h3] at h'
      rw [h1] at h
      have hw1 : ∀ k ∈ a ++ [Kind.semicolon], Writable k := fun k hm => hw k (by rw [List.map_append, h1]; exact List.mem_append_left _ hm)
      rw [instr_unique h h' hw1, ih hr' h5 (fun k hm => hw k (by rw [List.map_append]; exact List.mem_append_right _ hm))]
    | @option _ _ _ _ t next ts' rest' _ h' hl hr' =>
      obtain ⟨k, r, h2, h3⟩ := InstrText.start h
      rw [List.map_append, h2, List.map_append, List.map_cons] at hk
      simp only [List.cons_append, List.cons.injEq] at hk
      exact (h3 (hk.1 ▸ OptionText.word h')).elim
  | @option i o o2 o3 t next ts rest ops h hl hr ih =>
    generalize hn : ts' = l at h'
    cases h' with
    | done => subst hn; simp at hk
    | insn h' hr' =>
      subst hn
      obtain ⟨k, r, h2, h3⟩ := InstrText.start h'
      rw [List.map_append, List.map_cons, List.map_append, h2] at hk
      simp only [List.cons_append, List.cons.injEq] at hk
      exact (h3 (hk.1 ▸ OptionText.word h)).elim
    | @option _ _ _ _ t' next' ts1 rest' _ h' hl' hr' =>
      subst hn
      simp only [List.map_append, List.map_cons, List.cons_append, List.cons.injEq] at hk
      have hlen := option_length h h' hk.1
      obtain ⟨-, h5⟩ := List.append_inj hk.2 (by simpa using hlen)
      exact ih hr' (by simpa using h5) (fun k hm => hw k (by
        simp only [List.map_append]
        exact List.mem_append_right _ hm))

theorem writable_of_scans {t : Str} (hz : '\x00' ∉ t) {ts : List (Kind × Nat)} (h : Scans 0 t ts) : ∀ k ∈ ts.map Prod.fst, Writable k := by
  have key : ∀ (ts : List (Kind × Nat)) l, Written l ts → ∀ k ∈ ts.map Prod.fst, Writable k := by
    intro ts
    induction ts with
    | nil => intro l _ k hk; simp at hk
    | cons t ts ih =>
      rintro l ⟨-, h1, h2⟩ k hk
      rw [List.map_cons, List.mem_cons] at hk
      rcases hk with rfl | hk
      · exact h1
      · exact ih _ h2 k hk
  exact key ts 0 (h.written hz)

theorem program_count {f : Str → Option Nat} {i : Nat} {o o' : Opts} {ts : List (Kind × Nat)} {A : List Op} (h : Program f i o ts A o') :
    A.length = instructions ts := by
  rw [Program.semicolons h, semicolons, instructions, List.count, List.countP_map]
  congr 1

theorem program_small {f : Str → Option Nat} {i : Nat} {o o' : Opts} {ts : List (Kind × Nat)} {A : List Op} (h : Program f i o ts A o') :
    ∀ x ∈ A, x.reuse.toNat < 8 ∧ x.sched.toNat < 2 ^ 17 := by
  induction h with
  | done => intro x hx; simp at hx
  | insn h _ ih =>
    intro x hx
    rcases List.mem_cons.1 hx with rfl | hx
    · exact instr_small h
    · exact ih x hx
  | option _ _ _ ih => exact ih

theorem raw_image {t : Str} {f : Str → Option Nat} {ts : List (Kind × Nat)} {ops : List Op} {o' : Opts} {code ws : List (BitVec 64)} (hl : IsLabelMap t f)
    (hp : Program f 0 {} ts ops o') (hd : ∀ t ∈ ts, t.1 ≠ .ident c!".dksh") (hi : Image f o' code ws) :
    ws = code ∧ ∀ c, Image f o' c c := by
  have h0 := not_dksh hl hp hd
  cases hi with
  | raw h1 h2 => exact ⟨rfl, fun c => .raw h1 h2⟩
  | dksh h1 => rw [h0] at h1; cases h1

/-! ### One instruction -/

/-- C87. Two accepted sources with the same labels that differ in one instruction: the words differ in the word of this instruction
    and its part of the control word, and nowhere else. -/
theorem C87_local {d d' : Bool} {a b : Str} {wa wb : List (BitVec 64)} {t1 t1' x y t2 t2' : List (Kind × Nat)} {f : Str → Option Nat}
    (ha : assemble d a = .ok wa) (hb : assemble d' b = .ok wb) (sa : Scans 0 (visible a) (t1 ++ x ++ t2))
    (sb : Scans 0 (visible b) (t1' ++ y ++ t2')) (la : IsLabelMap (visible a) f) (lb : IsLabelMap (visible b) f)
    (h1 : t1.map Prod.fst = t1'.map Prod.fst) (h2 : t2.map Prod.fst = t2'.map Prod.fst) (w1 : Whole t1)
    (hx : Whole x ∧ instructions x = 1) (hy : Whole y ∧ instructions y = 1)
    (da : ∀ t ∈ t1 ++ x ++ t2, t.1 ≠ .ident c!".dksh") (db : ∀ t ∈ t1' ++ y ++ t2', t.1 ≠ .ident c!".dksh") :
    SameElsewhere (instructions t1) wa wb := by
  obtain ⟨f1, ts, A, o, l1, s1, p1, i1⟩ := accepted ha
  obtain ⟨f2, ts', B, o', l2, s2, p2, i2⟩ := accepted hb
  obtain rfl := scans_unique (visible_no_nul a) sa s1
  obtain rfl := scans_unique (visible_no_nul b) sb s2
  obtain rfl := IsLabelMap.unique la l1
  obtain rfl := IsLabelMap.unique lb l2
  obtain ⟨rfl, -⟩ := raw_image l1 p1 da i1
  obtain ⟨rfl, -⟩ := raw_image l2 p2 db i2
  have w1' : Whole t1' := by
    rcases w1 with rfl | w1
    · exact .inl (List.map_eq_nil_iff.1 h1.symm)
    · exact .inr (h1 ▸ w1)
  have one : ∀ {i o o' z Z}, Program f i o z Z o' → instructions z = 1 → ∃ op, Z = [op] := by
    intro i o o' z Z hz h3
    have := program_count hz
    rw [h3] at this
    exact List.length_eq_one_iff.1 this
  obtain ⟨A1, A2, o1, pa1, pa0, rfl⟩ := Program.cut p1 (List.append_assoc ..) w1
  obtain ⟨A2, A3, o2, pa2, pa3, rfl⟩ := Program.cut pa0 rfl hx.1
  obtain ⟨B1, B2, o3, pb1, pb0, rfl⟩ := Program.cut p2 (List.append_assoc ..) w1'
  obtain ⟨B2, B3, o4, pb2, pb3, rfl⟩ := Program.cut pb0 rfl hy.1
  obtain ⟨op, rfl⟩ := one pa2 hx.2
  obtain ⟨op', rfl⟩ := one pb2 hy.2
  have hwa := writable_of_scans (visible_no_nul a) sa
  obtain rfl := Program.kinds pa1 pb1 h1 fun k hk => hwa k (by simp only [List.map_append, List.mem_append]; exact .inl (.inl hk))
  obtain rfl := Program.kinds pa3 pb3 h2 fun k hk => hwa k (by simp only [List.map_append, List.mem_append]; exact .inr hk)
  rw [← program_count pa1]
  obtain ⟨g1, -, -, u, v, g2, g3, g4, -⟩ := groups_swap (program_small p1) (program_small p2 op' (by simp))
  exact ⟨by simp [groups_size], g1, u, v, g2, g3, g4⟩

example : ∃ wa wb t1 x y t2 f, assemble true c!"L:\nNOP;\n@P1 BRA L @WAIT 5;\nEXIT;" = .ok wa ∧ assemble true c!"L:\nNOP;\nMOV R0, R1;\nEXIT;" = .ok wb ∧
    Scans 0 (visible c!"L:\nNOP;\n@P1 BRA L @WAIT 5;\nEXIT;") (t1 ++ x ++ t2) ∧ Scans 0 (visible c!"L:\nNOP;\nMOV R0, R1;\nEXIT;") (t1 ++ y ++ t2) ∧
    IsLabelMap (visible c!"L:\nNOP;\n@P1 BRA L @WAIT 5;\nEXIT;") f ∧ IsLabelMap (visible c!"L:\nNOP;\nMOV R0, R1;\nEXIT;") f ∧ Whole t1 ∧
    (Whole x ∧ instructions x = 1) ∧ (Whole y ∧ instructions y = 1) ∧ instructions t1 = 1 ∧ (∀ t ∈ t1 ++ x ++ t2, t.1 ≠ .ident c!".dksh") ∧
    (∀ t ∈ t1 ++ y ++ t2, t.1 ≠ .ident c!".dksh") ∧ wa ≠ wb ∧ t2 ≠ [] :=
  ⟨[0x001f8000fca007e0, 0x50b0000000070f00, 0xe2400fffff01000f, 0xe30000000007000f],
    [0x001f8000fc0007e0, 0x50b0000000070f00, 0x5c98078000170000, 0xe30000000007000f], [(.ident c!"NOP", 1), (.semicolon, 1)],
    [(.at, 2), (.pred 1 false, 2), (.ident c!"BRA", 2), (.ident c!"L", 2), (.at, 2), (.ident c!"WAIT", 2), (.imm 5, 2), (.semicolon, 2)],
    [(.ident c!"MOV", 2), (.reg 0, 2), (.comma, 2), (.reg 1, 2), (.semicolon, 2)], [(.ident c!"EXIT", 3), (.semicolon, 3)], Labels.find [(c!"L", 8)],
    by decide +kernel, by decide +kernel, lexAll_scans (n := 40) (by decide) (by decide +kernel), lexAll_scans (n := 40) (by decide) (by decide +kernel),
    fun name a => genLabels_find (by decide +kernel) name a, fun name a => genLabels_find (by decide +kernel) name a, .inr (by decide),
    ⟨.inr (by decide), by decide⟩, ⟨.inr (by decide), by decide⟩, by decide, by decide, by decide, by decide, by decide⟩

/-! ### Guard and annotations -/

theorem swap_instr {d : Bool} {a b : Str} {wa : List (BitVec 64)} {t1 z z' : List (Kind × Nat)} {f : Str → Option Nat} {P : Op → Op → Prop}
    (ha : assemble d a = .ok wa) (sa : Scans 0 (visible a) (t1 ++ z)) (sb : Scans 0 (visible b) (t1 ++ z'))
    (la : IsLabelMap (visible a) f) (lb : IsLabelMap (visible b) f) (w1 : Whole t1) (da : ∀ t ∈ t1 ++ z, t.1 ≠ .ident c!".dksh")
    (hz : ∃ k r, z.map Prod.fst = k :: r ∧ ¬ IsOptionWord k)
    (hy : ∀ e ts r op, z = ts ++ r → InstrText e (ts.map Prod.fst) op → (∀ k ∈ ts.map Prod.fst, Writable k) →
      ∃ ts' op', z' = ts' ++ r ∧ InstrText e (ts'.map Prod.fst) op' ∧ P op op') :
    ∃ A op op' B, wa = groups (A ++ op :: B) ∧ assemble false b = .ok (groups (A ++ op' :: B)) ∧ A.length = instructions t1 ∧ P op op' ∧
      (∀ x ∈ A ++ op :: B, x.reuse.toNat < 8 ∧ x.sched.toNat < 2 ^ 17) ∧ op'.reuse.toNat < 8 ∧ op'.sched.toNat < 2 ^ 17 := by
  obtain ⟨f1, ts, ops, o, l1, s1, p1, i1⟩ := accepted ha
  obtain rfl := scans_unique (visible_no_nul a) sa s1
  obtain rfl := IsLabelMap.unique la l1
  obtain ⟨rfl, hi⟩ := raw_image l1 p1 da i1
  have hwa := writable_of_scans (visible_no_nul a) sa
  obtain ⟨A, B, o1, pa, pb, rfl⟩ := Program.cut p1 rfl w1
  obtain ⟨k, r, hk, hn⟩ := hz
  have hsm := program_small p1
  generalize hq : z = l at pb
  cases pb with
  | done => subst hq; simp at hk
  | option h _ _ =>
    subst hq
    rw [List.map_append, List.map_cons, List.cons_append, List.cons.injEq] at hk
    exact (hn (hk.1 ▸ OptionText.word h)).elim
  | @insn _ _ _ ts rest op B h hr =>
    obtain ⟨ts', op', rfl, h2, h3⟩ := hy _ _ _ _ hq h fun k hm => hwa k (by
      rw [hq, List.map_append, List.map_append]
      exact List.mem_append_right _ (List.mem_append_left _ hm))
    refine ⟨A, op, op', B, rfl, assemble_iff.2 ⟨f, _, _, o, lb, sb, ?_, hi _⟩, program_count pa, h3, hsm, instr_small h2⟩
    exact Program.append pa (by exact .insn h2 hr)

/-- C87. The guard of an instruction can be changed on its own, unless the instruction takes none: a source accepted with one guard is
    accepted with every other, and the words differ in the bits of the guard, and nowhere else. -/
theorem C87_guard {d : Bool} {a b : Str} {wa : List (BitVec 64)} {t1 gx gy rest : List (Kind × Nat)} {g g' : Option (Nat × Bool)} {m : Str} {l : Nat}
    {f : Str → Option Nat} (ha : assemble d a = .ok wa) (sa : Scans 0 (visible a) (t1 ++ (gx ++ (.ident m, l) :: rest)))
    (sb : Scans 0 (visible b) (t1 ++ (gy ++ (.ident m, l) :: rest))) (hx : gx.map Prod.fst = guardTokens g)
    (hy : gy.map Prod.fst = guardTokens g') (la : IsLabelMap (visible a) f) (lb : IsLabelMap (visible b) f) (w1 : Whole t1)
    (hm : m.head? ≠ some '.') (hp : m ∉ noPredNames) (da : ∀ t ∈ t1 ++ (gx ++ (.ident m, l) :: rest), t.1 ≠ .ident c!".dksh") :
    ∃ wb, assemble false b = .ok wb ∧ GuardChanged (instructions t1) (guardBits g') wa wb := by
  obtain ⟨A, op, op', B, rfl, hb, hl, ⟨h1, h2, h3, h4⟩, hsm, hsm'⟩ := swap_instr (P := fun op op' => op'.reuse = op.reuse ∧ op'.sched = op.sched ∧
      op'.value.extractLsb' 16 4 = guardBits g' ∧ ∀ p, ¬ (16 ≤ p ∧ p < 20) → op'.value.getLsbD p = op.value.getLsbD p) ha sa sb la lb w1 da
    (by
      rw [List.map_append, hx]
      rcases g with - | ⟨p, n⟩
      · exact ⟨_, _, rfl, fun ⟨w, h1, h2⟩ => by cases h1; exact hm h2⟩
      · exact ⟨_, _, rfl, fun ⟨w, h1, h2⟩ => by cases h1⟩)
    (by
      intro e ts r op hq h hw
      obtain ⟨a0, h5, h6⟩ := instr_semicolon h
      obtain ⟨c, rfl, h2⟩ : ∃ c, ts = gx ++ c ∧ (.ident m, l) :: rest = c ++ r := by
        rcases List.append_eq_append_iff.1 hq with ⟨c, h3, h4⟩ | ⟨c, h3, h4⟩
        · exact ⟨c, h3, h4⟩
        · exfalso
          rw [h3, List.map_append, h5] at hx
          rcases g with - | ⟨p, n⟩
          · simp [guardTokens] at hx
          · have : Kind.semicolon ∈ [Kind.at, .pred p n] := by
              change _ = [Kind.at, .pred p n] at hx
              rw [← hx]; simp
            simp at this
      obtain ⟨g0, row, hr, ks, h3, h4⟩ := C70_grammar.1 h
      have hg0 : g0 = g ∧ c.map Prod.fst = .ident row.mnemonic :: (ks ++ [.semicolon]) := by
        rw [List.map_append, hx] at h3
        cases c with
        | nil =>
          exfalso
          rcases g with - | ⟨p, n⟩ <;> rcases g0 with - | ⟨p0, n0⟩ <;> simp [guardTokens] at h3
        | cons t c =>
          have : t.1 = .ident m := by
            rw [List.cons_append, List.cons.injEq] at h2
            rw [← h2.1]
          rw [List.map_cons, this] at h3 ⊢
          rcases g with - | ⟨p, n⟩ <;> rcases g0 with - | ⟨p0, n0⟩ <;> simp [guardTokens] at h3 ⊢
          · exact h3
          · exact ⟨⟨h3.1.1.symm, h3.1.2.symm⟩, h3.2⟩
      obtain ⟨rfl, h5⟩ := hg0
      have hmn : row.mnemonic = m := by
        cases c with
        | nil => simp at h5
        | cons t c =>
          rw [List.cons_append, List.cons.injEq] at h2
          rw [List.map_cons, List.cons.injEq, ← h2.1] at h5
          simpa using h5.1.symm
      obtain ⟨op', h6, h7⟩ := rowText_guard (g' := g') hr h4 (fun k hk => hw k (by rw [h3]; simp [hk]))
        (fun hf => (hp (hmn ▸ (C24_rows row hr).1 hf)).elim)
      refine ⟨gy ++ c, op', by rw [h2, List.append_assoc], ?_, h7⟩
      rw [List.map_append, hy, h5]
      exact C70_grammar.2 ⟨g', row, hr, ks, rfl, h6⟩)
  refine ⟨_, hb, ?_⟩
  rw [← hl]
  obtain ⟨g1, g2, g3, u, v, g4, g5, g6, g7⟩ := groups_swap hsm hsm'
  refine ⟨by simp [groups_size], fun j hj => ?_, _, _, g2, g3, h3, fun p hp => (h4 p hp).symm⟩
  by_cases hc : j = controlIndex A.length
  · rw [hc, g4, g5]
    congr 1
    apply BitVec.eq_of_getLsbD_eq
    intro p _
    by_cases ho : ofSlot A.length p
    · rw [(g7 p ho).1, (g7 p ho).2, slot, slot, h1, h2]
    · exact g6 p ho
  · exact g1 j hj hc

example : ∃ wa t1 gx gy rest f, assemble true c!"L:\nNOP;\n@P1 BRA L @WAIT 5;\nEXIT;" = .ok wa ∧
    Scans 0 (visible c!"L:\nNOP;\n@P1 BRA L @WAIT 5;\nEXIT;") (t1 ++ (gx ++ (.ident c!"BRA", 2) :: rest)) ∧
    Scans 0 (visible c!"L:\nNOP;\n@!P2 BRA L @WAIT 5;\nEXIT;") (t1 ++ (gy ++ (.ident c!"BRA", 2) :: rest)) ∧
    gx.map Prod.fst = guardTokens (some (1, false)) ∧ gy.map Prod.fst = guardTokens (some (2, true)) ∧
    IsLabelMap (visible c!"L:\nNOP;\n@P1 BRA L @WAIT 5;\nEXIT;") f ∧ IsLabelMap (visible c!"L:\nNOP;\n@!P2 BRA L @WAIT 5;\nEXIT;") f ∧ Whole t1 ∧ t1 ≠ [] ∧
    c!"BRA".head? ≠ some '.' ∧ c!"BRA" ∉ noPredNames ∧ ∀ t ∈ t1 ++ (gx ++ (.ident c!"BRA", 2) :: rest), t.1 ≠ .ident c!".dksh" :=
  ⟨[0x001f8000fca007e0, 0x50b0000000070f00, 0xe2400fffff01000f, 0xe30000000007000f], [(.ident c!"NOP", 1), (.semicolon, 1)], [(.at, 2), (.pred 1 false, 2)],
    [(.at, 2), (.pred 2 true, 2)],
    [(.ident c!"L", 2), (.at, 2), (.ident c!"WAIT", 2), (.imm 5, 2), (.semicolon, 2), (.ident c!"EXIT", 3), (.semicolon, 3)],
    Labels.find [(c!"L", 8)], by decide +kernel, lexAll_scans (n := 40) (by decide) (by decide +kernel), lexAll_scans (n := 40) (by decide) (by decide +kernel),
    rfl, rfl, fun name a => genLabels_find (by decide +kernel) name a, fun name a => genLabels_find (by decide +kernel) name a,
    .inr (by decide), by decide, by decide, by decide, by decide⟩

/-- The word of the instruction and that of the other guard. -/
example : assemble true c!"L:\nNOP;\n@!P2 BRA L @WAIT 5;\nEXIT;" =
    .ok [0x001f8000fca007e0, 0x50b0000000070f00, 0xe2400fffff0a000f, 0xe30000000007000f] := by decide +kernel

/-- Not with an instruction that takes no guard. -/
example : (∃ ws, assemble true c!"L:\nSSY L;" = .ok ws) ∧ ∀ ws, assemble true c!"L:\n@P1 SSY L;" ≠ .ok ws :=
  ⟨⟨[0x001f8000fc0007e0, 0xe2900fffff870000, 0x50b0000000070f00, 0x50b0000000070f00], by decide +kernel⟩,
    by rw [show assemble true c!"L:\n@P1 SSY L;" = .exit (.located ⟨1, 8, ⟨"%s does not support predicated execution", [.text c!"SSY"]⟩⟩) by decide +kernel]; simp⟩

theorem annots_no_semicolon {as : List Annot} {ks : List Kind} (h : AnnotsText as ks) : Kind.semicolon ∉ ks := by
  induction h with
  | nil => simp
  | cons h _ _ ih => cases h <;> simpa using ih

theorem slot_bit {op : Op} (hs : op.sched.toNat < 2 ^ 17) (i : Nat) :
    (slot (some op)).testBit i = if i < 17 then op.sched.toNat.testBit i else op.reuse.toNat.testBit (i - 17) := by
  rw [slot, Nat.add_comm, Nat.mul_comm, Nat.testBit_two_pow_mul_add _ hs]

/-- C87. So can the annotations: a source accepted with some is accepted with any others, and the words differ in the 17 bits of the
    scheduling of the instruction, and nowhere else. -/
theorem C87_annotations {d : Bool} {a b : Str} {wa : List (BitVec 64)} {t1 u x y rest : List (Kind × Nat)} {g : Option (Nat × Bool)} {m : Str}
    {ks : List Kind} {as as' : List Annot} {l : Nat} {f : Str → Option Nat} (ha : assemble d a = .ok wa)
    (sa : Scans 0 (visible a) (t1 ++ (u ++ (x ++ (.semicolon, l) :: rest)))) (sb : Scans 0 (visible b) (t1 ++ (u ++ (y ++ (.semicolon, l) :: rest))))
    (hu : u.map Prod.fst = guardTokens g ++ .ident m :: ks) (hks : .at ∉ ks ∧ .semicolon ∉ ks) (hx : AnnotsText as (x.map Prod.fst))
    (hy : AnnotsText as' (y.map Prod.fst)) (la : IsLabelMap (visible a) f) (lb : IsLabelMap (visible b) f) (w1 : Whole t1)
    (hm : m.head? ≠ some '.') (da : ∀ t ∈ t1 ++ (u ++ (x ++ (.semicolon, l) :: rest)), t.1 ≠ .ident c!".dksh") :
    ∃ wb, assemble false b = .ok wb ∧ SchedChanged (instructions t1) (BitVec.ofNat 17 (schedBits as')) wa wb := by
  obtain ⟨A, op, op', B, rfl, hb, hl, h1, hsm, hsm'⟩ := swap_instr (P := fun op op' => op' = { op with sched := BitVec.ofNat 32 (schedBits as') })
    ha sa sb la lb w1 da
    (by
      rw [List.map_append, hu]
      rcases g with - | ⟨p, n⟩
      · exact ⟨_, _, rfl, fun ⟨w, h1, h2⟩ => by cases h1; exact hm h2⟩
      · exact ⟨_, _, rfl, fun ⟨w, h1, h2⟩ => by cases h1⟩)
    (by
      intro e ts r op hq h hw
      obtain ⟨a0, h5, h6⟩ := instr_semicolon h
      have hsem : Kind.semicolon ∉ guardTokens g ++ .ident m :: ks ++ x.map Prod.fst := by
        have := annots_no_semicolon hx
        rcases g with - | ⟨p, n⟩ <;> simp [guardTokens, hks.2, this]
      have hkinds := congrArg (List.map Prod.fst) hq
      simp only [List.map_append, List.map_cons, h5, hu] at hkinds
      rw [← List.append_assoc, List.append_assoc a0, List.singleton_append] at hkinds
      obtain ⟨h7, h8⟩ := append_semicolon hkinds hsem h6
      have hlen : (u ++ (x ++ [(Kind.semicolon, l)])).length = ts.length := by
        have e1 := congrArg List.length h5
        have e2 := congrArg List.length h7
        have e3 := congrArg List.length hu
        simp only [List.length_append, List.length_map, List.length_cons, List.length_nil] at e1 e2 e3 ⊢
        omega
      obtain ⟨rfl, rfl⟩ := List.append_inj (by simpa using hq) hlen
      obtain ⟨g0, row, hr, ks0, h3, h4⟩ := C70_grammar.1 h
      rw [h5, ← h7] at h3
      obtain ⟨rfl, rfl, rfl⟩ : g0 = g ∧ row.mnemonic = m ∧ ks0 = ks ++ x.map Prod.fst := by
        rcases g with - | ⟨p, n⟩ <;> rcases g0 with - | ⟨p0, n0⟩ <;>
          simp only [guardTokens, List.nil_append, List.cons_append, List.cons.injEq, List.append_cancel_right_eq, Kind.ident.injEq, Kind.pred.injEq, reduceCtorEq, false_and, true_and] at h3
        · exact ⟨rfl, h3.1.symm, h3.2.symm⟩
        · obtain ⟨⟨rfl, rfl⟩, h3, h4⟩ := h3
          exact ⟨rfl, h3.symm, h4.symm⟩
      obtain ⟨-, h9⟩ := rowText_annots h4 hks.1 hx hy
      refine ⟨u ++ (y ++ [(.semicolon, l)]), _, by simp, C70_grammar.2 ⟨g0, row, hr, _, ?_, h9⟩, rfl⟩
      simp [hu])
  subst h1
  refine ⟨_, hb, ?_⟩
  rw [← hl]
  obtain ⟨g1, g2, g3, u, v, g4, g5, g6, g7⟩ := groups_swap hsm hsm'
  have hs := (hsm op (by simp)).2
  refine ⟨by simp [groups_size], fun j hj => ?_, _, _, g4, g5, ?_, fun p hp => ?_⟩
  · by_cases hc : j = wordIndex A.length
    · rw [hc, g2, g3]
    · exact g1 j hc hj
  · apply BitVec.eq_of_getLsbD_eq
    intro i hi
    rw [BitVec.getLsbD_extractLsb', (g7 _ ⟨by omega, by omega⟩).2, slot_bit hsm'.2]
    simp only [hi, Nat.add_sub_cancel_left, decide_true, Bool.true_and, if_true, BitVec.getLsbD_ofNat, BitVec.toNat_ofNat]
    rw [Nat.testBit_mod_two_pow]
    simp [show i < 32 by omega]
  · by_cases ho : ofSlot A.length p
    · rw [(g7 p ho).1, (g7 p ho).2, slot_bit hs, slot_bit hsm'.2]
      have : ¬ p - 21 * (A.length % 3) < 17 := by obtain ⟨h1, h2⟩ := ho; omega
      simp [this]
    · exact g6 p ho

example : ∃ wa t1 u x y rest f, assemble true c!"L:\nNOP;\n@P1 BRA L @WAIT 5;\nEXIT;" = .ok wa ∧
    Scans 0 (visible c!"L:\nNOP;\n@P1 BRA L @WAIT 5;\nEXIT;") (t1 ++ (u ++ (x ++ (.semicolon, 2) :: rest))) ∧
    Scans 0 (visible c!"L:\nNOP;\n@P1 BRA L @Y @WB 2;\nEXIT;") (t1 ++ (u ++ (y ++ (.semicolon, 2) :: rest))) ∧
    u.map Prod.fst = guardTokens (some (1, false)) ++ .ident c!"BRA" :: [.ident c!"L"] ∧ AnnotsText [.wait 5] (x.map Prod.fst) ∧
    AnnotsText [.yield, .wb 2] (y.map Prod.fst) ∧ IsLabelMap (visible c!"L:\nNOP;\n@P1 BRA L @WAIT 5;\nEXIT;") f ∧
    IsLabelMap (visible c!"L:\nNOP;\n@P1 BRA L @Y @WB 2;\nEXIT;") f ∧ Whole t1 ∧ t1 ≠ [] ∧
    ∀ t ∈ t1 ++ (u ++ (x ++ (.semicolon, 2) :: rest)), t.1 ≠ .ident c!".dksh" :=
  ⟨[0x001f8000fca007e0, 0x50b0000000070f00, 0xe2400fffff01000f, 0xe30000000007000f], [(.ident c!"NOP", 1), (.semicolon, 1)],
    [(.at, 2), (.pred 1 false, 2), (.ident c!"BRA", 2), (.ident c!"L", 2)], [(.at, 2), (.ident c!"WAIT", 2), (.imm 5, 2)],
    [(.at, 2), (.ident c!"Y", 2), (.at, 2), (.ident c!"WB", 2), (.imm 2, 2)], [(.ident c!"EXIT", 3), (.semicolon, 3)], Labels.find [(c!"L", 8)],
    by decide +kernel, lexAll_scans (n := 40) (by decide) (by decide +kernel), lexAll_scans (n := 40) (by decide) (by decide +kernel), rfl,
    .cons (ks := [.at, .ident c!"WAIT", .imm 5]) (.wait (by decide)) (by simp) .nil,
    .cons (ks := [.at, .ident c!"Y"]) .y (by decide) (.cons (ks := [.at, .ident c!"WB", .imm 2]) (.wb (by decide)) (by simp) .nil),
    fun name a => genLabels_find (by decide +kernel) name a, fun name a => genLabels_find (by decide +kernel) name a, .inr (by decide),
    by decide, by decide⟩

/-- The words with the other annotations. -/
example : assemble true c!"L:\nNOP;\n@P1 BRA L @Y @WB 2;\nEXIT;" =
    .ok [0x001f8000ea0007e0, 0x50b0000000070f00, 0xe2400fffff01000f, 0xe30000000007000f] := by decide +kernel

end Nxas
