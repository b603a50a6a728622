import Verif.Spec.Flow
import Verif.Props.Locality
import Verif.Props.Labels
/-
C89: branches lead to the instruction behind the label.
-/

namespace Nxas

open Spec

/-- The rows of branches: the target is the last operand, and its bits are used by nothing else. -/
theorem flow_rows : (insnTable.all fun row => !branches.contains row.mnemonic ||
    (row.operands.getLast? == some .label && (row.operands.dropLast.all fun o => o.grammatical && o.regular && (!o.target) && Field.clear o.fields [(20, 24)]) &&
      (row.opcode &&& 0xFFFFFF00000#64 == 0#64))) = true := by decide +kernel

theorem sequence_snoc {e : Env} {os : List Operand} {o : Operand} {v v' : BitVec 64} {ks : List Kind} {k : Kind} {r : BitVec 32}
    (h : Sequence e (os ++ [o]) v ks k v' r) : ∃ ka kl u b r1 r2, ks = ka ++ kl ∧ Sequence e os v ka (kl.headD k) u r1 ∧ Accepts e u o kl k b r2 ∧
      v' = (u &&& ~~~clears o) ||| b := by
  induction os generalizing v ks r with
  | nil =>
    cases h with
    | @cons _ _ _ b _ ks ks' _ _ _ h hs =>
      cases hs
      exact ⟨[], ks, v, b, 0, _, by simp, .nil, h, rfl⟩
  | cons x os ih =>
    cases h with
    | @cons _ _ _ b _ ks ks' _ r0 _ h hs =>
      obtain ⟨ka, kl, u, b', r1, r2, rfl, h2, h3, h4⟩ := ih hs
      have h' : Accepts e v x ks (ka.headD (kl.headD k)) b r0 := by
        cases ka with
        | nil => simpa using h
        | cons y ys => simpa using h
      exact ⟨ks ++ ka, kl, u, b', _, r2, by simp, .cons h' h2, h3, h4⟩

theorem Program.first {lab : Str → Option Nat} {i : Nat} {o o' : Opts} {u t2 : List (Kind × Nat)} {B : List Op} {ks : List Kind}
    (h : Program lab i o (u ++ t2) B o') (hu : u.map Prod.fst = ks ++ [.semicolon]) (hks : .semicolon ∉ ks) {k : Kind} {r : List Kind}
    (hk : ks = k :: r) (hn : ¬ IsOptionWord k) : ∃ op B', B = op :: B' ∧ InstrText ⟨lab, addressOf i⟩ (u.map Prod.fst) op := by
  generalize hq : u ++ t2 = l at h
  have hq' := congrArg (List.map Prod.fst) hq
  rw [List.map_append, hu] at hq'
  cases h with
  | done => simp at hq'
  | option h _ _ =>
    rw [hk, List.map_append, List.map_cons] at hq'
    simp only [List.cons_append, List.cons.injEq] at hq'
    exact (hn (hq'.1 ▸ OptionText.word h)).elim
  | @insn _ _ _ ts rest op B h hr =>
    obtain ⟨a, h1, h2⟩ := instr_semicolon h
    rw [List.map_append, h1] at hq'
    simp only [List.append_assoc, List.singleton_append] at hq'
    obtain ⟨rfl, h3⟩ := append_semicolon hq' hks h2
    exact ⟨op, B, rfl, by rw [hu, ← h1]; exact h⟩

theorem place_eq (k : Nat) : place k = addressOf k := by unfold place wordIndex addressOf; omega

theorem displacement_eq (w : BitVec 64) : displacement w = signedOf 24 (bitsAt w 20 24) := by
  unfold displacement signedOf bitsAt
  rw [BitVec.toInt_eq_toNat_cond, BitVec.extractLsb'_toNat, Nat.shiftRight_eq_div_pow]
  split <;> split <;> omega

/-- C89. In the code, a branch to a label leads to the instruction whose number is that of the semicolons in front of the label. -/
theorem C89_branch_partial {d : Bool} {code pre name m : Str} {ws : List (BitVec 64)} {t1 u t2 : List (Kind × Nat)} {g : Option (Nat × Bool)}
    {mid ann : List Kind} {as : List Annot} (h : assemble d code = .ok ws) (sc : Scans 0 (visible code) (t1 ++ (u ++ t2))) (w1 : Whole t1)
    (hd : ∀ t ∈ t1 ++ (u ++ t2), t.1 ≠ .ident c!".dksh")
    (hu : u.map Prod.fst = guardTokens g ++ .ident m :: (mid ++ .ident name :: ann ++ [.semicolon])) (hmid : .at ∉ mid ∧ .semicolon ∉ mid)
    (ha : AnnotsText as ann) (hm : m ∈ branches) (hf : FirstDef (visible code) pre name) :
    ∃ w, ws[wordIndex (instructions t1)]? = some w ∧ branchTarget (place (instructions t1)) w = place (pre.count ';') := by
  obtain ⟨f, ts, ops, o, l1, s1, p1, i1⟩ := accepted h
  obtain rfl := scans_unique (visible_no_nul code) sc s1
  obtain ⟨rfl, -⟩ := raw_image l1 p1 hd i1
  obtain ⟨A, B, o1, pa, pb, rfl⟩ := Program.cut p1 rfl w1
  have hw : ∀ k ∈ u.map Prod.fst, Writable k := fun k hk => writable_of_scans (visible_no_nul code) sc k (by
    simp only [List.map_append, List.mem_append]; exact .inr (.inl hk))
  have hsmall := program_small p1
  obtain ⟨op, B, rfl, hi⟩ : ∃ op B', B = op :: B' ∧ InstrText ⟨f, addressOf (0 + A.length)⟩ (u.map Prod.fst) op := by
    have hsem := annots_no_semicolon ha
    have hdot : ∀ x ∈ branches, x.head? ≠ some '.' := by decide
    rcases g with - | ⟨p, n⟩
    · exact Program.first pb (ks := .ident m :: (mid ++ .ident name :: ann)) (by rw [hu]; simp [guardTokens]) (by simp [hmid.2, hsem]) rfl
        (fun ⟨w, h1, h2⟩ => by cases h1; exact hdot m hm h2)
    · exact Program.first pb (ks := .at :: .pred p n :: .ident m :: (mid ++ .ident name :: ann)) (by rw [hu]; simp [guardTokens]) (by simp [hmid.2, hsem]) rfl
        (fun ⟨w, h1, h2⟩ => by cases h1)
  rw [← program_count pa]
  obtain ⟨-, hg2, -⟩ := groups_swap (op' := op) hsmall (hsmall op (by simp))
  refine ⟨_, hg2, ?_⟩
  rw [Nat.zero_add] at hi
  obtain ⟨g0, row, hr, ks0, h3, h4⟩ := C70_grammar.1 hi
  rw [hu] at h3 hw
  obtain ⟨rfl, rfl, rfl⟩ : g0 = g ∧ row.mnemonic = m ∧ ks0 = mid ++ .ident name :: ann := by
    rcases g with - | ⟨p, n⟩ <;> rcases g0 with - | ⟨p0, n0⟩ <;>
      simp only [guardTokens, List.nil_append, List.cons_append, List.cons.injEq, List.append_cancel_right_eq, Kind.ident.injEq, Kind.pred.injEq, reduceCtorEq, false_and, true_and] at h3
    · exact ⟨rfl, h3.1.symm, h3.2.symm⟩
    · obtain ⟨⟨rfl, rfl⟩, h3, h4⟩ := h3
      exact ⟨rfl, h3.symm, h4.symm⟩
  have hrow := List.all_eq_true.1 flow_rows row hr
  have hmc : branches.contains row.mnemonic = true := by simpa using hm
  rw [hmc] at hrow
  simp only [Bool.not_true, Bool.false_or, Bool.and_eq_true, beq_iff_eq, List.all_eq_true] at hrow
  obtain ⟨⟨hlast, hothers⟩, hop⟩ := hrow
  generalize hq : mid ++ .ident name :: ann = l at h4
  cases h4 with
  | @mk ks ks' v r as0 hg ho hann =>
    rw [show mid ++ Kind.ident name :: ann = (mid ++ [.ident name]) ++ ann by simp] at hq
    obtain ⟨rfl, rfl⟩ := split_at hq (by simp [hmid.1]) (sequence_no_at ho) (annots_head ha) (annots_head hann)
    obtain ⟨os, hos⟩ := List.getLast?_eq_some_iff.1 hlast
    rw [hos, List.dropLast_concat] at hothers
    rw [hos] at ho
    obtain ⟨ka, kl, u0, b, r1, r2, hk, hs, hacc, rfl⟩ := sequence_snoc ho
    obtain ⟨-, tgt, htgt, hb1, hb2, rfl⟩ := hacc
    obtain ⟨rfl, a, hfa, rfl⟩ : ka = mid ∧ ∃ a : Nat, f name = some a ∧ tgt = a := by
      rcases htgt with ⟨s, a, rfl, h5, rfl⟩ | rfl
      · obtain ⟨h6, h7⟩ := List.append_inj' hk rfl
        cases h7
        exact ⟨h6.symm, a, h5, rfl⟩
      · have := (List.append_inj' hk rfl).2
        simp at this
    obtain rfl : [Kind.ident name] = kl := List.append_cancel_left hk
    have ha' : a = addressOf (pre.count ';') := by
      have := (l1 name _).2 ⟨pre, hf, rfl⟩
      rw [hfa] at this
      exact Option.some.inj this
    have hz : ∀ p, 20 ≤ p → p < 44 → u0.getLsbD p = false := by
      intro p h6 h7
      rw [sequence_foot (fun o h => (hothers o h).1.1.1) (fun o h => (hothers o h).1.1.2) (fun o h => .inl (by simpa using (hothers o h).1.2)) hs
        (fun x hx => hw x (by simp [hx])) (hw _ (by simp)) (by omega)
        (fun o h hin => not_inF_of_apart (hothers o h).2 hin ⟨(20, 24), by simp, h6, by omega⟩), BitVec.getLsbD_or, guardField_bit]
      have h8 : (row.opcode &&& 0xFFFFFF00000#64).getLsbD p = false := by rw [hop]; simp
      rw [BitVec.getLsbD_and] at h8
      have h9 : (0xFFFFFF00000#64).getLsbD p = true := by
        have : ∀ p, 20 ≤ p → p < 44 → (0xFFFFFF00000#64).getLsbD p = true := by decide
        exact this p h6 h7
      rw [h9, Bool.and_true] at h8
      rw [h8, BitVec.getLsbD_of_ge _ (p - 16) (by omega)]
      simp
    have hdisp : displacement ((u0 &&& ~~~clears .label) ||| sfield 20 24 (↑a - (addressOf A.length : Int) - 8)) = ↑a - (addressOf A.length : Int) - 8 := by
      have hbits : bitsAt ((u0 &&& ~~~clears .label) ||| sfield 20 24 (↑a - (addressOf A.length : Int) - 8)) 20 24 =
          bitsAt (field 20 (((a : Int) - (addressOf A.length : Int) - 8) % 2 ^ 24).toNat) 20 24 := by
        refine bitsAt_congr fun p h6 h7 => ?_
        rw [BitVec.getLsbD_or, BitVec.getLsbD_and, hz p h6 h7, Bool.false_and, Bool.false_or, sfield]
      rw [displacement_eq, hbits, bitsAt_field (sfield_lt 24 _) (by omega), signedOf_emod (by omega) hb1 hb2]
    unfold branchTarget
    rw [place_eq, place_eq]
    simp only [hdisp]
    omega

example : ∃ ws t1 u, assemble true c!"L:\nNOP;\nNOP;\nNOP;\n@P1 BRA L @WAIT 5;" = .ok ws ∧
    Scans 0 (visible c!"L:\nNOP;\nNOP;\nNOP;\n@P1 BRA L @WAIT 5;") (t1 ++ (u ++ [])) ∧ Whole t1 ∧ (∀ t ∈ t1 ++ (u ++ []), t.1 ≠ .ident c!".dksh") ∧
    u.map Prod.fst = guardTokens (some (1, false)) ++ .ident c!"BRA" :: ([] ++ .ident c!"L" :: [.at, .ident c!"WAIT", .imm 5] ++ [.semicolon]) ∧
    AnnotsText [.wait 5] [.at, .ident c!"WAIT", .imm 5] ∧ c!"BRA" ∈ branches ∧
    FirstDef (visible c!"L:\nNOP;\nNOP;\nNOP;\n@P1 BRA L @WAIT 5;") [] c!"L" ∧ instructions t1 = 3 ∧
    ws[wordIndex 3]? = some 0xe2400ffffd81000f ∧ branchTarget (place 3) 0xe2400ffffd81000f = 8 :=
  ⟨[0x001f8000fc0007e0, 0x50b0000000070f00, 0x50b0000000070f00, 0x50b0000000070f00, 0x001f8000fc0007e5, 0xe2400ffffd81000f, 0x50b0000000070f00,
      0x50b0000000070f00],
    [(.ident c!"NOP", 1), (.semicolon, 1), (.ident c!"NOP", 2), (.semicolon, 2), (.ident c!"NOP", 3), (.semicolon, 3)],
    [(.at, 4), (.pred 1 false, 4), (.ident c!"BRA", 4), (.ident c!"L", 4), (.at, 4), (.ident c!"WAIT", 4), (.imm 5, 4), (.semicolon, 4)],
    by decide +kernel, lexAll_scans (n := 40) (by decide) (by decide +kernel), .inr (by decide), by decide, rfl,
    .cons (ks := [.at, .ident c!"WAIT", .imm 5]) (.wait (by decide)) (by simp) .nil, by decide,
    ⟨⟨.inl rfl, ⟨⟨_, _, rfl, by unfold letter; decide⟩, by unfold wordChar letter; decide⟩, _, rfl⟩, fun _ _ => Nat.zero_le _⟩, by decide, by decide,
    by decide⟩

/-- C89. An instruction that is no branch is followed by the next one of the source. -/
theorem C89_next (k : Nat) : successor (place k) = place (k + 1) ∧ place k % 32 ≠ 0 := by
  unfold successor place wordIndex
  split <;> omega

example : successor (place 2) = 40 ∧ place 3 = 40 := by decide

/-- The words among the tokens are parts of the text. -/
theorem scans_ident {l : Nat} {t x : Str} {ts : List (Kind × Nat)} (h : Scans l t ts) {p : Kind × Nat} (hp : p ∈ ts) (hk : p.1 = .ident x) :
    x <:+: t := by
  induction h with
  | done => simp at hp
  | @token l s w rest k ts hs hw h ih =>
    rcases List.mem_cons.1 hp with rfl | hp
    · have : w = x := by
        cases hw with
        | operator h =>
          have : ∀ p ∈ operators, ∀ x, p.2 ≠ .ident x := by
            intro p hp x
            simp only [operators, List.mem_cons, List.not_mem_nil, or_false] at hp
            rcases hp with rfl | rfl | rfl | rfl | rfl | rfl | rfl | rfl | rfl <;> simp
          exact absurd hk (this _ h x)
        | word => exact Kind.ident.inj hk
        | _ => cases hk
      subst this
      exact ⟨s, rest, rfl⟩
    · obtain ⟨a, b, e⟩ := ih hp
      exact ⟨s ++ w ++ a, b, by rw [← e]; simp⟩

/-- C89. In a source accepted with assertions, the instruction reached by a branch to a label is the first one behind the label: the
    instruction before it ends before the label, and it ends after the label itself. -/
theorem C89_reached {code pre name m : Str} {ws : List (BitVec 64)} {t1 u t2 : List (Kind × Nat)} {g : Option (Nat × Bool)}
    {mid ann : List Kind} {as : List Annot} {c : Ctx} {s : St} (h : assemble true code = .ok ws)
    (sc : Scans 0 (visible code) (t1 ++ (u ++ t2))) (w1 : Whole t1) (hd : ¬ c!".dksh" <:+: visible code)
    (hu : u.map Prod.fst = guardTokens g ++ .ident m :: (mid ++ .ident name :: ann ++ [.semicolon])) (hmid : .at ∉ mid ∧ .semicolon ∉ mid)
    (ha : AnnotsText as ann) (hm : m ∈ branches) (hf : FirstDef (visible code) pre name) (hi : InstrAt true code (pre.count ';') c s) :
    ∃ w, ∃ x : Nat, ws[wordIndex (instructions t1)]? = some w ∧ branchTarget (place (instructions t1)) w = 8 * x ∧ ws[x]? = some s.op.value ∧
      (visible code).length - c.cur.text.length ≤ pre.length ∧
      pre.length + name.length + 1 + s.ctx.cur.text.length < (visible code).length := by
  have hd' : ∀ t ∈ t1 ++ (u ++ t2), t.1 ≠ .ident c!".dksh" := by
    intro t ht he
    exact hd (scans_ident sc ht he)
  obtain ⟨w, h1, h2⟩ := C89_branch_partial h sc w1 hd' hu hmid ha hm hf
  obtain ⟨-, h4, h5, h6⟩ := C17_label h hd hf hi
  refine ⟨w, wordIndex (pre.count ';'), h1, ?_, ?_, h5, h6⟩
  · rw [h2]
    unfold place
    push_cast
    rfl
  · rw [← place_eq, place, Nat.mul_div_cancel_left _ (by omega)] at h4
    exact h4

/-- The instruction reached in the example above: the first one, whose word is that of `NOP`. -/
example : ∃ c s, InstrAt true c!"L:\nNOP;\nNOP;\nNOP;\n@P1 BRA L @WAIT 5;" 0 c s ∧ s.op.value = 0x50b0000000070f00 := by
  have h : (instr true c!"L:\nNOP;\nNOP;\nNOP;\n@P1 BRA L @WAIT 5;" 0).map (·.2.op.value) = some 0x50b0000000070f00 := by decide +kernel
  cases hi : instr true c!"L:\nNOP;\nNOP;\nNOP;\n@P1 BRA L @WAIT 5;" 0 with
  | none => rw [hi] at h; cases h
  | some p => rw [hi] at h; exact ⟨p.1, p.2, instr_at hi, by simpa using h⟩

/-- What C89 asks for: in a source accepted by either build, the number of the instruction that a branch leads to is that of the
    instructions in front of the label, if the text up to the label is read for itself. -/
def C89_claim : Prop := ∀ d code pre name m ws t1 u t2 g mid ann as tp, assemble d code = .ok ws →
  Scans 0 (visible code) (t1 ++ (u ++ t2)) → Whole t1 → (∀ t ∈ t1 ++ (u ++ t2), t.1 ≠ .ident c!".dksh") →
  u.map Prod.fst = guardTokens g ++ .ident m :: (mid ++ .ident name :: ann ++ [.semicolon]) → .at ∉ mid ∧ .semicolon ∉ mid →
  AnnotsText as ann → m ∈ branches → FirstDef (visible code) pre name → Scans 0 pre tp →
  ∃ w, ws[wordIndex (instructions t1)]? = some w ∧ branchTarget (place (instructions t1)) w = place (instructions tp)

/-- C89. A release build violates the claim: the semicolon in the name of a label is counted as an instruction, and the branch
    leads to itself instead of the `NOP`. -/
theorem C89_violated : ¬ C89_claim := by
  intro h
  have hf : FirstDef (visible c!"P;:\nL:\nNOP;\nBRA L;") c!"P;:\n" c!"L" := by
    refine ⟨⟨.inr rfl, ⟨⟨_, _, rfl, by unfold letter; decide⟩, by unfold wordChar letter; decide⟩, _, rfl⟩, ?_⟩
    rintro pre ⟨-, -, rest, h3⟩
    by_contra hn
    have hn' : pre.length < 4 := Nat.lt_of_not_le hn
    have h4 := congrArg (·[pre.length]?) h3
    simp only [List.append_assoc, List.getElem?_append_right (Nat.le_refl _), Nat.sub_self, List.cons_append, List.getElem?_cons_zero] at h4
    revert h4
    have : pre.length = 0 ∨ pre.length = 1 ∨ pre.length = 2 ∨ pre.length = 3 := by omega
    rcases this with h | h | h | h <;> rw [h] <;> decide
  obtain ⟨w, h1, h2⟩ := h false c!"P;:\nL:\nNOP;\nBRA L;" c!"P;:\n" c!"L" c!"BRA"
    [0x001f8000fc0007e0, 0x50b0000000070f00, 0xe2400fffff87000f, 0x50b0000000070f00]
    [(.ident c!"NOP", 2), (.semicolon, 2)] [(.ident c!"BRA", 3), (.ident c!"L", 3), (.semicolon, 3)] [] none [] [] [] []
    (by decide +kernel) (lexAll_scans (n := 40) (by decide) (by decide +kernel)) (.inr (by decide)) (by decide) rfl (by simp) .nil (by decide) hf
    (lexAll_scans (n := 40) (by decide) (by decide +kernel))
  rw [show wordIndex (instructions [(.ident c!"NOP", 2), (.semicolon, 2)]) = 2 by decide] at h1
  obtain rfl : 0xe2400fffff87000f = w := Option.some.inj h1
  revert h2
  decide

end Nxas
