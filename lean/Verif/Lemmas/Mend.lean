import Verif.Lemmas.DisasmComplete
import Verif.Lemmas.ClashProg
/-
Instructions on which an assertion fails have another text for the same word on which none fails.
-/

namespace Nxas

open Spec

/-! ### Parts of a word -/

/-- Bits that are set already can be left out of a part. -/
theorem strip_field (v : BitVec 64) (a : Nat) {i w : Nat} (hi : i < 2 ^ w) :
    ∃ i' ≤ i, v ||| field a i' = v ||| field a i ∧ v &&& field a i' = 0 := by
  refine ⟨i &&& (2 ^ w - 1 ^^^ bitsAt v a w), Nat.and_le_left, ?_, ?_⟩
  · apply BitVec.eq_of_getLsbD_eq
    intro p hp
    simp only [BitVec.getLsbD_or, field_bit, Nat.testBit_and, Nat.testBit_xor, Nat.testBit_two_pow_sub_one, bitsAt_testBit]
    by_cases hap : a ≤ p
    · cases hb : i.testBit (p - a) with
      | false => simp
      | true =>
        have hlt : p - a < w := by
          by_contra hge
          rw [Nat.testBit_lt_two_pow (Nat.lt_of_lt_of_le hi (Nat.pow_le_pow_right (by omega) (by omega)))] at hb
          simp at hb
        rw [show a + (p - a) = p by omega]
        cases v.getLsbD p <;> simp [hlt, hp, hap]
    · simp [hap]
  · apply BitVec.eq_of_getLsbD_eq
    intro p hp
    simp only [BitVec.getLsbD_and, field_bit, Nat.testBit_and, Nat.testBit_xor, Nat.testBit_two_pow_sub_one, bitsAt_testBit]
    by_cases hap : a ≤ p
    · rw [show a + (p - a) = p by omega]
      by_cases hlt : p - a < w
      · cases v.getLsbD p <;> simp [hlt]
      · rw [Nat.testBit_lt_two_pow (x := i) (Nat.lt_of_lt_of_le hi (Nat.pow_le_pow_right (by omega) (by omega)))]
        simp
    · simp [hap]

/-! ### Tokens behind an operand -/

/-- Names that can be put in place of each other. -/
def swaps : List Str := [c!"AND", c!"OR", c!"XOR", c!"INVALIDBOP3", c!"H0", c!"H1", c!"B0", c!"B1", c!"B2", c!"B3"]

/-- The second token may stand in place of the first one. -/
def Kin (k k' : Kind) : Prop := k' = k ∨ (∃ n, k' = .reg n) ∨ ∃ s ∈ swaps, k' = .ident ('.' :: s)

theorem swap_writable : ∀ s ∈ swaps, Writable (.ident ('.' :: s)) := by
  intro s hs
  simp only [swaps, List.mem_cons, List.not_mem_nil, or_false] at hs
  rcases hs with rfl | rfl | rfl | rfl | rfl | rfl | rfl | rfl | rfl | rfl
  all_goals exact ⟨.plain (c := '.') (by decide) (by decide) (by unfold decimal; decide) (by decide) (by simp [Ends]), by decide, by decide⟩

/-- The operand has tokens and does not look at the one behind. -/
def Operand.still : Operand → Bool
  | .comma | .expect .. | .imm20 | .uimmExtended | .sint .. | .uint .. | .cbuf | .bop _ | .pred .. | .dotTable none _ _ | .memAddress .. => true
  | _ => false

theorem still_accepts {e : Env} {v b : BitVec 64} {o : Operand} {ks : List Kind} {k : Kind} {r : BitVec 32} (ho : o.still = true)
    (h : Accepts e v o ks k b r) : (∀ k', Accepts e v o ks k' b r) ∧ ks ≠ [] := by
  cases o with
  | comma => exact ⟨fun _ => h, by obtain ⟨-, rfl, -⟩ := h; simp⟩
  | expect s p q => exact ⟨fun _ => h, by obtain ⟨-, rfl, -⟩ := h; simp⟩
  | imm20 => exact ⟨fun _ => h, by obtain ⟨-, x, rfl, -⟩ := h; simp⟩
  | uimmExtended => exact ⟨fun _ => h, by obtain ⟨-, x, rfl, -⟩ := h; simp⟩
  | sint w a => exact ⟨fun _ => h, by obtain ⟨-, x, rfl, -⟩ := h; simp⟩
  | uint m a => exact ⟨fun _ => h, by obtain ⟨-, x, rfl, -⟩ := h; simp⟩
  | cbuf => exact ⟨fun _ => h, by obtain ⟨-, x, y, rfl, -⟩ := h; simp⟩
  | bop a => exact ⟨fun _ => h, by obtain ⟨-, k, i, rfl, -⟩ := h; simp⟩
  | pred a n => exact ⟨fun _ => h, by obtain ⟨-, k, i, rfl, -⟩ := h; simp⟩
  | memAddress i a s q => exact ⟨fun _ => h, by obtain ⟨n, base, off, rfl, -⟩ := h; simp⟩
  | dotTable d a t =>
    cases d with
    | none =>
      rcases h with ⟨rfl, ⟨k, i, rfl, h⟩ | ⟨d, h, -⟩⟩
      · exact ⟨fun _ => ⟨rfl, .inl ⟨k, i, rfl, h⟩⟩, by simp⟩
      · simp at h
    | some d => simp [Operand.still] at ho
  | _ => simp [Operand.still] at ho

/-- The operand does not know these names and registers. -/
def Operand.ignores : Operand → Bool
  | .flag s _ => !(swaps.any fun x => '.' :: x == s)
  | .dotTable _ _ t => swaps.all fun x => !t.contains x
  | .po .. | .gpr _ | .neg _ | .srcFormat .. | .immFormat _ => true
  | _ => false

theorem ignores_accepts {e : Env} {v b : BitVec 64} {o : Operand} {ks : List Kind} {k k' : Kind} {r : BitVec 32} (ho : o.ignores = true)
    (hk : Kin k k') (h : Accepts e v o ks k b r) : Accepts e v o ks k' b r := by
  have table {t : List Str} (ht : ∀ x ∈ swaps, x ∉ t) (h : NoEntry c!"." t k) : NoEntry c!"." t k' := by
    rcases hk with rfl | ⟨n, rfl⟩ | ⟨s, hs, rfl⟩
    · exact h
    · intro x hx; simp
    · intro x hx he
      simp only [List.cons_append, List.nil_append, Kind.ident.injEq, List.cons.injEq, true_and] at he
      subst he
      exact ht _ hs hx
  have name {s : Str} (hs : ∀ x ∈ swaps, '.' :: x ≠ s) (h : k ≠ .ident s) : k' ≠ .ident s := by
    rcases hk with rfl | ⟨n, rfl⟩ | ⟨x, hx, rfl⟩
    · exact h
    · simp
    · simpa using hs x hx
  have sign (h : k ≠ .minus) : k' ≠ .minus := by
    rcases hk with rfl | ⟨n, rfl⟩ | ⟨x, hx, rfl⟩
    · exact h
    · simp
    · simp
  cases o with
  | flag s a =>
    obtain ⟨rfl, h | ⟨h1, h2, h3⟩⟩ := h
    · exact ⟨rfl, .inl h⟩
    · refine ⟨rfl, .inr ⟨h1, name ?_ h2, h3⟩⟩
      intro x hx
      simp only [Operand.ignores, Bool.not_eq_true', List.any_eq_false, beq_iff_eq] at ho
      exact ho x hx
  | dotTable d a t =>
    obtain ⟨rfl, h | ⟨d, h1, h2, h3, h4⟩⟩ := h
    · exact ⟨rfl, .inl h⟩
    · refine ⟨rfl, .inr ⟨d, h1, h2, table ?_ h3, h4⟩⟩
      intro x hx
      simpa using List.all_eq_true.1 ho x hx
  | po a c =>
    obtain ⟨rfl, h | ⟨h1, h2, h3⟩⟩ := h
    · exact ⟨rfl, .inl h⟩
    · exact ⟨rfl, .inr ⟨h1, name (by decide) h2, h3⟩⟩
  | gpr a =>
    obtain ⟨n, rest, h1, h2, h | ⟨h3, h4, h5⟩⟩ := h
    · exact ⟨n, rest, h1, h2, .inl h⟩
    · exact ⟨n, rest, h1, h2, .inr ⟨h3, name (by decide) h4, h5⟩⟩
  | neg a =>
    obtain ⟨rfl, h | ⟨h1, h2, h3⟩⟩ := h
    · exact ⟨rfl, .inl h⟩
    · exact ⟨rfl, .inr ⟨h1, sign h2, h3⟩⟩
  | srcFormat a c =>
    obtain ⟨rfl, h | h | ⟨h1, h2, h3⟩⟩ := h
    · exact ⟨rfl, .inl h⟩
    · exact ⟨rfl, .inr (.inl h)⟩
    · exact ⟨rfl, .inr (.inr ⟨h1, table (by decide) h2, h3⟩)⟩
  | immFormat a =>
    obtain ⟨rfl, h | ⟨d, h1, h2, h3, h4⟩⟩ := h
    · exact ⟨rfl, .inl h⟩
    · exact ⟨rfl, .inr ⟨d, h1, h2, table (by decide) h3, h4⟩⟩
  | _ => simp [Operand.ignores] at ho

/-! ### Rows -/

/-- A sign or a word whose bit may be set already. -/
def Operand.spare (used : List Field) : Operand → Bool
  | .neg a | .flag _ a => !Field.clear [(a, 1)] used
  | _ => false

/-- The operand is read the same when the operands behind it are changed. -/
def Operand.firm (used : List Field) (o : Operand) : List Operand → Bool
  | [] => true
  | o' :: _ => o.still || o' == .comma || (o.ignores && !o'.spare (o.fields ++ used))

/-- The operands behind a sign or a word do not begin with the same token. -/
def Operand.omissible : Operand → List Operand → Bool
  | .neg _, .gpr _ :: _ => true
  | .neg _, .cbuf :: _ => true
  | .neg _, .imm20 :: _ => true
  | .flag _ _, [] => true
  | .flag _ _, .comma :: _ => true
  | .flag s _, .dotTable none _ t :: _ => t.all fun x => '.' :: x != s
  | _, _ => false

/-- The parts of registers have the usual names. -/
def Operand.usual : Operand → Bool
  | .selector _ _ _ shorts bytes => shorts == [c!"H0", c!"H1"] && bytes == [c!"B0", c!"B1", c!"B2", c!"B3"]
  | _ => true

/-- The operands can be read with parts left out or replaced. -/
def mendable : List Field → List Operand → Bool
  | _, [] => true
  | used, o :: os => o.firm used os && (!o.spare used || o.omissible os) && o.usual && mendable (o.fields ++ used) os

/-- All rows whose assertions can fail are of this kind. -/
theorem table_mendable : ∀ row ∈ insnTable, row.apart = true ∨ mendable ((16, 4) :: setBits row.opcode) row.operands = true := by decide +kernel

/-- No assertion of the operand fails on this token. -/
def Quiets (v : BitVec 64) (o : Operand) (k : Kind) : Prop := ∀ more, ¬ OperandClash v o (k :: more)

/-- The names of the tables can be replaced. -/
theorem swap_entry {t : List Str} (ht : t = [c!"AND", c!"OR", c!"XOR", c!"INVALIDBOP3"] ∨ t = [c!"H0", c!"H1"] ∨ t = [c!"B0", c!"B1", c!"B2", c!"B3"])
    {k : Kind} {i : Nat} (h : Entry c!"." t k i) : i < 2 ^ 2 ∧ ∀ i' ≤ i, ∃ s ∈ swaps, Entry c!"." t (.ident ('.' :: s)) i' := by
  obtain ⟨name, -, hi, -⟩ := h
  have hlen := (List.getElem?_eq_some_iff.1 hi).1
  have hi4 : i < 4 := by rcases ht with rfl | rfl | rfl <;> simp at hlen <;> omega
  refine ⟨hi4, fun i' hi' => ?_⟩
  have hlt : i' < t.length := by omega
  refine ⟨t[i'], ?_, t[i'], rfl, List.getElem?_eq_getElem hlt, ?_⟩
  · have hm : t[i'] ∈ t := List.getElem_mem hlt
    generalize t[i'] = x at hm
    rcases ht with rfl | rfl | rfl
    · revert x; decide
    · revert x; decide
    · revert x; decide
  · intro j hj he
    have hnd : t.Nodup := by rcases ht with rfl | rfl | rfl <;> decide
    obtain ⟨hj', he⟩ := List.getElem?_eq_some_iff.1 he
    have := (List.Nodup.getElem_inj_iff hnd).1 he
    omega

theorem entry_inj {t : List Str} {k : Kind} {i j : Nat} (h : Entry c!"." t k i) (h' : Entry c!"." t k j) : i = j := by
  obtain ⟨n, rfl, h1, h2⟩ := h
  obtain ⟨m, he, h3, h4⟩ := h'
  simp only [List.cons_append, List.nil_append, Kind.ident.injEq, List.cons.injEq, true_and] at he
  subst he
  rcases Nat.lt_trichotomy i j with h | h | h
  · exact absurd h1 (h4 i h)
  · exact h
  · exact absurd h3 (h2 j h)

theorem field_one {v : BitVec 64} {a : Nat} (h : v &&& field a 1 ≠ 0) : v.getLsbD a = true ∧ v ||| field a 1 = v := by
  have hbit (p : Nat) : (field a 1).getLsbD p = (decide (p < 64) && decide (p = a)) := by
    rw [field_bit]
    by_cases hap : p = a
    · subst hap; simp
    · by_cases h1 : a ≤ p
      · have : Nat.testBit 1 (p - a) = false := by
          rw [show p - a = (p - a - 1) + 1 by omega, Nat.testBit_add_one]; simp
        simp [this, hap]
      · simp [h1, hap]
  have hv : v.getLsbD a = true := by
    by_contra hne
    apply h
    apply BitVec.eq_of_getLsbD_eq
    intro p hp
    rw [BitVec.getLsbD_and, hbit]
    by_cases hap : p = a
    · subst hap; simp at hne; simp [hne]
    · simp [hap]
  refine ⟨hv, ?_⟩
  apply BitVec.eq_of_getLsbD_eq
  intro p hp
  rw [BitVec.getLsbD_or, hbit]
  by_cases hap : p = a
  · subst hap; simp [hv]
  · simp [hap]

theorem head_tokens {e : Env} {o : Operand} {os : List Operand} {v v' : BitVec 64} {ks : List Kind} {k : Kind} {r : BitVec 32}
    (h : Sequence e (o :: os) v ks k v' r) : ∃ ks1 ks2 b r1, ks = ks1 ++ ks2 ∧ Accepts e v o ks1 (ks2.headD k) b r1 := by
  cases h with | @cons _ _ _ b _ ks1 ks2 _ r1 _ h1 h2 => exact ⟨ks1, ks2, b, r1, rfl, h1⟩

theorem comma_head {e : Env} {os : List Operand} {v v' : BitVec 64} {ks : List Kind} {k : Kind} {r : BitVec 32}
    (h : Sequence e (.comma :: os) v ks k v' r) : ks.headD k = .comma := by
  obtain ⟨ks1, ks2, b, r1, rfl, -, rfl, -⟩ := head_tokens h
  rfl

theorem Kin.refl (k : Kind) : Kin k k := .inl rfl

/-- Parts can be left out or replaced so that no assertion fails, without changing the word. -/
theorem mend {e : Env} {os : List Operand} {v v' : BitVec 64} {ks : List Kind} {k : Kind} {r : BitVec 32} (h : Sequence e os v ks k v' r)
    {used : List Field} (hm : mendable used os = true) (hu : ∀ p, v.getLsbD p = true → inF used p) (hk : k = .at ∨ k = .semicolon)
    (hg : ∀ o ∈ os, o.grammatical = true) (hr : ∀ o ∈ os, o.regular = true) (ht : ∀ o ∈ os, o.target = false ∨ o = .label)
    (hw : ∀ x ∈ ks, Writable x) :
    ∃ ks', Guarded Quiets e os v ks' k v' r ∧ (∀ x ∈ ks', Writable x) ∧
      ((∀ o ∈ os.head?, o.spare used = false) → Kin (ks.headD k) (ks'.headD k)) := by
  induction h generalizing used with
  | nil => exact ⟨[], .nil, by simp, fun _ => .refl _⟩
  | @cons o os v b v' ks ks' k r r' h hs ih =>
    have htail {P : Operand → Prop} (h : ∀ x ∈ o :: os, P x) : ∀ x ∈ os, P x := fun x hx => h x (List.mem_cons_of_mem _ hx)
    have hw1 : ∀ x ∈ ks, Writable x := fun x hx => hw x (List.mem_append_left _ hx)
    have hw2 : ∀ x ∈ ks', Writable x := fun x hx => hw x (List.mem_append_right _ hx)
    have hk0 : Writable k := by rcases hk with rfl | rfl <;> trivial
    have hk1 : Writable (ks'.headD k) := by
      cases ks' with
      | nil => exact hk0
      | cons x xs => exact hw2 x List.mem_cons_self
    rw [mendable, Bool.and_eq_true, Bool.and_eq_true, Bool.and_eq_true] at hm
    obtain ⟨⟨⟨hm1, hm2⟩, hm3⟩, hm4⟩ := hm
    have hu' : ∀ p, ((v &&& ~~~clears o) ||| b).getLsbD p = true → inF (o.fields ++ used) p := by
      intro p hp
      rw [inF_append]
      by_cases hin : inF o.fields p
      · exact .inl hin
      · rw [accepts_foot (hg o List.mem_cons_self) (hr o List.mem_cons_self) (ht o List.mem_cons_self) h hw1 hk1 (BitVec.lt_of_getLsbD hp) hin] at hp
        exact .inr (hu p hp)
    obtain ⟨ks2, g1, g2, g3⟩ := ih hm4 hu' hk (htail hg) (htail hr) (htail ht) hw2
    -- the token behind the operand
    have hnext : Accepts e v o ks (ks2.headD k) b r ∧ (ks = [] → Kin (ks'.headD k) (ks2.headD k)) := by
      cases os with
      | nil =>
        cases hs
        cases g1
        exact ⟨h, fun _ => .refl _⟩
      | cons o' os =>
        simp only [Operand.firm, Bool.or_eq_true, Bool.and_eq_true, beq_iff_eq, Bool.not_eq_true'] at hm1
        rcases hm1 with (hm1 | rfl) | ⟨hm1, hm5⟩
        · obtain ⟨a1, a2⟩ := still_accepts hm1 h
          exact ⟨a1 _, fun hn => absurd hn a2⟩
        · rw [comma_head hs] at h
          rw [comma_head hs, comma_head g1.sequence]
          exact ⟨h, fun _ => .refl _⟩
        · have hkin := g3 (by simpa using hm5)
          exact ⟨ignores_accepts hm1 hkin h, fun _ => hkin⟩
    obtain ⟨hacc, hkin⟩ := hnext
    have hplain : Quiets v o ((ks ++ ks2).headD k) → ∃ ks'_1, Guarded Quiets e (o :: os) v ks'_1 k v' (r ||| r') ∧ (∀ x ∈ ks'_1, Writable x) ∧
        ((∀ o' ∈ (o :: os).head?, o'.spare used = false) → Kin ((ks ++ ks').headD k) (ks'_1.headD k)) := by
      intro hq
      refine ⟨ks ++ ks2, .cons hacc hq g1, ?_, fun _ => ?_⟩
      · intro x hx
        rcases List.mem_append.1 hx with hx | hx
        · exact hw1 x hx
        · exact g2 x hx
      · cases ks with
        | nil => exact hkin rfl
        | cons x xs => exact .refl _
    by_cases hq : Quiets v o ((ks ++ ks2).headD k)
    · exact hplain hq
    obtain ⟨more, hc⟩ : ∃ more, OperandClash v o ((ks ++ ks2).headD k :: more) := by
      by_contra hn
      exact hq fun more hc => hn ⟨more, hc⟩
    have hspare {a : Nat} (hv : v.getLsbD a = true) : Field.clear [(a, 1)] used = false := by
      by_contra hne
      rw [Bool.not_eq_false] at hne
      exact not_inF_of_apart hne (i := a) ⟨(a, 1), by simp, by simp⟩ (hu a hv)
    -- an operand that is replaced
    have hswap {ks1 : List Kind} {b1 : BitVec 64} (h1 : Accepts e v o ks1 (ks2.headD k) b1 r) (hb : v ||| b1 = v ||| b) (hcl : clears o = 0)
        (hq1 : Quiets v o ((ks1 ++ ks2).headD k)) (hw3 : ∀ x ∈ ks1, Writable x)
        (hkin1 : (∀ o' ∈ (o :: os).head?, o'.spare used = false) → Kin ((ks ++ ks').headD k) ((ks1 ++ ks2).headD k)) :
        ∃ ks'_1, Guarded Quiets e (o :: os) v ks'_1 k v' (r ||| r') ∧ (∀ x ∈ ks'_1, Writable x) ∧
          ((∀ o' ∈ (o :: os).head?, o'.spare used = false) → Kin ((ks ++ ks').headD k) (ks'_1.headD k)) := by
      refine ⟨ks1 ++ ks2, .cons h1 hq1 ?_, ?_, hkin1⟩
      · have hv0 : v &&& ~~~clears o = v := by
          rw [hcl]
          change v &&& ~~~(0#64) = v
          rw [show ~~~(0#64) = BitVec.allOnes 64 by decide, BitVec.and_allOnes]
        rw [hv0] at g1 ⊢
        rw [hb]
        exact g1
      · intro x hx
        rcases List.mem_append.1 hx with hx | hx
        · exact hw3 x hx
        · exact g2 x hx
    generalize hhd : (ks ++ ks2).headD k = x at hc
    generalize hl : x :: more = l at hc
    cases hc with
    | @sign a hb =>
      obtain ⟨rfl, -⟩ : x = .minus ∧ _ := by simpa using hl
      obtain ⟨hv, hor⟩ := field_one hb
      obtain ⟨rfl, ⟨rfl, rfl⟩ | ⟨rfl, h1, rfl⟩⟩ := hacc
      · simp only [Operand.spare, hspare hv, Bool.not_false, Bool.not_true, Bool.false_or] at hm2
        have hne : ks2.headD k ≠ .minus := by
          cases os with
          | nil => simp [Operand.omissible] at hm2
          | cons o' os =>
            cases o' with
            | gpr a' => obtain ⟨k1, k2, b1, r1, rfl, n, rest, rfl, -⟩ := head_tokens g1.sequence; simp
            | cbuf => obtain ⟨k1, k2, b1, r1, rfl, -, x, y, rfl, -⟩ := head_tokens g1.sequence; simp
            | imm20 => obtain ⟨k1, k2, b1, r1, rfl, -, x, rfl, -⟩ := head_tokens g1.sequence; simp
            | _ => simp [Operand.omissible] at hm2
        refine hswap (ks1 := []) (b1 := 0) ⟨rfl, .inr ⟨rfl, hne, rfl⟩⟩ (by rw [hor]; simp) rfl ?_ (by simp) ?_
        · intro more hc
          rw [List.nil_append] at hc
          generalize ks2.headD k = y at hc hne
          cases hc
          exact hne rfl
        · intro hsp
          have := hsp _ (by simp; rfl)
          simp [Operand.spare, hspare hv] at this
      · exact absurd hhd h1
    | @word s a hb =>
      obtain ⟨rfl, -⟩ : x = .ident s ∧ _ := by simpa using hl
      obtain ⟨hv, hor⟩ := field_one hb
      obtain ⟨rfl, ⟨rfl, rfl⟩ | ⟨rfl, h1, rfl⟩⟩ := hacc
      · simp only [Operand.spare, hspare hv, Bool.not_false, Bool.not_true, Bool.false_or] at hm2
        have hne : ks2.headD k ≠ .ident s := by
          cases os with
          | nil =>
            cases g1
            rcases hk with rfl | rfl <;> simp
          | cons o' os =>
            cases o' with
            | comma => rw [comma_head g1.sequence]; simp
            | dotTable d a' t =>
              cases d with
              | none =>
                obtain ⟨k1, k2, b1, r1, rfl, -, ⟨k3, i, rfl, ⟨name, rfl, hi, -⟩, -⟩ | ⟨d, hd, -⟩⟩ := head_tokens g1.sequence
                · have := List.all_eq_true.1 hm2 name (List.mem_of_getElem? hi)
                  simpa using this
                · simp at hd
              | some d => simp [Operand.omissible] at hm2
            | _ => simp [Operand.omissible] at hm2
        refine hswap (ks1 := []) (b1 := 0) ⟨rfl, .inr ⟨rfl, hne, rfl⟩⟩ (by rw [hor]; simp) rfl ?_ (by simp) ?_
        · intro more hc
          rw [List.nil_append] at hc
          generalize ks2.headD k = y at hc hne
          cases hc
          exact hne rfl
        · intro hsp
          have := hsp _ (by simp; rfl)
          simp [Operand.spare, hspare hv] at this
      · exact absurd hhd h1
    | @register a n hb =>
      obtain ⟨rfl, -⟩ : x = .reg n ∧ _ := by simpa using hl
      obtain ⟨m, rest, rfl, rfl, hre⟩ := hacc
      obtain ⟨n', hle, e1, e2⟩ := strip_field v a (i := m) (w := 8) (by
        have : m ≤ 255 := hw1 (.reg m) (by simp)
        omega)
      refine hswap (ks1 := .reg n' :: rest) (b1 := field a n') ⟨n', rest, rfl, rfl, hre⟩ e1 rfl ?_ ?_ (fun _ => .inr (.inl ⟨n', rfl⟩))
      · intro more hc
        generalize hy : (Kind.reg n' :: rest ++ ks2).headD k = y at hc
        obtain rfl : y = .reg n' := by simpa using hy.symm
        generalize hl : Kind.reg n' :: more = l at hc
        cases hc with | @register _ n2 hb =>
        obtain ⟨rfl, -⟩ : n' = n2 ∧ _ := by simpa using hl
        exact hb e2
      · intro y hy
        rcases List.mem_cons.1 hy with rfl | hy
        · have : m ≤ 255 := hw1 (.reg m) (by simp)
          change n' ≤ 255
          omega
        · exact hw1 y (by simp [hy])
    | @operation a i k0 hk0 hb =>
      obtain ⟨rfl, k3, i0, rfl, hen, rfl⟩ := hacc
      obtain ⟨i4, hsw⟩ := swap_entry (.inl rfl) hen
      obtain ⟨i', hle, e1, e2⟩ := strip_field v a i4
      obtain ⟨s, hs, hen'⟩ := hsw i' hle
      refine hswap (ks1 := [.ident ('.' :: s)]) (b1 := field a i') ⟨rfl, _, i', rfl, hen', rfl⟩ e1 rfl ?_ ?_ (fun _ => .inr (.inr ⟨s, hs, rfl⟩))
      · intro more hc
        generalize hl : ([Kind.ident ('.' :: s)] ++ ks2).headD k :: more = l at hc
        cases hc with | @operation _ i2 k4 hk4 hb4 =>
        obtain ⟨rfl, -⟩ : Kind.ident ('.' :: s) = k4 ∧ _ := by simpa using hl
        rw [entry_inj hk4 hen'] at hb4
        exact hb4 e2
      · intro y hy
        rw [List.mem_singleton.1 hy]
        exact swap_writable s hs
    | @part a ta short i shorts bytes k0 next hk0 hb =>
      simp only [Operand.usual, Bool.and_eq_true, beq_iff_eq] at hm3
      obtain ⟨rfl, rfl⟩ := hm3
      obtain ⟨rfl, ⟨k3, i0, rfl, hen, rfl⟩ | ⟨d, -, rfl, hno, -⟩⟩ := hacc
      · obtain ⟨i4, hsw⟩ := swap_entry (by split <;> simp) hen
        obtain ⟨i', hle, e1, e2⟩ := strip_field v a i4
        obtain ⟨s, hs, hen'⟩ := hsw i' hle
        refine hswap (ks1 := [.ident ('.' :: s)]) (b1 := field a i') ⟨rfl, .inl ⟨_, i', rfl, hen', rfl⟩⟩ e1 rfl ?_ ?_ (fun _ => .inr (.inr ⟨s, hs, rfl⟩))
        · intro more hc
          generalize hl : ([Kind.ident ('.' :: s)] ++ ks2).headD k :: more = l at hc
          cases hc with | @part _ _ _ i2 _ _ k4 next4 hk4 hb4 =>
          obtain ⟨rfl, -⟩ : Kind.ident ('.' :: s) = k4 ∧ _ := by simpa using hl
          rw [entry_inj hk4 hen'] at hb4
          exact hb4 e2
        · intro y hy
          rw [List.mem_singleton.1 hy]
          exact swap_writable s hs
      · obtain ⟨rfl, -⟩ : x = k0 ∧ _ := by simpa using hl
        obtain ⟨name, he, hi, -⟩ := hk0
        rw [List.nil_append] at hhd
        rw [hhd] at hno
        exact absurd he (hno name (List.mem_of_getElem? hi))

end Nxas
