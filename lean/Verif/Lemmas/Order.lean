import Verif.Lemmas.Readback
/-
Lists of annotations: the blocks of tokens they consist of, and permutations of them.
-/

namespace Nxas

open Spec

/-- No operand contains `@`. -/
theorem accepts_no_at {o : Operand} {e : Env} {v : BitVec 64} {ks : List Kind} {k' : Kind} {b : BitVec 64} {r : BitVec 32}
    (h : Accepts e v o ks k' b r) : Kind.at ∉ ks := by
  have hreuse : ∀ {a rest k' r}, reuse a rest k' r → Kind.at ∉ rest := by
    intro a rest k' r h
    rcases reuse_rest h with rfl | rfl <;> simp
  have hentry : ∀ {pfx t k i}, Entry pfx t k i → k ≠ .at := by
    rintro pfx t k i ⟨name, rfl, -⟩; simp
  have hmod : ∀ {d a t ks k' b r}, modifier d a t ks k' b r → Kind.at ∉ ks := by
    rintro d a t ks k' b r ⟨-, ⟨k, i, rfl, h, -⟩ | ⟨_, -, rfl, -⟩⟩
    · simpa using (hentry h).symm
    · simp
  have hword : ∀ {s bits ks k' b r}, optWord s bits ks k' b r → Kind.at ∉ ks := by
    rintro s bits ks k' b r ⟨-, ⟨rfl, -⟩ | ⟨rfl, -⟩⟩ <;> simp
  have hfloat : ∀ {n : Nat} {f : BitVec 32 → BitVec n} {g : Int → BitVec n} {q i : BitVec n} {ks neg x},
      FloatText n f g q i ks neg x → Kind.at ∉ ks := by
    have hw : ∀ {n : Nat} {q i : BitVec n} {k x}, floatWord q i k x → k ≠ .at := by
      rintro n q i k x (⟨rfl, -⟩ | ⟨rfl, -⟩) <;> simp
    intro n f g q i ks neg x h
    cases h with
    | float => simp
    | int => simp
    | word h => simpa using (hw h).symm
    | plus h => simpa using (hw h).symm
    | minus h => simpa using (hw h).symm
  have hmem : ∀ {i a w sh ks k' b r}, memory i a w sh ks k' b r → Kind.at ∉ ks := by
    rintro i a w sh ks k' b r ⟨n, base, off, rfl, hb, ho⟩
    have h1 : Kind.at ∉ base := by
      rcases hb with ⟨rest, rfl, h⟩ | ⟨rfl, -⟩
      · simpa using hreuse h
      · simp
    have h2 : Kind.at ∉ off := by
      rcases ho with ⟨rfl, -⟩ | ⟨-, y, rfl, -⟩ <;> simp
    simp [h1, h2]
  induction o generalizing v ks k' b r with
  | flag | po | optText => exact hword h
  | dotTable | immFormat => exact hmod h
  | uint => obtain ⟨-, x, rfl, -⟩ := h; simp
  | sint => obtain ⟨-, x, rfl, -⟩ := h; simp
  | uimmExtended => obtain ⟨-, x, rfl, -⟩ := h; simp
  | comma => obtain ⟨-, rfl, -⟩ := h; simp
  | label => obtain ⟨-, x, ⟨s, a, rfl, -⟩ | rfl, -⟩ := h <;> simp
  | gpr => obtain ⟨n, rest, rfl, -, h⟩ := h; simpa using hreuse h
  | mirrorGpr => obtain ⟨-, n, rest, rfl, -, h⟩ := h; simpa using hreuse h
  | cbuf => obtain ⟨-, x, y, rfl, -⟩ := h; simp
  | imm20 => obtain ⟨-, x, rfl, -⟩ := h; simp
  | fimm => obtain ⟨-, neg, x, h, -⟩ := h; exact hfloat h
  | dimm20 => obtain ⟨-, neg, x, h, -⟩ := h; exact hfloat h
  | himm => obtain ⟨-, neg, x, h, -⟩ := h; exact hfloat h
  | bop => obtain ⟨-, k, i, rfl, h, -⟩ := h; simpa using (hentry h).symm
  | pred => obtain ⟨-, p, n, rfl, -⟩ := h; simp
  | invertedPred => obtain ⟨-, p, rfl, -⟩ := h; simp
  | neg => obtain ⟨-, ⟨rfl, -⟩ | ⟨rfl, -⟩⟩ := h <;> simp
  | tilde => obtain ⟨-, ⟨rfl, -⟩ | ⟨rfl, -⟩⟩ := h <;> simp
  | abs a o ih =>
    rcases h with ⟨ks1, b1, rfl, -, h⟩ | ⟨-, h⟩
    · simpa using ih h
    · exact ih h
  | defaultRz => obtain ⟨-, rfl, -⟩ := h; simp
  | memAddress => exact hmem h
  | ccTests =>
    obtain ⟨-, ⟨k, i, rfl, h, -⟩ | ⟨rfl, -⟩⟩ := h
    · simpa using (hentry h).symm
    · simp
  | expect => obtain ⟨-, rfl, -⟩ := h; simp
  | immAttr => obtain ⟨-, x, rfl, -⟩ := h; simp
  | patchAttr =>
    obtain ⟨n, rest, plus, y, rfl, hp, h, -⟩ := h
    have := hreuse h
    rcases hp with rfl | rfl <;> simp [this]
  | physAttr => obtain ⟨n, rest, rfl, h, -⟩ := h; simpa using hreuse h
  | xmadSigns => obtain ⟨-, ⟨x, y, rfl, -⟩ | ⟨rfl, -⟩⟩ := h <;> simp
  | f2fRounding =>
    unfold Accepts at h
    split at h
    · obtain ⟨-, ⟨k, s, x, rfl, -, rfl, -⟩ | ⟨rfl, -⟩⟩ := h <;> simp
    · exact hmod h
  | intFormat => obtain ⟨-, k, i, rfl, ⟨h, -⟩ | ⟨-, h, -⟩⟩ := h <;> simpa using (hentry h).symm
  | plainTable => obtain ⟨-, k, i, rfl, h, -⟩ := h; simpa using (hentry h).symm
  | selector => exact hmod h
  | ldcAddress => obtain ⟨x, rest, b1, rfl, -, -, h⟩ := h; simpa using hmem h
  | s2r =>
    obtain ⟨-, ⟨s, x, -, rfl, -⟩ | ⟨rfl, -⟩ | ⟨s, x, -, rfl, -⟩ | ⟨k, i, rfl, -, -, h, -⟩⟩ := h <;> try simp
    exact (hentry h).symm
  | ldgSize =>
    obtain ⟨-, ⟨k, i, rfl, h, -⟩ | ⟨rfl, -⟩ | ⟨rfl, -⟩⟩ := h <;> try simp
    exact (hentry h).symm
  | atomicSize => obtain ⟨-, ⟨s, x, -, rfl, -⟩ | ⟨rfl, -⟩ | ⟨rfl, -⟩ | ⟨rfl, -⟩⟩ := h <;> simp
  | srcFormat =>
    obtain ⟨-, ⟨k, i, rfl, h, -⟩ | ⟨s, x, -, rfl, -⟩ | ⟨rfl, -⟩⟩ := h <;> try simp
    exact (hentry h).symm
  | texType => obtain ⟨-, k, i, rfl, h, -⟩ := h; simpa using (hentry h).symm
  | zero => obtain ⟨-, rfl, -⟩ := h; simp
  | texsMode =>
    obtain ⟨-, lod, dc, x, y, rfl, -, h1, h2⟩ := h
    rcases h1 with ⟨rfl, -⟩ | ⟨rfl, -⟩ | ⟨rfl, -⟩ <;> rcases h2 with ⟨rfl, -⟩ | ⟨rfl, -⟩ <;> simp
  | tldsType => obtain ⟨-, s, x, rfl, -⟩ := h; simp
  | texsType => obtain ⟨-, s, x, rfl, -⟩ := h; simp
  | texsSwizzle => obtain ⟨-, k, i, rfl, -, h⟩ := h; simpa using (hentry h).symm

theorem sequence_no_at {e : Env} {os : List Operand} {v v' : BitVec 64} {ks : List Kind} {k : Kind} {r : BitVec 32}
    (h : Sequence e os v ks k v' r) : Kind.at ∉ ks := by
  induction h with
  | nil => simp
  | cons h _ ih => simpa using ⟨accepts_no_at h, ih⟩

/-! ### Blocks -/

/-- A block of tokens that may be an annotation: `@`, and no `@` after it. -/
def IsBlock (b : List Kind) : Prop := ∃ ks, b = .at :: ks ∧ Kind.at ∉ ks

theorem _root_.Nxas.Spec.Annot.Text.block {a : Annot} {ks : List Kind} (h : a.Text ks) : IsBlock ks := by
  cases h <;> exact ⟨_, rfl, by simp⟩

/-- Each block is the text of an annotation. -/
inductive Blocks : List (List Kind) → List Annot → Prop
  | nil : Blocks [] []
  | cons {b : List Kind} {bs : List (List Kind)} {a : Annot} {as : List Annot} (h : a.Text b) (hs : Blocks bs as) :
      Blocks (b :: bs) (a :: as)

theorem Blocks.block {bs : List (List Kind)} {as : List Annot} (h : Blocks bs as) : ∀ b ∈ bs, IsBlock b := by
  induction h with
  | nil => simp
  | cons h _ ih =>
    intro b hb
    rcases List.mem_cons.1 hb with rfl | hb
    · exact h.block
    · exact ih b hb

theorem Blocks.text {bs : List (List Kind)} {as : List Annot} (h : Blocks bs as) : ∀ a ∈ as, ∃ ks, a.Text ks := by
  induction h with
  | nil => simp
  | cons h _ ih =>
    intro b hb
    rcases List.mem_cons.1 hb with rfl | hb
    · exact ⟨_, h⟩
    · exact ih b hb

theorem annotsText_iff {as : List Annot} {ks : List Kind} : AnnotsText as ks ↔
    ∃ bs, ks = bs.flatten ∧ Blocks bs as ∧ as.Pairwise (fun a a' => a.clash a' = false) := by
  constructor
  · intro h
    induction h with
    | nil => exact ⟨[], rfl, .nil, .nil⟩
    | cons h hc _ ih =>
      obtain ⟨bs, rfl, h1, h2⟩ := ih
      exact ⟨_ :: bs, by simp, .cons h h1, .cons hc h2⟩
  · rintro ⟨bs, rfl, h1, h2⟩
    induction h1 with
    | nil => exact .nil
    | cons h hs ih =>
      rw [List.pairwise_cons] at h2
      exact .cons h h2.1 (ih h2.2)

theorem append_block {x y u v : List Kind} (hx : Kind.at ∉ x) (hy : Kind.at ∉ y) (hu : u = [] ∨ ∃ u', u = .at :: u')
    (hv : v = [] ∨ ∃ v', v = .at :: v') (h : x ++ u = y ++ v) : x = y ∧ u = v := by
  induction x generalizing y with
  | nil =>
    cases y with
    | nil => exact ⟨rfl, by simpa using h⟩
    | cons k y =>
      simp only [List.nil_append, List.cons_append] at h
      rcases hu with rfl | ⟨u', rfl⟩
      · simp at h
      · simp only [List.cons.injEq] at h
        simp [← h.1] at hy
  | cons k x ih =>
    cases y with
    | nil =>
      simp only [List.nil_append, List.cons_append] at h
      rcases hv with rfl | ⟨v', rfl⟩
      · simp at h
      · simp only [List.cons.injEq] at h
        simp [h.1] at hx
    | cons k' y =>
      simp only [List.cons_append, List.cons.injEq] at h
      simp only [List.mem_cons, not_or] at hx hy
      obtain ⟨h1, h2⟩ := ih hx.2 hy.2 h.2
      exact ⟨by rw [h.1, h1], h2⟩

theorem flatten_blocks_head {bs : List (List Kind)} (h : ∀ b ∈ bs, IsBlock b) :
    bs.flatten = [] ∨ ∃ u, bs.flatten = .at :: u := by
  cases bs with
  | nil => exact .inl rfl
  | cons b bs =>
    obtain ⟨ks, rfl, -⟩ := h b (by simp)
    exact .inr ⟨ks ++ bs.flatten, by simp⟩

/-- Blocks can be told apart in the sequence of tokens. -/
theorem blocks_unique {bs bs' : List (List Kind)} (h : ∀ b ∈ bs, IsBlock b) (h' : ∀ b ∈ bs', IsBlock b)
    (he : bs.flatten = bs'.flatten) : bs = bs' := by
  induction bs generalizing bs' with
  | nil =>
    cases bs' with
    | nil => rfl
    | cons b bs' => obtain ⟨ks, rfl, -⟩ := h' b (by simp); simp at he
  | cons b bs ih =>
    cases bs' with
    | nil => obtain ⟨ks, rfl, -⟩ := h b (by simp); simp at he
    | cons b' bs' =>
      obtain ⟨ks, rfl, hk⟩ := h b (by simp)
      obtain ⟨ks', rfl, hk'⟩ := h' b' (by simp)
      simp only [List.flatten_cons, List.cons_append, List.cons.injEq, true_and] at he
      obtain ⟨rfl, h2⟩ := append_block hk hk' (flatten_blocks_head fun b hb => h b (by simp [hb]))
        (flatten_blocks_head fun b hb => h' b (by simp [hb])) he
      rw [ih (fun b hb => h b (by simp [hb])) (fun b hb => h' b (by simp [hb])) h2]

theorem Blocks.perm {bs bs' : List (List Kind)} (hp : bs.Perm bs') {as : List Annot} (h : Blocks bs as) :
    ∃ as', as.Perm as' ∧ Blocks bs' as' := by
  induction hp generalizing as with
  | nil => exact ⟨as, .rfl, h⟩
  | cons b _ ih =>
    cases h with
    | cons h hs =>
      obtain ⟨as', h1, h2⟩ := ih hs
      exact ⟨_ :: as', h1.cons _, .cons h h2⟩
  | swap a b l =>
    cases h with
    | cons h hs =>
      cases hs with
      | cons h' hs => exact ⟨_, .swap _ _ _, .cons h' (.cons h hs)⟩
  | trans _ _ ih1 ih2 =>
    obtain ⟨as1, h1, h2⟩ := ih1 h
    obtain ⟨as2, h3, h4⟩ := ih2 h2
    exact ⟨as2, h1.trans h3, h4⟩

/-! ### Permutations -/

theorem clash_comm (a b : Annot) : a.clash b = b.clash a := by
  cases a <;> cases b <;> first | rfl | (simp only [Annot.clash]; rw [Bool.eq_iff_iff]; simp; exact eq_comm)

theorem findSome_perm {f : Annot → Option Nat} (hf : ∀ a b, a.clash b = false → f a = none ∨ f b = none)
    {as as' : List Annot} (hp : as.Perm as') (h : as.Pairwise (fun a a' => a.clash a' = false)) :
    as.findSome? f = as'.findSome? f := by
  have hsymm : ∀ {a b : Annot}, a.clash b = false → b.clash a = false := fun h => by rw [clash_comm]; exact h
  induction hp with
  | nil => rfl
  | cons b _ ih =>
    rw [List.pairwise_cons] at h
    simp only [List.findSome?_cons, ih h.2]
  | swap a b l =>
    rw [List.pairwise_cons] at h
    simp only [List.findSome?_cons]
    rcases hf b a (h.1 a (by simp)) with h | h
    · rw [h]
    · rw [h]
  | trans h1 _ ih1 ih2 => rw [ih1 h, ih2 ((h1.pairwise_iff hsymm).1 h)]

/-- The scheduling bits do not depend on the order. -/
theorem schedBits_perm {as as' : List Annot} (hp : as.Perm as') (h : as.Pairwise (fun a a' => a.clash a' = false)) :
    schedBits as = schedBits as' := by
  have h1 : stall as = stall as' := by
    unfold stall given
    rw [findSome_perm _ hp h]
    intro a b hc
    cases a <;> cases b <;> simp_all [Annot.clash]
  have h2 : writeBarrier as = writeBarrier as' := by
    unfold writeBarrier given
    rw [findSome_perm _ hp h]
    intro a b hc
    cases a <;> cases b <;> simp_all [Annot.clash]
  have h3 : readBarrier as = readBarrier as' := by
    unfold readBarrier given
    rw [findSome_perm _ hp h]
    intro a b hc
    cases a <;> cases b <;> simp_all [Annot.clash]
  unfold schedBits waitMask
  simp only [h1, h2, h3, hp.mem_iff]

/-! ### Paths to the semicolon -/

theorem Path.first_semicolon {t t1 t2 : Token} {c c1 c2 : Cur} {ks1 ks2 : List Kind} (h1 : Path t c ks1 t1 c1)
    (h2 : Path t c ks2 t2 c2) (e1 : t1.kind = .semicolon) (e2 : t2.kind = .semicolon) (n1 : Kind.semicolon ∉ ks1)
    (n2 : Kind.semicolon ∉ ks2) : ks1 = ks2 ∧ t1 = t2 ∧ c1 = c2 := by
  induction ks1 generalizing t c ks2 with
  | nil =>
    obtain ⟨rfl, rfl⟩ := h1
    cases ks2 with
    | nil => exact ⟨rfl, h2.1.symm, h2.2.symm⟩
    | cons k ks2 =>
      obtain ⟨rfl, -⟩ := h2
      simp [e1] at n2
  | cons k ks1 ih =>
    cases ks2 with
    | nil =>
      obtain ⟨rfl, rfl⟩ := h2
      obtain ⟨rfl, -⟩ := h1
      simp [e2] at n1
    | cons k2 ks2 =>
      obtain ⟨rfl, t3, c3, h3, h4⟩ := h1
      obtain ⟨rfl, t4, c4, h5, h6⟩ := h2
      rw [h3] at h5
      cases h5
      obtain ⟨rfl, h7⟩ := ih h4 h6 (by simp at n1; exact n1.2) (by simp at n2; exact n2.2)
      exact ⟨rfl, h7⟩

theorem _root_.Nxas.Spec.AnnotsText.no_semicolon {as : List Annot} {ks : List Kind} (h : AnnotsText as ks) :
    Kind.semicolon ∉ ks := by
  induction h with
  | nil => simp
  | cons h _ _ ih => cases h <;> simpa using ih

end Nxas
