import Verif.Lemmas.Shift
/-
Instructions with other registers.
-/

namespace Nxas

open Spec

/-- The token with the register renamed. -/
def Spec.renamed (f : Nat → Nat) : Kind → Kind
  | .reg n => .reg (f n)
  | k => k

/-- A renaming of registers: the zero register keeps its name and no other register gets it. -/
structure Spec.Renaming (f : Nat → Nat) : Prop where
  small : ∀ n ≤ 255, f n ≤ 255
  zero : ∀ n ≤ 255, f n = 255 ↔ n = 255

/-- Where and how the words hold the registers, or the predicates. -/
structure Spec.Layout where
  /-- the lowest bits of the places -/
  places : List Nat
  /-- the number of bits of a place -/
  width : Nat
  /-- what is at a place stands for -/
  read : Nat → Nat → Nat

/-- The number at a place of a word. -/
def Spec.Layout.at (l : Layout) (v : BitVec 64) (a : Nat) : Nat := l.read a (bitsAt v a l.width)

/-- The words differ only where the first one holds `xs` in turn, and there the second one holds the renamed ones. -/
def Spec.Layout.Word (l : Layout) (f : Nat → Nat) (xs : List Nat) (v w : BitVec 64) : Prop :=
  ∃ as : List Nat, (∀ a ∈ as, a ∈ l.places) ∧ as.map (l.at v) = xs ∧ as.map (l.at w) = xs.map f ∧
    ∀ p, (∀ a ∈ as, ¬ (a ≤ p ∧ p < a + l.width)) → w.getLsbD p = v.getLsbD p

/-- The images, of the same size, differ only where the first one holds `xs` in turn, and there the second one holds the renamed ones. None of the places is
    in a control word. -/
def Spec.Layout.Image (l : Layout) (f : Nat → Nat) (xs : List Nat) (vs ws : List (BitVec 64)) : Prop :=
  ∃ as : List (Nat × Nat), (∀ a ∈ as, a.1 < vs.length ∧ a.1 % 4 ≠ 0 ∧ a.2 ∈ l.places) ∧ as.map (fun a => l.at (vs.getD a.1 0) a.2) = xs ∧
    as.map (fun a => l.at (ws.getD a.1 0) a.2) = xs.map f ∧
    ∀ i p, (∀ a ∈ as, ¬ (a.1 = i ∧ a.2 ≤ p ∧ p < a.2 + l.width)) → (ws.getD i 0).getLsbD p = (vs.getD i 0).getLsbD p

/-- Registers are held in bytes. -/
def Spec.registers : Layout := ⟨[0, 8, 20, 28, 39], 8, fun _ x => x⟩

/-- The registers of these tokens. -/
def Spec.regsOf (ks : List Kind) : List Nat := ks.filterMap fun
  | .reg n => some n
  | _ => none

/-! ### Operands -/

/-- Where the operand stores its register. -/
def Operand.holds : Operand → Option Nat
  | .gpr a => some a
  | .memAddress .. => some 8
  | .patchAttr => some 8
  | .physAttr => some 8
  | .ldcAddress => some 8
  | .abs _ inner => inner.holds
  | _ => none

/-- The bytes at these positions. -/
def bytes (as : List Nat) : List Field := as.map (·, 8)

theorem inF_bytes {as : List Nat} {p : Nat} : inF (bytes as) p ↔ ∃ a ∈ as, a ≤ p ∧ p < a + 8 := by
  simp only [inF, bytes, List.mem_map]
  constructor
  · rintro ⟨-, ⟨a, h, rfl⟩, h'⟩; exact ⟨a, h, h'⟩
  · rintro ⟨a, h, h'⟩; exact ⟨_, ⟨a, h, rfl⟩, h'⟩

/-- The operand sets no other bits of the byte of its register. -/
def Operand.sole : Operand → Bool
  | .memAddress _ a _ _ => 16 ≤ a
  | .abs a inner => inner.sole && match inner.holds with
    | some x => Field.apart (x, 8) (a, 1)
    | none => true
  | .gpr a => a ≤ 56
  | _ => true

theorem renamed_eq {f : Nat → Nat} {k x : Kind} (hx : ∀ n, x ≠ .reg n) : renamed f k = x ↔ k = x := by
  cases k with
  | reg n =>
    simp only [renamed]
    exact ⟨fun h => (hx _ h.symm).elim, fun h => (hx _ h.symm).elim⟩
  | _ => rfl

theorem renamed_ident {f : Nat → Nat} {k : Kind} {s : Str} : renamed f k = .ident s ↔ k = .ident s := renamed_eq (by simp)
theorem renamed_vbar {f : Nat → Nat} {k : Kind} : renamed f k = .vbar ↔ k = .vbar := renamed_eq (by simp)
theorem renamed_minus {f : Nat → Nat} {k : Kind} : renamed f k = .minus ↔ k = .minus := renamed_eq (by simp)
theorem renamed_tilde {f : Nat → Nat} {k : Kind} : renamed f k = .tilde ↔ k = .tilde := renamed_eq (by simp)

theorem headD_renamed (f : Nat → Nat) (ks : List Kind) (k : Kind) : (ks.map (renamed f)).headD (renamed f k) = renamed f (ks.headD k) := by
  cases ks <;> rfl

theorem reuse_renamed {f : Nat → Nat} {a : Nat} {ks : List Kind} {k : Kind} {r : BitVec 32} (h : reuse a ks k r) :
    reuse a (ks.map (renamed f)) (renamed f k) r := by
  rcases h with ⟨rfl, h⟩ | ⟨rfl, h, h'⟩
  · exact .inl ⟨rfl, h⟩
  · exact .inr ⟨rfl, by rwa [ne_eq, renamed_ident], h'⟩

/-! ### The token that follows -/

theorem accepts_after {o : Operand} {e : Env} {v b : BitVec 64} {ks : List Kind} {m n : Nat} {r : BitVec 32} (h : Accepts e v o ks (.reg n) b r) :
    Accepts e v o ks (.reg m) b r := by
  induction o generalizing v ks b with
  | abs a inner ih =>
    rcases h with ⟨ks1, b1, h1, h2, h⟩ | ⟨h1, h⟩
    · exact .inl ⟨ks1, b1, h1, h2, h⟩
    · refine .inr ⟨?_, ih h⟩
      cases ks with
      | nil => simp
      | cons x xs => exact h1
  | f2fRounding =>
    rw [Accepts] at h ⊢
    by_cases hv : bitsAt v 8 2 = bitsAt v 10 2 <;> simp only [hv, if_true, if_false] at h ⊢
    · simpa using h
    · simpa [modifier, NoEntry] using h
  | texsMode a =>
    rw [Accepts] at h ⊢
    obtain ⟨h0, lod, dc, x, y, h1, h2, h3, h4⟩ := h
    refine ⟨h0, lod, dc, x, y, h1, h2, ?_, ?_⟩
    · rcases h3 with h3 | h3 | ⟨h3, h5, h6, h7⟩
      · exact .inl h3
      · exact .inr (.inl h3)
      · cases dc with
        | nil => exact .inr (.inr ⟨h3, by simp, by simp, h7⟩)
        | cons d ds => exact .inr (.inr ⟨h3, h5, h6, h7⟩)
    · rcases h4 with h4 | ⟨h4, h5, h6⟩
      · exact .inl h4
      · exact .inr ⟨h4, by simp, h6⟩
  | _ =>
    first
    | exact h
    | simpa [Accepts, optWord, register, reuse, modifier, NoEntry] using h

theorem accepts_next {o : Operand} {e : Env} {v b : BitVec 64} {ks : List Kind} {k : Kind} {r : BitVec 32} (f : Nat → Nat) (h : Accepts e v o ks k b r) :
    Accepts e v o ks (renamed f k) b r := by
  cases k with
  | reg n => exact accepts_after h
  | _ => exact h

/-! ### The tokens -/

/-- The bits of an operand after renaming. -/
def Changed (f : Nat → Nat) (a : Option Nat) (b b' : BitVec 64) : Prop :=
  (∀ p, (∀ x, a = some x → ¬ (x ≤ p ∧ p < x + 8)) → b'.getLsbD p = b.getLsbD p) ∧ ∀ x, a = some x → bitsAt b' x 8 = f (bitsAt b x 8)

theorem changed_or {f : Nat → Nat} (hf : Renaming f) {a n : Nat} (ha : a ≤ 56) (hn : n ≤ 255) {c : BitVec 64} (hc : bitsAt c a 8 = 0) :
    Changed f (some a) (field a n ||| c) (field a (f n) ||| c) := by
  have hs := hf.small n hn
  constructor
  · intro p hp
    have hp := hp a rfl
    have h0 : ∀ m ≤ 255, (field a m).getLsbD p = false := by
      intro m hm
      cases hb : (field a m).getLsbD p with
      | false => rfl
      | true => exact (hp (field_inF (w := 8) (by omega) hb)).elim
    rw [BitVec.getLsbD_or, BitVec.getLsbD_or, h0 _ hn, h0 _ hs]
  · rintro x hx
    cases hx
    rw [bitsAt_or, bitsAt_or, hc, Nat.or_zero, Nat.or_zero, bitsAt_field (by omega) (by omega), bitsAt_field (by omega) (by omega)]

theorem changed_field {f : Nat → Nat} (hf : Renaming f) {a n : Nat} (ha : a ≤ 56) (hn : n ≤ 255) :
    Changed f (some a) (field a n) (field a (f n)) := by
  have := changed_or hf ha hn (c := 0) (bitsAt_zero a 8)
  simpa using this

theorem Changed.or {f : Nat → Nat} {a : Option Nat} {b b' c : BitVec 64} (h : Changed f a b b') (hc : ∀ x, a = some x → bitsAt c x 8 = 0) :
    Changed f a (c ||| b) (c ||| b') := by
  constructor
  · intro p hp
    rw [BitVec.getLsbD_or, BitVec.getLsbD_or, h.1 p hp]
  · intro x hx
    rw [bitsAt_or, bitsAt_or, hc x hx, Nat.zero_or, Nat.zero_or, h.2 x hx]

theorem Changed.refl {f : Nat → Nat} (b : BitVec 64) : Changed f none b b := ⟨fun _ _ => rfl, fun _ h => by cases h⟩

theorem memory_rename {f : Nat → Nat} (hf : Renaming f) {i : Bool} {a s n : Nat} {ks : List Kind} {k : Kind} {b : BitVec 64} {r : BitVec 32}
    (h : memory i a s n ks k b r) (ha : 16 ≤ a) (hw : ∀ x ∈ ks, Writable x) :
    ∃ b', memory i a s n (ks.map (renamed f)) (renamed f k) b' r ∧ Changed f (some 8) b b' := by
  obtain ⟨m, base, off, rfl, h1, h2⟩ := h
  have hm : m ≤ 255 := by
    rcases h1 with ⟨rest, rfl, -⟩ | ⟨-, rfl, -⟩
    · exact hw (.reg m) (by simp)
    · exact Nat.le_refl _
  have hoff : off.map (renamed f) = off := by
    rcases h2 with ⟨rfl, -⟩ | ⟨-, y, rfl, -⟩ <;> rfl
  have h1' : (∃ rest, base.map (renamed f) = .reg (f m) :: rest ∧ reuse 8 rest (off.headD .rbracket) r) ∨ (base.map (renamed f) = [] ∧ f m = 255 ∧ r = 0) := by
    rcases h1 with ⟨rest, rfl, h1⟩ | ⟨rfl, rfl, h1⟩
    · refine .inl ⟨rest.map (renamed f), rfl, ?_⟩
      have := reuse_renamed (f := f) h1
      rwa [← headD_renamed, hoff] at this
    · exact .inr ⟨rfl, (hf.zero 255 (by decide)).2 rfl, h1⟩
  have hks : (Kind.lbracket :: (base ++ (off ++ [.rbracket]))).map (renamed f) = .lbracket :: (base.map (renamed f) ++ (off ++ [.rbracket])) := by
    simp only [List.map_cons, List.map_append, hoff, List.map_nil, renamed]
  rw [hks]
  rcases h2 with ⟨rfl, rfl⟩ | ⟨hi, y, rfl, hy, rfl⟩
  · exact ⟨_, ⟨f m, _, [], rfl, h1', .inl ⟨rfl, rfl⟩⟩, changed_field hf (by decide) hm⟩
  · refine ⟨_, ⟨f m, _, _, rfl, h1', .inr ⟨hi, y, rfl, ?_, rfl⟩⟩, changed_or hf (by decide) hm (bitsAt_apart (sfield_lt s _) (.inr (by omega)))⟩
    simp only [hf.zero m hm]
    exact hy

/-- The tokens of the operand can be renamed on their own. -/
def Operand.loose : Operand → Bool
  | .mirrorGpr _ => false
  | .abs _ inner => inner.loose
  | o => o.holds.isSome || (Nxas.shapes o).all fun p => p.all (· != .reg)

theorem fits_renamed {f : Nat → Nat} {q : Pat} {k : Kind} (hq : q ≠ .reg) (h : q.fits k) : renamed f k = k := by
  cases k with
  | reg n =>
    cases q with
    | tok a => exact absurd (show plain (.reg n) = true from h.2) Bool.false_ne_true
    | reg => exact (hq rfl).elim
    | pred => obtain ⟨_, _, h⟩ := h; cases h
    | imm | out => obtain ⟨_, h, -⟩ := h; cases h
    | _ => obtain ⟨_, h⟩ := h; cases h
  | _ => rfl

theorem fitsAll_renamed {f : Nat → Nat} {p : List Pat} {ks : List Kind} (hp : p.all (· != .reg) = true) (h : fitsAll p ks) : ks.map (renamed f) = ks := by
  induction p generalizing ks with
  | nil => cases ks with
    | nil => rfl
    | cons => exact h.elim
  | cons q p ih => cases ks with
    | nil => exact h.elim
    | cons k ks =>
      simp only [List.all_cons, Bool.and_eq_true, bne_iff_ne, ne_eq] at hp
      rw [List.map_cons, ih hp.2 h.2, fits_renamed hp.1 h.1]

theorem accepts_rename {f : Nat → Nat} (hf : Renaming f) {o : Operand} (hl : o.loose = true) (ho : o.sole = true) {e : Env} {v b : BitVec 64} {ks : List Kind}
    {k : Kind} {r : BitVec 32} (h : Accepts e v o ks k b r) (hw : ∀ x ∈ ks, Writable x) :
    ∃ b', Accepts e v o (ks.map (renamed f)) (renamed f k) b' r ∧ Changed f o.holds b b' := by
  induction o generalizing v ks k b with
  | gpr a =>
    obtain ⟨n, rest, rfl, rfl, h⟩ := h
    exact ⟨_, ⟨f n, _, rfl, rfl, reuse_renamed h⟩, changed_field hf (by simpa [Operand.sole] using ho) (hw (.reg n) (by simp))⟩
  | mirrorGpr a => simp [Operand.loose] at hl
  | memAddress i a s n => exact memory_rename hf h (by simpa [Operand.sole] using ho) hw
  | patchAttr =>
    obtain ⟨n, rest, plus, y, rfl, h1, h, h2, h3, rfl⟩ := h
    have hp : plus.map (renamed f) = plus := by rcases h1 with rfl | rfl <;> rfl
    refine ⟨_, ⟨f n, rest.map (renamed f), plus, y, ?_, h1, ?_, h2, h3, rfl⟩, changed_or hf (by decide) (hw (.reg n) (by simp)) (bitsAt_apart (sfield_lt 11 _) (by decide))⟩
    · simp only [List.map_cons, List.map_append, hp, List.map_nil, renamed]
    · have := reuse_renamed (f := f) h
      rwa [show renamed f (plus.headD (.imm y)) = plus.headD (.imm y) by rcases h1 with rfl | rfl <;> rfl] at this
  | physAttr =>
    obtain ⟨n, rest, rfl, h, rfl⟩ := h
    refine ⟨_, ⟨f n, rest.map (renamed f), ?_, reuse_renamed (k := .rbracket) h, rfl⟩, changed_field hf (by decide) (hw (.reg n) (by simp))⟩
    simp only [List.map_cons, List.map_append, List.map_nil, renamed]
  | ldcAddress =>
    obtain ⟨x, rest, b1, rfl, h1, rfl, h⟩ := h
    obtain ⟨b', h2, h3⟩ := memory_rename hf h (by decide) (fun x hx => hw x (by simp [hx]))
    refine ⟨_, ⟨x, _, b', rfl, h1, rfl, h2⟩, h3.or ?_⟩
    intro y hy
    cases hy
    exact bitsAt_apart (u := 5) (by omega) (by decide)
  | abs a inner ih =>
    simp only [Operand.sole, Bool.and_eq_true] at ho
    rcases h with ⟨ks1, b1, rfl, rfl, h⟩ | ⟨h1, h⟩
    · obtain ⟨b', h2, h3⟩ := ih hl ho.1 h (fun x hx => hw x (by simp [hx]))
      refine ⟨_, .inl ⟨_, b', ?_, rfl, h2⟩, h3.or ?_⟩
      · simp only [List.map_cons, List.map_append, List.map_nil, renamed]
      · intro x hx
        have h4 := ho.2
        rw [hx] at h4
        simp only [Field.apart, Bool.or_eq_true, decide_eq_true_eq] at h4
        exact bitsAt_apart (u := 1) (by decide) (by omega)
    · obtain ⟨b', h2, h3⟩ := ih hl ho.1 h hw
      exact ⟨b', .inr ⟨by rwa [headD_renamed, ne_eq, renamed_vbar], h2⟩, h3⟩
  | _ =>
    simp only [Operand.loose, Operand.holds, Option.isSome_none, Bool.false_or] at hl
    obtain ⟨p, hp, hfit⟩ := shapes_of h
    rw [fitsAll_renamed (List.all_eq_true.1 hl p hp) hfit]
    exact ⟨b, accepts_next f h, .refl b⟩

theorem regsOf_append (a b : List Kind) : regsOf (a ++ b) = regsOf a ++ regsOf b := List.filterMap_append ..

theorem regsOf_reuse {a : Nat} {ks : List Kind} {k : Kind} {r : BitVec 32} (h : reuse a ks k r) : regsOf ks = [] := by
  rcases h with ⟨rfl, h⟩ | ⟨rfl, h, h'⟩ <;> rfl

theorem fits_noregs {p : List Pat} {ks : List Kind} (hp : p.all (· != .reg) = true) (h : fitsAll p ks) : regsOf ks = [] := by
  induction p generalizing ks with
  | nil => cases ks with
    | nil => rfl
    | cons => exact h.elim
  | cons q p ih => cases ks with
    | nil => exact h.elim
    | cons k ks =>
      simp only [List.all_cons, Bool.and_eq_true, bne_iff_ne, ne_eq] at hp
      have h1 := fits_renamed (f := fun n => n + 1) hp.1 h.1
      have h2 := ih hp.2 h.2
      cases k with
      | reg n => simp [renamed] at h1
      | _ => exact h2

/-- The register of the operand, if it has one, is in its byte; otherwise the zero register is. -/
def Held (a : Option Nat) (ks : List Kind) (b : BitVec 64) : Prop :=
  (∃ x, a = some x ∧ regsOf ks = [bitsAt b x 8]) ∨ (regsOf ks = [] ∧ ∀ x, a = some x → bitsAt b x 8 = 255)

theorem bitsAt_byte {a n : Nat} (ha : a ≤ 56) (hn : n ≤ 255) {c : BitVec 64} (hc : bitsAt c a 8 = 0) : bitsAt (field a n ||| c) a 8 = n := by
  rw [bitsAt_or, hc, Nat.or_zero, bitsAt_field (by omega) (by omega)]

theorem memory_held {i : Bool} {a s n : Nat} {ks : List Kind} {k : Kind} {b : BitVec 64} {r : BitVec 32}
    (h : memory i a s n ks k b r) (ha : 16 ≤ a) (hw : ∀ x ∈ ks, Writable x) : Held (some 8) ks b := by
  obtain ⟨m, base, off, rfl, h1, h2⟩ := h
  have hm : m ≤ 255 := by
    rcases h1 with ⟨rest, rfl, -⟩ | ⟨-, rfl, -⟩
    · exact hw (.reg m) (by simp)
    · exact Nat.le_refl _
  have hoff : regsOf off = [] := by
    rcases h2 with ⟨rfl, -⟩ | ⟨-, y, rfl, -⟩ <;> rfl
  have hb : bitsAt b 8 8 = m := by
    rcases h2 with ⟨rfl, rfl⟩ | ⟨hi, y, rfl, hy, rfl⟩
    · exact bitsAt_field (by omega) (by decide)
    · exact bitsAt_byte (by decide) hm (bitsAt_apart (sfield_lt s _) (.inr (by omega)))
  have hks : regsOf (Kind.lbracket :: (base ++ (off ++ [.rbracket]))) = regsOf base := by
    rw [← List.singleton_append, regsOf_append, regsOf_append, regsOf_append, hoff]
    simp [regsOf]
  rcases h1 with ⟨rest, rfl, h1⟩ | ⟨rfl, rfl, h1⟩
  · refine .inl ⟨8, rfl, ?_⟩
    rw [hks, hb, ← List.singleton_append, regsOf_append, regsOf_reuse h1]
    rfl
  · refine .inr ⟨hks, ?_⟩
    rintro x hx
    cases hx
    exact hb

theorem accepts_held {o : Operand} (hl : o.loose = true) (ho : o.sole = true) {e : Env} {v b : BitVec 64} {ks : List Kind}
    {k : Kind} {r : BitVec 32} (h : Accepts e v o ks k b r) (hw : ∀ x ∈ ks, Writable x) : Held o.holds ks b := by
  induction o generalizing v ks k b with
  | gpr a =>
    obtain ⟨n, rest, rfl, rfl, h⟩ := h
    refine .inl ⟨a, rfl, ?_⟩
    have hn : n ≤ 255 := hw (.reg n) (by simp)
    have ha : a ≤ 56 := by simpa [Operand.sole] using ho
    rw [bitsAt_field (by omega) (by omega), ← List.singleton_append, regsOf_append, regsOf_reuse h]
    rfl
  | mirrorGpr a => simp [Operand.loose] at hl
  | memAddress i a s n => exact memory_held h (by simpa [Operand.sole] using ho) hw
  | patchAttr =>
    obtain ⟨n, rest, plus, y, rfl, h1, h, h2, h3, rfl⟩ := h
    refine .inl ⟨8, rfl, ?_⟩
    rw [bitsAt_byte (a := 8) (n := n) (c := sfield 20 11 y) (by decide) (hw (.reg n) (by simp)) (bitsAt_apart (sfield_lt 11 _) (by decide))]
    have hr := regsOf_reuse h
    simp only [regsOf] at hr
    rcases h1 with rfl | rfl <;> simp [regsOf, hr]
  | physAttr =>
    obtain ⟨n, rest, rfl, h, rfl⟩ := h
    have hn : n ≤ 255 := hw (.reg n) (by simp)
    refine .inl ⟨8, rfl, ?_⟩
    have hr := regsOf_reuse h
    simp only [regsOf] at hr
    rw [bitsAt_field (by omega) (by decide)]
    simp [regsOf, hr]
  | ldcAddress =>
    obtain ⟨x, rest, b1, rfl, h1, rfl, h⟩ := h
    have := memory_held h (by decide) (fun x hx => hw x (by simp [hx]))
    have hb : bitsAt (field 36 x ||| b1) 8 8 = bitsAt b1 8 8 := by
      rw [bitsAt_or, bitsAt_apart (u := 5) (by omega) (by decide), Nat.zero_or]
    unfold Held at this ⊢
    simp only [Operand.holds, Option.some.injEq, exists_eq_left', forall_eq'] at this ⊢
    rw [hb]
    simpa [regsOf] using this
  | abs a inner ih =>
    simp only [Operand.sole, Bool.and_eq_true] at ho
    rcases h with ⟨ks1, b1, rfl, rfl, h⟩ | ⟨h1, h⟩
    · have h2 := ih hl ho.1 h (fun x hx => hw x (by simp [hx]))
      have hk : regsOf (Kind.vbar :: (ks1 ++ [.vbar])) = regsOf ks1 := by
        rw [← List.singleton_append, regsOf_append, regsOf_append]
        simp [regsOf]
      have hb : ∀ x, inner.holds = some x → bitsAt (field a 1 ||| b1) x 8 = bitsAt b1 x 8 := by
        intro x hx
        have h4 := ho.2
        rw [hx] at h4
        simp only [Field.apart, Bool.or_eq_true, decide_eq_true_eq] at h4
        rw [bitsAt_or, bitsAt_apart (u := 1) (by decide) (by omega), Nat.zero_or]
      rcases h2 with ⟨x, hx, h2⟩ | ⟨h2, h3⟩
      · exact .inl ⟨x, hx, by rw [hb x hx, ← h2]; exact hk⟩
      · exact .inr ⟨by rw [← h2]; exact hk, fun x hx => by rw [hb x hx]; exact h3 x hx⟩
    · exact ih hl ho.1 h hw
  | _ =>
    simp only [Operand.loose, Operand.holds, Option.isSome_none, Bool.false_or] at hl
    obtain ⟨p, hp, hfit⟩ := shapes_of h
    exact .inr ⟨fits_noregs (List.all_eq_true.1 hl p hp) hfit, fun x hx => by cases hx⟩

/-! ### Sequences of operands -/

/-- The bits an operand sets, if it is not the number 2^20. -/
def Operand.trim : Operand → List Field
  | .uimmExtended => [(20, 19), (56, 1)]
  | o => o.fields

theorem accepts_trim {o : Operand} (hg : o.grammatical = true) (hr : o.regular = true) (ht : o.target = false ∨ o = .label) {e : Env}
    {v b : BitVec 64} {ks : List Kind} {k : Kind} {r : BitVec 32} (h : Accepts e v o ks k b r) (hw : ∀ x ∈ ks, Writable x) (hk : Writable k)
    (hx : o = .uimmExtended → Kind.imm (2 ^ 20) ∉ ks) {p : Nat} (hp : p < 64) (hf : ¬ inF o.trim p) :
    ((v &&& ~~~clears o) ||| b).getLsbD p = v.getLsbD p := by
  by_cases ho : o = .uimmExtended
  · subst ho
    obtain ⟨-, x, rfl, hle, rfl⟩ := h
    have hne : x ≠ 2 ^ 20 := by
      intro hc
      subst hc
      exact hx rfl (by simp)
    have hb : (if x < 2 ^ 19 then field 20 x else field 56 1 ||| field 20 (x - 2 ^ 19)).getLsbD p = false := by
      have h1 : ∀ n, n < 2 ^ 19 → (field 20 n).getLsbD p = false := by
        intro n hn
        cases hb : (field 20 n).getLsbD p with
        | false => rfl
        | true => exact (hf ⟨(20, 19), by simp [Operand.trim], field_inF hn hb⟩).elim
      have h2 : (field 56 1).getLsbD p = false := by
        cases hb : (field 56 1).getLsbD p with
        | false => rfl
        | true => exact (hf ⟨(56, 1), by simp [Operand.trim], field_inF (by decide) hb⟩).elim
      split
      · exact h1 _ (by assumption)
      · rw [BitVec.getLsbD_or, h1 _ (by omega), h2]; rfl
    rw [BitVec.getLsbD_or, hb, show clears .uimmExtended = 0 from rfl, Bool.or_false, BitVec.getLsbD_and, BitVec.getLsbD_not]
    simp [hp]
  · refine accepts_foot hg hr ht h hw hk hp ?_
    cases o <;> first | exact hf | exact (ho rfl).elim

/-- What the operand looks at is out of the way of the registers, or is a register. -/
def Operand.views (done : List Nat) : Operand → Bool
  | .mirrorGpr a => done.contains a
  | .texsSwizzle => Operand.texsSwizzle.loose && (done.contains 28 || Field.clear Operand.texsSwizzle.peeks (bytes done))
  | o => o.loose && Field.clear o.peeks (bytes done)

/-- The registers of these operands can be renamed, those at `done` being set before. -/
def renamable (done : List Nat) : List Operand → Bool
  | [] => true
  | o :: os => o.sole && Field.clear (bytes done) o.trim && Field.clear (bytes (os.filterMap Operand.holds)) o.trim &&
    Field.clear (bytes o.holds.toList) (bytes done) && Field.clear (bytes o.holds.toList) (bytes (os.filterMap Operand.holds)) &&
    o.views done &&
    renamable (o.holds.toList ++ done) os

/-- The words at some place within the operands. -/
structure Midway (f : Nat → Nat) (done : List Nat) (os : List Operand) (v w : BitVec 64) : Prop where
  same : Agree (bytes done) v w
  byte : ∀ a ∈ done, bitsAt w a 8 = f (bitsAt v a 8)
  free : ∀ a ∈ os.filterMap Operand.holds, ∀ p, a ≤ p → p < a + 8 → v.getLsbD p = false ∧ w.getLsbD p = false

theorem accepts_look {f : Nat → Nat} (hf : Renaming f) {o : Operand} {done : List Nat} {v w : BitVec 64} (hm : Agree (bytes done) v w)
    (hb : ∀ a ∈ done, bitsAt w a 8 = f (bitsAt v a 8)) (ho : o.sole = true)
    (hc : o.views done = true)
    {e : Env} {b : BitVec 64} {ks : List Kind} {k : Kind} {r : BitVec 32} (h : Accepts e v o ks k b r) (hw : ∀ x ∈ ks, Writable x) :
    ∃ b', Accepts e w o (ks.map (renamed f)) (renamed f k) b' r ∧ Changed f o.holds b b' := by
  by_cases h1 : ∃ a, o = .mirrorGpr a
  · obtain ⟨a, rfl⟩ := h1
    obtain ⟨rfl, n, rest, rfl, rfl, h⟩ := h
    exact ⟨0, ⟨rfl, _, rest.map (renamed f), rfl, hb a (by simpa [Operand.views] using hc), reuse_renamed h⟩, .refl 0⟩
  by_cases h2 : o = .texsSwizzle
  · subst h2
    simp only [Operand.views, Bool.and_eq_true, Bool.or_eq_true] at hc
    refine accepts_rename hf hc.1 ho ?_ hw
    rcases hc.2 with hc | hc
    · have := hb 28 (by simpa using hc)
      have hz := hf.zero _ (Nat.le_of_lt_succ (bitsAt_lt v 28 8))
      rw [← this] at hz
      rw [Accepts] at h ⊢
      simp only [hz]
      exact h
    · rwa [← accepts_agree hc hm]
  have hc : o.loose = true ∧ Field.clear o.peeks (bytes done) = true := by
    rw [← Bool.and_eq_true]
    cases o <;> first | exact hc | exact (h1 ⟨_, rfl⟩).elim | exact (h2 rfl).elim
  refine accepts_rename hf hc.1 ho ?_ hw
  rwa [← accepts_agree hc.2 hm]

theorem writable_renamed {f : Nat → Nat} (hf : Renaming f) {k : Kind} (h : Writable k) : Writable (renamed f k) := by
  cases k with
  | reg n => exact hf.small n h
  | _ => exact h

theorem sequence_rename {f : Nat → Nat} (hf : Renaming f) {os : List Operand} {done : List Nat} (hg : ∀ o ∈ os, o.grammatical = true)
    (hr : ∀ o ∈ os, o.regular = true) (ht : ∀ o ∈ os, o.target = false ∨ o = .label) (hd : ∀ a ∈ done ++ os.filterMap Operand.holds, a ≤ 56)
    (hc : renamable done os = true) {e : Env} {v v' w : BitVec 64}
    {ks : List Kind} {k : Kind} {r : BitVec 32} (h : Sequence e os v ks k v' r) (hw : ∀ x ∈ ks, Writable x) (hk : Writable k)
    (hx : .uimmExtended ∈ os → Kind.imm (2 ^ 20) ∉ ks) (hm : Midway f done os v w) :
    ∃ w', Sequence e os w (ks.map (renamed f)) (renamed f k) w' r ∧ ∃ as, (∀ a, a ∈ as ↔ a ∈ done ++ os.filterMap Operand.holds) ∧ Midway f as [] v' w' := by
  induction h generalizing w done with
  | nil => exact ⟨w, .nil, done, fun a => by simp, hm⟩
  | @cons o os v b v' ks ks' k r r' h hs ih =>
    simp only [renamable, Bool.and_eq_true] at hc
    obtain ⟨⟨⟨⟨⟨⟨h1, h2⟩, h3⟩, h4⟩, h5⟩, h6⟩, h7⟩ := hc
    have hwo : ∀ x ∈ ks, Writable x := fun x hx => hw x (by simp [hx])
    have hkn : Writable (ks'.headD k) := by
      cases ks' with
      | nil => exact hk
      | cons x xs => exact hw x (by simp)
    have hxo : o = .uimmExtended → Kind.imm (2 ^ 20) ∉ ks := fun ho hin => hx (by simp [ho]) (List.mem_append_left _ hin)
    obtain ⟨b', hb1, hb2⟩ := accepts_look hf hm.same hm.byte h1 h6 h hwo
    have hxo' : o = .uimmExtended → Kind.imm (2 ^ 20) ∉ ks.map (renamed f) := by
      intro ho hin
      obtain ⟨y, hy, he⟩ := List.mem_map.1 hin
      rw [renamed_eq (by simp)] at he
      exact hxo ho (he ▸ hy)
    have foot1 : ∀ p, p < 64 → ¬ inF o.trim p → ((v &&& ~~~clears o) ||| b).getLsbD p = v.getLsbD p := fun p =>
      accepts_trim (hg o (by simp)) (hr o (by simp)) (ht o (by simp)) h hwo hkn hxo
    have foot2 : ∀ p, p < 64 → ¬ inF o.trim p → ((w &&& ~~~clears o) ||| b').getLsbD p = w.getLsbD p := fun p =>
      accepts_trim (hg o (by simp)) (hr o (by simp)) (ht o (by simp)) hb1 (fun x hx => by
        obtain ⟨y, hy, rfl⟩ := List.mem_map.1 hx
        exact writable_renamed hf (hwo y hy)) (writable_renamed hf hkn) hxo'
    have hlow : ∀ a ∈ done, ∀ p, a ≤ p → p < a + 8 → p < 64 ∧ ¬ inF o.trim p := by
      intro a ha p h8 h9
      exact ⟨by have := hd a (by simp [ha]); omega, not_inF_of_apart h2 (inF_bytes.2 ⟨a, ha, h8, h9⟩)⟩
    have hlow' : ∀ a ∈ os.filterMap Operand.holds, ∀ p, a ≤ p → p < a + 8 → p < 64 ∧ ¬ inF o.trim p := by
      intro a ha p h8 h9
      refine ⟨?_, not_inF_of_apart h3 (inF_bytes.2 ⟨a, ha, h8, h9⟩)⟩
      have := hd a (by
        rw [List.mem_append, List.mem_filterMap]
        obtain ⟨x, hx, he⟩ := List.mem_filterMap.1 ha
        exact .inr ⟨x, by simp [hx], he⟩)
      omega
    have hsub : ∀ a ∈ os.filterMap Operand.holds, a ∈ (o :: os).filterMap Operand.holds := by
      intro a ha
      obtain ⟨x, hx, he⟩ := List.mem_filterMap.1 ha
      exact List.mem_filterMap.2 ⟨x, by simp [hx], he⟩
    have hown : ∀ a, o.holds = some a → a ∈ (o :: os).filterMap Operand.holds := fun a ha => List.mem_filterMap.2 ⟨o, by simp, ha⟩
    have hmid : Midway f (o.holds.toList ++ done) os ((v &&& ~~~clears o) ||| b) ((w &&& ~~~clears o) ||| b') := by
      constructor
      · intro p hp
        have hpd : ¬ inF (bytes done) p := by
          rw [inF_bytes] at hp ⊢
          rintro ⟨a, ha, h8⟩
          exact hp ⟨a, by simp [ha], h8⟩
        rw [BitVec.getLsbD_or, BitVec.getLsbD_or, BitVec.getLsbD_and, BitVec.getLsbD_and, hm.same p hpd, hb2.1 p]
        intro x hx h8
        refine hp (inF_bytes.2 ⟨x, by simp [hx], h8⟩)
      · intro a ha
        rcases List.mem_append.1 ha with ha | ha
        · have ha : o.holds = some a := by simpa using ha
          have hz := hm.free a (hown a ha)
          have key : ∀ x c : BitVec 64, (∀ p, a ≤ p → p < a + 8 → x.getLsbD p = false) → bitsAt ((x &&& ~~~clears o) ||| c) a 8 = bitsAt c a 8 := by
            intro x c hx
            refine bitsAt_congr fun p h8 h9 => ?_
            rw [BitVec.getLsbD_or, BitVec.getLsbD_and, hx p h8 h9]
            simp
          rw [key w b' fun p h8 h9 => (hz p h8 h9).2, key v b fun p h8 h9 => (hz p h8 h9).1, hb2.2 a ha]
        · rw [bitsAt_congr fun p h8 h9 => foot2 p (hlow a ha p h8 h9).1 (hlow a ha p h8 h9).2,
            bitsAt_congr (v := (v &&& ~~~clears o) ||| b) fun p h8 h9 => foot1 p (hlow a ha p h8 h9).1 (hlow a ha p h8 h9).2]
          exact hm.byte a ha
      · intro a ha p h8 h9
        have := hlow' a ha p h8 h9
        rw [foot1 p this.1 this.2, foot2 p this.1 this.2]
        exact hm.free a (hsub a ha) p h8 h9
    have hd' : ∀ a, a ∈ (o.holds.toList ++ done) ++ os.filterMap Operand.holds ↔ a ∈ done ++ (o :: os).filterMap Operand.holds := by
      intro a
      rw [List.filterMap_cons]
      cases o.holds with
      | none => simp
      | some x =>
        simp only [Option.toList_some, List.mem_append, List.mem_cons, List.not_mem_nil, or_false]
        tauto
    obtain ⟨w', hs', as, has, hfin⟩ := ih (fun o h => hg o (by simp [h])) (fun o h => hr o (by simp [h])) (fun o h => ht o (by simp [h]))
      (fun a ha => hd a ((hd' a).1 ha)) h7 (fun x hx => hw x (by simp [hx])) hk (fun ho hin => hx (by simp [ho]) (List.mem_append_right _ hin)) hmid
    refine ⟨w', ?_, as, fun a => (has a).trans (hd' a), hfin⟩
    rw [List.map_append]
    exact .cons (by rwa [headD_renamed]) hs'

/-- Every register is in one of the bytes, and the bytes of missing ones hold the zero register. -/
theorem sequence_held {os : List Operand} {done : List Nat} (hg : ∀ o ∈ os, o.grammatical = true)
    (hr : ∀ o ∈ os, o.regular = true) (ht : ∀ o ∈ os, o.target = false ∨ o = .label) (hd : ∀ a ∈ done ++ os.filterMap Operand.holds, a ≤ 56)
    (hc : renamable done os = true) {e : Env} {v v' : BitVec 64}
    {ks : List Kind} {k : Kind} {r : BitVec 32} (h : Sequence e os v ks k v' r) (hw : ∀ x ∈ ks, Writable x) (hk : Writable k)
    (hx : .uimmExtended ∈ os → Kind.imm (2 ^ 20) ∉ ks)
    (hz : ∀ a ∈ os.filterMap Operand.holds, ∀ p, a ≤ p → p < a + 8 → v.getLsbD p = false) :
    (∃ as : List Nat, (∀ a ∈ as, a ∈ done ++ os.filterMap Operand.holds) ∧ as.map (fun a => bitsAt v' a 8) = regsOf ks ∧
      ∀ a ∈ os.filterMap Operand.holds, a ∉ as → bitsAt v' a 8 = 255) ∧ ∀ a ∈ done, bitsAt v' a 8 = bitsAt v a 8 := by
  induction h generalizing done with
  | nil => exact ⟨⟨[], by simp, rfl, by simp⟩, fun _ _ => rfl⟩
  | @cons o os v b v' ks ks' k r r' h hs ih =>
    simp only [renamable, Bool.and_eq_true] at hc
    obtain ⟨⟨⟨⟨⟨⟨h1, h2⟩, h3⟩, h4⟩, h5⟩, h6⟩, h7⟩ := hc
    have hwo : ∀ x ∈ ks, Writable x := fun x hx => hw x (by simp [hx])
    have hkn : Writable (ks'.headD k) := by
      cases ks' with
      | nil => exact hk
      | cons x xs => exact hw x (by simp)
    have hxo : o = .uimmExtended → Kind.imm (2 ^ 20) ∉ ks := fun ho hin => hx (by simp [ho]) (List.mem_append_left _ hin)
    have foot : ∀ p, p < 64 → ¬ inF o.trim p → ((v &&& ~~~clears o) ||| b).getLsbD p = v.getLsbD p := fun p =>
      accepts_trim (hg o (by simp)) (hr o (by simp)) (ht o (by simp)) h hwo hkn hxo
    have hsub : ∀ a ∈ os.filterMap Operand.holds, a ∈ (o :: os).filterMap Operand.holds := by
      intro a ha
      obtain ⟨x, hx, he⟩ := List.mem_filterMap.1 ha
      exact List.mem_filterMap.2 ⟨x, by simp [hx], he⟩
    have hown : ∀ a, o.holds = some a → a ∈ (o :: os).filterMap Operand.holds := fun a ha => List.mem_filterMap.2 ⟨o, by simp, ha⟩
    have hd' : ∀ a, a ∈ (o.holds.toList ++ done) ++ os.filterMap Operand.holds ↔ a ∈ done ++ (o :: os).filterMap Operand.holds := by
      intro a
      rw [List.filterMap_cons]
      cases o.holds with
      | none => simp
      | some x =>
        simp only [Option.toList_some, List.mem_append, List.mem_cons, List.not_mem_nil, or_false]
        tauto
    obtain ⟨⟨as, has, hmap, hmiss⟩, hsame⟩ := ih (fun o h => hg o (by simp [h])) (fun o h => hr o (by simp [h])) (fun o h => ht o (by simp [h]))
      (fun a ha => hd a ((hd' a).1 ha)) h7 (fun x hx => hw x (by simp [hx])) hk (fun ho hin => hx (by simp [ho]) (List.mem_append_right _ hin)) (by
        intro a ha p h8 h9
        have hlt := hd a (List.mem_append_right _ (hsub a ha))
        rw [foot p (by omega) (not_inF_of_apart h3 (inF_bytes.2 ⟨a, ha, h8, h9⟩))]
        exact hz a (hsub a ha) p h8 h9)
    have hkeep : ∀ a ∈ done, bitsAt v' a 8 = bitsAt v a 8 := by
      intro a ha
      rw [hsame a (List.mem_append_right _ ha)]
      refine bitsAt_congr fun p h8 h9 => foot p ?_ (not_inF_of_apart h2 (inF_bytes.2 ⟨a, ha, h8, h9⟩))
      have := hd a (List.mem_append_left _ ha)
      omega
    have hput : ∀ a, o.holds = some a → bitsAt v' a 8 = bitsAt b a 8 := by
      intro a ha
      rw [hsame a (List.mem_append_left _ (by simp [ha]))]
      refine bitsAt_congr fun p h8 h9 => ?_
      rw [BitVec.getLsbD_or, BitVec.getLsbD_and, hz a (hown a ha) p h8 h9]
      simp
    refine ⟨?_, hkeep⟩
    rw [regsOf_append]
    by_cases hm : ∃ a, o = .mirrorGpr a
    · obtain ⟨a, rfl⟩ := hm
      obtain ⟨rfl, n, rest, rfl, rfl, h⟩ := h
      have ha : a ∈ done := by simpa [Operand.views] using h6
      refine ⟨a :: as, ?_, ?_, fun x hx hn => hmiss x (by simpa [Operand.holds] using hx) (fun h => hn (by simp [h]))⟩
      · intro x hx
        rcases List.mem_cons.1 hx with rfl | hx
        · exact List.mem_append_left _ ha
        · exact (hd' x).1 (has x hx)
      · rw [List.map_cons, hmap, hkeep a ha, ← List.singleton_append (l := rest), regsOf_append, regsOf_reuse h]
        rfl
    have hl : o.loose = true := by
      cases o <;> first | exact (hm ⟨_, rfl⟩).elim | (simp only [Operand.views, Bool.and_eq_true] at h6; exact h6.1)
    rcases accepts_held hl h1 h hwo with ⟨x, hx', h8⟩ | ⟨h8, h9⟩
    · refine ⟨x :: as, ?_, by rw [List.map_cons, hmap, hput x hx', h8]; rfl, ?_⟩
      · intro y hy
        rcases List.mem_cons.1 hy with rfl | hy
        · exact List.mem_append_right _ (hown y hx')
        · exact (hd' y).1 (has y hy)
      · intro y hy hn
        rw [List.filterMap_cons, hx', List.mem_cons] at hy
        rcases hy with rfl | hy
        · exact (hn (by simp)).elim
        · exact hmiss y hy fun h => hn (by simp [h])
    · refine ⟨as, fun y hy => (hd' y).1 (has y hy), by rw [h8, hmap]; rfl, ?_⟩
      intro y hy hn
      obtain ⟨z, hz', he⟩ := List.mem_filterMap.1 hy
      rcases List.mem_cons.1 hz' with rfl | hz'
      · rw [hput y he, h9 y he]
      · exact hmiss y (List.mem_filterMap.2 ⟨z, hz', he⟩) hn

/-- The operands that look at nothing. -/
theorem sequence_free {f : Nat → Nat} (hf : Renaming f) {os : List Operand} (ho : ∀ o ∈ os, o.peeks = [] ∧ o.loose = true ∧ o.sole = true) {e : Env}
    {v v' : BitVec 64} {ks : List Kind} {k : Kind} {r : BitVec 32} (h : Sequence e os v ks k v' r) (hw : ∀ x ∈ ks, Writable x) (w : BitVec 64) :
    ∃ w', Sequence e os w (ks.map (renamed f)) (renamed f k) w' r := by
  induction h generalizing w with
  | nil => exact ⟨w, .nil⟩
  | @cons o os v b v' ks ks' k r r' h hs ih =>
    obtain ⟨h1, h2, h3⟩ := ho o (by simp)
    rw [accepts_agree (lost := [(0, 64)]) (v := v) (w := w) (by rw [h1]; rfl) (by
      intro p hp
      rw [BitVec.getLsbD_of_ge v p, BitVec.getLsbD_of_ge w p] <;>
      · by_contra hc
        exact hp ⟨(0, 64), by simp, by simp, by simp; omega⟩)] at h
    obtain ⟨b', h4, -⟩ := accepts_rename hf h2 h3 h (fun x hx => hw x (by simp [hx]))
    obtain ⟨w', h5⟩ := ih (fun o h => ho o (by simp [h])) (fun x hx => hw x (by simp [hx])) ((w &&& ~~~clears o) ||| b')
    refine ⟨w', ?_⟩
    rw [List.map_append]
    exact .cons (by rwa [headD_renamed]) h5

/-! ### Instructions -/

theorem table_renamable : (insnTable.all fun row => renamable [] row.operands && ((row.operands.filterMap Operand.holds).all fun a => [0, 8, 20, 28, 39].contains a) &&
    Field.clear (bytes (row.operands.filterMap Operand.holds)) (setBits row.opcode) && Field.clear (bytes (row.operands.filterMap Operand.holds)) [(16, 4)] &&
    (!row.operands.contains .uimmExtended || row.operands.all fun o => o.peeks == [] && o.loose && o.sole)) = true := by decide +kernel

theorem table_bytes {row : Insn} (hr : row ∈ insnTable) : renamable [] row.operands = true := by
  have ht := List.all_eq_true.1 table_renamable row hr
  simp only [Bool.and_eq_true] at ht
  exact ht.1.1.1.1

theorem holds_places {row : Insn} (hr : row ∈ insnTable) : ∀ a ∈ row.operands.filterMap Operand.holds, a ∈ [0, 8, 20, 28, 39] := by
  have ht := List.all_eq_true.1 table_renamable row hr
  simp only [Bool.and_eq_true] at ht
  intro a ha
  simpa using List.all_eq_true.1 ht.1.1.1.2 a ha

theorem holds_low {row : Insn} (hr : row ∈ insnTable) : ∀ a ∈ row.operands.filterMap Operand.holds, a ≤ 56 := by
  intro a ha
  have := holds_places hr a ha
  simp only [List.mem_cons, List.not_mem_nil, or_false] at this
  omega

/-- Guard and opcode leave the bytes of the registers alone. -/
theorem start_free {row : Insn} (hr : row ∈ insnTable) {g : Option (Nat × Bool)} {a p : Nat} (ha : a ∈ row.operands.filterMap Operand.holds) (h8 : a ≤ p)
    (h9 : p < a + 8) : (field 16 (guardBits g).toNat ||| row.opcode).getLsbD p = false := by
  have ht := List.all_eq_true.1 table_renamable row hr
  simp only [Bool.and_eq_true] at ht
  rw [BitVec.getLsbD_or, guardField_bit]
  have ho : row.opcode.getLsbD p = false := by
    have := not_inF_of_apart ht.1.1.2 (inF_bytes.2 ⟨a, ha, h8, h9⟩)
    rw [inF_setBits] at this
    simpa using this
  have hg : ¬ inF [(16, 4)] p := not_inF_of_apart ht.1.2 (inF_bytes.2 ⟨a, ha, h8, h9⟩)
  have hg : ¬ (16 ≤ p ∧ p < 20) := fun h => hg ⟨(16, 4), by simp, h⟩
  rw [ho, Bool.or_false]
  by_cases h16 : 16 ≤ p
  · rw [BitVec.getLsbD_of_ge _ (p - 16) (by omega)]
    simp
  · simp [h16]

theorem annots_regs {f : Nat → Nat} {as : List Annot} {ks : List Kind} (h : AnnotsText as ks) : ks.map (renamed f) = ks := by
  induction h with
  | nil => rfl
  | cons h hc hs ih =>
    rw [List.map_append, ih]
    congr 1
    cases h <;> rfl

theorem guard_regs {f : Nat → Nat} (g : Option (Nat × Bool)) : (guardTokens g).map (renamed f) = guardTokens g := by
  cases g <;> rfl

theorem annots_noregs {as : List Annot} {ks : List Kind} (h : AnnotsText as ks) : regsOf ks = [] := by
  induction h with
  | nil => rfl
  | cons h hc hs ih =>
    rw [regsOf_append, ih]
    cases h <;> rfl

theorem instr_regs {g : Option (Nat × Bool)} {m : Str} {as : List Annot} {ks ks' : List Kind} (h : AnnotsText as ks') :
    regsOf (guardTokens g ++ Kind.ident m :: (ks ++ ks' ++ [Kind.semicolon])) = regsOf ks := by
  rw [regsOf_append, ← List.singleton_append, regsOf_append, regsOf_append, regsOf_append, annots_noregs h]
  cases g <;> simp [regsOf, guardTokens]

/-- An instruction with its registers renamed. -/
theorem instr_rename {f : Nat → Nat} (hf : Renaming f) {e : Env} {ks : List Kind} {op : Op} (h : InstrText e ks op) (hw : ∀ x ∈ ks, Writable x) :
    ∃ op', InstrText e (ks.map (renamed f)) op' ∧ op'.reuse = op.reuse ∧ op'.sched = op.sched ∧
      (Kind.imm (2 ^ 20) ∉ ks → registers.Word f (regsOf ks) op.value op'.value) := by
  obtain ⟨g, row, hrow, ks, rfl, hr⟩ := C70_grammar.1 h
  clear h
  cases hr with | @mk ks ks' v r as hg ho ha
  have h1 := table_bytes hrow
  have ht := List.all_eq_true.1 table_renamable row hrow
  simp only [Bool.and_eq_true] at ht
  have h5 := ht.2
  have hcl : ks'.headD .semicolon = renamed f (ks'.headD .semicolon) := by
    have := annots_regs (f := f) ha
    cases ks' with
    | nil => rfl
    | cons x xs =>
      simp only [List.map_cons, List.cons.injEq] at this
      exact this.1.symm
  have hwk : ∀ x ∈ ks, Writable x := fun x hx => hw x (by simp [hx])
  have hnext : Writable (ks'.headD .semicolon) := by
    cases ks' with
    | nil => trivial
    | cons x xs => exact hw x (by simp)
  have build : ∀ w', Sequence e row.operands (field 16 (guardBits g).toNat ||| row.opcode) (ks.map (renamed f)) (renamed f (ks'.headD .semicolon)) w' r →
      InstrText e ((guardTokens g ++ Kind.ident row.mnemonic :: (ks ++ ks' ++ [Kind.semicolon])).map (renamed f)) ⟨w', r, BitVec.ofNat 32 (schedBits as)⟩ := by
    intro w' hs
    rw [← hcl] at hs
    refine C70_grammar.2 ⟨g, row, hrow, ks.map (renamed f) ++ ks', ?_, .mk hg hs ha⟩
    simp only [List.map_append, List.map_cons, guard_regs, annots_regs ha, renamed, List.map_nil]
  have strong : (.uimmExtended ∈ row.operands → Kind.imm (2 ^ 20) ∉ ks) → ∃ w', Sequence e row.operands (field 16 (guardBits g).toNat ||| row.opcode)
      (ks.map (renamed f)) (renamed f (ks'.headD .semicolon)) w' r ∧ registers.Word f (regsOf ks) v w' := by
    intro hx
    have hsm := holds_places hrow
    have hfree : ∀ a ∈ row.operands.filterMap Operand.holds, ∀ p, a ≤ p → p < a + 8 →
        (field 16 (guardBits g).toNat ||| row.opcode).getLsbD p = false ∧ (field 16 (guardBits g).toNat ||| row.opcode).getLsbD p = false := by
      intro a ha p h8 h9
      rw [and_self]
      exact start_free hrow ha h8 h9
    obtain ⟨w', h6, as, h7, h8⟩ := sequence_rename hf (done := []) (fun o h => table_grammatical row hrow o h) (fun o h => table_regular row hrow o h)
      (fun o h => (table_peeks row hrow o h).2) (fun a ha => holds_low hrow a (by simpa using ha)) h1 ho hwk hnext hx (w := field 16 (guardBits g).toNat ||| row.opcode) ⟨fun _ _ => rfl, by simp, hfree⟩
    obtain ⟨⟨bs, hb1, hb2, hb3⟩, -⟩ := sequence_held (done := []) (fun o h => table_grammatical row hrow o h) (fun o h => table_regular row hrow o h)
      (fun o h => (table_peeks row hrow o h).2) (fun a ha => holds_low hrow a (by simpa using ha)) h1 ho hwk hnext hx (fun a ha p h8 h9 => (hfree a ha p h8 h9).1)
    refine ⟨w', h6, bs, fun a ha => hsm a (by simpa using hb1 a ha), hb2, ?_, ?_⟩
    · rw [← hb2, List.map_map]
      exact List.map_congr_left fun a ha => h8.byte a ((h7 a).2 (hb1 a ha))
    · intro p hp
      by_cases hq : inF (bytes as) p
      · obtain ⟨a, ha, h9⟩ := inF_bytes.1 hq
        have hb : a ∉ bs := fun h => hp a h h9
        have h10 := hb3 a (by simpa using (h7 a).1 ha) hb
        have h11 := h8.byte a ha
        rw [h10, (hf.zero 255 (by decide)).2 rfl, ← h10] at h11
        have h12 := congrArg (fun n => n.testBit (p - a)) h11
        simp only [bitsAt_testBit] at h12
        rw [show a + (p - a) = p by omega] at h12
        simpa [show p - a < 8 by omega] using h12
      · exact (h8.same p hq).symm
  by_cases hx : .uimmExtended ∈ row.operands → Kind.imm (2 ^ 20) ∉ ks
  · obtain ⟨w', h6, h7⟩ := strong hx
    exact ⟨_, build w' h6, rfl, rfl, fun _ => by rw [instr_regs ha]; exact h7⟩
  · obtain ⟨hin, hx⟩ := not_forall.1 hx
    simp only [Bool.or_eq_true, Bool.not_eq_true', List.contains_eq_mem, decide_eq_false_iff_not] at h5
    have h5 := h5.resolve_left (not_not_intro hin)
    obtain ⟨w', h6⟩ := sequence_free hf (fun o ho => by
      have := List.all_eq_true.1 h5 o ho
      simp only [Bool.and_eq_true, beq_iff_eq] at this
      exact ⟨this.1.1, this.1.2, this.2⟩) ho hwk (field 16 (guardBits g).toNat ||| row.opcode)
    exact ⟨_, build w' h6, rfl, rfl, fun hn => (hx fun hin => hn (List.mem_append_right _ (List.mem_cons_of_mem _ (List.mem_append_left _ (List.mem_append_left _ hin))))).elim⟩

end Nxas
