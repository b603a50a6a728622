import Verif.Lemmas.Rename
/-
Instructions with other predicates.
-/

namespace Nxas

open Spec

/-- The token with the predicate renamed. -/
def Spec.traded (f : Nat → Nat) : Kind → Kind
  | .pred n b => .pred (f n) b
  | k => k

/-- A renaming of predicates: the constant predicate keeps its name and no other predicate gets it. -/
structure Spec.Trade (f : Nat → Nat) : Prop where
  small : ∀ n ≤ 7, f n ≤ 7
  const : ∀ n ≤ 7, f n = 7 ↔ n = 7

/-- What is stored at this place instead of `n`. -/
def stored (f : Nat → Nat) (a n : Nat) : Nat := if a = 41 then 7 - f (7 - n) else f n

/-- Predicates are held in three bits, that of `LDG` as the difference to 7. -/
def Spec.predicates : Layout := ⟨[0, 3, 12, 16, 29, 39, 41, 44, 45, 48, 51], 3, fun a x => if a = 41 then 7 - x else x⟩

/-- The predicates of these tokens. -/
def Spec.predsOf (ks : List Kind) : List Nat := ks.filterMap fun
  | .pred n _ => some n
  | _ => none

/-! ### Operands -/

/-- Where the operand stores its predicate. -/
def Operand.spot : Operand → Option Nat
  | .pred a _ => some a
  | .invertedPred a => some a
  | _ => none

/-- The three bits at these positions. -/
def triples (as : List Nat) : List Field := as.map (·, 3)

theorem inF_triples {as : List Nat} {p : Nat} : inF (triples as) p ↔ ∃ a ∈ as, a ≤ p ∧ p < a + 3 := by
  simp only [inF, triples, List.mem_map]
  constructor
  · rintro ⟨-, ⟨a, h, rfl⟩, h'⟩; exact ⟨a, h, h'⟩
  · rintro ⟨a, h, h'⟩; exact ⟨_, ⟨a, h, rfl⟩, h'⟩

/-- The operand stores its predicate in the way its place has it. -/
def Operand.proper : Operand → Bool
  | .pred a _ => a ≤ 60 && a != 41
  | .invertedPred a => a == 41
  | o => (Nxas.shapes o).all fun p => p.all (· != .pred)

theorem traded_eq {f : Nat → Nat} {k x : Kind} (hx : ∀ n b, x ≠ .pred n b) : traded f k = x ↔ k = x := by
  cases k with
  | pred n b =>
    simp only [traded]
    exact ⟨fun h => (hx _ _ h.symm).elim, fun h => (hx _ _ h.symm).elim⟩
  | _ => rfl

theorem headD_traded (f : Nat → Nat) (ks : List Kind) (k : Kind) : (ks.map (traded f)).headD (traded f k) = traded f (ks.headD k) := by
  cases ks <;> rfl

/-! ### The token that follows -/

theorem accepts_beyond {o : Operand} {e : Env} {v b : BitVec 64} {ks : List Kind} {m n : Nat} {s : Bool} {r : BitVec 32} (h : Accepts e v o ks (.pred n s) b r) :
    Accepts e v o ks (.pred m s) b r := by
  induction o generalizing v ks b with
  | abs a inner ih =>
    rcases h with ⟨ks1, b1, h1, h2, h⟩ | ⟨h1, h⟩
    · exact .inl ⟨ks1, b1, h1, h2, h⟩
    · refine .inr ⟨?_, ih h⟩
      cases ks with
      | nil => simp
      | cons x xs => exact h1
  | f2fRounding =>
    rw [Accepts] at h ⊢
    by_cases hv : bitsAt v 8 2 = bitsAt v 10 2 <;> simp only [hv, if_true, if_false] at h ⊢
    · simpa using h
    · simpa [modifier, NoEntry] using h
  | texsMode a =>
    rw [Accepts] at h ⊢
    obtain ⟨h0, lod, dc, x, y, h1, h2, h3, h4⟩ := h
    refine ⟨h0, lod, dc, x, y, h1, h2, ?_, ?_⟩
    · rcases h3 with h3 | h3 | ⟨h3, h5, h6, h7⟩
      · exact .inl h3
      · exact .inr (.inl h3)
      · cases dc with
        | nil => exact .inr (.inr ⟨h3, by simp, by simp, h7⟩)
        | cons d ds => exact .inr (.inr ⟨h3, h5, h6, h7⟩)
    · rcases h4 with h4 | ⟨h4, h5, h6⟩
      · exact .inl h4
      · exact .inr ⟨h4, by simp, h6⟩
  | _ =>
    first
    | exact h
    | simpa [Accepts, optWord, register, reuse, modifier, NoEntry] using h

theorem accepts_then {o : Operand} {e : Env} {v b : BitVec 64} {ks : List Kind} {k : Kind} {r : BitVec 32} (f : Nat → Nat) (h : Accepts e v o ks k b r) :
    Accepts e v o ks (traded f k) b r := by
  cases k with
  | pred n s => exact accepts_beyond h
  | _ => exact h

/-! ### The tokens -/

/-- The bits of an operand after renaming. -/
def Shifted (f : Nat → Nat) (a : Option Nat) (b b' : BitVec 64) : Prop :=
  (∀ p, (∀ x, a = some x → ¬ (x ≤ p ∧ p < x + 3)) → b'.getLsbD p = b.getLsbD p) ∧ ∀ x, a = some x → bitsAt b' x 3 = stored f x (bitsAt b x 3)

theorem shifted_or {f : Nat → Nat} {a m n : Nat} (ha : a ≤ 60) (hn : n ≤ 7) (hm : m ≤ 7) (hmn : m = stored f a n) {c : BitVec 64}
    (hc : bitsAt c a 3 = 0) : Shifted f (some a) (field a n ||| c) (field a m ||| c) := by
  constructor
  · intro p hp
    have hp := hp a rfl
    have h0 : ∀ m ≤ 7, (field a m).getLsbD p = false := by
      intro m hm
      cases hb : (field a m).getLsbD p with
      | false => rfl
      | true => exact (hp (field_inF (w := 3) (by omega) hb)).elim
    rw [BitVec.getLsbD_or, BitVec.getLsbD_or, h0 _ hn, h0 _ hm]
  · rintro x hx
    cases hx
    rw [bitsAt_or, bitsAt_or, hc, Nat.or_zero, Nat.or_zero, bitsAt_field (by omega) (by omega), bitsAt_field (by omega) (by omega), hmn]

theorem Shifted.refl {f : Nat → Nat} (b : BitVec 64) : Shifted f none b b := ⟨fun _ _ => rfl, fun _ h => by cases h⟩

theorem fits_traded {f : Nat → Nat} {q : Pat} {k : Kind} (hq : q ≠ .pred) (h : q.fits k) : traded f k = k := by
  cases k with
  | pred n s =>
    cases q with
    | tok a => exact absurd (show plain (.pred n s) = true from h.2) Bool.false_ne_true
    | pred => exact (hq rfl).elim
    | imm | out => obtain ⟨_, h, -⟩ := h; cases h
    | _ => obtain ⟨_, h⟩ := h; cases h
  | _ => rfl

theorem fitsAll_traded {f : Nat → Nat} {p : List Pat} {ks : List Kind} (hp : p.all (· != .pred) = true) (h : fitsAll p ks) : ks.map (traded f) = ks := by
  induction p generalizing ks with
  | nil => cases ks with
    | nil => rfl
    | cons => exact h.elim
  | cons q p ih => cases ks with
    | nil => exact h.elim
    | cons k ks =>
      simp only [List.all_cons, Bool.and_eq_true, bne_iff_ne, ne_eq] at hp
      rw [List.map_cons, ih hp.2 h.2, fits_traded hp.1 h.1]

theorem accepts_trade {f : Nat → Nat} (hf : Trade f) {o : Operand} (ho : o.proper = true) {e : Env} {v b : BitVec 64} {ks : List Kind}
    {k : Kind} {r : BitVec 32} (h : Accepts e v o ks k b r) (hw : ∀ x ∈ ks, Writable x) :
    ∃ b', Accepts e v o (ks.map (traded f)) (traded f k) b' r ∧ Shifted f o.spot b b' := by
  by_cases h1 : ∃ a n, o = .pred a n
  · obtain ⟨a, n, rfl⟩ := h1
    obtain ⟨rfl, p, s, rfl, hs, rfl⟩ := h
    simp only [Operand.proper, Bool.and_eq_true, decide_eq_true_eq, bne_iff_ne] at ho
    have hp : p ≤ 7 := hw (.pred p s) (by simp)
    refine ⟨_, ⟨rfl, f p, s, rfl, hs, rfl⟩, shifted_or ho.1 hp (hf.small p hp) (by simp [stored, ho.2]) (bitsAt_apart (u := 1) ?_ (.inr (by omega)))⟩
    cases s <;> decide
  by_cases h2 : ∃ a, o = .invertedPred a
  · obtain ⟨a, rfl⟩ := h2
    obtain ⟨rfl, p, rfl, rfl⟩ := h
    simp only [Operand.proper, beq_iff_eq] at ho
    subst ho
    have hp : p ≤ 7 := hw (.pred p false) (by simp)
    refine ⟨_, ⟨rfl, f p, rfl, rfl⟩, ?_⟩
    have := shifted_or (f := f) (a := 41) (m := 7 - f p) (n := 7 - p) (by decide) (by omega) (by omega)
      (by simp only [stored, if_true]; rw [show 7 - (7 - p) = p by omega]) (c := 0) (bitsAt_zero 41 3)
    simpa [Operand.spot] using this
  have hs : o.spot = none := by cases o <;> first | rfl | exact (h1 ⟨_, _, rfl⟩).elim | exact (h2 ⟨_, rfl⟩).elim
  have hl : ((Nxas.shapes o).all fun p => p.all (· != .pred)) = true := by
    cases o <;> first | exact ho | exact (h1 ⟨_, _, rfl⟩).elim | exact (h2 ⟨_, rfl⟩).elim
  obtain ⟨p, hp, hfit⟩ := shapes_of h
  rw [fitsAll_traded (List.all_eq_true.1 hl p hp) hfit, hs]
  exact ⟨b, accepts_then f h, .refl b⟩

theorem predsOf_append (a b : List Kind) : predsOf (a ++ b) = predsOf a ++ predsOf b := List.filterMap_append ..

theorem fits_nopreds {p : List Pat} {ks : List Kind} (hp : p.all (· != .pred) = true) (h : fitsAll p ks) : predsOf ks = [] := by
  induction p generalizing ks with
  | nil => cases ks with
    | nil => rfl
    | cons => exact h.elim
  | cons q p ih => cases ks with
    | nil => exact h.elim
    | cons k ks =>
      simp only [List.all_cons, Bool.and_eq_true, bne_iff_ne, ne_eq] at hp
      have h1 := fits_traded (f := fun n => n + 1) hp.1 h.1
      have h2 := ih hp.2 h.2
      cases k with
      | pred n s => simp [traded] at h1
      | _ => exact h2

/-- The predicate of the operand is at its place. -/
theorem accepts_spot {o : Operand} (ho : o.proper = true) {e : Env} {v b : BitVec 64} {ks : List Kind}
    {k : Kind} {r : BitVec 32} (h : Accepts e v o ks k b r) (hw : ∀ x ∈ ks, Writable x) : predsOf ks = o.spot.toList.map (predicates.at b) := by
  by_cases h1 : ∃ a n, o = .pred a n
  · obtain ⟨a, n, rfl⟩ := h1
    obtain ⟨rfl, p, s, rfl, hs, rfl⟩ := h
    simp only [Operand.proper, Bool.and_eq_true, decide_eq_true_eq, bne_iff_ne] at ho
    have hp : p ≤ 7 := hw (.pred p s) (by simp)
    simp only [Operand.spot, Option.toList_some, List.map_cons, List.map_nil, Layout.at, predicates, if_neg ho.2]
    rw [bitsAt_or, bitsAt_field (by omega) (by omega), bitsAt_apart (u := 1) (by cases s <;> decide) (.inr (by omega)), Nat.or_zero]
    rfl
  by_cases h2 : ∃ a, o = .invertedPred a
  · obtain ⟨a, rfl⟩ := h2
    obtain ⟨rfl, p, rfl, rfl⟩ := h
    simp only [Operand.proper, beq_iff_eq] at ho
    subst ho
    have hp : p ≤ 7 := hw (.pred p false) (by simp)
    simp only [Operand.spot, Option.toList_some, List.map_cons, List.map_nil, Layout.at, predicates, if_true]
    rw [bitsAt_field (by omega) (by decide), show 7 - (7 - p) = p by omega]
    rfl
  have hs : o.spot = none := by cases o <;> first | rfl | exact (h1 ⟨_, _, rfl⟩).elim | exact (h2 ⟨_, rfl⟩).elim
  have hl : ((Nxas.shapes o).all fun p => p.all (· != .pred)) = true := by
    cases o <;> first | exact ho | exact (h1 ⟨_, _, rfl⟩).elim | exact (h2 ⟨_, rfl⟩).elim
  obtain ⟨p, hp, hfit⟩ := shapes_of h
  rw [fits_nopreds (List.all_eq_true.1 hl p hp) hfit, hs]
  rfl

/-! ### Sequences of operands -/

/-- The predicates of these operands can be renamed, those at `done` being set before. -/
def tradable (done : List Nat) : List Operand → Bool
  | [] => true
  | o :: os => o.proper && Field.clear (triples done) o.fields && Field.clear (triples (os.filterMap Operand.spot)) o.fields &&
    Field.clear o.peeks (triples done) &&
    tradable (o.spot.toList ++ done) os

/-- The words at some place within the operands. -/
structure Amid (f : Nat → Nat) (done : List Nat) (os : List Operand) (v w : BitVec 64) : Prop where
  same : Agree (triples done) v w
  bits : ∀ a ∈ done, bitsAt w a 3 = stored f a (bitsAt v a 3)
  free : ∀ a ∈ os.filterMap Operand.spot, ∀ p, a ≤ p → p < a + 3 → v.getLsbD p = false ∧ w.getLsbD p = false

theorem writable_traded {f : Nat → Nat} (hf : Trade f) {k : Kind} (h : Writable k) : Writable (traded f k) := by
  cases k with
  | pred n s => exact hf.small n h
  | _ => exact h

theorem sequence_trade {f : Nat → Nat} (hf : Trade f) {os : List Operand} {done : List Nat} (hg : ∀ o ∈ os, o.grammatical = true)
    (hr : ∀ o ∈ os, o.regular = true) (ht : ∀ o ∈ os, o.target = false ∨ o = .label) (hd : ∀ a ∈ done ++ os.filterMap Operand.spot, a ≤ 60)
    (hc : tradable done os = true) {e : Env} {v v' w : BitVec 64}
    {ks : List Kind} {k : Kind} {r : BitVec 32} (h : Sequence e os v ks k v' r) (hw : ∀ x ∈ ks, Writable x) (hk : Writable k)
    (hm : Amid f done os v w) :
    ∃ w', Sequence e os w (ks.map (traded f)) (traded f k) w' r ∧ ∃ as, (∀ a, a ∈ as ↔ a ∈ done ++ os.filterMap Operand.spot) ∧ Amid f as [] v' w' := by
  induction h generalizing w done with
  | nil => exact ⟨w, .nil, done, fun a => by simp, hm⟩
  | @cons o os v b v' ks ks' k r r' h hs ih =>
    simp only [tradable, Bool.and_eq_true] at hc
    obtain ⟨⟨⟨⟨h1, h2⟩, h3⟩, h6⟩, h7⟩ := hc
    have hwo : ∀ x ∈ ks, Writable x := fun x hx => hw x (by simp [hx])
    have hkn : Writable (ks'.headD k) := by
      cases ks' with
      | nil => exact hk
      | cons x xs => exact hw x (by simp)
    have hv := h
    rw [accepts_agree h6 hm.same] at hv
    obtain ⟨b', hb1, hb2⟩ := accepts_trade hf h1 hv hwo
    have foot1 : ∀ p, p < 64 → ¬ inF o.fields p → ((v &&& ~~~clears o) ||| b).getLsbD p = v.getLsbD p := fun p =>
      accepts_foot (hg o (by simp)) (hr o (by simp)) (ht o (by simp)) h hwo hkn
    have foot2 : ∀ p, p < 64 → ¬ inF o.fields p → ((w &&& ~~~clears o) ||| b').getLsbD p = w.getLsbD p := fun p =>
      accepts_foot (hg o (by simp)) (hr o (by simp)) (ht o (by simp)) hb1 (fun x hx => by
        obtain ⟨y, hy, rfl⟩ := List.mem_map.1 hx
        exact writable_traded hf (hwo y hy)) (writable_traded hf hkn)
    have hlow : ∀ a ∈ done, ∀ p, a ≤ p → p < a + 3 → p < 64 ∧ ¬ inF o.fields p := by
      intro a ha p h8 h9
      exact ⟨by have := hd a (by simp [ha]); omega, not_inF_of_apart h2 (inF_triples.2 ⟨a, ha, h8, h9⟩)⟩
    have hlow' : ∀ a ∈ os.filterMap Operand.spot, ∀ p, a ≤ p → p < a + 3 → p < 64 ∧ ¬ inF o.fields p := by
      intro a ha p h8 h9
      refine ⟨?_, not_inF_of_apart h3 (inF_triples.2 ⟨a, ha, h8, h9⟩)⟩
      have := hd a (by
        rw [List.mem_append, List.mem_filterMap]
        obtain ⟨x, hx, he⟩ := List.mem_filterMap.1 ha
        exact .inr ⟨x, by simp [hx], he⟩)
      omega
    have hsub : ∀ a ∈ os.filterMap Operand.spot, a ∈ (o :: os).filterMap Operand.spot := by
      intro a ha
      obtain ⟨x, hx, he⟩ := List.mem_filterMap.1 ha
      exact List.mem_filterMap.2 ⟨x, by simp [hx], he⟩
    have hown : ∀ a, o.spot = some a → a ∈ (o :: os).filterMap Operand.spot := fun a ha => List.mem_filterMap.2 ⟨o, by simp, ha⟩
    have hmid : Amid f (o.spot.toList ++ done) os ((v &&& ~~~clears o) ||| b) ((w &&& ~~~clears o) ||| b') := by
      constructor
      · intro p hp
        have hpd : ¬ inF (triples done) p := by
          rw [inF_triples] at hp ⊢
          rintro ⟨a, ha, h8⟩
          exact hp ⟨a, by simp [ha], h8⟩
        rw [BitVec.getLsbD_or, BitVec.getLsbD_or, BitVec.getLsbD_and, BitVec.getLsbD_and, hm.same p hpd, hb2.1 p]
        intro x hx h8
        refine hp (inF_triples.2 ⟨x, by simp [hx], h8⟩)
      · intro a ha
        rcases List.mem_append.1 ha with ha | ha
        · have ha : o.spot = some a := by simpa using ha
          have hz := hm.free a (hown a ha)
          have key : ∀ x c : BitVec 64, (∀ p, a ≤ p → p < a + 3 → x.getLsbD p = false) → bitsAt ((x &&& ~~~clears o) ||| c) a 3 = bitsAt c a 3 := by
            intro x c hx
            refine bitsAt_congr fun p h8 h9 => ?_
            rw [BitVec.getLsbD_or, BitVec.getLsbD_and, hx p h8 h9]
            simp
          rw [key w b' fun p h8 h9 => (hz p h8 h9).2, key v b fun p h8 h9 => (hz p h8 h9).1, hb2.2 a ha]
        · rw [bitsAt_congr fun p h8 h9 => foot2 p (hlow a ha p h8 h9).1 (hlow a ha p h8 h9).2,
            bitsAt_congr (v := (v &&& ~~~clears o) ||| b) fun p h8 h9 => foot1 p (hlow a ha p h8 h9).1 (hlow a ha p h8 h9).2]
          exact hm.bits a ha
      · intro a ha p h8 h9
        have := hlow' a ha p h8 h9
        rw [foot1 p this.1 this.2, foot2 p this.1 this.2]
        exact hm.free a (hsub a ha) p h8 h9
    have hd' : ∀ a, a ∈ (o.spot.toList ++ done) ++ os.filterMap Operand.spot ↔ a ∈ done ++ (o :: os).filterMap Operand.spot := by
      intro a
      rw [List.filterMap_cons]
      cases o.spot with
      | none => simp
      | some x =>
        simp only [Option.toList_some, List.mem_append, List.mem_cons, List.not_mem_nil, or_false]
        tauto
    obtain ⟨w', hs', as, has, hfin⟩ := ih (fun o h => hg o (by simp [h])) (fun o h => hr o (by simp [h])) (fun o h => ht o (by simp [h]))
      (fun a ha => hd a ((hd' a).1 ha)) h7 (fun x hx => hw x (by simp [hx])) hk hmid
    refine ⟨w', ?_, as, fun a => (has a).trans (hd' a), hfin⟩
    rw [List.map_append]
    exact .cons (by rwa [headD_traded]) hs'

/-- Every predicate is at its place. -/
theorem sequence_spot {os : List Operand} {done : List Nat} (hg : ∀ o ∈ os, o.grammatical = true)
    (hr : ∀ o ∈ os, o.regular = true) (ht : ∀ o ∈ os, o.target = false ∨ o = .label) (hd : ∀ a ∈ done ++ os.filterMap Operand.spot, a ≤ 60)
    (hc : tradable done os = true) {e : Env} {v v' : BitVec 64}
    {ks : List Kind} {k : Kind} {r : BitVec 32} (h : Sequence e os v ks k v' r) (hw : ∀ x ∈ ks, Writable x) (hk : Writable k)
    (hz : ∀ a ∈ os.filterMap Operand.spot, ∀ p, a ≤ p → p < a + 3 → v.getLsbD p = false) :
    predsOf ks = (os.filterMap Operand.spot).map (predicates.at v') ∧ ∀ a ∈ done, bitsAt v' a 3 = bitsAt v a 3 := by
  induction h generalizing done with
  | nil => exact ⟨rfl, fun _ _ => rfl⟩
  | @cons o os v b v' ks ks' k r r' h hs ih =>
    simp only [tradable, Bool.and_eq_true] at hc
    obtain ⟨⟨⟨⟨h1, h2⟩, h3⟩, h6⟩, h7⟩ := hc
    have hwo : ∀ x ∈ ks, Writable x := fun x hx => hw x (by simp [hx])
    have hkn : Writable (ks'.headD k) := by
      cases ks' with
      | nil => exact hk
      | cons x xs => exact hw x (by simp)
    have foot : ∀ p, p < 64 → ¬ inF o.fields p → ((v &&& ~~~clears o) ||| b).getLsbD p = v.getLsbD p := fun p =>
      accepts_foot (hg o (by simp)) (hr o (by simp)) (ht o (by simp)) h hwo hkn
    have hsub : ∀ a ∈ os.filterMap Operand.spot, a ∈ (o :: os).filterMap Operand.spot := by
      intro a ha
      obtain ⟨x, hx, he⟩ := List.mem_filterMap.1 ha
      exact List.mem_filterMap.2 ⟨x, by simp [hx], he⟩
    have hown : ∀ a, o.spot = some a → a ∈ (o :: os).filterMap Operand.spot := fun a ha => List.mem_filterMap.2 ⟨o, by simp, ha⟩
    have hd' : ∀ a, a ∈ (o.spot.toList ++ done) ++ os.filterMap Operand.spot ↔ a ∈ done ++ (o :: os).filterMap Operand.spot := by
      intro a
      rw [List.filterMap_cons]
      cases o.spot with
      | none => simp
      | some x =>
        simp only [Option.toList_some, List.mem_append, List.mem_cons, List.not_mem_nil, or_false]
        tauto
    obtain ⟨hmap, hsame⟩ := ih (fun o h => hg o (by simp [h])) (fun o h => hr o (by simp [h])) (fun o h => ht o (by simp [h]))
      (fun a ha => hd a ((hd' a).1 ha)) h7 (fun x hx => hw x (by simp [hx])) hk (by
        intro a ha p h8 h9
        have hlt := hd a (List.mem_append_right _ (hsub a ha))
        rw [foot p (by omega) (not_inF_of_apart h3 (inF_triples.2 ⟨a, ha, h8, h9⟩))]
        exact hz a (hsub a ha) p h8 h9)
    have hkeep : ∀ a ∈ done, bitsAt v' a 3 = bitsAt v a 3 := by
      intro a ha
      rw [hsame a (List.mem_append_right _ ha)]
      refine bitsAt_congr fun p h8 h9 => foot p ?_ (not_inF_of_apart h2 (inF_triples.2 ⟨a, ha, h8, h9⟩))
      have := hd a (List.mem_append_left _ ha)
      omega
    have hput : ∀ a, o.spot = some a → bitsAt v' a 3 = bitsAt b a 3 := by
      intro a ha
      rw [hsame a (List.mem_append_left _ (by simp [ha]))]
      refine bitsAt_congr fun p h8 h9 => ?_
      rw [BitVec.getLsbD_or, BitVec.getLsbD_and, hz a (hown a ha) p h8 h9]
      simp
    refine ⟨?_, hkeep⟩
    rw [predsOf_append]
    rw [accepts_spot h1 h hwo, hmap, List.filterMap_cons]
    cases ho : o.spot with
    | none => rfl
    | some x =>
      simp only [Option.toList_some, List.map_cons, List.map_nil, List.singleton_append, Layout.at, predicates, hput x ho]

/-! ### Instructions -/

theorem table_tradable : (insnTable.all fun row => tradable [16] row.operands &&
    ((row.operands.filterMap Operand.spot).all fun a => [0, 3, 12, 29, 39, 41, 44, 45, 48, 51].contains a) &&
    Field.clear (triples (16 :: row.operands.filterMap Operand.spot)) (setBits row.opcode) &&
    Field.clear (triples (row.operands.filterMap Operand.spot)) [(16, 4)]) = true := by decide +kernel

theorem annots_preds {f : Nat → Nat} {as : List Annot} {ks : List Kind} (h : AnnotsText as ks) : ks.map (traded f) = ks := by
  induction h with
  | nil => rfl
  | cons h hc hs ih =>
    rw [List.map_append, ih]
    congr 1
    cases h <;> rfl

theorem annots_nopreds {as : List Annot} {ks : List Kind} (h : AnnotsText as ks) : predsOf ks = [] := by
  induction h with
  | nil => rfl
  | cons h hc hs ih =>
    rw [predsOf_append, ih]
    cases h <;> rfl

theorem instr_preds {g : Option (Nat × Bool)} {m : Str} {as : List Annot} {ks ks' : List Kind} (h : AnnotsText as ks') :
    predsOf (guardTokens g ++ Kind.ident m :: (ks ++ ks' ++ [Kind.semicolon])) = predsOf (guardTokens g) ++ predsOf ks := by
  rw [predsOf_append, ← List.singleton_append, predsOf_append, predsOf_append, predsOf_append, annots_nopreds h]
  simp [predsOf]

/-- The guard with its predicate renamed. -/
def tradedGuard (f : Nat → Nat) (g : Option (Nat × Bool)) : Option (Nat × Bool) := g.map fun x => (f x.1, x.2)

/-- Where the predicate of the guard is. -/
def guardPlace : Option (Nat × Bool) → List Nat
  | none => []
  | some _ => [16]

theorem guard_preds {f : Nat → Nat} (g : Option (Nat × Bool)) : (guardTokens g).map (traded f) = guardTokens (tradedGuard f g) := by
  cases g <;> rfl

theorem guard_low : ∀ p < 8, ∀ n, bitsAt (field 16 (guardBits (some (p, n))).toNat) 16 3 = p ∧ (guardBits (some (p, n))).getLsbD 3 = n := by decide

theorem guard_trade {f : Nat → Nat} (hf : Trade f) {g : Option (Nat × Bool)} (hg : ∀ x ∈ guardTokens g, Writable x) :
    bitsAt (field 16 (guardBits (tradedGuard f g)).toNat) 16 3 = f (bitsAt (field 16 (guardBits g).toNat) 16 3) ∧
    (guardBits (tradedGuard f g)).getLsbD 3 = (guardBits g).getLsbD 3 := by
  cases g with
  | none =>
    rw [show bitsAt (field 16 (guardBits none).toNat) 16 3 = 7 by decide, (hf.const 7 (by decide)).2 rfl]
    exact ⟨by simp only [tradedGuard, Option.map_none]; decide, rfl⟩
  | some x =>
    obtain ⟨p, n⟩ := x
    have hp : p ≤ 7 := hg (.pred p n) (by simp [guardTokens])
    have h1 := guard_low p (by omega) n
    have h2 := guard_low (f p) (by have := hf.small p hp; omega) n
    exact ⟨by rw [h1.1]; exact h2.1, by rw [h1.2]; exact h2.2⟩

theorem table_places {row : Insn} (hrow : row ∈ insnTable) : ∀ a ∈ row.operands.filterMap Operand.spot, a ∈ [0, 3, 12, 29, 39, 41, 44, 45, 48, 51] := by
  have ht := List.all_eq_true.1 table_tradable row hrow
  simp only [Bool.and_eq_true] at ht
  intro a ha
  simpa using List.all_eq_true.1 ht.1.1.2 a ha

theorem table_vacant {row : Insn} (hrow : row ∈ insnTable) :
    ∀ a ∈ 16 :: row.operands.filterMap Operand.spot, ∀ p, a ≤ p → p < a + 3 → row.opcode.getLsbD p = false := by
  have ht := List.all_eq_true.1 table_tradable row hrow
  simp only [Bool.and_eq_true] at ht
  intro a ha p h8 h9
  have := not_inF_of_apart ht.1.2 (inF_triples.2 ⟨a, ha, h8, h9⟩)
  rw [inF_setBits] at this
  simpa using this

theorem table_opcode {row : Insn} (hrow : row ∈ insnTable) : bitsAt row.opcode 16 3 = 0 := by
  rw [bitsAt_congr (v' := 0) (fun i h8 h9 => by rw [table_vacant hrow 16 (by simp) i h8 h9]; simp)]
  exact bitsAt_zero 16 3

theorem table_unset {row : Insn} (hrow : row ∈ insnTable) (g' : Option (Nat × Bool)) : ∀ a ∈ row.operands.filterMap Operand.spot, ∀ p, a ≤ p → p < a + 3 →
    (field 16 (guardBits g').toNat ||| row.opcode).getLsbD p = false := by
  have ht := List.all_eq_true.1 table_tradable row hrow
  simp only [Bool.and_eq_true] at ht
  intro a ha p h8 h9
  rw [BitVec.getLsbD_or, guardField_bit, table_vacant hrow a (by simp [ha]) p h8 h9]
  have hg : ¬ inF [(16, 4)] p := not_inF_of_apart ht.2 (inF_triples.2 ⟨a, ha, h8, h9⟩)
  have hg : ¬ (16 ≤ p ∧ p < 20) := fun h => hg ⟨(16, 4), by simp, h⟩
  rw [Bool.or_false]
  by_cases h16 : 16 ≤ p
  · rw [BitVec.getLsbD_of_ge _ (p - 16) (by omega)]
    simp
  · simp [h16]

/-- The words before the operands are read. -/
theorem amid_start {f : Nat → Nat} (hf : Trade f) {row : Insn} (hrow : row ∈ insnTable) {g : Option (Nat × Bool)} (hwg : ∀ x ∈ guardTokens g, Writable x) :
    Amid f [16] row.operands (field 16 (guardBits g).toNat ||| row.opcode) (field 16 (guardBits (tradedGuard f g)).toNat ||| row.opcode) := by
  have hgt := guard_trade hf hwg
  have hz := table_opcode hrow
  constructor
  · intro p hp
    rw [BitVec.getLsbD_or, BitVec.getLsbD_or, guardField_bit, guardField_bit]
    congr 1
    have hp : ¬ (16 ≤ p ∧ p < 19) := fun h => hp (inF_triples.2 ⟨16, by simp, h⟩)
    by_cases h16 : 16 ≤ p
    · by_cases h19 : p = 19
      · subst h19
        rw [hgt.2]
      · rw [BitVec.getLsbD_of_ge _ (p - 16) (by omega), BitVec.getLsbD_of_ge _ (p - 16) (by omega)]
    · simp [h16]
  · intro a ha
    obtain rfl := List.mem_singleton.1 ha
    rw [bitsAt_or, bitsAt_or, hz, Nat.or_zero, Nat.or_zero, hgt.1]
    rfl
  · exact fun a ha p h8 h9 => ⟨table_unset hrow g a ha p h8 h9, table_unset hrow _ a ha p h8 h9⟩

theorem table_low {row : Insn} (hrow : row ∈ insnTable) : ∀ a ∈ [16] ++ row.operands.filterMap Operand.spot, a ≤ 60 := by
  intro a ha
  rcases List.mem_append.1 ha with ha | ha
  · have := List.mem_singleton.1 ha
    omega
  · have := table_places hrow a ha
    simp only [List.mem_cons, List.not_mem_nil, or_false] at this
    omega

/-- An instruction with its predicates renamed. -/
theorem instr_trade {f : Nat → Nat} (hf : Trade f) {e : Env} {ks : List Kind} {op : Op} (h : InstrText e ks op) (hw : ∀ x ∈ ks, Writable x) :
    ∃ op', InstrText e (ks.map (traded f)) op' ∧ op'.reuse = op.reuse ∧ op'.sched = op.sched ∧ predicates.Word f (predsOf ks) op.value op'.value := by
  obtain ⟨g, row, hrow, ks, rfl, hr⟩ := C70_grammar.1 h
  clear h
  cases hr with | @mk ks ks' v r as hg ho ha
  have ht := List.all_eq_true.1 table_tradable row hrow
  simp only [Bool.and_eq_true] at ht
  have h1 := ht.1.1.1
  have hcl : ks'.headD .semicolon = traded f (ks'.headD .semicolon) := by
    have := annots_preds (f := f) ha
    cases ks' with
    | nil => rfl
    | cons x xs =>
      simp only [List.map_cons, List.cons.injEq] at this
      exact this.1.symm
  have hwk : ∀ x ∈ ks, Writable x := fun x hx => hw x (by simp [hx])
  have hwg : ∀ x ∈ guardTokens g, Writable x := fun x hx => hw x (by simp [hx])
  have hnext : Writable (ks'.headD .semicolon) := by
    cases ks' with
    | nil => trivial
    | cons x xs => exact hw x (by simp)
  have hsm := table_places hrow
  have hz := table_opcode hrow
  have hstart := amid_start hf hrow hwg
  have hlow := table_low hrow
  obtain ⟨w', h6, bs, h7, h8⟩ := sequence_trade hf (done := [16]) (fun o h => table_grammatical row hrow o h) (fun o h => table_regular row hrow o h)
    (fun o h => (table_peeks row hrow o h).2) hlow h1 ho hwk hnext hstart
  rw [← hcl] at h6
  obtain ⟨hb1, hb2⟩ := sequence_spot (done := [16]) (fun o h => table_grammatical row hrow o h) (fun o h => table_regular row hrow o h)
    (fun o h => (table_peeks row hrow o h).2) hlow h1 ho hwk hnext (table_unset hrow g)
  refine ⟨⟨w', r, BitVec.ofNat 32 (schedBits as)⟩, C70_grammar.2 ⟨tradedGuard f g, row, hrow, ks.map (traded f) ++ ks', ?_, .mk ?_ h6 ha⟩, rfl, rfl, ?_⟩
  · simp only [List.map_append, List.map_cons, guard_preds, annots_preds ha, traded, List.map_nil]
  · intro hrf p n hp
    cases g with
    | none => cases hp
    | some x =>
      obtain ⟨q, m⟩ := x
      cases hp
      have := hg hrf q m rfl
      exact (hf.const q (by omega)).2 this
  · rw [instr_preds ha]
    have hread : ∀ a ∈ bs, predicates.at w' a = f (predicates.at v a) := by
      intro a ha
      have := h8.bits a ha
      have hlt := bitsAt_lt v a 3
      have hle := hf.small (7 - bitsAt v a 3) (by omega)
      simp only [Layout.at, predicates, this, stored]
      split
      · omega
      · rfl
    have h16 : bitsAt v 16 3 = bitsAt (field 16 (guardBits g).toNat) 16 3 := by
      rw [hb2 16 (by simp), bitsAt_or, hz, Nat.or_zero]
    refine ⟨guardPlace g ++ row.operands.filterMap Operand.spot, ?_, ?_, ?_, ?_⟩
    · intro a ha
      have hin : a ∈ 16 :: row.operands.filterMap Operand.spot := by
        cases g with
        | none => exact List.mem_cons_of_mem _ ha
        | some x => exact ha
      rcases List.mem_cons.1 hin with rfl | ha
      · decide
      · have := hsm a ha
        simp only [predicates, List.mem_cons, List.not_mem_nil, or_false] at this ⊢
        omega
    · rw [List.map_append, hb1]
      congr 1
      cases g with
      | none => rfl
      | some x =>
        obtain ⟨p, n⟩ := x
        have hp : p ≤ 7 := hwg (.pred p n) (by simp [guardTokens])
        rw [(guard_low p (by omega) n).1] at h16
        simp [guardPlace, Layout.at, predicates, h16, guardTokens, predsOf]
    · rw [hb1, List.map_append, List.map_append]
      congr 1
      · cases g with
        | none => rfl
        | some x =>
          obtain ⟨p, n⟩ := x
          have hp : p ≤ 7 := hwg (.pred p n) (by simp [guardTokens])
          rw [(guard_low p (by omega) n).1] at h16
          have h17 := hread 16 ((h7 16).2 (by simp))
          have h18 : predicates.at v 16 = p := by simp [Layout.at, predicates, h16]
          simp only [guardPlace, List.map_cons, List.map_nil, h17, h18, guardTokens, predsOf, List.filterMap_cons, List.filterMap_nil]
      · rw [List.map_map]
        exact List.map_congr_left fun a ha => hread a ((h7 a).2 (by simp [ha]))
    · intro p hp
      by_cases hq : inF (triples bs) p
      · obtain ⟨a, ha, h9⟩ := inF_triples.1 hq
        have hin := (h7 a).1 ha
        rcases List.mem_append.1 hin with h10 | h10
        · obtain rfl := List.mem_singleton.1 h10
          cases g with
          | some x => exact (hp 16 (by simp [guardPlace]) h9).elim
          | none =>
            have h11 := h8.bits 16 ha
            have h12 : bitsAt v 16 3 = 7 := by rw [h16]; decide
            rw [show stored f 16 (bitsAt v 16 3) = f (bitsAt v 16 3) by simp [stored], h12, (hf.const 7 (by decide)).2 rfl, ← h12] at h11
            have h13 := congrArg (fun n => n.testBit (p - 16)) h11
            simp only [bitsAt_testBit] at h13
            rw [show 16 + (p - 16) = p by omega] at h13
            simpa [show p - 16 < 3 by omega] using h13
        · exact (hp a (List.mem_append_right _ h10) h9).elim
      · exact (h8.same p hq).symm

end Nxas
