import Verif.Lemmas.Rename
import Verif.Props.Link
/-
Images that differ in places only.
-/

namespace Nxas

open Spec

/-- The instructions have the same flags and annotations, and differ in the places only. -/
def Alike (l : Layout) (f : Nat → Nat) (P : Prop) (xs : List Nat) (a b : Op) : Prop :=
  b.reuse = a.reuse ∧ b.sched = a.sched ∧ (P → l.Word f xs a.value b.value)

/-- The same for lists of instructions. -/
inductive AlikeAll (l : Layout) (f : Nat → Nat) (P : Prop) : List Nat → List Op → List Op → Prop
  | nil : AlikeAll l f P [] [] []
  | cons {xs ys : List Nat} {a b : Op} {as bs : List Op} (h : Alike l f P xs a b) (hs : AlikeAll l f P ys as bs) : AlikeAll l f P (xs ++ ys) (a :: as) (b :: bs)

theorem word_same (l : Layout) (f : Nat → Nat) (v : BitVec 64) : l.Word f [] v v := ⟨[], by simp, rfl, rfl, fun _ _ => rfl⟩

theorem image_nil (l : Layout) (f : Nat → Nat) : l.Image f [] [] [] := ⟨[], by simp, rfl, rfl, fun _ _ _ => rfl⟩

theorem image_quad {l : Layout} {f : Nat → Nat} {xs ys zs us : List Nat} {c v1 v2 v3 w1 w2 w3 : BitVec 64} {vs ws : List (BitVec 64)}
    (h1 : l.Word f xs v1 w1) (h2 : l.Word f ys v2 w2) (h3 : l.Word f zs v3 w3) (h : l.Image f us vs ws) :
    l.Image f (xs ++ (ys ++ (zs ++ us))) (c :: v1 :: v2 :: v3 :: vs) (c :: w1 :: w2 :: w3 :: ws) := by
  obtain ⟨a1, p1, q1, r1, s1⟩ := h1
  obtain ⟨a2, p2, q2, r2, s2⟩ := h2
  obtain ⟨a3, p3, q3, r3, s3⟩ := h3
  obtain ⟨as, p, q, r, s⟩ := h
  refine ⟨a1.map (fun a => (1, a)) ++ (a2.map (fun a => (2, a)) ++ (a3.map (fun a => (3, a)) ++ as.map fun a => (a.1 + 4, a.2))), ?_, ?_, ?_, ?_⟩
  · intro a ha
    simp only [List.mem_append, List.mem_map] at ha
    simp only [List.length_cons]
    rcases ha with ⟨x, hx, rfl⟩ | ⟨x, hx, rfl⟩ | ⟨x, hx, rfl⟩ | ⟨x, hx, rfl⟩
    · exact ⟨by simp, by simp, p1 x hx⟩
    · exact ⟨by simp, by simp, p2 x hx⟩
    · exact ⟨by simp, by simp, p3 x hx⟩
    · have := p x hx
      exact ⟨by simp; omega, by simp; omega, this.2.2⟩
  · simp only [List.map_append, List.map_map]
    rw [← q1, ← q2, ← q3, ← q]
    rfl
  · simp only [List.map_append, List.map_map]
    rw [← r1, ← r2, ← r3, ← r]
    rfl
  · intro i p hp
    match i with
    | 0 => rfl
    | 1 => exact s1 p fun a ha h => hp (1, a) (by simp [ha]) ⟨rfl, h⟩
    | 2 => exact s2 p fun a ha h => hp (2, a) (by simp [ha]) ⟨rfl, h⟩
    | 3 => exact s3 p fun a ha h => hp (3, a) (by simp [ha]) ⟨rfl, h⟩
    | i + 4 =>
      refine s i p fun a ha h => hp (a.1 + 4, a.2) ?_ ⟨by simp [h.1], h.2⟩
      simp only [List.mem_append, List.mem_map]
      exact .inr (.inr (.inr ⟨a, ha, rfl⟩))

theorem image_pad {l : Layout} {f : Nat → Nat} {xs : List Nat} {vs ws c p : List (BitVec 64)} (h : l.Image f xs vs ws) (hl : ws.length = vs.length)
    (hc : c.length % 4 = 0) : l.Image f xs (c ++ vs ++ p) (c ++ ws ++ p) := by
  obtain ⟨as, h1, h2, h3, h4⟩ := h
  have get : ∀ (us : List (BitVec 64)) (i : Nat), i < us.length → (c ++ us ++ p).getD (i + c.length) 0 = us.getD i 0 := by
    intro us i hi
    simp only [List.getD_eq_getElem?_getD, List.getElem?_append, List.length_append]
    rw [if_pos (by omega), if_neg (by omega), Nat.add_sub_cancel]
  refine ⟨as.map fun a => (a.1 + c.length, a.2), ?_, ?_, ?_, ?_⟩
  · intro a ha
    obtain ⟨x, hx, rfl⟩ := List.mem_map.1 ha
    have := h1 x hx
    simp only [List.length_append]
    exact ⟨by omega, by omega, this.2.2⟩
  · rw [← h2, List.map_map]
    refine List.map_congr_left fun a ha => ?_
    simp only [Function.comp_apply, get vs a.1 (h1 a ha).1]
  · rw [← h3, List.map_map]
    refine List.map_congr_left fun a ha => ?_
    simp only [Function.comp_apply, get ws a.1 (hl ▸ (h1 a ha).1)]
  · intro i q hq
    by_cases hi : i < c.length
    · simp only [List.getD_eq_getElem?_getD, List.getElem?_append, List.length_append, if_pos hi, if_pos (show i < c.length + vs.length by omega),
        if_pos (show i < c.length + ws.length by omega)]
    · by_cases hv : i < c.length + vs.length
      · have := h4 (i - c.length) q (fun a ha h => hq (a.1 + c.length, a.2) (List.mem_map.2 ⟨a, ha, rfl⟩) ⟨by simp only; omega, h.2⟩)
        rw [← get vs (i - c.length) (by omega), ← get ws (i - c.length) (by omega), show i - c.length + c.length = i by omega] at this
        exact this
      · simp only [List.getD_eq_getElem?_getD, List.getElem?_append, List.length_append, hl, if_neg hv]

theorem slot_alike {l : Layout} {f : Nat → Nat} {P : Prop} {xs : List Nat} {a b : Op} (h : Alike l f P xs a b) : slot (some a) = slot (some b) := by
  simp only [slot, h.1, h.2.1]

theorem control_alike {a b c a' b' c' : Option Op} (h1 : slot a = slot a') (h2 : slot b = slot b') (h3 : slot c = slot c') :
    Spec.control a b c = Spec.control a' b' c' := by
  unfold Spec.control
  rw [h1, h2, h3]

theorem AlikeAll.inv_nil {l : Layout} {f : Nat → Nat} {P : Prop} {xs : List Nat} {bs : List Op} (h : AlikeAll l f P xs [] bs) : xs = [] ∧ bs = [] := by
  cases h; exact ⟨rfl, rfl⟩

theorem AlikeAll.inv {l : Layout} {f : Nat → Nat} {P : Prop} {xs : List Nat} {a : Op} {as bs : List Op} (h : AlikeAll l f P xs (a :: as) bs) :
    ∃ ys zs b bs', xs = ys ++ zs ∧ bs = b :: bs' ∧ Alike l f P ys a b ∧ AlikeAll l f P zs as bs' := by
  cases h with | cons h hs => exact ⟨_, _, _, _, rfl, rfl, h, hs⟩

theorem groups_alike {l : Layout} {f : Nat → Nat} {P : Prop} : ∀ {xs : List Nat} {a b : List Op}, AlikeAll l f P xs a b → (groups b).length = (groups a).length ∧
    (∀ i, i % 4 = 0 → (groups b)[i]? = (groups a)[i]?) ∧ (P → l.Image f xs (groups a) (groups b))
  | _, [], _, h => by
    obtain ⟨rfl, rfl⟩ := h.inv_nil
    exact ⟨rfl, fun _ _ => rfl, fun _ => image_nil l f⟩
  | _, [a], _, h => by
    obtain ⟨xs, _, b, _, rfl, rfl, h1, h⟩ := h.inv
    obtain ⟨rfl, rfl⟩ := h.inv_nil
    simp only [groups, control_alike (slot_alike h1) (rfl : slot none = slot none) (rfl : slot none = slot none)]
    refine ⟨by simp only [List.length_cons], ?_, fun hp => ?_⟩
    · intro i hi
      match i, hi with
      | 0, _ => simp only [List.getElem?_cons_zero]
      | _ + 4, _ => simp only [List.getElem?_cons_succ, List.getElem?_nil]
    · exact image_quad (h1.2.2 hp) (word_same l f _) (word_same l f _) (image_nil l f)
  | _, [a, b], _, h => by
    obtain ⟨xs, _, a', _, rfl, rfl, h1, h⟩ := h.inv
    obtain ⟨ys, _, b', _, rfl, rfl, h2, h⟩ := h.inv
    obtain ⟨rfl, rfl⟩ := h.inv_nil
    simp only [groups, control_alike (slot_alike h1) (slot_alike h2) (rfl : slot none = slot none)]
    refine ⟨by simp only [List.length_cons], ?_, fun hp => ?_⟩
    · intro i hi
      match i, hi with
      | 0, _ => simp only [List.getElem?_cons_zero]
      | _ + 4, _ => simp only [List.getElem?_cons_succ, List.getElem?_nil]
    · exact image_quad (h1.2.2 hp) (h2.2.2 hp) (word_same l f _) (image_nil l f)
  | _, a :: b :: c :: as, _, h => by
    obtain ⟨xs, _, a', _, rfl, rfl, h1, h⟩ := h.inv
    obtain ⟨ys, _, b', _, rfl, rfl, h2, h⟩ := h.inv
    obtain ⟨zs, us, c', cs, rfl, rfl, h3, h⟩ := h.inv
    obtain ⟨h4, h5, h6⟩ := groups_alike h
    simp only [groups, control_alike (slot_alike h1) (slot_alike h2) (slot_alike h3)]
    refine ⟨by simp only [List.length_cons, h4], ?_, fun hp => ?_⟩
    · intro i hi
      match i, hi with
      | 0, _ => simp only [List.getElem?_cons_zero]
      | i + 4, hi => simpa only [List.getElem?_cons_succ] using h5 i (by omega)
    · exact image_quad (h1.2.2 hp) (h2.2.2 hp) (h3.2.2 hp) (h6 hp)

theorem every_fourth {c a b p : List (BitVec 64)} (hc : c.length = 32) (hl : a.length = b.length) (h : ∀ i, i % 4 = 0 → a[i]? = b[i]?) (i : Nat)
    (hi : i % 4 = 0) : (c ++ a ++ p)[i]? = (c ++ b ++ p)[i]? := by
  simp only [List.getElem?_append, List.length_append, hc, hl]
  split
  · split
    · rfl
    · exact h _ (by omega)
  · rfl

/-- Images of instructions that differ in places only. -/
theorem image_alike {l : Layout} {f : Nat → Nat} {P : Prop} {lab : Str → Option Nat} {xs : List Nat} {ops ops' : List Op} {o : Opts}
    {ws : List (BitVec 64)} (h : AlikeAll l f P xs ops ops') (hi : Image lab o (groups ops) ws) :
    ∃ ws', Image lab o (groups ops') ws' ∧ ws'.length = ws.length ∧ (∀ i, i % 4 = 0 → ws'[i]? = ws[i]?) ∧ (P → l.Image f xs ws ws') := by
  obtain ⟨h1, h2, h3⟩ := groups_alike h
  cases hi with
  | raw h4 h5 => exact ⟨_, .raw h4 h5, h1, h2, h3⟩
  | @dksh entry h4 h5 h6 h7 h8 =>
    refine ⟨_, .dksh h4 h5 h6 h7 h8, ?_, ?_, ?_⟩
    · simp only [List.length_append, List.length_replicate, h1]
    · intro i hi
      rw [h1]
      exact every_fourth (c := dkshControl o (groups ops).length entry) rfl h1 h2 i hi
    · intro hx
      rw [h1]
      exact image_pad (h3 hx) h1 (show (dkshControl o (groups ops).length entry).length % 4 = 0 by rw [show (dkshControl o (groups ops).length entry).length = 32 from rfl])

end Nxas
