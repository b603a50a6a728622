import Verif.Lemmas.Trade
import Verif.Lemmas.Solid
/-
Assertions and the names of predicates.
-/

namespace Nxas

open Spec

theorem clear_subset {fs fs' gs : List Field} (hs : ∀ x ∈ fs', x ∈ fs) (h : Field.clear fs gs = true) : Field.clear fs' gs = true :=
  List.all_eq_true.2 fun x hx => List.all_eq_true.1 h x (hs x hx)

theorem tradable_split {done : List Nat} {os os' : List Operand} {o : Operand} (h : tradable done (os ++ o :: os') = true) :
    tradable done os = true ∧ ∃ ds : List Nat, (∀ a, a ∈ ds ↔ a ∈ done ++ os.filterMap Operand.spot) ∧ Field.clear (triples ds) o.fields = true ∧
      Field.clear o.peeks (triples ds) = true := by
  induction os generalizing done with
  | nil =>
    simp only [List.nil_append, tradable, Bool.and_eq_true] at h
    exact ⟨rfl, done, by simp, h.1.1.1.2, h.1.2⟩
  | cons x xs ih =>
    simp only [List.cons_append, tradable, Bool.and_eq_true] at h ⊢
    obtain ⟨h1, ds, h2, h3⟩ := ih h.2
    refine ⟨⟨⟨⟨h.1.1.1, ?_⟩, h.1.2⟩, h1⟩, ds, ?_, h3⟩
    · refine clear_subset ?_ h.1.1.2
      intro y hy
      simp only [triples, List.filterMap_append, List.map_append, List.mem_append] at hy ⊢
      exact .inl hy
    · intro a
      rw [h2, List.filterMap_cons]
      cases x.spot with
      | none => simp
      | some y =>
        simp only [Option.toList_some, List.mem_append, List.mem_cons, List.not_mem_nil, or_false]
        tauto

theorem entry_traded {f : Nat → Nat} {p : Str} {t : List Str} {k : Kind} {i : Nat} (h : Entry p t k i) : traded f k = k := by
  cases k with
  | pred n s => exact absurd h (by simp [Entry])
  | _ => rfl

/-- A bit of a field that is out of the way of the lost ones stays. -/
theorem meets_agree {lost : List Field} {v w : BitVec 64} (ha : Agree lost v w) {fs : List Field} (hc : Field.clear lost fs = true)
    {a n u : Nat} (hn : n < 2 ^ u) (hf : (a, u) ∈ fs) (h : v &&& field a n ≠ 0) : w &&& field a n ≠ 0 := by
  intro hz
  apply h
  apply BitVec.eq_of_getLsbD_eq
  intro p hp
  have hz := congrArg (fun x => x.getLsbD p) hz
  simp only [BitVec.getLsbD_and] at hz ⊢
  cases hb : (field a n).getLsbD p with
  | false => simp
  | true =>
    have h1 : ¬ inF lost p := fun h => not_inF_of_apart hc h ⟨(a, u), hf, field_inF hn hb⟩
    rw [hb] at hz
    rw [ha p h1]
    exact hz

theorem operandClash_trade {f : Nat → Nat} {ds : List Nat} {v w : BitVec 64} (ha : Agree (triples ds) v w) {o : Operand}
    (hc : Field.clear (triples ds) o.fields = true) (hp : Field.clear o.peeks (triples ds) = true) {ks : List Kind} (hw : ∀ x ∈ ks, Writable x)
    (h : OperandClash v o ks) : OperandClash w o (ks.map (traded f)) := by
  cases h with
  | sign h => exact .sign (meets_agree ha hc (u := 1) (by decide) (by simp [Operand.fields]) h)
  | word h => exact .word (meets_agree ha hc (u := 1) (by decide) (by simp [Operand.fields]) h)
  | @register a n h =>
    have : n ≤ 255 := hw (.reg n) (by simp)
    exact .register (meets_agree ha hc (u := 8) (by omega) (by simp [Operand.fields]) h)
  | @operation a i k hk h =>
    have := hk.lt
    rw [List.map_cons, entry_traded hk]
    exact .operation hk (meets_agree ha hc (u := 2) (by simpa using this) (by simp [Operand.fields]) h)
  | @part a ta short i shorts bytes k next hk h =>
    have hl := hk.lt
    rw [List.map_cons, List.map_cons, entry_traded hk]
    refine .part ?_ (meets_agree ha hc (lt_width (m := max (shorts.length - 1) (bytes.length - 1)) ?_) (by simp [Operand.fields]) h)
    · rwa [← bitsAt_agree ha hp (a := ta) (n := 3) (by simp [Operand.peeks])]
    · split at hl <;> omega

/-- A clash is one whatever the predicates are. -/
theorem insnClash_trade {f : Nat → Nat} (hf : Trade f) {e : Env} {ks : List Kind} (h : InsnClash e ks) (hw : ∀ x ∈ ks, Writable x) :
    InsnClash e (ks.map (traded f)) := by
  cases h with | @mk g row os os' o ks more k v r hr hg hs ho h
  have ht := List.all_eq_true.1 table_tradable row hr
  simp only [Bool.and_eq_true] at ht
  have h1 := ht.1.1.1
  rw [hs] at h1
  obtain ⟨h2, ds, h3, h4, h5⟩ := tradable_split h1
  have hin : ∀ o ∈ os, o ∈ row.operands := fun x hx => by rw [hs]; exact List.mem_append_left _ hx
  have hsub : ∀ a ∈ os.filterMap Operand.spot, a ∈ row.operands.filterMap Operand.spot := by
    intro a ha
    obtain ⟨x, hx, he⟩ := List.mem_filterMap.1 ha
    exact List.mem_filterMap.2 ⟨x, hin x hx, he⟩
  have hst := amid_start hf hr (g := g) (fun x hx => hw x (by simp [hx]))
  obtain ⟨w', h6, bs, h7, h8⟩ := sequence_trade hf (done := [16]) (fun o h => table_grammatical row hr o (hin o h))
    (fun o h => table_regular row hr o (hin o h)) (fun o h => (table_peeks row hr o (hin o h)).2) (fun a ha => table_low hr a (by
      rcases List.mem_append.1 ha with ha | ha
      · exact List.mem_append_left _ ha
      · exact List.mem_append_right _ (hsub a ha))) h2 ho (fun x hx => hw x (by simp [hx])) (hw k (by simp))
    ⟨hst.same, hst.bits, fun a ha => hst.free a (hsub a ha)⟩
  have hag : Agree (triples ds) v w' := by
    intro p hp
    refine h8.same p fun hq => hp ?_
    obtain ⟨a, ha, h9⟩ := inF_triples.1 hq
    exact inF_triples.2 ⟨a, (h3 a).2 ((h7 a).1 ha), h9⟩
  have h9 := operandClash_trade (f := f) hag h4 h5 (fun x hx => hw x (by
    simp only [List.mem_append, List.mem_cons] at hx ⊢
    tauto)) h
  rw [List.map_cons] at h9
  simp only [List.map_append, List.map_cons, guard_preds, traded]
  refine .mk hr ?_ hs h6 h9
  intro hrf p n hp
  cases g with
  | none => cases hp
  | some x =>
    obtain ⟨q, m⟩ := x
    cases hp
    have := hg hrf q m rfl
    exact (hf.const q (by omega)).2 this

theorem splits_trade {f : Nat → Nat} {ks : List Kind} {us : List (List Kind)} (h : Splits ks us) :
    Splits (ks.map (traded f)) (us.map fun u => u.map (traded f)) := by
  induction h with
  | done => exact .done
  | @insn k u rest us hk hs _ ih =>
    simp only [List.map_cons, List.map_append, List.map_nil]
    refine .insn ?_ ?_ ih
    · cases k <;> first | exact hk | simp [traded, IsOptionWord]
    · intro hm
      rw [← List.map_cons] at hm
      obtain ⟨x, hx, he⟩ := List.mem_map.1 hm
      rw [traded_eq (by simp)] at he
      exact hs (he ▸ hx)
  | @option w vs rest us hw hv _ ih =>
    simp only [List.map_cons, List.map_append]
    exact .option hw (by rw [List.length_map]; exact hv) ih

theorem splits_mem {ks : List Kind} {us : List (List Kind)} (h : Splits ks us) : ∀ u ∈ us, ∀ x ∈ u, x ∈ ks := by
  induction h with
  | done => simp
  | insn _ _ _ ih =>
    intro v hv x hx
    rcases List.mem_cons.1 hv with rfl | hv
    · simp only [List.mem_append, List.mem_cons, List.not_mem_nil, or_false] at hx ⊢
      tauto
    · have := ih v hv x hx
      simp [this]
  | option _ _ _ ih =>
    intro v hv x hx
    have := ih v hv x hx
    simp [this]

theorem map_traded_back {f g : Nat → Nat} (hg : ∀ n ≤ 7, g (f n) = n) {ks : List Kind} (hw : ∀ x ∈ ks, Writable x) :
    (ks.map (traded f)).map (traded g) = ks := by
  rw [List.map_map]
  conv_rhs => rw [← List.map_id ks]
  apply List.map_congr_left
  intro k hk
  have := hw _ hk
  cases k with
  | pred n s => simp only [Function.comp_apply, traded, id_eq, hg n this]
  | _ => rfl

theorem unsound_trade {f : Nat → Nat} (hf : Trade f) {u : List Kind} (hw : ∀ x ∈ u, Writable x) (h : Unsound u) : Unsound (u.map (traded f)) := by
  obtain ⟨e, ks, h1, h2⟩ := h
  exact ⟨e, _, h1.map _, insnClash_trade hf h2 fun x hx => hw x (h1.subset hx)⟩

end Nxas
