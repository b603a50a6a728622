import Verif.Lemmas.TradeClash
/-
Assertions and the names of registers.
-/

namespace Nxas

open Spec

theorem renamable_split {done : List Nat} {os os' : List Operand} {o : Operand} (h : renamable done (os ++ o :: os') = true) :
    renamable done os = true ∧ (∀ x ∈ os, Field.clear (bytes o.holds.toList) x.trim = true) ∧
      ∃ ds : List Nat, (∀ a, a ∈ ds ↔ a ∈ done ++ os.filterMap Operand.holds) ∧ Field.clear (bytes ds) o.trim = true ∧ o.views ds = true := by
  induction os generalizing done with
  | nil =>
    simp only [List.nil_append, renamable, Bool.and_eq_true] at h
    exact ⟨rfl, by simp, done, by simp, h.1.1.1.1.1.2, h.1.2⟩
  | cons x xs ih =>
    simp only [List.cons_append, renamable, Bool.and_eq_true] at h ⊢
    obtain ⟨h1, h2, ds, h3, h4⟩ := ih h.2
    have hsub : ∀ y ∈ bytes (xs.filterMap Operand.holds), y ∈ bytes ((xs ++ o :: os').filterMap Operand.holds) := by
      intro y hy
      simp only [bytes, List.filterMap_append, List.map_append, List.mem_append] at hy ⊢
      exact .inl hy
    refine ⟨⟨⟨⟨⟨⟨h.1.1.1.1.1, clear_subset hsub h.1.1.1.1.2⟩, h.1.1.1.2⟩, ?_⟩, h.1.2⟩, h1⟩, ?_, ds, ?_, h4⟩
    · refine List.all_eq_true.2 fun y hy => ?_
      have h5 := List.all_eq_true.1 h.1.1.2 y hy
      rw [List.all_eq_true] at h5 ⊢
      exact fun z hz => h5 z (hsub z hz)
    · intro y hy
      rcases List.mem_cons.1 hy with rfl | hy
      · refine clear_subset ?_ h.1.1.1.1.2
        intro z hz
        simp only [bytes, List.filterMap_append, List.filterMap_cons, List.map_append, List.mem_append] at hz ⊢
        right
        cases he : o.holds with
        | none => rw [he] at hz; cases hz
        | some a => rw [he] at hz; simp only [Option.toList_some, List.map_cons, List.map_nil, List.mem_singleton] at hz; simp [hz]
      · exact h2 y hy
    · intro a
      rw [h3, List.filterMap_cons]
      cases x.holds with
      | none => simp
      | some y =>
        simp only [Option.toList_some, List.mem_append, List.mem_cons, List.not_mem_nil, or_false]
        tauto

/-- The bits no operand is for stay. -/
theorem sequence_spare {os : List Operand} (hg : ∀ o ∈ os, o.grammatical = true) (hr : ∀ o ∈ os, o.regular = true)
    (ht : ∀ o ∈ os, o.target = false ∨ o = .label) {e : Env} {v v' : BitVec 64} {ks : List Kind} {k : Kind} {r : BitVec 32}
    (h : Sequence e os v ks k v' r) (hw : ∀ x ∈ ks, Writable x) (hk : Writable k) (hx : Kind.imm (2 ^ 20) ∉ ks) {p : Nat} (hp : p < 64)
    (hf : ∀ o ∈ os, ¬ inF o.trim p) : v'.getLsbD p = v.getLsbD p := by
  induction h with
  | nil => rfl
  | @cons o os v b v' ks ks' k r r' h hs ih =>
    have hkn : Writable (ks'.headD k) := by
      cases ks' with
      | nil => exact hk
      | cons x xs => exact hw x (by simp)
    rw [ih (fun o h => hg o (by simp [h])) (fun o h => hr o (by simp [h])) (fun o h => ht o (by simp [h])) (fun x hx => hw x (by simp [hx])) hk
      (fun h => hx (List.mem_append_right _ h)) (fun o h => hf o (by simp [h]))]
    exact accepts_trim (hg o (by simp)) (hr o (by simp)) (ht o (by simp)) h (fun x hx => hw x (by simp [hx])) hkn
      (fun _ h => hx (List.mem_append_left _ h)) hp (hf o (by simp))

theorem entry_renamed {f : Nat → Nat} {p : Str} {t : List Str} {k : Kind} {i : Nat} (h : Entry p t k i) : renamed f k = k := by
  cases k with
  | reg n => exact absurd h (by simp [Entry])
  | _ => rfl

theorem operandClash_rename {f : Nat → Nat} {ds : List Nat} {v w : BitVec 64} (ha : Agree (bytes ds) v w) {o : Operand}
    (hc : Field.clear (bytes ds) o.trim = true) (hv : o.views ds = true)
    (hz : ∀ a, o.holds = some a → ∀ p, a ≤ p → p < a + 8 → v.getLsbD p = false) {ks : List Kind} (hw : ∀ x ∈ ks, Writable x)
    (h : OperandClash v o ks) : OperandClash w o (ks.map (renamed f)) := by
  cases h with
  | sign h => exact .sign (meets_agree ha hc (u := 1) (by decide) (by simp [Operand.trim, Operand.fields]) h)
  | word h => exact .word (meets_agree ha hc (u := 1) (by decide) (by simp [Operand.trim, Operand.fields]) h)
  | @register a n h =>
    have hn : n ≤ 255 := hw (.reg n) (by simp)
    refine (h ?_).elim
    apply BitVec.eq_of_getLsbD_eq
    intro p hp
    rw [BitVec.getLsbD_and]
    cases hb : (field a n).getLsbD p with
    | false => simp
    | true =>
      have h1 := field_inF (w := 8) (by omega) hb
      rw [hz a rfl p h1.1 h1.2]
      simp
  | @operation a i k hk h =>
    have := hk.lt
    rw [List.map_cons, entry_renamed hk]
    exact .operation hk (meets_agree ha hc (u := 2) (by simpa using this) (by simp [Operand.trim, Operand.fields]) h)
  | @part a ta short i shorts bytes k next hk h =>
    have hl := hk.lt
    rw [List.map_cons, List.map_cons, entry_renamed hk]
    refine .part ?_ (meets_agree ha hc (lt_width (m := max (shorts.length - 1) (bytes.length - 1)) ?_) (by simp [Operand.trim, Operand.fields]) h)
    · simp only [Operand.views, Bool.and_eq_true] at hv
      rwa [← bitsAt_agree ha hv.2 (a := ta) (n := 3) (by simp [Operand.peeks])]
    · split at hl <;> omega

/-- A clash is one whatever the registers are. -/
theorem insnClash_rename {f : Nat → Nat} (hf : Renaming f) {e : Env} {ks : List Kind} (h : InsnClash e ks) (hw : ∀ x ∈ ks, Writable x)
    (hx : Kind.imm (2 ^ 20) ∉ ks) : InsnClash e (ks.map (renamed f)) := by
  cases h with | @mk g row os os' o ks more k v r hr hg hs ho h
  have h1 := table_bytes hr
  rw [hs] at h1
  obtain ⟨h2, h3, ds, h4, h5, h6⟩ := renamable_split h1
  have hin : ∀ o ∈ os, o ∈ row.operands := fun x hx => by rw [hs]; exact List.mem_append_left _ hx
  have hsub : ∀ a ∈ os.filterMap Operand.holds, a ∈ row.operands.filterMap Operand.holds := by
    intro a ha
    obtain ⟨x, hx, he⟩ := List.mem_filterMap.1 ha
    exact List.mem_filterMap.2 ⟨x, hin x hx, he⟩
  have hxk : Kind.imm (2 ^ 20) ∉ ks := fun h => hx (List.mem_append_right _ (List.mem_cons_of_mem _ (List.mem_append_left _ h)))
  have hwk : ∀ x ∈ ks, Writable x := fun x hx => hw x (by simp [hx])
  have hkk : Writable k := hw k (by simp)
  obtain ⟨w', h7, as, h8, h9⟩ := sequence_rename hf (done := []) (fun o h => table_grammatical row hr o (hin o h))
    (fun o h => table_regular row hr o (hin o h)) (fun o h => (table_peeks row hr o (hin o h)).2)
    (fun a ha => holds_low hr a (hsub a (by simpa using ha))) h2 ho hwk hkk (fun _ => hxk)
    (w := field 16 (guardBits g).toNat ||| row.opcode)
    ⟨fun _ _ => rfl, by simp, fun a ha p h8 h9 => by
      rw [and_self]
      exact start_free hr (hsub a ha) h8 h9⟩
  have hag : Agree (bytes ds) v w' := by
    intro p hp
    refine h9.same p fun hq => hp ?_
    obtain ⟨a, ha, h10⟩ := inF_bytes.1 hq
    exact inF_bytes.2 ⟨a, (h4 a).2 ((h8 a).1 ha), h10⟩
  have hz : ∀ a, o.holds = some a → ∀ p, a ≤ p → p < a + 8 → v.getLsbD p = false := by
    intro a ha p h10 h11
    have hrow : a ∈ row.operands.filterMap Operand.holds := List.mem_filterMap.2 ⟨o, by rw [hs]; simp, ha⟩
    have := holds_low hr a hrow
    rw [sequence_spare (fun o h => table_grammatical row hr o (hin o h)) (fun o h => table_regular row hr o (hin o h))
      (fun o h => (table_peeks row hr o (hin o h)).2) ho hwk hkk hxk (p := p) (by omega)
      (fun x hx => not_inF_of_apart (h3 x hx) (inF_bytes.2 ⟨a, by simp [ha], h10, h11⟩))]
    exact start_free hr hrow h10 h11
  have h12 := operandClash_rename (f := f) hag h5 h6 hz (fun x hx => hw x (by
    simp only [List.mem_append, List.mem_cons] at hx ⊢
    tauto)) h
  rw [List.map_cons] at h12
  simp only [List.map_append, List.map_cons, guard_regs, renamed]
  exact .mk hr hg hs h7 h12

theorem splits_rename {f : Nat → Nat} {ks : List Kind} {us : List (List Kind)} (h : Splits ks us) :
    Splits (ks.map (renamed f)) (us.map fun u => u.map (renamed f)) := by
  induction h with
  | done => exact .done
  | @insn k u rest us hk hs _ ih =>
    simp only [List.map_cons, List.map_append, List.map_nil]
    refine .insn ?_ ?_ ih
    · cases k <;> first | exact hk | simp [renamed, IsOptionWord]
    · intro hm
      rw [← List.map_cons] at hm
      obtain ⟨x, hx, he⟩ := List.mem_map.1 hm
      rw [renamed_eq (by simp)] at he
      exact hs (he ▸ hx)
  | @option w vs rest us hw hv _ ih =>
    simp only [List.map_cons, List.map_append]
    exact .option hw (by rw [List.length_map]; exact hv) ih

theorem map_renamed_back {f g : Nat → Nat} (hg : ∀ n ≤ 255, g (f n) = n) {ks : List Kind} (hw : ∀ x ∈ ks, Writable x) :
    (ks.map (renamed f)).map (renamed g) = ks := by
  rw [List.map_map]
  conv_rhs => rw [← List.map_id ks]
  apply List.map_congr_left
  intro k hk
  have := hw _ hk
  cases k with
  | reg n => simp only [Function.comp_apply, renamed, id_eq, hg n this]
  | _ => rfl

theorem unsound_rename {f : Nat → Nat} (hf : Renaming f) {u : List Kind} (hw : ∀ x ∈ u, Writable x) (hx : Kind.imm (2 ^ 20) ∉ u) (h : Unsound u) :
    Unsound (u.map (renamed f)) := by
  obtain ⟨e, ks, h1, h2⟩ := h
  exact ⟨e, _, h1.map _, insnClash_rename hf h2 (fun x hx => hw x (h1.subset hx)) fun h => hx (h1.subset h)⟩

end Nxas
