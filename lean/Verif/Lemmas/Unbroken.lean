import Verif.Lemmas.Mild
/-
No row that fails with a mistyped message comes before a row with the same mnemonic that accepts the same tokens.
-/

namespace Nxas

open Spec

/-- Tokens of some of these operands and of the beginning of one more, up to the token that a mistyped message is about. -/
def Broken : List Operand → List Kind → Prop
  | [], _ => False
  | o :: os, ks => (∃ p ∈ breaks o, fitsAll p ks) ∨ ∃ s ∈ shapes o, ∃ k1 k2, ks = k1 ++ k2 ∧ fitsAll s k1 ∧ Broken os k2

/-- The same after a part of an operand; `none` is the end. -/
def Rest (a : List Pat) (x : Option (List Operand)) (ks : List Kind) : Prop := ∃ k1 k2, ks = k1 ++ k2 ∧ fitsAll a k1 ∧
  match x with
  | none => k2 = []
  | some os => Broken os k2

/-- `true` if surely nothing that fits the second list of operands begins with a broken text of the first one. -/
def unbroken : Nat → List Pat → Option (List Operand) → List Pat → List Operand → Bool
  | 0, _, _, _, _ => false
  | _ + 1, [], none, _, _ => false
  | _ + 1, [], some [], _, _ => true
  | n + 1, [], some (o :: os), [], o' :: os' =>
    ((breaks o).all fun p => (shapes o').all fun s' => match strip p s' with
        | none => true
        | some (a, b) => unbroken n a none b os') &&
    if o = o' then
      unbroken n [] (some os) [] os' && (shapes o).all fun s => (shapes o).all fun s' => s == s' ||
        match strip s s' with
        | none => true
        | some (a, b) => unbroken n a (some os) b os'
    else (shapes o).all fun s => (shapes o').all fun s' => match strip s s' with
        | none => true
        | some (a, b) => unbroken n a (some os) b os'
  | n + 1, [], some (o :: os), b :: bs, os' =>
    ((breaks o).all fun p => match strip p (b :: bs) with
        | none => true
        | some (a, b) => unbroken n a none b os') &&
    (shapes o).all fun s => match strip s (b :: bs) with
        | none => true
        | some (a, b) => unbroken n a (some os) b os'
  | n + 1, a :: as, x, [], o' :: os' => (shapes o').all fun s' => match strip (a :: as) s' with
        | none => true
        | some (a, b) => unbroken n a x b os'
  | _ + 1, [], some (_ :: _), [], [] => true
  | _ + 1, _ :: _, _, [], [] => true
  | n + 1, a :: as, x, b :: bs, os' => match strip (a :: as) (b :: bs) with
        | none => true
        | some (a, b) => unbroken n a x b os'

theorem breaks_ne (o : Operand) : [] ∉ breaks o := by
  induction o with
  | abs a o ih => simp [breaks, ih]
  | memAddress i => cases i <;> simp [breaks, memBreaks]
  | ldcAddress => simp [breaks, memBreaks]
  | _ => simp [breaks]

theorem Broken.head {os : List Operand} {ks : List Kind} (h : Broken os ks) : ∃ k ks', ks = k :: ks' ∧ k ≠ .at := by
  induction os generalizing ks with
  | nil => exact h.elim
  | cons o os ih =>
    have key : ∀ {p : List Pat} {ks : List Kind}, fitsAll p ks → p ≠ [] → ∃ k ks', ks = k :: ks' ∧ k ≠ .at := by
      intro p ks h hp
      cases p with
      | nil => exact absurd rfl hp
      | cons q p =>
        cases ks with
        | nil => exact h.elim
        | cons k ks => exact ⟨k, ks, rfl, fun he => q.fits_at (he ▸ h.1)⟩
    rcases h with ⟨p, hp, h⟩ | ⟨p, hp, k1, k2, rfl, h1, h2⟩
    · exact key h fun he => breaks_ne o (he ▸ hp)
    · cases k1 with
      | nil => exact ih h2
      | cons k k1 =>
        obtain ⟨k', ks', e1, e2⟩ := key h1 (by rintro rfl; exact h1.elim)
        exact ⟨k', ks' ++ k2, by rw [e1]; rfl, e2⟩

theorem Rest.cons {p : Pat} {a : List Pat} {x : Option (List Operand)} {ks : List Kind} (h : Rest (p :: a) x ks) :
    ∃ k ks', ks = k :: ks' ∧ p.fits k ∧ Rest a x ks' := by
  obtain ⟨k1, k2, rfl, h, h'⟩ := h
  cases k1 with
  | nil => exact h.elim
  | cons k k1 => exact ⟨k, _, rfl, h.1, k1, k2, rfl, h.2, h'⟩

theorem Rest.nil {os : List Operand} {ks : List Kind} (h : Rest [] (some os) ks) : Broken os ks := by
  obtain ⟨k1, k2, rfl, h, h'⟩ := h
  cases k1 with
  | nil => exact h'
  | cons => exact h.elim

theorem Rest.next {o : Operand} {os : List Operand} {ks : List Kind} (h : Rest [] (some (o :: os)) ks) :
    (∃ p ∈ breaks o, Rest p none ks) ∨ ∃ s ∈ shapes o, Rest s (some os) ks := by
  rcases h.nil with ⟨p, hp, h⟩ | ⟨s, hs, h⟩
  · exact .inl ⟨p, hp, ks, [], by simp, h, rfl⟩
  · exact .inr ⟨s, hs, h⟩

theorem strip_rest {a b : List Pat} {x : Option (List Operand)} {os' : List Operand} {kp ks : List Kind} (h : Rest a x kp)
    (h' : Left b os' (kp ++ ks)) : ∃ a' b', strip a b = some (a', b') ∧ ∃ kp ks, Rest a' x kp ∧ Left b' os' (kp ++ ks) := by
  induction a generalizing b kp with
  | nil => exact ⟨[], b, by cases b <;> rfl, kp, ks, h, h'⟩
  | cons p a ih =>
    cases b with
    | nil => exact ⟨_, _, rfl, kp, ks, h, h'⟩
    | cons q b =>
      obtain ⟨k, kp', rfl, h1, h2⟩ := h.cons
      obtain ⟨k', ks'', he, h3, h4⟩ := h'.cons
      cases he
      rw [strip, if_pos (meets_of h1 h3)]
      exact ih h2 h4

theorem unbroken_sound {n : Nat} {a b : List Pat} {x : Option (List Operand)} {os' : List Operand} (h : unbroken n a x b os' = true)
    {kp ks : List Kind} (h1 : Rest a x kp) (h2 : Left b os' (kp ++ ks)) : False := by
  induction n generalizing a b x os' kp ks with
  | zero => simp [unbroken] at h
  | succ n ih =>
    have key : ∀ {a b : List Pat} {x : Option (List Operand)} {os' : List Operand} {kp ks : List Kind}, Rest a x kp → Left b os' (kp ++ ks) →
        (match strip a b with | none => true | some (a, b) => unbroken n a x b os') = true → False := by
      intro a b x os' kp ks h1 h2 h
      obtain ⟨a', b', hs, kp', ks', h3, h4⟩ := strip_rest h1 h2
      rw [hs] at h
      exact ih h h3 h4
    unfold unbroken at h
    split at h
    · cases ‹_ = _›
    · cases h
    · exact h1.nil
    · rename_i heq
      cases heq
      rw [Bool.and_eq_true] at h
      obtain ⟨s', hs', h4⟩ := Fits.cons h2
      rcases h1.next with ⟨p, hp, h3⟩ | ⟨s, hs, h3⟩
      · exact key h3 h4 (List.all_eq_true.1 (List.all_eq_true.1 h.1 p hp) s' hs')
      · obtain ⟨-, h⟩ := h
        split at h
        · rename_i ho
          subst ho
          rw [Bool.and_eq_true] at h
          by_cases he : s = s'
          · subst he
            refine key h3 h4 ?_
            rw [strip_self]
            exact h.1
          · have := List.all_eq_true.1 (List.all_eq_true.1 h.2 s hs) s' hs'
            rw [beq_eq_false_iff_ne.2 he, Bool.false_or] at this
            exact key h3 h4 this
        · exact key h3 h4 (List.all_eq_true.1 (List.all_eq_true.1 h s hs) s' hs')
    · rename_i heq
      cases heq
      rw [Bool.and_eq_true] at h
      rcases h1.next with ⟨p, hp, h3⟩ | ⟨s, hs, h3⟩
      · exact key h3 h2 (List.all_eq_true.1 h.1 p hp)
      · exact key h3 h2 (List.all_eq_true.1 h.2 s hs)
    · rename_i heq
      cases heq
      obtain ⟨s', hs', h4⟩ := Fits.cons h2
      exact key h1 h4 (List.all_eq_true.1 h s' hs')
    · obtain ⟨k, ks', rfl, hk⟩ := h1.nil.head
      exact hk (Left.nil.1 h2)
    · obtain ⟨k, ks', rfl, hk, -⟩ := h1.cons
      have : k = .at := Left.nil.1 h2
      exact Pat.fits_at _ (this ▸ hk)
    · have he : n + 1 = _ + 1 := ‹_›
      cases he
      exact key h1 h2 h

set_option Elab.async false in
/-- Of two rows with the same mnemonic the first one breaks off nowhere on what the second one accepts. -/
theorem table_unbroken : insnTable.Pairwise fun a b => a.mnemonic = b.mnemonic → unbroken 80 [] (some a.operands) [] b.operands = true := by
  decide +kernel

theorem fits_no_broken {a b : List Operand} (h : unbroken 80 [] (some a) [] b = true) {kp ks : List Kind} (h1 : Broken a kp)
    (h2 : Fits b (kp ++ ks)) : False :=
  unbroken_sound h ⟨[], kp, rfl, trivial, h1⟩ (Left.nil.2 h2)

/-! ### No semicolons -/

theorem fitsAll_no_semicolon {p : List Pat} {ks : List Kind} (hp : p.all (· != .tok .semicolon) = true) (h : fitsAll p ks) :
    .semicolon ∉ ks := by
  induction p generalizing ks with
  | nil => cases ks with
    | nil => simp
    | cons => exact h.elim
  | cons q p ih => cases ks with
    | nil => simp
    | cons k ks =>
      simp only [List.all_cons, Bool.and_eq_true] at hp
      simp only [List.mem_cons, not_or]
      refine ⟨?_, ih hp.2 h.2⟩
      rintro rfl
      have h1 := h.1
      cases q with
      | tok a => obtain ⟨rfl, -⟩ := h1; simp at hp
      | pred => obtain ⟨_, _, h⟩ := h1; cases h
      | imm | out => obtain ⟨_, h, -⟩ := h1; cases h
      | _ => obtain ⟨_, h⟩ := h1; cases h

theorem table_semicolon : (insnTable.all fun row => row.operands.all fun o => ((shapes o).all fun p => p.all (· != .tok .semicolon)) &&
    (breaks o).all fun p => p.all (· != .tok .semicolon)) = true := by decide +kernel

theorem Broken.no_semicolon {os : List Operand} (ho : (os.all fun o => ((shapes o).all fun p => p.all (· != .tok .semicolon)) &&
    (breaks o).all fun p => p.all (· != .tok .semicolon)) = true) {ks : List Kind} (h : Broken os ks) : .semicolon ∉ ks := by
  induction os generalizing ks with
  | nil => exact h.elim
  | cons o os ih =>
    simp only [List.all_cons, Bool.and_eq_true] at ho
    rcases h with ⟨p, hp, h⟩ | ⟨p, hp, k1, k2, rfl, h1, h2⟩
    · exact fitsAll_no_semicolon (List.all_eq_true.1 ho.1.2 p hp) h
    · rw [List.mem_append, not_or]
      exact ⟨fitsAll_no_semicolon (List.all_eq_true.1 ho.1.1 p hp) h1, ih ho.2 h2⟩

/-! ### Rows -/

/-- A list of operands that fails with a mistyped message breaks off. -/
theorem runOperands_broken {os : List Operand} (ho : ∀ o ∈ os, o.grammatical = true) {n sc : Nat} {s s' : St} {e : Err}
    (hs : s.tok.kind.proper) (h : runOperands os n false s = (.fail e s', sc)) (hm : e.msg.fmt ∈ mistyped) :
    ∃ ks t c, Path s.tok s.ctx.cur ks t c ∧ Broken os (ks ++ [t.kind]) := by
  induction os generalizing n s with
  | nil => simp [runOperands] at h
  | cons o os ih =>
    rw [runOperands] at h
    cases hr : o.run false s <;> rw [hr] at h <;> simp at h
    · rename_i s1
      obtain ⟨ks, b, r, t, c, hp, ha, rfl⟩ := (o.run_iff (ho o (by simp)) s hs _).1 hr
      obtain ⟨ks', t', c', hp', hb⟩ := ih (fun o h => ho o (by simp [h])) (hp.proper hs).1 h
      obtain ⟨q, hq, hf⟩ := shapes_of ha
      refine ⟨ks ++ ks', t', c', Path.append_iff.2 ⟨_, _, hp, hp'⟩, .inr ⟨q, hq, ks, ks' ++ [t'.kind], by rw [List.append_assoc], hf, hb⟩⟩
    · obtain ⟨⟨rfl, rfl⟩, -⟩ := h
      obtain ⟨p, hp, ks, t, c, h1, h2⟩ := Cracks.run o anyKind s _ _ trivial hr hm
      exact ⟨ks, t, c, h1, .inl ⟨p, hp, h2⟩⟩

/-- Of two ways from the same token, one that ends at a semicolon and one without semicolons, the second one is a part of the
    first one. -/
theorem Path.prefix {t t1 t2 : Token} {c c1 c2 : Cur} {ks ks' : List Kind} (h1 : Path t c ks t1 c1) (h2 : Path t c ks' t2 c2)
    (ht : t1.kind = .semicolon) (hn : .semicolon ∉ ks' ++ [t2.kind]) : ∃ r, ks = (ks' ++ [t2.kind]) ++ r := by
  induction ks' generalizing t c ks with
  | nil =>
    obtain ⟨rfl, rfl⟩ := h2
    cases ks with
    | nil =>
      obtain ⟨rfl, rfl⟩ := h1
      simp [ht] at hn
    | cons k ks =>
      obtain ⟨rfl, -⟩ := h1
      exact ⟨ks, rfl⟩
  | cons k ks' ih =>
    obtain ⟨rfl, t3, c3, h3, h4⟩ := h2
    cases ks with
    | nil =>
      obtain ⟨rfl, rfl⟩ := h1
      simp [ht] at hn
    | cons k ks =>
      obtain ⟨rfl, t4, c4, h5, h6⟩ := h1
      rw [h3] at h5
      cases h5
      obtain ⟨r, hr⟩ := ih h6 h4 (by simp at hn ⊢; exact hn.2)
      exact ⟨r, by rw [hr]; rfl⟩

/-- A row that comes before the one that accepts the tokens fails with no mistyped message. -/
theorem earlier_row_mild {pre post : List Insn} {row row' : Insn} (hs : insnTable = pre ++ row :: post) (hr : row' ∈ pre)
    (hm : row'.mnemonic = row.mnemonic) {s s' : St} {g : Option (Nat × Bool)} {t0 t : Token} {c0 c : Cur} {ks : List Kind} {op : Op}
    (h0 : tokenize s.ctx.cur = .ok t0 c0) (hp : Path t0 c0 ks t c) (ht : t.kind = .semicolon)
    (h : RowText s.ctx.env row g ks op) {e : Err} {sc : Nat} (hf : parseInsn row' false s = (.fail e s', sc)) : e.msg.fmt ∉ mistyped := by
  intro hmis
  have hrow : row' ∈ insnTable := by rw [hs]; exact List.mem_append_left _ hr
  have hu : unbroken 80 [] (some row'.operands) [] row.operands = true := by
    have := table_unbroken
    rw [hs, List.pairwise_append] at this
    exact this.2.2 row' hr row List.mem_cons_self hm
  unfold parseInsn at hf
  cases h1 : startInsn row' false s with
  | ok a s1 =>
    rw [h1] at hf
    dsimp only at hf
    obtain ⟨t1, c1, h2, -, rfl⟩ := (startInsn_iff _).1 h1
    rw [h0] at h2
    cases h2
    have hinv : TokInv s.ctx.cur (s.at t0 c0 { s.op with value := s.op.value ||| row'.opcode }) := ⟨s.ctx.cur, Reach.refl _, h0⟩
    cases h3 : runOperands row'.operands 1 false (s.at t0 c0 { s.op with value := s.op.value ||| row'.opcode }) with
    | mk r n =>
      rw [h3] at hf
      cases r with
      | ok a s2 =>
        simp only [Prod.mk.injEq] at hf
        exact Mild.finishInsn _ _ _ hf.1 hmis
      | fail e1 s2 =>
        simp only [Prod.mk.injEq, Out.fail.injEq] at hf
        obtain ⟨⟨rfl, rfl⟩, -⟩ := hf
        obtain ⟨ks', t', c', hp', hb⟩ := runOperands_broken (table_grammatical row' hrow) hinv.proper h3 hmis
        obtain ⟨r, rfl⟩ := Path.prefix hp hp' ht (hb.no_semicolon (List.all_eq_true.1 table_semicolon row' hrow))
        exact fits_no_broken hu hb (rowText_fits h)
      | _ => simp at hf
  | fail e1 s1 =>
    rw [h1] at hf
    simp only [Prod.mk.injEq, Out.fail.injEq] at hf
    obtain ⟨⟨rfl, rfl⟩, -⟩ := hf
    exact Mild.startInsn _ _ _ _ h1 hmis
  | _ => rw [h1] at hf; simp at hf

end Nxas
