import Verif.Lemmas.Chase
/-
Where an assertion fails: rows and programs.
-/

namespace Nxas

open Spec

/-! ### Rows -/

/-- Every operand has an assertion that cannot fail, or one that `Operand.run_abort` describes. -/
def known : List Field → List Operand → Bool
  | _, [] => true
  | used, o :: os => (Field.clear o.need used || o.single) && Field.clear o.reuses used && known (o.fields ++ used) os

theorem table_clash_known : (insnTable.all fun row => known ((16, 4) :: setBits row.opcode) row.operands) = true := by decide +kernel

theorem runOperands_clash {os : List Operand} {n : Nat} {s : St} : (runOperands os n true s).1 = .abort ↔
    ∃ os1 o os2 s1 m, os = os1 ++ o :: os2 ∧ runOperands os1 n true s = (.ok () s1, m) ∧ o.run true s1 = .abort := by
  constructor
  · intro h
    induction os generalizing n s with
    | nil => simp [runOperands] at h
    | cons o os ih =>
      unfold runOperands at h
      split at h
      · rename_i s1 hr
        obtain ⟨os1, o', os2, s2, m, rfl, h1, h2⟩ := ih h
        refine ⟨o :: os1, o', os2, s2, m, rfl, ?_, h2⟩
        rw [runOperands, hr]; exact h1
      · exact ⟨[], o, os, s, n, rfl, rfl, h⟩
  · rintro ⟨os1, o, os2, s1, m, rfl, h1, h2⟩
    rw [runOperands_after h1, runOperands, h2]

theorem known_runs {used : List Field} {os os' : List Operand} (h : known used (os ++ os') = true)
    (hg : ∀ o ∈ os, o.grammatical = true ∧ o.regular = true) {s s1 : St} {n m : Nat} (hs : s.tok.kind.proper) (hu : UsedIn used s)
    (hr : runOperands os n true s = (.ok () s1, m)) : ∃ used', known used' os' = true ∧ UsedIn used' s1 ∧ s1.tok.kind.proper := by
  induction os generalizing used s n with
  | nil =>
    simp only [runOperands, Prod.mk.injEq, Out.ok.injEq, true_and] at hr
    rw [← hr.1]
    exact ⟨used, h, hu, hs⟩
  | cons o os ih =>
    rw [List.cons_append, known, Bool.and_eq_true] at h
    have ho := hg o (by simp)
    unfold runOperands at hr
    split at hr
    · rename_i s2 h2
      exact ih h.2 (fun o ho => hg o (by simp [ho])) (proper_run ho.1 hs h2) (hu.run ho.2 hs h2) hr
    · rename_i hne
      simp only [Prod.mk.injEq] at hr
      exact absurd hr.1 (hne _ _)

theorem UsedIn.none {used fs : List Field} {s : St} (hu : UsedIn used s) (h : Field.clear fs used = true) (i : Nat) (hi : inF fs i) :
    s.op.bit i = false := by
  cases hb : s.op.bit i with
  | false => rfl
  | true => exact absurd (hu i hb) (not_inF_of_apart h hi)

theorem known_abort {used : List Field} {o : Operand} {os : List Operand} (h : known used (o :: os) = true)
    (ho : o.grammatical = true ∧ o.regular = true) {s : St} (hs : s.tok.kind.proper) (hu : UsedIn used s) :
    o.run true s = .abort ↔ ∃ more, OperandClash s.op.value o (s.tok.kind :: more) ∧ Ahead s.ctx.cur more := by
  rw [known, Bool.and_eq_true, Bool.and_eq_true, Bool.or_eq_true] at h
  have hr := hu.none h.1.2
  constructor
  · intro ha
    rcases h.1.1 with h1 | h1
    · exact absurd ha (hu.calm ho.2 hs h1)
    · exact (Operand.run_abort h1 ho.1 hr).1 ha
  · rintro ⟨more, h1, h2⟩
    refine (Operand.run_abort ?_ ho.1 hr).2 ⟨more, h1, h2⟩
    obtain ⟨ks, hks⟩ : ∃ ks, s.tok.kind :: more = ks := ⟨_, rfl⟩
    rw [hks] at h1
    cases h1 <;> rfl

theorem used_start {row : Insn} {g : Option (Nat × Bool)} (hg : ∀ p n, g = some (p, n) → p ≤ 7) {s : St}
    (hop : s.op = ⟨guardWord g ||| row.opcode, 0, 0⟩) : UsedIn ((16, 4) :: setBits row.opcode) s := by
  intro i hi
  rw [hop] at hi
  unfold Op.bit at hi
  split at hi
  · simp only [BitVec.getLsbD_or, Bool.or_eq_true] at hi
    rcases hi with hi | hi
    · have := guardWord_in hg hi
      exact ⟨(16, 4), by simp, by simp; omega⟩
    · obtain ⟨f, hf, h⟩ := (inF_setBits _ _).2 hi
      exact ⟨f, by simp [hf], h⟩
  · simp at hi

theorem startInsn_calm {row : Insn} (hr : row ∈ insnTable) {g : Option (Nat × Bool)} (hg : ∀ p n, g = some (p, n) → p ≤ 7) {s : St}
    (hs : s.op = ⟨guardWord g, 0, 0⟩) : startInsn row true s ≠ .abort := by
  intro h
  unfold startInsn at h
  rw [M.bind_def] at h
  have h0 : s.op.value &&& row.opcode = 0#64 := by
    rw [hs]
    apply BitVec.eq_of_getLsbD_eq
    intro i hi
    rw [BitVec.getLsbD_and, BitVec.getLsbD_zero]
    cases h1 : (guardWord g).getLsbD i with
    | false => rfl
    | true =>
      cases h2 : row.opcode.getLsbD i with
      | false => rfl
      | true =>
        have := guardWord_in hg h1
        obtain ⟨f, hf, h3⟩ := (inF_setBits _ _).2 h2
        have := List.all_eq_true.1 (table_guard row hr) f hf
        simp [Field.apart] at this
        omega
  have : addBits row.opcode true s = .ok () { s with op := { s.op with value := s.op.value ||| row.opcode } } := by
    unfold addBits
    rw [h0]; simp
  rw [this] at h
  simp only at h
  refine Calm.bind Calm.advance (fun _ => Calm.bind (Calm.of_readOnly ReadOnly.getValue) fun v => ?_) _ _ h
  exact Calm.ite _ _ _ (Calm.failTok _) (Calm.pure _)

theorem startInsn_same {row : Insn} (hr : row ∈ insnTable) {g : Option (Nat × Bool)} (hg : ∀ p n, g = some (p, n) → p ≤ 7) {s : St}
    (hs : s.op = ⟨guardWord g, 0, 0⟩) : startInsn row true s = startInsn row false s := by
  rcases DbgSame.startInsn row s with h | h
  · exact absurd h (startInsn_calm hr hg hs)
  · exact h

/-- An assertion fails in a row exactly when its operands come to a bit that is set already. -/
theorem parseInsn_clash {row : Insn} (hr : row ∈ insnTable) {s : St} {g : Option (Nat × Bool)}
    (hg : ∀ p n, g = some (p, n) → p ≤ 7) (hs : s.op = ⟨guardWord g, 0, 0⟩) :
    (parseInsn row true s).1 = .abort ↔ ∃ t0 c0 os o os' ks v r t c more, tokenize s.ctx.cur = .ok t0 c0 ∧ Path t0 c0 ks t c ∧
      (row.flags % 2 = 1 → ∀ p n, g = some (p, n) → p = 7) ∧ row.operands = os ++ o :: os' ∧
      Sequence s.ctx.env os (field 16 (guardBits g).toNat ||| row.opcode) ks t.kind v r ∧ OperandClash v o (t.kind :: more) ∧
      Ahead c more := by
  have hk := List.all_eq_true.1 table_clash_known row hr
  have hgram := table_grammatical row hr
  have hreg := table_regular row hr
  constructor
  · intro h
    unfold parseInsn at h
    rw [startInsn_same hr hg hs] at h
    cases h1 : startInsn row false s with
    | ok a s1 =>
      rw [h1] at h
      dsimp only at h
      obtain ⟨t0, c0, ht0, hf, rfl⟩ := (startInsn_iff _).1 h1
      have hinv : TokInv s.ctx.cur (s.at t0 c0 { s.op with value := s.op.value ||| row.opcode }) :=
        ⟨s.ctx.cur, Reach.refl _, ht0⟩
      have hu := used_start (row := row) hg (s := s.at t0 c0 { s.op with value := s.op.value ||| row.opcode }) (by simp [St.at, hs])
      have hab : (runOperands row.operands 1 true (s.at t0 c0 { s.op with value := s.op.value ||| row.opcode })).1 = .abort := by
        obtain ⟨x, hx⟩ : ∃ x, runOperands row.operands 1 true (s.at t0 c0 { s.op with value := s.op.value ||| row.opcode }) = x := ⟨_, rfl⟩
        rw [hx] at h ⊢
        obtain ⟨x1, x2⟩ := x
        cases x1 with
        | ok a s2 => exact absurd h (Calm.finishInsn _ _)
        | _ => exact h
      obtain ⟨os, o, os', s1, m, e1, e2, e3⟩ := runOperands_clash.1 hab
      rw [e1] at hk
      obtain ⟨used', k1, k2, k3⟩ := known_runs hk (fun x hx => ⟨hgram x (by rw [e1]; simp [hx]), hreg x (by rw [e1]; simp [hx])⟩) hinv.proper hu e2
      obtain ⟨more, m1, m2⟩ := (known_abort k1 ⟨hgram o (by rw [e1]; simp), hreg o (by rw [e1]; simp)⟩ k3 k2).1 e3
      have e2' : runOperands os 1 false (s.at t0 c0 { s.op with value := s.op.value ||| row.opcode }) = (.ok () s1, m) := by
        rcases runOperands_debug os 1 (s.at t0 c0 { s.op with value := s.op.value ||| row.opcode }) with h5 | h5
        · rw [e2] at h5; simp at h5
        · rw [← h5, e2]
      obtain ⟨-, ks, v, r, t, c, hp, hq, rfl⟩ := (runOperands_iff (fun o h => hgram o (by rw [e1]; simp [h])) hinv.proper _).1 e2'
      refine ⟨t0, c0, os, o, os', ks, v, r, t, c, more, ht0, hp, ?_, e1, ?_, m1, m2⟩
      · intro hfl
        rw [hs] at hf
        exact (noPred_iff hr hg).1 (hf hfl)
      · rw [← guardWord_eq hg]
        simpa [St.at, hs, Ctx.env] using hq
    | abort =>
      rw [← startInsn_same hr hg hs] at h1
      exact absurd h1 (startInsn_calm hr hg hs)
    | _ => rw [h1] at h; simp at h
  · rintro ⟨t0, c0, os, o, os', ks, v, r, t, c, more, ht0, hp, hfl, e1, hq, m1, m2⟩
    have hinv : TokInv s.ctx.cur (s.at t0 c0 { s.op with value := s.op.value ||| row.opcode }) :=
      ⟨s.ctx.cur, Reach.refl _, ht0⟩
    have hu := used_start (row := row) hg (s := s.at t0 c0 { s.op with value := s.op.value ||| row.opcode }) (by simp [St.at, hs])
    have h1 := (startInsn_iff (i := row) (s := s) _).2 ⟨t0, c0, ht0,
      fun hf => by rw [hs]; exact (noPred_iff hr hg).2 (hfl hf), rfl⟩
    have h2 := (runOperands_iff (os := os) (n := 1) (fun o h => hgram o (by rw [e1]; simp [h])) hinv.proper _).2
      ⟨rfl, ks, v, r, t, c, hp, by
        rw [← guardWord_eq hg] at hq
        simpa [St.at, hs, Ctx.env] using hq, rfl⟩
    have h4 : (runOperands row.operands 1 true (s.at t0 c0 { s.op with value := s.op.value ||| row.opcode })).1 = .abort := by
      rcases runOperands_debug os 1 (s.at t0 c0 { s.op with value := s.op.value ||| row.opcode }) with h5 | h5
      · obtain ⟨a, x, b, s1, m, f1, f2, f3⟩ := runOperands_clash.1 h5
        exact runOperands_clash.2 ⟨a, x, b ++ o :: os', s1, m, by rw [e1, f1]; simp, f2, f3⟩
      · rw [h2] at h5
        rw [e1] at hk
        obtain ⟨used', k1, k2, k3⟩ := known_runs hk (fun x hx => ⟨hgram x (by rw [e1]; simp [hx]), hreg x (by rw [e1]; simp [hx])⟩) hinv.proper hu h5
        have h6 := (known_abort k1 ⟨hgram o (by rw [e1]; simp), hreg o (by rw [e1]; simp)⟩ k3 k2).2 ⟨more, m1, m2⟩
        exact runOperands_clash.2 ⟨os, o, os', _, _, e1, h5, h6⟩
    unfold parseInsn
    rw [startInsn_same hr hg hs, h1]
    dsimp only
    obtain ⟨x, hx⟩ : ∃ x, runOperands row.operands 1 true (s.at t0 c0 { s.op with value := s.op.value ||| row.opcode }) = x := ⟨_, rfl⟩
    rw [hx] at h4 ⊢
    obtain ⟨x1, x2⟩ := x
    dsimp only at h4
    subst h4
    rfl

/-- If an assertion fails in one row, one fails in the other row or the row is refused, as soon as this is so for the operands. -/
theorem row_clash {row row' : Insn} (hin : row ∈ insnTable) (hin' : row' ∈ insnTable)
    (hc : ∀ {s : St}, s.tok.kind.proper → UsedIn ((16, 4) :: setBits row.opcode) s → ∀ {v : BitVec 64},
      Agree (setBits row'.opcode ++ setBits row.opcode) v s.op.value → (runOperands row.operands 1 true s).1 = .abort →
      (runOperands row'.operands 1 true (s.val v)).1.bad)
    {s : St} {g : Option (Nat × Bool)} (hg : ∀ p n, g = some (p, n) → p ≤ 7)
    (hop : s.op = ⟨guardWord g, 0, 0⟩) (h : (parseInsn row true s).1 = .abort) : (parseInsn row' true s).1.bad := by
  unfold parseInsn at h
  rw [startInsn_same hin hg hop] at h
  cases h1 : startInsn row false s with
  | ok a s1 =>
    rw [h1] at h
    dsimp only at h
    obtain ⟨t0, c0, ht0, hf, rfl⟩ := (startInsn_iff _).1 h1
    have hinv : TokInv s.ctx.cur (s.at t0 c0 { s.op with value := s.op.value ||| row.opcode }) :=
      ⟨s.ctx.cur, Reach.refl _, ht0⟩
    have hu := used_start (row := row) hg (s := s.at t0 c0 { s.op with value := s.op.value ||| row.opcode }) (by simp [St.at, hop])
    have hab : (runOperands row.operands 1 true (s.at t0 c0 { s.op with value := s.op.value ||| row.opcode })).1 = .abort := by
      obtain ⟨x, hx⟩ : ∃ x, runOperands row.operands 1 true (s.at t0 c0 { s.op with value := s.op.value ||| row.opcode }) = x := ⟨_, rfl⟩
      rw [hx] at h ⊢
      obtain ⟨x1, x2⟩ := x
      cases x1 with
      | ok a s2 => exact absurd h (Calm.finishInsn _ _)
      | _ => exact h
    have hag : Agree (setBits row'.opcode ++ setBits row.opcode) (s.op.value ||| row'.opcode) (s.op.value ||| row.opcode) := by
      intro i hi
      rw [inF_append] at hi
      have a1 : row'.opcode.getLsbD i = false := by
        cases hb : row'.opcode.getLsbD i with
        | false => rfl
        | true => exact absurd (.inl ((inF_setBits _ _).2 hb)) hi
      have a2 : row.opcode.getLsbD i = false := by
        cases hb : row.opcode.getLsbD i with
        | false => rfl
        | true => exact absurd (.inr ((inF_setBits _ _).2 hb)) hi
      rw [BitVec.getLsbD_or, BitVec.getLsbD_or, a1, a2]
    have hbad := hc hinv.proper hu hag hab
    unfold parseInsn
    rw [startInsn_same hin' hg hop]
    cases h2 : startInsn row' false s with
    | ok a s1 =>
      dsimp only
      obtain ⟨t1, c1, h3, -, rfl⟩ := (startInsn_iff _).1 h2
      rw [ht0] at h3
      obtain ⟨rfl, rfl⟩ : t0 = t1 ∧ c0 = c1 := by simpa using h3
      obtain ⟨x, hx⟩ : ∃ x, runOperands row'.operands 1 true (s.at t0 c0 { s.op with value := s.op.value ||| row'.opcode }) = x := ⟨_, rfl⟩
      rw [show (s.at t0 c0 { s.op with value := s.op.value ||| row.opcode }).val (s.op.value ||| row'.opcode) =
        s.at t0 c0 { s.op with value := s.op.value ||| row'.opcode } from rfl, hx] at hbad
      rw [hx]
      obtain ⟨x1, x2⟩ := x
      rcases hbad with h | ⟨e, s', h⟩ <;> (dsimp only at h; subst h)
      · exact .inl rfl
      · exact .inr ⟨e, s', rfl⟩
    | fail e s' => exact .inr ⟨e, s', rfl⟩
    | abort => exact .inl rfl
    | exit e =>
      exfalso
      unfold startInsn at h2
      simp only [M.bind_def, addBits, Bool.false_and, Bool.false_eq_true, if_false, advance, ht0, getValue] at h2
      split at h2 <;> simp [failTok, M.pure] at h2
    | ub w =>
      exfalso
      unfold startInsn at h2
      simp only [M.bind_def, addBits, Bool.false_and, Bool.false_eq_true, if_false, advance, ht0, getValue] at h2
      split at h2 <;> simp [failTok, M.pure] at h2
  | abort =>
    rw [← startInsn_same hin hg hop] at h1
    exact absurd h1 (startInsn_calm hin hg hop)
  | _ => rw [h1] at h; simp at h

/-- Before a row in which an assertion fails, every row with the mnemonic is left, or an assertion fails in it. -/
theorem earlier_row_clash {pre post : List Insn} {row row' : Insn} (hs : insnTable = pre ++ row :: post) (hr : row' ∈ pre)
    (hm : row'.mnemonic = row.mnemonic) {s : St} {g : Option (Nat × Bool)} (hg : ∀ p n, g = some (p, n) → p ≤ 7)
    (hop : s.op = ⟨guardWord g, 0, 0⟩) (h : (parseInsn row true s).1 = .abort) : (parseInsn row' true s).1.bad := by
  have hin : row ∈ insnTable := by rw [hs]; simp
  have hin' : row' ∈ insnTable := by rw [hs]; simp [hr]
  have hc := chaseTable_split (hs ▸ table_chase) hr hm
  exact row_clash hin hin' (fun hp hu _ hag hab => chase_run hc (fun o ho => ⟨table_grammatical row' hin' o ho, table_regular row' hin' o ho⟩)
    (fun o ho => ⟨table_grammatical row hin o ho, table_regular row hin o ho⟩) hp hu hag (m' := 1) hab) hg hop h

/-- An assertion fails in the row loop exactly when one fails in a row with the mnemonic. -/
theorem tryRows_clash {s : St} {mn : Str} {g : Option (Nat × Bool)} (hk : s.tok.kind = .ident mn)
    (hg : ∀ p n, g = some (p, n) → p ≤ 7) (hs : s.op = ⟨guardWord g, 0, 0⟩) :
    tryRows s.tok s insnTable none true s = .abort ↔ ∃ row t0 c0 os o os' ks v r t c more, row ∈ insnTable ∧ row.mnemonic = mn ∧
      tokenize s.ctx.cur = .ok t0 c0 ∧ Path t0 c0 ks t c ∧
      (row.flags % 2 = 1 → ∀ p n, g = some (p, n) → p = 7) ∧ row.operands = os ++ o :: os' ∧
      Sequence s.ctx.env os (field 16 (guardBits g).toNat ||| row.opcode) ks t.kind v r ∧ OperandClash v o (t.kind :: more) ∧
      Ahead c more := by
  have hmn : ∀ row : Insn, s.tok.equal row.mnemonic = true ↔ row.mnemonic = mn := by
    intro row
    rw [Token.equal_iff, hk]
    simp [eq_comm]
  constructor
  · intro h
    rcases tryRows_spec s.tok s true insnTable none s rfl rfl with ⟨pre, row, post, h1, h2, h3, h4⟩ | ⟨-, h4⟩
    · rw [h4] at h
      have hin : row ∈ insnTable := by rw [h1]; simp
      unfold rowOut at h
      cases hr : (parseInsn row true s).1 with
      | abort =>
        obtain ⟨t0, c0, os, o, os', ks, v, r, t, c, more, e1, e2⟩ := (parseInsn_clash hin hg hs).1 hr
        exact ⟨row, t0, c0, os, o, os', ks, v, r, t, c, more, hin, (hmn row).1 h2.1, e1, e2⟩
      | _ => rw [hr] at h; simp [rowResult] at h
    · rw [h4] at h; simp at h
  · rintro ⟨row, t0, c0, os, o, os', ks, v, r, t, c, more, hin, hm, e1, e2, e3, e4, e5, e6⟩
    have hrow := (parseInsn_clash hin hg hs).2 ⟨t0, c0, os, o, os', ks, v, r, t, c, more, e1, e2, e3, e4, e5, e6⟩
    obtain ⟨pre, post, h1⟩ := List.append_of_mem hin
    have hdec : Decides s.tok true s row := by
      refine ⟨(hmn row).2 hm, ?_⟩
      intro e s' h
      unfold rowOut at h
      rw [hrow] at h
      simp at h
    rcases tryRows_spec s.tok s true insnTable none s rfl rfl with ⟨pre', row', post', h1', h2', h3', h4'⟩ | ⟨h3', -⟩
    · rw [h4']
      have hout : rowOut true s row' = .abort := by
        unfold rowOut
        by_cases hrr : row' ∈ pre
        · rcases earlier_row_clash h1 hrr (((hmn row').1 h2'.1).trans hm.symm) hg hs hrow with h | ⟨e, s', h⟩
          · exact h
          · exact absurd h (h2'.2 e s')
        · have : row' = row := by
            have hsplit := h1.symm.trans h1'
            rcases List.append_eq_append_iff.1 hsplit with ⟨as, ha, hb⟩ | ⟨as, ha, hb⟩
            · cases as with
              | nil => simp at hb; exact hb.1.symm
              | cons a as =>
                simp at hb
                exact absurd hdec (h3' row (by rw [ha]; simp [hb.1]))
            · cases as with
              | nil => simp at hb; exact hb.1
              | cons a as =>
                simp at hb
                exact absurd (by rw [ha]; simp [hb.1]) hrr
          rw [this]; exact hrow
      rw [hout]; rfl
    · exact absurd hdec (h3' row hin)

end Nxas
