import Verif.Lemmas.ClashRow
/-
If an assertion fails in a row, no later row with the mnemonic accepts the text without one.
-/

namespace Nxas

open Spec

/-- The operands fail on the names of the table. -/
def refuses (t : List Str) : List Operand → Bool
  | .flag s _ :: os => (t.all fun x => '.' :: x != s) && refuses t os
  | .po _ _ :: os => (t.all fun x => x != c!"PO") && refuses t os
  | .dotTable (some _) _ t' :: os => (t.all fun x => !t'.contains x) && refuses t os
  | .bop _ :: _ => t.all fun x => ![c!"AND", c!"OR", c!"XOR", c!"INVALIDBOP3"].contains x
  | .gpr _ :: _ => true
  | .comma :: _ => true
  | _ => false

theorem refuses_run {t : List Str} {os : List Operand} (h : refuses t os = true) {n : Nat} {s : St} {x : Str} (hx : x ∈ t)
    (hk : s.tok.kind = .ident ('.' :: x)) : (runOperands os n true s).1.bad := by
  induction os generalizing n s with
  | nil => simp [refuses] at h
  | cons o os ih =>
    cases o with
    | flag w a =>
      simp only [refuses, Bool.and_eq_true] at h
      have hne := List.all_eq_true.1 h.1 x hx
      refine bad_ok (s1 := s) ?_ (ih h.2 hk)
      simp only [bne_iff_ne] at hne
      simp [Operand.run, runFlag, M.bind_def, getKind, hk, Kind.equal, hne, M.pure]
    | po a b =>
      simp only [refuses, Bool.and_eq_true] at h
      have hne := List.all_eq_true.1 h.1 x hx
      refine bad_ok (s1 := s) ?_ (ih h.2 hk)
      simp only [bne_iff_ne] at hne
      simp [Operand.run, runPo, M.bind_def, getKind, hk, Kind.equal, hne, M.pure]
    | dotTable d a t' =>
      cases d with
      | none => simp [refuses] at h
      | some d =>
        simp only [refuses, Bool.and_eq_true] at h
        have hne := List.all_eq_true.1 h.1 x hx
        have hno : NoEntry c!"." t' s.tok.kind := by
          intro y hy hky
          rw [hk] at hky
          simp at hky
          subst hky
          simp [hy] at hne
        rcases skip_run (d := d) (a := a) hno with h3 | ⟨v, h3⟩
        · exact bad_abort h3
        · exact bad_ok h3 (ih h.2 hk)
    | bop a =>
      simp only [refuses] at h
      have hne := List.all_eq_true.1 h x hx
      have hno : findInTable true [c!"AND", c!"OR", c!"XOR", c!"INVALIDBOP3"] c!"." true s = .ok none s := by
        refine findInTable_none.2 ⟨rfl, ?_⟩
        intro y hy hky
        rw [hk] at hky
        simp only [List.cons_append, List.nil_append, Kind.ident.injEq, List.cons.injEq, true_and] at hky
        subst hky
        rw [List.contains_iff_mem.2 hy] at hne
        simp at hne
      have : ∃ e s', (Operand.bop a).run true s = .fail e s' := by simp [Operand.run, runBop, M.bind_def, hno, failTok]
      obtain ⟨e, s', h⟩ := this
      exact bad_fail h
    | gpr a =>
      have : ∃ e s', (Operand.gpr a).run true s = .fail e s' := by simp [Operand.run, assembleGpr, M.bind_def, confirmReg, hk]
      obtain ⟨e, s', h⟩ := this
      exact bad_fail h
    | comma =>
      have : ∃ e s', Operand.comma.run true s = .fail e s' := by simp [Operand.run, runComma, M.bind_def, confirm, hk]
      obtain ⟨e, s', h⟩ := this
      exact bad_fail h
    | _ => simp [refuses] at h

theorem stuckImm_calm {os : List Operand} (h : stuckImm os = true) {n : Nat} {s : St} {x : Int} (hk : s.tok.kind = .imm x) :
    (runOperands os n true s).1 ≠ .abort := by
  induction os generalizing n with
  | nil => simp [stuckImm] at h
  | cons o os ih =>
    rw [Ne, abort_cons]
    cases o with
    | neg a =>
      have : (Operand.neg a).run true s = .ok () s := by simp [Operand.run, runSign, M.bind_def, getKind, hk, M.pure]
      rw [this]
      simpa using ih h
    | gpr a => simp [Operand.run, assembleGpr, M.bind_def, confirmReg, hk]
    | cbuf => simp [Operand.run, runCbuf, blameStart, M.bind_def, getKind, hk, Kind.equal, failTok]
    | _ => simp [stuckImm] at h

/-- Like `chase`, for rows in the other order. -/
def flee : Nat → List Field → List Field → List Operand → List Operand → Bool
  | 0, used, _, _, b => opsApart used b
  | n + 1, used, lost, a, b =>
    opsApart used b ||
    (match a, b with
    | x :: a', y :: b' =>
      (x.number && stuckImm b) ||
      (x == y && x.common used lost && flee n (x.fields ++ used) lost a' b') ||
      (match x, y with
      | .immFormat _, .srcFormat _ _ =>
        Field.clear y.fields used &&
        refuses [c!"S8", c!"S32", c!"U8", c!"U32"] a' &&
        flee n (y.fields ++ used) (x.fields ++ (y.fields ++ lost)) a' b' &&
        (refuses [[]] a' ||
          (match a', b' with
          | .po _ _ :: .dotTable (some d) p t :: a'', .po _ _ :: .dotTable (some d') p' t' :: b'' =>
            t.head? == some [] &&
            Field.clear (Operand.dotTable (some d') p' t').fields (y.fields ++ used) &&
            refuses (c!"PO" :: t') a'' &&
            flee n ((Operand.dotTable (some d') p' t').fields ++ (y.fields ++ used))
              ((Operand.dotTable (some d) p t).fields ++ ((Operand.dotTable (some d') p' t').fields ++
                (x.fields ++ (y.fields ++ lost)))) a'' b''
          | _, _ => false))
      | _, _ => false)
    | _, _ => false)

theorem flee_run {n : Nat} {used lost : List Field} {a b : List Operand} (h : flee n used lost a b = true)
    (hga : ∀ o ∈ a, o.grammatical = true ∧ o.regular = true) (hgb : ∀ o ∈ b, o.grammatical = true ∧ o.regular = true)
    {s : St} (hs : s.tok.kind.proper) (hu : UsedIn used s) {v : BitVec 64} (hl : Agree lost v s.op.value) {m m' : Nat}
    (hb : (runOperands b m true s).1 = .abort) : (runOperands a m' true (s.val v)).1.bad := by
  have calm : opsApart used b = true → False := fun h =>
    runOperands_noAbort (fun o ho => (hgb o ho).2) hs.1 hu h hb
  induction n generalizing used lost a b s v m m' with
  | zero => exact (calm h).elim
  | succ n ih =>
    have next : ∀ {used lost : List Field} {a b : List Operand}, flee n used lost a b = true →
        (∀ o ∈ a, o.grammatical = true ∧ o.regular = true) → (∀ o ∈ b, o.grammatical = true ∧ o.regular = true) →
        ∀ {s : St}, s.tok.kind.proper → UsedIn used s → ∀ {v : BitVec 64}, Agree lost v s.op.value → ∀ {m m' : Nat},
        (runOperands b m true s).1 = .abort → (runOperands a m' true (s.val v)).1.bad := by
      intro used lost a b h hga hgb s hs hu v hl m m' hb
      exact ih h hga hgb hs hu hl hb fun h => runOperands_noAbort (fun o ho => (hgb o ho).2) hs.1 hu h hb
    unfold flee at h
    rw [Bool.or_eq_true] at h
    rcases h with h | h
    · exact (calm h).elim
    match a, b, h with
    | x :: a', y :: b', h =>
      have hga' := fun o ho => hga o (List.mem_cons_of_mem x ho)
      have hgb' := fun o ho => hgb o (List.mem_cons_of_mem y ho)
      have hx := hga x (by simp)
      have hy := hgb y (by simp)
      dsimp only at h
      rw [Bool.or_eq_true, Bool.or_eq_true] at h
      rcases h with (h | h) | h
      · -- a number
        rw [Bool.and_eq_true] at h
        by_cases hf : ∃ e s', x.run true (s.val v) = .fail e s'
        · obtain ⟨e, s', hf⟩ := hf
          exact bad_fail hf
        · obtain ⟨z, hz⟩ := number_run h.1 (s := s.val v) fun e s' he => hf ⟨e, s', he⟩
          exact absurd hb (stuckImm_calm h.2 (s := s) hz)
      · -- the same operand
        rw [Bool.and_eq_true, Bool.and_eq_true, beq_iff_eq] at h
        obtain ⟨⟨rfl, h1⟩, h2⟩ := h
        unfold Operand.common at h1
        rw [Bool.and_eq_true, Bool.or_eq_true] at h1
        rcases abort_cons.1 hb with hb | ⟨s1, hr, hb⟩
        · rcases h1.2 with h3 | h3
          · exact (hu.calm hx.2 hs h3 hb).elim
          · rw [Bool.and_eq_true, Bool.and_eq_true] at h3
            refine bad_abort (sync_abort hx.1 h3.1.1 h1.1 h3.1.2 hs ?_ hl hb)
            intro i hi
            cases hbit : s.op.bit i with
            | false => rfl
            | true => exact absurd (hu i hbit) (not_inF_of_apart h3.2 hi)
        · rcases sync_ok hx.1 h1.1 hs hl hr with h3 | ⟨v1, h3, h4⟩
          · exact bad_abort h3
          · exact bad_ok h3 (next h2 hga' hgb' (proper_run hx.1 hs hr) (hu.run hx.2 hs hr) h4 hb)
      · -- formats
        split at h
        · rename_i z p q
          rw [Bool.and_eq_true, Bool.and_eq_true, Bool.and_eq_true, Bool.or_eq_true] at h
          obtain ⟨⟨⟨h1, h2⟩, h3⟩, h4⟩ := h
          rcases abort_cons.1 hb with hb | ⟨s1, hr, hb⟩
          · exact (hu.calm (o := .srcFormat p q) hy.2 hs h1 hb).elim
          have hs1 := proper_run hy.1 hs hr
          have hu1 := hu.run hy.2 hs hr
          have hkk := kept_run hy.2 hs hr
          -- the format of a number on the tokens that are read for both rows
          have same : ∀ {s' : St} {bx : BitVec 64} {ks : List Kind}, Path s.tok s.ctx.cur ks s'.tok s'.ctx.cur →
              Accepts s.ctx.env v (.immFormat z) ks s'.tok.kind bx 0 →
              s'.ctx = { s.ctx with cur := s'.ctx.cur } → s'.op.reuse = s.op.reuse → s'.op.sched = s.op.sched →
              (Operand.immFormat z).run true (s.val v) = .abort ∨ ∃ v1, (Operand.immFormat z).run true (s.val v) = .ok () (s'.val v1) := by
            intro s' bx ks hp hacc e1 e2 e3
            have := (Operand.run_iff (.immFormat z) hx.1 (s.val v) hs _).2 ⟨ks, bx, 0, s'.tok, s'.ctx.cur, hp, hacc, rfl⟩
            rcases DbgSame.operand (.immFormat z) (s.val v) with h5 | h5
            · exact .inl h5
            · right
              rw [this] at h5
              refine ⟨v ||| bx, ?_⟩
              rw [h5]
              simp only [clears, St.set_zero]
              obtain ⟨c1, t1, o1⟩ := s'
              dsimp only at e1 e2 e3
              simp only [St.put, St.val, Out.ok.injEq, true_and]
              rw [← e1, e2, e3]
              simp
          have hrel : (Operand.srcFormat p q).run false s = .ok () s1 := by
            rcases DbgSame.operand (.srcFormat p q) s with h5 | h5
            · rw [hr] at h5; simp at h5
            · rw [← h5, hr]
          obtain ⟨ks, by', r, t, c, hp, ⟨rfl, hacc⟩, hs1e⟩ := (Operand.run_iff _ hy.1 s hs _).1 hrel
          rw [show clears (.srcFormat p q) = 0 from rfl, St.set_zero] at hs1e
          have e0 : s1.tok = t ∧ s1.ctx.cur = c := by rw [hs1e]; exact ⟨rfl, rfl⟩
          have e1 : s1.ctx = { s.ctx with cur := s1.ctx.cur } := by rw [hs1e]; rfl
          have e2 : s1.op.reuse = s.op.reuse := by rw [hs1e]; simp [St.put]
          have e3 : s1.op.sched = s.op.sched := by rw [hs1e]; rfl
          have go : ∀ {bx : BitVec 64} {ks : List Kind}, Path s.tok s.ctx.cur ks s1.tok s1.ctx.cur →
              Accepts s.ctx.env v (.immFormat z) ks s1.tok.kind bx 0 → (runOperands (.immFormat z :: a') m' true (s.val v)).1.bad := by
            intro bx ks hp hacc
            rcases same hp hacc e1 e2 e3 with h5 | ⟨v1, h5⟩
            · exact bad_abort h5
            · refine bad_ok h5 (next h3 hga' hgb' hs1 hu1 ?_ hb)
              refine (Agree.trans (kept_run hx.2 (s := s.val v) hs h5) (Agree.trans hl hkk.symm)).more ?_
              intro f hf
              simp only [List.mem_append] at hf ⊢
              rcases hf with hf | hf | hf
              · exact .inl hf
              · exact .inr (.inr hf)
              · exact .inr (.inl hf)
          -- the format of a number is absent
          have absent : ∀ {name : Str}, s.tok.kind = .ident ('.' :: name) → name ≠ c!"U16" → name ≠ c!"S16" →
              (Operand.immFormat z).run true (s.val v) = .abort ∨ ∃ v1, (Operand.immFormat z).run true (s.val v) = .ok () (s.val v1) := by
            intro name hk n1 n2
            refine same (s' := s) (ks := []) ⟨rfl, rfl⟩ ⟨rfl, .inr ⟨1, rfl, rfl, ?_, rfl⟩⟩ rfl rfl rfl
            intro x hx he
            rw [hk] at he
            simp only [List.cons_append, List.nil_append, Kind.ident.injEq, List.cons.injEq, true_and] at he
            subst he
            simp only [List.mem_cons, List.not_mem_nil, or_false] at hx
            rcases hx with hx | hx
            · exact n1 hx
            · exact n2 hx
          have other : ∀ {name : Str}, name ∈ [c!"S8", c!"S32", c!"U8", c!"U32"] → s.tok.kind = .ident ('.' :: name) →
              (runOperands (.immFormat z :: a') m' true (s.val v)).1.bad := by
            intro name hn hk
            rcases absent hk (by rintro rfl; simp at hn) (by rintro rfl; simp at hn) with h5 | ⟨v1, h5⟩
            · exact bad_abort h5
            · exact bad_ok h5 (refuses_run h2 hn hk)
          rcases hacc with ⟨k, i, rfl, ⟨name, rfl, hi, -⟩, -⟩ | ⟨w, x, hw, rfl, -⟩ | ⟨rfl, hno, -⟩
          · have hp' : Path s.tok s.ctx.cur [.ident ('.' :: name)] s1.tok s1.ctx.cur := by rw [e0.1, e0.2]; exact hp
            have hk : s.tok.kind = .ident ('.' :: name) := hp.1
            have hm := List.mem_of_getElem? hi
            simp only [List.mem_cons, List.not_mem_nil, or_false] at hm
            rcases hm with rfl | rfl | rfl | rfl
            · exact other (by simp) hk
            · rcases h4 with h4 | h4
              · rcases absent hk (by simp) (by simp) with h5 | ⟨v1, h5⟩
                · exact bad_abort h5
                · exact bad_ok h5 (refuses_run h4 (x := []) (by simp) hk)
              · -- a lone dot is the format of one row and the modifier of the other
                split at h4
                · rename_i _ _ d p1 t1 a2 _ _ d' p2 t2 b2 _
                  rw [Bool.and_eq_true, Bool.and_eq_true, Bool.and_eq_true] at h4
                  obtain ⟨⟨⟨g1, g2⟩, g3⟩, g4⟩ := h4
                  have hmod := hgb' (.dotTable (some d') p2 t2) (by simp)
                  have hmod' := hga' (.dotTable (some d) p1 t1) (by simp)
                  have hpo : ∀ {x y : Nat} {s : St}, s.tok.kind ≠ .ident c!".PO" → (Operand.po x y).run true s = .ok () s := by
                    intro x y s hne
                    simp [Operand.run, runPo, M.bind_def, getKind, Kind.equal, hne, M.pure]
                  rcases absent hk (by simp) (by simp) with h5 | ⟨v1, h5⟩
                  · exact bad_abort h5
                  refine bad_ok h5 (bad_ok (hpo (s := s.val v1) (by
                    rw [show (s.val v1).tok.kind = _ from hk]; simp)) ?_)
                  -- the modifier takes the dot
                  obtain ⟨i1, hi1, hi2⟩ : ∃ i, t1[i]? = some [] ∧ ∀ j < i, t1[j]? ≠ some [] := by
                    refine ⟨0, ?_, by simp⟩
                    rw [← List.head?_eq_getElem?]
                    exact beq_iff_eq.1 g1
                  have hrun := (Operand.run_iff (.dotTable (some d) p1 t1) hmod'.1 (s.val v1) hs _).2
                    ⟨[.ident ('.' :: [])], field p1 i1, 0, s1.tok, s1.ctx.cur, hp', ⟨rfl, .inl ⟨_, i1, rfl, ⟨[], rfl, hi1, hi2⟩, rfl⟩⟩, rfl⟩
                  have hrun' : (Operand.dotTable (some d) p1 t1).run true (s.val v1) = .abort ∨
                      ∃ v2, (Operand.dotTable (some d) p1 t1).run true (s.val v1) = .ok () (s1.val v2) := by
                    rcases DbgSame.operand (.dotTable (some d) p1 t1) (s.val v1) with h5 | h5
                    · exact .inl h5
                    · right
                      rw [hrun] at h5
                      refine ⟨v1 ||| field p1 i1, ?_⟩
                      rw [h5]
                      simp only [clears, St.set_zero]
                      clear hs1e
                      obtain ⟨c1, t1, o1⟩ := s1
                      dsimp only at e1 e2 e3
                      simp only [St.put, St.val, Out.ok.injEq, true_and]
                      rw [← e1, e2, e3]
                      simp
                  rcases hrun' with h6 | ⟨v2, h6⟩
                  · exact bad_abort h6
                  refine bad_ok h6 ?_
                  by_cases hmore : ∃ x ∈ c!"PO" :: t2, s1.tok.kind = .ident ('.' :: x)
                  · obtain ⟨x, hx, hxk⟩ := hmore
                    exact refuses_run g3 (s := s1.val v2) hx hxk
                  · rw [abort_cons, hpo (fun hc => hmore ⟨c!"PO", by simp, hc⟩)] at hb
                    simp only [reduceCtorEq, Out.ok.injEq, true_and, exists_eq_left', false_or] at hb
                    have hsk := skip_run (d := d') (a := p2) (t := t2) (s := s1) (fun x hx hc => hmore ⟨x, by simp [hx], hc⟩)
                    rcases abort_cons.1 hb with hb | ⟨s2, hr2, hb⟩
                    · exact (hu1.calm (o := .dotTable (some d') p2 t2) hmod.2 hs1 g2 hb).elim
                    have hu2 := hu1.run hmod.2 hs1 hr2
                    have hk2 := kept_run hmod.2 hs1 hr2
                    rcases hsk with hsk | ⟨v3, hsk⟩
                    · rw [hsk] at hr2; simp at hr2
                    rw [hsk] at hr2
                    simp only [Out.ok.injEq, true_and] at hr2
                    subst hr2
                    refine next g4 (fun o ho => hga' o (by simp [ho])) (fun o ho => hgb' o (by simp [ho])) (s := s1.val v3) hs1 hu2 (v := v2) ?_ hb
                    have j1 := kept_run hmod'.2 (s := s.val v1) hs h6
                    have j2 := kept_run hx.2 (s := s.val v) hs h5
                    refine (j1.trans (j2.trans (hl.trans (hkk.symm.trans hk2.symm)))).more ?_
                    intro f hf
                    simp only [List.mem_append] at hf ⊢
                    grind
                · simp at h4
            · exact go hp' ⟨rfl, .inl ⟨_, 1, rfl, ⟨c!"S16", rfl, rfl, by decide⟩, rfl⟩⟩
            · exact other (by simp) hk
          · have hk : s.tok.kind = .ident w := hp.1
            have hp' : Path s.tok s.ctx.cur [.ident w] s1.tok s1.ctx.cur := by rw [e0.1, e0.2]; exact hp
            simp only [List.mem_cons, List.not_mem_nil, or_false, Prod.mk.injEq] at hw
            rcases hw with ⟨rfl, -⟩ | ⟨rfl, -⟩ | ⟨rfl, -⟩
            · exact other (name := c!"U8") (by simp) hk
            · exact go hp' ⟨rfl, .inl ⟨_, 0, rfl, ⟨c!"U16", rfl, rfl, by decide⟩, rfl⟩⟩
            · exact other (name := c!"U32") (by simp) hk
          · refine go (ks := []) (by rw [e0.1, e0.2]; exact hp) ⟨rfl, .inr ⟨1, rfl, rfl, ?_, rfl⟩⟩
            rw [e0.1]
            intro x hx
            exact hno x (by
              simp only [List.mem_cons, List.not_mem_nil, or_false] at hx ⊢
              grind)
        · simp at h

/-- Every row against the rows behind it. -/
def fleeTable : List Insn → Bool
  | [] => true
  | r :: rs => (rs.all fun r' => r'.mnemonic != r.mnemonic ||
      chase 40 ((16, 4) :: setBits r.opcode) (setBits r'.opcode ++ setBits r.opcode) r'.operands r.operands ||
      flee 40 ((16, 4) :: setBits r.opcode) (setBits r'.opcode ++ setBits r.opcode) r'.operands r.operands) && fleeTable rs

theorem table_flee : fleeTable insnTable = true := by decide +kernel

theorem fleeTable_split {pre post : List Insn} {row row' : Insn} (h : fleeTable (pre ++ row :: post) = true)
    (hr : row' ∈ pre) (hm : row'.mnemonic = row.mnemonic) :
    chase 40 ((16, 4) :: setBits row'.opcode) (setBits row.opcode ++ setBits row'.opcode) row.operands row'.operands = true ∨
      flee 40 ((16, 4) :: setBits row'.opcode) (setBits row.opcode ++ setBits row'.opcode) row.operands row'.operands = true := by
  induction pre with
  | nil => simp at hr
  | cons r pre ih =>
    rw [List.cons_append, fleeTable, Bool.and_eq_true] at h
    rcases List.mem_cons.1 hr with rfl | hr
    · have := List.all_eq_true.1 h.1 row (by simp)
      simpa [hm, or_assoc] using this
    · exact ih h.2 hr

/-- Behind a row in which an assertion fails, every row with the mnemonic is refused, or an assertion fails in it. -/
theorem later_row_clash {pre post : List Insn} {row row' : Insn} (hs : insnTable = pre ++ row :: post) (hr : row' ∈ pre)
    (hm : row'.mnemonic = row.mnemonic) {s : St} {g : Option (Nat × Bool)} (hg : ∀ p n, g = some (p, n) → p ≤ 7)
    (hop : s.op = ⟨guardWord g, 0, 0⟩) (h : (parseInsn row' true s).1 = .abort) : (parseInsn row true s).1.bad := by
  have hin : row ∈ insnTable := by rw [hs]; simp
  have hin' : row' ∈ insnTable := by rw [hs]; simp [hr]
  refine row_clash hin' hin (fun hp hu _ hag hab => ?_) hg hop h
  rcases fleeTable_split (hs ▸ table_flee) hr hm with hc | hc
  · exact chase_run hc (fun o ho => ⟨table_grammatical row hin o ho, table_regular row hin o ho⟩)
      (fun o ho => ⟨table_grammatical row' hin' o ho, table_regular row' hin' o ho⟩) hp hu hag (m' := 1) hab
  · exact flee_run hc (fun o ho => ⟨table_grammatical row hin o ho, table_regular row hin o ho⟩)
      (fun o ho => ⟨table_grammatical row' hin' o ho, table_regular row' hin' o ho⟩) hp hu hag (m' := 1) hab

/-- If a row accepts the text without a failing assertion, no assertion fails in the row loop. -/
theorem tryRows_calm {row : Insn} (hin : row ∈ insnTable) {s s1 : St} {g : Option (Nat × Bool)} (hg : ∀ p n, g = some (p, n) → p ≤ 7)
    (hs : s.op = ⟨guardWord g, 0, 0⟩) (hm : s.tok.kind = .ident row.mnemonic) (h : (parseInsn row true s).1 = .ok () s1) :
    tryRows s.tok s insnTable none true s ≠ .abort := by
  intro ha
  obtain ⟨row', t0, c0, os, o, os', ks, v, r, t, c, more, hin', hm', e1, e2, e3, e4, e5, e6, e7⟩ := (tryRows_clash hm hg hs).1 ha
  have hrow := (parseInsn_clash hin' hg hs).2 ⟨t0, c0, os, o, os', ks, v, r, t, c, more, e1, e2, e3, e4, e5, e6, e7⟩
  have hbad : (parseInsn row true s).1.bad := by
    by_cases heq : row = row'
    · exact .inl (heq ▸ hrow)
    obtain ⟨pre, post, h1⟩ := List.append_of_mem hin
    have : row' ∈ pre ∨ row' ∈ post := by
      rw [h1] at hin'
      simpa [Ne.symm heq] using hin'
    rcases this with hr | hr
    · exact later_row_clash h1 hr hm' hg hs hrow
    · obtain ⟨p1, p2, h2⟩ := List.append_of_mem hr
      exact earlier_row_clash (pre := pre ++ row :: p1) (post := p2) (by rw [h1, h2]; simp) (by simp) hm'.symm hg hs hrow
  rw [h] at hbad
  rcases hbad with hb | ⟨e, s', hb⟩ <;> simp at hb

end Nxas
