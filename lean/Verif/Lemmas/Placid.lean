import Verif.Lemmas.Flee
import Verif.Lemmas.Locality
import Verif.Lemmas.Mend
import Verif.Lemmas.Retarget
import Verif.Lemmas.Solid
/-
Every image has a source in which no assertion fails.
-/

namespace Nxas

open Spec

/-! ### One row -/

/-- No assertion fails in operands whose tokens are all quiet. -/
theorem guarded_runs {os : List Operand} {used : List Field} (hk : known used os = true)
    (hg : ∀ o ∈ os, o.grammatical = true ∧ o.regular = true) {s : St} (hs : s.tok.kind.proper) (hu : UsedIn used s) {ks : List Kind} {k : Kind}
    {v' : BitVec 64} {r : BitVec 32} (h : Guarded Quiets s.ctx.env os s.op.value ks k v' r) {t : Token} {c : Cur}
    (hp : Path s.tok s.ctx.cur ks t c) (ht : t.kind = k) {n : Nat} : (runOperands os n true s).1 ≠ .abort := by
  induction os generalizing used s ks v' r n with
  | nil => simp [runOperands]
  | cons o os ih =>
    have ho := hg o (by simp)
    generalize hv : s.op.value = v at h
    cases h with | @cons _ _ _ b _ ks1 ks2 _ r1 r2 h1 h2 h3 =>
    rw [Ne, abort_cons]
    rintro (ha | ⟨s1, hr, ha⟩)
    · obtain ⟨more, m1, -⟩ := (known_abort hk ho hs hu).1 ha
      rw [hp.head, hv, ht] at m1
      exact h2 more m1
    · obtain ⟨t1, c1, p1, p2⟩ := Path.append_iff.1 hp
      have hrun := (Operand.run_iff o ho.1 s hs _).2 ⟨ks1, b, r1, t1, c1, p1, by rw [hv, p2.head, ht]; exact h1, rfl⟩
      have hrel := ok_debug (DbgSame.operand o) hr
      rw [hrun] at hrel
      simp only [Out.ok.injEq, true_and] at hrel
      rw [known, Bool.and_eq_true] at hk
      have hu1 := hu.run ho.2 hs hr
      have hs1 := proper_run ho.1 hs hr
      subst hrel
      rw [← hv] at h3
      exact ih hk.2 (fun x hx => hg x (by simp [hx])) hs1 hu1 (v' := v') (r := r2) h3 p2 ha

/-- A row accepts a text with quiet tokens without a failing assertion. -/
theorem parseInsn_quiets {row : Insn} (hr : row ∈ insnTable) {s : St} {g : Option (Nat × Bool)} (hg : ∀ p n, g = some (p, n) → p ≤ 7)
    (hs : s.op = ⟨guardWord g, 0, 0⟩) {ks ks' : List Kind} {v : BitVec 64} {r : BitVec 32} {t0 t : Token} {c0 c : Cur}
    (h : Guarded Quiets s.ctx.env row.operands (field 16 (guardBits g).toNat ||| row.opcode) ks (ks'.headD .semicolon) v r)
    (ht0 : tokenize s.ctx.cur = .ok t0 c0) (hp : Path t0 c0 (ks ++ ks') t c) (ht : t.kind = .semicolon) : (parseInsn row true s).1 ≠ .abort := by
  intro ha
  unfold parseInsn at ha
  rw [startInsn_same hr hg hs] at ha
  cases h1 : startInsn row false s with
  | ok a s1 =>
    rw [h1] at ha
    dsimp only at ha
    obtain ⟨t1, c1, ht1, hf, rfl⟩ := (startInsn_iff _).1 h1
    rw [ht0] at ht1
    obtain ⟨rfl, rfl⟩ : t0 = t1 ∧ c0 = c1 := by simpa using ht1
    have hinv : TokInv s.ctx.cur (s.at t0 c0 { s.op with value := s.op.value ||| row.opcode }) := ⟨s.ctx.cur, Reach.refl _, ht0⟩
    have hu := used_start (row := row) hg (s := s.at t0 c0 { s.op with value := s.op.value ||| row.opcode }) (by simp [St.at, hs])
    obtain ⟨t2, c2, p1, p2⟩ := Path.append_iff.1 hp
    have hq := guarded_runs (List.all_eq_true.1 table_clash_known row hr)
      (fun o ho => ⟨table_grammatical row hr o ho, table_regular row hr o ho⟩) hinv.proper hu (ks := ks) (k := ks'.headD .semicolon) (v' := v) (r := r)
      (by
        rw [← guardWord_eq hg] at h
        simpa [St.at, hs, Ctx.env] using h) (t := t2) (c := c2) p1 (by rw [p2.head, ht]) (n := 1)
    obtain ⟨x, hx⟩ : ∃ x, runOperands row.operands 1 true (s.at t0 c0 { s.op with value := s.op.value ||| row.opcode }) = x := ⟨_, rfl⟩
    rw [hx] at ha hq
    obtain ⟨x1, x2⟩ := x
    cases x1 with
    | ok a s2 => exact absurd ha (Calm.finishInsn _ _)
    | abort => exact hq rfl
    | _ => simp at ha
  | abort =>
    rw [← startInsn_same hr hg hs] at h1
    exact absurd h1 (startInsn_calm hr hg hs)
  | _ => rw [h1] at ha; simp at ha

/-! ### One instruction -/

/-- No assertion fails in an instruction if none does in its row. -/
theorem insn_calm {x : Ctx} {t : Token} {c1 c : Cur} {ts : List Token} (ht : tokenize x.cur = .ok t c1) (hr : ReadsT c1 ts c)
    {g : Option (Nat × Bool)} {row : Insn} (hrow : row ∈ insnTable) {ks : List Kind} {op : Op}
    (hkk : (t :: ts).map Token.kind = guardTokens g ++ .ident row.mnemonic :: (ks ++ [.semicolon]))
    (h : RowText ⟨x.labels.find, alignPc x.pc⟩ row g ks op)
    (hq : ∀ {s : St} {t0 t' : Token} {c0 c' : Cur}, (∀ p n, g = some (p, n) → p ≤ 7) → s.op = ⟨guardWord g, 0, 0⟩ →
      s.ctx.env = ⟨x.labels.find, alignPc x.pc⟩ → tokenize s.ctx.cur = .ok t0 c0 → Path t0 c0 ks t' c' → t'.kind = .semicolon →
      (parseInsn row true s).1 ≠ .abort) : parseInstruction insnTable true x.fresh ≠ .abort := by
  have ho : t.isOption = false := by
    have := (C70_grammar.2 ⟨g, row, hrow, ks, hkk, h⟩ : InstrText ⟨x.labels.find, alignPc x.pc⟩ ((t :: ts).map Token.kind) op)
    exact this.not_option
  have hkk' : (t :: ts).map Token.kind = (guardTokens g ++ .ident row.mnemonic :: ks) ++ [.semicolon] := by
    rw [hkk, List.append_assoc, List.cons_append]
  obtain ⟨t', hpath, hsemi⟩ := hr.path hkk'
  obtain ⟨t2, c2, p1, hk2, t0, c0, h0, p2⟩ := Path.append_iff.1 hpath
  have hmain : parsePrologue true ⟨{ x with cur := c1 }, t, {}⟩ = .ok () ⟨{ x with cur := c2, pc := alignPc x.pc }, t2, ⟨guardWord g, 0, 0⟩⟩ ∧
      ∀ p n, g = some (p, n) → p ≤ 7 := by
    rw [parsePrologue_eq]
    rcases g with - | ⟨p, n⟩
    · obtain ⟨rfl, rfl⟩ := p1
      rw [prologueBody_none (mn := row.mnemonic) hk2 rfl]
      exact ⟨rfl, by simp⟩
    · obtain ⟨k1, t3, c3, e3, k3, t4, c4, e4, rfl, rfl⟩ := p1
      rw [prologueBody_some (mn := row.mnemonic) k1 e3 k3 e4 hk2 rfl]
      refine ⟨rfl, ?_⟩
      have hw := (tokenize_ok e3).wf
      rw [k3] at hw
      intro p' n' hg
      simp only [Option.some.injEq, Prod.mk.injEq] at hg
      rw [← hg.1]; exact hw
  obtain ⟨m1, m3⟩ := hmain
  have hk : t.kind ≠ .none := by
    intro hk
    have := congrArg List.head? hkk'
    rcases g with - | ⟨p, n⟩ <;> simp [guardTokens, hk] at this
  have hcalm := hq (s := ⟨{ x with cur := c2, pc := alignPc x.pc }, t2, ⟨guardWord g, 0, 0⟩⟩) m3 rfl rfl h0 p2 hsemi
  have hok := (parseInsn_iff hrow (s := ⟨{ x with cur := c2, pc := alignPc x.pc }, t2, ⟨guardWord g, 0, 0⟩⟩) m3 rfl _).2
    ⟨t0, c0, ks, op, t', c, h0, p2, hsemi, h, rfl⟩
  have hok' : ∃ s1, (parseInsn row true ⟨{ x with cur := c2, pc := alignPc x.pc }, t2, ⟨guardWord g, 0, 0⟩⟩).1 = .ok () s1 := by
    rcases parseInsn_debug row ⟨{ x with cur := c2, pc := alignPc x.pc }, t2, ⟨guardWord g, 0, 0⟩⟩ with h5 | h5
    · exact absurd h5 hcalm
    · exact ⟨_, by rw [h5]; exact hok⟩
  obtain ⟨s1, hok'⟩ := hok'
  have htry := tryRows_calm hrow (s := ⟨{ x with cur := c2, pc := alignPc x.pc }, t2, ⟨guardWord g, 0, 0⟩⟩) m3 rfl hk2 hok'
  rw [parseInstruction_eq, Ctx.fresh_advance ht]
  dsimp only [Out.bind]
  rw [if_neg hk]
  unfold insnBody
  rw [parseOptions_succ, if_neg (by simp [ho])]
  dsimp only [Out.bind]
  rw [m1]
  dsimp only
  intro ha
  apply htry
  generalize tryRows t2 _ insnTable none true _ = y at ha ⊢
  cases y <;> simp at ha ⊢

theorem Quiets.like (v : BitVec 64) (o : Operand) (k k' : Kind) (h : Like k k') (hq : Quiets v o k) : Quiets v o k' := by
  rcases h with rfl | ⟨x, rfl⟩ | ⟨x, rfl⟩
  · exact hq
  · intro more hc
    generalize hl : Kind.imm x :: more = l at hc
    cases hc with
    | operation hk => obtain ⟨name, rfl, -⟩ := hk; simp at hl
    | part hk => obtain ⟨name, rfl, -⟩ := hk; simp at hl
    | _ => simp at hl
  · intro more hc
    generalize hl : Kind.fimm x :: more = l at hc
    cases hc with
    | operation hk => obtain ⟨name, rfl, -⟩ := hk; simp at hl
    | part hk => obtain ⟨name, rfl, -⟩ := hk; simp at hl
    | _ => simp at hl

/-- Every instruction has a text in which no assertion fails, with the same word. -/
theorem calm_text {e : Env} {i : Nat} (he : e.pc = addressOf i) (hi : addressOf i < 2 ^ 62) {ts : List Kind} {op : Op}
    (hi' : InstrText e ts op) (hw : ∀ x ∈ ts, Writable x) :
    ∃ u, (∀ x ∈ u, Fine x ∧ Tidy x) ∧ InstrText (bareEnv i) u op ∧ ¬ Unsound u := by
  obtain ⟨g, row, hrow, ks, rfl, h⟩ := C70_grammar.1 hi'
  obtain ⟨hgd, ho, ha⟩ := h
  rename_i ks ks' v r as
  obtain ⟨hm, hs⟩ := table_shown row hrow
  obtain ⟨hap1, hap2⟩ := table_numbers row hrow
  have hg := table_grammatical row hrow
  have hreg := table_regular row hrow
  have ht : ∀ o ∈ row.operands, o.target = false ∨ o = .label := fun o ho => (table_peeks row hrow o ho).2
  have hw1 : ∀ x ∈ ks, Writable x := fun x hx => hw x (by simp [hx])
  have hwm : Writable (.ident row.mnemonic) := hw _ (by simp)
  have hclose (as : List Annot) (ks : List Kind) (h : AnnotsText as ks) : ks.headD .semicolon = .at ∨ ks.headD .semicolon = .semicolon := by
    have := annots_head h
    cases ks with
    | nil => exact .inr rfl
    | cons x xs => exact .inl this
  -- annotations
  obtain ⟨hs1, hs2, hs3⟩ := sched_parts ha
  obtain ⟨ha1, ha2⟩ := annotsOf_bits hs1 hs2 hs3
  generalize hnotes : (annotsOf (schedBits as)).flatMap Annot.tokens = notes at ha1
  have ho := sequence_close ho (hclose _ _ ha1) (hclose _ _ ha)
  have hk : Writable (notes.headD .semicolon) := by rcases hclose _ _ ha1 with h | h <;> rw [h] <;> trivial
  have hstart : ∀ p, (field 16 (guardBits g).toNat ||| row.opcode).getLsbD p = true → inF ((16, 4) :: setBits row.opcode) p := by
    intro p hp
    rw [inF_cons, inF_setBits]
    exact (start_bit hp).symm
  -- operands
  have hz : ∀ o ∈ row.operands, ∀ f ∈ o.num, bitsAt (field 16 (guardBits g).toNat ||| row.opcode) f.1 f.2 = 0 := by
    intro o ho f hf
    refine bitsAt_none fun p h1 h2 => ?_
    by_contra hne
    rw [Bool.not_eq_false] at hne
    exact not_inF_of_apart (hap2 o ho) ⟨f, hf, h1, h2⟩ (hstart p hne)
  have hseq : ∃ ks3, Sequence (bareEnv i) row.operands (field 16 (guardBits g).toNat ||| row.opcode) ks3 (notes.headD .semicolon) v r ∧
      (∀ x ∈ ks3, Fine x) ∧ (row.apart = true ∨
        Guarded Quiets (bareEnv i) row.operands (field 16 (guardBits g).toNat ||| row.opcode) ks3 (notes.headD .semicolon) v r) := by
    rcases table_mendable row hrow with hap | hmend
    · obtain ⟨kss, -, -, h3, h4⟩ := sequence_texts hg hreg ht hs hap1 (fun o ho p => cleared_mem ho) (e' := bareEnv i) he.symm
        (by rw [he]; exact hi) ho hw1 hk hz (sub_self _ r)
      exact ⟨_, h3, h4, .inl hap⟩
    · obtain ⟨ks2, g1, g2, -⟩ := mend ho hmend hstart (hclose _ _ ha1) hg hreg ht hw1
      obtain ⟨kss, -, -, h3, h4⟩ := guarded_texts Quiets.like hg hreg ht hs hap1 (fun o ho p => cleared_mem ho) (e' := bareEnv i) he.symm
        (by rw [he]; exact hi) g1 g2 hk hz (sub_self _ r)
      exact ⟨_, h3.sequence, h4, .inr h3⟩
  obtain ⟨ks3, h3, h4, h5⟩ := hseq
  have hrt : RowText (bareEnv i) row g (ks3 ++ notes) ⟨v, r, BitVec.ofNat 32 (schedBits as)⟩ := by
    have := RowText.mk (g := g) (row := row) hgd h3 ha1
    rwa [ha2] at this
  have hinstr : InstrText (bareEnv i) (guardTokens g ++ .ident row.mnemonic :: (ks3 ++ notes ++ [.semicolon])) ⟨v, r, BitVec.ofNat 32 (schedBits as)⟩ :=
    C70_grammar.2 ⟨g, row, hrow, _, rfl, hrt⟩
  have hfine : ∀ x ∈ guardTokens g ++ .ident row.mnemonic :: (ks3 ++ notes ++ [.semicolon]), Fine x := by
    intro x hx
    simp only [List.mem_append, List.mem_cons, List.not_mem_nil, or_false] at hx
    rcases hx with hx | rfl | (hx | hx) | rfl
    · refine ⟨hw x (by simp [hx]), ?_⟩
      rcases g with - | ⟨p, n⟩
      · simp [guardTokens] at hx
      · simp only [guardTokens, List.mem_cons, List.not_mem_nil, or_false] at hx
        rcases hx with rfl | rfl <;> rfl
    · exact ⟨hwm, hm⟩
    · exact h4 x hx
    · rw [← hnotes] at hx
      exact annots_fine x hx
    · exact ⟨trivial, rfl⟩
  have htidy : ∀ x ∈ guardTokens g ++ .ident row.mnemonic :: (ks3 ++ notes ++ [.semicolon]), Tidy x := by
    rcases instr_retarget hinstr with ⟨h1, -⟩ | ⟨pre, m, mid, t, x, next, post, e1, -, f1, f2, f3, f4, f5, f6, -⟩
    · exact fun x hx => (h1 x hx).2
    · rw [e1]
      intro y hy
      simp only [List.mem_append, List.mem_cons] at hy
      rcases hy with hy | rfl | hy | rfl | rfl | hy
      · exact (f2 y hy).2
      · exact f1
      · exact (f3 y hy).1
      · cases f6 with
        | label h => simp at h
        | number => trivial
      · rcases f4 with rfl | rfl <;> trivial
      · exact (f5 y hy).2
  refine ⟨_, fun x hx => ⟨hfine x hx, htidy x hx⟩, hinstr, ?_⟩
  rintro ⟨e', kk, hpre, hclash⟩
  generalize hu : guardTokens g ++ .ident row.mnemonic :: (ks3 ++ notes ++ [.semicolon]) = u at hpre hfine hinstr
  obtain ⟨q1, q2, -⟩ := textOf_scans hfine
  have hpre' : kk.map (fun k => (k, 0)) <+: u.map fun k => (k, 0) := List.IsPrefix.map _ hpre
  obtain ⟨as1, p1, p2⟩ := (starts_iff (c := ⟨textOf u, 0, 0⟩) q2).1 (starts_of_scans q1 hpre')
  obtain ⟨bs, ⟨c, l1, -⟩, l2⟩ := (scans_iff (c := ⟨textOf u, 0, 0⟩) q2).1 q1
  have hkinds {zs : List Token} {us : List Kind} (h : us.map (fun k => (k, 0)) = zs.map Token.pair) : zs.map Token.kind = us := by
    have := congrArg (List.map Prod.fst) h
    simpa [Function.comp_def, Token.pair] using this.symm
  have hb := hkinds l2
  have hc := hkinds p2
  have hbs : bs ≠ [] := by
    rintro rfl
    rw [← hu] at hb
    simp at hb
  obtain ⟨t, bs', rfl⟩ := List.exists_cons_of_ne_nil hbs
  have has : as1 ≠ [] := by
    rintro rfl
    exact Spec.InsnClash.ne_nil hclash hc.symm
  obtain ⟨t', as', rfl⟩ := List.exists_cons_of_ne_nil has
  cases l1 with | @cons _ c1 _ _ _ ht hk1 hr =>
  have htt : t' = t := by
    cases p1 with
    | last h => rw [ht] at h; simp only [TokRes.ok.injEq] at h; exact h.1.symm
    | cons h _ _ => rw [ht] at h; simp only [TokRes.ok.injEq] at h; exact h.1.symm
  subst htt
  have hopt : t'.isOption = false := by
    rw [← hb] at hinstr
    exact hinstr.not_option
  have hbare : (⟨Labels.find [], alignPc (addressOf i)⟩ : Env) = bareEnv i := by rw [alignPc_address]; rfl
  have hab := (insn_clash (x := ⟨⟨textOf u, 0, 0⟩, [], addressOf i, {}⟩) (i := i) (alignPc_address i) ht hopt).2
    ⟨as', p1, by rw [hc]; exact Spec.InsnClash.still hclash⟩
  refine insn_calm (x := ⟨⟨textOf u, 0, 0⟩, [], addressOf i, {}⟩) ht hr hrow (ks := ks3 ++ notes) (g := g)
    (op := ⟨v, r, BitVec.ofNat 32 (schedBits as)⟩) (by rw [hb, ← hu]) (by rw [hbare]; exact hrt) ?_ hab
  intro s t0 t' c0 c' hg1 hop henv ht0 hp hsemi
  rcases h5 with h5 | h5
  · exact parseInsn_calm hrow h5 hg1 hop
  · refine parseInsn_quiets hrow hg1 hop (ks := ks3) (ks' := notes) (v := v) (r := r) ?_ ht0 hp hsemi
    rw [henv, hbare]
    exact h5

/-! ### Sources -/

theorem textOf_semicolons {ks : List Kind} (h : ∀ k ∈ ks, Fine k ∧ Tidy k) : (textOf ks).count ';' = ks.count .semicolon := by
  induction ks with
  | nil => rfl
  | cons k ks ih =>
    have hk := h k (by simp)
    obtain ⟨-, -, hl⟩ := kind_text hk.1.1
    have h1 := count_lexeme (hl [] (by intro c hc; simp at hc)) hk.2
    have h2 := ih fun x hx => h x (by simp [hx])
    rw [show textOf (k :: ks) = textOf [k] ++ textOf ks from textOf_append [k] ks, List.count_append, h2, List.count_cons]
    have h3 : (textOf [k]).count ';' = k.text.count ';' := by simp [textOf]
    rw [h3, h1]
    by_cases hs : k = .semicolon
    · simp [hs]; omega
    · simp [hs]

/-- Every list of instructions has a text in which no assertion fails. -/
theorem calm_texts {lab : Str → Option Nat} {i : Nat} {ops : List Op} (h : Texts lab i ops) (ha : ∀ j < ops.length, addressOf (i + j) < 2 ^ 62) :
    ∃ ks us, (∀ x ∈ ks, Fine x ∧ Tidy x) ∧ (∀ o, Program (fun _ => none) i o (ks.map fun k => (k, 0)) ops o) ∧ Splits ks us ∧
      (∀ u ∈ us, ¬ Unsound u) ∧ us.length = ks.count .semicolon ∧ us.length = ops.length := by
  induction ops generalizing i with
  | nil => exact ⟨[], [], by simp, fun o => .done, .done, by simp, rfl, rfl⟩
  | cons op ops ih =>
    obtain ⟨⟨ts, hw, ht⟩, hr⟩ := h
    obtain ⟨ks, us, h1, h2, h3, h4, h5, h6⟩ := ih hr fun j hj => by
      have := ha (j + 1) (by simpa using hj)
      rwa [show i + (j + 1) = i + 1 + j by omega] at this
    obtain ⟨u, u1, u2, u3⟩ := calm_text (e := ⟨lab, addressOf i⟩) rfl (ha 0 (by simp)) ht hw
    obtain ⟨k, rest, rfl, hk⟩ := InstrText.start u2
    obtain ⟨ks', e1, e2⟩ := instr_semicolon u2
    have hne : ks' ≠ [] := by
      rintro rfl
      obtain ⟨rfl, rfl⟩ : k = .semicolon ∧ rest = [] := by simpa using e1
      obtain ⟨g, row, -, r, hg, -⟩ := C70_grammar.1 u2
      have := congrArg List.length hg
      simp at this
      omega
    obtain ⟨k', ks', rfl⟩ := List.exists_cons_of_ne_nil hne
    obtain ⟨rfl, rfl⟩ : k = k' ∧ rest = ks' ++ [.semicolon] := by simpa using e1
    refine ⟨_, (k :: ks' ++ [.semicolon]) :: us, ?_, fun o => program_one u2 (h2 o), ?_, ?_, ?_, by simp [h6]⟩
    · intro x hx
      rcases List.mem_append.1 hx with hx | hx
      · exact u1 x hx
      · exact h1 x hx
    · have := Splits.insn hk e2 h3
      simpa using this
    · intro u hu
      rcases List.mem_cons.1 hu with rfl | hu
      · exact u3
      · exact h4 u hu
    · have : (k :: ks').count .semicolon = 0 := List.count_eq_zero.2 e2
      rw [← List.cons_append, List.count_append, List.count_append, this, ← h5]
      simp
      omega

/-- The image of a source without container is that of a source in which no assertion fails. -/
theorem calm_source {t : Str} (hz : '\x00' ∉ t) {lab : Str → Option Nat} {ts : List (Kind × Nat)} {ops : List Op} {o : Opts}
    (hs : Scans 0 t ts) (hp : Program lab 0 {} ts ops o) (hl : (groups ops).length < 2 ^ 58) :
    ∃ code ks us, '\x00' ∉ code ∧ '\n' ∉ code ∧ Gap code ∧ Scans 0 code (ks.map fun k => (k, 0)) ∧ Program (fun _ => none) 0 {} (ks.map fun k => (k, 0)) ops {} ∧
      Splits ks us ∧ (∀ u ∈ us, ¬ Unsound u) ∧ us.length = code.count ';' := by
  obtain ⟨ks, us, h1, h2, h3, h4, h5, -⟩ := calm_texts (program_texts hp (written_writable (hs.written hz))) (by
    intro j hj
    rw [groups_size] at hl
    unfold addressOf
    omega)
  obtain ⟨q1, q2, q3⟩ := textOf_scans fun k hk => (h1 k hk).1
  exact ⟨textOf ks, ks, us, q2, q3, textOf_gap ks, q1, h2 {}, h3, h4, by rw [h5, textOf_semicolons h1]⟩

end Nxas
