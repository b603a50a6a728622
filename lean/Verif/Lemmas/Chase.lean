import Verif.Lemmas.Clash
/-
Rows before the one whose assertion fails: their assertion fails as well, or they do not accept the instruction.
-/

namespace Nxas

open Spec

/-- The state with another instruction word. -/
def St.val (s : St) (v : BitVec 64) : St := { s with op := { s.op with value := v } }

/-- Two words agree outside the given fields. -/
def Agree (lost : List Field) (v w : BitVec 64) : Prop := ∀ i, ¬ inF lost i → v.getLsbD i = w.getLsbD i

/-- The fields of an operand do not meet the given ones. -/
def Field.clear (fs gs : List Field) : Bool := fs.all fun f => gs.all f.apart

/-- The outcome is a failed assertion or an error. -/
def Out.bad (r : Out Unit) : Prop := r = .abort ∨ ∃ e s, r = .fail e s

theorem abort_cons {o : Operand} {os : List Operand} {n : Nat} {s : St} : (runOperands (o :: os) n true s).1 = .abort ↔
    o.run true s = .abort ∨ ∃ s1, o.run true s = .ok () s1 ∧ (runOperands os (n + 1) true s1).1 = .abort := by
  rw [runOperands]
  cases h : o.run true s with
  | ok a s1 => simp
  | _ => simp

theorem bad_abort {o : Operand} {os : List Operand} {n : Nat} {s : St} (h : o.run true s = .abort) :
    (runOperands (o :: os) n true s).1.bad := by
  rw [runOperands, h]; exact .inl rfl

theorem bad_fail {o : Operand} {os : List Operand} {n : Nat} {s s' : St} {e : Err} (h : o.run true s = .fail e s') :
    (runOperands (o :: os) n true s).1.bad := by
  rw [runOperands, h]; exact .inr ⟨e, s', rfl⟩

theorem bad_ok {o : Operand} {os : List Operand} {n : Nat} {s s1 : St} (h : o.run true s = .ok () s1)
    (h1 : (runOperands os (n + 1) true s1).1.bad) : (runOperands (o :: os) n true s).1.bad := by
  rw [runOperands, h]; exact h1

/-! ### The same operand on another word -/

/-- The syntax of the operand does not depend on the word. -/
def Operand.blind : Operand → Bool
  | .flag .. | .uint .. | .dotTable .. | .uimmExtended | .comma | .gpr _ | .cbuf | .imm20 | .bop _ | .pred .. | .neg _ | .po ..
  | .expect .. | .memAddress .. | .srcFormat .. | .immFormat _ => true
  | _ => false

/-- The syntax of the operand does not depend on the given fields. -/
def Operand.alike (lost : List Field) : Operand → Bool
  | .selector _ ta _ _ _ => Field.clear [(ta, 3)] lost
  | o => o.blind

theorem Operand.alike_accepts {o : Operand} {lost : List Field} (h : o.alike lost = true) {v w : BitVec 64} (ha : Agree lost v w)
    (e : Env) : Accepts e v o = Accepts e w o ∧ clears o = 0 := by
  cases o with
  | selector a ta sh x y =>
    refine ⟨?_, rfl⟩
    have : bitsAt v ta 3 = bitsAt w ta 3 := by
      refine bitsAt_congr fun i h1 h2 => ha i ?_
      exact not_inF_of_apart (fs := [(ta, 3)]) h ⟨(ta, 3), by simp, h1, h2⟩
    simp only [Accepts, this]
  | _ => first | exact ⟨rfl, rfl⟩ | simp [Operand.alike, Operand.blind] at h

theorem Agree.or {lost : List Field} {v w : BitVec 64} (h : Agree lost v w) (b : BitVec 64) : Agree lost (v ||| b) (w ||| b) := by
  intro i hi
  rw [BitVec.getLsbD_or, BitVec.getLsbD_or, h i hi]

theorem Agree.more {lost lost' : List Field} {v w : BitVec 64} (h : Agree lost v w) (hl : ∀ f ∈ lost, f ∈ lost') : Agree lost' v w :=
  fun i hi => h i fun ⟨f, hf, h1⟩ => hi ⟨f, hl f hf, h1⟩

/-- An operand that is read on one word is read in the same way on another one, or its assertion fails. -/
theorem sync_ok {o : Operand} (hg : o.grammatical = true) {lost : List Field} (ho : o.alike lost = true) {s s1 : St} {v : BitVec 64}
    (hs : s.tok.kind.proper) (ha : Agree lost v s.op.value) (h : o.run true s = .ok () s1) :
    o.run true (s.val v) = .abort ∨ ∃ v1, o.run true (s.val v) = .ok () (s1.val v1) ∧ Agree lost v1 s1.op.value := by
  rcases DbgSame.operand o s with h0 | h0
  · rw [h] at h0; simp at h0
  rw [h] at h0
  obtain ⟨ks, b, r, t, c, hp, hacc, rfl⟩ := (Operand.run_iff o hg s hs _).1 h0.symm
  obtain ⟨h1, h2⟩ := Operand.alike_accepts ho ha s.ctx.env
  have h3 := (Operand.run_iff o hg (s.val v) hs _).2 ⟨ks, b, r, t, c, hp, by rw [show (s.val v).op.value = v from rfl, show (s.val v).ctx = s.ctx from rfl, h1]; exact hacc, rfl⟩
  rcases DbgSame.operand o (s.val v) with h4 | h4
  · exact .inl h4
  · right
    rw [h3] at h4
    refine ⟨v ||| b, ?_, ?_⟩
    · rw [h4, h2]
      simp only [St.set_zero]; rfl
    · rw [h2, St.set_zero]; exact ha.or b

theorem field_inF {a n w i : Nat} (hn : n < 2 ^ w) (h : (field a n).getLsbD i = true) : a ≤ i ∧ i < a + w := by
  rw [field_bit] at h
  simp only [Bool.and_eq_true, decide_eq_true_eq] at h
  refine ⟨h.1.2, ?_⟩
  by_contra hc
  have : n < 2 ^ (i - a) := Nat.lt_of_lt_of_le hn (Nat.pow_le_pow_right (by omega) (by omega))
  rw [Nat.testBit_lt_two_pow this] at h
  simp at h

theorem and_ne_zero {v w b : BitVec 64} {lost : List Field} (ha : Agree lost v w) (hb : ∀ i, b.getLsbD i = true → ¬ inF lost i)
    (h : w &&& b ≠ 0) : v &&& b ≠ 0 := by
  intro h0
  apply h
  apply BitVec.eq_of_getLsbD_eq
  intro i hi
  have h1 := congrArg (fun x => x.getLsbD i) h0
  rw [BitVec.getLsbD_and] at h1 ⊢
  cases hbi : b.getLsbD i with
  | false => simp
  | true => rw [← ha i (hb i hbi), ← hbi]; exact h1

/-- An assertion that fails on one word fails on another one that agrees with it. -/
theorem sync_abort {o : Operand} (hg : o.grammatical = true) (h1 : o.single = true) {lost : List Field} (ho : o.alike lost = true)
    (hf : Field.clear o.fields lost = true) {s : St} {v : BitVec 64} (hs : s.tok.kind.proper)
    (hr : ∀ i, inF o.reuses i → s.op.bit i = false) (ha : Agree lost v s.op.value) (h : o.run true s = .abort) :
    o.run true (s.val v) = .abort := by
  have hr' : ∀ i, inF o.reuses i → (s.val v).op.bit i = false := by
    intro i hi
    have := hr i hi
    have hge : ¬ i < 64 := by
      obtain ⟨f, hf, h1, h2⟩ := hi
      unfold Operand.reuses at hf
      split at hf
      · unfold reuseFields at hf
        repeat' split at hf
        all_goals simp at hf
        all_goals
          subst hf
          dsimp only at h1
          omega
      · simp at hf
    unfold Op.bit at this ⊢
    rw [if_neg hge] at this ⊢
    exact this
  obtain ⟨more, h2, h3⟩ := (Operand.run_abort h1 hg hr).1 h
  refine (Operand.run_abort h1 hg hr').2 ⟨more, ?_, h3⟩
  show OperandClash v o (s.tok.kind :: more)
  have out : ∀ {i}, inF o.fields i → ¬ inF lost i := fun hi => not_inF_of_apart hf hi
  generalize hk : s.tok.kind = k at h2 hs
  cases h2 with
  | @sign a hc =>
    exact .sign (and_ne_zero ha (fun i hi => out ⟨(a, 1), by simp [Operand.fields], field_inF (by dsimp only; omega) hi⟩) hc)
  | @word w a hc =>
    exact .word (and_ne_zero ha (fun i hi => out ⟨(a, 1), by simp [Operand.fields], field_inF (by dsimp only; omega) hi⟩) hc)
  | @register a n hc =>
    have hn : n ≤ 255 := hs.1
    exact .register (and_ne_zero ha (fun i hi => out ⟨(a, 8), by simp [Operand.fields], field_inF (by dsimp only; omega) hi⟩) hc)
  | @operation a i _ hk hc =>
    have hi : i < 4 := by
      obtain ⟨name, -, h1, -⟩ := hk
      have := List.getElem?_eq_some_iff.1 h1
      simpa using this.1
    exact .operation hk (and_ne_zero ha (fun i hi => out ⟨(a, 2), by simp [Operand.fields], field_inF (by dsimp only; omega) hi⟩) hc)
  | @part a ta sh i x y _ _ hk hc =>
    have hb : bitsAt v ta 3 = bitsAt s.op.value ta 3 := by
      refine bitsAt_congr fun i h1 h2 => ha i ?_
      exact not_inF_of_apart (fs := [(ta, 3)]) ho ⟨(ta, 3), by simp, h1, h2⟩
    have hi : i ≤ max (x.length - 1) (y.length - 1) := by
      obtain ⟨name, -, h1, -⟩ := hk
      have := (List.getElem?_eq_some_iff.1 h1).1
      split at this <;> omega
    refine .part (by rw [hb]; exact hk) (and_ne_zero ha (fun i hi => out ⟨_, List.mem_singleton.2 rfl, field_inF (lt_width ?_) hi⟩) hc)
    assumption

/-! ### Tokens on which no assertion fails -/

/-- The operands do not read a token of the table first, unless they fail. -/
def sober (t : List Str) : List Field → List Operand → Bool
  | used, .flag s _ :: os => (t.all fun x => '.' :: x != s) && sober t used os
  | used, .po _ _ :: os => (t.all fun x => x != c!"PO") && sober t used os
  | used, .dotTable (some d) a t' :: os => (t.all fun x => !t'.contains x) &&
      Field.clear (Operand.dotTable (some d) a t').fields used &&
      sober t ((Operand.dotTable (some d) a t').fields ++ used) os
  | _, .bop _ :: _ => t.all fun x => ![c!"AND", c!"OR", c!"XOR", c!"INVALIDBOP3"].contains x
  | _, .gpr _ :: _ => true
  | _, .comma :: _ => true
  | _, _ => false

/-- The bits of a state are among the given fields. -/
def UsedIn (used : List Field) (s : St) : Prop := ∀ i, s.op.bit i = true → inF used i

theorem UsedIn.run {used : List Field} {o : Operand} (hr : o.regular = true) {s s1 : St} (hs : s.tok.kind.proper) (hu : UsedIn used s)
    (h : o.run true s = .ok () s1) : UsedIn (o.fields ++ used) s1 := by
  have hf := Operand.foot hr (dbg := true) hs.1
  unfold FootOf at hf
  rw [h] at hf
  intro i hi
  rw [inF_append]
  by_cases hin : inF o.fields i
  · exact .inl hin
  · rw [hf.2 i hin] at hi
    exact .inr (hu i hi)

theorem UsedIn.calm {used : List Field} {o : Operand} (hr : o.regular = true) {s : St} (hs : s.tok.kind.proper) (hu : UsedIn used s)
    (hc : Field.clear o.need used = true) : o.run true s ≠ .abort := by
  intro h
  have hf := Operand.foot hr (dbg := true) hs.1
  unfold FootOf at hf
  rw [h] at hf
  obtain ⟨-, i, h1, h2⟩ := hf
  exact not_inF_of_apart hc h1 (hu i h2)

theorem sober_run {t : List Str} {used : List Field} {os : List Operand} (h : sober t used os = true)
    (hr : ∀ o ∈ os, o.regular = true) {n : Nat} {s : St} (hs : s.tok.kind.proper) (hu : UsedIn used s)
    (ha : (runOperands os n true s).1 = .abort) : NoEntry c!"." t s.tok.kind := by
  intro x hx hk
  replace hk : s.tok.kind = .ident ('.' :: x) := hk
  induction os generalizing used n s with
  | nil => simp [sober] at h
  | cons o os ih =>
    rw [abort_cons] at ha
    have hro := fun o' ho' => hr o' (List.mem_cons_of_mem _ ho')
    cases o with
    | flag w a =>
      simp only [sober, Bool.and_eq_true] at h
      have hne := List.all_eq_true.1 h.1 x hx
      have hrun : (Operand.flag w a).run true s = .ok () s := by
        simp only [bne_iff_ne] at hne
        simp [Operand.run, runFlag, M.bind_def, getKind, hk, Kind.equal, hne, M.pure]
      rw [hrun] at ha
      simp only [reduceCtorEq, Out.ok.injEq, true_and, exists_eq_left', false_or] at ha
      exact ih h.2 hro hs hu ha hk
    | po a b =>
      simp only [sober, Bool.and_eq_true] at h
      have hne := List.all_eq_true.1 h.1 x hx
      have hrun : (Operand.po a b).run true s = .ok () s := by
        simp only [bne_iff_ne] at hne
        simp [Operand.run, runPo, M.bind_def, getKind, hk, Kind.equal, hne, M.pure]
      rw [hrun] at ha
      simp only [reduceCtorEq, Out.ok.injEq, true_and, exists_eq_left', false_or] at ha
      exact ih h.2 hro hs hu ha hk
    | dotTable d a t' =>
      cases d with
      | none => simp [sober] at h
      | some d =>
        simp only [sober, Bool.and_eq_true] at h
        have hne := List.all_eq_true.1 h.1.1 x hx
        rcases ha with ha | ⟨s1, h1, ha⟩
        · exact (hu.calm (o := .dotTable (some d) a t') (hr _ (by simp)) hs h.1.2 ha).elim
        · have hw := hu.run (hr _ (by simp)) hs h1
          have hno : findInTable true t' c!"." true s = .ok none s := by
            refine findInTable_none.2 ⟨rfl, ?_⟩
            intro y hy hky
            rw [hk] at hky
            simp at hky
            subst hky
            simp [hy] at hne
          simp only [Operand.run, runDotTable, M.bind_def, hno] at h1
          unfold addBits at h1
          split at h1
          · simp at h1
          · simp only [Out.ok.injEq, true_and] at h1
            have htok : s1.tok = s.tok := by rw [← h1]
            exact ih h.2 hro (by rw [htok]; exact hs) hw ha (by rw [htok]; exact hk)
    | bop a =>
      simp only [sober] at h
      have hne := List.all_eq_true.1 h x hx
      have hno : findInTable true [c!"AND", c!"OR", c!"XOR", c!"INVALIDBOP3"] c!"." true s = .ok none s := by
        refine findInTable_none.2 ⟨rfl, ?_⟩
        intro y hy hky
        rw [hk] at hky
        simp only [List.cons_append, List.nil_append, Kind.ident.injEq, List.cons.injEq, true_and] at hky
        subst hky
        rw [List.contains_iff_mem.2 hy] at hne
        simp at hne
      simp [Operand.run, runBop, M.bind_def, hno, failTok] at ha
    | gpr a => simp [Operand.run, assembleGpr, M.bind_def, confirmReg, hk] at ha
    | comma => simp [Operand.run, runComma, M.bind_def, confirm, hk] at ha
    | _ => simp [sober] at h

/-- The operands fail on a number. -/
def stuckImm : List Operand → Bool
  | .neg _ :: os => stuckImm os
  | .gpr _ :: _ => true
  | .cbuf :: _ => true
  | _ => false

theorem stuckImm_run {os : List Operand} (h : stuckImm os = true) {n : Nat} {s : St} {x : Int} (hk : s.tok.kind = .imm x) :
    (runOperands os n true s).1.bad := by
  induction os generalizing n with
  | nil => simp [stuckImm] at h
  | cons o os ih =>
    cases o with
    | neg a =>
      refine bad_ok (s1 := s) ?_ (ih h)
      simp [Operand.run, runSign, M.bind_def, getKind, hk, M.pure]
    | gpr a =>
      have : ∃ e s', (Operand.gpr a).run true s = .fail e s' := by simp [Operand.run, assembleGpr, M.bind_def, confirmReg, hk]
      obtain ⟨e, s', h⟩ := this
      exact bad_fail h
    | cbuf =>
      have : ∃ e s', Operand.cbuf.run true s = .fail e s' := by
        simp [Operand.run, runCbuf, blameStart, M.bind_def, getKind, hk, Kind.equal, failTok]
      obtain ⟨e, s', h⟩ := this
      exact bad_fail h
    | _ => simp [stuckImm] at h

/-- The operand is a number. -/
def Operand.number : Operand → Bool
  | .imm20 | .uimmExtended | .uint .. => true
  | _ => false

theorem number_run {o : Operand} (h : o.number = true) {s : St} (hf : ∀ e s', o.run true s ≠ .fail e s') : ∃ x, s.tok.kind = .imm x := by
  by_contra hk
  have : ∀ a b, ∃ e s', convertInteger a b true s = .fail e s' := by
    intro a b
    unfold convertInteger
    cases hx : s.tok.kind with
    | imm x => exact absurd ⟨x, hx⟩ hk
    | _ => exact ⟨_, _, rfl⟩
  cases o with
  | imm20 =>
    obtain ⟨e, s', h⟩ := this (-(2 ^ 19)) (maxBits 19)
    exact hf e s' (by rw [Operand.run, runImm20, M.bind_def, h])
  | uimmExtended =>
    obtain ⟨e, s', h⟩ := this 0 (2 ^ 20)
    exact hf e s' (by rw [Operand.run, runUimmExtended, M.bind_def, h])
  | uint m a =>
    obtain ⟨e, s', h⟩ := this 0 m
    exact hf e s' (by rw [Operand.run, runUint, M.bind_def, h])
  | _ => simp [Operand.number] at h

/-! ### Two rows -/

/-- The operand can be read by both rows: its assertion does not fail, or it fails for both. -/
def Operand.common (used lost : List Field) (o : Operand) : Bool :=
  o.alike lost && (Field.clear o.need used || (o.single && Field.clear o.fields lost && Field.clear o.reuses used))

/-- On a text on which an assertion fails in the operands `b`, one fails in the operands `a`, or they do not accept it.
    `used` are the fields set before `b`, and outside of `lost` the words of both rows are the same. -/
def chase : Nat → List Field → List Field → List Operand → List Operand → Bool
  | 0, used, _, _, b => opsApart used b
  | n + 1, used, lost, a, b =>
    opsApart used b ||
    (match a, b with
    | x :: a', y :: b' =>
      (y.number && stuckImm a) ||
      (match x, y with
      | .expect u _ _, .expect w _ _ => u != w
      | _, _ => false) ||
      (x == y && x.common used lost && chase n (x.fields ++ used) lost a' b') ||
      (match x with
      | .dotTable (some _) _ t => sober t used b && chase n used (x.fields ++ lost) a' b
      | _ => false) ||
      (match x, y with
      | .srcFormat _ _, .immFormat _ =>
        Field.clear y.fields used &&
        sober [c!"S8", c!"S32", c!"U8", c!"U32"] (y.fields ++ used) b' &&
        chase n (y.fields ++ used) (x.fields ++ (y.fields ++ lost)) a' b' &&
        (sober [[]] (y.fields ++ used) b' ||
          (match a', b' with
          | .po _ _ :: .dotTable (some d) p t :: a'', .po _ _ :: .dotTable (some d') p' t' :: b'' =>
            t'.contains [] &&
            Field.clear (Operand.dotTable (some d') p' t').fields (y.fields ++ used) &&
            sober (c!"PO" :: t) ((Operand.dotTable (some d') p' t').fields ++ (y.fields ++ used)) b'' &&
            chase n ((Operand.dotTable (some d') p' t').fields ++ (y.fields ++ used))
              ((Operand.dotTable (some d) p t).fields ++ ((Operand.dotTable (some d') p' t').fields ++
                (x.fields ++ (y.fields ++ lost)))) a'' b''
          | _, _ => false))
      | _, _ => false)
    | _, _ => false)

def chaseTable : List Insn → Bool
  | [] => true
  | r :: rs => (rs.all fun r' => r'.mnemonic != r.mnemonic ||
      chase 40 ((16, 4) :: setBits r'.opcode) (setBits r.opcode ++ setBits r'.opcode) r.operands r'.operands) && chaseTable rs

theorem table_chase : chaseTable insnTable = true := by decide +kernel

theorem chaseTable_split {pre post : List Insn} {row row' : Insn} (h : chaseTable (pre ++ row :: post) = true)
    (hr : row' ∈ pre) (hm : row'.mnemonic = row.mnemonic) :
    chase 40 ((16, 4) :: setBits row.opcode) (setBits row'.opcode ++ setBits row.opcode) row'.operands row.operands = true := by
  induction pre with
  | nil => simp at hr
  | cons r pre ih =>
    rw [List.cons_append, chaseTable, Bool.and_eq_true] at h
    rcases List.mem_cons.1 hr with rfl | hr
    · have := List.all_eq_true.1 h.1 row (by simp)
      simpa [hm] using this
    · exact ih h.2 hr

theorem proper_run {o : Operand} (hg : o.grammatical = true) {s s1 : St} (hs : s.tok.kind.proper) (h : o.run true s = .ok () s1) :
    s1.tok.kind.proper := by
  rcases DbgSame.operand o s with h0 | h0
  · rw [h] at h0; simp at h0
  rw [h] at h0
  obtain ⟨ks, b, r, t, c, hp, -, rfl⟩ := (Operand.run_iff o hg s hs _).1 h0.symm
  exact (hp.proper hs).1

/-- Bits outside the fields of an operand are unchanged. -/
theorem kept_run {o : Operand} (hr : o.regular = true) {s s1 : St} (hs : s.tok.kind.proper) (h : o.run true s = .ok () s1) :
    Agree o.fields s1.op.value s.op.value := by
  have hf := Operand.foot hr (dbg := true) hs.1
  unfold FootOf at hf
  rw [h] at hf
  intro i hi
  by_cases hl : i < 64
  · have := hf.2 i hi
    unfold Op.bit at this
    simpa [hl] using this
  · rw [BitVec.getLsbD_of_ge _ _ (by omega), BitVec.getLsbD_of_ge _ _ (by omega)]

theorem Agree.trans {l1 l2 : List Field} {u v w : BitVec 64} (h1 : Agree l1 u v) (h2 : Agree l2 v w) : Agree (l1 ++ l2) u w := by
  intro i hi
  rw [inF_append] at hi
  rw [h1 i fun h => hi (.inl h), h2 i fun h => hi (.inr h)]

theorem Agree.symm {l : List Field} {v w : BitVec 64} (h : Agree l v w) : Agree l w v := fun i hi => (h i hi).symm

/-- Skipping an absent modifier. -/
theorem skip_run {d a : Nat} {t : List Str} {s : St} (h : NoEntry c!"." t s.tok.kind) :
    (Operand.dotTable (some d) a t).run true s = .abort ∨
      ∃ v, (Operand.dotTable (some d) a t).run true s = .ok () (s.val v) := by
  have hno : findInTable true t c!"." true s = .ok none s := findInTable_none.2 ⟨rfl, h⟩
  simp only [Operand.run, runDotTable, M.bind_def, hno]
  unfold addBits
  split
  · exact .inl rfl
  · exact .inr ⟨_, rfl⟩

theorem chase_run {n : Nat} {used lost : List Field} {a b : List Operand} (h : chase n used lost a b = true)
    (hga : ∀ o ∈ a, o.grammatical = true ∧ o.regular = true) (hgb : ∀ o ∈ b, o.grammatical = true ∧ o.regular = true)
    {s : St} (hs : s.tok.kind.proper) (hu : UsedIn used s) {v : BitVec 64} (hl : Agree lost v s.op.value) {m m' : Nat}
    (hb : (runOperands b m true s).1 = .abort) : (runOperands a m' true (s.val v)).1.bad := by
  have calm : opsApart used b = true → False := fun h =>
    runOperands_noAbort (fun o ho => (hgb o ho).2) hs.1 hu h hb
  induction n generalizing used lost a b s v m m' with
  | zero => exact (calm h).elim
  | succ n ih =>
    have next : ∀ {used lost : List Field} {a b : List Operand}, chase n used lost a b = true →
        (∀ o ∈ a, o.grammatical = true ∧ o.regular = true) → (∀ o ∈ b, o.grammatical = true ∧ o.regular = true) →
        ∀ {s : St}, s.tok.kind.proper → UsedIn used s → ∀ {v : BitVec 64}, Agree lost v s.op.value → ∀ {m m' : Nat},
        (runOperands b m true s).1 = .abort → (runOperands a m' true (s.val v)).1.bad := by
      intro used lost a b h hga hgb s hs hu v hl m m' hb
      exact ih h hga hgb hs hu hl hb fun h => runOperands_noAbort (fun o ho => (hgb o ho).2) hs.1 hu h hb
    unfold chase at h
    rw [Bool.or_eq_true] at h
    rcases h with h | h
    · exact (calm h).elim
    match a, b, h with
    | x :: a', y :: b', h =>
      have hga' := fun o ho => hga o (List.mem_cons_of_mem x ho)
      have hgb' := fun o ho => hgb o (List.mem_cons_of_mem y ho)
      have hx := hga x (by simp)
      have hy := hgb y (by simp)
      dsimp only at h
      rw [Bool.or_eq_true, Bool.or_eq_true, Bool.or_eq_true, Bool.or_eq_true] at h
      rcases h with (((h | h) | h) | h) | h
      · -- a number
        rw [Bool.and_eq_true] at h
        obtain ⟨z, hz⟩ := number_run h.1 (s := s) (by
          intro e s' he
          rw [abort_cons, he] at hb
          simp at hb)
        exact stuckImm_run h.2 (s := s.val v) hz
      · -- two words
        split at h
        · rename_i u pre1 post1 w pre2 post2
          have hk : s.tok.kind = .ident w := by
            by_contra hk
            rw [abort_cons] at hb
            simp [Operand.run, runExpect, M.bind_def, getKind, Kind.equal, hk, failTok] at hb
          have hne : u ≠ w := by simpa using h
          have : ∃ e s', (Operand.expect u pre1 post1).run true (s.val v) = .fail e s' := by
            simp [Operand.run, runExpect, M.bind_def, getKind, Kind.equal, St.val, hk, hne.symm, failTok]
          obtain ⟨e, s', h⟩ := this
          exact bad_fail h
        · simp at h
      · -- the same operand
        rw [Bool.and_eq_true, Bool.and_eq_true, beq_iff_eq] at h
        obtain ⟨⟨rfl, h1⟩, h2⟩ := h
        unfold Operand.common at h1
        rw [Bool.and_eq_true, Bool.or_eq_true] at h1
        rcases abort_cons.1 hb with hb | ⟨s1, hr, hb⟩
        · rcases h1.2 with h3 | h3
          · exact (hu.calm hx.2 hs h3 hb).elim
          · rw [Bool.and_eq_true, Bool.and_eq_true] at h3
            refine bad_abort (sync_abort hx.1 h3.1.1 h1.1 h3.1.2 hs ?_ hl hb)
            intro i hi
            cases hbit : s.op.bit i with
            | false => rfl
            | true => exact absurd (hu i hbit) (not_inF_of_apart h3.2 hi)
        · rcases sync_ok hx.1 h1.1 hs hl hr with h3 | ⟨v1, h3, h4⟩
          · exact bad_abort h3
          · exact bad_ok h3 (next h2 hga' hgb' (proper_run hx.1 hs hr) (hu.run hx.2 hs hr) h4 hb)
      · -- an absent modifier
        split at h
        · rename_i d p t
          rw [Bool.and_eq_true] at h
          have hno := sober_run h.1 (fun o ho => (hgb o ho).2) hs hu hb
          rcases skip_run (d := d) (a := p) (s := s.val v) hno with h3 | ⟨v1, h3⟩
          · exact bad_abort h3
          · refine bad_ok h3 (next h.2 hga' hgb hs hu (v := v1) ?_ hb)
            exact Agree.trans (kept_run hx.2 (s := s.val v) hs h3) hl
        · simp at h
      · -- formats
        split at h
        · rename_i p q z
          rw [Bool.and_eq_true, Bool.and_eq_true, Bool.and_eq_true, Bool.or_eq_true] at h
          obtain ⟨⟨⟨h1, h2⟩, h3⟩, h4⟩ := h
          rcases abort_cons.1 hb with hb | ⟨s1, hr, hb⟩
          · exact (hu.calm (o := .immFormat z) hy.2 hs h1 hb).elim
          have hs1 := proper_run hy.1 hs hr
          have hu1 := hu.run hy.2 hs hr
          have hkk := kept_run hy.2 hs hr
          -- if the source format reads as many tokens
          have same : ∀ {bx : BitVec 64} {ks : List Kind}, Path s.tok s.ctx.cur ks s1.tok s1.ctx.cur →
              Accepts s.ctx.env v (.srcFormat p q) ks s1.tok.kind bx 0 →
              s1.ctx = { s.ctx with cur := s1.ctx.cur } → s1.op.reuse = s.op.reuse → s1.op.sched = s.op.sched →
              (Operand.srcFormat p q).run true (s.val v) = .abort ∨ ∃ v1, (Operand.srcFormat p q).run true (s.val v) = .ok () (s1.val v1) := by
            intro bx ks hp hacc e1 e2 e3
            have := (Operand.run_iff (.srcFormat p q) hx.1 (s.val v) hs _).2 ⟨ks, bx, 0, s1.tok, s1.ctx.cur, hp, hacc, rfl⟩
            rcases DbgSame.operand (.srcFormat p q) (s.val v) with h5 | h5
            · exact .inl h5
            · right
              rw [this] at h5
              refine ⟨v ||| bx, ?_⟩
              rw [h5]
              simp only [clears, St.set_zero]
              obtain ⟨c1, t1, o1⟩ := s1
              dsimp only at e1 e2 e3
              simp only [St.put, St.val, Out.ok.injEq, true_and]
              rw [← e1, e2, e3]
              simp
          have agree : ∀ {v1 : BitVec 64}, (Operand.srcFormat p q).run true (s.val v) = .ok () (s1.val v1) →
              Agree ((Operand.srcFormat p q).fields ++ ((Operand.immFormat z).fields ++ lost)) v1 s1.op.value := by
            intro v1 h5
            have := (Agree.trans (kept_run hx.2 (s := s.val v) hs h5) (Agree.trans hl hkk.symm))
            refine this.more ?_
            intro f hf
            simp only [List.mem_append] at hf ⊢
            rcases hf with hf | hf | hf
            · exact .inl hf
            · exact .inr (.inr hf)
            · exact .inr (.inl hf)
          have hrel : (Operand.immFormat z).run false s = .ok () s1 := by
            rcases DbgSame.operand (.immFormat z) s with h5 | h5
            · rw [hr] at h5; simp at h5
            · rw [← h5, hr]
          obtain ⟨ks, by', r, t, c, hp, ⟨rfl, hacc⟩, hs1e⟩ := (Operand.run_iff _ hy.1 s hs _).1 hrel
          rw [show clears (.immFormat z) = 0 from rfl, St.set_zero] at hs1e
          have e0 : s1.tok = t ∧ s1.ctx.cur = c := by rw [hs1e]; exact ⟨rfl, rfl⟩
          have e1 : s1.ctx = { s.ctx with cur := s1.ctx.cur } := by rw [hs1e]; rfl
          have e2 : s1.op.reuse = s.op.reuse := by rw [hs1e]; simp [St.put]
          have e3 : s1.op.sched = s.op.sched := by rw [hs1e]; rfl
          have go : ∀ {bx : BitVec 64} {ks : List Kind}, Path s.tok s.ctx.cur ks s1.tok s1.ctx.cur →
              Accepts s.ctx.env v (.srcFormat p q) ks s1.tok.kind bx 0 → (runOperands (.srcFormat p q :: a') m' true (s.val v)).1.bad := by
            intro bx ks hp hacc
            rcases same hp hacc e1 e2 e3 with h5 | ⟨v1, h5⟩
            · exact bad_abort h5
            · exact bad_ok h5 (next h3 hga' hgb' hs1 hu1 (agree h5) hb)
          rcases hacc with ⟨k, i, rfl, hent, -⟩ | ⟨d, -, rfl, hno, -⟩
          · -- a format that both rows know
            obtain ⟨name, rfl, hi, -⟩ := hent
            have hp' : Path s.tok s.ctx.cur [.ident (c!"." ++ name)] s1.tok s1.ctx.cur := by rw [e0.1, e0.2]; exact hp
            have hname : name = c!"U16" ∨ name = c!"S16" := by
              have := List.mem_of_getElem? hi
              simpa using this
            rcases hname with rfl | rfl
            · exact go hp' ⟨rfl, .inr (.inl ⟨c!".U16", 2, by simp, rfl, rfl⟩)⟩
            · exact go hp' ⟨rfl, .inl ⟨_, 2, rfl, ⟨c!"S16", rfl, rfl, by decide⟩, rfl⟩⟩
          · obtain ⟨rfl, rfl⟩ := hp
            have htok : s1.tok = s.tok := e0.1
            by_cases h7 : NoEntry c!"." [c!"S8", [], c!"S16", c!"S32", c!"U8", c!"U16", c!"U32"] s.tok.kind
            · exact go (ks := []) ⟨e0.1, e0.2⟩ ⟨rfl, .inr (.inr ⟨rfl, by rw [htok]; exact h7, rfl⟩)⟩
            · obtain ⟨name, hm, hk⟩ : ∃ name ∈ [c!"S8", [], c!"S16", c!"S32", c!"U8", c!"U16", c!"U32"],
                  s.tok.kind = .ident (c!"." ++ name) := by
                by_contra hc
                exact h7 fun name hm hk => hc ⟨name, hm, hk⟩
              have hk1 : s1.tok.kind = .ident (c!"." ++ name) := by rw [htok]; exact hk
              have hne : name ≠ c!"U16" ∧ name ≠ c!"S16" := by
                constructor <;> rintro rfl
                · exact hno c!"U16" (by simp) hk
                · exact hno c!"S16" (by simp) hk
              have hm4 : name = [] ∨ name ∈ [c!"S8", c!"S32", c!"U8", c!"U32"] := by
                simp only [List.mem_cons, List.not_mem_nil, or_false] at hm ⊢
                grind
              rcases hm4 with rfl | hm4
              · rcases h4 with h4 | h4
                · exact absurd hk1 (sober_run h4 (fun o ho => (hgb' o ho).2) hs1 hu1 hb [] (by simp))
                · -- a lone dot is the source format of one row and the modifier of the other
                  split at h4
                  · rename_i _ _ d p1 t1 a2 _ _ d' p2 t2 b2 _
                    rw [Bool.and_eq_true, Bool.and_eq_true, Bool.and_eq_true] at h4
                    obtain ⟨⟨⟨g1, g2⟩, g3⟩, g4⟩ := h4
                    have hmod := hgb' (.dotTable (some d') p2 t2) (by simp)
                    have hpo : ∀ {x y : Nat} {s : St}, s.tok.kind ≠ .ident c!".PO" → (Operand.po x y).run true s = .ok () s := by
                      intro x y s hne
                      simp [Operand.run, runPo, M.bind_def, getKind, Kind.equal, hne, M.pure]
                    rw [abort_cons, hpo (by rw [hk1]; simp)] at hb
                    simp only [reduceCtorEq, Out.ok.injEq, true_and, exists_eq_left', false_or] at hb
                    rcases abort_cons.1 hb with hb | ⟨s2, hr2, hb⟩
                    · exact (hu1.calm (o := .dotTable (some d') p2 t2) hmod.2 hs1 g2 hb).elim
                    have hs2 := proper_run hmod.1 hs1 hr2
                    have hu2 := hu1.run hmod.2 hs1 hr2
                    have hk2 := kept_run hmod.2 hs1 hr2
                    have hrel2 : (Operand.dotTable (some d') p2 t2).run false s1 = .ok () s2 := by
                      rcases DbgSame.operand (.dotTable (some d') p2 t2) s1 with h5 | h5
                      · rw [hr2] at h5; simp at h5
                      · rw [← h5, hr2]
                    obtain ⟨ks, by2, r, t, c, hp, ⟨rfl, hacc⟩, hs2e⟩ := (Operand.run_iff _ hmod.1 s1 hs1 _).1 hrel2
                    rw [show clears (.dotTable (some d') p2 t2) = 0 from rfl, St.set_zero] at hs2e
                    rcases hacc with ⟨k, i, rfl, -, -⟩ | ⟨d0, -, rfl, hno2, -⟩
                    · obtain ⟨hk3, t3, c3, ht3, rfl, rfl⟩ := hp
                      have f0 : s2.tok = t ∧ s2.ctx.cur = c := by rw [hs2e]; exact ⟨rfl, rfl⟩
                      have f1 : s2.ctx = { s.ctx with cur := s2.ctx.cur } := by rw [hs2e, hs1e]; rfl
                      have f2 : s2.op.reuse = s.op.reuse := by rw [hs2e, hs1e]; simp [St.put]
                      have f3 : s2.op.sched = s.op.sched := by rw [hs2e, hs1e]; rfl
                      have hno3 := sober_run g3 (fun o ho => (hgb' o (by simp [ho])).2) hs2 hu2 hb
                      have hrun := (Operand.run_iff (.srcFormat p q) hx.1 (s.val v) hs _).2
                        ⟨[s.tok.kind], field p 1 ||| field q 1, 0, s2.tok, s2.ctx.cur,
                          ⟨rfl, s2.tok, s2.ctx.cur, by
                            rw [f0.1, f0.2]
                            rw [show s1.ctx.cur = s.ctx.cur from e0.2] at ht3
                            exact ht3, rfl, rfl⟩,
                          ⟨rfl, .inl ⟨_, 1, rfl, ⟨[], hk, rfl, by decide⟩, rfl⟩⟩, rfl⟩
                      have hrun' : (Operand.srcFormat p q).run true (s.val v) = .abort ∨
                          ∃ v1, (Operand.srcFormat p q).run true (s.val v) = .ok () (s2.val v1) := by
                        rcases DbgSame.operand (.srcFormat p q) (s.val v) with h5 | h5
                        · exact .inl h5
                        · right
                          rw [hrun] at h5
                          refine ⟨v ||| (field p 1 ||| field q 1), ?_⟩
                          rw [h5]
                          simp only [clears, St.set_zero]
                          clear hs2e
                          obtain ⟨c1, t1, o1⟩ := s2
                          dsimp only at f1 f2 f3
                          simp only [St.put, St.val, Out.ok.injEq, true_and]
                          rw [← f1, f2, f3]
                          simp
                      rcases hrun' with h5 | ⟨v1, h5⟩
                      · exact bad_abort h5
                      refine bad_ok h5 (bad_ok (hpo (s := s2.val v1) (fun hc => hno3 c!"PO" (by simp) hc)) ?_)
                      rcases skip_run (d := d) (a := p1) (t := t1) (s := s2.val v1)
                        (fun name hn => hno3 name (by simp [hn])) with h6 | ⟨v2, h6⟩
                      · exact bad_abort h6
                      refine bad_ok h6 (next g4 (fun o ho => hga' o (by simp [ho])) (fun o ho => hgb' o (by simp [ho])) hs2 hu2 (v := v2) ?_ hb)
                      have j1 := kept_run (hga' (.dotTable (some d) p1 t1) (by simp)).2 (s := s2.val v1) hs2 h6
                      have j2 := kept_run hx.2 (s := s.val v) hs h5
                      refine (j1.trans (j2.trans (hl.trans (hkk.symm.trans hk2.symm)))).more ?_
                      intro f hf
                      simp only [List.mem_append] at hf ⊢
                      grind
                    · exfalso
                      obtain ⟨rfl, rfl⟩ := hp
                      exact hno2 [] (by simpa using g1) hk1
                  · simp at h4
              · exact absurd hk1 (sober_run h2 (fun o ho => (hgb' o ho).2) hs1 hu1 hb name hm4)
        · simp at h

end Nxas
