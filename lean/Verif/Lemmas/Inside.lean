import Verif.Lemmas.Footprint
import Verif.Lemmas.Syntax
/-
A table row reads nothing beyond the semicolon that ends the instruction.
-/

namespace Nxas

open Spec

/-- The state is inside an instruction: there are tokens up to a semicolon. -/
def St.inside (s : St) (t : Token) (c : Cur) : Prop :=
  ∃ ks, Path s.tok s.ctx.cur ks t c ∧ t.kind = .semicolon ∧ Kind.semicolon ∉ ks

/-- The calculus of `Wp.lean` read as a statement about tokens: inside an instruction a computation stays
    inside and meets no error of the tokenizer. -/
def Inside {α : Type} (m : M α) (k : Kind) (_ : Nat → Prop) (Q : α → Kind → (Nat → Prop) → Prop) : Prop :=
  ∀ dbg s t c, s.tok.kind = k → s.inside t c →
    match m dbg s with
    | .ok a s' => s'.inside t c ∧ ∃ r', Q a s'.tok.kind r'
    | .exit _ => False
    | .ub u => u ≠ .readPastEnd
    | _ => True

theorem Inside.keep {m : M α} {k : Kind} {r : Nat → Prop} {Q : α → Kind → (Nat → Prop) → Prop}
    (h : ∀ dbg s, s.tok.kind = k → match m dbg s with
      | .ok a s' => s'.tok = s.tok ∧ s'.ctx.cur = s.ctx.cur ∧ ∃ r', Q a s'.tok.kind r'
      | .exit _ => False
      | .ub u => u ≠ .readPastEnd
      | _ => True) : Inside m k r Q := by
  intro dbg s t c hk hi
  have := h dbg s hk
  cases hm : m dbg s with
  | ok a s' =>
    simp only [hm] at this ⊢
    obtain ⟨h1, h2, h3⟩ := this
    refine ⟨?_, h3⟩
    unfold St.inside at hi ⊢
    rw [h1, h2]; exact hi
  | exit => simp only [hm] at this
  | ub => simpa only [hm] using this
  | _ => trivial

theorem St.inside.advance {s : St} {t : Token} {c : Cur} (h : s.inside t c) (hk : s.tok.kind ≠ .semicolon) :
    ∃ t1 c1, tokenize s.ctx.cur = .ok t1 c1 ∧ St.inside ⟨{ s.ctx with cur := c1 }, t1, s.op⟩ t c := by
  obtain ⟨ks, hp, ht, hn⟩ := h
  cases ks with
  | nil => obtain ⟨rfl, -⟩ := hp; exact absurd ht hk
  | cons k ks =>
    obtain ⟨-, t1, c1, h1, h2⟩ := hp
    exact ⟨t1, c1, h1, ks, h2, ht, fun h => hn (by simp [h])⟩

theorem inside_logic : Logic @Inside where
  pure a k r Q h := Inside.keep fun dbg s hk => ⟨rfl, rfl, r, by subst hk; exact h⟩
  bind m f k r Q h := by
    intro dbg s t c hk hi
    have h1 := h dbg s t c hk hi
    rw [M.bind_def]
    cases hm : m dbg s with
    | ok a s1 =>
      simp only [hm] at h1 ⊢
      obtain ⟨h2, r1, hf⟩ := h1
      exact hf dbg s1 t c rfl h2
    | exit => simp only [hm] at h1
    | ub => simpa only [hm] using h1
    | _ => trivial
  getKind k r Q h := Inside.keep fun dbg s hk => ⟨rfl, rfl, r, by rw [hk]; exact h⟩
  getValue k r Q h := Inside.keep fun dbg s hk => ⟨rfl, rfl, r, by rw [hk]; exact h _⟩
  failTok msg k r Q := Inside.keep fun dbg s hk => trivial
  ub u k r Q h := Inside.keep fun dbg s hk => h
  blameStart msg m k r Q h := by
    intro dbg s t c hk hi
    have := h dbg s t c hk hi
    unfold blameStart
    cases hms : m dbg s <;> simp only [hms] at this ⊢ <;> exact this
  advance k r Q hsemi h := by
    intro dbg s t c hk hi
    obtain ⟨t1, c1, h1, h2⟩ := hi.advance (by rw [hk]; exact hsemi)
    unfold advance
    rw [h1]
    exact ⟨h2, r, h _ (tokenize_ok h1).wf⟩
  addSet b F k r Q hF hr h := by
    refine Inside.keep fun dbg s hk => ?_
    unfold addBits
    by_cases hd : (dbg && (s.op.value &&& b) != 0#64) = true
    · rw [if_pos hd]; trivial
    · rw [if_neg hd]; exact ⟨rfl, rfl, _, by rw [hk]; exact h⟩
  addReuse b j k r Q hbj hr h := by
    refine Inside.keep fun dbg s hk => ?_
    unfold addReuse
    by_cases hd : (dbg && (s.op.reuse &&& b) != 0#32) = true
    · rw [if_pos hd]; trivial
    · rw [if_neg hd]; exact ⟨rfl, rfl, _, by rw [hk]; exact h⟩
  confirm k0 k r Q h := by
    refine Inside.keep fun dbg s hk => ?_
    unfold confirm
    by_cases hc : s.tok.kind = k0
    · rw [if_pos hc]; exact ⟨rfl, rfl, r, by rw [hk]; exact h (hk.symm.trans hc)⟩
    · rw [if_neg hc]; trivial
  confirmIdent k r Q h := by
    refine Inside.keep fun dbg s hk => ?_
    unfold confirmIdent
    cases hs : s.tok.kind <;> simp only [hs] at hk ⊢
    case ident x => exact ⟨trivial, trivial, r, by subst hk; exact h _ rfl⟩
  confirmReg k r Q h := by
    refine Inside.keep fun dbg s hk => ?_
    unfold confirmReg
    cases hs : s.tok.kind <;> simp only [hs] at hk ⊢
    case reg x => exact ⟨trivial, trivial, r, by subst hk; exact h _ rfl⟩
  confirmPred k r Q h := by
    refine Inside.keep fun dbg s hk => ?_
    unfold confirmPred
    cases hs : s.tok.kind <;> simp only [hs] at hk ⊢
    case pred x y => exact ⟨trivial, trivial, r, by subst hk; exact h _ _ rfl⟩
  convertInteger a b k r Q h := by
    refine Inside.keep fun dbg s hk => ?_
    unfold convertInteger
    cases hs : s.tok.kind <;> simp only [hs] at hk ⊢
    case imm v =>
      by_cases hc : v < a ∨ v > b
      · rw [if_pos hc]; trivial
      · rw [if_neg hc]
        exact ⟨rfl, rfl, r, by rw [hs]; subst hk; exact h v rfl (by omega) (by omega)⟩
  findInTable b t p k r Q hn hs := by
    refine Inside.keep fun dbg s hk => ?_
    rcases findInTable_cases b t p dbg s with h | ⟨i, x, h, hx, hi, -⟩ | h <;> rw [h]
    · exact ⟨rfl, rfl, r, by rw [hk]; exact hn⟩
    · exact ⟨rfl, rfl, r, by rw [hk]; exact hs i _ (hk.symm.trans hx) hi⟩
    · simp

theorem inside_label {k : Kind} : Inside runLabel k (inF [(20, 24)]) (fun _ k' _ => k'.wf) := by
  have L := inside_logic
  have hctx : ∀ {k : Kind} {r : Nat → Prop} {Q : Ctx → Kind → (Nat → Prop) → Prop} (_ : ∀ c, Q c k r), Inside getCtx k r Q :=
    fun h => Inside.keep fun dbg s hk => ⟨rfl, rfl, _, by rw [hk]; exact h _⟩
  have target : ∀ v, k ≠ .semicolon →
      Inside (runLabelTarget v) k (inF [(20, 24)]) (fun _ k' _ => k'.wf) := by
    intro v hk
    unfold runLabelTarget
    refine L.bind _ _ _ _ _ (hctx fun c => ?_)
    dsimp only
    split
    · exact L.ub _ _ _ _ (by decide)
    split
    · exact L.failTok _ _ _ _
    refine L.bind _ _ _ _ _ (L.addField _ 20 23 _ _ _ ?_ ?_ ?_)
    · rw [show 0x7FFFFF#64 = BitVec.ofNat 64 (2 ^ 23 - 1) from rfl]
      exact within_and_mask
    · intro i h1 h2
      rw [inF_cons]; exact .inl ⟨h1, by simp only; omega⟩
    refine L.bind _ _ _ _ _ (L.addField _ 43 1 _ _ _ ?_ ?_ ?_)
    · split
      · exact within_one _
      · exact within_shl (by decide)
    · intro i h1 h2
      refine ⟨?_, by omega⟩
      rw [inF_cons]; exact .inl ⟨by simp only; omega, by simp only; omega⟩
    exact L.advance _ _ _ hk fun k' hk' => hk'
  unfold runLabel
  refine L.bind _ _ _ _ _ (L.getKind _ _ _ ?_)
  cases hk : k <;> dsimp only
  case ident x =>
    refine L.bind _ _ _ _ _ (hctx fun c => ?_)
    split
    · exact L.failTok _ _ _ _
    · exact hk ▸ target _ (by simp [hk])
  case imm v => exact hk ▸ target _ (by simp [hk])
  all_goals exact L.failTok _ _ _ _

/-- The operands to which the calculus applies. -/
def Operand.simple (o : Operand) : Bool :=
  match o with
  | .label => true
  | o => o.plain && apartList o.fields

theorem Operand.runInside (o : Operand) (ho : o.simple = true) {k : Kind} (hk : k.wf) :
    Inside o.run k (inF o.fields) (fun _ k' _ => k'.wf) := by
  by_cases hl : o = .label
  · subst hl; exact inside_label
  · have : o.plain = true ∧ apartList o.fields = true := by
      unfold Operand.simple at ho
      split at ho
      · exact absurd rfl hl
      · simpa using ho
    exact inside_logic.run o this.1 this.2 _ _ _ hk (fun _ h => h) (fun k' r' hk' _ => hk')

theorem runOperands_inside {os : List Operand} (ho : ∀ o ∈ os, o.simple = true) {n : Nat} {dbg : Bool} {s : St}
    {t : Token} {c : Cur} (hk : s.tok.kind.wf) (hi : s.inside t c) :
    match (runOperands os n dbg s).1 with
    | .ok _ s' => s'.inside t c ∧ s'.tok.kind.wf
    | .exit _ => False
    | .ub u => u ≠ .readPastEnd
    | _ => True := by
  induction os generalizing n s with
  | nil => exact ⟨hi, hk⟩
  | cons o os ih =>
    have h := o.runInside (ho o (by simp)) hk dbg s t c rfl hi
    unfold runOperands
    cases hr : o.run dbg s with
    | ok a s' =>
      simp only [hr] at h ⊢
      obtain ⟨h1, -, h2⟩ := h
      exact ih (fun o' h' => ho o' (by simp [h'])) h2 h1
    | fail e s' => simp
    | exit e => simp [hr] at h
    | abort => simp
    | ub u => simpa [hr] using h

theorem inside_schedImmediate (m : Int) (msg : Msg) {k : Kind} {r : Nat → Prop}
    {Q : Nat → Kind → (Nat → Prop) → Prop} (h : ∀ n v, k = .imm v → Q n k r) : Inside (schedImmediate m msg) k r Q := by
  have L := inside_logic
  unfold schedImmediate
  refine L.bind _ _ _ _ _ (L.getKind _ _ _ ?_)
  cases k <;> dsimp only
  case imm v =>
    split
    · exact L.failTok _ _ _ _
    · exact L.pure _ _ _ _ (h _ v rfl)
  all_goals exact L.failTok _ _ _ _

theorem inside_schedStep (sc : Sched) {k : Kind} (hk : k ≠ .semicolon) (r : Nat → Prop) :
    Inside (schedStep sc) k r (fun _ _ _ => True) := by
  have L := inside_logic
  have himm : ∀ {β : Type} (m : Int) (msg : Msg) (k : Kind) (r : Nat → Prop) (f : Nat → M β)
      (Q : β → Kind → (Nat → Prop) → Prop) (_ : ∀ n k, k ≠ .semicolon → Inside (f n) k r Q),
      Inside (schedImmediate m msg >>= f) k r Q := fun m msg k r f Q h =>
    L.bind _ _ _ _ _ (inside_schedImmediate m msg fun n v hv => h n k (by rw [hv]; simp))
  have hadv : ∀ {β : Type} (f : Unit → M β) (k : Kind) (r : Nat → Prop) (Q : β → Kind → (Nat → Prop) → Prop)
      (_ : k ≠ .semicolon) (_ : ∀ k', Inside (f ()) k' r Q), Inside (advance >>= f) k r Q := fun f k r Q h1 h2 =>
    L.bind _ _ _ _ _ (L.advance _ _ _ h1 fun k' _ => h2 k')
  unfold schedStep
  refine hadv _ _ _ _ hk fun k' => L.bind _ _ _ _ _ (L.getKind _ _ _ ?_)
  split
  · rename_i h
    split
    · exact L.failTok _ _ _ _
    · refine hadv _ _ _ _ (Kind.ne_semi_of_equal h) fun k' => himm _ _ _ _ _ _ fun n k' h' => ?_
      exact hadv _ _ _ _ h' fun k' => L.pure _ _ _ _ trivial
  split
  · rename_i h
    have hne : k' ≠ .semicolon := by
      rw [Bool.or_eq_true] at h
      rcases h with h | h <;> exact Kind.ne_semi_of_equal h
    by_cases hb : (if k'.equal c!"WB" = true then sc.wb else sc.rb).isSome = true
    · rw [if_pos hb]; exact L.failTok _ _ _ _
    · rw [if_neg hb]
      refine hadv _ _ _ _ hne fun k' => himm _ _ _ _ _ _ fun n k' h' => ?_
      exact hadv _ _ _ _ h' fun k' => L.pure _ _ _ _ trivial
  split
  · rename_i h
    have hne : k' ≠ .semicolon := by
      rw [Bool.or_eq_true] at h
      rcases h with h | h <;> exact Kind.ne_semi_of_equal h
    split
    · exact L.failTok _ _ _ _
    · exact hadv _ _ _ _ hne fun k' => L.pure _ _ _ _ trivial
  split
  · rename_i h
    refine hadv _ _ _ _ (Kind.ne_semi_of_equal h) fun k' => himm _ _ _ _ _ _ fun n k' h' => ?_
    dsimp only
    split
    · exact L.failTok _ _ _ _
    · exact hadv _ _ _ _ h' fun k' => L.pure _ _ _ _ trivial
  · exact L.failTok _ _ _ _

theorem inside_schedLoop (n : Nat) (sc : Sched) (k : Kind) (r : Nat → Prop) :
    Inside (schedLoop n sc) k r (fun _ _ _ => True) := by
  have L := inside_logic
  induction n generalizing sc k r with
  | zero => exact L.ub _ _ _ _ (by decide)
  | succ n ih =>
    unfold schedLoop
    refine L.bind _ _ _ _ _ (L.getKind _ _ _ ?_)
    split
    · rename_i h
      refine L.bind _ _ _ _ _ ?_
      intro dbg s t c hk hi
      have := inside_schedStep sc (k := k) (by rw [h]; simp) r dbg s t c hk hi
      cases hm : schedStep sc dbg s with
      | ok a s' => simp only [hm] at this ⊢; exact ⟨this.1, r, ih _ _ _⟩
      | _ => simp only [hm] at this ⊢ <;> exact this
    · exact L.pure _ _ _ _ trivial

/-- Neither a diagnostic that ends the program nor a read beyond the text. -/
def Out.calm : Out α → Prop
  | .exit _ => False
  | .ub u => u ≠ .readPastEnd
  | _ => True

theorem finishInsn_inside {dbg : Bool} {s : St} {t : Token} {c : Cur} (hi : s.inside t c) : (finishInsn dbg s).calm := by
  have hf : Inside finishInsn s.tok.kind (fun _ => True) (fun _ _ _ => True) := by
    have L := inside_logic
    unfold finishInsn
    refine L.bind _ _ _ _ _ ?_
    intro dbg s t c hk hi
    have := inside_schedLoop (s.ctx.cur.text.length + 1) {} s.tok.kind (fun _ => True) dbg s t c rfl hi
    unfold assembleSched
    rw [M.bind_def]
    cases hm : schedLoop (s.ctx.cur.text.length + 1) {} dbg s with
    | ok a s' =>
      simp only [hm] at this
      exact ⟨this.1, fun _ => True, L.confirm _ _ _ _ fun _ => trivial⟩
    | _ => simp only [hm] at this ⊢ <;> exact this
  have := hf dbg s t c rfl hi
  cases hm : finishInsn dbg s <;> simp only [hm] at this ⊢ <;> first | exact this | trivial

theorem startInsn_inside {row : Insn} {dbg : Bool} {s : St} {t0 : Token} {c0 : Cur} (h0 : tokenize s.ctx.cur = .ok t0 c0) :
    (startInsn row dbg s).calm ∧ ∀ a s', startInsn row dbg s = .ok a s' → s'.tok = t0 ∧ s'.ctx.cur = c0 := by
  have ha : addBits row.opcode dbg s = .abort ∨ ∃ op, addBits row.opcode dbg s = .ok () { s with op := op } := by
    unfold addBits
    split
    · exact .inl rfl
    · exact .inr ⟨_, rfl⟩
  unfold startInsn
  rw [M.bind_def]
  rcases ha with ha | ⟨op, ha⟩ <;> rw [ha]
  · exact ⟨trivial, by simp⟩
  · simp only
    rw [M.bind_def]
    unfold advance
    simp only [h0]
    rw [M.bind_def]
    simp only [getValue]
    split
    · exact ⟨trivial, by simp [failTok]⟩
    · refine ⟨trivial, ?_⟩
      rintro a s' h
      simp only [M.pure, Out.ok.injEq, true_and] at h
      subst h
      exact ⟨rfl, rfl⟩

/-- Inside an instruction, no row meets an error of the tokenizer. -/
theorem parseInsn_inside {row : Insn} (ho : ∀ o ∈ row.operands, o.simple = true) {dbg : Bool} {s : St} {t0 t : Token}
    {c0 c : Cur} {ks : List Kind} (h0 : tokenize s.ctx.cur = .ok t0 c0) (hp : Path t0 c0 ks t c)
    (ht : t.kind = .semicolon) (hn : Kind.semicolon ∉ ks) : (parseInsn row dbg s).1.calm := by
  obtain ⟨h1, h2⟩ := startInsn_inside (row := row) (dbg := dbg) h0
  unfold parseInsn
  cases hs : startInsn row dbg s with
  | ok a s1 =>
    obtain ⟨h3, h4⟩ := h2 a s1 hs
    have hr := runOperands_inside ho (n := 1) (dbg := dbg) (s := s1) (by rw [h3]; exact (tokenize_ok h0).wf)
      ⟨ks, by rw [h3, h4]; exact hp, ht, hn⟩
    cases hro : runOperands row.operands 1 dbg s1 with
    | mk o sc =>
      rw [hro] at hr
      dsimp only
      rw [hro]
      cases o with
      | ok a s3 => exact finishInsn_inside hr.1
      | fail => trivial
      | exit => exact hr
      | abort => trivial
      | ub => exact hr
  | fail => trivial
  | exit => rw [hs] at h1; exact h1
  | abort => trivial
  | ub => rw [hs] at h1; exact h1

end Nxas
