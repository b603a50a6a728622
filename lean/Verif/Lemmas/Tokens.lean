import Verif.Spec.Tokens
import Verif.Lemmas.Program
/-
The tokens consumed by each part of an instruction.
-/

namespace Nxas

open Spec

namespace Spec

theorem Reads.append {c c1 c2 : Cur} {ks ks' : List Kind} (h : Reads c ks c1) (h' : Reads c1 ks' c2) :
    Reads c (ks ++ ks') c2 := by
  induction h with
  | nil => exact h'
  | cons h hr ih => exact .cons h (ih h')

/-- The tokens read from a position are determined by it. -/
theorem Reads.prefix {c c1 c2 : Cur} {ks ks' : List Kind} (h : Reads c ks c1) (h' : Reads c ks' c2)
    (hl : ks.length ≤ ks'.length) : ∃ r, ks' = ks ++ r ∧ Reads c1 r c2 := by
  induction h generalizing ks' with
  | nil => exact ⟨ks', rfl, h'⟩
  | cons h hr ih =>
    cases h' with
    | nil => simp at hl
    | cons h1 hr1 =>
      rw [h] at h1
      simp only [TokRes.ok.injEq] at h1
      obtain ⟨rfl, rfl⟩ := h1
      obtain ⟨r, rfl, h2⟩ := ih hr1 (by simpa using hl)
      exact ⟨r, rfl, h2⟩

/-- A shorter list of tokens is the beginning of a longer one. -/
theorem Reads.take {c c1 c2 : Cur} {ks ks' : List Kind} (h : Reads c ks c1) (h' : Reads c ks' c2)
    (hl : ks.length ≤ ks'.length) : ks'.take ks.length = ks := by
  obtain ⟨r, rfl, -⟩ := h.prefix h' hl
  simp

theorem Reads.head {c c1 : Cur} {k : Kind} {ks : List Kind} (h : Reads c (k :: ks) c1) :
    ∃ t c', tokenize c = .ok t c' ∧ t.kind = k ∧ Reads c' ks c1 := by
  cases h with
  | cons h hr => exact ⟨_, _, h, rfl, hr⟩

theorem Toks.append {k k1 k2 : Kind} {c c1 c2 : Cur} {ks ks' : List Kind} (h : Toks k c ks k1 c1)
    (h' : Toks k1 c1 ks' k2 c2) : Toks k c (ks ++ ks') k2 c2 := by
  induction h with
  | nil => exact h'
  | cons h hr ih => exact .cons h (ih h')

theorem Toks.one {k : Kind} {c c1 : Cur} {t : Token} (h : tokenize c = .ok t c1) :
    Toks k c [k] t.kind c1 := .cons h .nil

theorem Toks.reads {t : Token} {k' : Kind} {c0 c c' : Cur} {ks : List Kind}
    (h0 : tokenize c0 = .ok t c) (h : Toks t.kind c ks k' c') : Reads c0 (ks ++ [k']) c' := by
  generalize hk : t.kind = k at h
  induction h generalizing c0 t with
  | nil => subst hk; exact .cons h0 .nil
  | cons h hr ih =>
    subst hk
    exact .cons h0 (ih h rfl)

end Spec

/-- The computation, when it returns, has only read some tokens. -/
def Walk (m : M α) : Prop := ∀ dbg s a s', m dbg s = .ok a s' →
  ∃ ks, Toks s.tok.kind s.ctx.cur ks s'.tok.kind s'.ctx.cur

namespace Walk

theorem bind {m : M α} {f : α → M β} (hm : Walk m) (hf : ∀ a, Walk (f a)) : Walk (m >>= f) := by
  intro dbg s a s' h
  obtain ⟨b, s1, h1, h2⟩ := bind_ok h
  obtain ⟨ks, h3⟩ := hm _ _ _ _ h1
  obtain ⟨ks', h4⟩ := hf _ _ _ _ _ h2
  exact ⟨ks ++ ks', h3.append h4⟩

theorem of_same {m : M α} (h : ∀ dbg s a s', m dbg s = .ok a s' →
    s'.tok = s.tok ∧ s'.ctx.cur = s.ctx.cur) : Walk m := by
  intro dbg s a s' hm
  obtain ⟨h1, h2⟩ := h dbg s a s' hm
  rw [h1, h2]
  exact ⟨[], .nil⟩

theorem of_readOnly {m : M α} (h : ReadOnly m) : Walk m := by
  apply of_same
  intro dbg s a s' hm
  rcases h dbg s with ⟨b, hb⟩ | ⟨msg, hb⟩ | ⟨u, hb⟩ <;> rw [hb] at hm <;> simp at hm
  exact ⟨by rw [hm.2], by rw [hm.2]⟩

theorem advance : Walk advance := by
  intro dbg s a s' h
  obtain ⟨t, c, ht, rfl⟩ := advance_ok h
  exact ⟨_, Toks.one ht⟩

theorem closed : Closed @Walk where
  pure a := of_readOnly (ReadOnly.pure a)
  bind m f := bind
  getKind := of_readOnly ReadOnly.getKind
  getValue := of_readOnly ReadOnly.getValue
  setValue v := of_same fun dbg s a s' h => by
    simp only [setValue, Out.ok.injEq] at h
    rw [← h.2]; exact ⟨rfl, rfl⟩
  failTok msg := of_readOnly (ReadOnly.failTok msg)
  blameStart msg m hm := by
    intro dbg s a s' h
    unfold blameStart at h
    cases hr : m dbg s <;> rw [hr] at h <;> simp at h
    rw [← h.2]
    exact hm _ _ _ _ hr
  advance := advance
  addBits b := of_same fun dbg s a s' h => by
    unfold addBits at h
    split at h <;> simp at h
    rw [← h]; exact ⟨rfl, rfl⟩
  addReuse b _ := of_same fun dbg s a s' h => by
    unfold addReuse at h
    split at h <;> simp at h
    rw [← h]; exact ⟨rfl, rfl⟩
  confirm k := of_readOnly (ReadOnly.confirm k)
  confirmIdent := of_readOnly ReadOnly.confirmIdent
  confirmReg := of_readOnly ReadOnly.confirmReg
  confirmPred := of_readOnly ReadOnly.confirmPred
  convertInteger a b := of_readOnly (ReadOnly.convertInteger a b)
  findInTable t p := of_readOnly (ReadOnly.findInTable true t p)

theorem getTok : Walk getTok := of_readOnly ReadOnly.getTok
theorem getCtx : Walk getCtx := of_readOnly ReadOnly.getCtx

theorem exitTok (msg : Msg) : Walk (exitTok msg : M α) := by
  intro dbg s a s' h; simp [Nxas.exitTok] at h

theorem modifyOpts (f : Opts → Opts) : Walk (modifyOpts f) := of_same fun dbg s a s' h => by
  simp only [Nxas.modifyOpts, Out.ok.injEq] at h
  rw [← h.2]; exact ⟨rfl, rfl⟩

theorem ite (c : Prop) [Decidable c] (a b : M α) (ha : Walk a) (hb : Walk b) :
    Walk (if c then a else b) := by split <;> assumption

theorem operand (o : Operand) : Walk o.run :=
  closed.run_all getCtx (of_readOnly (ReadOnly.ub _)) (of_readOnly (ReadOnly.ub _))
    (fun t p => of_readOnly (ReadOnly.findInTable false t p)) o

theorem checkOptionLine (n : Nat) : Walk (checkOptionLine n) :=
  bind getTok fun _ => ite _ _ _ (exitTok _) (closed.pure _)

theorem parseType (n : Nat) : Walk (parseType n) := by
  refine bind getCtx fun c => ite _ _ _ (exitTok _) ?_
  refine bind advance fun _ => bind (checkOptionLine n) fun _ => bind getTok fun t => ?_
  cases progTypeOfName t with
  | some p => exact modifyOpts _
  | none => exact ite _ _ _ (exitTok _) (of_readOnly (ReadOnly.ub _))

theorem nextImmediate (msg : Msg) : Walk (nextImmediate msg) := by
  refine bind advance fun _ => bind getTok fun t => ?_
  cases t.kind <;> first | exact closed.pure _ | exact exitTok _

theorem optionBody (t : Token) : Walk (optionBody t) := by
  unfold Nxas.optionBody
  refine ite _ _ _ (bind (modifyOpts _) fun _ => parseType _) ?_
  refine ite _ _ _ (parseType _) ?_
  refine ite _ _ _ (bind advance fun _ => bind getTok fun t => ?_) ?_
  · cases t.kind <;> first | exact exitTok _ | exact of_readOnly (ReadOnly.ub _)
  refine ite _ _ _ (bind (nextImmediate _) fun _ => bind (modifyOpts _) fun _ =>
    bind (nextImmediate _) fun _ => bind (modifyOpts _) fun _ => bind (nextImmediate _) fun _ =>
    bind (modifyOpts _) fun _ => checkOptionLine _) ?_
  refine ite _ _ _ (bind (nextImmediate _) fun _ => modifyOpts _) ?_
  exact ite _ _ _ (bind (nextImmediate _) fun _ => modifyOpts _) (closed.pure _)

theorem parseOption : Walk parseOption :=
  bind getTok fun t0 => bind (optionBody t0) fun _ => bind advance fun _ => bind getTok fun _ =>
    ite _ _ _ (exitTok _) (closed.pure _)

theorem parseOptions (n : Nat) : Walk (parseOptions n) := by
  induction n with
  | zero => exact of_readOnly (ReadOnly.ub _)
  | succ n ih =>
    exact bind getTok fun t => ite _ _ _ (bind parseOption fun _ => ih) (closed.pure _)

theorem schedLoop (n : Nat) (r : Sched) : Walk (schedLoop n r) := by
  induction n generalizing r with
  | zero => exact of_readOnly (ReadOnly.ub _)
  | succ n ih =>
    exact bind closed.getKind fun t => ite _ _ _ (bind (closed.schedStep r) fun r' => ih r') (closed.pure _)

theorem operands {os : List Operand} {n sc : Nat} {dbg : Bool} {s s' : St}
    (h : runOperands os n dbg s = (.ok () s', sc)) :
    ∃ ks, Toks s.tok.kind s.ctx.cur ks s'.tok.kind s'.ctx.cur := by
  induction os generalizing n s with
  | nil =>
    simp only [runOperands, Prod.mk.injEq, Out.ok.injEq, true_and] at h
    rw [h.1]; exact ⟨[], .nil⟩
  | cons o os ih =>
    unfold runOperands at h
    split at h
    · rename_i s1 h1
      obtain ⟨ks, h2⟩ := operand o _ _ _ _ h1
      obtain ⟨ks', h3⟩ := ih h
      exact ⟨_, h2.append h3⟩
    · rename_i hno
      simp only [Prod.mk.injEq] at h
      exact absurd h.1 (hno _ _)

end Walk

/-- Without options the option loop does nothing. -/
theorem parseOptions_none {n : Nat} {dbg : Bool} {s s' : St} (hs : s.tok.isOption = false)
    (h : parseOptions n dbg s = .ok () s') : s' = s := by
  cases n with
  | zero => simp [parseOptions, ubM] at h
  | succ n =>
    unfold parseOptions at h
    obtain ⟨t, s1, h1, h⟩ := bind_ok h
    simp only [getTok, Out.ok.injEq] at h1
    obtain ⟨rfl, rfl⟩ := h1
    rw [if_neg (by simp [hs])] at h
    simp only [M.pure, Out.ok.injEq, true_and] at h
    exact h.symm

theorem addBits_ok {b : BitVec 64} {dbg : Bool} {s s' : St} {u : Unit} (h : addBits b dbg s = .ok u s') :
    (dbg = true → s.op.value &&& b = 0#64) ∧
      s' = { s with op := { s.op with value := s.op.value ||| b } } := by
  unfold addBits at h
  split at h
  · simp at h
  · rename_i hd
    simp only [Out.ok.injEq, true_and] at h
    exact ⟨fun hdbg => by subst hdbg; simpa using hd, h.symm⟩

/-- The bits added for a guard, as the code computes them. -/
def guardWord : Option (Nat × Bool) → BitVec 64
  | none => 7#64 <<< 16
  | some (p, n) => (BitVec.ofNat 64 p ||| ((if n then 1#64 else 0#64) <<< 3)) <<< 16

/-- The guard. -/
theorem prologueBody_inv {dbg : Bool} {s s' : St} (h : prologueBody dbg s = .ok () s') : ∃ g mn,
      Toks s.tok.kind s.ctx.cur (guardTokens g) s'.tok.kind s'.ctx.cur ∧ s'.tok.kind = .ident mn ∧
      (∀ p n, g = some (p, n) → p ≤ 7) ∧
      s'.op = { s.op with value := s.op.value ||| guardWord g } ∧
      s'.ctx = { s.ctx with cur := s'.ctx.cur } := by
  have hend : ∀ {s1 : St}, (do
      let t2 ← getTok
      match t2.kind with
      | .ident _ => M.pure ()
      | _ => exitTok "expected mnemonic" : M Unit) dbg s1 = .ok () s' →
      s' = s1 ∧ ∃ mn, s1.tok.kind = .ident mn := by
    intro s1 h
    obtain ⟨t, s2, h1, h⟩ := bind_ok h
    simp only [getTok, Out.ok.injEq] at h1
    obtain ⟨rfl, rfl⟩ := h1
    cases hk : s1.tok.kind <;> simp [hk, exitTok, M.pure] at h
    exact ⟨h.symm, _, rfl⟩
  unfold prologueBody at h
  obtain ⟨t, s1, h1, h⟩ := bind_ok h
  simp only [getTok, Out.ok.injEq] at h1
  obtain ⟨rfl, rfl⟩ := h1
  by_cases hat : s.tok.kind = .at
  · rw [if_pos hat] at h
    obtain ⟨_, s2, h2, h⟩ := bind_ok h
    obtain ⟨_, s3, h3, h⟩ := bind_ok h
    obtain ⟨_, s4, h4, h⟩ := bind_ok h
    obtain ⟨rfl, mn, hmn⟩ := hend h
    obtain ⟨t1, c1, e1, rfl⟩ := advance_ok h2
    obtain ⟨t2, c2, e2, rfl⟩ := advance_ok h4
    unfold raising at h3
    split at h3
    · simp at h3
    unfold guardPredicate at h3
    obtain ⟨p, s5, h5, h3⟩ := bind_ok h3
    unfold confirmPred at h5
    cases hk : t1.kind <;> simp [hk] at h5
    rename_i i n
    obtain ⟨rfl, rfl⟩ := h5
    obtain ⟨-, rfl⟩ := addBits_ok h3
    have hw := (tokenize_ok e1).wf
    rw [hk] at hw
    refine ⟨some (i, n), mn, ?_, hmn, ?_, rfl, rfl⟩
    · rw [hat]
      refine .cons e1 ?_
      rw [hk]
      exact .cons e2 .nil
    · rintro p n' hg
      simp only [Option.some.injEq, Prod.mk.injEq] at hg
      rw [← hg.1]; exact hw
  · rw [if_neg hat] at h
    obtain ⟨_, s2, h2, h⟩ := bind_ok h
    obtain ⟨rfl, mn, hmn⟩ := hend h
    obtain ⟨-, rfl⟩ := addBits_ok h2
    exact ⟨none, mn, .nil, hmn, by simp, rfl, rfl⟩

end Nxas
