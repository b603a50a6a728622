import Verif.Lemmas.Twin
/-
No parser moves past a semicolon, and every diagnostic is about a token that has been read.
-/

namespace Nxas

/-- From the token `t₀` and the cursor behind it, tokens are read up to `t`; those before `t` are no semicolons. -/
inductive Trail (t₀ : Token) (c₀ : Cur) : Token → Cur → Prop
  | refl : Trail t₀ c₀ t₀ c₀
  | step {t t' : Token} {c c' : Cur} (h : Trail t₀ c₀ t c) (hk : t.kind ≠ .semicolon) (ht : tokenize c = .ok t' c') : Trail t₀ c₀ t' c'

/-- The error is about a token of the path, or about the text behind it, which is no token. -/
def Blames (t₀ : Token) (c₀ : Cur) (e : Err) : Prop :=
  ∃ t c, Trail t₀ c₀ t c ∧ ((e.line = t.line ∧ e.col = t.col) ∨ (t.kind ≠ .semicolon ∧ tokenize c = .exit e))

/-- The outcome is at the end of a path. -/
def StayOut (t₀ : Token) (c₀ : Cur) (Q : α → Kind → Prop) : Out α → Prop
  | .ok a s => Trail t₀ c₀ s.tok s.ctx.cur ∧ Q a s.tok.kind
  | .fail e _ => Blames t₀ c₀ e
  | .exit e => Blames t₀ c₀ e
  | _ => True

/-- Run on a token of class `k`, the computation goes on along the path. -/
def Stay (t₀ : Token) (c₀ : Cur) (m : M α) (k : Kind) (Q : α → Kind → Prop) : Prop :=
  ∀ dbg s, Trail t₀ c₀ s.tok s.ctx.cur → s.tok.kind = k → StayOut t₀ c₀ Q (m dbg s)

namespace Stay

variable {t₀ : Token} {c₀ : Cur} {k : Kind}

theorem pure {a : α} {Q : α → Kind → Prop} (h : Q a k) : Stay t₀ c₀ (M.pure a) k Q := by
  intro dbg s hs hk
  exact ⟨hs, hk ▸ h⟩

theorem bind {m : M α} {f : α → M β} {Q : β → Kind → Prop} (h : Stay t₀ c₀ m k fun a k' => Stay t₀ c₀ (f a) k' Q) :
    Stay t₀ c₀ (m >>= f) k Q := by
  intro dbg s hs hk
  have := h dbg s hs hk
  rw [M.bind_def]
  cases hm : m dbg s with
  | ok a s1 =>
    rw [hm] at this
    exact this.2 dbg s1 this.1 rfl
  | _ => rw [hm] at this; exact this

theorem bindCtx {f : Ctx → M β} {Q : β → Kind → Prop} (h : ∀ c, Stay t₀ c₀ (f c) k Q) :
    Stay t₀ c₀ (Nxas.getCtx >>= f) k Q := by
  intro dbg s hs hk
  exact h _ dbg s hs hk

theorem getKind {Q : Kind → Kind → Prop} (h : Q k k) : Stay t₀ c₀ Nxas.getKind k Q := by
  intro dbg s hs hk
  subst hk
  exact ⟨hs, h⟩

theorem getTok {Q : Token → Kind → Prop} (h : ∀ t : Token, t.kind = k → Q t k) : Stay t₀ c₀ Nxas.getTok k Q := by
  intro dbg s hs hk
  subst hk
  exact ⟨hs, h _ rfl⟩

theorem getValue {Q : BitVec 64 → Kind → Prop} (h : ∀ x, Q x k) : Stay t₀ c₀ Nxas.getValue k Q := by
  intro dbg s hs hk
  subst hk
  exact ⟨hs, h _⟩

theorem setValue {x : BitVec 64} {Q : Unit → Kind → Prop} (h : Q () k) : Stay t₀ c₀ (Nxas.setValue x) k Q := by
  intro dbg s hs hk
  subst hk
  exact ⟨hs, h⟩

theorem failTok {m : Msg} {Q : α → Kind → Prop} : Stay t₀ c₀ (Nxas.failTok m) k Q := by
  intro dbg s hs hk
  exact ⟨_, _, hs, .inl ⟨rfl, rfl⟩⟩

theorem exitTok {m : Msg} {Q : α → Kind → Prop} : Stay t₀ c₀ (Nxas.exitTok m) k Q := by
  intro dbg s hs hk
  exact ⟨_, _, hs, .inl ⟨rfl, rfl⟩⟩

theorem ub {u : UB} {Q : α → Kind → Prop} : Stay t₀ c₀ (ubM u) k Q := fun _ _ _ _ => trivial

theorem blameStart {msg : Msg} {m : M α} {Q : α → Kind → Prop} (h : Stay t₀ c₀ m k Q) :
    Stay t₀ c₀ (Nxas.blameStart msg m) k Q := by
  intro dbg s hs hk
  have := h dbg s hs hk
  unfold Nxas.blameStart
  cases hr : m dbg s <;> rw [hr] at this
  case fail e s1 =>
    show Blames _ _ (if e.msg = msg then _ else e)
    split
    · exact ⟨_, _, hs, .inl ⟨rfl, rfl⟩⟩
    · exact this
  all_goals exact this

theorem advanceFrom {Q : Unit → Kind → Prop} {dbg : Bool} {s : St} {t : Token} (hp : Trail t₀ c₀ t s.ctx.cur) (hk : t.kind ≠ .semicolon)
    (h : ∀ k', Q () k') : StayOut t₀ c₀ Q (Nxas.advance dbg s) := by
  unfold Nxas.advance
  cases hx : tokenize s.ctx.cur with
  | ok t' c => exact ⟨hp.step hk hx, h _⟩
  | exit e => exact ⟨_, _, hp, .inr ⟨hk, hx⟩⟩
  | ub u => trivial

theorem advance {Q : Unit → Kind → Prop} (hk : k ≠ .semicolon) (h : ∀ k', Q () k') : Stay t₀ c₀ Nxas.advance k Q := by
  intro dbg s hs he
  subst he
  exact advanceFrom hs hk h

theorem addBits {b : BitVec 64} {Q : Unit → Kind → Prop} (h : Q () k) : Stay t₀ c₀ (Nxas.addBits b) k Q := by
  intro dbg s hs hk
  subst hk
  unfold Nxas.addBits
  split
  · trivial
  · exact ⟨hs, h⟩

theorem addReuse {b : BitVec 32} {Q : Unit → Kind → Prop} (h : Q () k) : Stay t₀ c₀ (Nxas.addReuse b) k Q := by
  intro dbg s hs hk
  subst hk
  unfold Nxas.addReuse
  split
  · trivial
  · exact ⟨hs, h⟩

theorem confirm {k0 : Kind} {Q : Unit → Kind → Prop} (h : k = k0 → Q () k) : Stay t₀ c₀ (Nxas.confirm k0) k Q := by
  intro dbg s hs hk
  subst hk
  unfold Nxas.confirm
  split
  · next he => exact ⟨hs, h he⟩
  · exact ⟨_, _, hs, .inl ⟨rfl, rfl⟩⟩

theorem confirmIdent {Q : Str → Kind → Prop} (h : ∀ x, k = .ident x → Q x k) : Stay t₀ c₀ Nxas.confirmIdent k Q := by
  intro dbg s hs hk
  subst hk
  unfold Nxas.confirmIdent
  split
  · next x he => exact ⟨hs, h x he⟩
  · exact ⟨_, _, hs, .inl ⟨rfl, rfl⟩⟩

theorem confirmReg {Q : Nat → Kind → Prop} (h : ∀ x, k = .reg x → Q x k) : Stay t₀ c₀ Nxas.confirmReg k Q := by
  intro dbg s hs hk
  subst hk
  unfold Nxas.confirmReg
  split
  · next x he => exact ⟨hs, h x he⟩
  · exact ⟨_, _, hs, .inl ⟨rfl, rfl⟩⟩

theorem confirmPred {Q : Nat × Bool → Kind → Prop} (h : ∀ i n, k = .pred i n → Q (i, n) k) : Stay t₀ c₀ Nxas.confirmPred k Q := by
  intro dbg s hs hk
  subst hk
  unfold Nxas.confirmPred
  split
  · next i n he => exact ⟨hs, h i n he⟩
  · exact ⟨_, _, hs, .inl ⟨rfl, rfl⟩⟩

theorem convertInteger {a b : Int} {Q : Int → Kind → Prop} (h : ∀ x, k = .imm x → Q x k) :
    Stay t₀ c₀ (Nxas.convertInteger a b) k Q := by
  intro dbg s hs hk
  subst hk
  unfold Nxas.convertInteger
  split
  · next x he =>
    split
    · exact ⟨_, _, hs, .inl ⟨rfl, rfl⟩⟩
    · exact ⟨hs, h x he⟩
  · exact ⟨_, _, hs, .inl ⟨rfl, rfl⟩⟩

theorem findInTable {b : Bool} {t : List Str} {p : Str} {Q : Option Nat → Kind → Prop}
    (hn : Q none k) (h : ∀ i x, k = .ident x → Q (some i) k) : Stay t₀ c₀ (Nxas.findInTable b t p) k Q := by
  intro dbg s hs hk
  subst hk
  unfold Nxas.findInTable
  split
  · next text he =>
    split
    · exact ⟨hs, hn⟩
    · split
      · next i hi => exact ⟨hs, h i _ he⟩
      · split
        · exact ⟨hs, hn⟩
        · trivial
  · exact ⟨hs, hn⟩

theorem ite {c : Prop} [Decidable c] {a b : M α} {Q : α → Kind → Prop} (ha : c → Stay t₀ c₀ a k Q) (hb : ¬ c → Stay t₀ c₀ b k Q) :
    Stay t₀ c₀ (if c then a else b) k Q := by
  split
  · next h => exact ha h
  · next h => exact hb h

end Stay

/-- Decompose a computation. -/
macro "stay" : tactic => `(tactic| repeat' (first
  | with_reducible refine Stay.bindCtx ?_
  | with_reducible refine Stay.bind ?_
  | with_reducible refine Stay.getKind ?_
  | with_reducible exact Stay.failTok
  | with_reducible exact Stay.ub
  | with_reducible refine Stay.pure ?_
  | with_reducible refine Stay.getValue ?_
  | with_reducible refine Stay.setValue ?_
  | (with_reducible refine Stay.advance ?_ ?_; focus nosemi)
  | with_reducible refine Stay.addBits ?_
  | with_reducible refine Stay.addReuse ?_
  | with_reducible refine Stay.confirm ?_
  | with_reducible refine Stay.confirmIdent ?_
  | with_reducible refine Stay.confirmReg ?_
  | with_reducible refine Stay.confirmPred ?_
  | with_reducible refine Stay.convertInteger ?_
  | with_reducible refine Stay.findInTable ?_ ?_
  | with_reducible refine Stay.ite ?_ ?_
  | with_reducible exact trivial
  | (with_reducible apply_assumption; done)
  | (with_reducible intro _; try dsimp only)
  | split))

namespace Stay

variable {t₀ : Token} {c₀ : Cur} {k : Kind} {Q : Unit → Kind → Prop}

theorem tryReuse {a : Nat} (hq : ∀ k, Q () k) : Stay t₀ c₀ (Nxas.tryReuse a) k Q := by
  unfold Nxas.tryReuse
  stay

theorem assembleGpr {a : Nat} (hq : ∀ k, Q () k) : Stay t₀ c₀ (Nxas.assembleGpr a) k Q := by
  unfold Nxas.assembleGpr
  stay
  exact tryReuse hq

theorem runFlag {s : Str} {a : Nat} (hq : ∀ k, Q () k) : Stay t₀ c₀ (Nxas.runFlag s a) k Q := by
  unfold Nxas.runFlag
  stay

theorem runUint {m : Int} {a : Nat} (hq : ∀ k, Q () k) : Stay t₀ c₀ (Nxas.runUint m a) k Q := by
  unfold Nxas.runUint
  stay

theorem runSint {m : Nat} {a : Nat} (hq : ∀ k, Q () k) : Stay t₀ c₀ (Nxas.runSint m a) k Q := by
  unfold Nxas.runSint
  stay

theorem runDotTable {d : Option Nat} {a : Nat} {t : List Str} (hq : ∀ k, Q () k) : Stay t₀ c₀ (Nxas.runDotTable d a t) k Q := by
  unfold Nxas.runDotTable
  stay

theorem runUimmExtended (hq : ∀ k, Q () k) : Stay t₀ c₀ Nxas.runUimmExtended k Q := by
  unfold Nxas.runUimmExtended
  stay

theorem runComma (hq : ∀ k, Q () k) : Stay t₀ c₀ Nxas.runComma k Q := by
  unfold Nxas.runComma
  stay

theorem runLabelTarget {a : Int} (hk : k ≠ .semicolon) (hq : ∀ k, Q () k) : Stay t₀ c₀ (Nxas.runLabelTarget a) k Q := by
  unfold Nxas.runLabelTarget
  refine bindCtx fun c => ?_
  stay

theorem runLabel (hq : ∀ k, Q () k) : Stay t₀ c₀ Nxas.runLabel k Q := by
  unfold Nxas.runLabel
  refine bind (getKind ?_)
  split
  · refine bindCtx fun c => ?_
    split
    · exact failTok
    · exact runLabelTarget nofun hq
  · exact runLabelTarget nofun hq
  · exact failTok

theorem runMirror {a : Nat} (hq : ∀ k, Q () k) : Stay t₀ c₀ (Nxas.runMirror a) k Q := by
  unfold Nxas.runMirror
  stay
  refine assembleGpr fun k => ?_
  stay

theorem runCbuf (hq : ∀ k, Q () k) : Stay t₀ c₀ Nxas.runCbuf k Q := by
  unfold Nxas.runCbuf
  refine blameStart ?_
  stay

theorem runImm20 (hq : ∀ k, Q () k) : Stay t₀ c₀ Nxas.runImm20 k Q := by
  unfold Nxas.runImm20
  stay

theorem floatKeyword {n : Nat} {a b : BitVec n} {Q : BitVec n → Kind → Prop} (hq : ∀ x k, k ≠ .semicolon → Q x k) :
    Stay t₀ c₀ (Nxas.floatKeyword a b) k Q := by
  unfold Nxas.floatKeyword
  refine bind (getKind (ite (fun h => pure (hq _ _ ?_)) fun _ => ite (fun h => pure (hq _ _ ?_)) fun _ => failTok)) <;> nosemi

theorem addNegBit {n : Option Nat} (hq : Q () k) : Stay t₀ c₀ (Nxas.addNegBit n) k Q := by
  unfold Nxas.addNegBit
  stay

theorem floatValue {Q : BitVec 32 → Kind → Prop} (hq : ∀ x k, k ≠ .semicolon → Q x k) : Stay t₀ c₀ Nxas.floatValue k Q := by
  unfold Nxas.floatValue
  refine bind (getKind ?_)
  cases k <;> dsimp only
  case imm x => exact ite (fun h => absurd rfl h) fun _ => pure (hq _ _ nofun)
  case fimm x => exact pure (hq _ _ nofun)
  case plus => exact bind (advance nofun fun k => floatKeyword hq)
  case minus => exact bind (advance nofun fun k => bind (floatKeyword fun x k hk => pure (hq _ _ hk)))
  case ident => exact floatKeyword hq
  all_goals exact failTok

theorem runFimm {w : Bool} (hq : ∀ k, Q () k) : Stay t₀ c₀ (Nxas.runFimm w) k Q := by
  unfold Nxas.runFimm
  refine bind (floatValue fun x k hk => ?_)
  stay

theorem doubleValue {Q : BitVec 64 → Kind → Prop} (hq : ∀ x k, k ≠ .semicolon → Q x k) : Stay t₀ c₀ Nxas.doubleValue k Q := by
  unfold Nxas.doubleValue
  refine bind (getKind ?_)
  cases k <;> dsimp only
  case imm x =>
    stay
    all_goals first | exact hq _ _ nofun | exact addNegBit (pure (hq _ _ nofun))
  case fimm x =>
    stay
    all_goals first | exact hq _ _ nofun | exact addNegBit (pure (hq _ _ nofun))
  case plus => exact bind (advance nofun fun k => floatKeyword hq)
  case minus => exact bind (addBits (bind (advance nofun fun k => floatKeyword hq)))
  case ident => exact floatKeyword hq
  all_goals exact failTok

theorem runDimm20 (hq : ∀ k, Q () k) : Stay t₀ c₀ Nxas.runDimm20 k Q := by
  unfold Nxas.runDimm20
  refine bind (doubleValue fun x k hk => ?_)
  stay

theorem halfValue {n : Option Nat} {Q : BitVec 16 → Kind → Prop} (hq : ∀ x k, k ≠ .semicolon → Q x k) :
    Stay t₀ c₀ (Nxas.halfValue n) k Q := by
  unfold Nxas.halfValue
  refine bind (getKind ?_)
  cases k <;> dsimp only
  case imm x =>
    stay
    all_goals first | exact hq _ _ nofun | exact addNegBit (pure (hq _ _ nofun))
  case fimm x =>
    stay
    all_goals first | exact hq _ _ nofun | exact addNegBit (pure (hq _ _ nofun))
  case plus => exact bind (advance nofun fun k => floatKeyword hq)
  case minus => exact bind (advance nofun fun k => bind (floatKeyword fun x k hk => bind (addNegBit (pure (hq _ _ hk)))))
  case ident => exact floatKeyword hq
  all_goals exact failTok

theorem runHimm {w : Bool} {o : Nat} {n : Option Nat} (hq : ∀ k, Q () k) : Stay t₀ c₀ (Nxas.runHimm w o n) k Q := by
  unfold Nxas.runHimm
  refine bind (halfValue fun x k hk => ?_)
  stay

theorem runBop {a : Nat} (hq : ∀ k, Q () k) : Stay t₀ c₀ (Nxas.runBop a) k Q := by
  unfold Nxas.runBop
  stay

theorem runPred {a : Nat} {n : Bool} (hq : ∀ k, Q () k) : Stay t₀ c₀ (Nxas.runPred a n) k Q := by
  unfold Nxas.runPred
  stay

theorem runInvertedPred {a : Nat} (hq : ∀ k, Q () k) : Stay t₀ c₀ (Nxas.runInvertedPred a) k Q := by
  unfold Nxas.runInvertedPred
  stay

theorem runSign {k0 : Kind} {a : Nat} (h0 : k0 ≠ .semicolon) (hq : ∀ k, Q () k) : Stay t₀ c₀ (Nxas.runSign k0 a) k Q := by
  unfold Nxas.runSign
  stay

theorem runAbs {a : Nat} {m : M Unit} (hm : ∀ k (Q : Unit → Kind → Prop), (∀ k, Q () k) → Stay t₀ c₀ m k Q) (hq : ∀ k, Q () k) :
    Stay t₀ c₀ (Nxas.runAbs a m) k Q := by
  unfold Nxas.runAbs
  stay
  · refine hm _ _ fun k => ?_
    stay
  · exact hm _ _ hq

theorem runPo {a b : Nat} (hq : ∀ k, Q () k) : Stay t₀ c₀ (Nxas.runPo a b) k Q := by
  unfold Nxas.runPo
  stay

theorem runMemAddress {i : Bool} {a s t : Nat} (hq : ∀ k, Q () k) : Stay t₀ c₀ (Nxas.runMemAddress i a s t) k Q := by
  unfold Nxas.runMemAddress
  stay
  all_goals
    refine tryReuse fun k => ?_
    stay

theorem runCcTests {a : Nat} {t : List Str} (hq : ∀ k, Q () k) : Stay t₀ c₀ (Nxas.runCcTests a t) k Q := by
  unfold Nxas.runCcTests
  stay

theorem addAll {l : List (BitVec 64)} (hq : Q () k) : Stay t₀ c₀ (Nxas.addAll l) k Q := by
  induction l with
  | nil => exact pure hq
  | cons b bs ih => exact bind (addBits ih)

theorem runExpect {s : Str} {pre post : List (BitVec 64)} (hq : ∀ k, Q () k) : Stay t₀ c₀ (Nxas.runExpect s pre post) k Q := by
  unfold Nxas.runExpect
  refine bind (getKind (ite (fun h => failTok) fun h => bind (addAll (bind (advance (by nosemi) fun k => addAll (hq _))))))

theorem runOptText {s : Str} (hq : ∀ k, Q () k) : Stay t₀ c₀ (Nxas.runOptText s) k Q := by
  unfold Nxas.runOptText
  stay

theorem attrOpen (hq : ∀ k, Q () k) : Stay t₀ c₀ Nxas.attrOpen k Q := by
  unfold Nxas.attrOpen
  stay

theorem attrClose (hq : ∀ k, Q () k) : Stay t₀ c₀ Nxas.attrClose k Q := by
  unfold Nxas.attrClose
  stay

theorem runImmAttr (hq : ∀ k, Q () k) : Stay t₀ c₀ Nxas.runImmAttr k Q := by
  unfold Nxas.runImmAttr
  exact bind (attrOpen fun k => bind (runUint fun k => bind (addBits (attrClose hq))))

theorem runPatchAttr (hq : ∀ k, Q () k) : Stay t₀ c₀ Nxas.runPatchAttr k Q := by
  unfold Nxas.runPatchAttr
  refine bind (attrOpen fun k => bind (assembleGpr fun k => ?_))
  stay
  all_goals exact runSint fun k => attrClose hq

theorem runPhysAttr (hq : ∀ k, Q () k) : Stay t₀ c₀ Nxas.runPhysAttr k Q := by
  unfold Nxas.runPhysAttr
  exact bind (attrOpen fun k => bind (assembleGpr fun k => attrClose hq))

theorem runXmadSigns (hq : ∀ k, Q () k) : Stay t₀ c₀ Nxas.runXmadSigns k Q := by
  unfold Nxas.runXmadSigns
  stay

theorem runF2fRounding (hq : ∀ k, Q () k) : Stay t₀ c₀ Nxas.runF2fRounding k Q := by
  unfold Nxas.runF2fRounding
  stay
  · rename_i heq
    refine advance ?_ fun k => addBits (hq _)
    rintro rfl
    simp [Kind.equal] at heq
  · exact runDotTable hq

theorem runIntFormat {ut st : List Str} {a b : Nat} (hq : ∀ k, Q () k) : Stay t₀ c₀ (Nxas.runIntFormat ut st a b) k Q := by
  unfold Nxas.runIntFormat
  stay

theorem runPlainTable {t : List Str} {a : Nat} (hq : ∀ k, Q () k) : Stay t₀ c₀ (Nxas.runPlainTable a t) k Q := by
  unfold Nxas.runPlainTable
  stay

theorem runSelector {a b c : Nat} {s t : List Str} (hq : ∀ k, Q () k) : Stay t₀ c₀ (Nxas.runSelector a b c s t) k Q := by
  unfold Nxas.runSelector
  stay
  all_goals exact runDotTable hq

theorem runLdcAddress (hq : ∀ k, Q () k) : Stay t₀ c₀ Nxas.runLdcAddress k Q := by
  unfold Nxas.runLdcAddress
  stay
  exact runMemAddress hq

theorem runS2r {t : List Str} (hq : ∀ k, Q () k) : Stay t₀ c₀ (Nxas.runS2r t) k Q := by
  unfold Nxas.runS2r
  stay

theorem runLdgSize (hq : ∀ k, Q () k) : Stay t₀ c₀ Nxas.runLdgSize k Q := by
  unfold Nxas.runLdgSize
  stay

theorem runAtomicSize {a : Nat} (hq : ∀ k, Q () k) : Stay t₀ c₀ (Nxas.runAtomicSize a) k Q := by
  unfold Nxas.runAtomicSize
  stay

theorem runSrcFormat {a b : Nat} (hq : ∀ k, Q () k) : Stay t₀ c₀ (Nxas.runSrcFormat a b) k Q := by
  unfold Nxas.runSrcFormat
  stay

theorem runTexType {a : Nat} (hq : ∀ k, Q () k) : Stay t₀ c₀ (Nxas.runTexType a) k Q := by
  unfold Nxas.runTexType
  stay

theorem runZero (hq : ∀ k, Q () k) : Stay t₀ c₀ Nxas.runZero k Q := by
  unfold Nxas.runZero
  stay

theorem runTexsMode {a : Nat} (hq : ∀ k, Q () k) : Stay t₀ c₀ (Nxas.runTexsMode a) k Q := by
  unfold Nxas.runTexsMode
  stay

theorem runTldsType {a : Nat} (hq : ∀ k, Q () k) : Stay t₀ c₀ (Nxas.runTldsType a) k Q := by
  unfold Nxas.runTldsType
  stay

theorem runTexsType {a : Nat} (hq : ∀ k, Q () k) : Stay t₀ c₀ (Nxas.runTexsType a) k Q := by
  unfold Nxas.runTexsType
  stay

theorem runTexsSwizzle (hq : ∀ k, Q () k) : Stay t₀ c₀ Nxas.runTexsSwizzle k Q := by
  unfold Nxas.runTexsSwizzle
  stay

theorem run {o : Operand} (hq : ∀ k, Q () k) : Stay t₀ c₀ o.run k Q := by
  induction o generalizing k Q with
  | flag s a => exact runFlag hq
  | uint m a => exact runUint hq
  | sint b a => exact runSint hq
  | dotTable d a t => exact runDotTable hq
  | uimmExtended => exact runUimmExtended hq
  | comma => exact runComma hq
  | label => exact runLabel hq
  | gpr a => exact assembleGpr hq
  | mirrorGpr a => exact runMirror hq
  | cbuf => exact runCbuf hq
  | imm20 => exact runImm20 hq
  | fimm w => exact runFimm hq
  | dimm20 => exact runDimm20 hq
  | himm w o n => exact runHimm hq
  | bop a => exact runBop hq
  | pred a n => exact runPred hq
  | invertedPred a => exact runInvertedPred hq
  | neg a => exact runSign nofun hq
  | tilde a => exact runSign nofun hq
  | abs a inner ih => exact runAbs (fun k Q hq => ih hq) hq
  | po a b => exact runPo hq
  | defaultRz a => exact addBits (hq _)
  | memAddress i a s r => exact runMemAddress hq
  | ccTests a t => exact runCcTests hq
  | expect s pre post => exact runExpect hq
  | optText s => exact runOptText hq
  | immAttr => exact runImmAttr hq
  | patchAttr => exact runPatchAttr hq
  | physAttr => exact runPhysAttr hq
  | xmadSigns => exact runXmadSigns hq
  | f2fRounding => exact runF2fRounding hq
  | intFormat u s a b => exact runIntFormat hq
  | plainTable a t => exact runPlainTable hq
  | selector a t k s b => exact runSelector hq
  | ldcAddress => exact runLdcAddress hq
  | s2r t => exact runS2r hq
  | ldgSize => exact runLdgSize hq
  | atomicSize a => exact runAtomicSize hq
  | srcFormat a s => exact runSrcFormat hq
  | immFormat s => exact runDotTable hq
  | texType a => exact runTexType hq
  | zero => exact runZero hq
  | texsMode a => exact runTexsMode hq
  | tldsType a => exact runTldsType hq
  | texsType a => exact runTexsType hq
  | texsSwizzle => exact runTexsSwizzle hq

/-! ### Annotations -/

theorem setSched {x : BitVec 32} (h : Q () k) : Stay t₀ c₀ (Nxas.setSched x) k Q := by
  intro dbg s hs hk
  subst hk
  exact ⟨hs, h⟩

theorem schedImmediate {x : Int} {m : Msg} {Q : Nat → Kind → Prop} (hq : ∀ y, k ≠ .semicolon → Q y k) :
    Stay t₀ c₀ (Nxas.schedImmediate x m) k Q := by
  unfold Nxas.schedImmediate
  refine bind (getKind ?_)
  split
  · exact ite (fun _ => failTok) fun _ => pure (hq _ nofun)
  · exact failTok

theorem schedStep {s : Sched} (hk : k ≠ .semicolon) {Q : Sched → Kind → Prop} (hq : ∀ x k, Q x k) : Stay t₀ c₀ (Nxas.schedStep s) k Q := by
  unfold Nxas.schedStep
  refine bind (advance hk fun k => bind (getKind ?_))
  refine ite (fun h => ite (fun _ => failTok) fun _ => ?_) fun h1 => ?_
  · exact bind (advance (by nosemi) fun k => bind (schedImmediate fun y hy => bind (advance hy fun k => pure (hq _ _))))
  refine ite (fun h => ite (fun _ => failTok) fun _ => ?_) fun h2 => ?_
  · exact bind (advance (by nosemi) fun k => bind (schedImmediate fun y hy => bind (advance hy fun k => pure (hq _ _))))
  refine ite (fun h => ite (fun _ => failTok) fun _ => ?_) fun h3 => ?_
  · exact bind (advance (by nosemi) fun k => pure (hq _ _))
  refine ite (fun h => ?_) fun h4 => failTok
  · exact bind (advance (by nosemi) fun k => bind (schedImmediate fun y hy => ite (fun _ => failTok) fun _ =>
      bind (advance hy fun k => pure (hq _ _))))

theorem schedLoop {n : Nat} {s : Sched} {Q : Sched → Kind → Prop} (hq : ∀ x k, Q x k) :
    Stay t₀ c₀ (Nxas.schedLoop n s) k Q := by
  induction n generalizing k s with
  | zero => exact ub
  | succ n ih =>
    unfold Nxas.schedLoop
    refine bind (getKind (ite (fun h => bind (schedStep (by nosemi) fun x k => ih)) fun _ => pure (hq _ _)))

theorem assembleSched (hq : ∀ k, Q () k) : Stay t₀ c₀ Nxas.assembleSched k Q := by
  intro dbg s hs hk
  unfold Nxas.assembleSched
  exact bind (schedLoop fun r k => setSched (hq k)) dbg s hs hk

theorem finishInsn (hq : Q () .semicolon) : Stay t₀ c₀ Nxas.finishInsn k Q := by
  unfold Nxas.finishInsn
  exact bind (assembleSched fun k => confirm fun h => h ▸ hq)

/-! ### Options -/

theorem modifyOpts {f : Opts → Opts} (h : Q () k) : Stay t₀ c₀ (Nxas.modifyOpts f) k Q := by
  intro dbg s hs hk
  subst hk
  exact ⟨hs, h⟩

theorem modifyPc {f : Nat → Nat} (h : Q () k) : Stay t₀ c₀ (Nxas.modifyPc f) k Q := by
  intro dbg s hs hk
  subst hk
  exact ⟨hs, h⟩

theorem raising {m : M α} {Q : α → Kind → Prop} (h : Stay t₀ c₀ m k Q) : Stay t₀ c₀ (Nxas.raising m) k Q := by
  intro dbg s hs hk
  have := h dbg s hs hk
  unfold Nxas.raising
  cases hr : m dbg s <;> rw [hr] at this <;> exact this

theorem checkOptionLine {n : Nat} (hq : Q () k) : Stay t₀ c₀ (Nxas.checkOptionLine n) k Q := by
  unfold Nxas.checkOptionLine
  exact bind (getTok fun t ht => ite (fun _ => exitTok) fun _ => pure hq)

theorem progTypeOfName_some {t : Token} {p : ProgType} (h : progTypeOfName t = some p) : t.kind ≠ .semicolon := by
  intro hk
  simp [progTypeOfName, Token.equal, Kind.equal, hk] at h

theorem parseType {n : Nat} (hk : k ≠ .semicolon) (hq : ∀ k, k ≠ .semicolon → Q () k) : Stay t₀ c₀ (Nxas.parseType n) k Q := by
  unfold Nxas.parseType
  refine bindCtx fun c => ?_
  refine ite (fun _ => exitTok) fun _ => bind (advance hk fun k => bind (checkOptionLine (bind (getTok fun t ht => ?_))))
  split
  · next hp => exact modifyOpts (hq _ (ht ▸ progTypeOfName_some hp))
  · exact ite (fun _ => exitTok) fun _ => ub

theorem nextImmediate {m : Msg} {Q : BitVec 32 → Kind → Prop} (hk : k ≠ .semicolon) (hq : ∀ x k, k ≠ .semicolon → Q x k) :
    Stay t₀ c₀ (Nxas.nextImmediate m) k Q := by
  unfold Nxas.nextImmediate
  refine bind (advance hk fun k => bind (getTok fun t ht => ?_))
  split
  · next h => exact pure (hq _ _ (by rw [← ht, h]; nofun))
  · exact exitTok

theorem optionBody {t : Token} (hk : k ≠ .semicolon) (hq : ∀ k, k ≠ .semicolon → Q () k) : Stay t₀ c₀ (Nxas.optionBody t) k Q := by
  unfold Nxas.optionBody
  refine ite (fun h => bind (modifyOpts (parseType hk hq))) fun _ => ?_
  refine ite (fun h => parseType hk hq) fun _ => ?_
  refine ite (fun h => bind (advance hk fun k => bind (getTok fun t ht => ?_))) fun _ => ?_
  · split
    · exact exitTok
    · exact ub
  refine ite (fun h => ?_) fun _ => ?_
  · exact bind (nextImmediate hk fun x k hk => bind (modifyOpts (bind (nextImmediate hk fun x k hk => bind (modifyOpts
      (bind (nextImmediate hk fun x k hk => bind (modifyOpts (checkOptionLine (hq _ hk))))))))))
  refine ite (fun h => bind (nextImmediate hk fun x k hk => modifyOpts (hq _ hk))) fun _ => ?_
  exact ite (fun h => bind (nextImmediate hk fun x k hk => modifyOpts (hq _ hk))) fun _ => pure (hq _ hk)

theorem parseOption (hk : k ≠ .semicolon) (hq : ∀ k, Q () k) : Stay t₀ c₀ Nxas.parseOption k Q := by
  unfold Nxas.parseOption
  exact bind (getTok fun t0 h0 => bind (optionBody hk fun k hk => bind (advance hk fun k => bind (getTok fun t _ =>
    ite (fun _ => exitTok) fun _ => pure (hq _)))))

theorem parseOptions {n : Nat} (hq : ∀ k, Q () k) : Stay t₀ c₀ (Nxas.parseOptions n) k Q := by
  induction n generalizing k with
  | zero => exact ub
  | succ n ih =>
    unfold Nxas.parseOptions
    refine bind (getTok fun t ht => ite (fun h => bind (parseOption ?_ fun k => ih)) fun _ => pure (hq _))
    rintro rfl
    simp [Token.isOption, ht] at h

/-! ### Instructions -/

theorem guardPredicate (hq : ∀ k, k ≠ .semicolon → Q () k) : Stay t₀ c₀ Nxas.guardPredicate k Q := by
  unfold Nxas.guardPredicate
  exact bind (confirmPred fun i n h => addBits (hq _ (by rw [h]; nofun)))

theorem parsePrologue (hq : ∀ x, Q () (.ident x)) : Stay t₀ c₀ Nxas.parsePrologue k Q := by
  unfold Nxas.parsePrologue
  have hend : ∀ k, Stay t₀ c₀ (Nxas.getTok >>= fun t2 => match t2.kind with
      | .ident _ => M.pure ()
      | _ => Nxas.exitTok (α := Unit) "expected mnemonic") k Q := by
    intro k
    refine bind (getTok fun t ht => ?_)
    split
    · rename_i x hx
      exact pure (by rw [← ht, hx]; exact hq x)
    · exact exitTok
  refine bind (modifyPc (bind (getTok fun t ht => ?_)))
  split
  · next h =>
    exact bind (advance (by rw [← ht, h]; nofun) fun k => bind (raising (guardPredicate fun k hk => bind (advance hk fun k => hend k))))
  · exact bind (addBits (hend _))

end Stay

variable {t₀ : Token} {c₀ : Cur}

theorem startInsn_stay {i : Insn} {dbg : Bool} {s : St} {t : Token} (hp : Trail t₀ c₀ t s.ctx.cur) (hk : t.kind ≠ .semicolon) :
    StayOut t₀ c₀ (fun _ _ => True) (startInsn i dbg s) := by
  unfold startInsn
  rw [M.bind_def]
  unfold addBits
  split
  · next a s1 heq =>
    split at heq
    · simp at heq
    · simp only [Out.ok.injEq] at heq
      obtain ⟨-, rfl⟩ := heq
      rw [M.bind_def]
      have h1 := Stay.advanceFrom (dbg := dbg) (Q := fun _ _ => True)
        (s := { s with op := { s.op with value := s.op.value ||| i.opcode } }) hp hk fun _ => trivial
      generalize advance dbg { s with op := { s.op with value := s.op.value ||| i.opcode } } = m at h1
      cases m with
      | ok a s1 => exact Stay.bind (.getValue fun x => .ite (fun h => .failTok) fun _ => .pure trivial) dbg _ h1.1 rfl
      | _ => exact h1
  all_goals (next heq => split at heq <;> simp at heq; try trivial)

theorem runOperands_stay {os : List Operand} {n : Nat} {dbg : Bool} {s : St} (hs : Trail t₀ c₀ s.tok s.ctx.cur) :
    StayOut t₀ c₀ (fun _ _ => True) (runOperands os n dbg s).1 := by
  induction os generalizing n s with
  | nil => exact ⟨hs, trivial⟩
  | cons o os ih =>
    have := Stay.run (o := o) (Q := fun _ _ => True) (fun _ => trivial) dbg s hs rfl
    unfold runOperands
    cases hm : o.run dbg s <;> rw [hm] at this
    case ok a s1 => exact ih this.1
    all_goals exact this

theorem parseInsn_stay {i : Insn} {dbg : Bool} {s : St} {t : Token} (hp : Trail t₀ c₀ t s.ctx.cur) (hk : t.kind ≠ .semicolon) :
    StayOut t₀ c₀ (fun _ k => k = .semicolon) (parseInsn i dbg s).1 := by
  have h1 := startInsn_stay (i := i) (dbg := dbg) hp hk
  unfold parseInsn
  cases hm : startInsn i dbg s <;> rw [hm] at h1
  case ok a s1 =>
    dsimp only
    have h3 := runOperands_stay (os := i.operands) (n := 1) (dbg := dbg) h1.1
    rcases hr : runOperands i.operands 1 dbg s1 with ⟨x, n⟩
    rw [hr] at h3
    cases x
    case ok a s3 => exact Stay.finishInsn rfl dbg _ h3.1 rfl
    all_goals exact h3
  all_goals exact h1

theorem tryRows_stay {rows : List Insn} {mn : Token} {sv : St} (hv : Trail t₀ c₀ mn sv.ctx.cur) (hk : mn.kind ≠ .semicolon)
    {best : Option (Err × Nat)} (hb : ∀ e n, best = some (e, n) → Blames t₀ c₀ e) {dbg : Bool} {s : St} (hs : Trail t₀ c₀ mn s.ctx.cur) :
    StayOut t₀ c₀ (fun _ k => k = .semicolon) (tryRows mn sv rows best dbg s) := by
  induction rows generalizing best s with
  | nil =>
    unfold tryRows
    cases best with
    | none => exact ⟨_, _, hs, .inl ⟨rfl, rfl⟩⟩
    | some p => exact hb _ _ rfl
  | cons i is ih =>
    unfold tryRows
    split
    · exact ih hb hs
    · have h1 := parseInsn_stay (i := i) (dbg := dbg) hs hk
      rcases hp : parseInsn i dbg s with ⟨x, n⟩
      rw [hp] at h1
      dsimp only at h1
      cases x
      case ok a s1 => exact h1
      case fail e s1 =>
        refine ih (s := { s1 with ctx := sv.ctx, op := sv.op }) ?_ hv
        intro e' n' he
        split at he
        · cases he; exact h1
        · split at he
          · cases he; exact h1
          · cases he; exact hb _ _ rfl
      all_goals exact h1

theorem parseInstruction_stay {table : List Insn} {dbg : Bool} {s : St} :
    match tokenize s.ctx.cur with
    | .ok t c => StayOut t c (fun b k => b = true → k = .semicolon) (parseInstruction table dbg s)
    | .exit e => parseInstruction table dbg s = .exit e
    | .ub u => parseInstruction table dbg s = .ub u := by
  unfold parseInstruction
  rw [M.bind_def]
  unfold advance
  cases hx : tokenize s.ctx.cur with
  | exit e => rfl
  | ub u => rfl
  | ok t c =>
  dsimp only
  refine Stay.bind (Q := fun b k => b = true → k = .semicolon) (.getTok fun t htk => .ite (fun _ => .pure (a := false) (by simp)) fun _ => ?_)
    dbg ⟨{ s.ctx with cur := c }, t, s.op⟩ .refl rfl
  refine .bind ?_
  intro dbg s3 h3 hk
  refine Stay.parseOptions (Q := fun _ k => _) (fun k => ?_) dbg s3 h3 hk
  refine .bind (Stay.parsePrologue fun x => ?_)
  refine .bind ?_
  intro dbg s5 h5 hk5
  have hne : s5.tok.kind ≠ .semicolon := by rw [hk5]; nofun
  have h6 := tryRows_stay (rows := table) (mn := s5.tok) (best := none) (dbg := dbg) h5 hne (by simp) h5
  cases hm : tryRows s5.tok s5 table none dbg s5 <;> rw [hm] at h6
  case ok a s7 =>
    show StayOut _ _ _ (tryRows s5.tok s5 table none dbg s5)
    rw [hm]
    exact ⟨h6.1, .pure fun _ => h6.2⟩
  all_goals (show StayOut _ _ _ (tryRows s5.tok s5 table none dbg s5); rw [hm]; exact h6)

end Nxas
