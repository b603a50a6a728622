import Verif.Lemmas.Extend
import Verif.Lemmas.Frame
import Verif.Lemmas.Wp
import Verif.Lemmas.Parse
/-
Two runs of the parsers, on a text that ends with a semicolon and on a continuation of it, go the same way.
-/

namespace Nxas

/-- The contexts differ in what follows the text. -/
structure Pair (r : Str) (c c' : Ctx) : Prop where
  cur : c'.cur = c.cur.ext r
  labels : ∀ x, c'.labels.find x = c.labels.find x
  pc : c'.pc = c.pc
  opts : c'.opts = c.opts

/-- The text is used up only by the semicolon at its end. -/
def Live (k : Kind) (t : Str) : Prop := Sealed t ∨ (t = [] ∧ k = .semicolon)

/-- The states differ in what follows the text. -/
structure TwinSt (r : Str) (s s' : St) : Prop where
  ctx : Pair r s.ctx s'.ctx
  tok : s'.tok = s.tok
  op : s'.op = s.op
  live : Live s.tok.kind s.ctx.cur.text

/-- The same outcome in twin states; after undefined behaviour in the first run anything. -/
def TwinOut (r : Str) (Q : α → Kind → Prop) : Out α → Out α → Prop
  | .ok a s1, y => ∃ s2, y = .ok a s2 ∧ TwinSt r s1 s2 ∧ Q a s1.tok.kind
  | .fail e _, y => ∃ s2, y = .fail e s2
  | .exit e, y => y = .exit e
  | .abort, y => y = .abort
  | .ub _, _ => True

/-- Run on a token of class `k`, the two computations have the same outcome. -/
def Twin (r : Str) (m m' : M α) (k : Kind) (Q : α → Kind → Prop) : Prop :=
  ∀ dbg s s', TwinSt r s s' → s.tok.kind = k → TwinOut r Q (m dbg s) (m' dbg s')

namespace Twin

variable {r : Str} {k : Kind}

theorem pure {a : α} {Q : α → Kind → Prop} (h : Q a k) : Twin r (M.pure a) (M.pure a) k Q := by
  intro dbg s s' hs hk
  exact ⟨s', rfl, hs, hk ▸ h⟩

theorem bind {m m' : M α} {f f' : α → M β} {Q : β → Kind → Prop} (h : Twin r m m' k fun a k' => Twin r (f a) (f' a) k' Q) :
    Twin r (m >>= f) (m' >>= f') k Q := by
  intro dbg s s' hs hk
  have := h dbg s s' hs hk
  rw [M.bind_def, M.bind_def]
  cases hm : m dbg s with
  | ok a s1 =>
    rw [hm] at this
    obtain ⟨s2, e, h1, h2⟩ := this
    rw [e]
    exact h2 dbg s1 s2 h1 rfl
  | fail e s1 =>
    rw [hm] at this
    obtain ⟨s2, h1⟩ := this
    rw [h1]
    exact ⟨_, rfl⟩
  | exit e =>
    rw [hm] at this
    have h1 : m' dbg s' = .exit e := this
    rw [h1]
    rfl
  | abort =>
    rw [hm] at this
    have h1 : m' dbg s' = .abort := this
    rw [h1]
    rfl
  | ub u => trivial

theorem bindCtx {f f' : Ctx → M β} {Q : β → Kind → Prop} (h : ∀ c c', Pair r c c' → Twin r (f c) (f' c') k Q) :
    Twin r (Nxas.getCtx >>= f) (Nxas.getCtx >>= f') k Q := by
  intro dbg s s' hs hk
  exact h _ _ hs.ctx dbg s s' hs hk

theorem getKind {Q : Kind → Kind → Prop} (h : Q k k) : Twin r Nxas.getKind Nxas.getKind k Q := by
  intro dbg s s' hs hk
  subst hk
  exact ⟨s', by rw [Nxas.getKind, hs.tok], hs, h⟩

theorem getTok {Q : Token → Kind → Prop} (h : ∀ t : Token, t.kind = k → Q t k) : Twin r Nxas.getTok Nxas.getTok k Q := by
  intro dbg s s' hs hk
  subst hk
  exact ⟨s', by rw [Nxas.getTok, hs.tok], hs, h _ rfl⟩

theorem getValue {Q : BitVec 64 → Kind → Prop} (h : ∀ x, Q x k) : Twin r Nxas.getValue Nxas.getValue k Q := by
  intro dbg s s' hs hk
  subst hk
  exact ⟨s', by rw [Nxas.getValue, hs.op], hs, h _⟩

theorem setValue {x : BitVec 64} {Q : Unit → Kind → Prop} (h : Q () k) : Twin r (Nxas.setValue x) (Nxas.setValue x) k Q := by
  intro dbg s s' hs hk
  subst hk
  exact ⟨_, rfl, ⟨hs.ctx, hs.tok, by simp only [hs.op], hs.live⟩, h⟩

theorem failTok {m : Msg} {Q : α → Kind → Prop} : Twin r (Nxas.failTok m) (Nxas.failTok m) k Q := by
  intro dbg s s' hs hk
  exact ⟨s', by rw [Nxas.failTok, hs.tok]⟩

theorem exitTok {m : Msg} {Q : α → Kind → Prop} : Twin r (Nxas.exitTok m) (Nxas.exitTok m) k Q := by
  intro dbg s s' hs hk
  show Nxas.exitTok m dbg s' = _
  rw [Nxas.exitTok, hs.tok]

theorem ub {u : UB} {m : M α} {Q : α → Kind → Prop} : Twin r (ubM u) m k Q := fun _ _ _ _ _ => trivial

theorem blameStart {msg : Msg} {m m' : M α} {Q : α → Kind → Prop} (h : Twin r m m' k Q) :
    Twin r (Nxas.blameStart msg m) (Nxas.blameStart msg m') k Q := by
  intro dbg s s' hs hk
  have := h dbg s s' hs hk
  unfold Nxas.blameStart
  cases hr : m dbg s <;> rw [hr] at this
  case ok => obtain ⟨s2, e, h1⟩ := this; rw [e]; exact ⟨s2, rfl, h1⟩
  case fail => obtain ⟨s2, e⟩ := this; rw [e, hs.tok]; exact ⟨s2, rfl⟩
  case exit e => have h1 : m' dbg s' = .exit e := this; rw [h1]; rfl
  case abort => have h1 : m' dbg s' = .abort := this; rw [h1]; rfl
  case ub => trivial

theorem advanceFrom {Q : Unit → Kind → Prop} {dbg : Bool} {s s' : St} (hc : Pair r s.ctx s'.ctx) (ho : s'.op = s.op) (ht : Sealed s.ctx.cur.text)
    (h : ∀ k', Q () k') : TwinOut r Q (Nxas.advance dbg s) (Nxas.advance dbg s') := by
  have he := tokenize_ext (r := r) ht
  unfold Nxas.advance
  rw [hc.cur]
  cases hx : tokenize s.ctx.cur with
  | ok t c =>
    rw [hx] at he
    obtain ⟨e, hn⟩ := he
    rw [e]
    refine ⟨_, rfl, ⟨⟨rfl, hc.labels, hc.pc, hc.opts⟩, rfl, ho, ?_⟩, h _⟩
    by_cases hcn : c.text = []
    · exact .inr ⟨hcn, hn hcn⟩
    · exact .inl (ht.suffix (tokenize_ok hx).reach.suffix hcn)
  | exit e =>
    rw [hx] at he
    have he' : tokenize (s.ctx.cur.ext r) = .exit e := he
    rw [he']
    rfl
  | ub u => trivial

theorem advance {Q : Unit → Kind → Prop} (hk : k ≠ .semicolon) (h : ∀ k', Q () k') : Twin r Nxas.advance Nxas.advance k Q := by
  intro dbg s s' hs he
  subst he
  rcases hs.live with hl | hl
  · exact advanceFrom hs.ctx hs.op hl h
  · exact absurd hl.2 hk

theorem addBits {b : BitVec 64} {Q : Unit → Kind → Prop} (h : Q () k) : Twin r (Nxas.addBits b) (Nxas.addBits b) k Q := by
  intro dbg s s' hs hk
  subst hk
  unfold Nxas.addBits
  rw [hs.op]
  split
  · rfl
  · exact ⟨_, rfl, ⟨hs.ctx, hs.tok, rfl, hs.live⟩, h⟩

theorem addReuse {b : BitVec 32} {Q : Unit → Kind → Prop} (h : Q () k) : Twin r (Nxas.addReuse b) (Nxas.addReuse b) k Q := by
  intro dbg s s' hs hk
  subst hk
  unfold Nxas.addReuse
  rw [hs.op]
  split
  · rfl
  · exact ⟨_, rfl, ⟨hs.ctx, hs.tok, rfl, hs.live⟩, h⟩

theorem confirm {k0 : Kind} {Q : Unit → Kind → Prop} (h : k = k0 → Q () k) : Twin r (Nxas.confirm k0) (Nxas.confirm k0) k Q := by
  intro dbg s s' hs hk
  subst hk
  unfold Nxas.confirm
  rw [hs.tok]
  split
  · next he => exact ⟨_, rfl, hs, h he⟩
  · exact ⟨_, rfl⟩

theorem confirmIdent {Q : Str → Kind → Prop} (h : ∀ x, k = .ident x → Q x k) : Twin r Nxas.confirmIdent Nxas.confirmIdent k Q := by
  intro dbg s s' hs hk
  subst hk
  unfold Nxas.confirmIdent
  rw [hs.tok]
  split
  · next x he => exact ⟨_, rfl, hs, h x he⟩
  · exact ⟨_, rfl⟩

theorem confirmReg {Q : Nat → Kind → Prop} (h : ∀ x, k = .reg x → Q x k) : Twin r Nxas.confirmReg Nxas.confirmReg k Q := by
  intro dbg s s' hs hk
  subst hk
  unfold Nxas.confirmReg
  rw [hs.tok]
  split
  · next x he => exact ⟨_, rfl, hs, h x he⟩
  · exact ⟨_, rfl⟩

theorem confirmPred {Q : Nat × Bool → Kind → Prop} (h : ∀ i n, k = .pred i n → Q (i, n) k) : Twin r Nxas.confirmPred Nxas.confirmPred k Q := by
  intro dbg s s' hs hk
  subst hk
  unfold Nxas.confirmPred
  rw [hs.tok]
  split
  · next i n he => exact ⟨_, rfl, hs, h i n he⟩
  · exact ⟨_, rfl⟩

theorem convertInteger {a b : Int} {Q : Int → Kind → Prop} (h : ∀ x, k = .imm x → Q x k) :
    Twin r (Nxas.convertInteger a b) (Nxas.convertInteger a b) k Q := by
  intro dbg s s' hs hk
  subst hk
  unfold Nxas.convertInteger
  rw [hs.tok]
  split
  · next x he =>
    split
    · exact ⟨_, rfl⟩
    · exact ⟨_, rfl, hs, h x he⟩
  · exact ⟨_, rfl⟩

theorem findInTable {b : Bool} {t : List Str} {p : Str} {Q : Option Nat → Kind → Prop}
    (hn : Q none k) (h : ∀ i x, k = .ident x → Q (some i) k) :
    Twin r (Nxas.findInTable b t p) (Nxas.findInTable b t p) k Q := by
  intro dbg s s' hs hk
  subst hk
  unfold Nxas.findInTable
  rw [hs.tok]
  split
  · next text he =>
    split
    · exact ⟨_, rfl, hs, hn⟩
    · split
      · next i hi => exact ⟨_, rfl, hs, h i _ he⟩
      · split
        · exact ⟨_, rfl, hs, hn⟩
        · trivial
  · exact ⟨_, rfl, hs, hn⟩

theorem ite {c : Prop} [Decidable c] {a b a' b' : M α} {Q : α → Kind → Prop} (ha : c → Twin r a a' k Q) (hb : ¬ c → Twin r b b' k Q) :
    Twin r (if c then a else b) (if c then a' else b') k Q := by
  split
  · next h => exact ha h
  · next h => exact hb h

theorem mono {m m' : M α} {Q Q' : α → Kind → Prop} (h : Twin r m m' k Q) (hq : ∀ a k', Q a k' → Q' a k') : Twin r m m' k Q' := by
  intro dbg s s' hs hk
  have := h dbg s s' hs hk
  cases hm : m dbg s <;> rw [hm] at this
  case ok => obtain ⟨s2, e, h1, h2⟩ := this; exact ⟨s2, e, h1, hq _ _ h2⟩
  all_goals exact this

end Twin

/-- Show that the token is not a semicolon. -/
macro "nosemi" : tactic => `(tactic| first
  | (with_reducible assumption)
  | (intro hsemi; subst hsemi; simp_all [Kind.equal]; done)
  | (simp_all [Kind.equal]; done))

/-- Decompose a computation. -/
macro "twin" : tactic => `(tactic| repeat' (first
  | with_reducible refine Twin.bindCtx ?_
  | with_reducible refine Twin.bind ?_
  | with_reducible refine Twin.getKind ?_
  | with_reducible exact Twin.failTok
  | with_reducible exact Twin.ub
  | with_reducible refine Twin.pure ?_
  | with_reducible refine Twin.getValue ?_
  | with_reducible refine Twin.setValue ?_
  | (with_reducible refine Twin.advance ?_ ?_; focus nosemi)
  | with_reducible refine Twin.addBits ?_
  | with_reducible refine Twin.addReuse ?_
  | with_reducible refine Twin.confirm ?_
  | with_reducible refine Twin.confirmIdent ?_
  | with_reducible refine Twin.confirmReg ?_
  | with_reducible refine Twin.confirmPred ?_
  | with_reducible refine Twin.convertInteger ?_
  | with_reducible refine Twin.findInTable ?_ ?_
  | with_reducible refine Twin.ite ?_ ?_
  | with_reducible exact trivial
  | (with_reducible apply_assumption; done)
  | (with_reducible intro _; try dsimp only)
  | split))

namespace Twin

variable {r : Str} {k : Kind} {Q : Unit → Kind → Prop}

theorem tryReuse {a : Nat} (hq : ∀ k, Q () k) : Twin r (Nxas.tryReuse a) (Nxas.tryReuse a) k Q := by
  unfold Nxas.tryReuse
  twin

theorem assembleGpr {a : Nat} (hq : ∀ k, Q () k) : Twin r (Nxas.assembleGpr a) (Nxas.assembleGpr a) k Q := by
  unfold Nxas.assembleGpr
  twin
  exact tryReuse hq

theorem runFlag {s : Str} {a : Nat} (hq : ∀ k, Q () k) : Twin r (Nxas.runFlag s a) (Nxas.runFlag s a) k Q := by
  unfold Nxas.runFlag
  twin

theorem runUint {m : Int} {a : Nat} (hq : ∀ k, Q () k) : Twin r (Nxas.runUint m a) (Nxas.runUint m a) k Q := by
  unfold Nxas.runUint
  twin

theorem runSint {m : Nat} {a : Nat} (hq : ∀ k, Q () k) : Twin r (Nxas.runSint m a) (Nxas.runSint m a) k Q := by
  unfold Nxas.runSint
  twin

theorem runDotTable {d : Option Nat} {a : Nat} {t : List Str} (hq : ∀ k, Q () k) : Twin r (Nxas.runDotTable d a t) (Nxas.runDotTable d a t) k Q := by
  unfold Nxas.runDotTable
  twin

theorem runUimmExtended (hq : ∀ k, Q () k) : Twin r Nxas.runUimmExtended Nxas.runUimmExtended k Q := by
  unfold Nxas.runUimmExtended
  twin

theorem runComma (hq : ∀ k, Q () k) : Twin r Nxas.runComma Nxas.runComma k Q := by
  unfold Nxas.runComma
  twin

theorem runLabelTarget {a : Int} (hk : k ≠ .semicolon) (hq : ∀ k, Q () k) : Twin r (Nxas.runLabelTarget a) (Nxas.runLabelTarget a) k Q := by
  unfold Nxas.runLabelTarget
  refine bindCtx fun c c' hc => ?_
  rw [hc.pc]
  twin

theorem runLabel (hq : ∀ k, Q () k) : Twin r Nxas.runLabel Nxas.runLabel k Q := by
  unfold Nxas.runLabel
  refine bind (getKind ?_)
  split
  · refine bindCtx fun c c' hc => ?_
    rw [hc.labels]
    split
    · exact failTok
    · exact runLabelTarget nofun hq
  · exact runLabelTarget nofun hq
  · exact failTok

theorem runMirror {a : Nat} (hq : ∀ k, Q () k) : Twin r (Nxas.runMirror a) (Nxas.runMirror a) k Q := by
  unfold Nxas.runMirror
  twin
  refine assembleGpr fun k => ?_
  twin

theorem runCbuf (hq : ∀ k, Q () k) : Twin r Nxas.runCbuf Nxas.runCbuf k Q := by
  unfold Nxas.runCbuf
  refine blameStart ?_
  twin

theorem runImm20 (hq : ∀ k, Q () k) : Twin r Nxas.runImm20 Nxas.runImm20 k Q := by
  unfold Nxas.runImm20
  twin

theorem floatKeyword {n : Nat} {a b : BitVec n} {Q : BitVec n → Kind → Prop} (hq : ∀ x k, k ≠ .semicolon → Q x k) :
    Twin r (Nxas.floatKeyword a b) (Nxas.floatKeyword a b) k Q := by
  unfold Nxas.floatKeyword
  refine bind (getKind (ite (fun h => pure (hq _ _ ?_)) fun _ => ite (fun h => pure (hq _ _ ?_)) fun _ => failTok)) <;> nosemi

theorem addNegBit {n : Option Nat} (hq : Q () k) : Twin r (Nxas.addNegBit n) (Nxas.addNegBit n) k Q := by
  unfold Nxas.addNegBit
  twin

theorem floatValue {Q : BitVec 32 → Kind → Prop} (hq : ∀ x k, k ≠ .semicolon → Q x k) : Twin r Nxas.floatValue Nxas.floatValue k Q := by
  unfold Nxas.floatValue
  refine bind (getKind ?_)
  cases k <;> dsimp only
  case imm x => exact ite (fun h => absurd rfl h) fun _ => pure (hq _ _ nofun)
  case fimm x => exact pure (hq _ _ nofun)
  case plus => exact bind (advance nofun fun k => floatKeyword hq)
  case minus => exact bind (advance nofun fun k => bind (floatKeyword fun x k hk => pure (hq _ _ hk)))
  case ident => exact floatKeyword hq
  all_goals exact failTok

theorem runFimm {w : Bool} (hq : ∀ k, Q () k) : Twin r (Nxas.runFimm w) (Nxas.runFimm w) k Q := by
  unfold Nxas.runFimm
  refine bind (floatValue fun x k hk => ?_)
  twin

theorem doubleValue {Q : BitVec 64 → Kind → Prop} (hq : ∀ x k, k ≠ .semicolon → Q x k) : Twin r Nxas.doubleValue Nxas.doubleValue k Q := by
  unfold Nxas.doubleValue
  refine bind (getKind ?_)
  cases k <;> dsimp only
  case imm x =>
    twin
    all_goals first | exact hq _ _ nofun | exact addNegBit (pure (hq _ _ nofun))
  case fimm x =>
    twin
    all_goals first | exact hq _ _ nofun | exact addNegBit (pure (hq _ _ nofun))
  case plus => exact bind (advance nofun fun k => floatKeyword hq)
  case minus => exact bind (addBits (bind (advance nofun fun k => floatKeyword hq)))
  case ident => exact floatKeyword hq
  all_goals exact failTok

theorem runDimm20 (hq : ∀ k, Q () k) : Twin r Nxas.runDimm20 Nxas.runDimm20 k Q := by
  unfold Nxas.runDimm20
  refine bind (doubleValue fun x k hk => ?_)
  twin

theorem halfValue {n : Option Nat} {Q : BitVec 16 → Kind → Prop} (hq : ∀ x k, k ≠ .semicolon → Q x k) :
    Twin r (Nxas.halfValue n) (Nxas.halfValue n) k Q := by
  unfold Nxas.halfValue
  refine bind (getKind ?_)
  cases k <;> dsimp only
  case imm x =>
    twin
    all_goals first | exact hq _ _ nofun | exact addNegBit (pure (hq _ _ nofun))
  case fimm x =>
    twin
    all_goals first | exact hq _ _ nofun | exact addNegBit (pure (hq _ _ nofun))
  case plus => exact bind (advance nofun fun k => floatKeyword hq)
  case minus => exact bind (advance nofun fun k => bind (floatKeyword fun x k hk => bind (addNegBit (pure (hq _ _ hk)))))
  case ident => exact floatKeyword hq
  all_goals exact failTok

theorem runHimm {w : Bool} {o : Nat} {n : Option Nat} (hq : ∀ k, Q () k) : Twin r (Nxas.runHimm w o n) (Nxas.runHimm w o n) k Q := by
  unfold Nxas.runHimm
  refine bind (halfValue fun x k hk => ?_)
  twin

theorem runBop {a : Nat} (hq : ∀ k, Q () k) : Twin r (Nxas.runBop a) (Nxas.runBop a) k Q := by
  unfold Nxas.runBop
  twin

theorem runPred {a : Nat} {n : Bool} (hq : ∀ k, Q () k) : Twin r (Nxas.runPred a n) (Nxas.runPred a n) k Q := by
  unfold Nxas.runPred
  twin

theorem runInvertedPred {a : Nat} (hq : ∀ k, Q () k) : Twin r (Nxas.runInvertedPred a) (Nxas.runInvertedPred a) k Q := by
  unfold Nxas.runInvertedPred
  twin

theorem runSign {k0 : Kind} {a : Nat} (h0 : k0 ≠ .semicolon) (hq : ∀ k, Q () k) : Twin r (Nxas.runSign k0 a) (Nxas.runSign k0 a) k Q := by
  unfold Nxas.runSign
  twin

theorem runAbs {a : Nat} {m : M Unit} (hm : ∀ k (Q : Unit → Kind → Prop), (∀ k, Q () k) → Twin r m m k Q) (hq : ∀ k, Q () k) :
    Twin r (Nxas.runAbs a m) (Nxas.runAbs a m) k Q := by
  unfold Nxas.runAbs
  twin
  · refine hm _ _ fun k => ?_
    twin
  · exact hm _ _ hq

theorem runPo {a b : Nat} (hq : ∀ k, Q () k) : Twin r (Nxas.runPo a b) (Nxas.runPo a b) k Q := by
  unfold Nxas.runPo
  twin

theorem runMemAddress {i : Bool} {a s t : Nat} (hq : ∀ k, Q () k) : Twin r (Nxas.runMemAddress i a s t) (Nxas.runMemAddress i a s t) k Q := by
  unfold Nxas.runMemAddress
  twin
  all_goals
    refine tryReuse fun k => ?_
    twin

theorem runCcTests {a : Nat} {t : List Str} (hq : ∀ k, Q () k) : Twin r (Nxas.runCcTests a t) (Nxas.runCcTests a t) k Q := by
  unfold Nxas.runCcTests
  twin

theorem addAll {l : List (BitVec 64)} (hq : Q () k) : Twin r (Nxas.addAll l) (Nxas.addAll l) k Q := by
  induction l with
  | nil => exact pure hq
  | cons b bs ih => exact bind (addBits ih)

theorem runExpect {s : Str} {pre post : List (BitVec 64)} (hq : ∀ k, Q () k) : Twin r (Nxas.runExpect s pre post) (Nxas.runExpect s pre post) k Q := by
  unfold Nxas.runExpect
  refine bind (getKind (ite (fun h => failTok) fun h => bind (addAll (bind (advance (by nosemi) fun k => addAll (hq _))))))

theorem runOptText {s : Str} (hq : ∀ k, Q () k) : Twin r (Nxas.runOptText s) (Nxas.runOptText s) k Q := by
  unfold Nxas.runOptText
  twin

theorem attrOpen (hq : ∀ k, Q () k) : Twin r Nxas.attrOpen Nxas.attrOpen k Q := by
  unfold Nxas.attrOpen
  twin

theorem attrClose (hq : ∀ k, Q () k) : Twin r Nxas.attrClose Nxas.attrClose k Q := by
  unfold Nxas.attrClose
  twin

theorem runImmAttr (hq : ∀ k, Q () k) : Twin r Nxas.runImmAttr Nxas.runImmAttr k Q := by
  unfold Nxas.runImmAttr
  exact bind (attrOpen fun k => bind (runUint fun k => bind (addBits (attrClose hq))))

theorem runPatchAttr (hq : ∀ k, Q () k) : Twin r Nxas.runPatchAttr Nxas.runPatchAttr k Q := by
  unfold Nxas.runPatchAttr
  refine bind (attrOpen fun k => bind (assembleGpr fun k => ?_))
  twin
  all_goals exact runSint fun k => attrClose hq

theorem runPhysAttr (hq : ∀ k, Q () k) : Twin r Nxas.runPhysAttr Nxas.runPhysAttr k Q := by
  unfold Nxas.runPhysAttr
  exact bind (attrOpen fun k => bind (assembleGpr fun k => attrClose hq))

theorem runXmadSigns (hq : ∀ k, Q () k) : Twin r Nxas.runXmadSigns Nxas.runXmadSigns k Q := by
  unfold Nxas.runXmadSigns
  twin

theorem runF2fRounding (hq : ∀ k, Q () k) : Twin r Nxas.runF2fRounding Nxas.runF2fRounding k Q := by
  unfold Nxas.runF2fRounding
  twin
  · rename_i heq
    refine advance ?_ fun k => addBits (hq _)
    rintro rfl
    simp [Kind.equal] at heq
  · exact runDotTable hq

theorem runIntFormat {ut st : List Str} {a b : Nat} (hq : ∀ k, Q () k) : Twin r (Nxas.runIntFormat ut st a b) (Nxas.runIntFormat ut st a b) k Q := by
  unfold Nxas.runIntFormat
  twin

theorem runPlainTable {t : List Str} {a : Nat} (hq : ∀ k, Q () k) : Twin r (Nxas.runPlainTable a t) (Nxas.runPlainTable a t) k Q := by
  unfold Nxas.runPlainTable
  twin

theorem runSelector {a b c : Nat} {s t : List Str} (hq : ∀ k, Q () k) : Twin r (Nxas.runSelector a b c s t) (Nxas.runSelector a b c s t) k Q := by
  unfold Nxas.runSelector
  twin
  all_goals exact runDotTable hq

theorem runLdcAddress (hq : ∀ k, Q () k) : Twin r Nxas.runLdcAddress Nxas.runLdcAddress k Q := by
  unfold Nxas.runLdcAddress
  twin
  exact runMemAddress hq

theorem runS2r {t : List Str} (hq : ∀ k, Q () k) : Twin r (Nxas.runS2r t) (Nxas.runS2r t) k Q := by
  unfold Nxas.runS2r
  twin

theorem runLdgSize (hq : ∀ k, Q () k) : Twin r Nxas.runLdgSize Nxas.runLdgSize k Q := by
  unfold Nxas.runLdgSize
  twin

theorem runAtomicSize {a : Nat} (hq : ∀ k, Q () k) : Twin r (Nxas.runAtomicSize a) (Nxas.runAtomicSize a) k Q := by
  unfold Nxas.runAtomicSize
  twin

theorem runSrcFormat {a b : Nat} (hq : ∀ k, Q () k) : Twin r (Nxas.runSrcFormat a b) (Nxas.runSrcFormat a b) k Q := by
  unfold Nxas.runSrcFormat
  twin

theorem runTexType {a : Nat} (hq : ∀ k, Q () k) : Twin r (Nxas.runTexType a) (Nxas.runTexType a) k Q := by
  unfold Nxas.runTexType
  twin

theorem runZero (hq : ∀ k, Q () k) : Twin r Nxas.runZero Nxas.runZero k Q := by
  unfold Nxas.runZero
  twin

theorem runTexsMode {a : Nat} (hq : ∀ k, Q () k) : Twin r (Nxas.runTexsMode a) (Nxas.runTexsMode a) k Q := by
  unfold Nxas.runTexsMode
  twin

theorem runTldsType {a : Nat} (hq : ∀ k, Q () k) : Twin r (Nxas.runTldsType a) (Nxas.runTldsType a) k Q := by
  unfold Nxas.runTldsType
  twin

theorem runTexsType {a : Nat} (hq : ∀ k, Q () k) : Twin r (Nxas.runTexsType a) (Nxas.runTexsType a) k Q := by
  unfold Nxas.runTexsType
  twin

theorem runTexsSwizzle (hq : ∀ k, Q () k) : Twin r Nxas.runTexsSwizzle Nxas.runTexsSwizzle k Q := by
  unfold Nxas.runTexsSwizzle
  twin

theorem run {o : Operand} (hq : ∀ k, Q () k) : Twin r o.run o.run k Q := by
  induction o generalizing k Q with
  | flag s a => exact runFlag hq
  | uint m a => exact runUint hq
  | sint b a => exact runSint hq
  | dotTable d a t => exact runDotTable hq
  | uimmExtended => exact runUimmExtended hq
  | comma => exact runComma hq
  | label => exact runLabel hq
  | gpr a => exact assembleGpr hq
  | mirrorGpr a => exact runMirror hq
  | cbuf => exact runCbuf hq
  | imm20 => exact runImm20 hq
  | fimm w => exact runFimm hq
  | dimm20 => exact runDimm20 hq
  | himm w o n => exact runHimm hq
  | bop a => exact runBop hq
  | pred a n => exact runPred hq
  | invertedPred a => exact runInvertedPred hq
  | neg a => exact runSign nofun hq
  | tilde a => exact runSign nofun hq
  | abs a inner ih => exact runAbs (fun k Q hq => ih hq) hq
  | po a b => exact runPo hq
  | defaultRz a => exact addBits (hq _)
  | memAddress i a s r => exact runMemAddress hq
  | ccTests a t => exact runCcTests hq
  | expect s pre post => exact runExpect hq
  | optText s => exact runOptText hq
  | immAttr => exact runImmAttr hq
  | patchAttr => exact runPatchAttr hq
  | physAttr => exact runPhysAttr hq
  | xmadSigns => exact runXmadSigns hq
  | f2fRounding => exact runF2fRounding hq
  | intFormat u s a b => exact runIntFormat hq
  | plainTable a t => exact runPlainTable hq
  | selector a t k s b => exact runSelector hq
  | ldcAddress => exact runLdcAddress hq
  | s2r t => exact runS2r hq
  | ldgSize => exact runLdgSize hq
  | atomicSize a => exact runAtomicSize hq
  | srcFormat a s => exact runSrcFormat hq
  | immFormat s => exact runDotTable hq
  | texType a => exact runTexType hq
  | zero => exact runZero hq
  | texsMode a => exact runTexsMode hq
  | tldsType a => exact runTldsType hq
  | texsType a => exact runTexsType hq
  | texsSwizzle => exact runTexsSwizzle hq

/-! ### Annotations -/

theorem setSched {x : BitVec 32} (h : Q () k) : Twin r (Nxas.setSched x) (Nxas.setSched x) k Q := by
  intro dbg s s' hs hk
  subst hk
  exact ⟨_, rfl, ⟨hs.ctx, hs.tok, by simp only [hs.op], hs.live⟩, h⟩

theorem schedImmediate {x : Int} {m : Msg} {Q : Nat → Kind → Prop} (hq : ∀ y, k ≠ .semicolon → Q y k) :
    Twin r (Nxas.schedImmediate x m) (Nxas.schedImmediate x m) k Q := by
  unfold Nxas.schedImmediate
  refine bind (getKind ?_)
  split
  · exact ite (fun _ => failTok) fun _ => pure (hq _ nofun)
  · exact failTok

theorem schedStep {s : Sched} (hk : k ≠ .semicolon) {Q : Sched → Kind → Prop} (hq : ∀ x k, Q x k) : Twin r (Nxas.schedStep s) (Nxas.schedStep s) k Q := by
  unfold Nxas.schedStep
  refine bind (advance hk fun k => bind (getKind ?_))
  refine ite (fun h => ite (fun _ => failTok) fun _ => ?_) fun h1 => ?_
  · exact bind (advance (by nosemi) fun k => bind (schedImmediate fun y hy => bind (advance hy fun k => pure (hq _ _))))
  refine ite (fun h => ite (fun _ => failTok) fun _ => ?_) fun h2 => ?_
  · exact bind (advance (by nosemi) fun k => bind (schedImmediate fun y hy => bind (advance hy fun k => pure (hq _ _))))
  refine ite (fun h => ite (fun _ => failTok) fun _ => ?_) fun h3 => ?_
  · exact bind (advance (by nosemi) fun k => pure (hq _ _))
  refine ite (fun h => ?_) fun h4 => failTok
  · exact bind (advance (by nosemi) fun k => bind (schedImmediate fun y hy => ite (fun _ => failTok) fun _ =>
      bind (advance hy fun k => pure (hq _ _))))

theorem schedLoop {n m : Nat} (hn : n ≤ m) {s : Sched} {Q : Sched → Kind → Prop} (hq : ∀ x k, Q x k) :
    Twin r (Nxas.schedLoop n s) (Nxas.schedLoop m s) k Q := by
  induction n generalizing k s m with
  | zero => exact ub
  | succ n ih =>
    obtain ⟨m, rfl⟩ : ∃ j, m = j + 1 := ⟨m - 1, by omega⟩
    unfold Nxas.schedLoop
    refine bind (getKind (ite (fun h => bind (schedStep (by nosemi) fun x k => ih (by omega))) fun _ => pure (hq _ _)))

theorem assembleSched (hq : ∀ k, Q () k) : Twin r Nxas.assembleSched Nxas.assembleSched k Q := by
  intro dbg s s' hs hk
  unfold Nxas.assembleSched
  exact bind (schedLoop (by rw [hs.ctx.cur]; simp [Cur.ext]) fun r k => setSched (hq k)) dbg s s' hs hk

theorem finishInsn (hq : Q () .semicolon) : Twin r Nxas.finishInsn Nxas.finishInsn k Q := by
  unfold Nxas.finishInsn
  exact bind (assembleSched fun k => confirm fun h => h ▸ hq)

/-! ### Options -/

theorem modifyOpts {f : Opts → Opts} (h : Q () k) : Twin r (Nxas.modifyOpts f) (Nxas.modifyOpts f) k Q := by
  intro dbg s s' hs hk
  subst hk
  exact ⟨_, rfl, ⟨⟨hs.ctx.cur, hs.ctx.labels, hs.ctx.pc, by simp only [hs.ctx.opts]⟩, hs.tok, hs.op, hs.live⟩, h⟩

theorem modifyPc {f : Nat → Nat} (h : Q () k) : Twin r (Nxas.modifyPc f) (Nxas.modifyPc f) k Q := by
  intro dbg s s' hs hk
  subst hk
  exact ⟨_, rfl, ⟨⟨hs.ctx.cur, hs.ctx.labels, by simp only [hs.ctx.pc], hs.ctx.opts⟩, hs.tok, hs.op, hs.live⟩, h⟩

theorem raising {m m' : M α} {Q : α → Kind → Prop} (h : Twin r m m' k Q) : Twin r (Nxas.raising m) (Nxas.raising m') k Q := by
  intro dbg s s' hs hk
  have := h dbg s s' hs hk
  unfold Nxas.raising
  cases hr : m dbg s <;> rw [hr] at this
  case ok => obtain ⟨s2, e, h1⟩ := this; rw [e]; exact ⟨s2, rfl, h1⟩
  case fail => obtain ⟨s2, e⟩ := this; rw [e]; rfl
  case exit e => have h1 : m' dbg s' = .exit e := this; rw [h1]; rfl
  case abort => have h1 : m' dbg s' = .abort := this; rw [h1]; rfl
  case ub => trivial

theorem checkOptionLine {n : Nat} (hq : Q () k) : Twin r (Nxas.checkOptionLine n) (Nxas.checkOptionLine n) k Q := by
  unfold Nxas.checkOptionLine
  exact bind (getTok fun t ht => ite (fun _ => exitTok) fun _ => pure hq)

theorem progTypeOfName_some {t : Token} {p : ProgType} (h : progTypeOfName t = some p) : t.kind ≠ .semicolon := by
  intro hk
  simp [progTypeOfName, Token.equal, Kind.equal, hk] at h

theorem parseType {n : Nat} (hk : k ≠ .semicolon) (hq : ∀ k, k ≠ .semicolon → Q () k) : Twin r (Nxas.parseType n) (Nxas.parseType n) k Q := by
  unfold Nxas.parseType
  refine bindCtx fun c c' hc => ?_
  rw [hc.opts]
  refine ite (fun _ => exitTok) fun _ => bind (advance hk fun k => bind (checkOptionLine (bind (getTok fun t ht => ?_))))
  split
  · next hp => exact modifyOpts (hq _ (ht ▸ progTypeOfName_some hp))
  · exact ite (fun _ => exitTok) fun _ => ub

theorem nextImmediate {m : Msg} {Q : BitVec 32 → Kind → Prop} (hk : k ≠ .semicolon) (hq : ∀ x k, k ≠ .semicolon → Q x k) :
    Twin r (Nxas.nextImmediate m) (Nxas.nextImmediate m) k Q := by
  unfold Nxas.nextImmediate
  refine bind (advance hk fun k => bind (getTok fun t ht => ?_))
  split
  · next h => exact pure (hq _ _ (by rw [← ht, h]; nofun))
  · exact exitTok

theorem optionBody {t : Token} (hk : k ≠ .semicolon) (hq : ∀ k, k ≠ .semicolon → Q () k) : Twin r (Nxas.optionBody t) (Nxas.optionBody t) k Q := by
  unfold Nxas.optionBody
  refine ite (fun h => bind (modifyOpts (parseType hk hq))) fun _ => ?_
  refine ite (fun h => parseType hk hq) fun _ => ?_
  refine ite (fun h => bind (advance hk fun k => bind (getTok fun t ht => ?_))) fun _ => ?_
  · split
    · exact exitTok
    · exact ub
  refine ite (fun h => ?_) fun _ => ?_
  · exact bind (nextImmediate hk fun x k hk => bind (modifyOpts (bind (nextImmediate hk fun x k hk => bind (modifyOpts
      (bind (nextImmediate hk fun x k hk => bind (modifyOpts (checkOptionLine (hq _ hk))))))))))
  refine ite (fun h => bind (nextImmediate hk fun x k hk => modifyOpts (hq _ hk))) fun _ => ?_
  exact ite (fun h => bind (nextImmediate hk fun x k hk => modifyOpts (hq _ hk))) fun _ => pure (hq _ hk)

theorem parseOption (hk : k ≠ .semicolon) (hq : ∀ k, Q () k) : Twin r Nxas.parseOption Nxas.parseOption k Q := by
  unfold Nxas.parseOption
  exact bind (getTok fun t0 h0 => bind (optionBody hk fun k hk => bind (advance hk fun k => bind (getTok fun t _ =>
    ite (fun _ => exitTok) fun _ => pure (hq _)))))

theorem parseOptions {n m : Nat} (hn : n ≤ m) (hq : ∀ k, Q () k) : Twin r (Nxas.parseOptions n) (Nxas.parseOptions m) k Q := by
  induction n generalizing k m with
  | zero => exact ub
  | succ n ih =>
    obtain ⟨m, rfl⟩ : ∃ j, m = j + 1 := ⟨m - 1, by omega⟩
    unfold Nxas.parseOptions
    refine bind (getTok fun t ht => ite (fun h => bind (parseOption ?_ fun k => ih (by omega))) fun _ => pure (hq _))
    rintro rfl
    simp [Token.isOption, ht] at h

/-! ### Instructions -/

theorem guardPredicate (hq : ∀ k, k ≠ .semicolon → Q () k) : Twin r Nxas.guardPredicate Nxas.guardPredicate k Q := by
  unfold Nxas.guardPredicate
  exact bind (confirmPred fun i n h => addBits (hq _ (by rw [h]; nofun)))

theorem parsePrologue (hq : ∀ x, Q () (.ident x)) : Twin r Nxas.parsePrologue Nxas.parsePrologue k Q := by
  unfold Nxas.parsePrologue
  have hend : ∀ k, Twin r (Nxas.getTok >>= fun t2 => match t2.kind with
      | .ident _ => M.pure ()
      | _ => Nxas.exitTok (α := Unit) "expected mnemonic") (Nxas.getTok >>= fun t2 => match t2.kind with
      | .ident _ => M.pure ()
      | _ => Nxas.exitTok (α := Unit) "expected mnemonic") k Q := by
    intro k
    refine bind (getTok fun t ht => ?_)
    split
    · rename_i x hx
      exact pure (by rw [← ht, hx]; exact hq x)
    · exact exitTok
  refine bind (modifyPc (bind (getTok fun t ht => ?_)))
  split
  · next h =>
    exact bind (advance (by rw [← ht, h]; nofun) fun k => bind (raising (guardPredicate fun k hk => bind (advance hk fun k => hend k))))
  · exact bind (addBits (hend _))

end Twin

variable {r : Str}

theorem startInsn_twin {i : Insn} {dbg : Bool} {s s' : St} (hc : Pair r s.ctx s'.ctx) (ho : s'.op = s.op) (ht : Sealed s.ctx.cur.text) :
    TwinOut r (fun _ _ => True) (startInsn i dbg s) (startInsn i dbg s') := by
  unfold startInsn
  rw [M.bind_def, M.bind_def]
  unfold addBits
  rw [ho]
  split
  · next a s1 heq =>
    split at heq
    · simp at heq
    · next hcond =>
      simp only [Out.ok.injEq] at heq
      obtain ⟨-, rfl⟩ := heq
      rw [if_neg hcond]
      dsimp only
      rw [M.bind_def, M.bind_def]
      have h1 := Twin.advanceFrom (r := r) (dbg := dbg) (Q := fun _ _ => True)
        (s := { s with op := { s.op with value := s.op.value ||| i.opcode } })
        (s' := { s' with op := { s.op with value := s.op.value ||| i.opcode } }) hc rfl ht fun _ => trivial
      generalize advance dbg { s with op := { s.op with value := s.op.value ||| i.opcode } } = m at h1
      generalize advance dbg { s' with op := { s.op with value := s.op.value ||| i.opcode } } = m' at h1
      cases m with
      | ok a s1 =>
        obtain ⟨s2, rfl, h2, -⟩ := h1
        exact Twin.bind (.getValue fun x => .ite (fun h => .failTok) fun _ => .pure trivial) dbg _ _ h2 rfl
      | fail e s1 => obtain ⟨s2, rfl⟩ := h1; exact ⟨_, rfl⟩
      | exit e => have h2 : m' = .exit e := h1; subst h2; rfl
      | abort => have h2 : m' = .abort := h1; subst h2; rfl
      | ub u => trivial
  · next heq => split at heq <;> simp at heq
  · next heq => split at heq <;> simp at heq
  · next heq =>
    split at heq
    · next hcond => rw [if_pos hcond]; rfl
    · simp at heq
  · next heq => split at heq <;> simp at heq

theorem runOperands_twin {os : List Operand} {n : Nat} {dbg : Bool} {s s' : St} (hs : TwinSt r s s') :
    TwinOut r (fun _ _ => True) (runOperands os n dbg s).1 (runOperands os n dbg s').1 ∧
    ((∀ u, (runOperands os n dbg s).1 ≠ .ub u) → (runOperands os n dbg s').2 = (runOperands os n dbg s).2) := by
  induction os generalizing n s s' with
  | nil => exact ⟨⟨s', rfl, hs, trivial⟩, fun _ => rfl⟩
  | cons o os ih =>
    have := Twin.run (r := r) (o := o) (Q := fun _ _ => True) (fun _ => trivial) dbg s s' hs rfl
    unfold runOperands
    cases hm : o.run dbg s <;> rw [hm] at this
    case ok a s1 => obtain ⟨s2, e, h1, -⟩ := this; rw [e]; exact ih h1
    case fail => obtain ⟨s2, e⟩ := this; rw [e]; exact ⟨⟨s2, rfl⟩, fun _ => rfl⟩
    case exit e => have h1 : o.run dbg s' = .exit e := this; rw [h1]; exact ⟨rfl, fun _ => rfl⟩
    case abort => have h1 : o.run dbg s' = .abort := this; rw [h1]; exact ⟨rfl, fun _ => rfl⟩
    case ub u => exact ⟨trivial, fun h => absurd rfl (h u)⟩

theorem parseInsn_twin {i : Insn} {dbg : Bool} {s s' : St} (hc : Pair r s.ctx s'.ctx) (ho : s'.op = s.op) (ht : Sealed s.ctx.cur.text) :
    TwinOut r (fun _ k => k = .semicolon) (parseInsn i dbg s).1 (parseInsn i dbg s').1 ∧
    ((∀ u, (parseInsn i dbg s).1 ≠ .ub u) → (parseInsn i dbg s').2 = (parseInsn i dbg s).2) := by
  have h1 := startInsn_twin (i := i) (dbg := dbg) hc ho ht
  unfold parseInsn
  cases hm : startInsn i dbg s <;> rw [hm] at h1
  case ok a s1 =>
    obtain ⟨s2, e, h2, -⟩ := h1
    rw [e]
    dsimp only
    obtain ⟨h3, h4⟩ := runOperands_twin (os := i.operands) (n := 1) (dbg := dbg) h2
    rcases hr : runOperands i.operands 1 dbg s1 with ⟨x, n⟩
    rcases hr' : runOperands i.operands 1 dbg s2 with ⟨x', n'⟩
    rw [hr, hr'] at h3 h4
    dsimp only at h3 h4
    cases x
    case ok a s3 =>
      obtain ⟨s4, rfl, h5, -⟩ := h3
      have : n' = n := h4 nofun
      subst this
      exact ⟨Twin.finishInsn rfl dbg _ _ h5 rfl, fun _ => rfl⟩
    case fail => obtain ⟨s4, rfl⟩ := h3; exact ⟨⟨_, rfl⟩, fun _ => h4 nofun⟩
    case exit e => have h5 : x' = .exit e := h3; subst h5; exact ⟨rfl, fun _ => h4 nofun⟩
    case abort => have h5 : x' = .abort := h3; subst h5; exact ⟨rfl, fun _ => h4 nofun⟩
    case ub u => exact ⟨trivial, fun h => absurd rfl (h u)⟩
  case fail => obtain ⟨s2, e⟩ := h1; rw [e]; exact ⟨⟨_, rfl⟩, fun _ => rfl⟩
  case exit e => have h2 : startInsn i dbg s' = .exit e := h1; rw [h2]; exact ⟨rfl, fun _ => rfl⟩
  case abort => have h2 : startInsn i dbg s' = .abort := h1; rw [h2]; exact ⟨rfl, fun _ => rfl⟩
  case ub u => exact ⟨trivial, fun h => absurd rfl (h u)⟩

theorem tryRows_twin {rows : List Insn} {mn : Token} {sv sv' : St} (hv : Pair r sv.ctx sv'.ctx) (hvo : sv'.op = sv.op) (hvt : Sealed sv.ctx.cur.text)
    {best : Option (Err × Nat)} {dbg : Bool} {s s' : St} (hc : Pair r s.ctx s'.ctx) (ho : s'.op = s.op) (ht : Sealed s.ctx.cur.text) :
    TwinOut r (fun _ k => k = .semicolon) (tryRows mn sv rows best dbg s) (tryRows mn sv' rows best dbg s') := by
  induction rows generalizing best s s' with
  | nil =>
    unfold tryRows
    cases best <;> rfl
  | cons i is ih =>
    unfold tryRows
    split
    · exact ih hc ho ht
    · obtain ⟨h1, h2⟩ := parseInsn_twin (i := i) (dbg := dbg) hc ho ht
      rcases hp : parseInsn i dbg s with ⟨x, n⟩
      rcases hp' : parseInsn i dbg s' with ⟨x', n'⟩
      rw [hp, hp'] at h1 h2
      dsimp only at h1 h2
      cases x
      case ok a s1 =>
        obtain ⟨s2, rfl, h3, h4⟩ := h1
        exact ⟨_, rfl, ⟨⟨h3.ctx.cur, h3.ctx.labels, by simp only [h3.ctx.pc], h3.ctx.opts⟩, h3.tok, h3.op, h3.live⟩, h4⟩
      case fail e s1 =>
        obtain ⟨s2, rfl⟩ := h1
        have : n' = n := h2 nofun
        subst this
        exact ih (s := { s1 with ctx := sv.ctx, op := sv.op }) (s' := { s2 with ctx := sv'.ctx, op := sv'.op }) hv hvo hvt
      case exit e => have h5 : x' = .exit e := h1; subst h5; rfl
      case abort => have h5 : x' = .abort := h1; subst h5; rfl
      case ub u => trivial

theorem parseInstruction_twin {table : List Insn} {dbg : Bool} {s s' : St} (hc : Pair r s.ctx s'.ctx) (ho : s'.op = s.op) (ht : Sealed s.ctx.cur.text) :
    TwinOut r (fun b k => b = true → k = .semicolon) (parseInstruction table dbg s) (parseInstruction table dbg s') := by
  unfold parseInstruction
  rw [M.bind_def, M.bind_def]
  have h1 := Twin.advanceFrom (r := r) (dbg := dbg) (Q := fun _ _ => True) hc ho ht fun _ => trivial
  cases hm : advance dbg s <;> rw [hm] at h1
  case fail => obtain ⟨s2, e⟩ := h1; rw [e]; exact ⟨_, rfl⟩
  case exit e => have h2 : advance dbg s' = .exit e := h1; rw [h2]; rfl
  case abort => have h2 : advance dbg s' = .abort := h1; rw [h2]; rfl
  case ub => trivial
  case ok a s1 =>
  obtain ⟨s2, e, h2, -⟩ := h1
  rw [e]
  dsimp only
  refine Twin.bind (Q := fun b k => b = true → k = .semicolon) (.getTok fun t htk => .ite (fun _ => .pure (a := false) (by simp)) fun _ => ?_) dbg s1 s2 h2 rfl
  refine .bind ?_
  intro dbg s3 s4 h3 hk
  refine Twin.parseOptions (Q := fun _ k => _) ?_ (fun k => ?_) dbg s3 s4 h3 hk
  · rw [h3.ctx.cur]; simp [Cur.ext]
  refine .bind (Twin.parsePrologue fun x => ?_)
  refine .bind ?_
  intro dbg s5 s6 h5 hk5
  have hlive : Sealed s5.ctx.cur.text := by
    rcases h5.live with h | h
    · exact h
    · rw [hk5] at h
      simp at h
  dsimp only
  rw [h5.tok]
  have h6 := tryRows_twin (mn := s5.tok) (rows := table) (best := none) (dbg := dbg) h5.ctx h5.op hlive h5.ctx h5.op hlive
  cases hm : tryRows s5.tok s5 table none dbg s5 <;> rw [hm] at h6
  case ok a s7 =>
    obtain ⟨s8, e, h7, h8⟩ := h6
    exact ⟨s8, e, h7, .pure fun _ => h8⟩
  all_goals exact h6

theorem parseAll_twin {table : List Insn} {dbg : Bool} {room room' : Nat} (hr : room ≤ room') {c c' : Ctx} (hc : Pair r c c')
    (ht : c.cur.text = [] ∨ Sealed c.cur.text) :
    (∀ d, parseAll table dbg room c = .exit d → parseAll table dbg room' c' = .exit d) ∧
    (parseAll table dbg room c = .abort → parseAll table dbg room' c' = .abort) := by
  induction room generalizing room' c c' with
  | zero => exact ⟨fun d h => by simp [parseAll] at h, fun h => by simp [parseAll] at h⟩
  | succ room ih =>
    obtain ⟨room', rfl⟩ : ∃ j, room' = j + 1 := ⟨room' - 1, by omega⟩
    rcases ht with ht | ht
    · have : parseAll table dbg (room + 1) c = .ok ([], c) := by
        have e : tokenize c.cur = .ok ⟨.none, c.cur.line, c.cur.col⟩ c.cur := by
          obtain ⟨⟨t, l, k⟩, _⟩ := c
          simp only at ht
          subst ht
          rfl
        simp only [parseAll, parseInstruction, M.bind_def, advance, e, getTok, if_true, M.pure]
      rw [this]
      exact ⟨fun d h => by simp at h, fun h => by simp at h⟩
    · have h1 := parseInstruction_twin (table := table) (dbg := dbg) (s := ⟨c, ⟨.none, 0, 0⟩, {}⟩) (s' := ⟨c', ⟨.none, 0, 0⟩, {}⟩) hc rfl ht
      unfold parseAll
      cases hm : parseInstruction table dbg ⟨c, ⟨.none, 0, 0⟩, {}⟩ <;> rw [hm] at h1
      case fail => obtain ⟨s2, e⟩ := h1; rw [e]; simp
      case exit e => have h2 : parseInstruction table dbg ⟨c', ⟨.none, 0, 0⟩, {}⟩ = .exit e := h1; rw [h2]; simp
      case abort => have h2 : parseInstruction table dbg ⟨c', ⟨.none, 0, 0⟩, {}⟩ = .abort := h1; rw [h2]; simp
      case ub => simp
      case ok b s1 =>
        obtain ⟨s2, e, h2, h3⟩ := h1
        rw [e]
        cases b
        · simp
        · dsimp only
          obtain ⟨h4, h5⟩ := ih (room' := room') (by omega) h2.ctx (h2.live.elim .inr fun h => .inl h.1)
          cases hp : parseAll table dbg room s1.ctx with
          | ok => simp
          | exit d => simp [h4 d hp]
          | abort => simp [h5 hp]
          | ub => simp

end Nxas
