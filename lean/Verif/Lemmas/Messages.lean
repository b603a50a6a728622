import Verif.Spec.Messages
import Verif.Lemmas.Frame
import Verif.Lemmas.Wp
/-
The messages of the operand parsers, the annotations and the options fit the tokens they are reported at.
-/

namespace Nxas

open Spec

theorem className_eq (k : Kind) : className k = k.name := by cases k <;> rfl
theorem quoted_eq (k : Kind) : quoted k = k.info := by cases k <;> rfl

/-- The state is at a token of the text of `c0`, and the labels are `ls`. -/
def Here (c0 : Cur) (ls : Labels) (s : St) : Prop := s.ctx.labels = ls ∧ TokInv c0 s

/-- The diagnostic comes from the lexer, or its message fits the token at its position. -/
def Tale (v : Words) (c0 : Cur) (e : Err) : Prop :=
  (∃ c, Reach c0 c ∧ tokenize c = .exit e) ∨
  (∃ c t c', Reach c0 c ∧ tokenize c = .ok t c' ∧ e.line = t.line ∧ e.col = t.col ∧ Fits false v t.kind e.msg)

/-- The outcome has a fitting diagnostic, or it returns `a` at a token of class `k` with `Q a k`. -/
def Good (v : Words) (c0 : Cur) (ls : Labels) (Q : α → Kind → Prop) : Out α → Prop
  | .ok a s' => Here c0 ls s' ∧ Q a s'.tok.kind
  | .fail e s' => Here c0 ls s' ∧ Tale v c0 e
  | .exit e => Tale v c0 e
  | _ => True

/-- Run on a token of class `k`, the computation has a good outcome. -/
def Telling (v : Words) (c0 : Cur) (ls : Labels) (m : M α) (k : Kind) (Q : α → Kind → Prop) : Prop :=
  ∀ dbg s, Here c0 ls s → s.tok.kind = k → Good v c0 ls Q (m dbg s)

theorem Here.tale {v : Words} {c0 : Cur} {ls : Labels} {s : St} {m : Msg} (h : Here c0 ls s) (hm : Fits false v s.tok.kind m) :
    Tale v c0 ⟨s.tok.line, s.tok.col, m⟩ := by
  obtain ⟨-, c, h1, h2⟩ := h
  exact .inr ⟨c, _, _, h1, h2, rfl, rfl, hm⟩

namespace Telling

variable {v : Words} {c0 : Cur} {ls : Labels} {k : Kind}

theorem pure {a : α} {Q : α → Kind → Prop} (h : Q a k) : Telling v c0 ls (M.pure a) k Q := by
  intro dbg s hs hk
  exact ⟨hs, hk ▸ h⟩

theorem bind {m : M α} {f : α → M β} {Q : β → Kind → Prop} (h : Telling v c0 ls m k fun a k' => Telling v c0 ls (f a) k' Q) :
    Telling v c0 ls (m >>= f) k Q := by
  intro dbg s hs hk
  have := h dbg s hs hk
  rw [M.bind_def]
  cases hm : m dbg s with
  | ok a s' =>
    rw [hm] at this
    exact this.2 dbg s' this.1 rfl
  | fail e s' => rw [hm] at this; exact this
  | exit e => rw [hm] at this; exact this
  | abort => trivial
  | ub u => trivial

theorem getKind {Q : Kind → Kind → Prop} (h : Q k k) : Telling v c0 ls Nxas.getKind k Q := by
  intro dbg s hs hk
  subst hk
  exact ⟨hs, h⟩

theorem getTok {Q : Token → Kind → Prop} (h : ∀ t : Token, t.kind = k → Q t k) : Telling v c0 ls Nxas.getTok k Q := by
  intro dbg s hs hk
  subst hk
  exact ⟨hs, h _ rfl⟩

theorem getValue {Q : BitVec 64 → Kind → Prop} (h : ∀ x, Q x k) : Telling v c0 ls Nxas.getValue k Q := by
  intro dbg s hs hk
  subst hk
  exact ⟨hs, h _⟩

theorem setValue {x : BitVec 64} {Q : Unit → Kind → Prop} (h : Q () k) : Telling v c0 ls (Nxas.setValue x) k Q := by
  intro dbg s hs hk
  subst hk
  exact ⟨hs, h⟩

theorem getCtx {Q : Ctx → Kind → Prop} (h : ∀ c : Ctx, c.labels = ls → Q c k) : Telling v c0 ls Nxas.getCtx k Q := by
  intro dbg s hs hk
  subst hk
  exact ⟨hs, h _ hs.1⟩

theorem failTok {m : Msg} {Q : α → Kind → Prop} (h : Fits false v k m) : Telling v c0 ls (Nxas.failTok m) k Q := by
  intro dbg s hs hk
  subst hk
  exact ⟨hs, hs.tale h⟩

theorem exitTok {m : Msg} {Q : α → Kind → Prop} (h : Fits false v k m) : Telling v c0 ls (Nxas.exitTok m) k Q := by
  intro dbg s hs hk
  subst hk
  exact hs.tale h

theorem ub {u : UB} {Q : α → Kind → Prop} : Telling v c0 ls (ubM u) k Q := fun _ _ _ _ => trivial

theorem blameStart {msg : Msg} {m : M α} {Q : α → Kind → Prop} (hm : Fits false v k msg) (h : Telling v c0 ls m k Q) :
    Telling v c0 ls (Nxas.blameStart msg m) k Q := by
  intro dbg s hs hk
  have := h dbg s hs hk
  unfold Nxas.blameStart
  cases hr : m dbg s <;> rw [hr] at this <;> try exact this
  dsimp only at this ⊢
  split
  · subst hk; exact ⟨this.1, hs.tale hm⟩
  · exact this

theorem advance {Q : Unit → Kind → Prop} (h : ∀ k', Q () k') : Telling v c0 ls Nxas.advance k Q := by
  intro dbg s hs hk
  unfold Nxas.advance
  cases ht : tokenize s.ctx.cur with
  | ok t c => exact ⟨⟨hs.1, _, hs.2.reach, ht⟩, h _⟩
  | exit e => exact .inl ⟨_, hs.2.reach, ht⟩
  | ub u => trivial

theorem addBits {b : BitVec 64} {Q : Unit → Kind → Prop} (h : Q () k) : Telling v c0 ls (Nxas.addBits b) k Q := by
  intro dbg s hs hk
  subst hk
  unfold Nxas.addBits
  split
  · trivial
  · exact ⟨hs, h⟩

theorem addReuse {b : BitVec 32} {Q : Unit → Kind → Prop} (h : Q () k) : Telling v c0 ls (Nxas.addReuse b) k Q := by
  intro dbg s hs hk
  subst hk
  unfold Nxas.addReuse
  split
  · trivial
  · exact ⟨hs, h⟩

theorem expectedMsg_fits {want : Str} (h : k.name ≠ want) : Fits false v k (expectedMsg want k) := by
  unfold expectedMsg
  split
  · next hk => exact .missing hk
  · next hk =>
    have := Fits.expected (full := false) (v := v) (want := want) hk (by rwa [className_eq])
    rwa [className_eq, quoted_eq] at this

theorem confirm {k0 : Kind} {Q : Unit → Kind → Prop} (hn : k0.name ∉ [c!"identifier", c!"register", c!"predicate", c!"immediate", c!"floating-point immediate"])
    (h : k = k0 → Q () k) :
    Telling v c0 ls (Nxas.confirm k0) k Q := by
  intro dbg s hs hk
  subst hk
  unfold Nxas.confirm
  split
  · next he => exact ⟨hs, h he⟩
  · next he =>
    refine ⟨hs, hs.tale (expectedMsg_fits ?_)⟩
    intro hne
    apply he
    generalize s.tok.kind = k at hne
    cases k <;> cases k0 <;> first | rfl | (exfalso; revert hne hn; simp [Kind.name]; done)

theorem confirmIdent {Q : Str → Kind → Prop} (h : ∀ x, k = .ident x → Q x k) : Telling v c0 ls Nxas.confirmIdent k Q := by
  intro dbg s hs hk
  subst hk
  unfold Nxas.confirmIdent
  split
  · next x he => exact ⟨hs, h x he⟩
  · next hn =>
    refine ⟨hs, hs.tale (expectedMsg_fits ?_)⟩
    cases hk : s.tok.kind <;> first | (simp [Kind.name]; done) | (exact absurd hk (hn _))

theorem confirmReg {Q : Nat → Kind → Prop} (h : ∀ x, k = .reg x → Q x k) : Telling v c0 ls Nxas.confirmReg k Q := by
  intro dbg s hs hk
  subst hk
  unfold Nxas.confirmReg
  split
  · next x he => exact ⟨hs, h x he⟩
  · next hn =>
    refine ⟨hs, hs.tale (expectedMsg_fits ?_)⟩
    cases hk : s.tok.kind <;> first | (simp [Kind.name]; done) | (exact absurd hk (hn _))

theorem confirmPred {Q : Nat × Bool → Kind → Prop} (h : ∀ i n, k = .pred i n → Q (i, n) k) : Telling v c0 ls Nxas.confirmPred k Q := by
  intro dbg s hs hk
  subst hk
  unfold Nxas.confirmPred
  split
  · next i n he => exact ⟨hs, h i n he⟩
  · next hn =>
    refine ⟨hs, hs.tale (expectedMsg_fits ?_)⟩
    cases hk : s.tok.kind <;> first | (simp [Kind.name]; done) | (exact absurd hk (hn _ _))

theorem convertInteger {a b : Int} {Q : Int → Kind → Prop} (h : ∀ x, k = .imm x → Q x k) :
    Telling v c0 ls (Nxas.convertInteger a b) k Q := by
  intro dbg s hs hk
  subst hk
  unfold Nxas.convertInteger
  split
  · next x he =>
    split
    · next hr => exact ⟨hs, hs.tale (.range he (by omega))⟩
    · exact ⟨hs, h x he⟩
  · next hn =>
    refine ⟨hs, hs.tale (expectedMsg_fits ?_)⟩
    cases hk : s.tok.kind <;> first | (simp [Kind.name]; done) | (exact absurd hk (hn _))

theorem tableIndex_none {x : Str} {t : List Str} (h : tableIndex x t = none) : x ∉ t := by
  induction t with
  | nil => simp
  | cons y ys ih =>
    unfold tableIndex at h
    split at h
    · simp at h
    · next hne =>
      simp only [Option.map_eq_none_iff] at h
      simp [hne, ih h]

theorem findInTable {b : Bool} {t : List Str} {p : Str} {Q : Option Nat → Kind → Prop}
    (hn : (∀ x ∈ t, k ≠ .ident (p ++ x)) → Q none k) (h : ∀ i x, k = .ident x → Q (some i) k) :
    Telling v c0 ls (Nxas.findInTable b t p) k Q := by
  intro dbg s hs hk
  subst hk
  unfold Nxas.findInTable
  split
  · next text he =>
    split
    · next hp =>
      refine ⟨hs, hn ?_⟩
      rintro x - hx
      rw [he] at hx
      simp only [Kind.ident.injEq] at hx
      apply hp.2
      rw [hx, List.take_left]
    · split
      · next i hi => exact ⟨hs, h i _ he⟩
      · next hi =>
        split
        · refine ⟨hs, hn ?_⟩
          rintro x hm hx
          rw [he] at hx
          simp only [Kind.ident.injEq] at hx
          rw [hx, List.drop_left] at hi
          exact tableIndex_none hi hm
        · trivial
  · next hne =>
    refine ⟨hs, hn ?_⟩
    rintro x - hx
    exact hne _ hx

theorem ite {c : Prop} [Decidable c] {a b : M α} {Q : α → Kind → Prop} (ha : c → Telling v c0 ls a k Q) (hb : ¬ c → Telling v c0 ls b k Q) :
    Telling v c0 ls (if c then a else b) k Q := by
  split
  · next h => exact ha h
  · next h => exact hb h

theorem mono {m : M α} {Q Q' : α → Kind → Prop} (h : Telling v c0 ls m k Q) (hq : ∀ a k', Q a k' → Q' a k') : Telling v c0 ls m k Q' := by
  intro dbg s hs hk
  have := h dbg s hs hk
  cases hm : m dbg s <;> rw [hm] at this <;> first | exact this | exact ⟨this.1, hq _ _ this.2⟩

end Telling

/-- Decompose a computation. -/
macro "tell" : tactic => `(tactic| repeat' (first
  | with_reducible refine Telling.bind ?_
  | with_reducible refine Telling.getKind ?_
  | with_reducible refine Telling.failTok ?_
  | with_reducible exact Telling.ub
  | with_reducible refine Telling.pure ?_
  | with_reducible refine Telling.getValue ?_
  | with_reducible refine Telling.setValue ?_
  | with_reducible refine Telling.getCtx ?_
  | with_reducible refine Telling.advance ?_
  | with_reducible refine Telling.addBits ?_
  | with_reducible refine Telling.addReuse ?_
  | with_reducible refine Telling.confirm (by decide) ?_
  | with_reducible refine Telling.confirmIdent ?_
  | with_reducible refine Telling.confirmReg ?_
  | with_reducible refine Telling.confirmPred ?_
  | with_reducible refine Telling.convertInteger ?_
  | with_reducible refine Telling.findInTable ?_ ?_
  | with_reducible refine Telling.ite ?_ ?_
  | with_reducible exact trivial
  | (with_reducible apply_assumption; done)
  | with_reducible refine Fits.unspecific (by decide)
  | (with_reducible intro _; try dsimp only)
  | split))

theorem Kind.not_equal {k : Kind} {s : Str} (h : (!k.equal s) = true) : k ≠ .ident s := by
  rintro rfl
  simp [Kind.equal] at h

namespace Telling

variable {v : Words} {c0 : Cur} {ls : Labels} {k : Kind} {Q : Unit → Kind → Prop}

theorem tryReuse {a : Nat} (hq : ∀ k, Q () k) : Telling v c0 ls (Nxas.tryReuse a) k Q := by
  unfold Nxas.tryReuse
  tell
  rename_i h _ _ _
  exact .reuse (Kind.equal_iff.mp (by simpa using h))

theorem assembleGpr {a : Nat} (hq : ∀ k, Q () k) : Telling v c0 ls (Nxas.assembleGpr a) k Q := by
  unfold Nxas.assembleGpr
  tell
  exact tryReuse hq

theorem runFlag {s : Str} {a : Nat} (hq : ∀ k, Q () k) : Telling v c0 ls (Nxas.runFlag s a) k Q := by
  unfold Nxas.runFlag
  tell

theorem runUint {m : Int} {a : Nat} (hq : ∀ k, Q () k) : Telling v c0 ls (Nxas.runUint m a) k Q := by
  unfold Nxas.runUint
  tell

theorem runSint {m : Nat} {a : Nat} (hq : ∀ k, Q () k) : Telling v c0 ls (Nxas.runSint m a) k Q := by
  unfold Nxas.runSint
  tell

theorem runDotTable {d : Option Nat} {a : Nat} {t : List Str} (hq : ∀ k, Q () k) : Telling v c0 ls (Nxas.runDotTable d a t) k Q := by
  unfold Nxas.runDotTable
  tell

theorem runUimmExtended (hq : ∀ k, Q () k) : Telling v c0 ls Nxas.runUimmExtended k Q := by
  unfold Nxas.runUimmExtended
  tell

theorem runComma (hq : ∀ k, Q () k) : Telling v c0 ls Nxas.runComma k Q := by
  unfold Nxas.runComma
  tell

theorem runLabelTarget {a : Int} (hq : ∀ k, Q () k) : Telling v c0 ls (Nxas.runLabelTarget a) k Q := by
  unfold Nxas.runLabelTarget
  tell

theorem runLabel (hl : ∀ x, ls.find x = none → ¬ v.defined x) (hq : ∀ k, Q () k) : Telling v c0 ls Nxas.runLabel k Q := by
  unfold Nxas.runLabel
  tell
  · rename_i hc _ hn
    rw [hc] at hn
    exact .label rfl (hl _ hn)
  · exact runLabelTarget hq
  · exact runLabelTarget hq
  · rename_i h h'
    exact .noLabel h h'

theorem runMirror {a : Nat} (hq : ∀ k, Q () k) : Telling v c0 ls (Nxas.runMirror a) k Q := by
  unfold Nxas.runMirror
  tell
  refine assembleGpr fun k => ?_
  tell

theorem runCbuf (hq : ∀ k, Q () k) : Telling v c0 ls Nxas.runCbuf k Q := by
  unfold Nxas.runCbuf
  refine blameStart (.unspecific (by decide)) ?_
  tell
  · exact .listing (names := [c!"c"]) (by decide) (by simpa using Kind.not_equal ‹_›)
  · exact .unspecific (by decide)

theorem runImm20 (hq : ∀ k, Q () k) : Telling v c0 ls Nxas.runImm20 k Q := by
  unfold Nxas.runImm20
  tell

theorem noFloat : Fits false v k "expected floating-point literal, QNAN, or INF" := .noFloat nofun

theorem floatKeyword {n : Nat} {a b : BitVec n} {Q : BitVec n → Kind → Prop} (hq : ∀ x k, Q x k) :
    Telling v c0 ls (Nxas.floatKeyword a b) k Q := by
  unfold Nxas.floatKeyword
  tell
  exact noFloat

theorem floatValue {Q : BitVec 32 → Kind → Prop} (hq : ∀ x k, Q x k) : Telling v c0 ls Nxas.floatValue k Q := by
  unfold Nxas.floatValue
  refine bind (getKind ?_)
  cases k <;> dsimp only
  case imm x => exact ite (fun h => absurd rfl h) fun _ => pure (hq _ _)
  all_goals tell
  all_goals first | exact noFloat | (refine floatKeyword fun x k => ?_; first | exact hq _ _ | exact pure (hq _ _))

theorem runFimm {w : Bool} (hq : ∀ k, Q () k) : Telling v c0 ls (Nxas.runFimm w) k Q := by
  unfold Nxas.runFimm
  refine bind (floatValue fun x k => ?_)
  tell

theorem doubleValue {Q : BitVec 64 → Kind → Prop} (hq : ∀ x k, Q x k) : Telling v c0 ls Nxas.doubleValue k Q := by
  unfold Nxas.doubleValue
  refine bind (getKind ?_)
  cases k <;> dsimp only
  all_goals tell
  all_goals first | exact noFloat | (refine floatKeyword fun x k => ?_; first | exact hq _ _ | exact pure (hq _ _))

theorem runDimm20 (hq : ∀ k, Q () k) : Telling v c0 ls Nxas.runDimm20 k Q := by
  unfold Nxas.runDimm20
  refine bind (doubleValue fun x k => ?_)
  tell

theorem addNegBit {n : Option Nat} (hq : ∀ k, Q () k) : Telling v c0 ls (Nxas.addNegBit n) k Q := by
  unfold Nxas.addNegBit
  tell

theorem halfValue {n : Option Nat} {Q : BitVec 16 → Kind → Prop} (hq : ∀ x k, Q x k) : Telling v c0 ls (Nxas.halfValue n) k Q := by
  unfold Nxas.halfValue
  refine bind (getKind ?_)
  cases k <;> dsimp only
  all_goals tell
  all_goals first
    | exact noFloat
    | exact addNegBit fun k => pure (hq _ _)
    | exact floatKeyword fun x k => hq _ _
    | exact floatKeyword fun x k => bind (addNegBit fun k => pure (hq _ _))

theorem runHimm {w : Bool} {o : Nat} {n : Option Nat} (hq : ∀ k, Q () k) : Telling v c0 ls (Nxas.runHimm w o n) k Q := by
  unfold Nxas.runHimm
  refine bind (halfValue fun x k => ?_)
  tell

theorem runBop {a : Nat} (hq : ∀ k, Q () k) : Telling v c0 ls (Nxas.runBop a) k Q := by
  unfold Nxas.runBop
  tell
  rename_i h
  simp only [List.mem_cons, List.not_mem_nil, or_false, forall_eq_or_imp, forall_eq] at h
  exact .listing (names := [c!".AND", c!".OR", c!".XOR"]) (by decide) (by simpa using ⟨h.1, h.2.1, h.2.2.1⟩)

theorem runPred {a : Nat} {n : Bool} (hq : ∀ k, Q () k) : Telling v c0 ls (Nxas.runPred a n) k Q := by
  unfold Nxas.runPred
  tell
  rename_i h
  subst h
  exact .negated ‹_›

theorem runInvertedPred {a : Nat} (hq : ∀ k, Q () k) : Telling v c0 ls (Nxas.runInvertedPred a) k Q := by
  unfold Nxas.runInvertedPred
  tell
  rename_i h
  subst h
  exact .negated ‹_›

theorem runSign {k0 : Kind} {a : Nat} (hq : ∀ k, Q () k) : Telling v c0 ls (Nxas.runSign k0 a) k Q := by
  unfold Nxas.runSign
  tell

theorem runAbs {a : Nat} {m : M Unit} (hm : ∀ k (Q : Unit → Kind → Prop), (∀ k, Q () k) → Telling v c0 ls m k Q) (hq : ∀ k, Q () k) :
    Telling v c0 ls (Nxas.runAbs a m) k Q := by
  unfold Nxas.runAbs
  tell
  · refine hm _ _ fun k => ?_
    tell
  · exact hm _ _ hq

theorem runPo {a b : Nat} (hq : ∀ k, Q () k) : Telling v c0 ls (Nxas.runPo a b) k Q := by
  unfold Nxas.runPo
  tell

theorem runMemAddress {i : Bool} {a s r : Nat} (hq : ∀ k, Q () k) : Telling v c0 ls (Nxas.runMemAddress i a s r) k Q := by
  unfold Nxas.runMemAddress
  tell
  all_goals
    refine tryReuse fun k => ?_
    tell

theorem runCcTests {a : Nat} {t : List Str} (ht : ∀ x ∈ v.tests, x ∈ t.map (c!"." ++ ·)) (hq : ∀ k, Q () k) :
    Telling v c0 ls (Nxas.runCcTests a t) k Q := by
  unfold Nxas.runCcTests
  tell
  rename_i h
  refine .test ‹_› fun hm => ?_
  obtain ⟨x, hx, he⟩ := List.mem_map.mp (ht _ hm)
  exact h x hx (by simp_all)

theorem addAll {l : List (BitVec 64)} (hq : Q () k) : Telling v c0 ls (Nxas.addAll l) k Q := by
  induction l with
  | nil => exact pure hq
  | cons b bs ih => exact bind (addBits ih)

theorem runExpect {s : Str} {pre post : List (BitVec 64)}
    (hs : (expectMsg s pre).args = [] ∧ (((expectMsg s pre).fmt, [s]) ∈ listings ∨ ∃ l, ((expectMsg s pre).fmt, l) ∈ misplaced)) (hq : ∀ k, Q () k) :
    Telling v c0 ls (Nxas.runExpect s pre post) k Q := by
  unfold Nxas.runExpect
  tell
  · obtain ⟨ha, hs⟩ := hs
    generalize expectMsg s pre = m at ha hs
    obtain ⟨fmt, args⟩ := m
    dsimp only at ha hs
    subst ha
    rcases hs with hs | ⟨l, hs⟩
    · exact .listing hs (by simpa using Kind.not_equal ‹_›)
    · exact .misplaced hs nofun
  · refine addAll (bind (advance fun k => addAll (hq _)))

theorem runOptText {s : Str} (hq : ∀ k, Q () k) : Telling v c0 ls (Nxas.runOptText s) k Q := by
  unfold Nxas.runOptText
  tell

theorem attrOpen (hq : ∀ k, Q () k) : Telling v c0 ls Nxas.attrOpen k Q := by
  unfold Nxas.attrOpen
  tell
  exact .listing (names := [c!"a"]) (by decide) (by simpa using Kind.not_equal ‹_›)

theorem attrClose (hq : ∀ k, Q () k) : Telling v c0 ls Nxas.attrClose k Q := by
  unfold Nxas.attrClose
  tell

theorem runImmAttr (hq : ∀ k, Q () k) : Telling v c0 ls Nxas.runImmAttr k Q := by
  unfold Nxas.runImmAttr
  exact bind (attrOpen fun k => bind (runUint fun k => bind (addBits (attrClose hq))))

theorem runPatchAttr (hq : ∀ k, Q () k) : Telling v c0 ls Nxas.runPatchAttr k Q := by
  unfold Nxas.runPatchAttr
  refine bind (attrOpen fun k => bind (assembleGpr fun k => ?_))
  tell
  all_goals exact runSint fun k => attrClose hq

theorem runPhysAttr (hq : ∀ k, Q () k) : Telling v c0 ls Nxas.runPhysAttr k Q := by
  unfold Nxas.runPhysAttr
  exact bind (attrOpen fun k => bind (assembleGpr fun k => attrClose hq))

theorem runXmadSigns (hq : ∀ k, Q () k) : Telling v c0 ls Nxas.runXmadSigns k Q := by
  unfold Nxas.runXmadSigns
  tell
  all_goals
    refine .listing (names := [c!".S16", c!".U16"]) (by decide) ?_
    rename_i h1 h2
    simp only [Kind.equal_iff] at h1
    simpa using ⟨h1, Kind.not_equal h2⟩

theorem runF2fRounding (hq : ∀ k, Q () k) : Telling v c0 ls Nxas.runF2fRounding k Q := by
  unfold Nxas.runF2fRounding
  tell
  exact runDotTable hq

theorem runIntFormat {ut st : List Str} {a b : Nat}
    (hs : (formatMsg ut).args = [] ∧ ∃ l, ((formatMsg ut).fmt, l) ∈ listings ∧ ∀ x ∈ l, x ∈ (ut ++ st).map (c!"." ++ ·)) (hq : ∀ k, Q () k) :
    Telling v c0 ls (Nxas.runIntFormat ut st a b) k Q := by
  unfold Nxas.runIntFormat
  tell
  rename_i h1 h2
  obtain ⟨ha, l, hl, hs⟩ := hs
  generalize formatMsg ut = m at ha hl
  obtain ⟨fmt, args⟩ := m
  dsimp only at ha hl
  subst ha
  refine .listing hl fun n hn he => ?_
  obtain ⟨x, hx, rfl⟩ := List.mem_map.mp (hs n hn)
  rcases List.mem_append.mp hx with hx | hx
  · exact h1 x hx he
  · exact h2 x hx he

theorem runPlainTable {t : List Str} {a : Nat}
    (hs : (modeMsg t).args = [] ∧ ((modeMsg t).fmt ∈ Spec.unspecific ∨ ∃ l, ((modeMsg t).fmt, l) ∈ listings ∧ ∀ x ∈ l, x ∈ t)) (hq : ∀ k, Q () k) :
    Telling v c0 ls (Nxas.runPlainTable a t) k Q := by
  unfold Nxas.runPlainTable
  tell
  rename_i h1
  obtain ⟨ha, hs⟩ := hs
  generalize modeMsg t = m at ha hs
  obtain ⟨fmt, args⟩ := m
  dsimp only at ha hs
  subst ha
  rcases hs with hs | ⟨l, hl, hs⟩
  · exact .unspecific hs
  · exact .listing hl fun n hn he => h1 n (hs n hn) he

theorem runSelector {a b c : Nat} {s t : List Str} (hq : ∀ k, Q () k) : Telling v c0 ls (Nxas.runSelector a b c s t) k Q := by
  unfold Nxas.runSelector
  tell
  all_goals exact runDotTable hq

theorem runLdcAddress (hq : ∀ k, Q () k) : Telling v c0 ls Nxas.runLdcAddress k Q := by
  unfold Nxas.runLdcAddress
  tell
  · exact .listing (names := [c!"c"]) (by decide) (by simpa using Kind.not_equal ‹_›)
  · exact runMemAddress hq

theorem runS2r {t : List Str} (ht : ∀ x ∈ v.registers, x ∈ t ∨ x = c!"SR_TID" ∨ x = c!"SR_CTAID") (hq : ∀ k, Q () k) :
    Telling v c0 ls (Nxas.runS2r t) k Q := by
  unfold Nxas.runS2r
  tell
  · refine .listing (names := [c!".X", c!".Y", c!".Z"]) (by decide) ?_
    rename_i h1 h2 h3
    simp only [Kind.equal_iff] at h1 h2 h3
    simpa using ⟨h1, h2, h3⟩
  · rename_i h1 h2 h3 h4
    simp only [Kind.equal_iff] at h1 h2
    rw [← quoted_eq]
    refine .register fun n hn hm => ?_
    rcases ht n hm with h | h | h
    · exact h3 n h (by simpa using hn)
    · exact h1 (h ▸ hn)
    · exact h2 (h ▸ hn)

theorem runLdgSize (hq : ∀ k, Q () k) : Telling v c0 ls Nxas.runLdgSize k Q := by
  unfold Nxas.runLdgSize
  tell
  exact .misplaced (names := [c!".U8", c!".S8", c!".U16", c!".S16", c!".32", c!".64", c!".128"]) (by decide) nofun

theorem runAtomicSize {a : Nat} (hq : ∀ k, Q () k) : Telling v c0 ls (Nxas.runAtomicSize a) k Q := by
  unfold Nxas.runAtomicSize
  tell
  all_goals exact .misplaced (names := [c!".U32", c!".S32", c!".U64", c!".S64"]) (by decide) nofun

theorem runSrcFormat {a b : Nat} (hq : ∀ k, Q () k) : Telling v c0 ls (Nxas.runSrcFormat a b) k Q := by
  unfold Nxas.runSrcFormat
  tell

theorem runTexType {a : Nat} (hq : ∀ k, Q () k) : Telling v c0 ls (Nxas.runTexType a) k Q := by
  unfold Nxas.runTexType
  tell
  exact .listing (names := [c!"1D", c!"ARRAY_1D", c!"2D", c!"ARRAY_2D", c!"3D", c!"ARRAY_3D", c!"CUBE", c!"ARRAY_CUBE"]) (by decide) ‹_›

theorem runZero (hq : ∀ k, Q () k) : Telling v c0 ls Nxas.runZero k Q := by
  unfold Nxas.runZero
  tell
  exact .noZero ‹_›

theorem runTexsMode {a : Nat} (hq : ∀ k, Q () k) : Telling v c0 ls (Nxas.runTexsMode a) k Q := by
  unfold Nxas.runTexsMode
  tell

theorem tldsMode_error {i : Nat} {a b c : Bool} {m : Msg} (h : tldsMode i a b c = .error m) : Fits false v k m := by
  unfold tldsMode at h
  repeat' split at h
  all_goals first
    | (simp only [reduceCtorEq] at h; done)
    | (simp only [Except.error.injEq] at h; subst h; exact .unspecific (by decide))

theorem runTldsType {a : Nat} (hq : ∀ k, Q () k) : Telling v c0 ls (Nxas.runTldsType a) k Q := by
  unfold Nxas.runTldsType
  tell
  · exact .listing (names := [c!"1D", c!"2D", c!"ARRAY_2D", c!"3D"]) (by decide) (by simp_all)
  · exact tldsMode_error ‹_›

theorem texsBits_error {i l : Nat} {c : Bool} {m : Msg} (h : texsBits i l c = .error m) : Fits false v k m := by
  unfold texsBits at h
  repeat' split at h
  all_goals first
    | (simp only [reduceCtorEq] at h; done)
    | (simp only [Except.error.injEq] at h; subst h; exact .unspecific (by decide))

theorem runTexsType {a : Nat} (hq : ∀ k, Q () k) : Telling v c0 ls (Nxas.runTexsType a) k Q := by
  unfold Nxas.runTexsType
  tell
  · refine .listing (names := [c!"1D", c!"2D", c!"ARRAY_2D", c!"3D", c!"CUBE"]) (by decide) fun n hn => ?_
    rename_i h
    refine h n ?_
    revert n
    decide
  · exact texsBits_error ‹_›

theorem runTexsSwizzle (hq : ∀ k, Q () k) : Telling v c0 ls Nxas.runTexsSwizzle k Q := by
  unfold Nxas.runTexsSwizzle
  tell

/-- What is used of the tables in the operands. -/
def _root_.Nxas.Operand.known (tests registers : List Str) : Operand → Bool
  | .abs _ o => o.known tests registers
  | .ccTests _ t => tests.all fun x => (t.map (c!"." ++ ·)).contains x
  | .expect s pre _ => (expectMsg s pre).args.isEmpty && (listings.contains ((expectMsg s pre).fmt, [s]) ||
      misplaced.any fun p => p.1 == (expectMsg s pre).fmt)
  | .intFormat ut st _ _ => (formatMsg ut).args.isEmpty &&
      listings.any fun p => p.1 == (formatMsg ut).fmt && p.2.all fun x => ((ut ++ st).map (c!"." ++ ·)).contains x
  | .plainTable _ t => (modeMsg t).args.isEmpty && (Spec.unspecific.contains (modeMsg t).fmt ||
      listings.any fun p => p.1 == (modeMsg t).fmt && p.2.all fun x => t.contains x)
  | .s2r t => registers.all fun x => t.contains x || x == c!"SR_TID" || x == c!"SR_CTAID"
  | _ => true

theorem run {o : Operand} (hl : ∀ x, ls.find x = none → ¬ v.defined x) (ho : o.known v.tests v.registers = true) (hq : ∀ k, Q () k) :
    Telling v c0 ls o.run k Q := by
  induction o generalizing k Q with
  | flag s a => exact runFlag hq
  | uint m a => exact runUint hq
  | sint b a => exact runSint hq
  | dotTable d a t => exact runDotTable hq
  | uimmExtended => exact runUimmExtended hq
  | comma => exact runComma hq
  | label => exact runLabel hl hq
  | gpr a => exact assembleGpr hq
  | mirrorGpr a => exact runMirror hq
  | cbuf => exact runCbuf hq
  | imm20 => exact runImm20 hq
  | fimm w => exact runFimm hq
  | dimm20 => exact runDimm20 hq
  | himm w o n => exact runHimm hq
  | bop a => exact runBop hq
  | pred a n => exact runPred hq
  | invertedPred a => exact runInvertedPred hq
  | neg a => exact runSign hq
  | tilde a => exact runSign hq
  | abs a inner ih => exact runAbs (fun k Q hq => ih ho hq) hq
  | po a b => exact runPo hq
  | defaultRz a => exact addBits (hq _)
  | memAddress i a s r => exact runMemAddress hq
  | ccTests a t =>
    refine runCcTests (fun x hx => ?_) hq
    have := List.all_eq_true.mp ho x hx
    simpa using this
  | expect s pre post =>
    refine runExpect ?_ hq
    simp only [Operand.known, Bool.and_eq_true, Bool.or_eq_true, List.isEmpty_iff, List.contains_eq_mem, decide_eq_true_eq,
      List.any_eq_true, beq_iff_eq] at ho
    refine ⟨ho.1, ho.2.imp id ?_⟩
    rintro ⟨⟨f, l⟩, h1, h2⟩
    exact ⟨l, h2 ▸ h1⟩
  | optText s => exact runOptText hq
  | immAttr => exact runImmAttr hq
  | patchAttr => exact runPatchAttr hq
  | physAttr => exact runPhysAttr hq
  | xmadSigns => exact runXmadSigns hq
  | f2fRounding => exact runF2fRounding hq
  | intFormat u s a b =>
    refine runIntFormat ?_ hq
    simp only [Operand.known, Bool.and_eq_true, List.isEmpty_iff, List.contains_eq_mem, decide_eq_true_eq,
      List.any_eq_true, List.all_eq_true, beq_iff_eq] at ho
    obtain ⟨h0, ⟨f, l⟩, h1, h2, h3⟩ := ho
    exact ⟨h0, l, h2 ▸ h1, h3⟩
  | plainTable a t =>
    refine runPlainTable ?_ hq
    simp only [Operand.known, Bool.and_eq_true, Bool.or_eq_true, List.isEmpty_iff, List.contains_eq_mem, decide_eq_true_eq,
      List.any_eq_true, List.all_eq_true, beq_iff_eq] at ho
    refine ⟨ho.1, ho.2.imp id ?_⟩
    rintro ⟨⟨f, l⟩, h1, h2, h3⟩
    exact ⟨l, h2 ▸ h1, h3⟩
  | selector a t k s b => exact runSelector hq
  | ldcAddress => exact runLdcAddress hq
  | s2r t =>
    refine runS2r (fun x hx => ?_) hq
    have := List.all_eq_true.mp ho x hx
    simpa [or_assoc] using this
  | ldgSize => exact runLdgSize hq
  | atomicSize a => exact runAtomicSize hq
  | srcFormat a s => exact runSrcFormat hq
  | immFormat s => exact runDotTable hq
  | texType a => exact runTexType hq
  | zero => exact runZero hq
  | texsMode a => exact runTexsMode hq
  | tldsType a => exact runTldsType hq
  | texsType a => exact runTexsType hq
  | texsSwizzle => exact runTexsSwizzle hq

end Telling

end Nxas
