import Verif.Model.Parse
/-
A principle for properties of operand parsers: a predicate on computations that holds of
the primitives and is preserved by sequencing holds of every operand parser.
-/

namespace Nxas

/-- Sequencing, applied to a state. -/
theorem M.bind_def {α β : Type} (m : M α) (f : α → M β) (dbg : Bool) (s : St) : (m >>= f) dbg s =
    (match m dbg s with
    | .ok a s' => f a dbg s'
    | .fail e s' => .fail e s'
    | .exit e => .exit e
    | .abort => .abort
    | .ub u => .ub u) := rfl

/-- A predicate on computations that the primitives satisfy and sequencing preserves. -/
structure Closed (P : ∀ {α : Type}, M α → Prop) : Prop where
  pure : ∀ {α} (a : α), P (M.pure a)
  bind : ∀ {α β} (m : M α) (f : α → M β), P m → (∀ a, P (f a)) → P (m >>= f)
  getKind : P getKind
  getValue : P getValue
  setValue : ∀ v, P (setValue v)
  failTok : ∀ {α} msg, P (failTok msg : M α)
  blameStart : ∀ {α} msg (m : M α), P m → P (blameStart msg m)
  advance : P advance
  addBits : ∀ b, P (addBits b)
  addReuse : ∀ b ∈ [reuseGpr8, reuseGpr20, reuseGpr39], P (addReuse b)
  confirm : ∀ k, P (confirm k)
  confirmIdent : P confirmIdent
  confirmReg : P confirmReg
  confirmPred : P confirmPred
  convertInteger : ∀ a b, P (convertInteger a b)
  findInTable : ∀ t p, P (findInTable true t p)

theorem Closed.ite {P : ∀ {α : Type}, M α → Prop} {α : Type} (c : Prop) [Decidable c] (a b : M α)
    (ha : P a) (hb : P b) : P (if c then a else b) := by
  by_cases h : c
  · rw [if_pos h]; exact ha
  · rw [if_neg h]; exact hb

/-- Decompose a computation with the rules of a `Closed` predicate `h`. -/
macro "closed_step" h:ident : tactic => `(tactic| first
  | with_reducible exact Closed.pure $h _
  | with_reducible exact Closed.getKind $h
  | with_reducible exact Closed.getValue $h
  | with_reducible exact Closed.setValue $h _
  | with_reducible exact Closed.failTok $h _
  | with_reducible exact Closed.advance $h
  | with_reducible exact Closed.addBits $h _
  | with_reducible exact Closed.addReuse $h _ (by simp)
  | with_reducible exact Closed.confirm $h _
  | with_reducible exact Closed.confirmIdent $h
  | with_reducible exact Closed.confirmReg $h
  | with_reducible exact Closed.confirmPred $h
  | with_reducible exact Closed.convertInteger $h _ _
  | with_reducible exact Closed.findInTable $h _ _
  | with_reducible assumption
  | with_reducible refine Closed.bind $h _ _ ?_ ?_
  | with_reducible refine Closed.blameStart $h _ _ ?_
  | with_reducible refine Closed.ite _ _ _ ?_ ?_
  | (intro _; try dsimp only)
  | split)

macro "closed" h:ident : tactic => `(tactic| (repeat' closed_step $h))

/-- The operand inside `|...|`, if any. -/
def Operand.leaf : Operand → Operand
  | .abs _ inner => inner.leaf
  | o => o

namespace Closed

variable {P : ∀ {α : Type}, M α → Prop}

theorem tryReuse (h : Closed @P) (a : Nat) : P (Nxas.tryReuse a) := by
  unfold Nxas.tryReuse; closed h

theorem assembleGpr (h : Closed @P) (a : Nat) : P (Nxas.assembleGpr a) := by
  have := h.tryReuse a
  unfold Nxas.assembleGpr; closed h

theorem runFlag (h : Closed @P) (s : Str) (a : Nat) : P (Nxas.runFlag s a) := by
  unfold Nxas.runFlag; closed h

theorem runUint (h : Closed @P) (m : Int) (a : Nat) : P (Nxas.runUint m a) := by
  unfold Nxas.runUint; closed h

theorem runSint (h : Closed @P) (b a : Nat) : P (Nxas.runSint b a) := by
  unfold Nxas.runSint; closed h

theorem runDotTable (h : Closed @P) (d : Option Nat) (a : Nat) (t : List Str) :
    P (Nxas.runDotTable d a t) := by
  unfold Nxas.runDotTable; closed h

theorem runUimmExtended (h : Closed @P) : P Nxas.runUimmExtended := by
  unfold Nxas.runUimmExtended; closed h

theorem runComma (h : Closed @P) : P Nxas.runComma := by
  unfold Nxas.runComma; closed h

theorem runMirror (h : Closed @P) (a : Nat) : P (Nxas.runMirror a) := by
  have := h.assembleGpr a
  unfold Nxas.runMirror; closed h

theorem runCbuf (h : Closed @P) : P Nxas.runCbuf := by
  unfold Nxas.runCbuf; closed h

theorem runImm20 (h : Closed @P) : P Nxas.runImm20 := by
  unfold Nxas.runImm20; closed h

theorem floatKeyword (h : Closed @P) {n : Nat} (a b : BitVec n) : P (Nxas.floatKeyword a b) := by
  unfold Nxas.floatKeyword; closed h

theorem floatValue (h : Closed @P) : P Nxas.floatValue := by
  have := h.floatKeyword f32QNaN f32Inf
  unfold Nxas.floatValue
  refine h.bind _ _ h.getKind ?_
  intro t
  cases t <;> dsimp only <;> closed h

theorem runFimm (h : Closed @P) (w : Bool) : P (Nxas.runFimm w) := by
  have := h.floatValue
  unfold Nxas.runFimm; closed h

theorem doubleValue (h : Closed @P) : P Nxas.doubleValue := by
  have := h.floatKeyword f64QNaN f64Inf
  unfold Nxas.doubleValue
  refine h.bind _ _ h.getKind ?_
  intro t
  cases t <;> dsimp only <;> closed h

theorem runDimm20 (h : Closed @P) : P Nxas.runDimm20 := by
  have := h.doubleValue
  unfold Nxas.runDimm20; closed h

theorem addNegBit (h : Closed @P) (n : Option Nat) : P (Nxas.addNegBit n) := by
  unfold Nxas.addNegBit; closed h

theorem halfValue (h : Closed @P) (n : Option Nat) : P (Nxas.halfValue n) := by
  have h1 := h.floatKeyword 0x7FFF#16 0x7C00#16
  have h2 := h.addNegBit n
  unfold Nxas.halfValue
  refine h.bind _ _ h.getKind ?_
  intro t
  cases t <;> dsimp only <;> closed h

theorem runHimm (h : Closed @P) (w : Bool) (o : Nat) (n : Option Nat) : P (Nxas.runHimm w o n) := by
  have h2 := h.halfValue n
  unfold Nxas.runHimm; closed h

theorem runBop (h : Closed @P) (a : Nat) : P (Nxas.runBop a) := by
  unfold Nxas.runBop; closed h

theorem runPred (h : Closed @P) (a : Nat) (n : Bool) : P (Nxas.runPred a n) := by
  unfold Nxas.runPred; closed h

theorem runInvertedPred (h : Closed @P) (a : Nat) : P (Nxas.runInvertedPred a) := by
  unfold Nxas.runInvertedPred; closed h

theorem runSign (h : Closed @P) (k : Kind) (a : Nat) : P (Nxas.runSign k a) := by
  unfold Nxas.runSign; closed h

theorem runAbs (h : Closed @P) (a : Nat) (m : M Unit) (hm : P m) : P (Nxas.runAbs a m) := by
  unfold Nxas.runAbs; closed h

theorem runPo (h : Closed @P) (a b : Nat) : P (Nxas.runPo a b) := by
  unfold Nxas.runPo; closed h

theorem runMemAddress (h : Closed @P) (i : Bool) (a s r : Nat) : P (Nxas.runMemAddress i a s r) := by
  have h2 := h.tryReuse 8
  unfold Nxas.runMemAddress; closed h

theorem runCcTests (h : Closed @P) (a : Nat) (t : List Str) : P (Nxas.runCcTests a t) := by
  unfold Nxas.runCcTests; closed h

theorem addAll (h : Closed @P) (l : List (BitVec 64)) : P (Nxas.addAll l) := by
  induction l with
  | nil => exact h.pure _
  | cons b bs ih => unfold Nxas.addAll; closed h

theorem runExpect (h : Closed @P) (s : Str) (a b : List (BitVec 64)) : P (Nxas.runExpect s a b) := by
  have h1 := h.addAll a
  have h2 := h.addAll b
  unfold Nxas.runExpect; closed h

theorem runOptText (h : Closed @P) (s : Str) : P (Nxas.runOptText s) := by
  unfold Nxas.runOptText; closed h

theorem attrOpen (h : Closed @P) : P Nxas.attrOpen := by
  unfold Nxas.attrOpen; closed h

theorem attrClose (h : Closed @P) : P Nxas.attrClose := by
  unfold Nxas.attrClose; closed h

theorem runImmAttr (h : Closed @P) : P Nxas.runImmAttr := by
  have h1 := h.attrOpen
  have h2 := h.attrClose
  have h3 := h.runUint (maxBits 10) 20
  unfold Nxas.runImmAttr; closed h

theorem runPatchAttr (h : Closed @P) : P Nxas.runPatchAttr := by
  have h1 := h.attrOpen
  have h2 := h.attrClose
  have h3 := h.assembleGpr 8
  have h4 := h.runSint 11 20
  unfold Nxas.runPatchAttr; closed h

theorem runPhysAttr (h : Closed @P) : P Nxas.runPhysAttr := by
  have h1 := h.attrOpen
  have h2 := h.attrClose
  have h3 := h.assembleGpr 8
  unfold Nxas.runPhysAttr; closed h

theorem runXmadSigns (h : Closed @P) : P Nxas.runXmadSigns := by
  unfold Nxas.runXmadSigns; closed h

theorem runF2fRounding (h : Closed @P) : P Nxas.runF2fRounding := by
  have h1 := h.runDotTable (some 0) 39 [c!"RN", c!"RM", c!"RP", c!"RZ"]
  unfold Nxas.runF2fRounding; closed h

theorem runIntFormat (h : Closed @P) (u s : List Str) (a b : Nat) : P (Nxas.runIntFormat u s a b) := by
  unfold Nxas.runIntFormat; closed h

theorem runPlainTable (h : Closed @P) (a : Nat) (t : List Str) : P (Nxas.runPlainTable a t) := by
  unfold Nxas.runPlainTable; closed h

theorem runSelector (h : Closed @P) (a b c : Nat) (s t : List Str) : P (Nxas.runSelector a b c s t) := by
  have h1 := h.runDotTable (some 0) a
  unfold Nxas.runSelector
  refine h.bind _ _ h.getValue ?_
  intro v
  exact h1 _

theorem runLdcAddress (h : Closed @P) : P Nxas.runLdcAddress := by
  have h1 := h.runMemAddress true 20 16 0
  unfold Nxas.runLdcAddress; closed h

theorem runAtomicSize (h : Closed @P) (a : Nat) : P (Nxas.runAtomicSize a) := by
  unfold Nxas.runAtomicSize; closed h

theorem runSrcFormat (h : Closed @P) (a b : Nat) : P (Nxas.runSrcFormat a b) := by
  unfold Nxas.runSrcFormat; closed h

theorem runZero (h : Closed @P) : P Nxas.runZero := by
  unfold Nxas.runZero; closed h

theorem runTexsMode (h : Closed @P) (a : Nat) : P (Nxas.runTexsMode a) := by
  unfold Nxas.runTexsMode; closed h

theorem runTldsType (h : Closed @P) (a : Nat) : P (Nxas.runTldsType a) := by
  unfold Nxas.runTldsType; closed h

theorem runTexsType (h : Closed @P) (a : Nat) : P (Nxas.runTexsType a) := by
  unfold Nxas.runTexsType; closed h

theorem runTexsSwizzle (h : Closed @P) : P Nxas.runTexsSwizzle := by
  unfold Nxas.runTexsSwizzle; closed h

/-- The system-register operand, given what its failure does on a token without string. -/
theorem runS2r (h : Closed @P) (hub : P (ubM .inactiveUnion : M Unit)) (t : List Str) :
    P (Nxas.runS2r t) := by
  unfold Nxas.runS2r; closed h

/-- The branch target operand. -/
theorem runLabelTarget (h : Closed @P) (hctx : P getCtx) (hub : P (ubM .signedOverflow : M Unit))
    (a : Int) : P (Nxas.runLabelTarget a) := by
  unfold Nxas.runLabelTarget; closed h

/-- The branch target operand. -/
theorem runLabel (h : Closed @P) (hctx : P getCtx) (hub : P (ubM .signedOverflow : M Unit)) :
    P Nxas.runLabel := by
  have h1 := fun a => h.runLabelTarget hctx hub a
  unfold Nxas.runLabel
  refine h.bind _ _ h.getKind ?_
  intro k
  split
  · refine h.bind _ _ hctx ?_
    intro c
    split
    · exact h.failTok _
    · exact h1 _
  · exact h1 _
  · exact h.failTok _

/-- The LDG size operand, given what scanning its unterminated table does. -/
theorem runLdgSize (h : Closed @P) (ht : ∀ t p, P (Nxas.findInTable false t p)) :
    P Nxas.runLdgSize := by
  have := ht [c!"U8", c!"S8", c!"U16", c!"S16", c!"32", c!"64", c!"128", c!"U"] c!"."
  unfold Nxas.runLdgSize; closed h

/-- The texture type operand, given what scanning its unterminated table does. -/
theorem runTexType (h : Closed @P) (ht : ∀ t p, P (Nxas.findInTable false t p)) (a : Nat) :
    P (Nxas.runTexType a) := by
  have := ht [c!"1D", c!"ARRAY_1D", c!"2D", c!"ARRAY_2D", c!"3D", c!"ARRAY_3D", c!"CUBE",
    c!"ARRAY_CUBE"] []
  unfold Nxas.runTexType; closed h

/-- A closed predicate holds of every operand parser for which its special cases hold:
    branch targets, system registers, and the two operands with unterminated tables. -/
theorem run (h : Closed @P) (o : Operand)
    (hlabel : o.leaf = .label → P Nxas.runLabel) (hs2r : ∀ t, o.leaf = .s2r t → P (Nxas.runS2r t))
    (hldg : o.leaf = .ldgSize → P Nxas.runLdgSize)
    (htex : ∀ a, o.leaf = .texType a → P (Nxas.runTexType a)) : P o.run := by
  induction o with
  | flag s a => exact h.runFlag s a
  | uint m a => exact h.runUint m a
  | sint b a => exact h.runSint b a
  | dotTable d a t => exact h.runDotTable d a t
  | uimmExtended => exact h.runUimmExtended
  | comma => exact h.runComma
  | label => exact hlabel rfl
  | gpr a => exact h.assembleGpr a
  | mirrorGpr a => exact h.runMirror a
  | cbuf => exact h.runCbuf
  | imm20 => exact h.runImm20
  | fimm w => exact h.runFimm w
  | dimm20 => exact h.runDimm20
  | himm w o n => exact h.runHimm w o n
  | bop a => exact h.runBop a
  | pred a n => exact h.runPred a n
  | invertedPred a => exact h.runInvertedPred a
  | neg a => exact h.runSign .minus a
  | tilde a => exact h.runSign .tilde a
  | abs a inner ih => exact h.runAbs a inner.run (ih hlabel hs2r hldg htex)
  | po a b => exact h.runPo a b
  | defaultRz a => exact h.addBits _
  | memAddress i a s r => exact h.runMemAddress i a s r
  | ccTests a t => exact h.runCcTests a t
  | expect s pre post => exact h.runExpect s pre post
  | optText s => exact h.runOptText s
  | immAttr => exact h.runImmAttr
  | patchAttr => exact h.runPatchAttr
  | physAttr => exact h.runPhysAttr
  | xmadSigns => exact h.runXmadSigns
  | f2fRounding => exact h.runF2fRounding
  | intFormat u s a b => exact h.runIntFormat u s a b
  | plainTable a t => exact h.runPlainTable a t
  | selector a t k s b => exact h.runSelector a t k s b
  | ldcAddress => exact h.runLdcAddress
  | s2r t => exact hs2r t rfl
  | ldgSize => exact hldg rfl
  | atomicSize a => exact h.runAtomicSize a
  | srcFormat a s => exact h.runSrcFormat a s
  | immFormat s => exact h.runDotTable _ _ _
  | texType a => exact htex a rfl
  | zero => exact h.runZero
  | texsMode a => exact h.runTexsMode a
  | tldsType a => exact h.runTldsType a
  | texsType a => exact h.runTexsType a
  | texsSwizzle => exact h.runTexsSwizzle

/-- A closed predicate that also holds of the remaining primitives holds of every operand
    parser. -/
theorem run_all (h : Closed @P) (hctx : P getCtx) (hu1 : P (ubM .signedOverflow : M Unit))
    (hu2 : P (ubM .inactiveUnion : M Unit)) (ht : ∀ t p, P (Nxas.findInTable false t p))
    (o : Operand) : P o.run :=
  h.run o (fun _ => h.runLabel hctx hu1) (fun t _ => h.runS2r hu2 t) (fun _ => h.runLdgSize ht)
    (fun a _ => h.runTexType ht a)

/-- Scheduling annotations. -/
theorem schedImmediate (h : Closed @P) (m : Int) (s : String) : P (Nxas.schedImmediate m s) := by
  unfold Nxas.schedImmediate; closed h

theorem schedStep (h : Closed @P) (s : Sched) : P (Nxas.schedStep s) := by
  have h1 := h.schedImmediate 15 "number of waited clocks must be between 0 and 15 inclusively"
  have h2 := h.schedImmediate 5 "barrier index must be between 0 and 5 inclusively"
  have h3 := h.schedImmediate 5 "dependency barrier index must be between 0 and 5 inclusively"
  unfold Nxas.schedStep; closed h

end Closed

/-! ### Primitives that leave the state alone -/

/-- The computation returns without changing the state, or fails at the current token
    without changing it, or is undefined. -/
def ReadOnly (m : M α) : Prop := ∀ dbg s, (∃ a, m dbg s = .ok a s) ∨
  (∃ msg, m dbg s = .fail ⟨s.tok.line, s.tok.col, msg⟩ s) ∨ (∃ u, m dbg s = .ub u)

namespace ReadOnly

theorem pure (a : α) : ReadOnly (M.pure a) := fun _ _ => .inl ⟨a, rfl⟩
theorem getKind : ReadOnly getKind := fun _ s => .inl ⟨s.tok.kind, rfl⟩
theorem getTok : ReadOnly getTok := fun _ s => .inl ⟨s.tok, rfl⟩
theorem getCtx : ReadOnly getCtx := fun _ s => .inl ⟨s.ctx, rfl⟩
theorem getValue : ReadOnly getValue := fun _ s => .inl ⟨s.op.value, rfl⟩
theorem failTok (msg : Msg) : ReadOnly (failTok msg : M α) := fun _ _ => .inr (.inl ⟨msg, rfl⟩)
theorem ub (u : UB) : ReadOnly (ubM u : M α) := fun _ _ => .inr (.inr ⟨u, rfl⟩)
theorem confirm (k : Kind) : ReadOnly (confirm k) := fun dbg s => by
  unfold Nxas.confirm; split
  · exact .inl ⟨_, rfl⟩
  · exact .inr (.inl ⟨_, rfl⟩)
theorem confirmIdent : ReadOnly confirmIdent := fun dbg s => by
  unfold Nxas.confirmIdent; split
  · exact .inl ⟨_, rfl⟩
  · exact .inr (.inl ⟨_, rfl⟩)
theorem confirmReg : ReadOnly confirmReg := fun dbg s => by
  unfold Nxas.confirmReg; split
  · exact .inl ⟨_, rfl⟩
  · exact .inr (.inl ⟨_, rfl⟩)
theorem confirmPred : ReadOnly confirmPred := fun dbg s => by
  unfold Nxas.confirmPred; split
  · exact .inl ⟨_, rfl⟩
  · exact .inr (.inl ⟨_, rfl⟩)
theorem convertInteger (a b : Int) : ReadOnly (convertInteger a b) := fun dbg s => by
  unfold Nxas.convertInteger
  repeat' split
  all_goals first
    | exact .inl ⟨_, rfl⟩
    | exact .inr (.inl ⟨_, rfl⟩)
theorem findInTable (b : Bool) (t : List Str) (p : Str) : ReadOnly (findInTable b t p) :=
  fun dbg s => by
  unfold Nxas.findInTable
  repeat' split
  all_goals first
    | exact .inl ⟨_, rfl⟩
    | exact .inr (.inr ⟨_, rfl⟩)

end ReadOnly

end Nxas
