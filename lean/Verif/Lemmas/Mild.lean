import Verif.Props.Printf
import Verif.Lemmas.Shapes
/-
Which operand parsers fail with a message whose arguments have the wrong types, and after which tokens.
-/

namespace Nxas

open Spec

/-- If `m` is run at a token of this kind and fails with a mistyped message, then the tokens up to the one that it fails at
    are of one of these shapes. -/
def Cracks (K : Kind → Prop) (m : M α) (ps : List (List Pat)) : Prop := ∀ s s' e, K s.tok.kind → m false s = .fail e s' →
  e.msg.fmt ∈ mistyped → ∃ p ∈ ps, ∃ ks t c, Path s.tok s.ctx.cur ks t c ∧ fitsAll p (ks ++ [t.kind])

/-- Any kind of token. -/
def anyKind : Kind → Prop := fun _ => True

/-- `m` never fails with a mistyped message. -/
def Mild (m : M α) : Prop := ∀ s s' e, m false s = .fail e s' → e.msg.fmt ∉ mistyped

theorem Mild.cracks {m : M α} {K : Kind → Prop} {ps : List (List Pat)} (h : Mild m) : Cracks K m ps :=
  fun s s' e _ hf hm => absurd hm (h s s' e hf)

theorem bind_fail {m : M α} {f : α → M β} {d : Bool} {s s' : St} {e : Err} (h : (m >>= f) d s = .fail e s') :
    m d s = .fail e s' ∨ ∃ a s1, m d s = .ok a s1 ∧ f a d s1 = .fail e s' := by
  rw [M.bind_def] at h
  cases hm : m d s <;> rw [hm] at h <;> simp at h
  · exact .inr ⟨_, _, rfl, h⟩
  · exact .inl (by rw [h.1, h.2])

theorem expectedMsg_mild (w : Str) (k : Kind) : (expectedMsg w k).fmt ∉ mistyped := by
  unfold expectedMsg
  split <;> simp [mistyped]

namespace Mild

theorem bind {m : M α} {f : α → M β} (hm : Mild m) (hf : ∀ x, Mild (f x)) : Mild (m >>= f) := by
  intro s s' e h
  rcases bind_fail h with h | ⟨a, s1, -, h⟩
  · exact hm _ _ _ h
  · exact hf a _ _ _ h

theorem pure (x : α) : Mild (M.pure x) := by intro s s' e h; cases h
theorem getKind : Mild Nxas.getKind := by intro s s' e h; cases h
theorem getTok : Mild Nxas.getTok := by intro s s' e h; cases h
theorem getCtx : Mild Nxas.getCtx := by intro s s' e h; cases h
theorem getValue : Mild Nxas.getValue := by intro s s' e h; cases h
theorem setValue (v : BitVec 64) : Mild (Nxas.setValue v) := by intro s s' e h; cases h
theorem ubM (u : UB) : Mild (Nxas.ubM u : M α) := by intro s s' e h; cases h
theorem addBits (b : BitVec 64) : Mild (Nxas.addBits b) := by intro s s' e h; simp [Nxas.addBits] at h
theorem addReuse (b : BitVec 32) : Mild (Nxas.addReuse b) := by intro s s' e h; simp [Nxas.addReuse] at h
theorem setSched (b : BitVec 32) : Mild (Nxas.setSched b) := by intro s s' e h; cases h
theorem advance : Mild Nxas.advance := by
  intro s s' e h
  unfold Nxas.advance at h
  split at h <;> cases h
theorem failTok {msg : Msg} (h : msg.fmt ∉ mistyped) : Mild (Nxas.failTok msg : M α) := by
  intro s s' e h'
  cases h'
  exact h
theorem confirm (k : Kind) : Mild (Nxas.confirm k) := by
  intro s s' e h
  unfold Nxas.confirm at h
  split at h <;> cases h
  exact expectedMsg_mild _ _
theorem confirmIdent : Mild Nxas.confirmIdent := by
  intro s s' e h
  unfold Nxas.confirmIdent at h
  split at h <;> cases h
  exact expectedMsg_mild _ _
theorem confirmReg : Mild Nxas.confirmReg := by
  intro s s' e h
  unfold Nxas.confirmReg at h
  split at h <;> cases h
  exact expectedMsg_mild _ _
theorem confirmPred : Mild Nxas.confirmPred := by
  intro s s' e h
  unfold Nxas.confirmPred at h
  split at h <;> cases h
  exact expectedMsg_mild _ _
theorem findInTable (b : Bool) (t : List Str) (p : Str) : Mild (Nxas.findInTable b t p) := by
  intro s s' e h
  unfold Nxas.findInTable at h
  repeat' split at h
  all_goals cases h
theorem ite {c : Prop} [Decidable c] {m m' : M α} (h : Mild m) (h' : Mild m') : Mild (if c then m else m') := by
  split <;> assumption

end Mild

/-- Follow a computation that fails with no mistyped message. -/
macro "mild" : tactic => `(tactic| repeat' (first
  | with_reducible exact Mild.pure _ | with_reducible exact Mild.getKind | with_reducible exact Mild.getValue
  | with_reducible exact Mild.getTok | with_reducible exact Mild.getCtx | with_reducible exact Mild.setValue _
  | with_reducible exact Mild.confirm _ | with_reducible exact Mild.confirmIdent | with_reducible exact Mild.confirmReg
  | with_reducible exact Mild.confirmPred | with_reducible exact Mild.findInTable _ _ _
  | with_reducible exact Mild.ubM _ | with_reducible exact Mild.advance | with_reducible exact Mild.addBits _
  | with_reducible exact Mild.addReuse _ | with_reducible exact Mild.setSched _
  | with_reducible exact Mild.failTok (by decide +kernel)
  | with_reducible assumption
  | with_reducible apply Mild.ite
  | with_reducible apply Mild.bind
  | with_reducible intro _
  | split
  | dsimp only))

namespace Mild

theorem tryReuse (a : Nat) : Mild (Nxas.tryReuse a) := by unfold Nxas.tryReuse; mild
theorem assembleGpr (a : Nat) : Mild (Nxas.assembleGpr a) := by unfold Nxas.assembleGpr; have := tryReuse a; mild
theorem runFlag (s : Str) (a : Nat) : Mild (Nxas.runFlag s a) := by unfold Nxas.runFlag; mild
theorem runDotTable (d : Option Nat) (a : Nat) (t : List Str) : Mild (Nxas.runDotTable d a t) := by unfold Nxas.runDotTable; mild
theorem runComma : Mild Nxas.runComma := by unfold Nxas.runComma; mild
theorem runMirror (a : Nat) : Mild (Nxas.runMirror a) := by unfold Nxas.runMirror; have := assembleGpr a; mild
theorem runLabelTarget (a : Int) : Mild (Nxas.runLabelTarget a) := by unfold Nxas.runLabelTarget; mild
theorem floatKeyword (a b : BitVec n) : Mild (Nxas.floatKeyword a b) := by unfold Nxas.floatKeyword; mild
theorem floatValue : Mild Nxas.floatValue := by
  unfold Nxas.floatValue
  refine .bind .getKind fun t => ?_
  cases t with
  | fimm b => exact .pure _
  | imm v =>
    dsimp only
    rw [if_neg (by simp)]
    exact .pure _
  | plus => exact .bind .advance fun _ => floatKeyword _ _
  | minus => exact .bind .advance fun _ => .bind (floatKeyword _ _) fun _ => .pure _
  | ident => exact floatKeyword _ _
  | _ => exact .failTok (by decide +kernel)
theorem runFimm (w : Bool) : Mild (Nxas.runFimm w) := by unfold Nxas.runFimm; have := floatValue; mild
theorem doubleValue : Mild Nxas.doubleValue := by
  unfold Nxas.doubleValue
  refine .bind .getKind fun t => ?_
  cases t with
  | fimm b => dsimp only; mild
  | imm v => dsimp only; mild
  | plus => exact .bind .advance fun _ => floatKeyword _ _
  | minus => exact .bind (.addBits _) fun _ => .bind .advance fun _ => floatKeyword _ _
  | ident => exact floatKeyword _ _
  | _ => exact .failTok (by decide +kernel)
theorem runDimm20 : Mild Nxas.runDimm20 := by unfold Nxas.runDimm20; have := doubleValue; mild
theorem addNegBit (n : Option Nat) : Mild (Nxas.addNegBit n) := by unfold Nxas.addNegBit; mild
theorem halfValue (n : Option Nat) : Mild (Nxas.halfValue n) := by
  unfold Nxas.halfValue
  refine .bind .getKind fun t => ?_
  have := addNegBit n
  cases t with
  | fimm b => dsimp only; mild
  | imm v => dsimp only; mild
  | plus => exact .bind .advance fun _ => floatKeyword _ _
  | minus => exact .bind .advance fun _ => .bind (floatKeyword _ _) fun _ => .bind this fun _ => .pure _
  | ident => exact floatKeyword _ _
  | _ => exact .failTok (by decide +kernel)
theorem runHimm (w : Bool) (o : Nat) (n : Option Nat) : Mild (Nxas.runHimm w o n) := by unfold Nxas.runHimm; have := halfValue n; mild
theorem runBop (a : Nat) : Mild (Nxas.runBop a) := by unfold Nxas.runBop; mild
theorem runPred (a : Nat) (n : Bool) : Mild (Nxas.runPred a n) := by unfold Nxas.runPred; mild
theorem runInvertedPred (a : Nat) : Mild (Nxas.runInvertedPred a) := by unfold Nxas.runInvertedPred; mild
theorem runSign (k : Kind) (a : Nat) : Mild (Nxas.runSign k a) := by unfold Nxas.runSign; mild
theorem runPo (a b : Nat) : Mild (Nxas.runPo a b) := by unfold Nxas.runPo; mild
theorem addAll (l : List (BitVec 64)) : Mild (Nxas.addAll l) := by
  induction l with
  | nil => unfold Nxas.addAll; mild
  | cons b l ih => unfold Nxas.addAll; mild
theorem expectMsg (s : Str) (p : List (BitVec 64)) : (Nxas.expectMsg s p).fmt ∉ mistyped := by
  unfold Nxas.expectMsg
  repeat' split
  all_goals decide +kernel
theorem runExpect (s : Str) (p q : List (BitVec 64)) : Mild (Nxas.runExpect s p q) := by
  unfold Nxas.runExpect
  have := addAll p
  have := addAll q
  have : Mild (Nxas.failTok (Nxas.expectMsg s p) : M Unit) := failTok (expectMsg s p)
  mild
theorem runOptText (s : Str) : Mild (Nxas.runOptText s) := by unfold Nxas.runOptText; mild
theorem attrOpen : Mild Nxas.attrOpen := by unfold Nxas.attrOpen; mild
theorem attrClose : Mild Nxas.attrClose := by unfold Nxas.attrClose; mild
theorem runPhysAttr : Mild Nxas.runPhysAttr := by
  unfold Nxas.runPhysAttr; have := attrOpen; have := attrClose; have := assembleGpr 8; mild
theorem runXmadSigns : Mild Nxas.runXmadSigns := by unfold Nxas.runXmadSigns; mild
theorem runF2fRounding : Mild Nxas.runF2fRounding := by
  unfold Nxas.runF2fRounding; have := runDotTable (some 0) 39 [c!"RN", c!"RM", c!"RP", c!"RZ"]; mild
theorem formatMsg (t : List Str) : (Nxas.formatMsg t).fmt ∉ mistyped := by
  unfold Nxas.formatMsg
  repeat' split
  all_goals decide +kernel
theorem runIntFormat (t u : List Str) (a b : Nat) : Mild (Nxas.runIntFormat t u a b) := by
  unfold Nxas.runIntFormat
  have : Mild (Nxas.failTok (Nxas.formatMsg t) : M Unit) := failTok (formatMsg t)
  mild
theorem modeMsg (t : List Str) : (Nxas.modeMsg t).fmt ∉ mistyped := by
  unfold Nxas.modeMsg
  repeat' split
  all_goals decide +kernel
theorem runPlainTable (a : Nat) (t : List Str) : Mild (Nxas.runPlainTable a t) := by
  unfold Nxas.runPlainTable
  have : Mild (Nxas.failTok (Nxas.modeMsg t) : M Unit) := failTok (modeMsg t)
  mild
theorem runSelector (a t k : Nat) (s b : List Str) : Mild (Nxas.runSelector a t k s b) := by
  unfold Nxas.runSelector; have := fun t => runDotTable (some 0) a t; refine .bind .getValue fun v => ?_; exact this _
theorem runS2r (t : List Str) : Mild (Nxas.runS2r t) := by
  unfold Nxas.runS2r
  have : ∀ x, Mild (Nxas.failTok ⟨"invalid system register \x1b[1m%.*s\x1b[0m", [.text x]⟩ : M Unit) := fun x => failTok (by
    show "invalid system register \x1b[1m%.*s\x1b[0m" ∉ mistyped
    decide +kernel)
  mild
  all_goals exact this _
theorem runLdgSize : Mild Nxas.runLdgSize := by unfold Nxas.runLdgSize; mild
theorem runAtomicSize (a : Nat) : Mild (Nxas.runAtomicSize a) := by unfold Nxas.runAtomicSize; mild
theorem runSrcFormat (a b : Nat) : Mild (Nxas.runSrcFormat a b) := by unfold Nxas.runSrcFormat; mild
theorem runTexType (a : Nat) : Mild (Nxas.runTexType a) := by unfold Nxas.runTexType; mild
theorem runZero : Mild Nxas.runZero := by unfold Nxas.runZero; mild
theorem runTexsMode (a : Nat) : Mild (Nxas.runTexsMode a) := by unfold Nxas.runTexsMode; mild
theorem tldsMode {i : Nat} {a b c : Bool} {m : Msg} (h : Nxas.tldsMode i a b c = .error m) : m.fmt ∉ mistyped := by
  unfold Nxas.tldsMode at h
  repeat' split at h
  all_goals (cases h; try decide +kernel)
theorem runTldsType (a : Nat) : Mild (Nxas.runTldsType a) := by
  unfold Nxas.runTldsType
  mild
  exact failTok (tldsMode (by assumption))
theorem texsBits {i l : Nat} {c : Bool} {m : Msg} (h : Nxas.texsBits i l c = .error m) : m.fmt ∉ mistyped := by
  unfold Nxas.texsBits at h
  repeat' split at h
  all_goals (cases h; try decide +kernel)
theorem runTexsType (a : Nat) : Mild (Nxas.runTexsType a) := by
  unfold Nxas.runTexsType
  mild
  exact failTok (texsBits (by assumption))
theorem runTexsSwizzle : Mild Nxas.runTexsSwizzle := by unfold Nxas.runTexsSwizzle; mild

theorem schedImmediate {x : Int} {m : Msg} (hm : m.fmt ∉ mistyped) : Mild (Nxas.schedImmediate x m) := by
  unfold Nxas.schedImmediate
  have : Mild (Nxas.failTok m : M Nat) := failTok hm
  mild
  exact failTok (expectedMsg_mild _ _)

theorem failWith {f : String} {as : List Arg} (h : f ∉ mistyped) : Mild (Nxas.failTok ⟨f, as⟩ : M α) := failTok h

theorem schedStep (s : Sched) : Mild (Nxas.schedStep s) := by
  unfold Nxas.schedStep
  have h1 : Mild (Nxas.schedImmediate 15 "number of waited clocks must be between 0 and 15 inclusively") := schedImmediate (by decide +kernel)
  have h2 : Mild (Nxas.schedImmediate 5 "barrier index must be between 0 and 5 inclusively") := schedImmediate (by decide +kernel)
  have h3 : Mild (Nxas.schedImmediate 5 "dependency barrier index must be between 0 and 5 inclusively") := schedImmediate (by decide +kernel)
  have h4 : ∀ as, Mild (Nxas.failTok ⟨"%s barrier already specified", as⟩ : M Sched) := fun as => failWith (by decide +kernel)
  have h5 : ∀ as, Mild (Nxas.failTok ⟨"dependency barrier index %d already specified", as⟩ : M Sched) := fun as => failWith (by decide +kernel)
  mild
  exact h5 _

theorem schedLoop (n : Nat) (s : Sched) : Mild (Nxas.schedLoop n s) := by
  induction n generalizing s with
  | zero => unfold Nxas.schedLoop; mild
  | succ n ih =>
    unfold Nxas.schedLoop
    exact .bind .getKind fun _ => .ite (.bind (schedStep s) fun _ => ih _) (.pure _)

theorem finishInsn : Mild Nxas.finishInsn := by
  refine .bind ?_ fun _ => .confirm _
  intro s s' e h
  unfold assembleSched at h
  exact Mild.bind (schedLoop _ _) (fun _ => .setSched _) s s' e h

theorem startInsn (i : Insn) : Mild (Nxas.startInsn i) := by
  unfold Nxas.startInsn
  have : ∀ as, Mild (Nxas.failTok ⟨"%s does not support predicated execution", as⟩ : M Unit) := fun as => failWith (by decide +kernel)
  mild
  exact this _

end Mild

/-! ### Parsers that convert numbers -/

theorem mem_cons_map {p : Pat} {ps : List (List Pat)} {s : St} {t1 : Token} {c1 : Cur} (hp : p.fits s.tok.kind)
    (ht : tokenize s.ctx.cur = .ok t1 c1) (h : ∃ p ∈ ps, ∃ ks t c, Path t1 c1 ks t c ∧ fitsAll p (ks ++ [t.kind])) :
    ∃ q ∈ ps.map (p :: ·), ∃ ks t c, Path s.tok s.ctx.cur ks t c ∧ fitsAll q (ks ++ [t.kind]) := by
  obtain ⟨q, hq, ks, t, c, h1, h2⟩ := h
  exact ⟨_, List.mem_map.2 ⟨q, hq, rfl⟩, s.tok.kind :: ks, t, c, ⟨rfl, t1, c1, ht, h1⟩, hp, h2⟩

namespace Cracks
variable {K : Kind → Prop} {ps : List (List Pat)}

theorem mono {m : M α} {ps' : List (List Pat)} (h : Cracks K m ps) (hs : ∀ p ∈ ps, p ∈ ps') : Cracks K m ps' := by
  intro s s' e hk hf hm
  obtain ⟨p, hp, h⟩ := h s s' e hk hf hm
  exact ⟨p, hs p hp, h⟩

theorem weaken {m : M α} {K' : Kind → Prop} (h : Cracks K m ps) (hs : ∀ k, K' k → K k) : Cracks K' m ps :=
  fun s s' e hk hf hm => h s s' e (hs _ hk) hf hm

theorem getKind {f : Kind → M α} (h : ∀ k, K k → Cracks (· = k) (f k) ps) : Cracks K (Nxas.getKind >>= f) ps := by
  intro s s' e hk hf hm
  exact h _ hk s s' e rfl hf hm

theorem getCtx {f : Ctx → M α} (h : ∀ c, Cracks K (f c) ps) : Cracks K (Nxas.getCtx >>= f) ps := by
  intro s s' e hk hf hm
  exact h _ s s' e hk hf hm

theorem ite {c : Prop} [Decidable c] {m m' : M α} (h : c → Cracks K m ps) (h' : ¬ c → Cracks K m' ps) : Cracks K (if c then m else m') ps := by
  split
  · exact h ‹_›
  · exact h' ‹_›

theorem confirm {k : Kind} {f : Unit → M α} (h : Cracks (· = k) (f ()) ps) : Cracks K (Nxas.confirm k >>= f) ps := by
  intro s s' e _ hf hm
  rcases bind_fail hf with hf | ⟨a, s1, h1, h2⟩
  · exact absurd hm (Mild.confirm k _ _ _ hf)
  · unfold Nxas.confirm at h1
    split at h1 <;> cases h1
    exact h s s' e ‹_› h2 hm

theorem confirmIdent {f : Str → M α} (h : ∀ x, Cracks (· = .ident x) (f x) ps) : Cracks K (Nxas.confirmIdent >>= f) ps := by
  intro s s' e _ hf hm
  rcases bind_fail hf with hf | ⟨a, s1, h1, h2⟩
  · exact absurd hm (Mild.confirmIdent _ _ _ hf)
  · unfold Nxas.confirmIdent at h1
    split at h1 <;> cases h1
    exact h _ s s' e ‹_› h2 hm

theorem confirmReg {f : Nat → M α} (h : ∀ x, Cracks (· = .reg x) (f x) ps) : Cracks K (Nxas.confirmReg >>= f) ps := by
  intro s s' e _ hf hm
  rcases bind_fail hf with hf | ⟨a, s1, h1, h2⟩
  · exact absurd hm (Mild.confirmReg _ _ _ hf)
  · unfold Nxas.confirmReg at h1
    split at h1 <;> cases h1
    exact h _ s s' e ‹_› h2 hm

theorem findInTable {b : Bool} {t : List Str} {p : Str} {f : Option Nat → M α} (h : ∀ x, Cracks K (f x) ps) :
    Cracks K (Nxas.findInTable b t p >>= f) ps := by
  intro s s' e hk hf hm
  rcases bind_fail hf with hf | ⟨a, s1, h1, h2⟩
  · exact absurd hm (Mild.findInTable _ _ _ _ _ _ hf)
  · unfold Nxas.findInTable at h1
    repeat' split at h1
    all_goals (cases h1; try exact h _ s s' e hk h2 hm)

theorem addBits {b : BitVec 64} {f : Unit → M α} (h : Cracks K (f ()) ps) : Cracks K (Nxas.addBits b >>= f) ps := by
  intro s s' e hk hf hm
  rcases bind_fail hf with hf | ⟨a, s1, h1, h2⟩
  · exact absurd hm (Mild.addBits _ _ _ _ hf)
  · simp only [Nxas.addBits, Bool.false_and, Bool.false_eq_true, if_false, Out.ok.injEq, true_and] at h1
    subst h1
    exact h { s with op := { s.op with value := s.op.value ||| b } } s' e hk h2 hm

theorem advance {f : Unit → M α} (p : Pat) (hp : ∀ k, K k → p.fits k) (h : Cracks anyKind (f ()) ps) :
    Cracks K (Nxas.advance >>= f) (ps.map (p :: ·)) := by
  intro s s' e hk hf hm
  rcases bind_fail hf with hf | ⟨a, s1, h1, h2⟩
  · exact absurd hm (Mild.advance _ _ _ hf)
  · unfold Nxas.advance at h1
    split at h1 <;> cases h1
    exact mem_cons_map (hp _ hk) ‹_› (h _ s' e trivial h2 hm)

theorem convertInteger {lo hi : Int} {f : Int → M α} (h : ∀ v, lo ≤ v ∧ v ≤ hi → Cracks (· = .imm v) (f v) ps) :
    Cracks K (Nxas.convertInteger lo hi >>= f) ([.out lo hi] :: ps) := by
  intro s s' e hk hf hm
  rcases bind_fail hf with hf | ⟨a, s1, h1, h2⟩
  · unfold Nxas.convertInteger at hf
    split at hf
    · rename_i v hv
      split at hf <;> cases hf
      exact ⟨_, List.mem_cons_self, [], s.tok, s.ctx.cur, ⟨rfl, rfl⟩, ⟨v, hv.symm, by omega⟩, trivial⟩
    · cases hf
      exact absurd hm (expectedMsg_mild _ _)
  · unfold Nxas.convertInteger at h1
    split at h1
    · rename_i v hv
      split at h1 <;> cases h1
      obtain ⟨p, hp, h⟩ := h _ (by omega) s s' e hv h2 hm
      exact ⟨p, List.mem_cons_of_mem _ hp, h⟩
    · cases h1

/-- Here and now. -/
theorem here {m : M α} (p : Pat) (h : ∀ k, K k → p.fits k) : Cracks K m [[p]] := by
  intro s s' e hk _ _
  exact ⟨_, List.mem_cons_self, [], s.tok, s.ctx.cur, ⟨rfl, rfl⟩, h _ hk, trivial⟩

theorem blameStart {m : M α} {msg : Msg} (h : Cracks K m ps) : Cracks K (Nxas.blameStart msg m) ps := by
  intro s s' e hk hf hm
  unfold Nxas.blameStart at hf
  cases h1 : m false s <;> rw [h1] at hf <;> simp at hf
  rename_i e1 s1
  obtain ⟨rfl, rfl⟩ := hf
  refine h s _ e1 hk h1 ?_
  split at hm
  · rename_i he; rw [he]; exact hm
  · exact hm

/-- One computation, whose tokens are of some shape, and then another one. -/
theorem bind {m : M α} {f : α → M β} {qs rs : List (List Pat)} (hm : Cracks K m ps)
    (ha : ∀ s s' a, K s.tok.kind → m false s = .ok a s' → ∃ q ∈ qs, ∃ ks, Path s.tok s.ctx.cur ks s'.tok s'.ctx.cur ∧ fitsAll q ks)
    (hf : ∀ a, Cracks anyKind (f a) rs) : Cracks K (m >>= f) (ps ++ qs.flatMap fun q => rs.map (q ++ ·)) := by
  intro s s' e hk h hh
  rcases bind_fail h with h | ⟨a, s1, h1, h2⟩
  · obtain ⟨p, hp, h⟩ := hm s s' e hk h hh
    exact ⟨p, List.mem_append_left _ hp, h⟩
  · obtain ⟨q, hq, ks1, hp1, hf1⟩ := ha s s1 a hk h1
    obtain ⟨r, hr, ks2, t, c, hp2, hf2⟩ := hf a s1 s' e trivial h2 hh
    refine ⟨q ++ r, List.mem_append_right _ (List.mem_flatMap.2 ⟨q, hq, List.mem_map.2 ⟨r, hr, rfl⟩⟩), ks1 ++ ks2, t, c,
      Path.append_iff.2 ⟨_, _, hp1, hp2⟩, ?_⟩
    rw [List.append_assoc]
    exact fitsAll_append hf1 hf2

theorem failTok {msg : Msg} (h : msg.fmt ∉ mistyped) : Cracks K (Nxas.failTok msg : M α) ps := (Mild.failTok h).cracks

end Cracks

/-- The tokens after which an operand parser fails with a mistyped message; more than those. -/
def memBreaks : List (List Pat) := ([[], [.reg], [.reg, .w c!".reuse"]] : List (List Pat)).map fun b => .tok .lbracket :: (b ++ [.imm none])

/-- The tokens after which an operand parser fails with a mistyped message; more than those. -/
def breaks : Operand → List (List Pat)
  | .uint m _ => [[.out 0 m]]
  | .sint w _ => [[.out (-(2 ^ (w - 1))) (2 ^ (w - 1) - 1)]]
  | .uimmExtended => [[.out 0 (2 ^ 20)]]
  | .imm20 => [[.out (-(2 ^ 19)) (2 ^ 19 - 1)]]
  | .label => [[.word]]
  | .cbuf => [[.w c!"c", .tok .lbracket, .out 0 31],
      [.w c!"c", .tok .lbracket, .imm (some (0, 31)), .tok .rbracket, .tok .lbracket, .out (-(2 ^ 15)) (2 ^ 15 - 1)]]
  | .abs _ o => breaks o ++ (breaks o).map (.tok .vbar :: ·)
  | .memAddress true .. => memBreaks
  | .ccTests .. => [[.w c!"CC", .word]]
  | .immAttr => [[.w c!"a", .tok .lbracket, .out 0 1023]]
  | .patchAttr => ([[], [.tok .plus], [.w c!".reuse"], [.w c!".reuse", .tok .plus]] : List (List Pat)).map fun m =>
      .w c!"a" :: .tok .lbracket :: .reg :: (m ++ [.out (-(2 ^ 10)) (2 ^ 10 - 1)])
  | .ldcAddress => [.w c!"c", .tok .lbracket, .out 0 31] :: memBreaks.map ([.w c!"c", .tok .lbracket, .imm (some (0, 31)), .tok .rbracket] ++ ·)
  | _ => []

theorem tok_fits {k : Kind} (h : plain k = true) : ∀ k', k' = k → (Pat.tok k).fits k' := fun _ he => ⟨he.symm, he ▸ h⟩

theorem word_fits (x : Str) : ∀ k', k' = .ident x → (Pat.w x).fits k' := fun _ he => ⟨he.symm, by rw [he]; rfl⟩

theorem reg_fits (n : Nat) : ∀ k', k' = .reg n → Pat.reg.fits k' := fun _ he => ⟨n, he.symm⟩

theorem range_fits {lo hi v : Int} (h : lo ≤ v ∧ v ≤ hi) : ∀ k', k' = .imm v → (Pat.imm (some (lo, hi))).fits k' :=
  fun _ he => he ▸ fits_imm h

namespace Cracks

theorem runUint {K : Kind → Prop} (m : Int) (a : Nat) : Cracks K (Nxas.runUint m a) [[.out 0 m]] :=
  .convertInteger fun _ _ => (Mild.bind (.addBits _) fun _ => .advance).cracks

theorem runSint {K : Kind → Prop} (w : Nat) (a : Nat) : Cracks K (Nxas.runSint w a) [[.out (-(2 ^ (w - 1))) (2 ^ (w - 1) - 1)]] :=
  .convertInteger fun _ _ => (Mild.bind (.addBits _) fun _ => .advance).cracks

theorem runUimmExtended {K : Kind → Prop} : Cracks K Nxas.runUimmExtended [[.out 0 (2 ^ 20)]] :=
  .convertInteger fun _ _ => Mild.cracks (by mild)

theorem runImm20 {K : Kind → Prop} : Cracks K Nxas.runImm20 [[.out (-(2 ^ 19)) (2 ^ 19 - 1)]] :=
  .convertInteger fun _ _ => Mild.cracks (by mild)

theorem runLabel {K : Kind → Prop} : Cracks K Nxas.runLabel [[.word]] := by
  unfold Nxas.runLabel
  refine .getKind fun k _ => ?_
  cases k with
  | ident x => exact .here .word fun _ he => ⟨x, he.symm⟩
  | imm v => exact (Mild.runLabelTarget _).cracks
  | _ => exact .failTok (by decide +kernel)

/-- A certain word, and more. -/
theorem ofWord {x : Str} {msg : Msg} {m : M Unit} {ps : List (List Pat)} {K : Kind → Prop} (h : msg.fmt ∉ mistyped)
    (hm : Cracks anyKind m ps) : Cracks K (do
      let t ← Nxas.getKind
      if !t.equal x then Nxas.failTok msg else do
        Nxas.advance
        m) (ps.map (.w x :: ·)) := by
  refine .getKind fun k _ => .ite (fun _ => .failTok h) fun hk => ?_
  have : k = .ident x := by simpa [Kind.equal] using hk
  subst this
  exact .advance (.w x) (word_fits x) hm

theorem ofTok {k : Kind} (hk : plain k = true) {m : M Unit} {ps : List (List Pat)} {K : Kind → Prop}
    (hm : Cracks anyKind m ps) : Cracks K (do
        Nxas.confirm k
        Nxas.advance
        m) (ps.map (.tok k :: ·)) :=
  .confirm (.advance _ (tok_fits hk) hm)

theorem ofNumber {lo hi : Int} {f : Int → BitVec 64} {m : M Unit} {ps : List (List Pat)} {K : Kind → Prop}
    (hm : Cracks anyKind m ps) : Cracks K (do
        let v ← Nxas.convertInteger lo hi
        Nxas.addBits (f v)
        Nxas.advance
        m) ([.out lo hi] :: ps.map (.imm (some (lo, hi)) :: ·)) :=
  .convertInteger fun _ hv => .addBits (.advance _ (range_fits hv) hm)

theorem runCbuf {K : Kind → Prop} : Cracks K Nxas.runCbuf (breaks .cbuf) :=
  .blameStart (ofWord (by decide +kernel) (ofTok rfl (ofNumber (ofTok rfl (ofTok rfl (.convertInteger fun _ _ =>
    Mild.cracks (ps := []) (.ite (.failTok (by decide +kernel)) (by mild))))))))

end Cracks

/-- The tokens that `m` consumes, if it succeeds, are of one of these shapes. -/
def Moves (K : Kind → Prop) (m : M α) (qs : List (List Pat)) : Prop := ∀ s s' a, K s.tok.kind → m false s = .ok a s' →
  ∃ q ∈ qs, ∃ ks, Path s.tok s.ctx.cur ks s'.tok s'.ctx.cur ∧ fitsAll q ks

namespace Moves
variable {K : Kind → Prop} {qs : List (List Pat)}

theorem mono {m : M α} {qs' : List (List Pat)} (h : Moves K m qs) (hs : ∀ p ∈ qs, p ∈ qs') : Moves K m qs' := by
  intro s s' a hk hf
  obtain ⟨p, hp, h⟩ := h s s' a hk hf
  exact ⟨p, hs p hp, h⟩

theorem pure {x : α} : Moves K (M.pure x) [[]] := by
  intro s s' a _ h
  cases h
  exact ⟨[], List.mem_cons_self, [], ⟨rfl, rfl⟩, trivial⟩

theorem addReuse {b : BitVec 32} : Moves K (Nxas.addReuse b) [[]] := by
  intro s s' a _ h
  simp only [Nxas.addReuse, Bool.false_and, Bool.false_eq_true, if_false, Out.ok.injEq, true_and] at h
  subst h
  exact ⟨[], List.mem_cons_self, [], ⟨rfl, rfl⟩, trivial⟩

theorem addBits {b : BitVec 64} : Moves K (Nxas.addBits b) [[]] := by
  intro s s' a _ h
  simp only [Nxas.addBits, Bool.false_and, Bool.false_eq_true, if_false, Out.ok.injEq, true_and] at h
  subst h
  exact ⟨[], List.mem_cons_self, [], ⟨rfl, rfl⟩, trivial⟩

theorem failTok {msg : Msg} : Moves K (Nxas.failTok msg : M α) qs := by intro s s' a _ h; cases h

theorem advance (p : Pat) (hp : ∀ k, K k → p.fits k) : Moves K Nxas.advance [[p]] := by
  intro s s' a hk h
  unfold Nxas.advance at h
  split at h <;> cases h
  exact ⟨_, List.mem_cons_self, [s.tok.kind], ⟨rfl, _, _, ‹_›, rfl, rfl⟩, hp _ hk, trivial⟩

theorem getKind {f : Kind → M α} (h : ∀ k, K k → Moves (· = k) (f k) qs) : Moves K (Nxas.getKind >>= f) qs := by
  intro s s' a hk hf
  exact h _ hk s s' a rfl hf

theorem ite {c : Prop} [Decidable c] {m m' : M α} (h : c → Moves K m qs) (h' : ¬ c → Moves K m' qs) : Moves K (if c then m else m') qs := by
  split
  · exact h ‹_›
  · exact h' ‹_›

theorem confirmReg {f : Nat → M α} (h : ∀ x, Moves (· = .reg x) (f x) qs) : Moves K (Nxas.confirmReg >>= f) qs := by
  intro s s' a _ hf
  rw [M.bind_def] at hf
  cases h1 : Nxas.confirmReg false s <;> rw [h1] at hf <;> simp at hf
  unfold Nxas.confirmReg at h1
  split at h1 <;> cases h1
  exact h _ s s' a ‹_› hf

/-- A computation that consumes nothing. -/
theorem still {m : M α} {f : α → M β} (hm : ∀ s s' a, m false s = .ok a s' → s'.tok = s.tok ∧ s'.ctx.cur = s.ctx.cur)
    (h : ∀ a, Moves K (f a) qs) : Moves K (m >>= f) qs := by
  intro s s' a hk hf
  rw [M.bind_def] at hf
  cases h1 : m false s <;> rw [h1] at hf <;> simp at hf
  obtain ⟨e1, e2⟩ := hm _ _ _ h1
  have := h _ _ s' a (by rw [e1]; exact hk) hf
  rwa [e1, e2] at this

theorem bind {m : M α} {f : α → M β} {rs : List (List Pat)} (hm : Moves K m qs) (hf : ∀ a, Moves anyKind (f a) rs) :
    Moves K (m >>= f) (qs.flatMap fun q => rs.map (q ++ ·)) := by
  intro s s' a hk h
  rw [M.bind_def] at h
  cases h1 : m false s <;> rw [h1] at h <;> simp at h
  obtain ⟨q, hq, ks1, hp1, hf1⟩ := hm s _ _ hk h1
  obtain ⟨r, hr, ks2, hp2, hf2⟩ := hf _ _ s' a trivial h
  exact ⟨q ++ r, List.mem_flatMap.2 ⟨q, hq, List.mem_map.2 ⟨r, hr, rfl⟩⟩, ks1 ++ ks2, Path.append_iff.2 ⟨_, _, hp1, hp2⟩, fitsAll_append hf1 hf2⟩

theorem addBits_still (b : BitVec 64) : ∀ s s' a, Nxas.addBits b false s = .ok a s' → s'.tok = s.tok ∧ s'.ctx.cur = s.ctx.cur := by
  intro s s' a h
  simp only [Nxas.addBits, Bool.false_and, Bool.false_eq_true, if_false, Out.ok.injEq, true_and] at h
  subst h
  exact ⟨rfl, rfl⟩

theorem addReuse_still (b : BitVec 32) : ∀ s s' a, Nxas.addReuse b false s = .ok a s' → s'.tok = s.tok ∧ s'.ctx.cur = s.ctx.cur := by
  intro s s' a h
  simp only [Nxas.addReuse, Bool.false_and, Bool.false_eq_true, if_false, Out.ok.injEq, true_and] at h
  subst h
  exact ⟨rfl, rfl⟩

theorem tryReuse {K : Kind → Prop} : Moves K (Nxas.tryReuse 8) [[], [.w c!".reuse"]] := by
  unfold Nxas.tryReuse
  refine .getKind fun k _ => .ite (fun _ => Moves.pure.mono (by simp)) fun hk => ?_
  have : k = .ident c!".reuse" := by simpa [Kind.equal] using hk
  subst this
  simp only [if_true]
  exact .still (addReuse_still _) fun _ => (Moves.advance _ (word_fits _)).mono (by simp)

theorem assembleGpr {K : Kind → Prop} : Moves K (Nxas.assembleGpr 8) [[.reg], [.reg, .w c!".reuse"]] := by
  unfold Nxas.assembleGpr
  refine .confirmReg fun n => .still (addBits_still _) fun _ => ?_
  exact (Moves.bind (Moves.advance .reg (reg_fits n)) fun _ => tryReuse).mono (by simp)

end Moves

namespace Cracks

/-- A harmless computation, and then another one. -/
theorem after {K : Kind → Prop} {m : M α} {f : α → M β} {qs rs : List (List Pat)} (hm : Mild m) (ha : Moves K m qs)
    (hf : ∀ a, Cracks anyKind (f a) rs) : Cracks K (m >>= f) (qs.flatMap fun q => rs.map (q ++ ·)) :=
  .bind (ps := []) hm.cracks ha hf

/-- A computation, and then a harmless one. -/
theorem first {K : Kind → Prop} {m : M α} {f : α → M β} {ps : List (List Pat)} (hm : Cracks K m ps) (hf : ∀ a, Mild (f a)) :
    Cracks K (m >>= f) ps := by
  intro s s' e hk h hh
  rcases bind_fail h with h | ⟨a, s1, h1, h2⟩
  · exact hm s s' e hk h hh
  · exact absurd hh (hf a _ _ _ h2)

theorem runMemAddress {K : Kind → Prop} (a w r : Nat) : Cracks K (Nxas.runMemAddress true a w r) memBreaks := by
  unfold Nxas.runMemAddress
  refine .mono (.confirm (.advance _ (tok_fits rfl) ?_)) (ps := ([[], [.reg], [.reg, .w c!".reuse"]] : List (List Pat)).map (· ++ [.imm none])|>.map (.tok .lbracket :: ·)) (by simp [memBreaks])
  refine .getKind fun k _ => ?_
  refine (Cracks.after (qs := [[], [.reg], [.reg, .w c!".reuse"]]) (rs := [[.imm none]]) ?_ ?_ fun n => .addBits ?_).mono (by simp)
  · have := Mild.tryReuse 8
    mild
  · cases k with
    | reg n => exact (Moves.bind (Moves.advance .reg (reg_fits n)) fun _ => Moves.bind Moves.tryReuse fun _ => Moves.pure).mono (by simp)
    | _ => exact Moves.pure.mono (by simp)
  · simp only [if_true]
    refine .getKind fun k _ => ?_
    cases k with
    | imm v => exact .here _ fun _ he => he ▸ fits_any v
    | _ => exact Mild.cracks (.bind (.pure _) fun _ => .bind (.confirm _) fun _ => .advance)

theorem runCcTests {K : Kind → Prop} (a : Nat) (t : List Str) : Cracks K (Nxas.runCcTests a t) [[.w c!"CC", .word]] := by
  unfold Nxas.runCcTests
  refine .getKind fun k _ => .ite (fun hk => ?_) fun _ => (Mild.addBits _).cracks
  have : k = .ident c!"CC" := by simpa [Kind.equal] using hk
  subst this
  exact .advance _ (word_fits _) (ps := [[.word]]) (.confirmIdent fun x => .here _ fun _ he => ⟨x, he.symm⟩)

theorem attr {m : M Unit} {ps : List (List Pat)} {K : Kind → Prop} (hm : Cracks anyKind m ps) :
    Cracks K (do
      attrOpen
      m) (ps.map fun p => .w c!"a" :: .tok .lbracket :: p) := by
  refine (Cracks.after (qs := [[.w c!"a", .tok .lbracket]]) Mild.attrOpen ?_ fun _ => hm).mono (by simp)
  unfold attrOpen
  refine .getKind fun k _ => .ite (fun _ => .failTok) fun hk => ?_
  have : k = .ident c!"a" := by simpa [Kind.equal] using hk
  subst this
  refine (Moves.bind (Moves.advance _ (word_fits _)) (rs := [[.tok .lbracket]]) fun _ => ?_).mono (by simp)
  intro s s' a _ hf
  rw [M.bind_def] at hf
  cases h1 : Nxas.confirm .lbracket false s <;> rw [h1] at hf <;> simp at hf
  unfold Nxas.confirm at h1
  split at h1 <;> cases h1
  exact Moves.advance (K := (· = .lbracket)) _ (tok_fits rfl) _ _ _ ‹_› hf

theorem runImmAttr {K : Kind → Prop} : Cracks K Nxas.runImmAttr (breaks .immAttr) := by
  unfold Nxas.runImmAttr
  exact (attr (Cracks.first (runUint _ _) fun _ => .bind (.addBits _) fun _ => .attrClose)).mono (by simp [breaks, maxBits])

theorem runPatchAttr {K : Kind → Prop} : Cracks K Nxas.runPatchAttr (breaks .patchAttr) := by
  unfold Nxas.runPatchAttr
  refine (attr (Cracks.after (Mild.assembleGpr 8) Moves.assembleGpr (rs := [[.out (-(2 ^ 10)) (2 ^ 10 - 1)], [.tok .plus, .out (-(2 ^ 10)) (2 ^ 10 - 1)]])
    fun _ => ?_)).mono (by simp [breaks])
  have h : ∀ K, Cracks K (do Nxas.runSint 11 20; attrClose) [[.out (-(2 ^ 10)) (2 ^ 10 - 1)]] := fun K => .first (runSint 11 20) fun _ => .attrClose
  refine .getKind fun k _ => .ite (fun hk => ?_) fun _ => (h _).mono (by simp)
  subst hk
  exact (Cracks.advance (.tok .plus) (tok_fits rfl) (h _)).mono (by simp)

theorem runLdcAddress {K : Kind → Prop} : Cracks K Nxas.runLdcAddress (breaks .ldcAddress) :=
  (ofWord (by decide +kernel) (ofTok rfl (ofNumber (ofTok rfl (runMemAddress 20 16 0))))).mono (by simp [breaks, maxBits])

theorem runAbs {K : Kind → Prop} {a : Nat} {m : M Unit} {ps : List (List Pat)} (h : ∀ K, Cracks K m ps) :
    Cracks K (Nxas.runAbs a m) (ps ++ ps.map (.tok .vbar :: ·)) := by
  unfold Nxas.runAbs
  refine .getKind fun k _ => .ite (fun hk => ?_) fun _ => (h _).mono (by simp +contextual)
  subst hk
  exact (Cracks.addBits (Cracks.advance (.tok .vbar) (tok_fits rfl) (Cracks.first (h _) fun _ => .bind (.confirm _) fun _ => .advance))).mono (by simp +contextual)

/-- Where an operand parser fails with a mistyped message. -/
theorem run (o : Operand) : ∀ K, Cracks K o.run (breaks o) := by
  induction o with
  | abs a o ih => exact fun K => runAbs ih
  | flag => exact fun K => (Mild.runFlag _ _).cracks
  | uint => exact fun K => runUint _ _
  | sint => exact fun K => runSint _ _
  | dotTable => exact fun K => (Mild.runDotTable _ _ _).cracks
  | uimmExtended => exact fun K => runUimmExtended
  | comma => exact fun K => Mild.runComma.cracks
  | label => exact fun K => runLabel
  | gpr => exact fun K => (Mild.assembleGpr _).cracks
  | mirrorGpr => exact fun K => (Mild.runMirror _).cracks
  | cbuf => exact fun K => runCbuf
  | imm20 => exact fun K => runImm20
  | fimm => exact fun K => (Mild.runFimm _).cracks
  | dimm20 => exact fun K => Mild.runDimm20.cracks
  | himm => exact fun K => (Mild.runHimm _ _ _).cracks
  | bop => exact fun K => (Mild.runBop _).cracks
  | pred => exact fun K => (Mild.runPred _ _).cracks
  | invertedPred => exact fun K => (Mild.runInvertedPred _).cracks
  | neg => exact fun K => (Mild.runSign _ _).cracks
  | tilde => exact fun K => (Mild.runSign _ _).cracks
  | po => exact fun K => (Mild.runPo _ _).cracks
  | defaultRz => exact fun K => (Mild.addBits _).cracks
  | memAddress i =>
    intro K
    cases i with
    | true => exact runMemAddress _ _ _
    | false =>
      refine Mild.cracks ?_
      have := Mild.tryReuse 8
      unfold Operand.run Nxas.runMemAddress
      simp only [Bool.false_eq_true, if_false]
      mild
  | ccTests => exact fun K => runCcTests _ _
  | expect => exact fun K => (Mild.runExpect _ _ _).cracks
  | optText => exact fun K => (Mild.runOptText _).cracks
  | immAttr => exact fun K => runImmAttr
  | patchAttr => exact fun K => runPatchAttr
  | physAttr => exact fun K => Mild.runPhysAttr.cracks
  | xmadSigns => exact fun K => Mild.runXmadSigns.cracks
  | f2fRounding => exact fun K => Mild.runF2fRounding.cracks
  | intFormat => exact fun K => (Mild.runIntFormat _ _ _ _).cracks
  | plainTable => exact fun K => (Mild.runPlainTable _ _).cracks
  | selector => exact fun K => (Mild.runSelector _ _ _ _ _).cracks
  | ldcAddress => exact fun K => runLdcAddress
  | s2r => exact fun K => (Mild.runS2r _).cracks
  | ldgSize => exact fun K => Mild.runLdgSize.cracks
  | atomicSize => exact fun K => (Mild.runAtomicSize _).cracks
  | srcFormat => exact fun K => (Mild.runSrcFormat _ _).cracks
  | immFormat => exact fun K => (Mild.runDotTable _ _ _).cracks
  | texType => exact fun K => (Mild.runTexType _).cracks
  | zero => exact fun K => Mild.runZero.cracks
  | texsMode => exact fun K => (Mild.runTexsMode _).cracks
  | tldsType => exact fun K => (Mild.runTldsType _).cracks
  | texsType => exact fun K => (Mild.runTexsType _).cracks
  | texsSwizzle => exact fun K => Mild.runTexsSwizzle.cracks

end Cracks
end Nxas
