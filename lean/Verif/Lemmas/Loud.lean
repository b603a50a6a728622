import Verif.Props.Rows
import Verif.Props.Messages
import Verif.Lemmas.Shapes
/-
Messages that the operand parsers build and that are never reported: which parsers build them, and why other rows of the table
always get further.
-/

namespace Nxas

open Spec

/-- Formats of messages that the assembler builds and never reports. -/
def silent : List String :=
  ["expected .P", "expected .PHYS", "expected .WARP", "expected .RESULT", "expected .HI", "expected .L", "expected .B"]

/-- The outcome has no diagnostic with one of these formats. -/
def LoudOut : Out α → Prop
  | .fail e _ => e.msg.fmt ∉ silent
  | .exit e => e.msg.fmt ∉ silent
  | _ => True

/-- The computation has no diagnostic with one of these formats. -/
def Loud (m : M α) : Prop := ∀ d s, LoudOut (m d s)

theorem expectedMsg_loud (w : Str) (k : Kind) : (expectedMsg w k).fmt ∉ silent := by
  unfold expectedMsg
  split <;> simp [silent]

theorem lexNumber_loud {c : Cur} {e : Err} (h : lexNumber c = .exit e) : e.msg.fmt ∉ silent := by
  unfold lexNumber at h
  dsimp only at h
  repeat' split at h
  all_goals (cases h; try decide +kernel)
  all_goals simp [literalMsg, silent]

theorem lexPredicate_loud {c : Cur} {e : Err} (h : lexPredicate c = .done (.exit e)) : e.msg.fmt ∉ silent := by
  unfold lexPredicate at h
  dsimp only at h
  repeat' split at h
  all_goals (cases h; try simp [silent])

theorem lexRegister_loud {c : Cur} {e : Err} (h : lexRegister c = .done (.exit e)) : e.msg.fmt ∉ silent := by
  unfold lexRegister at h
  dsimp only at h
  repeat' split at h
  all_goals (cases h; try decide +kernel)
  all_goals simp [registerMsg, indexMsg, silent]

theorem tokenize_loud {c : Cur} {e : Err} (h : tokenize c = .exit e) : e.msg.fmt ∉ silent := by
  have h' : tokenizeAux (c.text.length + 1) c = some (.exit e) := by rw [tokenize_eq, h]
  revert h'
  generalize c.text.length + 1 = n
  clear h
  induction n generalizing c with
  | zero => intro h; cases h
  | succ n ih =>
    intro h
    unfold tokenizeAux at h
    dsimp only at h
    split at h
    · simp at h
    · split at h
      · rename_i r hr
        cases h
        unfold lexHead at hr
        dsimp only at hr
        split at hr
        · split at hr <;> simp at hr
        · split at hr
          · exact lexPredicate_loud hr
          · split at hr
            · simp only [LexStep.done.injEq] at hr
              exact lexNumber_loud hr
            · split at hr
              · exact lexRegister_loud hr
              · simp at hr
      · split at h
        · simp at h
        · exact ih h
        · simp at h

namespace Loud

theorem bind {m : M α} {f : α → M β} (hm : Loud m) (hf : ∀ x, Loud (f x)) : Loud (m >>= f) := by
  intro d s
  rw [M.bind_def]
  have := hm d s
  cases h : m d s with
  | ok a s1 => exact hf a d s1
  | _ => rw [h] at this; exact this

theorem pure (x : α) : Loud (M.pure x) := fun _ _ => trivial
theorem getKind : Loud Nxas.getKind := fun _ _ => trivial
theorem getTok : Loud Nxas.getTok := fun _ _ => trivial
theorem getCtx : Loud Nxas.getCtx := fun _ _ => trivial
theorem getValue : Loud Nxas.getValue := fun _ _ => trivial
theorem setValue (v : BitVec 64) : Loud (Nxas.setValue v) := fun _ _ => trivial
theorem ubM (u : UB) : Loud (Nxas.ubM u : M α) := fun _ _ => trivial
theorem addBits (b : BitVec 64) : Loud (Nxas.addBits b) := by intro d s; unfold Nxas.addBits; split <;> trivial
theorem addReuse (b : BitVec 32) : Loud (Nxas.addReuse b) := by intro d s; unfold Nxas.addReuse; split <;> trivial
theorem setSched (b : BitVec 32) : Loud (Nxas.setSched b) := fun _ _ => trivial
theorem modifyOpts (f : Opts → Opts) : Loud (Nxas.modifyOpts f) := fun _ _ => trivial
theorem modifyPc (f : Nat → Nat) : Loud (Nxas.modifyPc f) := fun _ _ => trivial
theorem advance : Loud Nxas.advance := by
  intro d s
  unfold Nxas.advance
  split
  · trivial
  · exact tokenize_loud ‹_›
  · trivial
theorem failTok {msg : Msg} (h : msg.fmt ∉ silent) : Loud (Nxas.failTok msg : M α) := fun _ _ => h
theorem exitTok {msg : Msg} (h : msg.fmt ∉ silent) : Loud (Nxas.exitTok msg : M α) := fun _ _ => h
theorem confirm (k : Kind) : Loud (Nxas.confirm k) := by
  intro d s
  unfold Nxas.confirm
  split
  · trivial
  · exact expectedMsg_loud _ _
theorem confirmIdent : Loud Nxas.confirmIdent := by
  intro d s
  unfold Nxas.confirmIdent
  split
  · trivial
  · exact expectedMsg_loud _ _
theorem confirmReg : Loud Nxas.confirmReg := by
  intro d s
  unfold Nxas.confirmReg
  split
  · trivial
  · exact expectedMsg_loud _ _
theorem confirmPred : Loud Nxas.confirmPred := by
  intro d s
  unfold Nxas.confirmPred
  split
  · trivial
  · exact expectedMsg_loud _ _
theorem findInTable (b : Bool) (t : List Str) (p : Str) : Loud (Nxas.findInTable b t p) := by
  intro d s
  unfold Nxas.findInTable
  repeat' split
  all_goals trivial
theorem ite {c : Prop} [Decidable c] {m m' : M α} (h : Loud m) (h' : Loud m') : Loud (if c then m else m') := by
  split <;> assumption
theorem blameStart {msg : Msg} {m : M α} (hm : msg.fmt ∉ silent) (h : Loud m) : Loud (Nxas.blameStart msg m) := by
  intro d s
  unfold Nxas.blameStart
  have := h d s
  cases hr : m d s with
  | fail e s' =>
    rw [hr] at this
    show (if e.msg = msg then (⟨s.tok.line, s.tok.col, msg⟩ : Err) else e).msg.fmt ∉ silent
    split
    · exact hm
    · exact this
  | _ => rw [hr] at this; exact this

end Loud

/-- Follow a computation that fails with none of these messages. -/
macro "loud" : tactic => `(tactic| repeat' (first
  | with_reducible exact Loud.pure _ | with_reducible exact Loud.getKind | with_reducible exact Loud.getValue
  | with_reducible exact Loud.getTok | with_reducible exact Loud.getCtx | with_reducible exact Loud.setValue _
  | with_reducible exact Loud.confirm _ | with_reducible exact Loud.confirmIdent | with_reducible exact Loud.confirmReg
  | with_reducible exact Loud.confirmPred | with_reducible exact Loud.findInTable _ _ _
  | with_reducible exact Loud.ubM _ | with_reducible exact Loud.advance | with_reducible exact Loud.addBits _
  | with_reducible exact Loud.addReuse _ | with_reducible exact Loud.setSched _
  | with_reducible exact Loud.failTok (by decide +kernel)
  | with_reducible assumption
  | with_reducible apply Loud.ite
  | with_reducible apply Loud.bind
  | with_reducible intro _
  | split
  | dsimp only))

namespace Loud

theorem tryReuse (a : Nat) : Loud (Nxas.tryReuse a) := by unfold Nxas.tryReuse; loud
theorem assembleGpr (a : Nat) : Loud (Nxas.assembleGpr a) := by unfold Nxas.assembleGpr; have := tryReuse a; loud
theorem runFlag (s : Str) (a : Nat) : Loud (Nxas.runFlag s a) := by unfold Nxas.runFlag; loud
theorem runDotTable (d : Option Nat) (a : Nat) (t : List Str) : Loud (Nxas.runDotTable d a t) := by unfold Nxas.runDotTable; loud
theorem runComma : Loud Nxas.runComma := by unfold Nxas.runComma; loud
theorem runMirror (a : Nat) : Loud (Nxas.runMirror a) := by unfold Nxas.runMirror; have := assembleGpr a; loud
theorem runLabelTarget (a : Int) : Loud (Nxas.runLabelTarget a) := by unfold Nxas.runLabelTarget; loud
theorem floatKeyword (a b : BitVec n) : Loud (Nxas.floatKeyword a b) := by unfold Nxas.floatKeyword; loud
theorem floatValue : Loud Nxas.floatValue := by
  unfold Nxas.floatValue
  refine .bind .getKind fun t => ?_
  cases t with
  | fimm b => exact .pure _
  | imm v =>
    dsimp only
    rw [if_neg (by simp)]
    exact .pure _
  | plus => exact .bind .advance fun _ => floatKeyword _ _
  | minus => exact .bind .advance fun _ => .bind (floatKeyword _ _) fun _ => .pure _
  | ident => exact floatKeyword _ _
  | _ => exact .failTok (by decide +kernel)
theorem runFimm (w : Bool) : Loud (Nxas.runFimm w) := by unfold Nxas.runFimm; have := floatValue; loud
theorem doubleValue : Loud Nxas.doubleValue := by
  unfold Nxas.doubleValue
  refine .bind .getKind fun t => ?_
  cases t with
  | fimm b => dsimp only; loud
  | imm v => dsimp only; loud
  | plus => exact .bind .advance fun _ => floatKeyword _ _
  | minus => exact .bind (.addBits _) fun _ => .bind .advance fun _ => floatKeyword _ _
  | ident => exact floatKeyword _ _
  | _ => exact .failTok (by decide +kernel)
theorem runDimm20 : Loud Nxas.runDimm20 := by unfold Nxas.runDimm20; have := doubleValue; loud
theorem addNegBit (n : Option Nat) : Loud (Nxas.addNegBit n) := by unfold Nxas.addNegBit; loud
theorem halfValue (n : Option Nat) : Loud (Nxas.halfValue n) := by
  unfold Nxas.halfValue
  refine .bind .getKind fun t => ?_
  have := addNegBit n
  cases t with
  | fimm b => dsimp only; loud
  | imm v => dsimp only; loud
  | plus => exact .bind .advance fun _ => floatKeyword _ _
  | minus => exact .bind .advance fun _ => .bind (floatKeyword _ _) fun _ => .bind this fun _ => .pure _
  | ident => exact floatKeyword _ _
  | _ => exact .failTok (by decide +kernel)
theorem runHimm (w : Bool) (o : Nat) (n : Option Nat) : Loud (Nxas.runHimm w o n) := by unfold Nxas.runHimm; have := halfValue n; loud
theorem runBop (a : Nat) : Loud (Nxas.runBop a) := by unfold Nxas.runBop; loud
theorem runPred (a : Nat) (n : Bool) : Loud (Nxas.runPred a n) := by unfold Nxas.runPred; loud
theorem runInvertedPred (a : Nat) : Loud (Nxas.runInvertedPred a) := by unfold Nxas.runInvertedPred; loud
theorem runSign (k : Kind) (a : Nat) : Loud (Nxas.runSign k a) := by unfold Nxas.runSign; loud
theorem runPo (a b : Nat) : Loud (Nxas.runPo a b) := by unfold Nxas.runPo; loud
theorem addAll (l : List (BitVec 64)) : Loud (Nxas.addAll l) := by
  induction l with
  | nil => unfold Nxas.addAll; loud
  | cons b l ih => unfold Nxas.addAll; loud
theorem runExpect {s : Str} {p : List (BitVec 64)} (q : List (BitVec 64)) (h : (Nxas.expectMsg s p).fmt ∉ silent) :
    Loud (Nxas.runExpect s p q) := by
  unfold Nxas.runExpect
  have := addAll p
  have := addAll q
  have : Loud (Nxas.failTok (Nxas.expectMsg s p) : M Unit) := failTok h
  loud
theorem runOptText (s : Str) : Loud (Nxas.runOptText s) := by unfold Nxas.runOptText; loud
theorem attrOpen : Loud Nxas.attrOpen := by unfold Nxas.attrOpen; loud
theorem attrClose : Loud Nxas.attrClose := by unfold Nxas.attrClose; loud
theorem runPhysAttr : Loud Nxas.runPhysAttr := by
  unfold Nxas.runPhysAttr; have := attrOpen; have := attrClose; have := assembleGpr 8; loud
theorem runXmadSigns : Loud Nxas.runXmadSigns := by unfold Nxas.runXmadSigns; loud
theorem runF2fRounding : Loud Nxas.runF2fRounding := by
  unfold Nxas.runF2fRounding; have := runDotTable (some 0) 39 [c!"RN", c!"RM", c!"RP", c!"RZ"]; loud
theorem formatMsg (t : List Str) : (Nxas.formatMsg t).fmt ∉ silent := by
  unfold Nxas.formatMsg
  repeat' split
  all_goals decide +kernel
theorem runIntFormat (t u : List Str) (a b : Nat) : Loud (Nxas.runIntFormat t u a b) := by
  unfold Nxas.runIntFormat
  have : Loud (Nxas.failTok (Nxas.formatMsg t) : M Unit) := failTok (formatMsg t)
  loud
theorem modeMsg (t : List Str) : (Nxas.modeMsg t).fmt ∉ silent := by
  unfold Nxas.modeMsg
  repeat' split
  all_goals decide +kernel
theorem runPlainTable (a : Nat) (t : List Str) : Loud (Nxas.runPlainTable a t) := by
  unfold Nxas.runPlainTable
  have : Loud (Nxas.failTok (Nxas.modeMsg t) : M Unit) := failTok (modeMsg t)
  loud
theorem runSelector (a t k : Nat) (s b : List Str) : Loud (Nxas.runSelector a t k s b) := by
  unfold Nxas.runSelector; have := fun t => runDotTable (some 0) a t; refine .bind .getValue fun v => ?_; exact this _
theorem runS2r (t : List Str) : Loud (Nxas.runS2r t) := by
  unfold Nxas.runS2r
  have : ∀ x, Loud (Nxas.failTok ⟨"invalid system register \x1b[1m%.*s\x1b[0m", [.text x]⟩ : M Unit) := fun x => failTok (by
    show "invalid system register \x1b[1m%.*s\x1b[0m" ∉ silent
    decide +kernel)
  loud
  all_goals exact this _
theorem runLdgSize : Loud Nxas.runLdgSize := by unfold Nxas.runLdgSize; loud
theorem runAtomicSize (a : Nat) : Loud (Nxas.runAtomicSize a) := by unfold Nxas.runAtomicSize; loud
theorem runSrcFormat (a b : Nat) : Loud (Nxas.runSrcFormat a b) := by unfold Nxas.runSrcFormat; loud
theorem runTexType (a : Nat) : Loud (Nxas.runTexType a) := by unfold Nxas.runTexType; loud
theorem runZero : Loud Nxas.runZero := by unfold Nxas.runZero; loud
theorem runTexsMode (a : Nat) : Loud (Nxas.runTexsMode a) := by unfold Nxas.runTexsMode; loud
theorem tldsMode {i : Nat} {a b c : Bool} {m : Msg} (h : Nxas.tldsMode i a b c = .error m) : m.fmt ∉ silent := by
  unfold Nxas.tldsMode at h
  repeat' split at h
  all_goals (cases h; try decide +kernel)
theorem runTldsType (a : Nat) : Loud (Nxas.runTldsType a) := by
  unfold Nxas.runTldsType
  loud
  exact failTok (tldsMode (by assumption))
theorem texsBits {i l : Nat} {c : Bool} {m : Msg} (h : Nxas.texsBits i l c = .error m) : m.fmt ∉ silent := by
  unfold Nxas.texsBits at h
  repeat' split at h
  all_goals (cases h; try decide +kernel)
theorem runTexsType (a : Nat) : Loud (Nxas.runTexsType a) := by
  unfold Nxas.runTexsType
  loud
  exact failTok (texsBits (by assumption))
theorem runTexsSwizzle : Loud Nxas.runTexsSwizzle := by unfold Nxas.runTexsSwizzle; loud

theorem schedImmediate {x : Int} {m : Msg} (hm : m.fmt ∉ silent) : Loud (Nxas.schedImmediate x m) := by
  unfold Nxas.schedImmediate
  have : Loud (Nxas.failTok m : M Nat) := failTok hm
  loud
  exact failTok (expectedMsg_loud _ _)

theorem failWith {f : String} {as : List Arg} (h : f ∉ silent) : Loud (Nxas.failTok ⟨f, as⟩ : M α) := failTok h

theorem schedStep (s : Sched) : Loud (Nxas.schedStep s) := by
  unfold Nxas.schedStep
  have h1 : Loud (Nxas.schedImmediate 15 "number of waited clocks must be between 0 and 15 inclusively") := schedImmediate (by decide +kernel)
  have h2 : Loud (Nxas.schedImmediate 5 "barrier index must be between 0 and 5 inclusively") := schedImmediate (by decide +kernel)
  have h3 : Loud (Nxas.schedImmediate 5 "dependency barrier index must be between 0 and 5 inclusively") := schedImmediate (by decide +kernel)
  have h4 : ∀ as, Loud (Nxas.failTok ⟨"%s barrier already specified", as⟩ : M Sched) := fun as => failWith (by decide +kernel)
  have h5 : ∀ as, Loud (Nxas.failTok ⟨"dependency barrier index %d already specified", as⟩ : M Sched) := fun as => failWith (by decide +kernel)
  loud
  exact h5 _

theorem schedLoop (n : Nat) (s : Sched) : Loud (Nxas.schedLoop n s) := by
  induction n generalizing s with
  | zero => unfold Nxas.schedLoop; loud
  | succ n ih =>
    unfold Nxas.schedLoop
    exact .bind .getKind fun _ => .ite (.bind (schedStep s) fun _ => ih _) (.pure _)

theorem finishInsn : Loud Nxas.finishInsn := by
  refine .bind ?_ fun _ => .confirm _
  intro d s
  unfold assembleSched
  exact Loud.bind (schedLoop _ _) (fun _ => .setSched _) d s

theorem startInsn (i : Insn) : Loud (Nxas.startInsn i) := by
  unfold Nxas.startInsn
  have : ∀ as, Loud (Nxas.failTok ⟨"%s does not support predicated execution", as⟩ : M Unit) := fun as => failWith (by decide +kernel)
  loud
  exact this _

/-! ### Numbers and addresses -/

theorem convertInteger (lo hi : Int) : Loud (Nxas.convertInteger lo hi) := by
  intro d s
  unfold Nxas.convertInteger
  split
  · split
    · show "integer \x1b[1m%d\x1b[0m is out of range, expected to be from %ld to %ld inclusively" ∉ silent
      decide +kernel
    · trivial
  · exact expectedMsg_loud _ _
theorem runUint (m : Int) (a : Nat) : Loud (Nxas.runUint m a) := by
  unfold Nxas.runUint; have := convertInteger 0 m; loud
theorem runSint (b a : Nat) : Loud (Nxas.runSint b a) := by
  unfold Nxas.runSint; have := convertInteger (-(2 ^ (b - 1))) (2 ^ (b - 1) - 1); loud
theorem runUimmExtended : Loud Nxas.runUimmExtended := by
  unfold Nxas.runUimmExtended; have := convertInteger 0 (2 ^ 20); loud
theorem runLabel : Loud Nxas.runLabel := by
  unfold Nxas.runLabel
  have h1 : ∀ as, Loud (Nxas.failTok ⟨"label \x1b[1m%.*s\x1b[0m not defined", as⟩ : M Unit) := fun as => failWith (by decide +kernel)
  have h2 := runLabelTarget
  loud
  all_goals first | exact h1 _ | exact h2 _
theorem runCbuf : Loud Nxas.runCbuf := by
  unfold Nxas.runCbuf
  have h1 := convertInteger 0 (maxBits 5)
  have h2 := convertInteger (-(2 ^ 15)) (2 ^ 15 - 1)
  have h3 : cbufAlignMsg.fmt ∉ silent := by decide +kernel
  refine blameStart h3 ?_
  have h4 : Loud (Nxas.failTok cbufAlignMsg : M Unit) := failTok h3
  loud
theorem runImm20 : Loud Nxas.runImm20 := by
  unfold Nxas.runImm20; have := convertInteger (-(2 ^ 19)) (maxBits 19); loud
theorem runMemAddress (i : Bool) (a w r : Nat) : Loud (Nxas.runMemAddress i a w r) := by
  unfold Nxas.runMemAddress
  have h1 := tryReuse 8
  have h2 := convertInteger
  loud
  all_goals exact h2 _ _
theorem runCcTests (a : Nat) (t : List Str) : Loud (Nxas.runCcTests a t) := by
  unfold Nxas.runCcTests
  have h1 : ∀ as, Loud (Nxas.failTok ⟨"unexpected test %.*s", as⟩ : M Unit) := fun as => failWith (by decide +kernel)
  loud
  all_goals exact h1 _
theorem runImmAttr : Loud Nxas.runImmAttr := by
  unfold Nxas.runImmAttr; have := attrOpen; have := attrClose; have := runUint (maxBits 10) 20; loud
theorem runPatchAttr : Loud Nxas.runPatchAttr := by
  unfold Nxas.runPatchAttr; have := attrOpen; have := attrClose; have := assembleGpr 8; have := runSint 11 20; loud
theorem runLdcAddress : Loud Nxas.runLdcAddress := by
  unfold Nxas.runLdcAddress; have := convertInteger 0 (maxBits 5); have := runMemAddress true 20 16 0; loud
theorem runAbs {a : Nat} {m : M Unit} (h : Loud m) : Loud (Nxas.runAbs a m) := by unfold Nxas.runAbs; loud

end Loud

/-- The operand parser builds one of the messages. -/
def mutes : Operand → Bool
  | .expect s pre _ => decide ((expectMsg s pre).fmt ∈ silent)
  | .abs _ o => mutes o
  | _ => false

theorem Loud.run (o : Operand) (h : mutes o = false) : Loud o.run := by
  induction o with
  | abs a o ih => exact Loud.runAbs (ih h)
  | flag => exact Loud.runFlag _ _
  | uint => exact Loud.runUint _ _
  | sint => exact Loud.runSint _ _
  | dotTable => exact Loud.runDotTable _ _ _
  | uimmExtended => exact Loud.runUimmExtended
  | comma => exact Loud.runComma
  | label => exact Loud.runLabel
  | gpr => exact Loud.assembleGpr _
  | mirrorGpr => exact Loud.runMirror _
  | cbuf => exact Loud.runCbuf
  | imm20 => exact Loud.runImm20
  | fimm => exact Loud.runFimm _
  | dimm20 => exact Loud.runDimm20
  | himm => exact Loud.runHimm _ _ _
  | bop => exact Loud.runBop _
  | pred => exact Loud.runPred _ _
  | invertedPred => exact Loud.runInvertedPred _
  | neg => exact Loud.runSign _ _
  | tilde => exact Loud.runSign _ _
  | po => exact Loud.runPo _ _
  | defaultRz => exact Loud.addBits _
  | memAddress => exact Loud.runMemAddress _ _ _ _
  | ccTests => exact Loud.runCcTests _ _
  | expect => exact Loud.runExpect _ (by simpa [mutes] using h)
  | optText => exact Loud.runOptText _
  | immAttr => exact Loud.runImmAttr
  | patchAttr => exact Loud.runPatchAttr
  | physAttr => exact Loud.runPhysAttr
  | xmadSigns => exact Loud.runXmadSigns
  | f2fRounding => exact Loud.runF2fRounding
  | intFormat => exact Loud.runIntFormat _ _ _ _
  | plainTable => exact Loud.runPlainTable _ _
  | selector => exact Loud.runSelector _ _ _ _ _
  | ldcAddress => exact Loud.runLdcAddress
  | s2r => exact Loud.runS2r _
  | ldgSize => exact Loud.runLdgSize
  | atomicSize => exact Loud.runAtomicSize _
  | srcFormat => exact Loud.runSrcFormat _ _
  | immFormat => exact Loud.runDotTable _ _ _
  | texType => exact Loud.runTexType _
  | zero => exact Loud.runZero
  | texsMode => exact Loud.runTexsMode _
  | tldsType => exact Loud.runTldsType _
  | texsType => exact Loud.runTexsType _
  | texsSwizzle => exact Loud.runTexsSwizzle

/-! ### Options and the start of an instruction -/

namespace Loud

theorem checkOptionLine (n : Nat) : Loud (Nxas.checkOptionLine n) := by
  unfold Nxas.checkOptionLine
  exact .bind .getTok fun _ => .ite (.exitTok (by decide +kernel)) (.pure _)
theorem parseType (n : Nat) : Loud (Nxas.parseType n) := by
  unfold Nxas.parseType
  refine .bind .getCtx fun _ => .ite (.exitTok (by decide +kernel)) (.bind .advance fun _ => .bind (checkOptionLine _) fun _ => .bind .getTok fun t => ?_)
  split
  · exact .modifyOpts _
  · refine .ite (.exitTok ?_) (.ubM _)
    show "invalid program type \x1b[1m%.*s\x1b[0m" ∉ silent
    decide +kernel
theorem nextImmediate {m : Msg} (h : m.fmt ∉ silent) : Loud (Nxas.nextImmediate m) := by
  unfold Nxas.nextImmediate
  refine .bind .advance fun _ => .bind .getTok fun t => ?_
  split
  · exact .pure _
  · exact .exitTok h
theorem optionBody (t : Token) : Loud (Nxas.optionBody t) := by
  unfold Nxas.optionBody
  have h1 : Loud (Nxas.nextImmediate "expected workgroup sizes") := nextImmediate (by decide +kernel)
  have h2 : Loud (Nxas.nextImmediate "expected shared memory size") := nextImmediate (by decide +kernel)
  have h3 : Loud (Nxas.nextImmediate "expected local memory size") := nextImmediate (by decide +kernel)
  refine .ite (.bind (.modifyOpts _) fun _ => parseType _) (.ite (parseType _) (.ite (.bind .advance fun _ => .bind .getTok fun t => ?_)
    (.ite ?_ (.ite (.bind h2 fun _ => .modifyOpts _) (.ite (.bind h3 fun _ => .modifyOpts _) (.pure _))))))
  · split
    · exact .exitTok (by decide +kernel)
    · exact .ubM _
  · exact .bind h1 fun _ => .bind (.modifyOpts _) fun _ => .bind h1 fun _ => .bind (.modifyOpts _) fun _ => .bind h1 fun _ =>
      .bind (.modifyOpts _) fun _ => checkOptionLine _
theorem parseOption : Loud Nxas.parseOption := by
  unfold Nxas.parseOption
  exact .bind .getTok fun t => .bind (optionBody t) fun _ => .bind .advance fun _ => .bind .getTok fun _ =>
    .ite (.exitTok (by decide +kernel)) (.pure _)
theorem parseOptions (n : Nat) : Loud (Nxas.parseOptions n) := by
  induction n with
  | zero => exact .ubM _
  | succ n ih =>
    unfold Nxas.parseOptions
    exact .bind .getTok fun t => .ite (.bind parseOption fun _ => ih) (.pure _)
theorem raising {m : M α} (h : Loud m) : Loud (Nxas.raising m) := by
  intro d s
  unfold Nxas.raising
  have := h d s
  cases hr : m d s <;> rw [hr] at this <;> exact this
theorem parsePrologue : Loud Nxas.parsePrologue := by
  unfold Nxas.parsePrologue
  have hg : Loud Nxas.guardPredicate := .bind .confirmPred fun _ => .addBits _
  refine .bind (.modifyPc _) fun _ => .bind .getTok fun t => ?_
  have h2 : Loud (do
      let t2 ← Nxas.getTok
      match t2.kind with
      | .ident _ => M.pure ()
      | _ => Nxas.exitTok "expected mnemonic") := by
    refine .bind .getTok fun t => ?_
    split
    · exact .pure _
    · exact .exitTok (by decide +kernel)
  dsimp only
  split
  · exact .bind .advance fun _ => .bind (raising hg) fun _ => .bind .advance fun _ => h2
  · exact .bind (.addBits _) fun _ => h2

end Loud

/-! ### Exits -/

/-- The computation does not end the program with one of these formats. -/
def LoudExit (m : M α) : Prop := ∀ d s e, m d s = .exit e → e.msg.fmt ∉ silent

theorem Loud.exit {m : M α} (h : Loud m) : LoudExit m := by
  intro d s e he
  have := h d s
  rw [he] at this
  exact this

namespace LoudExit

theorem bind {m : M α} {f : α → M β} (hm : LoudExit m) (hf : ∀ x, LoudExit (f x)) : LoudExit (m >>= f) := by
  intro d s e h
  rw [M.bind_def] at h
  cases hr : m d s with
  | ok a s1 => rw [hr] at h; exact hf a d s1 e h
  | exit e' =>
    rw [hr] at h
    simp only [Out.exit.injEq] at h
    exact h ▸ hm d s e' hr
  | _ => rw [hr] at h; simp at h

theorem failTok (m : Msg) : LoudExit (Nxas.failTok m : M α) := by intro d s e h; simp [Nxas.failTok] at h

theorem ite {c : Prop} [Decidable c] {m m' : M α} (h : LoudExit m) (h' : LoudExit m') : LoudExit (if c then m else m') := by
  split <;> assumption

theorem run (o : Operand) : LoudExit o.run := by
  by_cases hm : mutes o = false
  · exact (Loud.run o hm).exit
  · induction o with
    | expect s p q =>
      exact .bind Loud.getKind.exit fun _ => .ite (.failTok _) (.bind (Loud.addAll p).exit fun _ => .bind Loud.advance.exit fun _ => (Loud.addAll q).exit)
    | abs a o ih =>
      have ho := ih hm
      exact .bind Loud.getKind.exit fun _ => .ite (.bind (Loud.addBits _).exit fun _ => .bind Loud.advance.exit fun _ => .bind ho fun _ =>
        .bind (Loud.confirm _).exit fun _ => Loud.advance.exit) ho
    | _ => exact (hm rfl).elim

end LoudExit

theorem runOperands_exit {os : List Operand} {n k : Nat} {d : Bool} {s : St} {e : Err} (h : runOperands os n d s = (.exit e, k)) :
    e.msg.fmt ∉ silent := by
  induction os generalizing n s with
  | nil => simp [runOperands] at h
  | cons o os ih =>
    unfold runOperands at h
    cases hr : o.run d s with
    | ok a s' => rw [hr] at h; exact ih h
    | exit e' =>
      rw [hr] at h
      simp only [Prod.mk.injEq, Out.exit.injEq] at h
      exact h.1 ▸ LoudExit.run o _ _ _ hr
    | _ => rw [hr] at h; simp at h

theorem rowOut_exit {row : Insn} {d : Bool} {s : St} {e : Err} (h : rowOut d s row = .exit e) : e.msg.fmt ∉ silent := by
  unfold rowOut parseInsn at h
  cases hs : startInsn row d s with
  | ok a s1 =>
    rw [hs] at h
    dsimp only at h
    cases hr : runOperands row.operands 1 d s1 with
    | mk r k =>
      rw [hr] at h
      cases r with
      | ok a s2 =>
        dsimp only at h
        have := Loud.finishInsn d s2
        rw [h] at this
        exact this
      | exit e' =>
        simp only [Out.exit.injEq] at h
        exact h ▸ runOperands_exit hr
      | _ => simp at h
  | exit e' =>
    rw [hs] at h
    simp only [Out.exit.injEq] at h
    have := Loud.startInsn row d s
    rw [hs] at this
    exact h ▸ this
  | _ => rw [hs] at h; simp at h

/-! ### Rows that get further -/

/-- The operand parser never fails. -/
def total : Operand → Bool
  | .flag _ _ => true
  | .optText _ => true
  | .dotTable (some _) _ _ => true
  | _ => false

theorem total_run {o : Operand} (h : total o = true) {d : Bool} {s s' : St} {e : Err} : o.run d s ≠ .fail e s' := by
  have key : ∀ {α β : Type} {m : M α} {f : α → M β} {s s' : St} {e : Err}, (∀ s s' e, m d s ≠ .fail e s') → (∀ a s s' e, f a d s ≠ .fail e s') →
      (m >>= f) d s ≠ .fail e s' := by
    intro α β m f s s' e h1 h2 h
    rw [M.bind_def] at h
    cases hm : m d s with
    | ok a s1 => rw [hm] at h; exact h2 _ _ _ _ h
    | fail e' s1 => exact h1 _ _ _ hm
    | _ => rw [hm] at h; simp at h
  have ha : ∀ s s' e, advance d s ≠ .fail e s' := by
    intro s s' e h
    unfold advance at h
    split at h <;> cases h
  have hb : ∀ b s s' e, addBits b d s ≠ .fail e s' := by
    intro b s s' e h
    unfold addBits at h
    split at h <;> cases h
  have hg : ∀ s s' e, getKind d s ≠ .fail e s' := by intro s s' e h; cases h
  have ht : ∀ b t p s s' e, findInTable b t p d s ≠ .fail e s' := by
    intro b t p s s' e h
    unfold findInTable at h
    repeat' split at h
    all_goals cases h
  cases o with
  | flag w a =>
    refine key hg fun k s s' e => ?_
    split
    · exact key (hb _) (fun _ => ha) 
    · intro h; cases h
  | optText w =>
    refine key hg fun k s s' e => ?_
    split
    · exact ha _ _ _
    · intro h; cases h
  | dotTable df a t =>
    cases df with
    | none => simp [total] at h
    | some v =>
      refine key (ht _ _ _) fun r s s' e => ?_
      cases r with
      | none => exact hb _ _ _ _
      | some i => exact key ha fun _ => hb _
  | _ => simp [total] at h

/-- If the first parser accepts a token, the second one does not fail at it. -/
def yields (o o' : Operand) : Bool :=
  total o' || match o, o' with
    | .dotTable none _ t, .dotTable none _ t' => decide (t = t')
    | _, _ => false

theorem dotTable_fail {a : Nat} {t : List Str} {d : Bool} {s s' : St} {e : Err} (h : (Operand.dotTable none a t).run d s = .fail e s') :
    findInTable true t c!"." d s = .ok none s := by
  have h' : (findInTable true t c!"." >>= fun r => _) d s = .fail e s' := h
  rw [M.bind_def] at h'
  cases hf : findInTable true t c!"." d s with
  | ok r s1 =>
    rw [hf] at h'
    have hs : s1 = s := by
      unfold findInTable at hf
      repeat' split at hf
      all_goals cases hf
      all_goals rfl
    subst hs
    cases r with
    | none => rfl
    | some i =>
      exfalso
      dsimp only at h'
      rw [M.bind_def] at h'
      unfold advance at h'
      split at h'
      · rename_i heq
        split at heq <;> cases heq
        unfold addBits at h'
        split at h' <;> cases h'
      all_goals (rename_i heq; split at heq <;> cases heq; try cases h')
  | fail e' s1 =>
    unfold findInTable at hf
    repeat' split at hf
    all_goals cases hf
  | _ => rw [hf] at h'; simp at h'

theorem yields_run {o o' : Operand} (h : yields o o' = true) {d : Bool} {s s1 s2 s' : St} {e : Err} (ht : s2.tok = s.tok)
    (ho : o.run d s = .ok () s1) : o'.run d s2 ≠ .fail e s' := by
  unfold yields at h
  rw [Bool.or_eq_true] at h
  rcases h with h | h
  · exact total_run h
  · split at h
    · rename_i a t a' t'
      have : t = t' := by simpa using h
      subst this
      intro hf
      have h1 := dotTable_fail hf
      have h2 : findInTable true t c!"." d s = .ok none s := by
        unfold findInTable at h1 ⊢
        rw [ht] at h1
        repeat' split at h1
        all_goals first | (cases h1; done) | simp_all
      have ho' : (findInTable true t c!"." >>= fun r => _) d s = .ok () s1 := ho
      rw [M.bind_def, h2] at ho'
      cases ho'
    · simp at h

/-- One of the later rows always gets further than this row does when it fails at its operand `j`, or an earlier one gets as far. -/
def hiddenAt (before after : List Insn) (row : Insn) (j : Nat) : Bool :=
  (j == 0 && (before.any (fun r => r.mnemonic == row.mnemonic && r.flags % 2 == 0) ||
    after.any (fun r => r.mnemonic == row.mnemonic && r.flags % 2 == 0 && (r.operands.head?.map total).getD false))) ||
  (j == 1 && before.any (fun r => r.mnemonic == row.mnemonic && r.flags % 2 == 0 &&
    match row.operands.head?, r.operands.head? with
    | some o, some o' => yields o o'
    | _, _ => false))

/-- Every operand of a row that builds one of the messages is hidden by another row. -/
def hidden : List Insn → List Insn → Bool
  | _, [] => true
  | before, row :: after => row.operands.zipIdx.all (fun p => !mutes p.1 || hiddenAt before after row p.2) && hidden (row :: before) after

set_option maxRecDepth 10000 in
theorem table_hidden : hidden [] insnTable = true := by decide +kernel

theorem hidden_at {acc pre post : List Insn} {row : Insn} (h : hidden acc (pre ++ row :: post) = true) {p q : List Operand} {o : Operand}
    (hr : row.operands = p ++ o :: q) (hm : mutes o = true) : hiddenAt (pre.reverse ++ acc) post row p.length = true := by
  induction pre generalizing acc with
  | nil =>
    rw [List.nil_append, hidden, Bool.and_eq_true, List.all_eq_true] at h
    have : (o, p.length) ∈ row.operands.zipIdx := by
      rw [List.mem_zipIdx_iff_getElem?, hr]
      simp
    have := h.1 _ this
    rw [Bool.or_eq_true] at this
    rcases this with h | h
    · simp [hm] at h
    · exact h
  | cons r pre ih =>
    rw [List.cons_append, hidden, Bool.and_eq_true] at h
    have := ih h.2
    rw [List.reverse_cons, List.append_assoc]
    exact this

theorem bind_fail' {m : M α} {f : α → M β} {d : Bool} {s s' : St} {e : Err} (h : (m >>= f) d s = .fail e s') :
    m d s = .fail e s' ∨ ∃ a s1, m d s = .ok a s1 ∧ f a d s1 = .fail e s' := by
  rw [M.bind_def] at h
  cases hm : m d s <;> rw [hm] at h <;> simp at h
  · exact .inr ⟨_, _, rfl, h⟩
  · exact .inl (by rw [h.1, h.2])

theorem startInsn_even {row : Insn} (h : row.flags % 2 = 0) {d : Bool} {s s' : St} {e : Err} : startInsn row d s ≠ .fail e s' := by
  intro hf
  unfold startInsn at hf
  rcases bind_fail' hf with h1 | ⟨_, s1, -, h1⟩
  · unfold addBits at h1; split at h1 <;> cases h1
  · rcases bind_fail' h1 with h1 | ⟨_, s2, -, h1⟩
    · unfold advance at h1; split at h1 <;> cases h1
    · rcases bind_fail' h1 with h1 | ⟨_, s3, -, h1⟩
      · cases h1
      · rw [if_neg (by omega)] at h1
        cases h1

theorem startInsn_token {row : Insn} {d : Bool} {s s1 : St} (h : startInsn row d s = .ok () s1) :
    ∃ c, tokenize s.ctx.cur = .ok s1.tok c := by
  unfold startInsn at h
  obtain ⟨_, s2, h2, h⟩ := bind_ok h
  obtain ⟨_, s3, h3, h⟩ := bind_ok h
  obtain ⟨v, s4, h4, h⟩ := bind_ok h
  have e2 : s2.ctx.cur = s.ctx.cur := by
    unfold addBits at h2
    split at h2 <;> cases h2
    rfl
  obtain ⟨t, c, ht, rfl⟩ := advance_ok h3
  cases h4
  split at h
  · cases h
  · cases h
    exact ⟨c, by rw [← e2]; exact ht⟩

/-- A row that never refuses the guard gets to its operands. -/
theorem fails_pos {d : Bool} {row : Insn} {s : St} {n : Nat} {e : Err} (hf : row.flags % 2 = 0) (h : Fails d row s n e) : 1 ≤ n := by
  cases h with
  | guard h => exact (startInsn_even hf h).elim
  | _ => omega

/-- A row gets past an operand that it cannot fail at. -/
theorem fails_two {d : Bool} {row : Insn} {s : St} {n : Nat} {e : Err} {o : Operand} {os : List Operand} (hf : row.flags % 2 = 0)
    (hr : row.operands = o :: os) (ho : ∀ s1 c s' e, tokenize s.ctx.cur = .ok s1.tok c → o.run d s1 ≠ .fail e s') (h : Fails d row s n e) : 2 ≤ n := by
  cases h with
  | guard h => exact (startInsn_even hf h).elim
  | @operand _ s1 s2 s3 p q o' h hs hp hx =>
    cases p with
    | nil =>
      rw [hr] at hs
      cases hs
      cases hp
      obtain ⟨c, hc⟩ := startInsn_token h
      exact (ho _ _ _ _ hc hx).elim
    | cons a p => rw [List.length_cons]; omega
  | rest => omega

/-- The error reported for an instruction has none of the formats. -/
theorem Loud.tryRows : Loud (fun d s => Nxas.tryRows s.tok s insnTable none d s) := by
  intro d s
  rcases tryRows_spec s.tok s d insnTable none s rfl rfl with ⟨pre, row, post, -, h2, -, h4⟩ | ⟨hno, h2⟩
  · show LoudOut (Nxas.tryRows s.tok s insnTable none d s)
    rw [h4]
    cases hr : rowOut d s row with
    | ok a s' => trivial
    | fail e s' => exact (h2.2 e s' hr).elim
    | exit e => exact rowOut_exit hr
    | _ => trivial
  · show LoudOut (Nxas.tryRows s.tok s insnTable none d s)
    rw [h2]
    by_cases hne : rowErrors s.tok d s insnTable = []
    · rw [hne]
      show "unknown mnemonic \x1b[1m%.*s\x1b[0m" ∉ silent
      decide +kernel
    · have hmem : ∀ {row : Insn} {x : Err × Nat}, (if s.tok.equal row.mnemonic then
          match parseInsn row d s with
          | (.fail e _, sc) => some (e, sc)
          | _ => none
          else none) = some x ↔ s.tok.kind = .ident row.mnemonic ∧ Fails d row s x.2 x.1 := by
        intro row x
        rw [← Token.equal_iff]
        by_cases hr : s.tok.equal row.mnemonic = true
        · rw [if_pos hr, fails_iff]
          constructor
          · intro hx
            split at hx
            · rename_i hp
              simp only [Option.some.injEq] at hx
              subst hx
              exact ⟨hr, _, hp⟩
            · cases hx
          · rintro ⟨-, s', hp⟩
            rw [hp]
        · rw [if_neg hr]
          simp [hr]
      obtain ⟨l1, x, l2, h1, h3, h4, h5⟩ := better_first hne
      have hsplit := h1
      unfold rowErrors at hsplit
      rw [List.filterMap_eq_append_iff] at hsplit
      obtain ⟨r1, r2, ht, e1, e2⟩ := hsplit
      rw [List.filterMap_eq_cons_iff] at e2
      obtain ⟨p1, row, post, rfl, e3, e4, e5⟩ := e2
      obtain ⟨hrow, hfail⟩ := hmem.1 e4
      have before : ∀ row' ∈ r1 ++ p1, row'.mnemonic = row.mnemonic → ∀ n' e', Fails d row' s n' e' → n' < x.2 := by
        intro row' hr he n' e' hfe
        rw [← he] at hrow
        rcases List.mem_append.1 hr with hr | hr
        · refine h4 (e', n') ?_
          rw [← e1]
          exact List.mem_filterMap.2 ⟨row', hr, hmem.2 ⟨hrow, hfe⟩⟩
        · have := e3 row' hr
          cases this.symm.trans ((hmem (x := (e', n'))).2 ⟨hrow, hfe⟩)
      have after : ∀ row' ∈ post, row'.mnemonic = row.mnemonic → ∀ n' e', Fails d row' s n' e' → n' ≤ x.2 := by
        intro row' hr he n' e' hfe
        rw [← he] at hrow
        refine h5 (e', n') ?_
        rw [← e5]
        exact List.mem_filterMap.2 ⟨row', hr, hmem.2 ⟨hrow, hfe⟩⟩
      rw [h3]
      show x.1.msg.fmt ∉ silent
      have fails : ∀ row' ∈ insnTable, row'.mnemonic = row.mnemonic → ∃ n e, Fails d row' s n e := by
        intro row' hr he
        by_contra hcon
        refine hno row' hr ⟨Token.equal_iff.2 (by rw [hrow, he]), fun e s' h => hcon ?_⟩
        exact ⟨(parseInsn row' d s).2, e, fails_iff.2 ⟨s', Prod.ext h rfl⟩⟩
      have hcat : insnTable = (r1 ++ p1) ++ row :: post := by rw [ht, List.append_assoc]
      generalize x.2 = n at hfail before after
      generalize x.1 = e at hfail
      cases hfail with
      | guard h =>
        have := Loud.startInsn row d s
        rw [h] at this
        exact this
      | rest _ _ h =>
        rename_i s1 s2 s3 _ _
        have := Loud.finishInsn d s2
        rw [h] at this
        exact this
      | @operand _ s1 s2 s3 p q o hs hr hp ho =>
        by_cases hm : mutes o = true
        · exfalso
          have hh := table_hidden
          rw [hcat] at hh
          have hh := hidden_at hh hr hm
          rw [List.append_nil] at hh
          unfold hiddenAt at hh
          rw [Bool.or_eq_true, Bool.and_eq_true, Bool.and_eq_true, Bool.or_eq_true, List.any_eq_true, List.any_eq_true, List.any_eq_true] at hh
          rcases hh with ⟨hj, ⟨row', hr', hc⟩ | ⟨row', hr', hc⟩⟩ | ⟨hj, row', hr', hc⟩
          · simp only [Bool.and_eq_true, beq_iff_eq] at hc
            rw [List.mem_reverse] at hr'
            obtain ⟨n', e', hf⟩ := fails row' (by rw [hcat]; exact List.mem_append_left _ hr') hc.1
            have := before row' hr' hc.1 n' e' hf
            have := fails_pos hc.2 hf
            have : p.length = 0 := by simpa using hj
            omega
          · simp only [Bool.and_eq_true, beq_iff_eq] at hc
            obtain ⟨n', e', hf⟩ := fails row' (by rw [hcat]; exact List.mem_append_right _ (List.mem_cons_of_mem _ hr')) hc.1.1
            have := after row' hr' hc.1.1 n' e' hf
            have : p.length = 0 := by simpa using hj
            cases hops : row'.operands with
            | nil => rw [hops] at hc; simp at hc
            | cons o' os =>
              have ht : total o' = true := by have := hc.2; rw [hops] at this; simpa using this
              have := fails_two hc.1.2 hops (fun _ _ _ _ _ => total_run ht) hf
              omega
          · simp only [Bool.and_eq_true, beq_iff_eq] at hc
            rw [List.mem_reverse] at hr'
            obtain ⟨n', e', hf⟩ := fails row' (by rw [hcat]; exact List.mem_append_left _ hr') hc.1.1
            have := before row' hr' hc.1.1 n' e' hf
            have hj : p.length = 1 := by simpa using hj
            obtain ⟨o0, rfl⟩ := List.length_eq_one_iff.1 hj
            cases hp with
            | cons h0 hp =>
              cases hp
              cases hops : row'.operands with
              | nil => have := hc.2; rw [hops, hr] at this; simp at this
              | cons o' os =>
                have hy : yields o0 o' = true := by have := hc.2; rw [hops, hr] at this; simpa using this
                obtain ⟨c, htok⟩ := startInsn_token hs
                have := fails_two hc.1.2 hops (fun s5 c5 _ _ h5 => by
                  rw [htok] at h5
                  simp only [TokRes.ok.injEq] at h5
                  exact yields_run hy h5.1.symm h0) hf
                omega
        · have := Loud.run o (by simpa using hm) d s2
          rw [ho] at this
          exact this

theorem Loud.parseInstruction : Loud (Nxas.parseInstruction insnTable) := by
  unfold Nxas.parseInstruction
  refine .bind .advance fun _ => .bind .getTok fun t => .ite (.pure _) ?_
  refine .bind (fun d s => Loud.parseOptions _ d s) fun _ => .bind .parsePrologue fun _ => .bind Loud.tryRows fun _ => .pure _

theorem parseAll_loud {d : Bool} {room : Nat} {x : Ctx} {e : Err} (h : parseAll insnTable d room x = .exit (.located e)) : e.msg.fmt ∉ silent := by
  induction room generalizing x with
  | zero => simp [parseAll] at h
  | succ room ih =>
    unfold parseAll at h
    have hl := Loud.parseInstruction d ⟨x, ⟨.none, 0, 0⟩, {}⟩
    cases hp : Nxas.parseInstruction insnTable d ⟨x, ⟨.none, 0, 0⟩, {}⟩ with
    | ok b s =>
      rw [hp] at h
      cases b with
      | false => simp at h
      | true =>
        dsimp only at h
        split at h
        · simp at h
        · exact ih h
    | fail e' s =>
      rw [hp] at h hl
      simp only [Res.exit.injEq, Diag.located.injEq] at h
      exact h ▸ hl
    | exit e' =>
      rw [hp] at h hl
      simp only [Res.exit.injEq, Diag.located.injEq] at h
      exact h ▸ hl
    | _ => rw [hp] at h; simp at h

end Nxas
