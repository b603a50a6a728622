import Verif.Lemmas.Messages
import Verif.Lemmas.Labels
import Verif.Lemmas.Parse
/-
The messages of annotations, options and instructions fit the tokens they are reported at.
-/

namespace Nxas

open Spec

namespace Telling

variable {v : Words} {c0 : Cur} {ls : Labels} {k : Kind} {Q : Unit → Kind → Prop}

theorem modifyOpts {f : Opts → Opts} (h : Q () k) : Telling v c0 ls (Nxas.modifyOpts f) k Q := by
  intro dbg s hs hk
  subst hk
  exact ⟨hs, h⟩

theorem modifyPc {f : Nat → Nat} (h : Q () k) : Telling v c0 ls (Nxas.modifyPc f) k Q := by
  intro dbg s hs hk
  subst hk
  exact ⟨hs, h⟩

theorem setSched {r : BitVec 32} (h : Q () k) : Telling v c0 ls (Nxas.setSched r) k Q := by
  intro dbg s hs hk
  subst hk
  exact ⟨hs, h⟩

theorem raising {m : M α} {Q : α → Kind → Prop} (h : Telling v c0 ls m k Q) : Telling v c0 ls (Nxas.raising m) k Q := by
  intro dbg s hs hk
  have := h dbg s hs hk
  unfold Nxas.raising
  cases hm : m dbg s <;> rw [hm] at this <;> first | exact this | exact this.2

/-! ### Annotations -/

theorem schedImmediate {x : Int} {m : Msg} {Q : Nat → Kind → Prop} (hm : ∀ y, k = .imm y → ¬ (0 ≤ y ∧ y ≤ x) → Fits false v k m)
    (hq : ∀ y : Nat, k = .imm y → (y : Int) ≤ x → Q y k) : Telling v c0 ls (Nxas.schedImmediate x m) k Q := by
  unfold Nxas.schedImmediate
  refine bind (getKind ?_)
  cases k with
  | imm y =>
    refine ite (fun h => failTok (hm y rfl (by omega))) fun h => pure ?_
    have := hq y.toNat (by rw [Int.toNat_of_nonneg (by omega)]) (by omega)
    exact this
  | _ => exact failTok (expectedMsg_fits (by simp [Kind.name]))

theorem schedStep {s : Sched} {Q : Sched → Kind → Prop} (hq : ∀ r k, Q r k) : Telling v c0 ls (Nxas.schedStep s) k Q := by
  unfold Nxas.schedStep
  refine bind (advance fun k => bind (getKind ?_))
  refine ite (fun h => ite (fun _ => failTok (.stalled (Kind.equal_iff.mp h))) fun _ => ?_) fun h1 => ?_
  · refine bind (advance fun k => bind (schedImmediate (fun y hy hr => .stall hy hr) fun y hy hr => ?_))
    tell
  refine ite (fun h => ite (fun _ => failTok ?_) fun _ => ?_) fun h2 => ?_
  · by_cases hw : k.equal c!"WB" = true
    · rw [if_pos hw]
      exact .write (Kind.equal_iff.mp hw)
    · rw [if_neg hw]
      exact .read (Kind.equal_iff.mp (by simpa [hw] using h))
  · refine bind (advance fun k => bind (schedImmediate (fun y hy hr => .barrier hy hr) fun y hy hr => ?_))
    tell
  refine ite (fun h => ite (fun _ => failTok (.yielded ?_)) fun _ => ?_) fun h3 => ?_
  · simpa [Kind.equal_iff] using h
  · tell
  refine ite (fun h => ?_) fun h4 => failTok ?_
  · refine bind (advance fun k => bind (schedImmediate (fun y hy hr => .depends hy hr) fun y hy hr => ?_))
    refine ite (fun _ => failTok (.dependency hy ⟨by omega, hr⟩)) fun _ => ?_
    tell
  · simp only [Bool.or_eq_true, Kind.equal_iff, not_or] at h1 h2 h3 h4
    exact .listing (names := [c!"WAIT", c!"WB", c!"RB", c!"DEP", c!"YIELD", c!"Y"]) (by decide)
      (by simpa using ⟨h1, h2.1, h2.2, h4, h3.2, h3.1⟩)

theorem schedLoop {n : Nat} {s : Sched} {Q : Sched → Kind → Prop} (hq : ∀ r k, Q r k) : Telling v c0 ls (Nxas.schedLoop n s) k Q := by
  induction n generalizing k s with
  | zero => exact ub
  | succ n ih =>
    unfold Nxas.schedLoop
    tell
    exact schedStep fun r k => ih

theorem assembleSched (hq : ∀ k, Q () k) : Telling v c0 ls Nxas.assembleSched k Q := by
  intro dbg s hs hk
  unfold Nxas.assembleSched
  exact bind (schedLoop fun r k => setSched (hq k)) dbg s hs hk

theorem finishInsn (hq : ∀ k, Q () k) : Telling v c0 ls Nxas.finishInsn k Q := by
  unfold Nxas.finishInsn
  refine bind (assembleSched fun k => ?_)
  tell

/-! ### Options -/

theorem checkOptionLine {n : Nat} (hq : Q () k) : Telling v c0 ls (Nxas.checkOptionLine n) k Q := by
  unfold Nxas.checkOptionLine
  exact bind (getTok fun t ht => ite (fun _ => exitTok (.unspecific (by decide))) fun _ => pure hq)

theorem progTypeOfName_none {t : Token} (h : progTypeOfName t = none) : ∀ n, t.kind = .ident n → n ∉ programTypes := by
  intro n hn hm
  unfold progTypeOfName at h
  repeat' split at h
  all_goals first
    | (simp only [reduceCtorEq] at h; done)
    | (simp only [Token.equal, hn, Kind.equal] at *
       simp only [programTypes, List.mem_cons, List.not_mem_nil, or_false] at hm
       simp_all)

theorem parseType {n : Nat} (hk : k = .ident c!".type" ∨ k = .ident c!".dksh") (ht : v.types = programTypes) (hq : ∀ k, Q () k) :
    Telling v c0 ls (Nxas.parseType n) k Q := by
  unfold Nxas.parseType
  refine bind (getCtx fun c hc => ite (fun _ => exitTok (.typed hk)) fun _ => bind (advance fun k => bind (checkOptionLine
    (bind (getTok fun t htk => ?_)))))
  split
  · exact modifyOpts (hq _)
  · rename_i hn
    refine ite (fun _ => exitTok ?_) fun _ => ub
    subst htk
    rw [← quoted_eq]
    exact .type (ht ▸ progTypeOfName_none hn)

theorem nextImmediate {m : Msg} {Q : BitVec 32 → Kind → Prop} (hm : ∀ k, (∀ x, k ≠ .imm x) → Fits false v k m) (hq : ∀ x k, Q x k) :
    Telling v c0 ls (Nxas.nextImmediate m) k Q := by
  unfold Nxas.nextImmediate
  refine bind (advance fun k => bind (getTok fun t ht => ?_))
  split
  · exact pure (hq _ _)
  · rename_i h
    exact exitTok (hm _ (ht ▸ h))

theorem optionBody {t0 : Token} (ht : v.types = programTypes) (hk : t0.kind = k) (hq : ∀ k, Q () k) :
    Telling v c0 ls (Nxas.optionBody t0) k Q := by
  unfold Nxas.optionBody
  refine ite (fun h => bind (modifyOpts (parseType (.inr ?_) ht hq))) fun _ => ?_
  · rw [← hk]; exact Kind.equal_iff.mp h
  refine ite (fun h => parseType (.inl ?_) ht hq) fun _ => ?_
  · rw [← hk]; exact Kind.equal_iff.mp h
  refine ite (fun h => bind (advance fun k => bind (getTok fun t ht => ?_))) fun _ => ?_
  · split
    · exact exitTok (.noCount nofun)
    · exact ub
  refine ite (fun h => ?_) fun _ => ?_
  · have hm : ∀ k, (∀ x, k ≠ .imm x) → Fits false v k "expected workgroup sizes" := fun k h => .noSize (by decide) h
    exact bind (nextImmediate hm fun x k => bind (modifyOpts (bind (nextImmediate hm fun x k => bind (modifyOpts
      (bind (nextImmediate hm fun x k => bind (modifyOpts (checkOptionLine (hq _))))))))))
  refine ite (fun h => bind (nextImmediate (fun k h => .noSize (by decide) h) fun x k => modifyOpts (hq _))) fun _ => ?_
  exact ite (fun h => bind (nextImmediate (fun k h => .noSize (by decide) h) fun x k => modifyOpts (hq _))) fun _ => pure (hq _)

theorem parseOption (ht : v.types = programTypes) (hq : ∀ k, Q () k) : Telling v c0 ls Nxas.parseOption k Q := by
  unfold Nxas.parseOption
  exact bind (getTok fun t0 h0 => bind (optionBody ht h0 fun k => bind (advance fun k => bind (getTok fun t _ =>
    ite (fun _ => exitTok (.unspecific (by decide))) fun _ => pure (hq _)))))

theorem parseOptions {n : Nat} (ht : v.types = programTypes) (hq : ∀ k, Q () k) : Telling v c0 ls (Nxas.parseOptions n) k Q := by
  induction n generalizing k with
  | zero => exact ub
  | succ n ih =>
    unfold Nxas.parseOptions
    exact bind (getTok fun t _ => ite (fun _ => bind (parseOption ht fun k => ih)) fun _ => pure (hq _))

/-! ### Instructions -/

theorem guardPredicate (hq : ∀ k, Q () k) : Telling v c0 ls Nxas.guardPredicate k Q := by
  unfold Nxas.guardPredicate
  tell

theorem parsePrologue (hq : ∀ x, Q () (.ident x)) : Telling v c0 ls Nxas.parsePrologue k Q := by
  unfold Nxas.parsePrologue
  have hend : ∀ k, Telling v c0 ls (Nxas.getTok >>= fun t2 => match t2.kind with
      | .ident _ => M.pure ()
      | _ => Nxas.exitTok (α := Unit) "expected mnemonic") k Q := by
    intro k
    refine bind (getTok fun t ht => ?_)
    split
    · rename_i x hx
      exact pure (by rw [← ht, hx]; exact hq x)
    · rename_i h
      exact exitTok (.noName (ht ▸ h))
  refine bind (modifyPc (bind (getTok fun t _ => ?_)))
  split
  · exact bind (advance fun k => bind (raising (guardPredicate fun k => bind (advance fun k => hend k))))
  · exact bind (addBits (hend _))

end Telling

/-- A state from which the next token is read. -/
def Loose (c0 : Cur) (ls : Labels) (s : St) : Prop := s.ctx.labels = ls ∧ Reach c0 s.ctx.cur

theorem Here.loose {c0 : Cur} {ls : Labels} {s : St} (h : Here c0 ls s) : Loose c0 ls s := ⟨h.1, h.2.reach⟩

/-- The parameters of the tables. -/
structure WordsOf (v : Words) (ls : Labels) (table : List Insn) : Prop where
  labels : ∀ x, ls.find x = none → ¬ v.defined x
  operands : ∀ i ∈ table, ∀ o ∈ i.operands, o.known v.tests v.registers = true
  types : v.types = programTypes
  always : ∀ i ∈ table, i.flags % 2 = 1 → i.mnemonic ∈ v.always
  mnemonics : ∀ x ∈ v.mnemonics, ∃ i ∈ table, i.mnemonic = x

variable {v : Words} {c0 : Cur} {ls : Labels} {table : List Insn}

theorem advance_loose {dbg : Bool} {s : St} {Q : Unit → Kind → Prop} (hs : Loose c0 ls s) (hq : ∀ k, Q () k) :
    Good v c0 ls Q (advance dbg s) := by
  unfold advance
  cases ht : tokenize s.ctx.cur with
  | ok t c => exact ⟨⟨hs.1, _, hs.2, ht⟩, hq _⟩
  | exit e => exact .inl ⟨_, hs.2, ht⟩
  | ub u => trivial

/-- The diagnostic of an instruction fits, or the next token can be read. -/
def Fair (v : Words) (c0 : Cur) (ls : Labels) : Out α → Prop
  | .ok _ s' => Loose c0 ls s'
  | .fail e _ => Tale v c0 e
  | .exit e => Tale v c0 e
  | _ => True

theorem startInsn_good (w : WordsOf v ls table) {i : Insn} (hi : i ∈ table) {dbg : Bool} {s : St} (hs : Loose c0 ls s) :
    Good v c0 ls (fun _ _ => True) (startInsn i dbg s) := by
  unfold startInsn
  rw [M.bind_def]
  unfold addBits
  split <;> rename_i heq <;> split at heq <;> simp only [Out.ok.injEq, reduceCtorEq] at heq
  · obtain ⟨-, rfl⟩ := heq
    rw [M.bind_def]
    have h1 := advance_loose (v := v) (c0 := c0) (dbg := dbg) (Q := fun _ _ => True)
      (s := { s with op := { s.op with value := s.op.value ||| i.opcode } }) hs fun _ => trivial
    generalize advance dbg { s with op := { s.op with value := s.op.value ||| i.opcode } } = m at h1
    cases m
    · exact Telling.bind (.getValue fun x => .ite (fun h => .failTok (.always (w.always i hi h.1))) fun _ => .pure trivial) dbg _ h1.1 rfl
    all_goals exact h1
  · trivial

theorem runOperands_good {os : List Operand} (hl : ∀ x, ls.find x = none → ¬ v.defined x)
    (ho : ∀ o ∈ os, o.known v.tests v.registers = true) {n : Nat} {dbg : Bool} {s : St} (hs : Here c0 ls s) :
    Good v c0 ls (fun _ _ => True) (runOperands os n dbg s).1 := by
  induction os generalizing n s with
  | nil => exact ⟨hs, trivial⟩
  | cons o os ih =>
    have := Telling.run (c0 := c0) (Q := fun _ _ => True) hl (ho o (by simp)) (fun _ => trivial) dbg s hs rfl
    unfold runOperands
    cases hm : o.run dbg s <;> rw [hm] at this
    · exact ih (fun o h => ho o (by simp [h])) this.1
    all_goals exact this

theorem parseInsn_good (w : WordsOf v ls table) {i : Insn} (hi : i ∈ table) {dbg : Bool} {s : St} (hs : Loose c0 ls s) :
    Good v c0 ls (fun _ _ => True) (parseInsn i dbg s).1 := by
  unfold parseInsn
  have h1 := startInsn_good (c0 := c0) w hi (dbg := dbg) hs
  cases hm : startInsn i dbg s <;> rw [hm] at h1
  · rename_i s1
    have h2 := runOperands_good (c0 := c0) w.labels (w.operands i hi) (n := 1) (dbg := dbg) h1.1
    dsimp only
    rcases hr : runOperands i.operands 1 dbg s1 with ⟨r, score⟩
    rw [hr] at h2
    cases r
    · exact Telling.finishInsn (fun _ => trivial) dbg _ h2.1 rfl
    all_goals exact h2
  all_goals exact h1

theorem tryRows_good (w : WordsOf v ls table) {rows : List Insn} (hr : ∀ i ∈ rows, i ∈ table) {mn : Token} {name : Str} {saved : St}
    (hk : mn.kind = .ident name) (hmn : ∃ c c', Reach c0 c ∧ tokenize c = .ok mn c') (hsv : Loose c0 ls saved) {best : Option (Err × Nat)}
    (hb : ∀ e n, best = some (e, n) → Tale v c0 e)
    (hu : best = none → name ∈ v.mnemonics → ∃ i ∈ rows, i.mnemonic = name)
    {dbg : Bool} {s : St} (hs : Loose c0 ls s) :
    Fair v c0 ls (tryRows mn saved rows best dbg s) := by
  induction rows generalizing best s with
  | nil =>
    unfold tryRows
    cases best with
    | some p => exact hb p.1 p.2 rfl
    | none =>
      obtain ⟨c, c', h1, h2⟩ := hmn
      refine .inr ⟨c, mn, c', h1, h2, rfl, rfl, ?_⟩
      dsimp only [unknownMsg]
      rw [hk]
      refine .mnemonic rfl fun hm => ?_
      obtain ⟨i, hi, -⟩ := hu rfl hm
      simp at hi
  | cons i is ih =>
    unfold tryRows
    split
    · rename_i hne
      refine ih (fun j hj => hr j (by simp [hj])) hb (fun h1 h2 => ?_) hs
      obtain ⟨j, hj, h3⟩ := hu h1 h2
      rcases List.mem_cons.mp hj with rfl | hj
      · simp [Token.equal, hk, Kind.equal, h3] at hne
      · exact ⟨j, hj, h3⟩
    · have h1 := parseInsn_good (c0 := c0) w (hr i (by simp)) (dbg := dbg) hs
      rcases hp : parseInsn i dbg s with ⟨r, score⟩
      rw [hp] at h1
      cases r with
      | ok a s' => exact ⟨h1.1.1, h1.1.2.reach⟩
      | fail e s' =>
        dsimp only
        refine ih (fun j hj => hr j (by simp [hj])) ?_ ?_ hsv
        · intro e' n he
          cases best with
          | none =>
            simp only [Option.some.injEq, Prod.mk.injEq] at he
            rw [← he.1]; exact h1.2
          | some p =>
            dsimp only at he
            split at he <;> simp only [Option.some.injEq, Prod.mk.injEq] at he
            · rw [← he.1]; exact h1.2
            · rw [← he.1]; exact hb p.1 p.2 rfl
        · intro he
          cases best with
          | none => simp at he
          | some p => dsimp only at he; split at he <;> simp at he
      | exit e => exact h1
      | abort => trivial
      | ub u => trivial

theorem parseInstruction_good (w : WordsOf v ls table) {dbg : Bool} {s : St} (hs : Loose c0 ls s) :
    Fair v c0 ls (parseInstruction table dbg s) := by
  unfold parseInstruction
  rw [M.bind_def]
  have h1 := advance_loose (v := v) (c0 := c0) (dbg := dbg) (Q := fun _ _ => True) hs fun _ => trivial
  cases hm : advance dbg s <;> rw [hm] at h1
  case fail => exact h1.2
  case exit => exact h1
  case abort => trivial
  case ub => trivial
  rename_i s1
  dsimp only
  rw [M.bind_def]
  unfold getTok
  dsimp only
  split
  · exact h1.1.loose
  · rw [M.bind_def (fun dbg s => parseOptions (s.ctx.cur.text.length + 2) dbg s)]
    have h2 := Telling.parseOptions (n := s1.ctx.cur.text.length + 2) (Q := fun _ _ => True) w.types (fun _ => trivial) dbg s1 h1.1 rfl
    cases hm : parseOptions (s1.ctx.cur.text.length + 2) dbg s1 <;> rw [hm] at h2
    case fail => exact h2.2
    case exit => exact h2
    case abort => trivial
    case ub => trivial
    rename_i s2
    dsimp only
    rw [M.bind_def]
    have h3 := Telling.parsePrologue (v := v) (Q := fun _ k => ∃ x, k = .ident x) (fun x => ⟨x, rfl⟩) dbg s2 h2.1 rfl
    cases hm : parsePrologue dbg s2 <;> rw [hm] at h3
    case fail => exact h3.2
    case exit => exact h3
    case abort => trivial
    case ub => trivial
    rename_i s3
    dsimp only
    rw [M.bind_def (fun dbg s => tryRows s.tok s table none dbg s)]
    obtain ⟨⟨hl, c, hc, ht⟩, name, hn⟩ := h3
    have h4 := tryRows_good (c0 := c0) (rows := table) (saved := s3) w (fun i hi => hi) hn ⟨c, _, hc, ht⟩ ⟨hl, hc.trans (tokenize_ok ht).reach⟩
      (best := none) (by simp) (fun _ hm => w.mnemonics name hm) (dbg := dbg) (s := s3) ⟨hl, hc.trans (tokenize_ok ht).reach⟩
    cases hm : tryRows s3.tok s3 table none dbg s3 <;> rw [hm] at h4
    all_goals exact h4

theorem parseAll_good (w : WordsOf v ls table) {dbg : Bool} {room : Nat} {ctx : Ctx} (hl : ctx.labels = ls) (hr : Reach c0 ctx.cur) {d : Diag}
    (h : parseAll table dbg room ctx = .exit d) : ∃ e, d = .located e ∧ Tale v c0 e := by
  induction room generalizing ctx with
  | zero => simp [parseAll] at h
  | succ room ih =>
    have hf := parseInstruction_good (c0 := c0) w (dbg := dbg) (s := ⟨ctx, ⟨.none, 0, 0⟩, {}⟩) ⟨hl, hr⟩
    unfold parseAll at h
    split at h
    · simp at h
    · rename_i s heq
      rw [heq] at hf
      cases hpa : parseAll table dbg room s.ctx with
      | exit d' =>
        simp only [hpa, Res.exit.injEq] at h
        subst h
        exact ih hf.1 hf.2 hpa
      | _ => simp [hpa] at h
    · rename_i e s heq
      rw [heq] at hf
      simp only [Res.exit.injEq] at h
      exact ⟨e, h.symm, hf⟩
    · rename_i e heq
      rw [heq] at hf
      simp only [Res.exit.injEq] at h
      exact ⟨e, h.symm, hf⟩
    · simp at h
    · simp at h

end Nxas
