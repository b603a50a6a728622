import Verif.Lemmas.Undefined
import Verif.Lemmas.Debug
import Verif.Lemmas.Readback
import Verif.Spec.Clash
/-
Where an assertion fails: operands and rows.
-/

namespace Nxas

open Spec

theorem bind_abort {m : M α} {f : α → M β} {dbg : Bool} {s : St} : (m >>= f) dbg s = .abort ↔
    m dbg s = .abort ∨ ∃ a s1, m dbg s = .ok a s1 ∧ f a dbg s1 = .abort := by
  rw [M.bind_def]
  cases m dbg s with
  | ok a s1 => exact ⟨fun h => .inr ⟨a, s1, rfl, h⟩, fun h => by
      rcases h with h | ⟨_, _, h, h'⟩
      · simp at h
      · simp only [Out.ok.injEq] at h; rw [h.1, h.2]; exact h'⟩
  | _ => simp

theorem addBits_abort {b : BitVec 64} {s : St} : addBits b true s = .abort ↔ s.op.value &&& b ≠ 0 := by
  unfold addBits
  simp

/-! ### Operands -/

/-- The operands whose assertion can fail. -/
def Operand.single : Operand → Bool
  | .neg _ | .flag .. | .gpr _ | .bop _ | .selector .. => true
  | _ => false

/-- The reuse flags of a register. -/
def Operand.reuses : Operand → List Field
  | .gpr a => reuseFields a
  | _ => []

/-- The tokens after the current one that an operand reads before its assertion. -/
def Ahead (c : Cur) (more : List Kind) : Prop := more = [] ∨ ∃ t c1, tokenize c = .ok t c1 ∧ more = [t.kind]

theorem one_shl (a : Nat) : 1#64 <<< a = field a 1 := shl_eq _ _

theorem ofNat_shl (n a : Nat) : BitVec.ofNat 64 n <<< a = field a n := by
  rw [shl_eq, BitVec.toNat_ofNat]
  exact field_mod (by simp)

theorem tryReuse_calm {a : Nat} {s : St} (hr : ∀ i, inF (reuseFields a) i → s.op.bit i = false) : tryReuse a true s ≠ .abort := by
  unfold tryReuse
  rw [Ne, bind_abort]
  simp only [getKind, reduceCtorEq, false_or, Out.ok.injEq, not_exists, not_and]
  rintro _ _ ⟨rfl, rfl⟩
  have key : ∀ (q : Nat), q < 3 → inF (reuseFields a) (64 + q) → s.op.reuse &&& BitVec.ofNat 32 (2 ^ q) = 0#32 := by
    intro q hq hf
    have h1 := hr _ hf
    unfold Op.bit at h1
    rw [if_neg (by omega), Nat.add_sub_cancel_left] at h1
    apply BitVec.eq_of_getLsbD_eq
    intro i hi
    rw [BitVec.getLsbD_and, BitVec.getLsbD_zero]
    by_cases hiq : i = q
    · rw [hiq, h1]; rfl
    · rw [BitVec.getLsbD_ofNat, Nat.testBit_two_pow_of_ne (Ne.symm hiq)]; simp
  split
  · simp [M.pure]
  · have calm : ∀ (m : M Unit), m true s ≠ .abort → (m >>= fun _ => advance) true s ≠ .abort := by
      intro m hm h
      rcases bind_abort.1 h with h | ⟨_, s1, -, h⟩
      · exact hm h
      · exact Calm.advance _ _ h
    split
    · rename_i ha
      subst ha
      refine calm _ ?_
      have := key 0 (by omega) ⟨(64, 1), by simp [reuseFields], by simp⟩
      simp [addReuse, reuseGpr8, this]
    · split
      · rename_i ha
        subst ha
        refine calm _ ?_
        have := key 1 (by omega) ⟨(65, 1), by simp [reuseFields], by simp⟩
        simp [addReuse, reuseGpr20, this]
      · split
        · rename_i ha
          subst ha
          refine calm _ ?_
          have := key 2 (by omega) ⟨(66, 1), by simp [reuseFields], by simp⟩
          simp [addReuse, reuseGpr39, this]
        · exact calm _ (by simp [failTok])

/-- The assertion of an operand fails on exactly the tokens of a clash. -/
theorem Operand.run_abort {o : Operand} (ho : o.single = true) (hgr : o.grammatical = true) {s : St} (hr : ∀ i, inF o.reuses i → s.op.bit i = false) :
    o.run true s = .abort ↔ ∃ more, OperandClash s.op.value o (s.tok.kind :: more) ∧ Ahead s.ctx.cur more := by
  have early : ∀ {o : Operand}, (∀ a ta sh x y, o ≠ .selector a ta sh x y) →
      ((∃ more, OperandClash s.op.value o (s.tok.kind :: more) ∧ Ahead s.ctx.cur more) ↔ OperandClash s.op.value o [s.tok.kind]) := by
    intro o ho
    constructor
    · rintro ⟨more, h, -⟩
      cases more with
      | nil => exact h
      | cons k more =>
        obtain ⟨ks, hks⟩ : ∃ ks, s.tok.kind :: k :: more = ks := ⟨_, rfl⟩
        rw [hks] at h
        cases h with
        | part => exact absurd rfl (ho _ _ _ _ _)
        | _ => simp at hks
    · intro h
      exact ⟨[], h, .inl rfl⟩
  cases o with
  | neg a =>
    rw [early (by simp), Operand.run, runSign, bind_abort]
    simp only [getKind, reduceCtorEq, false_or, Out.ok.injEq]
    constructor
    · rintro ⟨_, _, ⟨rfl, rfl⟩, h⟩
      split at h
      · rename_i hk
        rcases bind_abort.1 h with h | ⟨_, _, -, h⟩
        · rw [hk]
          rw [addBits_abort, one_shl] at h
          exact .sign h
        · exact absurd h (Calm.advance _ _)
      · simp [M.pure] at h
    · intro h
      refine ⟨_, _, ⟨rfl, rfl⟩, ?_⟩
      generalize s.tok.kind = k at h
      cases h with | sign h =>
      rw [if_pos rfl]
      exact bind_abort.2 (.inl (addBits_abort.2 (by rw [one_shl]; exact h)))
  | flag w a =>
    rw [early (by simp), Operand.run, runFlag, bind_abort]
    simp only [getKind, reduceCtorEq, false_or, Out.ok.injEq]
    constructor
    · rintro ⟨_, _, ⟨rfl, rfl⟩, h⟩
      split at h
      · rename_i hk
        have hk : s.tok.kind = .ident w := by simpa [Kind.equal] using hk
        rcases bind_abort.1 h with h | ⟨_, _, -, h⟩
        · rw [hk]
          rw [addBits_abort, one_shl] at h
          exact .word h
        · exact absurd h (Calm.advance _ _)
      · simp [M.pure] at h
    · intro h
      refine ⟨_, _, ⟨rfl, rfl⟩, ?_⟩
      generalize s.tok.kind = k at h
      cases h with | word h =>
      rw [if_pos (by simp [Kind.equal])]
      exact bind_abort.2 (.inl (addBits_abort.2 (by rw [one_shl]; exact h)))
  | gpr a =>
    rw [early (by simp), Operand.run, assembleGpr, bind_abort]
    constructor
    · rintro (h | ⟨n, s1, h1, h⟩)
      · exact absurd h (Calm.of_readOnly ReadOnly.confirmReg _ _)
      · have hs : s1 = s ∧ s.tok.kind = .reg n := by
          unfold confirmReg at h1
          split at h1
          · simp only [Out.ok.injEq] at h1
            rw [← h1.1, ← h1.2]
            exact ⟨rfl, by assumption⟩
          · simp at h1
        obtain ⟨rfl, hk⟩ := hs
        rw [hk]
        rcases bind_abort.1 h with h | ⟨_, s2, h2, h⟩
        · rw [addBits_abort, ofNat_shl] at h
          exact .register h
        · exfalso
          rcases bind_abort.1 h with h | ⟨_, s3, h3, h⟩
          · exact absurd h (Calm.advance _ _)
          · refine tryReuse_calm (a := a) ?_ h
            intro i hi
            have := hr i hi
            obtain ⟨t, c, -, rfl⟩ := advance_ok h3
            unfold addBits at h2
            split at h2
            · simp at h2
            · simp only [Out.ok.injEq, true_and] at h2
              rw [← h2]
              have hge : ¬ i < 64 := by
                obtain ⟨f, hf, h1, h2⟩ := hi
                unfold reuseFields at hf
                repeat' split at hf
                all_goals simp at hf
                all_goals
                  subst hf
                  dsimp only at h1
                  omega
              unfold Op.bit at this ⊢
              rw [if_neg hge] at this ⊢
              exact this
    · intro h
      right
      generalize hk : s.tok.kind = k at h
      cases h with | @register _ n h =>
      refine ⟨n, s, by simp [confirmReg, hk], ?_⟩
      exact bind_abort.2 (.inl (addBits_abort.2 (by rw [ofNat_shl]; exact h)))
  | bop a =>
    rw [early (by simp), Operand.run, runBop, bind_abort]
    constructor
    · rintro (h | ⟨r, s1, h1, h⟩)
      · rcases findInTable_cases true [c!"AND", c!"OR", c!"XOR", c!"INVALIDBOP3"] c!"." true s with h2 | ⟨i, x, h2, -⟩ | h2 <;>
          rw [h2] at h <;> simp at h
      · cases r with
        | none => simp [failTok] at h
        | some i =>
          obtain ⟨rfl, he⟩ := findInTable_some.1 h1
          rcases bind_abort.1 h with h | ⟨_, s2, h2, h⟩
          · rw [addBits_abort, ofNat_shl] at h
            exact .operation he h
          · exact absurd h (Calm.advance _ _)
    · intro h
      right
      generalize hk : s.tok.kind = k at h
      cases h with | @operation _ i _ he h =>
      rw [← hk] at he
      refine ⟨some i, s, findInTable_some.2 ⟨rfl, he⟩, ?_⟩
      exact bind_abort.2 (.inl (addBits_abort.2 (by rw [ofNat_shl]; exact h)))
  | selector a ta short shorts bytes =>
    have hsh : short < 8 := by simpa [Operand.grammatical, Operand.adds] using hgr
    have hty : ((s.op.value >>> ta) &&& 7#64 = BitVec.ofNat 64 short) ↔ bitsAt s.op.value ta 3 = short := by
      rw [← bitsAt_mask s.op.value ta 3 (by omega), ← BitVec.toNat_inj]
      simp [Nat.mod_eq_of_lt (show short < 2 ^ 64 by omega)]
    rw [Operand.run, runSelector, bind_abort]
    simp only [getValue, reduceCtorEq, false_or, Out.ok.injEq]
    constructor
    · rintro ⟨_, _, ⟨rfl, rfl⟩, h⟩
      simp only [hty] at h
      rw [runDotTable, bind_abort] at h
      rcases h with h | ⟨r, s1, h1, h⟩
      · rcases findInTable_cases true (if bitsAt s.op.value ta 3 = short then shorts else bytes) c!"." true s with h2 | ⟨i, x, h2, -⟩ | h2 <;>
          rw [h2] at h <;> simp at h
      · cases r with
        | none =>
          dsimp only at h
          rw [addBits_abort] at h
          simp at h
        | some i =>
          obtain ⟨rfl, he⟩ := findInTable_some.1 h1
          dsimp only at h
          rcases bind_abort.1 h with h | ⟨_, s2, h2, h⟩
          · exact absurd h (Calm.advance _ _)
          · obtain ⟨t, c, ht, rfl⟩ := advance_ok h2
            rw [addBits_abort, ofNat_shl] at h
            exact ⟨[t.kind], .part he h, .inr ⟨t, c, ht, rfl⟩⟩
    · rintro ⟨more, h, ha⟩
      refine ⟨_, _, ⟨rfl, rfl⟩, ?_⟩
      simp only [hty]
      rw [runDotTable, bind_abort]
      right
      generalize hk : s.tok.kind = k at h
      cases h with | @part _ _ _ i _ _ _ next he h =>
      rw [← hk] at he
      refine ⟨some i, s, findInTable_some.2 ⟨rfl, he⟩, ?_⟩
      dsimp only
      rcases ha with ha | ⟨t, c, ht, -⟩
      · simp at ha
      · refine bind_abort.2 (.inr ⟨(), { s with ctx := { s.ctx with cur := c }, tok := t }, by simp [advance, ht], ?_⟩)
        rw [addBits_abort, ofNat_shl]
        exact h
  | _ => simp [Operand.single] at ho

end Nxas
