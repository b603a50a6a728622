import Verif.Lemmas.Program
import Verif.Lemmas.Tokens
/-
Instructions of a given source, found by evaluation: used for the examples beside the theorems.
-/

namespace Nxas

open Spec

/-- The `i`-th instruction of a source. -/
def instr (dbg : Bool) (code : Str) : Nat → Option (Ctx × St)
  | 0 =>
    match genLabels (visible code) with
    | .ok labels =>
      match parseInstruction insnTable dbg (Ctx.fresh ⟨⟨visible code, 0, 0⟩, labels, 0, {}⟩) with
      | .ok true s => some (⟨⟨visible code, 0, 0⟩, labels, 0, {}⟩, s)
      | _ => none
    | .error _ => none
  | i + 1 =>
    match instr dbg code i with
    | some (_, s) =>
      match parseInstruction insnTable dbg s.ctx.fresh with
      | .ok true s' => some (s.ctx, s')
      | _ => none
    | none => none

theorem instr_at {dbg : Bool} {code : Str} {i : Nat} {c : Ctx} {s : St} (h : instr dbg code i = some (c, s)) :
    InstrAt dbg code i c s := by
  induction i generalizing c s with
  | zero =>
    unfold instr at h
    split at h
    · split at h
      · rename_i labels hg _ s' hp
        simp only [Option.some.injEq, Prod.mk.injEq] at h
        obtain ⟨rfl, rfl⟩ := h
        exact .first hg hp
      · simp at h
    · simp at h
  | succ i ih =>
    unfold instr at h
    split at h
    · split at h
      · rename_i s' hi _ s'' hp
        simp only [Option.some.injEq, Prod.mk.injEq] at h
        obtain ⟨rfl, rfl⟩ := h
        exact .next (ih hi) hp
      · simp at h
    · simp at h

/-- The next `n` tokens. -/
def readN : Nat → Cur → Option (List Kind × Cur)
  | 0, c => some ([], c)
  | n + 1, c =>
    match tokenize c with
    | .ok t c' => (readN n c').map fun r => (t.kind :: r.1, r.2)
    | _ => none

theorem readN_reads {n : Nat} {c c' : Cur} {ks : List Kind} (h : readN n c = some (ks, c')) :
    Reads c ks c' := by
  induction n generalizing c ks with
  | zero =>
    simp only [readN, Option.some.injEq, Prod.mk.injEq] at h
    obtain ⟨rfl, rfl⟩ := h
    exact .nil
  | succ n ih =>
    unfold readN at h
    split at h
    · rename_i t c1 ht
      simp only [Option.map_eq_some_iff, Prod.mk.injEq] at h
      obtain ⟨⟨ks', c2⟩, h1, rfl, rfl⟩ := h
      exact .cons ht (ih h1)
    · simp at h

/-- The `i`-th instruction begins with the tokens `ks` and has the word `w`. -/
def instrCheck (dbg : Bool) (code : Str) (i : Nat) (ks : List Kind) (w : BitVec 64) : Bool :=
  match instr dbg code i with
  | some (c, s) =>
    match readN ks.length c.cur with
    | some (ks', _) => decide (ks' = ks) && decide (s.op.value = w)
    | none => false
  | none => false

theorem instrCheck_at {dbg : Bool} {code : Str} {i : Nat} {ks : List Kind} {w : BitVec 64}
    (h : instrCheck dbg code i ks w = true) :
    ∃ c s cur, InstrAt dbg code i c s ∧ Reads c.cur ks cur ∧ s.op.value = w := by
  unfold instrCheck at h
  split at h
  · split at h
    · rename_i c s hi _ ks' cur hr
      simp only [Bool.and_eq_true, decide_eq_true_eq] at h
      obtain ⟨rfl, rfl⟩ := h
      exact ⟨c, s, cur, instr_at hi, readN_reads hr, rfl⟩
    · simp at h
  · simp at h

end Nxas
