import Verif.Lemmas.Decode
/-
The operands of an instruction, by evaluation.
-/

namespace Nxas

open Spec

/-- The tokens from one position to another. -/
def toksTo : Nat → Kind → Cur → Kind → Cur → Option (List Kind)
  | 0, _, _, _, _ => none
  | n + 1, k, c, k', c' =>
    if k = k' ∧ c = c' then some []
    else match tokenize c with
      | .ok t c1 => (toksTo n t.kind c1 k' c').map (k :: ·)
      | _ => none

theorem toksTo_toks {n : Nat} {k k' : Kind} {c c' : Cur} {ks : List Kind} (h : toksTo n k c k' c' = some ks) :
    Toks k c ks k' c' := by
  induction n generalizing k c ks with
  | zero => simp [toksTo] at h
  | succ n ih =>
    rw [toksTo] at h
    split at h
    · rename_i hk
      obtain ⟨rfl, rfl⟩ := hk
      cases h
      exact .nil
    · split at h
      · rename_i t c1 ht
        rw [Option.map_eq_some_iff] at h
        obtain ⟨ks', h, rfl⟩ := h
        exact .cons ht (ih h)
      · cases h

/-- The tokens of each operand. -/
def ranArgs (dbg : Bool) : List Operand → St → Option (List (List Kind))
  | [], _ => some []
  | o :: os, s =>
    match o.run dbg s with
    | .ok _ s1 =>
      if s1.tok.kind = .none then none
      else match toksTo (s.ctx.cur.text.length + 3) s.tok.kind s.ctx.cur s1.tok.kind s1.ctx.cur with
        | some ks => (ranArgs dbg os s1).map (ks :: ·)
        | none => none
    | _ => none

theorem ranArgs_ran {dbg : Bool} {os : List Operand} {s s' : St} {n sc : Nat} {args : List (List Kind)}
    (h : ranArgs dbg os s = some args) (hr : runOperands os n dbg s = (.ok () s', sc)) : Ran dbg os s args s' := by
  induction os generalizing n s args with
  | nil =>
    simp only [runOperands, Prod.mk.injEq, Out.ok.injEq, true_and] at hr
    simp only [ranArgs, Option.some.injEq] at h
    rw [← hr.1, ← h]
    exact .nil
  | cons o os ih =>
    rw [ranArgs] at h
    rw [runOperands] at hr
    cases ho : o.run dbg s with
    | ok a u =>
      rw [ho] at h hr
      dsimp only at h hr
      split at h
      · cases h
      · rename_i hk
        split at h
        · rename_i ks ht
          rw [Option.map_eq_some_iff] at h
          obtain ⟨args', h, rfl⟩ := h
          exact .cons ho (toksTo_toks ht) hk (ih h hr)
        · cases h
    | _ => rw [ho] at hr; simp at hr

/-- The row that encodes the `i`-th instruction, and its operands. -/
def instrArgs (dbg : Bool) (code : Str) (i : Nat) : Option (Nat × List (List Kind) × Op) :=
  match instrRow dbg code i with
  | some (n, op) =>
    match instr dbg code i, insnTable[n]? with
    | some (c, _), some row =>
      match advance dbg c.fresh with
      | .ok _ s1 =>
        match parseOptions (s1.ctx.cur.text.length + 2) dbg s1 with
        | .ok _ s2 =>
          match prologueBody dbg { s2 with ctx := { s2.ctx with pc := alignPc s2.ctx.pc } } with
          | .ok _ s3 =>
            match startInsn row dbg s3 with
            | .ok _ t => (ranArgs dbg row.operands t).map (n, ·, op)
            | _ => none
          | _ => none
        | _ => none
      | _ => none
    | _, _ => none
  | none => none

theorem instr_of_args {dbg : Bool} {code : Str} {i n : Nat} {args : List (List Kind)} {op : Op}
    (h : instrArgs dbg code i = some (n, args, op)) : ∃ row, insnTable[n]? = some row ∧ Instr dbg code i row args op := by
  unfold instrArgs at h
  split at h
  · rename_i n' op' hrow
    split at h
    · rename_i c s row hi hn
      have hat := instr_at hi
      obtain ⟨st⟩ := hat.steps
      obtain ⟨e, he, hm⟩ := st.encodingAt
      have hre : row = e.row ∧ op' = s.op := by
        unfold instrRow at hrow
        rw [hi] at hrow
        dsimp only at hrow
        rw [st.first] at hrow
        dsimp only at hrow
        rw [st.options] at hrow
        dsimp only at hrow
        rw [st.prologue] at hrow
        simp only [Option.map_eq_some_iff, Prod.mk.injEq] at hrow
        obtain ⟨n'', hf, rfl, rfl⟩ := hrow
        refine ⟨?_, rfl⟩
        obtain rfl := st.index hf
        rw [he]
        rw [congrArg (fun l => l[st.pre.length]?) st.split] at hn
        simpa using hn.symm
      obtain ⟨rfl, rfl⟩ := hre
      rw [st.first] at h
      dsimp only at h
      rw [st.options] at h
      dsimp only at h
      rw [st.prologue] at h
      dsimp only at h
      rw [← hm, e.mnemStart] at h
      dsimp only at h
      simp only [Option.map_eq_some_iff, Prod.mk.injEq] at h
      obtain ⟨args', h, rfl, rfl, rfl⟩ := h
      exact ⟨e.row, hn, c, s, e, hat, rfl, ranArgs_ran h e.operands, rfl⟩
    · cases h
  · cases h

end Nxas
