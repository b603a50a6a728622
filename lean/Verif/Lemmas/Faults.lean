import Verif.Lemmas.Source
import Verif.Spec.Undefined
/-
Undefined behaviour of operands and rows, other than reading beyond the end of the text.
-/

namespace Nxas

open Spec

theorem textless_iff {k : Kind} : Textless k ↔ k.stringActive = false := by
  cases k <;> simp [Textless, Kind.stringActive]

theorem tableIndex_absent {x : Str} {t : List Str} : tableIndex x t = none ↔ x ∉ t := by
  induction t with
  | nil => simp [tableIndex]
  | cons y t ih =>
    unfold tableIndex
    by_cases h : x = y
    · simp [h]
    · simp [h, ih]

/-! ### Operands -/

/-- The operands with undefined behaviour of their own. -/
def Operand.wild : Operand → Bool
  | .label | .s2r _ | .ldgSize | .texType _ => true
  | _ => false

theorem table_wild : ∀ row ∈ insnTable, ∀ o ∈ row.operands, o.tame = true ∨ o.wild = true := by
  have : (insnTable.all fun r => r.operands.all fun o => o.tame || o.wild) = true := by decide +kernel
  intro row hr o ho
  simpa using List.all_eq_true.1 (List.all_eq_true.1 this row hr) o ho

theorem runLabelTarget_ub {x : Int} {s : St} {u : UB} (hu : u ≠ .readPastEnd) :
    runLabelTarget x false s = .ub u ↔ u = .signedOverflow ∧ x - s.ctx.pc - 8 < -(2 ^ 63) := by
  unfold runLabelTarget
  simp only [M.bind_def, getCtx]
  by_cases h : x - s.ctx.pc - 8 < -(2 ^ 63)
  · rw [if_pos h]; simp only [ubM, Out.ub.injEq]
    exact ⟨fun e => ⟨e.symm, h⟩, fun e => e.1.symm⟩
  · rw [if_neg h]
    simp only [h, and_false, iff_false]
    intro hc
    split at hc
    · simp [failTok] at hc
    · simp only [addBits, Bool.false_and, Bool.false_eq_true, if_false, M.bind_def] at hc
      exact hu (tokenize_ub_kind (advance_ub hc))

theorem Operand.wild_ub {o : Operand} (ho : o.wild = true) {s : St} (hpc : s.ctx.pc + 8 ≤ 2 ^ 63) {u : UB} (hu : u ≠ .readPastEnd) :
    o.run false s = .ub u ↔ OperandFault s.ctx.env o s.tok.kind u := by
  cases o with
  | label =>
    rw [Operand.run, runLabel, M.bind_def]
    simp only [getKind]
    cases hk : s.tok.kind with
    | ident name =>
      simp only [M.bind_def, getCtx]
      cases hf : s.ctx.labels.find name with
      | none =>
        simp only [failTok]
        exact ⟨by simp, nofun⟩
      | some a =>
        rw [runLabelTarget_ub hu]
        constructor
        · rintro ⟨rfl, h⟩; omega
        · nofun
    | imm x =>
      dsimp only
      rw [runLabelTarget_ub hu]
      constructor
      · rintro ⟨rfl, h⟩; exact .distance h
      · intro h
        cases h with | distance h => exact ⟨rfl, h⟩
    | _ =>
      simp only [failTok]
      exact ⟨by simp, nofun⟩
  | s2r t =>
    rw [Operand.run, runS2r, M.bind_def]
    simp only [getKind]
    have hadv : ∀ {f : Unit → M Unit} {s : St}, (advance >>= f) false s = .ub u → ∃ s1, f () false s1 = .ub u := by
      intro f s h
      rcases bind_ub h with h | ⟨_, s1, -, h⟩
      · exact absurd (tokenize_ub_kind (advance_ub h)) hu
      · exact ⟨s1, h⟩
    have hput : ∀ {b : BitVec 64} {s : St}, addBits b false s ≠ .ub u := by
      intro b s; simp [addBits]
    have hgk : ∀ {f : Kind → M Unit} {s : St}, (getKind >>= f) false s = .ub u → f s.tok.kind false s = .ub u := by
      intro f s h; exact h
    constructor
    · intro h
      have : s.tok.kind.stringActive = false ∧ u = .inactiveUnion := by
        split at h
        · obtain ⟨s1, h⟩ := hadv h
          have h := hgk h
          repeat' split at h
          all_goals first
            | exact absurd h hput
            | (obtain ⟨s2, h⟩ := hadv h; exact absurd h hput)
        · split at h
          · obtain ⟨s1, h⟩ := hadv h
            have h := hgk h
            repeat' split at h
            all_goals first
              | (simp [failTok] at h; done)
              | (obtain ⟨s2, h⟩ := hadv h; exact absurd h hput)
          · rw [M.bind_def] at h
            rcases findInTable_cases true t [] false s with h1 | ⟨i, x, h1, -⟩ | h1
            · rw [h1] at h
              dsimp only at h
              split at h
              · simp [failTok] at h
              · rename_i ha
                simp only [ubM, Out.ub.injEq] at h
                exact ⟨by simpa using ha, h.symm⟩
            · rw [h1] at h
              dsimp only at h
              obtain ⟨s2, h⟩ := hadv h; exact absurd h hput
            · unfold findInTable at h1
              repeat' split at h1
              all_goals simp at h1
              simp_all
      obtain ⟨h1, rfl⟩ := this
      exact .register (textless_iff.2 h1)
    · intro h
      cases h with | register h =>
      rw [textless_iff] at h
      have he : ∀ x, s.tok.kind.equal x = false := by
        intro x
        cases hk : s.tok.kind <;> simp [Kind.equal]
        rw [hk] at h; simp [Kind.stringActive] at h
      rw [he, he, if_neg (by simp), if_neg (by simp), M.bind_def]
      have : findInTable true t [] false s = .ok none s := by
        unfold findInTable
        cases hk : s.tok.kind <;> simp only
        rw [hk] at h; simp [Kind.stringActive] at h
      rw [this]
      simp [h, ubM]
  | ldgSize =>
    rw [Operand.run, runLdgSize, M.bind_def]
    constructor
    · intro h
      split at h
      · rename_i r s1 hr
        exfalso
        cases r with
        | none => simp [addBits] at h
        | some i =>
          dsimp only at h
          rcases bind_ub h with h | ⟨_, s2, -, h⟩
          · exact hu (tokenize_ub_kind (advance_ub h))
          · split at h
            · rcases bind_ub h with h | ⟨_, s3, -, h⟩
              · simp [getKind] at h
              · split at h
                · rcases bind_ub h with h | ⟨_, s3, -, h⟩
                  · simp [failTok] at h
                  · simp [addBits] at h
                · rcases bind_ub h with h | ⟨_, s3, -, h⟩
                  · exact hu (tokenize_ub_kind (advance_ub h))
                  · simp [addBits] at h
            · simp [M.bind_def, M.pure, addBits] at h
      all_goals rename_i hr; try simp at h
      subst h
      unfold findInTable at hr
      cases hk : s.tok.kind <;> simp only [hk] at hr
      case ident x =>
        split at hr
        · simp at hr
        · rename_i hp
          split at hr
          · simp at hr
          · rename_i ht
            simp only [Bool.false_eq_true, if_false, Out.ub.injEq] at hr
            subst hr
            have : x = '.' :: x.drop 1 := by
              cases x with
              | nil => simp at hp
              | cons y ys => simp at hp ⊢; exact hp
            rw [this]
            exact .size (tableIndex_absent.1 ht)
      all_goals simp at hr
    · intro h
      obtain ⟨k, hk⟩ : ∃ k, s.tok.kind = k := ⟨_, rfl⟩
      rw [hk] at h
      cases h with | @size name h =>
      have : findInTable false [c!"U8", c!"S8", c!"U16", c!"S16", c!"32", c!"64", c!"128", c!"U"] c!"." false s = .ub .tableOverrun := by
        unfold findInTable
        rw [hk]
        dsimp only
        rw [if_neg (by simp)]
        have := tableIndex_absent.2 h
        simp only [loadSizes] at this
        simp [this]
      rw [this]
  | texType a =>
    rw [Operand.run, runTexType, M.bind_def]
    constructor
    · intro h
      split at h
      · rename_i r s1 hr
        exfalso
        cases r with
        | none => simp [failTok] at h
        | some i =>
          dsimp only at h
          rcases bind_ub h with h | ⟨_, s2, -, h⟩
          · exact hu (tokenize_ub_kind (advance_ub h))
          · simp [addBits] at h
      all_goals rename_i hr; try simp at h
      subst h
      unfold findInTable at hr
      cases hk : s.tok.kind <;> simp only [hk] at hr
      case ident x =>
        rw [if_neg (by simp)] at hr
        split at hr
        · simp at hr
        · rename_i ht
          simp only [Bool.false_eq_true, if_false, Out.ub.injEq] at hr
          subst hr
          exact .texture (tableIndex_absent.1 ht)
      all_goals simp at hr
    · intro h
      obtain ⟨k, hk⟩ : ∃ k, s.tok.kind = k := ⟨_, rfl⟩
      rw [hk] at h
      cases h with | @texture _ name h =>
      have : findInTable false [c!"1D", c!"ARRAY_1D", c!"2D", c!"ARRAY_2D", c!"3D", c!"ARRAY_3D", c!"CUBE", c!"ARRAY_CUBE"] [] false s =
          .ub .tableOverrun := by
        unfold findInTable
        rw [hk]
        dsimp only
        rw [if_neg (by simp)]
        have := tableIndex_absent.2 h
        simp only [textureTypes] at this
        simp [this]
      rw [this]
  | _ => simp [Operand.wild] at ho

/-- The undefined behaviours of an operand are its faults. -/
theorem Operand.run_ub {row : Insn} (hr : row ∈ insnTable) {o : Operand} (ho : o ∈ row.operands) {s : St} {c0 : Cur} (h0 : TokInv c0 s)
    (hpc : s.ctx.pc + 8 ≤ 2 ^ 63) {u : UB} (hu : u ≠ .readPastEnd) : o.run false s = .ub u ↔ OperandFault s.ctx.env o s.tok.kind u := by
  rcases table_wild row hr o ho with h | h
  · constructor
    · intro h1
      exact absurd ((o.good (tokUb_past _) (Operand.tame_ub h)).2 _ _ _ h0 h1) hu
    · generalize s.tok.kind = k
      intro h1
      cases h1 <;> simp [Operand.tame, Operand.leaf] at h
  · exact Operand.wild_ub h hpc hu

theorem _root_.Nxas.Spec.OperandFault.ne_past {e : Env} {o : Operand} {k : Kind} {u : UB} (h : OperandFault e o k u) : u ≠ .readPastEnd := by
  cases h <;> simp

theorem _root_.Nxas.Spec.OperandFault.ne_none {e : Env} {o : Operand} {k : Kind} {u : UB} (h : OperandFault e o k u) : k ≠ .none := by
  cases h <;> try simp
  rename_i h
  intro hk
  rw [hk] at h
  exact h

/-! ### Rows -/

theorem runOperands_breaks {os : List Operand} {n : Nat} {s : St} {u : UB} : (runOperands os n false s).1 = .ub u ↔
    ∃ os1 o os2 s1 m, os = os1 ++ o :: os2 ∧ runOperands os1 n false s = (.ok () s1, m) ∧ o.run false s1 = .ub u := by
  constructor
  · intro h
    induction os generalizing n s with
    | nil => simp [runOperands] at h
    | cons o os ih =>
      unfold runOperands at h
      split at h
      · rename_i s1 hr
        obtain ⟨os1, o', os2, s2, m, rfl, h1, h2⟩ := ih h
        refine ⟨o :: os1, o', os2, s2, m, rfl, ?_, h2⟩
        rw [runOperands, hr]; exact h1
      · exact ⟨[], o, os, s, n, rfl, rfl, h⟩
  · rintro ⟨os1, o, os2, s1, m, rfl, h1, h2⟩
    rw [runOperands_after h1, runOperands, h2]

/-- A row has an undefined behaviour on exactly the tokens of a fault. -/
theorem parseInsn_fault {row : Insn} (hr : row ∈ insnTable) {s : St} {g : Option (Nat × Bool)}
    (hg : ∀ p n, g = some (p, n) → p ≤ 7) (hs : s.op = ⟨guardWord g, 0, 0⟩)
    (hpc : s.ctx.pc + 8 ≤ 2 ^ 63) {u : UB} (hu : u ≠ .readPastEnd) :
    (parseInsn row false s).1 = .ub u ↔ ∃ t0 c0 os o os' ks v r t c, tokenize s.ctx.cur = .ok t0 c0 ∧ Path t0 c0 ks t c ∧
      (row.flags % 2 = 1 → ∀ p n, g = some (p, n) → p = 7) ∧ row.operands = os ++ o :: os' ∧
      Sequence s.ctx.env os (field 16 (guardBits g).toNat ||| row.opcode) ks t.kind v r ∧ OperandFault s.ctx.env o t.kind u := by
  constructor
  · intro h
    unfold parseInsn at h
    cases h1 : startInsn row false s with
    | ok a s1 =>
      rw [h1] at h
      dsimp only at h
      obtain ⟨t0, c0, ht0, hf, rfl⟩ := (startInsn_iff _).1 h1
      have hinv : TokInv s.ctx.cur (s.at t0 c0 { s.op with value := s.op.value ||| row.opcode }) :=
        ⟨s.ctx.cur, Reach.refl _, ht0⟩
      have hub : (runOperands row.operands 1 false (s.at t0 c0 { s.op with value := s.op.value ||| row.opcode })).1 = .ub u := by
        have hf := runOperands_framed row.operands 1 false _ s.ctx.cur hinv
        obtain ⟨x, hx⟩ : ∃ x, runOperands row.operands 1 false (s.at t0 c0 { s.op with value := s.op.value ||| row.opcode }) = x := ⟨_, rfl⟩
        rw [hx] at h hf ⊢
        obtain ⟨x1, x2⟩ := x
        cases x1 with
        | ok a s2 => exact absurd (finishInsn_ub (tokUb_past _) hf.2 h) hu
        | _ => exact h
      obtain ⟨os, o, os', s1, m, e1, e2, e3⟩ := runOperands_breaks.1 hub
      have hgram := table_grammatical row hr
      obtain ⟨-, ks, v, r, t, c, hp, hq, rfl⟩ := (runOperands_iff (fun o h => hgram o (by rw [e1]; simp [h])) hinv.proper _).1 e2
      have hinv2 := runOperands_framed os 1 false _ s.ctx.cur hinv
      rw [e2] at hinv2
      have hfault := (Operand.run_ub hr (o := o) (by rw [e1]; simp) hinv2.2 hpc hu).1 e3
      refine ⟨t0, c0, os, o, os', ks, v, r, t, c, ht0, hp, ?_, e1, ?_, hfault⟩
      · intro hfl
        rw [hs] at hf
        exact (noPred_iff hr hg).1 (hf hfl)
      · rw [← guardWord_eq hg]
        simpa [St.at, hs, Ctx.env] using hq
    | ub v =>
      rw [h1] at h
      obtain rfl : v = u := by simpa using h
      exact absurd (startInsn_ub (tokUb_past _) (Reach.refl _) h1) hu
    | _ => rw [h1] at h; simp at h
  · rintro ⟨t0, c0, os, o, os', ks, v, r, t, c, ht0, hp, hfl, e1, hq, hfault⟩
    have hinv : TokInv s.ctx.cur (s.at t0 c0 { s.op with value := s.op.value ||| row.opcode }) :=
      ⟨s.ctx.cur, Reach.refl _, ht0⟩
    have h1 := (startInsn_iff (i := row) (s := s) _).2 ⟨t0, c0, ht0,
      fun hf => by rw [hs]; exact (noPred_iff hr hg).2 (hfl hf), rfl⟩
    have hgram := table_grammatical row hr
    have h2 := (runOperands_iff (os := os) (n := 1) (fun o h => hgram o (by rw [e1]; simp [h])) hinv.proper _).2
      ⟨rfl, ks, v, r, t, c, hp, by
        rw [← guardWord_eq hg] at hq
        simpa [St.at, hs, Ctx.env] using hq, rfl⟩
    have hinv2 := runOperands_framed os 1 false _ s.ctx.cur hinv
    rw [h2] at hinv2
    have h3 := (Operand.run_ub hr (o := o) (by rw [e1]; simp) hinv2.2 hpc hu).2 hfault
    have h4 := (runOperands_breaks (n := 1)).2 ⟨os, o, os', _, _, e1, h2, h3⟩
    unfold parseInsn
    rw [h1]
    dsimp only
    obtain ⟨x, hx⟩ : ∃ x, runOperands row.operands 1 false (s.at t0 c0 { s.op with value := s.op.value ||| row.opcode }) = x := ⟨_, rfl⟩
    rw [hx] at h4 ⊢
    obtain ⟨x1, x2⟩ := x
    dsimp only at h4
    subst h4
    rfl

/-! ### Rows before the one with the fault -/

/-- A row with the operands `a` fails, or has the same undefined behaviour, on a text on which the operands `b` have a
    fault. -/
def follows (a b : List Operand) : Bool :=
  b.all Operand.tame ||
  (match b with
  | .expect x _ _ :: _ => stuck (.ident x) a
  | _ => false) ||
  (match a, b with
  | .dotTable none _ _ :: a', .dotTable none _ _ :: .expect x _ _ :: _ => stuck (.ident x) a'
  | _, _ => false) ||
  (match a, b with
  | a1 :: a2 :: .ldgSize :: _, b1 :: b2 :: .ldgSize :: b' => a1 == b1 && a2 == b2 && a1.steady && a2.steady && a1.tame && a2.tame &&
      b'.all Operand.tame
  | _, _ => false) ||
  (match a, b with
  | a1 :: a2 :: .ccTests _ _ :: .comma :: _, [b1, b2, .label] => a1 == b1 && a2 == b2 && a1.steady && a2.steady && a1.tame && a2.tame
  | _, _ => false)

def followsTable : List Insn → Bool
  | [] => true
  | r :: rs => (rs.all fun r' => r'.mnemonic != r.mnemonic || follows r.operands r'.operands) && followsTable rs

theorem table_follows : followsTable insnTable = true := by decide +kernel

theorem followsTable_split {pre post : List Insn} {row row' : Insn} (h : followsTable (pre ++ row :: post) = true)
    (hr : row' ∈ pre) (hm : row'.mnemonic = row.mnemonic) : follows row'.operands row.operands = true := by
  induction pre with
  | nil => simp at hr
  | cons r pre ih =>
    rw [List.cons_append, followsTable, Bool.and_eq_true] at h
    rcases List.mem_cons.1 hr with rfl | hr
    · have := List.all_eq_true.1 h.1 row (by simp)
      simpa [hm] using this
    · exact ih h.2 hr

/-- The outcome is an error or the undefined behaviour `u`. -/
def Out.yields (r : Out Unit) (u : UB) : Prop := (∃ e s, r = .fail e s) ∨ r = .ub u

theorem _root_.Nxas.Spec.OperandFault.not_tame {e : Env} {o : Operand} {k : Kind} {u : UB} (h : OperandFault e o k u) : o.tame = false := by
  cases h <;> simp [Operand.tame, Operand.leaf]

theorem follows_run {a os os' : List Operand} {o : Operand} (hf : follows a (os ++ o :: os') = true)
    (hg : ∀ x ∈ os, x.grammatical = true) {s : St} (hs : s.tok.kind.proper) {ks : List Kind} {t : Token} {c : Cur}
    (hp : Path s.tok s.ctx.cur ks t c) {v v' : BitVec 64} {r : BitVec 32} (hq : Sequence s.ctx.env os v ks t.kind v' r) {u : UB}
    (h : OperandFault s.ctx.env o t.kind u) (n : Nat) : (runOperands a n false s).1.yields u := by
  have ht := h.not_tame
  unfold follows at hf
  simp only [Bool.or_eq_true] at hf
  rcases hf with (((hf | hf) | hf) | hf) | hf
  · have := List.all_eq_true.1 hf o (by simp)
    rw [ht] at this
    simp at this
  · split at hf
    · rename_i x p q b' heq
      cases os with
      | nil =>
        simp only [List.nil_append, List.cons.injEq] at heq
        rw [heq.1] at ht; simp [Operand.tame, Operand.leaf] at ht
      | cons o1 os =>
        simp only [List.cons_append, List.cons.injEq] at heq
        obtain ⟨rfl, -⟩ := heq
        generalize hkk : t.kind = kk at hq
        cases hq with
        | cons hx hq =>
          obtain ⟨-, rfl, -⟩ := hx
          have hk : s.tok.kind = .ident x := by rw [hp.head]; rfl
          rw [← hk] at hf
          exact .inl (stuck_run hf)
    · simp at hf
  · split at hf
    · rename_i p1 t1 a' p2 t2 x q1 q2 b' heq
      match os, heq with
      | [], heq =>
        simp only [List.nil_append, List.cons.injEq] at heq
        rw [heq.1] at ht; simp [Operand.tame, Operand.leaf] at ht
      | [o1], heq =>
        simp only [List.cons_append, List.nil_append, List.cons.injEq] at heq
        rw [heq.2.1] at ht; simp [Operand.tame, Operand.leaf] at ht
      | o1 :: o2 :: os, heq =>
        simp only [List.cons_append, List.cons.injEq] at heq
        obtain ⟨rfl, rfl, -⟩ := heq
        generalize hkk : t.kind = kk at hq
        cases hq with
        | cons hx hq => cases hq with
          | cons hy hq =>
            obtain ⟨-, ⟨k, i, rfl, -⟩ | ⟨d, hd, -⟩⟩ := hx
            · obtain ⟨-, rfl, -⟩ := hy
              obtain ⟨hk0, t3, c3, h3, h4⟩ := hp
              rw [runOperands]
              cases hr : (Operand.dotTable none p1 t1).run false s with
              | ok z s1 =>
                obtain ⟨ks1, b1, r1, t1', c1, hp1, ha1, rfl⟩ := (Operand.run_iff _ (by rfl) s hs _).1 hr
                obtain ⟨-, ⟨k', i', rfl, -⟩ | ⟨d, hd, -⟩⟩ := ha1
                · obtain ⟨-, t2', c2, h2, e1, e2⟩ := hp1
                  obtain ⟨rfl, rfl⟩ : t3 = t1' ∧ c3 = c1 := by
                    rw [h3, ← e1, ← e2] at h2; simpa using h2
                  have hk : t3.kind = .ident x := by rw [h4.head]; rfl
                  rw [← hk] at hf
                  exact .inl (stuck_run (n := n + 1) (s := s.set (clears (Operand.dotTable none p1 t1)) b1 r1 t3 c3) hf)
                · simp at hd
              | fail e s' => exact .inl ⟨e, s', rfl⟩
              | exit e =>
                exfalso
                rw [Operand.run, runDotTable, M.bind_def] at hr
                rcases findInTable_cases true t1 c!"." false s with h1 | ⟨i, x, h1, -⟩ | h1 <;> rw [h1] at hr
                · simp [failTok] at hr
                · simp [M.bind_def, advance, h3, addBits] at hr
                · simp at hr
              | abort => exact absurd hr (Quiet.operand _ _)
              | ub w =>
                exfalso
                rw [Operand.run, runDotTable, M.bind_def] at hr
                rcases findInTable_cases true t1 c!"." false s with h1 | ⟨i, x, h1, -⟩ | h1
                · rw [h1] at hr; simp [failTok] at hr
                · rw [h1] at hr; simp [M.bind_def, advance, h3, addBits] at hr
                · unfold findInTable at h1
                  repeat' split at h1
                  all_goals simp at h1
                  simp_all
            · simp at hd
    · simp at hf
  · split at hf
    · rename_i a1 a2 a' b1 b2 b' heq
      simp only [Bool.and_eq_true, beq_iff_eq] at hf
      obtain ⟨⟨⟨⟨⟨⟨rfl, rfl⟩, h1⟩, h2⟩, h3⟩, h4⟩, h5⟩ := hf
      match os, heq with
      | [], heq =>
        simp only [List.nil_append, List.cons.injEq] at heq
        rw [heq.1, h3] at ht; simp at ht
      | [o1], heq =>
        simp only [List.cons_append, List.nil_append, List.cons.injEq] at heq
        rw [heq.2.1, h4] at ht; simp at ht
      | [o1, o2], heq =>
        simp only [List.cons_append, List.nil_append, List.cons.injEq] at heq
        obtain ⟨rfl, rfl, rfl, -⟩ := heq
        have hst : ∀ x ∈ [o1, o2], x.steady = true := by simp [h1, h2]
        obtain ⟨s1, ks1, v1, r1, e1, e2, e3, e4⟩ := steady_run (pre := [o1, o2]) (rest := []) (ks' := []) hst hg hs
          (by rw [List.append_nil]; exact hp) hq
        cases e4
        obtain ⟨rfl, rfl⟩ := e3
        rw [show o1 :: o2 :: .ldgSize :: a' = [o1, o2] ++ .ldgSize :: a' from rfl, runOperands_after (e1 n), runOperands]
        have hsz : Operand.ldgSize.run false s1 = .ub u := by
          generalize hkk : s1.tok.kind = kk at h
          cases h with | @size name h =>
          rw [Operand.run, runLdgSize, M.bind_def]
          have : findInTable false [c!"U8", c!"S8", c!"U16", c!"S16", c!"32", c!"64", c!"128", c!"U"] c!"." false s1 = .ub .tableOverrun := by
            unfold findInTable
            rw [hkk]
            dsimp only
            rw [if_neg (by simp)]
            have := tableIndex_absent.2 h
            simp only [loadSizes] at this
            simp [this]
          rw [this]
        rw [hsz]
        exact .inr rfl
      | o1 :: o2 :: o3 :: os, heq =>
        simp only [List.cons_append, List.cons.injEq] at heq
        have := List.all_eq_true.1 h5 o (by rw [← heq.2.2.2]; simp)
        rw [ht] at this; simp at this
    · simp at hf
  · split at hf
    · rename_i a1 a2 p1 t1 a' b1 b2 heq
      simp only [Bool.and_eq_true, beq_iff_eq] at hf
      obtain ⟨⟨⟨⟨⟨rfl, rfl⟩, h1⟩, h2⟩, h3⟩, h4⟩ := hf
      match os, heq with
      | [], heq =>
        simp only [List.nil_append, List.cons.injEq] at heq
        rw [heq.1, h3] at ht; simp at ht
      | [o1], heq =>
        simp only [List.cons_append, List.nil_append, List.cons.injEq] at heq
        rw [heq.2.1, h4] at ht; simp at ht
      | [o1, o2], heq =>
        simp only [List.cons_append, List.nil_append, List.cons.injEq] at heq
        obtain ⟨rfl, rfl, rfl, -⟩ := heq
        have hst : ∀ x ∈ [o1, o2], x.steady = true := by simp [h1, h2]
        obtain ⟨s1, ks1, v1, r1, e1, e2, e3, e4⟩ := steady_run (pre := [o1, o2]) (rest := []) (ks' := []) hst hg hs
          (by rw [List.append_nil]; exact hp) hq
        cases e4
        obtain ⟨rfl, rfl⟩ := e3
        rw [show o1 :: o2 :: .ccTests p1 t1 :: .comma :: a' = [o1, o2] ++ .ccTests p1 t1 :: .comma :: a' from rfl, runOperands_after (e1 n), runOperands]
        have hx : ∃ x, s1.tok.kind = .imm x := by
          generalize s1.tok.kind = kk at h
          cases h with | @distance x h => exact ⟨x, rfl⟩
        obtain ⟨x, hx⟩ := hx
        rw [show (Operand.ccTests p1 t1).run false s1 = .ok () { s1 with op := { s1.op with value := s1.op.value ||| 15#64 <<< p1 } } from ?_]
        · dsimp only
          rw [runOperands]
          refine .inl ?_
          simp [Operand.run, runComma, M.bind_def, confirm, hx]
        · simp [Operand.run, runCcTests, M.bind_def, getKind, hx, Kind.equal, addBits]
      | o1 :: o2 :: o3 :: os, heq => simp at heq
    · simp at hf

/-- A row before the one with a fault fails or has the same undefined behaviour. -/
theorem earlier_row_fault {pre post : List Insn} {row row' : Insn} (hs : insnTable = pre ++ row :: post) (hr : row' ∈ pre)
    (hm : row'.mnemonic = row.mnemonic) {s : St} {t0 t : Token} {c0 c : Cur} {ks : List Kind} {os os' : List Operand} {o : Operand}
    {v v' : BitVec 64} {r : BitVec 32} {u : UB} (h0 : tokenize s.ctx.cur = .ok t0 c0) (hp : Path t0 c0 ks t c)
    (hos : row.operands = os ++ o :: os') (hq : Sequence s.ctx.env os v ks t.kind v' r) (h : OperandFault s.ctx.env o t.kind u) :
    (parseInsn row' false s).1.yields u := by
  have hf := followsTable_split (hs ▸ table_follows) hr hm
  rw [hos] at hf
  unfold parseInsn
  cases h1 : startInsn row' false s with
  | ok a s1 =>
    dsimp only
    obtain ⟨t1, c1, h2, -, rfl⟩ := (startInsn_iff _).1 h1
    rw [h0] at h2
    obtain ⟨rfl, rfl⟩ : t0 = t1 ∧ c0 = c1 := by simpa using h2
    have hinv : TokInv s.ctx.cur (s.at t0 c0 { s.op with value := s.op.value ||| row'.opcode }) :=
      ⟨s.ctx.cur, Reach.refl _, h0⟩
    have hgram := table_grammatical row (by rw [hs]; simp)
    have := follows_run hf (fun x hx => hgram x (by rw [hos]; simp [hx])) hinv.proper hp hq h 1
    obtain ⟨x, hx⟩ : ∃ x, runOperands row'.operands 1 false (s.at t0 c0 { s.op with value := s.op.value ||| row'.opcode }) = x := ⟨_, rfl⟩
    rw [hx] at this ⊢
    obtain ⟨x1, x2⟩ := x
    rcases this with ⟨e, s', h⟩ | h <;> (dsimp only at h; subst h)
    · exact .inl ⟨e, s', rfl⟩
    · exact .inr rfl
  | fail e s' => exact .inl ⟨e, s', rfl⟩
  | exit e =>
    exfalso
    unfold startInsn at h1
    simp only [M.bind_def, addBits, Bool.false_and, Bool.false_eq_true, if_false, advance, h0, getValue] at h1
    split at h1 <;> simp [failTok, M.pure] at h1
  | abort => exact absurd h1 (Quiet.startInsn _ _)
  | ub w =>
    exfalso
    unfold startInsn at h1
    simp only [M.bind_def, addBits, Bool.false_and, Bool.false_eq_true, if_false, advance, h0, getValue] at h1
    split at h1 <;> simp [failTok, M.pure] at h1

/-- The row loop has an undefined behaviour on exactly the tokens of a fault of a row with the mnemonic. -/
theorem tryRows_fault {s : St} {mn : Str} {g : Option (Nat × Bool)} (hk : s.tok.kind = .ident mn)
    (hg : ∀ p n, g = some (p, n) → p ≤ 7) (hs : s.op = ⟨guardWord g, 0, 0⟩) (hpc : s.ctx.pc + 8 ≤ 2 ^ 63) {u : UB} (hu : u ≠ .readPastEnd) :
    tryRows s.tok s insnTable none false s = .ub u ↔ ∃ row t0 c0 os o os' ks v r t c, row ∈ insnTable ∧ row.mnemonic = mn ∧
      tokenize s.ctx.cur = .ok t0 c0 ∧ Path t0 c0 ks t c ∧
      (row.flags % 2 = 1 → ∀ p n, g = some (p, n) → p = 7) ∧ row.operands = os ++ o :: os' ∧
      Sequence s.ctx.env os (field 16 (guardBits g).toNat ||| row.opcode) ks t.kind v r ∧ OperandFault s.ctx.env o t.kind u := by
  have hmn : ∀ row : Insn, s.tok.equal row.mnemonic = true ↔ row.mnemonic = mn := by
    intro row
    rw [Token.equal_iff, hk]
    simp [eq_comm]
  constructor
  · intro h
    rcases tryRows_spec s.tok s false insnTable none s rfl rfl with ⟨pre, row, post, h1, h2, h3, h4⟩ | ⟨-, h4⟩
    · rw [h4] at h
      have hin : row ∈ insnTable := by rw [h1]; simp
      unfold rowOut at h
      cases hr : (parseInsn row false s).1 with
      | ub w =>
        rw [hr] at h
        obtain rfl : w = u := by simpa [rowResult] using h
        obtain ⟨t0, c0, os, o, os', ks, v, r, t, c, e1, e2⟩ := (parseInsn_fault hin hg hs hpc hu).1 hr
        exact ⟨row, t0, c0, os, o, os', ks, v, r, t, c, hin, (hmn row).1 h2.1, e1, e2⟩
      | _ => rw [hr] at h; simp [rowResult] at h
    · rw [h4] at h; simp at h
  · rintro ⟨row, t0, c0, os, o, os', ks, v, r, t, c, hin, hm, e1, e2, e3, e4, e5, e6⟩
    have hrow := (parseInsn_fault hin hg hs hpc hu).2 ⟨t0, c0, os, o, os', ks, v, r, t, c, e1, e2, e3, e4, e5, e6⟩
    obtain ⟨pre, post, h1⟩ := List.append_of_mem hin
    have hdec : Decides s.tok false s row := by
      refine ⟨(hmn row).2 hm, ?_⟩
      intro e s' h
      unfold rowOut at h
      rw [hrow] at h
      simp at h
    rcases tryRows_spec s.tok s false insnTable none s rfl rfl with ⟨pre', row', post', h1', h2', h3', h4'⟩ | ⟨h3', -⟩
    · rw [h4']
      have hout : rowOut false s row' = .ub u := by
        unfold rowOut
        by_cases hrr : row' ∈ pre
        · rcases earlier_row_fault h1 hrr (((hmn row').1 h2'.1).trans hm.symm) e1 e2 e4 e5 e6 with ⟨e, s', h⟩ | h
          · exact absurd h (h2'.2 e s')
          · exact h
        · have : row' = row := by
            have hsplit := h1.symm.trans h1'
            rcases List.append_eq_append_iff.1 hsplit with ⟨as, ha, hb⟩ | ⟨as, ha, hb⟩
            · cases as with
              | nil => simp at hb; exact hb.1.symm
              | cons a as =>
                simp at hb
                exact absurd hdec (h3' row (by rw [ha]; simp [hb.1]))
            · cases as with
              | nil => simp at hb; exact hb.1
              | cons a as =>
                simp at hb
                exact absurd (by rw [ha]; simp [hb.1]) hrr
          rw [this]; exact hrow
      rw [hout]; rfl
    · exact absurd hdec (h3' row hin)

end Nxas
