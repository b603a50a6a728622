import Verif.Lemmas.Annots
/-
A table row accepts exactly the instructions that fit it.
-/

namespace Nxas

open Spec

theorem table_grammatical : ∀ row ∈ insnTable, ∀ o ∈ row.operands, o.grammatical = true := by
  have : (insnTable.all fun r => r.operands.all Operand.grammatical) = true := by decide +kernel
  intro row hr o ho
  exact List.all_eq_true.1 (List.all_eq_true.1 this row hr) o ho

/-- The state at the end of a piece of an instruction. -/
def St.at (s : St) (t : Token) (c : Cur) (op : Op) : St := ⟨{ s.ctx with cur := c }, t, op⟩

/-- Operands one after the other. -/
theorem runOperands_iff {os : List Operand} (ho : ∀ o ∈ os, o.grammatical = true) {n sc : Nat} {s : St}
    (hs : s.tok.kind.proper) (s' : St) : runOperands os n false s = (.ok () s', sc) ↔
      sc = n + os.length ∧ ∃ ks v r t c, Path s.tok s.ctx.cur ks t c ∧
        Sequence s.ctx.env os s.op.value ks t.kind v r ∧ s' = s.at t c ⟨v, s.op.reuse ||| r, s.op.sched⟩ := by
  induction os generalizing n s with
  | nil =>
    simp only [runOperands, Prod.mk.injEq, Out.ok.injEq, true_and, List.length_nil, Nat.add_zero]
    constructor
    · rintro ⟨rfl, rfl⟩
      exact ⟨rfl, [], _, 0, _, _, ⟨rfl, rfl⟩, .nil, by simp [St.at]⟩
    · rintro ⟨rfl, ks, v, r, t, c, hp, hq, rfl⟩
      cases hq
      obtain ⟨rfl, rfl⟩ := hp
      simp [St.at]
  | cons o os ih =>
    have key : runOperands (o :: os) n false s = (.ok () s', sc) ↔
        ∃ u, o.run false s = .ok () u ∧ runOperands os (n + 1) false u = (.ok () s', sc) := by
      rw [runOperands]
      cases o.run false s <;> simp
    rw [key]
    simp only [o.run_iff (ho o (by simp)) s hs]
    constructor
    · rintro ⟨u, ⟨ks, b, r, t, c, hp, ha, rfl⟩, h⟩
      obtain ⟨h1, ks', v, r', t', c', hp', hq, rfl⟩ := (ih (fun o' h => ho o' (by simp [h])) (hp.proper hs).1).1 h
      refine ⟨by rw [h1, List.length_cons]; omega, _, v, _, t', c', Path.append_iff.2 ⟨_, _, hp, hp'⟩,
        .cons (r := r) (r' := r') ?_ hq, ?_⟩
      · have := hp'.head; simp only [St.set] at this
        rw [← this]; exact ha
      · simp [St.at, St.set, BitVec.or_assoc]
    · rintro ⟨h1, ks, v, r, t, c, hp, hq, rfl⟩
      cases hq with
      | @cons _ _ _ b _ ks ks' _ r r' ha hq =>
        obtain ⟨t1, c1, hp1, hp2⟩ := Path.append_iff.1 hp
        refine ⟨_, ⟨ks, b, r, t1, c1, hp1, by rw [hp2.head]; exact ha, rfl⟩, ?_⟩
        refine (ih (fun o' h => ho o' (by simp [h])) (hp1.proper hs).1).2
          ⟨by rw [h1, List.length_cons]; omega, ks', v, r', t, c, hp2, hq, ?_⟩
        simp [St.at, St.set, BitVec.or_assoc]

theorem guardWord_eq {g : Option (Nat × Bool)} (hg : ∀ p n, g = some (p, n) → p ≤ 7) :
    guardWord g = field 16 (guardBits g).toNat := by
  cases g with
  | none => rfl
  | some pn =>
    obtain ⟨p, n⟩ := pn
    have key : ∀ (p : Fin 8) (n : Bool), guardWord (some (p.val, n)) = field 16 (guardBits (some (p.val, n))).toNat := by
      decide
    exact key ⟨p, by have := hg p n rfl; omega⟩ n

theorem noPred_iff {row : Insn} (hr : row ∈ insnTable) {g : Option (Nat × Bool)}
    (hg : ∀ p n, g = some (p, n) → p ≤ 7) :
    ~~~(guardWord g ||| row.opcode) &&& (7#64 <<< 16) = 0#64 ↔ ∀ p n, g = some (p, n) → p = 7 := by
  have hz : ∀ i, 16 ≤ i → i < 20 → row.opcode.getLsbD i = false := by
    intro i h1 h2
    cases hb : row.opcode.getLsbD i with
    | false => rfl
    | true =>
      obtain ⟨f, hf, h⟩ := (inF_setBits _ _).2 hb
      have := List.all_eq_true.1 (table_guard _ hr) f hf
      simp [Field.apart] at this
      omega
  have h7 : ∀ b, b < 64 → ((7#64 <<< 16).getLsbD b = true ↔ 16 ≤ b ∧ b < 19) := by
    have key : ∀ b : Fin 64, (7#64 <<< 16).getLsbD b.val = true ↔ 16 ≤ b.val ∧ b.val < 19 := by decide
    exact fun b hb => key ⟨b, hb⟩
  have step : ~~~(guardWord g ||| row.opcode) &&& (7#64 <<< 16) = 0#64 ↔
      ∀ b, 16 ≤ b → b < 19 → (guardWord g).getLsbD b = true := by
    constructor
    · intro h b h1 h2
      have hb : (~~~(guardWord g ||| row.opcode) &&& (7#64 <<< 16)).getLsbD b = false := by
        rw [h]; exact BitVec.getLsbD_zero
      rw [BitVec.getLsbD_and, (h7 b (by omega)).2 ⟨h1, h2⟩, Bool.and_true, BitVec.getLsbD_not,
        decide_eq_true (show b < 64 by omega),
        Bool.true_and, BitVec.getLsbD_or, hz b h1 (by omega), Bool.or_false] at hb
      simpa using hb
    · intro h
      apply BitVec.eq_of_getLsbD_eq
      intro b hb
      rw [BitVec.getLsbD_and, BitVec.getLsbD_not, decide_eq_true hb, Bool.true_and, BitVec.getLsbD_or]
      by_cases hc : 16 ≤ b ∧ b < 19
      · rw [h b hc.1 hc.2]; simp
      · have : (7#64 <<< 16).getLsbD b = false := by
          cases hx : (7#64 <<< 16).getLsbD b with
          | false => rfl
          | true => exact absurd ((h7 b hb).1 hx) hc
        rw [this, Bool.and_false]
        exact BitVec.getLsbD_zero.symm
  rw [step]
  cases g with
  | none =>
    have : ∀ b, 16 ≤ b → b < 19 → (guardWord none).getLsbD b = true := by
      intro b h1 h2
      exact (h7 b (by omega)).2 ⟨h1, h2⟩
    exact ⟨fun _ p n h => by simp at h, fun _ => this⟩
  | some pn =>
    obtain ⟨p, n⟩ := pn
    have hp := hg p n rfl
    have key : ∀ (p : Fin 8) (n : Bool), ((guardWord (some (p.val, n))).getLsbD 16 = true ∧
        (guardWord (some (p.val, n))).getLsbD 17 = true ∧ (guardWord (some (p.val, n))).getLsbD 18 = true) ↔
        p.val = 7 := by decide
    have := key ⟨p, by omega⟩ n
    constructor
    · intro h p' n' hpn
      simp only [Option.some.injEq, Prod.mk.injEq] at hpn
      rw [← hpn.1]
      exact this.1 ⟨h 16 (by omega) (by omega), h 17 (by omega) (by omega), h 18 (by omega) (by omega)⟩
    · intro h
      obtain ⟨h1, h2, h3⟩ := this.2 (h p n rfl)
      intro b hb1 hb2
      rcases (show b = 16 ∨ b = 17 ∨ b = 18 by omega) with hb | hb | hb
      · rw [hb]; exact h1
      · rw [hb]; exact h2
      · rw [hb]; exact h3

theorem startInsn_iff {i : Insn} {s : St} (s' : St) : startInsn i false s = .ok () s' ↔
    ∃ t c, tokenize s.ctx.cur = .ok t c ∧
      (i.flags % 2 = 1 → (~~~(s.op.value ||| i.opcode) &&& (7#64 <<< 16)) = 0#64) ∧
      s' = s.at t c { s.op with value := s.op.value ||| i.opcode } := by
  constructor
  · intro h
    obtain ⟨t, c, h1, -, h2, h3⟩ := startInsn_inv h
    exact ⟨t, c, h1, h2, h3⟩
  · rintro ⟨t, c, h1, h2, rfl⟩
    unfold startInsn
    simp only [bind_iff, addBits_iff, advance_iff, getValue_iff, ite_iff, failTok_iff, pure_iff]
    refine ⟨(), _, rfl, (), _, ⟨t, c, h1, rfl⟩, _, _, ⟨rfl, rfl⟩, .inr ⟨?_, rfl, trivial⟩⟩
    rintro ⟨h3, h4⟩
    exact h4 (h2 h3)

theorem finishInsn_iff {s : St} {c0 : Cur} (hi : TokInv c0 s) (s' : St) : finishInsn false s = .ok () s' ↔
    ∃ as ks t c, Path s.tok s.ctx.cur ks t c ∧ t.kind = .semicolon ∧ AnnotsText as ks ∧
      s' = s.at t c ⟨s.op.value, s.op.reuse, BitVec.ofNat 32 (schedBits as)⟩ := by
  have key : finishInsn false s = .ok () s' ↔ ∃ r s1, schedLoop (s.ctx.cur.text.length + 1) {} false s = .ok r s1 ∧
      s1.tok.kind = .semicolon ∧ s' = { s1 with op := { s1.op with sched := r.raw } } := by
    constructor
    · exact finishInsn_inv
    · rintro ⟨r, s1, h1, h2, rfl⟩
      unfold finishInsn
      rw [bind_iff]
      refine ⟨(), _, ?_, confirm_iff.2 ⟨rfl, h2⟩⟩
      unfold assembleSched
      rw [bind_iff]
      exact ⟨r, s1, h1, rfl⟩
  rw [key]
  simp only [schedLoop_iff hi (Nat.lt_succ_self _)]
  constructor
  · rintro ⟨r, s1, ⟨as, ks, t, c, hp, hne, ha, hfr, rfl, rfl⟩, h2, rfl⟩
    refine ⟨as, ks, t, c, hp, h2, ha, ?_⟩
    rw [annots_raw ha]; simp [St.at, St.put]
  · rintro ⟨as, ks, t, c, hp, ht, ha, rfl⟩
    refine ⟨_, _, ⟨as, ks, t, c, hp, by rw [ht]; simp, ha, ?_, rfl, rfl⟩, ht, ?_⟩
    · intro a _; cases a <;> simp [Sched.free]
    · rw [annots_raw ha]; simp [St.at, St.put]

/-- A row accepts exactly the instructions that fit it. -/
theorem parseInsn_iff {row : Insn} (hr : row ∈ insnTable) {s : St} {g : Option (Nat × Bool)}
    (hg : ∀ p n, g = some (p, n) → p ≤ 7) (hs : s.op = ⟨guardWord g, 0, 0⟩) (s' : St) :
    (parseInsn row false s).1 = .ok () s' ↔
      ∃ t0 c0 ks op t c, tokenize s.ctx.cur = .ok t0 c0 ∧ Path t0 c0 ks t c ∧ t.kind = .semicolon ∧
        RowText s.ctx.env row g ks op ∧ s' = s.at t c op := by
  constructor
  · intro h
    obtain ⟨⟨t1, t2, sc, h1, h2, h3⟩⟩ := parseInsn_inv (i := row) (dbg := false) (s := s) (s' := s')
      (sc := (parseInsn row false s).2) (by rw [← h])
    obtain ⟨t0, c0, ht0, hf, rfl⟩ := (startInsn_iff _).1 h1
    have hinv : TokInv s.ctx.cur (s.at t0 c0 { s.op with value := s.op.value ||| row.opcode }) :=
      ⟨s.ctx.cur, Reach.refl _, ht0⟩
    obtain ⟨-, ks, v, r, t, c, hp, hq, rfl⟩ := (runOperands_iff (table_grammatical row hr) hinv.proper _).1 h2
    have hinv2 := (runOperands_framed row.operands 1 false _ s.ctx.cur hinv)
    rw [h2] at hinv2
    obtain ⟨as, ks', t', c', hp', ht', ha, rfl⟩ := (finishInsn_iff hinv2.2 _).1 h3
    refine ⟨t0, c0, ks ++ ks', _, t', c', ht0, Path.append_iff.2 ⟨_, _, hp, hp'⟩, ht',
      .mk (v := v) (r := r) ?_ ?_ ha, ?_⟩
    · intro hfl
      rw [hs] at hf
      exact (noPred_iff hr hg).1 (hf hfl)
    · rw [← guardWord_eq hg]
      have := hp'.head
      simp only [St.at, ht'] at this
      rw [← this]
      simpa [St.at, hs, Ctx.env] using hq
    · simp [St.at, hs]
  · rintro ⟨t0, c0, _, _, t, c, ht0, hp, ht, ⟨hfl, hq, ha⟩, rfl⟩
    rename_i ks ks' v r as
    obtain ⟨t1, c1, hp1, hp2⟩ := Path.append_iff.1 hp
    have hinv : TokInv s.ctx.cur (s.at t0 c0 { s.op with value := s.op.value ||| row.opcode }) :=
      ⟨s.ctx.cur, Reach.refl _, ht0⟩
    have h1 := (startInsn_iff (i := row) (s := s) _).2 ⟨t0, c0, ht0,
      fun hf => by rw [hs]; exact (noPred_iff hr hg).2 (hfl hf), rfl⟩
    have h2 := (runOperands_iff (n := 1) (table_grammatical row hr) hinv.proper _).2
      ⟨rfl, ks, v, r, t1, c1, hp1, by
        have := hp2.head
        rw [ht] at this
        rw [this]
        rw [← guardWord_eq hg] at hq
        simpa [St.at, hs, Ctx.env] using hq, rfl⟩
    have hinv2 := (runOperands_framed row.operands 1 false _ s.ctx.cur hinv)
    rw [h2] at hinv2
    have h3 := (finishInsn_iff hinv2.2 _).2 ⟨as, ks', t, c, hp2, ht, ha, rfl⟩
    unfold parseInsn
    rw [h1]
    dsimp only
    rw [h2]
    dsimp only
    rw [h3]
    simp [St.at, hs]

theorem parseInsn_release {row : Insn} {dbg : Bool} {s : St} (h : (parseInsn row dbg s).1 ≠ .abort) :
    (parseInsn row false s).1 = (parseInsn row dbg s).1 := by
  cases dbg with
  | false => rfl
  | true =>
    rcases parseInsn_debug row s with h1 | h1
    · exact absurd h1 h
    · rw [h1]

theorem Path.unique {t t1 t2 : Token} {c c1 c2 : Cur} {ks1 ks2 : List Kind} (h1 : Path t c ks1 t1 c1)
    (h2 : Path t c ks2 t2 c2) (hl : ks1.length = ks2.length) : ks1 = ks2 ∧ t1 = t2 ∧ c1 = c2 := by
  induction ks1 generalizing t c ks2 with
  | nil =>
    cases ks2 with
    | nil => exact ⟨rfl, h1.1.trans h2.1.symm, h1.2.trans h2.2.symm⟩
    | cons => simp at hl
  | cons k ks1 ih =>
    cases ks2 with
    | nil => simp at hl
    | cons k' ks2 =>
      obtain ⟨rfl, t3, c3, h3, h4⟩ := h1
      obtain ⟨rfl, t4, c4, h5, h6⟩ := h2
      rw [h3] at h5
      cases h5
      obtain ⟨rfl, rfl, rfl⟩ := ih h4 h6 (by simpa using hl)
      exact ⟨rfl, rfl, rfl⟩

/-- An accepted instruction is a text of the grammar, and its word, reuse flags and scheduling bits are
    the ones the grammar gives. -/
theorem Encoding.syntax {dbg : Bool} {c : Ctx} {s : St} (e : Encoding dbg c s) :
    ∃ ks op, Reads e.mnem.ctx.cur (ks ++ [.semicolon]) s.ctx.cur ∧ s.op = op ∧
      RowText ⟨c.labels.find, alignPc c.pc⟩ e.row e.guard ks op ∧
      ∀ row' ∈ e.pre, row'.mnemonic = e.row.mnemonic → ∀ op', ¬ RowText ⟨c.labels.find, alignPc c.pc⟩ row' e.guard ks op' := by
  have henv : e.mnem.ctx.env = ⟨c.labels.find, alignPc c.pc⟩ := by
    unfold Ctx.env; rw [e.mnemLabels, e.mnemPc]
  have hr := parseInsn_release (row := e.row) (dbg := dbg) (s := e.mnem) (by rw [e.accepted]; simp)
  rw [e.accepted] at hr
  obtain ⟨t0, c0, ks, op, t, c', h1, h2, h3, h4, h5⟩ := (parseInsn_iff e.inTable e.guardWf e.mnemOp _).1 hr
  rw [henv] at h4
  refine ⟨ks, op, ?_, ?_, h4, ?_⟩
  · have := Toks.reads h1 h2.toks
    rw [h3] at this
    have hc : s.ctx.cur = c' := by rw [congrArg (fun x : St => x.ctx.cur) e.doneEq, h5]; rfl
    rw [hc]
    exact this
  · exact (congrArg St.op e.doneEq).trans (congrArg St.op h5)
  · intro row' hrow' hmn op' hrt
    have hin : row' ∈ insnTable := by rw [e.split]; simp [hrow']
    have hok := (parseInsn_iff hin e.guardWf e.mnemOp _).2 ⟨t0, c0, ks, op', t, c', h1, h2, h3, henv ▸ hrt, rfl⟩
    refine e.failed row' hrow' ⟨?_, ?_⟩
    · rw [Token.equal_iff, hmn]; exact e.mnemTok
    · intro er s' hf
      have := parseInsn_release (row := row') (dbg := dbg) (s := e.mnem) (by
        change (parseInsn row' dbg e.mnem).1 = _ at hf
        rw [hf]; simp)
      rw [hok] at this
      change (parseInsn row' dbg e.mnem).1 = _ at hf
      rw [hf] at this
      simp at this

theorem InstrAt.syntax {dbg : Bool} {code : Str} {i : Nat} {c : Ctx} {s : St} (h : InstrAt dbg code i c s) :
    ∃ opts ks, Reads c.cur (opts ++ ks) s.ctx.cur ∧ InstrText ⟨c.labels.find, addressOf i⟩ ks s.op ∧
      ∀ t c1, tokenize c.cur = .ok t c1 → t.isOption = false → opts = [] := by
  obtain ⟨e⟩ := h.encoding
  obtain ⟨ks, op, h1, h2, h3, h4⟩ := e.syntax
  rw [h.address] at h3 h4
  subst h2
  refine ⟨e.optToks, _, ?_, InstrText.mk e.split h3 h4, e.noOption⟩
  have := e.mnemReads.append h1
  simpa using this

end Nxas
