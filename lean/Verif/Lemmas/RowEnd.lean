import Verif.Lemmas.Opening
import Verif.Lemmas.Faults
/-
After which tokens a row of the table asks for another one.
-/

namespace Nxas

open Spec

/-! ### Annotations -/

theorem ask_schedImmediate (m : Nat) (msg : Msg) : Asks (schedImmediate m msg) never := by
  refine .never fun s h => ?_
  unfold schedImmediate at h
  rw [M.bind_def] at h
  simp only [getKind] at h
  cases hk : s.tok.kind <;> simp only [hk] at h
  case imm v => split at h <;> simp [failTok, M.pure] at h
  all_goals simp [failTok] at h

/-- The beginning of an annotation that has not been seen. -/
def opensStep (r : Sched) (ks : List Kind) : Prop :=
  ks = [] ∨ ks = [.ident c!"DEP"] ∨ ∃ a : Annot, ∃ rest, a.Text (.at :: ks ++ rest) ∧ r.free a

theorem ask_schedStep (r : Sched) : Asks (schedStep r) (fun _ _ _ ks => opensStep r ks) := by
  unfold schedStep
  have h15 := den_schedImmediate 15
  have h5 := den_schedImmediate 5
  have a15 := ask_schedImmediate 15
  have a5 := ask_schedImmediate 5
  apply Asks.conv
  · repeat' (first
      | exact h15 _ | exact h5 _ | exact a15 _ | exact a5 _
      | with_reducible exact Asks.pure _ | with_reducible exact Asks.getKind
      | with_reducible exact Asks.failTok _
      | with_reducible exact Asks.advance
      | with_reducible exact Den.pure _ | with_reducible exact Den.getKind
      | with_reducible exact Den.failTok _
      | with_reducible exact Den.advance
      | with_reducible apply Asks.bind
      | with_reducible apply Asks.ite
      | with_reducible apply Den.bind
      | with_reducible apply Den.ite
      | intro _)
  intro e v k ks _
  sema
  unfold opensStep
  rw [show (∃ a : Annot, ∃ rest, a.Text (.at :: ks ++ rest) ∧ r.free a) ↔ ∃ rest, ∃ a : Annot, a.Text (.at :: (ks ++ rest)) ∧ r.free a from
    exists_comm]
  simp only [ex_annot, Sched.free, Bool.or_eq_true, equal_iff]
  have hex : ∀ {m : Nat} {P : Prop}, (∃ (rest : List Kind) (n : Nat), n ≤ m ∧ rest = [.imm n] ∧ P) ↔ P := by
    intro m P
    exact ⟨fun ⟨_, _, _, _, h⟩ => h, fun h => ⟨_, 0, Nat.zero_le _, rfl, h⟩⟩
  rcases ks with _ | ⟨k1, _ | ⟨k2, _ | ⟨k3, ks⟩⟩⟩
  all_goals simp only [ex_cons, ex_nil]
  · simp
  · simp only [List.cons_append, List.nil_append]
    rcases Classical.em (k1 = .ident c!"WAIT") with rfl | h1
    · simp [hex]
    rcases Classical.em (k1 = .ident c!"WB") with rfl | h2
    · simp [hex]
    rcases Classical.em (k1 = .ident c!"RB") with rfl | h3
    · simp [hex]
    rcases Classical.em (k1 = .ident c!"DEP") with rfl | h4
    · simp
    rcases Classical.em (k1 = .ident c!"Y") with rfl | h5
    · simp
    rcases Classical.em (k1 = .ident c!"YIELD") with rfl | h6
    · simp
    simp [h1, h2, h3, h4, h5, h6]
  · simp only [List.cons_append, List.nil_append]
    rcases Classical.em (k1 = .ident c!"WAIT") with rfl | h1
    · simp
      exact ⟨fun ⟨h, x, a, b⟩ => ⟨[], x, b, ⟨a, rfl⟩, h⟩, fun ⟨_, x, b, ⟨a, _⟩, h⟩ => ⟨h, x, a, b⟩⟩
    rcases Classical.em (k1 = .ident c!"WB") with rfl | h2
    · simp
      exact ⟨fun ⟨h, x, a, b⟩ => ⟨[], x, b, ⟨a, rfl⟩, h⟩, fun ⟨_, x, b, ⟨a, _⟩, h⟩ => ⟨h, x, a, b⟩⟩
    rcases Classical.em (k1 = .ident c!"RB") with rfl | h3
    · simp
      exact ⟨fun ⟨h, x, a, b⟩ => ⟨[], x, b, ⟨a, rfl⟩, h⟩, fun ⟨_, x, b, ⟨a, _⟩, h⟩ => ⟨h, x, a, b⟩⟩
    rcases Classical.em (k1 = .ident c!"DEP") with rfl | h4
    · simp
      exact ⟨fun ⟨x, ⟨a, b⟩, h⟩ => ⟨[], x, b, ⟨a, rfl⟩, h⟩, fun ⟨_, x, b, ⟨a, _⟩, h⟩ => ⟨x, ⟨a, b⟩, h⟩⟩
    simp [h1, h2, h3, h4]
  · simp

/-- The loop reads beyond the end of the text after annotations and the beginning of another one. -/
theorem schedLoop_past {n : Nat} {r : Sched} {s : St} {c0 : Cur} (hi : TokInv c0 s) (hn : s.ctx.cur.text.length < n) :
    schedLoop n r false s = .ub .readPastEnd ↔ ∃ ks, Dies s.ctx.cur ks ∧ ∃ as ks1 ks2, s.tok.kind :: ks = ks1 ++ .at :: ks2 ∧
      AnnotsText as ks1 ∧ (∀ a ∈ as, r.free a) ∧ opensStep (as.foldl Sched.add r) ks2 := by
  induction n generalizing r s with
  | zero => omega
  | succ n ih =>
    unfold schedLoop
    rw [M.bind_def]
    simp only [getKind]
    by_cases hat : s.tok.kind = .at
    · rw [if_pos hat]
      constructor
      · intro h
        rcases bind_ub h with h | ⟨r1, s1, h1, h2⟩
        · obtain ⟨ks, hd, ho⟩ := (ask_schedStep r s hi.proper).1 h
          exact ⟨ks, hd, [], [], ks, by rw [hat]; rfl, .nil, by simp, ho⟩
        · have hs := schedStep_shorter hi h1
          have hf := framed_closed.schedStep r false s c0 hi
          rw [h1] at hf
          obtain ⟨ksa, _, _, t1, c1, hp1, ⟨rfl, rfl, a, k0, ks', rfl, ht, hfree, rfl⟩, rfl⟩ :=
            (den_schedStep r s hi.proper _ _).1 h1
          obtain ⟨ksb, hd, as, ks1, ks2, he, hA, hfr, ho⟩ := (ih hf.2 (by omega)).1 h2
          have hk0 : k0 = .at := by rw [← hp1.1]; exact hat
          subst hk0
          obtain ⟨kk, e1, e2⟩ := Dies.of_path hp1 hd
          refine ⟨kk, e2, a :: as, (.at :: ks') ++ ks1, ks2, ?_, .cons ht ?_ hA, ?_, ho⟩
          · rw [e1, List.append_assoc]; exact congrArg _ he
          · intro a' ha'
            obtain ⟨ks3, h3⟩ := hA.text ha'
            exact ((Sched.free_add ht h3).1 (hfr a' ha')).2
          · intro a' ha'
            rcases List.mem_cons.1 ha' with rfl | ha'
            · exact hfree
            · obtain ⟨ks3, h3⟩ := hA.text ha'
              exact ((Sched.free_add ht h3).1 (hfr a' ha')).1
      · rintro ⟨ks, hd, as, ks1, ks2, he, hA, hfr, ho⟩
        cases hA with
        | nil =>
          obtain rfl : ks = ks2 := by simpa [hat] using he
          rw [M.bind_def, (ask_schedStep r s hi.proper).2 ⟨ks, hd, ho⟩]
        | @cons a as ksa ksb ht hcl hA =>
          obtain ⟨ks', rfl⟩ : ∃ ks', ksa = .at :: ks' := by cases ht <;> exact ⟨_, rfl⟩
          obtain ⟨k2, kk, hkk⟩ : ∃ k2 kk, ksb ++ .at :: ks2 = k2 :: kk := by cases ksb <;> exact ⟨_, _, rfl⟩
          rw [List.append_assoc, hkk] at he
          obtain ⟨t1, c1, hp1, rfl, hd1⟩ := hd.split he
          have h1 : schedStep r false s = .ok (r.add a) (s.put 0 0 t1 c1) :=
            (den_schedStep r s hi.proper _ _).2 ⟨_, 0, 0, t1, c1, hp1,
              ⟨rfl, rfl, a, _, ks', rfl, ht, hfr a (by simp), rfl⟩, rfl⟩
          have hs := schedStep_shorter hi h1
          have hf := framed_closed.schedStep r false s c0 hi
          rw [h1] at hf
          rw [M.bind_def, h1]
          refine (ih hf.2 (by omega)).2 ⟨kk, hd1, as, ksb, ks2, hkk.symm, hA, ?_, ho⟩
          intro a' ha'
          obtain ⟨ks3, h3⟩ := hA.text ha'
          exact (Sched.free_add ht h3).2 ⟨hfr a' (by simp [ha']), hcl a' ha'⟩
    · rw [if_neg hat]
      simp only [M.pure, reduceCtorEq, false_iff]
      rintro ⟨ks, hd, as, ks1, ks2, he, hA, -, -⟩
      refine hat ?_
      cases hA with
      | nil => simp at he; exact he.1
      | cons ht _ _ => cases ht <;> simp at he <;> exact he.1

theorem foldl_free {as : List Annot} {ks ks' : List Kind} (h : AnnotsText as ks) {r : Sched} {a : Annot} (ha : a.Text ks') :
    (as.foldl Sched.add r).free a ↔ r.free a ∧ ∀ a' ∈ as, a'.clash a = false := by
  induction h generalizing r with
  | nil => simp
  | cons h _ _ ih =>
    rw [List.foldl_cons, ih, Sched.free_add h ha]
    simp [and_assoc]

theorem opensStep_iff {as : List Annot} {ks ks' : List Kind} (h : AnnotsText as ks) :
    opensStep (as.foldl Sched.add {}) ks' ↔ AnnotOpen as (.at :: ks') := by
  have h0 : ∀ a, ({} : Sched).free a := by intro a; cases a <;> simp [Sched.free]
  constructor
  · rintro (rfl | rfl | ⟨a, rest, ha, hf⟩)
    · exact .start
    · exact .dep
    · exact .more ha ((foldl_free h ha).1 hf).2
  · intro ho
    cases ho with
    | start => exact .inl rfl
    | dep => exact .inr (.inl rfl)
    | more ha hc => exact .inr (.inr ⟨_, _, ha, (foldl_free h ha).2 ⟨h0 _, hc⟩⟩)

theorem _root_.Nxas.Spec.AnnotOpen.head {as : List Annot} {ks : List Kind} (h : AnnotOpen as ks) : ∃ ks', ks = .at :: ks' := by
  cases h <;> exact ⟨_, rfl⟩

theorem finishInsn_past {s : St} {c0 : Cur} (hi : TokInv c0 s) : finishInsn false s = .ub .readPastEnd ↔
    ∃ ks, Dies s.ctx.cur ks ∧ ∃ as ks1 ks2, s.tok.kind :: ks = ks1 ++ ks2 ∧ AnnotsText as ks1 ∧ AnnotOpen as ks2 := by
  have key : finishInsn false s = .ub .readPastEnd ↔ schedLoop (s.ctx.cur.text.length + 1) {} false s = .ub .readPastEnd := by
    unfold finishInsn
    constructor
    · intro h
      rcases bind_ub h with h | ⟨_, s1, -, h⟩
      · unfold assembleSched at h
        rcases bind_ub h with h | ⟨_, s1, -, h⟩
        · exact h
        · simp [setSched] at h
      · unfold confirm at h; split at h <;> simp at h
    · intro h
      rw [M.bind_def]
      unfold assembleSched
      rw [M.bind_def, h]
  rw [key, schedLoop_past hi (Nat.lt_succ_self _)]
  constructor
  · rintro ⟨ks, hd, as, ks1, ks2, he, hA, -, ho⟩
    exact ⟨ks, hd, as, ks1, _, he, hA, (opensStep_iff hA).1 ho⟩
  · rintro ⟨ks, hd, as, ks1, ks2, he, hA, ho⟩
    obtain ⟨ks2, rfl⟩ := ho.head
    exact ⟨ks, hd, as, ks1, ks2, he, hA, by intro a _; cases a <;> simp [Sched.free], (opensStep_iff hA).2 ho⟩

/-! ### Rows -/

theorem _root_.Nxas.Spec.AnnotsText.start {as : List Annot} {ks1 ks2 : List Kind} (h : AnnotsText as ks1) (ho : AnnotOpen as ks2) :
    ∃ ks, ks1 ++ ks2 = .at :: ks := by
  obtain ⟨ks', rfl⟩ := ho.head
  cases h with
  | nil => exact ⟨_, rfl⟩
  | cons h => cases h <;> exact ⟨_, rfl⟩

/-- A row reads beyond the end of the text exactly after the tokens that open it. -/
theorem parseInsn_past {row : Insn} (hr : row ∈ insnTable) {s : St} {g : Option (Nat × Bool)}
    (hg : ∀ p n, g = some (p, n) → p ≤ 7) (hs : s.op = ⟨guardWord g, 0, 0⟩) :
    (parseInsn row false s).1 = .ub .readPastEnd ↔ ∃ ks, Dies s.ctx.cur ks ∧ RowOpen s.ctx.env row g ks := by
  have hgram := table_grammatical row hr
  have hask := table_askable row hr
  have hv : ∀ x : BitVec 64, guardWord g ||| x = field 16 (guardBits g).toNat ||| x := by
    intro x; rw [guardWord_eq hg]
  constructor
  · intro h
    unfold parseInsn at h
    cases h1 : startInsn row false s with
    | ok a s1 =>
      rw [h1] at h
      dsimp only at h
      obtain ⟨t0, c0, ht0, hf, rfl⟩ := (startInsn_iff _).1 h1
      have hfl : row.flags % 2 = 1 → ∀ p n, g = some (p, n) → p = 7 := by
        intro hfl
        rw [hs] at hf
        exact (noPred_iff hr hg).1 (hf hfl)
      have hinv : TokInv s.ctx.cur (s.at t0 c0 { s.op with value := s.op.value ||| row.opcode }) :=
        ⟨s.ctx.cur, Reach.refl _, ht0⟩
      have hcase : (runOperands row.operands 1 false (s.at t0 c0 { s.op with value := s.op.value ||| row.opcode })).1 = .ub .readPastEnd ∨
          ∃ s2 m, runOperands row.operands 1 false (s.at t0 c0 { s.op with value := s.op.value ||| row.opcode }) = (.ok () s2, m) ∧
            finishInsn false s2 = .ub .readPastEnd := by
        obtain ⟨x, hx⟩ : ∃ x, runOperands row.operands 1 false (s.at t0 c0 { s.op with value := s.op.value ||| row.opcode }) = x := ⟨_, rfl⟩
        rw [hx] at h ⊢
        obtain ⟨x1, x2⟩ := x
        cases x1 with
        | ok a s2 => exact .inr ⟨s2, x2, rfl, h⟩
        | _ => exact .inl h
      rcases hcase with hub | ⟨s2, m, h2, h3⟩
      · obtain ⟨os, o, os', s1, m, e1, e2, e3⟩ := runOperands_breaks.1 hub
        obtain ⟨-, ks, v, r, t, c, hp, hq, rfl⟩ := (runOperands_iff (fun o h => hgram o (by rw [e1]; simp [h])) hinv.proper _).1 e2
        have hinv2 := runOperands_framed os 1 false _ s.ctx.cur hinv
        rw [e2] at hinv2
        obtain ⟨ks', hd, rest, k', b, r', hacc⟩ := (ask_operand o (hask o (by rw [e1]; simp)) _ hinv2.2.proper).1 e3
        obtain ⟨kk, f1, f2⟩ := Dies.of_path hp hd
        refine ⟨t0.kind :: kk, ⟨t0, c0, ht0, rfl, f2⟩, ?_⟩
        rw [show t0.kind :: kk = ks ++ t.kind :: ks' from f1]
        refine .operand hfl e1 (v := v) (r := r) ?_ ⟨rest, k', b, r', hacc⟩
        rw [← hv]
        simpa [St.at, hs, Ctx.env] using hq
      · obtain ⟨-, ks, v, r, t, c, hp, hq, rfl⟩ := (runOperands_iff hgram hinv.proper _).1 h2
        have hinv2 := runOperands_framed row.operands 1 false _ s.ctx.cur hinv
        rw [h2] at hinv2
        obtain ⟨ks', hd, as, ks1, ks2, he, hA, ho⟩ := (finishInsn_past hinv2.2).1 h3
        obtain ⟨kk, f1, f2⟩ := Dies.of_path hp hd
        refine ⟨t0.kind :: kk, ⟨t0, c0, ht0, rfl, f2⟩, ?_⟩
        rw [show t0.kind :: kk = ks ++ t.kind :: ks' from f1]
        have he' : t.kind :: ks' = ks1 ++ ks2 := he
        have hat : t.kind = .at := by
          obtain ⟨kz, hz⟩ := hA.start ho
          rw [hz] at he'
          simpa using (List.cons.inj he').1
        rw [he']
        refine .annots hfl (v := v) (r := r) ?_ hA ho
        rw [← hv, ← hat]
        simpa [St.at, hs, Ctx.env] using hq
    | ub v =>
      rw [h1] at h
      obtain rfl : v = .readPastEnd := by simpa using h
      refine ⟨[], ?_, .bare⟩
      unfold startInsn at h1
      simp only [M.bind_def, addBits, Bool.false_and, Bool.false_eq_true, if_false, getValue] at h1
      unfold Dies
      unfold advance at h1
      dsimp only at h1
      cases ht : tokenize s.ctx.cur with
      | ok t c =>
        rw [ht] at h1
        dsimp only at h1
        split at h1 <;> simp [failTok, M.pure] at h1
      | ub w => rw [ht] at h1; simpa using h1
      | exit e => rw [ht] at h1; simp at h1
    | _ => rw [h1] at h; simp at h
  · rintro ⟨ks0, hd0, hopen⟩
    have hstart : ∀ {k0 : Kind} {kk : List Kind}, Dies s.ctx.cur (k0 :: kk) → (row.flags % 2 = 1 → ∀ p n, g = some (p, n) → p = 7) →
        ∃ t0 c0, tokenize s.ctx.cur = .ok t0 c0 ∧ t0.kind = k0 ∧ Dies c0 kk ∧
          startInsn row false s = .ok () (s.at t0 c0 { s.op with value := s.op.value ||| row.opcode }) := by
      intro k0 kk hd hfl
      obtain ⟨t0, c0, h1, h2, h3⟩ := hd
      exact ⟨t0, c0, h1, h2, h3, (startInsn_iff _).2 ⟨t0, c0, h1, fun hf => by rw [hs]; exact (noPred_iff hr hg).2 (hfl hf), rfl⟩⟩
    cases hopen with
    | bare =>
      unfold Dies at hd0
      have h1 : startInsn row false s = .ub .readPastEnd := by
        unfold startInsn
        simp only [M.bind_def, addBits, Bool.false_and, Bool.false_eq_true, if_false, getValue]
        unfold advance
        dsimp only
        rw [hd0]
      unfold parseInsn
      rw [h1]
    | @operand os os' o ks ks' k v r hfl e1 hq ho =>
      obtain ⟨k0, kk, hkk⟩ : ∃ k0 kk, ks ++ k :: ks' = k0 :: kk := by cases ks <;> exact ⟨_, _, rfl⟩
      rw [hkk] at hd0
      obtain ⟨t0, c0, ht0, hk0, hd, h1⟩ := hstart hd0 hfl
      rw [← hk0] at hkk
      obtain ⟨t, c, hp, rfl, hd1⟩ := hd.split hkk.symm
      have hinv : TokInv s.ctx.cur (s.at t0 c0 { s.op with value := s.op.value ||| row.opcode }) :=
        ⟨s.ctx.cur, Reach.refl _, ht0⟩
      have h2 := (runOperands_iff (os := os) (n := 1) (fun o h => hgram o (by rw [e1]; simp [h])) hinv.proper _).2
        ⟨rfl, ks, v, r, t, c, hp, by
          rw [← hv] at hq
          simpa [St.at, hs, Ctx.env] using hq, rfl⟩
      have hinv2 := runOperands_framed os 1 false _ s.ctx.cur hinv
      rw [h2] at hinv2
      obtain ⟨rest, k', b, r', hacc⟩ := ho
      have h3 := (ask_operand o (hask o (by rw [e1]; simp)) _ hinv2.2.proper).2 ⟨ks', hd1, rest, k', b, r', hacc⟩
      have h4 := (runOperands_breaks (n := 1)).2 ⟨os, o, os', _, _, e1, h2, h3⟩
      unfold parseInsn
      rw [h1]
      dsimp only
      obtain ⟨x, hx⟩ : ∃ x, runOperands row.operands 1 false (s.at t0 c0 { s.op with value := s.op.value ||| row.opcode }) = x := ⟨_, rfl⟩
      rw [hx] at h4 ⊢
      obtain ⟨x1, x2⟩ := x
      dsimp only at h4
      subst h4
      rfl
    | @annots ks ks1 ks2 v r as hfl hq hA ho =>
      obtain ⟨kz, hz⟩ := hA.start ho
      rw [hz] at hd0
      obtain ⟨k0, kk, hkk⟩ : ∃ k0 kk, ks ++ .at :: kz = k0 :: kk := by cases ks <;> exact ⟨_, _, rfl⟩
      rw [hkk] at hd0
      obtain ⟨t0, c0, ht0, hk0, hd, h1⟩ := hstart hd0 hfl
      rw [← hk0] at hkk
      obtain ⟨t, c, hp, hat, hd1⟩ := hd.split hkk.symm
      have hinv : TokInv s.ctx.cur (s.at t0 c0 { s.op with value := s.op.value ||| row.opcode }) :=
        ⟨s.ctx.cur, Reach.refl _, ht0⟩
      have h2 := (runOperands_iff (os := row.operands) (n := 1) hgram hinv.proper _).2
        ⟨rfl, ks, v, r, t, c, hp, by
          rw [← hv, ← hat] at hq
          simpa [St.at, hs, Ctx.env] using hq, rfl⟩
      have hinv2 := runOperands_framed row.operands 1 false _ s.ctx.cur hinv
      rw [h2] at hinv2
      have h3 := (finishInsn_past hinv2.2).2 ⟨kz, hd1, as, ks1, ks2, by rw [hz, ← hat]; rfl, hA, ho⟩
      unfold parseInsn
      rw [h1]
      dsimp only
      rw [h2]
      exact h3

/-! ### Rows before the one that asks for a token -/

/-- The tokens `ks` open a row with the operands `os`. -/
inductive Gapes (e : Env) : List Operand → List Kind → Prop
  | done {as : List Annot} {ks1 ks2 : List Kind} (ha : AnnotsText as ks1) (h : AnnotOpen as ks2) : Gapes e [] (ks1 ++ ks2)
  | here {v : BitVec 64} {o : Operand} {os : List Operand} {k : Kind} {ks : List Kind} (h : Opening e v o (k :: ks)) :
      Gapes e (o :: os) (k :: ks)
  | next {v b : BitVec 64} {r : BitVec 32} {o : Operand} {os : List Operand} {k : Kind} {ks ks' : List Kind}
      (h : Accepts e v o ks k b r) (hs : Gapes e os (k :: ks')) : Gapes e (o :: os) (ks ++ k :: ks')

/-- The tokens `ks` lead a row with the operands `os` to a fault. -/
inductive Trips (e : Env) : List Operand → List Kind → Prop
  | here {o : Operand} {os : List Operand} {k : Kind} {ks : List Kind} {u : UB} (h : OperandFault e o k u) : Trips e (o :: os) (k :: ks)
  | next {v b : BitVec 64} {r : BitVec 32} {o : Operand} {os : List Operand} {k : Kind} {ks ks' : List Kind}
      (h : Accepts e v o ks k b r) (hs : Trips e os (k :: ks')) : Trips e (o :: os) (ks ++ k :: ks')

theorem headD_split (ks : List Kind) (k : Kind) (x : List Kind) : ∃ y, ks ++ k :: x = ks.headD k :: y := by
  cases ks <;> exact ⟨_, rfl⟩

theorem Gapes.after {e : Env} {os os' : List Operand} {v v' : BitVec 64} {ks x : List Kind} {k : Kind} {r : BitVec 32}
    (h : Sequence e os v ks k v' r) (hs : Gapes e os' (k :: x)) : Gapes e (os ++ os') (ks ++ k :: x) := by
  induction h with
  | nil => exact hs
  | @cons o os v b v' ks ks' k r r' h _ ih =>
    have := ih hs
    obtain ⟨y, hy⟩ := headD_split ks' k x
    rw [hy] at this
    rw [List.append_assoc, hy]
    exact .next h this

theorem Trips.after {e : Env} {os os' : List Operand} {v v' : BitVec 64} {ks x : List Kind} {k : Kind} {r : BitVec 32}
    (h : Sequence e os v ks k v' r) (hs : Trips e os' (k :: x)) : Trips e (os ++ os') (ks ++ k :: x) := by
  induction h with
  | nil => exact hs
  | @cons o os v b v' ks ks' k r r' h _ ih =>
    have := ih hs
    obtain ⟨y, hy⟩ := headD_split ks' k x
    rw [hy] at this
    rw [List.append_assoc, hy]
    exact .next h this

theorem _root_.Nxas.Spec.RowOpen.gapes {e : Env} {row : Insn} {g : Option (Nat × Bool)} {ks : List Kind} (h : RowOpen e row g ks)
    (hne : ks ≠ []) : Gapes e row.operands ks := by
  cases h with
  | bare => exact absurd rfl hne
  | operand _ hs ho h =>
    rw [hs]
    exact .after ho (.here h)
  | annots _ ho ha h =>
    have := Gapes.done (e := e) ha h
    obtain ⟨y, hy⟩ := ha.start h
    rw [hy] at this ⊢
    have := Gapes.after ho this
    rwa [List.append_nil] at this

theorem Gapes.ne_nil {e : Env} {os : List Operand} {ks : List Kind} (h : Gapes e os ks) : ks ≠ [] := by
  cases h with
  | done ha h =>
    obtain ⟨y, hy⟩ := ha.start h
    rw [hy]; simp
  | here => simp
  | next => simp

theorem tame_trips {e : Env} {os : List Operand} {ks : List Kind} (h : Trips e os ks) (ht : ∀ o ∈ os, o.tame = true) : False := by
  induction h with
  | here h => have := ht _ List.mem_cons_self; rw [h.not_tame] at this; simp at this
  | next _ _ ih => exact ih fun o ho => ht o (List.mem_cons_of_mem _ ho)

theorem entry_equal {t : List Str} {k : Kind} {i : Nat} (h : Entry c!"." t k i) :
    (t.all fun x => !k.equal ('.' :: x)) = false := by
  obtain ⟨name, rfl, h1, -⟩ := h
  rw [List.all_eq_false]
  exact ⟨name, List.mem_of_getElem? h1, by simp [Kind.equal]⟩

theorem stuck_trips {e : Env} {os : List Operand} {k : Kind} {ks : List Kind} (h : stuck k os = true) (ht : Trips e os (k :: ks)) : False := by
  induction os generalizing ks with
  | nil => simp [stuck] at h
  | cons o os ih =>
    unfold stuck at h
    rw [Bool.or_eq_true, Bool.and_eq_true] at h
    obtain ⟨z, hz⟩ : ∃ z, k :: ks = z := ⟨_, rfl⟩
    rw [hz] at ht
    cases ht with
    | here hf =>
      have := hf.not_tame
      rcases h with h | ⟨h, -⟩ <;> cases o <;> simp_all [Operand.refuses, Operand.skips, Operand.tame, Operand.leaf]
    | @next v b r _ _ k' ks1 ks2 ha ht =>
      rcases h with h | ⟨h, h'⟩
      · cases o with
        | expect x p q =>
          obtain ⟨-, rfl, -⟩ := ha
          obtain ⟨rfl, -⟩ : k = .ident x ∧ _ := by simpa using hz
          simp [Operand.refuses, Kind.equal] at h
        | pred a b =>
          have : ∃ p n, ks1 = [.pred p n] := by
            unfold Accepts at ha; grind
          obtain ⟨p, n, rfl⟩ := this
          obtain ⟨rfl, -⟩ : k = .pred p n ∧ _ := by simpa using hz
          simp [Operand.refuses] at h
        | comma =>
          obtain ⟨-, rfl, -⟩ := ha
          obtain ⟨rfl, -⟩ : k = .comma ∧ _ := by simpa using hz
          simp [Operand.refuses] at h
        | dotTable d a t =>
          cases d with
          | none =>
            obtain ⟨-, ⟨k1, i, rfl, he, -⟩ | ⟨d, hd, -⟩⟩ := ha
            · obtain ⟨rfl, -⟩ : k = k1 ∧ _ := by simpa using hz
              simp only [Operand.refuses, entry_equal he] at h
              simp at h
            · simp at hd
          | some d => simp [Operand.refuses] at h
        | _ => simp [Operand.refuses] at h
      · have : ks1 = [] := by
          cases o with
          | flag x a =>
            obtain ⟨-, ⟨rfl, -⟩ | ⟨rfl, -⟩⟩ := ha
            · obtain ⟨rfl, -⟩ : k = .ident x ∧ _ := by simpa using hz
              simp [Operand.skips, Kind.equal] at h
            · rfl
          | dotTable d a t =>
            cases d with
            | none => simp [Operand.skips] at h
            | some d =>
              obtain ⟨-, ⟨k1, i, rfl, he, -⟩ | ⟨d, hd, rfl, -⟩⟩ := ha
              · obtain ⟨rfl, -⟩ : k = k1 ∧ _ := by simpa using hz
                simp only [Operand.skips, entry_equal he] at h
                simp at h
              · rfl
          | _ => simp [Operand.skips] at h
        subst this
        rw [List.nil_append] at hz
        rw [← hz] at ht
        exact ih h' ht

/-- A flag or an optional modifier. -/
def Operand.option : Operand → Bool
  | .flag .. | .dotTable (some _) _ _ => true
  | _ => false

theorem noEntry_entry {t : List Str} {k : Kind} {i : Nat} (h : Entry c!"." t k i) (h' : NoEntry c!"." t k) : False := by
  obtain ⟨name, rfl, h1, -⟩ := h
  exact h' name (List.mem_of_getElem? h1) rfl

/-- Both rows read the same tokens for an operand that they share. -/
theorem option_both {e : Env} {o : Operand} (ho : o.option = true) {a b : List Operand} {ks : List Kind} (hg : Gapes e (o :: b) ks)
    (ht : Trips e (o :: a) ks) : ∃ ks', Gapes e b ks' ∧ Trips e a ks' := by
  have hp : ∀ {v b r ks k}, Accepts e v o ks k b r → (∃ k0, ks = [k0] ∧ ∀ v b r, ¬ Accepts e v o [] k0 b r) ∨ ks = [] := by
    intro v b r ks k h
    cases o with
    | flag x p =>
      obtain ⟨-, ⟨rfl, -⟩ | ⟨rfl, -⟩⟩ := h
      · refine .inl ⟨_, rfl, ?_⟩
        rintro v b r ⟨-, ⟨h, -⟩ | ⟨-, h, -⟩⟩
        · simp at h
        · exact h rfl
      · exact .inr rfl
    | dotTable d p t =>
      obtain ⟨-, ⟨k1, i, rfl, he, -⟩ | ⟨d, hd, rfl, -⟩⟩ := h
      · refine .inl ⟨_, rfl, ?_⟩
        rintro v b r ⟨-, ⟨k2, j, h, -⟩ | ⟨d, -, -, h, -⟩⟩
        · simp at h
        · exact noEntry_entry he h
      · exact .inr rfl
    | _ => simp [Operand.option] at ho
  have hl : readsLike o = o := by cases o <;> first | rfl | simp [Operand.option] at ho
  have htame : o.tame = true := by cases o <;> first | rfl | simp [Operand.option] at ho
  obtain ⟨z, hz⟩ : ∃ z, ks = z := ⟨_, rfl⟩
  rw [hz] at ht
  cases ht with
  | here hf => rw [hf.not_tame] at htame; simp at htame
  | @next _ _ _ _ _ k1 ks1 x1 h1 ht =>
    cases hg with
    | @here _ _ _ k ks h =>
      obtain ⟨rest, k', b, r, h⟩ := h
      rw [hl] at h
      rcases hp h with ⟨k0, e0, hno⟩ | e0
      · obtain ⟨rfl, e1⟩ : k = k0 ∧ ks ++ rest = [] := by simpa using e0
        obtain ⟨rfl, -⟩ := List.append_eq_nil_iff.1 e1
        cases ks1 with
        | nil =>
          obtain ⟨rfl, -⟩ : k = k1 ∧ _ := by simpa using hz
          exact absurd h1 (hno _ _ _)
        | cons => simp at hz
      · simp at e0
    | @next _ _ _ _ _ k2 ks2 x2 h2 hg =>
      rcases hp h1 with ⟨k0, rfl, hno⟩ | rfl <;> rcases hp h2 with ⟨k0', rfl, hno'⟩ | rfl
      · simp only [List.cons_append, List.nil_append, List.cons.injEq] at hz
        obtain ⟨-, rfl, rfl⟩ := hz
        exact ⟨_, hg, ht⟩
      · simp only [List.cons_append, List.nil_append, List.cons.injEq] at hz
        obtain ⟨rfl, -⟩ := hz
        exact absurd h2 (hno _ _ _)
      · simp only [List.cons_append, List.nil_append, List.cons.injEq] at hz
        obtain ⟨rfl, -⟩ := hz
        exact absurd h1 (hno' _ _ _)
      · simp only [List.nil_append, List.cons.injEq] at hz
        obtain ⟨rfl, rfl⟩ := hz
        exact ⟨_, hg, ht⟩

/-- A row with the operands `a` has no fault on tokens that open a row with the operands `b`. -/
def undisturbed (a b : List Operand) : Bool :=
  a.all Operand.tame ||
  (match b with
  | .expect x _ _ :: _ => stuck (.ident x) a
  | _ => false) ||
  (match a, b with
  | .dotTable none _ _ :: a', .dotTable none _ _ :: .expect x _ _ :: _ => stuck (.ident x) a'
  | _, _ => false) ||
  (match a, b with
  | a1 :: a2 :: .ldgSize :: a', b1 :: b2 :: .ldgSize :: _ => a1 == b1 && a2 == b2 && a1.option && a2.option && a'.all Operand.tame
  | _, _ => false) ||
  (match a, b with
  | a1 :: a2 :: .ccTests _ _ :: .comma :: _, [b1, b2, .label] => a1 == b1 && a2 == b2 && a1.option && a2.option
  | _, _ => false)

def undisturbedTable : List Insn → Bool
  | [] => true
  | r :: rs => (rs.all fun r' => r'.mnemonic != r.mnemonic || undisturbed r.operands r'.operands) && undisturbedTable rs

theorem table_undisturbed : undisturbedTable insnTable = true := by decide +kernel

theorem undisturbedTable_split {pre post : List Insn} {row row' : Insn} (h : undisturbedTable (pre ++ row :: post) = true)
    (hr : row' ∈ pre) (hm : row'.mnemonic = row.mnemonic) : undisturbed row'.operands row.operands = true := by
  induction pre with
  | nil => simp at hr
  | cons r pre ih =>
    rw [List.cons_append, undisturbedTable, Bool.and_eq_true] at h
    rcases List.mem_cons.1 hr with rfl | hr
    · have := List.all_eq_true.1 h.1 row (by simp)
      simpa [hm] using this
    · exact ih h.2 hr

theorem gapes_expect {e : Env} {x : Str} {p q : List (BitVec 64)} {b : List Operand} {ks : List Kind}
    (h : Gapes e (.expect x p q :: b) ks) : ∃ y, ks = .ident x :: y := by
  cases h with
  | here h =>
    obtain ⟨rest, k', b, r, -, h, -⟩ := h
    simp only [List.cons_append, List.cons.injEq] at h
    exact ⟨_, by rw [h.1]⟩
  | next h => obtain ⟨-, rfl, -⟩ := h; exact ⟨_, rfl⟩

theorem undisturbed_ok {e : Env} {a b : List Operand} (h : undisturbed a b = true) {ks : List Kind} (hg : Gapes e b ks) (ht : Trips e a ks) :
    False := by
  unfold undisturbed at h
  simp only [Bool.or_eq_true] at h
  rcases h with (((h | h) | h) | h) | h
  · exact tame_trips ht (List.all_eq_true.1 h)
  · split at h
    · obtain ⟨y, rfl⟩ := gapes_expect hg
      exact stuck_trips h ht
    · simp at h
  · split at h
    · cases ht with
      | here hf => exact absurd hf.not_tame (by simp [Operand.tame, Operand.leaf])
      | @next _ _ _ _ _ k1 ks1 x1 h1 ht =>
        obtain ⟨-, ⟨k0, i, rfl, -⟩ | ⟨d, hd, -⟩⟩ := h1
        · obtain ⟨z, hz⟩ : ∃ z, [k0] ++ k1 :: x1 = z := ⟨_, rfl⟩
          rw [hz] at hg
          cases hg with
          | here hg =>
            obtain ⟨rest, k', b, r, -, ⟨k2, j, hk, -⟩ | ⟨d, hd, -⟩⟩ := hg
            · simp only [List.cons_append, List.cons.injEq, List.nil_append] at hk hz
              rw [← hz.2] at hk
              simp at hk
            · simp at hd
          | next hg hs =>
            obtain ⟨-, ⟨k2, j, rfl, -⟩ | ⟨d, hd, -⟩⟩ := hg
            · simp only [List.cons_append, List.cons.injEq, List.nil_append] at hz
              obtain ⟨-, rfl, rfl⟩ := hz
              obtain ⟨y, hy⟩ := gapes_expect hs
              rw [hy] at ht
              exact stuck_trips h ht
            · simp at hd
        · simp at hd
    · simp at h
  · split at h
    · simp only [Bool.and_eq_true, beq_iff_eq] at h
      obtain ⟨⟨⟨⟨rfl, rfl⟩, h1⟩, h2⟩, h3⟩ := h
      obtain ⟨k1, hg, ht⟩ := option_both h1 hg ht
      obtain ⟨k2, hg, ht⟩ := option_both h2 hg ht
      cases ht with
      | @here _ _ k x _ hf =>
        cases hf with | @size name hn
        have hno : ∀ {i}, ¬ Entry c!"." [c!"U8", c!"S8", c!"U16", c!"S16", c!"32", c!"64", c!"128"] (.ident ('.' :: name)) i := by
          rintro i ⟨n, he, h1, -⟩
          simp only [List.cons_append, List.nil_append, Kind.ident.injEq, List.cons.injEq, true_and] at he
          subst he
          refine hn ?_
          have := List.mem_of_getElem? h1
          simp only [loadSizes]
          simp only [List.mem_cons, List.not_mem_nil, or_false] at this ⊢
          grind
        have hU : name ≠ c!"U" := by rintro rfl; exact hn (by simp [loadSizes])
        obtain ⟨z, hz⟩ : ∃ z, Kind.ident ('.' :: name) :: x = z := ⟨_, rfl⟩
        rw [hz] at hg
        cases hg with
        | here hg =>
          obtain ⟨rest, k', b, r, -, ⟨k2, j, hk, he, -⟩ | ⟨hk, -⟩ | ⟨hk, -⟩⟩ := hg
          · simp only [List.cons_append, List.cons.injEq] at hk hz
            rw [← hk.1, ← hz.1] at he
            exact hno he
          · simp only [List.cons_append, List.cons.injEq] at hk hz
            rw [← hz.1] at hk
            simp at hk
            exact hU hk.1
          · simp at hk
        | next hg hs =>
          obtain ⟨-, ⟨k2, j, rfl, he, -⟩ | ⟨rfl, -⟩ | ⟨rfl, hk, -⟩⟩ := hg
          · simp only [List.cons_append, List.cons.injEq] at hz
            rw [← hz.1] at he
            exact hno he
          · simp at hz
            exact hU hz.1
          · simp only [List.nil_append, List.cons.injEq] at hz
            exact hk _ hz.1.symm rfl
      | next _ ht => exact tame_trips ht (List.all_eq_true.1 h3)
    · simp at h
  · split at h
    · simp only [Bool.and_eq_true, beq_iff_eq] at h
      obtain ⟨⟨⟨rfl, rfl⟩, h1⟩, h2⟩ := h
      obtain ⟨k1, hg, ht⟩ := option_both h1 hg ht
      obtain ⟨k2, hg, ht⟩ := option_both h2 hg ht
      cases ht with
      | here hf => exact absurd hf.not_tame (by simp [Operand.tame, Operand.leaf])
      | @next _ _ _ _ _ k3 ks3 x3 h3 ht =>
        have hcomma : k3 = .comma := by
          obtain ⟨z, hz⟩ : ∃ z, k3 :: x3 = z := ⟨_, rfl⟩
          rw [hz] at ht
          cases ht with
          | here hf => exact absurd hf.not_tame (by simp [Operand.tame, Operand.leaf])
          | next h _ =>
            obtain ⟨-, rfl, -⟩ := h
            simpa using (List.cons.inj hz).1
        have hlab : ∀ {e v ks k b r}, Accepts e v .label ks k b r → ∃ k0, ks = [k0] ∧ k0 ≠ .comma := by
          rintro e v ks k b r ⟨-, t, ⟨s, a, rfl, -⟩ | rfl, -⟩
          · exact ⟨_, rfl, by simp⟩
          · exact ⟨_, rfl, by simp⟩
        obtain ⟨z, hz⟩ : ∃ z, ks3 ++ k3 :: x3 = z := ⟨_, rfl⟩
        rw [hz] at hg
        cases hg with
        | here hg =>
          obtain ⟨rest, k', b, r, hg⟩ := hg
          obtain ⟨k0, hk, hk0⟩ := hlab (show Accepts e _ .label _ _ _ _ from hg)
          obtain ⟨-, ⟨k4, i, rfl, -⟩ | ⟨rfl, -⟩⟩ := h3
          · simp only [List.cons_append, List.cons.injEq, List.nil_append] at hk hz
            rw [← hz.2] at hk
            simp at hk
          · simp only [List.cons_append, List.cons.injEq, List.nil_append] at hk hz
            rw [← hk.1, ← hz.1] at hk0
            exact hk0 hcomma
        | next hg hs =>
          obtain ⟨k0, rfl, hk0⟩ := hlab hg
          obtain ⟨-, ⟨k4, i, rfl, he, -⟩ | ⟨rfl, -⟩⟩ := h3
          · simp only [List.cons_append, List.cons.injEq, List.nil_append] at hz
            rw [← hz.2.1, ← hz.2.2] at hs
            obtain ⟨y, hy⟩ : ∃ y, k4 :: k3 :: x3 = y := ⟨_, rfl⟩
            rw [hy] at hs
            cases hs with
            | done ha h =>
              obtain ⟨w, hw⟩ := ha.start h
              rw [hw] at hy
              obtain ⟨name, rfl, -⟩ := he
              simp at hy
          · simp only [List.cons_append, List.cons.injEq, List.nil_append] at hz
            rw [← hz.1] at hk0
            exact hk0 hcomma
    · simp at h

end Nxas
