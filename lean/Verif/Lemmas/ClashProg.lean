import Verif.Lemmas.ClashRow
/-
Where an assertion fails: programs.
-/

namespace Nxas

open Spec

theorem Out.bind_aborts {x : Out α} {f : α → St → Out β} (h : x.bind f = .abort) :
    x = .abort ∨ ∃ a s, x = .ok a s ∧ f a s = .abort := by
  cases x with
  | ok a s => exact .inr ⟨a, s, rfl, h⟩
  | abort => exact .inl rfl
  | _ => simp [Out.bind] at h

theorem ok_debug {m : M α} (h : DbgSame m) {a : α} {s s1 : St} (h1 : m true s = .ok a s1) : m false s = .ok a s1 := by
  rcases h s with h | h
  · rw [h1] at h; simp at h
  · rw [← h, h1]

/-- The tokens of a clash are one or two. -/
theorem _root_.Nxas.Spec.OperandClash.more {v : BitVec 64} {o : Operand} {k : Kind} {more : List Kind}
    (h : OperandClash v o (k :: more)) : k ≠ .none ∧ (more = [] ∨ ∃ k', more = [k']) := by
  obtain ⟨ks, hks⟩ : ∃ ks, k :: more = ks := ⟨_, rfl⟩
  rw [hks] at h
  cases h with
  | operation hk =>
    obtain ⟨name, hn, -⟩ := hk
    simp only [List.cons.injEq] at hks
    exact ⟨by rw [hks.1, hn]; simp, .inl hks.2⟩
  | part hk =>
    obtain ⟨name, hn, -⟩ := hk
    simp only [List.cons.injEq] at hks
    exact ⟨by rw [hks.1, hn]; simp, .inr ⟨_, hks.2⟩⟩
  | _ =>
    simp only [List.cons.injEq] at hks
    exact ⟨by rw [hks.1]; simp, .inl hks.2⟩

/-- An assertion fails in an instruction without an option in front of it. -/
theorem insn_clash {x : Ctx} {t : Token} {c1 : Cur} {i : Nat} (hpc : alignPc x.pc = addressOf i)
    (ht : tokenize x.cur = .ok t c1) (ho : t.isOption = false) :
    parseInstruction insnTable true x.fresh = .abort ↔
      ∃ ts, Peeks x.cur (t :: ts) ∧ InsnClash ⟨x.labels.find, addressOf i⟩ ((t :: ts).map Token.kind) := by
  constructor
  · intro h
    have hk : t.kind ≠ .none := by
      intro hk
      rw [(insn_end (table := insnTable) (d := true)).2 ⟨t, c1, ht, hk, rfl⟩] at h
      simp at h
    rw [parseInstruction_eq, Ctx.fresh_advance ht] at h
    dsimp only [Out.bind] at h
    rw [if_neg hk] at h
    unfold insnBody at h
    rw [parseOptions_succ, if_neg (by simp [ho])] at h
    rcases Out.bind_aborts h with h | ⟨_, s1, h1, h⟩
    · simp at h
    simp only [Out.ok.injEq, true_and] at h1
    subst h1
    rcases Out.bind_aborts h with h | ⟨_, s1, h1, h⟩
    · rw [parsePrologue_eq] at h
      exact absurd h (prologueBody_calm rfl)
    rcases Out.bind_aborts h with h | ⟨_, s2, h2, h⟩
    · rw [parsePrologue_eq] at h1
      obtain ⟨g, mn, e1, e2, e3, e4, e5⟩ := prologueBody_inv h1
      dsimp only at e1 e4 e5
      have e4' : s1.op = ⟨guardWord g, 0, 0⟩ := by rw [e4]; simp
      have henv : s1.ctx.env = ⟨x.labels.find, addressOf i⟩ := by rw [e5, ← hpc]; rfl
      rw [tryRows_clash e2 e3 e4'] at h
      obtain ⟨row, t0, c0, os, o, os', ks, v, r, t', c', more, r1, r2, r3, r4, r5, r6, r7, r8, r9⟩ := h
      obtain ⟨t1, k1, p1⟩ := e1.path
      have hp : Path t c1 (guardTokens g ++ .ident row.mnemonic :: ks) t' c' :=
        Path.append_iff.2 ⟨t1, _, p1, by rw [k1, e2, r2], t0, c0, r3, r4⟩
      obtain ⟨ts, q1, q2⟩ := hp.reads (Path.ne_none ht hp r8.more.1) r8.more.1
      rw [henv] at r7
      have hmk := InsnClash.mk r1 r5 r6 r7 r8
      rcases r9 with rfl | ⟨t2, c2, h2, rfl⟩
      · refine ⟨ts, ?_, ?_⟩
        · have := Peeks.after (.cons ht hk q1) .nil
          rwa [List.append_nil] at this
        · rw [q2, List.append_assoc, List.cons_append]
          exact hmk
      · refine ⟨ts ++ [t2], ?_, ?_⟩
        · exact Peeks.after (.cons ht hk q1) (.last h2)
        · rw [← List.cons_append, List.map_append, q2, List.append_assoc, List.append_assoc, List.cons_append]
          exact hmk
    · simp at h
  · rintro ⟨ts, hr, h⟩
    obtain ⟨kk, hkk⟩ : ∃ kk, (t :: ts).map Token.kind = kk := ⟨_, rfl⟩
    rw [hkk] at h
    cases h with | @mk g row os os' o ks more k v r h1 h2 h3 h4 h5
    have hkk' : (t :: ts).map Token.kind = ((guardTokens g ++ .ident row.mnemonic :: ks) ++ [k]) ++ more := by
      rw [hkk]; simp
    have hsplit : ∃ as c, ReadsT c1 as c ∧ (t :: as).map Token.kind = (guardTokens g ++ .ident row.mnemonic :: ks) ++ [k] ∧ Ahead c more := by
      have first : ∀ {c : Cur} {as : List Token}, ReadsT x.cur (t :: as) c → ReadsT c1 as c := by
        intro c as h
        cases h with
        | cons h' _ h =>
          rw [ht] at h'
          simp only [TokRes.ok.injEq] at h'
          rw [h'.2]; exact h
      rcases h5.more with ⟨hk, rfl | ⟨k', rfl⟩⟩
      · rw [List.append_nil] at hkk'
        obtain ⟨c, hc⟩ := hr.reads (by
          intro w hw
          have hq : ((t :: ts).map Token.kind).getLast? = some w.kind := by rw [List.getLast?_map, hw]; rfl
          rw [hkk', List.getLast?_append] at hq
          have : k = w.kind := by simpa using hq
          rw [← this]; exact hk)
        exact ⟨ts, c, first hc, hkk', .inl rfl⟩
      · obtain ⟨as, bs, hab, ha, hb⟩ := List.map_eq_append_iff.1 hkk'
        obtain ⟨w, ws, rfl, hw, hws⟩ := List.map_eq_cons_iff.1 hb
        obtain rfl : ws = [] := by simpa using hws
        rw [hab] at hr
        obtain ⟨c, e1, e2⟩ := hr.split (by simp)
        cases as with
        | nil => simp at ha
        | cons a as =>
          obtain ⟨rfl, -⟩ : t = a ∧ _ := by simpa using hab
          refine ⟨as, c, first e1, ha, .inr ?_⟩
          cases e2 with
          | last h => exact ⟨_, _, h, by rw [hw]⟩
          | cons h _ _ => exact ⟨_, _, h, by rw [hw]⟩
    obtain ⟨as, c, hr, hkk', hah⟩ := hsplit
    obtain ⟨t', hpath, hlast⟩ := hr.path hkk'
    obtain ⟨t2, c2, p1, hk2, t0, c0, h0, p2⟩ := Path.append_iff.1 hpath
    have hmain : parsePrologue true ⟨{ x with cur := c1 }, t, {}⟩ = .ok () ⟨{ x with cur := c2, pc := alignPc x.pc }, t2, ⟨guardWord g, 0, 0⟩⟩ ∧
        ∀ p n, g = some (p, n) → p ≤ 7 := by
      rw [parsePrologue_eq]
      rcases g with - | ⟨p, n⟩
      · obtain ⟨rfl, rfl⟩ := p1
        rw [prologueBody_none (mn := row.mnemonic) hk2 rfl]
        exact ⟨rfl, by simp⟩
      · obtain ⟨k1, t3, c3, e3, k3, t4, c4, e4, rfl, rfl⟩ := p1
        rw [prologueBody_some (mn := row.mnemonic) k1 e3 k3 e4 hk2 rfl]
        refine ⟨rfl, ?_⟩
        have hw := (tokenize_ok e3).wf
        rw [k3] at hw
        intro p' n' hg
        simp only [Option.some.injEq, Prod.mk.injEq] at hg
        rw [← hg.1]; exact hw
    obtain ⟨m1, m3⟩ := hmain
    have hk : t.kind ≠ .none := by
      intro hk
      have := congrArg List.head? hkk'
      rcases g with - | ⟨p, n⟩ <;> simp [guardTokens, hk] at this
    have henv : (⟨x.labels.find, addressOf i⟩ : Env) = ({ x with cur := c2, pc := alignPc x.pc } : Ctx).env := by rw [← hpc]; rfl
    rw [henv] at h4
    rw [← hlast] at h4 h5
    have hrow := (tryRows_clash (s := ⟨{ x with cur := c2, pc := alignPc x.pc }, t2, ⟨guardWord g, 0, 0⟩⟩) hk2 m3 rfl).2
      ⟨row, t0, c0, os, o, os', ks, v, r, t', c, more, h1, rfl, h0, p2, h2, h3, h4, h5, hah⟩
    rw [parseInstruction_eq, Ctx.fresh_advance ht]
    dsimp only [Out.bind]
    rw [if_neg hk]
    unfold insnBody
    rw [parseOptions_succ, if_neg (by simp [ho])]
    dsimp only [Out.bind]
    rw [m1]
    dsimp only
    rw [hrow]

/-- The first token of an instruction with a clash is neither that of an option nor the end of the text. -/
theorem _root_.Nxas.Spec.InsnClash.head {e : Env} {t : Token} {ts : List Token}
    (h : InsnClash e ((t :: ts).map Token.kind)) : t.isOption = false ∧ t.kind ≠ .none := by
  obtain ⟨ks, hks⟩ : ∃ ks, (t :: ts).map Token.kind = ks := ⟨_, rfl⟩
  rw [hks] at h
  cases h with | @mk g row os os' o ks more k v r h1 _ _ _ _
  rcases g with - | ⟨p, n⟩
  · simp only [guardTokens, List.nil_append, List.map_cons, List.cons.injEq] at hks
    simp [Token.isOption, hks.1, no_option_row row h1]
  · simp only [guardTokens, List.cons_append, List.map_cons, List.cons.injEq] at hks
    simp [Token.isOption, hks.1]

theorem _root_.Nxas.Spec.InsnClash.ne_nil {e : Env} {ks : List Kind} (h : InsnClash e ks) : ks ≠ [] := by
  cases h with | mk => simp

theorem _root_.Nxas.Spec.Clashes.ne_nil {lab : Str → Option Nat} {i : Nat} {o : Opts} {ts : List (Kind × Nat)}
    (h : Clashes lab i o ts) : ts ≠ [] := by
  induction h with
  | here h => rintro rfl; exact h.ne_nil rfl
  | insn _ _ ih => simp [ih]
  | option _ _ _ ih => simp

/-- A clash does not begin with the end of the text. -/
theorem _root_.Nxas.Spec.Clashes.head_ne_none {lab : Str → Option Nat} {i : Nat} {o : Opts} {t : Kind × Nat} {ts : List (Kind × Nat)}
    (h : Clashes lab i o (t :: ts)) : t.1 ≠ .none := by
  obtain ⟨ps, hps⟩ : ∃ ps, t :: ts = ps := ⟨_, rfl⟩
  rw [hps] at h
  cases h with
  | here h =>
    subst hps
    obtain ⟨ks, hks⟩ : ∃ ks, (t :: ts).map Prod.fst = ks := ⟨_, rfl⟩
    rw [hks] at h
    cases h with | @mk g row os os' o ks more k v r
    intro hk
    have := congrArg List.head? hks
    rcases g with - | ⟨p, n⟩ <;> simp [guardTokens, hk] at this
  | @insn _ _ as bs op h hr =>
    cases as with
    | nil =>
      obtain ⟨ks, hks⟩ : ∃ ks, List.map Prod.fst ([] : List (Kind × Nat)) = ks := ⟨_, rfl⟩
      rw [hks] at h
      cases h with | mk
      simp at hks
    | cons a as =>
      simp only [List.cons_append, List.cons.injEq] at hps
      rw [hps.1]
      obtain ⟨ks, hks⟩ : ∃ ks, (a :: as).map Prod.fst = ks := ⟨_, rfl⟩
      rw [hks] at h
      cases h with | @mk g row ks op pre post
      intro hk
      have := congrArg List.head? hks
      rcases g with - | ⟨p, n⟩ <;> simp [guardTokens, hk] at this
  | @option _ _ o1 a next as rest h _ _ =>
    simp only [List.cons_append, List.cons.injEq] at hps
    rw [hps.1]
    intro hk
    cases h <;> simp at hk

/-- No assertion fails in the guard. -/
theorem parsePrologue_stop {d : Bool} {s : St} (hv : s.op = {}) : parsePrologue d s ≠ .abort := by
  rw [parsePrologue_eq]
  exact prologueBody_calm (by simp only [hv]; rfl)

/-- An assertion fails in a call of `parse_instruction`. -/
theorem parseInstruction_clashes {x : Ctx} {i : Nat} (hpc : alignPc x.pc = addressOf i)
    (h : parseInstruction insnTable true x.fresh = .abort) :
    ∃ ts, Peeks x.cur ts ∧ Clashes x.labels.find i x.opts (ts.map Token.pair) := by
  obtain ⟨n, hn⟩ : ∃ n, n = x.cur.text.length := ⟨_, rfl⟩
  induction n using Nat.strongRecOn generalizing x with
  | ind n ih =>
    cases ht : tokenize x.cur with
    | exit e => rw [parseInstruction_eq, show advance true x.fresh = .exit e by unfold advance Ctx.fresh; simp only [ht]] at h; simp [Out.bind] at h
    | ub w => rw [parseInstruction_eq, show advance true x.fresh = .ub w by unfold advance Ctx.fresh; simp only [ht]] at h; simp [Out.bind] at h
    | ok t c1 =>
      by_cases ho : t.isOption = true
      · have hk : t.kind ≠ .none := by
          intro hk; simp [Token.isOption, hk] at ho
        have h0 := h
        rw [parseInstruction_eq, Ctx.fresh_advance ht] at h
        dsimp only [Out.bind] at h
        rw [if_neg hk] at h
        unfold insnBody at h
        rw [parseOptions_succ, if_pos ho] at h
        cases hp : parseOption true ⟨{ x with cur := c1 }, t, {}⟩ with
        | ok a s1 =>
          obtain ⟨ts, c, o, t', c', e1, e2, e3, e4, rfl⟩ := (parseOption_iff ho).1 hp
          have hk' : t'.kind ≠ .none := by
            intro hk'
            rw [hp] at h
            dsimp only [Out.bind] at h
            rw [parseOptions_succ, if_neg (by simp [Token.isOption, hk'])] at h
            dsimp only at h
            rcases Out.bind_aborts h with h | ⟨_, s2, h2, h⟩
            · exact parsePrologue_stop rfl h
            · rw [parsePrologue_eq] at h2
              obtain ⟨g, mn, f1, f2, -, -, -⟩ := prologueBody_inv h2
              obtain ⟨t1, k1, p1⟩ := f1.path
              have := p1.head
              dsimp only at this
              rw [hk'] at this
              rcases g with - | ⟨p, n⟩
              · simp [guardTokens, k1, f2] at this
              · simp [guardTokens] at this
          have hs := option_same (table := insnTable) (d := true) ht ho e1 e2 e3 e4 hk'
          have hlen : c.text.length < n := by
            have h1 := (tokenize_ok ht).shorter hk
            obtain ⟨p, hp, -⟩ := e1.reach
            have := congrArg List.length hp
            simp at this
            omega
          obtain ⟨us, r1, r2⟩ := ih _ hlen (x := { x with cur := c, opts := o }) hpc (by rw [← hs]; exact h0) rfl
          have hne : us ≠ [] := by rintro rfl; exact r2.ne_nil rfl
          obtain ⟨w, us, rfl⟩ := List.exists_cons_of_ne_nil hne
          have hw : w = t' := by
            cases r1 with
            | last hw => rw [e3] at hw; simp only [TokRes.ok.injEq] at hw; exact hw.1.symm
            | cons hw _ _ => rw [e3] at hw; simp only [TokRes.ok.injEq] at hw; exact hw.1.symm
          subst hw
          refine ⟨t :: ts ++ w :: us, Peeks.after (.cons ht hk e1) r1, ?_⟩
          rw [List.map_append]
          exact Clashes.option (t := t.pair) (ts := ts.map Token.pair) (next := w.pair) (rest := us.map Token.pair) e2 e4 r2
        | abort => exact absurd hp (Calm.parseOption _ _)
        | _ => rw [hp] at h; simp [Out.bind] at h
      · rw [insn_clash hpc ht (by simpa using ho)] at h
        obtain ⟨ts, h1, h2⟩ := h
        exact ⟨t :: ts, h1, .here (by rw [map_pair_kind]; exact h2)⟩

/-- A clash after one call of `parse_instruction`. -/
theorem step_clashes {x : Ctx} {s : St} {i : Nat} (hpc : alignPc x.pc = addressOf i)
    (h : parseInstruction insnTable true x.fresh = .ok true s) :
    ∃ ts, ReadsT x.cur ts s.ctx.cur ∧ s.ctx.labels = x.labels ∧ s.ctx.pc = addressOf i + 8 ∧ ts ≠ [] ∧
      ∀ {rest : List (Kind × Nat)}, Clashes x.labels.find (i + 1) s.ctx.opts rest →
        Clashes x.labels.find i x.opts (ts.map Token.pair ++ rest) := by
  obtain ⟨n, hn⟩ : ∃ n, n = x.cur.text.length := ⟨_, rfl⟩
  induction n using Nat.strongRecOn generalizing x with
  | ind n ih =>
    cases ht : tokenize x.cur with
    | exit e => rw [parseInstruction_eq, show advance true x.fresh = .exit e by unfold advance Ctx.fresh; simp only [ht]] at h; simp [Out.bind] at h
    | ub u => rw [parseInstruction_eq, show advance true x.fresh = .ub u by unfold advance Ctx.fresh; simp only [ht]] at h; simp [Out.bind] at h
    | ok t c1 =>
      have hk : t.kind ≠ .none := by
        intro hk
        have := (insn_end (table := insnTable) (d := true)).2 ⟨t, c1, ht, hk, rfl⟩
        rw [h] at this
        simp at this
      by_cases ho : t.isOption = true
      · obtain ⟨ts, c, o, t', c', e1, e2, e3, e4, e5, e6⟩ := (option_step ht ho).1 h
        have hlen : c.text.length < n := by
          have h1 := (tokenize_ok ht).shorter hk
          obtain ⟨p, hp, -⟩ := e1.reach
          have := congrArg List.length hp
          simp at this
          omega
        obtain ⟨ts', r1, r2, r3, r4, r5⟩ := ih _ hlen (x := { x with cur := c, opts := o }) hpc e6 rfl
        refine ⟨t :: ts ++ ts', .cons ht hk (ReadsT.append_iff.2 ⟨_, e1, r1⟩), r2, r3, by simp, ?_⟩
        intro rest hf
        have hp := r5 hf
        obtain ⟨w, us, rfl⟩ := List.exists_cons_of_ne_nil r4
        have hu : w = t' := by
          cases r1 with
          | cons hu _ _ =>
            rw [e3] at hu
            simp only [TokRes.ok.injEq] at hu
            exact hu.1.symm
        subst hu
        simp only [List.map_cons, List.cons_append, List.map_append] at hp ⊢
        rw [List.append_assoc]
        exact Clashes.option (t := t.pair) (ts := ts.map Token.pair) (next := w.pair) e2 e4 hp
      · obtain ⟨ts, e1, e2, e3⟩ := insn_reads ht (by simpa using ho) (ok_debug (parseInstruction_debug insnTable) h)
        refine ⟨t :: ts, .cons ht hk e1, by rw [e3], by rw [e3, hpc], by simp, ?_⟩
        intro rest hf
        refine .insn (op := s.op) ?_ (by rw [e3] at hf; exact hf)
        rw [map_pair_kind, ← hpc]
        exact e2

/-- An assertion fails in the parse loop only at a clash. -/
theorem parseAll_clashes {room : Nat} {x : Ctx} {i : Nat} (hpc : alignPc x.pc = addressOf i)
    (h : parseAll insnTable true room x = .abort) :
    ∃ ts, Peeks x.cur ts ∧ Clashes x.labels.find i x.opts (ts.map Token.pair) := by
  induction room generalizing x i with
  | zero => simp [parseAll] at h
  | succ room ih =>
    unfold parseAll at h
    cases hp : parseInstruction insnTable true x.fresh with
    | ok b s =>
      cases b with
      | false =>
        rw [show (⟨x, ⟨.none, 0, 0⟩, {}⟩ : St) = x.fresh from rfl, hp] at h
        simp at h
      | true =>
        rw [show (⟨x, ⟨.none, 0, 0⟩, {}⟩ : St) = x.fresh from rfl, hp] at h
        dsimp only at h
        obtain ⟨ts, r1, r2, r3, r4, r5⟩ := step_clashes hpc hp
        cases hpa : parseAll insnTable true room s.ctx with
        | abort =>
          obtain ⟨us, q1, q2⟩ := ih (i := i + 1) (by rw [r3, alignPc_next]) hpa
          rw [r2] at q2
          refine ⟨ts ++ us, Peeks.after r1 q1, ?_⟩
          rw [List.map_append]
          exact r5 q2
        | _ => rw [hpa] at h; simp at h
    | abort => exact parseInstruction_clashes hpc hp
    | _ => rw [show (⟨x, ⟨.none, 0, 0⟩, {}⟩ : St) = x.fresh from rfl, hp] at h; simp at h

theorem parseAll_of_abort {room : Nat} {x : Ctx} (hroom : 0 < room) (h : parseInstruction insnTable true x.fresh = .abort) :
    parseAll insnTable true room x = .abort := by
  obtain ⟨n, rfl⟩ : ∃ n, room = n + 1 := ⟨room - 1, by omega⟩
  unfold parseAll
  rw [show (⟨x, ⟨.none, 0, 0⟩, {}⟩ : St) = x.fresh from rfl, h]

/-- At every clash an assertion fails in the parse loop. -/
theorem clashes_parseAll {room : Nat} {x : Ctx} {i : Nat} {ts : List Token} (hpc : alignPc x.pc = addressOf i)
    (hroom : x.cur.text.count ';' < room)
    (hp : Peeks x.cur ts) (h : Clashes x.labels.find i x.opts (ts.map Token.pair)) : parseAll insnTable true room x = .abort := by
  obtain ⟨ps, hps⟩ : ∃ ps, ts.map Token.pair = ps := ⟨_, rfl⟩
  obtain ⟨o, ho⟩ : ∃ o, x.opts = o := ⟨_, rfl⟩
  rw [hps, ho] at h
  obtain ⟨f, hf⟩ : ∃ f, x.labels.find = f := ⟨_, rfl⟩
  rw [hf] at h
  induction h generalizing x ts room with
  | @here i o ps h =>
    refine parseAll_of_abort (by omega) ?_
    subst hps
    rw [map_pair_kind, ← hf] at h
    cases ts with
    | nil => exact absurd rfl h.ne_nil
    | cons t ts =>
      obtain ⟨c1, ht⟩ : ∃ c1, tokenize x.cur = .ok t c1 := by
        cases hp with
        | last hw => exact ⟨_, hw⟩
        | cons hw _ _ => exact ⟨_, hw⟩
      exact (insn_clash hpc ht h.head.1).2 ⟨ts, hp, h⟩
  | @insn i o as bs op h hr ih =>
    obtain ⟨a, b, rfl, rfl, rfl⟩ := List.map_eq_append_iff.1 hps
    obtain ⟨c, h1, h2⟩ := hp.split (by rintro rfl; exact hr.ne_nil rfl)
    rw [map_pair_kind] at h
    cases h1 with
    | nil =>
      exfalso
      obtain ⟨ks, hks⟩ : ∃ ks, List.map Token.kind [] = ks := ⟨_, rfl⟩
      rw [hks] at h
      cases h with | mk
      simp at hks
    | @cons _ c1 _ t ts ht hk hr1 =>
      rw [← hpc, ← hf] at h
      obtain ⟨t', e1⟩ := insn_accepts ht hr1 h
      rcases parseInstruction_debug insnTable x.fresh with e2 | e2
      · exact parseAll_of_abort (by omega) e2
      obtain ⟨pre, hpre⟩ := parseInstruction_semicolon e1
      have hc : x.cur.text.count ';' = pre.count ';' + (c.text.count ';' + 1) := by
        show x.fresh.ctx.cur.text.count ';' = _
        rw [hpre]; simp only [List.count_append, List.count_cons_self]
      obtain ⟨n, rfl⟩ : ∃ n, room = n + 1 := ⟨room - 1, by omega⟩
      have := ih (room := n) (x := { x with cur := c, pc := alignPc x.pc + 8 }) (by dsimp only; rw [hpc, alignPc_next])
        (by dsimp only; omega) h2 rfl ho hf
      unfold parseAll
      rw [show (⟨x, ⟨.none, 0, 0⟩, {}⟩ : St) = x.fresh from rfl, e2, e1]
      dsimp only
      rw [this]
  | @option i o o1 t next ps rest h hl' hr ih =>
    obtain ⟨a, b, rfl, ha, hb'⟩ := List.map_eq_append_iff.1 hps
    obtain ⟨t, ts, rfl, rfl, rfl⟩ := List.map_eq_cons_iff.1 ha
    obtain ⟨w, us, rfl, rfl, rfl⟩ := List.map_eq_cons_iff.1 hb'
    obtain ⟨c, h1, h2⟩ := hp.split (by simp)
    cases h1 with
    | @cons _ c1 _ _ _ ht hk hr1 =>
      rw [← ho, ← List.map_cons] at h
      have hw : ∃ c2, tokenize c = .ok w c2 := by
        cases h2 with
        | last hw => exact ⟨_, hw⟩
        | cons hw _ _ => exact ⟨_, hw⟩
      obtain ⟨c2, hw⟩ := hw
      have hk' : w.kind ≠ .none := by
        intro hk'
        exact hr.head_ne_none hk'
      have hs := option_same (table := insnTable) (d := true) ht h.isOption hr1 h hw hl' hk'
      have hle : c.text.count ';' ≤ x.cur.text.count ';' := by
        obtain ⟨p, hp, -⟩ := (ReadsT.cons ht hk hr1).reach
        rw [hp]; simp
      have := ih (room := room) (x := { x with cur := c, opts := o1 }) hpc (by dsimp only; omega) h2 rfl rfl hf
      obtain ⟨n, rfl⟩ : ∃ n, room = n + 1 := ⟨room - 1, by omega⟩
      unfold parseAll at this ⊢
      rw [show (⟨x, ⟨.none, 0, 0⟩, {}⟩ : St) = x.fresh from rfl, hs]
      exact this

end Nxas
