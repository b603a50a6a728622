import Verif.Lemmas.Head
import Verif.Lemmas.Syntax
import Verif.Lemmas.Witness
/-
C40, C41, C44: which row of the instruction table decides, and which error is reported.
-/

namespace Nxas

open Spec

/-! ### C40 -/

theorem tryRows_one {mn : Token} {s : St} {dbg : Bool} {row : Insn} :
    tryRows mn s [row] none dbg s = (if mn.equal row.mnemonic then
      (match parseInsn row dbg s with
      | (.fail e _, _) => .exit e
      | (r, _) => rowResult r)
      else .exit ⟨mn.line, mn.col, unknownMsg mn.kind.info⟩) := by
  cases h : mn.equal row.mnemonic with
  | false => rw [tryRows, h]; rfl
  | true =>
    rw [tryRows, h]
    simp only [Bool.not_true, Bool.false_eq_true, if_false, if_true]
    rcases parseInsn row dbg s with ⟨_ | _ | _ | _ | _, _⟩ <;> rfl

/-- C40. An accepted instruction is encoded as by an assembler whose table consists of a single row: the
    first one of the table that accepts it.  Rows tried before leave no trace. -/
theorem C40_first {table : List Insn} {dbg : Bool} {c : Ctx} {s : St}
    (h : parseInstruction table dbg c.fresh = .ok true s) :
    ∃ pre row post, table = pre ++ row :: post ∧ parseInstruction [row] dbg c.fresh = .ok true s ∧
      ∀ row' ∈ pre, ∃ e, parseInstruction [row'] dbg c.fresh = .exit e := by
  obtain ⟨st⟩ := parseInstruction_inv h
  have hm := st.mnemonic
  refine ⟨st.pre, st.row, st.post, st.split, ?_, ?_⟩
  · rw [hm.parse, tryRows_one, if_pos (Token.equal_iff.2 st.named), st.accepted]
    exact congrArg (Out.ok true) st.result.symm
  · intro row' hr
    have hf := st.failed row' hr
    rw [hm.parse, tryRows_one]
    by_cases hn : st.s3.tok.equal row'.mnemonic = true
    · rw [if_pos hn]
      have : ∃ e s', rowOut dbg st.s3 row' = .fail e s' := by
        apply Classical.byContradiction
        intro hno
        exact hf ⟨hn, fun e s' he => hno ⟨e, s', he⟩⟩
      obtain ⟨e, s', he⟩ := this
      refine ⟨e, ?_⟩
      unfold rowOut at he
      generalize parseInsn row' dbg st.s3 = r at he
      obtain ⟨r, n⟩ := r
      cases he; rfl
    · rw [if_neg hn]
      exact ⟨_, rfl⟩

/-- C40. The same for the instructions of a source. -/
theorem C40_source {dbg : Bool} {code : Str} {i : Nat} {c : Ctx} {s : St} (h : InstrAt dbg code i c s) :
    ∃ pre row post, insnTable = pre ++ row :: post ∧ parseInstruction [row] dbg c.fresh = .ok true s ∧
      ∀ row' ∈ pre, ∃ e, parseInstruction [row'] dbg c.fresh = .exit e := C40_first h.parsed

/-- C40. In terms of the grammar: the tokens of an accepted instruction fit no earlier row, and its word,
    reuse flags and scheduling bits are those of the first row they fit. -/
theorem C40_grammar {dbg : Bool} {code : Str} {i : Nat} {c : Ctx} {s : St} (h : InstrAt dbg code i c s) :
    ∃ opts g ks pre row post, Reads c.cur (opts ++ (guardTokens g ++ .ident row.mnemonic :: (ks ++ [.semicolon])))
        s.ctx.cur ∧ insnTable = pre ++ row :: post ∧ RowText ⟨c.labels.find, addressOf i⟩ row g ks s.op ∧
      ∀ row' ∈ pre, row'.mnemonic = row.mnemonic → ∀ op, ¬ RowText ⟨c.labels.find, addressOf i⟩ row' g ks op := by
  obtain ⟨opts, ks, h1, h2, -⟩ := h.syntax
  generalize s.op = op at h2 ⊢
  cases h2 with
  | mk hs hr hp => exact ⟨opts, _, _, _, _, _, h1, hs, hr, hp⟩

/-- `IADD R0, R1, c[0][4]` is refused by the row for registers and accepted by the next one. -/
example : ∃ c s, InstrAt true c!"IADD R0, R1, c[0][4];" 0 c s := by
  have h : (instr true c!"IADD R0, R1, c[0][4];" 0).isSome = true := by decide +kernel
  obtain ⟨⟨c, s⟩, hi⟩ := Option.isSome_iff_exists.1 h
  exact ⟨c, s, instr_at hi⟩

/-! ### C41 -/

theorem tryRows_unknown {mn : Token} {s : St} {dbg : Bool} {table : List Insn}
    (h : ∀ row ∈ table, mn.kind ≠ .ident row.mnemonic) :
    tryRows mn s table none dbg s = .exit ⟨mn.line, mn.col, unknownMsg mn.kind.info⟩ := by
  have hne : ∀ row ∈ table, mn.equal row.mnemonic = false := by
    intro row hr
    rw [Bool.eq_false_iff]
    exact fun he => h row hr (Token.equal_iff.1 he)
  rcases tryRows_spec mn s dbg table none s rfl rfl with ⟨pre, row, post, h1, h2, -, -⟩ | ⟨-, h2⟩
  · have := hne row (by rw [h1]; simp)
    rw [h2.1] at this
    cases this
  · rw [h2]
    have : rowErrors mn dbg s table = [] := by
      unfold rowErrors
      rw [List.filterMap_eq_nil_iff]
      intro row hr
      rw [hne row hr]
      rfl
    rw [this]
    rfl

/-- A guard and a word, in front of which there are no options, lead to the mnemonic. -/
theorem atMnemonic_of_tokens {dbg : Bool} {c : Ctx} {g : Option (Nat × Bool)} {c1 c2 : Cur} {t : Token} {m : Str}
    (hg : Reads c.cur (guardTokens g) c1) (ht : tokenize c1 = .ok t c2) (hk : t.kind = .ident m)
    (hm : g = none → m.head? ≠ some '.') :
    ∃ s, AtMnemonic dbg c s ∧ s.tok = t := by
  have hopt : ∀ n s, s.tok.isOption = false → parseOptions (n + 1) dbg s = .ok () s := by
    intro n s hs
    unfold parseOptions
    rw [bind_apply]
    simp only [getTok, Out.bind, hs, Bool.false_eq_true, if_false]
    rfl
  cases g with
  | none =>
    cases hg
    have ho : t.isOption = false := by
      unfold Token.isOption
      rw [hk]
      simpa using hm rfl
    refine ⟨⟨{ c with cur := c2, pc := alignPc c.pc }, t, ⟨0#64 ||| 7#64 <<< 16, 0, 0⟩⟩,
      ⟨⟨⟨{ c with cur := c2 }, t, {}⟩, ⟨{ c with cur := c2 }, t, {}⟩, ?_, ?_, hopt _ _ ?_, ?_⟩⟩, rfl⟩
    · unfold advance Ctx.fresh
      simp only [ht]
    · simp [hk]
    · exact ho
    · rw [parsePrologue_eq]
      unfold prologueBody
      rw [bind_apply]
      simp only [getTok, Out.bind, hk, reduceCtorEq, if_false]
      rw [bind_apply]
      simp [addBits, Out.bind, bind_apply, getTok, hk, M.pure, Nxas.alignPc]
  | some g =>
    obtain ⟨p, n⟩ := g
    obtain ⟨t0, d0, h0, k0, hg⟩ := hg.head
    obtain ⟨t1, d1, h1, k1, hg⟩ := hg.head
    cases hg
    have ho : t0.isOption = false := by unfold Token.isOption; rw [k0]
    refine ⟨⟨{ c with cur := c2, pc := alignPc c.pc }, t,
      ⟨0#64 ||| ((BitVec.ofNat 64 p ||| ((if n then 1#64 else 0#64) <<< 3)) <<< 16), 0, 0⟩⟩,
      ⟨⟨⟨{ c with cur := d0 }, t0, {}⟩, ⟨{ c with cur := d0 }, t0, {}⟩, ?_, ?_, hopt _ _ ?_, ?_⟩⟩, rfl⟩
    · unfold advance Ctx.fresh
      simp only [h0]
    · simp [k0]
    · exact ho
    · rw [parsePrologue_eq]
      unfold prologueBody
      rw [bind_apply]
      simp only [getTok, Out.bind, k0, if_true]
      simp [bind_apply, Out.bind, advance, h1, raising, guardPredicate, confirmPred, k1, addBits, ht, getTok, hk,
        M.pure]

/-- C41. A mnemonic that is in no row of the table is rejected with a diagnostic at its position. -/
theorem C41_unknown {dbg : Bool} {code : Str} {i : Nat} {c : Ctx} (h : Before dbg code i c)
    {g : Option (Nat × Bool)} {c1 c2 : Cur} {t : Token} {m : Str} (hg : Reads c.cur (guardTokens g) c1)
    (ht : tokenize c1 = .ok t c2) (hk : t.kind = .ident m) (hm : g = none → m.head? ≠ some '.')
    (hu : ∀ row ∈ insnTable, row.mnemonic ≠ m) :
    assemble dbg code = .exit (.located ⟨t.line, t.col, ⟨"unknown mnemonic \x1b[1m%.*s\x1b[0m", [.sized m]⟩⟩) := by
  obtain ⟨s, hs, rfl⟩ := atMnemonic_of_tokens (dbg := dbg) hg ht hk hm
  refine h.ended ?_
  rw [hs.parse, tryRows_unknown]
  · rw [hk]; rfl
  · intro row hr he
    rw [hk] at he
    exact hu row hr (Kind.ident.inj he).symm

/-- The second instruction of this source has an unknown mnemonic. -/
example : assemble true c!"MOV R0, R1;\n @!P1 MOVE R0, R1;" = .exit (.located ⟨1, 6, ⟨"unknown mnemonic \x1b[1m%.*s\x1b[0m", [.sized c!"MOVE"]⟩⟩) := by
  have h : (instr true c!"MOV R0, R1;\n @!P1 MOVE R0, R1;" 0).map (fun p => p.2.ctx.cur) =
    some ⟨c!"\n @!P1 MOVE R0, R1;", 0, 11⟩ := by decide +kernel
  cases hi : instr true c!"MOV R0, R1;\n @!P1 MOVE R0, R1;" 0 with
  | none => rw [hi] at h; cases h
  | some p =>
    rw [hi] at h
    simp only [Option.map_some, Option.some.injEq] at h
    refine C41_unknown (.next (instr_at hi)) (g := some (1, true)) (c1 := ⟨c!" MOVE R0, R1;", 1, 5⟩)
      (c2 := ⟨c!" R0, R1;", 1, 10⟩) (t := ⟨.ident c!"MOVE", 1, 6⟩) ?_ ?_ rfl (by simp) ?_
    · rw [h]
      exact readN_reads (n := 2) (by decide +kernel)
    · decide +kernel
    · have : insnTable.all (fun row => row.mnemonic != c!"MOVE") = true := by decide +kernel
      intro row hr he
      have := List.all_eq_true.1 this row hr
      simp [he] at this

/-! ### C44 -/

/-- The operands are accepted one after the other. -/
inductive Passes (dbg : Bool) : List Operand → St → St → Prop
  | nil {s : St} : Passes dbg [] s s
  | cons {o : Operand} {os : List Operand} {s s1 s2 : St} (h : o.run dbg s = .ok () s1) (hs : Passes dbg os s1 s2) :
      Passes dbg (o :: os) s s2

/-- A row is refused with an error, and how far it got: 0 if it refuses the guard, `k + 1` if it accepts the
    first `k` operands, and 1000 more if it accepts all and refuses what follows. -/
inductive Fails (dbg : Bool) (row : Insn) (s : St) : Nat → Err → Prop
  | guard {e : Err} {s1 : St} (h : startInsn row dbg s = .fail e s1) : Fails dbg row s 0 e
  | operand {e : Err} {s1 s2 s3 : St} {os os' : List Operand} {o : Operand} (h : startInsn row dbg s = .ok () s1)
      (hs : row.operands = os ++ o :: os') (hp : Passes dbg os s1 s2) (ho : o.run dbg s2 = .fail e s3) :
      Fails dbg row s (os.length + 1) e
  | rest {e : Err} {s1 s2 s3 : St} (h : startInsn row dbg s = .ok () s1) (hp : Passes dbg row.operands s1 s2)
      (hf : finishInsn dbg s2 = .fail e s3) : Fails dbg row s (row.operands.length + 1001) e

theorem Passes.run {dbg : Bool} {os os' : List Operand} {s s' : St} (h : Passes dbg os s s') (n : Nat) :
    runOperands (os ++ os') n dbg s = runOperands os' (n + os.length) dbg s' := by
  induction h generalizing n with
  | nil => rfl
  | @cons o os s s1 s2 h hs ih =>
    rw [List.cons_append, runOperands, h]
    dsimp only
    rw [ih, List.length_cons]
    congr 1
    omega

theorem runOperands_passes {dbg : Bool} {os : List Operand} {s s' : St} {n k : Nat}
    (h : runOperands os n dbg s = (.ok () s', k)) : Passes dbg os s s' ∧ k = n + os.length := by
  induction os generalizing n s with
  | nil =>
    simp only [runOperands, Prod.mk.injEq, Out.ok.injEq, true_and] at h
    obtain ⟨rfl, rfl⟩ := h
    exact ⟨.nil, rfl⟩
  | cons o os ih =>
    unfold runOperands at h
    cases ho : o.run dbg s with
    | ok a s1 =>
      rw [ho] at h
      obtain ⟨h1, h2⟩ := ih h
      exact ⟨.cons ho h1, by rw [List.length_cons]; omega⟩
    | _ => rw [ho] at h; simp at h

theorem runOperands_fails {dbg : Bool} {os : List Operand} {s s' : St} {n k : Nat} {e : Err}
    (h : runOperands os n dbg s = (.fail e s', k)) : ∃ p o q s1, os = p ++ o :: q ∧ Passes dbg p s s1 ∧
      o.run dbg s1 = .fail e s' ∧ k = n + p.length := by
  induction os generalizing n s with
  | nil => simp [runOperands] at h
  | cons o os ih =>
    unfold runOperands at h
    cases ho : o.run dbg s with
    | ok a s1 =>
      rw [ho] at h
      obtain ⟨p, o', q, s2, rfl, h2, h3, h4⟩ := ih h
      exact ⟨o :: p, o', q, s2, rfl, .cons ho h2, h3, by rw [List.length_cons]; omega⟩
    | fail e' s1 =>
      rw [ho] at h
      simp only [Prod.mk.injEq, Out.fail.injEq] at h
      obtain ⟨⟨rfl, rfl⟩, rfl⟩ := h
      exact ⟨[], o, os, s, rfl, .nil, ho, rfl⟩
    | _ => rw [ho] at h; simp at h

theorem fails_iff {dbg : Bool} {row : Insn} {s : St} {n : Nat} {e : Err} :
    Fails dbg row s n e ↔ ∃ s', parseInsn row dbg s = (.fail e s', n) := by
  constructor
  · intro h
    cases h with
    | guard h => exact ⟨_, by unfold parseInsn; rw [h]⟩
    | @operand _ s1 s2 s3 os os' o h hs hp ho =>
      refine ⟨s3, ?_⟩
      unfold parseInsn
      rw [h]
      dsimp only
      rw [hs, hp.run, runOperands, ho]
      dsimp only
      rw [Nat.add_comm]
    | @rest _ s1 s2 s3 h hp hf =>
      refine ⟨s3, ?_⟩
      unfold parseInsn
      rw [h]
      dsimp only
      have := hp.run (os' := []) 1
      rw [List.append_nil] at this
      rw [this, runOperands]
      dsimp only
      rw [hf]
      congr 1
      omega
  · rintro ⟨s', h⟩
    unfold parseInsn at h
    cases hs : startInsn row dbg s with
    | ok a s1 =>
      rw [hs] at h
      dsimp only at h
      cases hr : runOperands row.operands 1 dbg s1 with
      | mk r k =>
        rw [hr] at h
        cases r with
        | ok a s2 =>
          dsimp only at h
          simp only [Prod.mk.injEq] at h
          obtain ⟨h1, rfl⟩ := h
          obtain ⟨h2, rfl⟩ := runOperands_passes hr
          rw [show 1 + row.operands.length + 1000 = row.operands.length + 1001 from by omega]
          exact .rest hs h2 h1
        | fail e' s2 =>
          simp only [Prod.mk.injEq, Out.fail.injEq] at h
          obtain ⟨⟨rfl, rfl⟩, rfl⟩ := h
          obtain ⟨p, o, q, s3, h1, h2, h3, rfl⟩ := runOperands_fails hr
          rw [Nat.add_comm]
          exact .operand hs h1 h2 h3
        | _ => simp at h
    | fail e' s1 =>
      rw [hs] at h
      simp only [Prod.mk.injEq, Out.fail.injEq] at h
      obtain ⟨⟨rfl, rfl⟩, rfl⟩ := h
      exact .guard hs
    | _ => rw [hs] at h; simp at h

theorem better_best (l : List (Err × Nat)) (b : Err × Nat) :
    l.foldl better (some b) = some b ∧ (∀ y ∈ l, y.2 ≤ b.2) ∨
    ∃ l1 x l2, l = l1 ++ x :: l2 ∧ l.foldl better (some b) = some x ∧ b.2 < x.2 ∧ (∀ y ∈ l1, y.2 < x.2) ∧
      ∀ y ∈ l2, y.2 ≤ x.2 := by
  induction l generalizing b with
  | nil => exact .inl ⟨rfl, by simp⟩
  | cons a l ih =>
    rw [List.foldl_cons]
    change (l.foldl better (if a.2 > b.2 then some a else some b) = _ ∧ _) ∨ ∃ l1 x l2, _ ∧
      l.foldl better (if a.2 > b.2 then some a else some b) = _ ∧ _
    by_cases hab : a.2 > b.2
    · rw [if_pos hab]
      rcases ih a with ⟨h1, h2⟩ | ⟨l1, x, l2, h1, h2, h3, h4, h5⟩
      · exact .inr ⟨[], a, l, rfl, h1, hab, by simp, h2⟩
      · refine .inr ⟨a :: l1, x, l2, by rw [h1]; rfl, h2, by omega, ?_, h5⟩
        intro y hy
        rcases List.mem_cons.1 hy with rfl | hy
        · exact h3
        · exact h4 y hy
    · rw [if_neg hab]
      rcases ih b with ⟨h1, h2⟩ | ⟨l1, x, l2, h1, h2, h3, h4, h5⟩
      · refine .inl ⟨h1, ?_⟩
        intro y hy
        rcases List.mem_cons.1 hy with rfl | hy
        · omega
        · exact h2 y hy
      · refine .inr ⟨a :: l1, x, l2, by rw [h1]; rfl, h2, h3, ?_, h5⟩
        intro y hy
        rcases List.mem_cons.1 hy with rfl | hy
        · omega
        · exact h4 y hy

theorem better_first {l : List (Err × Nat)} (hl : l ≠ []) :
    ∃ l1 x l2, l = l1 ++ x :: l2 ∧ l.foldl better none = some x ∧ (∀ y ∈ l1, y.2 < x.2) ∧ ∀ y ∈ l2, y.2 ≤ x.2 := by
  cases l with
  | nil => exact (hl rfl).elim
  | cons a l =>
    rw [List.foldl_cons]
    change ∃ l1 x l2, _ ∧ l.foldl better (some a) = _ ∧ _
    rcases better_best l a with ⟨h1, h2⟩ | ⟨l1, x, l2, h1, h2, h3, h4, h5⟩
    · exact ⟨[], a, l, rfl, h1, by simp, h2⟩
    · refine ⟨a :: l1, x, l2, by rw [h1]; rfl, h2, ?_, h5⟩
      intro y hy
      rcases List.mem_cons.1 hy with rfl | hy
      · exact h3
      · exact h4 y hy

/-- C44. If every row with the mnemonic is refused, the error reported is the one of the row that got
    furthest, the first of these if there are several. -/
theorem C44_furthest {table : List Insn} {dbg : Bool} {c : Ctx} {s : St} {m : Str} (h : AtMnemonic dbg c s)
    (hm : s.tok.kind = .ident m) (hk : ∃ row ∈ table, row.mnemonic = m)
    (hf : ∀ row ∈ table, row.mnemonic = m → ∃ n e, Fails dbg row s n e) :
    ∃ pre row post n e, table = pre ++ row :: post ∧ row.mnemonic = m ∧ Fails dbg row s n e ∧
      (∀ row' ∈ pre, row'.mnemonic = m → ∀ n' e', Fails dbg row' s n' e' → n' < n) ∧
      (∀ row' ∈ post, row'.mnemonic = m → ∀ n' e', Fails dbg row' s n' e' → n' ≤ n) ∧
      parseInstruction table dbg c.fresh = .exit e := by
  have hmem : ∀ {row : Insn} {x : Err × Nat}, (if s.tok.equal row.mnemonic then
      match parseInsn row dbg s with
      | (.fail e _, sc) => some (e, sc)
      | _ => none
      else none) = some x ↔ row.mnemonic = m ∧ Fails dbg row s x.2 x.1 := by
    intro row x
    by_cases hr : row.mnemonic = m
    · have : s.tok.equal row.mnemonic = true := Token.equal_iff.2 (by rw [hm, hr])
      rw [if_pos this, fails_iff]
      constructor
      · intro hx
        split at hx
        · rename_i hp
          simp only [Option.some.injEq] at hx
          subst hx
          exact ⟨hr, _, hp⟩
        · cases hx
      · rintro ⟨-, s', hp⟩
        rw [hp]
    · have : ¬ s.tok.equal row.mnemonic = true := by
        intro he
        have := Token.equal_iff.1 he
        rw [hm] at this
        exact hr (Kind.ident.inj this).symm
      rw [if_neg this]
      simp [hr]
  have hne : rowErrors s.tok dbg s table ≠ [] := by
    obtain ⟨row, hr, he⟩ := hk
    obtain ⟨n, e, hfe⟩ := hf row hr he
    intro hnil
    unfold rowErrors at hnil
    rw [List.filterMap_eq_nil_iff] at hnil
    have := hnil row hr
    cases this.symm.trans ((hmem (x := (e, n))).2 ⟨he, hfe⟩)
  obtain ⟨l1, x, l2, h1, h2, h3, h4⟩ := better_first hne
  have hsplit := h1
  unfold rowErrors at hsplit
  rw [List.filterMap_eq_append_iff] at hsplit
  obtain ⟨r1, r2, rfl, e1, e2⟩ := hsplit
  rw [List.filterMap_eq_cons_iff] at e2
  obtain ⟨p1, row, post, rfl, e3, e4, e5⟩ := e2
  obtain ⟨hrow, hfail⟩ := hmem.1 e4
  refine ⟨r1 ++ p1, row, post, x.2, x.1, by simp, hrow, hfail, ?_, ?_, ?_⟩
  · intro row' hr he n' e' hfe
    rcases List.mem_append.1 hr with hr | hr
    · refine h3 (e', n') ?_
      rw [← e1]
      exact List.mem_filterMap.2 ⟨row', hr, hmem.2 ⟨he, hfe⟩⟩
    · have := e3 row' hr
      cases this.symm.trans ((hmem (x := (e', n'))).2 ⟨he, hfe⟩)
  · intro row' hr he n' e' hfe
    refine h4 (e', n') ?_
    rw [← e5]
    exact List.mem_filterMap.2 ⟨row', hr, hmem.2 ⟨he, hfe⟩⟩
  · rw [h.parse]
    rcases tryRows_spec s.tok s dbg (r1 ++ (p1 ++ row :: post)) none s rfl rfl with ⟨pre, i, post', g1, g2, -, -⟩ | ⟨-, g2⟩
    · exfalso
      have hi : i.mnemonic = m := by
        have := Token.equal_iff.1 g2.1
        rw [hm] at this
        exact (Kind.ident.inj this).symm
      obtain ⟨n, e, hfe⟩ := hf i (by rw [g1]; simp) hi
      obtain ⟨s', hp⟩ := fails_iff.1 hfe
      exact g2.2 e s' (by unfold rowOut; rw [hp])
    · rw [g2]
      unfold rowErrors at h2 ⊢
      rw [h2]
      rfl

/-- C44. The diagnostic of the whole run. -/
theorem C44_source {dbg : Bool} {code : Str} {i : Nat} {c : Ctx} {s : St} {m : Str} (hb : Before dbg code i c)
    (h : AtMnemonic dbg c s) (hm : s.tok.kind = .ident m) (hk : ∃ row ∈ insnTable, row.mnemonic = m)
    (hf : ∀ row ∈ insnTable, row.mnemonic = m → ∃ n e, Fails dbg row s n e) :
    ∃ pre row post n e, insnTable = pre ++ row :: post ∧ row.mnemonic = m ∧ Fails dbg row s n e ∧
      (∀ row' ∈ pre, row'.mnemonic = m → ∀ n' e', Fails dbg row' s n' e' → n' < n) ∧
      (∀ row' ∈ post, row'.mnemonic = m → ∀ n' e', Fails dbg row' s n' e' → n' ≤ n) ∧
      assemble dbg code = .exit (.located e) := by
  obtain ⟨pre, row, post, n, e, h1, h2, h3, h4, h5, h6⟩ := C44_furthest h hm hk hf
  exact ⟨pre, row, post, n, e, h1, h2, h3, h4, h5, hb.ended (by rw [h6]; rfl)⟩

deriving instance DecidableEq for Ctx
deriving instance DecidableEq for St
deriving instance DecidableEq for Out

/-- All rows for `MOV` refuse `R0, R1, 77`, with three different scores; the hypotheses of `C44_furthest` hold. -/
example : ∃ c s, Before true c!"MOV R0, R1, 77;" 0 c ∧ AtMnemonic true c s ∧ s.tok.kind = .ident c!"MOV" ∧
    (∃ row ∈ insnTable, row.mnemonic = c!"MOV") ∧
    (∀ row ∈ insnTable, row.mnemonic = c!"MOV" → ∃ n e, Fails true row s n e) ∧
    assemble true c!"MOV R0, R1, 77;" = .exit (.located ⟨0, 10, ⟨"expected \x1b[1m%s\x1b[0m and got \x1b[1m%s %.*s\x1b[0m", [.text c!"semicolon", .text c!"comma", .text []]⟩⟩) := by
  have hl : genLabels (visible c!"MOV R0, R1, 77;") = .ok [] := by decide +kernel
  refine ⟨_, ⟨⟨⟨c!" R0, R1, 77;", 0, 3⟩, [], 8, {}⟩, ⟨.ident c!"MOV", 0, 0⟩, ⟨7#64 <<< 16, 0, 0⟩⟩, .first hl, ?_, rfl, ?_, ?_, ?_⟩
  · refine ⟨⟨⟨⟨c!" R0, R1, 77;", 0, 3⟩, [], 0, {}⟩, ⟨.ident c!"MOV", 0, 0⟩, {}⟩,
      ⟨⟨⟨c!" R0, R1, 77;", 0, 3⟩, [], 0, {}⟩, ⟨.ident c!"MOV", 0, 0⟩, {}⟩, ?_, ?_, ?_, ?_⟩ <;> decide +kernel
  · have : insnTable.any (fun row => row.mnemonic == c!"MOV") = true := by decide +kernel
    simpa using this
  · have : insnTable.all (fun row => row.mnemonic != c!"MOV" ||
      match parseInsn row true ⟨⟨⟨c!" R0, R1, 77;", 0, 3⟩, [], 8, {}⟩, ⟨.ident c!"MOV", 0, 0⟩, ⟨7#64 <<< 16, 0, 0⟩⟩ with
      | (.fail .., _) => true
      | _ => false) = true := by decide +kernel
    intro row hr hm
    have := List.all_eq_true.1 this row hr
    rw [hm] at this
    simp only [bne_self_eq_false, Bool.false_or] at this
    split at this
    · rename_i e s' n hp
      exact ⟨n, e, fails_iff.2 ⟨s', hp⟩⟩
    · cases this
  · decide +kernel

end Nxas
