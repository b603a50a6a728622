import Verif.Model.Trace
import Verif.Lemmas.Unbroken
import Verif.Lemmas.Debug
/-
The errors built while a source is read: lemmas.
-/

namespace Nxas

open Spec Opnd

theorem insnHead_eq (dbg : Bool) (s0 : St) : insnHead dbg s0 = (advance dbg s0).bind fun _ s =>
    if s.tok.kind = .none then .ok false s
    else (parseOptions (s.ctx.cur.text.length + 2) dbg s).bind fun _ s1 => (parsePrologue dbg s1).bind fun _ s2 => .ok true s2 := by
  unfold insnHead
  rw [bind_apply]
  congr
  funext _ s
  by_cases h : s.tok.kind = .none
  · simp only [bind_apply, getTok, Out.bind, h, if_true]; rfl
  · simp only [bind_apply, getTok, Out.bind, h, if_false]; rfl

/-- The row loop follows what precedes it. -/
theorem parseInstruction_head (table : List Insn) (dbg : Bool) (s0 : St) :
    parseInstruction table dbg s0 = match insnHead dbg s0 with
      | .ok true s => (tryRows s.tok s table none dbg s).bind fun _ s' => .ok true s'
      | r => r := by
  rw [parseInstruction_eq, insnHead_eq]
  cases advance dbg s0 with
  | ok a s =>
    simp only [Out.bind]
    split
    · rfl
    · unfold insnBody
      cases parseOptions (s.ctx.cur.text.length + 2) dbg s with
      | ok a s1 =>
        simp only [Out.bind]
        cases parsePrologue dbg s1 with
        | ok a s2 => rfl
        | _ => rfl
      | _ => rfl
  | _ => rfl

theorem insnHead_debug : DbgSame insnHead := by
  refine .bind (.of_eq fun _ => rfl) fun _ => .bind .getTok fun t => .ite _ _ _ (DbgSame.closed.pure _) ?_
  refine .bind (fun s => DbgSame.parseOptions _ s) fun _ => .bind .parsePrologue fun _ => DbgSame.closed.pure _

/-- An error of the row loop comes from a row of this name, before the deciding one. -/
theorem rowsTrace_mem {mn : Token} {saved : St} {dbg : Bool} {rows : List Insn} {s : St} (hc : s.ctx = saved.ctx)
    (ho : s.op = saved.op) {e : Err} :
    e ∈ rowsTrace mn saved rows dbg s ↔ ∃ pre i post s' sc, rows = pre ++ i :: post ∧ (∀ j ∈ pre, ¬ Decides mn dbg saved j) ∧
      mn.equal i.mnemonic = true ∧ parseInsn i dbg saved = (.fail e s', sc) := by
  induction rows generalizing s with
  | nil => simp [rowsTrace]
  | cons i is ih =>
    have hp : parseInsn i dbg s = parseInsn i dbg saved := by
      have : s = { saved with tok := s.tok } := by cases s; cases saved; simp_all
      rw [this, parseInsn_tok]
    unfold rowsTrace
    by_cases hm : mn.equal i.mnemonic = true
    · rw [if_neg (by simp [hm]), hp]
      split
      · rename_i e1 s1 sc heq
        rw [List.mem_cons, ih (s := { s1 with ctx := saved.ctx, op := saved.op }) rfl rfl]
        constructor
        · rintro (rfl | ⟨pre, j, post, s', sc', rfl, h2, h3, h4⟩)
          · exact ⟨[], i, is, s1, sc, rfl, by simp, hm, heq⟩
          · refine ⟨i :: pre, j, post, s', sc', rfl, ?_, h3, h4⟩
            intro k hk
            rcases List.mem_cons.1 hk with rfl | hk
            · exact fun hd => hd.2 e1 s1 (by unfold rowOut; rw [heq])
            · exact h2 k hk
        · rintro ⟨pre, j, post, s', sc', h1, h2, h3, h4⟩
          cases pre with
          | nil =>
            simp only [List.nil_append, List.cons.injEq] at h1
            obtain ⟨rfl, rfl⟩ := h1
            rw [heq] at h4
            cases h4
            exact .inl rfl
          | cons x pre =>
            simp only [List.cons_append, List.cons.injEq] at h1
            obtain ⟨rfl, rfl⟩ := h1
            exact .inr ⟨pre, j, post, s', sc', rfl, fun k hk => h2 k (List.mem_cons_of_mem _ hk), h3, h4⟩
      · rename_i hno
        have hd : Decides mn dbg saved i := by
          refine ⟨hm, fun e s' h => ?_⟩
          exact hno e s' (parseInsn i dbg saved).2 (by rw [← h])
        simp only [List.not_mem_nil, false_iff]
        rintro ⟨pre, j, post, s', sc', h1, h2, h3, h4⟩
        cases pre with
        | nil =>
          simp only [List.nil_append, List.cons.injEq] at h1
          obtain ⟨rfl, rfl⟩ := h1
          exact hno _ _ _ h4
        | cons x pre =>
          simp only [List.cons_append, List.cons.injEq] at h1
          obtain ⟨rfl, rfl⟩ := h1
          exact h2 _ List.mem_cons_self hd
    · rw [if_pos (by simpa using hm), ih hc ho]
      constructor
      · rintro ⟨pre, j, post, s', sc', rfl, h2, h3, h4⟩
        refine ⟨i :: pre, j, post, s', sc', rfl, ?_, h3, h4⟩
        intro k hk
        rcases List.mem_cons.1 hk with rfl | hk
        · exact fun hd => hm hd.1
        · exact h2 k hk
      · rintro ⟨pre, j, post, s', sc', h1, h2, h3, h4⟩
        cases pre with
        | nil =>
          simp only [List.nil_append, List.cons.injEq] at h1
          obtain ⟨rfl, rfl⟩ := h1
          exact absurd h3 hm
        | cons x pre =>
          simp only [List.cons_append, List.cons.injEq] at h1
          obtain ⟨rfl, rfl⟩ := h1
          exact ⟨pre, j, post, s', sc', rfl, fun k hk => h2 k (List.mem_cons_of_mem _ hk), h3, h4⟩

/-- An error of an instruction that is accepted comes from a row before the accepting one. -/
theorem insnTrace_mem {table : List Insn} {dbg : Bool} {s0 s : St} (st : InsnSteps table dbg s0 s) {e : Err}
    (he : e ∈ insnTrace table dbg s0) : ∃ row' ∈ st.pre, row'.mnemonic = st.row.mnemonic ∧
      ∃ s' sc, parseInsn row' dbg st.s3 = (.fail e s', sc) := by
  have hh : insnHead dbg s0 = .ok true st.s3 := by
    have h3 := st.prologue
    rw [← parsePrologue_eq] at h3
    rw [insnHead_eq]
    simp only [st.first, Out.bind, if_neg st.notEnd, st.options, h3]
  unfold insnTrace at he
  rw [hh] at he
  obtain ⟨pre, i, post, s', sc, h1, h2, h3, h4⟩ := (rowsTrace_mem rfl rfl).1 he
  have hi := Token.equal_iff.1 h3
  rw [st.named] at hi
  refine ⟨i, ?_, by simpa using hi.symm, s', sc, h4⟩
  have hd : Decides st.s3.tok dbg st.s3 st.row :=
    ⟨Token.equal_iff.2 st.named, by intro e s'; unfold rowOut; rw [st.accepted]; simp⟩
  have hsplit : pre ++ i :: post = st.pre ++ st.row :: st.post := h1.symm.trans st.split
  rcases List.append_eq_append_iff.1 hsplit with ⟨a, ha, hb⟩ | ⟨a, ha, hb⟩
  · cases a with
    | nil =>
      simp only [List.nil_append, List.cons.injEq] at hb
      rw [← hb.1] at hd
      exact absurd (congrArg Prod.fst h4) (hd.2 _ _)
    | cons x a =>
      simp only [List.cons_append, List.cons.injEq] at hb
      rw [ha, ← hb.1]
      simp
  · cases a with
    | nil =>
      simp only [List.nil_append, List.cons.injEq] at hb
      rw [← hb.1] at h4
      rw [st.accepted] at h4
      simp at h4
    | cons x a =>
      simp only [List.cons_append, List.cons.injEq] at hb
      rw [hb.1] at hd
      exact absurd hd (h2 x (by rw [ha]; simp))

/-- When the row loop reports an error, it is one of those it has built, or that of the deciding row, or no row has this name. -/
theorem tryRows_reported {mn : Token} {dbg : Bool} {rows : List Insn} {s : St} {e : Err}
    (h : tryRows mn s rows none dbg s = .exit e) :
    e ∈ rowsTrace mn s rows dbg s ∨ (∃ i ∈ rows, mn.equal i.mnemonic = true ∧ (parseInsn i dbg s).1 = .exit e) ∨
      ((∀ i ∈ rows, mn.equal i.mnemonic = false) ∧ e = ⟨mn.line, mn.col, unknownMsg mn.kind.info⟩) := by
  rcases tryRows_spec mn s dbg rows none s rfl rfl with ⟨pre, i, post, rfl, h2, h3, h4⟩ | ⟨h1, h2⟩
  · refine .inr (.inl ⟨i, by simp, h2.1, ?_⟩)
    rw [h4] at h
    unfold rowOut at h
    cases hp : (parseInsn i dbg s).1 <;> rw [hp] at h <;> simp [rowResult] at h
    rw [h]
  · rw [h2] at h
    simp only [Out.exit.injEq] at h
    have key : ∀ (l : List (Err × Nat)) (b : Option (Err × Nat)),
        l.foldl better b = b ∨ ∃ x ∈ l, l.foldl better b = some x := by
      intro l
      induction l with
      | nil => intro b; exact .inl rfl
      | cons x l ih =>
        intro b
        rw [List.foldl_cons]
        rcases ih (better b x) with h | ⟨y, hy, h⟩
        · rw [h]
          unfold better
          split
          · exact .inr ⟨x, by simp, rfl⟩
          · split
            · exact .inr ⟨x, by simp, rfl⟩
            · exact .inl rfl
        · exact .inr ⟨y, by simp [hy], h⟩
    have none_iff : ∀ (l : List (Err × Nat)) (b : Option (Err × Nat)), l.foldl better b = none → l = [] := by
      intro l
      induction l with
      | nil => intros; rfl
      | cons x l ih =>
        intro b hb
        exfalso
        have : ∀ (l : List (Err × Nat)) (b : Option (Err × Nat)), b.isSome → (l.foldl better b).isSome := by
          intro l
          induction l with
          | nil => intro b h; exact h
          | cons x l ih => intro b h; exact ih _ (by unfold better; split <;> [rfl; (split <;> rfl)])
        have := this l (better b x) (by unfold better; split <;> [rfl; (split <;> rfl)])
        rw [List.foldl_cons] at hb
        rw [hb] at this
        simp at this
    cases hb : (rowErrors mn dbg s rows).foldl better none with
    | none =>
      refine .inr (.inr ⟨fun i hi => ?_, by rw [hb] at h; exact h.symm⟩)
      by_contra hne
      have hd := h1 i hi
      unfold Decides at hd
      simp only [Bool.not_eq_false] at hne
      simp only [hne, true_and, not_forall, not_not] at hd
      obtain ⟨e', s', hd⟩ := hd
      have hmem : (e', (parseInsn i dbg s).2) ∈ rowErrors mn dbg s rows := by
        unfold rowErrors
        rw [List.mem_filterMap]
        refine ⟨i, hi, ?_⟩
        rw [if_pos hne]
        unfold rowOut at hd
        rcases hp : parseInsn i dbg s with ⟨r, sc⟩
        rw [hp] at hd
        dsimp only at hd
        rw [hd]
      rw [none_iff _ _ hb] at hmem
      simp at hmem
    | some x =>
      left
      rcases key (rowErrors mn dbg s rows) none with h' | ⟨y, hy, h'⟩
      · rw [hb] at h'; simp at h'
      · rw [hb] at h' h
        cases h'
        unfold rowErrors at hy
        rw [List.mem_filterMap] at hy
        obtain ⟨i, hi, hy⟩ := hy
        split at hy
        · rename_i hm
          split at hy
          · rename_i e' s' sc heq
            simp only [Option.some.injEq] at hy
            subst hy
            obtain ⟨pre, post, rfl⟩ := List.append_of_mem hi
            refine (rowsTrace_mem rfl rfl).2 ⟨pre, i, post, s', sc, rfl, fun j hj => h1 j (by simp [hj]), hm, ?_⟩
            rw [heq, ← h]
            rfl
          · simp at hy
        · simp at hy

end Nxas
