import Verif.Lemmas.RowEnd
/-
The row loop on a text that cannot be read to its end: rows before the one that asks for another token fail.
-/

namespace Nxas

open Spec

/-- In a text that cannot be read to its end, no token is malformed. -/
def Doomed (m : M α) : Prop := ∀ d s ks, Dies s.ctx.cur ks →
  match m d s with
  | .ok _ s' => ∃ ks', Dies s'.ctx.cur ks'
  | .exit _ => False
  | _ => True

namespace Doomed

theorem bind {m : M α} {f : α → M β} (hm : Doomed m) (hf : ∀ a, Doomed (f a)) : Doomed (m >>= f) := by
  intro d s ks h
  have := hm d s ks h
  rw [M.bind_def]
  cases hr : m d s with
  | ok a s1 => rw [hr] at this; obtain ⟨ks', h'⟩ := this; exact hf a d s1 ks' h'
  | exit e => rw [hr] at this; exact this
  | _ => trivial

theorem of_same {m : M α} (h : ∀ d s, (∀ e, m d s ≠ .exit e) ∧ ∀ a s', m d s = .ok a s' → s'.ctx.cur = s.ctx.cur) : Doomed m := by
  intro d s ks hd
  cases hr : m d s with
  | ok a s1 => exact ⟨ks, by rw [(h d s).2 a s1 hr]; exact hd⟩
  | exit e => exact (h d s).1 e hr
  | _ => trivial

theorem blameStart (msg : Msg) {m : M α} (hm : Doomed m) : Doomed (blameStart msg m) := by
  intro d s ks h
  have := hm d s ks h
  unfold Nxas.blameStart
  cases hr : m d s with
  | ok a s1 => rw [hr] at this; simpa using this
  | exit e => rw [hr] at this; exact this.elim
  | _ => simp

theorem advance : Doomed advance := by
  intro d s ks h
  unfold Nxas.advance
  cases ks with
  | nil =>
    unfold Dies at h
    rw [h]; simp
  | cons k ks =>
    obtain ⟨t1, c1, h1, -, h2⟩ := h
    rw [h1]; exact ⟨ks, h2⟩

theorem ub (u : UB) : Doomed (ubM u : M α) := .of_same fun d s => by simp [ubM]

theorem findInTable (b : Bool) (t : List Str) (p : Str) : Doomed (findInTable b t p) := .of_same fun d s => by
  unfold Nxas.findInTable
  repeat' split
  all_goals simp

theorem closed : Closed @Doomed where
  pure _ := .of_same fun d s => by simp [M.pure]
  bind _ _ := bind
  getKind := .of_same fun d s => by simp [getKind]
  getValue := .of_same fun d s => by simp [getValue]
  setValue _ := .of_same fun d s => by simp [setValue]
  failTok _ := .of_same fun d s => by simp [failTok]
  blameStart msg _ := blameStart msg
  advance := advance
  addBits b := .of_same fun d s => by unfold addBits; split <;> simp
  addReuse b _ := .of_same fun d s => by unfold addReuse; split <;> simp
  confirm _ := .of_same fun d s => by unfold confirm; split <;> simp
  confirmIdent := .of_same fun d s => by unfold confirmIdent; split <;> simp
  confirmReg := .of_same fun d s => by unfold confirmReg; split <;> simp
  confirmPred := .of_same fun d s => by unfold confirmPred; split <;> simp
  convertInteger _ _ := .of_same fun d s => by unfold convertInteger; repeat' split
                                               all_goals simp
  findInTable t p := findInTable true t p

theorem operand (o : Operand) : Doomed o.run :=
  closed.run_all (.of_same fun d s => by simp [getCtx]) (ub _) (ub _) (fun t p => findInTable false t p) o

theorem finishInsn : Doomed finishInsn := by
  refine bind ?_ fun _ => closed.confirm _
  intro d s
  exact bind (closed.schedLoop (ub _) (s.ctx.cur.text.length + 1) {}) (fun r => .of_same fun d s => by simp [setSched]) d s

theorem startInsn (i : Insn) : Doomed (startInsn i) := by
  refine bind (closed.addBits _) fun _ => bind closed.advance fun _ => bind closed.getValue fun _ => ?_
  split
  · exact closed.failTok _
  · exact closed.pure _

end Doomed

theorem runOperands_doomed (os : List Operand) (n : Nat) (d : Bool) (s : St) (ks : List Kind) (h : Dies s.ctx.cur ks) :
    match (runOperands os n d s).1 with
    | .ok _ s' => ∃ ks', Dies s'.ctx.cur ks'
    | .exit _ => False
    | _ => True := by
  induction os generalizing n s ks with
  | nil => exact ⟨ks, h⟩
  | cons o os ih =>
    unfold runOperands
    have := Doomed.operand o d s ks h
    cases hr : o.run d s with
    | ok a s1 => rw [hr] at this; obtain ⟨ks', h'⟩ := this; exact ih _ _ _ h'
    | exit e => rw [hr] at this; exact this
    | _ => trivial

theorem parseInsn_doomed (i : Insn) (d : Bool) (s : St) (ks : List Kind) (h : Dies s.ctx.cur ks) (e : Err) :
    (parseInsn i d s).1 ≠ .exit e := by
  intro hx
  unfold parseInsn at hx
  have h1 := Doomed.startInsn i d s ks h
  cases hr : startInsn i d s with
  | ok a s1 =>
    rw [hr] at h1 hx
    obtain ⟨ks', h'⟩ := h1
    have h2 := runOperands_doomed i.operands 1 d s1 ks' h'
    dsimp only at hx
    obtain ⟨x, hxx⟩ : ∃ x, runOperands i.operands 1 d s1 = x := ⟨_, rfl⟩
    rw [hxx] at h2 hx
    obtain ⟨x1, x2⟩ := x
    cases x1 with
    | ok a s2 =>
      obtain ⟨ks2, h2⟩ := h2
      have h3 := Doomed.finishInsn d s2 ks2 h2
      dsimp only at hx
      rw [hx] at h3
      exact h3
    | exit e => exact h2
    | _ => simp at hx
  | exit e => rw [hr] at h1; exact h1
  | _ => rw [hr] at hx; simp at hx

theorem Annot.open_no_semicolon {a : Annot} {ks : List Kind} (h : a.Text ks) : .semicolon ∉ ks := by
  cases h <;> simp

theorem _root_.Nxas.Spec.AnnotOpen.no_semicolon {as : List Annot} {ks : List Kind} (h : AnnotOpen as ks) : .semicolon ∉ ks := by
  cases h with
  | start => simp
  | dep => simp
  | more ha =>
    intro hm
    exact Annot.open_no_semicolon ha (by rw [List.mem_append]; exact .inl hm)

theorem _root_.Nxas.Spec.RowOpen.no_semicolon {e : Env} {row : Insn} {g : Option (Nat × Bool)} {ks : List Kind} (h : RowOpen e row g ks) :
    .semicolon ∉ ks := by
  cases h with
  | bare => simp
  | operand _ _ hs ho =>
    obtain ⟨rest, k', b, r, ho⟩ := ho
    intro hm
    rcases List.mem_append.1 hm with hm | hm
    · exact sequence_no_semicolon hs hm
    · exact accepts_no_semicolon ho (List.mem_append_left _ hm)
  | annots _ hs ha ho =>
    intro hm
    rcases List.mem_append.1 hm with hm | hm
    · exact sequence_no_semicolon hs hm
    rcases List.mem_append.1 hm with hm | hm
    · exact ha.no_semicolon hm
    · exact ho.no_semicolon hm

/-- A row before the one that asks for another token fails or asks for it, too. -/
theorem earlier_row_past {pre post : List Insn} {row row' : Insn} (hs : insnTable = pre ++ row :: post) (hr : row' ∈ pre)
    (hm : row'.mnemonic = row.mnemonic) {s : St} {g : Option (Nat × Bool)} (hg : ∀ p n, g = some (p, n) → p ≤ 7)
    (ho : s.op = ⟨guardWord g, 0, 0⟩) (hpc : s.ctx.pc + 8 ≤ 2 ^ 63) {ks : List Kind} (hd : Dies s.ctx.cur ks)
    (h : RowOpen s.ctx.env row g ks) : (parseInsn row' false s).1.yields .readPastEnd := by
  have hin : row' ∈ insnTable := by rw [hs]; exact List.mem_append_left _ hr
  have hsplit : ∀ {t0 c0 ks' t c}, tokenize s.ctx.cur = .ok t0 c0 → Path t0 c0 ks' t c → ∃ ks2, ks = ks' ++ t.kind :: ks2 := by
    intro t0 c0 ks' t c h0 hp
    cases ks with
    | nil => unfold Dies at hd; rw [hd] at h0; simp at h0
    | cons k kk =>
      obtain ⟨t1, c1, h1, rfl, h2⟩ := hd
      rw [h0] at h1
      obtain ⟨rfl, rfl⟩ : t0 = t1 ∧ c0 = c1 := by simpa using h1
      obtain ⟨ks2, e1, -⟩ := h2.path hp
      exact ⟨ks2, e1⟩
  cases hx : (parseInsn row' false s).1 with
  | ok a s' =>
    exfalso
    obtain ⟨t0, c0, ks', op, t, c, h0, hp, ht, -⟩ := (parseInsn_iff hin hg ho s').1 hx
    obtain ⟨ks2, rfl⟩ := hsplit h0 hp
    exact h.no_semicolon (by rw [ht]; simp)
  | fail e s' => exact .inl ⟨e, s', rfl⟩
  | exit e => exact absurd hx (parseInsn_doomed row' false s ks hd e)
  | abort => exact absurd hx (parseInsn_quiet _ _)
  | ub u =>
    by_cases hu : u = .readPastEnd
    · rw [hu]; exact .inr rfl
    · exfalso
      obtain ⟨t0, c0, os, o, os', ks', v, r, t, c, h0, hp, -, e1, e2, e3⟩ := (parseInsn_fault hin hg ho hpc hu).1 hx
      obtain ⟨ks2, rfl⟩ := hsplit h0 hp
      have ht : Trips s.ctx.env row'.operands (ks' ++ t.kind :: ks2) := by
        rw [e1]; exact .after e2 (.here e3)
      exact undisturbed_ok (undisturbedTable_split (hs ▸ table_undisturbed) hr hm) (h.gapes (by simp)) ht

/-- The row loop reads beyond the end of the text exactly after the tokens that open a row with the mnemonic. -/
theorem tryRows_past {s : St} {mn : Str} {g : Option (Nat × Bool)} (hk : s.tok.kind = .ident mn)
    (hg : ∀ p n, g = some (p, n) → p ≤ 7) (hs : s.op = ⟨guardWord g, 0, 0⟩) (hpc : s.ctx.pc + 8 ≤ 2 ^ 63) :
    tryRows s.tok s insnTable none false s = .ub .readPastEnd ↔ ∃ row ks, row ∈ insnTable ∧ row.mnemonic = mn ∧
      Dies s.ctx.cur ks ∧ RowOpen s.ctx.env row g ks := by
  have hmn : ∀ row : Insn, s.tok.equal row.mnemonic = true ↔ row.mnemonic = mn := by
    intro row
    rw [Token.equal_iff, hk]
    simp [eq_comm]
  constructor
  · intro h
    rcases tryRows_spec s.tok s false insnTable none s rfl rfl with ⟨pre, row, post, h1, h2, h3, h4⟩ | ⟨-, h4⟩
    · rw [h4] at h
      have hin : row ∈ insnTable := by rw [h1]; simp
      unfold rowOut at h
      cases hr : (parseInsn row false s).1 with
      | ub w =>
        rw [hr] at h
        obtain rfl : w = .readPastEnd := by simpa [rowResult] using h
        obtain ⟨ks, e1, e2⟩ := (parseInsn_past hin hg hs).1 hr
        exact ⟨row, ks, hin, (hmn row).1 h2.1, e1, e2⟩
      | _ => rw [hr] at h; simp [rowResult] at h
    · rw [h4] at h; simp at h
  · rintro ⟨row, ks, hin, hm, e1, e2⟩
    have hrow := (parseInsn_past hin hg hs).2 ⟨ks, e1, e2⟩
    obtain ⟨pre, post, h1⟩ := List.append_of_mem hin
    have hdec : Decides s.tok false s row := by
      refine ⟨(hmn row).2 hm, ?_⟩
      intro e s' h
      unfold rowOut at h
      rw [hrow] at h
      simp at h
    rcases tryRows_spec s.tok s false insnTable none s rfl rfl with ⟨pre', row', post', h1', h2', h3', h4'⟩ | ⟨h3', -⟩
    · rw [h4']
      have hout : rowOut false s row' = .ub .readPastEnd := by
        unfold rowOut
        by_cases hrr : row' ∈ pre
        · rcases earlier_row_past h1 hrr (((hmn row').1 h2'.1).trans hm.symm) hg hs hpc e1 e2 with ⟨e, s', h⟩ | h
          · exact absurd h (h2'.2 e s')
          · exact h
        · have : row' = row := by
            have hsplit := h1.symm.trans h1'
            rcases List.append_eq_append_iff.1 hsplit with ⟨as, ha, hb⟩ | ⟨as, ha, hb⟩
            · cases as with
              | nil => simp at hb; exact hb.1.symm
              | cons a as =>
                simp at hb
                exact absurd hdec (h3' row (by rw [ha]; simp [hb.1]))
            · cases as with
              | nil => simp at hb; exact hb.1
              | cons a as =>
                simp at hb
                exact absurd (by rw [ha]; simp [hb.1]) hrr
          rw [this]; exact hrow
      rw [hout]; rfl
    · exact absurd hdec (h3' row hin)

end Nxas
