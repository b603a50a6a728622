import Verif.Lemmas.Wp
import Verif.Lemmas.Insn
/-
Which bits of the instruction word and of the reuse flags an operand parser can touch, and which bits
must have been set before for an assertion to fail.
-/

namespace Nxas

/-- The calculus of `Wp.lean` read as a statement about bits: only bits that are used up can change,
    no bit is cleared, and a failing assertion means that a free bit was already set. -/
def Foot {α : Type} (m : M α) (k : Kind) (r : Nat → Prop) (Q : α → Kind → (Nat → Prop) → Prop) : Prop :=
  ∀ dbg s, s.tok.kind = k →
    match m dbg s with
    | .ok a s' => ∃ r', Q a s'.tok.kind r' ∧ (∀ i, r' i → r i) ∧
        (∀ i, (r i → r' i) → s'.op.bit i = s.op.bit i) ∧ (∀ i, s.op.bit i = true → s'.op.bit i = true)
    | .abort => dbg = true ∧ ∃ i, r i ∧ s.op.bit i = true
    | _ => True

theorem Foot.keep {m : M α} {k : Kind} {r : Nat → Prop} {Q : α → Kind → (Nat → Prop) → Prop}
    (h : ∀ dbg s, s.tok.kind = k → match m dbg s with
      | .ok a s' => s'.op = s.op ∧ Q a s'.tok.kind r
      | .abort => False
      | _ => True) : Foot m k r Q := by
  intro dbg s hk
  have := h dbg s hk
  cases hm : m dbg s with
  | ok a s' =>
    simp only [hm] at this ⊢
    exact ⟨r, this.2, fun _ h => h, fun i _ => by rw [this.1], fun i hi => by rw [this.1]; exact hi⟩
  | abort => simp only [hm] at this
  | _ => trivial

theorem bit_addBits (o : Op) (b : BitVec 64) (i : Nat) :
    ({ o with value := o.value ||| b } : Op).bit i = (o.bit i || (b.getLsbD i && decide (i < 64))) := by
  unfold Op.bit
  by_cases h : i < 64 <;> simp [h]

theorem bit_addReuse (o : Op) (b : BitVec 32) (i : Nat) :
    ({ o with reuse := o.reuse ||| (b &&& 0xFF#32) } : Op).bit i =
      (o.bit i || ((b &&& 0xFF#32).getLsbD (i - 64) && decide (64 ≤ i))) := by
  unfold Op.bit
  by_cases h : i < 64
  · have : ¬ 64 ≤ i := by omega
    simp [h, this]
  · have : 64 ≤ i := by omega
    simp [h, this]

theorem exists_bit {x : BitVec w} (h : x ≠ 0#w) : ∃ i, x.getLsbD i = true := by
  apply Classical.byContradiction
  intro hn
  apply h
  apply BitVec.eq_of_getLsbD_eq
  intro i hi
  rw [BitVec.getLsbD_zero]
  cases hx : x.getLsbD i
  · rfl
  · exact (hn ⟨i, hx⟩).elim

theorem lt_of_getLsbD {x : BitVec w} {i : Nat} (h : x.getLsbD i = true) : i < w := by
  apply Decidable.byContradiction
  intro hn
  rw [BitVec.getLsbD_of_ge _ _ (by omega)] at h
  simp at h

theorem reuse_bit {b : BitVec 32} {j : Nat}
    (h : (b, j) ∈ [(reuseGpr8, 64), (reuseGpr20, 65), (reuseGpr39, 66)]) (i : Nat) :
    b.getLsbD i = decide (i = j - 64) ∧ (b &&& 0xFF#32).getLsbD i = decide (i = j - 64) := by
  have key : ∀ (b : BitVec 32) (n : Nat), n < 32 → b = 1#32 <<< n → b.getLsbD i = decide (i = n) := by
    intro b n hn hb
    subst hb
    rw [BitVec.getLsbD_shiftLeft, BitVec.getLsbD_one]
    by_cases h : i = n
    · subst h; simp [hn]
    · simp [h]; omega
  simp only [List.mem_cons, List.not_mem_nil, or_false, Prod.mk.injEq] at h
  rcases h with ⟨rfl, rfl⟩ | ⟨rfl, rfl⟩ | ⟨rfl, rfl⟩
  · exact ⟨key _ 0 (by decide) (by decide), key _ 0 (by decide) (by decide)⟩
  · exact ⟨key _ 1 (by decide) (by decide), key _ 1 (by decide) (by decide)⟩
  · exact ⟨key _ 2 (by decide) (by decide), key _ 2 (by decide) (by decide)⟩

theorem tableIndex_lt {s : Str} {t : List Str} {i : Nat} (h : tableIndex s t = some i) :
    i < t.length ∧ t[i]? = some s ∧ ∀ j < i, t[j]? ≠ some s := by
  induction t generalizing i with
  | nil => simp [tableIndex] at h
  | cons x t ih =>
    unfold tableIndex at h
    split at h
    · rename_i hx
      simp only [Option.some.injEq] at h
      subst h
      refine ⟨by simp, by simp [hx], fun j hj => by omega⟩
    · rename_i hx
      simp only [Option.map_eq_some_iff] at h
      obtain ⟨j, hj, rfl⟩ := h
      obtain ⟨h1, h2, h3⟩ := ih hj
      refine ⟨by simpa using h1, by simpa using h2, ?_⟩
      intro m hm
      cases m with
      | zero => simpa using fun h => hx h.symm
      | succ m => simpa using h3 m (by omega)

/-- The outcomes of a table search. -/
theorem findInTable_cases (b : Bool) (t : List Str) (p : Str) (dbg : Bool) (s : St) :
    findInTable b t p dbg s = .ok none s ∨
    (∃ i x, findInTable b t p dbg s = .ok (some i) s ∧ s.tok.kind = .ident (p ++ x) ∧
      i < t.length ∧ tableIndex x t = some i) ∨
    findInTable b t p dbg s = .ub .tableOverrun := by
  unfold findInTable
  cases hk : s.tok.kind <;> simp only [true_or]
  case ident x =>
    by_cases hp : p ≠ [] ∧ x.take p.length ≠ p
    · rw [if_pos hp]; exact .inl rfl
    · rw [if_neg hp]
      have hx : x = p ++ x.drop p.length := by
        by_cases hn : p = []
        · subst hn; simp
        · have : x.take p.length = p := Decidable.of_not_not fun h => hp ⟨hn, h⟩
          conv => lhs; rw [← List.take_append_drop p.length x, this]
      cases hi : tableIndex (x.drop p.length) t with
      | some i =>
        exact .inr (.inl ⟨i, x.drop p.length, rfl, by rw [← hx], (tableIndex_lt hi).1, hi⟩)
      | none => cases b <;> simp

theorem foot_logic : Logic @Foot where
  pure a k r Q h := Foot.keep fun dbg s hk => ⟨rfl, by subst hk; exact h⟩
  bind m f k r Q h := by
    intro dbg s hk
    have h1 := h dbg s hk
    rw [M.bind_def]
    cases hm : m dbg s with
    | ok a s1 =>
      simp only [hm] at h1 ⊢
      obtain ⟨r1, hf, hsub, hsame, hmono⟩ := h1
      have h2 := hf dbg s1 rfl
      cases hfs : f a dbg s1 with
      | ok b s2 =>
        simp only [hfs] at h2 ⊢
        obtain ⟨r2, hq, hsub2, hsame2, hmono2⟩ := h2
        refine ⟨r2, hq, fun i hi => hsub i (hsub2 i hi), ?_, fun i hi => hmono2 i (hmono i hi)⟩
        intro i hi
        rw [hsame2 i (fun h => hi (hsub i h)), hsame i (fun h => hsub2 i (hi h))]
      | abort =>
        simp only [hfs] at h2 ⊢
        obtain ⟨hd, i, hi, hb⟩ := h2
        refine ⟨hd, i, hsub i hi, ?_⟩
        rw [← hsame i (fun _ => hi)]
        exact hb
      | _ => trivial
    | abort => simpa only [hm] using h1
    | _ => trivial
  getKind k r Q h := Foot.keep fun dbg s hk => ⟨rfl, by rw [hk]; exact h⟩
  getValue k r Q h := Foot.keep fun dbg s hk => ⟨rfl, by rw [hk]; exact h _⟩
  failTok msg k r Q := Foot.keep fun dbg s hk => trivial
  ub u k r Q _ := Foot.keep fun dbg s hk => trivial
  blameStart msg m k r Q h := by
    intro dbg s hk
    have := h dbg s hk
    unfold blameStart
    cases hms : m dbg s <;> simp only [hms] at this ⊢ <;> exact this
  advance k r Q hsemi h := by
    refine Foot.keep fun dbg s hk => ?_
    unfold advance
    cases ht : tokenize s.ctx.cur with
    | ok t c => exact ⟨rfl, h _ (tokenize_ok ht).wf⟩
    | _ => trivial
  addSet b F k r Q hF hr h := by
    intro dbg s hk
    unfold addBits
    by_cases hd : (dbg && (s.op.value &&& b) != 0#64) = true
    · rw [if_pos hd]
      simp only [Bool.and_eq_true, bne_iff_ne, ne_eq] at hd
      obtain ⟨i, hi⟩ := exists_bit hd.2
      have hi64 := lt_of_getLsbD hi
      rw [BitVec.getLsbD_and, Bool.and_eq_true] at hi
      exact ⟨hd.1, i, hr i (hF i hi.2), by rw [Op.bit, if_pos hi64]; exact hi.1⟩
    · rw [if_neg hd]
      refine ⟨fun i => r i ∧ ¬ F i, by subst hk; exact h, fun i hi => hi.1, ?_, ?_⟩
      · intro i hi
        dsimp only
        rw [bit_addBits]
        cases hb : b.getLsbD i
        · simp
        · exact ((hi (hr i (hF i hb))).2 (hF i hb)).elim
      · intro i hi
        dsimp only
        rw [bit_addBits, hi, Bool.true_or]
  addReuse b j k r Q hbj hr h := by
    intro dbg s hk
    have hj : 64 ≤ j := by
      simp only [List.mem_cons, List.not_mem_nil, or_false, Prod.mk.injEq] at hbj
      rcases hbj with ⟨-, rfl⟩ | ⟨-, rfl⟩ | ⟨-, rfl⟩ <;> omega
    unfold addReuse
    by_cases hd : (dbg && (s.op.reuse &&& b) != 0#32) = true
    · rw [if_pos hd]
      simp only [Bool.and_eq_true, bne_iff_ne, ne_eq] at hd
      obtain ⟨i, hi⟩ := exists_bit hd.2
      rw [BitVec.getLsbD_and, Bool.and_eq_true, (reuse_bit hbj i).1, decide_eq_true_eq] at hi
      refine ⟨hd.1, j, hr, ?_⟩
      rw [Op.bit, if_neg (by omega), ← hi.2]
      exact hi.1
    · rw [if_neg hd]
      refine ⟨without r j 1, by subst hk; exact h, fun i hi => hi.1, ?_, ?_⟩
      · intro i hi
        dsimp only
        rw [bit_addReuse, (reuse_bit hbj _).2]
        by_cases hij : i = j
        · subst hij
          exact ((hi hr).2 (by omega)).elim
        · have : ¬ (i - 64 = j - 64 ∧ 64 ≤ i) := by omega
          simp [this]
      · intro i hi
        dsimp only
        rw [bit_addReuse, hi, Bool.true_or]
  confirm k0 k r Q h := by
    refine Foot.keep fun dbg s hk => ?_
    unfold confirm
    by_cases hc : s.tok.kind = k0
    · rw [if_pos hc]; exact ⟨rfl, by rw [hk]; exact h (hk.symm.trans hc)⟩
    · rw [if_neg hc]; trivial
  confirmIdent k r Q h := by
    refine Foot.keep fun dbg s hk => ?_
    unfold confirmIdent
    cases hs : s.tok.kind <;> simp only [hs] at hk ⊢
    case ident x => exact ⟨trivial, by subst hk; exact h _ rfl⟩
  confirmReg k r Q h := by
    refine Foot.keep fun dbg s hk => ?_
    unfold confirmReg
    cases hs : s.tok.kind <;> simp only [hs] at hk ⊢
    case reg x => exact ⟨trivial, by subst hk; exact h _ rfl⟩
  confirmPred k r Q h := by
    refine Foot.keep fun dbg s hk => ?_
    unfold confirmPred
    cases hs : s.tok.kind <;> simp only [hs] at hk ⊢
    case pred x y => exact ⟨trivial, by subst hk; exact h _ _ rfl⟩
  convertInteger a b k r Q h := by
    refine Foot.keep fun dbg s hk => ?_
    unfold convertInteger
    cases hs : s.tok.kind <;> simp only [hs] at hk ⊢
    case imm v =>
      by_cases hc : v < a ∨ v > b
      · rw [if_pos hc]; trivial
      · rw [if_neg hc]
        exact ⟨rfl, by rw [hs]; subst hk; exact h v rfl (by omega) (by omega)⟩
  findInTable b t p k r Q hn hs := by
    refine Foot.keep fun dbg s hk => ?_
    rcases findInTable_cases b t p dbg s with h | ⟨i, x, h, hx, hi, -⟩ | h <;> rw [h]
    · exact ⟨rfl, by rw [hk]; exact hn⟩
    · exact ⟨rfl, by rw [hk]; exact hs i _ (hk.symm.trans hx) hi⟩
    · trivial

theorem Foot.getCtx {k : Kind} {r : Nat → Prop} {Q : Ctx → Kind → (Nat → Prop) → Prop}
    (h : ∀ c, Q c k r) : Foot getCtx k r Q :=
  Foot.keep fun dbg s hk => ⟨rfl, by rw [hk]; exact h _⟩

/-- The operands whose fields are apart and, if they clear bits, do it where `need` says. -/
def Operand.regular (o : Operand) : Bool :=
  apartList o.fields &&
  match o with
  | .label => true
  | .mirrorGpr a => a ≤ 56
  | .tldsType a => a ≤ 60
  | .texsType a => a == 53
  | o => o.plain

/-- The effect of an operand on the instruction word and the reuse flags. -/
def FootOf (o : Operand) (dbg : Bool) (s : St) : Prop :=
  match o.run dbg s with
  | .ok _ s' => s'.tok.kind.wf ∧ ∀ i, ¬ inF o.fields i → s'.op.bit i = s.op.bit i
  | .abort => dbg = true ∧ ∃ i, inF o.need i ∧ s.op.bit i = true
  | _ => True

theorem FootOf.of_foot {o : Operand} (hn : o.need = o.fields) {dbg : Bool} {s : St}
    (h : Foot o.run s.tok.kind (inF o.fields) (fun _ k' _ => k'.wf)) : FootOf o dbg s := by
  have := h dbg s rfl
  unfold FootOf
  cases hm : o.run dbg s with
  | ok a s' =>
    simp only [hm] at this ⊢
    obtain ⟨r', h1, h2, h3, h4⟩ := this
    exact ⟨h1, fun i hi => h3 i fun h => (hi h).elim⟩
  | abort => simpa only [hm, hn] using this
  | _ => trivial

theorem foot_label {k : Kind} : Foot runLabel k (inF [(20, 24)]) (fun _ k' _ => k'.wf) := by
  have L := foot_logic
  have target : ∀ v, k ≠ .semicolon →
      Foot (runLabelTarget v) k (inF [(20, 24)]) (fun _ k' _ => k'.wf) := by
    intro v hk
    unfold runLabelTarget
    refine L.bind _ _ _ _ _ (Foot.getCtx fun c => ?_)
    dsimp only
    split
    · exact L.ub _ _ _ _ (by decide)
    split
    · exact L.failTok _ _ _ _
    refine L.bind _ _ _ _ _ (L.addField _ 20 23 _ _ _ ?_ ?_ ?_)
    · rw [show 0x7FFFFF#64 = BitVec.ofNat 64 (2 ^ 23 - 1) from rfl]
      exact within_and_mask
    · intro i h1 h2
      rw [inF_cons]; exact .inl ⟨h1, by simp only; omega⟩
    refine L.bind _ _ _ _ _ (L.addField _ 43 1 _ _ _ ?_ ?_ ?_)
    · split
      · exact within_one _
      · exact within_shl (by decide)
    · intro i h1 h2
      refine ⟨?_, by omega⟩
      rw [inF_cons]; exact .inl ⟨by simp only; omega, by simp only; omega⟩
    exact L.advance _ _ _ hk fun k' hk' => hk'
  unfold runLabel
  refine L.bind _ _ _ _ _ (L.getKind _ _ _ ?_)
  cases hk : k <;> dsimp only
  case ident x =>
    refine L.bind _ _ _ _ _ (Foot.getCtx fun c => ?_)
    split
    · exact L.failTok _ _ _ _
    · exact hk ▸ target _ (by simp [hk])
  case imm v => exact hk ▸ target _ (by simp [hk])
  all_goals exact L.failTok _ _ _ _

/-- The effect of a computation started after some bits have been cleared. -/
theorem Foot.clear {m : M α} {k : Kind} {r : Nat → Prop} {Q : α → Kind → (Nat → Prop) → Prop}
    (h : Foot m k r Q) (mask : BitVec 64) (dbg : Bool) (s : St) (hk : s.tok.kind = k) :
    match m dbg { s with op := { s.op with value := s.op.value &&& ~~~mask } } with
    | .ok a s' => ∃ r', Q a s'.tok.kind r' ∧ ∀ i, (r i → r' i) → mask.getLsbD i = false →
        s'.op.bit i = s.op.bit i
    | .abort => dbg = true ∧ ∃ i, r i ∧ mask.getLsbD i = false ∧ s.op.bit i = true
    | _ => True := by
  have hbit : ∀ i, ({ s.op with value := s.op.value &&& ~~~mask } : Op).bit i =
      (s.op.bit i && !mask.getLsbD i) := by
    intro i
    unfold Op.bit
    by_cases hi : i < 64
    · simp [hi]
    · simp [hi, BitVec.getLsbD_of_ge mask i (by omega)]
  have h1 := h dbg { s with op := { s.op with value := s.op.value &&& ~~~mask } } hk
  cases hm : m dbg { s with op := { s.op with value := s.op.value &&& ~~~mask } } with
  | ok a s' =>
    simp only [hm] at h1 ⊢
    obtain ⟨r', hq, h2, h3, h4⟩ := h1
    refine ⟨r', hq, fun i hi hmask => ?_⟩
    rw [h3 i hi, hbit, hmask]; simp
  | abort =>
    simp only [hm] at h1 ⊢
    obtain ⟨hd, i, hi, hb⟩ := h1
    rw [hbit, Bool.and_eq_true] at hb
    exact ⟨hd, i, hi, by simpa using hb.2, hb.1⟩
  | _ => trivial

theorem inF_reuse {a i : Nat} (h : inF (reuseFields a) i) : 64 ≤ i ∧ i < 67 := by
  unfold reuseFields at h
  repeat' split at h
  all_goals simp [inF_cons, inF_nil] at h <;> omega

theorem mask_bit {a w i : Nat} (hw : w ≤ 64) (h1 : a ≤ i) (h2 : i < a + w) (h3 : i < 64) :
    (BitVec.ofNat 64 (2 ^ w - 1) <<< a).getLsbD i = true := by
  rw [BitVec.getLsbD_shiftLeft, BitVec.getLsbD_ofNat, Nat.testBit_two_pow_sub_one]
  simp; omega

theorem mask_bit_not {a w i : Nat} (h : ¬ (a ≤ i ∧ i < a + w)) :
    (BitVec.ofNat 64 (2 ^ w - 1) <<< a).getLsbD i = false := by
  rw [BitVec.getLsbD_shiftLeft, BitVec.getLsbD_ofNat, Nat.testBit_two_pow_sub_one]
  cases hd : decide (i < a)
  · simp at hd
    have : ¬ (i - a < w) := by omega
    simp [this]
  · simp

theorem foot_mirror {a : Nat} (ha : a ≤ 56) {dbg : Bool} {s : St} (hk : s.tok.kind.wf) :
    FootOf (.mirrorGpr a) dbg s := by
  have L := foot_logic
  have hd : ∀ f ∈ reuseFields a, Field.apart (a, 8) f = true := by
    unfold reuseFields
    repeat' split
    all_goals simp_all [Field.apart]
  have h := Foot.clear (L.assembleGpr a s.tok.kind (inF ((a, 8) :: reuseFields a))
    (fun _ k' _ => k'.wf) hk hd (fun i hi => hi) (fun k' r' hk' _ => hk')) (0xFF#64 <<< a) dbg s rfl
  unfold FootOf
  show match runMirror a dbg s with
    | .ok _ s' => s'.tok.kind.wf ∧ ∀ i, ¬ inF (reuseFields a) i → s'.op.bit i = s.op.bit i
    | .abort => dbg = true ∧ ∃ i, inF (reuseFields a) i ∧ s.op.bit i = true
    | _ => True
  have hrun : runMirror a dbg s =
      (assembleGpr a dbg { s with op := { s.op with value := s.op.value &&& ~~~(0xFF#64 <<< a) } }).bind
        (fun _ s1 => if s1.op.value ≠ s.op.value then
          .fail ⟨s1.tok.line, s1.tok.col, "source register is not mirrored to destination register"⟩ s1
          else .ok () s1) := by
    unfold runMirror
    simp only [bind_apply, getValue, setValue, Out.bind]
    congr 1
    funext _ s1
    split <;> rfl
  rw [hrun]
  cases hm : assembleGpr a dbg
      { s with op := { s.op with value := s.op.value &&& ~~~(0xFF#64 <<< a) } } with
  | ok u s1 =>
    simp only [hm, Out.bind] at h ⊢
    by_cases hv : s1.op.value = s.op.value
    · rw [if_neg (by simpa using hv)]
      obtain ⟨r', hwf, h1⟩ := h
      refine ⟨hwf, fun i hi => ?_⟩
      by_cases hi64 : i < 64
      · rw [Op.bit, Op.bit, if_pos hi64, if_pos hi64, hv]
      · refine h1 i ?_ (BitVec.getLsbD_of_ge _ _ (by omega))
        intro hin
        rw [inF_cons] at hin
        simp only at hin
        rcases hin with hin | hin
        · omega
        · exact (hi hin).elim
    · rw [if_pos (by simpa using hv)]; trivial
  | abort =>
    simp only [hm, Out.bind] at h ⊢
    obtain ⟨hdbg, i, hin, hmask, hb⟩ := h
    refine ⟨hdbg, i, ?_, hb⟩
    rw [inF_cons] at hin
    simp only at hin
    rcases hin with hin | hin
    · rw [show (0xFF#64 : BitVec 64) = BitVec.ofNat 64 (2 ^ 8 - 1) from rfl,
        mask_bit (by omega) hin.1 hin.2 (by omega)] at hmask
      simp at hmask
    · exact hin
  | _ => trivial

/-- `runTldsType` after the mode bits have been read and cleared. -/
def tldsRest (a : Nat) (ll aoffi ms : Bool) : M Unit := do
  let r ← findInTable true [c!"1D", c!"2D", c!"3D", c!"ARRAY_2D"] []
  match r with
  | none => failTok "expected 1D, 2D, ARRAY_2D, or 3D"
  | some i =>
    match tldsMode i ll aoffi ms with
    | .error msg => failTok msg
    | .ok mode => do
      addBits (BitVec.ofNat 64 mode <<< a)
      advance

theorem tldsMode_lt {i mode : Nat} {ll aoffi ms : Bool} (hi : i < 4)
    (h : tldsMode i ll aoffi ms = .ok mode) : mode < 2 ^ 4 := by
  have h4 : i = 0 ∨ i = 1 ∨ i = 2 ∨ i = 3 := by omega
  revert h
  rcases h4 with rfl | rfl | rfl | rfl <;> cases ll <;> cases aoffi <;> cases ms <;>
    simp [tldsMode] <;> omega

theorem foot_tlds {a : Nat} (ha : a ≤ 60) {dbg : Bool} {s : St} : FootOf (.tldsType a) dbg s := by
  have L := foot_logic
  have hrest : ∀ ll aoffi ms, Foot (tldsRest a ll aoffi ms) s.tok.kind (inF [(a, 4)])
      (fun _ k' _ => k'.wf) := by
    intro ll aoffi ms
    unfold tldsRest
    refine L.bind _ _ _ _ _ (L.findInTable _ _ _ _ _ _ (L.failTok _ _ _ _) ?_)
    intro i x hx hi
    dsimp only
    split
    · exact L.failTok _ _ _ _
    · rename_i mode hmode
      refine L.bind _ _ _ _ _ (L.addField _ a 4 _ _ _ (within_ofNat (tldsMode_lt hi hmode)) ?_ ?_)
      · intro i h1 h2
        rw [inF_cons]; exact .inl ⟨h1, h2⟩
      · exact L.advance _ _ _ (by rw [hx]; simp) fun k' hk' => hk'
  have h := Foot.clear (hrest (decide (((s.op.value >>> a) &&& 1#64) ≠ 0#64))
    (decide (((s.op.value >>> (a + 1)) &&& 1#64) ≠ 0#64))
    (decide (((s.op.value >>> (a + 2)) &&& 1#64) ≠ 0#64))) (7#64 <<< a) dbg s rfl
  unfold FootOf
  have hrun : (Operand.tldsType a).run dbg s =
      tldsRest a (decide (((s.op.value >>> a) &&& 1#64) ≠ 0#64))
      (decide (((s.op.value >>> (a + 1)) &&& 1#64) ≠ 0#64))
      (decide (((s.op.value >>> (a + 2)) &&& 1#64) ≠ 0#64)) dbg
      { s with op := { s.op with value := s.op.value &&& ~~~(7#64 <<< a) } } := rfl
  rw [hrun]
  generalize tldsRest a _ _ _ dbg _ = X at h ⊢
  cases X with
  | ok u s1 =>
    obtain ⟨r', hwf, h1⟩ := h
    refine ⟨hwf, fun i hi => h1 i (fun h => (hi h).elim) ?_⟩
    rw [show (7#64 : BitVec 64) = BitVec.ofNat 64 (2 ^ 3 - 1) from rfl]
    refine mask_bit_not fun hh => hi ?_
    show inF [(a, 4)] i
    rw [inF_cons]; exact .inl ⟨hh.1, by simp only; omega⟩
  | abort =>
    obtain ⟨hdbg, i, hin, hmask, hb⟩ := h
    refine ⟨hdbg, i, ?_, hb⟩
    show inF [(a + 3, 1)] i
    simp only [inF_cons, inF_nil, or_false] at hin ⊢
    apply Decidable.byContradiction
    intro hn
    rw [show (7#64 : BitVec 64) = BitVec.ofNat 64 (2 ^ 3 - 1) from rfl,
      mask_bit (by omega) hin.1 (by omega) (by omega)] at hmask
    simp at hmask
  | _ => trivial

/-- `runTexsType` after the mode bits have been read and cleared. -/
def texsRest (i lod : Nat) (dc : Bool) : M Unit :=
  match texsBits i lod dc with
  | .error msg => failTok msg
  | .ok b => do
    addBits b
    advance

theorem texsBits_within {i lod : Nat} {dc : Bool} {b : BitVec 64} (h : texsBits i lod dc = .ok b) :
    Within b 53 4 := by
  have key : ∀ n : BitVec 64, n.toNat < 2 ^ 4 → b = n <<< 53 → Within b 53 4 := by
    rintro n hn rfl
    exact within_shl hn
  unfold texsBits at h
  repeat' split at h
  all_goals first
    | (cases h; done)
    | (simp only [Except.ok.injEq] at h
       first
       | exact key 0 (by decide) (by rw [← h]; decide)
       | exact key 1 (by decide) (by rw [← h]; decide)
       | exact key 2 (by decide) (by rw [← h]; decide)
       | exact key 3 (by decide) (by rw [← h]; decide)
       | exact key 4 (by decide) (by rw [← h]; decide)
       | exact key 5 (by decide) (by rw [← h]; decide)
       | exact key 6 (by decide) (by rw [← h]; decide)
       | exact key 7 (by decide) (by rw [← h]; decide)
       | exact key 8 (by decide) (by rw [← h]; decide)
       | exact key 9 (by decide) (by rw [← h]; decide)
       | exact key 10 (by decide) (by rw [← h]; decide)
       | exact key 11 (by decide) (by rw [← h]; decide)
       | exact key 12 (by decide) (by rw [← h]; decide)
       | exact key 13 (by decide) (by rw [← h]; decide))

theorem foot_texs {dbg : Bool} {s : St} : FootOf (.texsType 53) dbg s := by
  have L := foot_logic
  unfold FootOf
  have hrun : (Operand.texsType 53).run dbg s =
      (findInTable true texsTypeTable [] dbg s).bind (fun r s => match r with
        | none => failTok "expected 1D, 2D, ARRAY_2D, 3D, or CUBE" dbg s
        | some i => texsRest i ((s.op.value >>> 53) &&& 3#64).toNat
            (decide (((s.op.value >>> 53) &&& 4#64) ≠ 0#64)) dbg
            { s with op := { s.op with value := s.op.value &&& ~~~(7#64 <<< 53) } }) := by
    show runTexsType 53 dbg s = _
    unfold runTexsType
    rw [bind_apply]
    congr 1
    funext r s1
    cases r <;> rfl
  rw [hrun]
  rcases findInTable_cases true texsTypeTable [] dbg s with h | ⟨i, x, h, hx, hi, -⟩ | h <;>
    rw [h] <;> simp only [Out.bind]
  · trivial
  have hrest : ∀ lod dc, Foot (texsRest i lod dc) s.tok.kind (inF [(53, 4)])
      (fun _ k' _ => k'.wf) := by
    intro lod dc
    unfold texsRest
    split
    · exact L.failTok _ _ _ _
    · rename_i b hb
      refine L.bind _ _ _ _ _ (L.addField _ 53 4 _ _ _ (texsBits_within hb) ?_ ?_)
      · intro i h1 h2
        rw [inF_cons]; exact .inl ⟨h1, h2⟩
      · exact L.advance _ _ _ (by rw [hx]; simp) fun k' hk' => hk'
  have h := Foot.clear (hrest ((s.op.value >>> 53) &&& 3#64).toNat
    (decide (((s.op.value >>> 53) &&& 4#64) ≠ 0#64))) (7#64 <<< 53) dbg s rfl
  generalize texsRest i _ _ dbg _ = X at h ⊢
  cases X with
  | ok u s1 =>
    obtain ⟨r', hwf, h1⟩ := h
    refine ⟨hwf, fun i hi => h1 i (fun h => (hi h).elim) ?_⟩
    rw [show (7#64 : BitVec 64) = BitVec.ofNat 64 (2 ^ 3 - 1) from rfl]
    refine mask_bit_not fun hh => hi ?_
    show inF [(53, 4)] i
    rw [inF_cons]; exact .inl ⟨hh.1, by simp only; omega⟩
  | abort =>
    obtain ⟨hdbg, i, hin, hmask, hb⟩ := h
    refine ⟨hdbg, i, ?_, hb⟩
    show inF [(56, 1)] i
    simp only [inF_cons, inF_nil, or_false] at hin ⊢
    apply Decidable.byContradiction
    intro hn
    rw [show (7#64 : BitVec 64) = BitVec.ofNat 64 (2 ^ 3 - 1) from rfl,
      mask_bit (by omega) hin.1 (by omega) (by omega)] at hmask
    simp at hmask
  | _ => trivial

/-- The effect of every operand that occurs in the table. -/
theorem Operand.foot {o : Operand} (ho : o.regular = true) {dbg : Bool} {s : St}
    (hk : s.tok.kind.wf) : FootOf o dbg s := by
  have plain : o.plain = true → o.need = o.fields → apartList o.fields = true → FootOf o dbg s := by
    intro hp hn hd
    exact .of_foot hn (foot_logic.run o hp hd _ _ _ hk (fun i h => h) fun k' r' hk' _ => hk')
  unfold Operand.regular at ho
  rw [Bool.and_eq_true] at ho
  obtain ⟨hd, ho⟩ := ho
  cases o
  case label => exact .of_foot rfl foot_label
  case mirrorGpr a => exact foot_mirror (by simpa using ho) hk
  case tldsType a => exact foot_tlds (by simpa using ho)
  case texsType a =>
    have : a = 53 := by simpa using ho
    subst this
    exact foot_texs
  all_goals exact plain ho rfl hd

end Nxas
