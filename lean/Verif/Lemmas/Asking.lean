import Verif.Lemmas.Grammar
import Verif.Lemmas.Closed
/-
After which tokens an operand parser asks for another one: runs that end because the next token cannot be read.
-/

namespace Nxas

open Spec

/-- After the token under the cursor the tokens `ks` can be read, and then nothing more. -/
def Dies : Cur → List Kind → Prop
  | c, [] => tokenize c = .ub .readPastEnd
  | c, k :: ks => ∃ t1 c1, tokenize c = .ok t1 c1 ∧ t1.kind = k ∧ Dies c1 ks

theorem Dies.unique {c : Cur} {ks ks' : List Kind} (h : Dies c ks) (h' : Dies c ks') : ks = ks' := by
  induction ks generalizing c ks' with
  | nil =>
    cases ks' with
    | nil => rfl
    | cons k ks' =>
      obtain ⟨t1, c1, h1, -⟩ := h'
      unfold Dies at h
      rw [h] at h1; simp at h1
  | cons k ks ih =>
    obtain ⟨t1, c1, h1, rfl, h2⟩ := h
    cases ks' with
    | nil => unfold Dies at h'; rw [h'] at h1; simp at h1
    | cons k' ks' =>
      obtain ⟨t2, c2, h3, rfl, h4⟩ := h'
      rw [h1] at h3
      obtain ⟨rfl, rfl⟩ : t1 = t2 ∧ c1 = c2 := by simpa using h3
      rw [ih h2 h4]

/-- What is read first is a beginning of what can be read. -/
theorem Dies.path {t t' : Token} {c c' : Cur} {ks ks' : List Kind} (hp : Path t c ks t' c') (h : Dies c ks') :
    ∃ ks2, t.kind :: ks' = ks ++ t'.kind :: ks2 ∧ Dies c' ks2 := by
  induction ks generalizing t c ks' with
  | nil => obtain ⟨rfl, rfl⟩ := hp; exact ⟨ks', rfl, h⟩
  | cons k ks ih =>
    obtain ⟨rfl, t1, c1, h1, h2⟩ := hp
    cases ks' with
    | nil => unfold Dies at h; rw [h] at h1; simp at h1
    | cons k' ks' =>
      obtain ⟨t2, c2, h3, rfl, h4⟩ := h
      rw [h1] at h3
      obtain ⟨rfl, rfl⟩ : t1 = t2 ∧ c1 = c2 := by simpa using h3
      obtain ⟨ks2, e1, e2⟩ := ih h2 h4
      exact ⟨ks2, by rw [e1]; rfl, e2⟩

theorem Dies.of_path {t t' : Token} {c c' : Cur} {ks ks2 : List Kind} (hp : Path t c ks t' c') (h : Dies c' ks2) :
    ∃ ks', t.kind :: ks' = ks ++ t'.kind :: ks2 ∧ Dies c ks' := by
  induction ks generalizing t c with
  | nil => obtain ⟨rfl, rfl⟩ := hp; exact ⟨ks2, rfl, h⟩
  | cons k ks ih =>
    obtain ⟨rfl, t1, c1, h1, h2⟩ := hp
    obtain ⟨ks', e1, e2⟩ := ih h2
    exact ⟨t1.kind :: ks', by rw [e1]; rfl, t1, c1, h1, rfl, e2⟩

/-- The tokens of a text that can be read no further can be split anywhere. -/
theorem Dies.split {t : Token} {c : Cur} {ks ks1 ks2 : List Kind} {k : Kind} (h : Dies c ks) (he : t.kind :: ks = ks1 ++ k :: ks2) :
    ∃ t' c', Path t c ks1 t' c' ∧ t'.kind = k ∧ Dies c' ks2 := by
  induction ks1 generalizing t c ks with
  | nil =>
    simp only [List.nil_append, List.cons.injEq] at he
    obtain ⟨rfl, rfl⟩ := he
    exact ⟨t, c, ⟨rfl, rfl⟩, rfl, h⟩
  | cons k1 ks1 ih =>
    simp only [List.cons_append, List.cons.injEq] at he
    obtain ⟨rfl, rfl⟩ := he
    cases hks : ks1 ++ k :: ks2 with
    | nil => simp at hks
    | cons k' ks' =>
      rw [hks] at h
      obtain ⟨t1, c1, h1, rfl, h2⟩ := h
      obtain ⟨t', c', e1, e2, e3⟩ := ih h2 (t := t1) hks.symm
      exact ⟨t', c', ⟨rfl, t1, c1, h1, e1⟩, e2, e3⟩

/-- A set of beginnings: the environment, the word so far, the current token, the tokens after it. -/
abbrev Ask := Env → BitVec 64 → Kind → List Kind → Prop

/-- The runs of `m` that read beyond the end of the text, in a build without assertions, are described by `W`. -/
def Asks (m : M α) (W : Ask) : Prop := ∀ s, s.tok.kind.proper → (m false s = .ub .readPastEnd ↔
  ∃ ks, Dies s.ctx.cur ks ∧ W s.ctx.env s.op.value s.tok.kind ks)

/-- Never. -/
def never : Ask := fun _ _ _ _ => False

/-- At the end of the tokens. -/
def atEnd : Ask := fun _ _ _ ks => ks = []

/-- One computation after the other. -/
def andThen (P : Sem α) (W : Ask) (V : α → Ask) : Ask := fun e v k ks => W e v k ks ∨
  ∃ x ks1 k2 ks2 b r, k :: ks = ks1 ++ k2 :: ks2 ∧ P e v x ks1 k2 b r ∧ V x e (v ||| b) k2 ks2

/-- Depends on a condition. -/
def altA (c : Prop) (P Q : Ask) : Ask := fun e v k ks => (c ∧ P e v k ks) ∨ (¬ c ∧ Q e v k ks)

/-- Depends on an optional number. -/
def optA (x : Option Nat) (P : Ask) (Q : Nat → Ask) : Ask := fun e v k ks => (x = none ∧ P e v k ks) ∨ ∃ i, x = some i ∧ Q i e v k ks

theorem Asks.conv {m : M α} {W V : Ask} (h : Asks m W) (hi : ∀ e v k ks, k.proper → (W e v k ks ↔ V e v k ks)) : Asks m V := by
  intro s hs
  rw [h s hs]
  simp only [hi _ _ _ _ hs]

theorem Asks.bind {m : M α} {f : α → M β} {P : Sem α} {W : Ask} {V : α → Ask} (hP : Den m P) (hW : Asks m W)
    (hV : ∀ x, Asks (f x) (V x)) : Asks (m >>= f) (andThen P W V) := by
  intro s hs
  constructor
  · intro h
    rcases bind_ub h with h | ⟨x, s1, h1, h2⟩
    · obtain ⟨ks, e1, e2⟩ := (hW s hs).1 h
      exact ⟨ks, e1, .inl e2⟩
    · obtain ⟨ks1, b, r, t, c, hp, hq, rfl⟩ := (hP s hs _ _).1 h1
      obtain ⟨ks2, e1, e2⟩ := (hV x _ (hp.proper hs).1).1 h2
      obtain ⟨ks', e3, e4⟩ := Dies.of_path hp e1
      exact ⟨ks', e4, .inr ⟨x, ks1, t.kind, ks2, b, r, e3, hq, e2⟩⟩
  · rintro ⟨ks, hd, h | ⟨x, ks1, k2, ks2, b, r, he, hq, h⟩⟩
    · rw [M.bind_def, (hW s hs).2 ⟨ks, hd, h⟩]
    · obtain ⟨t, c, hp, rfl, hd2⟩ := hd.split he
      have h1 := (hP s hs _ _).2 ⟨ks1, b, r, t, c, hp, hq, rfl⟩
      rw [M.bind_def, h1]
      exact (hV x (s.put b r t c) (hp.proper hs).1).2 ⟨ks2, hd2, h⟩

theorem Asks.never {m : M α} (h : ∀ s, m false s ≠ .ub .readPastEnd) : Asks m never := by
  intro s _
  exact iff_of_false (h s) (by rintro ⟨_, _, h⟩; exact h)

namespace Asks

theorem pure (x : α) : Asks (M.pure x) Nxas.never := .never (by simp [M.pure])
theorem getKind : Asks Nxas.getKind Nxas.never := .never (by simp [Nxas.getKind])
theorem getValue : Asks Nxas.getValue Nxas.never := .never (by simp [Nxas.getValue])
theorem setValue (v : BitVec 64) : Asks (Nxas.setValue v) Nxas.never := .never (by simp [Nxas.setValue])
theorem failTok (msg : Msg) : Asks (Nxas.failTok msg : M α) Nxas.never := .never (by simp [Nxas.failTok])
theorem addBits (x : BitVec 64) : Asks (Nxas.addBits x) Nxas.never := .never (by simp [Nxas.addBits])
theorem addReuse (x : BitVec 32) : Asks (Nxas.addReuse x) Nxas.never := .never (by simp [Nxas.addReuse])
theorem ubM {u : UB} (h : u ≠ .readPastEnd) : Asks (Nxas.ubM u : M α) Nxas.never := .never (by simp [Nxas.ubM, h])

theorem confirm (k : Kind) : Asks (Nxas.confirm k) Nxas.never := .never (by intro s; unfold Nxas.confirm; split <;> simp)
theorem confirmIdent : Asks Nxas.confirmIdent Nxas.never := .never (by intro s; unfold Nxas.confirmIdent; split <;> simp)
theorem confirmReg : Asks Nxas.confirmReg Nxas.never := .never (by intro s; unfold Nxas.confirmReg; split <;> simp)
theorem confirmPred : Asks Nxas.confirmPred Nxas.never := .never (by intro s; unfold Nxas.confirmPred; split <;> simp)
theorem convertInteger (a b : Int) : Asks (Nxas.convertInteger a b) Nxas.never :=
  .never (by intro s; unfold Nxas.convertInteger; repeat' split <;> try simp)
theorem findInTable (b : Bool) (t : List Str) (p : Str) : Asks (Nxas.findInTable b t p) Nxas.never :=
  .never (by
    intro s
    rcases findInTable_cases b t p false s with h | ⟨i, x, h, -⟩ | h <;> rw [h] <;> simp)

theorem advance : Asks Nxas.advance atEnd := by
  intro s _
  unfold Nxas.advance atEnd
  constructor
  · intro h
    refine ⟨[], ?_, rfl⟩
    unfold Dies
    cases ht : tokenize s.ctx.cur <;> rw [ht] at h <;> simp at h
    rw [h]
  · rintro ⟨_, h, rfl⟩
    unfold Dies at h
    rw [h]

theorem ite {c : Prop} [Decidable c] {m m' : M α} {P Q : Ask} (h : Asks m P) (h' : Asks m' Q) :
    Asks (if c then m else m') (altA c P Q) := by
  unfold altA
  by_cases hc : c
  · simp only [hc, if_true, true_and, not_true, false_and, or_false]; exact h
  · simp only [hc, if_false, not_false_eq_true, true_and, false_and, false_or]; exact h'

theorem bindOpt {m : M (Option Nat)} {F : Option Nat → M α} {R : Sem (Option Nat)} {W P : Ask} {Q : Nat → Ask}
    (hm : Den m R) (hw : Asks m W) (h : Asks (F none) P) (h' : ∀ i, Asks (F (some i)) (Q i)) :
    Asks (m >>= F) (andThen R W fun x => optA x P Q) := by
  refine .bind hm hw fun x => ?_
  unfold optA
  cases x with
  | none => simpa using h
  | some i => simpa using h' i

theorem blameStart {msg : Msg} {m : M α} {P : Ask} (h : Asks m P) : Asks (blameStart msg m) P := by
  intro s hs
  rw [← h s hs]
  unfold Nxas.blameStart
  cases m false s <;> simp

theorem getCtx {f : Ctx → M α} {P : Env → Ask} (h : ∀ c, Asks (f c) (P c.env)) : Asks (Nxas.getCtx >>= f) (fun e => P e e) := by
  intro s hs
  have : (Nxas.getCtx >>= f) false s = f s.ctx false s := rfl
  rw [this]
  exact h _ s hs

end Asks

section
variable {e : Env} {v : BitVec 64} {k : Kind} {ks : List Kind}

theorem andThen_still {p : Env → BitVec 64 → α → Kind → Prop} {V : α → Ask} :
    andThen (still p) never V e v k ks ↔ ∃ x, p e v x k ∧ V x e v k ks := by
  simp only [andThen, still, never, false_or]
  constructor
  · rintro ⟨x, _, k2, ks2, _, _, he, ⟨rfl, rfl, rfl, h⟩, h'⟩
    simp only [List.nil_append, List.cons.injEq] at he
    obtain ⟨rfl, rfl⟩ := he
    exact ⟨x, h, by simpa using h'⟩
  · rintro ⟨x, h, h'⟩
    exact ⟨x, [], k, ks, 0, 0, rfl, ⟨rfl, rfl, rfl, h⟩, by simpa using h'⟩

theorem andThen_adv {V : Unit → Ask} :
    andThen adv atEnd V e v k ks ↔ ks = [] ∨ ∃ k' ks', ks = k' :: ks' ∧ V () e v k' ks' := by
  simp only [andThen, adv, atEnd]
  constructor
  · rintro (h | ⟨x, _, k2, ks2, _, _, he, ⟨rfl, rfl, k0, rfl⟩, h'⟩)
    · exact .inl h
    · simp only [List.cons_append, List.nil_append, List.cons.injEq] at he
      exact .inr ⟨k2, ks2, he.2, by simpa using h'⟩
  · rintro (h | ⟨k', ks', rfl, h⟩)
    · exact .inl h
    · exact .inr ⟨(), [k], k', ks', 0, 0, rfl, ⟨rfl, rfl, k, rfl⟩, by simpa using h⟩

theorem andThen_add {x : BitVec 64} {V : Unit → Ask} :
    andThen (add x) never V e v k ks ↔ V () e (v ||| x) k ks := by
  simp only [andThen, add, never, false_or]
  constructor
  · rintro ⟨_, _, k2, ks2, _, _, he, ⟨rfl, rfl, rfl⟩, h'⟩
    simp only [List.nil_append, List.cons.injEq] at he
    obtain ⟨rfl, rfl⟩ := he
    exact h'
  · intro h
    exact ⟨(), [], k, ks, x, 0, rfl, ⟨rfl, rfl, rfl⟩, h⟩

theorem andThen_addR {x : BitVec 32} {V : Unit → Ask} :
    andThen (addR x) never V e v k ks ↔ V () e v k ks := by
  simp only [andThen, addR, never, false_or]
  constructor
  · rintro ⟨_, _, k2, ks2, _, _, he, ⟨rfl, rfl, rfl⟩, h'⟩
    simp only [List.nil_append, List.cons.injEq] at he
    obtain ⟨rfl, rfl⟩ := he
    simpa using h'
  · intro h
    exact ⟨(), [], k, ks, 0, x, rfl, ⟨rfl, rfl, rfl⟩, by simpa using h⟩

theorem andThen_bot {W : Ask} {V : α → Ask} : andThen bot W V e v k ks ↔ W e v k ks := by simp [andThen, bot]

theorem andThen_alt {c : Prop} {P P' : Sem α} {W W' : Ask} {V : α → Ask} :
    andThen (alt c P P') (altA c W W') V e v k ks ↔ altA c (andThen P W V) (andThen P' W' V) e v k ks := by
  by_cases hc : c <;> simp [andThen, alt, altA, hc]

theorem andThen_opt {x : Option Nat} {P : Sem α} {P' : Nat → Sem α} {W : Ask} {W' : Nat → Ask} {V : α → Ask} :
    andThen (byOpt x P P') (optA x W W') V e v k ks ↔ optA x (andThen P W V) (fun i => andThen (P' i) (W' i) V) e v k ks := by
  cases x <;> simp [andThen, byOpt, optA]

theorem andThen_seq {P : Sem α} {W : Ask} {P' : α → Sem γ} {W' : α → Ask} {V : γ → Ask} :
    andThen (seq P P') (andThen P W W') V e v k ks ↔ andThen P W (fun x => andThen (P' x) (W' x) V) e v k ks := by
  constructor
  · rintro ((h | ⟨x, ks1, k2, ks2, b, r, he, hP, h⟩) | ⟨x, _, k2, ks2, _, _, he, ⟨y, ks3, ks4, b3, b4, r3, r4, h1, h2, rfl, rfl, rfl⟩, h⟩)
    · exact .inl h
    · exact .inr ⟨x, ks1, k2, ks2, b, r, he, hP, .inl h⟩
    · obtain ⟨k', ks', e1⟩ : ∃ k' ks', ks4 ++ k2 :: ks2 = k' :: ks' := by cases ks4 <;> exact ⟨_, _, rfl⟩
      have hk : ks4.headD k2 = k' := by cases ks4 <;> simp at e1 <;> simp [e1]
      refine .inr ⟨y, ks3, k', ks', b3, r3, by rw [he, List.append_assoc, e1], hk ▸ h1,
        .inr ⟨x, ks4, k2, ks2, b4, r4, e1.symm, h2, by rwa [← BitVec.or_assoc] at h⟩⟩
  · rintro (h | ⟨y, ks3, k', ks', b3, r3, he, h1, h | ⟨x, ks4, k2, ks2, b4, r4, e1, h2, h⟩⟩)
    · exact .inl (.inl h)
    · exact .inl (.inr ⟨y, ks3, k', ks', b3, r3, he, h1, h⟩)
    · refine .inr ⟨x, ks3 ++ ks4, k2, ks2, b3 ||| b4, r3 ||| r4, by rw [he, e1, List.append_assoc],
        ⟨y, ks3, ks4, b3, b4, r3, r4, ?_, h2, rfl, rfl, rfl⟩, by rwa [← BitVec.or_assoc]⟩
      have hk : ks4.headD k2 = k' := by cases ks4 <;> simp at e1 <;> simp [e1]
      rw [hk]; exact h1

end

/-- Find the beginnings after which a computation asks for a token. -/
macro "ask" : tactic => `(tactic| repeat' (first
  | with_reducible exact Asks.pure _ | with_reducible exact Asks.getKind | with_reducible exact Asks.getValue
  | with_reducible exact Asks.confirm _
  | with_reducible exact Asks.confirmIdent | with_reducible exact Asks.confirmReg
  | with_reducible exact Asks.confirmPred | with_reducible exact Asks.convertInteger _ _
  | with_reducible exact Asks.findInTable _ _ _ | with_reducible exact Asks.failTok _
  | with_reducible exact Asks.ubM (by simp)
  | with_reducible exact Asks.advance | with_reducible exact Asks.addBits _ | with_reducible exact Asks.addReuse _
  | with_reducible exact Den.pure _ | with_reducible exact Den.getKind | with_reducible exact Den.getValue
  | with_reducible exact Den.confirm _
  | with_reducible exact Den.confirmIdent | with_reducible exact Den.confirmReg
  | with_reducible exact Den.confirmPred | with_reducible exact Den.convertInteger _ _
  | with_reducible exact Den.findInTable _ _ _ | with_reducible exact Den.failTok _
  | with_reducible exact Den.ubM _
  | with_reducible exact Den.advance | with_reducible exact Den.addBits _ | with_reducible exact Den.addReuse _
  | with_reducible assumption
  | with_reducible apply Asks.blameStart
  | with_reducible apply Asks.bindOpt
  | with_reducible apply Asks.bind
  | with_reducible apply Asks.ite
  | with_reducible apply Den.bindOpt
  | with_reducible apply Den.bind
  | with_reducible apply Den.ite
  | intro _
  | dsimp only))

/-- Compute the beginnings. -/
macro "sema" : tactic => `(tactic| (
  try simp only [andThen_seq, andThen_alt, andThen_opt, andThen_still, andThen_adv, andThen_add, andThen_addR, andThen_bot, altA, optA]
  try simp only [atEnd, never, exists_eq_left, exists_eq_right,
    equal_iff, not_equal_iff, ex_lookup, ex_lookup', ex_lookup_some,
    false_and, and_false, false_or, or_false, and_true, true_and, exists_const, ne_eq, Decidable.not_not,
    exists_eq_left', exists_false]))

/-- The operand accepts a text with this beginning. -/
def Opens (e : Env) (v : BitVec 64) (o : Operand) (k : Kind) (ks : List Kind) : Prop :=
  ∃ rest k' b r, Accepts e v o (k :: (ks ++ rest)) k' b r

end Nxas
