import Verif.Lemmas.Debug
import Verif.Spec.Grammar
/-
The meaning of an operand parser in a build without assertions: a relation between the tokens it reads, the
token that follows and the bits it adds. Meanings are computed from those of the primitives.
-/

namespace Nxas

open Spec

/-- The environment of the grammar. -/
def Ctx.env (c : Ctx) : Env := ⟨c.labels.find, c.pc⟩

/-- `Toks` with the tokens at both ends. -/
def Path : Token → Cur → List Kind → Token → Cur → Prop
  | t, c, [], t', c' => t' = t ∧ c' = c
  | t, c, k :: ks, t', c' => t.kind = k ∧ ∃ t1 c1, tokenize c = .ok t1 c1 ∧ Path t1 c1 ks t' c'

theorem Path.append_iff {t t' : Token} {c c' : Cur} {ks ks' : List Kind} :
    Path t c (ks ++ ks') t' c' ↔ ∃ t1 c1, Path t c ks t1 c1 ∧ Path t1 c1 ks' t' c' := by
  induction ks generalizing t c with
  | nil =>
    simp only [List.nil_append, Path]
    constructor
    · intro h; exact ⟨t, c, ⟨rfl, rfl⟩, h⟩
    · rintro ⟨t1, c1, ⟨rfl, rfl⟩, h⟩; exact h
  | cons k ks ih =>
    simp only [List.cons_append, Path, ih]
    constructor
    · rintro ⟨h0, t1, c1, h1, t2, c2, h2, h3⟩; exact ⟨t2, c2, ⟨h0, t1, c1, h1, h2⟩, h3⟩
    · rintro ⟨t2, c2, ⟨h0, t1, c1, h1, h2⟩, h3⟩; exact ⟨h0, t1, c1, h1, t2, c2, h2, h3⟩

theorem Path.toks {t t' : Token} {c c' : Cur} {ks : List Kind} (h : Path t c ks t' c') :
    Toks t.kind c ks t'.kind c' := by
  induction ks generalizing t c with
  | nil => obtain ⟨rfl, rfl⟩ := h; exact .nil
  | cons k ks ih =>
    obtain ⟨rfl, t1, c1, h1, h2⟩ := h
    exact .cons h1 (ih h2)

theorem _root_.Nxas.Spec.Toks.path {t : Token} {c c' : Cur} {ks : List Kind} {k' : Kind}
    (h : Toks t.kind c ks k' c') : ∃ t', t'.kind = k' ∧ Path t c ks t' c' := by
  generalize hk : t.kind = k at h
  induction h generalizing t with
  | nil => exact ⟨t, hk, rfl, rfl⟩
  | cons h hr ih =>
    obtain ⟨t', h1, h2⟩ := ih rfl
    exact ⟨t', h1, hk, _, _, h, h2⟩

/-- The token that follows a path is its first token, if it is not empty. -/
theorem Path.head {t t' : Token} {c c' : Cur} {ks : List Kind} (h : Path t c ks t' c') :
    t.kind = ks.headD t'.kind := by
  cases ks with
  | nil => obtain ⟨rfl, -⟩ := h; rfl
  | cons k ks => exact h.1

/-- The state after a piece of syntax. -/
def St.put (s : St) (b : BitVec 64) (r : BitVec 32) (t : Token) (c : Cur) : St :=
  ⟨{ s.ctx with cur := c }, t, ⟨s.op.value ||| b, s.op.reuse ||| r, s.op.sched⟩⟩

/-! ### Successful runs of the primitives -/

section
variable {d : Bool} {s s' : St}

theorem bind_iff {m : M α} {f : α → M β} {a : β} : (m >>= f) d s = .ok a s' ↔
    ∃ b s1, m d s = .ok b s1 ∧ f b d s1 = .ok a s' :=
  ⟨bind_ok, fun ⟨b, s1, h1, h2⟩ => by rw [M.bind_def, h1]; exact h2⟩

theorem pure_iff {a b : α} : M.pure a d s = .ok b s' ↔ s' = s ∧ b = a := by
  simp only [M.pure, Out.ok.injEq]
  exact ⟨fun h => ⟨h.2.symm, h.1.symm⟩, fun h => ⟨h.2.symm, h.1.symm⟩⟩

theorem getKind_iff {k : Kind} : getKind d s = .ok k s' ↔ s' = s ∧ k = s.tok.kind := by
  simp only [getKind, Out.ok.injEq]
  exact ⟨fun h => ⟨h.2.symm, h.1.symm⟩, fun h => ⟨h.2.symm, h.1.symm⟩⟩

theorem getValue_iff {k : BitVec 64} : getValue d s = .ok k s' ↔ s' = s ∧ k = s.op.value := by
  simp only [getValue, Out.ok.injEq]
  exact ⟨fun h => ⟨h.2.symm, h.1.symm⟩, fun h => ⟨h.2.symm, h.1.symm⟩⟩

theorem getCtx_iff {k : Ctx} : getCtx d s = .ok k s' ↔ s' = s ∧ k = s.ctx := by
  simp only [getCtx, Out.ok.injEq]
  exact ⟨fun h => ⟨h.2.symm, h.1.symm⟩, fun h => ⟨h.2.symm, h.1.symm⟩⟩

theorem setValue_iff {v : BitVec 64} {u : Unit} : setValue v d s = .ok u s' ↔
    s' = { s with op := { s.op with value := v } } := by
  simp only [setValue, Out.ok.injEq, true_and]
  exact eq_comm

theorem failTok_iff {msg : Msg} {a : α} : (failTok msg : M α) d s = .ok a s' ↔ False := by
  simp [failTok]

theorem ub_iff {u : UB} {a : α} : (ubM u : M α) d s = .ok a s' ↔ False := by simp [ubM]

theorem advance_iff {u : Unit} : advance d s = .ok u s' ↔ ∃ t c, tokenize s.ctx.cur = .ok t c ∧
    s' = ⟨{ s.ctx with cur := c }, t, s.op⟩ := by
  constructor
  · intro h
    obtain ⟨t, c, h1, rfl⟩ := advance_ok h
    exact ⟨t, c, h1, rfl⟩
  · rintro ⟨t, c, h1, rfl⟩
    simp [advance, h1]

theorem addBits_iff {b : BitVec 64} {u : Unit} : addBits b false s = .ok u s' ↔
    s' = ⟨s.ctx, s.tok, ⟨s.op.value ||| b, s.op.reuse, s.op.sched⟩⟩ := by
  simp only [addBits, Bool.false_and, Bool.false_eq_true, if_false, Out.ok.injEq, true_and]
  exact eq_comm

theorem addReuse_iff {b : BitVec 32} {u : Unit} : addReuse b false s = .ok u s' ↔
    s' = ⟨s.ctx, s.tok, ⟨s.op.value, s.op.reuse ||| (b &&& 0xFF#32), s.op.sched⟩⟩ := by
  simp only [addReuse, Bool.false_and, Bool.false_eq_true, if_false, Out.ok.injEq, true_and]
  exact eq_comm

theorem confirm_iff {k : Kind} {u : Unit} : confirm k d s = .ok u s' ↔
    s' = s ∧ s.tok.kind = k := by
  unfold confirm
  split
  · simp only [Out.ok.injEq, true_and]
    exact ⟨fun h => ⟨h.symm, by assumption⟩, fun h => h.1.symm⟩
  · rename_i h
    simp [h]

theorem confirmIdent_iff {x : Str} : confirmIdent d s = .ok x s' ↔ s' = s ∧ s.tok.kind = .ident x := by
  unfold confirmIdent
  cases s.tok.kind <;> simp
  constructor
  · rintro ⟨h1, h2⟩; exact ⟨h2.symm, h1⟩
  · rintro ⟨h1, h2⟩; exact ⟨h2, h1.symm⟩

theorem confirmReg_iff {x : Nat} : confirmReg d s = .ok x s' ↔ s' = s ∧ s.tok.kind = .reg x := by
  unfold confirmReg
  cases s.tok.kind <;> simp
  constructor
  · rintro ⟨h1, h2⟩; exact ⟨h2.symm, h1⟩
  · rintro ⟨h1, h2⟩; exact ⟨h2, h1.symm⟩

theorem confirmPred_iff {x : Nat × Bool} : confirmPred d s = .ok x s' ↔
    s' = s ∧ s.tok.kind = .pred x.1 x.2 := by
  unfold confirmPred
  obtain ⟨x1, x2⟩ := x
  cases s.tok.kind <;> simp
  constructor
  · rintro ⟨h1, h2⟩; exact ⟨h2.symm, h1⟩
  · rintro ⟨h1, h2⟩; exact ⟨h2, h1.symm⟩

theorem convertInteger_iff {a b v : Int} : convertInteger a b d s = .ok v s' ↔
    s' = s ∧ s.tok.kind = .imm v ∧ a ≤ v ∧ v ≤ b := by
  unfold convertInteger
  cases hk : s.tok.kind <;> simp
  rename_i w
  by_cases hw : w < a ∨ b < w
  · rw [if_pos hw]
    simp only [reduceCtorEq, false_iff]
    rintro ⟨-, rfl, h1, h2⟩
    omega
  · rw [if_neg hw]
    simp only [Out.ok.injEq]
    constructor
    · rintro ⟨rfl, rfl⟩; exact ⟨rfl, rfl, by omega, by omega⟩
    · rintro ⟨rfl, rfl, -, -⟩; exact ⟨rfl, rfl⟩

theorem ite_iff {c : Prop} [Decidable c] {m m' : M α} {a : α} :
    (if c then m else m') d s = .ok a s' ↔ (c ∧ m d s = .ok a s') ∨ (¬ c ∧ m' d s = .ok a s') := by
  by_cases h : c <;> simp [h]

theorem blameStart_iff {msg : Msg} {m : M α} {a : α} : blameStart msg m d s = .ok a s' ↔
    m d s = .ok a s' := by
  unfold blameStart
  cases m d s <;> simp

theorem tableIndex_some {x : Str} {t : List Str} {i : Nat} : tableIndex x t = some i ↔
    t[i]? = some x ∧ ∀ j < i, t[j]? ≠ some x := by
  induction t generalizing i with
  | nil => simp [tableIndex]
  | cons y t ih =>
    unfold tableIndex
    by_cases h : x = y
    · rw [if_pos h]
      subst h
      simp only [Option.some.injEq]
      constructor
      · rintro rfl; simp
      · rintro ⟨-, h2⟩
        cases i with
        | zero => rfl
        | succ i => exact absurd rfl (h2 0 (by omega))
    · rw [if_neg h]
      cases i with
      | zero => simp [Ne.symm h]
      | succ i =>
        have : Option.map (· + 1) (tableIndex x t) = some (i + 1) ↔ tableIndex x t = some i := by
          cases tableIndex x t <;> simp
        rw [this, ih, List.getElem?_cons_succ]
        constructor
        · rintro ⟨h1, h2⟩
          refine ⟨h1, ?_⟩
          intro j hj
          cases j with
          | zero => simpa using Ne.symm h
          | succ j => exact h2 j (by omega)
        · rintro ⟨h1, h2⟩
          exact ⟨h1, fun j hj => h2 (j + 1) (by omega)⟩

theorem tableIndex_none {x : Str} {t : List Str} : tableIndex x t = none ↔ x ∉ t := by
  induction t with
  | nil => simp [tableIndex]
  | cons y t ih =>
    unfold tableIndex
    by_cases h : x = y
    · simp [h]
    · rw [if_neg h]
      simp [h, ih]

theorem take_pfx {text pfx : Str} : text.take pfx.length = pfx ↔ ∃ name, text = pfx ++ name := by
  constructor
  · intro h
    exact ⟨text.drop pfx.length, by conv => lhs; rw [← List.take_append_drop pfx.length text, h]⟩
  · rintro ⟨name, rfl⟩; simp

/-- The outcome of a table lookup. -/
theorem findInTable_some {b : Bool} {t : List Str} {pfx : Str} {i : Nat} :
    findInTable b t pfx d s = .ok (some i) s' ↔ s' = s ∧ Entry pfx t s.tok.kind i := by
  unfold findInTable Entry
  cases hk : s.tok.kind <;> simp
  rename_i text
  by_cases hp : text.take pfx.length = pfx
  · obtain ⟨name, rfl⟩ := take_pfx.1 hp
    rw [if_neg (by simp)]
    simp only [List.drop_left, List.append_cancel_left_eq, exists_eq_left']
    rw [← tableIndex_some]
    cases tableIndex name t with
    | none => cases b <;> simp
    | some j =>
      simp only [Out.ok.injEq, Option.some.injEq]
      exact ⟨fun h => ⟨h.2.symm, h.1⟩, fun h => ⟨h.2, h.1.symm⟩⟩
  · have hne : pfx ≠ [] := by rintro rfl; simp at hp
    rw [if_pos ⟨hne, hp⟩]
    simp only [Out.ok.injEq, reduceCtorEq, false_and, false_iff, not_and, not_exists]
    rintro - name h
    exact absurd (take_pfx.2 ⟨name, h⟩) hp

theorem findInTable_none {t : List Str} {pfx : Str} :
    findInTable true t pfx d s = .ok none s' ↔ s' = s ∧ NoEntry pfx t s.tok.kind := by
  unfold findInTable NoEntry
  cases hk : s.tok.kind <;> simp <;> try exact eq_comm
  rename_i text
  by_cases hp : text.take pfx.length = pfx
  · obtain ⟨name, rfl⟩ := take_pfx.1 hp
    rw [if_neg (by simp)]
    simp only [List.drop_left, List.append_cancel_left_eq]
    cases ht : tableIndex name t with
    | none =>
      have := tableIndex_none.1 ht
      simp only [Out.ok.injEq, true_and]
      constructor
      · rintro rfl; exact ⟨rfl, fun n hn h => this (h ▸ hn)⟩
      · rintro ⟨rfl, -⟩; rfl
    | some j =>
      have := List.mem_of_getElem? (tableIndex_some.1 ht).1
      simp only [Out.ok.injEq, reduceCtorEq, false_and, false_iff, not_and]
      intro _ h
      exact h name this rfl
  · have hne : pfx ≠ [] := by rintro rfl; simp at hp
    rw [if_pos ⟨hne, hp⟩]
    simp only [Out.ok.injEq, true_and]
    constructor
    · rintro rfl
      exact ⟨rfl, fun n _ h => hp (take_pfx.2 ⟨n, h⟩)⟩
    · rintro ⟨rfl, -⟩; rfl

end

theorem field_eq (pos n : Nat) : BitVec.ofNat 64 n <<< pos = field pos n := by
  apply BitVec.eq_of_toNat_eq
  simp only [field, BitVec.toNat_shiftLeft, BitVec.toNat_ofNat, Nat.shiftLeft_eq]
  rw [Nat.mul_mod, Nat.mod_mod, ← Nat.mul_mod]

theorem field_zero (pos : Nat) : field pos 0 = 0 := by simp [field]

theorem equal_iff {k : Kind} {x : Str} : k.equal x = true ↔ k = .ident x := by simp [Kind.equal]
theorem not_equal_iff {k : Kind} {x : Str} : (!k.equal x) = true ↔ k ≠ .ident x := by simp [Kind.equal]

/-! ### Meaning of computations -/

/-- The meaning of a successful computation: with which result, tokens, next token, bits and reuse flags. -/
abbrev Sem (α : Type) := Env → BitVec 64 → α → Piece

/-- What is known of the payload of a token. -/
def Kind.proper (k : Kind) : Prop := k.wf ∧ k ≠ .ident []

/-- No identifier is empty. -/
theorem tokenize_nonempty {c c2 : Cur} {t : Token} (h : tokenize c = .ok t c2) : t.kind ≠ .ident [] := by
  intro hx
  have h' : tokenizeAux (c.text.length + 1) c = some (.ok t c2) := by rw [tokenize_eq, h]
  revert h'
  generalize c.text.length + 1 = n
  clear h
  intro h
  induction n generalizing c with
  | zero => simp [tokenizeAux] at h
  | succ n ih =>
    unfold tokenizeAux at h
    dsimp only at h
    generalize c.skip isBlank = cb at h
    split at h
    · simp only [Option.some.injEq, TokRes.ok.injEq] at h
      obtain ⟨rfl, -⟩ := h
      simp at hx
    · split at h
      · rename_i r hh
        simp only [Option.some.injEq] at h
        subst h
        exact (lexHead_ident hh hx).elim
      · rename_i c1 hh
        have hr1 := lexHead_fall hh
        split at h
        · simp at h
        · exact ih h
        · rename_i s c3 hi
          obtain ⟨ha, hlt, -⟩ := lexIdent_step (.inr ⟨s, hi⟩)
          simp only [Option.some.injEq, TokRes.ok.injEq] at h
          obtain ⟨rfl, rfl⟩ := h
          simp only [Kind.ident.injEq] at hx
          subst hx
          have hb := between_reach (hr1.trans ha)
          have : [] = between cb.text c3.text := by
            unfold lexIdent at hi
            split at hi
            · simp at hi
            · dsimp only at hi
              split at hi
              · simp at hi
              · simp only [IdentStep.ident.injEq] at hi
                rw [← hi.1, ← hi.2]
          rw [← this] at hb
          have := hr1.length_le
          simp only [List.nil_append] at hb
          rw [hb] at this
          omega

theorem tokenize_proper {c c' : Cur} {t : Token} (h : tokenize c = .ok t c') : t.kind.proper :=
  ⟨(tokenize_ok h).wf, tokenize_nonempty h⟩

theorem Path.proper {t t' : Token} {c c' : Cur} {ks : List Kind} (h : Path t c ks t' c') (ht : t.kind.proper) :
    t'.kind.proper ∧ ∀ k ∈ ks, k.proper := by
  induction ks generalizing t c with
  | nil => obtain ⟨rfl, -⟩ := h; exact ⟨ht, by simp⟩
  | cons k ks ih =>
    obtain ⟨rfl, t1, c1, h1, h2⟩ := h
    obtain ⟨h3, h4⟩ := ih h2 (tokenize_proper h1)
    refine ⟨h3, ?_⟩
    intro k hk
    rcases List.mem_cons.1 hk with rfl | hk
    · exact ht
    · exact h4 k hk

/-- The successful runs of `m`, in a build without assertions, are described by `P`. -/
def Den (m : M α) (P : Sem α) : Prop := ∀ s, s.tok.kind.proper → ∀ a s', m false s = .ok a s' ↔
  ∃ ks b r t c, Path s.tok s.ctx.cur ks t c ∧ P s.ctx.env s.op.value a ks t.kind b r ∧ s' = s.put b r t c

/-- A computation that reads no token and adds nothing. -/
def still (p : Env → BitVec 64 → α → Kind → Prop) : Sem α := fun e v a ks k b r =>
  ks = [] ∧ b = 0 ∧ r = 0 ∧ p e v a k

/-- Reads one token. -/
def adv : Sem Unit := fun _ _ _ ks _ b r => b = 0 ∧ r = 0 ∧ ∃ k, ks = [k]

/-- Adds bits. -/
def add (x : BitVec 64) : Sem Unit := fun _ _ _ ks _ b r => ks = [] ∧ b = x ∧ r = 0

/-- Adds reuse flags. -/
def addR (x : BitVec 32) : Sem Unit := fun _ _ _ ks _ b r => ks = [] ∧ b = 0 ∧ r = x

/-- Never succeeds. -/
def bot : Sem α := fun _ _ _ _ _ _ _ => False

/-- Depends on a condition. -/
def alt (c : Prop) (P Q : Sem α) : Sem α := fun e v a ks k b r =>
  (c ∧ P e v a ks k b r) ∨ (¬ c ∧ Q e v a ks k b r)

/-- Depends on an optional number. -/
def byOpt (x : Option Nat) (P : Sem α) (Q : Nat → Sem α) : Sem α := fun e v a ks k b r =>
  (x = none ∧ P e v a ks k b r) ∨ ∃ i, x = some i ∧ Q i e v a ks k b r

/-- One computation after the other. -/
def seq (P : Sem α) (Q : α → Sem β) : Sem β := fun e v a ks k b r =>
  ∃ x ks1 ks2 b1 b2 r1 r2, P e v x ks1 (ks2.headD k) b1 r1 ∧ Q x e (v ||| b1) a ks2 k b2 r2 ∧
    ks = ks1 ++ ks2 ∧ b = b1 ||| b2 ∧ r = r1 ||| r2

theorem St.put_zero (s : St) : s.put 0 0 s.tok s.ctx.cur = s := by
  simp [St.put]

theorem St.put_put (s : St) (b b' : BitVec 64) (r r' : BitVec 32) (t t' : Token) (c c' : Cur) :
    (s.put b r t c).put b' r' t' c' = s.put (b ||| b') (r ||| r') t' c' := by
  simp [St.put, BitVec.or_assoc]

theorem Den.still {m : M α} {p : Env → BitVec 64 → α → Kind → Prop}
    (h : ∀ s a s', m false s = .ok a s' ↔ s' = s ∧ p s.ctx.env s.op.value a s.tok.kind) : Den m (still p) := by
  intro s _ a s'
  rw [h]
  constructor
  · rintro ⟨rfl, h⟩
    exact ⟨[], 0, 0, _, _, ⟨rfl, rfl⟩, ⟨rfl, rfl, rfl, h⟩, (St.put_zero _).symm⟩
  · rintro ⟨_, _, _, t, c, hp, ⟨rfl, rfl, rfl, h⟩, rfl⟩
    obtain ⟨rfl, rfl⟩ := hp
    exact ⟨St.put_zero _, h⟩

theorem Den.conv {m : M α} {P Q : Sem α} (h : Den m P) (hi : ∀ e v a ks k b r, (∀ k ∈ ks, Kind.proper k) →
    k.proper → (P e v a ks k b r ↔ Q e v a ks k b r)) : Den m Q := by
  intro s hs a s'
  rw [h s hs]
  constructor
  · rintro ⟨ks, b, r, t, c, hp, h, rfl⟩
    obtain ⟨h1, h2⟩ := hp.proper hs
    exact ⟨ks, b, r, t, c, hp, (hi _ _ _ _ _ _ _ h2 h1).1 h, rfl⟩
  · rintro ⟨ks, b, r, t, c, hp, h, rfl⟩
    obtain ⟨h1, h2⟩ := hp.proper hs
    exact ⟨ks, b, r, t, c, hp, (hi _ _ _ _ _ _ _ h2 h1).2 h, rfl⟩

theorem Den.bind {m : M α} {f : α → M β} {P : Sem α} {Q : α → Sem β} (hm : Den m P) (hf : ∀ x, Den (f x) (Q x)) :
    Den (m >>= f) (seq P Q) := by
  intro s hs a s'
  rw [bind_iff]
  constructor
  · rintro ⟨x, s1, h1, h2⟩
    obtain ⟨ks1, b1, r1, t1, c1, hp1, hP, rfl⟩ := (hm s hs _ _).1 h1
    obtain ⟨ks2, b2, r2, t2, c2, hp2, hQ, rfl⟩ := (hf x _ (hp1.proper hs).1 _ _).1 h2
    refine ⟨ks1 ++ ks2, b1 ||| b2, r1 ||| r2, t2, c2, Path.append_iff.2 ⟨_, _, hp1, hp2⟩,
      ⟨x, ks1, ks2, b1, b2, r1, r2, ?_, hQ, rfl, rfl, rfl⟩, St.put_put ..⟩
    rw [← hp2.head]
    exact hP
  · rintro ⟨_, _, _, t2, c2, hp, ⟨x, ks1, ks2, b1, b2, r1, r2, hP, hQ, rfl, rfl, rfl⟩, rfl⟩
    obtain ⟨t1, c1, hp1, hp2⟩ := Path.append_iff.1 hp
    refine ⟨x, s.put b1 r1 t1 c1, (hm s hs _ _).2 ⟨ks1, b1, r1, t1, c1, hp1, ?_, rfl⟩,
      (hf x _ (hp1.proper hs).1 _ _).2 ⟨ks2, b2, r2, t2, c2, hp2, hQ, (St.put_put ..).symm⟩⟩
    rw [← hp2.head] at hP
    exact hP

namespace Den

theorem pure (x : α) : Den (M.pure x) (Nxas.still fun _ _ a _ => a = x) :=
  .still fun _ _ _ => pure_iff

theorem getKind : Den getKind (Nxas.still fun _ _ a k => a = k) := .still fun _ _ _ => getKind_iff
theorem getValue : Den getValue (Nxas.still fun _ v a _ => a = v) := .still fun _ _ _ => getValue_iff

theorem confirm (k : Kind) : Den (confirm k) (Nxas.still fun _ _ _ k' => k' = k) :=
  .still fun _ _ _ => confirm_iff
theorem confirmIdent : Den confirmIdent (Nxas.still fun _ _ a k => k = .ident a) :=
  .still fun _ _ _ => confirmIdent_iff
theorem confirmReg : Den confirmReg (Nxas.still fun _ _ a k => k = .reg a) :=
  .still fun _ _ _ => confirmReg_iff
theorem confirmPred : Den confirmPred (Nxas.still fun _ _ a k => k = .pred a.1 a.2) :=
  .still fun _ _ _ => confirmPred_iff
theorem convertInteger (x y : Int) : Den (convertInteger x y) (Nxas.still fun _ _ a k => k = .imm a ∧ x ≤ a ∧ a ≤ y) :=
  .still fun _ _ _ => convertInteger_iff

/-- The result of a table lookup. -/
def lookup (b : Bool) (t : List Str) (pfx : Str) (a : Option Nat) (k : Kind) : Prop :=
  match a with
  | some i => Entry pfx t k i
  | none => if b then NoEntry pfx t k else ∀ text, k = .ident text → pfx ≠ [] ∧ text.take pfx.length ≠ pfx

theorem findInTable (b : Bool) (t : List Str) (pfx : Str) :
    Den (findInTable b t pfx) (Nxas.still fun _ _ a k => lookup b t pfx a k) := by
  refine .still fun s a s' => ?_
  cases a with
  | some i => exact findInTable_some
  | none =>
    cases b with
    | true => exact findInTable_none
    | false =>
      simp only [lookup, Bool.false_eq_true, if_false]
      unfold Nxas.findInTable
      cases hk : s.tok.kind <;> simp <;> try exact eq_comm
      rename_i text
      split
      · rename_i h
        simp only [Out.ok.injEq, true_and]
        exact ⟨fun h' => ⟨h'.symm, h⟩, fun h' => h'.1.symm⟩
      · rename_i h
        have h' : ¬ (s' = s ∧ ¬ pfx = [] ∧ ¬ List.take pfx.length text = pfx) := fun h' => h h'.2
        cases tableIndex (List.drop (List.length pfx) text) t <;> simp only [Out.ok.injEq, reduceCtorEq, h',
          false_and]

theorem failTok (msg : Msg) : Den (failTok msg : M α) bot := by
  intro s _ a s'
  simp [failTok_iff, bot]

theorem ubM (u : UB) : Den (ubM u : M α) bot := by
  intro s _ a s'
  simp [ub_iff, bot]

theorem advance : Den advance adv := by
  intro s _ a s'
  rw [advance_iff]
  constructor
  · rintro ⟨t, c, h, rfl⟩
    exact ⟨[s.tok.kind], 0, 0, t, c, ⟨rfl, t, c, h, rfl, rfl⟩, ⟨rfl, rfl, _, rfl⟩, by simp [St.put]⟩
  · rintro ⟨_, _, _, t, c, hp, ⟨rfl, rfl, k, rfl⟩, rfl⟩
    obtain ⟨-, t1, c1, h, rfl, rfl⟩ := hp
    exact ⟨_, _, h, by simp [St.put]⟩

theorem addBits (x : BitVec 64) : Den (addBits x) (add x) := by
  intro s _ a s'
  rw [addBits_iff]
  constructor
  · rintro rfl
    exact ⟨[], x, 0, _, _, ⟨rfl, rfl⟩, ⟨rfl, rfl, rfl⟩, by simp [St.put]⟩
  · rintro ⟨_, _, _, t, c, hp, ⟨rfl, rfl, rfl⟩, rfl⟩
    obtain ⟨rfl, rfl⟩ := hp
    simp [St.put]

theorem addReuse (x : BitVec 32) : Den (addReuse x) (addR (x &&& 0xFF#32)) := by
  intro s _ a s'
  rw [addReuse_iff]
  constructor
  · rintro rfl
    exact ⟨[], 0, _, _, _, ⟨rfl, rfl⟩, ⟨rfl, rfl, rfl⟩, by simp [St.put]⟩
  · rintro ⟨_, _, _, t, c, hp, ⟨rfl, rfl, rfl⟩, rfl⟩
    obtain ⟨rfl, rfl⟩ := hp
    simp [St.put]

theorem ite {c : Prop} [Decidable c] {m m' : M α} {P Q : Sem α} (h : Den m P) (h' : Den m' Q) :
    Den (if c then m else m') (alt c P Q) := by
  unfold alt
  by_cases hc : c
  · simp only [hc, if_true, true_and, not_true, false_and, or_false]; exact h
  · simp only [hc, if_false, not_false_eq_true, true_and, false_and, false_or]; exact h'

theorem bindOpt {m : M (Option Nat)} {F : Option Nat → M α} {R : Sem (Option Nat)} {P : Sem α} {Q : Nat → Sem α}
    (hm : Den m R) (h : Den (F none) P) (h' : ∀ i, Den (F (some i)) (Q i)) :
    Den (m >>= F) (seq R fun x => byOpt x P Q) := by
  refine .bind hm fun x => ?_
  unfold byOpt
  cases x with
  | none => simpa using h
  | some i => simpa using h' i

theorem blameStart {msg : Msg} {m : M α} {P : Sem α} (h : Den m P) : Den (blameStart msg m) P := by
  intro s hs a s'
  rw [blameStart_iff]
  exact h s hs a s'

theorem getCtx {f : Ctx → M α} {P : Env → Sem α} (h : ∀ c, Den (f c) (P c.env)) :
    Den (Nxas.getCtx >>= f) (fun e => P e e) := by
  intro s hs a s'
  have : (Nxas.getCtx >>= f) false s = f s.ctx false s := rfl
  rw [this]
  exact h _ s hs a s'

end Den

section
variable {e : Env} {v b : BitVec 64} {a : β} {ks : List Kind} {k : Kind} {r : BitVec 32}

theorem seq_still {p : Env → BitVec 64 → α → Kind → Prop} {Q : α → Sem β} :
    seq (still p) Q e v a ks k b r ↔ ∃ x, p e v x (ks.headD k) ∧ Q x e v a ks k b r := by
  simp only [seq, still]
  constructor
  · rintro ⟨x, _, ks2, _, b2, _, r2, ⟨rfl, rfl, rfl, h⟩, h', rfl, rfl, rfl⟩
    exact ⟨x, by simpa using h, by simpa using h'⟩
  · rintro ⟨x, h, h'⟩
    exact ⟨x, [], ks, 0, b, 0, r, ⟨rfl, rfl, rfl, h⟩, by simpa using h', by simp, by simp, by simp⟩

theorem seq_adv {Q : Unit → Sem β} :
    seq adv Q e v a ks k b r ↔ ∃ k0 ks', ks = k0 :: ks' ∧ Q () e v a ks' k b r := by
  simp only [seq, adv]
  constructor
  · rintro ⟨x, _, ks2, _, b2, _, r2, ⟨rfl, rfl, k0, rfl⟩, h', rfl, rfl, rfl⟩
    exact ⟨k0, ks2, rfl, by simpa using h'⟩
  · rintro ⟨k0, ks', rfl, h'⟩
    exact ⟨(), [k0], ks', 0, b, 0, r, ⟨rfl, rfl, k0, rfl⟩, by simpa using h', by simp, by simp, by simp⟩

theorem seq_add {x : BitVec 64} {Q : Unit → Sem β} :
    seq (add x) Q e v a ks k b r ↔ ∃ b', b = x ||| b' ∧ Q () e (v ||| x) a ks k b' r := by
  simp only [seq, add]
  constructor
  · rintro ⟨_, _, ks2, _, b2, _, r2, ⟨rfl, rfl, rfl⟩, h', rfl, rfl, rfl⟩
    exact ⟨b2, rfl, by simpa using h'⟩
  · rintro ⟨b', rfl, h'⟩
    exact ⟨(), [], ks, x, b', 0, r, ⟨rfl, rfl, rfl⟩, h', by simp, by simp, by simp⟩

theorem seq_addR {x : BitVec 32} {Q : Unit → Sem β} :
    seq (addR x) Q e v a ks k b r ↔ ∃ r', r = x ||| r' ∧ Q () e v a ks k b r' := by
  simp only [seq, addR]
  constructor
  · rintro ⟨_, _, ks2, _, b2, _, r2, ⟨rfl, rfl, rfl⟩, h', rfl, rfl, rfl⟩
    exact ⟨r2, rfl, by simpa using h'⟩
  · rintro ⟨r', rfl, h'⟩
    exact ⟨(), [], ks, 0, b, x, r', ⟨rfl, rfl, rfl⟩, by simpa using h', by simp, by simp, by simp⟩

theorem seq_bot {Q : α → Sem β} : seq bot Q e v a ks k b r ↔ False := by simp [seq, bot]

theorem seq_alt {c : Prop} {P P' : Sem α} {Q : α → Sem β} :
    seq (alt c P P') Q e v a ks k b r ↔ alt c (seq P Q) (seq P' Q) e v a ks k b r := by
  by_cases hc : c <;> simp [seq, alt, hc]

theorem seq_byOpt {x : Option Nat} {P : Sem α} {P' : Nat → Sem α} {Q : α → Sem β} :
    seq (byOpt x P P') Q e v a ks k b r ↔ byOpt x (seq P Q) (fun i => seq (P' i) Q) e v a ks k b r := by
  cases x <;> simp [seq, byOpt]

theorem seq_seq {P : Sem α} {P' : α → Sem γ} {Q : γ → Sem β} :
    seq (seq P P') Q e v a ks k b r ↔ seq P (fun x => seq (P' x) Q) e v a ks k b r := by
  constructor
  · rintro ⟨x, _, ks2, _, b2, _, r2, ⟨y, ks3, ks4, b3, b4, r3, r4, h1, h2, rfl, rfl, rfl⟩, h', rfl, rfl, rfl⟩
    refine ⟨y, ks3, ks4 ++ ks2, b3, b4 ||| b2, r3, r4 ||| r2, ?_, ⟨x, ks4, ks2, b4, b2, r4, r2, h2, ?_, rfl, rfl, rfl⟩,
      by simp, by simp [BitVec.or_assoc], by simp [BitVec.or_assoc]⟩
    · cases ks4 <;> simpa using h1
    · simpa [BitVec.or_assoc] using h'
  · rintro ⟨y, ks3, _, b3, _, r3, _, h1, ⟨x, ks4, ks2, b4, b2, r4, r2, h2, h', rfl, rfl, rfl⟩, rfl, rfl, rfl⟩
    refine ⟨x, ks3 ++ ks4, ks2, b3 ||| b4, b2, r3 ||| r4, r2, ⟨y, ks3, ks4, b3, b4, r3, r4, ?_, h2, rfl, rfl, rfl⟩, ?_,
      by simp, by simp [BitVec.or_assoc], by simp [BitVec.or_assoc]⟩
    · cases ks4 <;> simpa using h1
    · simpa [BitVec.or_assoc] using h'

end

theorem ex_lookup {t : List Str} {p : Str} {k : Kind} {A : Prop} {B : Nat → Prop} :
    (∃ x, Den.lookup true t p x k ∧ (x = none ∧ A ∨ ∃ i, x = some i ∧ B i)) ↔
      (NoEntry p t k ∧ A) ∨ ∃ i, Entry p t k i ∧ B i := by
  constructor
  · rintro ⟨x, h, ⟨rfl, hA⟩ | ⟨i, rfl, hB⟩⟩
    · exact .inl ⟨h, hA⟩
    · exact .inr ⟨i, h, hB⟩
  · rintro (⟨h, hA⟩ | ⟨i, h, hB⟩)
    · exact ⟨none, h, .inl ⟨rfl, hA⟩⟩
    · exact ⟨some i, h, .inr ⟨i, rfl, hB⟩⟩

theorem ex_lookup' {t : List Str} {p : Str} {k : Kind} {A : Prop} {B : Nat → Prop} :
    (∃ x, Den.lookup false t p x k ∧ (x = none ∧ A ∨ ∃ i, x = some i ∧ B i)) ↔
      ((∀ text, k = .ident text → p ≠ [] ∧ text.take p.length ≠ p) ∧ A) ∨ ∃ i, Entry p t k i ∧ B i := by
  constructor
  · rintro ⟨x, h, ⟨rfl, hA⟩ | ⟨i, rfl, hB⟩⟩
    · exact .inl ⟨h, hA⟩
    · exact .inr ⟨i, h, hB⟩
  · rintro (⟨h, hA⟩ | ⟨i, h, hB⟩)
    · exact ⟨none, h, .inl ⟨rfl, hA⟩⟩
    · exact ⟨some i, h, .inr ⟨i, rfl, hB⟩⟩

theorem ex_lookup_some {c : Bool} {t : List Str} {p : Str} {k : Kind} {B : Nat → Prop} :
    (∃ x, Den.lookup c t p x k ∧ ∃ i, x = some i ∧ B i) ↔ ∃ i, Entry p t k i ∧ B i := by
  constructor
  · rintro ⟨x, h, ⟨i, rfl, hB⟩⟩
    exact ⟨i, h, hB⟩
  · rintro ⟨i, h, hB⟩
    exact ⟨some i, h, ⟨i, rfl, hB⟩⟩

theorem entry_nil {p : Str} {k : Kind} {i : Nat} : Entry p [] k i ↔ False := by simp [Entry]

theorem entry_cons {p x : Str} {t : List Str} {k : Kind} {i : Nat} : Entry p (x :: t) k i ↔
    (k = .ident (p ++ x) ∧ i = 0) ∨ (k ≠ .ident (p ++ x) ∧ ∃ j, i = j + 1 ∧ Entry p t k j) := by
  unfold Entry
  constructor
  · rintro ⟨name, rfl, h1, h2⟩
    cases i with
    | zero => exact .inl ⟨by simpa [eq_comm] using h1, rfl⟩
    | succ i =>
      have hne := h2 0 (by omega)
      refine .inr ⟨fun h => hne ?_, i, rfl, name, rfl, h1, fun j hj => by simpa using h2 (j + 1) (by omega)⟩
      simp only [Kind.ident.injEq, List.append_cancel_left_eq] at h
      simp [h]
  · rintro (⟨rfl, rfl⟩ | ⟨hne, j, rfl, name, rfl, h1, h2⟩)
    · exact ⟨x, rfl, rfl, by simp⟩
    · refine ⟨name, rfl, h1, ?_⟩
      intro i hi
      cases i with
      | zero =>
        intro h
        simp only [List.getElem?_cons_zero, Option.some.injEq] at h
        exact hne (by rw [h])
      | succ i => exact h2 i (by omega)

theorem noEntry_nil {p : Str} {k : Kind} : NoEntry p [] k ↔ True := by simp [NoEntry]

theorem noEntry_cons {p x : Str} {t : List Str} {k : Kind} : NoEntry p (x :: t) k ↔
    k ≠ .ident (p ++ x) ∧ NoEntry p t k := by simp [NoEntry]

/-- Find the meaning of a computation. -/
macro "den" : tactic => `(tactic| repeat' (first
  | with_reducible exact Den.pure _ | with_reducible exact Den.getKind | with_reducible exact Den.getValue
  | with_reducible exact Den.confirm _
  | with_reducible exact Den.confirmIdent | with_reducible exact Den.confirmReg
  | with_reducible exact Den.confirmPred | with_reducible exact Den.convertInteger _ _
  | with_reducible exact Den.findInTable _ _ _ | with_reducible exact Den.failTok _
  | with_reducible exact Den.ubM _
  | with_reducible exact Den.advance | with_reducible exact Den.addBits _ | with_reducible exact Den.addReuse _
  | with_reducible apply Den.blameStart
  | with_reducible apply Den.bindOpt
  | with_reducible apply Den.bind
  | with_reducible apply Den.ite
  | intro _
  | dsimp only))

/-- Compute a meaning. -/
macro "sem" : tactic => `(tactic| (
  simp only [seq_seq, seq_alt, seq_byOpt, seq_still, seq_adv, seq_add, seq_addR, seq_bot, alt, byOpt]
  simp only [still, adv, add, addR, bot, field_eq, field_zero, exists_eq_left, exists_eq_right,
    equal_iff, not_equal_iff, ex_lookup, ex_lookup', ex_lookup_some,
    false_and, and_false, false_or, or_false, and_true, true_and, exists_const, ne_eq, Decidable.not_not,
    exists_eq_left', exists_false]))

end Nxas
