import Verif.Lemmas.Synonyms
import Verif.Spec.Plain
/-
Rows of the table in which several operands set the same bit: the word as a whole, and what it says about the operands.
-/

namespace Nxas

open Spec

/-- The operands one after the other, each with the word before and after it. -/
structure Parts (e : Env) (os : List Operand) (args : List (List Kind)) (W : Nat → Op) (B : Nat → BitVec 64)
    (R : Nat → BitVec 32) (K : Nat → Kind) : Prop where
  accepts : ∀ {j o ks}, os[j]? = some o → args[j]? = some ks → Accepts e (W j).value o ks (K j) (B j) (R j)
  proper : ∀ {j : Nat} {ks : List Kind}, args[j]? = some ks → ∀ k ∈ ks, k.proper
  value : ∀ {j o}, os[j]? = some o → (W (j + 1)).value = ((W j).value &&& ~~~clears o) ||| B j
  reuse : ∀ {j o}, os[j]? = some o → (W (j + 1)).reuse = (W j).reuse ||| R j
  kept : ∀ {j o p}, os[j]? = some o → ¬ inF o.fields p → (W (j + 1)).bit p = (W j).bit p

/-- A sequence with a new first entry. -/
def front (x : α) (f : Nat → α) : Nat → α
  | 0 => x
  | n + 1 => f n

theorem Ran.parts {dbg : Bool} {os : List Operand} {s s' : St} {args : List (List Kind)} (h : Ran dbg os s args s')
    (hg : ∀ o ∈ os, o.grammatical = true) (hr : ∀ o ∈ os, o.regular = true) (hs : s.tok.kind.proper) :
    ∃ W B R K, W 0 = s.op ∧ W os.length = s'.op ∧ Parts s.ctx.env os args W B R K := by
  induction h with
  | nil => exact ⟨fun _ => _, fun _ => 0, fun _ => 0, fun _ => .none, rfl, rfl,
      ⟨fun h => by simp at h, fun h => by simp at h, fun h => by simp at h, fun h => by simp at h, fun h => by simp at h⟩⟩
  | cons h ht hn _ ih =>
    rename_i o os s s1 s2 ks args _
    have hf := Operand.foot (hr o (by simp)) (dbg := dbg) hs.1
    unfold FootOf at hf
    rw [h] at hf
    obtain ⟨ks', b, r, t, c, hp, ha, rfl⟩ := (o.run_iff (hg o (by simp)) s hs _).1 (run_release h)
    obtain rfl : ks = ks' := ht.unique hp.toks hn
    have hpr := hp.proper hs
    obtain ⟨W, B, R, K, h0, hl, hP⟩ := ih (fun o h => hg o (by simp [h])) (fun o h => hr o (by simp [h])) hpr.1
    refine ⟨front s.op W, front b B, front r R, front t.kind K, rfl, hl, ?_, ?_, ?_, ?_, ?_⟩
    · intro j o' ks' ho hk
      cases j with
      | zero =>
        simp only [List.getElem?_cons_zero, Option.some.injEq] at ho hk
        subst ho hk
        exact ha
      | succ j => exact hP.accepts ho hk
    · intro j ks' hk
      cases j with
      | zero =>
        simp only [List.getElem?_cons_zero, Option.some.injEq] at hk
        subst hk
        exact hpr.2
      | succ j => exact hP.proper hk
    · intro j o' ho
      cases j with
      | zero =>
        simp only [List.getElem?_cons_zero, Option.some.injEq] at ho
        subst ho
        change (W 0).value = _
        rw [h0]
        rfl
      | succ j => exact hP.value ho
    · intro j o' ho
      cases j with
      | zero =>
        simp only [List.getElem?_cons_zero, Option.some.injEq] at ho
        subst ho
        change (W 0).reuse = _
        rw [h0]
        rfl
      | succ j => exact hP.reuse ho
    · intro j o' p ho hi
      cases j with
      | zero =>
        simp only [List.getElem?_cons_zero, Option.some.injEq] at ho
        subst ho
        change (W 0).bit p = _
        rw [h0]
        exact hf.2 p hi
      | succ j => exact hP.kept ho hi

theorem Instr.parts {dbg : Bool} {code : Str} {i : Nat} {row : Insn} {args : List (List Kind)} {op : Op}
    (h : Instr dbg code i row args op) : ∃ labels W B R K, genLabels (visible code) = .ok labels ∧
      Parts ⟨labels.find, addressOf i⟩ row.operands args W B R K ∧
      (∀ p, (W row.operands.length).bit p = op.bit p) ∧
      ∀ p, ((16, 4) :: setBits row.opcode).all (Field.apart (p, 1)) = true → (W 0).bit p = false := by
  obtain ⟨c, s, e, hi, rfl, hr, rfl⟩ := h
  obtain ⟨W, B, R, K, h0, hl, hP⟩ := hr.parts (table_grammatical _ e.inTable) (table_regular _ e.inTable) e.startInv.proper
  refine ⟨c.labels, W, B, R, K, hi.labels, ?_, ?_, ?_⟩
  · have : e.start.ctx.env = ⟨c.labels.find, addressOf i⟩ := by
      unfold Ctx.env; rw [e.startLabels, e.startPc, hi.address]
    rw [← this]
    exact hP
  · intro p
    rw [hl, e.bit_eq]
  · intro p hp
    have hn : ¬ inF ((16, 4) :: setBits e.row.opcode) p :=
      not_inF_of_apart (fs := [(p, 1)]) (by rw [List.all_cons, hp]; rfl) ⟨_, List.mem_cons_self, Nat.le_refl _, by simp⟩
    rw [h0, e.startBit, Bool.or_eq_false_iff]
    constructor
    · cases hc : (guardWord e.guard).getLsbD p with
      | false => rfl
      | true => exact (hn ⟨(16, 4), by simp, by have := guardWord_in e.guardWf hc; simp; omega⟩).elim
    · cases hc : e.row.opcode.getLsbD p with
      | false => rfl
      | true =>
        obtain ⟨f, hf, h⟩ := (inF_setBits _ _).2 hc
        exact (hn ⟨f, by simp [hf], h⟩).elim

/-- The operand sets bit `p`. -/
def Operand.sets (o : Operand) (p : Nat) : Bool := o.fields.any fun f => decide (f.1 ≤ p) && decide (p < f.1 + f.2)

theorem Operand.sets_iff (o : Operand) (p : Nat) : o.sets p = true ↔ inF o.fields p := by
  unfold Operand.sets inF
  simp

/-- The operands from the `i`-th to before the `m`-th that set bit `p`. -/
def setters (os : List Operand) (i m p : Nat) : List Nat :=
  (List.range' i (m - i)).filter fun j => match os[j]? with
    | some o => o.sets p
    | none => true

/-- The operand does not clear bit `p`. -/
def Operand.keeps (o : Operand) (p : Nat) : Bool := !(clears o).getLsbD p

theorem Parts.bit {e : Env} {os : List Operand} {args : List (List Kind)} {W : Nat → Op} {B : Nat → BitVec 64}
    {R : Nat → BitVec 32} {K : Nat → Kind} (h : Parts e os args W B R K) {i m p : Nat} (hi : i ≤ m)
    (hk : ∀ j, i ≤ j → j < m → ∃ o, os[j]? = some o ∧ o.keeps p = true) :
    (W m).bit p = ((W i).bit p || (setters os i m p).any fun j => (⟨B j, R j, 0⟩ : Op).bit p) := by
  induction m, hi using Nat.le_induction with
  | base => simp [setters]
  | succ m hm ih =>
    rw [setters, show m + 1 - i = (m - i) + 1 by omega, List.range'_1_concat, List.filter_append, List.any_append]
    rw [show i + (m - i) = m by omega]
    obtain ⟨o, ho, hko⟩ := hk m hm (by omega)
    have ih := ih (fun j h1 h2 => hk j h1 (by omega))
    by_cases hs : o.sets p = true
    · have hv := h.value ho
      have hr := h.reuse ho
      simp only [Operand.keeps, Bool.not_eq_true'] at hko
      have : (W (m + 1)).bit p = ((W m).bit p || (⟨B m, R m, 0⟩ : Op).bit p) := by
        unfold Op.bit
        rw [hv, hr]
        split
        · rename_i hlt
          rw [BitVec.getLsbD_or, BitVec.getLsbD_and, BitVec.getLsbD_not, hko]
          simp [hlt]
        · simp
      rw [this, ih, setters]
      simp [ho, hs, Bool.or_assoc]
    · rw [h.kept ho (by rwa [← o.sets_iff]), ih, setters]
      simp [ho, hs]

/-- Two instructions of the same row with the same word. -/
structure Twins (row : Insn) (args args' : List (List Kind)) (e e' : Env) (W W' : Nat → Op) (B B' : Nat → BitVec 64)
    (R R' : Nat → BitVec 32) (K K' : Nat → Kind) : Prop where
  left : Parts e row.operands args W B R K
  right : Parts e' row.operands args' W' B' R' K'
  same : ∀ p, (W row.operands.length).bit p = (W' row.operands.length).bit p
  zero : ∀ p, ((16, 4) :: setBits row.opcode).all (Field.apart (p, 1)) = true → (W 0).bit p = false
  zero' : ∀ p, ((16, 4) :: setBits row.opcode).all (Field.apart (p, 1)) = true → (W' 0).bit p = false
  length : args.length = row.operands.length
  length' : args'.length = row.operands.length
  plain : Plain row.operands args
  plain' : Plain row.operands args'

/-- The operands before the `m`-th that set bit `p` are exactly these, and nothing else does. -/
def Insn.set (row : Insn) (m p : Nat) (l : List Nat) : Bool :=
  decide (m ≤ row.operands.length) && ((16, 4) :: setBits row.opcode).all (Field.apart (p, 1)) &&
  (row.operands.take m).all (·.keeps p) && setters row.operands 0 m p == l

section

variable {row : Insn} {args args' : List (List Kind)} {e e' : Env} {W W' : Nat → Op} {B B' : Nat → BitVec 64}
  {R R' : Nat → BitVec 32} {K K' : Nat → Kind}

theorem Parts.before (h : Parts e row.operands args W B R K)
    (h0 : ∀ p, ((16, 4) :: setBits row.opcode).all (Field.apart (p, 1)) = true → (W 0).bit p = false) {m p : Nat} {l : List Nat}
    (hl : row.set m p l = true) : (W m).bit p = l.any fun j => (⟨B j, R j, 0⟩ : Op).bit p := by
  unfold Insn.set at hl
  simp only [Bool.and_eq_true, decide_eq_true_eq, beq_iff_eq] at hl
  obtain ⟨⟨⟨hm, ha⟩, hk⟩, hl⟩ := hl
  rw [h.bit (Nat.zero_le m), h0 p ha, hl, Bool.false_or]
  intro j _ hj
  have hlt : j < row.operands.length := by omega
  refine ⟨row.operands[j], List.getElem?_eq_getElem hlt, ?_⟩
  exact List.all_eq_true.1 hk _ (by
    rw [List.mem_take_iff_getElem]
    exact ⟨j, by omega, rfl⟩)

theorem Twins.bits (h : Twins row args args' e e' W W' B B' R R' K K') {p : Nat} {l : List Nat}
    (hl : row.set row.operands.length p l = true) :
    (l.any fun j => (⟨B j, R j, 0⟩ : Op).bit p) = l.any fun j => (⟨B' j, R' j, 0⟩ : Op).bit p := by
  rw [← h.left.before h.zero hl, ← h.right.before h.zero' hl, h.same]

/-- The operand is the same in both. -/
def SameAt (row : Insn) (args args' : List (List Kind)) (e e' : Env) (j : Nat) : Prop :=
  ∀ {o : Operand} {ks ks' : List Kind}, row.operands[j]? = some o → args[j]? = some ks → args'[j]? = some ks' → Same e e' o ks ks'

theorem Twins.both (h : Twins row args args' e e' W W' B B' R R' K K') {j : Nat} {o : Operand}
    (hj : row.operands[j]? = some o) : ∃ ks ks', args[j]? = some ks ∧ args'[j]? = some ks' ∧
      Accepts e (W j).value o ks (K j) (B j) (R j) ∧ Accepts e' (W' j).value o ks' (K' j) (B' j) (R' j) := by
  have hlt := (List.getElem?_eq_some_iff.1 hj).1
  have h1 : args[j]? = some (args[j]'(by rw [h.length]; exact hlt)) := List.getElem?_eq_getElem _
  have h2 : args'[j]? = some (args'[j]'(by rw [h.length']; exact hlt)) := List.getElem?_eq_getElem _
  exact ⟨_, _, h1, h2, h.left.accepts hj h1, h.right.accepts hj h2⟩

/-! ### Signs -/

/-- The token is there or not, and so are the bits. -/
def Optional (k : Kind) (x : BitVec 64) (ks : List Kind) (b : BitVec 64) (w : Bool) : Prop :=
  ks = (if w then [k] else []) ∧ b = if w then x else 0

/-- The token of an operand that is there or not, and its bits. -/
def signText : Operand → Option (Kind × BitVec 64)
  | .po a b => some (.ident c!".PO", field a 1 ||| field b 1)
  | .neg a => some (.minus, field a 1)
  | .flag s a => some (.ident s, field a 1)
  | _ => none

theorem optional_of {e : Env} {v b : BitVec 64} {o : Operand} {ks : List Kind} {k k' : Kind} {x : BitVec 64} {r : BitVec 32}
    (ho : signText o = some (k, x)) (h : Accepts e v o ks k' b r) : ∃ w, Optional k x ks b w := by
  cases o <;> simp only [signText, reduceCtorEq, Option.some.injEq, Prod.mk.injEq] at ho <;> obtain ⟨rfl, rfl⟩ := ho
  · obtain ⟨-, ⟨rfl, rfl⟩ | ⟨rfl, -, rfl⟩⟩ := h
    · exact ⟨true, rfl, rfl⟩
    · exact ⟨false, rfl, rfl⟩
  · obtain ⟨-, ⟨rfl, rfl⟩ | ⟨rfl, -, rfl⟩⟩ := h
    · exact ⟨true, rfl, rfl⟩
    · exact ⟨false, rfl, rfl⟩
  · obtain ⟨-, ⟨rfl, rfl⟩ | ⟨rfl, -, rfl⟩⟩ := h
    · exact ⟨true, rfl, rfl⟩
    · exact ⟨false, rfl, rfl⟩

theorem Optional.bit {k : Kind} {x b : BitVec 64} {ks : List Kind} {w : Bool} (h : Optional k x ks b w) {p : Nat} (hp : p < 64)
    (r : BitVec 32) : (⟨b, r, 0⟩ : Op).bit p = (w && x.getLsbD p) := by
  obtain ⟨-, rfl⟩ := h
  unfold Op.bit
  rw [if_pos hp]
  cases w <;> simp

theorem Optional.empty {k : Kind} {x b : BitVec 64} {ks : List Kind} {w : Bool} (h : Optional k x ks b w) : ks = [] ↔ w = false := by
  obtain ⟨rfl, -⟩ := h
  cases w <;> simp

theorem Optional.same {k : Kind} {x b b' : BitVec 64} {ks ks' : List Kind} {w : Bool} (h : Optional k x ks b w)
    (h' : Optional k x ks' b' w) : ks = ks' := h.1.trans h'.1.symm

theorem same_sign {e e' : Env} {o : Operand} {k : Kind} {x : BitVec 64} (ho : signText o = some (k, x)) {ks : List Kind} :
    Same e e' o ks ks := by
  cases o <;> simp [signText] at ho <;> rfl

/-- `.PO` at bits `a1` and `a2`, and the signs that these bits are otherwise. -/
def signGroup (row : Insn) (j0 j1 j2 a1 a2 : Nat) : Bool :=
  decide (a1 < 64 ∧ a2 < 64 ∧ a1 ≠ a2 ∧ j0 ≠ j1 ∧ j0 ≠ j2 ∧ j1 ≠ j2) && row.operands[j0]? == some (.po a1 a2) &&
  row.operands[j1]? == some (.neg a2) && (row.operands[j2]? == some (.neg a1) || row.operands[j2]? == some (.flag c!".NEG" a1)) &&
  row.set row.operands.length a1 [j0, j2] && row.set row.operands.length a2 [j0, j1]

theorem Twins.sign (h : Twins row args args' e e' W W' B B' R R' K K') {j0 j1 j2 a1 a2 : Nat}
    (hg : signGroup row j0 j1 j2 a1 a2 = true) {j : Nat} (hj : j ∈ [j0, j1, j2]) : SameAt row args args' e e' j := by
  unfold signGroup at hg
  simp only [Bool.and_eq_true, decide_eq_true_eq, beq_iff_eq, Bool.or_eq_true] at hg
  obtain ⟨⟨⟨⟨⟨⟨ha1, ha2, hne, hn1, hn2, hn3⟩, h0⟩, h1⟩, h2⟩, hs1⟩, hs2⟩ := hg
  obtain ⟨o2, k2, h2, ht2, hs⟩ : ∃ o2 k2, row.operands[j2]? = some o2 ∧ signText o2 = some (k2, field a1 1) ∧ isSign o2 = true := by
    rcases h2 with h2 | h2
    · exact ⟨_, _, h2, rfl, rfl⟩
    · exact ⟨_, _, h2, rfl, by simp [isSign]⟩
  have hpo : ∃ a b, Operand.po a b ∈ row.operands := ⟨a1, a2, List.mem_of_getElem? h0⟩
  obtain ⟨x0, x0', hx0, hx0', hA0, hA0'⟩ := h.both h0
  obtain ⟨x1, x1', hx1, hx1', hA1, hA1'⟩ := h.both h1
  obtain ⟨x2, x2', hx2, hx2', hA2, hA2'⟩ := h.both h2
  obtain ⟨w0, w0h⟩ := optional_of (k := .ident c!".PO") rfl hA0
  obtain ⟨w0', w0h'⟩ := optional_of (k := .ident c!".PO") rfl hA0'
  obtain ⟨w1, w1h⟩ := optional_of (k := .minus) rfl hA1
  obtain ⟨w1', w1h'⟩ := optional_of (k := .minus) rfl hA1'
  obtain ⟨w2, w2h⟩ := optional_of ht2 hA2
  obtain ⟨w2', w2h'⟩ := optional_of ht2 hA2'
  have e1 := h.bits hs1
  have e2 := h.bits hs2
  simp only [List.any_cons, List.any_nil, w0h.bit ha1, w0h'.bit ha1, w2h.bit ha1, w2h'.bit ha1, w0h.bit ha2, w0h'.bit ha2,
    w1h.bit ha2, w1h'.bit ha2, BitVec.getLsbD_or, field_bit] at e1 e2
  simp [ha1, ha2] at e1 e2
  have p1 := h.plain.sign hpo hn1 h0 h1 rfl rfl hx0 hx1
  have p2 := h.plain.sign hpo hn2 h0 h2 rfl hs hx0 hx2
  have p3 := h.plain.sign hpo hn3 h1 h2 rfl hs hx1 hx2
  have p1' := h.plain'.sign hpo hn1 h0 h1 rfl rfl hx0' hx1'
  have p2' := h.plain'.sign hpo hn2 h0 h2 rfl hs hx0' hx2'
  have p3' := h.plain'.sign hpo hn3 h1 h2 rfl hs hx1' hx2'
  rw [w0h.empty, w1h.empty] at p1
  rw [w0h.empty, w2h.empty] at p2
  rw [w1h.empty, w2h.empty] at p3
  rw [w0h'.empty, w1h'.empty] at p1'
  rw [w0h'.empty, w2h'.empty] at p2'
  rw [w1h'.empty, w2h'.empty] at p3'
  have hw : w0 = w0' ∧ w1 = w1' ∧ w2 = w2' := by
    clear w0h w1h w2h w0h' w1h' w2h'
    cases w0 <;> cases w1 <;> cases w2 <;> cases w0' <;> cases w1' <;> cases w2' <;> simp_all
  obtain ⟨rfl, rfl, rfl⟩ := hw
  intro o ks ks' ho hk hk'
  simp only [List.mem_cons, List.not_mem_nil, or_false] at hj
  rcases hj with rfl | rfl | rfl
  · cases h0.symm.trans ho
    cases hx0.symm.trans hk
    cases hx0'.symm.trans hk'
    exact w0h.same w0h'
  · cases h1.symm.trans ho
    cases hx1.symm.trans hk
    cases hx1'.symm.trans hk'
    exact w1h.same w1h'
  · cases h2.symm.trans ho
    cases hx2.symm.trans hk
    cases hx2'.symm.trans hk'
    rw [w2h.same w2h']
    exact same_sign ht2

/-- The same with only one sign. -/
def signGroup2 (row : Insn) (j0 j1 a1 a2 : Nat) : Bool :=
  decide (a1 < 64 ∧ a2 < 64 ∧ a1 ≠ a2 ∧ j0 ≠ j1) && row.operands[j0]? == some (.po a1 a2) &&
  row.operands[j1]? == some (.neg a2) && row.set row.operands.length a1 [j0] && row.set row.operands.length a2 [j0, j1]

theorem Twins.sign2 (h : Twins row args args' e e' W W' B B' R R' K K') {j0 j1 a1 a2 : Nat}
    (hg : signGroup2 row j0 j1 a1 a2 = true) {j : Nat} (hj : j ∈ [j0, j1]) : SameAt row args args' e e' j := by
  unfold signGroup2 at hg
  simp only [Bool.and_eq_true, decide_eq_true_eq, beq_iff_eq] at hg
  obtain ⟨⟨⟨⟨⟨ha1, ha2, hne, hn1⟩, h0⟩, h1⟩, hs1⟩, hs2⟩ := hg
  have hpo : ∃ a b, Operand.po a b ∈ row.operands := ⟨a1, a2, List.mem_of_getElem? h0⟩
  obtain ⟨x0, x0', hx0, hx0', hA0, hA0'⟩ := h.both h0
  obtain ⟨x1, x1', hx1, hx1', hA1, hA1'⟩ := h.both h1
  obtain ⟨w0, w0h⟩ := optional_of (k := .ident c!".PO") rfl hA0
  obtain ⟨w0', w0h'⟩ := optional_of (k := .ident c!".PO") rfl hA0'
  obtain ⟨w1, w1h⟩ := optional_of (k := .minus) rfl hA1
  obtain ⟨w1', w1h'⟩ := optional_of (k := .minus) rfl hA1'
  have e1 := h.bits hs1
  have e2 := h.bits hs2
  simp only [List.any_cons, List.any_nil, w0h.bit ha1, w0h'.bit ha1, w0h.bit ha2, w0h'.bit ha2,
    w1h.bit ha2, w1h'.bit ha2, BitVec.getLsbD_or, field_bit] at e1 e2
  simp [ha1, ha2] at e1 e2
  have p1 := h.plain.sign hpo hn1 h0 h1 rfl rfl hx0 hx1
  have p1' := h.plain'.sign hpo hn1 h0 h1 rfl rfl hx0' hx1'
  rw [w0h.empty, w1h.empty] at p1
  rw [w0h'.empty, w1h'.empty] at p1'
  have hw : w0 = w0' ∧ w1 = w1' := by
    clear w0h w1h w0h' w1h'
    cases w0 <;> cases w1 <;> cases w0' <;> cases w1' <;> simp_all
  obtain ⟨rfl, rfl⟩ := hw
  intro o ks ks' ho hk hk'
  simp only [List.mem_cons, List.not_mem_nil, or_false] at hj
  rcases hj with rfl | rfl
  · cases h0.symm.trans ho
    cases hx0.symm.trans hk
    cases hx0'.symm.trans hk'
    exact w0h.same w0h'
  · cases h1.symm.trans ho
    cases hx1.symm.trans hk
    cases hx1'.symm.trans hk'
    exact w1h.same w1h'

end

end Nxas
