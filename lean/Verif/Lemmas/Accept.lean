import Verif.Lemmas.Inside
import Verif.Lemmas.Order
import Verif.Lemmas.Ub
import Verif.Lemmas.Release
/-
The converse of `Encoding.syntax`: an instruction of the grammar is accepted.
-/

namespace Nxas

open Spec

/-! ### No semicolon inside -/

theorem reuse_no_semicolon {a : Nat} {ks : List Kind} {k : Kind} {r : BitVec 32} (h : Spec.reuse a ks k r) :
    Kind.semicolon ∉ ks := by
  rcases h with ⟨rfl, -⟩ | ⟨rfl, -⟩ <;> simp

theorem optWord_no_semicolon {s : Str} {bits : BitVec 64} {ks : List Kind} {k : Kind} {b : BitVec 64} {r : BitVec 32}
    (h : optWord s bits ks k b r) : Kind.semicolon ∉ ks := by
  obtain ⟨-, ⟨rfl, -⟩ | ⟨rfl, -⟩⟩ := h <;> simp

theorem Entry.ne_semicolon {p : Str} {t : List Str} {k : Kind} {i : Nat} (h : Entry p t k i) : k ≠ .semicolon := by
  obtain ⟨name, rfl, -⟩ := h; simp

theorem modifier_no_semicolon {d : Option Nat} {a : Nat} {t : List Str} {ks : List Kind} {k : Kind} {b : BitVec 64}
    {r : BitVec 32} (h : modifier d a t ks k b r) : Kind.semicolon ∉ ks := by
  obtain ⟨-, ⟨k, i, rfl, h, -⟩ | ⟨d, -, rfl, -⟩⟩ := h
  · simpa using (Entry.ne_semicolon h).symm
  · simp

theorem float_no_semicolon {n : Nat} {f : BitVec 32 → BitVec n} {g : Int → BitVec n} {x y : BitVec n} {ks : List Kind}
    {neg : Bool} {v : BitVec n} (h : FloatText n f g x y ks neg v) : Kind.semicolon ∉ ks := by
  cases h with
  | float => simp
  | int => simp
  | word h => rcases h with ⟨rfl, -⟩ | ⟨rfl, -⟩ <;> simp
  | plus h => rcases h with ⟨rfl, -⟩ | ⟨rfl, -⟩ <;> simp
  | minus h => rcases h with ⟨rfl, -⟩ | ⟨rfl, -⟩ <;> simp

theorem memory_no_semicolon {i : Bool} {a s j : Nat} {ks : List Kind} {k : Kind} {b : BitVec 64} {r : BitVec 32}
    (h : memory i a s j ks k b r) : Kind.semicolon ∉ ks := by
  obtain ⟨n, base, off, rfl, h1, h2⟩ := h
  have hb : Kind.semicolon ∉ base := by
    rcases h1 with ⟨rest, rfl, h⟩ | ⟨rfl, -⟩
    · simpa using reuse_no_semicolon h
    · simp
  have ho : Kind.semicolon ∉ off := by
    rcases h2 with ⟨rfl, -⟩ | ⟨-, y, rfl, -⟩ <;> simp
  simp [hb, ho]

theorem accepts_no_semicolon {e : Env} {v : BitVec 64} {o : Operand} {ks : List Kind} {k : Kind} {b : BitVec 64}
    {r : BitVec 32} (h : Accepts e v o ks k b r) : Kind.semicolon ∉ ks := by
  have hE := @Entry.ne_semicolon
  induction o generalizing v ks k b with
  | flag | po | optText => exact optWord_no_semicolon h
  | dotTable | selector | immFormat => exact modifier_no_semicolon h
  | memAddress => exact memory_no_semicolon h
  | fimm | dimm20 | himm => obtain ⟨-, neg, x, h, -⟩ := h; exact float_no_semicolon h
  | gpr => obtain ⟨n, rest, rfl, -, h⟩ := h; simpa using reuse_no_semicolon h
  | mirrorGpr => obtain ⟨-, n, rest, rfl, -, h⟩ := h; simpa using reuse_no_semicolon h
  | abs a inner ih =>
    rcases h with ⟨ks1, b1, rfl, -, h⟩ | ⟨-, h⟩
    · simpa using ih h
    · exact ih h
  | patchAttr =>
    obtain ⟨n, rest, plus, y, rfl, h1, h2, -⟩ := h
    have := reuse_no_semicolon h2
    rcases h1 with rfl | rfl <;> simpa using this
  | physAttr => obtain ⟨n, rest, rfl, h, -⟩ := h; simpa using reuse_no_semicolon h
  | ldcAddress => obtain ⟨x, rest, b1, rfl, -, -, h⟩ := h; simpa using memory_no_semicolon h
  | f2fRounding =>
    unfold Accepts at h
    split at h
    · obtain ⟨-, ⟨k, s, x, rfl, -, rfl, -⟩ | ⟨rfl, -⟩⟩ := h <;> simp
    · exact modifier_no_semicolon h
  | bop | plainTable | texType | texsSwizzle | intFormat | ccTests | ldgSize | s2r | srcFormat =>
    unfold Accepts at h
    grind
  | cbuf => obtain ⟨-, x, y, rfl, -⟩ := h; simp
  | _ => unfold Accepts at h; grind

theorem sequence_no_semicolon {e : Env} {os : List Operand} {v v' : BitVec 64} {ks : List Kind} {k : Kind} {r : BitVec 32}
    (h : Sequence e os v ks k v' r) : Kind.semicolon ∉ ks := by
  induction h with
  | nil => simp
  | cons h hs ih => simp [accepts_no_semicolon h, ih]

theorem rowText_no_semicolon {e : Env} {row : Insn} {g : Option (Nat × Bool)} {ks : List Kind} {op : Op}
    (h : RowText e row g ks op) : Kind.semicolon ∉ ks := by
  obtain ⟨-, h1, h2⟩ := h
  simp [sequence_no_semicolon h1, h2.no_semicolon]

/-! ### Rows that cannot reach their undefined behaviour -/

/-- The operand does nothing to the tokens if the next one is `k`. -/
def Operand.skips (k : Kind) : Operand → Bool
  | .flag s _ => !k.equal s
  | .dotTable (some _) _ t => t.all fun x => !k.equal ('.' :: x)
  | _ => false

/-- The operand is refused if the next token is `k`. -/
def Operand.refuses (k : Kind) : Operand → Bool
  | .expect s _ _ => !k.equal s
  | .pred _ _ => match k with
    | .pred _ _ => false
    | _ => true
  | .comma => k != .comma
  | .dotTable none _ t => t.all fun x => !k.equal ('.' :: x)
  | _ => false

/-- Operands before the first one that needs another token than `k` are skipped. -/
def stuck (k : Kind) : List Operand → Bool
  | [] => false
  | o :: os => o.refuses k || (o.skips k && stuck k os)

theorem findInTable_absent {t : List Str} {s : St} (h : (t.all fun x => !s.tok.kind.equal ('.' :: x)) = true) :
    findInTable true t c!"." false s = .ok none s := by
  rcases findInTable_cases true t c!"." false s with h1 | ⟨i, x, -, h2, -, h3⟩ | h1
  · exact h1
  · have hx := (tableIndex_lt h3).2.1
    have := List.all_eq_true.1 h x (List.mem_of_getElem? hx)
    rw [h2] at this
    simp [Kind.equal] at this
  · unfold findInTable at h1
    cases hk : s.tok.kind <;> simp only [hk] at h1
    case ident y =>
      split at h1
      · simp at h1
      · split at h1
        · simp at h1
        · simp at h1
    all_goals simp at h1

theorem Operand.skips_run {o : Operand} {s : St} (h : o.skips s.tok.kind = true) :
    ∃ v, o.run false s = .ok () { s with op := { s.op with value := v } } := by
  cases o with
  | flag x a =>
    have : s.tok.kind.equal x = false := by simpa [Operand.skips] using h
    exact ⟨s.op.value, by simp [Operand.run, runFlag, M.bind_def, getKind, this, M.pure]⟩
  | dotTable d a t =>
    cases d with
    | none => simp [Operand.skips] at h
    | some d =>
      have hn := findInTable_absent h
      refine ⟨s.op.value ||| (BitVec.ofNat 64 d <<< a), ?_⟩
      simp [Operand.run, runDotTable, M.bind_def, hn, addBits]
  | _ => simp [Operand.skips] at h

theorem Operand.refuses_run {o : Operand} {s : St} (h : o.refuses s.tok.kind = true) :
    ∃ e s', o.run false s = .fail e s' := by
  cases o with
  | expect x a b =>
    have : s.tok.kind.equal x = false := by simpa [Operand.refuses] using h
    simp [Operand.run, runExpect, M.bind_def, getKind, this, failTok]
  | pred a b =>
    cases hk : s.tok.kind <;> simp [Operand.refuses, hk] at h
    all_goals simp [Operand.run, runPred, M.bind_def, confirmPred, hk]
  | comma =>
    have : s.tok.kind ≠ .comma := by simpa [Operand.refuses] using h
    simp [Operand.run, runComma, M.bind_def, confirm, this]
  | dotTable d a t =>
    cases d with
    | none => simp [Operand.run, runDotTable, M.bind_def, findInTable_absent h, failTok]
    | some d => simp [Operand.refuses] at h
  | _ => simp [Operand.refuses] at h

theorem stuck_run {os : List Operand} {n : Nat} {s : St} (h : stuck s.tok.kind os = true) :
    ∃ e s', (runOperands os n false s).1 = .fail e s' := by
  induction os generalizing n s with
  | nil => simp [stuck] at h
  | cons o os ih =>
    unfold stuck at h
    rw [Bool.or_eq_true, Bool.and_eq_true] at h
    unfold runOperands
    rcases h with h | ⟨h1, h2⟩
    · obtain ⟨e, s', h⟩ := o.refuses_run h
      rw [h]; exact ⟨e, s', rfl⟩
    · obtain ⟨v, h⟩ := o.skips_run h1
      rw [h]; exact ih h2

/-- The operand has no undefined behaviour of its own. -/
def Operand.tame (o : Operand) : Bool :=
  match o.leaf with
  | .label | .s2r _ | .ldgSize | .texType _ => false
  | _ => true

theorem Operand.tame_ub {o : Operand} (h : o.tame = true) : OperandUb (· = .readPastEnd) o := by
  unfold Operand.tame at h
  constructor
  · intro hl; rw [hl] at h; simp at h
  · intro t hl; rw [hl] at h; simp at h
  · intro hl; rw [hl] at h; simp at h
  · intro a hl; rw [hl] at h; simp at h

theorem tokUb_past (c : Cur) : TokUb c (· = .readPastEnd) := fun _ _ _ h => tokenize_ub_kind h

theorem tame_run {os : List Operand} (ht : ∀ o ∈ os, o.tame = true) (ho : ∀ o ∈ os, o.simple = true) {n : Nat} {dbg : Bool}
    {s : St} {t : Token} {c c0 : Cur} (hi : s.inside t c) (h0 : TokInv c0 s) (u : UB) :
    (runOperands os n dbg s).1 ≠ .ub u := by
  intro h
  have h1 := runOperands_ub (tokUb_past _) (fun o h => Operand.tame_ub (ht o h)) h0
    (show runOperands os n dbg s = (.ub u, (runOperands os n dbg s).2) by rw [← h])
  have h2 := runOperands_inside ho (n := n) (dbg := dbg) h0.wf hi
  rw [h] at h2
  exact h2 h1

theorem runOperands_after {a b : List Operand} {n m : Nat} {dbg : Bool} {s s1 : St}
    (h : runOperands a n dbg s = (.ok () s1, m)) : runOperands (a ++ b) n dbg s = runOperands b m dbg s1 := by
  induction a generalizing n s with
  | nil => simp only [runOperands, Prod.mk.injEq, Out.ok.injEq, true_and] at h; rw [h.1, h.2]; rfl
  | cons o a ih =>
    rw [runOperands] at h
    rw [List.cons_append, runOperands]
    cases hr : o.run dbg s with
    | ok x s' => rw [hr] at h; exact ih h
    | _ => rw [hr] at h; simp at h

/-- The tokens of the operand do not depend on the operands before. -/
def Operand.steady : Operand → Bool
  | .flag .. | .dotTable .. | .ldgSize => true
  | _ => false

theorem Operand.steady_accepts {o : Operand} (h : o.steady = true) (e : Env) (v v' : BitVec 64) :
    Accepts e v o = Accepts e v' o := by
  cases o <;> first | rfl | simp [Operand.steady] at h

theorem steady_run {pre rest : List Operand} (hp : ∀ o ∈ pre, o.steady = true) (hg : ∀ o ∈ pre, o.grammatical = true)
    {s : St} (hs : s.tok.kind.proper) {ks ks' : List Kind} {t : Token} {c : Cur} {v v' : BitVec 64} {r : BitVec 32}
    (hpath : Path s.tok s.ctx.cur (ks ++ ks') t c)
    (hq : Sequence s.ctx.env (pre ++ rest) v ks (ks'.headD t.kind) v' r) :
    ∃ s1 ks1 v1 r1, (∀ n, runOperands pre n false s = (.ok () s1, n + pre.length)) ∧ s1.tok.kind.proper ∧
      Path s1.tok s1.ctx.cur (ks1 ++ ks') t c ∧ Sequence s1.ctx.env rest v1 ks1 (ks'.headD t.kind) v' r1 := by
  induction pre generalizing s ks v r with
  | nil => exact ⟨s, ks, v, r, fun n => rfl, hs, hpath, hq⟩
  | cons o pre ih =>
    rw [List.cons_append] at hq
    generalize hk : ks'.headD t.kind = k at hq
    cases hq with
    | @cons _ _ _ b _ ks1 ks2 _ r1 r2 ha hq =>
      rw [List.append_assoc] at hpath
      obtain ⟨t1, c1, hp1, hp2⟩ := Path.append_iff.1 hpath
      have hh := hp2.head
      have hkk : ks2.headD k = t1.kind := by
        rw [hh, ← hk]
        cases ks2 <;> rfl
      rw [hkk, Operand.steady_accepts (hp o (by simp)) _ _ s.op.value] at ha
      have hrun := (o.run_iff (hg o (by simp)) s hs _).2 ⟨ks1, b, r1, t1, c1, hp1, ha, rfl⟩
      subst hk
      obtain ⟨s1, ks3, v1, r3, h1, h2, h3, h4⟩ := ih (s := s.set (clears o) b r1 t1 c1) (fun o h => hp o (by simp [h]))
        (fun o h => hg o (by simp [h])) (hp1.proper hs).1 (ks := ks2) hp2 hq
      refine ⟨s1, ks3, v1, r3, fun n => ?_, h2, h3, h4⟩
      rw [runOperands, hrun]
      dsimp only
      rw [h1, List.length_cons]
      congr 1
      omega

/-- A row with the operands `a` meets no undefined behaviour on a text that fits the operands `b`. -/
def harmless (a b : List Operand) : Bool :=
  a.all Operand.tame ||
  (match b with
  | .expect x _ _ :: _ => stuck (.ident x) a
  | _ => false) ||
  (match a, b with
  | .dotTable none _ _ :: a', .dotTable none _ _ :: .expect x _ _ :: _ => stuck (.ident x) a'
  | _, _ => false) ||
  (match a, b with
  | a1 :: a2 :: a3 :: a', b1 :: b2 :: b3 :: _ => a1 == b1 && a2 == b2 && a3 == b3 && a1.steady && a2.steady && a3.steady &&
      a'.all Operand.tame
  | _, _ => false) ||
  (match a, b with
  | a1 :: a2 :: .ccTests _ _ :: .comma :: _, [b1, b2, .label] => a1 == b1 && a2 == b2 && a1.steady && a2.steady
  | _, _ => false)

/-- For all rows with the same mnemonic. -/
def harmlessTable : List Insn → Bool
  | [] => true
  | r :: rs => (rs.all fun r' => r'.mnemonic != r.mnemonic ||
      (harmless r.operands r'.operands && r.operands.all Operand.simple)) && harmlessTable rs

theorem table_harmless : harmlessTable insnTable = true := by decide +kernel

theorem harmlessTable_split {pre post : List Insn} {row row' : Insn} (h : harmlessTable (pre ++ row :: post) = true)
    (hr : row' ∈ pre) (hm : row'.mnemonic = row.mnemonic) :
    harmless row'.operands row.operands = true ∧ ∀ o ∈ row'.operands, o.simple = true := by
  induction pre with
  | nil => simp at hr
  | cons r pre ih =>
    rw [List.cons_append, harmlessTable, Bool.and_eq_true] at h
    rcases List.mem_cons.1 hr with rfl | hr
    · have := List.all_eq_true.1 h.1 row (by simp)
      simp only [hm, bne_self_eq_false, Bool.false_or, Bool.and_eq_true] at this
      exact ⟨this.1, List.all_eq_true.1 this.2⟩
    · exact ih h.2 hr

theorem _root_.Nxas.Spec.AnnotsText.head_ne {as : List Annot} {ks : List Kind} (h : AnnotsText as ks) (x : Str) :
    ks.headD .semicolon ≠ .ident x := by
  cases h with
  | nil => simp
  | cons h => cases h <;> simp

/-- A row that comes before the accepted one has no undefined behaviour. -/
theorem harmless_run {a b : List Operand} (h : harmless a b = true) (ha : ∀ o ∈ a, o.simple = true)
    (hg : ∀ o ∈ b, o.grammatical = true) {s : St} {c0 : Cur} (h0 : TokInv c0 s) {ks ks' : List Kind} {t : Token} {c : Cur} {as : List Annot}
    (hp : Path s.tok s.ctx.cur (ks ++ ks') t c) (ht : t.kind = .semicolon) {v v' : BitVec 64} {r : BitVec 32}
    (hq : Sequence s.ctx.env b v ks (ks'.headD .semicolon) v' r) (hs : AnnotsText as ks') (n : Nat) (u : UB) :
    (runOperands a n false s).1 ≠ .ub u := by
  have hsemi : Kind.semicolon ∉ ks ++ ks' := by simp [sequence_no_semicolon hq, hs.no_semicolon]
  have hi : s.inside t c := ⟨_, hp, ht, hsemi⟩
  unfold harmless at h
  simp only [Bool.or_eq_true] at h
  rcases h with (((h | h) | h) | h) | h
  · exact tame_run (List.all_eq_true.1 h) ha hi h0 u
  · split at h
    · rename_i x p q b'
      cases hq with
      | cons hx hq =>
        obtain ⟨-, rfl, -⟩ := hx
        have hk : s.tok.kind = .ident x := by rw [hp.head]; rfl
        rw [← hk] at h
        obtain ⟨e, s', h⟩ := stuck_run (n := n) h
        rw [h]; simp
    · simp at h
  · split at h
    · rename_i p1 t1 a' p2 t2 x q1 q2 b'
      cases hq with
      | cons hx hq =>
        cases hq with
        | cons hy hq =>
          obtain ⟨-, ⟨k, i, rfl, -⟩ | ⟨d, hd, -⟩⟩ := hx
          · obtain ⟨-, rfl, -⟩ := hy
            rw [runOperands]
            cases hr : (Operand.dotTable none p1 t1).run false s with
            | ok z s1 =>
              obtain ⟨ks1, b1, r1, t1', c1, hp1, ha1, rfl⟩ := (Operand.run_iff _ (by rfl) s h0.proper _).1 hr
              obtain ⟨-, ⟨k', i', rfl, -⟩ | ⟨d, hd, -⟩⟩ := ha1
              · obtain ⟨-, t2', c2, h2, e1, e2⟩ := hp1
                obtain ⟨-, t3, c3, h3, h4⟩ := hp
                obtain ⟨rfl, rfl⟩ : t3 = t1' ∧ c3 = c1 := by
                  rw [h3, ← e1, ← e2] at h2; simpa using h2
                have hk : t3.kind = .ident x := by rw [h4.head]; rfl
                rw [← hk] at h
                obtain ⟨e, s', h⟩ := stuck_run (n := n + 1) (s := s.set (clears (Operand.dotTable none p1 t1)) b1 r1 t3 c3) h
                dsimp only
                rw [h]; simp
              · simp at hd
            | fail => simp
            | exit => simp
            | abort => simp
            | ub u' =>
              have := tame_run (os := [Operand.dotTable none p1 t1]) (n := n) (dbg := false) (by simp [Operand.tame, Operand.leaf])
                (fun o ho => ha o (by simp at ho; simp [ho])) hi h0 u'
              rw [runOperands, hr] at this
              simp at this
          · simp at hd
    · simp at h
  · split at h
    · rename_i a1 a2 a3 a' b1 b2 b3 b'
      simp only [Bool.and_eq_true, beq_iff_eq] at h
      obtain ⟨⟨⟨⟨⟨⟨rfl, rfl⟩, rfl⟩, h1⟩, h2⟩, h3⟩, h4⟩ := h
      have hst : ∀ o ∈ [a1, a2, a3], o.steady = true := by simp [h1, h2, h3]
      rw [show ks'.headD .semicolon = ks'.headD t.kind by rw [ht]] at hq
      obtain ⟨s1, ks1, v1, r1, h5, h6, h7, h8⟩ := steady_run (pre := [a1, a2, a3]) hst
        (fun o ho => hg o (by simp at ho ⊢; grind)) h0.proper hp hq
      have hf := runOperands_framed [a1, a2, a3] n false s c0 h0
      rw [h5] at hf
      rw [show a1 :: a2 :: a3 :: a' = [a1, a2, a3] ++ a' from rfl, runOperands_after (h5 n)]
      refine tame_run (List.all_eq_true.1 h4) (fun o ho => ha o (by simp [ho])) (t := t) (c := c) ⟨_, h7, ht, ?_⟩ hf.2 u
      simp [sequence_no_semicolon h8, hs.no_semicolon]
    · simp at h
  · split at h
    · rename_i a1 a2 p1 t1 a' b1 b2
      simp only [Bool.and_eq_true, beq_iff_eq] at h
      obtain ⟨⟨⟨rfl, rfl⟩, h1⟩, h2⟩ := h
      have hst : ∀ o ∈ [a1, a2], o.steady = true := by simp [h1, h2]
      rw [show ks'.headD .semicolon = ks'.headD t.kind by rw [ht]] at hq
      obtain ⟨s1, ks1, v1, r1, h5, h6, h7, h8⟩ := steady_run (pre := [a1, a2]) (rest := [.label]) hst
        (fun o ho => hg o (by simp at ho ⊢; grind)) h0.proper hp hq
      rw [show a1 :: a2 :: .ccTests p1 t1 :: .comma :: a' = [a1, a2] ++ .ccTests p1 t1 :: .comma :: a' from rfl,
        runOperands_after (h5 n)]
      cases h8 with
      | cons hl hn =>
        cases hn
        obtain ⟨-, target, h9, -⟩ := hl
        have hk : ∃ k, s1.tok.kind = k ∧ k ≠ .comma ∧ ∃ t2 c2, tokenize s1.ctx.cur = .ok t2 c2 ∧ Path t2 c2 ks' t c := by
          rcases h9 with ⟨x, y, rfl, -⟩ | rfl
          · obtain ⟨a1, h7⟩ := h7
            exact ⟨_, a1, by simp, h7⟩
          · obtain ⟨a1, h7⟩ := h7
            exact ⟨_, a1, by simp, h7⟩
        obtain ⟨k, hk, hc, t2, c2, ht2, hp2⟩ := hk
        have hi2 : ∀ x, t2.kind ≠ .ident x := by
          intro x hx
          have := hp2.head
          rw [hx, ht] at this
          exact hs.head_ne x this.symm
        rw [runOperands]
        by_cases h10 : k.equal c!"CC" = true
        · rw [show (Operand.ccTests p1 t1).run false s1 = .fail ⟨t2.line, t2.col, expectedMsg c!"identifier" t2.kind⟩ (s1.at t2 c2 s1.op) from ?_]
          · simp
          · have : ∀ (s' : St), (∀ x, s'.tok.kind ≠ .ident x) →
                confirmIdent false s' = .fail ⟨s'.tok.line, s'.tok.col, expectedMsg c!"identifier" s'.tok.kind⟩ s' := by
              intro s' h
              unfold confirmIdent
              split
              · rename_i x hx; exact absurd hx (h x)
              · rfl
            simp [Operand.run, runCcTests, M.bind_def, getKind, hk, h10, advance, ht2, this, hi2, St.at]
        · rw [show (Operand.ccTests p1 t1).run false s1 = .ok () { s1 with op := { s1.op with value := s1.op.value ||| 15#64 <<< p1 } } from ?_]
          · dsimp only
            rw [runOperands]
            simp [Operand.run, runComma, M.bind_def, confirm, hk, hc]
          · simp [Operand.run, runCcTests, M.bind_def, getKind, hk, h10, addBits]
    · simp at h

/-- A row before the one whose grammar the text fits has no undefined behaviour on it. -/
theorem earlier_row_ub {pre post : List Insn} {row row' : Insn} (hs : insnTable = pre ++ row :: post) (hr : row' ∈ pre)
    (hm : row'.mnemonic = row.mnemonic) {s : St} {g : Option (Nat × Bool)} {t0 t : Token} {c0 c : Cur} {ks : List Kind} {op : Op}
    (h0 : tokenize s.ctx.cur = .ok t0 c0) (hp : Path t0 c0 ks t c) (ht : t.kind = .semicolon)
    (h : RowText s.ctx.env row g ks op) (u : UB) : (parseInsn row' false s).1 ≠ .ub u := by
  obtain ⟨hh, ho⟩ := harmlessTable_split (hs ▸ table_harmless) hr hm
  have hn := rowText_no_semicolon h
  have hcalm := parseInsn_inside ho (dbg := false) h0 hp ht hn
  intro hu
  rw [hu] at hcalm
  have hcalm : u ≠ .readPastEnd := hcalm
  unfold parseInsn at hu
  cases h1 : startInsn row' false s with
  | ok a s1 =>
    rw [h1] at hu
    dsimp only at hu
    obtain ⟨t1, c1, h2, -, rfl⟩ := (startInsn_iff _).1 h1
    rw [h0] at h2
    obtain ⟨rfl, rfl⟩ : t0 = t1 ∧ c0 = c1 := by simpa using h2
    have hinv : TokInv s.ctx.cur (s.at t0 c0 { s.op with value := s.op.value ||| row'.opcode }) :=
      ⟨s.ctx.cur, Reach.refl _, h0⟩
    have hf := runOperands_framed row'.operands 1 false _ s.ctx.cur hinv
    cases h with
    | mk hg hq ha =>
      have hno := harmless_run hh ho (table_grammatical row (by rw [hs]; simp)) hinv hp ht hq ha 1
      obtain ⟨x, hx⟩ : ∃ x, runOperands row'.operands 1 false
        (s.at t0 c0 { s.op with value := s.op.value ||| row'.opcode }) = x := ⟨_, rfl⟩
      rw [hx] at hu hno hf
      obtain ⟨x1, x2⟩ := x
      cases x1 with
      | ok a s2 => exact hcalm (finishInsn_ub (tokUb_past _) hf.2 hu)
      | ub u' => exact hno u' rfl
      | _ => simp at hu
  | ub u' =>
    rw [h1] at hu
    obtain rfl : u' = u := by simpa using hu
    exact hcalm (startInsn_ub (tokUb_past _) (Reach.refl _) h1)
  | _ => rw [h1] at hu; simp at hu

/-- The row loop accepts exactly the texts of the grammar: the first row with the mnemonic that the text fits. -/
theorem tryRows_iff {s : St} {mn : Str} {g : Option (Nat × Bool)} (hk : s.tok.kind = .ident mn)
    (hg : ∀ p n, g = some (p, n) → p ≤ 7) (hs : s.op = ⟨guardWord g, 0, 0⟩) (s' : St) :
    tryRows s.tok s insnTable none false s = .ok () s' ↔
      ∃ pre row post t0 c0 ks op t c, insnTable = pre ++ row :: post ∧ row.mnemonic = mn ∧
        tokenize s.ctx.cur = .ok t0 c0 ∧ Path t0 c0 ks t c ∧ t.kind = .semicolon ∧ RowText s.ctx.env row g ks op ∧
        (∀ row' ∈ pre, row'.mnemonic = row.mnemonic → ∀ op', ¬ RowText s.ctx.env row' g ks op') ∧
        s' = { s.at t c op with ctx := { (s.at t c op).ctx with pc := s.ctx.pc + 8 } } := by
  have hmn : ∀ row : Insn, s.tok.equal row.mnemonic = true ↔ row.mnemonic = mn := by
    intro row
    rw [Token.equal_iff, hk]
    simp [eq_comm]
  constructor
  · intro h
    rcases tryRows_spec s.tok s false insnTable none s rfl rfl with ⟨pre, row, post, h1, h2, h3, h4⟩ | ⟨-, h4⟩
    · rw [h4] at h
      have hin : row ∈ insnTable := by rw [h1]; simp
      unfold rowOut at h
      cases hr : (parseInsn row false s).1 with
      | ok a s1 =>
        rw [hr] at h
        simp only [rowResult, Out.ok.injEq, true_and] at h
        obtain ⟨t0, c0, ks, op, t, c, h5, h6, h7, h8, h9⟩ := (parseInsn_iff hin hg hs _).1 hr
        refine ⟨pre, row, post, t0, c0, ks, op, t, c, h1, (hmn row).1 h2.1, h5, h6, h7, h8, ?_, ?_⟩
        · intro row' hrow' hm op' hrt
          refine h3 row' hrow' ⟨(hmn row').2 (hm.trans ((hmn row).1 h2.1)), ?_⟩
          intro e s2 hf
          have := (parseInsn_iff (row := row') (by rw [h1]; simp [hrow']) hg hs _).2 ⟨t0, c0, ks, op', t, c, h5, h6, h7, hrt, rfl⟩
          unfold rowOut at hf
          rw [this] at hf
          simp at hf
        · rw [← h, h9]; rfl
      | _ => rw [hr] at h; simp [rowResult] at h
    · rw [h4] at h; simp at h
  · rintro ⟨pre, row, post, t0, c0, ks, op, t, c, h1, h2, h5, h6, h7, h8, h9, rfl⟩
    have hrow := (parseInsn_iff (row := row) (by rw [h1]; simp) hg hs _).2 ⟨t0, c0, ks, op, t, c, h5, h6, h7, h8, rfl⟩
    have hdec : Decides s.tok false s row := by
      refine ⟨(hmn row).2 h2, ?_⟩
      intro e s' h
      unfold rowOut at h
      rw [hrow] at h
      simp at h
    have hpre : ∀ row' ∈ pre, ¬ Decides s.tok false s row' := by
      intro row' hr' ⟨hd1, hd2⟩
      have hm : row'.mnemonic = row.mnemonic := ((hmn row').1 hd1).trans h2.symm
      have hcalm := parseInsn_inside (harmlessTable_split (h1 ▸ table_harmless) hr' hm).2 (dbg := false) h5 h6 h7
        (rowText_no_semicolon h8)
      unfold rowOut at hd2
      cases hr : (parseInsn row' false s).1 with
      | ok a s1 =>
        obtain ⟨t0', c0', ks', op', t', c', h5', h6', h7', h8', -⟩ :=
          (parseInsn_iff (row := row') (by rw [h1]; simp [hr']) hg hs _).1 hr
        rw [h5] at h5'
        obtain ⟨rfl, rfl⟩ : t0 = t0' ∧ c0 = c0' := by simpa using h5'
        obtain ⟨rfl, -, -⟩ := h6.first_semicolon h6' h7 h7' (rowText_no_semicolon h8) (rowText_no_semicolon h8')
        exact h9 row' hr' hm op' h8'
      | fail e s1 => exact hd2 _ _ hr
      | exit e => rw [hr] at hcalm; exact hcalm
      | abort => exact parseInsn_quiet _ _ hr
      | ub u => exact earlier_row_ub h1 hr' hm h5 h6 h7 h8 u hr
    rcases tryRows_spec s.tok s false insnTable none s rfl rfl with ⟨pre', row', post', h1', h2', h3', h4'⟩ | ⟨h3', -⟩
    · have : row' = row := by
        have hsplit := h1.symm.trans h1'
        rcases List.append_eq_append_iff.1 hsplit with ⟨as, ha, hb⟩ | ⟨as, ha, hb⟩
        · cases as with
          | nil => simp at hb; exact hb.1.symm
          | cons a as =>
            simp at hb
            exact absurd hdec (h3' row (by rw [ha]; simp [hb.1]))
        · cases as with
          | nil => simp at hb; exact hb.1
          | cons a as =>
            simp at hb
            exact absurd h2' (hpre row' (by rw [ha]; simp [hb.1]))
      subst this
      rw [h4']
      unfold rowOut
      rw [hrow]
      rfl
    · exact absurd hdec (h3' row (by rw [h1]; simp))

end Nxas
