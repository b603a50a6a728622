import Verif.Lemmas.Scan
import Verif.Lemmas.Accept
import Verif.Spec.Source
/-
From the texts of the grammar to the runs of the assembler and back.
-/

namespace Nxas

open Spec

/-! ### Reading tokens -/

/-- Class and line of a token. -/
def Token.pair (t : Token) : Kind × Nat := (t.kind, t.line)

/-- The tokens `ts` are read between two cursors; none of them is the end of the text. -/
inductive ReadsT : Cur → List Token → Cur → Prop
  | nil {c : Cur} : ReadsT c [] c
  | cons {c c1 c' : Cur} {t : Token} {ts : List Token} (h : tokenize c = .ok t c1) (hk : t.kind ≠ .none)
      (hr : ReadsT c1 ts c') : ReadsT c (t :: ts) c'

/-- The tokens `ts` are read up to the end of the text. -/
def Lexes (c : Cur) (ts : List Token) : Prop :=
  ∃ c', ReadsT c ts c' ∧ ∃ t c'', tokenize c' = .ok t c'' ∧ t.kind = .none

theorem ReadsT.append_iff {c c' : Cur} {as bs : List Token} :
    ReadsT c (as ++ bs) c' ↔ ∃ c1, ReadsT c as c1 ∧ ReadsT c1 bs c' := by
  induction as generalizing c with
  | nil =>
    constructor
    · exact fun h => ⟨c, .nil, h⟩
    · rintro ⟨c1, h1, h2⟩; cases h1; exact h2
  | cons t ts ih =>
    constructor
    · intro h
      cases h with
      | cons h hk hr =>
        obtain ⟨c1, h1, h2⟩ := ih.1 hr
        exact ⟨c1, .cons h hk h1, h2⟩
    · rintro ⟨c1, h1, h2⟩
      cases h1 with
      | cons h hk hr => exact .cons h hk (ih.2 ⟨c1, hr, h2⟩)

theorem Lexes.append_iff {c : Cur} {as bs : List Token} :
    Lexes c (as ++ bs) ↔ ∃ c1, ReadsT c as c1 ∧ Lexes c1 bs := by
  constructor
  · rintro ⟨c', h, he⟩
    obtain ⟨c1, h1, h2⟩ := ReadsT.append_iff.1 h
    exact ⟨c1, h1, c', h2, he⟩
  · rintro ⟨c1, h1, c', h2, he⟩
    exact ⟨c', ReadsT.append_iff.2 ⟨c1, h1, h2⟩, he⟩

theorem Lexes.cons_iff {c : Cur} {t : Token} {ts : List Token} :
    Lexes c (t :: ts) ↔ ∃ c1, tokenize c = .ok t c1 ∧ t.kind ≠ .none ∧ Lexes c1 ts := by
  constructor
  · rintro ⟨c', h, he⟩
    cases h with
    | cons h hk hr => exact ⟨_, h, hk, c', hr, he⟩
  · rintro ⟨c1, h, hk, c', hr, he⟩
    exact ⟨c', .cons h hk hr, he⟩

theorem ReadsT.reach {c c' : Cur} {ts : List Token} (h : ReadsT c ts c') : Reach c c' := by
  induction h with
  | nil => exact Reach.refl _
  | cons h _ _ ih => exact (tokenize_ok h).reach.trans ih

theorem _root_.Nxas.Spec.Lexeme.ne_none {w rest : Str} {k : Kind} (h : Lexeme w rest k) : k ≠ .none := by
  have key : ∀ y ∈ operators, y.2 ≠ .none := by decide
  cases h with
  | operator h _ => exact key _ h
  | _ => simp

/-- The lexical grammar describes the tokens read by the lexer. -/
theorem scans_iff {c : Cur} (hz : '\x00' ∉ c.text) {ps : List (Kind × Nat)} :
    Scans c.line c.text ps ↔ ∃ ts, Lexes c ts ∧ ps = ts.map Token.pair := by
  constructor
  · obtain ⟨l, hl⟩ : ∃ l, c.line = l := ⟨_, rfl⟩
    obtain ⟨x, hx⟩ : ∃ x, c.text = x := ⟨_, rfl⟩
    rw [hl, hx]
    intro h
    induction h generalizing c with
    | @done l t h =>
      have h1 := tokenize_skipped hz (by rw [hx, List.append_nil]) h
      rw [tokenize_end (c := c.move t []) rfl] at h1
      exact ⟨[], ⟨c, .nil, _, _, h1, rfl⟩, rfl⟩
    | @token l s w rest k ts hs hw h ih =>
      rw [List.append_assoc] at hx
      have h1 := tokenize_skipped hz hx hs
      have hz1 : '\x00' ∉ (c.move s (w ++ rest)).text := by
        intro hm; exact hz (by rw [hx]; exact List.mem_append_right _ hm)
      rw [tokenize_lexeme hz1 rfl hw, Cur.move_move] at h1
      have hz2 : '\x00' ∉ (c.move (s ++ w) rest).text := by
        intro hm; exact hz (by rw [hx]; exact List.mem_append_right _ (List.mem_append_right _ hm))
      obtain ⟨ts', h2, h3⟩ := ih (c := c.move (s ++ w) rest) hz2 (by rw [Cur.move_line, hl]) rfl
      refine ⟨_ :: ts', Lexes.cons_iff.2 ⟨_, h1, hw.ne_none, h2⟩, ?_⟩
      rw [List.map_cons, ← h3, Token.pair, Cur.move_line, hl]
  · rintro ⟨ts, ⟨c', h, t, c'', he, hn⟩, rfl⟩
    induction h with
    | @nil c =>
      rcases tokenize_inv hz he with ⟨s, h1, h2, -, -⟩ | ⟨s, w, -, -, h3, -⟩
      · exact .done (by rw [h1]; exact h2)
      · exact absurd hn h3.ne_none
    | @cons c c1 c' t ts h hk hr ih =>
      have hz1 : '\x00' ∉ c1.text := by
        obtain ⟨p, hp, -⟩ := (tokenize_ok h).reach
        intro hm; exact hz (by rw [hp]; exact List.mem_append_right _ hm)
      have := ih hz1 he
      rcases tokenize_inv hz h with ⟨s, -, -, h3, -⟩ | ⟨s, w, h1, h2, h3, h4, h5⟩
      · rw [h3] at hk; exact absurd rfl hk
      · rw [h1, ← List.append_assoc, List.map_cons]
        have hl : t.line = c.line + lineAfter s := by rw [h4]; exact Cur.move_line c s (w ++ c1.text)
        rw [Token.pair, hl]
        refine .token h2 h3 ?_
        have hl1 : c1.line = c.line + lineAfter (s ++ w) := by rw [h5]; exact Cur.move_line c (s ++ w) c1.text
        rw [← hl1]; exact this

/-- Nothing follows the end of the text. -/
theorem Path.ne_none {c0 : Cur} {t t' : Token} {c c' : Cur} {ks : List Kind} (h0 : tokenize c0 = .ok t c) (hp : Path t c ks t' c')
    (hk' : t'.kind ≠ .none) : ∀ k ∈ ks, k ≠ .none := by
  have hend : ∀ {ks : List Kind} {t : Token} {c : Cur}, t.kind = .none → c.text = [] → Path t c ks t' c' → t'.kind = .none := by
    intro ks
    induction ks with
    | nil => intro t c h _ hp; obtain ⟨rfl, -⟩ := hp; exact h
    | cons k ks ih =>
      intro t c _ hc hp
      obtain ⟨-, t1, c1, h1, h2⟩ := hp
      rw [tokenize_end hc] at h1
      simp only [TokRes.ok.injEq] at h1
      obtain ⟨rfl, rfl⟩ := h1
      exact ih rfl hc h2
  induction ks generalizing c0 t c with
  | nil => simp
  | cons k ks ih =>
    have hp0 := hp
    obtain ⟨h1, t1, c1, h2, h3⟩ := hp
    intro x hx
    simp only [List.mem_cons] at hx
    rcases hx with rfl | hx
    · intro hn
      exact hk' (hend (h1.trans hn) ((tokenize_ok h0).ended (h1.trans hn)) hp0)
    · exact ih h2 h3 x hx

/-- A path and the tokens read. -/
theorem Path.reads {t t' : Token} {c c' : Cur} {ks : List Kind} (hp : Path t c ks t' c') (hk : ∀ k ∈ ks, k ≠ .none)
    (hk' : t'.kind ≠ .none) : ∃ ts, ReadsT c ts c' ∧ (t :: ts).map Token.kind = ks ++ [t'.kind] := by
  induction ks generalizing t c with
  | nil => obtain ⟨rfl, rfl⟩ := hp; exact ⟨[], .nil, rfl⟩
  | cons k ks ih =>
    obtain ⟨h0, t1, c1, h1, h2⟩ := hp
    obtain ⟨ts, h3, h4⟩ := ih h2 (fun x hx => hk x (by simp [hx]))
    refine ⟨t1 :: ts, .cons h1 ?_ h3, ?_⟩
    · rw [h2.head]
      cases ks with
      | nil => exact hk'
      | cons x xs => exact hk x (by simp)
    · rw [List.map_cons, h4, h0]; rfl

theorem ReadsT.path {t : Token} {ts : List Token} {c c' : Cur} {ks : List Kind} {k : Kind} (h : ReadsT c ts c')
    (hk : (t :: ts).map Token.kind = ks ++ [k]) : ∃ t', Path t c ks t' c' ∧ t'.kind = k := by
  induction h generalizing t ks with
  | @nil c =>
    cases ks with
    | nil => simp at hk; exact ⟨t, ⟨rfl, rfl⟩, hk⟩
    | cons x xs => simp at hk
  | @cons c c1 c' t1 ts h hn hr ih =>
    cases ks with
    | nil => simp at hk
    | cons x xs =>
      rw [List.map_cons, List.cons_append] at hk
      simp only [List.cons.injEq] at hk
      obtain ⟨t', h1, h2⟩ := ih hk.2
      exact ⟨t', ⟨hk.1, t1, c1, h, h1⟩, h2⟩

/-! ### Options -/

theorem typeNames_iff {t : Token} {p : ProgType} : progTypeOfName t = some p ↔ ∃ w, t.kind = .ident w ∧ (w, p) ∈ typeNames := by
  unfold progTypeOfName
  simp only [Bool.or_eq_true, Token.equal_iff]
  cases hk : t.kind with
  | ident w =>
    simp only [Kind.ident.injEq, exists_eq_left', typeNames, List.mem_cons, Prod.mk.injEq, List.not_mem_nil, or_false]
    repeat' split
    all_goals (rename_i h; first
      | (rcases h with rfl | rfl <;> cases p <;> simp)
      | (cases p <;> simp_all))
  | _ => simp

theorem checkOptionLine_iff {n : Nat} {d : Bool} {s s' : St} {a : Unit} :
    checkOptionLine n d s = .ok a s' ↔ s.tok.line = n ∧ s' = s := by
  unfold checkOptionLine
  simp only [bind_iff, getTok, Out.ok.injEq]
  constructor
  · rintro ⟨t, s1, ⟨rfl, rfl⟩, h⟩
    split at h
    · simp [exitTok] at h
    · rw [pure_iff] at h
      exact ⟨by omega, h.1⟩
  · rintro ⟨h, rfl⟩
    refine ⟨_, _, ⟨rfl, rfl⟩, ?_⟩
    rw [if_neg (by omega), pure_iff]
    exact ⟨rfl, rfl⟩

theorem modifyOpts_iff {f : Opts → Opts} {d : Bool} {s s' : St} {a : Unit} :
    modifyOpts f d s = .ok a s' ↔ s' = { s with ctx := { s.ctx with opts := f s.ctx.opts } } := by
  simp only [modifyOpts, Out.ok.injEq, true_and]
  exact ⟨fun h => h.symm, fun h => h.symm⟩

theorem nextImmediate_iff {msg : Msg} {d : Bool} {s s' : St} {v : BitVec 32} :
    nextImmediate msg d s = .ok v s' ↔ ∃ t c x, tokenize s.ctx.cur = .ok t c ∧ t.kind = .imm x ∧ v = BitVec.ofInt 32 x ∧
      s' = { s with ctx := { s.ctx with cur := c }, tok := t } := by
  unfold nextImmediate
  simp only [bind_iff, getTok, Out.ok.injEq]
  constructor
  · rintro ⟨_, s1, h1, t, s2, ⟨rfl, rfl⟩, h⟩
    obtain ⟨t, c, e1, rfl⟩ := advance_ok h1
    dsimp only at h
    cases hk : t.kind <;> simp only [hk, pure_iff] at h
    case imm x => exact ⟨t, c, x, e1, hk, h.2, h.1⟩
    all_goals simp [exitTok] at h
  · rintro ⟨t, c, x, h1, h2, rfl, rfl⟩
    refine ⟨(), { s with ctx := { s.ctx with cur := c }, tok := t }, ?_, _, _, ⟨rfl, rfl⟩, ?_⟩
    · unfold advance; rw [h1]
    · dsimp only
      rw [h2]
      exact pure_iff.2 ⟨rfl, rfl⟩

theorem parseType_iff {n : Nat} {d : Bool} {s s' : St} {a : Unit} : parseType n d s = .ok a s' ↔
    s.ctx.opts.type = none ∧ ∃ t c w p, tokenize s.ctx.cur = .ok t c ∧ t.kind = .ident w ∧ (w, p) ∈ typeNames ∧ t.line = n ∧
      s' = ⟨{ s.ctx with cur := c, opts := { s.ctx.opts with type := some p } }, t, s.op⟩ := by
  unfold parseType
  simp only [bind_iff, getCtx, Out.ok.injEq]
  constructor
  · rintro ⟨_, s1, ⟨rfl, rfl⟩, h⟩
    split at h
    · simp [exitTok] at h
    · rename_i hn
      simp only [bind_iff, getTok, Out.ok.injEq, checkOptionLine_iff] at h
      obtain ⟨_, s2, h2, _, s3, ⟨hl, rfl⟩, t, s4, ⟨rfl, rfl⟩, h⟩ := h
      obtain ⟨t, c, e1, rfl⟩ := advance_ok h2
      dsimp only at h hl
      cases hp : progTypeOfName t with
      | none =>
        rw [hp] at h
        dsimp only at h
        split at h <;> simp [exitTok, ubM] at h
      | some p =>
        rw [hp] at h
        dsimp only at h
        rw [modifyOpts_iff] at h
        obtain ⟨w, hw, hm⟩ := typeNames_iff.1 hp
        exact ⟨by simpa using hn, t, c, w, p, e1, hw, hm, hl, h⟩
  · rintro ⟨hn, t, c, w, p, h1, h2, h3, h4, rfl⟩
    refine ⟨_, _, ⟨rfl, rfl⟩, ?_⟩
    rw [if_neg (by simp [hn])]
    simp only [bind_iff, getTok, Out.ok.injEq, checkOptionLine_iff]
    refine ⟨(), { s with ctx := { s.ctx with cur := c }, tok := t }, ?_, (), _, ⟨h4, rfl⟩, _, _, ⟨rfl, rfl⟩, ?_⟩
    · unfold advance; rw [h1]
    · dsimp only
      rw [typeNames_iff.2 ⟨w, h2, h3⟩]
      exact modifyOpts_iff.2 rfl

/-- The option-specific part of an option accepts only texts of the grammar. -/
theorem optionBody_reads {s s' : St} {d : Bool} (ho : s.tok.isOption = true) (h : optionBody s.tok d s = .ok () s') :
    ∃ ts, ReadsT s.ctx.cur ts s'.ctx.cur ∧ OptionText s.ctx.opts ((s.tok :: ts).map Token.pair) s'.ctx.opts ∧
      s' = ⟨{ s.ctx with cur := s'.ctx.cur, opts := s'.ctx.opts }, s'.tok, s.op⟩ := by
  obtain ⟨⟨cur, labels, pc, opts⟩, tok, op⟩ := s
  obtain ⟨kind, line, col⟩ := tok
  dsimp only at ho h ⊢
  obtain ⟨name, rfl⟩ : ∃ name, kind = .ident name := by
    cases kind <;> simp [Token.isOption] at ho
    exact ⟨_, rfl⟩
  have hdot : name.head? = some '.' := by simpa [Token.isOption] using ho
  unfold optionBody at h
  simp only [Token.equal_iff, Kind.ident.injEq] at h
  by_cases h1 : name = c!".dksh"
  · subst h1
    rw [if_pos rfl] at h
    simp only [bind_iff, modifyOpts_iff, parseType_iff] at h
    obtain ⟨_, s1, rfl, hn, t, c, w, p, e1, e2, e3, e4, rfl⟩ := h
    refine ⟨[t], .cons e1 (by rw [e2]; simp) .nil, ?_, rfl⟩
    simp only [List.map_cons, List.map_nil, Token.pair, e2, e4]
    exact .dksh hn e3
  rw [if_neg h1] at h
  by_cases h2 : name = c!".type"
  · subst h2
    rw [if_pos rfl, parseType_iff] at h
    obtain ⟨hn, t, c, w, p, e1, e2, e3, e4, rfl⟩ := h
    refine ⟨[t], .cons e1 (by rw [e2]; simp) .nil, ?_, rfl⟩
    simp only [List.map_cons, List.map_nil, Token.pair, e2, e4]
    exact .type hn e3
  rw [if_neg h2] at h
  by_cases h3 : name = c!".num_gprs"
  · subst h3
    rw [if_pos rfl] at h
    simp only [bind_iff, getTok, Out.ok.injEq] at h
    obtain ⟨_, s1, -, t, s2, ⟨rfl, rfl⟩, h⟩ := h
    cases hk : s1.tok.kind <;> simp [hk, exitTok, ubM] at h
  rw [if_neg h3] at h
  by_cases h4 : name = c!".workgroup_size"
  · subst h4
    rw [if_pos rfl] at h
    simp only [bind_iff, modifyOpts_iff, nextImmediate_iff, checkOptionLine_iff] at h
    obtain ⟨_, s1, ⟨t1, c1, x, e1, k1, rfl, rfl⟩, _, s2, rfl, _, s3, ⟨t2, c2, y, e2, k2, rfl, rfl⟩, _, s4, rfl, _, s5,
      ⟨t3, c3, z, e3, k3, rfl, rfl⟩, _, s6, rfl, hl, rfl⟩ := h
    refine ⟨[t1, t2, t3], .cons e1 (by rw [k1]; simp) (.cons e2 (by rw [k2]; simp) (.cons e3 (by rw [k3]; simp) .nil)), ?_, rfl⟩
    dsimp only at hl
    simp only [List.map_cons, List.map_nil, Token.pair, k1, k2, k3, hl]
    exact .workgroup
  rw [if_neg h4] at h
  by_cases h5 : name = c!".shared_memory"
  · subst h5
    rw [if_pos rfl] at h
    simp only [bind_iff, modifyOpts_iff, nextImmediate_iff] at h
    obtain ⟨_, s1, ⟨t1, c1, x, e1, k1, rfl, rfl⟩, rfl⟩ := h
    refine ⟨[t1], .cons e1 (by rw [k1]; simp) .nil, ?_, rfl⟩
    simp only [List.map_cons, List.map_nil, Token.pair, k1]
    exact .shared
  rw [if_neg h5] at h
  by_cases h6 : name = c!".local_memory"
  · subst h6
    rw [if_pos rfl] at h
    simp only [bind_iff, modifyOpts_iff, nextImmediate_iff] at h
    obtain ⟨_, s1, ⟨t1, c1, x, e1, k1, rfl, rfl⟩, rfl⟩ := h
    refine ⟨[t1], .cons e1 (by rw [k1]; simp) .nil, ?_, rfl⟩
    simp only [List.map_cons, List.map_nil, Token.pair, k1]
    exact .local
  rw [if_neg h6, pure_iff] at h
  obtain ⟨rfl, -⟩ := h
  exact ⟨[], .nil, .other hdot (by simp [optionNames, h1, h2, h3, h4, h5, h6]), rfl⟩

theorem length_three {l : List Token} (h : l.length = 3) : ∃ a b c, l = [a, b, c] := by
  match l, h with
  | [a, b, c], _ => exact ⟨a, b, c, rfl⟩

theorem pair_inv {t : Token} {k : Kind} {l : Nat} (h : t.pair = (k, l)) : t.kind = k ∧ t.line = l := by
  simp only [Token.pair, Prod.mk.injEq] at h; exact h

/-- The option-specific part of an option accepts the texts of the grammar. -/
theorem optionBody_accepts {s : St} {d : Bool} {ts : List Token} {c : Cur} {o : Opts} (hr : ReadsT s.ctx.cur ts c)
    (h : OptionText s.ctx.opts ((s.tok :: ts).map Token.pair) o) :
    ∃ t, optionBody s.tok d s = .ok () ⟨{ s.ctx with cur := c, opts := o }, t, s.op⟩ := by
  obtain ⟨ps, hps⟩ : ∃ ps, (s.tok :: ts).map Token.pair = ps := ⟨_, rfl⟩
  rw [hps] at h
  unfold optionBody
  simp only [Token.equal_iff]
  cases h with
  | @dksh l w p ht hp =>
    obtain ⟨t1, rfl⟩ : ∃ t1, ts = [t1] := by
      have := congrArg List.length hps; simp at this; exact List.length_eq_one_iff.1 this
    simp only [List.map_cons, List.map_nil, List.cons.injEq, and_true] at hps
    obtain ⟨e0, e1⟩ := hps
    obtain ⟨k0, l0⟩ := pair_inv e0
    obtain ⟨k1, l1⟩ := pair_inv e1
    cases hr with
    | cons hr1 _ hr => cases hr with
      | nil =>
        refine ⟨t1, ?_⟩
        rw [if_pos k0]
        simp only [bind_iff, modifyOpts_iff, parseType_iff]
        exact ⟨(), _, rfl, ht, t1, _, w, p, hr1, k1, hp, by rw [l0, l1], rfl⟩
  | @type l w p ht hp =>
    obtain ⟨t1, rfl⟩ : ∃ t1, ts = [t1] := by
      have := congrArg List.length hps; simp at this; exact List.length_eq_one_iff.1 this
    simp only [List.map_cons, List.map_nil, List.cons.injEq, and_true] at hps
    obtain ⟨e0, e1⟩ := hps
    obtain ⟨k0, l0⟩ := pair_inv e0
    obtain ⟨k1, l1⟩ := pair_inv e1
    cases hr with
    | cons hr1 _ hr => cases hr with
      | nil =>
        refine ⟨t1, ?_⟩
        rw [k0, if_neg (by simp), if_pos rfl, parseType_iff]
        exact ⟨ht, t1, _, w, p, hr1, k1, hp, by rw [l0, l1], rfl⟩
  | @workgroup l l1 l2 x y z =>
    obtain ⟨t1, t2, t3, rfl⟩ : ∃ t1 t2 t3, ts = [t1, t2, t3] := by
            have := congrArg List.length hps; simp at this; exact length_three this
    simp only [List.map_cons, List.map_nil, List.cons.injEq, and_true] at hps
    obtain ⟨e0, e1, e2, e3⟩ := hps
    obtain ⟨k0, l0⟩ := pair_inv e0
    obtain ⟨k1, -⟩ := pair_inv e1
    obtain ⟨k2, -⟩ := pair_inv e2
    obtain ⟨k3, l3⟩ := pair_inv e3
    cases hr with
    | cons hr1 _ hr => cases hr with
      | cons hr2 _ hr => cases hr with
        | cons hr3 _ hr => cases hr with
          | nil =>
            refine ⟨t3, ?_⟩
            rw [k0, if_neg (by simp), if_neg (by simp), if_neg (by simp), if_pos rfl]
            simp only [bind_iff, modifyOpts_iff, nextImmediate_iff, checkOptionLine_iff]
            exact ⟨_, _, ⟨t1, _, x, hr1, k1, rfl, rfl⟩, (), _, rfl, _, _, ⟨t2, _, y, hr2, k2, rfl, rfl⟩, (), _, rfl, _, _,
              ⟨t3, _, z, hr3, k3, rfl, rfl⟩, (), _, rfl, by rw [l0, l3], rfl⟩
  | @shared l l1 v =>
    obtain ⟨t1, rfl⟩ : ∃ t1, ts = [t1] := by
      have := congrArg List.length hps; simp at this; exact List.length_eq_one_iff.1 this
    simp only [List.map_cons, List.map_nil, List.cons.injEq, and_true] at hps
    obtain ⟨e0, e1⟩ := hps
    obtain ⟨k0, -⟩ := pair_inv e0
    obtain ⟨k1, -⟩ := pair_inv e1
    cases hr with
    | cons hr1 _ hr => cases hr with
      | nil =>
        refine ⟨t1, ?_⟩
        rw [k0, if_neg (by simp), if_neg (by simp), if_neg (by simp), if_neg (by simp), if_pos rfl]
        simp only [bind_iff, modifyOpts_iff, nextImmediate_iff]
        exact ⟨_, _, ⟨t1, _, v, hr1, k1, rfl, rfl⟩, rfl⟩
  | @«local» l l1 v =>
    obtain ⟨t1, rfl⟩ : ∃ t1, ts = [t1] := by
      have := congrArg List.length hps; simp at this; exact List.length_eq_one_iff.1 this
    simp only [List.map_cons, List.map_nil, List.cons.injEq, and_true] at hps
    obtain ⟨e0, e1⟩ := hps
    obtain ⟨k0, -⟩ := pair_inv e0
    obtain ⟨k1, -⟩ := pair_inv e1
    cases hr with
    | cons hr1 _ hr => cases hr with
      | nil =>
        refine ⟨t1, ?_⟩
        rw [k0, if_neg (by simp), if_neg (by simp), if_neg (by simp), if_neg (by simp), if_neg (by simp), if_pos rfl]
        simp only [bind_iff, modifyOpts_iff, nextImmediate_iff]
        exact ⟨_, _, ⟨t1, _, v, hr1, k1, rfl, rfl⟩, rfl⟩
  | @other l name hd hn =>
    obtain rfl : ts = [] := by
      have := congrArg List.length hps; simpa using this
    simp only [List.map_cons, List.map_nil, List.cons.injEq, and_true] at hps
    obtain ⟨k0, -⟩ := pair_inv hps
    cases hr with
    | nil =>
      refine ⟨s.tok, ?_⟩
      simp only [optionNames, List.mem_cons, not_or, List.not_mem_nil, not_false_eq_true, and_true] at hn
      rw [k0]
      simp only [Kind.ident.injEq]
      rw [if_neg hn.1, if_neg hn.2.1, if_neg hn.2.2.1, if_neg hn.2.2.2.1, if_neg hn.2.2.2.2.1, if_neg hn.2.2.2.2.2]
      exact pure_iff.2 ⟨rfl, rfl⟩

/-- The first token of an option. -/
theorem _root_.Nxas.Spec.OptionText.isOption {o o' : Opts} {t : Token} {ts : List Token}
    (h : OptionText o ((t :: ts).map Token.pair) o') : t.isOption = true := by
  rw [List.map_cons] at h
  obtain ⟨p, hp⟩ : ∃ p, t.pair = p := ⟨_, rfl⟩
  obtain ⟨ps, hps⟩ : ∃ ps, ts.map Token.pair = ps := ⟨_, rfl⟩
  rw [hp, hps] at h
  have key : ∀ {name : Str} {l : Nat}, t.pair = (.ident name, l) → name.head? = some '.' → t.isOption = true := by
    intro name l h hd
    simp [Token.isOption, (pair_inv h).1, hd]
  cases h with
  | other hd _ => exact key hp hd
  | _ => exact key hp rfl

/-- An option accepts the texts of the grammar, if another line follows. -/
theorem parseOption_iff {s s' : St} {d : Bool} (ho : s.tok.isOption = true) : parseOption d s = .ok () s' ↔
    ∃ ts c o t' c', ReadsT s.ctx.cur ts c ∧ OptionText s.ctx.opts ((s.tok :: ts).map Token.pair) o ∧
      tokenize c = .ok t' c' ∧ t'.line ≠ s.tok.line ∧ s' = ⟨{ s.ctx with cur := c', opts := o }, t', s.op⟩ := by
  unfold parseOption
  simp only [bind_iff, getTok, Out.ok.injEq]
  constructor
  · rintro ⟨_, s1, ⟨rfl, rfl⟩, _, s2, h1, _, s3, h2, _, s4, ⟨rfl, rfl⟩, h3⟩
    obtain ⟨ts, e1, e2, e3⟩ := optionBody_reads ho h1
    obtain ⟨t', c', e4, rfl⟩ := advance_ok h2
    split at h3
    · simp [exitTok] at h3
    · rename_i hl
      rw [pure_iff] at h3
      refine ⟨ts, _, _, t', c', e1, e2, e4, fun h => hl h.symm, ?_⟩
      rw [h3.1, e3]
  · rintro ⟨ts, c, o, t', c', h1, h2, h3, h4, rfl⟩
    obtain ⟨t, ht⟩ := optionBody_accepts (d := d) h1 h2
    refine ⟨_, _, ⟨rfl, rfl⟩, (), _, ht, (), ⟨{ s.ctx with cur := c', opts := o }, t', s.op⟩, ?_, _, _, ⟨rfl, rfl⟩, ?_⟩
    · unfold advance; rw [h3]
    · rw [if_neg (fun h => h4 h.symm)]
      exact pure_iff.2 ⟨rfl, rfl⟩

/-! ### Instructions -/

theorem parseOptions_succ (n : Nat) (d : Bool) (s : St) : parseOptions (n + 1) d s =
    if s.tok.isOption then (parseOption d s).bind (fun _ s' => parseOptions n d s') else .ok () s := by
  rw [parseOptions.eq_2, bind_apply]
  show Out.bind (.ok s.tok s) _ = _
  rw [Out.bind]
  split <;> rfl

/-- More fuel does not matter. -/
theorem parseOptions_mono {m n : Nat} {d : Bool} {s : St} (hmn : m ≤ n) (h : parseOptions m d s ≠ .ub .fuel) :
    parseOptions n d s = parseOptions m d s := by
  induction m generalizing n s with
  | zero => exact absurd rfl h
  | succ m ih =>
    obtain ⟨n, rfl⟩ : ∃ k, n = k + 1 := ⟨n - 1, by omega⟩
    rw [parseOptions_succ] at h ⊢
    rw [parseOptions_succ]
    by_cases hs : s.tok.isOption = true
    · rw [if_pos hs] at h ⊢
      rw [if_pos hs]
      cases hp : parseOption d s with
      | ok a s' =>
        rw [hp] at h
        exact ih (by omega) h
      | _ => rfl
    · rw [if_neg hs, if_neg hs]

theorem Ctx.fresh_advance {c : Ctx} {t : Token} {c1 : Cur} {d : Bool} (h : tokenize c.cur = .ok t c1) :
    advance d c.fresh = .ok () ⟨{ c with cur := c1 }, t, {}⟩ := by
  unfold advance Ctx.fresh
  simp only [h]

/-- An instruction after an option. -/
theorem option_step {table : List Insn} {d : Bool} {x : Ctx} {t : Token} {c1 : Cur} {s : St} (ht : tokenize x.cur = .ok t c1)
    (ho : t.isOption = true) : parseInstruction table d x.fresh = .ok true s ↔
      ∃ ts c o t' c', ReadsT c1 ts c ∧ OptionText x.opts ((t :: ts).map Token.pair) o ∧ tokenize c = .ok t' c' ∧
        t'.line ≠ t.line ∧ t'.kind ≠ .none ∧ parseInstruction table d (Ctx.fresh { x with cur := c, opts := o }) = .ok true s := by
  have hk : t.kind ≠ .none := by
    intro hk; simp [Token.isOption, hk] at ho
  have key : ∀ {ts : List Token} {c : Cur} {o : Opts} {t' : Token} {c' : Cur}, ReadsT c1 ts c → tokenize c = .ok t' c' →
      parseOption d ⟨{ x with cur := c1 }, t, {}⟩ = .ok () ⟨{ x with cur := c', opts := o }, t', {}⟩ → t'.kind ≠ .none →
      parseInstruction table d x.fresh = parseInstruction table d (Ctx.fresh { x with cur := c, opts := o }) := by
    intro ts c o t' c' hr ht' hp hk'
    rw [parseInstruction_eq, parseInstruction_eq, Ctx.fresh_advance ht, Ctx.fresh_advance (c := { x with cur := c, opts := o }) ht']
    dsimp only [Out.bind]
    rw [if_neg hk, if_neg hk']
    unfold insnBody
    dsimp only
    have hlen : c'.text.length < c1.text.length := by
      have h1 := (tokenize_ok ht').shorter hk'
      obtain ⟨p, hp, -⟩ := hr.reach
      rw [hp]; simp; omega
    rw [parseOptions_succ, if_pos ho, hp]
    dsimp only [Out.bind]
    rw [parseOptions_mono (m := c'.text.length + 2) (by omega)
      (parseOptions_noFuel (c0 := c) ⟨c, Reach.refl _, ht'⟩ (by simp))]
  constructor
  · intro h
    have h0 := h
    rw [parseInstruction_eq, Ctx.fresh_advance ht] at h
    dsimp only [Out.bind] at h
    rw [if_neg hk] at h
    unfold insnBody at h
    rw [parseOptions_succ, if_pos ho] at h
    obtain ⟨_, s2, h2, h⟩ := Out.bind_ok h
    obtain ⟨_, s1, h1, h2⟩ := Out.bind_ok h2
    have h1' := h1
    rw [parseOption_iff ho] at h1
    obtain ⟨ts, c, o, t', c', e1, e2, e3, e4, rfl⟩ := h1
    have hk' : t'.kind ≠ .none := by
      intro hn
      have : s2 = ⟨{ x with cur := c', opts := o }, t', {}⟩ := by
        refine parseOptions_none ?_ h2
        simp [Token.isOption, hn]
      subst this
      obtain ⟨_, s3, h3, -⟩ := Out.bind_ok h
      rw [parsePrologue_eq] at h3
      unfold prologueBody at h3
      rw [bind_iff] at h3
      obtain ⟨_, s4, h4, h3⟩ := h3
      simp only [getTok, Out.ok.injEq] at h4
      obtain ⟨rfl, rfl⟩ := h4
      dsimp only at h3
      rw [if_neg (by rw [hn]; simp), bind_iff] at h3
      obtain ⟨_, s5, h5, h3⟩ := h3
      obtain ⟨-, rfl⟩ := addBits_ok h5
      rw [bind_iff] at h3
      obtain ⟨_, s6, h6, h3⟩ := h3
      simp only [getTok, Out.ok.injEq] at h6
      obtain ⟨rfl, rfl⟩ := h6
      rw [hn] at h3
      simp [exitTok] at h3
    refine ⟨ts, c, o, t', c', e1, e2, e3, e4, hk', ?_⟩
    rw [← key e1 e3 h1' hk']
    exact h0
  · rintro ⟨ts, c, o, t', c', e1, e2, e3, e4, hk', h⟩
    rw [key e1 e3 ((parseOption_iff ho).2 ⟨ts, c, o, t', c', e1, e2, e3, e4, rfl⟩) hk']
    exact h

theorem no_option_row : ∀ row ∈ insnTable, row.mnemonic.head? ≠ some '.' := by decide +kernel

/-- The first token of an instruction is not that of an option. -/
theorem _root_.Nxas.Spec.InstrText.not_option {e : Env} {t : Token} {ts : List Token} {op : Op}
    (h : InstrText e ((t :: ts).map Token.kind) op) : t.isOption = false := by
  obtain ⟨ks, hks⟩ : ∃ ks, (t :: ts).map Token.kind = ks := ⟨_, rfl⟩
  rw [hks] at h
  cases h with | @mk g row ks op pre post hs _ _
  rcases g with - | ⟨p, n⟩
  · simp only [guardTokens, List.nil_append, List.map_cons, List.cons.injEq] at hks
    have := no_option_row row (by rw [hs]; simp)
    simp [Token.isOption, hks.1, this]
  · simp only [guardTokens, List.cons_append, List.map_cons, List.cons.injEq] at hks
    simp [Token.isOption, hks.1]

theorem prologueBody_none {d : Bool} {s : St} {mn : Str} (hk : s.tok.kind = .ident mn) (hv : s.op.value = 0) :
    prologueBody d s = .ok () { s with op := { s.op with value := 7#64 <<< 16 } } := by
  unfold prologueBody
  rw [bind_iff]
  refine ⟨s.tok, s, rfl, ?_⟩
  rw [if_neg (by rw [hk]; simp), bind_iff]
  refine ⟨(), { s with op := { s.op with value := 7#64 <<< 16 } }, ?_, ?_⟩
  · simp [addBits, hv]
  · rw [bind_iff]
    refine ⟨s.tok, _, rfl, ?_⟩
    rw [hk]
    exact pure_iff.2 ⟨rfl, rfl⟩

theorem prologueBody_some {d : Bool} {s : St} {mn : Str} {t1 t2 : Token} {c1 c2 : Cur} {p : Nat} {n : Bool} (hk : s.tok.kind = .at)
    (h1 : tokenize s.ctx.cur = .ok t1 c1) (hk1 : t1.kind = .pred p n) (h2 : tokenize c1 = .ok t2 c2) (hk2 : t2.kind = .ident mn)
    (hv : s.op.value = 0) :
    prologueBody d s = .ok () ⟨{ s.ctx with cur := c2 }, t2, { s.op with value := guardWord (some (p, n)) }⟩ := by
  unfold prologueBody
  rw [bind_iff]
  refine ⟨s.tok, s, rfl, ?_⟩
  rw [if_pos hk, bind_iff]
  refine ⟨(), ⟨{ s.ctx with cur := c1 }, t1, s.op⟩, by unfold advance; rw [h1], ?_⟩
  rw [bind_iff]
  refine ⟨(), ⟨{ s.ctx with cur := c1 }, t1, { s.op with value := guardWord (some (p, n)) }⟩, ?_, ?_⟩
  · unfold raising guardPredicate
    have : (do
        let p ← confirmPred
        addBits ((BitVec.ofNat 64 p.1 ||| ((if p.2 then 1#64 else 0#64) <<< 3)) <<< 16) : M Unit) d
        ⟨{ s.ctx with cur := c1 }, t1, s.op⟩ = .ok () ⟨{ s.ctx with cur := c1 }, t1, { s.op with value := guardWord (some (p, n)) }⟩ := by
      rw [bind_iff]
      refine ⟨(p, n), ⟨{ s.ctx with cur := c1 }, t1, s.op⟩, ?_, ?_⟩
      · simp [confirmPred, hk1]
      · simp [addBits, hv, guardWord]
    rw [this]
  · rw [bind_iff]
    refine ⟨(), ⟨{ s.ctx with cur := c2 }, t2, { s.op with value := guardWord (some (p, n)) }⟩, by unfold advance; rw [h2], ?_⟩
    rw [bind_iff]
    refine ⟨t2, _, rfl, ?_⟩
    rw [hk2]
    exact pure_iff.2 ⟨rfl, rfl⟩

/-- An instruction without an option in front of it. -/
theorem insn_reads {x : Ctx} {t : Token} {c1 : Cur} {s : St} (ht : tokenize x.cur = .ok t c1) (ho : t.isOption = false)
    (h : parseInstruction insnTable false x.fresh = .ok true s) :
    ∃ ts, ReadsT c1 ts s.ctx.cur ∧ InstrText ⟨x.labels.find, alignPc x.pc⟩ ((t :: ts).map Token.kind) s.op ∧
      s.ctx = { x with cur := s.ctx.cur, pc := alignPc x.pc + 8 } := by
  rw [parseInstruction_eq, Ctx.fresh_advance ht] at h
  dsimp only [Out.bind] at h
  by_cases hk : t.kind = .none
  · rw [if_pos hk] at h; simp at h
  rw [if_neg hk] at h
  unfold insnBody at h
  rw [parseOptions_succ, if_neg (by simp [ho])] at h
  dsimp only [Out.bind] at h
  obtain ⟨_, s1, h1, h⟩ := Out.bind_ok h
  obtain ⟨_, s2, h2, h⟩ := Out.bind_ok h
  simp only [Out.ok.injEq, true_and] at h
  subst h
  rw [parsePrologue_eq] at h1
  obtain ⟨g, mn, e1, e2, e3, e4, e5⟩ := prologueBody_inv h1
  dsimp only at e1 e4 e5
  have e4' : s1.op = ⟨guardWord g, 0, 0⟩ := by rw [e4]; simp
  rw [tryRows_iff e2 e3 e4'] at h2
  obtain ⟨pre, row, post, t0, c0, ks, op, t', c', r1, r2, r3, r4, r5, r6, r7, rfl⟩ := h2
  obtain ⟨t1, k1, p1⟩ := e1.path
  have hp : Path t c1 (guardTokens g ++ .ident row.mnemonic :: ks) t' c' :=
    Path.append_iff.2 ⟨t1, _, p1, by rw [k1, e2, r2], t0, c0, r3, r4⟩
  obtain ⟨ts, q1, q2⟩ := hp.reads (Path.ne_none ht hp (by rw [r5]; simp)) (by rw [r5]; simp)
  have henv : s1.ctx.env = ⟨x.labels.find, alignPc x.pc⟩ := by rw [e5]; rfl
  rw [henv] at r6 r7
  refine ⟨ts, q1, ?_, ?_⟩
  · rw [q2, r5, List.append_assoc, List.cons_append]
    exact .mk r1 r6 r7
  · simp only [St.at]
    rw [e5]

theorem insn_accepts {x : Ctx} {t : Token} {c1 c : Cur} {ts : List Token} {op : Op} (ht : tokenize x.cur = .ok t c1)
    (hr : ReadsT c1 ts c) (h : InstrText ⟨x.labels.find, alignPc x.pc⟩ ((t :: ts).map Token.kind) op) :
    ∃ t', parseInstruction insnTable false x.fresh = .ok true ⟨{ x with cur := c, pc := alignPc x.pc + 8 }, t', op⟩ := by
  have ho := h.not_option
  obtain ⟨kk, hkk⟩ : ∃ kk, (t :: ts).map Token.kind = kk := ⟨_, rfl⟩
  rw [hkk] at h
  cases h with | @mk g row ks op pre post hs h hp
  have hkk' : (t :: ts).map Token.kind = (guardTokens g ++ .ident row.mnemonic :: ks) ++ [.semicolon] := by
    rw [hkk, List.append_assoc, List.cons_append]
  obtain ⟨t', hpath, hsemi⟩ := hr.path hkk'
  obtain ⟨t2, c2, p1, hk2, t0, c0, h0, p2⟩ := Path.append_iff.1 hpath
  have hmain : ∃ s2, parsePrologue false ⟨{ x with cur := c1 }, t, {}⟩ = .ok () s2 ∧
      s2 = ⟨{ x with cur := c2, pc := alignPc x.pc }, t2, ⟨guardWord g, 0, 0⟩⟩ ∧ ∀ p n, g = some (p, n) → p ≤ 7 := by
    rw [parsePrologue_eq]
    rcases g with - | ⟨p, n⟩
    · obtain ⟨rfl, rfl⟩ := p1
      rw [prologueBody_none (mn := row.mnemonic) hk2 rfl]
      exact ⟨_, rfl, rfl, by simp⟩
    · obtain ⟨k1, t3, c3, e3, k3, t4, c4, e4, rfl, rfl⟩ := p1
      rw [prologueBody_some (mn := row.mnemonic) k1 e3 k3 e4 hk2 rfl]
      refine ⟨_, rfl, rfl, ?_⟩
      have hw := (tokenize_ok e3).wf
      rw [k3] at hw
      intro p' n' hg
      simp only [Option.some.injEq, Prod.mk.injEq] at hg
      rw [← hg.1]; exact hw
  obtain ⟨s2, m1, rfl, m3⟩ := hmain
  have hk : t.kind ≠ .none := by
    intro hk
    have := congrArg List.head? hkk'
    rcases g with - | ⟨p, n⟩ <;> simp [guardTokens, hk] at this
  have hrow := (tryRows_iff (s := ⟨{ x with cur := c2, pc := alignPc x.pc }, t2, ⟨guardWord g, 0, 0⟩⟩) hk2 m3 rfl
    ⟨{ x with cur := c, pc := alignPc x.pc + 8 }, t', op⟩).2 ⟨pre, row, post, t0, c0, ks, op, t', c, hs, rfl, h0, p2, hsemi, h, hp, rfl⟩
  refine ⟨t', ?_⟩
  rw [parseInstruction_eq, Ctx.fresh_advance ht]
  dsimp only [Out.bind]
  rw [if_neg hk]
  unfold insnBody
  rw [parseOptions_succ, if_neg (by simp [ho])]
  dsimp only [Out.bind]
  rw [m1]
  dsimp only
  rw [hrow]

theorem insn_end {table : List Insn} {d : Bool} {x : Ctx} {s : St} : parseInstruction table d x.fresh = .ok false s ↔
    ∃ t c, tokenize x.cur = .ok t c ∧ t.kind = .none ∧ s = ⟨{ x with cur := c }, t, {}⟩ := by
  rw [parseInstruction_eq]
  constructor
  · intro h
    obtain ⟨_, s1, h1, h⟩ := Out.bind_ok h
    obtain ⟨t, c, e1, rfl⟩ := advance_ok h1
    by_cases hk : t.kind = .none
    · rw [if_pos hk] at h
      simp only [Out.ok.injEq, true_and] at h
      exact ⟨t, c, e1, hk, h.symm⟩
    · rw [if_neg hk] at h
      unfold insnBody at h
      obtain ⟨_, s2, -, h⟩ := Out.bind_ok h
      obtain ⟨_, s3, -, h⟩ := Out.bind_ok h
      obtain ⟨_, s4, -, h⟩ := Out.bind_ok h
      simp at h
  · rintro ⟨t, c, h1, hk, rfl⟩
    rw [Ctx.fresh_advance h1]
    dsimp only [Out.bind]
    rw [if_pos hk]

/-! ### Programs -/

theorem alignPc_next (i : Nat) : alignPc (addressOf i + 8) = addressOf (i + 1) := by
  rw [addressOf_succ]
  unfold alignPc
  split <;> rfl

theorem map_pair_kind (ts : List Token) : (ts.map Token.pair).map Prod.fst = ts.map Token.kind := by
  rw [List.map_map]; rfl

/-- One call of `parse_instruction` reads options and one instruction. -/
theorem step_program {x : Ctx} {s : St} {i : Nat} (hpc : alignPc x.pc = addressOf i)
    (h : parseInstruction insnTable false x.fresh = .ok true s) :
    ∃ ts, ReadsT x.cur ts s.ctx.cur ∧ s.ctx.labels = x.labels ∧ s.ctx.pc = addressOf i + 8 ∧ ts ≠ [] ∧
      ∀ {rest : List (Kind × Nat)} {ops : List Op} {o' : Opts}, Program x.labels.find (i + 1) s.ctx.opts rest ops o' →
        Program x.labels.find i x.opts (ts.map Token.pair ++ rest) (s.op :: ops) o' := by
  obtain ⟨n, hn⟩ : ∃ n, n = x.cur.text.length := ⟨_, rfl⟩
  induction n using Nat.strongRecOn generalizing x with
  | ind n ih =>
    cases ht : tokenize x.cur with
    | exit e => rw [parseInstruction_eq, show advance false x.fresh = .exit e by unfold advance Ctx.fresh; simp only [ht]] at h; simp [Out.bind] at h
    | ub u => rw [parseInstruction_eq, show advance false x.fresh = .ub u by unfold advance Ctx.fresh; simp only [ht]] at h; simp [Out.bind] at h
    | ok t c1 =>
      have hk : t.kind ≠ .none := by
        intro hk
        have := (insn_end (table := insnTable) (d := false)).2 ⟨t, c1, ht, hk, rfl⟩
        rw [h] at this
        simp at this
      by_cases ho : t.isOption = true
      · obtain ⟨ts, c, o, t', c', e1, e2, e3, e4, e5, e6⟩ := (option_step ht ho).1 h
        have hlen : c.text.length < n := by
          have h1 := (tokenize_ok ht).shorter hk
          obtain ⟨p, hp, -⟩ := e1.reach
          have := congrArg List.length hp
          simp at this
          omega
        obtain ⟨ts', r1, r2, r3, r4, r5⟩ := ih _ hlen (x := { x with cur := c, opts := o }) hpc e6 rfl
        refine ⟨t :: ts ++ ts', .cons ht hk (ReadsT.append_iff.2 ⟨_, e1, r1⟩), r2, r3, by simp, ?_⟩
        intro rest ops o' hprog
        have hp := r5 hprog
        obtain ⟨u, us, rfl⟩ := List.exists_cons_of_ne_nil r4
        have hu : u = t' := by
          cases r1 with
          | cons hu _ _ =>
            rw [e3] at hu
            simp only [TokRes.ok.injEq] at hu
            exact hu.1.symm
        subst hu
        simp only [List.map_cons, List.cons_append, List.map_append] at hp ⊢
        rw [List.append_assoc]
        exact Program.option (t := t.pair) (ts := ts.map Token.pair) (next := u.pair) e2 e4 hp
      · obtain ⟨ts, e1, e2, e3⟩ := insn_reads ht (by simpa using ho) h
        refine ⟨t :: ts, .cons ht hk e1, by rw [e3], by rw [e3, hpc], by simp, ?_⟩
        intro rest ops o' hprog
        refine .insn ?_ (by rw [e3] at hprog; exact hprog)
        rw [map_pair_kind, ← hpc]
        exact e2

/-- The successful runs of the parse loop are the programs of the grammar. -/
theorem Run.program {x c : Ctx} {ops : List Op} {i : Nat} (hpc : alignPc x.pc = addressOf i) (h : Run insnTable false x ops c) :
    c.labels = x.labels ∧ ∃ ts, Lexes x.cur ts ∧ Program x.labels.find i x.opts (ts.map Token.pair) ops c.opts := by
  induction h generalizing i with
  | done h =>
    obtain ⟨t, c, h1, h2, rfl⟩ := insn_end.1 h
    exact ⟨rfl, [], ⟨_, .nil, t, c, h1, h2⟩, .done⟩
  | @step x s ops c h hr ih =>
    obtain ⟨ts, r1, r2, r3, -, r5⟩ := step_program hpc h
    obtain ⟨q1, ts', q2, q3⟩ := ih (i := i + 1) (by rw [r3, alignPc_next])
    rw [r2] at q1 q3
    refine ⟨q1, ts ++ ts', Lexes.append_iff.2 ⟨_, r1, q2⟩, ?_⟩
    rw [List.map_append]
    exact r5 q3

theorem program_run {x : Ctx} {ts : List Token} {ops : List Op} {i : Nat} {o' : Opts} (hpc : alignPc x.pc = addressOf i)
    (hl : Lexes x.cur ts) (h : Program x.labels.find i x.opts (ts.map Token.pair) ops o') :
    ∃ c, Run insnTable false x ops c ∧ c.labels = x.labels ∧ c.opts = o' := by
  obtain ⟨ps, hps⟩ : ∃ ps, ts.map Token.pair = ps := ⟨_, rfl⟩
  obtain ⟨o, ho⟩ : ∃ o, x.opts = o := ⟨_, rfl⟩
  rw [hps, ho] at h
  obtain ⟨f, hf⟩ : ∃ f, x.labels.find = f := ⟨_, rfl⟩
  rw [hf] at h
  induction h generalizing x ts with
  | done =>
    obtain rfl : ts = [] := by simpa using hps
    obtain ⟨c', hr, t, c'', h1, h2⟩ := hl
    cases hr with
    | nil => exact ⟨_, .done (insn_end.2 ⟨t, c'', h1, h2, rfl⟩), rfl, ho⟩
  | @insn i o o' as bs op ops h hr ih =>
    obtain ⟨a, b, rfl, rfl, rfl⟩ := List.map_eq_append_iff.1 hps
    obtain ⟨c, h1, h2⟩ := Lexes.append_iff.1 hl
    rw [map_pair_kind] at h
    cases h1 with
    | nil =>
      exfalso
      obtain ⟨ks, hks⟩ : ∃ ks, List.map Token.kind [] = ks := ⟨_, rfl⟩
      rw [hks] at h
      cases h with | mk
      simp at hks
    | @cons _ c1 _ t ts ht hk hr1 =>
      rw [← hpc, ← hf] at h
      obtain ⟨t', e1⟩ := insn_accepts ht hr1 h
      obtain ⟨cc, e2, e3, e4⟩ := ih (x := { x with cur := c, pc := alignPc x.pc + 8 }) (by dsimp only; rw [hpc, alignPc_next]) h2 rfl ho hf
      exact ⟨cc, .step e1 e2, e3, e4⟩
  | @option i o o1 o' t next ps rest ops h hl' hr ih =>
    obtain ⟨a, b, rfl, ha, hb⟩ := List.map_eq_append_iff.1 hps
    obtain ⟨t, ts, rfl, rfl, rfl⟩ := List.map_eq_cons_iff.1 ha
    obtain ⟨u, us, rfl, rfl, rfl⟩ := List.map_eq_cons_iff.1 hb
    obtain ⟨c, h1, h2⟩ := Lexes.append_iff.1 hl
    cases h1 with
    | @cons _ c1 _ _ _ ht hk hr1 =>
      obtain ⟨cc, e2, e3, e4⟩ := ih (x := { x with cur := c, opts := o1 }) hpc h2 rfl rfl hf
      obtain ⟨c2, hu, hk', -⟩ := Lexes.cons_iff.1 h2
      rw [← ho, ← List.map_cons] at h
      cases e2 with
      | done e2 =>
        exfalso
        obtain ⟨t', c', k1, k2, -⟩ := insn_end.1 e2
        dsimp only at k1
        rw [hu] at k1
        simp only [TokRes.ok.injEq] at k1
        rw [k1.1] at hk'
        exact hk' k2
      | @step _ s ops _ e2 e5 =>
        have := (option_step (table := insnTable) (d := false) (s := s) ht h.isOption).2
          ⟨ts, c, o1, u, c2, hr1, h, hu, hl', hk', e2⟩
        exact ⟨cc, .step this e5, e3, e4⟩

end Nxas
