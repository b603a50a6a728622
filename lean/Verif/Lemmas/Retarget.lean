import Verif.Lemmas.Link
import Verif.Props.Written
/-
Branches with other targets that stand for the same addresses.
-/

namespace Nxas

open Spec

/-- The labels are names. -/
def Named (f : Str → Option Nat) : Prop := ∀ s a, f s = some a → IsName s

theorem IsName.no_dot {s : Str} (h : IsName s) : s.head? ≠ some '.' := by
  obtain ⟨⟨c, cs, rfl, hc⟩, -⟩ := h
  simp only [List.head?_cons, ne_eq, Option.some.injEq]
  rintro rfl
  revert hc
  unfold letter
  decide

/-- The token is no word with a dot. -/
def NoDot (k : Kind) : Prop := ∀ s, k = .ident s → s.head? ≠ some '.'

theorem Denotes.noDot {f : Str → Option Nat} (hf : Named f) {k : Kind} {x : Int} (h : Denotes f k x) : NoDot k := by
  cases h with
  | label h => rintro s h1; cases h1; exact IsName.no_dot (hf _ _ h)
  | number => rintro s h1; cases h1

theorem Denotes.unique {f : Str → Option Nat} {k : Kind} {x y : Int} (h : Denotes f k x) (h' : Denotes f k y) : x = y := by
  cases h with
  | label h => cases h' with | label h' => rw [h] at h'; cases h'; rfl
  | number => cases h'; rfl

theorem Denotes.not_at {f : Str → Option Nat} {k : Kind} {x : Int} (h : Denotes f k x) : k ≠ .at ∧ k ≠ .semicolon := by
  cases h <;> simp

/-- No line end and no semicolon. -/
def tidy (s : Str) : Bool := !s.contains '\n' && !s.contains ';'

theorem tidy_ident {s : Str} (h : tidy s = true) : Tidy (.ident s) := by
  simp only [tidy, Bool.and_eq_true, Bool.not_eq_true', List.contains_eq_mem, decide_eq_false_iff_not] at h
  exact h

theorem entry_tidy {t : List Str} (ht : t.all tidy = true) {k : Kind} {i : Nat} (h : Entry c!"." t k i) : Tidy k := by
  obtain ⟨name, rfl, h1, -⟩ := h
  have := tidy_ident (List.all_eq_true.1 ht name (List.mem_of_getElem? h1))
  exact ⟨by simpa using this.1, by simpa using this.2⟩

/-- Operands in front of a target, such that only a modifier is directly in front of it. -/
def leadIn : List Operand → Bool
  | [] => true
  | .flag s _ :: os => s.head? == some '.' && tidy s && leadIn os
  | .dotTable _ _ t :: os => t.all tidy && leadIn os
  | .ccTests _ t :: .comma :: os => t.all tidy && leadIn os
  | _ => false

theorem accepts_ahead {e e' : Env} {v : BitVec 64} {o : Operand} {ks : List Kind} {k k' : Kind} {b : BitVec 64} {r : BitVec 32}
    (ho : (∃ s a, o = .flag s a ∧ s.head? = some '.') ∨ ∃ d a t, o = .dotTable d a t) (hk : k = k' ∨ NoDot k') (h : Accepts e v o ks k b r) :
    Accepts e' v o ks k' b r := by
  rcases hk with rfl | hk
  · rcases ho with ⟨s, a, rfl, -⟩ | ⟨d, a, t, rfl⟩ <;> exact h
  rcases ho with ⟨s, a, rfl, hs⟩ | ⟨d, a, t, rfl⟩
  · obtain ⟨h1, h | ⟨h2, -, h3⟩⟩ := h
    · exact ⟨h1, .inl h⟩
    · exact ⟨h1, .inr ⟨h2, fun h => hk s h hs, h3⟩⟩
  · obtain ⟨h1, h | ⟨d', h2, h3, -, h4⟩⟩ := h
    · exact ⟨h1, .inl h⟩
    · exact ⟨h1, .inr ⟨d', h2, h3, fun name _ h => hk _ h rfl, h4⟩⟩

theorem accepts_target {e : Env} {v : BitVec 64} {ks : List Kind} {k : Kind} {b : BitVec 64} {r : BitVec 32} (h : Accepts e v .label ks k b r) :
    ∃ t x, ks = [t] ∧ Denotes e.label t x ∧ ∀ e' t' k', e'.pc = e.pc → Denotes e'.label t' x → Accepts e' v .label [t'] k' b r := by
  obtain ⟨h1, x, h2, h3, h4, h5⟩ := h
  have hall : ∀ (e' : Env) t' k', e'.pc = e.pc → Denotes e'.label t' x → Accepts e' v .label [t'] k' b r := by
    intro e' t' k' hp hd
    refine ⟨h1, x, ?_, by rwa [hp], by rwa [hp], by rwa [hp]⟩
    cases hd with
    | label h => exact .inl ⟨_, _, rfl, h, rfl⟩
    | number => exact .inr rfl
  rcases h2 with ⟨s, a, rfl, ha, rfl⟩ | rfl
  · exact ⟨_, _, rfl, .label ha, hall⟩
  · exact ⟨_, _, rfl, .number, hall⟩

theorem headD_swap {ks : List Kind} {t t' k : Kind} (ht : NoDot t') :
    (ks ++ [t]).headD k = (ks ++ [t']).headD k ∨ NoDot ((ks ++ [t']).headD k) := by
  cases ks with
  | nil => exact .inr ht
  | cons x xs => exact .inl rfl

/-- The target of a branch can be replaced. -/
theorem sequence_retarget {e : Env} (os : List Operand) (hos : leadIn os = true) {v v' : BitVec 64} {ks : List Kind} {k : Kind} {r : BitVec 32}
    (h : Sequence e (os ++ [.label]) v ks k v' r) :
    ∃ ks1 t x, ks = ks1 ++ [t] ∧ Denotes e.label t x ∧ (∀ y ∈ ks1, Tidy y ∧ y ≠ .at ∧ y ≠ .semicolon) ∧
      ∀ e' t', e'.pc = e.pc → Named e'.label → Denotes e'.label t' x → Sequence e' (os ++ [.label]) v (ks1 ++ [t']) k v' r := by
  induction os using leadIn.induct generalizing v ks r with
  | case1 =>
    cases h with
    | @cons _ _ _ b _ ks ks' _ r r' h hs =>
      cases hs with
      | nil =>
        obtain ⟨t, x, rfl, h1, h2⟩ := accepts_target h
        refine ⟨[], t, x, by simp, h1, by simp, fun e' t' hp hn hd => ?_⟩
        have := Sequence.cons (ks := [t']) (h2 e' t' (([] : List Kind).headD k) hp hd) (Sequence.nil (e := e') (v := (v &&& ~~~clears .label) ||| b) (k := k))
        simpa using this
  | case2 s a os ih =>
    simp only [leadIn, Bool.and_eq_true, beq_iff_eq] at hos
    cases h with
    | @cons _ _ _ b _ ks ks' _ r r' h hs =>
      obtain ⟨ks1, t, x, rfl, h1, h2, h3⟩ := ih hos.2 hs
      have hks : ∀ y ∈ ks, Tidy y ∧ y ≠ .at ∧ y ≠ .semicolon := by
        obtain ⟨-, ⟨rfl, -⟩ | ⟨rfl, -⟩⟩ := h <;> simp [tidy_ident hos.1.2]
      refine ⟨ks ++ ks1, t, x, by simp, h1, fun y hy => ?_, fun e' t' hp hn hd => ?_⟩
      · rcases List.mem_append.1 hy with hy | hy
        exacts [hks y hy, h2 y hy]
      rw [List.append_assoc]
      exact .cons (accepts_ahead (.inl ⟨s, a, rfl, hos.1.1⟩) (headD_swap (Denotes.noDot hn hd)) h) (h3 e' t' hp hn hd)
  | case3 d a t0 os ih =>
    simp only [leadIn, Bool.and_eq_true] at hos
    cases h with
    | @cons _ _ _ b _ ks ks' _ r r' h hs =>
      obtain ⟨ks1, t, x, rfl, h1, h2, h3⟩ := ih hos.2 hs
      have hks : ∀ y ∈ ks, Tidy y ∧ y ≠ .at ∧ y ≠ .semicolon := by
        obtain ⟨-, ⟨k, i, rfl, he, -⟩ | ⟨d, -, rfl, -⟩⟩ := h
        · have := entry_tidy hos.1 he
          obtain ⟨name, rfl, -⟩ := he
          simp
          exact this
        · simp
      refine ⟨ks ++ ks1, t, x, by simp, h1, fun y hy => ?_, fun e' t' hp hn hd => ?_⟩
      · rcases List.mem_append.1 hy with hy | hy
        exacts [hks y hy, h2 y hy]
      rw [List.append_assoc]
      exact .cons (accepts_ahead (.inr ⟨d, a, t0, rfl⟩) (headD_swap (Denotes.noDot hn hd)) h) (h3 e' t' hp hn hd)
  | case4 a t0 os ih =>
    simp only [leadIn, Bool.and_eq_true] at hos
    cases h with
    | @cons _ _ _ b _ ks ks' _ r r' h hs =>
      cases hs with
      | @cons _ _ _ b' _ kc ks' _ rc r' hc hs =>
        obtain ⟨ks1, t, x, rfl, h1, h2, h3⟩ := ih hos.2 hs
        obtain ⟨hr, rfl, hb⟩ := hc
        have hks : ∀ y ∈ ks ++ [.comma], Tidy y ∧ y ≠ .at ∧ y ≠ .semicolon := by
          obtain ⟨-, ⟨k, i, rfl, he, -⟩ | ⟨rfl, -⟩⟩ := h
          · have := entry_tidy hos.1 he
            obtain ⟨name, rfl, -⟩ := he
            have h6 : Tidy (.ident c!"CC") := tidy_ident (by decide)
            simp [h6, show Tidy .comma from trivial]
            exact this
          · simp [show Tidy .comma from trivial]
        refine ⟨ks ++ ([.comma] ++ ks1), t, x, by simp, h1, fun y hy => ?_, fun e' t' hp hn hd => ?_⟩
        · rw [← List.append_assoc] at hy
          rcases List.mem_append.1 hy with hy | hy
          exacts [hks y hy, h2 y hy]
        rw [List.append_assoc, List.append_assoc]
        exact .cons (accepts_env (o := .ccTests a t0) rfl h) (.cons (⟨hr, rfl, hb⟩ : Accepts e' _ .comma _ _ _ _) (h3 e' t' hp hn hd))
  | case5 os h1 h2 h3 h4 => simp [leadIn] at hos

/-! ### Instructions -/

/-- No word of the pattern is the mnemonic of a branch. -/
def Pat.harmless : Pat → Bool
  | .word => false
  | .tok (.ident s) => !branches.contains s && tidy s
  | _ => true

theorem target_rows : (insnTable.all fun row => tidy row.mnemonic && (row.operands.all (fun o => !o.target && (shapes o).all fun p => p.all Pat.harmless) && !branches.contains row.mnemonic ||
    (branches.contains row.mnemonic && row.operands.getLast? == some .label && leadIn row.operands.dropLast))) = true := by decide +kernel

/-- The token is not the mnemonic of a branch, and tidy. -/
def Harmless (k : Kind) : Prop := (∀ m ∈ branches, k ≠ .ident m) ∧ Tidy k

theorem fitsAll_harmless {p : List Pat} {ks : List Kind} (hp : p.all Pat.harmless = true) (h : fitsAll p ks) : ∀ y ∈ ks, Harmless y := by
  induction p generalizing ks with
  | nil => cases ks with
    | nil => simp
    | cons => exact h.elim
  | cons q p ih => cases ks with
    | nil => simp
    | cons k ks =>
      simp only [List.all_cons, Bool.and_eq_true] at hp
      intro y hin
      rcases List.mem_cons.1 hin with rfl | hin
      · have h1 := h.1
        have h2 := hp.1
        cases q with
        | tok a =>
          obtain ⟨rfl, -⟩ := h1
          cases a with
          | ident s =>
            simp only [Pat.harmless, Bool.and_eq_true, Bool.not_eq_true', List.contains_eq_mem, decide_eq_false_iff_not] at h2
            exact ⟨fun m hm he => h2.1 (by cases he; exact hm), tidy_ident h2.2⟩
          | _ => exact ⟨fun m _ he => (by cases he), trivial⟩
        | word => simp [Pat.harmless] at h2
        | pred => obtain ⟨_, _, rfl⟩ := h1; exact ⟨fun m _ he => (by cases he), trivial⟩
        | imm | out => obtain ⟨_, rfl, -⟩ := h1; exact ⟨fun m _ he => (by cases he), trivial⟩
        | _ => obtain ⟨_, rfl⟩ := h1; exact ⟨fun m _ he => (by cases he), trivial⟩
      · exact ih hp.2 h.2 y hin

theorem sequence_harmless {e : Env} {os : List Operand} {v v' : BitVec 64} {ks : List Kind} {k : Kind} {r : BitVec 32}
    (hos : ∀ o ∈ os, (shapes o).all (fun p => p.all Pat.harmless) = true) (h : Sequence e os v ks k v' r) : ∀ y ∈ ks, Harmless y := by
  induction h with
  | nil => simp
  | cons h hs ih =>
    intro y hin
    rcases List.mem_append.1 hin with hin | hin
    · obtain ⟨p, hp, hf⟩ := shapes_of h
      exact fitsAll_harmless (List.all_eq_true.1 (hos _ (by simp)) p hp) hf y hin
    · exact ih (fun o ho => hos o (by simp [ho])) y hin

theorem annots_harmless {as : List Annot} {ks : List Kind} (h : AnnotsText as ks) : ∀ y ∈ ks, Harmless y := by
  have hb : ∀ w ∈ [c!"WAIT", c!"WB", c!"RB", c!"Y", c!"YIELD", c!"DEP"], w ∉ branches ∧ tidy w = true := by decide
  have hw : ∀ w ∈ [c!"WAIT", c!"WB", c!"RB", c!"Y", c!"YIELD", c!"DEP"], Harmless (.ident w) := fun w hm =>
    ⟨fun m hm' he => (hb w hm).1 (by cases he; exact hm'), tidy_ident (hb w hm).2⟩
  have hi : ∀ n, Harmless (.imm n) := fun n => ⟨fun m _ he => (by cases he), trivial⟩
  have ha : Harmless .at := ⟨fun m _ he => (by cases he), trivial⟩
  induction h with
  | nil => simp
  | cons h hc hs ih =>
    intro y hin
    rcases List.mem_append.1 hin with hin | hin
    · cases h <;> simp only [List.mem_cons, List.not_mem_nil, or_false] at hin
      case y => rcases hin with rfl | rfl; exacts [ha, hw _ (by simp)]
      case yield => rcases hin with rfl | rfl; exacts [ha, hw _ (by simp)]
      all_goals rcases hin with rfl | rfl | rfl; exacts [ha, hw _ (by simp), hi _]
    · exact ih y hin

theorem guard_harmless (g : Option (Nat × Bool)) : ∀ y ∈ guardTokens g, (∀ m, y ≠ .ident m) ∧ Tidy y := by
  cases g with
  | none => simp [guardTokens]
  | some p => 
    intro y hy
    simp only [guardTokens, List.mem_cons, List.not_mem_nil, or_false] at hy
    rcases hy with rfl | rfl <;> exact ⟨fun m he => (by cases he), trivial⟩

/-- An instruction either is no branch, or it is one and its target can be replaced. -/
theorem instr_retarget {e : Env} {ks : List Kind} {op : Op} (h : InstrText e ks op) :
    ((∀ y ∈ ks, Harmless y) ∧ ∀ e', InstrText e' ks op) ∨
    ∃ pre m mid t x next post, ks = pre ++ .ident m :: (mid ++ t :: next :: post) ∧ m ∈ branches ∧ Tidy (.ident m) ∧
      (∀ y ∈ pre, (∀ n, y ≠ .ident n) ∧ Tidy y) ∧
      (∀ y ∈ mid, Tidy y ∧ y ≠ .at ∧ y ≠ .semicolon) ∧ (next = .at ∨ next = .semicolon) ∧ (∀ y ∈ post, Harmless y) ∧ Denotes e.label t x ∧
      ∀ e' t', e'.pc = e.pc → Named e'.label → Denotes e'.label t' x → InstrText e' (pre ++ .ident m :: (mid ++ t' :: next :: post)) op := by
  obtain ⟨g, row, hrow, ks, rfl, hr⟩ := C70_grammar.1 h
  have ht := List.all_eq_true.1 target_rows row hrow
  rw [Bool.and_eq_true, Bool.or_eq_true] at ht
  obtain ⟨htm, ht⟩ := ht
  have hsemi : Harmless .semicolon := ⟨fun m _ he => (by cases he), trivial⟩
  rcases ht with ht | ht
  · left
    simp only [Bool.and_eq_true, List.all_eq_true, Bool.not_eq_true', List.contains_eq_mem, decide_eq_false_iff_not] at ht
    have hno : ∀ y ∈ guardTokens g ++ .ident row.mnemonic :: (ks ++ [.semicolon]), Harmless y := by
      cases hr with | @mk ks ks' v r as hg ho ha
      have h1 := sequence_harmless (fun o ho => by simpa using (ht.1 o ho).2) ho
      have h2 := annots_harmless ha
      have h3 : Harmless (.ident row.mnemonic) := ⟨fun m hm he => ht.2 (by cases he; exact hm), tidy_ident htm⟩
      have h4 : ∀ y ∈ guardTokens g, Harmless y := fun y hy => ⟨fun m _ => (guard_harmless g y hy).1 m, (guard_harmless g y hy).2⟩
      intro y hy
      simp only [List.mem_append, List.mem_cons, List.not_mem_nil, or_false] at hy
      rcases hy with hy | rfl | (hy | hy) | rfl
      exacts [h4 y hy, h3, h1 y hy, h2 y hy, hsemi]
    exact ⟨hno, fun e' => instr_any (fun m hm hin => (hno _ hin).1 m hm rfl) h⟩
  · right
    simp only [Bool.and_eq_true, List.contains_eq_mem, decide_eq_true_eq, beq_iff_eq] at ht
    obtain ⟨⟨hm, hl⟩, hd⟩ := ht
    have hops : row.operands.dropLast ++ [.label] = row.operands := by
      obtain ⟨ys, hy⟩ := List.getLast?_eq_some_iff.1 hl
      rw [hy]; simp
    cases hr with | @mk ks ks' v r as hg ho ha
    rw [← hops] at ho
    obtain ⟨mid, t, x, rfl, h1, h2, h3⟩ := sequence_retarget _ hd ho
    obtain ⟨next, post, hp, hn, hq⟩ : ∃ next post, ks' ++ [Kind.semicolon] = next :: post ∧ (next = .at ∨ next = .semicolon) ∧
        (∀ y ∈ post, Harmless y) := by
      have h2 : ∀ y ∈ ks' ++ [Kind.semicolon], Harmless y := by
        intro y hy
        simp only [List.mem_append, List.mem_cons, List.not_mem_nil, or_false] at hy
        rcases hy with hy | rfl
        exacts [annots_harmless ha y hy, hsemi]
      cases ha with
      | nil => exact ⟨_, _, rfl, .inr rfl, by simp⟩
      | cons h4 h5 h6 =>
        cases h4 <;> exact ⟨_, _, rfl, .inl rfl, fun y hy => h2 y (List.mem_cons_of_mem _ hy)⟩
    refine ⟨guardTokens g, row.mnemonic, mid, t, x, next, post, by simp [← hp], hm, tidy_ident htm, guard_harmless g, h2, hn, hq, h1,
      fun e' t' hp' hn' hd' => ?_⟩
    refine C70_grammar.2 ⟨g, row, hrow, mid ++ [t'] ++ ks', by simp [← hp], .mk hg ?_ ha⟩
    have := h3 e' t' hp' hn' hd'
    rwa [hops] at this

/-! ### Programs -/

theorem Retargets.skip {f g : Str → Option Nat} {ts rest T : List (Kind × Nat)} (hts : ∀ m ∈ branches, Kind.ident m ∉ ts.map Prod.fst)
    (h : Retargets f g (ts ++ rest) T) : ∃ T', T = ts ++ T' ∧ Retargets f g rest T' := by
  induction ts generalizing T with
  | nil => exact ⟨T, rfl, h⟩
  | cons t ts ih =>
    generalize hA : t :: ts ++ rest = A at h
    cases h with
    | nil => simp at hA
    | @other t' ts1 ts' ht h =>
      simp only [List.cons_append, List.cons.injEq] at hA
      obtain ⟨rfl, rfl⟩ := hA
      obtain ⟨T', rfl, h'⟩ := ih (fun m hm hin => hts m hm (by simp only [List.map_cons, List.mem_cons]; exact .inr hin)) h
      exact ⟨T', rfl, h'⟩
    | @branch m l p mid ts1 ts' k k' next x hm =>
      simp only [List.cons_append, List.cons.injEq] at hA
      refine absurd ?_ (hts m hm)
      simp [hA.1]

theorem mid_unique {mid mid' X Y : List (Kind × Nat)} {t k next next' : Kind × Nat} (hm : ∀ t ∈ mid, t.1 ≠ .at ∧ t.1 ≠ .semicolon)
    (hm' : ∀ t ∈ mid', t.1 ≠ .at ∧ t.1 ≠ .semicolon) (ht : t.1 ≠ .at ∧ t.1 ≠ .semicolon) (hk : k.1 ≠ .at ∧ k.1 ≠ .semicolon)
    (hn : next.1 = .at ∨ next.1 = .semicolon) (hn' : next'.1 = .at ∨ next'.1 = .semicolon) (h : mid ++ t :: next :: X = mid' ++ k :: next' :: Y) :
    mid = mid' ∧ t = k ∧ next = next' ∧ X = Y := by
  induction mid generalizing mid' with
  | nil =>
    rcases mid' with - | ⟨a, - | ⟨b, mid'⟩⟩
    · simpa using h
    · simp only [List.nil_append, List.cons_append, List.cons.injEq] at h
      rw [h.2.1] at hn
      rcases hn with hn | hn
      · exact absurd hn hk.1
      · exact absurd hn hk.2
    · simp only [List.nil_append, List.cons_append, List.cons.injEq] at h
      have := hm' b (by simp)
      rw [h.2.1] at hn
      rcases hn with hn | hn
      · exact absurd hn this.1
      · exact absurd hn this.2
  | cons a mid ih =>
    rcases mid' with - | ⟨b, mid'⟩
    · simp only [List.nil_append, List.cons_append, List.cons.injEq] at h
      obtain ⟨rfl, h⟩ := h
      exfalso
      cases mid with
      | nil =>
        simp only [List.nil_append, List.cons.injEq] at h
        rw [← h.1] at hn'
        rcases hn' with hn | hn
        · exact absurd hn ht.1
        · exact absurd hn ht.2
      | cons b mid =>
        simp only [List.cons_append, List.cons.injEq] at h
        have := hm b (by simp)
        rw [← h.1] at hn'
        rcases hn' with hn | hn
        · exact absurd hn this.1
        · exact absurd hn this.2
    · simp only [List.cons_append, List.cons.injEq] at h
      obtain ⟨rfl, h⟩ := h
      obtain ⟨rfl, h1⟩ := ih (fun t ht => hm t (by simp [ht])) (fun t ht => hm' t (by simp [ht])) h
      exact ⟨rfl, h1⟩

theorem option_harmless {o o1 : Opts} {ts : List (Kind × Nat)} (h : OptionText o ts o1) : ∀ m ∈ branches, Kind.ident m ∉ ts.map Prod.fst := by
  have hd : ∀ m ∈ branches, m.head? ≠ some '.' := by decide
  have ht : ∀ w ∈ typeNames, w.1 ∉ branches := by decide
  intro m hm hin
  have hm' := hd m hm
  cases h with
  | dksh _ hp => simp at hin; rcases hin with rfl | rfl; exacts [hm' rfl, ht _ hp hm]
  | type _ hp => simp at hin; rcases hin with rfl | rfl; exacts [hm' rfl, ht _ hp hm]
  | workgroup => simp at hin; subst hin; exact hm' rfl
  | shared => simp at hin; subst hin; exact hm' rfl
  | «local» => simp at hin; subst hin; exact hm' rfl
  | other h => simp at hin; subst hin; exact hm' h

theorem Retargets.head {f g : Str → Option Nat} {t : Kind × Nat} {ts T : List (Kind × Nat)} (h : Retargets f g (t :: ts) T) : ∃ ts', T = t :: ts' := by
  cases h with
  | other => exact ⟨_, rfl⟩
  | branch => exact ⟨_, rfl⟩

theorem map_split {ts : List (Kind × Nat)} {a b : List Kind} (h : ts.map Prod.fst = a ++ b) :
    ∃ ta tb, ts = ta ++ tb ∧ ta.map Prod.fst = a ∧ tb.map Prod.fst = b := by
  obtain ⟨ta, tb, h1, h2, h3⟩ := List.map_eq_append_iff.1 h
  exact ⟨ta, tb, h1, h2, h3⟩

theorem map_cons {ts : List (Kind × Nat)} {a : Kind} {b : List Kind} (h : ts.map Prod.fst = a :: b) :
    ∃ l tb, ts = (a, l) :: tb ∧ tb.map Prod.fst = b := by
  obtain ⟨⟨k, l⟩, tb, rfl, rfl, h2⟩ := List.map_eq_cons_iff.1 h
  exact ⟨l, tb, rfl, h2⟩

/-- A program with other targets. -/
theorem Program.retarget {f g : Str → Option Nat} (hg : Named g) {i : Nat} {o o' : Opts} {ts ts' : List (Kind × Nat)} {ops : List Op}
    (h : Program f i o ts ops o') (hr : Retargets f g ts ts') : Program g i o ts' ops o' := by
  induction h generalizing ts' with
  | done => cases hr; exact .done
  | @insn i o o' ts rest op ops h _ ih =>
    rcases instr_retarget h with ⟨h1, h2⟩ | ⟨pre, m, mid, t, x, next, post, h1, hm, -, hp, hmid, hn, hq, hd, hall⟩
    · obtain ⟨T, rfl, hr1⟩ := Retargets.skip (fun m hm hin => (h1 _ hin).1 m hm rfl) hr
      exact .insn (h2 _) (ih hr1)
    · obtain ⟨pre', ts2, rfl, rfl, h3⟩ := map_split h1
      obtain ⟨l, ts3, rfl, h4⟩ := map_cons h3
      obtain ⟨mid', ts4, rfl, rfl, h5⟩ := map_split h4
      obtain ⟨p, ts5, rfl, h6⟩ := map_cons h5
      obtain ⟨q, post', rfl, rfl⟩ := map_cons h6
      rw [List.append_assoc] at hr
      obtain ⟨T, rfl, hr1⟩ := Retargets.skip (fun m _ hin => (hp _ hin).1 m rfl) hr
      clear hr
      have hmid' : ∀ t ∈ mid', t.1 ≠ .at ∧ t.1 ≠ .semicolon := fun t ht => (hmid _ (List.mem_map_of_mem ht)).2
      generalize hA : (Kind.ident m, l) :: (mid' ++ (t, p) :: (next, q) :: post') ++ rest = A at hr1
      cases hr1 with
      | nil => simp at hA
      | @other t' ts1 ts' ht h =>
        simp only [List.cons_append, List.cons.injEq] at hA
        exact absurd (by rw [← hA.1]) (ht m hm)
      | @branch m2 l2 p2 mid2 ts1 ts' k k' next2 x2 hm2 hmid2 hn2 hk hk' hr =>
        simp only [List.cons_append, List.append_assoc, List.cons.injEq, Prod.mk.injEq, Kind.ident.injEq] at hA
        obtain ⟨⟨rfl, rfl⟩, hA⟩ := hA
        obtain ⟨rfl, h7, rfl, rfl⟩ := mid_unique hmid' hmid2 (Denotes.not_at hd) (Denotes.not_at hk) hn hn2 hA
        obtain ⟨rfl, rfl⟩ := Prod.mk.inj h7
        obtain ⟨T, rfl, hr2⟩ := Retargets.skip (fun m hm hin => (hq _ hin).1 m hm rfl) hr
        obtain rfl := Denotes.unique hd hk
        have := Program.insn (o := o) (ts := pre' ++ (Kind.ident m, l) :: (mid' ++ (k', p) :: (next, q) :: post'))
          (lab := g) (i := i) (op := op) (by simpa using hall ⟨g, addressOf i⟩ k' rfl hg hk') (ih hr2)
        simpa using this
  | @option i o o1 o' t next ts rest ops h hl _ ih =>
    obtain ⟨T, rfl, hr1⟩ := Retargets.skip (option_harmless h) hr
    obtain ⟨T', rfl⟩ := Retargets.head hr1
    exact .option h hl (ih hr1)

/-- The relation can be reversed. -/
theorem Retargets.symm {f g : Str → Option Nat} {ts ts' : List (Kind × Nat)} (h : Retargets f g ts ts') : Retargets g f ts' ts := by
  induction h with
  | nil => exact .nil
  | other ht _ ih => exact .other ht ih
  | branch hm hmid hn hk hk' _ ih => exact .branch hm hmid hn hk' hk ih

/-! ### Numbers in place of labels -/

/-- Tokens with numbers in place of labels, in the same lines. -/
def Numbered (f : Str → Option Nat) (t t' : Kind × Nat) : Prop :=
  t'.2 = t.2 ∧ ((t' = t ∧ (Writable t.1 → Tidy t.1)) ∨ ∃ x, Denotes f t.1 x ∧ t'.1 = .imm x)

theorem numbered_same {f : Str → Option Nat} {ts : List (Kind × Nat)} (h : ∀ t ∈ ts, Writable t.1 → Tidy t.1) : List.Forall₂ (Numbered f) ts ts := by
  induction ts with
  | nil => exact .nil
  | cons t ts ih => exact .cons ⟨rfl, .inl ⟨rfl, h t (by simp)⟩⟩ (ih fun t ht => h t (by simp [ht]))

theorem _root_.Nxas.Spec.Retargets.prepend {f g : Str → Option Nat} {pre ts ts' : List (Kind × Nat)} (hp : ∀ t ∈ pre, ∀ m ∈ branches, t.1 ≠ .ident m)
    (h : Retargets f g ts ts') : Retargets f g (pre ++ ts) (pre ++ ts') := by
  induction pre with
  | nil => exact h
  | cons t pre ih => exact .other (hp t (by simp)) (ih fun t ht => hp t (by simp [ht]))

theorem word_tidy {w : Str} (h : Word w []) (hd : w.head? = some '.') : '\n' ∉ w ∧ ';' ∉ w := by
  cases h with
  | plain hc hn hd' hs he =>
    simp only [List.head?_cons, Option.some.injEq] at hd
    subst hd
    have h1 : '\n' ∈ separators := by decide
    have h2 : ';' ∈ separators := by decide
    simp only [List.mem_cons, not_or]
    exact ⟨⟨by decide, fun h => hs _ h h1⟩, by decide, fun h => hs _ h h2⟩
  | dimension hd' => simp at hd; subst hd; exact absurd hd' (by unfold decimal; decide)
  | register => simp at hd
  | predicate hp => cases hp with
    | pos h => simp at hd; subst hd; simp at h
    | neg => simp at hd

theorem option_tidy {o o1 : Opts} {ts : List (Kind × Nat)} (h : OptionText o ts o1) : ∀ t ∈ ts, Writable t.1 → Tidy t.1 := by
  have ht : ∀ w ∈ typeNames, tidy w.1 = true := by decide
  have ho : ∀ w ∈ optionNames, tidy w = true := by decide
  intro t hin hw
  cases h with
  | dksh _ hp => simp at hin; rcases hin with rfl | rfl; exacts [tidy_ident (ho _ (by decide)), tidy_ident (ht _ hp)]
  | type _ hp => simp at hin; rcases hin with rfl | rfl; exacts [tidy_ident (ho _ (by decide)), tidy_ident (ht _ hp)]
  | workgroup => simp at hin; rcases hin with rfl | rfl | rfl | rfl; exacts [tidy_ident (ho _ (by decide)), trivial, trivial, trivial]
  | shared => simp at hin; rcases hin with rfl | rfl; exacts [tidy_ident (ho _ (by decide)), trivial]
  | «local» => simp at hin; rcases hin with rfl | rfl; exacts [tidy_ident (ho _ (by decide)), trivial]
  | other h => simp at hin; subst hin; exact word_tidy hw.1 h

/-- Every label in a program can be replaced by a number. -/
theorem Program.numbers {f : Str → Option Nat} {i : Nat} {o o' : Opts} {ts : List (Kind × Nat)} {ops : List Op} (h : Program f i o ts ops o') :
    ∃ ts', Retargets f (fun _ => none) ts ts' ∧ List.Forall₂ (Numbered f) ts ts' := by
  induction h with
  | done => exact ⟨[], .nil, .nil⟩
  | @insn i o o' ts rest op ops h _ ih =>
    obtain ⟨T, h8, h9⟩ := ih
    rcases instr_retarget h with ⟨h1, h2⟩ | ⟨pre, m, mid, t, x, next, post, h1, hm, htm, hp, hmid, hn, hq, hd, hall⟩
    · exact ⟨ts ++ T, h8.prepend fun t ht => (h1 _ (List.mem_map_of_mem ht)).1,
        List.rel_append (numbered_same fun t ht _ => (h1 _ (List.mem_map_of_mem ht)).2) h9⟩
    · obtain ⟨pre', ts2, rfl, rfl, h3⟩ := map_split h1
      obtain ⟨l, ts3, rfl, h4⟩ := map_cons h3
      obtain ⟨mid', ts4, rfl, rfl, h5⟩ := map_split h4
      obtain ⟨p, ts5, rfl, h6⟩ := map_cons h5
      obtain ⟨q, post', rfl, rfl⟩ := map_cons h6
      have hmid' : ∀ t ∈ mid', t.1 ≠ .at ∧ t.1 ≠ .semicolon := fun t ht => (hmid _ (List.mem_map_of_mem ht)).2
      refine ⟨pre' ++ (.ident m, l) :: (mid' ++ (.imm x, p) :: (next, q) :: (post' ++ T)), ?_, ?_⟩
      · have := Spec.Retargets.prepend (f := f) (g := fun _ => none) (pre := pre') (fun t ht m _ => (hp _ (List.mem_map_of_mem ht)).1 m)
          (.branch (l := l) (p := p) (next := (next, q)) hm hmid' hn hd .number (h8.prepend (pre := post') fun t ht => (hq _ (List.mem_map_of_mem ht)).1))
        simpa using this
      · have hnext : Tidy next := by rcases hn with rfl | rfl <;> trivial
        have := List.rel_append (numbered_same (f := f) (ts := pre') fun t ht _ => (hp _ (List.mem_map_of_mem ht)).2)
          (.cons (a := (Kind.ident m, l)) ⟨rfl, .inl ⟨rfl, fun _ => htm⟩⟩
            (List.rel_append (numbered_same (f := f) (ts := mid') fun t ht _ => (hmid _ (List.mem_map_of_mem ht)).1)
              (.cons (a := (t, p)) (b := (.imm x, p)) ⟨rfl, .inr ⟨x, hd, rfl⟩⟩ (.cons (a := (next, q)) ⟨rfl, .inl ⟨rfl, fun _ => hnext⟩⟩
                (List.rel_append (numbered_same (f := f) (ts := post') fun t ht _ => (hq _ (List.mem_map_of_mem ht)).2) h9)))))
        simpa using this
  | @option i o o1 o' t next ts rest ops h hl _ ih =>
    obtain ⟨T, h8, h9⟩ := ih
    exact ⟨t :: ts ++ T, h8.prepend fun t ht m hm he => option_harmless h m hm (he ▸ List.mem_map_of_mem ht),
      List.rel_append (numbered_same (option_tidy h)) h9⟩

theorem IsName.line {s : Str} (h : IsName s) : lineAfter s = 0 := by
  unfold lineAfter
  rw [List.count_eq_zero]
  intro hin
  exact newline_not_word (h.2 _ hin)

/-- The tokens with numbers can be written without labels. -/
theorem numbered_laid {f : Str → Option Nat} (hf : Named f) (hb : ∀ s a, f s = some a → a < 2 ^ 63) {l : Nat} {ts ts' : List (Kind × Nat)}
    (h : List.Forall₂ (Numbered f) ts ts') (hw : Written l ts) : Laid l (ts'.map fun t => .token t.1 t.2) := by
  induction h generalizing l with
  | nil => trivial
  | @cons t t' ts ts' h hs ih =>
    obtain ⟨h1, h2, h3⟩ := hw
    obtain ⟨hl, ⟨rfl, ht⟩ | ⟨x, hd, hx⟩⟩ := h
    · have h0 : height t'.1 = 0 := by
        have := ht h2
        cases hk : t'.1 with
        | ident s => rw [hk] at this; exact List.count_eq_zero.2 this.1
        | _ => rfl
      rw [h0] at h3
      exact ⟨h1, h2, ht h2, ih h3⟩
    · have h0 : height t.1 = 0 := by
        cases hk : t.1 with
        | ident s =>
          rw [hk] at hd
          cases hd with | label h => exact IsName.line (hf _ _ h)
        | _ => rfl
      rw [h0, ← hl] at h3
      rw [← hl] at h1
      have hwx : Writable t'.1 := by
        rw [hx]
        cases hk : t.1 with
        | ident s =>
          rw [hk] at hd
          cases hd with | label h => have := hb _ _ h; exact ⟨by omega, by omega⟩
        | imm y =>
          rw [hk] at hd h2
          cases hd
          exact h2
        | _ => rw [hk] at hd; cases hd
      exact ⟨h1, hwx, by rw [hx]; trivial, ih h3⟩

theorem tokensOf_pairs (ts : List (Kind × Nat)) : tokensOf (ts.map fun t => .token t.1 t.2) = ts := by
  induction ts with
  | nil => rfl
  | cons t ts ih => exact congrArg _ ih

theorem labelAt_pairs (ts : List (Kind × Nat)) (i : Nat) (name : Str) : labelAt i (ts.map fun t => .token t.1 t.2) name = none := by
  induction ts generalizing i with
  | nil => rfl
  | cons t ts ih => exact ih _

end Nxas
