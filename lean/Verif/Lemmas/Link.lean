import Verif.Props.Unambiguous
import Verif.Spec.Targets
/-
Sources put one after the other when both have labels and branches.
-/

namespace Nxas

open Spec

/-! ### Tokens -/

/-- Blanks and labels that end a line are skipped in front of anything. -/
theorem Skipped.free {t : Str} (h : Skipped t []) (ht : AtLineStart t) (r : Str) : Skipped t r := by
  generalize hr : ([] : Str) = e at h
  induction h with
  | nil => exact .nil
  | @blank c w rest hc h ih =>
    refine .blank hc (ih ?_ hr)
    rcases ht with ht | ht
    · simp at ht
    · cases w with
      | nil => exact .inl rfl
      | cons x xs => exact .inr (by rwa [List.getLast?_cons_cons] at ht)
  | @label v w rest hv hl h ih =>
    subst hr
    have hv0 : v ≠ [] := by rintro rfl; simp at hl
    have hw : w ≠ [] := by
      rintro rfl
      rcases ht with ht | ht
      · simp at ht; exact hv0 ht
      · rw [List.append_nil, hl] at ht; exact absurd ht (by decide)
    refine .label ?_ hl (ih ?_ rfl)
    · rw [List.append_nil] at hv
      exact Word.append hv hw r
    · rcases ht with ht | ht
      · simp at ht; exact absurd ht.2 hw
      · right
        rw [List.getLast?_append] at ht
        cases hx : w.getLast? with
        | none => simp at hx; exact absurd hx hw
        | some y => rw [hx] at ht; simpa using ht

theorem Skipped.trans {s w r : Str} (h : Skipped s (w ++ r)) (h' : Skipped w r) : Skipped (s ++ w) r := by
  generalize hr : w ++ r = e at h
  induction h with
  | nil => exact h'
  | blank hc _ ih => exact .blank hc (ih hr)
  | @label v x rest hv hl h ih =>
    subst hr
    rw [List.append_assoc]
    refine .label ?_ hl (ih rfl)
    rwa [List.append_assoc]

/-- Blanks and labels in front of a text. -/
theorem Scans.skip {l : Nat} {s b : Str} {ts : List (Kind × Nat)} (hs : ∀ r, Skipped s r) (h : Scans (l + lineAfter s) b ts) :
    Scans l (s ++ b) ts := by
  generalize hl : l + lineAfter s = l' at h
  cases h with
  | done h => exact .done (Skipped.trans (hs _) h)
  | @token _ s' w rest k ts h1 h2 h3 =>
    subst hl
    rw [Nat.add_assoc, ← lineAfter_append]
    have : s ++ (s' ++ w ++ rest) = (s ++ s') ++ w ++ rest := by simp
    rw [this]
    refine .token (Skipped.trans (hs _) h1) h2 ?_
    rw [List.append_assoc s, lineAfter_append s, ← Nat.add_assoc]
    exact h3

theorem Scans.has_semicolon {l : Nat} {a : Str} {ts : List (Kind × Nat)} (h : Scans l a ts) {x : Kind × Nat} (hx : x ∈ ts) (hk : x.1 = .semicolon) :
    ';' ∈ a := by
  induction h with
  | done => simp at hx
  | @token l s w rest k ts hs hw h ih =>
    rcases List.mem_cons.1 hx with rfl | hx
    · obtain rfl : k = .semicolon := hk
      obtain rfl := hw.semicolon
      simp
    · simp [ih hx]

/-- The tokens of two texts, the first of which ends with a line. -/
theorem Scans.join {l : Nat} {a b : Str} {ts ts' : List (Kind × Nat)} (h : Scans l a ts) (ha : AtLineStart a)
    (he : ∀ x, ts.getLast? = some x → x.1 = .semicolon) (hb : Scans (l + lineAfter a) b ts') : Scans l (a ++ b) (ts ++ ts') := by
  induction h with
  | @done l t h => exact Scans.skip (Skipped.free h ha) hb
  | @token l s w rest k ts hs hw h ih =>
    have hw0 : w ≠ [] := by
      obtain ⟨x, xs, rfl, -⟩ := hw.head
      simp
    have ha' : AtLineStart rest := by
      rcases ha with ha | ha
      · simp at ha; exact absurd ha.2.1 hw0
      · rw [List.getLast?_append] at ha
        cases hl : rest.getLast? with
        | none => left; simpa using hl
        | some y => right; rw [hl] at ha ⊢; simpa using ha
    rw [List.append_assoc, List.cons_append]
    have hs' : Skipped s (w ++ (rest ++ b)) := by
      rw [← List.append_assoc]
      exact Skipped.append hs (by simp [hw0]) b
    rw [lineAfter_append (s ++ w) rest, ← Nat.add_assoc] at hb
    cases ts with
    | nil =>
      obtain rfl : k = .semicolon := he (k, l + lineAfter s) rfl
      obtain rfl := hw.semicolon
      exact .token hs' (.operator (by decide) (fun h => absurd h (by decide))) (ih ha' (by simp) hb)
    | cons t ts =>
      obtain ⟨z, hz⟩ : ∃ z, (t :: ts).getLast? = some z := ⟨_, List.getLast?_eq_some_getLast (by simp)⟩
      have he' : ∀ x, (t :: ts).getLast? = some x → x.1 = .semicolon := by
        intro x hx
        refine he x ?_
        rw [List.getLast?_cons, hx]
        rfl
      exact .token hs' (Lexeme.append hw (Scans.has_semicolon h (List.mem_of_getLast? hz) (he' z hz)) b) (ih ha' he' hb)

/-! ### Instructions -/

/-- The labels among the tokens have the same distance in the second environment if they are known in the first. -/
def Carries (e e' : Env) (ks : List Kind) : Prop :=
  ∀ s a, Kind.ident s ∈ ks → e.label s = some a → ∃ a' : Nat, e'.label s = some a' ∧ (a : Int) - e.pc = a' - e'.pc

theorem Carries.mono {e e' : Env} {ks ks' : List Kind} (h : Carries e e' ks) (hs : ∀ k ∈ ks', k ∈ ks) : Carries e e' ks' :=
  fun s a hm => h s a (hs _ hm)

theorem accepts_carry {e e' : Env} {v : BitVec 64} {ks : List Kind} {k : Kind} {b : BitVec 64} {r : BitVec 32} (hc : Carries e e' ks)
    (hi : e.pc = e'.pc ∨ ∀ x, Kind.imm x ∉ ks) (h : Accepts e v .label ks k b r) : Accepts e' v .label ks k b r := by
  obtain ⟨h1, t, h2, h3, h4, h5⟩ := h
  rcases h2 with ⟨s, a, rfl, ha, rfl⟩ | rfl
  · obtain ⟨a', h6, h7⟩ := hc s a (by simp) ha
    rw [h7] at h3 h4 h5
    exact ⟨h1, a', .inl ⟨s, a', rfl, h6, rfl⟩, h3, h4, h5⟩
  · rcases hi with hi | hi
    · rw [hi] at h3 h4 h5
      exact ⟨h1, t, .inr rfl, h3, h4, h5⟩
    · exact absurd (List.mem_singleton.2 rfl) (hi t)

theorem sequence_carry {e e' : Env} {os : List Operand} {v v' : BitVec 64} {ks : List Kind} {k : Kind} {r : BitVec 32} (hc : Carries e e' ks)
    (hos : ∀ o ∈ os, o.target = false ∨ o = .label ∧ (e.pc = e'.pc ∨ ∀ x, Kind.imm x ∉ ks)) (h : Sequence e os v ks k v' r) :
    Sequence e' os v ks k v' r := by
  induction h with
  | nil => exact .nil
  | @cons o os v b v' ks ks' k r r' h hs ih =>
    refine .cons ?_ (ih (hc.mono fun k hk => by simp [hk]) ?_)
    · rcases hos o (by simp) with ho | ⟨rfl, ho⟩
      · exact accepts_env ho h
      · exact accepts_carry (hc.mono fun k hk => by simp [hk]) (ho.imp_right fun ho x hx => ho x (by simp [hx])) h
    · intro o' ho'
      rcases hos o' (by simp [ho']) with h1 | ⟨h1, h2⟩
      · exact .inl h1
      · exact .inr ⟨h1, h2.imp_right fun h2 x hx => h2 x (by simp [hx])⟩

/-- An instruction whose labels have the same distances elsewhere. -/
theorem instr_carry {e e' : Env} {ks : List Kind} {op : Op} (hc : Carries e e' ks) (hb : e.pc = e'.pc ∨ ¬ NumericBranch ks) (h : InstrText e ks op) :
    InstrText e' ks op := by
  obtain ⟨g, row, hrow, ks, rfl, hr⟩ := C70_grammar.1 h
  refine C70_grammar.2 ⟨g, row, hrow, ks, rfl, ?_⟩
  cases hr with | @mk ks ks' v r as hg ho ha
  refine .mk hg (sequence_carry (hc.mono fun k hk => by simp [hk]) ?_ ho) ha
  have := List.all_eq_true.1 branch_rows row hrow
  rw [Bool.or_eq_true, Bool.and_eq_true, List.all_eq_true, List.all_eq_true] at this
  intro o hoin
  rcases this with h | ⟨h1, h2⟩
  · exact .inl (by simpa using h o hoin)
  · rcases simple_target (h2 o hoin) with h3 | h3
    · exact .inl h3
    · refine .inr ⟨h3, hb.imp_right fun hb x hx => hb ⟨guardTokens g, row.mnemonic, _, x, rfl, by simpa using h1, ?_⟩⟩
      rw [List.append_assoc]
      exact takeWhile_front (leads_no_at h2 ho) (sequence_no_semicolon ho) hx

/-- A program whose labels have the same distances elsewhere. -/
theorem Program.carry {lab lab' : Str → Option Nat} {i n : Nat} {o o' : Opts} {ts : List (Kind × Nat)} {ops : List Op} (h : Program lab i o ts ops o')
    (hs : ∀ j, Carries ⟨lab, addressOf j⟩ ⟨lab', addressOf (n + j)⟩ (ts.map Prod.fst)) (hb : n = 0 ∨ ¬ NumericBranch (ts.map Prod.fst)) :
    Program lab' (n + i) o ts ops o' := by
  induction h with
  | done => exact .done
  | @insn i o o' ts rest op ops h _ ih =>
    rw [List.map_append] at hb hs
    refine .insn (instr_carry ((hs i).mono fun k hk => by simp only [List.mem_append]; exact .inl hk) ?_ h)
      (ih (fun j => (hs j).mono fun k hk => by simp only [List.mem_append]; exact .inr hk) (hb.imp_right fun hb hn => hb (numericBranch_right hn)))
    rcases hb with rfl | hb
    · left; simp
    · exact .inr fun hn => hb (numericBranch_left hn (InstrText.last h))
  | @option i o o1 o' t next ts rest ops h hl _ ih =>
    rw [List.map_append] at hb hs
    exact .option h hl (ih (fun j => (hs j).mono fun k hk => by simp only [List.mem_append]; exact .inr hk)
      (hb.imp_right fun hb hn => hb (numericBranch_right hn)))

/-! ### Labels -/

theorem DefAt.left {a b pre name : Str} (h : DefAt a pre name) : DefAt (a ++ b) pre name := by
  obtain ⟨h1, h2, rest, rfl⟩ := h
  exact ⟨h1, h2, rest ++ b, by simp⟩

theorem DefAt.right {a b pre name : Str} (ha : AtLineStart a) (h : DefAt b pre name) : DefAt (a ++ b) (a ++ pre) name := by
  obtain ⟨h1, h2, rest, rfl⟩ := h
  refine ⟨?_, h2, rest, by simp⟩
  rcases h1 with rfl | h1
  · simpa using ha
  · right; rw [List.getLast?_append, h1]; rfl

theorem DefAt.split {a b pre name : Str} (ha : AtLineStart a) (h : DefAt (a ++ b) pre name) :
    DefAt a pre name ∨ ∃ pre', pre = a ++ pre' ∧ DefAt b pre' name := by
  rcases ha with rfl | ha
  · exact .inr ⟨pre, by simp, by simpa using h⟩
  · exact DefAt.front h ha newline_not_word (by decide)

/-- The first definition is in the first text, if there is one. -/
theorem firstDef_left {a b pre name : Str} (ha : AtLineStart a) (h : FirstDef a pre name) : FirstDef (a ++ b) pre name := by
  refine ⟨DefAt.left h.1, fun pre' h' => ?_⟩
  rcases DefAt.split ha h' with h' | ⟨p, rfl, -⟩
  · exact h.2 _ h'
  · obtain ⟨-, -, rest, h3⟩ := h.1
    rw [h3]
    simp only [List.length_append]
    omega

theorem firstDef_right {a b pre name : Str} (ha : AtLineStart a) (hn : ¬ Defines a name) (h : FirstDef b pre name) :
    FirstDef (a ++ b) (a ++ pre) name := by
  refine ⟨DefAt.right ha h.1, fun pre' h' => ?_⟩
  rcases DefAt.split ha h' with h' | ⟨p, rfl, hp⟩
  · exact absurd ⟨_, h'⟩ hn
  · have := h.2 _ hp
    simp only [List.length_append]
    omega

theorem lab_left {a b : Str} (ha : AtLineStart a) {f g : Str → Option Nat} (hf : IsLabelMap a f) (hg : IsLabelMap (a ++ b) g) {s : Str} {x : Nat}
    (h : f s = some x) : g s = some x := by
  obtain ⟨pre, h1, h2⟩ := (hf s x).1 h
  exact (hg s x).2 ⟨pre, firstDef_left ha h1, h2⟩

theorem lab_right {a b : Str} (ha : AtLineStart a) {k : Nat} (hk : a.count ';' = 3 * k) {f g : Str → Option Nat} (hf : IsLabelMap b f)
    (hg : IsLabelMap (a ++ b) g) {s : Str} {x : Nat} (hn : ¬ Defines a s) (h : f s = some x) : g s = some (x + 32 * k) := by
  obtain ⟨pre, h1, rfl⟩ := (hf s x).1 h
  refine (hg s _).2 ⟨a ++ pre, firstDef_right ha hn h1, ?_⟩
  rw [List.count_append, hk]
  unfold addressOf
  omega

theorem count_visible {a : Str} (hz : '\x00' ∉ a) (b : Str) : visible (a ++ b) = a ++ visible b := by
  unfold visible
  rw [List.takeWhile_append_of_pos]
  intro c hc
  simp only [ne_eq, decide_not, Bool.not_eq_eq_eq_not, Bool.not_true, decide_eq_false_iff_not]
  rintro rfl
  exact hz hc

end Nxas
