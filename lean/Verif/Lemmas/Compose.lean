import Verif.Lemmas.Declared
import Verif.Spec.Compose
/-
Sources put together: tokens, labels, instructions that do not depend on their position.
-/

namespace Nxas

open Spec

/-! ### Lines -/

theorem OptionText.relabel {o o1 : Opts} {t : Kind × Nat} {l' : Nat} {ts : List (Kind × Nat)} (h : OptionText o (t :: ts) o1)
    {z1 : List (Kind × Nat × Nat)} (hts : z1.map (fun z => (z.1, z.2.1)) = ts) (hh : ∀ a ∈ z1, t.2 = a.2.1 → l' = a.2.2) :
    OptionText o ((t.1, l') :: z1.map fun z => (z.1, z.2.2)) o1 := by
  cases h with
  | dksh ht' hp =>
    obtain ⟨⟨k1, l1, l1'⟩, z1, rfl, h1, h2⟩ := List.map_eq_cons_iff.1 hts
    obtain rfl := List.map_eq_nil_iff.1 h2
    simp only [Prod.mk.injEq] at h1
    obtain ⟨rfl, rfl⟩ := h1
    obtain rfl := hh (_, _, _) (List.mem_singleton.2 rfl) rfl
    exact .dksh ht' hp
  | type ht' hp =>
    obtain ⟨⟨k1, l1, l1'⟩, z1, rfl, h1, h2⟩ := List.map_eq_cons_iff.1 hts
    obtain rfl := List.map_eq_nil_iff.1 h2
    simp only [Prod.mk.injEq] at h1
    obtain ⟨rfl, rfl⟩ := h1
    obtain rfl := hh (_, _, _) (List.mem_singleton.2 rfl) rfl
    exact .type ht' hp
  | workgroup =>
    obtain ⟨⟨k1, l1, l1'⟩, z1, rfl, h1, h2⟩ := List.map_eq_cons_iff.1 hts
    obtain ⟨⟨k2, l2, l2'⟩, z1, rfl, h2, h3⟩ := List.map_eq_cons_iff.1 h2
    obtain ⟨⟨k3, l3, l3'⟩, z1, rfl, h3, h4⟩ := List.map_eq_cons_iff.1 h3
    obtain rfl := List.map_eq_nil_iff.1 h4
    simp only [Prod.mk.injEq] at h1 h2 h3
    obtain ⟨rfl, rfl⟩ := h1
    obtain ⟨rfl, rfl⟩ := h2
    obtain ⟨rfl, rfl⟩ := h3
    obtain rfl := hh (_, _, l3') (List.mem_cons_of_mem _ (List.mem_cons_of_mem _ (List.mem_singleton.2 rfl))) rfl
    exact .workgroup
  | shared =>
    obtain ⟨⟨k1, l1, l1'⟩, z1, rfl, h1, h2⟩ := List.map_eq_cons_iff.1 hts
    obtain rfl := List.map_eq_nil_iff.1 h2
    simp only [Prod.mk.injEq] at h1
    obtain ⟨rfl, rfl⟩ := h1
    exact .shared
  | «local» =>
    obtain ⟨⟨k1, l1, l1'⟩, z1, rfl, h1, h2⟩ := List.map_eq_cons_iff.1 hts
    obtain rfl := List.map_eq_nil_iff.1 h2
    simp only [Prod.mk.injEq] at h1
    obtain ⟨rfl, rfl⟩ := h1
    exact .local
  | other hd hn =>
    obtain rfl := List.map_eq_nil_iff.1 hts
    exact .other hd hn

/-- Tokens with other line numbers, equal where they were equal and different where they were different. -/
theorem Program.relabel {lab : Str → Option Nat} {i : Nat} {o o' : Opts} {ts : List (Kind × Nat)} {ops : List Op} (h : Program lab i o ts ops o')
    {zs : List (Kind × Nat × Nat)} (hz : ts = zs.map fun z => (z.1, z.2.1)) (he : ∀ a ∈ zs, ∀ b ∈ zs, a.2.1 = b.2.1 ↔ a.2.2 = b.2.2) :
    Program lab i o (zs.map fun z => (z.1, z.2.2)) ops o' := by
  induction h generalizing zs with
  | done =>
    obtain rfl := List.map_eq_nil_iff.1 hz.symm
    exact .done
  | insn h _ ih =>
    obtain ⟨z1, z2, rfl, rfl, rfl⟩ := List.map_eq_append_iff.1 hz.symm
    rw [List.map_append]
    refine .insn ?_ (ih rfl fun a ha b hb => he a (by simp [ha]) b (by simp [hb]))
    rw [List.map_map] at h ⊢
    exact h
  | @option i o o1 o' t next ts rest ops h hline hr ih =>
    obtain ⟨z1, z2, rfl, h1, h2⟩ := List.map_eq_append_iff.1 hz.symm
    obtain ⟨z, z1, rfl, rfl, rfl⟩ := List.map_eq_cons_iff.1 h1
    obtain ⟨n, z2, rfl, rfl, rfl⟩ := List.map_eq_cons_iff.1 h2
    rw [List.map_append]
    refine .option (OptionText.relabel h (l' := z.2.2) rfl fun a ha h => ?_) (fun hh => hline ((he n (by simp) z (by simp)).2 hh)) (ih rfl fun a ha b hb =>
      he a (List.mem_append_right _ ha) b (List.mem_append_right _ hb))
    exact (he z (by simp) a (by simp [ha])).1 h

/-! ### Sources without options -/

theorem OptionText.word {o o' : Opts} {t : Kind × Nat} {ts : List (Kind × Nat)} (h : OptionText o (t :: ts) o') : IsOptionWord t.1 := by
  cases h with
  | other hd _ => exact ⟨_, rfl, hd⟩
  | _ => exact ⟨_, rfl, rfl⟩

theorem OptionFree.append {ks ks' : List Kind} (h : OptionFree (ks ++ ks')) (hs : ks.getLast? = some .semicolon) : OptionFree ks' := by
  rintro pre k post rfl hp
  refine h (ks ++ pre) k post (by simp) (.inr ?_)
  rcases hp with rfl | hp
  · simpa using hs
  · rw [List.getLast?_append, hp]; rfl

theorem InstrText.last {e : Env} {ks : List Kind} {op : Op} (h : InstrText e ks op) : ks.getLast? = some .semicolon := by
  obtain ⟨ks', rfl, -⟩ := instr_semicolon h
  simp

theorem InstrText.start {e : Env} {ks : List Kind} {op : Op} (h : InstrText e ks op) : ∃ k rest, ks = k :: rest ∧ ¬ IsOptionWord k := by
  cases h with | @mk g row ks op pre post hsplit h hp
  have hin : row ∈ insnTable := by rw [hsplit]; simp
  rcases g with - | ⟨p, n⟩
  · refine ⟨_, _, rfl, ?_⟩
    rintro ⟨w, h1, h2⟩
    cases h1
    exact no_option_row row hin h2
  · refine ⟨_, _, rfl, ?_⟩
    rintro ⟨w, h1, h2⟩
    cases h1

/-- A program without options: instructions only. -/
theorem Program.option_free {lab : Str → Option Nat} {i : Nat} {o o' : Opts} {ts : List (Kind × Nat)} {ops : List Op} (h : Program lab i o ts ops o')
    (hf : OptionFree (ts.map Prod.fst)) : o' = o ∧ ∀ ts', ts'.map Prod.fst = ts.map Prod.fst → ∀ o, Program lab i o ts' ops o := by
  induction h with
  | done =>
    refine ⟨rfl, fun ts' h o => ?_⟩
    obtain rfl := List.map_eq_nil_iff.1 h
    exact .done
  | insn h _ ih =>
    rw [List.map_append] at hf
    obtain ⟨h1, h2⟩ := ih (OptionFree.append hf (InstrText.last h))
    refine ⟨h1, fun ts' h3 o => ?_⟩
    rw [List.map_append] at h3
    obtain ⟨a, b, rfl, h4, h5⟩ := List.map_eq_append_iff.1 h3
    exact .insn (h4 ▸ h) (h2 b h5 o)
  | option h _ _ ih => exact absurd (OptionText.word h) (hf [] _ _ rfl (.inl rfl))

/-! ### Text -/

theorem Ends.append {rest b : Str} (h : Ends rest) (hr : rest ≠ []) : Ends (rest ++ b) := by
  intro c hc
  cases rest with
  | nil => simp at hr
  | cons x xs => exact h c hc

theorem Word.append {w rest : Str} (h : Word w rest) (hr : rest ≠ []) (b : Str) : Word w (rest ++ b) := by
  cases h with
  | plain hc hn hd hs he => exact .plain hc hn hd hs (Ends.append he hr)
  | dimension hd hs he => exact .dimension hd hs (Ends.append he hr)
  | register hz hn hs he => exact .register hz hn hs (Ends.append he hr)
  | predicate hp hc hs he => exact .predicate hp hc hs (Ends.append he hr)

theorem head_append {rest b : Str} (hr : rest ≠ []) : (rest ++ b).head? = rest.head? := by
  cases rest with
  | nil => simp at hr
  | cons x xs => rfl

theorem Sign.chars {sg : Str} {n : Bool} (h : Sign sg n) : ∀ c ∈ sg, c = '+' ∨ c = '-' := by
  cases h <;> simp

theorem NumberFollows.front {rest b : Str} (h : NumberFollows (rest ++ b)) (hs : ';' ∈ rest) : NumberFollows rest := by
  obtain ⟨bl, sg, neg, d, tl, h1, h2, h3, h4⟩ := h
  rw [show bl ++ sg ++ d :: tl = (bl ++ sg ++ [d]) ++ tl by simp, List.append_eq_append_iff] at h1
  rcases h1 with ⟨a, h1, -⟩ | ⟨a, h1, -⟩
  · exfalso
    have : ';' ∈ bl ++ sg ++ [d] := by rw [h1]; simp [hs]
    simp only [List.mem_append, List.mem_singleton] at this
    rcases this with (this | this) | this
    · exact absurd (h2 _ this) (by decide)
    · exact absurd (Sign.chars h3 _ this) (by decide)
    · subst this; exact absurd h4 (by unfold decimal; decide)
  · exact ⟨bl, sg, neg, d, a, by rw [h1]; simp, h2, h3, h4⟩

theorem Lexeme.append {w rest : Str} {k : Kind} (h : Lexeme w rest k) (hs : ';' ∈ rest) (b : Str) : Lexeme w (rest ++ b) k := by
  have hr : rest ≠ [] := by rintro rfl; simp at hs
  cases h with
  | operator h hd => exact .operator h (by rw [head_append hr]; exact hd)
  | pred hp hn he => exact .pred hp hn (Ends.append he hr)
  | int h1 h2 h3 h4 => exact .int h1 h2 (Ends.append h3 hr) (by rw [head_append hr]; exact h4)
  | float h1 h2 h3 h4 h5 => exact .float h1 h2 h3 h4 (Ends.append h5 hr)
  | zero he => exact .zero (Ends.append he hr)
  | reg h1 h2 h3 h4 => exact .reg h1 h2 h3 (Ends.append h4 hr)
  | bare he hf => exact .bare (Ends.append he hr) fun h => hf (NumberFollows.front h hs)
  | word h hl => exact .word (Word.append h hr b) hl

theorem Skipped.append {s rest : Str} (h : Skipped s rest) (hr : rest ≠ []) (b : Str) : Skipped s (rest ++ b) := by
  induction h with
  | nil => exact .nil
  | blank hc _ ih => exact .blank hc (ih hr)
  | @label v w rest hv hl _ ih =>
    refine .label ?_ hl (ih hr)
    rw [← List.append_assoc]
    exact Word.append hv (by simp [hr]) b

theorem lineAfter_append (a b : Str) : lineAfter (a ++ b) = lineAfter a + lineAfter b := List.count_append

theorem Scans.nil {l : Nat} {ts : List (Kind × Nat)} (h : Scans l [] ts) : ts = [] := by
  generalize ht : ([] : Str) = t at h
  cases h with
  | done => rfl
  | token _ hw =>
    obtain ⟨x, xs, rfl, -⟩ := hw.head
    simp at ht

/-- The tokens of two texts, one after the other. -/
theorem Scans.append {l : Nat} {a b : Str} {ts ts' : List (Kind × Nat)} (h : Scans l a ts) (ha : a.getLast? = some ';')
    (he : ∀ x, ts.getLast? = some x → x.1 = .semicolon) (hb : Scans (l + lineAfter a) b ts') : Scans l (a ++ b) (ts ++ ts') := by
  induction h with
  | @done l t h =>
    rcases h.last _ ha with h | h
    · exact absurd h (by decide)
    · exact absurd h (by decide)
  | @token l s w rest k ts hs hw h ih =>
    by_cases hr : rest = []
    · subst hr
      obtain rfl := Scans.nil h
      · obtain rfl : k = .semicolon := he (k, l + lineAfter s) rfl
        obtain rfl := hw.semicolon
        simp only [List.append_nil] at hs hb ⊢
        rw [List.singleton_append]
        refine .token (w := [';']) (rest := b) ?_ (.operator (by decide) (fun h => absurd h (by decide))) hb
        exact Skipped.append hs (by simp) b
    · have ha' : rest.getLast? = some ';' := by
        rw [List.getLast?_append] at ha
        cases hl : rest.getLast? with
        | none => simp at hl; exact absurd hl hr
        | some y => rw [hl] at ha; simpa using ha
      have hmem : ';' ∈ rest := List.mem_of_getLast? ha'
      rw [List.append_assoc, List.cons_append]
      refine .token ?_ (Lexeme.append hw hmem b) (ih ha' ?_ ?_)
      · rw [← List.append_assoc]
        exact Skipped.append hs (by simp [hr]) b
      · intro x hx
        refine he x ?_
        rw [List.getLast?_cons, hx]
        rfl
      · rw [lineAfter_append (s ++ w) rest, ← Nat.add_assoc] at hb
        exact hb

/-- Blanks in front of a text. -/
theorem Scans.blanks {l : Nat} {s b : Str} {ts : List (Kind × Nat)} (hs : ∀ c ∈ s, c ∈ Spec.blanks) (h : Scans (l + lineAfter s) b ts) :
    Scans l (s ++ b) ts := by
  have hsk : ∀ r w, Skipped w r → Skipped (s ++ w) r := by
    clear h
    intro r w hw
    induction s with
    | nil => exact hw
    | cons c s ih => exact .blank (hs c (by simp)) (ih fun x hx => hs x (by simp [hx]))
  generalize hl : l + lineAfter s = l' at h
  cases h with
  | done h => exact .done (hsk _ _ h)
  | @token _ s' w rest k ts h1 h2 h3 =>
    subst hl
    rw [Nat.add_assoc, ← lineAfter_append]
    have : s ++ (s' ++ w ++ rest) = (s ++ s') ++ w ++ rest := by simp
    rw [this]
    refine .token (hsk _ _ h1) h2 ?_
    rw [List.append_assoc s, lineAfter_append s, ← Nat.add_assoc]
    exact h3

/-- Tokens in other lines. -/
def shift (n : Nat) (ts : List (Kind × Nat)) : List (Kind × Nat) := ts.map fun t => (t.1, t.2 + n)

theorem Scans.shift {l : Nat} {t : Str} {ts : List (Kind × Nat)} (h : Scans l t ts) (n : Nat) : Scans (l + n) t (shift n ts) := by
  induction h with
  | done h => exact .done h
  | @token l s w rest k ts h1 h2 _ ih =>
    have e1 : l + lineAfter s + n = l + n + lineAfter s := by omega
    have e2 : l + lineAfter (s ++ w) + n = l + n + lineAfter (s ++ w) := by omega
    simp only [Nxas.shift, List.map_cons, e1]
    rw [e2] at ih
    exact .token h1 h2 ih

theorem Program.shift {lab : Str → Option Nat} {i : Nat} {o o' : Opts} {ts : List (Kind × Nat)} {ops : List Op} (h : Program lab i o ts ops o') (n : Nat) :
    Program lab i o (shift n ts) ops o' := by
  have := Program.relabel h (zs := ts.map fun t => (t.1, t.2, t.2 + n)) (by rw [List.map_map]; exact (List.map_id ts).symm) (by
    intro a ha b hb
    obtain ⟨a, -, rfl⟩ := List.mem_map.1 ha
    obtain ⟨b, -, rfl⟩ := List.mem_map.1 hb
    simp)
  rw [List.map_map] at this
  exact this

/-! ### Instructions in another place -/

/-- The operand is the target of a branch. -/
def Operand.target : Operand → Bool
  | .label => true
  | .abs _ inner => inner.target
  | _ => false

/-- Labels have the same distance. -/
def Same (e e' : Env) : Prop :=
  ∀ s, (e.label s).map (fun a : Nat => (a : Int) - e.pc) = (e'.label s).map (fun a : Nat => (a : Int) - e'.pc)

theorem Same.symm {e e' : Env} (h : Same e e') : Same e' e := fun s => (h s).symm

theorem accepts_env {e e' : Env} {v : BitVec 64} {o : Operand} {ks : List Kind} {k : Kind} {b : BitVec 64} {r : BitVec 32} (ho : o.target = false)
    (h : Accepts e v o ks k b r) : Accepts e' v o ks k b r := by
  induction o generalizing v ks k b with
  | label => simp [Operand.target] at ho
  | abs a inner ih =>
    rcases h with ⟨ks1, b1, h1, h2, h⟩ | ⟨h1, h⟩
    · exact .inl ⟨ks1, b1, h1, h2, ih ho h⟩
    · exact .inr ⟨h1, ih ho h⟩
  | _ => exact h

theorem accepts_label {e e' : Env} {v : BitVec 64} {ks : List Kind} {k : Kind} {b : BitVec 64} {r : BitVec 32} (he : Same e e')
    (hi : ∀ x, Kind.imm x ∉ ks) (h : Accepts e v .label ks k b r) : Accepts e' v .label ks k b r := by
  obtain ⟨h1, t, h2, h3, h4, h5⟩ := h
  rcases h2 with ⟨s, a, rfl, ha, rfl⟩ | rfl
  · have := he s
    rw [ha] at this
    cases hb : e'.label s with
    | none => rw [hb] at this; simp at this
    | some a' =>
      rw [hb] at this
      have this : (a : Int) - e.pc = a' - e'.pc := Option.some.inj this
      rw [this] at h3 h4 h5
      exact ⟨h1, a', .inl ⟨s, a', rfl, hb, rfl⟩, h3, h4, h5⟩
  · exact absurd (List.mem_singleton.2 rfl) (hi t)

theorem sequence_env {e e' : Env} (he : Same e e') {os : List Operand} {v v' : BitVec 64} {ks : List Kind} {k : Kind} {r : BitVec 32}
    (hos : ∀ o ∈ os, o.target = false ∨ o = .label ∧ ∀ x, Kind.imm x ∉ ks) (h : Sequence e os v ks k v' r) : Sequence e' os v ks k v' r := by
  induction h with
  | nil => exact .nil
  | @cons o os v b v' ks ks' k r r' h hs ih =>
    refine .cons ?_ (ih ?_)
    · rcases hos o (by simp) with ho | ⟨rfl, ho⟩
      · exact accepts_env ho h
      · exact accepts_label he (fun x hx => ho x (by simp [hx])) h
    · intro o' ho'
      rcases hos o' (by simp [ho']) with h1 | ⟨h1, h2⟩
      · exact .inl h1
      · exact .inr ⟨h1, fun x hx => h2 x (by simp [hx])⟩

/-- Operands that can stand in front of a target. -/
def Operand.leads : Operand → Bool
  | .flag _ _ | .ccTests _ _ | .dotTable _ _ _ | .comma | .label => true
  | _ => false

theorem simple_no_at {e : Env} {v : BitVec 64} {o : Operand} {ks : List Kind} {k : Kind} {b : BitVec 64} {r : BitVec 32} (ho : o.leads = true)
    (h : Accepts e v o ks k b r) : Kind.at ∉ ks := by
  cases o with
  | flag => obtain ⟨-, ⟨rfl, -⟩ | ⟨rfl, -⟩⟩ := h <;> simp
  | dotTable =>
    obtain ⟨-, ⟨k, i, rfl, ⟨name, rfl, -⟩, -⟩ | ⟨d, -, rfl, -⟩⟩ := h <;> simp
  | label => obtain ⟨-, t, ⟨s, a, rfl, -⟩ | rfl, -⟩ := h <;> simp
  | comma => obtain ⟨-, rfl, -⟩ := h; simp
  | ccTests =>
    unfold Accepts at h
    have hE : ∀ {p : Str} {t : List Str} {k : Kind} {i : Nat}, Entry p t k i → k ≠ .at := by
      rintro p t k i ⟨name, rfl, -⟩; simp
    grind
  | _ => simp [Operand.leads] at ho

theorem leads_no_at {e : Env} {os : List Operand} {v v' : BitVec 64} {ks : List Kind} {k : Kind} {r : BitVec 32} (hos : ∀ o ∈ os, o.leads = true)
    (h : Sequence e os v ks k v' r) : Kind.at ∉ ks := by
  induction h with
  | nil => simp
  | cons h hs ih =>
    simp only [List.mem_append, not_or]
    exact ⟨simple_no_at (hos _ (by simp)) h, ih fun o ho => hos o (by simp [ho])⟩

theorem branch_rows : (insnTable.all fun row => row.operands.all (fun o => !o.target) ||
    (branches.contains row.mnemonic && row.operands.all fun o => o.leads)) = true := by decide +kernel

theorem simple_target {o : Operand} (h : o.leads = true) : o.target = false ∨ o = .label := by
  cases o <;> simp_all [Operand.leads, Operand.target]

theorem takeWhile_front {ks ks' : List Kind} (h1 : Kind.at ∉ ks) (h2 : Kind.semicolon ∉ ks) {x : Kind} (hx : x ∈ ks) :
    x ∈ (ks ++ ks').takeWhile (fun k => k ≠ .at && k ≠ .semicolon) := by
  rw [List.takeWhile_append_of_pos]
  · simp [hx]
  · intro k hk
    simp only [ne_eq, Bool.and_eq_true, decide_eq_true_eq]
    exact ⟨by rintro rfl; exact h1 hk, by rintro rfl; exact h2 hk⟩

theorem rowText_env {e e' : Env} (he : Same e e') {row : Insn} (hrow : row ∈ insnTable) {g : Option (Nat × Bool)} {ks : List Kind} {op : Op}
    (hb : ¬ NumericBranch (guardTokens g ++ .ident row.mnemonic :: (ks ++ [.semicolon]))) (h : RowText e row g ks op) : RowText e' row g ks op := by
  cases h with | @mk ks ks' v r as hg ho ha
  refine .mk hg (sequence_env he ?_ ho) ha
  have := List.all_eq_true.1 branch_rows row hrow
  rw [Bool.or_eq_true, Bool.and_eq_true, List.all_eq_true, List.all_eq_true] at this
  intro o hoin
  rcases this with h | ⟨h1, h2⟩
  · exact .inl (by simpa using h o hoin)
  · rcases simple_target (h2 o hoin) with h3 | h3
    · exact .inl h3
    · refine .inr ⟨h3, fun x hx => hb ⟨guardTokens g, row.mnemonic, _, x, rfl, by simpa using h1, ?_⟩⟩
      rw [List.append_assoc]
      refine takeWhile_front ?_ (sequence_no_semicolon ho) hx
      exact leads_no_at h2 ho

/-- An instruction without numeric target does not depend on its position. -/
theorem instr_env {e e' : Env} (he : Same e e') {ks : List Kind} {op : Op} (hb : ¬ NumericBranch ks) (h : InstrText e ks op) : InstrText e' ks op := by
  cases h with | @mk g row ks op pre post hsplit h hp
  have hin : ∀ row' ∈ pre, row' ∈ insnTable := by
    intro row' h
    rw [hsplit]
    simp [h]
  refine .mk hsplit (rowText_env he (by rw [hsplit]; simp) hb h) ?_
  intro row' hrow' hm op' h'
  exact hp row' hrow' hm op' (rowText_env he.symm (hin row' hrow') (by rw [hm]; exact hb) h')

theorem sequence_any {e e' : Env} {os : List Operand} {v v' : BitVec 64} {ks : List Kind} {k : Kind} {r : BitVec 32}
    (hos : ∀ o ∈ os, o.target = false) (h : Sequence e os v ks k v' r) : Sequence e' os v ks k v' r := by
  induction h with
  | nil => exact .nil
  | cons h hs ih => exact .cons (accepts_env (hos _ (by simp)) h) (ih fun o ho => hos o (by simp [ho]))

theorem rowText_any {e e' : Env} {row : Insn} (hrow : row ∈ insnTable) (hm : row.mnemonic ∉ branches) {g : Option (Nat × Bool)} {ks : List Kind}
    {op : Op} (h : RowText e row g ks op) : RowText e' row g ks op := by
  cases h with | @mk ks ks' v r as hg ho ha
  refine .mk hg (sequence_any ?_ ho) ha
  have := List.all_eq_true.1 branch_rows row hrow
  rw [Bool.or_eq_true, Bool.and_eq_true, List.all_eq_true] at this
  intro o hoin
  rcases this with h | ⟨h1, -⟩
  · simpa using h o hoin
  · exact absurd (by simpa using h1) hm

/-- An instruction other than a branch depends neither on its position nor on the labels. -/
theorem instr_any {e e' : Env} {ks : List Kind} {op : Op} (hb : ∀ m ∈ branches, .ident m ∉ ks) (h : InstrText e ks op) : InstrText e' ks op := by
  cases h with | @mk g row ks op pre post hsplit h hp
  have hm : row.mnemonic ∉ branches := fun hm => hb _ hm (by simp)
  refine .mk hsplit (rowText_any (by rw [hsplit]; simp) hm h) ?_
  intro row' hrow' he op' h'
  exact hp row' hrow' he op' (rowText_any (by rw [hsplit]; simp [hrow']) (by rw [he]; exact hm) h')

theorem Program.any {lab lab' : Str → Option Nat} {i j : Nat} {o o' : Opts} {ts : List (Kind × Nat)} {ops : List Op} (h : Program lab i o ts ops o')
    (hb : ∀ m ∈ branches, .ident m ∉ ts.map Prod.fst) : Program lab' j o ts ops o' := by
  induction h generalizing j with
  | done => exact .done
  | @insn i o o' ts rest op ops h _ ih =>
    rw [List.map_append] at hb
    exact .insn (instr_any (fun m hm hn => hb m hm (by simp only [List.mem_append]; exact .inl hn)) h)
      (ih fun m hm hn => hb m hm (by simp only [List.mem_append]; exact .inr hn))
  | option h hl _ ih =>
    rw [List.map_append] at hb
    exact .option h hl (ih fun m hm hn => hb m hm (by simp only [List.mem_append]; exact .inr hn))

theorem numericBranch_left {ks ks' : List Kind} (h : NumericBranch ks) (hs : ks.getLast? = some .semicolon) : NumericBranch (ks ++ ks') := by
  obtain ⟨pre, m, post, x, rfl, h1, h2⟩ := h
  refine ⟨pre, m, post ++ ks', x, by simp, h1, ?_⟩
  have hm : Kind.semicolon ∈ post := by
    cases post with
    | nil => simp at h2
    | cons k post =>
      rw [List.getLast?_append] at hs
      simp only [List.getLast?_cons_cons] at hs
      cases hl : (k :: post).getLast? with
      | none => simp at hl
      | some y => rw [hl] at hs; simp at hs; subst hs; exact List.mem_of_getLast? hl
  rw [List.takeWhile_append]
  split
  · exact List.mem_append_left _ ((List.takeWhile_subset _) h2)
  · exact h2

theorem numericBranch_right {ks ks' : List Kind} (h : NumericBranch ks') : NumericBranch (ks ++ ks') := by
  obtain ⟨pre, m, post, x, rfl, h1, h2⟩ := h
  exact ⟨ks ++ pre, m, post, x, by simp, h1, h2⟩

/-- A program without numeric targets in another place. -/
theorem Program.env {lab lab' : Str → Option Nat} {i n : Nat} {o o' : Opts} {ts : List (Kind × Nat)} {ops : List Op} (h : Program lab i o ts ops o')
    (hs : ∀ j, Same ⟨lab, addressOf j⟩ ⟨lab', addressOf (n + j)⟩) (hb : ¬ NumericBranch (ts.map Prod.fst)) : Program lab' (n + i) o ts ops o' := by
  induction h with
  | done => exact .done
  | @insn i o o' ts rest op ops h _ ih =>
    rw [List.map_append] at hb
    exact .insn (instr_env (hs i) (fun hn => hb (numericBranch_left hn (InstrText.last h))) h) (ih fun hn => hb (numericBranch_right hn))
  | option h hl _ ih =>
    rw [List.map_append] at hb
    exact .option h hl (ih fun hn => hb (numericBranch_right hn))

/-! ### Labels of two texts -/

theorem DefAt.front {a b pre name : Str} (h : DefAt (a ++ b) pre name) {c : Char} (hc : a.getLast? = some c) (hw : ¬ wordChar c) (hcolon : c ≠ ':') :
    DefAt a pre name ∨ ∃ pre', pre = a ++ pre' ∧ DefAt b pre' name := by
  obtain ⟨h1, h2, rest, h3⟩ := h
  by_cases hlen : a.length ≤ pre.length
  · right
    rw [List.append_assoc, List.append_eq_append_iff] at h3
    obtain ⟨pre', rfl, hb⟩ : ∃ pre', pre = a ++ pre' ∧ b = pre' ++ (name ++ ':' :: rest) := by
      rcases h3 with ⟨p, h4, h5⟩ | ⟨p, h4, h5⟩
      · exact ⟨p, h4, h5⟩
      · obtain rfl : p = [] := by
          have := congrArg List.length h4
          simp only [List.length_append] at this
          exact List.eq_nil_of_length_eq_zero (by omega)
        simp only [List.append_nil] at h4
        exact ⟨[], by simp [h4], by simpa using h5.symm⟩
    refine ⟨pre', rfl, ?_, h2, rest, by rw [hb]; simp⟩
    rcases h1 with h1 | h1
    · left
      simp at h1
      exact h1.2
    · cases hp : pre'.getLast? with
      | none => left; simpa using hp
      | some y => right; rw [List.getLast?_append, hp] at h1; rw [hp]; exact h1
  · left
    rw [show pre ++ name ++ ':' :: rest = (pre ++ name ++ [':']) ++ rest by simp, List.append_eq_append_iff] at h3
    rcases h3 with ⟨p, h4, h5⟩ | ⟨p, h4, h5⟩
    · by_cases hp : p = []
      · subst hp
        exact ⟨h1, h2, [], by simpa using h4.symm⟩
      exfalso
      -- the last character of `a` is inside the name
      have h6 : (a ++ p)[a.length - 1]? = some c := by
        rw [List.getLast?_eq_getElem?] at hc
        rw [List.getElem?_append_left (by cases a <;> simp_all), hc]
      rw [← h4] at h6
      have hap : a ≠ [] := by rintro rfl; simp at hc
      have hpos : 0 < a.length := List.length_pos_iff.2 hap
      rw [List.append_assoc, List.getElem?_append_right (by omega)] at h6
      have := List.mem_of_getElem? h6
      simp only [List.mem_append, List.mem_singleton] at this
      rcases this with h | h
      · exact hw (h2.2 c h)
      · exact hcolon h
    · exact ⟨h1, h2, p, by rw [h4]; simp⟩

theorem LabelFree.map {t : Str} (h : LabelFree t) {lab : Str → Option Nat} (hl : IsLabelMap t lab) : lab = fun _ => none := by
  funext s
  cases hs : lab s with
  | none => rfl
  | some a =>
    obtain ⟨pre, hp, -⟩ := (hl s a).1 hs
    exact absurd hp.1 (h pre s)

theorem LabelFree.isMap {t : Str} (h : LabelFree t) : IsLabelMap t fun _ => none := by
  intro s a
  constructor
  · simp
  · rintro ⟨pre, hp, -⟩
    exact absurd hp.1 (h pre s)

theorem semicolon_not_word : ¬ wordChar ';' := by unfold wordChar letter; decide
theorem newline_not_word : ¬ wordChar '\n' := by unfold wordChar letter; decide

theorem LabelFree.append {a b : Str} (ha : LabelFree a) (hb : LabelFree b) (hs : a.getLast? = some ';') : LabelFree (a ++ b) := by
  intro pre name h
  rcases DefAt.front h hs semicolon_not_word (by decide) with h | ⟨pre', -, h⟩
  · exact ha _ _ h
  · exact hb _ _ h

theorem defAt_after {a b : Str} (ha : LabelFree a) (hs : a.getLast? = some '\n') {pre name : Str} :
    DefAt (a ++ b) pre name ↔ ∃ pre', pre = a ++ pre' ∧ DefAt b pre' name := by
  constructor
  · intro h
    rcases DefAt.front h hs newline_not_word (by decide) with h | h
    · exact absurd h (ha _ _)
    · exact h
  · rintro ⟨pre', rfl, h1, h2, rest, rfl⟩
    refine ⟨?_, h2, rest, by simp⟩
    rcases h1 with rfl | h1
    · right; simpa using hs
    · right; rw [List.getLast?_append, h1]; rfl

theorem firstDef_after {a b : Str} (ha : LabelFree a) (hs : a.getLast? = some '\n') {pre name : Str} :
    FirstDef (a ++ b) pre name ↔ ∃ pre', pre = a ++ pre' ∧ FirstDef b pre' name := by
  constructor
  · rintro ⟨h1, h2⟩
    obtain ⟨pre', rfl, h3⟩ := (defAt_after ha hs).1 h1
    refine ⟨pre', rfl, h3, fun p hp => ?_⟩
    have := h2 (a ++ p) ((defAt_after ha hs).2 ⟨p, rfl, hp⟩)
    simp only [List.length_append] at this
    omega
  · rintro ⟨pre', rfl, h1, h2⟩
    refine ⟨(defAt_after ha hs).2 ⟨pre', rfl, h1⟩, fun p hp => ?_⟩
    obtain ⟨p', rfl, h3⟩ := (defAt_after ha hs).1 hp
    have := h2 p' h3
    simp only [List.length_append]
    omega

/-- The labels of the second text are moved by whole groups. -/
theorem IsLabelMap.after {a b : Str} (ha : LabelFree a) (hs : a.getLast? = some '\n') {k : Nat} (hk : a.count ';' = 3 * k) {lab : Str → Option Nat}
    (hl : IsLabelMap b lab) : IsLabelMap (a ++ b) fun s => (lab s).map (· + 32 * k) := by
  intro name x
  simp only [Option.map_eq_some_iff]
  constructor
  · rintro ⟨y, hy, rfl⟩
    obtain ⟨pre, h1, rfl⟩ := (hl name y).1 hy
    refine ⟨a ++ pre, (firstDef_after ha hs).2 ⟨pre, rfl, h1⟩, ?_⟩
    rw [List.count_append, hk]
    unfold addressOf
    omega
  · rintro ⟨pre, h1, rfl⟩
    obtain ⟨pre', rfl, h2⟩ := (firstDef_after ha hs).1 h1
    refine ⟨_, (hl name _).2 ⟨pre', h2, rfl⟩, ?_⟩
    rw [List.count_append, hk]
    unfold addressOf
    omega

theorem Program.append {lab : Str → Option Nat} {i : Nat} {o o1 o2 : Opts} {ts ts' : List (Kind × Nat)} {ops ops' : List Op}
    (h : Program lab i o ts ops o1) (h' : Program lab (i + ops.length) o1 ts' ops' o2) : Program lab i o (ts ++ ts') (ops ++ ops') o2 := by
  induction h with
  | done => exact h'
  | insn h _ ih =>
    rw [List.append_assoc, List.cons_append]
    refine .insn h (ih ?_)
    rw [List.length_cons] at h'
    rw [Nat.add_assoc, Nat.add_comm 1]
    exact h'
  | option h hl _ ih =>
    rw [List.append_assoc, List.cons_append]
    exact .option h hl (ih h')

theorem groups_append {A B : List Op} (h : A.length % 3 = 0) : groups (A ++ B) = groups A ++ groups B := by
  induction A using groups.induct with
  | case1 => simp [groups]
  | case2 => simp at h
  | case3 => simp at h
  | case4 a b c rest ih =>
    simp only [List.cons_append, groups]
    rw [ih (by simp only [List.length_cons] at h; omega)]

/-! ### A declaration in front of a source -/

theorem Program.retype {lab : Str → Option Nat} {i : Nat} {o o' : Opts} {ts : List (Kind × Nat)} {ops : List Op} (h : Program lab i o ts ops o')
    (hn : ∀ t ∈ ts, ¬ IsDeclarator t.1) (q : Option ProgType) : Program lab i { o with type := q } ts ops { o' with type := q } := by
  induction h with
  | done => exact .done
  | insn h _ ih => exact .insn h (ih fun t ht => hn t (List.mem_append_right _ ht))
  | @option i o o1 o' t next ts rest ops h hl _ ih =>
    have ih := ih fun t ht => hn t (List.mem_append_right _ ht)
    cases h with
    | dksh => exact absurd (by decide : IsDeclarator (.ident c!".dksh")) (hn (_, _) (List.mem_cons_self ..))
    | type => exact absurd (by decide : IsDeclarator (.ident c!".type")) (hn (_, _) (List.mem_cons_self ..))
    | workgroup => exact .option (.workgroup (o := { o with type := q })) hl ih
    | shared => exact .option (.shared (o := { o with type := q })) hl ih
    | «local» => exact .option (.local (o := { o with type := q })) hl ih
    | other hd hx => exact .option (.other (o := { o with type := q }) hd hx) hl ih

theorem Scans.unshift {l n : Nat} {t : Str} {ts' : List (Kind × Nat)} (h : Scans (l + n) t ts') : ∃ ts, Scans l t ts ∧ ts' = Nxas.shift n ts := by
  generalize hm : l + n = m at h
  induction h generalizing l with
  | done h => exact ⟨[], .done h, rfl⟩
  | @token m s w rest k ts h1 h2 _ ih =>
    subst hm
    obtain ⟨ts0, h3, rfl⟩ := ih (l := l + lineAfter (s ++ w)) (by omega)
    refine ⟨_, .token h1 h2 h3, ?_⟩
    simp only [Nxas.shift, List.map_cons, List.cons.injEq, Prod.mk.injEq, true_and, and_true]
    omega

theorem Program.unshift {lab : Str → Option Nat} {i : Nat} {o o' : Opts} {ts : List (Kind × Nat)} {n : Nat} {ops : List Op}
    (h : Program lab i o (Nxas.shift n ts) ops o') : Program lab i o ts ops o' := by
  have := Program.relabel h (zs := ts.map fun t => (t.1, t.2 + n, t.2)) (by rw [List.map_map]; rfl) (by
    intro a ha b hb
    obtain ⟨a, -, rfl⟩ := List.mem_map.1 ha
    obtain ⟨b, -, rfl⟩ := List.mem_map.1 hb
    simp)
  rw [List.map_map] at this
  have he : ts.map ((fun z : Kind × Nat × Nat => (z.1, z.2.2)) ∘ fun t => (t.1, t.2 + n, t.2)) = ts := List.map_id ts
  rwa [he] at this

theorem IsLabelMap.unique {t : Str} {lab lab' : Str → Option Nat} (h : IsLabelMap t lab) (h' : IsLabelMap t lab') : lab = lab' := by
  funext s
  apply Option.ext
  intro a
  exact (h s a).trans (h' s a).symm

theorem exists_labels (t : Str) : ∃ lab, IsLabelMap t lab := by
  classical
  refine ⟨fun s => if h : ∃ pre, FirstDef t pre s then some (addressOf (h.choose.count ';')) else none, ?_⟩
  intro s a
  dsimp only
  constructor
  · intro h
    by_cases hp : ∃ pre, FirstDef t pre s
    · rw [dif_pos hp, Option.some.injEq] at h
      exact ⟨_, hp.choose_spec, h.symm⟩
    · rw [dif_neg hp] at h
      cases h
  · rintro ⟨pre, h, rfl⟩
    have hp : ∃ pre, FirstDef t pre s := ⟨pre, h⟩
    rw [dif_pos hp]
    have h1 := hp.choose_spec
    have hl : hp.choose.length = pre.length := le_antisymm (h1.2 _ h.1) (h.2 _ h1.1)
    obtain ⟨-, -, r, e⟩ := h.1
    obtain ⟨-, -, r', e'⟩ := h1.1
    have : hp.choose = pre := by
      have e2 := e.symm.trans e'
      rw [List.append_assoc, List.append_assoc] at e2
      exact (List.append_inj_left e2 hl.symm).symm
    rw [this]

theorem Lexes.congr {c c' : Cur} (h : tokenize c = tokenize c') {ts : List Token} : Lexes c ts ↔ Lexes c' ts := by
  cases ts with
  | nil =>
    constructor
    · rintro ⟨c1, h1, t, c2, h2, h3⟩
      cases h1
      exact ⟨c', .nil, t, c2, h ▸ h2, h3⟩
    · rintro ⟨c1, h1, t, c2, h2, h3⟩
      cases h1
      exact ⟨c, .nil, t, c2, h ▸ h2, h3⟩
  | cons t ts => rw [Lexes.cons_iff, Lexes.cons_iff, h]

/-- The option line `.type compute`. -/
abbrev typeLine : Str := c!".type compute\n"

theorem dotType_lexeme (t : Str) : Lexeme c!".type" (c!" compute\n" ++ t) (.ident c!".type") := by
  refine .word (.plain (.inr rfl) (by decide) (by unfold decimal; decide) (by decide) ?_) (by decide)
  intro c hc
  simp at hc
  subst hc
  decide

theorem compute_lexeme (t : Str) : Lexeme c!"compute" ('\n' :: t) (.ident c!"compute") := by
  refine .word (.plain (.inl (by decide)) (by decide) (by unfold decimal; decide) (by decide) ?_) (by decide)
  intro c hc
  simp at hc
  subst hc
  decide

theorem scans_typeLine {t : Str} (hz : '\x00' ∉ t) {ps : List (Kind × Nat)} : Scans 0 (typeLine ++ t) ps ↔
    ∃ ts, Scans 0 t ts ∧ ps = (.ident c!".type", 0) :: (.ident c!"compute", 0) :: shift 1 ts := by
  constructor
  · intro h
    have hz1 : '\x00' ∉ typeLine ++ t := by simp [hz]
    obtain ⟨ts, h1, rfl⟩ := (scans_iff (c := ⟨typeLine ++ t, 0, 0⟩) hz1).1 h
    have e1 := tokenize_lexeme (c := ⟨typeLine ++ t, 0, 0⟩) (w := c!".type") (rest := c!" compute\n" ++ t) hz1 rfl (dotType_lexeme t)
    cases ts with
    | nil =>
      obtain ⟨c', h0, t, c'', h2, h3⟩ := h1
      cases h0
      rw [e1] at h2
      cases h2
      simp at h3
    | cons x ts =>
      obtain ⟨c1, h2, -, h3⟩ := Lexes.cons_iff.1 h1
      rw [e1] at h2
      cases h2
      rw [Lexes.congr (tokenize_blank (x := ' ') (t := c!"compute\n" ++ t) rfl (by decide)), Cur.move_move] at h3
      have e2 := tokenize_lexeme (c := (Cur.mk (typeLine ++ t) 0 0).move (c!".type" ++ [' ']) (c!"compute\n" ++ t))
        (w := c!"compute") (rest := '\n' :: t)
        (show '\x00' ∉ c!"compute\n" ++ t by simp [hz]) rfl (compute_lexeme t)
      cases ts with
      | nil =>
        obtain ⟨c', h0, t, c'', h2, h4⟩ := h3
        cases h0
        rw [e2] at h2
        cases h2
        simp at h4
      | cons y ts =>
        obtain ⟨c2, h2, -, h4⟩ := Lexes.cons_iff.1 h3
        rw [e2] at h2
        cases h2
        rw [Cur.move_move, Lexes.congr (tokenize_blank (x := '\n') (t := t) rfl (by decide)), Cur.move_move] at h4
        have h5 := (scans_iff (c := (Cur.mk (typeLine ++ t) 0 0).move typeLine t) hz).2 ⟨ts, h4, rfl⟩
        obtain ⟨ts0, h6, h7⟩ := Scans.unshift (l := 0) (n := 1) h5
        refine ⟨ts0, h6, ?_⟩
        rw [← h7]
        rfl
  · rintro ⟨ts, h, rfl⟩
    refine .token (s := []) (w := c!".type") (rest := c!" compute\n" ++ t) .nil (dotType_lexeme t) ?_
    refine .token (s := [' ']) (w := c!"compute") (rest := '\n' :: t) (.blank (by decide) .nil) (compute_lexeme t) ?_
    exact Scans.blanks (s := ['\n']) (by decide) (Scans.shift h 1)

theorem typeLine_free : LabelFree typeLine := by
  rintro pre name ⟨h1, ⟨⟨c, cs, rfl, hc⟩, -⟩, rest, h3⟩
  rcases h1 with rfl | h1
  · simp only [typeLine, List.nil_append, List.cons_append, List.cons.injEq] at h3
    obtain ⟨rfl, -⟩ := h3
    revert hc
    unfold letter
    decide
  · have h4 := congrArg List.length h3
    have h5 : typeLine[pre.length - 1]? = some '\n' := by
      rw [h3, List.append_assoc, List.getElem?_append_left, ← List.getLast?_eq_getElem?, h1]
      cases pre <;> simp_all
    have h6 : ∀ i < 14, typeLine[i]? = some '\n' → i = 13 := by decide
    simp only [List.length_append, List.length_cons, typeLine] at h4
    have := h6 _ (by simp at h4; omega) h5
    simp at h4
    omega

end Nxas
