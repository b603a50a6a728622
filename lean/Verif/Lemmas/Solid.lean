import Verif.Props.Clash
import Verif.Lemmas.Compose
import Verif.Lemmas.Declared
import Verif.Spec.Solid
/-
Failing assertions, instruction by instruction.
-/

namespace Nxas

open Spec

/-! ### A clash does not depend on the place of the instruction -/

theorem target_last : insnTable.all (fun r => r.operands.dropLast.all fun o => !o.target) = true := by decide +kernel

theorem sequence_still {e e' : Env} {os : List Operand} {v v' : BitVec 64} {ks : List Kind} {k : Kind} {r : BitVec 32}
    (hos : ∀ o ∈ os, o.target = false) (h : Sequence e os v ks k v' r) : Sequence e' os v ks k v' r := by
  induction h with
  | nil => exact .nil
  | cons h _ ih => exact .cons (accepts_env (hos _ (by simp)) h) (ih fun o ho => hos o (by simp [ho]))

theorem _root_.Nxas.Spec.InsnClash.still {e e' : Env} {ks : List Kind} (h : InsnClash e ks) : InsnClash e' ks := by
  cases h with | @mk g row os os' o ks more k v r hr hg hs ho h
  refine .mk hr hg hs (sequence_still (fun x hx => ?_) ho) h
  have := List.all_eq_true.1 (List.all_eq_true.1 target_last row hr) x (by
    rw [hs, List.dropLast_append_of_ne_nil (by simp)]
    exact List.mem_append_left _ hx)
  simpa using this

/-! ### Semicolons -/

theorem OperandClash.first {v : BitVec 64} {o : Operand} {k : Kind} {more : List Kind} (h : OperandClash v o (k :: more)) :
    k ≠ .semicolon ∧ more.length ≤ 1 := by
  cases h with
  | operation hk => exact ⟨Entry.ne_semicolon hk, by simp⟩
  | part hk => exact ⟨Entry.ne_semicolon hk, by simp⟩
  | _ => simp

/-- Only the last token of a clash can be a semicolon. -/
theorem InsnClash.semicolon {e : Env} {ks : List Kind} (h : InsnClash e ks) : ∃ q r, ks = q ++ r ∧ .semicolon ∉ q ∧ r.length ≤ 1 := by
  cases h with | @mk g row os os' o ks more k v r hr hg hs ho h
  obtain ⟨h1, h2⟩ := OperandClash.first h
  refine ⟨guardTokens g ++ .ident row.mnemonic :: (ks ++ [k]), more, by simp, ?_, h2⟩
  have := sequence_no_semicolon ho
  rcases g with - | ⟨p, n⟩ <;> simp [guardTokens, this, h1.symm]

/-- A clash at the beginning of an instruction is within the instruction. -/
theorem InsnClash.inside {e : Env} {ks u rest : List Kind} (h : InsnClash e ks) (hp : ks <+: u ++ .semicolon :: rest) : ks <+: u ++ [.semicolon] := by
  obtain ⟨q, r, rfl, hq, hr⟩ := InsnClash.semicolon h
  by_cases hl : (q ++ r).length ≤ (u ++ [Kind.semicolon]).length
  · refine List.prefix_of_prefix_length_le hp ?_ hl
    exact ⟨rest, by simp⟩
  · exfalso
    apply hq
    have h1 : q <+: u ++ .semicolon :: rest := (List.prefix_append q r).trans hp
    have h2 : u ++ [Kind.semicolon] <+: u ++ .semicolon :: rest := ⟨rest, by simp⟩
    have h3 : u ++ [Kind.semicolon] <+: q := List.prefix_of_prefix_length_le h2 h1 (by
      rw [List.length_append] at hl ⊢
      simp only [List.length_append, List.length_cons, List.length_nil] at hl ⊢
      omega)
    exact h3.subset (by simp)

theorem InsnClash.start {e : Env} {k : Kind} {ks : List Kind} (h : InsnClash e (k :: ks)) : ¬ IsOptionWord k := by
  have h1 := Spec.InsnClash.head (e := e) (t := ⟨k, 0, 0⟩) (ts := ks.map fun k => ⟨k, 0, 0⟩) (by simpa [Function.comp_def] using h)
  rintro ⟨w, rfl, hw⟩
  simp [Token.isOption, hw] at h1

/-! ### Options -/

theorem OptionText.values {o o' : Opts} {t : Kind × Nat} {ts : List (Kind × Nat)} (h : OptionText o (t :: ts) o') :
    ∃ w, t.1 = .ident w ∧ w.head? = some '.' ∧ ts.length = optionValues w := by
  cases h with
  | other hd hn =>
    refine ⟨_, rfl, hd, ?_⟩
    simp only [optionNames, List.mem_cons, List.not_mem_nil, or_false, not_or] at hn
    simp [optionValues, hn]
  | _ => exact ⟨_, rfl, rfl, rfl⟩

/-! ### Splitting -/

theorem cut_at {a b r s : List Kind} (ha : Kind.semicolon ∉ a) (hb : .semicolon ∉ b) (h : a ++ .semicolon :: r = b ++ .semicolon :: s) :
    a = b ∧ r = s := by
  induction a generalizing b with
  | nil =>
    cases b with
    | nil => simpa using h
    | cons y b => simp only [List.nil_append, List.cons_append, List.cons.injEq] at h; rw [← h.1] at hb; simp at hb
  | cons x a ih =>
    cases b with
    | nil => simp only [List.nil_append, List.cons_append, List.cons.injEq] at h; rw [h.1] at ha; simp at ha
    | cons y b =>
      simp only [List.cons_append, List.cons.injEq] at h
      obtain ⟨rfl, rfl⟩ := ih (fun hm => ha (by simp [hm])) (fun hm => hb (by simp [hm])) h.2
      exact ⟨by rw [h.1], rfl⟩

theorem Splits.unique {ks : List Kind} {us us' : List (List Kind)} (h : Splits ks us) (h' : Splits ks us') : us = us' := by
  induction h generalizing us' with
  | done =>
    generalize hx : ([] : List Kind) = x at h'
    cases h' with
    | done => rfl
    | insn => simp at hx
    | option => simp at hx
  | @insn k u rest us hk hs _ ih =>
    generalize hx : k :: u ++ .semicolon :: rest = x at h'
    cases h' with
    | done => simp at hx
    | @insn k' u' rest' us' hk' hs' h' =>
      obtain ⟨e, rfl⟩ := cut_at hs hs' hx
      rw [e, ih h']
    | @option w vs rest' _ hw hv h' =>
      simp only [List.cons_append, List.cons.injEq] at hx
      exact absurd ⟨w, hx.1, hw⟩ hk
  | @option w vs rest us hw hv _ ih =>
    generalize hx : Kind.ident w :: vs ++ rest = x at h'
    cases h' with
    | done => simp at hx
    | @insn k' u' rest' us' hk' hs' h' =>
      simp only [List.cons_append, List.cons.injEq] at hx
      exact absurd ⟨w, hx.1.symm, hw⟩ hk'
    | @option w' vs' rest' _ hw' hv' h' =>
      simp only [List.cons_append, List.cons.injEq, Kind.ident.injEq] at hx
      obtain ⟨rfl, hx⟩ := hx
      obtain ⟨-, rfl⟩ := List.append_inj hx (by rw [hv, hv'])
      exact ih h'

theorem Splits.append {ks ks' : List Kind} {us us' : List (List Kind)} (h : Splits ks us) (h' : Splits ks' us') : Splits (ks ++ ks') (us ++ us') := by
  induction h with
  | done => exact h'
  | insn hk hs _ ih => simpa using Splits.insn hk hs ih
  | option hw hv _ ih => simpa using Splits.option hw hv ih

/-- A program splits into as many instructions as it has, and a clash in one of them is one of the program. -/
theorem program_splits {lab : Str → Option Nat} {i : Nat} {o o' : Opts} {ts : List (Kind × Nat)} {ops : List Op} (h : Program lab i o ts ops o') :
    ∃ us, Splits (ts.map Prod.fst) us ∧ us.length = ops.length ∧ ∀ u ∈ us, Unsound u → ∃ ps, ps <+: ts ∧ Clashes lab i o ps := by
  induction h with
  | done => exact ⟨[], .done, rfl, by simp⟩
  | @insn i o o' ts rest op ops h _ ih =>
    obtain ⟨us, h1, h2, h3⟩ := ih
    obtain ⟨u, e, hs⟩ := instr_semicolon h
    obtain ⟨k, x, e', hk⟩ := InstrText.start h
    rw [e] at e'
    cases u with
    | nil =>
      exfalso
      rw [e] at h
      obtain ⟨ks, hks⟩ : ∃ ks : List Kind, [] ++ [Kind.semicolon] = ks := ⟨_, rfl⟩
      rw [hks] at h
      cases h with | @mk g row
      rcases g with - | ⟨p, n⟩ <;> simp [guardTokens] at hks
    | cons k' u =>
      simp only [List.cons_append, List.cons.injEq] at e'
      rw [← e'.1] at hk
      refine ⟨(k' :: u ++ [.semicolon]) :: us, ?_, by simp [h2], ?_⟩
      · rw [List.map_append, e, List.append_assoc]
        exact .insn hk hs h1
      · intro v hv hu
        rcases List.mem_cons.1 hv with rfl | hv
        · obtain ⟨e0, ks, hp, hc⟩ := hu
          rw [← e] at hp
          obtain ⟨ps, hps, rfl⟩ : ∃ ps, ps <+: ts ∧ ps.map Prod.fst = ks := by
            refine ⟨ts.take ks.length, List.take_prefix _ _, ?_⟩
            rw [List.map_take]
            exact (List.prefix_iff_eq_take.1 hp).symm
          exact ⟨ps, hps.trans (List.prefix_append _ _), .here hc.still⟩
        · obtain ⟨ps, h4, h5⟩ := h3 v hv hu
          exact ⟨ts ++ ps, (List.prefix_append_right_inj _).2 h4, .insn h h5⟩
  | @option i o o1 o' t next ts rest ops h hl _ ih =>
    obtain ⟨us, h1, h2, h3⟩ := ih
    obtain ⟨w, e, hw, hv⟩ := OptionText.values h
    refine ⟨us, ?_, h2, ?_⟩
    · rw [List.map_append, List.map_cons, e]
      exact .option hw (by simpa using hv) h1
    · intro v hv hu
      obtain ⟨ps, h4, h5⟩ := h3 v hv hu
      cases ps with
      | nil => exact absurd rfl h5.ne_nil
      | cons p ps =>
        obtain ⟨rfl, -⟩ := List.cons_prefix_cons.1 h4
        exact ⟨t :: ts ++ p :: ps, (List.prefix_append_right_inj _).2 h4, .option h hl h5⟩

/-- A clash of a program is one of its instructions. -/
theorem clashes_splits {lab : Str → Option Nat} {i : Nat} {o : Opts} {ps : List (Kind × Nat)} (h : Clashes lab i o ps) {ks : List Kind}
    {us : List (List Kind)} (hu : Splits ks us) (hp : ps.map Prod.fst <+: ks ++ [.none]) : ∃ u ∈ us, Unsound u := by
  induction h generalizing ks us with
  | @here i o ps h =>
    induction hu with
    | done =>
      exfalso
      have hn := h.ne_nil
      cases hps : ps with
      | nil => simp [hps] at hn
      | cons p ps' =>
        rw [hps] at hp h
        simp only [List.map_cons, List.nil_append, List.cons_prefix_cons] at hp
        exact (Clashes.here (o := o) h).head_ne_none hp.1
    | @insn k u rest us hk hs hr ih =>
      refine ⟨_, by simp, _, _, InsnClash.inside h (u := k :: u) (rest := rest ++ [.none]) (by simpa using hp), h⟩
    | @option w vs rest us hw hv hr ih =>
      exfalso
      have hn := h.ne_nil
      cases hps : ps.map Prod.fst with
      | nil => exact hn hps
      | cons p ps' =>
        rw [hps] at hp h
        simp only [List.cons_append, List.cons_prefix_cons] at hp
        exact InsnClash.start h ⟨w, hp.1, hw⟩
  | @insn i o ts rest op h hr ih =>
    obtain ⟨v, e, hv⟩ := instr_semicolon h
    obtain ⟨k0, x, e', hk0⟩ := InstrText.start h
    rw [List.map_append, e] at hp
    cases hu with
    | done =>
      exfalso
      have hle := hp.length_le
      have hne : rest ≠ [] := hr.ne_nil
      have : 0 < rest.length := List.length_pos_iff.2 hne
      simp at hle
      omega
    | @insn k u rest' us hk hs hu =>
      obtain ⟨z, hz⟩ := hp
      obtain ⟨-, e2⟩ := cut_at (a := v) (b := k :: u) (r := rest.map Prod.fst ++ z) (s := rest' ++ [.none]) hv hs (by simpa using hz)
      obtain ⟨u', h1, h2⟩ := ih hu ⟨z, e2⟩
      exact ⟨u', by simp [h1], h2⟩
    | @option w vs rest' us hw hv' hu =>
      exfalso
      rw [← e, e'] at hp
      simp only [List.cons_append, List.cons_prefix_cons] at hp
      exact hk0 ⟨w, hp.1, hw⟩
  | @option i o o1 t next ts rest h hl hr ih =>
    obtain ⟨w, e, hw, hv⟩ := OptionText.values h
    rw [List.map_append, List.map_cons, e] at hp
    cases hu with
    | done =>
      exfalso
      simp at hp
    | @insn k u rest' us hk hs hu =>
      exfalso
      simp only [List.cons_append, List.cons_prefix_cons] at hp
      exact hk ⟨w, hp.1.symm, hw⟩
    | @option w' vs rest' us hw' hv' hu =>
      obtain ⟨z, hz⟩ := hp
      simp only [List.cons_append, List.cons.injEq, Kind.ident.injEq, List.append_assoc] at hz
      obtain ⟨rfl, hz⟩ := hz
      obtain ⟨-, e2⟩ := List.append_inj hz (by simp [hv, hv'])
      exact ih hu ⟨z, e2⟩

/-! ### The first tokens of a source -/

theorem peeks_lexes {c : Cur} {as bs : List Token} (h : Peeks c as) (hb : Lexes c bs) :
    as.map Token.kind <+: bs.map Token.kind ++ [.none] := by
  induction h generalizing bs with
  | nil => exact List.nil_prefix
  | @last c c1 t h =>
    cases bs with
    | nil =>
      obtain ⟨c', h0, t', c'', h1, h2⟩ := hb
      cases h0
      rw [h] at h1
      cases h1
      simp [h2]
    | cons b bs =>
      obtain ⟨c1, h3, h4, -⟩ := Lexes.cons_iff.1 hb
      rw [h] at h3
      cases h3
      simp
  | @cons c c1 t ts h hk hr ih =>
    cases bs with
    | nil =>
      obtain ⟨c', h0, t', c'', h1, h2⟩ := hb
      cases h0
      rw [h] at h1
      cases h1
      exact absurd h2 hk
    | cons b bs =>
      obtain ⟨c1, h3, h4, h5⟩ := Lexes.cons_iff.1 hb
      rw [h] at h3
      cases h3
      simpa using ih h5

theorem starts_prefix {l : Nat} {t : Str} (hz : '\x00' ∉ t) {ps ts : List (Kind × Nat)} (h : Starts l t ps) (hs : Scans l t ts) :
    ps.map Prod.fst <+: ts.map Prod.fst ++ [.none] := by
  obtain ⟨as, h1, rfl⟩ := (starts_iff (c := ⟨t, l, 0⟩) hz).1 h
  obtain ⟨bs, h2, rfl⟩ := (scans_iff (c := ⟨t, l, 0⟩) hz).1 hs
  simpa [Function.comp_def, Token.pair] using peeks_lexes h1 h2

theorem starts_of_scans {l : Nat} {t : Str} {ts : List (Kind × Nat)} (h : Scans l t ts) {ps : List (Kind × Nat)} (hp : ps <+: ts) : Starts l t ps := by
  induction h generalizing ps with
  | done => obtain rfl := List.prefix_nil.1 hp; exact .nil
  | @token l s w rest k ts hs hw _ ih =>
    cases ps with
    | nil => exact .nil
    | cons p ps =>
      obtain ⟨rfl, hp'⟩ := List.cons_prefix_cons.1 hp
      exact .token hs hw (ih hp')

/-- On a source accepted without assertions one of them fails if there are not as many instructions as semicolons, or on one of the
    instructions. -/
theorem aborts_iff {code : Str} {ws : List (BitVec 64)} (h : assemble false code = .ok ws) {ts : List (Kind × Nat)} (hs : Scans 0 (visible code) ts)
    {us : List (List Kind)} (hu : Splits (ts.map Prod.fst) us) : Aborts code ↔ us.length ≠ code.count ';' ∨ ∃ u ∈ us, Unsound u := by
  obtain ⟨f, ts', ops, o, hl, s1, p1, -⟩ := accepted h
  obtain rfl := scans_unique (visible_no_nul code) hs s1
  obtain ⟨us', h1, h2, h3⟩ := program_splits p1
  obtain rfl := Splits.unique hu h1
  constructor
  · rintro (⟨hw, hl', hst, hc⟩ | ⟨hl', hs', hp, hn⟩)
    · exact .inr (clashes_splits hc hu (starts_prefix (visible_no_nul code) hst hs))
    · obtain rfl := scans_unique (visible_no_nul code) hs hs'
      obtain ⟨us', h4, h5, -⟩ := program_splits hp
      obtain rfl := Splits.unique hu h4
      exact .inl (by rwa [h5])
  · rintro (hn | ⟨u, hm, hun⟩)
    · exact .count hl hs p1 (by rwa [← h2])
    · obtain ⟨ps, h4, h5⟩ := h3 u hm hun
      exact .clash (Scans.no_word hs p1.ending) hl (starts_of_scans hs h4) h5

end Nxas
