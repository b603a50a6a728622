import Verif.Spec.Arrange
import Verif.Lemmas.Solid
/-
Options in another order.
-/

namespace Nxas

open Spec

/-- What an option does, whatever the lines of its tokens. -/
def Effect (o : Opts) (v : List Kind) (o' : Opts) : Prop := ∃ ts : List (Kind × Nat), ts.map Prod.fst = v ∧ OptionText o ts o'

theorem Effect.line {o o' : Opts} {v : List Kind} (h : Effect o v o') (l : Nat) : OptionText o (v.map (·, l)) o' := by
  obtain ⟨ts, rfl, h⟩ := h
  cases h with
  | dksh ht hp => exact .dksh ht hp
  | type ht hp => exact .type ht hp
  | workgroup => exact .workgroup
  | shared => exact .shared
  | «local» => exact .local
  | other hd hn => exact .other hd hn

inductive Chain : Opts → List (List Kind) → Opts → Prop
  | nil {o : Opts} : Chain o [] o
  | cons {o o1 o' : Opts} {v : List Kind} {os : List (List Kind)} (h : Effect o v o1) (hr : Chain o1 os o') : Chain o (v :: os) o'

/-! ### What is left of the options -/

theorem chain_last {α : Type} (π : Opts → α) (p : List Kind → Bool) (val : List Kind → α)
    (hp : ∀ o v o', Effect o v o' → π o' = if p v then val v else π o) {o o' : Opts} {os : List (List Kind)} (h : Chain o os o') :
    π o' = ((os.filter p).getLast?.map val).getD (π o) := by
  induction h with
  | nil => rfl
  | @cons o o1 o' v os h _ ih =>
    rw [ih, hp _ _ _ h, List.filter_cons]
    split
    · rw [List.getLast?_cons]
      cases (os.filter p).getLast? <;> rfl
    · rfl

/-- The 32 bits of a number. -/
def small : Option Kind → BitVec 32
  | some (.imm x) => BitVec.ofInt 32 x
  | _ => 0

/-- The program type with this name. -/
def typed : Option Kind → Option ProgType
  | some (.ident w) => typeNames.lookup w
  | _ => none

theorem typeNames_lookup {w : Str} {p : ProgType} (h : (w, p) ∈ typeNames) : typeNames.lookup w = some p := by
  have : ∀ x ∈ typeNames, typeNames.lookup x.1 = some x.2 := by decide
  exact this _ h

theorem other_head {name w : Str} (hn : name ∉ optionNames) (hw : w ∈ optionNames) (xs : List Kind) : ¬ ((Kind.ident name :: xs).head? = some (.ident w)) := by
  intro h
  simp only [List.head?_cons, Option.some.injEq, Kind.ident.injEq] at h
  exact hn (h ▸ hw)

theorem effect_shared {o o' : Opts} {v : List Kind} (h : Effect o v o') :
    o'.sharedMem = if decide (v.head? = some (.ident c!".shared_memory")) then small v[1]? else o.sharedMem := by
  obtain ⟨ts, rfl, h⟩ := h
  cases h with
  | other hd hn => exact (if_neg fun h => other_head hn (w := c!".shared_memory") (by decide) [] (of_decide_eq_true h)).symm
  | _ => simp [small]

theorem effect_local {o o' : Opts} {v : List Kind} (h : Effect o v o') :
    o'.localMem = if decide (v.head? = some (.ident c!".local_memory")) then small v[1]? else o.localMem := by
  obtain ⟨ts, rfl, h⟩ := h
  cases h with
  | other hd hn => exact (if_neg fun h => other_head hn (w := c!".local_memory") (by decide) [] (of_decide_eq_true h)).symm
  | _ => simp [small]

theorem effect_workgroup {o o' : Opts} {v : List Kind} (h : Effect o v o') :
    o'.blockDims = if decide (v.head? = some (.ident c!".workgroup_size")) then (small v[1]?, small v[2]?, small v[3]?) else o.blockDims := by
  obtain ⟨ts, rfl, h⟩ := h
  cases h with
  | other hd hn => exact (if_neg fun h => other_head hn (w := c!".workgroup_size") (by decide) [] (of_decide_eq_true h)).symm
  | _ => simp [small]

theorem effect_dksh {o o' : Opts} {v : List Kind} (h : Effect o v o') :
    o'.isDksh = if decide (v.head? = some (.ident c!".dksh")) then true else o.isDksh := by
  obtain ⟨ts, rfl, h⟩ := h
  cases h with
  | other hd hn => exact (if_neg fun h => other_head hn (w := c!".dksh") (by decide) [] (of_decide_eq_true h)).symm
  | _ => simp

theorem effect_type {o o' : Opts} {v : List Kind} (h : Effect o v o') :
    o'.type = if decide (v.head? = some (.ident c!".dksh") ∨ v.head? = some (.ident c!".type")) then typed v[1]? else o.type := by
  obtain ⟨ts, rfl, h⟩ := h
  cases h with
  | dksh ht hp => simp [typed, typeNames_lookup hp]
  | type ht hp => simp [typed, typeNames_lookup hp]
  | other hd hn => exact (if_neg fun h => (of_decide_eq_true h).elim (other_head hn (by decide) []) (other_head hn (by decide) [])).symm
  | _ => simp

/-- The settings at the end are known from the declaration and the last sizes. -/
theorem chain_final {o a b : Opts} {os os' : List (List Kind)} (ha : Chain o os a) (hb : Chain o os' b) (hr : Rearranged os os') : b = a := by
  have hs : b.sharedMem = a.sharedMem := by
    rw [chain_last _ _ _ (fun _ _ _ => effect_shared) ha, chain_last _ _ _ (fun _ _ _ => effect_shared) hb]
    have := hr.last c!".shared_memory" (by simp)
    unfold named at this
    rw [this]
  have hl : b.localMem = a.localMem := by
    rw [chain_last _ _ _ (fun _ _ _ => effect_local) ha, chain_last _ _ _ (fun _ _ _ => effect_local) hb]
    have := hr.last c!".local_memory" (by simp)
    unfold named at this
    rw [this]
  have hw : b.blockDims = a.blockDims := by
    rw [chain_last _ _ _ (fun _ _ _ => effect_workgroup) ha, chain_last _ _ _ (fun _ _ _ => effect_workgroup) hb]
    have := hr.last c!".workgroup_size" (by simp)
    unfold named at this
    rw [this]
  have ht : b.type = a.type := by
    rw [chain_last _ _ _ (fun _ _ _ => effect_type) ha, chain_last _ _ _ (fun _ _ _ => effect_type) hb]
    have := hr.type
    unfold declarations at this
    rw [this]
  have hd : b.isDksh = a.isDksh := by
    rw [chain_last _ _ _ (fun _ _ _ => effect_dksh) ha, chain_last _ _ _ (fun _ _ _ => effect_dksh) hb]
    have key : ∀ l : List (List Kind), l.filter (fun v => decide (v.head? = some (.ident c!".dksh"))) =
        (declarations l).filter fun v => decide (v.head? = some (.ident c!".dksh")) := by
      intro l
      unfold declarations
      rw [List.filter_filter]
      apply List.filter_congr
      intro v _
      by_cases h : v.head? = some (.ident c!".dksh") <;> simp [h]
    rw [key os, key os', hr.type]
  obtain ⟨_, _, _, _, _⟩ := a
  obtain ⟨_, _, _, _, _⟩ := b
  simp only at hs hl hw ht hd
  simp only [hs, hl, hw, ht, hd]

/-! ### Other options that are accepted -/

theorem effect_other {o o' : Opts} {v : List Kind} (h : Effect o v o') (o1 : Opts)
    (hd : v.head? = some (.ident c!".dksh") ∨ v.head? = some (.ident c!".type") → o1.type = none) : ∃ o2, Effect o1 v o2 := by
  obtain ⟨ts, rfl, h⟩ := h
  cases h with
  | dksh ht hp => exact ⟨_, _, rfl, .dksh (hd (by simp)) hp⟩
  | type ht hp => exact ⟨_, _, rfl, .type (hd (by simp)) hp⟩
  | workgroup => exact ⟨_, _, rfl, .workgroup⟩
  | shared => exact ⟨_, _, rfl, .shared⟩
  | «local» => exact ⟨_, _, rfl, .local⟩
  | other hh hn => exact ⟨_, _, rfl, .other hh hn⟩

theorem effect_declares {o o' : Opts} {v : List Kind} (h : Effect o v o')
    (hd : v.head? = some (.ident c!".dksh") ∨ v.head? = some (.ident c!".type")) : o.type = none ∧ o'.type ≠ none := by
  obtain ⟨ts, rfl, h⟩ := h
  cases h with
  | dksh ht hp => exact ⟨ht, by simp⟩
  | type ht hp => exact ⟨ht, by simp⟩
  | other hd' hn =>
    rcases hd with hd | hd
    · exact (other_head hn (by decide) _ hd).elim
    · exact (other_head hn (by decide) _ hd).elim
  | _ => simp at hd

theorem chain_declarations {o o' : Opts} {os : List (List Kind)} (h : Chain o os o') :
    (declarations os).length ≤ 1 ∧ (o.type ≠ none → declarations os = []) ∧ ∀ v ∈ os, ∃ a b, Effect a v b := by
  induction h with
  | nil => exact ⟨by simp [declarations], fun _ => rfl, by simp⟩
  | @cons o o1 o' v os h _ ih =>
    obtain ⟨h1, h2, h3⟩ := ih
    refine ⟨?_, ?_, ?_⟩
    · by_cases hd : v.head? = some (.ident c!".dksh") ∨ v.head? = some (.ident c!".type")
      · have := h2 (effect_declares h hd).2
        unfold declarations at this ⊢
        rw [List.filter_cons_of_pos (by simpa using hd), this]
        simp
      · unfold declarations at h1 ⊢
        rwa [List.filter_cons_of_neg (by simpa using hd)]
    · intro ht
      by_cases hd : v.head? = some (.ident c!".dksh") ∨ v.head? = some (.ident c!".type")
      · exact (ht (effect_declares h hd).1).elim
      · have h4 : o1.type = o.type := by
          rw [effect_type h, if_neg (by simpa using hd)]
        have := h2 (h4 ▸ ht)
        unfold declarations at this ⊢
        rwa [List.filter_cons_of_neg (by simpa using hd)]
    · intro x hx
      rcases List.mem_cons.1 hx with rfl | hx
      · exact ⟨_, _, h⟩
      · exact h3 x hx

theorem chain_exists {os : List (List Kind)} (hv : ∀ v ∈ os, ∃ a b, Effect a v b) (hn : (declarations os).length ≤ 1) {o : Opts}
    (ho : o.type ≠ none → declarations os = []) : ∃ o', Chain o os o' := by
  induction os generalizing o with
  | nil => exact ⟨o, .nil⟩
  | cons v os ih =>
    obtain ⟨a, b, h⟩ := hv v (by simp)
    by_cases hd : v.head? = some (.ident c!".dksh") ∨ v.head? = some (.ident c!".type")
    · have hc : declarations (v :: os) = v :: declarations os := List.filter_cons_of_pos (by simpa using hd)
      have ht : o.type = none := by
        by_contra hc'
        have := ho hc'
        rw [hc] at this
        cases this
      have he : declarations os = [] := by
        rw [hc] at hn
        exact List.length_eq_zero_iff.1 (by simpa using hn)
      obtain ⟨o1, h1⟩ := effect_other h o fun _ => ht
      obtain ⟨o', h2⟩ := ih (fun v hm => hv v (by simp [hm])) (by simp [he]) (o := o1) fun _ => he
      exact ⟨o', .cons h1 h2⟩
    · have hc : declarations (v :: os) = declarations os := List.filter_cons_of_neg (by simpa using hd)
      rw [hc] at hn ho
      obtain ⟨o1, h1⟩ := effect_other h o fun h => (hd h).elim
      have h4 : o1.type = o.type := by
        rw [effect_type h1, if_neg (by simpa using hd)]
      obtain ⟨o', h2⟩ := ih (fun v hm => hv v (by simp [hm])) hn (o := o1) fun h => ho (h4 ▸ h)
      exact ⟨o', .cons h1 h2⟩

theorem chain_rearranged {o : Opts} {os os' : List (List Kind)} (h : Chain {} os o) (hr : Rearranged os os') : Chain {} os' o := by
  obtain ⟨h1, -, h3⟩ := chain_declarations h
  obtain ⟨o', h4⟩ := chain_exists (os := os') (o := {}) (fun v hm => h3 v (hr.sub v hm)) (hr.type ▸ h1) (fun h => (h rfl).elim)
  rwa [chain_final h h4 hr] at h4

/-! ### Programs -/

theorem Listed.unique {ks : List Kind} {us us' os os' : List (List Kind)} (h : Listed ks us os) (h' : Listed ks us' os') : us = us' ∧ os = os' := by
  induction h generalizing us' os' with
  | done =>
    generalize hx : ([] : List Kind) = x at h'
    cases h' with
    | done => exact ⟨rfl, rfl⟩
    | insn => simp at hx
    | option => simp at hx
  | @insn k u rest us os hk hs _ ih =>
    generalize hx : k :: u ++ .semicolon :: rest = x at h'
    cases h' with
    | done => simp at hx
    | @insn k' u' rest' us' os' hk' hs' h' =>
      obtain ⟨e, rfl⟩ := cut_at hs hs' hx
      obtain ⟨rfl, rfl⟩ := ih h'
      exact ⟨by rw [e], rfl⟩
    | @option w vs rest' _ _ hw hv h' =>
      simp only [List.cons_append, List.cons.injEq] at hx
      exact absurd ⟨w, hx.1, hw⟩ hk
  | @option w vs rest us os hw hv _ ih =>
    generalize hx : Kind.ident w :: vs ++ rest = x at h'
    cases h' with
    | done => simp at hx
    | @insn k' u' rest' us' os' hk' hs' h' =>
      simp only [List.cons_append, List.cons.injEq] at hx
      exact absurd ⟨w, hx.1.symm, hw⟩ hk'
    | @option w' vs' rest' _ _ hw' hv' h' =>
      simp only [List.cons_append, List.cons.injEq, Kind.ident.injEq] at hx
      obtain ⟨rfl, hx⟩ := hx
      obtain ⟨rfl, rfl⟩ := List.append_inj hx (by rw [hv, hv'])
      obtain ⟨rfl, rfl⟩ := ih h'
      exact ⟨rfl, rfl⟩

theorem instr_shape {e : Env} {ks : List Kind} {op : Op} (h : InstrText e ks op) : ∃ k u, ks = k :: u ++ [.semicolon] ∧ ¬ IsOptionWord k ∧ .semicolon ∉ k :: u := by
  obtain ⟨u, rfl, hs⟩ := instr_semicolon h
  obtain ⟨k, x, e', hk⟩ := InstrText.start h
  cases u with
  | nil =>
    exfalso
    obtain ⟨ks, hks⟩ : ∃ ks : List Kind, [] ++ [Kind.semicolon] = ks := ⟨_, rfl⟩
    rw [hks] at h
    cases h with | @mk g row
    rcases g with - | ⟨p, n⟩ <;> simp [guardTokens] at hks
  | cons k' u =>
    simp only [List.cons_append, List.cons.injEq] at e'
    exact ⟨k', u, rfl, e'.1 ▸ hk, hs⟩

/-- The instructions of the program, each with its tokens and its number. -/
inductive Codes (f : Str → Option Nat) : Nat → List (List Kind) → List Op → Prop
  | nil {i : Nat} : Codes f i [] []
  | cons {i : Nat} {u : List Kind} {us : List (List Kind)} {op : Op} {ops : List Op} (h : InstrText ⟨f, addressOf i⟩ u op) (hr : Codes f (i + 1) us ops) :
      Codes f i (u :: us) (op :: ops)

theorem program_listed {f : Str → Option Nat} {i : Nat} {o o' : Opts} {ts : List (Kind × Nat)} {ops : List Op} (h : Program f i o ts ops o') :
    ∃ us os, Listed (ts.map Prod.fst) us os ∧ Codes f i us ops ∧ Chain o os o' := by
  induction h with
  | done => exact ⟨[], [], .done, .nil, .nil⟩
  | @insn i o o' ts rest op ops h _ ih =>
    obtain ⟨us, os, h1, h2, h3⟩ := ih
    obtain ⟨k, u, e, hk, hs⟩ := instr_shape h
    refine ⟨ts.map Prod.fst :: us, os, ?_, .cons h h2, h3⟩
    rw [List.map_append, e, List.append_assoc]
    exact .insn hk hs h1
  | @option i o o1 o' t next ts rest ops h hl _ ih =>
    obtain ⟨us, os, h1, h2, h3⟩ := ih
    obtain ⟨w, e, hw, hv⟩ := OptionText.values h
    refine ⟨us, (t :: ts).map Prod.fst :: os, ?_, h2, .cons ⟨_, rfl, h⟩ h3⟩
    rw [List.map_append, List.map_cons, e]
    exact .option hw (by simpa using hv) h1

theorem neat_program {f : Str → Option Nat} {i : Nat} {o o' : Opts} {ts : List (Kind × Nat)} {us os : List (List Kind)} {ops : List Op} (hn : Neat ts us os)
    (hc : Codes f i us ops) (ho : Chain o os o') : Program f i o ts ops o' := by
  induction hn generalizing i o ops with
  | done =>
    cases hc
    cases ho
    exact .done
  | @insn ts rest us os _ ih =>
    cases hc with | cons h hr
    exact .insn h (ih hr ho)
  | @option v l next rest us os hl _ ih =>
    cases ho with | cons h hr
    have h1 := h.line l
    obtain ⟨t, xs, hx⟩ : ∃ t xs, v.map (·, l) = (t, l) :: xs := by
      cases v with
      | nil => cases h1
      | cons k v => exact ⟨k, _, rfl⟩
    rw [hx] at h1 ⊢
    exact .option h1 hl (ih hc hr)

theorem neat_listed {f : Str → Option Nat} {i : Nat} {o o' : Opts} {ts : List (Kind × Nat)} {us os : List (List Kind)} {ops : List Op} (hn : Neat ts us os)
    (hc : Codes f i us ops) (ho : Chain o os o') : Listed (ts.map Prod.fst) us os := by
  induction hn generalizing i o ops with
  | done => exact .done
  | @insn ts rest us os _ ih =>
    cases hc with | cons h hr
    obtain ⟨k, u, e, hk, hs⟩ := instr_shape h
    rw [List.map_append, e, List.append_assoc]
    exact .insn hk hs (ih hr ho)
  | @option v l next rest us os hl _ ih =>
    cases ho with | cons h hr
    have h1 := h.line l
    have h2 := ih hc hr
    cases v with
    | nil => cases h1
    | cons k v =>
      obtain ⟨w, e, hw, hv⟩ := OptionText.values h1
      obtain rfl : k = .ident w := e
      rw [List.map_append, List.map_map, show (Prod.fst ∘ fun x : Kind => (x, l)) = id from rfl, List.map_id]
      exact .option hw (by simpa using hv) h2

theorem Listed.splits {ks : List Kind} {us os : List (List Kind)} (h : Listed ks us os) : Splits ks us := by
  induction h with
  | done => exact .done
  | insn hk hs _ ih => exact .insn hk hs ih
  | option hw hv _ ih => exact .option hw hv ih

end Nxas
