import Verif.Lemmas.Retarget
import Verif.Lemmas.Entry
/-
Instructions at other addresses.
-/

namespace Nxas

open Spec

/-- The address can be the target of a branch. -/
def Near (e : Env) (x : Int) : Prop := -(2 ^ 23) ≤ x - e.pc - 8 ∧ x - e.pc - 8 < 2 ^ 23

theorem accepts_shift {e : Env} {v : BitVec 64} {ks : List Kind} {k : Kind} {b : BitVec 64} {r : BitVec 32} (h : Accepts e v .label ks k b r) :
    ∃ t x, ks = [t] ∧ Near e x ∧ ∀ e' t' k', Denotes e'.label t' (x + e'.pc - e.pc) → Accepts e' v .label [t'] k' b r := by
  obtain ⟨h1, x, h2, h3, h4, h5⟩ := h
  have hall : ∀ (e' : Env) t' k', Denotes e'.label t' (x + e'.pc - e.pc) → Accepts e' v .label [t'] k' b r := by
    intro e' t' k' hd
    have he : x + e'.pc - e.pc - e'.pc - 8 = x - e.pc - 8 := by omega
    refine ⟨h1, x + e'.pc - e.pc, ?_, by rwa [he], by rwa [he], by rwa [he]⟩
    generalize x + (e'.pc : Int) - e.pc = y at hd
    cases hd with
    | label h => exact .inl ⟨_, _, rfl, h, rfl⟩
    | number => exact .inr rfl
  rcases h2 with ⟨s, a, rfl, ha, rfl⟩ | rfl
  · exact ⟨_, _, rfl, ⟨h3, h4⟩, hall⟩
  · exact ⟨_, _, rfl, ⟨h3, h4⟩, hall⟩

/-- A branch can be moved when its target is. -/
theorem sequence_shift {e : Env} (os : List Operand) (hos : leadIn os = true) {v v' : BitVec 64} {ks : List Kind} {k : Kind} {r : BitVec 32}
    (h : Sequence e (os ++ [.label]) v ks k v' r) :
    ∃ ks1 t x, ks = ks1 ++ [t] ∧ Near e x ∧
      ∀ e' t', Named e'.label → Denotes e'.label t' (x + e'.pc - e.pc) → Sequence e' (os ++ [.label]) v (ks1 ++ [t']) k v' r := by
  induction os using leadIn.induct generalizing v ks r with
  | case1 =>
    cases h with
    | @cons _ _ _ b _ ks ks' _ r r' h hs =>
      cases hs with
      | nil =>
        obtain ⟨t, x, rfl, h1, h2⟩ := accepts_shift h
        refine ⟨[], t, x, by simp, h1, fun e' t' hn hd => ?_⟩
        have := Sequence.cons (ks := [t']) (h2 e' t' (([] : List Kind).headD k) hd) (Sequence.nil (e := e') (v := (v &&& ~~~clears .label) ||| b) (k := k))
        simpa using this
  | case2 s a os ih =>
    simp only [leadIn, Bool.and_eq_true, beq_iff_eq] at hos
    cases h with
    | @cons _ _ _ b _ ks ks' _ r r' h hs =>
      obtain ⟨ks1, t, x, rfl, h1, h3⟩ := ih hos.2 hs
      refine ⟨ks ++ ks1, t, x, by simp, h1, fun e' t' hn hd => ?_⟩
      rw [List.append_assoc]
      exact .cons (accepts_ahead (.inl ⟨s, a, rfl, hos.1.1⟩) (headD_swap (Denotes.noDot hn hd)) h) (h3 e' t' hn hd)
  | case3 d a t0 os ih =>
    simp only [leadIn, Bool.and_eq_true] at hos
    cases h with
    | @cons _ _ _ b _ ks ks' _ r r' h hs =>
      obtain ⟨ks1, t, x, rfl, h1, h3⟩ := ih hos.2 hs
      refine ⟨ks ++ ks1, t, x, by simp, h1, fun e' t' hn hd => ?_⟩
      rw [List.append_assoc]
      exact .cons (accepts_ahead (.inr ⟨d, a, t0, rfl⟩) (headD_swap (Denotes.noDot hn hd)) h) (h3 e' t' hn hd)
  | case4 a t0 os ih =>
    simp only [leadIn, Bool.and_eq_true] at hos
    cases h with
    | @cons _ _ _ b _ ks ks' _ r r' h hs =>
      cases hs with
      | @cons _ _ _ b' _ kc ks' _ rc r' hc hs =>
        obtain ⟨ks1, t, x, rfl, h1, h3⟩ := ih hos.2 hs
        obtain ⟨hr, rfl, hb⟩ := hc
        refine ⟨ks ++ ([.comma] ++ ks1), t, x, by simp, h1, fun e' t' hn hd => ?_⟩
        rw [List.append_assoc, List.append_assoc]
        exact .cons (accepts_env (o := .ccTests a t0) rfl h) (.cons (⟨hr, rfl, hb⟩ : Accepts e' _ .comma _ _ _ _) (h3 e' t' hn hd))
  | case5 os h1 h2 h3 h4 => simp [leadIn] at hos


/-- An instruction can be moved to any address, with its target if it is a branch. -/
theorem instr_shift {e : Env} {ks : List Kind} {op : Op} (h : InstrText e ks op) (hw : ∀ x ∈ ks, Writable x) {pc : Nat} (hp : pc < 2 ^ 62) :
    ∃ ks', (∀ x ∈ ks', Writable x) ∧ InstrText ⟨fun _ => none, pc⟩ ks' op := by
  obtain ⟨g, row, hrow, ks, rfl, hr⟩ := C70_grammar.1 h
  have ht := List.all_eq_true.1 target_rows row hrow
  rw [Bool.and_eq_true, Bool.or_eq_true] at ht
  rcases ht.2 with ht | ht
  · simp only [Bool.and_eq_true, List.all_eq_true, Bool.not_eq_true', List.contains_eq_mem, decide_eq_false_iff_not] at ht
    exact ⟨_, hw, C70_grammar.2 ⟨g, row, hrow, _, rfl, rowText_any hrow ht.2 hr⟩⟩
  · simp only [Bool.and_eq_true, List.contains_eq_mem, decide_eq_true_eq, beq_iff_eq] at ht
    obtain ⟨⟨hm, hl⟩, hd⟩ := ht
    have hops : row.operands.dropLast ++ [.label] = row.operands := by
      obtain ⟨ys, hy⟩ := List.getLast?_eq_some_iff.1 hl
      rw [hy]; simp
    cases hr with | @mk ks ks' v r as hg ho ha
    rw [← hops] at ho
    obtain ⟨mid, t, x, rfl, ⟨h1, h2⟩, h3⟩ := sequence_shift _ hd ho
    have h4 := h3 ⟨fun _ => none, pc⟩ (.imm (x + pc - e.pc)) (fun s a h => by simp at h) .number
    rw [hops] at h4
    refine ⟨_, ?_, C70_grammar.2 ⟨g, row, hrow, _, rfl, .mk hg h4 ha⟩⟩
    intro y hy
    simp only [List.mem_append, List.mem_cons, List.not_mem_nil, or_false] at hy hw
    rcases hy with hy | rfl | ((hy | rfl) | hy) | rfl
    · exact hw y (.inl hy)
    · exact hw _ (.inr (.inl rfl))
    · exact hw y (.inr (.inr (.inl (.inl (.inl hy)))))
    · exact ⟨by omega, by omega⟩
    · exact hw y (.inr (.inr (.inl (.inr hy))))
    · trivial

theorem decodeAt_shift {i j s : Nat} {v : BitVec 64} {ks : List Kind} (h : decodeAt i v s = some ks) (hs : s < 2 ^ 49) (hj : addressOf j < 2 ^ 62) :
    ∃ ks', decodeAt j v s = some ks' := by
  obtain ⟨h1, h2⟩ := decodeAt_sound h
  obtain ⟨ks', h3, h4⟩ := instr_shift h2 (fun x hx => (h1 x hx).1) hj
  exact decodeAt_complete (op := opOf v s) hj h3 h4 (slot_opOf hs).symm

theorem decodeAt_slot {i s : Nat} {v : BitVec 64} {ks : List Kind} (h : decodeAt i v s = some ks) (hs : s < 2 ^ 49) : s < 2 ^ 21 := by
  have := slot_small (decodeAt_sound h).2
  rwa [slot_opOf hs] at this

end Nxas
