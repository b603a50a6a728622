import Verif.Lemmas.Program
import Verif.Lemmas.Scan
/-
Bounds of the positions and addresses of a source.
-/

namespace Nxas

open Spec

theorem visible_length (code : Str) : (visible code).length ≤ code.length :=
  (List.takeWhile_sublist _).length_le

theorem lineAfter_le (pre : Str) : lineAfter pre ≤ pre.length := List.count_le_length

theorem columnAfter_le (pre : Str) : columnAfter pre ≤ 4 * pre.length := by
  have h : ∀ w : Str, (w.map (fun c => if c = '\t' then 4 else 1)).sum ≤ 4 * w.length := by
    intro w
    induction w with
    | nil => simp
    | cons a w ih =>
      simp only [List.map_cons, List.sum_cons, List.length_cons]
      split <;> omega
  have := h (pre.reverse.takeWhile (· ≠ '\n'))
  have h2 : (pre.reverse.takeWhile (· ≠ '\n')).length ≤ pre.length := by
    have := (List.takeWhile_sublist (l := pre.reverse) (· ≠ '\n')).length_le
    simpa using this
  unfold columnAfter
  omega

theorem posAfter_le (w : Str) (p : Nat × Nat) : (posAfter w p).1 ≤ p.1 + w.length ∧ (posAfter w p).2 ≤ p.2 + 4 * w.length := by
  induction w generalizing p with
  | nil => simp [posAfter]
  | cons a w ih =>
    rw [posAfter]
    have h := ih (nextLine a p.1, nextCol a p.2)
    have h1 : nextLine a p.1 ≤ p.1 + 1 := by unfold nextLine; split <;> omega
    have h2 : nextCol a p.2 ≤ p.2 + 4 := by unfold nextCol; repeat' split
                                            all_goals omega
    simp only [List.length_cons] at h ⊢
    omega

theorem Reach.bounds {t : Str} {c : Cur} (h : Reach ⟨t, 0, 0⟩ c) : c.line + c.text.length ≤ t.length ∧ c.col + 4 * c.text.length ≤ 4 * t.length := by
  obtain ⟨pre, ht, hp⟩ := h
  have h1 := posAfter_le pre (0, 0)
  dsimp only at ht hp
  rw [hp] at h1
  have := congrArg List.length ht
  simp only [List.length_append] at this
  simp only at h1
  omega

theorem posAfter_tabs (n : Nat) (p : Nat × Nat) : posAfter (List.replicate n '\t') p = (p.1, p.2 + 4 * n) := by
  induction n generalizing p with
  | zero => simp [posAfter]
  | succ n ih =>
    rw [List.replicate_succ, posAfter, ih]
    simp [nextLine, nextCol]
    omega

theorem visible_tabs (n : Nat) : visible (List.replicate n '\t' ++ c!";") = List.replicate n '\t' ++ c!";" := by
  unfold visible
  rw [List.takeWhile_eq_self_iff]
  intro x hx
  simp only [List.mem_append, List.mem_replicate, List.mem_singleton] at hx
  rcases hx with ⟨-, rfl⟩ | rfl <;> decide

theorem skipped_tabs (n : Nat) (rest : Str) : Skipped (List.replicate n '\t') rest := by
  induction n with
  | zero => exact .nil
  | succ n ih => exact .blank (by decide) ih

theorem assemble_tabs (dbg : Bool) (n : Nat) :
    assemble dbg (List.replicate n '\t' ++ c!";") = .exit (.located ⟨0, 4 * n, "expected mnemonic"⟩) := by
  have hv : cstr (List.replicate n '\t' ++ c!";") = List.replicate n '\t' ++ c!";" := visible_tabs n
  unfold assemble assembleWith
  rw [hv]
  cases hl : genLabels (List.replicate n '\t' ++ c!";") with
  | error u =>
    refine absurd (genLabels_error hl).2 (SafeEnd.not_bareTail fun x hx => ?_)
    rw [List.getLast?_append] at hx
    cases hx
    rfl
  | ok labels =>
    have ht : tokenize ⟨List.replicate n '\t' ++ c!";", 0, 0⟩ = .ok ⟨.semicolon, 0, 4 * n⟩ ⟨[], 0, 4 * n + 1⟩ := by
      rw [tokenize_skipped (s := List.replicate n '\t') (rest := c!";") _ rfl (skipped_tabs n _)]
      · unfold Cur.move
        rw [posAfter_tabs]
        simp only [Nat.zero_add]
        generalize 4 * n = k
        rfl
      · intro hm
        simp at hm
    dsimp only
    rw [parseAll]
    have hp : parseInstruction insnTable dbg ⟨⟨⟨List.replicate n '\t' ++ c!";", 0, 0⟩, labels, 0, {}⟩, ⟨.none, 0, 0⟩, {}⟩ =
        .exit ⟨0, 4 * n, "expected mnemonic"⟩ := by
      rw [parseInstruction_eq]
      have ho : ∀ k, parseOptions 2 dbg ⟨⟨⟨[], 0, k + 1⟩, labels, 0, {}⟩, ⟨.semicolon, 0, k⟩, {}⟩ =
          .ok () ⟨⟨⟨[], 0, k + 1⟩, labels, 0, {}⟩, ⟨.semicolon, 0, k⟩, {}⟩ := fun k => rfl
      have hq : ∀ k, parsePrologue dbg ⟨⟨⟨[], 0, k + 1⟩, labels, 0, {}⟩, ⟨.semicolon, 0, k⟩, {}⟩ =
          .exit ⟨0, k, "expected mnemonic"⟩ := fun k => by
        simp [parsePrologue, M.bind_def, modifyPc, getTok, addBits, exitTok]
      simp only [advance, ht, Out.bind]
      rw [if_neg (by simp)]
      simp only [insnBody, List.length_nil, Nat.zero_add, ho, hq, Out.bind]
    rw [hp]

end Nxas
