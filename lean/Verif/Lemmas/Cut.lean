import Verif.Lemmas.Entry
import Verif.Props.Locality
import Verif.Spec.Cut
/-
Instruction words are not zero (for C112).
-/

namespace Nxas

open Spec

/-- A bit of the opcode that is in the highest byte and that no operand clears. -/
def Insn.marked (row : Insn) : Bool :=
  (List.range 8).any fun i => row.opcode.getLsbD (56 + i) && row.operands.all fun o => !(clears o).getLsbD (56 + i)

theorem table_marked : insnTable.all Insn.marked = true := by decide +kernel

/-- The word of an instruction is at least 2^56. -/
theorem instr_large {e : Env} {ks : List Kind} {op : Op} (h : InstrText e ks op) : 2 ^ 56 ≤ op.value.toNat := by
  obtain ⟨g, row, hr, ks, -, h⟩ := C70_grammar.1 h
  obtain ⟨-, ho, -⟩ := h
  rename_i v _ _
  have := List.all_eq_true.1 table_marked row hr
  simp only [Insn.marked, List.any_eq_true, List.mem_range, Bool.and_eq_true, List.all_eq_true, Bool.not_eq_true'] at this
  obtain ⟨i, hi, h1, h2⟩ := this
  have h3 : v.getLsbD (56 + i) = true := sequence_mono ho (by rw [BitVec.getLsbD_or, h1, Bool.or_true]) h2
  have h4 : 2 ^ (56 + i) ≤ v.toNat := Nat.ge_two_pow_of_testBit h3
  exact Nat.le_trans (Nat.pow_le_pow_right (by decide) (by omega)) h4

theorem program_large {f : Str → Option Nat} {i : Nat} {o o' : Opts} {ts : List (Kind × Nat)} {A : List Op} (h : Program f i o ts A o') :
    ∀ x ∈ A, 2 ^ 56 ≤ x.value.toNat := by
  induction h with
  | done => intro x hx; simp at hx
  | insn h _ ih =>
    intro x hx
    rcases List.mem_cons.1 hx with rfl | hx
    · exact instr_large h
    · exact ih x hx
  | option _ _ _ ih => exact ih

theorem groups_large : ∀ {ops : List Op}, (∀ x ∈ ops, 2 ^ 56 ≤ x.value.toNat) → ∀ {j : Nat} {w : BitVec 64}, (groups ops)[j]? = some w → j % 4 ≠ 0 →
    2 ^ 56 ≤ w.toNat
  | [], _, j, w, h, _ => by simp [groups] at h
  | [a], ho, j, w, h, hj => by
    have ha := ho a (by simp)
    rcases j with - | - | - | - | j <;> simp only [groups, List.getElem?_cons_zero, List.getElem?_cons_succ, List.getElem?_nil, Option.some.injEq, reduceCtorEq] at h
    · omega
    all_goals subst h; first | exact ha | decide +kernel
  | [a, b], ho, j, w, h, hj => by
    have ha := ho a (by simp)
    have hb := ho b (by simp)
    rcases j with - | - | - | - | j <;> simp only [groups, List.getElem?_cons_zero, List.getElem?_cons_succ, List.getElem?_nil, Option.some.injEq, reduceCtorEq] at h
    · omega
    all_goals subst h; first | exact ha | exact hb | decide +kernel
  | a :: b :: c :: rest, ho, j, w, h, hj => by
    rcases j with - | - | - | - | j <;> simp only [groups, List.getElem?_cons_zero, List.getElem?_cons_succ, Option.some.injEq] at h
    · omega
    · exact h ▸ ho a (by simp)
    · exact h ▸ ho b (by simp)
    · exact h ▸ ho c (by simp)
    · exact groups_large (ops := rest) (fun x hx => ho x (by simp [hx])) h (by omega)

theorem trimmed_zeros {A : List (BitVec 64)} (h : A.getLast? ≠ some 0) (n : Nat) : trimmed (A ++ List.replicate n 0) = A := by
  have h0 : ∀ n : Nat, ∀ l : List (BitVec 64), (List.replicate n (0 : BitVec 64) ++ l).dropWhile (· == 0) = l.dropWhile (· == 0) := by
    intro n l
    induction n with
    | zero => simp
    | succ n ih => rw [List.replicate_succ, List.cons_append, List.dropWhile_cons, if_pos (by simp), ih]
  unfold trimmed
  rw [List.reverse_append, List.reverse_replicate, h0]
  rw [← List.head?_reverse] at h
  cases hr : A.reverse with
  | nil => simpa using hr.symm
  | cons x l =>
    rw [hr] at h
    rw [List.dropWhile_cons, if_neg (by simpa using h), ← hr, List.reverse_reverse]

theorem groups_last {ops : List Op} (h : ∀ x ∈ ops, 2 ^ 56 ≤ x.value.toNat) : (groups ops).getLast? ≠ some 0 := by
  intro hz
  rw [List.getLast?_eq_getElem?] at hz
  have h1 := groups_length ops
  have h2 : 0 < (groups ops).length := by
    by_contra hn
    rw [List.getElem?_eq_none (by omega)] at hz
    cases hz
  have := groups_large h hz (by omega)
  exact absurd this (by decide)

end Nxas
