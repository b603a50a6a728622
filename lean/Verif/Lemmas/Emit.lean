import Verif.Lemmas.Options
/-
The layout of the emitted words.
-/

namespace Nxas

theorem emitFrom_length (ops : List Op) (k : Nat) (rest : List Op) :
    (emitFrom ops k rest).length + (k + 2) / 3 = rest.length + (k + rest.length + 2) / 3 := by
  induction rest generalizing k with
  | nil => simp [emitFrom]
  | cons o os ih =>
    unfold emitFrom
    have := ih (k + 1)
    rw [List.length_append, List.length_cons, List.length_cons]
    split
    · simp only [List.length_cons, List.length_nil]; omega
    · simp only [List.length_nil]; omega

/-- The word of the instruction with index `j` of the remaining ones. -/
theorem emitFrom_value (ops : List Op) (k : Nat) (rest : List Op) (j : Nat) (hj : j < rest.length) :
    (emitFrom ops k rest)[k + j + (k + j) / 3 + 1 - (k + (k + 2) / 3)]? = some (rest[j].value) := by
  induction rest generalizing k j with
  | nil => simp at hj
  | cons o os ih =>
    unfold emitFrom
    by_cases h3 : k % 3 = 0
    · simp only [h3, if_true, List.cons_append, List.nil_append]
      cases j with
      | zero =>
        have : k + 0 + (k + 0) / 3 + 1 - (k + (k + 2) / 3) = 1 := by omega
        rw [this]; rfl
      | succ j =>
        have := ih (k + 1) j (by simpa using hj)
        have e : k + (j + 1) + (k + (j + 1)) / 3 + 1 - (k + (k + 2) / 3) =
            (k + 1 + j + (k + 1 + j) / 3 + 1 - (k + 1 + (k + 1 + 2) / 3)) + 2 := by omega
        rw [e]
        simpa using this
    · simp only [h3, if_false, List.nil_append]
      cases j with
      | zero =>
        have : k + 0 + (k + 0) / 3 + 1 - (k + (k + 2) / 3) = 0 := by omega
        rw [this]; rfl
      | succ j =>
        have := ih (k + 1) j (by simpa using hj)
        have e : k + (j + 1) + (k + (j + 1)) / 3 + 1 - (k + (k + 2) / 3) =
            (k + 1 + j + (k + 1 + j) / 3 + 1 - (k + 1 + (k + 1 + 2) / 3)) + 1 := by omega
        rw [e]
        simpa using this

/-- The control word of a group. -/
theorem emitFrom_control (ops : List Op) (k : Nat) (rest : List Op) (g : Nat) (hk : k ≤ 3 * g)
    (hg : 3 * g < k + rest.length) :
    (emitFrom ops k rest)[4 * g - (k + (k + 2) / 3)]? = some (controlWord ops (3 * g)) := by
  induction rest generalizing k with
  | nil => simp at hg; omega
  | cons o os ih =>
    unfold emitFrom
    by_cases he : k = 3 * g
    · have h3 : k % 3 = 0 := by omega
      simp only [h3, if_true, List.cons_append, List.nil_append]
      have : 4 * g - (k + (k + 2) / 3) = 0 := by omega
      rw [this, he]; rfl
    · have := ih (k + 1) (by omega) (by simp at hg; omega)
      by_cases h3 : k % 3 = 0
      · simp only [h3, if_true, List.cons_append, List.nil_append]
        have e : 4 * g - (k + (k + 2) / 3) = 4 * g - (k + 1 + (k + 1 + 2) / 3) + 2 := by omega
        rw [e]; simpa using this
      · simp only [h3, if_false, List.nil_append]
        have e : 4 * g - (k + (k + 2) / 3) = 4 * g - (k + 1 + (k + 1 + 2) / 3) + 1 := by omega
        rw [e]; simpa using this

theorem emit_length (ops : List Op) : (emit ops).length = 4 * ((ops.length + 2) / 3) := by
  have := emitFrom_length ops 0 ops
  unfold emit
  simp only [List.length_append, List.length_replicate]
  omega

theorem emit_value (ops : List Op) (i : Nat) (hi : i < ops.length) :
    (emit ops)[i + i / 3 + 1]? = some (ops[i].value) := by
  have h := emitFrom_value ops 0 ops i hi
  have hl := emitFrom_length ops 0 ops
  unfold emit
  rw [List.getElem?_append_left (by omega)]
  have e : 0 + i + (0 + i) / 3 + 1 - (0 + (0 + 2) / 3) = i + i / 3 + 1 := by omega
  rw [e] at h
  exact h

theorem emit_control (ops : List Op) (g : Nat) (hg : 3 * g < ops.length) :
    (emit ops)[4 * g]? = some (controlWord ops (3 * g)) := by
  have h := emitFrom_control ops 0 ops g (by omega) (by omega)
  have hl := emitFrom_length ops 0 ops
  unfold emit
  rw [List.getElem?_append_left (by omega)]
  have e : 4 * g - (0 + (0 + 2) / 3) = 4 * g := by omega
  rw [e] at h
  exact h

theorem emit_padding (ops : List Op) (i : Nat) (h1 : ops.length ≤ i)
    (h2 : i < 3 * ((ops.length + 2) / 3)) : (emit ops)[i + i / 3 + 1]? = some nopWord := by
  have hl := emitFrom_length ops 0 ops
  unfold emit
  rw [List.getElem?_append_right (by omega), List.getElem?_replicate, if_pos (by omega)]

/-- The decoded instructions of a source, and the settings at the end. -/
def Decodes (dbg : Bool) (code : Str) (ops : List Op) (c : Ctx) : Prop :=
  ∃ labels, genLabels (cstr code) = .ok labels ∧
    Run insnTable dbg ⟨⟨cstr code, 0, 0⟩, labels, 0, {}⟩ ops c

theorem assemble_ok {dbg : Bool} {code : Str} {words : List (BitVec 64)}
    (h : assemble dbg code = .ok words) :
    ∃ ops c, Decodes dbg code ops c ∧ binary c (emit ops) = .ok words ∧
      (dbg = true → ops.length = code.count ';') := by
  unfold assemble assembleWith at h
  split at h
  · simp at h
  · rename_i labels hg
    dsimp only at h
    split at h
    · rename_i ops c hp
      split at h
      · simp at h
      · rename_i hd
        refine ⟨ops, c, ⟨labels, hg, (parseAll_run hp).1⟩, h, ?_⟩
        rintro rfl
        unfold countSemicolons at hd
        simp at hd
        omega
    all_goals simp at h

theorem Decodes.opts {dbg : Bool} {code : Str} {ops : List Op} {c : Ctx} (h : Decodes dbg code ops c) :
    OptPath (cstr code) {} c.opts := by
  obtain ⟨ls, -, hr⟩ := h
  exact hr.path

theorem binary_raw {c : Ctx} {code words : List (BitVec 64)} (hd : c.opts.isDksh = false)
    (h : binary c code = .ok words) :
    words = code ∧ (c.opts.type = none ∨ c.opts.type = some .compute) := by
  unfold binary at h
  dsimp only at h
  rw [if_neg (by simp [hd])] at h
  cases ht : c.opts.type with
  | none => simp [ht] at h; simp [h]
  | some t =>
    simp only [ht] at h
    by_cases hc : t = .compute
    · subst hc; simp at h; simp [h]
    · simp [hc] at h

theorem pairWords_length : ∀ l : List (BitVec 32), (pairWords l).length = (l.length + 1) / 2
  | [] => rfl
  | [_] => by simp [pairWords]
  | _ :: _ :: rest => by
    have := pairWords_length rest
    simp only [pairWords, List.length_cons, this]; omega

theorem dkshUnion_length (o : Opts) : (dkshUnion o).length = 9 := by
  unfold dkshUnion; split <;> simp

theorem writeDksh_length {c : Ctx} {n : Nat} {ws : List (BitVec 64)} (h : writeDksh c n = .ok ws) :
    ws.length = 32 := by
  unfold writeDksh at h
  repeat' split at h
  all_goals simp only [reduceCtorEq, Res.ok.injEq] at h
  subst h
  simp [pairWords_length, dkshUnion_length, dkshHeader]

theorem binary_dksh {c : Ctx} {code words : List (BitVec 64)} (hd : c.opts.isDksh = true)
    (h : binary c code = .ok words) : c.opts.type = some .compute ∧
    ∃ control, writeDksh c code.length = .ok control ∧ control.length = 32 ∧
      words = control ++ code ++ List.replicate (32 - code.length % 32) 0#64 := by
  unfold binary at h
  dsimp only at h
  rw [if_pos hd] at h
  cases ht : c.opts.type with
  | none => simp [ht, writeDksh] at h
  | some t =>
    simp only [ht] at h
    by_cases hc : t = .compute
    · subst hc
      simp only [ne_eq, not_true, decide_false, Bool.false_eq_true, if_false, Nat.add_zero] at h
      cases hw : writeDksh c code.length with
      | ok ws =>
        simp only [hw, Res.ok.injEq] at h
        exact ⟨rfl, ws, rfl, writeDksh_length hw, h.symm⟩
      | _ => simp [hw] at h
    · simp only [ne_eq, hc, not_false_eq_true, decide_true, if_true] at h
      cases hw : writeDksh c (code.length + 8) <;> simp [hw] at h

/-- The index of the first code word in the output. -/
def codeBase (c : Ctx) : Nat := if c.opts.isDksh then 32 else 0

/-- The code is found in the output behind the container header. -/
theorem binary_code {c : Ctx} {code words : List (BitVec 64)} (h : binary c code = .ok words)
    (i : Nat) (hi : i < code.length) : words[codeBase c + i]? = code[i]? := by
  unfold codeBase
  by_cases hd : c.opts.isDksh = true
  · obtain ⟨-, ctl, -, h2, rfl⟩ := binary_dksh hd h
    rw [if_pos hd, List.append_assoc, List.getElem?_append_right (by omega), h2,
      Nat.add_sub_cancel_left, List.getElem?_append_left hi]
  · obtain ⟨rfl, -⟩ := binary_raw (by simpa using hd) h
    rw [if_neg hd, Nat.zero_add]

/-- Without container the output is the code. -/
theorem assemble_raw {dbg : Bool} {code : Str} {words : List (BitVec 64)}
    (hd : ¬ c!".dksh" <:+: cstr code) (h : assemble dbg code = .ok words) :
    ∃ ops c, Decodes dbg code ops c ∧ words = emit ops ∧ (dbg = true → ops.length = code.count ';') := by
  obtain ⟨ops, c, h1, h2, h3⟩ := assemble_ok h
  exact ⟨ops, c, h1, (binary_raw (h1.opts.isDksh hd) h2).1, h3⟩

end Nxas
