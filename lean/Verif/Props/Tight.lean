import Verif.Lemmas.Cover1
import Verif.Lemmas.Cover2
import Verif.Lemmas.Cover3
import Verif.Props.Encoding
/-
C95: which bits the instructions of a row set, and which they leave unset.
-/

namespace Nxas

open Spec

/-- The sources of all rows. -/
def covering : List (List Str) :=
  covering0 ++ covering1 ++ covering2 ++ covering3 ++ covering4 ++ covering5 ++ covering6 ++ covering7 ++ covering8 ++ covering9 ++ covering10 ++ covering11 ++ covering12 ++ covering13 ++ covering14 ++ covering15 ++ covering16 ++ covering17 ++ covering18 ++ covering19 ++ covering20 ++ covering21 ++ covering22

theorem covering_bits : covers 0 covering = true := by
  unfold covering
  exact covers_append (covers_append (covers_append (covers_append (covers_append (covers_append (covers_append (covers_append (covers_append (covers_append (covers_append (covers_append (covers_append (covers_append (covers_append (covers_append (covers_append (covers_append (covers_append (covers_append (covers_append (covers_append covering0_bits (by decide +kernel) covering1_bits) (by decide +kernel) covering2_bits) (by decide +kernel) covering3_bits) (by decide +kernel) covering4_bits) (by decide +kernel) covering5_bits) (by decide +kernel) covering6_bits) (by decide +kernel) covering7_bits) (by decide +kernel) covering8_bits) (by decide +kernel) covering9_bits) (by decide +kernel) covering10_bits) (by decide +kernel) covering11_bits) (by decide +kernel) covering12_bits) (by decide +kernel) covering13_bits) (by decide +kernel) covering14_bits) (by decide +kernel) covering15_bits) (by decide +kernel) covering16_bits) (by decide +kernel) covering17_bits) (by decide +kernel) covering18_bits) (by decide +kernel) covering19_bits) (by decide +kernel) covering20_bits) (by decide +kernel) covering21_bits) (by decide +kernel) covering22_bits

theorem covering_length : covering.length = insnTable.length := by decide +kernel

/-- The sources of a row. -/
theorem covered {row : Insn} (hr : row ∈ insnTable) :
    ∃ n l, insnTable[n]? = some row ∧ cover n l = some (row.mayMask, row.alwaysMask) := by
  obtain ⟨n, hn⟩ := List.mem_iff_getElem?.1 hr
  have hlt : n < covering.length := by
    rw [covering_length]
    exact (List.getElem?_eq_some_iff.1 hn).1
  have h := List.all_eq_true.1 covering_bits (covering[n], n) (List.mem_zipIdx_iff_getElem?.2 (List.getElem?_eq_getElem hlt))
  dsimp only at h
  rw [hn] at h
  exact ⟨n, _, hn, eq_of_beq h⟩

/-- No bits are cleared where an operand has fixed bits, and these belong to the word. -/
theorem table_fixed : ∀ row ∈ insnTable, ∀ o ∈ row.operands, o.fixed ≠ [] →
    (∀ o' ∈ row.operands, clears o' = 0) ∧ ∀ f ∈ o.fixed, f.1 + f.2 ≤ 64 := by
  have : (insnTable.all fun r => r.operands.all fun o => o.fixed.isEmpty ||
      ((r.operands.all fun o' => clears o' == 0) && o.fixed.all fun f => f.1 + f.2 ≤ 64)) = true := by decide +kernel
  intro row hr o ho hf
  have h := List.all_eq_true.1 (List.all_eq_true.1 this row hr) o ho
  simpa [hf] using h

/-- Operands that do not clear bits leave the set bits set. -/
theorem Ran.stays {dbg : Bool} {os : List Operand} {s s' : St} {args : List (List Kind)} (h : Ran dbg os s args s')
    (ho : ∀ o ∈ os, o.grammatical = true ∧ clears o = 0) (hs : s.tok.kind.proper) {p : Nat}
    (hb : s.op.value.getLsbD p = true) : s'.op.value.getLsbD p = true := by
  induction h with
  | nil => exact hb
  | cons h _ _ _ ih =>
    rename_i o os s s1 s2 ks args _ _ _
    obtain ⟨ks', b, r, t, c, hp, -, rfl⟩ := (o.run_iff (ho o (by simp)).1 s hs _).1 (run_release h)
    refine ih (fun o' h => ho o' (by simp [h])) (hp.proper hs).1 ?_
    simp only [St.set]
    rw [(ho o (by simp)).2, BitVec.getLsbD_or, BitVec.getLsbD_and, BitVec.getLsbD_not, hb]
    simp [lt_of_getLsbD hb]

/-- The fixed bits of an operand are set by all its texts. -/
theorem accepts_fixed {e : Env} {v : BitVec 64} {o : Operand} {ks : List Kind} {k' : Kind} {b : BitVec 64} {r : BitVec 32}
    (h : Accepts e v o ks k' b r) {i : Nat} (hi : i < 64) (hf : inF o.fixed i) : b.getLsbD i = true := by
  have k255 : ∀ a, a ≤ i → i < a + 8 → (field a 255).getLsbD i = true := by
    intro a h1 h2
    rw [field_bit, show (255 : Nat) = 2 ^ 8 - 1 from rfl, Nat.testBit_two_pow_sub_one]
    simp only [Bool.and_eq_true, decide_eq_true_eq]
    omega
  unfold Operand.fixed at hf
  split at hf
  · rename_i a
    obtain ⟨-, -, rfl⟩ := h
    obtain ⟨f, hm, h1, h2⟩ := hf
    obtain rfl := List.mem_singleton.1 hm
    exact k255 a h1 h2
  · obtain ⟨-, x, h⟩ := h
    obtain ⟨f, hm, h1, h2⟩ := hf
    obtain rfl := List.mem_singleton.1 hm
    rw [h.2.2, BitVec.getLsbD_or, k255 8 h1 h2, Bool.or_true]
  · rename_i pre post
    obtain ⟨-, -, rfl⟩ := h
    obtain ⟨f, hm, h1⟩ := hf
    obtain ⟨x, hx, hf⟩ := List.mem_flatMap.1 hm
    have hb := (inF_setBits _ _).1 ⟨f, hf, h1⟩
    generalize pre ++ post = l at hx
    clear hm
    induction l with
    | nil => cases hx
    | cons y l ih =>
      rw [List.foldr_cons, BitVec.getLsbD_or]
      rcases List.mem_cons.1 hx with rfl | hx
      · rw [hb, Bool.true_or]
      · rw [ih hx, Bool.or_true]
  · obtain ⟨f, hm, -⟩ := hf; cases hm

/-- The guard of an instruction without predicate is `PT`. -/
theorem Encoding.guardBits {dbg : Bool} {c : Ctx} {s : St} (e : Encoding dbg c s) (hf : e.row.flags % 2 = 1) {i : Nat}
    (h1 : 16 ≤ i) (h2 : i < 19) : (guardWord e.guard).getLsbD i = true := by
  have hz := e.noPred hf
  have hb : (~~~(guardWord e.guard ||| e.row.opcode) &&& (7#64 <<< 16)).getLsbD i = false := by
    rw [hz]; exact BitVec.getLsbD_zero
  have h7 : (7#64 <<< 16).getLsbD i = true := by
    have key : ∀ b : Fin 64, 16 ≤ b.val → b.val < 19 → (7#64 <<< 16).getLsbD b.val = true := by decide
    exact key ⟨i, by omega⟩ h1 h2
  rw [BitVec.getLsbD_and, h7, Bool.and_true, BitVec.getLsbD_not, decide_eq_true (by omega),
    Bool.true_and, BitVec.getLsbD_or, e.not_opcode ⟨h1, by omega⟩, Bool.or_false] at hb
  simpa using hb

/-- C95. A bit of the word, or a reuse flag, is set in some accepted instruction of a row if and only if it is a bit of the opcode, of
    the guard, or of a field of its operands: no field is too wide. -/
theorem C95_set {row : Insn} (hr : row ∈ insnTable) (i : Nat) :
    (∃ dbg code k args op, Instr dbg code k row args op ∧ op.bit i = true) ↔ row.maySet i := by
  constructor
  · rintro ⟨dbg, code, k, args, op, ⟨c, s, e, -, rfl, -, rfl⟩, hb⟩
    by_cases ho : e.row.owns i
    · exact .inr (.inr ho)
    · rw [e.bit_outside ho, Bool.or_eq_true] at hb
      rcases hb with hb | hb
      · exact .inr (.inl (guardWord_in e.guardWf hb))
      · exact .inl hb
  · intro h
    obtain ⟨n, l, hn, hc⟩ := covered hr
    obtain ⟨t, op, h1, h2⟩ := (cover_spec hc i).1 (Insn.testBit_mayMask.2 h)
    obtain ⟨row', args, h3, h4⟩ := instr_of_row h1
    obtain rfl : row = row' := Option.some.inj (hn.symm.trans h3)
    exact ⟨true, t, 0, args, op, h4, h2⟩

/-- C95. A bit is set in all accepted instructions of a row if and only if it is a bit of the opcode, of the guard of an instruction
    without predicate, or a fixed bit of an operand. -/
theorem C95_always {row : Insn} (hr : row ∈ insnTable) {i : Nat} (hi : i < 67) :
    (∀ dbg code k args op, Instr dbg code k row args op → op.bit i = true) ↔ row.alwaysSet i := by
  constructor
  · intro h
    by_contra hn
    obtain ⟨n, l, hn', hc⟩ := covered hr
    have hb : row.alwaysMask.testBit i = false := by
      cases hm : row.alwaysMask.testBit i with
      | false => rfl
      | true => exact (hn (Insn.testBit_alwaysMask.1 hm)).elim
    obtain ⟨t, op, h1, h2⟩ := (cover_spec hc i).2 hi hb
    obtain ⟨row', args, h3, h4⟩ := instr_of_row h1
    obtain rfl : row = row' := Option.some.inj (hn'.symm.trans h3)
    rw [h _ _ _ _ _ h4] at h2
    cases h2
  · rintro h dbg code k args op hin
    rcases h with h | ⟨hf, h1, h2⟩ | ⟨o, ho, hf⟩
    · obtain ⟨c, s, e, -, rfl, -, rfl⟩ := hin
      rw [e.bit_outside (e.not_owns (.inr h)), h, Bool.or_true]
    · obtain ⟨c, s, e, -, rfl, -, rfl⟩ := hin
      rw [e.bit_outside (e.not_owns (.inl ⟨h1, by omega⟩)), e.guardBits hf h1 h2, Bool.true_or]
    · obtain ⟨j, hj⟩ := List.mem_iff_getElem?.1 ho
      obtain ⟨hcl, hle⟩ := table_fixed row hr o ho (by rintro h0; rw [h0] at hf; obtain ⟨f, hm, -⟩ := hf; cases hm)
      have hlt : i < 64 := by
        obtain ⟨f, hm, h1, h2⟩ := hf
        have := hle f hm
        omega
      obtain ⟨c, s, e, -, rfl, hran, rfl⟩ := hin
      obtain ⟨u, u', ks, -, h2, h3, -, -, h5⟩ := hran.split hj
      have hgr := table_grammatical _ e.inTable
      have k2 := h2.kept (fun o ho => hgr o (List.mem_of_mem_take ho)) e.startInv.proper
      obtain ⟨ks', b, r, t, cc, hp, ha, rfl⟩ := (o.run_iff (hgr o ho) u k2.1 _).1 (run_release h3)
      rw [e.bit_eq]
      simp only [Op.bit, hlt, if_true]
      refine h5.stays (fun o' ho' => ⟨hgr o' (List.mem_of_mem_drop ho'), hcl o' (List.mem_of_mem_drop ho')⟩) (hp.proper k2.1).1 ?_
      simp only [St.set]
      rw [BitVec.getLsbD_or, accepts_fixed ha hlt hf, Bool.or_true]

/-- C95. So each bit of a row that is not fixed is set by one text and unset by another: the bits that tell the instructions of a row
    apart are those of the guard and of the operands, without the fixed ones. -/
theorem C95_free {row : Insn} (hr : row ∈ insnTable) {i : Nat} (hi : i < 67) :
    ((∃ dbg code k args op, Instr dbg code k row args op ∧ op.bit i = true) ∧
      ∃ dbg code k args op, Instr dbg code k row args op ∧ op.bit i = false) ↔ row.maySet i ∧ ¬ row.alwaysSet i := by
  rw [C95_set hr, ← C95_always hr hi]
  refine and_congr_right fun _ => ?_
  simp only [not_forall, Bool.not_eq_true, exists_prop]

/-- `SUST.D`: bit 52 is set by `.D`, so that the flag `.BA` at the same position changes nothing; bit 24 can be both. -/
example : (insnTable[223]?.map fun row => (row.mnemonic, row.mayMask.testBit 52, row.alwaysMask.testBit 52, row.mayMask.testBit 24,
    row.alwaysMask.testBit 24, row.mayMask.testBit 23)) = some (c!"SUST", true, true, true, false, false) := by decide +kernel

/-- Two words of that row, which differ in bit 24 among others. -/
example : assemble true c!"SUST.D.1D [R1], R2, R3;" = .ok
    [0x001F8000FC0007E0, 0xEB32018000470102, 0x50B0000000070F00, 0x50B0000000070F00] ∧
    assemble true c!"SUST.D.1D.CG [R1], R2, R3;" = .ok
    [0x001F8000FC0007E0, 0xEB32018001470102, 0x50B0000000070F00, 0x50B0000000070F00] := by
  constructor <;> decide +kernel

/-- The row that the statements are about in the example above. -/
example : (instrRow true c!"SUST.D.1D.CG [R1], R2, R3;" 0).map (·.1) = some 223 := by decide +kernel

end Nxas
