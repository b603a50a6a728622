import Verif.Lemmas.Shapes
import Verif.Lemmas.Args
import Verif.Lemmas.Compose
/-
C70: the order of the instruction table does not matter.
-/

namespace Nxas

open Spec

/-- No instruction fits two rows of the table, whatever its labels, guard and position. -/
theorem C70_row {e e' : Env} {i j : Nat} {row row' : Insn} {g g' : Option (Nat × Bool)} {ks : List Kind} {op op' : Op}
    (hi : insnTable[i]? = some row) (hj : insnTable[j]? = some row') (hm : row.mnemonic = row'.mnemonic)
    (h : RowText e row g ks op) (h' : RowText e' row' g' ks op') : i = j := by
  obtain ⟨hi1, rfl⟩ := List.getElem?_eq_some_iff.1 hi
  obtain ⟨hj1, rfl⟩ := List.getElem?_eq_some_iff.1 hj
  rcases Nat.lt_trichotomy i j with hlt | rfl | hlt
  · exact (apart_sound (List.pairwise_iff_getElem.1 table_apart i j hi1 hj1 hlt hm) (Left.nil.2 (rowText_fits h))
      (Left.nil.2 (rowText_fits h'))).elim
  · rfl
  · exact (apart_sound (List.pairwise_iff_getElem.1 table_apart j i hj1 hi1 hlt hm.symm) (Left.nil.2 (rowText_fits h'))
      (Left.nil.2 (rowText_fits h))).elim

/-- So the grammar needs no rule about the order of the rows. -/
theorem C70_grammar {e : Env} {ts : List Kind} {op : Op} : InstrText e ts op ↔
    ∃ g, ∃ row ∈ insnTable, ∃ ks, ts = guardTokens g ++ .ident row.mnemonic :: (ks ++ [.semicolon]) ∧ RowText e row g ks op := by
  constructor
  · rintro ⟨hs, h, -⟩
    exact ⟨_, _, by rw [hs]; simp, _, rfl, h⟩
  · rintro ⟨g, row, hr, ks, rfl, h⟩
    obtain ⟨pre, post, hs⟩ := List.append_of_mem hr
    refine .mk hs h fun row' hr' hm op' h' => ?_
    obtain ⟨j, hj, rfl⟩ := List.getElem_of_mem hr'
    have h1 : insnTable[j]? = some pre[j] := by rw [hs, List.getElem?_append_left hj]; simp
    have h2 : insnTable[pre.length]? = some row := by rw [hs]; simp
    have := C70_row h1 h2 hm h' h
    omega

/-- A row loop over rows of the table in any order, with some of them left out, accepts nothing else. -/
theorem tryRows_order {table : List Insn} (ht : ∀ row ∈ table, row ∈ insnTable) {s s' : St} {mn : Str} {g : Option (Nat × Bool)}
    (hk : s.tok.kind = .ident mn) (hg : ∀ p n, g = some (p, n) → p ≤ 7) (hs : s.op = ⟨guardWord g, 0, 0⟩)
    (h : tryRows s.tok s table none false s = .ok () s') : tryRows s.tok s insnTable none false s = .ok () s' := by
  rcases tryRows_spec s.tok s false table none s rfl rfl with ⟨pre, row, post, h1, h2, -, h4⟩ | ⟨-, h4⟩
  · have hin : row ∈ insnTable := ht row (by rw [h1]; simp)
    have hmn : row.mnemonic = mn := by
      have := Token.equal_iff.1 h2.1
      rw [hk] at this
      simpa using this.symm
    rw [h4] at h
    unfold rowOut at h
    cases hr : (parseInsn row false s).1 with
    | ok a s1 =>
      rw [hr] at h
      simp only [rowResult, Out.ok.injEq, true_and] at h
      obtain ⟨t0, c0, ks, op, t, c, h5, h6, h7, h8, rfl⟩ := (parseInsn_iff hin hg hs _).1 hr
      obtain ⟨pre', post', hs'⟩ := List.append_of_mem hin
      refine (tryRows_iff hk hg hs s').2 ⟨pre', row, post', t0, c0, ks, op, t, c, hs', hmn, h5, h6, h7, h8, ?_, h.symm⟩
      intro row' hr' hm op' h'
      obtain ⟨j, hj, rfl⟩ := List.getElem_of_mem hr'
      have e1 : insnTable[j]? = some pre'[j] := by rw [hs', List.getElem?_append_left hj]; simp
      have e2 : insnTable[pre'.length]? = some row := by rw [hs']; simp
      have := C70_row e1 e2 hm h' h8
      omega
    | _ => rw [hr] at h; simp [rowResult] at h
  · rw [h4] at h; simp at h

theorem parseInstruction_order {table : List Insn} (ht : ∀ row ∈ table, row ∈ insnTable) {c : Ctx} {b : Bool} {s : St}
    (h : parseInstruction table false c.fresh = .ok b s) : parseInstruction insnTable false c.fresh = .ok b s := by
  rw [parseInstruction_eq] at h ⊢
  obtain ⟨_, s1, h1, h⟩ := Out.bind_ok h
  rw [h1]
  dsimp only [Out.bind]
  by_cases hk : s1.tok.kind = .none
  · rw [if_pos hk] at h ⊢; exact h
  · rw [if_neg hk] at h ⊢
    unfold insnBody at h ⊢
    obtain ⟨_, s2, h2, h⟩ := Out.bind_ok h
    obtain ⟨_, s3, h3, h⟩ := Out.bind_ok h
    obtain ⟨_, s4, h4, h5⟩ := Out.bind_ok h
    rw [h2]
    dsimp only [Out.bind]
    rw [h3]
    dsimp only
    rw [parsePrologue_eq] at h3
    obtain ⟨g, mn, -, e2, e3, e4, -⟩ := prologueBody_inv h3
    obtain ⟨tk, c1, e1, rfl⟩ := advance_ok h1
    have inv1 : TokInv c.cur { c.fresh with ctx := { c.fresh.ctx with cur := c1 }, tok := tk } := ⟨c.cur, Reach.refl _, e1⟩
    have ho := oframed_parseOptions (c1.text.length + 2) false _ c.cur inv1
    have h2' : parseOptions (c1.text.length + 2) false { c.fresh with ctx := { c.fresh.ctx with cur := c1 }, tok := tk } = .ok () s2 := h2
    rw [h2'] at ho
    have h2op : s2.op = ({} : Op) := ho.1.op
    have e5 : s3.op = ⟨guardWord g, 0, 0⟩ := by
      rw [e4]
      dsimp only
      rw [h2op]
      simp
    rw [tryRows_order ht e2 e3 e5 h4]
    exact h5

theorem parseAll_order {table : List Insn} (ht : ∀ row ∈ table, row ∈ insnTable) {n : Nat} {c : Ctx} {r : List Op × Ctx}
    (h : parseAll table false n c = .ok r) : parseAll insnTable false n c = .ok r := by
  induction n generalizing c r with
  | zero => simp [parseAll] at h
  | succ n ih =>
    rw [parseAll] at h ⊢
    cases hp : parseInstruction table false ⟨c, ⟨.none, 0, 0⟩, {}⟩ with
    | ok b s =>
      rw [hp] at h
      rw [show parseInstruction insnTable false ⟨c, ⟨.none, 0, 0⟩, {}⟩ = .ok b s from parseInstruction_order ht hp]
      cases b with
      | false => exact h
      | true =>
        dsimp only at h ⊢
        cases ha : parseAll table false n s.ctx with
        | ok r' => rw [ha] at h; rw [ih ha]; exact h
        | _ => rw [ha] at h; simp at h
    | _ => rw [hp] at h; simp at h

/-- An assembler whose table has the same rows in another order, or only some of them, accepts no other source and gives
    the same words. -/
theorem C70_order {table : List Insn} (ht : ∀ row ∈ table, row ∈ insnTable) {dbg : Bool} {code : Str} {words : List (BitVec 64)}
    (h : assembleWith table dbg code = .ok words) : assemble false code = .ok words := by
  have h : assembleWith table false code = .ok words := by
    cases dbg with
    | false => exact h
    | true =>
      rcases assembleWith_debug table code with h' | h'
      · rw [h'] at h; cases h
      · rw [← h', h]
  unfold assemble
  unfold assembleWith at h ⊢
  cases hl : genLabels (cstr code) with
  | error u => rw [hl] at h; simp at h
  | ok labels =>
    rw [hl] at h
    dsimp only at h ⊢
    cases hp : parseAll table false (countSemicolons code + 1) ⟨⟨cstr code, 0, 0⟩, labels, 0, {}⟩ with
    | ok r => rw [hp] at h; rw [parseAll_order ht hp]; exact h
    | _ => rw [hp] at h; simp at h

/-- Two orders give the same words. -/
theorem C70_orders {table table' : List Insn} (ht : ∀ row ∈ table, row ∈ insnTable) (ht' : ∀ row ∈ table', row ∈ insnTable) {dbg dbg' : Bool}
    {code : Str} {words words' : List (BitVec 64)} (h : assembleWith table dbg code = .ok words)
    (h' : assembleWith table' dbg' code = .ok words') : words = words' := by
  have h1 := C70_order ht h
  rw [C70_order ht' h'] at h1
  cases h1
  rfl

/-- With the reversed table, and with a table of one row. -/
example : (∀ row ∈ insnTable.reverse, row ∈ insnTable) ∧ assembleWith insnTable.reverse true c!"FADD R0, R1, c[0][8];" =
    .ok [0x001f8000fc0007e0, 0x4c58000000270100, 0x50b0000000070f00, 0x50b0000000070f00] := by
  refine ⟨fun row h => List.mem_reverse.1 h, ?_⟩
  decide +kernel
/-- An instruction of the grammar. -/
example : ∃ ts op, InstrText ⟨fun _ => none, 8⟩ ts op ∧ ts = [.ident c!"MOV", .reg 0, .comma, .reg 1, .semicolon] := by
  refine ⟨_, ⟨0x5C98078000170000, 0, 0x7e0⟩, C70_grammar.2 ⟨none, ⟨0x5C98078000000000, 0, c!"MOV", [.gpr 0, .comma, .gpr 20]⟩, by decide +kernel,
    [.reg 0, .comma, .reg 1], rfl, ?_⟩, rfl⟩
  have h1 (v : BitVec 64) : Accepts ⟨fun _ => none, 8⟩ v (.gpr 0) [.reg 0] .comma 0 0 := ⟨0, [], rfl, rfl, .inr ⟨rfl, by simp, rfl⟩⟩
  have h2 (v : BitVec 64) : Accepts ⟨fun _ => none, 8⟩ v .comma [.comma] (.reg 1) 0 0 := ⟨rfl, rfl, rfl⟩
  have h3 (v : BitVec 64) : Accepts ⟨fun _ => none, 8⟩ v (.gpr 20) [.reg 1] .semicolon 0x100000 0 :=
    ⟨1, [], rfl, rfl, .inr ⟨rfl, by simp, rfl⟩⟩
  exact RowText.mk (ks := [.reg 0, .comma, .reg 1]) (ks' := []) (v := 0x5C98078000170000) (r := 0) (as := []) (by simp)
    (.cons (h1 _) (.cons (h2 _) (.cons (h3 _) .nil))) .nil

end Nxas
