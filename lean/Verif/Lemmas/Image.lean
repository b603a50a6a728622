import Verif.Lemmas.Source
import Verif.Props.Layout
/-
The layout of the code and the containers agree with their descriptions.
-/

namespace Nxas

open Spec

/-! ### Layout -/

theorem slot_eq (o : Option Op) : slot o = schedData o := by
  cases o with
  | none => rfl
  | some o => simp only [slot, schedData]; omega

theorem controlWord_eq {ops : List Op} (h : ∀ o ∈ ops, o.Ranged) (i : Nat) :
    controlWord ops i = control ops[i]? ops[i + 1]? ops[i + 2]? := by
  apply BitVec.eq_of_toNat_eq
  unfold Spec.control
  rw [controlWord_toNat h, BitVec.toNat_ofNat, slot_eq, slot_eq, slot_eq]
  have h0 := schedData_lt h i
  have h1 := schedData_lt h (i + 1)
  have h2 := schedData_lt h (i + 2)
  rw [Nat.mod_eq_of_lt (by omega)]
  omega

theorem emitFrom_groups {rest pre : List Op} (h : ∀ o ∈ pre ++ rest, o.Ranged) (hp : pre.length % 3 = 0) :
    emitFrom (pre ++ rest) pre.length rest ++
      List.replicate ((4 - (emitFrom (pre ++ rest) pre.length rest).length % 4) % 4) nopWord = groups rest := by
  induction rest using groups.induct generalizing pre with
  | case1 => simp [emitFrom, groups]
  | case2 a =>
    have e1 : (pre ++ [a])[pre.length]? = some a := by simp
    have e2 : (pre ++ [a])[pre.length + 1]? = none := by simp
    have e3 : (pre ++ [a])[pre.length + 2]? = none := by simp
    simp only [emitFrom, hp, if_true, controlWord_eq h, e1, e2, e3, groups]
    rfl
  | case3 a b =>
    have e1 : (pre ++ [a, b])[pre.length]? = some a := by simp
    have e2 : (pre ++ [a, b])[pre.length + 1]? = some b := by
      rw [List.getElem?_append_right (by omega)]; simp
    have e3 : (pre ++ [a, b])[pre.length + 2]? = none := by simp
    have hp1 : (pre.length + 1) % 3 ≠ 0 := by omega
    simp only [emitFrom, hp, if_true, if_neg hp1, controlWord_eq h, e1, e2, e3, groups]
    rfl
  | case4 a b c rest ih =>
    have e1 : (pre ++ a :: b :: c :: rest)[pre.length]? = some a := by
      rw [List.getElem?_append_right (by omega)]; simp
    have e2 : (pre ++ a :: b :: c :: rest)[pre.length + 1]? = some b := by
      rw [List.getElem?_append_right (by omega)]; simp
    have e3 : (pre ++ a :: b :: c :: rest)[pre.length + 2]? = some c := by
      rw [List.getElem?_append_right (by omega)]; simp
    have hp1 : (pre.length + 1) % 3 ≠ 0 := by omega
    have hp2 : (pre.length + 1 + 1) % 3 ≠ 0 := by omega
    have hl : pre ++ a :: b :: c :: rest = (pre ++ [a, b, c]) ++ rest := by simp
    have := ih (pre := pre ++ [a, b, c]) (by rw [← hl]; exact h) (by simp; omega)
    rw [← hl] at this
    have hlen : (pre ++ [a, b, c]).length = pre.length + 1 + 1 + 1 := by simp
    rw [hlen] at this
    rw [groups, ← this]
    simp only [emitFrom, hp, if_true, if_neg hp1, if_neg hp2, controlWord_eq h, e1, e2, e3, List.nil_append,
      List.cons_append, List.length_cons]
    congr 6
    omega

/-- The emitted code. -/
theorem emit_groups {ops : List Op} (h : ∀ o ∈ ops, o.Ranged) : emit ops = groups ops :=
  emitFrom_groups (pre := []) h rfl

/-! ### Containers -/

theorem append_eq_or (hi lo : BitVec 32) : hi ++ lo = lo.setWidth 64 ||| (hi.setWidth 64 <<< 32) := by
  apply BitVec.eq_of_getLsbD_eq
  intro i hi'
  simp only [BitVec.getLsbD_append, BitVec.getLsbD_or, BitVec.getLsbD_setWidth, BitVec.getLsbD_shiftLeft]
  by_cases h : i < 32
  · simp [h, hi']
  · have : lo.getLsbD i = false := BitVec.getLsbD_of_ge _ _ (by omega)
    have h' : i - 32 < 64 := by omega
    simp [h, hi', this, h']

theorem mask_low (x : BitVec 32) (k : Nat) :
    x &&& ~~~(BitVec.ofNat 32 (2 ^ k - 1)) = BitVec.ofNat 32 (x.toNat / 2 ^ k * 2 ^ k) := by
  apply BitVec.eq_of_getLsbD_eq
  intro i hi
  simp only [BitVec.getLsbD_and, BitVec.getLsbD_not, BitVec.getLsbD_ofNat, Nat.testBit_two_pow_sub_one, Nat.testBit_mul_two_pow,
    Nat.testBit_div_two_pow]
  by_cases h : i < k
  · have : ¬ k ≤ i := by omega
    simp [h, hi, this]
  · have h' : k ≤ i := by omega
    have e : i - k + k = i := by omega
    simp [h, hi, h', e, BitVec.getLsbD]

theorem align256_eq (v : BitVec 32) : align256 v = BitVec.ofNat 32 (roundUp 256 v.toNat) := by
  have := mask_low (v + 0xFF#32) 8
  unfold align256
  rw [show 0xFF#32 = BitVec.ofNat 32 (2 ^ 8 - 1) from rfl] at this ⊢
  rw [this]
  apply BitVec.eq_of_toNat_eq
  unfold roundUp
  simp only [BitVec.toNat_ofNat, BitVec.toNat_add]
  omega

theorem align256_ofNat (n : Nat) : align256 (BitVec.ofNat 32 n) = BitVec.ofNat 32 (roundUp 256 n) := by
  rw [align256_eq]
  apply BitVec.eq_of_toNat_eq
  unfold roundUp
  simp only [BitVec.toNat_ofNat]
  omega

theorem align8_eq (v : BitVec 32) : align8 v = BitVec.ofNat 32 (roundUp 16 v.toNat) := by
  have := mask_low (v + 0xF#32) 4
  unfold align8
  rw [show 0xF#32 = BitVec.ofNat 32 (2 ^ 4 - 1) from rfl] at this ⊢
  rw [this]
  apply BitVec.eq_of_toNat_eq
  unfold roundUp
  simp only [BitVec.toNat_ofNat, BitVec.toNat_add]
  omega

theorem scratchSize_iff (o : Opts) (v : BitVec 32) : scratchSize o.localMem = some v ↔
    (-(2 ^ 31) ≤ scratch o ∧ scratch o < 2 ^ 31) ∧ v = BitVec.ofInt 32 (scratch o) := by
  unfold scratchSize
  rw [align8_eq]
  show (if scratch o < -(2 ^ 31) ∨ scratch o > 2 ^ 31 - 1 then none else some (BitVec.ofInt 32 (scratch o))) = some v ↔ _
  split
  · simp only [reduceCtorEq, false_iff]; omega
  · simp only [Option.some.injEq]
    constructor
    · rintro rfl; exact ⟨by omega, rfl⟩
    · rintro ⟨_, rfl⟩; rfl

/-- The control section of a compute program. -/
theorem writeDksh_iff {c : Ctx} {n : Nat} {ws : List (BitVec 64)} (ht : c.opts.type = some .compute) :
    writeDksh c n = .ok ws ↔ ∃ entry, c.labels.find c!"main" = some (entry + 8) ∧ entry % 32 = 0 ∧
      (-(2 ^ 31) ≤ scratch c.opts ∧ scratch c.opts < 2 ^ 31) ∧ ws = dkshControl c.opts n entry := by
  have key : ∀ entry v, v = BitVec.ofInt 32 (scratch c.opts) →
      pairWords (dkshHeader n ++ ([BitVec.ofNat 32 ProgType.compute.code, BitVec.ofNat 32 entry, 8#32, 0#32, 0#32, v] ++
        dkshUnion c.opts ++ [0#32])) ++ List.replicate (32 - (pairWords (dkshHeader n ++
          ([BitVec.ofNat 32 ProgType.compute.code, BitVec.ofNat 32 entry, 8#32, 0#32, 0#32, v] ++
        dkshUnion c.opts ++ [0#32]))).length) 0#64 = dkshControl c.opts n entry := by
    intro entry v hv
    subst hv
    unfold dkshHeader dkshUnion
    rw [ht, align256_ofNat, align256_eq, align8_eq, Nat.mul_comm n 8]
    unfold dkshControl dkshField dkshFields
    simp only [append_eq_or]
    simp [pairWords, List.range, List.range.loop, ProgType.code]
  unfold writeDksh
  rw [ht]
  dsimp only
  cases hm : c.labels.find c!"main" with
  | none => simp
  | some off =>
    dsimp only
    by_cases ho : off % 32 = 8
    · rw [if_neg (by simp [ho])]
      cases hs : scratchSize c.opts.localMem with
      | none =>
        have : ∀ v, scratchSize c.opts.localMem ≠ some v := by simp [hs]
        simp only [reduceCtorEq, false_iff]
        rintro ⟨entry, -, -, h, -⟩
        exact this _ ((scratchSize_iff _ _).2 ⟨h, rfl⟩)
      | some v =>
        obtain ⟨h1, h2⟩ := (scratchSize_iff _ _).1 hs
        dsimp only
        rw [key (off - 8) v h2]
        simp only [Res.ok.injEq, Option.some.injEq]
        constructor
        · rintro rfl; exact ⟨off - 8, by omega, by omega, h1, rfl⟩
        · rintro ⟨entry, rfl, -, -, rfl⟩; simp
    · rw [if_pos ho]
      simp only [reduceCtorEq, Option.some.injEq, false_iff]
      rintro ⟨entry, rfl, h, -⟩
      omega

/-- The container. -/
theorem binary_iff {c : Ctx} {code words : List (BitVec 64)} :
    binary c code = .ok words ↔ Image c.labels.find c.opts code words := by
  constructor
  · intro h
    by_cases hd : c.opts.isDksh = true
    · obtain ⟨h1, ctl, h2, -, rfl⟩ := binary_dksh hd h
      obtain ⟨entry, e1, e2, e3, rfl⟩ := (writeDksh_iff h1).1 h2
      exact .dksh hd h1 e1 e2 e3
    · rw [Bool.not_eq_true] at hd
      obtain ⟨rfl, h2⟩ := binary_raw hd h
      exact .raw hd h2
  · intro h
    cases h with
    | raw hd ht => rcases ht with ht | ht <;> simp [binary, ht, hd]
    | @dksh entry hd ht hm ha hs =>
      have h1 := (writeDksh_iff (n := code.length) ht).2 ⟨entry, hm, ha, hs, rfl⟩
      simp [binary, ht, hd, h1]

/-! ### The assembler -/

theorem Labels.map_unique {t : Str} {ls : Labels} (h : genLabels t = .ok ls) {lab : Str → Option Nat} (hl : IsLabelMap t lab) :
    lab = ls.find := by
  funext name
  have h1 := genLabels_find h name
  have h2 := hl name
  cases hf : lab name with
  | none =>
    cases hg : ls.find name with
    | none => rfl
    | some a => rw [(h2 a).2 ((h1 a).1 hg)] at hf; simp at hf
  | some a => rw [(h1 a).2 ((h2 a).1 hf)]

/-! ### The end of the text -/

/-- Skipped text ends in a blank or a colon. -/
theorem _root_.Nxas.Spec.Skipped.last {w rest : Str} (h : Skipped w rest) : ∀ c, w.getLast? = some c → c ∈ blanks ∨ c = ':' := by
  induction h with
  | nil => simp
  | @blank c w rest hc h ih =>
    intro x hx
    rw [List.getLast?_cons] at hx
    cases hw : w.getLast? with
    | none => rw [hw] at hx; simp at hx; subst hx; exact .inl hc
    | some y => rw [hw] at hx; simp at hx; subst hx; exact ih y hw
  | @label v w rest hv hl h ih =>
    intro x hx
    rw [List.getLast?_append] at hx
    cases hw : w.getLast? with
    | none => rw [hw, hl] at hx; simp at hx; exact .inr hx.symm
    | some y => rw [hw] at hx; simp at hx; subst hx; exact ih y hw

theorem operator_semicolon {c : Char} (h : (c, Kind.semicolon) ∈ operators) : c = ';' := by
  have : ∀ y ∈ operators, y.2 = .semicolon → y.1 = ';' := by decide
  exact this _ h rfl

theorem _root_.Nxas.Spec.Lexeme.semicolon {w rest : Str} (h : Lexeme w rest .semicolon) : w = [';'] := by
  cases h with
  | operator h _ => rw [operator_semicolon h]

/-- After the last semicolon there are blanks and labels only. -/
theorem _root_.Nxas.Spec.Scans.ending {l : Nat} {t : Str} {ts : List (Kind × Nat)} (h : Scans l t ts)
    (he : ∀ x, ts.getLast? = some x → x.1 = .semicolon) : ∃ pre s, t = pre ++ s ∧ Skipped s [] ∧ (ts = [] ∧ pre = [] ∨ ts ≠ [] ∧ pre.getLast? = some ';') := by
  induction h with
  | @done l t h => exact ⟨[], t, rfl, h, .inl ⟨rfl, rfl⟩⟩
  | @token l s w rest k ts hs hw h ih =>
    cases ts with
    | nil =>
      obtain rfl : k = .semicolon := he (k, l + lineAfter s) rfl
      obtain rfl := hw.semicolon
      cases h with
      | done h => exact ⟨s ++ [';'], rest, rfl, h, .inr ⟨by simp, by simp⟩⟩
    | cons t ts =>
      obtain ⟨pre, s', rfl, h1, h2⟩ := ih (by
        intro x hx
        exact he x (by rw [List.getLast?_cons_cons]; exact hx))
      refine ⟨s ++ w ++ pre, s', by simp, h1, ?_⟩
      rcases h2 with ⟨h2, -⟩ | ⟨-, h2⟩
      · simp at h2
      · refine .inr ⟨by simp, ?_⟩
        rw [List.getLast?_append, h2]
        rfl

/-- A program ends in a semicolon. -/
theorem _root_.Nxas.Spec.Program.ending {lab : Str → Option Nat} {i : Nat} {o o' : Opts} {ts : List (Kind × Nat)} {ops : List Op}
    (h : Program lab i o ts ops o') : ∀ x, ts.getLast? = some x → x.1 = .semicolon := by
  induction h with
  | done => simp
  | @insn i o o' ts rest op ops h _ ih =>
    intro x hx
    rw [List.getLast?_append] at hx
    cases hr : rest.getLast? with
    | some y => rw [hr] at hx; simp at hx; subst hx; exact ih y hr
    | none =>
      rw [hr] at hx
      simp only [Option.or] at hx
      have h1 : (ts.map Prod.fst).getLast? = some x.1 := by rw [List.getLast?_map, hx]; rfl
      generalize ts.map Prod.fst = ks at h h1
      cases h with | mk hs h hp
      rw [← List.cons_append, ← List.append_assoc, List.getLast?_append] at h1
      simpa using h1.symm
  | @option i o o1 o' t next ts rest ops h hline hr ih =>
    intro x hx
    rw [List.getLast?_append] at hx
    cases hn : (next :: rest).getLast? with
    | none => simp at hn
    | some y => rw [hn] at hx; simp at hx; subst hx; exact ih y hn

/-- The last line of an accepted source is not a bare word. -/
theorem Scans.no_word {l : Nat} {t : Str} {ts : List (Kind × Nat)} (h : Scans l t ts)
    (he : ∀ x, ts.getLast? = some x → x.1 = .semicolon) : ¬ LastLineIsWord t := by
  rintro ⟨pre', w, rfl, -, ⟨c0, cs, rfl, -⟩, hw⟩
  obtain ⟨x, hx⟩ : ∃ x, (c0 :: cs).getLast? = some x := by
    cases h : (c0 :: cs).getLast? with
    | none => simp at h
    | some x => exact ⟨x, rfl⟩
  have hxw := hw x (List.mem_of_getLast? hx)
  have hno : x ∉ ';' :: ':' :: blanks := by
    intro hm
    have : ∀ c ∈ ';' :: ':' :: blanks, ¬ wordChar c := by
      unfold wordChar letter
      decide
    exact this x hm hxw
  obtain ⟨pre, s, h1, h2, h3⟩ := h.ending he
  have hl : (pre ++ s).getLast? = some x := by rw [← h1, List.getLast?_append, hx]; rfl
  rw [List.getLast?_append] at hl
  cases hs : s.getLast? with
  | some y =>
    rw [hs] at hl
    simp at hl
    subst hl
    rcases h2.last y hs with h | h <;> exact hno (by simp [h])
  | none =>
    rw [hs] at hl
    rcases h3 with ⟨-, rfl⟩ | ⟨-, h3⟩
    · simp at hl
    · rw [h3] at hl
      simp at hl
      exact hno (by simp [← hl])

theorem visible_no_nul (code : Str) : '\x00' ∉ visible code := by
  intro h
  have := List.mem_takeWhile_imp h
  simp at this

/-- The assembler accepts exactly the valid sources, and gives their images. -/
theorem assemble_iff {code : Str} {words : List (BitVec 64)} :
    assemble false code = .ok words ↔ Assembles (visible code) words := by
  have hz := visible_no_nul code
  have hcs : cstr code = visible code := rfl
  have hpc : alignPc 0 = addressOf 0 := rfl
  constructor
  · intro h
    obtain ⟨ops, c, ⟨ls, hg, hr⟩, hb, -⟩ := assemble_ok h
    rw [hcs] at hg hr
    obtain ⟨h1, ts, h2, h3⟩ := Run.program (i := 0) hpc hr
    refine ⟨ls.find, ts.map Token.pair, ops, c.opts, fun name a => genLabels_find hg name a,
      (scans_iff (c := ⟨visible code, 0, 0⟩) hz).2 ⟨ts, h2, rfl⟩, h3, ?_⟩
    rw [emit_groups hr.ranged, binary_iff, h1] at hb
    exact hb
  · rintro ⟨lab, ps, ops, o, h2, h3, h4, h5⟩
    have h1 := Scans.no_word h3 h4.ending
    cases hg : genLabels (visible code) with
    | error u =>
      obtain ⟨rfl, hb⟩ := genLabels_error hg
      exact absurd hb h1
    | ok ls =>
      obtain rfl := Labels.map_unique hg h2
      obtain ⟨ts, h6, rfl⟩ := (scans_iff (c := ⟨visible code, 0, 0⟩) hz).1 h3
      obtain ⟨c, h7, h8, rfl⟩ := program_run (x := ⟨⟨visible code, 0, 0⟩, ls, 0, {}⟩) (i := 0) hpc h6 h4
      have hroom : ops.length < countSemicolons code + 1 := by
        have hc := h7.count
        have : (visible code).count ';' ≤ code.count ';' := (List.takeWhile_sublist _).count_le _
        show _ < code.count ';' + 1
        simp only at hc
        omega
      unfold assemble assembleWith
      rw [hcs, hg]
      dsimp only
      rw [run_parseAll h7 hroom]
      dsimp only
      rw [if_neg (by simp), emit_groups h7.ranged, binary_iff, h8]
      exact h5

end Nxas
