import Verif.Props.Containers
import Verif.Props.Literals
/-
C82: the numbers of the options.  C13: where literals out of range can be.
-/

namespace Nxas
open Spec

/-- The field `n` of the header stands for the size `v` of an option: the next multiple of `g`. -/
def Covers (g : Nat) (v : Int) (n : BitVec 32) : Prop := 0 ≤ v ∧ v ≤ n.toNat ∧ (n.toNat : Int) < v + g ∧ n.toNat % g = 0

/-- C82, as it should be: sizes are rounded up to the next multiple, the numbers of threads are as in the source. -/
def C82_claim : Prop := ∀ (d : Bool) (code : Str) (ws : List (BitVec 64)) (ts : List (Kind × Nat)), assemble d code = .ok ws →
  Scans 0 (visible code) ts → DkshSource ts →
  (∀ v ks, behind c!".shared_memory" ts = some (.imm v :: ks) → Covers 256 v (half ws 15)) ∧
  (∀ v ks, behind c!".local_memory" ts = some (.imm v :: ks) → Covers 16 v (half ws 16)) ∧
  (∀ x y z ks, behind c!".workgroup_size" ts = some (.imm x :: .imm y :: .imm z :: ks) →
    ((half ws 12).toNat : Int) = x ∧ ((half ws 13).toNat : Int) = y ∧ ((half ws 14).toNat : Int) = z)

theorem ofInt_toNat {v : Int} (h0 : 0 ≤ v) (h1 : v < 2 ^ 32) : ((BitVec.ofInt 32 v).toNat : Int) = v := by
  rw [BitVec.toNat_ofInt]
  omega

theorem ofInt_toNat_iff {v : Int} : ((BitVec.ofInt 32 v).toNat : Int) = v ↔ 0 ≤ v ∧ v < 2 ^ 32 :=
  ⟨fun h => ⟨by omega, by have := (BitVec.ofInt 32 v).isLt; omega⟩, fun h => ofInt_toNat h.1 h.2⟩

theorem fits_round {g : Nat} (hg : g = 256 ∨ g = 16) {v : Int} :
    Covers g v (BitVec.ofNat 32 (roundUp g (BitVec.ofInt 32 v).toNat)) ↔ 0 ≤ v ∧ v ≤ 2 ^ 32 - g := by
  unfold Covers roundUp
  rw [BitVec.toNat_ofNat]
  constructor
  · rintro ⟨h0, h1, h2, h3⟩
    refine ⟨h0, ?_⟩
    rcases hg with rfl | rfl <;> omega
  · rintro ⟨h0, h1⟩
    have hv := ofInt_toNat h0 (by rcases hg with rfl | rfl <;> omega)
    rcases hg with rfl | rfl
    · have e : ((BitVec.ofInt 32 v).toNat + (256 - 1)) / 256 * 256 < 2 ^ 32 := by omega
      rw [Nat.mod_eq_of_lt e]
      omega
    · have e : ((BitVec.ofInt 32 v).toNat + (16 - 1)) / 16 * 16 < 2 ^ 32 := by omega
      rw [Nat.mod_eq_of_lt e]
      omega

/-- C82, exactly: the size of the shared memory is right iff it is a number up to 2^32 - 256, the size of the local memory
    iff it is one up to 2^32 - 16, and a number of threads iff it has 32 bits.  Other numbers are accepted too. -/
theorem C82_partial {d : Bool} {code : Str} {ws : List (BitVec 64)} {ts : List (Kind × Nat)} (h : assemble d code = .ok ws)
    (hs : Scans 0 (visible code) ts) (hd : DkshSource ts) :
    (∀ v ks, behind c!".shared_memory" ts = some (.imm v :: ks) → (Covers 256 v (half ws 15) ↔ 0 ≤ v ∧ v ≤ 2 ^ 32 - 256)) ∧
    (∀ v ks, behind c!".local_memory" ts = some (.imm v :: ks) → (Covers 16 v (half ws 16) ↔ 0 ≤ v ∧ v ≤ 2 ^ 32 - 16)) ∧
    (∀ x y z ks, behind c!".workgroup_size" ts = some (.imm x :: .imm y :: .imm z :: ks) →
      (((half ws 12).toNat : Int) = x ↔ 0 ≤ x ∧ x < 2 ^ 32) ∧ (((half ws 13).toNat : Int) = y ↔ 0 ≤ y ∧ y < 2 ^ 32) ∧
      (((half ws 14).toNat : Int) = z ↔ 0 ≤ z ∧ z < 2 ^ 32)) := by
  obtain ⟨-, -, -, -, -, -, -, h1, h2, h3, -⟩ := C49_header h hs hd
  refine ⟨fun v ks hb => ?_, fun v ks hb => ?_, fun x y z ks hb => ?_⟩
  · rw [h2, lastSize, hb]
    exact fits_round (.inl rfl)
  · rw [h3, lastSize, hb]
    exact fits_round (.inr rfl)
  · rw [lastDims, hb] at h1
    simp only [Prod.mk.injEq] at h1
    rw [h1.1, h1.2.1, h1.2.2]
    exact ⟨ofInt_toNat_iff, ofInt_toNat_iff, ofInt_toNat_iff⟩

/-- C82. Of the sizes of local memory below 2 GiB only those up to 2^26 - 80 are accepted. (Larger ones are undefined
    behaviour, see C73.) -/
theorem C82_local {d : Bool} {code : Str} {ws : List (BitVec 64)} {ts : List (Kind × Nat)} (h : assemble d code = .ok ws)
    (hs : Scans 0 (visible code) ts) (hd : DkshSource ts) {v : Int} {ks : List Kind}
    (hb : behind c!".local_memory" ts = some (.imm v :: ks)) (h1 : v < 2 ^ 31 - 16) (h0 : 0 ≤ v) : v ≤ 2 ^ 26 - 80 := by
  obtain ⟨-, -, -, -, -, -, -, -, -, h3, h4, -⟩ := C49_header h hs hd
  obtain ⟨-, h5, h6, h7⟩ := ((C82_partial h hs hd).2.1 v ks hb).2 ⟨h0, by omega⟩
  have h8 := (half ws 11).isLt
  have h9 : (half ws 11).toInt < 2 ^ 31 := by have := BitVec.toInt_lt (x := half ws 11); omega
  have h10 : (half ws 16).toInt = (half ws 16).toNat := by
    rw [BitVec.toInt_eq_toNat_of_lt]
    omega
  omega

/-- The sample of C49 meets the hypotheses: 300 bytes become 512, 8 become 16. -/
example : behind c!".shared_memory" sampleTokens = some (.imm 300 :: (sampleTokens.drop 4).map Prod.fst) ∧ Covers 256 300 (half sampleImage 15) := by
  refine ⟨by decide, ?_⟩
  unfold Covers
  decide
example : behind c!".local_memory" sampleTokens = some (.imm 8 :: (sampleTokens.drop 6).map Prod.fst) ∧ Covers 16 8 (half sampleImage 16) := by
  refine ⟨by decide, ?_⟩
  unfold Covers
  decide
example : behind c!".workgroup_size" sampleTokens = some (.imm 4 :: .imm 5 :: .imm 6 :: (sampleTokens.drop 10).map Prod.fst) := by decide

/-- A source with sizes that do not fit. -/
abbrev oversized : Str := c!".dksh compute\n.shared_memory 0x100000001\n.workgroup_size -1 1 1\nmain:\nNOP;"
abbrev oversizedTokens : List (Kind × Nat) :=
  [(.ident c!".dksh", 0), (.ident c!"compute", 0), (.ident c!".shared_memory", 1), (.imm 0x100000001, 1),
   (.ident c!".workgroup_size", 2), (.imm (-1), 2), (.imm 1, 2), (.imm 1, 2), (.ident c!"NOP", 4), (.semicolon, 4)]

/-- C82 is violated: 4 GiB and one byte of shared memory are accepted and become 256 bytes, -1 threads become 4294967295. -/
theorem C82_violated : ∃ ws, assemble true oversized = .ok ws ∧ Scans 0 (visible oversized) oversizedTokens ∧ DkshSource oversizedTokens ∧
    half ws 15 = 256 ∧ half ws 12 = 0xFFFFFFFF :=
  ⟨[0x0000001848534b44, 0x0000010000000100, 0x0000000100000018, 0x0000000000000005, 0x0000000000000008, 0x0000080000000000,
    0x00000001ffffffff, 0x0000010000000001, 0x0000000000000000, 0x0000000000000800] ++ List.replicate 22 0 ++
    [0x001f8000fc0007e0, 0x50b0000000070f00, 0x50b0000000070f00, 0x50b0000000070f00] ++ List.replicate 28 0, by decide +kernel,
    lexAll_scans (n := 14) (by decide) (by decide +kernel),
    ⟨[], c!".dksh", 0, c!"compute", oversizedTokens.drop 2, rfl, by decide, by decide, by decide⟩, by decide, by decide⟩

/-- A size of 32 bits that is rounded up to zero. -/
theorem C82_wraps : ∃ ws, assemble true c!".dksh compute\n.shared_memory 0xffffffff\nmain:\nNOP;" = .ok ws ∧ half ws 15 = 0 :=
  ⟨[0x0000001848534b44, 0x0000010000000100, 0x0000000100000018, 0x0000000000000005, 0x0000000000000008, 0x0000080000000000,
    0x0000000100000001, 0x0000000000000001, 0x0000000000000000, 0x0000000000000800] ++ List.replicate 22 0 ++
    [0x001f8000fc0007e0, 0x50b0000000070f00, 0x50b0000000070f00, 0x50b0000000070f00] ++ List.replicate 28 0, by decide +kernel, by decide⟩

theorem C82_not_claim : ¬ C82_claim := by
  intro h
  obtain ⟨ws, h1, h2, h3, h4, -⟩ := C82_violated
  have h5 := ((h _ _ _ _ h1 h2 h3).1 0x100000001 ((oversizedTokens.drop 4).map Prod.fst) (by decide)).2.1
  rw [h4] at h5
  revert h5
  decide

/-! ### C13: where literals out of range can be -/

/-- The tokens of an instruction in which a floating point operand of its row is written with the integer `x`. -/
def FloatOperand (ks : List Kind) (x : Int) : Prop := ∃ row ∈ insnTable, ∃ o ∈ row.operands, o.float = true ∧ .ident row.mnemonic ∈ ks ∧
  ∃ e v args k b r, Accepts e v o args k b r ∧ .imm x ∈ args ∧ args <:+: ks

theorem sequence_extreme {e : Env} (he : e.pc < 2 ^ 62) {os : List Operand} (hos : ∀ o ∈ os, o.narrow = true) {v v' : BitVec 64}
    {ks : List Kind} {k : Kind} {r : BitVec 32} (h : Sequence e os v ks k v' r) {x : Int} (hx : .imm x ∈ ks) (hm : ¬ Moderate x) :
    ∃ o ∈ os, o.float = true ∧ ∃ v args k b r, Accepts e v o args k b r ∧ .imm x ∈ args ∧ args <:+: ks := by
  induction h with
  | nil => simp at hx
  | @cons o os v b v' ks ks' k r r' h _ ih =>
    rcases List.mem_append.1 hx with hx | hx
    · cases hf : o.float
      · exact absurd (accepts_imm he hf (hos _ (by simp)) h hx) hm
      · exact ⟨o, by simp, hf, _, ks, _, _, _, h, hx, (List.prefix_append _ _).isInfix⟩
    · obtain ⟨o', h1, h2, v, args, k, b, r, h3, h4, h5⟩ := ih (fun o ho => hos o (by simp [ho])) hx
      exact ⟨o', by simp [h1], h2, v, args, k, b, r, h3, h4, h5.trans (List.suffix_append _ _).isInfix⟩

theorem table_narrow : ∀ row ∈ insnTable, ∀ o ∈ row.operands, o.narrow = true := by
  intro row hr o ho
  have h := List.all_eq_true.1 float_rows row hr
  simp only [Bool.or_eq_true, Bool.and_eq_true, List.all_eq_true] at h
  rcases h with h | h
  · exact (h o ho).1
  · exact h.2 o ho

theorem instr_extreme {e : Env} (he : e.pc < 2 ^ 62) {ks : List Kind} {op : Op} (h : InstrText e ks op) {x : Int} (hx : .imm x ∈ ks)
    (hm : ¬ Moderate x) : FloatOperand ks x := by
  cases h with | @mk g row ks op pre post hsplit h hp
  have hrow : row ∈ insnTable := by rw [hsplit]; simp
  cases h with | @mk ks ks' v r as _ ho ha
  simp only [List.mem_append, List.mem_cons, reduceCtorEq, List.not_mem_nil, or_false, false_or] at hx
  rcases hx with hx | hx | hx
  · rcases g with - | ⟨p, n⟩ <;> simp [guardTokens] at hx
  · obtain ⟨o, h1, h2, v, args, k, b, r, h3, h4, h5⟩ := sequence_extreme he (table_narrow row hrow) ho hx hm
    refine ⟨row, hrow, o, h1, h2, by simp, e, v, args, k, b, r, h3, h4, h5.trans ?_⟩
    exact ⟨guardTokens g ++ [.ident row.mnemonic], ks' ++ [.semicolon], by simp⟩
  · exact absurd (annots_imm ha hx) hm

/-- C13, exactly: an accepted source has a number at an end of the 64-bit range, which is how literals out of range are read, only
    in an option or where a floating point operand is expected.  There it is taken for the number at the end of the
    range, see `C82_violated` and `C13_violated`. The last hypothesis excludes texts of more than 2^57 tokens. -/
theorem C13_exact {d : Bool} {code : Str} {ws : List (BitVec 64)} {ts : List (Kind × Nat)} (h : assemble d code = .ok ws)
    (hs : Scans 0 (visible code) ts) (hl : ts.length < 2 ^ 57) {x : Int} (hx : .imm x ∈ ts.map Prod.fst) (hm : x = -(2 ^ 63) ∨ x = 2 ^ 63 - 1) :
    ∃ pre mid post, ts = pre ++ mid ++ post ∧ .imm x ∈ mid.map Prod.fst ∧
      ((∃ o o', OptionText o mid o') ∨ FloatOperand (mid.map Prod.fst) x) := by
  obtain ⟨lab, ts0, ops, o, -, h2, h3, -⟩ := accepted h
  obtain rfl := scans_unique (visible_no_nul code) hs h2
  have hm : ¬ Moderate x := by unfold Moderate; omega
  have hi : 0 + ts.length < 2 ^ 57 := by omega
  clear h hs h2 hl
  generalize 0 = i at h3 hi
  generalize ({} : Opts) = o0 at h3
  induction h3 with
  | done => simp at hx
  | @insn i o o' ts rest op ops h hr ih =>
    rw [List.length_append] at hi
    have hne : ts.length ≠ 0 := by
      obtain ⟨k, r, h6, -⟩ := InstrText.start h
      have := congrArg List.length h6
      simp at this
      omega
    rw [List.map_append] at hx
    rcases List.mem_append.1 hx with hx | hx
    · refine ⟨[], ts, rest, by simp, hx, .inr (instr_extreme (e := ⟨lab, addressOf i⟩) ?_ h hx hm)⟩
      show addressOf i < 2 ^ 62
      unfold addressOf
      omega
    · obtain ⟨pre, mid, post, h1, h2⟩ := ih hx (by omega)
      exact ⟨ts ++ pre, mid, post, by rw [h1]; simp, h2⟩
  | @option i o o1 o' t next ts rest ops h hn _ ih =>
    rw [List.length_append] at hi
    simp only [List.map_append] at hx
    rcases List.mem_append.1 hx with hx | hx
    · exact ⟨[], t :: ts, next :: rest, by simp, hx, .inl ⟨_, _, h⟩⟩
    · obtain ⟨pre, mid, post, h1, h2⟩ := ih hx (by simp only [List.length_cons] at hi ⊢; omega)
      exact ⟨t :: ts ++ pre, mid, post, by rw [h1]; simp, h2⟩

/-- Sources with such literals: the floating point number is 2^63, the size is 2^32 - 1, rounded up to 0. -/
example : (∃ ws, assemble true c!"FADD32I R0, R1, 100000000000000000000;" = .ok ws) ∧
    Scans 0 (visible c!"FADD32I R0, R1, 100000000000000000000;")
      [(.ident c!"FADD32I", 0), (.reg 0, 0), (.comma, 0), (.reg 1, 0), (.comma, 0), (.imm (2 ^ 63 - 1), 0), (.semicolon, 0)] :=
  ⟨⟨[0x001F8000FC0007E0, 0x0805F00000070100, 0x50B0000000070F00, 0x50B0000000070F00], by decide +kernel⟩,
    lexAll_scans (n := 9) (by decide) (by decide +kernel)⟩
example : (∃ ws, assemble true c!".shared_memory 100000000000000000000\nNOP;" = .ok ws) ∧
    Scans 0 (visible c!".shared_memory 100000000000000000000\nNOP;")
      [(.ident c!".shared_memory", 0), (.imm (2 ^ 63 - 1), 0), (.ident c!"NOP", 1), (.semicolon, 1)] :=
  ⟨⟨[0x001F8000FC0007E0, 0x50B0000000070F00, 0x50B0000000070F00, 0x50B0000000070F00], by decide +kernel⟩,
    lexAll_scans (n := 9) (by decide) (by decide +kernel)⟩

end Nxas
