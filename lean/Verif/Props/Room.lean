import Verif.Props.Containers
import Verif.Props.Clash
import Verif.Props.Flow
import Verif.Lemmas.Counters
/-
C100: the size of the output.  C101: where the code can be entered.
-/

namespace Nxas

open Spec

/-! ### Sizes -/

/-- The words reserved for the code of a source (src/nxas.cpp:34, 44). -/
def Spec.room (code : Str) : Nat := (code.count ';' + 1) * 4 / 3 + 4

theorem visible_semicolons (code : Str) : (visible code).count ';' ≤ code.count ';' :=
  (List.takeWhile_sublist _).count_le _

/-- The tokens have no more semicolons than the text. -/
theorem scans_semicolons {l : Nat} {t : Str} {ts : List (Kind × Nat)} (h : Scans l t ts) : semicolons ts ≤ t.count ';' := by
  induction h with
  | done => exact Nat.zero_le _
  | @token l s w rest k ts _ hw _ ih =>
    unfold semicolons at ih ⊢
    rw [List.countP_cons, List.count_append, List.count_append]
    split
    · rename_i hk
      obtain rfl : k = .semicolon := by simpa using hk
      obtain rfl := hw.semicolon
      simp
      omega
    · omega

/-- With assertions, they have as many. -/
theorem debug_semicolons {code : Str} {ws : List (BitVec 64)} {ts : List (Kind × Nat)} (h : assemble true code = .ok ws)
    (hs : Scans 0 (visible code) ts) : semicolons ts = code.count ';' := by
  obtain ⟨f, t1, ops, o, l1, s1, p1, -⟩ := accepted h
  obtain rfl := scans_unique (visible_no_nul code) hs s1
  by_contra hn
  rw [(C79_aborts code).2 (.count l1 s1 p1 (by rw [Program.semicolons p1]; exact hn))] at h
  simp at h

/-- C100. The code, in a container or not, has no more words than have been reserved for it, so that it is never moved. -/
theorem C100_reserved {d : Bool} {code : Str} {ws : List (BitVec 64)} (h : assemble d code = .ok ws) :
    ∃ front words back, ws = front ++ words ++ back ∧ words.length ≤ room code ∧
      (front = [] ∧ back = [] ∨ front.length = 32 ∧ 1 ≤ back.length ∧ back.length ≤ 32) := by
  obtain ⟨f, ts, ops, o, l1, s1, p1, i1⟩ := accepted h
  have h1 := Program.semicolons p1
  have h2 := scans_semicolons s1
  have h3 := visible_semicolons code
  have h4 := groups_length ops
  have h5 : (groups ops).length ≤ room code := by unfold room; omega
  cases i1 with
  | raw => exact ⟨[], groups ops, [], by simp, h5, .inl ⟨rfl, rfl⟩⟩
  | @dksh entry =>
    exact ⟨_, _, _, rfl, h5, .inr ⟨by simp [dkshControl], by rw [List.length_replicate]; omega, by rw [List.length_replicate]; omega⟩⟩

/-- A group of three, for which more room is reserved than needed, and a container. -/
example : (∃ ws, assemble true c!"NOP;NOP;NOP;" = .ok ws ∧ ws.length = 4 ∧ room c!"NOP;NOP;NOP;" = 9) ∧
    ∃ ws, assemble true c!".dksh compute\nmain:\nNOP;" = .ok ws ∧ ws.length = 64 :=
  ⟨⟨[0x001f8000fc0007e0, 0x50b0000000070f00, 0x50b0000000070f00, 0x50b0000000070f00], by decide +kernel, rfl, by decide⟩,
   ⟨[0x0000001848534b44, 0x0000010000000100, 0x0000000100000018, 0x0000000000000005, 0x0000000000000008, 0x0000080000000000,
    0x0000000100000001, 0x0000000000000001, 0x0000000000000000, 0x0000000000000800] ++ List.replicate 22 0 ++
    [0x001f8000fc0007e0, 0x50b0000000070f00, 0x50b0000000070f00, 0x50b0000000070f00] ++ List.replicate 28 0, by decide +kernel, by decide⟩⟩

/-- The characters of names and semicolons. -/
def weight (ks : List Kind) : Nat := (ks.map fun | .ident s => s.length | .semicolon => 1 | _ => 0).sum

theorem weight_append (a b : List Kind) : weight (a ++ b) = weight a + weight b := by
  unfold weight
  rw [List.map_append, List.sum_append]

theorem weight_cons (k : Kind) (b : List Kind) : weight (k :: b) = weight [k] + weight b := weight_append [k] b

theorem scans_weight {l : Nat} {t : Str} {ts : List (Kind × Nat)} (h : Scans l t ts) : weight (ts.map Prod.fst) ≤ t.length := by
  induction h with
  | done => exact Nat.zero_le _
  | @token l s w rest k ts _ hw _ ih =>
    have h1 : weight [k] ≤ w.length := by
      cases hw with
      | operator h =>
        simp only [operators, List.mem_cons, Prod.mk.injEq, List.not_mem_nil, or_false] at h
        rcases h with ⟨-, rfl⟩ | ⟨-, rfl⟩ | ⟨-, rfl⟩ | ⟨-, rfl⟩ | ⟨-, rfl⟩ | ⟨-, rfl⟩ | ⟨-, rfl⟩ | ⟨-, rfl⟩ | ⟨-, rfl⟩ <;> simp [weight]
      | word => simp [weight]
      | _ => simp [weight]
    rw [List.map_cons, weight_cons, List.length_append, List.length_append]
    dsimp only
    omega

theorem mnemonic_long : (insnTable.all fun row => decide (3 ≤ row.mnemonic.length)) = true := by decide +kernel

/-- An instruction has at least four characters. -/
theorem instr_weight {e : Env} {ks : List Kind} {op : Op} (h : InstrText e ks op) : 4 ≤ weight ks := by
  obtain ⟨g, row, hr, ks, rfl, -⟩ := C70_grammar.1 h
  have h1 := of_decide_eq_true (List.all_eq_true.1 mnemonic_long row hr)
  rw [weight_append, weight_cons, weight_append]
  have h2 : weight [.ident row.mnemonic] = row.mnemonic.length := by simp [weight]
  have h3 : weight [.semicolon] = 1 := rfl
  omega

theorem program_weight {lab : Str → Option Nat} {i : Nat} {o o' : Opts} {ts : List (Kind × Nat)} {ops : List Op} (h : Program lab i o ts ops o') :
    4 * ops.length ≤ weight (ts.map Prod.fst) := by
  induction h with
  | done => exact Nat.zero_le _
  | insn h _ ih =>
    have := instr_weight h
    rw [List.map_append, weight_append, List.length_cons]
    omega
  | option _ _ _ ih =>
    rw [List.map_append, weight_append]
    omega

/-- C100. The output has at most one word for three characters of the source, and 66 more. -/
theorem C100_words {d : Bool} {code : Str} {ws : List (BitVec 64)} (h : assemble d code = .ok ws) : 3 * ws.length ≤ code.length + 200 := by
  obtain ⟨f, ts, ops, o, l1, s1, p1, i1⟩ := accepted h
  have h1 := program_weight p1
  have h2 := scans_weight s1
  have h3 := visible_length code
  have h4 := groups_length ops
  cases i1 with
  | raw => omega
  | @dksh entry =>
    have h5 : (dkshControl o (groups ops).length entry).length = 32 := by simp [dkshControl]
    simp only [List.length_append, List.length_replicate, h5]
    omega

/-- C100. Without a container there are 8/3 words more at most, which is reached. -/
theorem C100_raw {d : Bool} {code : Str} {ws : List (BitVec 64)} {ts : List (Kind × Nat)} (h : assemble d code = .ok ws) (hs : Scans 0 (visible code) ts)
    (hd : ∀ t ∈ ts, t.1 ≠ .ident c!".dksh") : 3 * ws.length ≤ code.length + 8 := by
  obtain ⟨f, t1, ops, o, l1, s1, p1, i1⟩ := accepted h
  obtain rfl := scans_unique (visible_no_nul code) hs s1
  have h1 := program_weight p1
  have h2 := scans_weight s1
  have h3 := visible_length code
  have h4 := groups_length ops
  obtain ⟨rfl, -⟩ := raw_image l1 p1 hd i1
  omega

/-- Four characters and four words, as many as can be. -/
example : ∃ ws, assemble true c!"NOP;" = .ok ws ∧ 3 * ws.length = (c!"NOP;").length + 8 ∧ 3 * ws.length ≤ (c!"NOP;").length + 8 := by
  have h : assemble true c!"NOP;" = .ok [0x001f8000fc0007e0, 0x50b0000000070f00, 0x50b0000000070f00, 0x50b0000000070f00] := by decide +kernel
  exact ⟨_, h, rfl, C100_raw (ts := [(.ident c!"NOP", 0), (.semicolon, 0)]) h (lexAll_scans (n := 10) (by decide) (by decide +kernel)) (by decide)⟩

/-- C100. In bytes. -/
theorem C100_bytes {d : Bool} {code : Str} {ws : List (BitVec 64)} (h : assemble d code = .ok ws) : 8 * ws.length ≤ 3 * code.length + 533 := by
  have := C100_words h
  omega

/-- C100. In the container of a source of less than 2^28 characters, the size of the code and the entry point are not cut off. -/
theorem C100_fields {d : Bool} {code : Str} {ws : List (BitVec 64)} {ts : List (Kind × Nat)} (h : assemble d code = .ok ws)
    (hs : Scans 0 (visible code) ts) (hd : DkshSource ts) (hn : code.length < 2 ^ 28) :
    (half ws 3).toNat = roundUp 256 (32 * groupCount ts) ∧
      ∃ pre, FirstDef (visible code) pre c!"main" ∧ (half ws 7).toNat + 8 = place (pre.count ';') := by
  obtain ⟨-, h2, -⟩ := dksh_size h hs hd
  obtain ⟨pre, k, h3, h4, h5⟩ := C51_entry h hs hd
  have h6 := scans_semicolons hs
  have h7 : (visible code).count ';' ≤ (visible code).length := List.count_le_length
  have h8 := visible_length code
  have h9 : pre.count ';' ≤ (visible code).count ';' := by
    obtain ⟨⟨-, -, rest, hr⟩, -⟩ := id h3
    rw [hr]
    simp only [List.count_append]
    omega
  rw [h2, h5, BitVec.toNat_ofNat, BitVec.toNat_ofNat]
  refine ⟨Nat.mod_eq_of_lt ?_, pre, h3, ?_⟩
  · unfold roundUp groupCount
    omega
  · rw [Nat.mod_eq_of_lt (by omega)]
    unfold place wordIndex
    omega

/-- C100. The size is not cut off in sources of less than 2^30 characters either, nor is the entry point in those accepted with assertions. -/
theorem C100_larger {d : Bool} {code : Str} {ws : List (BitVec 64)} {ts : List (Kind × Nat)} (h : assemble d code = .ok ws)
    (hs : Scans 0 (visible code) ts) (hd : DkshSource ts) (hn : code.length < 2 ^ 30) :
    (half ws 3).toNat = roundUp 256 (32 * groupCount ts) ∧
      (d = true → ∃ pre, FirstDef (visible code) pre c!"main" ∧ (half ws 7).toNat + 8 = place (pre.count ';')) := by
  obtain ⟨-, h2, -⟩ := dksh_size h hs hd
  obtain ⟨f, t1, ops, o, -, s1, p1, -⟩ := accepted h
  obtain rfl := scans_unique (visible_no_nul code) hs s1
  have h6 := program_weight p1
  rw [Program.semicolons p1] at h6
  have h7 := scans_weight hs
  have h8 := visible_length code
  constructor
  · rw [h2, BitVec.toNat_ofNat]
    refine Nat.mod_eq_of_lt ?_
    unfold roundUp groupCount
    omega
  · rintro rfl
    obtain ⟨pre, k, h3, h4, h5⟩ := C51_entry h hs hd
    have h9 : pre.count ';' ≤ (visible code).count ';' := by
      obtain ⟨⟨-, -, rest, hr⟩, -⟩ := id h3
      rw [hr]
      simp only [List.count_append]
      omega
    have h10 := debug_semicolons h hs
    have h11 := visible_semicolons code
    refine ⟨pre, h3, ?_⟩
    rw [h5, BitVec.toNat_ofNat, Nat.mod_eq_of_lt (by omega)]
    unfold place wordIndex
    omega

/-! ### Entering the code -/

/-- C101. In a source accepted with assertions, the entry point of the container is in the code if and only if there is an instruction behind the
    label `main`. -/
theorem C101_entry_partial {code : Str} {ws : List (BitVec 64)} {ts : List (Kind × Nat)} (h : assemble true code = .ok ws)
    (hs : Scans 0 (visible code) ts) (hd : DkshSource ts) (hn : code.length < 2 ^ 30) {pre : Str} (hp : FirstDef (visible code) pre c!"main") :
    (half ws 7).toNat ≤ 32 * groupCount ts ∧ ((half ws 7).toNat < 32 * groupCount ts ↔ pre.count ';' < code.count ';') := by
  obtain ⟨pre', h1, h2⟩ := (C100_larger h hs hd hn).2 rfl
  obtain rfl := h1.unique hp
  obtain ⟨pre', k, h3, h4, -⟩ := C51_entry h hs hd
  obtain rfl := h1.unique h3
  have h5 := debug_semicolons h hs
  have h6 : pre'.count ';' ≤ (visible code).count ';' := by
    obtain ⟨⟨-, -, rest, hr⟩, -⟩ := h1
    rw [hr]
    simp only [List.count_append]
    omega
  have h7 := visible_semicolons code
  unfold place wordIndex at h2
  unfold groupCount
  omega

/-- C101. In a source without container accepted with assertions, a branch to a label leads into the code, unless there is no instruction behind the label
    and the last group is full. -/
theorem C101_branch_partial {code pre name m : Str} {ws : List (BitVec 64)} {t1 u t2 : List (Kind × Nat)} {g : Option (Nat × Bool)}
    {mid ann : List Kind} {as : List Annot} (h : assemble true code = .ok ws) (sc : Scans 0 (visible code) (t1 ++ (u ++ t2))) (w1 : Whole t1)
    (hd : ∀ t ∈ t1 ++ (u ++ t2), t.1 ≠ .ident c!".dksh")
    (hu : u.map Prod.fst = guardTokens g ++ .ident m :: (mid ++ .ident name :: ann ++ [.semicolon])) (hmid : .at ∉ mid ∧ .semicolon ∉ mid)
    (ha : AnnotsText as ann) (hm : m ∈ branches) (hf : FirstDef (visible code) pre name) :
    ∃ w, ws[wordIndex (instructions t1)]? = some w ∧
      (0 ≤ branchTarget (place (instructions t1)) w ∧ branchTarget (place (instructions t1)) w < 8 * ws.length ↔
        ¬ (pre.count ';' = code.count ';' ∧ code.count ';' % 3 = 0)) := by
  obtain ⟨w, h1, h2⟩ := C89_branch_partial h sc w1 hd hu hmid ha hm hf
  refine ⟨w, h1, ?_⟩
  obtain ⟨f, ts, ops, o, l1, s1, p1, i1⟩ := accepted h
  obtain rfl := scans_unique (visible_no_nul code) sc s1
  obtain ⟨rfl, -⟩ := raw_image l1 p1 hd i1
  have h3 := debug_semicolons h sc
  have h4 := groups_length ops
  rw [Program.semicolons p1] at h4
  have h6 : pre.count ';' ≤ (visible code).count ';' := by
    obtain ⟨⟨-, -, rest, hr⟩, -⟩ := hf
    rw [hr]
    simp only [List.count_append]
    omega
  have h7 := visible_semicolons code
  rw [h2]
  unfold place wordIndex
  omega

/-! #### Violations -/

/-- C101 for containers. -/
def C101_claim : Prop := ∀ code ws ts, assemble true code = .ok ws → Scans 0 (visible code) ts → DkshSource ts →
  (half ws 7).toNat < 32 * groupCount ts

/-- A source whose entry point is the end of its code. -/
def lateEntry : Str := c!".dksh compute\nNOP;NOP;NOP;\nmain:\n"

/-- The image of `lateEntry`. -/
def lateImage : List (BitVec 64) :=
  [0x0000001848534b44, 0x0000010000000100, 0x0000000100000018, 0x0000002000000005, 0x0000000000000008, 0x0000080000000000,
    0x0000000100000001, 0x0000000000000001, 0x0000000000000000, 0x0000000000000800] ++ List.replicate 22 0 ++
    [0x001f8000fc0007e0, 0x50b0000000070f00, 0x50b0000000070f00, 0x50b0000000070f00] ++ List.replicate 28 0

/-- The tokens of `lateEntry`. -/
def lateTokens : List (Kind × Nat) :=
  [(.ident c!".dksh", 0), (.ident c!"compute", 0), (.ident c!"NOP", 1), (.semicolon, 1), (.ident c!"NOP", 1), (.semicolon, 1), (.ident c!"NOP", 1), (.semicolon, 1)]

/-- C101 is violated: the container is entered at the zeros behind its code. -/
theorem C101_entry_violated : assemble true lateEntry = .ok lateImage ∧ Scans 0 (visible lateEntry) lateTokens ∧ DkshSource lateTokens ∧
    (half lateImage 7).toNat = 32 ∧ groupCount lateTokens = 1 ∧ lateImage[32 + 32 / 8]? = some 0 :=
  ⟨by decide +kernel, lexAll_scans (n := 40) (by decide) (by decide +kernel),
    ⟨[], c!".dksh", 0, c!"compute", lateTokens.drop 2, rfl, by decide, by decide, by decide⟩, by decide, by decide, by decide⟩

/-- The size and the entry point of `lateEntry`. -/
example : (half lateImage 3).toNat = roundUp 256 32 ∧ ∃ pre, FirstDef (visible lateEntry) pre c!"main" ∧ (half lateImage 7).toNat + 8 = place (pre.count ';') := by
  obtain ⟨h1, h2, h3, -, h4, -⟩ := C101_entry_violated
  obtain ⟨h5, h6⟩ := C100_larger h1 h2 h3 (by decide)
  rw [h4] at h5
  exact ⟨h5, h6 rfl⟩

/-- `lateEntry` meets the conditions of `C101_entry_partial`. -/
example : (half lateImage 7).toNat = 32 * groupCount lateTokens := by
  obtain ⟨h1, h2, h3, h4, -⟩ := C101_entry_violated
  obtain ⟨-, pre, h5, h6⟩ := C100_fields h1 h2 h3 (by decide)
  obtain ⟨h7, h8⟩ := C101_entry_partial h1 h2 h3 (by decide) h5
  have h9 : lateEntry.count ';' = 3 := by decide
  unfold place wordIndex at h6
  omega

theorem C101_not_claim : ¬ C101_claim := by
  intro h
  obtain ⟨h1, h2, h3, h4, h5, -⟩ := C101_entry_violated
  have := h _ _ _ h1 h2 h3
  rw [h4, h5] at this
  omega

/-- C101 is violated: the branch leads behind the end of the output. -/
theorem C101_branch_violated : assemble true c!"NOP;NOP;BRA L;\nL:\n" =
      .ok [0x001f8000fc0007e0, 0x50b0000000070f00, 0x50b0000000070f00, 0xe24000000087000f] ∧
    branchTarget (place 2) 0xe24000000087000f = 40 :=
  ⟨by decide +kernel, by decide⟩

/-- A branch back to the start meets the conditions of `C101_branch_partial`; it leads into the code. -/
example : ∃ w, branchTarget (place 3) w < 64 ∧ 0 ≤ branchTarget (place 3) w ∧
    assemble true c!"L:\nNOP;NOP;NOP;\n@P1 BRA L;" = .ok [0x001f8000fc0007e0, 0x50b0000000070f00, 0x50b0000000070f00, 0x50b0000000070f00,
      0x001f8000fc0007e0, w, 0x50b0000000070f00, 0x50b0000000070f00] := by
  have h : assemble true c!"L:\nNOP;NOP;NOP;\n@P1 BRA L;" = .ok [0x001f8000fc0007e0, 0x50b0000000070f00, 0x50b0000000070f00, 0x50b0000000070f00,
      0x001f8000fc0007e0, 0xe2400ffffd81000f, 0x50b0000000070f00, 0x50b0000000070f00] := by decide +kernel
  obtain ⟨w, h1, h2⟩ := C101_branch_partial (g := some (1, false)) (m := c!"BRA") (name := c!"L") (pre := []) (mid := []) (ann := []) (as := [])
    (t1 := [(.ident c!"NOP", 1), (.semicolon, 1), (.ident c!"NOP", 1), (.semicolon, 1), (.ident c!"NOP", 1), (.semicolon, 1)])
    (u := [(.at, 2), (.pred 1 false, 2), (.ident c!"BRA", 2), (.ident c!"L", 2), (.semicolon, 2)]) (t2 := []) h
    (lexAll_scans (n := 40) (by decide) (by decide +kernel)) (.inr (by decide)) (by decide) rfl (by simp) .nil (by decide)
    ⟨⟨.inl rfl, ⟨⟨_, _, rfl, by unfold letter; decide⟩, by unfold wordChar letter; decide⟩, _, rfl⟩, fun _ _ => Nat.zero_le _⟩
  have h3 := h2.2 (by decide)
  obtain rfl : (0xe2400ffffd81000f : BitVec 64) = w := by
    simpa [instructions, wordIndex] using h1
  exact ⟨_, h3.2, h3.1, h⟩

end Nxas
