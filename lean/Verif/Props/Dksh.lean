import Mathlib.Tactic.IntervalCases
import Verif.Model.Dksh
import Verif.Props.Containers
/-
C93: the container in memory.
-/

namespace Nxas

open Spec

theorem pair_le32 (a b : BitVec 32) :
    ((b.extractLsb' 24 8 ++ b.extractLsb' 16 8 ++ b.extractLsb' 8 8 ++ b.extractLsb' 0 8 ++ a.extractLsb' 24 8 ++ a.extractLsb' 16 8 ++
      a.extractLsb' 8 8 ++ a.extractLsb' 0 8 : BitVec 64)) = a.setWidth 64 ||| b.setWidth 64 <<< 32 := by
  apply BitVec.eq_of_getLsbD_eq
  intro i hi
  simp only [BitVec.getLsbD_append, BitVec.getLsbD_extractLsb', BitVec.getLsbD_or, BitVec.getLsbD_setWidth, BitVec.getLsbD_shiftLeft]
  interval_cases i <;> simp

theorem words64_pairs (a b : BitVec 32) (rest : Bytes) :
    words64 (le32 a ++ (le32 b ++ rest)) = (a.setWidth 64 ||| b.setWidth 64 <<< 32) :: words64 rest := by
  rw [← pair_le32]; rfl

theorem align256z_low (v : BitVec 64) : (align256z v).setWidth 32 = align256 (v.setWidth 32) := by
  unfold align256z align256
  rw [BitVec.setWidth_and, BitVec.setWidth_add _ _ (by decide)]
  rfl

theorem align8z_low (v : BitVec 64) : (align8z v).setWidth 32 = align8 (v.setWidth 32) := by
  unfold align8z align8
  rw [BitVec.setWidth_and, BitVec.setWidth_add _ _ (by decide)]
  rfl

theorem signExtend_low (v : BitVec 32) : (v.signExtend 64).setWidth 32 = v := by
  apply BitVec.eq_of_getLsbD_eq
  intro i hi
  rw [BitVec.getLsbD_setWidth, BitVec.getLsbD_signExtend]
  simp [hi, show i < 64 by omega]

theorem code_low (n : Nat) : (BitVec.ofNat 64 n * 8#64).setWidth 32 = BitVec.ofNat 32 (n * 8) := by
  apply BitVec.eq_of_toNat_eq
  simp

/-- The 16 numbers of the program header. -/
def programWords (m : Members) (type : ProgType) (off : Nat) (pos scratch : BitVec 32) : List (BitVec 32) :=
  [BitVec.ofNat 32 type.code, BitVec.ofNat 32 (off - 8), m.numGprs, 0#32, 0#32, scratch] ++
  (match type with
    | .fragment => [(if m.earlyFragmentTests then 0x100#32 else 0) ||| (if m.postDepthCoverage then 0x10000#32 else 0) |||
        (if m.persampleInvocation then 0x1000000#32 else 0)] ++ List.replicate 8 0#32
    | .compute => [m.blockDims.1, m.blockDims.2.1, m.blockDims.2.2, align256 m.sharedMem, pos, 0#32, 0x800#32, m.numBarriers, 0#32]
    | _ => List.replicate 9 0#32) ++ [0#32]

theorem header_le32 (n : Nat) : headerBytes n = (dkshHeader n).flatMap le32 := by
  unfold headerBytes
  rw [align256z_low (BitVec.ofNat 64 n * 8#64), code_low]
  rfl

theorem words64_le32 : ∀ vs : List (BitVec 32), vs.length % 2 = 0 → ∀ rest, words64 (vs.flatMap le32 ++ rest) = pairWords vs ++ words64 rest
  | [], _, _ => rfl
  | [_], h, _ => by simp at h
  | a :: b :: vs, h, rest => by
    rw [List.flatMap_cons, List.flatMap_cons, List.append_assoc, List.append_assoc, words64_pairs, words64_le32 vs (by simp at h; omega)]
    rfl

theorem length_le32 (vs : List (BitVec 32)) : (vs.flatMap le32).length = 4 * vs.length := by
  induction vs with
  | nil => rfl
  | cons v vs ih => rw [List.flatMap_cons, List.length_append, ih, List.length_cons]; simp [le32]; omega

theorem put_le32 {a b b' c : List (BitVec 32)} {off : Nat} (ho : off = 4 * a.length) (hb : b'.length = b.length) :
    Bytes.put ((a ++ (b ++ c)).flatMap le32) off (b'.flatMap le32) = (a ++ (b' ++ c)).flatMap le32 := by
  subst ho
  have h1 := length_le32 a
  have h2 := length_le32 b
  have h3 := length_le32 b'
  unfold Bytes.put
  simp only [List.flatMap_append]
  rw [← h1, List.take_left, h3, hb, ← h2, ← List.drop_drop, List.drop_left, List.drop_left, List.append_assoc]

/-- The program header in memory. -/
theorem program_le32 {m : Members} {type : ProgType} {off : Nat} {pos scratch : BitVec 32} {p : Bytes}
    (h : unionBytes m pos type (commonBytes m type off scratch) = .ok p) : p = (programWords m type off pos scratch).flatMap le32 := by
  have hc : commonBytes m type off scratch =
      ([BitVec.ofNat 32 type.code, BitVec.ofNat 32 (off - 8), m.numGprs, 0#32, 0#32, scratch] ++ List.replicate 10 0#32).flatMap le32 := rfl
  rw [hc] at h
  unfold programWords
  cases type
  case vertex =>
    unfold unionBytes at h
    dsimp only at h
    split at h
    · cases h
    · obtain rfl := (Res.ok.inj h).symm; rfl
  case fragment =>
    obtain rfl := (Res.ok.inj h).symm
    have hf : le32 ((if m.earlyFragmentTests then 0x100#32 else 0) ||| (if m.postDepthCoverage then 0x10000#32 else 0) |||
        (if m.persampleInvocation then 0x1000000#32 else 0)) =
        [0#8] ++ byteOfBool m.earlyFragmentTests ++ byteOfBool m.postDepthCoverage ++ byteOfBool m.persampleInvocation := by
      cases m.earlyFragmentTests <;> cases m.postDepthCoverage <;> cases m.persampleInvocation <;> decide
    simp only [List.flatMap_append, List.flatMap_cons, hf]
    rfl
  case compute =>
    unfold unionBytes at h
    rw [align256z_low, signExtend_low] at h
    dsimp only at h
    generalize hq : [BitVec.ofNat 32 ProgType.compute.code, BitVec.ofNat 32 (off - 8), m.numGprs, 0#32, 0#32, scratch] = q at h ⊢
    have hl : q.length = 6 := by rw [← hq]; rfl
    generalize m.blockDims = dims at h ⊢
    obtain ⟨x, y, z⟩ := dims
    dsimp only at h ⊢
    have put1 : ∀ (a : List (BitVec 32)) (v : BitVec 32) (k o : Nat), o = 4 * a.length →
        Bytes.put ((a ++ List.replicate (k + 1) 0#32).flatMap le32) o (le32 v) = ((a ++ [v]) ++ List.replicate k 0#32).flatMap le32 := by
      intro a v k o ho
      have := put_le32 (a := a) (b := [0#32]) (b' := [v]) (c := List.replicate k 0#32) ho rfl
      rw [List.append_assoc]
      exact this
    have put3 : Bytes.put ((q ++ List.replicate 10 0#32).flatMap le32) 24 (le32 x ++ le32 y ++ le32 z) =
        ((q ++ [x, y, z]) ++ List.replicate 7 0#32).flatMap le32 := by
      have := put_le32 (a := q) (b := [0, 0, 0]) (b' := [x, y, z]) (c := List.replicate 7 0#32) (off := 24) (by rw [hl]) rfl
      rw [List.append_assoc q]
      exact this
    rw [put3, put1 _ _ 6 _ (by simp [hl]), put1 _ _ 5 _ (by simp [hl]), put1 _ _ 4 _ (by simp [hl]), put1 _ _ 3 _ (by simp [hl]),
      put1 _ _ 2 _ (by simp [hl])] at h
    rw [← Res.ok.inj h]
    simp only [List.append_assoc]
    rfl
  all_goals (obtain rfl := (Res.ok.inj h).symm; rfl)

/-- The control section in memory. -/
theorem control_words (n : Nat) (ps : List (BitVec 32)) (hp : ps.length = 16) :
    words64 (controlBytes (headerBytes n) (ps.flatMap le32)) = pairWords (dkshHeader n ++ ps) ++ List.replicate 21 0#64 := by
  have hl : (ps.flatMap le32).length = 64 := by
    rw [List.length_flatMap]
    have : ps.map (fun a => (le32 a).length) = List.replicate 16 4 := by
      rw [← hp, List.eq_replicate_iff]
      exact ⟨by simp, by simp [le32]⟩
    rw [this]; rfl
  have : controlBytes (headerBytes n) (ps.flatMap le32) = (dkshHeader n ++ ps).flatMap le32 ++ List.replicate 168 0#8 := by
    rw [header_le32, List.flatMap_append]
    unfold controlBytes Bytes.put
    rw [hl]
    rfl
  rw [this, words64_le32 _ (by simp [hp, dkshHeader])]
  rfl

/-- The two structures together, in terms of 32-bit numbers. -/
theorem writeDkshBytes_eq (m : Members) (labels : Labels) (n : Nat) :
    writeDkshBytes m labels n =
      match m.type with
      | none => .exit (.plain "no type provided, valid are types: vertex, tess_control, tess_eval, geometry, fragment, compute")
      | some type =>
        match labels.find (m.entrypoint.getD c!"main") with
        | none => .exit (.plain ⟨"entrypoint \"%s\" not found", [.text (m.entrypoint.getD c!"main")]⟩)
        | some off =>
          if off % 32 ≠ 8 then .exit (.plain "entrypoint is not aligned")
          else
            match scratchSize m.localMem with
            | none => .ub .scratchOverflow
            | some scratch =>
              if type = .vertex ∧ (m.secondEntrypoint.isSome ∨ m.secondNumGprs ≠ 0) then
                .exit (.plain "dual vertex shaders are not implemented")
              else .ok (pairWords (dkshHeader n ++ programWords m type off (align8 m.localMem) scratch) ++ List.replicate 21 0#64) := by
  unfold writeDkshBytes
  cases m.type with
  | none => rfl
  | some type =>
    dsimp only
    cases labels.find (m.entrypoint.getD c!"main") with
    | none => rfl
    | some off =>
      dsimp only
      by_cases ha : off % 32 ≠ 8
      · rw [if_pos ha, if_pos ha]
      · rw [if_neg ha, if_neg ha, align8z_low, signExtend_low, Int.add_zero]
        unfold scratchSize
        dsimp only
        by_cases hs : (align8 m.localMem).toInt * 32 + 0x800 < -(2 ^ 31) ∨ (align8 m.localMem).toInt * 32 + 0x800 > 2 ^ 31 - 1
        · rw [if_pos hs, if_pos hs]
        · rw [if_neg hs, if_neg hs]
          dsimp only
          generalize BitVec.ofInt 32 ((align8 m.localMem).toInt * 32 + 0x800) = scratch
          have hrun : ∀ p, unionBytes m (align8 m.localMem) type (commonBytes m type off scratch) = .ok p →
              words64 (controlBytes (headerBytes n) p) =
                pairWords (dkshHeader n ++ programWords m type off (align8 m.localMem) scratch) ++ List.replicate 21 0#64 := by
            intro p hp
            rw [program_le32 hp, control_words]
            unfold programWords
            cases type <;> rfl
          by_cases hv : type = .vertex ∧ (m.secondEntrypoint.isSome ∨ m.secondNumGprs ≠ 0)
          · rw [if_pos hv]
            obtain ⟨rfl, hv⟩ := hv
            unfold unionBytes
            dsimp only
            rw [if_pos hv]
          · rw [if_neg hv]
            cases hu : unionBytes m (align8 m.localMem) type (commonBytes m type off scratch) with
            | ok p => dsimp only; rw [hrun p hu]
            | _ =>
              exfalso
              unfold unionBytes at hu
              cases type
              case vertex =>
                dsimp only at hu
                rw [if_neg (fun h => hv ⟨rfl, h⟩)] at hu
                cases hu
              all_goals cases hu

/-- C93. The 32-bit numbers of the model are the contents of the structures in memory, whatever the options and the labels. -/
theorem C93_refines (c : Ctx) (n : Nat) : writeDkshBytes c.opts.members c.labels n = writeDksh c n := by
  rw [writeDkshBytes_eq]
  unfold writeDksh
  have ht : c.opts.members.type = c.opts.type := rfl
  rw [ht]
  cases hty : c.opts.type with
  | none => rfl
  | some type =>
    dsimp only
    have he : c.opts.members.entrypoint.getD c!"main" = c!"main" := rfl
    rw [he]
    cases hf : c.labels.find c!"main" with
    | none => rfl
    | some off =>
      dsimp only
      by_cases ha : off % 32 ≠ 8
      · rw [if_pos ha, if_pos ha]
      · rw [if_neg ha, if_neg ha]
        have hm : c.opts.members.localMem = c.opts.localMem := rfl
        rw [hm]
        cases scratchSize c.opts.localMem with
        | none => rfl
        | some scratch =>
          dsimp only
          rw [if_neg (by simp [Opts.members])]
          unfold programWords dkshUnion
          rw [hty]
          have hz : (if c.opts.members.earlyFragmentTests then 0x100#32 else 0) ||| (if c.opts.members.postDepthCoverage then 0x10000#32 else 0) |||
              (if c.opts.members.persampleInvocation then 0x1000000#32 else 0) = 0#32 := by
            show (0#32 ||| 0#32 ||| 0#32) = 0#32
            decide
          simp only [hz]
          cases type <;> rfl

theorem half_pairs : ∀ (l : List (BitVec 32)) (k i : Nat), l.length % 2 = 0 → half (pairWords l ++ List.replicate k 0#64) i = l[i]?.getD 0
  | [], k, i, _ => by
    unfold half
    have : (List.replicate k 0#64)[i / 2]?.getD 0 = 0#64 := by
      rw [List.getElem?_replicate]
      split <;> rfl
    simp only [pairWords, List.nil_append, this, List.getElem?_nil, Option.getD_none]
    split <;> decide
  | [_], _, _, h => by simp at h
  | a :: b :: l, k, 0, _ => by
    show BitVec.extractLsb' 0 32 (a.setWidth 64 ||| b.setWidth 64 <<< 32) = a
    apply BitVec.eq_of_getLsbD_eq
    intro j hj
    rw [BitVec.getLsbD_extractLsb']
    simp [hj, show j < 64 by omega]
  | a :: b :: l, k, 1, _ => by
    show BitVec.extractLsb' 32 32 (a.setWidth 64 ||| b.setWidth 64 <<< 32) = b
    apply BitVec.eq_of_getLsbD_eq
    intro j hj
    rw [BitVec.getLsbD_extractLsb']
    simp [hj, show 32 + j < 64 by omega]
  | a :: b :: l, k, i + 2, h => by
    rw [List.getElem?_cons_succ, List.getElem?_cons_succ, ← half_pairs l k i (by simp at h; omega)]
    unfold half
    rw [show (i + 2) / 2 = i / 2 + 1 by omega, show (i + 2) % 2 = i % 2 by omega]
    rfl

/-- C93. Every field of the two structures is at its place, for all values of all members; everything else is zero. -/
theorem C93_fields {m : Members} {labels : Labels} {n : Nat} {ws : List (BitVec 64)} (h : writeDkshBytes m labels n = .ok ws) :
    ∃ type off, m.type = some type ∧ labels.find (m.entrypoint.getD c!"main") = some off ∧ off % 32 = 8 ∧ ws.length = 32 ∧
      half ws 0 = 0x48534B44 ∧ half ws 1 = 24 ∧ half ws 2 = 256 ∧ half ws 3 = BitVec.ofNat 32 (roundUp 256 (8 * n)) ∧ half ws 4 = 24 ∧ half ws 5 = 1 ∧
      half ws 6 = BitVec.ofNat 32 type.code ∧ half ws 7 = BitVec.ofNat 32 (off - 8) ∧ half ws 8 = m.numGprs ∧ half ws 9 = 0 ∧ half ws 10 = 0 ∧
      (half ws 11).toInt = (BitVec.ofNat 32 (roundUp 16 m.localMem.toNat)).toInt * 32 + 0x800 ∧
      (type = .fragment → (half ws 12).toNat = (if m.earlyFragmentTests then 2 ^ 8 else 0) + (if m.postDepthCoverage then 2 ^ 16 else 0) +
        (if m.persampleInvocation then 2 ^ 24 else 0) ∧ ∀ i, 13 ≤ i → half ws i = 0) ∧
      (type = .compute → (half ws 12, half ws 13, half ws 14) = m.blockDims ∧ half ws 15 = BitVec.ofNat 32 (roundUp 256 m.sharedMem.toNat) ∧
        half ws 16 = BitVec.ofNat 32 (roundUp 16 m.localMem.toNat) ∧ half ws 17 = 0 ∧ half ws 18 = 0x800 ∧ half ws 19 = m.numBarriers ∧
        ∀ i, 20 ≤ i → half ws i = 0) ∧
      (type ≠ .fragment → type ≠ .compute → ∀ i, 12 ≤ i → half ws i = 0) := by
  rw [writeDkshBytes_eq] at h
  cases hty : m.type with
  | none => rw [hty] at h; simp at h
  | some type =>
    rw [hty] at h
    dsimp only at h
    cases hf : labels.find (m.entrypoint.getD c!"main") with
    | none => rw [hf] at h; simp at h
    | some off =>
      rw [hf] at h
      dsimp only at h
      split at h
      · simp at h
      · rename_i ha
        cases hs : scratchSize m.localMem with
        | none => rw [hs] at h; simp at h
        | some scratch =>
          rw [hs] at h
          dsimp only at h
          split at h
          · simp at h
          · have hw := (Res.ok.inj h).symm
            have hlen : (programWords m type off (align8 m.localMem) scratch).length = 16 := by unfold programWords; cases type <;> rfl
            have hh : ∀ i, half ws i = (dkshHeader n ++ programWords m type off (align8 m.localMem) scratch)[i]?.getD 0 := by
              intro i
              rw [hw]
              exact half_pairs _ _ _ (by simp [hlen, dkshHeader])
            obtain ⟨⟨hs1, hs2⟩, hs3⟩ := (scratchSize_iff { localMem := m.localMem } scratch).1 hs
            have hsc : scratch.toInt = (BitVec.ofNat 32 (roundUp 16 m.localMem.toNat)).toInt * 32 + 0x800 := by
              rw [hs3, BitVec.toInt_ofInt]
              exact Int.bmod_eq_of_le (by omega) (by omega)
            have hpre : ∀ i, i < 12 → half ws i = (dkshHeader n ++ [BitVec.ofNat 32 type.code, BitVec.ofNat 32 (off - 8), m.numGprs, 0#32, 0#32, scratch])[i]?.getD 0 := by
              intro i hi
              rw [hh]
              unfold programWords
              rw [← List.append_assoc, ← List.append_assoc, List.append_assoc (dkshHeader n ++ _), List.getElem?_append_left (by simp [dkshHeader]; omega)]
            have hend : ∀ i, 22 ≤ i → half ws i = 0 := by
              intro i hi
              rw [hh, List.getElem?_eq_none (by simp [hlen, dkshHeader]; omega)]
              rfl
            refine ⟨type, off, rfl, rfl, by simpa using ha, ?_, hpre 0 (by decide), hpre 1 (by decide), hpre 2 (by decide), ?_, hpre 4 (by decide),
              hpre 5 (by decide), hpre 6 (by decide), hpre 7 (by decide), hpre 8 (by decide), hpre 9 (by decide), hpre 10 (by decide), ?_, ?_, ?_, ?_⟩
            · rw [hw, List.length_append, pairWords_length, List.length_append, hlen, List.length_replicate]; simp [dkshHeader]
            · rw [hpre 3 (by decide)]
              show align256 (BitVec.ofNat 32 (n * 8)) = _
              rw [align256_ofNat, Nat.mul_comm]
            · rw [hpre 11 (by decide)]; exact hsc
            · rintro rfl
              refine ⟨?_, fun i hi => ?_⟩
              · rw [hh]
                show ((if m.earlyFragmentTests then 0x100#32 else 0) ||| (if m.postDepthCoverage then 0x10000#32 else 0) |||
                  (if m.persampleInvocation then 0x1000000#32 else 0)).toNat = _
                cases m.earlyFragmentTests <;> cases m.postDepthCoverage <;> cases m.persampleInvocation <;> decide
              · by_cases h22 : 22 ≤ i
                · exact hend i h22
                · rw [hh]; interval_cases i <;> rfl
            · rintro rfl
              refine ⟨?_, ?_, ?_, ?_, ?_, ?_, fun i hi => ?_⟩
              · rw [hh, hh, hh]; rfl
              · rw [hh]; exact align256_eq _
              · rw [hh]; exact align8_eq _
              · rw [hh]; rfl
              · rw [hh]; rfl
              · rw [hh]; rfl
              · by_cases h22 : 22 ≤ i
                · exact hend i h22
                · rw [hh]; interval_cases i <;> rfl
            · intro h1 h2 i hi
              by_cases h22 : 22 ≤ i
              · exact hend i h22
              · rw [hh]
                cases type
                case fragment => exact absurd rfl h1
                case compute => exact absurd rfl h2
                all_goals (interval_cases i <;> rfl)

/-- The members can be given values that no source gives them. -/
example : (writeDkshBytes { type := some .fragment, entrypoint := some c!"f", numGprs := 20, earlyFragmentTests := true, persampleInvocation := true }
    [(c!"main", 8), (c!"f", 40)] 12) = .ok ([0x0000001848534B44, 0x0000010000000100, 0x0000000100000018, 0x0000002000000004, 0x0000000000000014,
      0x0000080000000000, 0x0000000001000100] ++ List.replicate 25 0) := by decide +kernel

/-- C93. Two vertex shaders in one container are rejected, but no source can ask for them: see `C91`. -/
theorem C93_dual {m : Members} {labels : Labels} {n : Nat} :
    writeDkshBytes m labels n = .exit (.plain "dual vertex shaders are not implemented") ↔
      m.type = some .vertex ∧ (∃ off, labels.find (m.entrypoint.getD c!"main") = some off ∧ off % 32 = 8) ∧ scratchSize m.localMem ≠ none ∧
      (m.secondEntrypoint ≠ none ∨ m.secondNumGprs ≠ 0) := by
  rw [writeDkshBytes_eq]
  cases m.type with
  | none => simp
  | some type =>
    dsimp only
    cases labels.find (m.entrypoint.getD c!"main") with
    | none => simp
    | some off =>
      dsimp only
      by_cases ha : off % 32 ≠ 8
      · rw [if_pos ha]
        simp [ha]
      · rw [if_neg ha]
        cases scratchSize m.localMem with
        | none => simp
        | some scratch =>
          dsimp only
          have ha' : off % 32 = 8 := by simpa using ha
          split
          · rename_i hv
            refine ⟨fun _ => ⟨by rw [hv.1], ⟨off, rfl, ha'⟩, by simp, ?_⟩, fun _ => rfl⟩
            rcases hv.2 with h | h
            · left; intro h'; rw [h'] at h; cases h
            · exact .inr h
          · rename_i hv
            constructor
            · intro h; simp at h
            · rintro ⟨h1, -, -, h2⟩
              refine absurd ⟨Option.some.inj h1, ?_⟩ hv
              rcases h2 with h | h
              · left
                cases hm : m.secondEntrypoint with
                | none => exact absurd hm h
                | some x => rfl
              · exact .inr h

example : writeDkshBytes { type := some .vertex, secondNumGprs := 4 } [(c!"main", 8)] 4 = .exit (.plain "dual vertex shaders are not implemented") := by
  decide +kernel

end Nxas
