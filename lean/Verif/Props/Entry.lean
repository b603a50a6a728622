import Verif.Lemmas.Entry
import Verif.Props.Decide
import Verif.Props.Placid
import Verif.Props.Room
/-
C104: containers with and without assertions.
-/

namespace Nxas

open Spec

/-- The text of a container asks for one. -/
theorem DkshSource.asks {code : Str} {ts : List (Kind × Nat)} (hs : Scans 0 (visible code) ts) (hd : DkshSource ts) : ¬ NoContainer code := by
  intro h
  obtain ⟨pre, d, l, w, post, rfl, h2, -⟩ := hd
  obtain rfl : d = c!".dksh" := by simpa [declarators] using h2
  exact h _ hs (.ident c!".dksh", l) (by simp) rfl

theorem dksh_asked {d : Bool} {code : Str} {ws : List (BitVec 64)} {ts : List (Kind × Nat)} (h : assemble d code = .ok ws) (hs : Scans 0 (visible code) ts)
    (hn : ¬ NoContainer code) : DkshSource ts := by
  obtain ⟨-, -, o, -, -, -, h1⟩ := accepted_declares h hs
  rcases h1 with ⟨-, -, h1⟩ | ⟨-, h1⟩
  · refine absurd ?_ hn
    intro ts' hs' x hx he
    obtain rfl := scans_unique (visible_no_nul code) hs hs'
    exact h1 x hx ⟨_, true, by decide, he⟩
  · cases hd : o.isDksh with
    | true => rwa [hd] at h1
    | false =>
      rw [hd] at h1
      refine absurd ?_ hn
      intro ts' hs' x hx he
      obtain rfl := scans_unique (visible_no_nul code) hs hs'
      obtain ⟨pre, dd, l, w, post, rfl, h2, h3, h4⟩ := h1
      obtain rfl : dd = c!".type" := by simpa [declarators] using h2
      have hd : IsDeclarator x.1 := ⟨_, true, by decide, he⟩
      rcases List.mem_append.1 hx with hx | hx
      · exact h4 x (by simp [hx]) hd
      · rcases List.mem_cons.1 hx with rfl | hx
        · simp at he
        · rcases List.mem_cons.1 hx with rfl | hx
          · obtain rfl : w = c!".dksh" := by simpa using he
            simp [typeNames] at h3
          · exact h4 x (by simp [hx]) hd

/-- C104. With assertions, the entry point of a container is not behind the end of its code. -/
theorem C104_entry {code : Str} {ws : List (BitVec 64)} {ts : List (Kind × Nat)} (h : assemble true code = .ok ws) (hs : Scans 0 (visible code) ts)
    (hd : DkshSource ts) : (half ws 7).toNat ≤ 32 * groupCount ts := by
  obtain ⟨pre, k, h1, h2, h3⟩ := C51_entry h hs hd
  have h4 := debug_semicolons h hs
  have h5 : pre.count ';' ≤ (visible code).count ';' := by
    obtain ⟨⟨-, -, rest, hr⟩, -⟩ := h1
    rw [hr]
    simp only [List.count_append]
    omega
  have h6 := visible_semicolons code
  have h7 : 32 * k % 2 ^ 32 ≤ 32 * k := Nat.mod_le _ _
  rw [h3, BitVec.toNat_ofNat]
  unfold groupCount
  omega

theorem container_code {d : Bool} {code : Str} {ws : List (BitVec 64)} {ts : List (Kind × Nat)} (h : assemble d code = .ok ws)
    (hs : Scans 0 (visible code) ts) (hd : DkshSource ts) (hb : ws.length < 2 ^ 58) :
    ∃ o entry words ks, ws = dkshControl o words.length entry ++ words ++ List.replicate (32 - words.length % 32) 0 ∧ decodeAll 0 words = some ks ∧
      words.length = 4 * groupCount ts ∧ o.type = some .compute ∧ o.isDksh = true ∧ entry % 32 = 0 ∧ (-(2 ^ 31) ≤ scratch o ∧ scratch o < 2 ^ 31) ∧
      words ≠ [] := by
  obtain ⟨lab, ops, o, entry, hl, hp, hm, ha, hsc, hty, rfl⟩ := accepted_dksh h hs hd
  have hlen : (groups ops).length < 2 ^ 58 := by simp only [List.length_append] at hb; omega
  obtain ⟨ks, hk⟩ := decodeAll_complete rfl (by unfold addressOf; omega) (program_texts hp (written_writable (hs.written (visible_no_nul code))))
  refine ⟨{ o with isDksh := true }, entry, groups ops, ks, rfl, hk, ?_, hty, rfl, ha, hsc, ?_⟩
  · rw [groups_length, Program.semicolons hp]
    rfl
  · intro hn
    obtain rfl := groups_nil hn
    obtain ⟨rfl, -⟩ := program_nil hp
    obtain ⟨pre, d, l, w, post, he, -⟩ := hd
    simp at he

/-- C104. The image of a container says how many groups of instructions the source has: behind them there are zeros only, and no instruction is 0. -/
theorem C104_groups {d d' : Bool} {a b : Str} {ws : List (BitVec 64)} {ta tb : List (Kind × Nat)} (ha : assemble d a = .ok ws) (hb : assemble d' b = .ok ws)
    (sa : Scans 0 (visible a) ta) (sb : Scans 0 (visible b) tb) (da : DkshSource ta) (db : DkshSource tb) (hl : ws.length < 2 ^ 58) :
    groupCount ta = groupCount tb := by
  obtain ⟨o, e, A, ks, h1, h2, h3, -⟩ := container_code ha sa da hl
  obtain ⟨o', e', B, ks', h1', h2', h3', -⟩ := container_code hb sb db hl
  rw [h1, List.append_assoc, List.append_assoc] at h1'
  have := zeros_unique (decodeAll_last h2) (decodeAll_last h2') (List.append_inj h1' (by rw [dkshControl_length, dkshControl_length])).2
  rw [this] at h3
  omega

/-- C104. If the entry point of a container is not behind the end of its code, the container is that of a source the build with assertions accepts. -/
theorem C104_images {d : Bool} {code : Str} {ws : List (BitVec 64)} {ts : List (Kind × Nat)} (h : assemble d code = .ok ws)
    (hs : Scans 0 (visible code) ts) (hd : DkshSource ts) (hb : ws.length < 2 ^ 58) (he : (half ws 7).toNat ≤ 32 * groupCount ts) :
    ∃ t, assemble true t = .ok ws := by
  obtain ⟨o, entry, words, ks, hw, hk, hn, hty, hdk, ha, hsc, hne⟩ := container_code h hs hd hb
  have hh : half ws 7 = BitVec.ofNat 32 entry := by
    rw [hw, List.append_assoc, half_control (by omega)]
    rfl
  rw [hh, BitVec.toNat_ofNat] at he
  have hcontrol : dkshControl o words.length (entry % 2 ^ 32) = dkshControl o words.length entry := by
    have : BitVec.ofNat 32 (entry % 2 ^ 32) = BitVec.ofNat 32 entry := by
      apply BitVec.eq_of_toNat_eq
      rw [BitVec.toNat_ofNat, BitVec.toNat_ofNat, Nat.mod_mod]
    unfold dkshControl dkshField dkshFields
    rw [this]
  obtain ⟨ops, rfl, h3, htx⟩ := decodeAll_full hk
  rw [groups_length] at hn
  obtain ⟨k, hk⟩ : ∃ k, entry % 2 ^ 32 = 32 * k := ⟨entry % 2 ^ 32 / 32, by omega⟩
  obtain ⟨t, lab, ts', us, t1, t2, t3, t4, t5, t6, t7, t8⟩ := calm_container hty hdk (ops := ops) (by rintro rfl; exact hne rfl) h3 htx
    (by rw [hw] at hb; simp only [List.length_append] at hb; omega) (k := k) (by omega)
  have hrel : assemble false t = .ok ws := by
    rw [assemble_iff, visible_self t1]
    refine ⟨lab, ts', ops, o, t2, t4, t5, ?_⟩
    have := Image.dksh (lab := lab) (o := o) (code := groups ops) (entry := 32 * k) hdk hty t3 (by omega) hsc
    rwa [← hk, hcontrol, ← hw] at this
  exact ⟨t, (C102_debug (by rwa [visible_self t1]) t6 ws).2 ⟨hrel, t8, t7⟩⟩

/-- C104. So a container of the build without assertions is one of the build with assertions exactly if its entry point is not behind the end of its code. -/
theorem C104_builds {code : Str} {ws : List (BitVec 64)} {ts : List (Kind × Nat)} (h : assemble false code = .ok ws)
    (hs : Scans 0 (visible code) ts) (hd : DkshSource ts) (hb : ws.length < 2 ^ 58) :
    (∃ t, assemble true t = .ok ws) ↔ (half ws 7).toNat ≤ 32 * groupCount ts := by
  refine ⟨?_, C104_images h hs hd hb⟩
  rintro ⟨t, ht⟩
  obtain ⟨lab, ts', ops, o, hl, hs', hp, hi⟩ := accepted ht
  have hd' : DkshSource ts' := dksh_asked ht hs' fun hn => DkshSource.asks hs hd (C97_kind ht h hn hb)
  rw [C104_groups h ht hs hs' hd hd' hb]
  exact C104_entry ht hs' hd'

/-- The size of the code of a container in bytes: the words behind the header, up to the last one that is not 0. -/
def Spec.codeSize (ws : List (BitVec 64)) : Nat := 8 * ((ws.drop 32).reverse.dropWhile (· == 0)).length

theorem codeSize_container {d : Bool} {code : Str} {ws : List (BitVec 64)} {ts : List (Kind × Nat)} (h : assemble d code = .ok ws)
    (hs : Scans 0 (visible code) ts) (hd : DkshSource ts) (hb : ws.length < 2 ^ 58) : codeSize ws = 32 * groupCount ts := by
  obtain ⟨o, e, A, ks, rfl, h2, h3, -⟩ := container_code h hs hd hb
  have hdrop : ∀ n, (List.replicate n (0 : BitVec 64) ++ A.reverse).dropWhile (· == 0) = A.reverse := by
    intro n
    induction n with
    | zero =>
      have := decodeAll_last h2
      rw [← List.head?_reverse] at this
      cases hA : A.reverse with
      | nil => rfl
      | cons x xs =>
        rw [hA] at this
        have hx : x ≠ 0 := by simpa using this
        rw [List.replicate_zero, List.nil_append, List.dropWhile_cons_of_neg (by rw [beq_iff_eq]; exact hx)]
    | succ n ih =>
      rw [List.replicate_succ, List.cons_append, List.dropWhile_cons_of_pos (by simp)]
      exact ih
  unfold codeSize
  rw [List.append_assoc, List.drop_append_of_le_length (by rw [dkshControl_length]), List.drop_eq_nil_of_le (by rw [dkshControl_length]), List.nil_append,
    List.reverse_append, List.reverse_replicate, hdrop, List.length_reverse, h3]
  omega

/-- C104. Which words are an image of the build with assertions, raw or with container. -/
theorem C104_decide {ws : List (BitVec 64)} (hb : ws.length < 2 ^ 58) :
    (∃ code, assemble true code = .ok ws) ↔
      (disassemble ws).isSome = true ∨ (disassembleDksh ws).isSome = true ∧ (half ws 7).toNat ≤ codeSize ws := by
  constructor
  · rintro ⟨code, h⟩
    rcases C97_complete h hb with h1 | h1
    · exact .inl h1
    · refine .inr ⟨h1, ?_⟩
      obtain ⟨t, ht⟩ := Option.isSome_iff_exists.1 h1
      obtain ⟨lab, ts, ops, o, -, hs, -⟩ := accepted h
      have hd := dksh_asked h hs fun hn => by
        obtain ⟨t', ht', -⟩ := C96_complete h hn hb
        rw [C97_apart ht] at ht'
        simp at ht'
      rw [codeSize_container h hs hd hb]
      exact C104_entry h hs hd
  · rintro (h | ⟨h, he⟩)
    · obtain ⟨code, h1, -⟩ := (C103_decide hb).2 h
      exact ⟨code, h1⟩
    · obtain ⟨t, ht⟩ := Option.isSome_iff_exists.1 h
      have h1 := C97_sound ht
      obtain ⟨lab, ts, ops, o, -, hs, -⟩ := accepted h1
      have hd := dksh_asked h1 hs fun hn => by
        obtain ⟨t', ht', -⟩ := C96_complete h1 hn hb
        rw [C97_apart ht] at ht'
        simp at ht'
      rw [codeSize_container h1 hs hd hb] at he
      exact C104_images h1 hs hd hb he

/-! #### Cases -/

/-- A source whose entry point is 32 bytes behind the end of its code, because of labels with semicolons. -/
def farEntry : Str := c!"P;:\nP;:\nP;:\nP;:\nP;:\nP;:\nmain:\n.dksh compute\nEXIT;"

/-- A container with one group whose entry point is `e`. -/
def oneGroup (e : BitVec 32) : List (BitVec 64) :=
  [0x0000001848534b44, 0x0000010000000100, 0x0000000100000018, e ++ 5#32, 0x0000000000000008, 0x0000080000000000,
    0x0000000100000001, 0x0000000000000001, 0x0000000000000000, 0x0000000000000800] ++ List.replicate 22 0 ++
    [0x001f8000fc0007e0, 0xe30000000007000f, 0x50b0000000070f00, 0x50b0000000070f00] ++ List.replicate 28 0

/-- C104. The builds have different containers: no source has the image of `farEntry` with assertions. -/
theorem C104_differ : assemble false farEntry = .ok (oneGroup 64) ∧ ¬ ∃ code, assemble true code = .ok (oneGroup 64) := by
  refine ⟨by decide +kernel, ?_⟩
  rw [C104_decide (by decide)]
  have h1 : disassemble (oneGroup 64) = none := by decide +kernel
  have h2 : ¬ (half (oneGroup 64) 7).toNat ≤ codeSize (oneGroup 64) := by decide +kernel
  rintro (h | ⟨-, h⟩)
  · rw [h1] at h; simp at h
  · exact h2 h

/-- A source whose entry point is the end of its code. An assertion fails in it, but not in another source of its image. -/
theorem C104_end : assemble false c!".dksh compute\nP;:\nP;:\nP;:\nmain:\nEXIT;" = .ok (oneGroup 32) ∧
    assemble true c!".dksh compute\nP;:\nP;:\nP;:\nmain:\nEXIT;" = .abort ∧
    assemble true c!".dksh compute\nEXIT;NOP;NOP;\nmain:\n" = .ok (oneGroup 32) :=
  ⟨by decide +kernel, by decide +kernel, by decide +kernel⟩

/-- It meets the conditions of `C104_images` and `C104_builds`. -/
example : ∃ t, assemble true t = .ok (oneGroup 32) := by
  refine (C104_builds C104_end.1 (ts := [(.ident c!".dksh", 0), (.ident c!"compute", 0), (.ident c!"EXIT", 5), (.semicolon, 5)])
    (lexAll_scans (n := 40) (by decide) (by decide +kernel))
    ⟨[], c!".dksh", 0, c!"compute", [(.ident c!"EXIT", 5), (.semicolon, 5)], rfl, by decide, by decide, by decide⟩ (by decide)).2 (by decide)

/-- Two sources of that container have the same number of groups. -/
example : groupCount [(.ident c!".dksh", 0), (.ident c!"compute", 0), (.ident c!"EXIT", 5), (.semicolon, 5)] =
    groupCount [(.ident c!".dksh", 0), (.ident c!"compute", 0), (.ident c!"EXIT", 1), (.semicolon, 1), (.ident c!"NOP", 1), (.semicolon, 1), (.ident c!"NOP", 1), (.semicolon, 1)] :=
  C104_groups C104_end.1 C104_end.2.2 (lexAll_scans (n := 40) (by decide) (by decide +kernel)) (lexAll_scans (n := 40) (by decide) (by decide +kernel))
    ⟨[], c!".dksh", 0, c!"compute", [(.ident c!"EXIT", 5), (.semicolon, 5)], rfl, by decide, by decide, by decide⟩
    ⟨[], c!".dksh", 0, c!"compute", [(.ident c!"EXIT", 1), (.semicolon, 1), (.ident c!"NOP", 1), (.semicolon, 1), (.ident c!"NOP", 1), (.semicolon, 1)], rfl,
      by decide, by decide, by decide⟩ (by decide)

/-- The source accepted with assertions has its entry point at the end of its code, not behind it. -/
example : (half (oneGroup 32) 7).toNat = 32 ∧ codeSize (oneGroup 32) = 32 := by decide +kernel

end Nxas
