import Verif.Lemmas.Declared
import Verif.Props.Labels
/-
C45, C46, C48 to C52: program types, the DKSH container and its header.
-/

namespace Nxas

open Spec

/-- The declaration of an accepted source: none, or exactly one, of a compute program. -/
theorem accepted_declares {d : Bool} {code : Str} {ws : List (BitVec 64)} {ts : List (Kind × Nat)} (h : assemble d code = .ok ws)
    (hs : Scans 0 (visible code) ts) :
    ∃ lab ops o, IsLabelMap (visible code) lab ∧ Program lab 0 {} ts ops o ∧ Image lab o (groups ops) ws ∧
      ((o.type = none ∧ o.isDksh = false ∧ ∀ t ∈ ts, ¬ IsDeclarator t.1) ∨
        (o.type = some .compute ∧ Declares ts .compute o.isDksh)) := by
  obtain ⟨lab, ts', ops, o, hl, hs', hp, hi⟩ := accepted h
  obtain rfl := scans_unique (visible_no_nul code) hs hs'
  refine ⟨lab, ops, o, hl, hp, hi, ?_⟩
  rcases hp.declared (fun s a => hl.name) rfl rfl with h1 | ⟨p, h1, h2⟩
  · exact .inl h1
  · cases hi with
    | raw _ ht =>
      rcases ht with ht | ht
      · rw [ht] at h1; simp at h1
      · rw [ht] at h1; cases h1; exact .inr ⟨ht, h2⟩
    | dksh _ ht => rw [ht] at h1; cases h1; exact .inr ⟨ht, h2⟩

theorem split_declared {ts pre post : List (Kind × Nat)} {t : Kind × Nat} (h : ts = pre ++ t :: post) (ht : IsDeclarator t.1)
    {p : ProgType} {dk : Bool} (hd : Declares ts p dk) :
    ∃ d l w post', (d, dk) ∈ declarators ∧ (w, p) ∈ typeNames ∧ t = (.ident d, l) ∧ post = (.ident w, l) :: post' ∧
      ∀ t ∈ pre ++ post', ¬ IsDeclarator t.1 := by
  obtain ⟨pre', d, l, w, post', h1, h2, h3, h4⟩ := hd
  have hw : ¬ IsDeclarator (.ident w) := not_option_declarator (type_not_option h3)
  have hlen : pre.length = pre'.length := by
    rw [h] at h1
    rcases Nat.lt_trichotomy pre.length pre'.length with hlt | he | hlt
    · exfalso
      have h5 : t ∈ pre' := by
        have : (pre ++ t :: post)[pre.length]? = some t := by simp
        rw [h1, List.getElem?_append_left hlt] at this
        exact List.mem_of_getElem? this
      exact h4 t (by simp [h5]) ht
    · exact he
    · exfalso
      have h5 : (pre ++ t :: post)[pre.length]? = some t := by simp
      rw [h1, List.getElem?_append_right (by omega)] at h5
      obtain ⟨m, hm⟩ : ∃ m, pre.length - pre'.length = m + 1 := ⟨pre.length - pre'.length - 1, by omega⟩
      rw [hm, List.getElem?_cons_succ] at h5
      cases m with
      | zero => simp at h5; subst h5; exact hw ht
      | succ m =>
        rw [List.getElem?_cons_succ] at h5
        exact h4 t (by simp [List.mem_of_getElem? h5]) ht
  rw [h] at h1
  obtain ⟨rfl, h5⟩ := List.append_inj h1 hlen
  simp only [List.cons.injEq] at h5
  exact ⟨d, l, w, post', h2, h3, h5.1, h5.2, h4⟩

/-- C45. In an accepted source, the name that follows `.type` or `.dksh`, in the same line, is `compute`. -/
theorem C45_compute {d : Bool} {code : Str} {ws : List (BitVec 64)} {pre post : List (Kind × Nat)} {t : Kind × Nat}
    (h : assemble d code = .ok ws) (hs : Scans 0 (visible code) (pre ++ t :: post)) (ht : IsDeclarator t.1) :
    ∃ post', post = (.ident c!"compute", t.2) :: post' := by
  obtain ⟨lab, ops, o, -, -, -, ⟨-, -, h1⟩ | ⟨-, h1⟩⟩ := accepted_declares h hs
  · exact absurd ht (h1 t (by simp))
  · obtain ⟨d, l, w, post', -, h3, rfl, rfl, -⟩ := split_declared rfl ht h1
    have : ∀ y ∈ typeNames, y.2 = .compute → y.1 = c!"compute" := by decide
    obtain rfl := this _ h3 rfl
    exact ⟨post', rfl⟩

example : ∃ ws, assemble true c!".type compute\nNOP;" = .ok ws ∧
    Scans 0 (visible c!".type compute\nNOP;") ([] ++ (.ident c!".type", 0) :: [(.ident c!"compute", 0), (.ident c!"NOP", 1), (.semicolon, 1)]) ∧
    IsDeclarator (.ident c!".type") :=
  ⟨[0x001f8000fc0007e0, 0x50b0000000070f00, 0x50b0000000070f00, 0x50b0000000070f00], by decide +kernel,
    lexAll_scans (n := 9) (by decide) (by decide +kernel), by decide⟩

/-- A source that declares another program type is never accepted. -/
theorem C45_rejected {d : Bool} {code : Str} {pre post : List (Kind × Nat)} {t : Kind × Nat} {k : Kind}
    (hs : Scans 0 (visible code) (pre ++ t :: (k, t.2) :: post)) (ht : IsDeclarator t.1) (hk : k ≠ .ident c!"compute") (ws : List (BitVec 64)) :
    assemble d code ≠ .ok ws := by
  intro h
  obtain ⟨post', h1⟩ := C45_compute h hs ht
  simp only [List.cons.injEq, Prod.mk.injEq] at h1
  exact hk h1.1.1

example : Scans 0 (visible c!".type vertex\nNOP;") ([] ++ (.ident c!".type", 0) :: (.ident c!"vertex", 0) :: [(.ident c!"NOP", 1), (.semicolon, 1)]) :=
  lexAll_scans (n := 9) (by decide) (by decide +kernel)
/-- The type is checked when the output is written only. -/
example : assemble true c!".type vertex\nNOP;" = .exit (.plain "write_gfx_header is not implemented") := by decide +kernel

/-- C46. An accepted source has at most one declaration of the program type. -/
theorem C46_once {d : Bool} {code : Str} {ws : List (BitVec 64)} {a b c : List (Kind × Nat)} {t t' : Kind × Nat}
    (h : assemble d code = .ok ws) (hs : Scans 0 (visible code) (a ++ t :: (b ++ t' :: c))) (ht : IsDeclarator t.1) : ¬ IsDeclarator t'.1 := by
  intro ht'
  obtain ⟨lab, ops, o, -, -, -, ⟨-, -, h1⟩ | ⟨-, h1⟩⟩ := accepted_declares h hs
  · exact absurd ht (h1 t (by simp))
  · obtain ⟨d, l, w, post', -, h3, rfl, h4, h5⟩ := split_declared rfl ht h1
    cases b with
    | nil =>
      simp only [List.nil_append, List.cons.injEq] at h4
      obtain ⟨rfl, rfl⟩ := h4
      exact not_option_declarator (type_not_option h3) ht'
    | cons x b =>
      simp only [List.cons_append, List.cons.injEq] at h4
      obtain ⟨rfl, rfl⟩ := h4
      exact h5 t' (by simp) ht'

/-- Two declarations, even of the same type. -/
example : Scans 0 (visible c!".type compute\n.dksh compute\nNOP;") ([] ++ (.ident c!".type", 0) :: ([(.ident c!"compute", 0)] ++
    (.ident c!".dksh", 1) :: [(.ident c!"compute", 1), (.ident c!"NOP", 2), (.semicolon, 2)])) :=
  lexAll_scans (n := 9) (by decide) (by decide +kernel)
example : assemble true c!".type compute\n.dksh compute\nNOP;" = .exit (.located { line := 1, col := 0, msg := "program type already specified" }) := by decide +kernel

/-- C52. The word `.num_gprs` does not occur in any accepted source. -/
theorem C52_unusable {d : Bool} {code : Str} {ws : List (BitVec 64)} {ts : List (Kind × Nat)} (h : assemble d code = .ok ws)
    (hs : Scans 0 (visible code) ts) : ∀ t ∈ ts, t.1 ≠ .ident c!".num_gprs" := by
  obtain ⟨lab, ops, o, hl, hp, -⟩ := accepted_declares h hs
  exact hp.no_gprs fun s a => hl.name

/-- The property fails: a number of registers is rejected. -/
theorem C52_violated : assemble true c!".num_gprs 8\nNOP;" =
    .exit (.located { line := 0, col := 10, msg := "expected number of general purpose registers" }) := by decide +kernel

/-- Half `i` of a list of 64-bit words, the lower half of a word first. -/
def half (ws : List (BitVec 64)) (i : Nat) : BitVec 32 :=
  let w := ws[i / 2]?.getD 0
  if i % 2 = 0 then w.extractLsb' 0 32 else w.extractLsb' 32 32

theorem half_control {o : Opts} {n entry i : Nat} {rest : List (BitVec 64)} (hi : i < 64) :
    half (dkshControl o n entry ++ rest) i = dkshField o n entry i := by
  have hlen : (dkshControl o n entry).length = 32 := by simp [dkshControl]
  unfold half
  rw [List.getElem?_append_left (by omega)]
  unfold dkshControl
  rw [List.getElem?_map, List.getElem?_range (by omega)]
  simp only [Option.map_some, Option.getD_some]
  split
  · have : 2 * (i / 2) = i := by omega
    rw [this]
    ext j hj
    rw [BitVec.getElem_extractLsb', BitVec.getLsbD_append, Nat.zero_add, if_pos hj]
    exact BitVec.getLsbD_eq_getElem hj
  · have : 2 * (i / 2) + 1 = i := by omega
    rw [this]
    ext j hj
    rw [BitVec.getElem_extractLsb', BitVec.getLsbD_append, if_neg (by omega), Nat.add_sub_cancel_left]
    exact BitVec.getLsbD_eq_getElem hj

/-- The source declares a compute program in a DKSH container. -/
def DkshSource (ts : List (Kind × Nat)) : Prop := Declares ts .compute true

theorem declares_unique {ts : List (Kind × Nat)} {p p' : ProgType} {dk dk' : Bool} (h : Declares ts p dk) (h' : Declares ts p' dk') : dk = dk' := by
  obtain ⟨pre, d, l, w, post, h1, h2, h3, -⟩ := h
  obtain ⟨d', l', w', post', h2', -, h4, -⟩ := split_declared h1 ⟨d, dk, h2, rfl⟩ h'
  simp only [Prod.mk.injEq, Kind.ident.injEq] at h4
  obtain ⟨rfl, -⟩ := h4
  have : ∀ x ∈ declarators, ∀ y ∈ declarators, x.1 = y.1 → x.2 = y.2 := by decide
  exact this _ h2 _ h2' rfl

theorem accepted_dksh {d : Bool} {code : Str} {ws : List (BitVec 64)} {ts : List (Kind × Nat)} (h : assemble d code = .ok ws)
    (hs : Scans 0 (visible code) ts) (hd : DkshSource ts) :
    ∃ lab ops o entry, IsLabelMap (visible code) lab ∧ Program lab 0 {} ts ops o ∧ lab c!"main" = some (entry + 8) ∧ entry % 32 = 0 ∧
      (-(2 ^ 31) ≤ scratch o ∧ scratch o < 2 ^ 31) ∧ o.type = some .compute ∧
      ws = dkshControl o (groups ops).length entry ++ groups ops ++ List.replicate (32 - (groups ops).length % 32) 0 := by
  obtain ⟨lab, ops, o, hl, hp, hi, h1⟩ := accepted_declares h hs
  have h2 : o.isDksh = true := by
    rcases h1 with ⟨-, -, h1⟩ | ⟨-, h1⟩
    · obtain ⟨pre, d, l, w, post, rfl, h2, -⟩ := hd
      exact absurd ⟨d, true, h2, rfl⟩ (h1 (.ident d, l) (by simp))
    · exact declares_unique h1 hd
  cases hi with
  | raw h3 => rw [h3] at h2; simp at h2
  | @dksh entry _ ht hm ha hsc => exact ⟨lab, ops, o, entry, hl, hp, hm, ha, hsc, ht, rfl⟩

/-- A source for the examples. -/
abbrev sample : Str := c!".dksh compute\n.shared_memory 300\nmain:\n.local_memory 8\n.workgroup_size 4 5 6\nNOP;"
/-- Its tokens. -/
abbrev sampleTokens : List (Kind × Nat) :=
  [(.ident c!".dksh", 0), (.ident c!"compute", 0), (.ident c!".shared_memory", 1), (.imm 300, 1), (.ident c!".local_memory", 3), (.imm 8, 3),
   (.ident c!".workgroup_size", 4), (.imm 4, 4), (.imm 5, 4), (.imm 6, 4), (.ident c!"NOP", 5), (.semicolon, 5)]
/-- Its image. -/
abbrev sampleImage : List (BitVec 64) :=
  [0x0000001848534b44, 0x0000010000000100, 0x0000000100000018, 0x0000000000000005, 0x0000000000000008, 0x00000a0000000000,
   0x0000000500000004, 0x0000020000000006, 0x0000000000000010, 0x0000000000000800] ++ List.replicate 22 0 ++
  [0x001f8000fc0007e0, 0x50b0000000070f00, 0x50b0000000070f00, 0x50b0000000070f00] ++ List.replicate 28 0

theorem sample_ok : assemble true sample = .ok sampleImage := by decide +kernel
theorem sample_scans : Scans 0 (visible sample) sampleTokens := lexAll_scans (n := 14) (by decide) (by decide +kernel)
theorem sample_dksh : DkshSource sampleTokens :=
  ⟨[], c!".dksh", 0, c!"compute", sampleTokens.drop 2, rfl, by decide, by decide, by decide⟩

/-! ### The code in the container -/

/-- C48. A DKSH container consists of 32 words, the code of the program and between 1 and 32 zeros. -/
theorem C48_embeds {d : Bool} {code : Str} {ws : List (BitVec 64)} {ts : List (Kind × Nat)} (h : assemble d code = .ok ws)
    (hs : Scans 0 (visible code) ts) (hd : DkshSource ts) :
    ∃ lab ops o k, IsLabelMap (visible code) lab ∧ Program lab 0 {} ts ops o ∧ 1 ≤ k ∧ k ≤ 32 ∧ ws.length % 32 = 0 ∧
      ws.drop 32 = groups ops ++ List.replicate k 0 := by
  obtain ⟨lab, ops, o, entry, hl, hp, -, -, -, -, rfl⟩ := accepted_dksh h hs hd
  have hlen : (dkshControl o (groups ops).length entry).length = 32 := by simp [dkshControl]
  refine ⟨lab, ops, o, 32 - (groups ops).length % 32, hl, hp, by omega, by omega, ?_, ?_⟩
  · simp only [List.length_append, hlen, List.length_replicate]; omega
  · rw [List.append_assoc, ← hlen, List.drop_left]

example : sampleImage.drop 32 = [0x001f8000fc0007e0, 0x50b0000000070f00, 0x50b0000000070f00, 0x50b0000000070f00] ++ List.replicate 28 0 := by
  decide

/-- The tokens of the same program without container. -/
def asRaw (ts : List (Kind × Nat)) : List (Kind × Nat) :=
  ts.map fun t => if t.1 = .ident c!".dksh" then (.ident c!".type", t.2) else t

theorem asRaw_same {ts : List (Kind × Nat)} (h : ∀ t ∈ ts, t.1 ≠ .ident c!".dksh") : asRaw ts = ts := by
  unfold asRaw
  conv => rhs; rw [← List.map_id ts]
  refine List.map_congr_left fun t ht => ?_
  rw [if_neg (h t ht)]
  rfl

theorem Program.asRaw {lab : Str → Option Nat} (hl : ∀ s a, lab s = some a → IsName s) {i : Nat} {o o' : Opts} {ts : List (Kind × Nat)}
    {ops : List Op} (h : Program lab i o ts ops o') (b : Bool) :
    Program lab i { o with isDksh := b } (asRaw ts) ops { o' with isDksh := b } := by
  induction h with
  | done => exact .done
  | @insn i o o' ts rest op ops h _ ih =>
    have h1 : Nxas.asRaw ts = ts := asRaw_same fun t ht => instr_no_option' hl h ht (by decide)
    have h2 : Nxas.asRaw (ts ++ rest) = Nxas.asRaw ts ++ Nxas.asRaw rest := by simp [Nxas.asRaw]
    rw [h2, h1]
    exact .insn h ih
  | @option i o o1 o' t next ts rest ops h hline hr ih =>
    obtain ⟨next', rest', h3, h4⟩ : ∃ next' rest', Nxas.asRaw (next :: rest) = next' :: rest' ∧ next'.2 = next.2 := by
      refine ⟨_, _, rfl, ?_⟩
      dsimp only
      split <;> rfl
    have h2 : Nxas.asRaw (t :: ts ++ next :: rest) = Nxas.asRaw (t :: ts) ++ next' :: rest' := by rw [← h3]; simp [Nxas.asRaw]
    rw [h3] at ih
    rw [h2]
    have h5 := OptionText.tail h (n := c!".dksh") (by decide)
    have h6 : ∀ t', Nxas.asRaw (t' :: ts) = Nxas.asRaw [t'] ++ ts := by
      intro t'
      have : Nxas.asRaw (t' :: ts) = Nxas.asRaw [t'] ++ Nxas.asRaw ts := by simp [Nxas.asRaw]
      rw [this, asRaw_same h5]
    rw [← h4] at hline
    cases h with
    | @dksh l w p ht hp => exact h6 _ ▸ .option (.type (o := { o with isDksh := b }) ht hp) hline ih
    | @type l w p ht hp => exact h6 _ ▸ .option (.type (o := { o with isDksh := b }) ht hp) hline ih
    | workgroup => exact h6 _ ▸ .option (.workgroup (o := { o with isDksh := b })) hline ih
    | shared => exact h6 _ ▸ .option (.shared (o := { o with isDksh := b })) hline ih
    | «local» => exact h6 _ ▸ .option (.local (o := { o with isDksh := b })) hline ih
    | @other l name hd hn =>
      have : Nxas.asRaw [(.ident name, l)] = [(.ident name, l)] := by
        refine asRaw_same ?_
        simp only [List.mem_singleton, forall_eq, ne_eq, Kind.ident.injEq]
        rintro rfl
        exact hn (by decide)
      rw [this]
      exact .option (.other hd hn) hline ih

/-- The same program, with `.type` in the place of `.dksh`, is assembled to the code in the container. -/
theorem C48_raw {d : Bool} {code code' : Str} {ws : List (BitVec 64)} {ts : List (Kind × Nat)} (h : assemble d code = .ok ws)
    (hs : Scans 0 (visible code) ts) (hd : DkshSource ts) (hs' : Scans 0 (visible code') (asRaw ts))
    (hl : ∀ lab, IsLabelMap (visible code) lab → IsLabelMap (visible code') lab) :
    ∃ raw k, assemble false code' = .ok raw ∧ 1 ≤ k ∧ k ≤ 32 ∧ ws.drop 32 = raw ++ List.replicate k 0 := by
  obtain ⟨lab, ops, o, entry, hlab, hp, -, -, -, ht, rfl⟩ := accepted_dksh h hs hd
  have hlen : (dkshControl o (groups ops).length entry).length = 32 := by simp [dkshControl]
  refine ⟨groups ops, 32 - (groups ops).length % 32, ?_, by omega, by omega, by rw [List.append_assoc, ← hlen, List.drop_left]⟩
  rw [assemble_iff]
  exact ⟨lab, _, ops, _, hl lab hlab, hs', Program.asRaw (fun s a => hlab.name) hp false, .raw rfl (.inr ht)⟩

example : Scans 0 (visible c!".type compute\nmain:\nNOP;") (asRaw [(.ident c!".dksh", 0), (.ident c!"compute", 0), (.ident c!"NOP", 2), (.semicolon, 2)]) :=
  lexAll_scans (n := 9) (by decide) (by decide +kernel)
example : ∃ raw, assemble true c!".type compute\nmain:\nNOP;" = .ok raw ∧
    assemble true c!".dksh compute\nmain:\nNOP;" = .ok ([0x0000001848534b44, 0x0000010000000100, 0x0000000100000018, 0x0000000000000005,
      0x0000000000000008, 0x0000080000000000, 0x0000000100000001, 1, 0, 0x800] ++ List.replicate 22 0 ++ raw ++ List.replicate 28 0) :=
  ⟨[0x001f8000fc0007e0, 0x50b0000000070f00, 0x50b0000000070f00, 0x50b0000000070f00], by decide +kernel, by decide +kernel⟩

/-! ### The header -/

/-- C49. The fields of the control section. -/
theorem C49_header {d : Bool} {code : Str} {ws : List (BitVec 64)} {ts : List (Kind × Nat)} (h : assemble d code = .ok ws)
    (hs : Scans 0 (visible code) ts) (hd : DkshSource ts) :
    half ws 0 = 0x48534B44 ∧ half ws 1 = 24 ∧ half ws 2 = 256 ∧ half ws 4 = 24 ∧ half ws 5 = 1 ∧ half ws 6 = 5 ∧ half ws 8 = 8 ∧
      (half ws 12, half ws 13, half ws 14) = lastDims ts ∧
      half ws 15 = BitVec.ofNat 32 (roundUp 256 (lastSize c!".shared_memory" ts).toNat) ∧
      half ws 16 = BitVec.ofNat 32 (roundUp 16 (lastSize c!".local_memory" ts).toNat) ∧
      (half ws 11).toInt = (half ws 16).toInt * 32 + 0x800 ∧
      half ws 9 = 0 ∧ half ws 10 = 0 ∧ half ws 17 = 0 ∧ half ws 18 = 0x800 ∧ ∀ i, 19 ≤ i → i < 64 → half ws i = 0 := by
  obtain ⟨lab, ops, o, entry, hl, hp, -, -, hsc, -, rfl⟩ := accepted_dksh h hs hd
  have hf := fun i (hi : i < 64) => half_control (o := o) (n := (groups ops).length) (entry := entry) (i := i)
    (rest := groups ops ++ List.replicate (32 - (groups ops).length % 32) 0) hi
  rw [List.append_assoc, hf 0, hf 1, hf 2, hf 4, hf 5, hf 6, hf 8, hf 12, hf 13, hf 14, hf 15, hf 16, hf 11, hf 9, hf 10, hf 17, hf 18]
  any_goals omega
  refine ⟨rfl, rfl, rfl, rfl, rfl, rfl, rfl, ?_, ?_, ?_, ?_, rfl, rfl, rfl, rfl, ?_⟩
  · rw [← hp.dims fun s a => hl.name]; rfl
  · rw [← hp.shared fun s a => hl.name]; rfl
  · rw [← hp.local fun s a => hl.name]; rfl
  · show (BitVec.ofInt 32 (scratch o)).toInt = (BitVec.ofNat 32 (roundUp 16 o.localMem.toNat)).toInt * 32 + 0x800
    rw [BitVec.toInt_ofInt, show (BitVec.ofNat 32 (roundUp 16 o.localMem.toNat)).toInt * 32 + 0x800 = scratch o from rfl]
    exact Int.bmod_eq_of_le (by omega) (by omega)
  · intro i h1 h2
    rw [hf i h2]
    unfold dkshField dkshFields
    rcases Nat.lt_or_ge i 20 with h3 | h3
    · obtain rfl : i = 19 := by omega
      rfl
    · rw [List.getElem?_eq_none (by simpa using h3)]
      rfl

example : (half sampleImage 12, half sampleImage 13, half sampleImage 14) = (4, 5, 6) ∧ half sampleImage 15 = 512 ∧ half sampleImage 16 = 16 ∧
    half sampleImage 11 = 0xA00 := by decide

/-- The number of semicolons among the tokens. -/
def semicolons (ts : List (Kind × Nat)) : Nat := ts.countP fun t => t.1 = .semicolon

theorem Program.semicolons {lab : Str → Option Nat} {i : Nat} {o o' : Opts} {ts : List (Kind × Nat)} {ops : List Op} (h : Program lab i o ts ops o') :
    ops.length = semicolons ts := by
  induction h with
  | done => rfl
  | @insn i o o' ts rest op ops h _ ih =>
    obtain ⟨ks, h1, h2⟩ := instr_semicolon h
    have h3 : Nxas.semicolons ts = 1 := by
      have h4 : Nxas.semicolons ts = (ts.map Prod.fst).countP (fun k => k = .semicolon) := by
        rw [List.countP_map]; rfl
      rw [h4, h1, List.countP_append, List.countP_eq_zero.2 (by intro k hk; simp only [decide_eq_true_eq]; rintro rfl; exact h2 hk)]
      rfl
    have h5 : Nxas.semicolons (ts ++ rest) = Nxas.semicolons ts + Nxas.semicolons rest := List.countP_append
    rw [h5, h3, List.length_cons, ih]
    omega
  | @option i o o1 o' t next ts rest ops h hline hr ih =>
    have h5 : Nxas.semicolons (t :: ts ++ next :: rest) = Nxas.semicolons (t :: ts) + Nxas.semicolons (next :: rest) := List.countP_append
    have h6 : Nxas.semicolons (t :: ts) = 0 := by
      cases h <;> rfl
    omega

theorem groups_length (ops : List Op) : (groups ops).length = 4 * ((ops.length + 2) / 3) := by
  induction ops using groups.induct with
  | case1 => rfl
  | case2 => simp [groups]
  | case3 => simp [groups]
  | case4 a b c rest ih => rw [groups]; simp only [List.length_cons, ih]; omega

/-- The number of groups of a program. -/
def groupCount (ts : List (Kind × Nat)) : Nat := (semicolons ts + 2) / 3

theorem dksh_size {d : Bool} {code : Str} {ws : List (BitVec 64)} {ts : List (Kind × Nat)} (h : assemble d code = .ok ws)
    (hs : Scans 0 (visible code) ts) (hd : DkshSource ts) :
    half ws 2 = 256 ∧ half ws 3 = BitVec.ofNat 32 (roundUp 256 (32 * groupCount ts)) ∧
      8 * ws.length = 256 + 32 * groupCount ts + 8 * (32 - 4 * groupCount ts % 32) := by
  obtain ⟨lab, ops, o, entry, hl, hp, -, -, hsc, -, rfl⟩ := accepted_dksh h hs hd
  have hf := fun i (hi : i < 64) => half_control (o := o) (n := (groups ops).length) (entry := entry) (i := i)
    (rest := groups ops ++ List.replicate (32 - (groups ops).length % 32) 0) hi
  have hlen : (dkshControl o (groups ops).length entry).length = 32 := by simp [dkshControl]
  have hg : (groups ops).length = 4 * groupCount ts := by rw [groups_length, Program.semicolons hp]; rfl
  rw [List.append_assoc, hf 2 (by omega), hf 3 (by omega)]
  refine ⟨rfl, ?_, ?_⟩
  · show BitVec.ofNat 32 (roundUp 256 (8 * (groups ops).length)) = _
    rw [hg]
    congr 2
    omega
  · rw [List.length_append, List.length_append, List.length_replicate, hlen, hg]
    omega

/-- C50, as far as it holds: the size of the file is the sum of the sizes in the header, unless the number of
    groups is a multiple of 8.  (The last hypothesis says that the size of the code fits in its field.)
    Missing: programs whose number of groups is a multiple of 8, see `C50_excess`. -/
theorem C50_partial {d : Bool} {code : Str} {ws : List (BitVec 64)} {ts : List (Kind × Nat)} (h : assemble d code = .ok ws)
    (hs : Scans 0 (visible code) ts) (hd : DkshSource ts) (hg : groupCount ts % 8 ≠ 0) (hb : 32 * groupCount ts < 2 ^ 32 - 256) :
    8 * ws.length = (half ws 2).toNat + (half ws 3).toNat := by
  obtain ⟨h1, h2, h3⟩ := dksh_size h hs hd
  rw [h1, h2, h3, BitVec.toNat_ofNat, show (256 : BitVec 32).toNat = 256 from rfl]
  unfold roundUp
  omega

/-- Otherwise the file has 256 bytes more. -/
theorem C50_excess {d : Bool} {code : Str} {ws : List (BitVec 64)} {ts : List (Kind × Nat)} (h : assemble d code = .ok ws)
    (hs : Scans 0 (visible code) ts) (hd : DkshSource ts) (hg : groupCount ts % 8 = 0) (hb : 32 * groupCount ts < 2 ^ 32 - 256) :
    8 * ws.length = (half ws 2).toNat + (half ws 3).toNat + 256 := by
  obtain ⟨h1, h2, h3⟩ := dksh_size h hs hd
  rw [h1, h2, h3, BitVec.toNat_ofNat, show (256 : BitVec 32).toNat = 256 from rfl]
  unfold roundUp
  omega

/-- The sizes agree for one group. -/
example : groupCount sampleTokens = 1 ∧ 8 * sampleImage.length = (half sampleImage 2).toNat + (half sampleImage 3).toNat := by decide

/-- 24 instructions, which are 8 groups, for the examples. -/
abbrev sample24 : Str := c!".dksh compute\nmain:\nNOP;NOP;NOP;NOP;NOP;NOP;NOP;NOP;NOP;NOP;NOP;NOP;NOP;NOP;NOP;NOP;NOP;NOP;NOP;NOP;NOP;NOP;NOP;NOP;"

/-- The property fails: 24 instructions are 256 bytes, the file has 768 bytes instead of 512. -/
theorem C50_violated : ∃ ws, assemble true sample24 = .ok ws ∧ (half ws 2).toNat = 256 ∧ (half ws 3).toNat = 256 ∧ 8 * ws.length = 768 :=
  ⟨[0x0000001848534b44, 0x0000010000000100, 0x0000000100000018, 0x0000000000000005, 0x0000000000000008, 0x0000080000000000,
      0x0000000100000001, 1, 0, 0x800] ++ List.replicate 22 0 ++
    (List.replicate 8 [0x001f8000fc0007e0, 0x50b0000000070f00, 0x50b0000000070f00, 0x50b0000000070f00]).flatten ++ List.replicate 32 0,
    by decide +kernel, by decide, by decide, by decide⟩

/-- C51. In an accepted source for a DKSH container the label `main` is defined, the number of instructions in
    front of it is a multiple of 3, and the header has the byte offset of its group. -/
theorem C51_entry {d : Bool} {code : Str} {ws : List (BitVec 64)} {ts : List (Kind × Nat)} (h : assemble d code = .ok ws)
    (hs : Scans 0 (visible code) ts) (hd : DkshSource ts) :
    ∃ pre k, FirstDef (visible code) pre c!"main" ∧ pre.count ';' = 3 * k ∧ half ws 7 = BitVec.ofNat 32 (32 * k) := by
  obtain ⟨lab, ops, o, entry, hl, hp, hm, ha, hsc, -, rfl⟩ := accepted_dksh h hs hd
  obtain ⟨pre, h1, h2⟩ := (hl _ _).1 hm
  unfold addressOf at h2
  refine ⟨pre, pre.count ';' / 3, h1, by omega, ?_⟩
  rw [List.append_assoc, half_control (by omega)]
  show BitVec.ofNat 32 entry = _
  congr 1
  omega

/-- The entry point is the second group. -/
example : ∃ ws, assemble true c!".dksh compute\nNOP;NOP;NOP;\nmain:\nNOP;" = .ok ws ∧ half ws 7 = 32 :=
  ⟨[0x0000001848534b44, 0x0000010000000100, 0x0000000100000018, 0x0000002000000005, 0x0000000000000008, 0x0000080000000000,
      0x0000000100000001, 1, 0, 0x800] ++ List.replicate 22 0 ++
    [0x001f8000fc0007e0, 0x50b0000000070f00, 0x50b0000000070f00, 0x50b0000000070f00,
     0x001f8000fc0007e0, 0x50b0000000070f00, 0x50b0000000070f00, 0x50b0000000070f00] ++ List.replicate 24 0, by decide +kernel, by decide⟩
/-- Inside a group it is rejected, as is a program without `main`. -/
example : assemble true c!".dksh compute\nNOP;\nmain:\nNOP;" = .exit (.plain "entrypoint is not aligned") := by decide +kernel
example : assemble true c!".dksh compute\nNOP;" = .exit (.plain ⟨"entrypoint \"%s\" not found", [.text c!"main"]⟩) := by decide +kernel

end Nxas
