import Verif.Lemmas.DisasmComplete
/-
A disassembler for containers: the settings are read from the header, and the code is disassembled as before.  The label of the entry point
stands at the beginning of the source, after labels with a semicolon in their names, so that it can have any address.
-/

namespace Nxas

open Spec

/-! ### Definition -/

/-- Lines of tokens, with a line end in front of each. -/
def linesText (ls : List (List Kind)) : Str := ls.flatMap fun ks => '\n' :: textOf ks

/-- `k` lines with a label that counts as an instruction. -/
def counted (k : Nat) : Str := (List.replicate k c!"P;:\n").flatten

/-- Field `i` of a header. -/
def fieldOf (ws : List (BitVec 64)) (i : Nat) : BitVec 32 := ((ws[i / 2]?.getD 0) >>> (32 * (i % 2))).setWidth 32

/-- The settings of a container. -/
def optsOf (ws : List (BitVec 64)) : Opts :=
  { type := some .compute, isDksh := true, localMem := fieldOf ws 16, blockDims := (fieldOf ws 12, fieldOf ws 13, fieldOf ws 14), sharedMem := fieldOf ws 15 }

/-- The lines of the source of a container. -/
def dkshLines (o : Opts) (ks : List Kind) : List (List Kind) :=
  [[.ident c!".dksh", .ident c!"compute"],
   [.ident c!".workgroup_size", .imm o.blockDims.1.toNat, .imm o.blockDims.2.1.toNat, .imm o.blockDims.2.2.toNat],
   [.ident c!".shared_memory", .imm o.sharedMem.toNat],
   [.ident c!".local_memory", .imm o.localMem.toNat],
   ks]

/-- The words are those of a container with `n` words of code. -/
def isContainer (ws : List (BitVec 64)) (n : Nat) : Bool :=
  let o := optsOf ws
  let entry := (fieldOf ws 7).toNat
  decide (entry % 32 = 0) && decide (-(2 ^ 31) ≤ scratch o ∧ scratch o < 2 ^ 31) &&
    ws == dkshControl o n entry ++ (ws.drop 32).take n ++ List.replicate (32 - n % 32) 0 && ((ws.drop 32).take n).length == n

/-- The source of a container with `n` words of code. -/
def disassembleAt (ws : List (BitVec 64)) (n : Nat) : Option Str :=
  if isContainer ws n then
    match decodeAll 0 ((ws.drop 32).take n) with
    | some (k :: ks) => some (counted (3 * ((fieldOf ws 7).toNat / 32)) ++ c!"main:" ++ linesText (dkshLines (optsOf ws) (k :: ks)))
    | _ => none
  else none

/-- A source for a container, if it has one. -/
def disassembleDksh (ws : List (BitVec 64)) : Option Str := (List.range (ws.length + 1)).findSome? (disassembleAt ws)

/-! ### Labels -/

theorem accepts_more {e e' : Env} (hl : ∀ s a, e.label s = some a → e'.label s = some a) (hp : e.pc = e'.pc) {v : BitVec 64} {o : Operand} {ks : List Kind}
    {k : Kind} {b : BitVec 64} {r : BitVec 32} (h : Accepts e v o ks k b r) : Accepts e' v o ks k b r := by
  induction o generalizing v ks k b with
  | label =>
    obtain ⟨h1, t, h2, h3⟩ := h
    rw [hp] at h3
    refine ⟨h1, t, ?_, h3⟩
    rcases h2 with ⟨s, a, rfl, ha, rfl⟩ | rfl
    · exact .inl ⟨s, a, rfl, hl s a ha, rfl⟩
    · exact .inr rfl
  | abs a inner ih =>
    rcases h with ⟨ks1, b1, h1, h2, h⟩ | ⟨h1, h⟩
    · exact .inl ⟨ks1, b1, h1, h2, ih h⟩
    · exact .inr ⟨h1, ih h⟩
  | _ => exact h

theorem sequence_more {e e' : Env} (hl : ∀ s a, e.label s = some a → e'.label s = some a) (hp : e.pc = e'.pc) {os : List Operand} {v v' : BitVec 64}
    {ks : List Kind} {k : Kind} {r : BitVec 32} (h : Sequence e os v ks k v' r) : Sequence e' os v ks k v' r := by
  induction h with
  | nil => exact .nil
  | cons h _ ih => exact .cons (accepts_more hl hp h) ih

theorem instr_more {e e' : Env} (hl : ∀ s a, e.label s = some a → e'.label s = some a) (hp : e.pc = e'.pc) {ks : List Kind} {op : Op}
    (h : InstrText e ks op) : InstrText e' ks op := by
  obtain ⟨g, row, hr, ks, rfl, h1⟩ := C70_grammar.1 h
  refine C70_grammar.2 ⟨g, row, hr, ks, rfl, ?_⟩
  clear h
  cases h1 with
  | mk hg hs ha => exact .mk hg (sequence_more hl hp hs) ha

/-- More labels do not harm. -/
theorem program_more {lab lab' : Str → Option Nat} (hl : ∀ s a, lab s = some a → lab' s = some a) {i : Nat} {o o' : Opts} {ts : List (Kind × Nat)}
    {ops : List Op} (h : Program lab i o ts ops o') : Program lab' i o ts ops o' := by
  induction h with
  | done => exact .done
  | @insn i o o' ts rest op ops h _ ih =>
    have h1 := instr_more (e := ⟨lab, addressOf i⟩) (e' := ⟨lab', addressOf i⟩) hl rfl h
    exact .insn h1 ih
  | option h hline _ ih => exact .option h hline ih

theorem program_line {lab : Str → Option Nat} {i : Nat} {o o' : Opts} {ks : List Kind} {ops : List Op} (n : Nat)
    (h : Program lab i o (ks.map fun k => (k, 0)) ops o') : Program lab i o (ks.map fun k => (k, n)) ops o' := by
  have := Program.relabel h (zs := ks.map fun k => (k, 0, n)) (by rw [List.map_map]; rfl) (by
    intro a ha b hb
    obtain ⟨_, -, rfl⟩ := List.mem_map.1 ha
    obtain ⟨_, -, rfl⟩ := List.mem_map.1 hb
    simp)
  rwa [List.map_map] at this

/-! ### Text -/

theorem skipped_trans {s s' rest : Str} (h : Skipped s (s' ++ rest)) (h' : Skipped s' rest) : Skipped (s ++ s') rest := by
  generalize hr : s' ++ rest = r at h
  induction h with
  | nil => exact h'
  | blank hc _ ih => exact .blank hc (ih hr)
  | @label v w r hv hl _ ih =>
    subst hr
    rw [List.append_assoc]
    refine .label ?_ hl (ih rfl)
    rwa [List.append_assoc]

theorem scans_skip {l : Nat} {s t : Str} {ts : List (Kind × Nat)} (hs : Skipped s t) (h : Scans (l + lineAfter s) t ts) : Scans l (s ++ t) ts := by
  generalize hl : l + lineAfter s = l' at h
  cases h with
  | done h => exact .done (skipped_trans (by rwa [List.append_nil]) h)
  | @token _ s' w rest k ts h1 h2 h3 =>
    subst hl
    rw [Nat.add_assoc, ← lineAfter_append]
    have : s ++ (s' ++ w ++ rest) = (s ++ s') ++ w ++ rest := by simp
    rw [this]
    refine .token (skipped_trans (by rwa [List.append_assoc] at hs) h1) h2 ?_
    rw [List.append_assoc s, lineAfter_append s, ← Nat.add_assoc]
    exact h3

theorem scans_line {l : Nat} {ks : List Kind} (h : ∀ k ∈ ks, Fine k) {t : Str} (hg : Gap t) {ts : List (Kind × Nat)} (ht : Scans l t ts) :
    Scans l (textOf ks ++ t) (ks.map (fun k => (k, l)) ++ ts) := by
  induction ks with
  | nil => exact ht
  | cons k ks ih =>
    have h1 := ih fun k hk => h k (by simp [hk])
    obtain ⟨q1, q2, q3⟩ := kind_text (h k (by simp)).1
    have hk := (h k (by simp)).2
    have hgap : Gap (textOf ks ++ t) := by
      cases ks with
      | nil => exact hg
      | cons k' ks => intro c hc; left; simpa [textOf] using hc.symm
    have := scans_lead (l := l) (l' := l) (Nat.le_refl _) (q3 _ hgap) q1 (by rw [hk]; exact h1)
    simpa [lead, textOf] using this

/-- Tokens with their lines. -/
def numbered : Nat → List (List Kind) → List (Kind × Nat)
  | _, [] => []
  | n, ks :: ls => ks.map (fun k => (k, n)) ++ numbered (n + 1) ls

theorem linesText_gap (ls : List (List Kind)) : Gap (linesText ls) := by
  intro c hc
  cases ls with
  | nil => simp [linesText] at hc
  | cons k ks => right; simpa [linesText] using hc.symm

theorem scans_lines {l : Nat} {ls : List (List Kind)} (h : ∀ ks ∈ ls, ∀ k ∈ ks, Fine k) : Scans l (linesText ls) (numbered (l + 1) ls) := by
  induction ls generalizing l with
  | nil => exact .done .nil
  | cons ks ls ih =>
    have h1 := scans_line (h ks (by simp)) (linesText_gap ls) (ih (l := l + 1) fun ks hk => h ks (by simp [hk]))
    have h2 := scans_skip (l := l) (s := ['\n']) (.blank (by decide) .nil) (by simpa [lineAfter] using h1)
    simpa [linesText, numbered] using h2

theorem linesText_no_nul {ls : List (List Kind)} (h : ∀ ks ∈ ls, ∀ k ∈ ks, Fine k) : '\x00' ∉ linesText ls := by
  intro hc
  obtain ⟨ks, hk, hc⟩ := List.mem_flatMap.1 hc
  rcases List.mem_cons.1 hc with hc | hc
  · exact absurd hc (by decide)
  · exact (textOf_scans (h ks hk)).2.1 hc

theorem counted_succ (k : Nat) : counted (k + 1) = c!"P;:\n" ++ counted k := by simp [counted, List.replicate_succ]

theorem counted_mem {k : Nat} {c : Char} (h : c ∈ counted k) : c ∈ c!"P;:\n" := by
  obtain ⟨s, hs, hc⟩ := List.mem_flatten.1 h
  rwa [List.eq_of_mem_replicate hs] at hc

theorem counted_count (k : Nat) : (counted k).count ';' = k ∧ (counted k).count '\n' = k := by
  induction k with
  | zero => exact ⟨rfl, rfl⟩
  | succ k ih =>
    rw [counted_succ, List.count_append, List.count_append, ih.1, ih.2, show c!"P;:\n".count ';' = 1 from rfl, show c!"P;:\n".count '\n' = 1 from rfl]
    omega

theorem counted_start (k : Nat) : AtLineStart (counted k) := by
  cases k with
  | zero => exact .inl rfl
  | succ k =>
    right
    rw [show counted (k + 1) = counted k ++ c!"P;:\n" by simp [counted, List.replicate_succ'], List.getLast?_append]
    rfl

theorem counted_skipped (k : Nat) {rest : Str} : Skipped (counted k) rest := by
  induction k with
  | zero => exact .nil
  | succ k ih =>
    rw [counted_succ]
    refine Skipped.label (v := c!"P;:") (w := '\n' :: counted k) ?_ rfl (.blank (by decide) ih)
    exact Word.predicate (p := ['P']) (c := ';') (cs := [':']) (neg := false) (.pos (.inl rfl)) (by simp) (by decide) (by simp [Ends, separators])

theorem main_name : IsName c!"main" := ⟨⟨_, _, rfl, by unfold letter; decide⟩, by unfold wordChar letter; decide⟩

theorem main_skipped {t : Str} (hg : Gap t) : Skipped c!"main:" t := by
  have := Skipped.label (v := c!"main:") (w := []) (rest := t)
    (.plain (c := 'm') (cs := c!"ain:") (.inl (by decide)) (by decide) (by unfold decimal; decide) (by decide) hg.ends) rfl .nil
  exact this

/-- The first definition of `main` is the one after the counted labels. -/
theorem main_first (k : Nat) (t : Str) : FirstDef (counted k ++ c!"main:" ++ t) (counted k) c!"main" := by
  refine ⟨⟨counted_start k, main_name, t, by simp⟩, ?_⟩
  rintro q ⟨-, -, rest, h⟩
  by_contra hlt
  have h1 : (counted k ++ c!"main:" ++ t)[q.length]? = some 'm' := by rw [h]; simp
  rw [List.append_assoc, List.getElem?_append_left (by omega)] at h1
  have := counted_mem (List.mem_of_getElem? h1)
  revert this
  decide

/-! ### Soundness -/

theorem word_fine {s : Str} (h : Word s []) (hl : s.getLast? ≠ some ':') (hz : '\x00' ∉ s) (hn : lineAfter s = 0) : Fine (.ident s) := ⟨⟨h, hl, hz⟩, hn⟩

theorem imm_fine (b : BitVec 32) : Fine (.imm b.toNat) := by
  have := b.isLt
  exact ⟨⟨by omega, by omega⟩, rfl⟩

theorem dkshLines_fine {o : Opts} {ks : List Kind} (h : ∀ k ∈ ks, Fine k) : ∀ l ∈ dkshLines o ks, ∀ k ∈ l, Fine k := by
  have hw : ∀ {c : Char} {cs : Str}, (c ∉ separators ∨ c = '.') → c ∉ ['!', 'P', 'p', 'R'] → ¬ decimal c → (∀ x ∈ cs, x ∉ separators) →
      (c :: cs).getLast? ≠ some ':' → '\x00' ∉ c :: cs → lineAfter (c :: cs) = 0 → Fine (.ident (c :: cs)) :=
    fun h1 h2 h3 h4 h5 h6 h7 => word_fine (.plain h1 h2 h3 h4 (by simp [Ends])) h5 h6 h7
  have d : ¬ decimal '.' := by unfold decimal; decide
  have f1 : Fine (.ident c!".dksh") := hw (.inr rfl) (by decide) d (by decide) (by decide) (by decide) (by decide)
  have f2 : Fine (.ident c!"compute") := hw (.inl (by decide)) (by decide) (by unfold decimal; decide) (by decide) (by decide) (by decide) (by decide)
  have f3 : Fine (.ident c!".workgroup_size") := hw (.inr rfl) (by decide) d (by decide) (by decide) (by decide) (by decide)
  have f4 : Fine (.ident c!".shared_memory") := hw (.inr rfl) (by decide) d (by decide) (by decide) (by decide) (by decide)
  have f5 : Fine (.ident c!".local_memory") := hw (.inr rfl) (by decide) d (by decide) (by decide) (by decide) (by decide)
  unfold dkshLines
  simp only [List.forall_mem_cons, List.not_mem_nil, false_imp_iff, implies_true, and_true]
  exact ⟨⟨f1, f2⟩, ⟨f3, imm_fine _, imm_fine _, imm_fine _⟩, ⟨f4, imm_fine _⟩, ⟨f5, imm_fine _⟩, h⟩

theorem ofInt_ofToNat (b : BitVec 32) : BitVec.ofInt 32 (b.toNat : Int) = b := by
  rw [BitVec.ofInt_natCast, BitVec.ofNat_toNat, BitVec.setWidth_eq]

theorem dksh_program {lab : Str → Option Nat} {k : Kind} {ks : List Kind} {ops : List Op} {n : Nat} {o : Opts} (ht : o.type = some .compute)
    (hd : o.isDksh = true) (hp : ∀ o, Program lab 0 o ((k :: ks).map fun k => (k, 0)) ops o) :
    Program lab 0 {} (numbered n (dkshLines o (k :: ks))) ops o := by
  obtain ⟨_, _, l, ⟨x, y, z⟩, s⟩ := o
  simp only at ht hd
  subst ht hd
  have h5 := program_line (n + 4) (hp { type := some .compute, isDksh := true, localMem := l, blockDims := (x, y, z), sharedMem := s })
  have h4 := Program.option (OptionText.local (o := { type := some .compute, isDksh := true, blockDims := (x, y, z), sharedMem := s }) (l := n + 3)
    (l1 := n + 3) (v := l.toNat)) (next := (k, n + 4)) (by simp) (by rw [ofInt_ofToNat]; exact h5)
  have h3 := Program.option (OptionText.shared (o := { type := some .compute, isDksh := true, blockDims := (x, y, z) }) (l := n + 2)
    (l1 := n + 2) (v := s.toNat)) (next := (.ident c!".local_memory", n + 3)) (by simp) (by rw [ofInt_ofToNat]; exact h4)
  have h2 := Program.option (OptionText.workgroup (o := { type := some .compute, isDksh := true }) (l := n + 1)
    (l1 := n + 1) (l2 := n + 1) (x := x.toNat) (y := y.toNat) (z := z.toNat)) (next := (.ident c!".shared_memory", n + 2)) (by simp)
    (by rw [ofInt_ofToNat, ofInt_ofToNat, ofInt_ofToNat]; exact h3)
  have h1 := Program.option (OptionText.dksh (o := {}) (l := n) (w := c!"compute") (p := .compute) rfl (by decide))
    (next := (.ident c!".workgroup_size", n + 1)) (by simp) h2
  simpa [numbered, dkshLines] using h1

theorem disassembleAt_sound {ws : List (BitVec 64)} {n : Nat} {t : Str} (h : disassembleAt ws n = some t) : assemble false t = .ok ws := by
  unfold disassembleAt at h
  split at h
  next hc =>
    split at h
    next k ks hk =>
      obtain rfl := Option.some.inj h
      obtain ⟨hf, ops, hops, hp⟩ := decodeAll_sound hk
      unfold isContainer at hc
      simp only [Bool.and_eq_true, decide_eq_true_eq, beq_iff_eq] at hc
      obtain ⟨⟨⟨h1, h2⟩, h3⟩, h4⟩ := hc
      generalize hm : 3 * ((fieldOf ws 7).toNat / 32) = m
      have hfine := dkshLines_fine (o := optsOf ws) hf
      have hgap := linesText_gap (dkshLines (optsOf ws) (k :: ks))
      have hz : '\x00' ∉ counted m ++ c!"main:" ++ linesText (dkshLines (optsOf ws) (k :: ks)) := by
        simp only [List.mem_append, not_or]
        refine ⟨⟨fun hx => ?_, by decide⟩, linesText_no_nul hfine⟩
        have := counted_mem hx
        revert this
        decide
      rw [assemble_iff, visible_self hz]
      obtain ⟨lab, hlab⟩ := exists_labels (counted m ++ c!"main:" ++ linesText (dkshLines (optsOf ws) (k :: ks)))
      have hmain : lab c!"main" = some ((fieldOf ws 7).toNat + 8) := by
        refine (hlab _ _).2 ⟨counted m, main_first m _, ?_⟩
        rw [(counted_count m).1]
        unfold addressOf
        omega
      have hs : Scans 0 (counted m ++ c!"main:" ++ linesText (dkshLines (optsOf ws) (k :: ks)))
          (numbered (m + 1) (dkshLines (optsOf ws) (k :: ks))) := by
        rw [List.append_assoc]
        refine scans_skip (counted_skipped m) (scans_skip (main_skipped hgap) ?_)
        rw [show 0 + lineAfter (counted m) + lineAfter c!"main:" = m by
          rw [show lineAfter c!"main:" = 0 from rfl, show lineAfter (counted m) = m from (counted_count m).2]; omega]
        exact scans_lines hfine
      refine ⟨lab, _, ops, optsOf ws, hlab, hs, dksh_program rfl rfl fun o => program_more (by simp) (hp o), ?_⟩
      have hi := Image.dksh (lab := lab) (o := optsOf ws) (code := groups ops) rfl rfl hmain h1 h2
      rw [hops, h4, ← h3] at hi
      rwa [hops]
    next => simp at h
  next => simp at h

theorem disassembleDksh_sound {ws : List (BitVec 64)} {t : Str} (h : disassembleDksh ws = some t) : assemble false t = .ok ws := by
  obtain ⟨n, -, hn⟩ := List.exists_of_findSome?_eq_some h
  exact disassembleAt_sound hn

/-! ### Completeness -/

theorem dkshControl_length (o : Opts) (n entry : Nat) : (dkshControl o n entry).length = 32 := by simp [dkshControl]

theorem header_halves (a b : BitVec 32) : (((a ++ b) >>> 0).setWidth 32 = b) ∧ ((a ++ b) >>> 32).setWidth 32 = a := by
  constructor
  · rw [BitVec.ushiftRight_zero, BitVec.setWidth_append]
    simp
  · apply BitVec.eq_of_getLsbD_eq
    intro i hi
    rw [BitVec.getLsbD_setWidth, BitVec.getLsbD_ushiftRight, BitVec.getLsbD_append]
    simp [hi]

theorem fieldOf_control {o : Opts} {n entry i : Nat} (hi : i < 64) (r : List (BitVec 64)) : fieldOf (dkshControl o n entry ++ r) i = dkshField o n entry i := by
  unfold fieldOf
  rw [List.getElem?_append_left (by rw [dkshControl_length]; omega)]
  unfold dkshControl
  rw [List.getElem?_map, List.getElem?_range (by omega)]
  simp only [Option.map_some, Option.getD_some]
  rcases Nat.mod_two_eq_zero_or_one i with h | h
  · rw [h, (header_halves _ _).1, show 2 * (i / 2) = i by omega]
  · rw [h, (header_halves _ _).2, show 2 * (i / 2) + 1 = i by omega]

theorem round_again {m : Nat} (hm : 0 < m) (hd : 2 ^ 32 % m = 0) (x : BitVec 32) :
    BitVec.ofNat 32 (roundUp m (BitVec.ofNat 32 (roundUp m x.toNat)).toNat) = BitVec.ofNat 32 (roundUp m x.toNat) := by
  have h1 : (BitVec.ofNat 32 (roundUp m x.toNat)).toNat % m = 0 := by
    rw [BitVec.toNat_ofNat, Nat.mod_mod_of_dvd _ (Nat.dvd_of_mod_eq_zero hd)]
    unfold roundUp
    exact Nat.mul_mod_left _ _
  obtain ⟨q, hq⟩ := Nat.dvd_of_mod_eq_zero h1
  generalize BitVec.ofNat 32 (roundUp m x.toNat) = y at hq
  have : roundUp m y.toNat = y.toNat := by
    unfold roundUp
    rw [hq, Nat.mul_add_div hm, Nat.div_eq_of_lt (by omega), Nat.add_zero, Nat.mul_comm]
  rw [this, BitVec.ofNat_toNat, BitVec.setWidth_eq]

/-- The settings that are read from a header have the same header. -/
theorem read_back {o : Opts} {n entry : Nat} (r : List (BitVec 64)) :
    dkshControl (optsOf (dkshControl o n entry ++ r)) n (fieldOf (dkshControl o n entry ++ r) 7).toNat = dkshControl o n entry ∧
      scratch (optsOf (dkshControl o n entry ++ r)) = scratch o := by
  have f := fun i hi => fieldOf_control (o := o) (n := n) (entry := entry) (i := i) hi r
  have hs : scratch (optsOf (dkshControl o n entry ++ r)) = scratch o := by
    unfold scratch optsOf
    simp only [f 16 (by decide)]
    rw [show dkshField o n entry 16 = BitVec.ofNat 32 (roundUp 16 o.localMem.toNat) from rfl, round_again (by decide) (by decide)]
  have hf : dkshFields (optsOf (dkshControl o n entry ++ r)) n (fieldOf (dkshControl o n entry ++ r) 7).toNat = dkshFields o n entry := by
    unfold dkshFields
    rw [hs]
    unfold optsOf
    simp only [f 7 (by decide), f 12 (by decide), f 13 (by decide), f 14 (by decide), f 15 (by decide), f 16 (by decide)]
    rw [show dkshField o n entry 16 = BitVec.ofNat 32 (roundUp 16 o.localMem.toNat) from rfl,
      show dkshField o n entry 15 = BitVec.ofNat 32 (roundUp 256 o.sharedMem.toNat) from rfl, round_again (by decide) (by decide),
      round_again (by decide) (by decide), show dkshField o n entry 7 = BitVec.ofNat 32 entry from rfl,
      show dkshField o n entry 12 = o.blockDims.1 from rfl, show dkshField o n entry 13 = o.blockDims.2.1 from rfl,
      show dkshField o n entry 14 = o.blockDims.2.2 from rfl, BitVec.ofNat_toNat, BitVec.setWidth_eq]
  refine ⟨?_, hs⟩
  unfold dkshControl dkshField at hf ⊢
  rw [hf]

theorem program_nil {lab : Str → Option Nat} {i : Nat} {o o' : Opts} {ts : List (Kind × Nat)} (h : Program lab i o ts [] o') : ts = [] ∧ o = o' := by
  generalize hops : ([] : List Op) = ops at h
  induction h with
  | done => exact ⟨rfl, rfl⟩
  | insn => simp at hops
  | option _ _ _ ih => simpa using (ih hops).1

theorem groups_nil {ops : List Op} (h : groups ops = []) : ops = [] := by
  match ops with
  | [] => rfl
  | [_] => simp [groups] at h
  | [_, _] => simp [groups] at h
  | _ :: _ :: _ :: _ => simp [groups] at h

theorem disassembleDksh_complete {t : Str} (hz : '\x00' ∉ t) {lab : Str → Option Nat} {ts : List (Kind × Nat)} {ops : List Op} {o : Opts}
    (hs : Scans 0 t ts) (hp : Program lab 0 {} ts ops o) (hl : (groups ops).length < 2 ^ 58) (hd : o.isDksh = true) {entry : Nat}
    (ha : entry % 32 = 0) (hr : -(2 ^ 31) ≤ scratch o ∧ scratch o < 2 ^ 31) :
    (disassembleDksh (dkshControl o (groups ops).length entry ++ groups ops ++ List.replicate (32 - (groups ops).length % 32) 0)).isSome = true := by
  obtain ⟨ks, hk⟩ := decodeAll_complete rfl (by unfold addressOf; omega) (program_texts hp (written_writable (hs.written hz)))
  have hne : ops ≠ [] := by
    rintro rfl
    obtain ⟨-, rfl⟩ := program_nil hp
    simp at hd
  obtain ⟨k, ks, rfl⟩ : ∃ k ks', ks = k :: ks' := by
    cases ks with
    | cons k ks => exact ⟨k, ks, rfl⟩
    | nil =>
      obtain ⟨-, ops', h1, h2⟩ := decodeAll_sound hk
      have h3 := h2 {}
      cases ops' with
      | nil => exact absurd (groups_nil h1.symm) hne
      | cons op ops' =>
        have := Program.semicolons h3
        simp [semicolons] at this
  generalize hws : dkshControl o (groups ops).length entry ++ groups ops ++ List.replicate (32 - (groups ops).length % 32) 0 = ws
  have hrest : ws = dkshControl o (groups ops).length entry ++ (groups ops ++ List.replicate (32 - (groups ops).length % 32) 0) := by
    rw [← hws, List.append_assoc]
  have hcode : (ws.drop 32).take (groups ops).length = groups ops := by
    rw [hrest, List.drop_append_of_le_length (by rw [dkshControl_length]), List.drop_eq_nil_of_le (by rw [dkshControl_length]), List.nil_append,
      List.take_append_of_le_length (Nat.le_refl _), List.take_length]
  have hb := read_back (o := o) (n := (groups ops).length) (entry := entry) (groups ops ++ List.replicate (32 - (groups ops).length % 32) 0)
  rw [← hrest] at hb
  have hcon : isContainer ws (groups ops).length = true := by
    unfold isContainer
    simp only [Bool.and_eq_true, decide_eq_true_eq, beq_iff_eq]
    refine ⟨⟨⟨?_, ?_⟩, ?_⟩, ?_⟩
    · rw [hrest, fieldOf_control (by decide), show dkshField o (groups ops).length entry 7 = BitVec.ofNat 32 entry from rfl, BitVec.toNat_ofNat]
      omega
    · rw [hb.2]; exact hr
    · rw [hb.1, hcode, hws]
    · rw [hcode]
  have hat : (disassembleAt ws (groups ops).length).isSome = true := by
    unfold disassembleAt
    rw [hcon, hcode, hk]
    rfl
  unfold disassembleDksh
  rw [List.findSome?_isSome_iff]
  refine ⟨(groups ops).length, ?_, hat⟩
  rw [List.mem_range, ← hws]
  simp only [List.length_append]
  omega

end Nxas
