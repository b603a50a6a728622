import Verif.Lemmas.Places
import Verif.Props.Placid
import Verif.Lemmas.RenameClash
import Verif.Props.Solid
/-
C108: registers can be renamed.
-/

namespace Nxas

open Spec

/-- The tokens of a source with the registers renamed. -/
def Spec.renameAll (f : Nat → Nat) (ts : List (Kind × Nat)) : List (Kind × Nat) := ts.map fun t => (renamed f t.1, t.2)

theorem option_rename {f : Nat → Nat} {o o' : Opts} {ts : List (Kind × Nat)} (h : OptionText o ts o') : renameAll f ts = ts := by
  cases h <;> rfl

theorem option_noregs {o o' : Opts} {ts : List (Kind × Nat)} (h : OptionText o ts o') : regsOf (ts.map Prod.fst) = [] := by
  cases h <;> rfl

theorem program_rename {f : Nat → Nat} (hf : Renaming f) {lab : Str → Option Nat} {i : Nat} {o o' : Opts} {ts : List (Kind × Nat)} {ops : List Op}
    (h : Program lab i o ts ops o') (hw : ∀ t ∈ ts, Writable t.1) {P : Prop} (hP : P → Kind.imm (2 ^ 20) ∉ ts.map Prod.fst) :
    ∃ ops', Program lab i o (renameAll f ts) ops' o' ∧ AlikeAll registers f P (regsOf (ts.map Prod.fst)) ops ops' := by
  induction h with
  | done => exact ⟨[], .done, .nil⟩
  | @insn i o o' ts rest op ops h _ ih =>
    obtain ⟨ops', h1, h2⟩ := ih (fun t ht => hw t (by simp [ht])) (fun hp hin => hP hp (by rw [List.map_append]; exact List.mem_append_right _ hin))
    obtain ⟨op', h3, h4, h5, h6⟩ := instr_rename hf h (by
      intro x hx
      obtain ⟨t, ht, rfl⟩ := List.mem_map.1 hx
      exact hw t (by simp [ht]))
    refine ⟨op' :: ops', ?_, ?_⟩
    · rw [renameAll, List.map_append]
      refine .insn ?_ h1
      rwa [List.map_map] at h3 ⊢
    · rw [List.map_append, regsOf_append]
      exact .cons ⟨h4, h5, fun hp => h6 fun hin => hP hp (by rw [List.map_append]; exact List.mem_append_left _ hin)⟩ h2
  | @option i o o1 o' t next ts rest ops h hl _ ih =>
    obtain ⟨ops', h1, h2⟩ := ih (fun t ht => hw t (by
      simp only [List.cons_append, List.mem_cons, List.mem_append] at ht ⊢
      tauto)) (fun hp hin => hP hp (by rw [List.map_append]; exact List.mem_append_right _ hin))
    have h5 : regsOf ((t :: ts ++ next :: rest).map Prod.fst) = regsOf ((next :: rest).map Prod.fst) := by
      rw [List.map_append, regsOf_append, option_noregs h]
      rfl
    rw [h5]
    refine ⟨ops', ?_, h2⟩
    have h3 := option_rename (f := f) h
    have h4 : renameAll f (t :: ts ++ next :: rest) = t :: ts ++ (renamed f next.1, next.2) :: renameAll f rest := by
      conv_rhs => rw [← h3]
      simp only [renameAll, List.map_append, List.map_cons]
    rw [h4]
    exact .option h hl h1

/-- C108. A source with its registers renamed is accepted, by the build without assertions. The output has the same size and the same control words, and if
    the number 2^20 does not occur in the source, then the output holds the registers of the source in turn, the output for the other source holds the renamed
    registers at the same places, and all other bits are the same. -/
theorem C108_rename {f : Nat → Nat} (hf : Renaming f) {d : Bool} {a b : Str} {ws : List (BitVec 64)} {ts : List (Kind × Nat)} {lab : Str → Option Nat}
    (h : assemble d a = .ok ws) (sa : Scans 0 (visible a) ts) (sb : Scans 0 (visible b) (renameAll f ts)) (la : IsLabelMap (visible a) lab)
    (lb : IsLabelMap (visible b) lab) :
    ∃ ws', assemble false b = .ok ws' ∧ ws'.length = ws.length ∧ (∀ i, i % 4 = 0 → ws'[i]? = ws[i]?) ∧
      (Kind.imm (2 ^ 20) ∉ ts.map Prod.fst → registers.Image f (regsOf (ts.map Prod.fst)) ws ws') := by
  obtain ⟨lab', ts', ops, o, l1, s1, p1, i1⟩ := accepted h
  obtain rfl := scans_unique (visible_no_nul a) sa s1
  obtain rfl := IsLabelMap.unique la l1
  obtain ⟨ops', p2, hall⟩ := program_rename hf p1 (written_writable (sa.written (visible_no_nul a))) (P := Kind.imm (2 ^ 20) ∉ ts.map Prod.fst) id
  obtain ⟨ws', i2, h1, h2, h3⟩ := image_alike hall i1
  exact ⟨ws', assemble_iff.2 ⟨lab, _, ops', o, lb, sb, p2, i2⟩, h1, h2, h3⟩

theorem renameAll_back {f g : Nat → Nat} (hg : ∀ n ≤ 255, g (f n) = n) {ts : List (Kind × Nat)} (hw : ∀ t ∈ ts, Writable t.1) :
    renameAll g (renameAll f ts) = ts := by
  unfold renameAll
  rw [List.map_map]
  conv_rhs => rw [← List.map_id ts]
  apply List.map_congr_left
  intro t ht
  obtain ⟨k, l⟩ := t
  have := hw _ ht
  cases k with
  | reg n => simp only [Function.comp_apply, renamed, id_eq, hg n this]
  | _ => rfl

/-- C108. If the renaming can be undone, one source is accepted if and only if the other one is. -/
theorem C108_accepted {f g : Nat → Nat} (hf : Renaming f) (hg : Renaming g) (hgf : ∀ n ≤ 255, g (f n) = n) {a b : Str} {ts : List (Kind × Nat)}
    {lab : Str → Option Nat} (sa : Scans 0 (visible a) ts) (sb : Scans 0 (visible b) (renameAll f ts)) (la : IsLabelMap (visible a) lab)
    (lb : IsLabelMap (visible b) lab) : (∃ ws, assemble false a = .ok ws) ↔ ∃ ws, assemble false b = .ok ws := by
  constructor
  · rintro ⟨ws, h⟩
    obtain ⟨ws', h', -⟩ := C108_rename hf h sa sb la lb
    exact ⟨ws', h'⟩
  · rintro ⟨ws, h⟩
    obtain ⟨ws', h', -⟩ := C108_rename hg h sb (by rwa [renameAll_back hgf (written_writable (sa.written (visible_no_nul a)))]) lb la
    exact ⟨ws', h'⟩

/-- C108. If the renaming can be undone and the number 2^20 does not occur, the other source is accepted by the build with assertions as well. That build counts
    the semicolons of the whole source, comments and all, so both must have as many. -/
theorem C108_debug {f g : Nat → Nat} (hf : Renaming f) (hg : Renaming g) (hgf : ∀ n ≤ 255, g (f n) = n) {a b : Str} {ws : List (BitVec 64)}
    {ts : List (Kind × Nat)} {lab : Str → Option Nat} (h : assemble true a = .ok ws) (sa : Scans 0 (visible a) ts)
    (sb : Scans 0 (visible b) (renameAll f ts)) (la : IsLabelMap (visible a) lab) (lb : IsLabelMap (visible b) lab) (hn : a.count ';' = b.count ';')
    (hx : Kind.imm (2 ^ 20) ∉ ts.map Prod.fst) :
    ∃ ws', assemble true b = .ok ws' ∧ registers.Image f (regsOf (ts.map Prod.fst)) ws ws' := by
  obtain ⟨ws', h1, -, -, h2⟩ := C108_rename hf h sa sb la lb
  obtain ⟨us, hu, -⟩ := C102_splits h sa
  obtain ⟨-, h3, h4⟩ := (C102_debug sa hu ws).1 h
  have hw := written_writable (sa.written (visible_no_nul a))
  have hu' : Splits ((renameAll f ts).map Prod.fst) (us.map fun u => u.map (renamed f)) := by
    have := splits_rename (f := f) hu
    rw [List.map_map] at this
    rwa [renameAll, List.map_map]
  refine ⟨ws', (C102_debug sb hu' ws').2 ⟨h1, by rw [List.length_map, h3, hn], ?_⟩, h2 hx⟩
  intro u' hm hun
  obtain ⟨u, hmu, rfl⟩ := List.mem_map.1 hm
  have hwu : ∀ x ∈ u, Writable x := by
    intro x hx
    obtain ⟨t, ht, rfl⟩ := List.mem_map.1 (splits_mem hu u hmu x hx)
    exact hw t ht
  refine h4 u hmu ?_
  have := unsound_rename hg (fun x hx => by
    obtain ⟨y, hy, rfl⟩ := List.mem_map.1 hx
    exact writable_renamed hf (hwu y hy)) (fun hin => by
    obtain ⟨y, hy, he⟩ := List.mem_map.1 hin
    rw [renamed_eq (by simp)] at he
    subst he
    exact hx (splits_mem hu u hmu _ hy)) hun
  rwa [map_renamed_back hgf hwu] at this

/-- The registers moved up by one, the last one to the front. -/
def Spec.moved (n : Nat) : Nat := if n = 255 then 255 else (n + 1) % 255

theorem moved_renaming : Renaming moved := by
  constructor
  · intro n hn
    unfold moved
    split <;> omega
  · intro n hn
    unfold moved
    split <;> omega

/-- The registers moved down again. -/
def Spec.unmoved (n : Nat) : Nat := if n = 255 then 255 else (n + 254) % 255

theorem unmoved_renaming : Renaming unmoved := by
  constructor
  · intro n hn
    unfold unmoved
    split <;> omega
  · intro n hn
    unfold unmoved
    split <;> omega

theorem unmoved_moved (n : Nat) (hn : n ≤ 255) : unmoved (moved n) = n := by
  unfold unmoved moved
  split <;> split <;> omega

/-- A loop, and the same loop with other registers. -/
theorem C108_case : assemble true c!"L:\n@P3 FADD R0, R1.reuse, R2;\nLDG R4, [R0+0x10];\nBRA L;" =
      .ok [0x001f8000fc0207e0, 0x5c58000000230100, 0xeed4000001070004, 0xe2400ffffe87000f] ∧
    ∃ ts lab, Scans 0 (visible c!"L:\n@P3 FADD R0, R1.reuse, R2;\nLDG R4, [R0+0x10];\nBRA L;") ts ∧
      Scans 0 (visible c!"L:\n@P3 FADD R1, R2.reuse, R3;\nLDG R5, [R1+0x10];\nBRA L;") (renameAll moved ts) ∧
      IsLabelMap (visible c!"L:\n@P3 FADD R0, R1.reuse, R2;\nLDG R4, [R0+0x10];\nBRA L;") lab ∧
      IsLabelMap (visible c!"L:\n@P3 FADD R1, R2.reuse, R3;\nLDG R5, [R1+0x10];\nBRA L;") lab ∧
      regsOf (ts.map Prod.fst) = [0, 1, 2, 4, 0] ∧ Kind.imm (2 ^ 20) ∉ ts.map Prod.fst := by
  refine ⟨by decide +kernel, [(.at, 1), (.pred 3 false, 1), (.ident c!"FADD", 1), (.reg 0, 1), (.comma, 1), (.reg 1, 1), (.ident c!".reuse", 1), (.comma, 1),
    (.reg 2, 1), (.semicolon, 1), (.ident c!"LDG", 2), (.reg 4, 2), (.comma, 2), (.lbracket, 2), (.reg 0, 2), (.imm 16, 2), (.rbracket, 2),
    (.semicolon, 2), (.ident c!"BRA", 3), (.ident c!"L", 3), (.semicolon, 3)], Labels.find [(c!"L", 8)],
    lexAll_scans (n := 60) (by decide) (by decide +kernel), lexAll_scans (n := 60) (by decide) (by decide +kernel),
    fun name a => genLabels_find (by decide +kernel) name a, fun name a => genLabels_find (by decide +kernel) name a, by decide, by decide⟩

example : ∃ ws, assemble false c!"L:\n@P3 FADD R1, R2.reuse, R3;\nLDG R5, [R1+0x10];\nBRA L;" = .ok ws ∧
    registers.Image moved [0, 1, 2, 4, 0] [0x001f8000fc0207e0, 0x5c58000000230100, 0xeed4000001070004, 0xe2400ffffe87000f] ws := by
  obtain ⟨h, ts, lab, sa, sb, la, lb, hr, hx⟩ := C108_case
  obtain ⟨ws, h1, -, -, h2⟩ := C108_rename moved_renaming h sa sb la lb
  exact ⟨ws, h1, hr ▸ h2 hx⟩

example : ∃ ws, assemble true c!"L:\n@P3 FADD R1, R2.reuse, R3;\nLDG R5, [R1+0x10];\nBRA L;" = .ok ws ∧
    registers.Image moved [0, 1, 2, 4, 0] [0x001f8000fc0207e0, 0x5c58000000230100, 0xeed4000001070004, 0xe2400ffffe87000f] ws := by
  obtain ⟨h, ts, lab, sa, sb, la, lb, hr, hx⟩ := C108_case
  obtain ⟨ws, h1, h2⟩ := C108_debug moved_renaming unmoved_renaming unmoved_moved h sa sb la lb (by decide +kernel) hx
  exact ⟨ws, h1, hr ▸ h2⟩

/-- The number 2^20, which no field can hold, is put into the byte of the third register: `R2` is encoded as `R3` and `R4` as `R5`. -/
theorem C108_violated : assemble false c!"IADD3 R0, R1, 0x100000, R2;" = .ok [0x001f8000fc0007e0, 0x39c0018000070100, 0x50b0000000070f00, 0x50b0000000070f00] ∧
    assemble false c!"IADD3 R0, R1, 0x100000, R4;" = .ok [0x001f8000fc0007e0, 0x39c0028000070100, 0x50b0000000070f00, 0x50b0000000070f00] ∧
    ∀ f : Nat → Nat, ¬ registers.Image f [0, 1, 2] [0x001f8000fc0007e0, 0x39c0018000070100, 0x50b0000000070f00, 0x50b0000000070f00]
      [0x001f8000fc0007e0, 0x39c0028000070100, 0x50b0000000070f00, 0x50b0000000070f00] := by
  refine ⟨by decide +kernel, by decide +kernel, ?_⟩
  rintro f ⟨as, h1, h2, -⟩
  have h3 : ∃ a ∈ as, registers.at (([0x001f8000fc0007e0, 0x39c0018000070100, 0x50b0000000070f00, 0x50b0000000070f00] : List (BitVec 64)).getD a.1 0) a.2 = 2 := by
    have : 2 ∈ [0, 1, 2] := by decide
    rw [← h2] at this
    simpa using this
  obtain ⟨⟨i, p⟩, h4, h5⟩ := h3
  have h6 := h1 _ h4
  have key : ∀ i < 4, i % 4 ≠ 0 → ∀ p ∈ registers.places,
      registers.at (([0x001f8000fc0007e0, 0x39c0018000070100, 0x50b0000000070f00, 0x50b0000000070f00] : List (BitVec 64)).getD i 0) p ≠ 2 := by decide
  exact key i h6.1 h6.2.1 p h6.2.2 h5

/-- With that number, whether an assertion fails depends on the register, too. -/
theorem C108_asserts : assemble true c!"IADD3 R0, R1, 0x100000, R2;" = .ok [0x001f8000fc0007e0, 0x39c0018000070100, 0x50b0000000070f00, 0x50b0000000070f00] ∧
    assemble true c!"IADD3 R0, R1, 0x100000, R3;" = .abort := by
  refine ⟨by decide +kernel, by decide +kernel⟩

end Nxas
