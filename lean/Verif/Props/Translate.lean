import Verif.Props.Locality
import Verif.Props.Solid
import Verif.Lemmas.DisasmComplete
/-
C110: instructions are translated one by one.
-/

namespace Nxas

open Spec

/-- The tokens are those of one instruction, up to the semicolon. -/
def Spec.Single (u : List Kind) : Prop := ∃ k v, u = k :: v ++ [.semicolon] ∧ ¬ IsOptionWord k ∧ .semicolon ∉ k :: v

theorem singles_splits {us : List (List Kind)} (h : ∀ u ∈ us, Single u) : Splits us.flatten us := by
  induction us with
  | nil => exact .done
  | cons u us ih =>
    obtain ⟨k, v, rfl, h1, h2⟩ := h u (by simp)
    rw [List.flatten_cons, List.append_assoc]
    exact .insn h1 h2 (ih fun u hu => h u (by simp [hu]))

theorem program_singles {f : Str → Option Nat} {i : Nat} {o o' : Opts} {ts : List (Kind × Nat)} {ops : List Op} (h : Program f i o ts ops o')
    {us : List (List Kind)} (hu : ts.map Prod.fst = us.flatten) (hs : ∀ u ∈ us, Single u) :
    o' = o ∧ ops.length = us.length ∧ ∀ n u op, us[n]? = some u → ops[n]? = some op → InstrText ⟨f, addressOf (i + n)⟩ u op := by
  induction h generalizing us with
  | done =>
    cases us with
    | nil => simp
    | cons u us =>
      obtain ⟨k, v, rfl, -⟩ := hs _ List.mem_cons_self
      simp at hu
  | @insn i o o' ts rest op ops h _ ih =>
    obtain ⟨x, e, hx⟩ := instr_semicolon h
    cases us with
    | nil => rw [List.map_append, e] at hu; simp at hu
    | cons u us =>
      obtain ⟨k, v, rfl, h1, h2⟩ := hs _ List.mem_cons_self
      rw [List.map_append, e, List.flatten_cons, List.append_assoc, List.append_assoc] at hu
      obtain ⟨rfl, h3⟩ := cut_at hx h2 hu
      obtain ⟨h4, h5, h6⟩ := ih h3 fun u hu => hs u (by simp [hu])
      refine ⟨h4, by simp [h5], ?_⟩
      intro n u op' hu' ho
      cases n with
      | zero =>
        simp only [List.getElem?_cons_zero, Option.some.injEq] at hu' ho
        subst hu' ho
        rw [← e]
        exact h
      | succ n =>
        simp only [List.getElem?_cons_succ] at hu' ho
        have := h6 n u op' hu' ho
        rwa [show i + 1 + n = i + (n + 1) by omega] at this
  | @option i o o1 o' t next ts rest ops h hl _ ih =>
    exfalso
    obtain ⟨w, e, hw, -⟩ := OptionText.values h
    cases us with
    | nil => simp at hu
    | cons u us =>
      obtain ⟨k, v, rfl, h1, h2⟩ := hs _ List.mem_cons_self
      simp only [List.cons_append, List.map_cons, List.flatten_cons, List.cons.injEq] at hu
      exact h1 ⟨w, by rw [← hu.1, e], hw⟩

theorem singles_program {f : Str → Option Nat} {i : Nat} {o : Opts} {ts : List (Kind × Nat)} {ops : List Op} {us : List (List Kind)}
    (hu : ts.map Prod.fst = us.flatten) (hl : ops.length = us.length)
    (h : ∀ n u op, us[n]? = some u → ops[n]? = some op → InstrText ⟨f, addressOf (i + n)⟩ u op) : Program f i o ts ops o := by
  induction us generalizing i ts ops with
  | nil =>
    obtain rfl : ops = [] := List.length_eq_zero_iff.1 hl
    obtain rfl : ts = [] := by simpa using hu
    exact .done
  | cons u us ih =>
    cases ops with
    | nil => simp at hl
    | cons op ops =>
      rw [List.flatten_cons, List.map_eq_append_iff] at hu
      obtain ⟨t1, t2, rfl, rfl, h2⟩ := hu
      refine .insn (h 0 _ op rfl rfl) (ih h2 (by simpa using hl) fun n u op' hu ho => ?_)
      have := h (n + 1) u op' (by simpa using hu) (by simpa using ho)
      rwa [show i + (n + 1) = i + 1 + n by omega] at this

/-- The code of the instruction with these tokens. -/
noncomputable def code (f : Str → Option Nat) (i : Nat) (u : List Kind) : Option Op :=
  open Classical in if h : ∃ op, InstrText ⟨f, addressOf i⟩ u op then some h.choose else none

theorem code_iff {f : Str → Option Nat} {i : Nat} {u : List Kind} (hw : ∀ k ∈ u, Writable k) {op : Op} :
    code f i u = some op ↔ InstrText ⟨f, addressOf i⟩ u op := by
  unfold code
  split
  · rename_i h
    rw [Option.some.injEq]
    exact ⟨fun he => he ▸ h.choose_spec, fun h' => instr_unique h.choose_spec h' hw⟩
  · rename_i h
    refine ⟨fun he => ?_, fun h' => (h ⟨op, h'⟩).elim⟩
    cases he

theorem code_congr {f f' : Str → Option Nat} {i j : Nat} {u : List Kind} (hw : ∀ k ∈ u, Writable k)
    (h : ∀ op, InstrText ⟨f, addressOf i⟩ u op ↔ InstrText ⟨f', addressOf j⟩ u op) : code f i u = code f' j u := by
  apply Option.ext
  intro op
  rw [code_iff hw, code_iff hw, h]

/-- C110. There is one function that translates instructions, given by their tokens, their numbers in the source and the labels. A source of instructions is
    accepted if and only if the function is defined for all of them, and the output is their codes in groups. The function looks at number and labels for
    branches only, and for branches to labels only at the distances. -/
theorem C110_function : ∃ code : (Str → Option Nat) → Nat → List Kind → Option Op,
    (∀ (a : Str) (ts : List (Kind × Nat)) (us : List (List Kind)) (f : Str → Option Nat), Scans 0 (visible a) ts → IsLabelMap (visible a) f → ts.map Prod.fst = us.flatten → (∀ u ∈ us, Single u) → ∀ ws,
      assemble false a = .ok ws ↔ ∃ ops, us.mapIdx (fun n u => code f n u) = ops.map some ∧ ws = groups ops) ∧
    (∀ u, (∀ k ∈ u, Writable k) → (∀ m ∈ branches, .ident m ∉ u) → ∀ f f' i j, code f i u = code f' j u) ∧
    ∀ u, (∀ k ∈ u, Writable k) → ¬ NumericBranch u → ∀ f f' i j,
      (∀ s, (f s).map (fun a : Nat => (a : Int) - addressOf i) = (f' s).map fun a : Nat => (a : Int) - addressOf j) → code f i u = code f' j u := by
  refine ⟨code, ?_, ?_, ?_⟩
  · intro a ts us f sa la hu hs ws
    have hw : ∀ u ∈ us, ∀ k ∈ u, Writable k := by
      intro u hm k hk
      have : k ∈ ts.map Prod.fst := by
        rw [hu]
        exact List.mem_flatten.2 ⟨u, hm, hk⟩
      obtain ⟨t, ht, rfl⟩ := List.mem_map.1 this
      exact written_writable (sa.written (visible_no_nul a)) t ht
    have key : ∀ ops : List Op, us.mapIdx (fun n u => code f n u) = ops.map some ↔
        ops.length = us.length ∧ ∀ n u op, us[n]? = some u → ops[n]? = some op → InstrText ⟨f, addressOf (0 + n)⟩ u op := by
      intro ops
      constructor
      · intro h
        have hl := congrArg List.length h
        simp only [List.length_mapIdx, List.length_map] at hl
        refine ⟨hl.symm, fun n u op h1 h2 => ?_⟩
        have := congrArg (fun l => l[n]?) h
        simp only [List.getElem?_mapIdx, List.getElem?_map, h1, h2, Option.map_some, Option.some.injEq] at this
        rw [Nat.zero_add]
        exact (code_iff (hw u (List.mem_of_getElem? h1))).1 this
      · rintro ⟨hl, h⟩
        apply List.ext_getElem?
        intro n
        rw [List.getElem?_mapIdx, List.getElem?_map]
        cases h1 : us[n]? with
        | none =>
          rw [List.getElem?_eq_none_iff] at h1
          rw [List.getElem?_eq_none (by omega)]
          rfl
        | some u =>
          have h3 : n < ops.length := by
            obtain ⟨h3, -⟩ := List.getElem?_eq_some_iff.1 h1
            omega
          have h2 : ops[n]? = some ops[n] := List.getElem?_eq_getElem h3
          rw [h2]
          have := h n u _ h1 h2
          rw [Nat.zero_add] at this
          simp only [Option.map_some, Option.some.injEq]
          exact (code_iff (hw u (List.mem_of_getElem? h1))).2 this
    constructor
    · intro h
      obtain ⟨f', ts', ops, o, l1, s1, p1, i1⟩ := accepted h
      obtain rfl := scans_unique (visible_no_nul a) sa s1
      obtain rfl := IsLabelMap.unique la l1
      obtain ⟨rfl, h1⟩ := program_singles p1 hu hs
      refine ⟨ops, (key ops).2 h1, ?_⟩
      cases i1 with
      | raw => rfl
      | dksh hd => cases hd
    · rintro ⟨ops, h1, rfl⟩
      obtain ⟨h2, h3⟩ := (key ops).1 h1
      exact assemble_iff.2 ⟨f, ts, ops, {}, la, sa, singles_program hu h2 h3, .raw rfl (.inl rfl)⟩
  · intro u hw hb f f' i j
    exact code_congr hw fun op => ⟨instr_any hb, instr_any hb⟩
  · intro u hw hb f f' i j hd
    exact code_congr hw fun op => ⟨instr_env (e := ⟨f, addressOf i⟩) (e' := ⟨f', addressOf j⟩) (fun s => hd s) hb,
      instr_env (e := ⟨f', addressOf j⟩) (e' := ⟨f, addressOf i⟩) (fun s => (hd s).symm) hb⟩

/-- C110. Instructions of an accepted source that are no branches can be put in any order, repeated and left out. The code of each stays the same. -/
theorem C110_order {d : Bool} {a b : Str} {ws : List (BitVec 64)} {ta tb : List (Kind × Nat)} {us vs : List (List Kind)} {f g : Str → Option Nat}
    (h : assemble d a = .ok ws) (sa : Scans 0 (visible a) ta) (sb : Scans 0 (visible b) tb) (la : IsLabelMap (visible a) f) (lb : IsLabelMap (visible b) g)
    (hu : ta.map Prod.fst = us.flatten) (hv : tb.map Prod.fst = vs.flatten) (hs : ∀ u ∈ us, Single u) (hsub : ∀ v ∈ vs, v ∈ us)
    (hb : ∀ m ∈ branches, .ident m ∉ ta.map Prod.fst) :
    ∃ code : List Kind → Op, ws = groups (us.map code) ∧ assemble false b = .ok (groups (vs.map code)) := by
  obtain ⟨enc, h1, h2, -⟩ := C110_function
  have h' : assemble false a = .ok ws := by
    cases d with
    | false => exact h
    | true => exact C26_accepted h
  obtain ⟨ops, h3, rfl⟩ := (h1 a ta us f sa la hu hs ws).1 h'
  have hin : ∀ u ∈ us, ∀ k ∈ u, k ∈ ta.map Prod.fst := fun u hm k hk => by
    rw [hu]
    exact List.mem_flatten.2 ⟨u, hm, hk⟩
  have hfree : ∀ u ∈ us, ∀ f f' i j, enc f i u = enc f' j u := fun u hm => h2 u (fun k hk => by
    obtain ⟨t, ht, rfl⟩ := List.mem_map.1 (hin u hm k hk)
    exact written_writable (sa.written (visible_no_nul a)) t ht) fun m hm' hk => hb m hm' (hin u hm _ hk)
  have hdef : ∀ u ∈ us, ∃ op, enc f 0 u = some op := by
    intro u hm
    obtain ⟨n, hn, rfl⟩ := List.getElem_of_mem hm
    have := congrArg (fun l => l[n]?) h3
    simp only [List.getElem?_mapIdx, List.getElem?_map, List.getElem?_eq_getElem hn, Option.map_some] at this
    cases ho : ops[n]? with
    | none => rw [ho] at this; cases this
    | some op =>
      rw [ho] at this
      simp only [Option.map_some, Option.some.injEq] at this
      exact ⟨op, by rw [← this]; exact hfree _ hm _ _ _ _⟩
  have hcode : ∀ u ∈ us, ∀ f' i, enc f' i u = some ((enc f 0 u).getD ⟨0, 0, 0⟩) := by
    intro u hm f' i
    obtain ⟨op, ho⟩ := hdef u hm
    rw [hfree u hm f' f i 0, ho]
    rfl
  have hall : ∀ (f' : Str → Option Nat) (l : List (List Kind)), (∀ u ∈ l, u ∈ us) →
      l.mapIdx (fun n u => enc f' n u) = (l.map fun u => (enc f 0 u).getD ⟨0, 0, 0⟩).map some := by
    intro f' l hl
    apply List.ext_getElem?
    intro n
    rw [List.getElem?_mapIdx, List.getElem?_map, List.getElem?_map]
    cases hn : l[n]? with
    | none => rfl
    | some u => exact congrArg some (hcode u (hl u (List.mem_of_getElem? hn)) f' n)
  refine ⟨fun u => (enc f 0 u).getD ⟨0, 0, 0⟩, ?_, ?_⟩
  · rw [hall f us fun _ h => h] at h3
    rw [List.map_injective_iff.2 (Option.some_injective _) h3]
  · exact (h1 b tb vs g sb lb hv (fun v hm => hs v (hsub v hm)) _).2 ⟨_, hall g vs hsub, rfl⟩

/-- C110. The build with assertions accepts the other source too, if it has no more semicolons than instructions. -/
theorem C110_debug {a b : Str} {ws : List (BitVec 64)} {ta tb : List (Kind × Nat)} {us vs : List (List Kind)} {f g : Str → Option Nat}
    (h : assemble true a = .ok ws) (sa : Scans 0 (visible a) ta) (sb : Scans 0 (visible b) tb) (la : IsLabelMap (visible a) f) (lb : IsLabelMap (visible b) g)
    (hu : ta.map Prod.fst = us.flatten) (hv : tb.map Prod.fst = vs.flatten) (hs : ∀ u ∈ us, Single u) (hsub : ∀ v ∈ vs, v ∈ us)
    (hb : ∀ m ∈ branches, .ident m ∉ ta.map Prod.fst) (hn : b.count ';' = vs.length) :
    ∃ code : List Kind → Op, ws = groups (us.map code) ∧ assemble true b = .ok (groups (vs.map code)) := by
  obtain ⟨code, h1, h2⟩ := C110_order h sa sb la lb hu hv hs hsub hb
  refine ⟨code, h1, ?_⟩
  have ha : Splits (ta.map Prod.fst) us := hu ▸ singles_splits hs
  have hbs : Splits (tb.map Prod.fst) vs := hv ▸ singles_splits fun v hm => hs v (hsub v hm)
  obtain ⟨-, -, h3⟩ := (C102_debug sa ha ws).1 h
  exact (C102_debug sb hbs _).2 ⟨h2, hn.symm, fun v hm => h3 v (hsub v hm)⟩

/-- `FADD R0, R1.reuse, R2;` -/
def Spec.fadd : List Kind := [.ident c!"FADD", .reg 0, .comma, .reg 1, .ident c!".reuse", .comma, .reg 2, .semicolon]

/-- `@P0 MOV R3, R0;` -/
def Spec.mov : List Kind := [.at, .pred 0 false, .ident c!"MOV", .reg 3, .comma, .reg 0, .semicolon]

/-- Two instructions, and the same two the other way round, one of them twice. -/
theorem C110_case : assemble true c!"FADD R0, R1.reuse, R2;\n@P0 MOV R3, R0;" =
      .ok [0x001f8000fc0207e0, 0x5c58000000270100, 0x5c98078000000003, 0x50b0000000070f00] ∧
    ∃ ta tb f g, Scans 0 (visible c!"FADD R0, R1.reuse, R2;\n@P0 MOV R3, R0;") ta ∧
      Scans 0 (visible c!"@P0 MOV R3, R0;\nFADD R0, R1.reuse, R2;@P0 MOV R3, R0;") tb ∧
      IsLabelMap (visible c!"FADD R0, R1.reuse, R2;\n@P0 MOV R3, R0;") f ∧
      IsLabelMap (visible c!"@P0 MOV R3, R0;\nFADD R0, R1.reuse, R2;@P0 MOV R3, R0;") g ∧
      ta.map Prod.fst = [fadd, mov].flatten ∧ tb.map Prod.fst = [mov, fadd, mov].flatten ∧ (∀ u ∈ [fadd, mov], Single u) ∧
      ∀ m ∈ branches, .ident m ∉ ta.map Prod.fst := by
  refine ⟨by decide +kernel, (fadd.map fun k => (k, 0)) ++ mov.map fun k => (k, 1),
    (mov.map fun k => (k, 0)) ++ (fadd.map fun k => (k, 1)) ++ mov.map fun k => (k, 1), Labels.find [], Labels.find [],
    lexAll_scans (n := 60) (by decide) (by decide +kernel), lexAll_scans (n := 60) (by decide) (by decide +kernel),
    fun name a => genLabels_find (by decide +kernel) name a, fun name a => genLabels_find (by decide +kernel) name a, by decide, by decide, ?_, by decide⟩
  intro u hu
  simp only [List.mem_cons, List.not_mem_nil, or_false] at hu
  rcases hu with rfl | rfl
  · exact ⟨.ident c!"FADD", [.reg 0, .comma, .reg 1, .ident c!".reuse", .comma, .reg 2], rfl, by rintro ⟨w, h, hw⟩; cases h; simp at hw, by decide⟩
  · exact ⟨.at, [.pred 0 false, .ident c!"MOV", .reg 3, .comma, .reg 0], rfl, (by rintro ⟨w, h, hw⟩; cases h), by decide⟩

example : ∃ code : List Kind → Op, [0x001f8000fc0207e0, 0x5c58000000270100, 0x5c98078000000003, 0x50b0000000070f00] = groups [code fadd, code mov] ∧
    assemble true c!"@P0 MOV R3, R0;\nFADD R0, R1.reuse, R2;@P0 MOV R3, R0;" = .ok (groups [code mov, code fadd, code mov]) := by
  obtain ⟨h, ta, tb, f, g, sa, sb, la, lb, hu, hv, hs, hb⟩ := C110_case
  exact C110_debug h sa sb la lb hu hv hs (by simp) hb (by decide +kernel)

/-- Branches to numbers depend on where they are. -/
theorem C110_branch : assemble true c!"BRA 8;NOP;" = .ok [0x001f8000fc0007e0, 0xe2400fffff87000f, 0x50b0000000070f00, 0x50b0000000070f00] ∧
    assemble true c!"NOP;BRA 8;" = .ok [0x001f8000fc0007e0, 0x50b0000000070f00, 0xe2400fffff07000f, 0x50b0000000070f00] := by
  refine ⟨by decide +kernel, by decide +kernel⟩

end Nxas
