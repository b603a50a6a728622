import Verif.Lemmas.Trade
import Verif.Lemmas.Places
import Verif.Props.Placid
import Verif.Lemmas.TradeClash
import Verif.Props.Solid
/-
C109: predicates can be renamed.
-/

namespace Nxas

open Spec

/-- The tokens of a source with the predicates renamed. -/
def Spec.tradeAll (f : Nat → Nat) (ts : List (Kind × Nat)) : List (Kind × Nat) := ts.map fun t => (traded f t.1, t.2)

theorem option_trade {f : Nat → Nat} {o o' : Opts} {ts : List (Kind × Nat)} (h : OptionText o ts o') : tradeAll f ts = ts := by
  cases h <;> rfl

theorem option_nopreds {o o' : Opts} {ts : List (Kind × Nat)} (h : OptionText o ts o') : predsOf (ts.map Prod.fst) = [] := by
  cases h <;> rfl

theorem program_trade {f : Nat → Nat} (hf : Trade f) {lab : Str → Option Nat} {i : Nat} {o o' : Opts} {ts : List (Kind × Nat)} {ops : List Op}
    (h : Program lab i o ts ops o') (hw : ∀ t ∈ ts, Writable t.1) :
    ∃ ops', Program lab i o (tradeAll f ts) ops' o' ∧ AlikeAll predicates f True (predsOf (ts.map Prod.fst)) ops ops' := by
  induction h with
  | done => exact ⟨[], .done, .nil⟩
  | @insn i o o' ts rest op ops h _ ih =>
    obtain ⟨ops', h1, h2⟩ := ih (fun t ht => hw t (by simp [ht]))
    obtain ⟨op', h3, h4, h5, h6⟩ := instr_trade hf h (by
      intro x hx
      obtain ⟨t, ht, rfl⟩ := List.mem_map.1 hx
      exact hw t (by simp [ht]))
    refine ⟨op' :: ops', ?_, ?_⟩
    · rw [tradeAll, List.map_append]
      refine .insn ?_ h1
      rwa [List.map_map] at h3 ⊢
    · rw [List.map_append, predsOf_append]
      exact .cons ⟨h4, h5, fun _ => h6⟩ h2
  | @option i o o1 o' t next ts rest ops h hl _ ih =>
    obtain ⟨ops', h1, h2⟩ := ih (fun t ht => hw t (by
      simp only [List.cons_append, List.mem_cons, List.mem_append] at ht ⊢
      tauto))
    have h5 : predsOf ((t :: ts ++ next :: rest).map Prod.fst) = predsOf ((next :: rest).map Prod.fst) := by
      rw [List.map_append, predsOf_append, option_nopreds h]
      rfl
    rw [h5]
    refine ⟨ops', ?_, h2⟩
    have h3 := option_trade (f := f) h
    have h4 : tradeAll f (t :: ts ++ next :: rest) = t :: ts ++ (traded f next.1, next.2) :: tradeAll f rest := by
      conv_rhs => rw [← h3]
      simp only [tradeAll, List.map_append, List.map_cons]
    rw [h4]
    exact .option h hl h1

/-- C109. A source with its predicates renamed is accepted, by the build without assertions. The output has the same size and the same control words. The
    output holds the predicates of the source in turn, the output for the other source holds the renamed predicates at the same places, and all other bits are
    the same. -/
theorem C109_rename {f : Nat → Nat} (hf : Trade f) {d : Bool} {a b : Str} {ws : List (BitVec 64)} {ts : List (Kind × Nat)} {lab : Str → Option Nat}
    (h : assemble d a = .ok ws) (sa : Scans 0 (visible a) ts) (sb : Scans 0 (visible b) (tradeAll f ts)) (la : IsLabelMap (visible a) lab)
    (lb : IsLabelMap (visible b) lab) :
    ∃ ws', assemble false b = .ok ws' ∧ ws'.length = ws.length ∧ (∀ i, i % 4 = 0 → ws'[i]? = ws[i]?) ∧
      predicates.Image f (predsOf (ts.map Prod.fst)) ws ws' := by
  obtain ⟨lab', ts', ops, o, l1, s1, p1, i1⟩ := accepted h
  obtain rfl := scans_unique (visible_no_nul a) sa s1
  obtain rfl := IsLabelMap.unique la l1
  obtain ⟨ops', p2, hall⟩ := program_trade hf p1 (written_writable (sa.written (visible_no_nul a)))
  obtain ⟨ws', i2, h1, h2, h3⟩ := image_alike hall i1
  exact ⟨ws', assemble_iff.2 ⟨lab, _, ops', o, lb, sb, p2, i2⟩, h1, h2, h3 trivial⟩

theorem tradeAll_back {f g : Nat → Nat} (hg : ∀ n ≤ 7, g (f n) = n) {ts : List (Kind × Nat)} (hw : ∀ t ∈ ts, Writable t.1) :
    tradeAll g (tradeAll f ts) = ts := by
  unfold tradeAll
  rw [List.map_map]
  conv_rhs => rw [← List.map_id ts]
  apply List.map_congr_left
  intro t ht
  obtain ⟨k, l⟩ := t
  have := hw _ ht
  cases k with
  | pred n s => simp only [Function.comp_apply, traded, id_eq, hg n this]
  | _ => rfl

/-- C109. If the renaming can be undone, one source is accepted if and only if the other one is. -/
theorem C109_accepted {f g : Nat → Nat} (hf : Trade f) (hg : Trade g) (hgf : ∀ n ≤ 7, g (f n) = n) {a b : Str} {ts : List (Kind × Nat)}
    {lab : Str → Option Nat} (sa : Scans 0 (visible a) ts) (sb : Scans 0 (visible b) (tradeAll f ts)) (la : IsLabelMap (visible a) lab)
    (lb : IsLabelMap (visible b) lab) : (∃ ws, assemble false a = .ok ws) ↔ ∃ ws, assemble false b = .ok ws := by
  constructor
  · rintro ⟨ws, h⟩
    obtain ⟨ws', h', -⟩ := C109_rename hf h sa sb la lb
    exact ⟨ws', h'⟩
  · rintro ⟨ws, h⟩
    obtain ⟨ws', h', -⟩ := C109_rename hg h sb (by rwa [tradeAll_back hgf (written_writable (sa.written (visible_no_nul a)))]) lb la
    exact ⟨ws', h'⟩

/-- C109. If the renaming can be undone, the other source is accepted by the build with assertions as well. That build counts the semicolons of the whole
    source, comments and all, so both must have as many. -/
theorem C109_debug {f g : Nat → Nat} (hf : Trade f) (hg : Trade g) (hgf : ∀ n ≤ 7, g (f n) = n) {a b : Str} {ws : List (BitVec 64)}
    {ts : List (Kind × Nat)} {lab : Str → Option Nat} (h : assemble true a = .ok ws) (sa : Scans 0 (visible a) ts)
    (sb : Scans 0 (visible b) (tradeAll f ts)) (la : IsLabelMap (visible a) lab) (lb : IsLabelMap (visible b) lab) (hn : a.count ';' = b.count ';') :
    ∃ ws', assemble true b = .ok ws' ∧ predicates.Image f (predsOf (ts.map Prod.fst)) ws ws' := by
  obtain ⟨ws', h1, -, -, h2⟩ := C109_rename hf h sa sb la lb
  obtain ⟨us, hu, -⟩ := C102_splits h sa
  obtain ⟨-, h3, h4⟩ := (C102_debug sa hu ws).1 h
  have hw := written_writable (sa.written (visible_no_nul a))
  have hu' : Splits ((tradeAll f ts).map Prod.fst) (us.map fun u => u.map (traded f)) := by
    have := splits_trade (f := f) hu
    rw [List.map_map] at this
    rwa [tradeAll, List.map_map]
  refine ⟨ws', (C102_debug sb hu' ws').2 ⟨h1, by rw [List.length_map, h3, hn], ?_⟩, h2⟩
  intro u' hm hun
  obtain ⟨u, hmu, rfl⟩ := List.mem_map.1 hm
  have hwu : ∀ x ∈ u, Writable x := by
    intro x hx
    obtain ⟨t, ht, rfl⟩ := List.mem_map.1 (splits_mem hu u hmu x hx)
    exact hw t ht
  refine h4 u hmu ?_
  have := unsound_trade hg (fun x hx => by
    obtain ⟨y, hy, rfl⟩ := List.mem_map.1 hx
    exact writable_traded hf (hwu y hy)) hun
  rwa [map_traded_back hgf hwu] at this

/-- `P0`, `P1` and `P2` changed round. -/
def Spec.turned (n : Nat) : Nat := if n = 0 then 1 else if n = 1 then 2 else if n = 2 then 0 else n

/-- The renaming that undoes `turned`. -/
def Spec.unturned (n : Nat) : Nat := if n = 0 then 2 else if n = 1 then 0 else if n = 2 then 1 else n

theorem unturned_trade : Trade unturned := by
  constructor
  · decide
  · decide

theorem turned_trade : Trade turned := by
  constructor
  · decide
  · decide

/-- Some predicates as guards, results and arguments, and the one of `LDG`, which is stored in another way. -/
theorem C109_case : assemble true c!"@!P1 ISETP.LT.AND P0, PT, R0, R1, !P2;\nLDG P1, R4, [R0+0x10];\n@P0 PSETP.AND.AND P1, P0, P2, !P1, PT;" =
      .ok [0x001f8000fc0007e0, 0x5b63050000190007, 0xeecc0c0001070004, 0x5090038120002008] ∧
    ∃ ts lab, Scans 0 (visible c!"@!P1 ISETP.LT.AND P0, PT, R0, R1, !P2;\nLDG P1, R4, [R0+0x10];\n@P0 PSETP.AND.AND P1, P0, P2, !P1, PT;") ts ∧
      Scans 0 (visible c!"@!P2 ISETP.LT.AND P1, PT, R0, R1, !P0;\nLDG P2, R4, [R0+0x10];\n@P1 PSETP.AND.AND P2, P1, P0, !P2, PT;") (tradeAll turned ts) ∧
      IsLabelMap (visible c!"@!P1 ISETP.LT.AND P0, PT, R0, R1, !P2;\nLDG P1, R4, [R0+0x10];\n@P0 PSETP.AND.AND P1, P0, P2, !P1, PT;") lab ∧
      IsLabelMap (visible c!"@!P2 ISETP.LT.AND P1, PT, R0, R1, !P0;\nLDG P2, R4, [R0+0x10];\n@P1 PSETP.AND.AND P2, P1, P0, !P2, PT;") lab ∧
      predsOf (ts.map Prod.fst) = [1, 0, 7, 2, 1, 0, 1, 0, 2, 1, 7] := by
  refine ⟨by decide +kernel, [(.at, 0), (.pred 1 true, 0), (.ident c!"ISETP", 0), (.ident c!".LT", 0), (.ident c!".AND", 0), (.pred 0 false, 0), (.comma, 0),
    (.pred 7 false, 0), (.comma, 0), (.reg 0, 0), (.comma, 0), (.reg 1, 0), (.comma, 0), (.pred 2 true, 0), (.semicolon, 0), (.ident c!"LDG", 1),
    (.pred 1 false, 1), (.comma, 1), (.reg 4, 1), (.comma, 1), (.lbracket, 1), (.reg 0, 1), (.imm 16, 1), (.rbracket, 1), (.semicolon, 1), (.at, 2),
    (.pred 0 false, 2), (.ident c!"PSETP", 2), (.ident c!".AND", 2), (.ident c!".AND", 2), (.pred 1 false, 2), (.comma, 2), (.pred 0 false, 2), (.comma, 2),
    (.pred 2 false, 2), (.comma, 2), (.pred 1 true, 2), (.comma, 2), (.pred 7 false, 2), (.semicolon, 2)], Labels.find [],
    lexAll_scans (n := 60) (by decide) (by decide +kernel), lexAll_scans (n := 60) (by decide) (by decide +kernel),
    fun name a => genLabels_find (by decide +kernel) name a, fun name a => genLabels_find (by decide +kernel) name a, by decide⟩

example : ∃ ws, assemble false c!"@!P2 ISETP.LT.AND P1, PT, R0, R1, !P0;\nLDG P2, R4, [R0+0x10];\n@P1 PSETP.AND.AND P2, P1, P0, !P2, PT;" = .ok ws ∧
    predicates.Image turned [1, 0, 7, 2, 1, 0, 1, 0, 2, 1, 7] [0x001f8000fc0007e0, 0x5b63050000190007, 0xeecc0c0001070004, 0x5090038120002008] ws := by
  obtain ⟨h, ts, lab, sa, sb, la, lb, hp⟩ := C109_case
  obtain ⟨ws, h1, -, -, h2⟩ := C109_rename turned_trade h sa sb la lb
  exact ⟨ws, h1, hp ▸ h2⟩

example : ∃ ws, assemble true c!"@!P2 ISETP.LT.AND P1, PT, R0, R1, !P0;\nLDG P2, R4, [R0+0x10];\n@P1 PSETP.AND.AND P2, P1, P0, !P2, PT;" = .ok ws ∧
    predicates.Image turned [1, 0, 7, 2, 1, 0, 1, 0, 2, 1, 7] [0x001f8000fc0007e0, 0x5b63050000190007, 0xeecc0c0001070004, 0x5090038120002008] ws := by
  obtain ⟨h, ts, lab, sa, sb, la, lb, hp⟩ := C109_case
  obtain ⟨ws, h1, h2⟩ := C109_debug turned_trade unturned_trade (by decide) h sa sb la lb (by decide +kernel)
  exact ⟨ws, h1, hp ▸ h2⟩

/-- The constant predicate cannot be renamed: `PBK` has no other guard. -/
example : (∃ ws, assemble false c!"@PT PBK L;\nL:\nNOP;" = .ok ws) ∧ ¬ ∃ ws, assemble false c!"@P0 PBK L;\nL:\nNOP;" = .ok ws := by
  constructor
  · exact ⟨[0x001f8000fc0007e0, 0xe2a0000000070000, 0x50b0000000070f00, 0x50b0000000070f00], by decide +kernel⟩
  · rintro ⟨ws, h⟩
    have : (match assemble false c!"@P0 PBK L;\nL:\nNOP;" with | .ok _ => false | _ => true) = true := by decide +kernel
    rw [h] at this
    cases this

end Nxas
