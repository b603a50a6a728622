import Verif.Lemmas.Program
/-
`parse_instruction` up to the mnemonic, and what becomes of the whole run when an instruction is rejected.
-/

namespace Nxas

open Spec

/-- The parser, called in the context `c`, arrives at a mnemonic in the state `s`: the options have been parsed
    and the guard has been stored. -/
structure AtMnemonic (dbg : Bool) (c : Ctx) (s : St) : Prop where
  steps : ∃ s1 s2, advance dbg c.fresh = .ok () s1 ∧ s1.tok.kind ≠ .none ∧
    parseOptions (s1.ctx.cur.text.length + 2) dbg s1 = .ok () s2 ∧ parsePrologue dbg s2 = .ok () s

/-- What is done at a mnemonic. -/
theorem AtMnemonic.parse {dbg : Bool} {c : Ctx} {s : St} (h : AtMnemonic dbg c s) (table : List Insn) :
    parseInstruction table dbg c.fresh = (tryRows s.tok s table none dbg s).bind fun _ s' => .ok true s' := by
  obtain ⟨s1, s2, h1, h2, h3, h4⟩ := h.steps
  rw [parseInstruction_eq, h1]
  dsimp only [Out.bind]
  rw [if_neg h2, insnBody, h3]
  dsimp only [Out.bind]
  rw [h4]

theorem InsnSteps.mnemonic {table : List Insn} {dbg : Bool} {c : Ctx} {s : St} (st : InsnSteps table dbg c.fresh s) :
    AtMnemonic dbg c st.s3 :=
  ⟨st.s1, st.s2, st.first, st.notEnd, st.options, by rw [parsePrologue_eq]; exact st.prologue⟩

theorem Before.framed {dbg : Bool} {code : Str} {i : Nat} {c : Ctx} (h : Before dbg code i c) :
    ∃ pre, visible code = pre ++ c.cur.text ∧ i ≤ pre.count ';' := by
  cases h with
  | first hl => exact ⟨[], rfl, by simp⟩
  | next h =>
    obtain ⟨pre, h1, -, h2, -⟩ := h.text
    obtain ⟨p, hp⟩ := h.ends
    refine ⟨pre ++ (p ++ [';']), by rw [h1, hp]; simp, ?_⟩
    rw [List.count_append, List.count_append, List.count_singleton_self]; omega

/-- The result of the whole, if the parser fails at some instruction. -/
def Out.ended : Out Bool → Option (Res (List (BitVec 64)))
  | .ok .. => none
  | .fail e _ => some (.exit (.located e))
  | .exit e => some (.exit (.located e))
  | .abort => some .abort
  | .ub u => some (.ub u)

/-- The parse loop up to the `i`-th instruction. -/
theorem Before.loop {dbg : Bool} {code : Str} {i : Nat} {c : Ctx} (h : Before dbg code i c) :
    ∃ labels ops, genLabels (visible code) = .ok labels ∧ ops.length = i ∧ ∀ room,
      parseAll insnTable dbg (i + room) ⟨⟨visible code, 0, 0⟩, labels, 0, {}⟩ =
        (match parseAll insnTable dbg room c with
        | .ok (ops', c') => .ok (ops ++ ops', c')
        | r => r) := by
  have aux : ∀ {i : Nat} {c : Ctx} {s : St}, InstrAt dbg code i c s → ∃ labels ops,
      genLabels (visible code) = .ok labels ∧ ops.length = i + 1 ∧ ∀ room,
      parseAll insnTable dbg (i + 1 + room) ⟨⟨visible code, 0, 0⟩, labels, 0, {}⟩ =
        (match parseAll insnTable dbg room s.ctx with
        | .ok (ops', c') => .ok (ops ++ ops', c')
        | r => r) := by
    intro i c s h
    induction h with
    | @first labels s hl h =>
      refine ⟨labels, [s.op], hl, rfl, fun room => ?_⟩
      rw [show 0 + 1 + room = room + 1 from by omega, parseAll]
      unfold Ctx.fresh at h
      rw [h]
      dsimp only
      cases parseAll insnTable dbg room s.ctx <;> rfl
    | @next i c s s' h h' ih =>
      obtain ⟨labels, ops, h1, h2, h3⟩ := ih
      refine ⟨labels, ops ++ [s'.op], h1, by simp [h2], fun room => ?_⟩
      rw [show i + 1 + 1 + room = i + 1 + (room + 1) from by omega, h3, parseAll]
      unfold Ctx.fresh at h'
      rw [h']
      dsimp only
      cases parseAll insnTable dbg room s'.ctx with
      | ok p => obtain ⟨a, b⟩ := p; simp
      | _ => rfl
  cases h with
  | @first labels hl =>
    refine ⟨labels, [], hl, rfl, fun room => ?_⟩
    rw [Nat.zero_add]
    cases parseAll insnTable dbg room ⟨⟨visible code, 0, 0⟩, labels, 0, {}⟩ <;> rfl
  | next h => exact aux h

/-- If an instruction is not accepted, the run ends there. -/
theorem Before.ended {dbg : Bool} {code : Str} {i : Nat} {c : Ctx} (h : Before dbg code i c)
    {r : Res (List (BitVec 64))} (hr : (parseInstruction insnTable dbg c.fresh).ended = some r) :
    assemble dbg code = r := by
  obtain ⟨labels, ops, h1, -, h2⟩ := h.loop
  obtain ⟨pre, h3, h4⟩ := h.framed
  have hle : i ≤ countSemicolons code := by
    have h5 : (visible code).count ';' ≤ code.count ';' := (List.takeWhile_sublist _).count_le _
    have h6 : i ≤ (visible code).count ';' := by rw [h3, List.count_append]; omega
    exact Nat.le_trans h6 h5
  obtain ⟨room, hroom⟩ : ∃ room, countSemicolons code + 1 = i + (room + 1) := ⟨countSemicolons code - i, by omega⟩
  unfold assemble assembleWith
  change (match genLabels (visible code) with
    | .error u => Res.ub u
    | .ok labels => _) = _
  rw [h1]
  dsimp only
  rw [hroom]
  change (match parseAll insnTable dbg (i + (room + 1)) ⟨⟨visible code, 0, 0⟩, labels, 0, {}⟩ with
    | .ok (ops, c) => _
    | .exit d => _
    | .abort => _
    | .ub u => _) = _
  rw [h2, parseAll]
  unfold Ctx.fresh at hr
  cases hp : parseInstruction insnTable dbg ⟨c, ⟨.none, 0, 0⟩, {}⟩ with
  | ok b s => rw [hp] at hr; simp [Out.ended] at hr
  | _ => rw [hp] at hr; simp only [Out.ended, Option.some.injEq] at hr; subst hr; rfl

end Nxas
