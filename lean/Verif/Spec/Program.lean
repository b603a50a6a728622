import Verif.Model.Assemble
import Verif.Spec.Text
/-
The instructions of a source, one after the other.
-/

namespace Nxas

open Spec

/-- The state in which `parse_instruction` is called. -/
def Ctx.fresh (c : Ctx) : St := ⟨c, ⟨.none, 0, 0⟩, {}⟩

/-- The `i`-th instruction (from 0) of a source is parsed from the context `c` and leaves the state `s`;
    its word is `s.op.value`. -/
inductive InstrAt (dbg : Bool) (code : Str) : Nat → Ctx → St → Prop
  | first {labels : Labels} {s : St} (hl : genLabels (visible code) = .ok labels)
      (h : parseInstruction insnTable dbg (Ctx.fresh ⟨⟨visible code, 0, 0⟩, labels, 0, {}⟩) = .ok true s) :
      InstrAt dbg code 0 ⟨⟨visible code, 0, 0⟩, labels, 0, {}⟩ s
  | next {i : Nat} {c : Ctx} {s s' : St} (h : InstrAt dbg code i c s)
      (h' : parseInstruction insnTable dbg s.ctx.fresh = .ok true s') : InstrAt dbg code (i + 1) s.ctx s'

/-- The context in which the `i`-th instruction (from 0) of a source is parsed, if all before it are accepted. -/
inductive Before (dbg : Bool) (code : Str) : Nat → Ctx → Prop
  | first {labels : Labels} (hl : genLabels (visible code) = .ok labels) :
      Before dbg code 0 ⟨⟨visible code, 0, 0⟩, labels, 0, {}⟩
  | next {i : Nat} {c : Ctx} {s : St} (h : InstrAt dbg code i c s) : Before dbg code (i + 1) s.ctx

end Nxas
