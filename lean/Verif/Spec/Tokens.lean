import Verif.Model.Parse
/-
Sequences of tokens.  The source of an instruction is described by the classes and payloads of its
tokens; positions are left out.
-/

namespace Nxas.Spec

/-- Reading tokens from the cursor `c` gives the tokens `ks` and leaves the cursor `c'`. -/
inductive Reads : Cur → List Kind → Cur → Prop
  | nil {c : Cur} : Reads c [] c
  | cons {c c1 c' : Cur} {t : Token} {ks : List Kind} (h : tokenize c = .ok t c1) (hr : Reads c1 ks c') :
      Reads c (t.kind :: ks) c'

/-- The same with one token of lookahead: `k` has already been read when the cursor is at `c`; the
    tokens `ks`, of which `k` is the first, are consumed; then `k'` has been read and the cursor is at
    `c'`. -/
inductive Toks : Kind → Cur → List Kind → Kind → Cur → Prop
  | nil {k : Kind} {c : Cur} : Toks k c [] k c
  | cons {k k' : Kind} {c c1 c' : Cur} {t : Token} {ks : List Kind} (h : tokenize c = .ok t c1)
      (hr : Toks t.kind c1 ks k' c') : Toks k c (k :: ks) k' c'

/-- The tokens of a guard predicate: none, or `@`, index and negation. -/
def guardTokens : Option (Nat × Bool) → List Kind
  | none => []
  | some (p, n) => [.at, .pred p n]

/-- Bits 16 to 19 of an instruction with this guard; without guard the index is 7 (`PT`). -/
def guardBits : Option (Nat × Bool) → BitVec 4
  | none => 7
  | some (p, n) => BitVec.ofNat 4 (p + if n then 8 else 0)

end Nxas.Spec
