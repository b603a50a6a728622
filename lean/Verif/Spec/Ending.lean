import Verif.Spec.Undefined
/-
The sources on which the assembler reads beyond the end of the text: texts whose last word is cut off where the lexer
has to look at one more character, and after whose tokens the parser asks for another one.
-/

namespace Nxas.Spec

open Nxas

/-- The operand that an operand reads like.  A register that repeats another one is compared with it only after the
    next token has been read. -/
def readsLike : Operand → Operand
  | .mirrorGpr a => .gpr a
  | o => o

/-- The tokens `ks` are the beginning, or all, of what an operand accepts. -/
def Opening (e : Env) (v : BitVec 64) (o : Operand) (ks : List Kind) : Prop :=
  ∃ rest k b r, Accepts e v (readsLike o) (ks ++ rest) k b r

/-- The beginning of an annotation after the annotations `as`.  The number of a barrier is compared with those before
    only after it has been read. -/
inductive AnnotOpen (as : List Annot) : List Kind → Prop
  | start : AnnotOpen as [.at]
  | dep : AnnotOpen as [.at, .ident c!"DEP"]
  | more {a : Annot} {ks rest : List Kind} (h : a.Text (.at :: ks ++ rest)) (hc : ∀ a' ∈ as, a'.clash a = false) :
      AnnotOpen as (.at :: ks)

/-- The tokens after a mnemonic that make a row ask for another one: none; or the first operands and the beginning of
    the next one; or all operands, annotations and the beginning of another one. -/
inductive RowOpen (e : Env) (row : Insn) (g : Option (Nat × Bool)) : List Kind → Prop
  | bare : RowOpen e row g []
  | operand {os os' : List Operand} {o : Operand} {ks ks' : List Kind} {k : Kind} {v : BitVec 64} {r : BitVec 32}
      (hg : row.flags % 2 = 1 → ∀ p n, g = some (p, n) → p = 7) (hs : row.operands = os ++ o :: os')
      (ho : Sequence e os (field 16 (guardBits g).toNat ||| row.opcode) ks k v r) (h : Opening e v o (k :: ks')) :
      RowOpen e row g (ks ++ k :: ks')
  | annots {ks ks1 ks2 : List Kind} {v : BitVec 64} {r : BitVec 32} {as : List Annot}
      (hg : row.flags % 2 = 1 → ∀ p n, g = some (p, n) → p = 7)
      (ho : Sequence e row.operands (field 16 (guardBits g).toNat ||| row.opcode) ks .at v r)
      (ha : AnnotsText as ks1) (h : AnnotOpen as ks2) : RowOpen e row g (ks ++ (ks1 ++ ks2))

/-- The tokens of an instruction after which another one is asked for. -/
inductive InsnOpen (e : Env) : List Kind → Prop
  | at : InsnOpen e [.at]
  | guard {p : Nat} {n : Bool} : InsnOpen e [.at, .pred p n]
  | row {g : Option (Nat × Bool)} {row : Insn} {ks : List Kind} (hr : row ∈ insnTable) (h : RowOpen e row g ks) :
      InsnOpen e (guardTokens g ++ .ident row.mnemonic :: ks)

/-- The tokens of an option after which another one is asked for.  After a whole option, too, the next token is
    read, to see its line. -/
inductive OptionOpen (o : Opts) : List (Kind × Nat) → Prop
  | full {ts : List (Kind × Nat)} {o1 : Opts} (h : OptionText o ts o1) : OptionOpen o ts
  | type {name : Str} {l : Nat} (hn : name = c!".dksh" ∨ name = c!".type") (ht : o.type = none) :
      OptionOpen o [(.ident name, l)]
  | registers {l : Nat} : OptionOpen o [(.ident c!".num_gprs", l)]
  | workgroup {l : Nat} {ts : List (Kind × Nat)} (hn : ts.length ≤ 2) (h : ∀ t ∈ ts, ∃ x, t.1 = .imm x) :
      OptionOpen o ((.ident c!".workgroup_size", l) :: ts)
  | memory {name : Str} {l : Nat} (hn : name = c!".shared_memory" ∨ name = c!".local_memory") :
      OptionOpen o [(.ident name, l)]

/-- The tokens of a source after which another one is asked for. -/
inductive Demands (lab : Str → Option Nat) : Nat → Opts → List (Kind × Nat) → Prop
  | start {i : Nat} {o : Opts} : Demands lab i o []
  | here {i : Nat} {o : Opts} {ts : List (Kind × Nat)} (h : InsnOpen ⟨lab, addressOf i⟩ (ts.map Prod.fst)) : Demands lab i o ts
  | setting {i : Nat} {o : Opts} {ts : List (Kind × Nat)} (h : OptionOpen o ts) : Demands lab i o ts
  | insn {i : Nat} {o : Opts} {ts rest : List (Kind × Nat)} {op : Op}
      (h : InstrText ⟨lab, addressOf i⟩ (ts.map Prod.fst) op) (hr : Demands lab (i + 1) o rest) :
      Demands lab i o (ts ++ rest)
  | option {i : Nat} {o o1 : Opts} {t next : Kind × Nat} {ts rest : List (Kind × Nat)}
      (h : OptionText o (t :: ts) o1) (hl : next.2 ≠ t.2) (hr : Demands lab i o1 (next :: rest)) :
      Demands lab i o (t :: ts ++ next :: rest)

/-- `Breaks l t ts`: the text `t`, which begins in line `l`, consists of the tokens `ts`, and after them there is
    nothing but the beginning of a predicate without a name. -/
inductive Breaks : Nat → Str → List (Kind × Nat) → Prop
  | last {l : Nat} {s w : Str} (hs : Skipped s w) (hw : w ∈ [c!"P", c!"p", c!"!P", c!"!p"]) : Breaks l (s ++ w) []
  | token {l : Nat} {s w rest : Str} {k : Kind} {ts : List (Kind × Nat)} (hs : Skipped s (w ++ rest)) (hw : Lexeme w rest k)
      (h : Breaks (l + lineAfter (s ++ w)) rest ts) : Breaks l (s ++ w ++ rest) ((k, l + lineAfter s) :: ts)

/-- The text `t` makes the assembler read beyond its end: in the search for labels, or in reading tokens. -/
inductive PastEnd (t : Str) : Prop
  | labels (h : LastLineIsWord t)
  | reading {lab : Str → Option Nat} {ts : List (Kind × Nat)} (hl : IsLabelMap t lab) (hs : Breaks 0 t ts)
      (h : Demands lab 0 {} ts) : PastEnd t

end Nxas.Spec
