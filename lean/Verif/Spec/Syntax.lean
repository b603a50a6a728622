import Verif.Spec.Grammar
import Verif.Model.Table
/-
The syntax of whole instructions: operands one after the other, scheduling annotations, and the choice
of a table row.
-/

namespace Nxas.Spec

open Nxas

/-- Operands one after the other: starting from the word `v`, the tokens `ks` followed by `k` give the
    word `v'` and the reuse flags `r`. -/
inductive Sequence (e : Env) : List Operand → BitVec 64 → List Kind → Kind → BitVec 64 → BitVec 32 → Prop
  | nil {v : BitVec 64} {k : Kind} : Sequence e [] v [] k v 0
  | cons {o : Operand} {os : List Operand} {v b v' : BitVec 64} {ks ks' : List Kind} {k : Kind}
      {r r' : BitVec 32} (h : Accepts e v o ks (ks'.headD k) b r)
      (hs : Sequence e os ((v &&& ~~~clears o) ||| b) ks' k v' r') :
      Sequence e (o :: os) v (ks ++ ks') k v' (r ||| r')

/-- A scheduling annotation. -/
inductive Annot where
  /-- `@WAIT n`: stall for `n` clocks -/
  | wait (n : Nat)
  /-- `@WB n`: write barrier -/
  | wb (n : Nat)
  /-- `@RB n`: read barrier -/
  | rb (n : Nat)
  /-- `@Y` or `@YIELD` -/
  | yield
  /-- `@DEP n`: wait for barrier `n` -/
  | dep (n : Nat)
  deriving DecidableEq, Repr

/-- The tokens of an annotation. -/
inductive Annot.Text : Annot → List Kind → Prop
  | wait {n : Nat} (h : n ≤ 15) : Text (.wait n) [.at, .ident c!"WAIT", .imm n]
  | wb {n : Nat} (h : n ≤ 5) : Text (.wb n) [.at, .ident c!"WB", .imm n]
  | rb {n : Nat} (h : n ≤ 5) : Text (.rb n) [.at, .ident c!"RB", .imm n]
  | y : Text .yield [.at, .ident c!"Y"]
  | yield : Text .yield [.at, .ident c!"YIELD"]
  | dep {n : Nat} (h : n ≤ 5) : Text (.dep n) [.at, .ident c!"DEP", .imm n]

/-- Two annotations that an instruction must not both have. -/
def Annot.clash : Annot → Annot → Bool
  | .wait _, .wait _ => true
  | .wb _, .wb _ => true
  | .rb _, .rb _ => true
  | .yield, .yield => true
  | .dep n, .dep m => n == m
  | _, _ => false

/-- The tokens of a list of annotations without clashes. -/
inductive AnnotsText : List Annot → List Kind → Prop
  | nil : AnnotsText [] []
  | cons {a : Annot} {as : List Annot} {ks ks' : List Kind} (h : a.Text ks) (hc : ∀ a' ∈ as, a.clash a' = false)
      (hs : AnnotsText as ks') : AnnotsText (a :: as) (ks ++ ks')

/-- The number given with an annotation, or a default. -/
def given (f : Annot → Option Nat) (dflt : Nat) (as : List Annot) : Nat := (as.findSome? f).getD dflt

/-- The number of clocks, 0 by default. -/
def stall : List Annot → Nat := given (fun | .wait n => some n | _ => none) 0
/-- The write barrier; 7 is none. -/
def writeBarrier : List Annot → Nat := given (fun | .wb n => some n | _ => none) 7
/-- The read barrier; 7 is none. -/
def readBarrier : List Annot → Nat := given (fun | .rb n => some n | _ => none) 7
/-- One bit for every barrier waited for. -/
def waitMask (as : List Annot) : Nat := ((List.range 6).map fun i => bit (.dep i ∈ as) * 2 ^ i).sum

/-- The 17 scheduling bits of an instruction. -/
def schedBits (as : List Annot) : Nat :=
  stall as + bit (.yield ∈ as) * 2 ^ 4 + writeBarrier as * 2 ^ 5 + readBarrier as * 2 ^ 8 + waitMask as * 2 ^ 11

/-- What follows the mnemonic, up to the semicolon, fits a row of the table: the word, the reuse flags and
    the scheduling bits it stands for.  The guard is stored in bits 16 to 19; a row without predicated
    execution accepts no guard but `PT`, possibly negated. -/
inductive RowText (e : Env) (row : Insn) (g : Option (Nat × Bool)) : List Kind → Op → Prop
  | mk {ks ks' : List Kind} {v : BitVec 64} {r : BitVec 32} {as : List Annot}
      (hg : row.flags % 2 = 1 → ∀ p n, g = some (p, n) → p = 7)
      (ho : Sequence e row.operands (field 16 (guardBits g).toNat ||| row.opcode) ks (ks'.headD .semicolon) v r)
      (ha : AnnotsText as ks') : RowText e row g (ks ++ ks') ⟨v, r, BitVec.ofNat 32 (schedBits as)⟩

/-- The tokens of an instruction: guard, mnemonic, operands and annotations, semicolon.  The row is the
    first one with this mnemonic that fits. -/
inductive InstrText (e : Env) : List Kind → Op → Prop
  | mk {g : Option (Nat × Bool)} {row : Insn} {ks : List Kind} {op : Op} {pre post : List Insn}
      (hs : insnTable = pre ++ row :: post) (h : RowText e row g ks op)
      (hp : ∀ row' ∈ pre, row'.mnemonic = row.mnemonic → ∀ op', ¬ RowText e row' g ks op') :
      InstrText e (guardTokens g ++ .ident row.mnemonic :: (ks ++ [.semicolon])) op

end Nxas.Spec
