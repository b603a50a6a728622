import Verif.Spec.Compose
/-
Branch targets: what they stand for, and token lists that differ in the targets of branches only.
-/

namespace Nxas.Spec

open Nxas

/-- The text defines the label. -/
def Defines (t s : Str) : Prop := ∃ pre, DefAt t pre s

/-- The address that a branch target stands for: that of a label or a number. -/
inductive Denotes (lab : Str → Option Nat) : Kind → Int → Prop
  | label {s : Str} {a : Nat} (h : lab s = some a) : Denotes lab (.ident s) a
  | number {x : Int} : Denotes lab (.imm x) x

/-- The second list of tokens is the first one with the targets of the branches replaced by others that stand for
    the same addresses; the target is the last token before the annotations or the semicolon. -/
inductive Retargets (f g : Str → Option Nat) : List (Kind × Nat) → List (Kind × Nat) → Prop
  | nil : Retargets f g [] []
  | other {t : Kind × Nat} {ts ts' : List (Kind × Nat)} (ht : ∀ m ∈ branches, t.1 ≠ .ident m) (h : Retargets f g ts ts') :
      Retargets f g (t :: ts) (t :: ts')
  | branch {m : Str} {l p : Nat} {mid ts ts' : List (Kind × Nat)} {k k' : Kind} {next : Kind × Nat} {x : Int} (hm : m ∈ branches)
      (hmid : ∀ t ∈ mid, t.1 ≠ .at ∧ t.1 ≠ .semicolon) (hn : next.1 = .at ∨ next.1 = .semicolon) (hk : Denotes f k x) (hk' : Denotes g k' x)
      (h : Retargets f g ts ts') :
      Retargets f g ((.ident m, l) :: (mid ++ (k, p) :: next :: ts)) ((.ident m, l) :: (mid ++ (k', p) :: next :: ts'))

end Nxas.Spec
