import Verif.Spec.Grammar
/-
Different ways of writing the same operand.
-/

namespace Nxas.Spec

open Nxas

/-- What is meant by the tokens, if `dflt` is meant by no tokens. -/
def meant (dflt ks : List Kind) : List Kind := if ks = [] then dflt else ks

/-- The token of entry `i` of a table, if there is one. -/
def nameTokens (t : List Str) (i : Nat) : List Kind := (t[i]?.map fun s => Kind.ident (c!"." ++ s)).toList

/-- `[Rn + y]`: no register is `RZ`, no offset is 0. -/
inductive AddressText : (n : Nat) → (y : Int) → (reused : Bool) → List Kind → Prop
  | none : AddressText 255 0 false [.lbracket, .rbracket]
  | offset {y : Int} : AddressText 255 y false [.lbracket, .imm y, .rbracket]
  | reg {n : Nat} : AddressText n 0 false [.lbracket, .reg n, .rbracket]
  | both {n : Nat} {y : Int} : AddressText n y false [.lbracket, .reg n, .imm y, .rbracket]
  | regReuse {n : Nat} : AddressText n 0 true [.lbracket, .reg n, .ident c!".reuse", .rbracket]
  | bothReuse {n : Nat} {y : Int} : AddressText n y true [.lbracket, .reg n, .ident c!".reuse", .imm y, .rbracket]

/-- The distance from an instruction to the target of a branch: a label or an address. -/
inductive DistanceText (e : Env) : Int → List Kind → Prop
  | label {s : Str} {a : Nat} (h : e.label s = some a) : DistanceText e (a - e.pc) [.ident s]
  | address {a : Int} : DistanceText e (a - e.pc) [.imm a]

/-- The same address; the lowest `shr` bits of the offset do not count. -/
def sameAddress (shr : Nat) (ks ks' : List Kind) : Prop :=
  ∃ n y y' r, AddressText n y r ks ∧ AddressText n y' r ks' ∧ y / 2 ^ shr = y' / 2 ^ shr

/-- Floating point texts whose numbers agree when the lowest bits are dropped. -/
def sameFloat (n : Nat) (ofFloat : BitVec 32 → BitVec n) (ofInt : Int → BitVec n) (qnan inf : BitVec n)
    (sign : List Kind → Bool → BitVec n → Option Bool) (upper : Nat → Nat) (ks ks' : List Kind) : Prop :=
  ∃ neg neg' x x', FloatText n ofFloat ofInt qnan inf ks neg x ∧ FloatText n ofFloat ofInt qnan inf ks' neg' x' ∧
    upper x.toNat = upper x'.toNat ∧ sign ks neg x = sign ks' neg' x'

/-- `Same e e' o ks ks'`: the tokens `ks` in the surroundings `e` and `ks'` in `e'` are the same operand `o`. -/
def Same (e e' : Env) : Operand → List Kind → List Kind → Prop
  | .dotTable d _ t => fun ks ks' => meant ((d.map (nameTokens t)).getD []) ks = meant ((d.map (nameTokens t)).getD []) ks'
  | .selector _ _ _ x y => fun ks ks' => ∃ t ∈ [x, y], meant (nameTokens t 0) ks = meant (nameTokens t 0) ks'
  | .immFormat _ => fun ks ks' => meant [.ident c!".S16"] ks = meant [.ident c!".S16"] ks'
  | .srcFormat .. => fun ks ks' => meant [.ident c!".S32"] ks = meant [.ident c!".S32"] ks'
  | .atomicSize _ => fun ks ks' => meant [.ident c!".U32"] ks = meant [.ident c!".U32"] ks'
  | .ldgSize => fun ks ks' => meant [.ident c!".32"] ks = meant [.ident c!".32"] ks'
  | .xmadSigns => fun ks ks' => meant [.ident c!".U16", .ident c!".U16"] ks = meant [.ident c!".U16", .ident c!".U16"] ks'
  | .f2fRounding => fun ks ks' => meant [.ident c!".RN"] ks = meant [.ident c!".RN"] ks'
  | .ccTests _ t => fun ks ks' => meant (.ident c!"CC" :: nameTokens t 15) ks = meant (.ident c!"CC" :: nameTokens t 15) ks'
  | .optText _ => fun _ _ => True
  | .uimmExtended => fun ks ks' => ks = ks' ∨ ∀ x ∈ [ks, ks'], x = [.imm 0x80000] ∨ x = [.imm 0x100000]
  | .patchAttr => fun ks ks' => ks.filter (· ≠ .plus) = ks'.filter (· ≠ .plus)
  | .label => fun ks ks' => ∃ d, DistanceText e d ks ∧ DistanceText e' d ks'
  | .memAddress _ _ _ shr => sameAddress shr
  | .ldcAddress => fun ks ks' => ∃ slot rest rest', ks = .ident c!"c" :: .lbracket :: .imm slot :: .rbracket :: rest ∧
      ks' = .ident c!"c" :: .lbracket :: .imm slot :: .rbracket :: rest' ∧ sameAddress 0 rest rest'
  | .abs _ inner => fun ks ks' =>
      (∃ x x', ks = .vbar :: (x ++ [.vbar]) ∧ ks' = .vbar :: (x' ++ [.vbar]) ∧ Same e e' inner x x') ∨
      (ks.head? ≠ some .vbar ∧ ks'.head? ≠ some .vbar ∧ Same e e' inner ks ks')
  | .fimm wide => sameFloat 32 id f32OfInt 0x7FC00000 0x7F800000 (fun _ neg x => some (x.msb ^^ neg))
      (fun x => (if wide then x else x / 2 ^ 12) % 2 ^ (if wide then 31 else 19))
  | .dimm20 => sameFloat 64 f64OfF32 f64OfInt 0x7FF8000000000000 0x7FF0000000000000
      (fun ks neg _ => some (neg || literalNegative ks)) (fun x => x / 2 ^ 44 % 2 ^ 19)
  | .himm wide _ negBit => sameFloat 16 fp32ToFp16 (fun v => fp32ToFp16 (f32OfInt v)) 0x7FFF 0x7C00
      (fun ks neg x => match negBit with
        | some _ => some (neg || literalNegative ks)
        | none => if wide then some (x.msb || neg) else none)
      (fun x => (if wide then x else x / 2 ^ 6) % 2 ^ (if wide then 15 else 9))
  | _ => fun ks ks' => ks = ks'

end Nxas.Spec
