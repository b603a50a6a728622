import Verif.Model.Operand
import Verif.Spec.Tokens
/-
The syntax and the encoding of every operand, as a grammar over tokens: which tokens an operand
consists of, what may follow them, and which bits they stand for.  Positions, cursors, diagnostics and
the order in which bits are written do not occur here.
-/

namespace Nxas.Spec

open Nxas

/-- What an operand may depend on besides its tokens: the addresses of the labels and the address of the
    instruction. -/
structure Env where
  label : Str → Option Nat
  pc : Nat

/-- The number `n` with its lowest bit at position `pos`. -/
def field (pos n : Nat) : BitVec 64 := BitVec.ofNat 64 (n * 2 ^ pos)

/-- The integer `v` in two's complement with `w` bits, the lowest at position `pos`. -/
def sfield (pos w : Nat) (v : Int) : BitVec 64 := field pos (v % 2 ^ w).toNat

/-- The `w` bits of a word from position `pos` on, as a number. -/
def bitsAt (v : BitVec 64) (pos w : Nat) : Nat := v.toNat / 2 ^ pos % 2 ^ w

/-- A piece of syntax: the tokens it consists of, the token that follows, the bits of the instruction word
    and the reuse flags it stands for. -/
abbrev Piece := List Kind → Kind → BitVec 64 → BitVec 32 → Prop

/-- The token is the prefix `pfx` followed by entry `i` of the table (the first one with that name). -/
def Entry (pfx : Str) (t : List Str) (k : Kind) (i : Nat) : Prop :=
  ∃ name, k = .ident (pfx ++ name) ∧ t[i]? = some name ∧ ∀ j < i, t[j]? ≠ some name

/-- The token is not the prefix followed by a name of the table. -/
def NoEntry (pfx : Str) (t : List Str) (k : Kind) : Prop := ∀ name ∈ t, k ≠ .ident (pfx ++ name)

/-- Optional word. -/
def optWord (s : Str) (bits : BitVec 64) : Piece := fun ks k' b r =>
  r = 0 ∧ ((ks = [.ident s] ∧ b = bits) ∨ (ks = [] ∧ k' ≠ .ident s ∧ b = 0))

/-- The flag of the control word that belongs to a register position. -/
def reuseFlag : Nat → Option (BitVec 32)
  | 8 => some 1
  | 20 => some 2
  | 39 => some 4
  | _ => none

/-- Optional `.reuse` after a register stored at position `a`. -/
def reuse (a : Nat) (ks : List Kind) (k' : Kind) (r : BitVec 32) : Prop :=
  (ks = [.ident c!".reuse"] ∧ reuseFlag a = some r) ∨ (ks = [] ∧ k' ≠ .ident c!".reuse" ∧ r = 0)

/-- A register at position `a`. -/
def register (a : Nat) : Piece := fun ks k' b r =>
  ∃ n rest, ks = .reg n :: rest ∧ b = field a n ∧ reuse a rest k' r

/-- A name of a table, with the prefix `.`; a default, if any, applies when none follows. -/
def modifier (dflt : Option Nat) (a : Nat) (t : List Str) : Piece := fun ks k' b r =>
  r = 0 ∧ ((∃ k i, ks = [k] ∧ Entry c!"." t k i ∧ b = field a i) ∨
    (∃ d, dflt = some d ∧ ks = [] ∧ NoEntry c!"." t k' ∧ b = field a d))

/-- The keywords for special floating point values. -/
def floatWord (qnan inf : BitVec n) (k : Kind) (x : BitVec n) : Prop :=
  (k = .ident c!"QNAN" ∧ x = qnan) ∨ (k = .ident c!"INF" ∧ x = inf)

/-- A floating point value: a literal, an integer literal, or an optionally signed keyword. `neg` says
    whether there is a minus sign in front of a keyword. -/
inductive FloatText (n : Nat) (ofFloat : BitVec 32 → BitVec n) (ofInt : Int → BitVec n) (qnan inf : BitVec n) :
    List Kind → (neg : Bool) → BitVec n → Prop
  | float {f : BitVec 32} : FloatText n ofFloat ofInt qnan inf [.fimm f] false (ofFloat f)
  | int {v : Int} : FloatText n ofFloat ofInt qnan inf [.imm v] false (ofInt v)
  | word {k : Kind} {x : BitVec n} (h : floatWord qnan inf k x) : FloatText n ofFloat ofInt qnan inf [k] false x
  | plus {k : Kind} {x : BitVec n} (h : floatWord qnan inf k x) :
      FloatText n ofFloat ofInt qnan inf [.plus, k] false x
  | minus {k : Kind} {x : BitVec n} (h : floatWord qnan inf k x) :
      FloatText n ofFloat ofInt qnan inf [.minus, k] true x

/-- The literal is less than zero. -/
def literalNegative : List Kind → Bool
  | [.fimm f] => f32LtZero f
  | [.imm v] => decide (v < 0)
  | _ => false

/-- `1` for true. -/
def bit (c : Bool) : Nat := if c then 1 else 0

/-- `[Rn + offset]`: the register at bit 8, the offset shifted right by `shr` at `addr`.  Without register
    the offset is unsigned, `RZ` counts as no register. -/
def memory (immOffset : Bool) (addr size shr : Nat) : Piece := fun ks _ b r =>
  ∃ n base off, ks = .lbracket :: (base ++ (off ++ [.rbracket])) ∧
    ((∃ rest, base = .reg n :: rest ∧ reuse 8 rest (off.headD .rbracket) r) ∨
      (base = [] ∧ n = 255 ∧ r = 0)) ∧
    ((off = [] ∧ b = field 8 n) ∨
      (immOffset = true ∧ ∃ y : Int, off = [.imm y] ∧
        (if n = 255 then 0 ≤ y ∧ y < 2 ^ size else -(2 ^ (size - 1)) ≤ y ∧ y < 2 ^ (size - 1)) ∧
        b = field 8 n ||| sfield addr size (y / 2 ^ shr)))

/-- The table of `TLDS` types: name, `.LL`, `.AOFFI`, `.MS`, code. -/
def tldsCodes : List (Str × Bool × Bool × Bool × Nat) :=
  [(c!"1D", false, false, false, 0), (c!"1D", true, false, false, 1),
   (c!"2D", false, false, false, 2), (c!"2D", false, true, false, 4), (c!"2D", true, false, false, 5),
   (c!"2D", false, false, true, 6), (c!"2D", true, true, false, 12),
   (c!"3D", false, false, false, 7), (c!"3D", true, false, false, 7),
   (c!"ARRAY_2D", false, false, false, 8), (c!"ARRAY_2D", true, false, false, 8)]

/-- The table of `TEXS` types: name, level of detail (0 none, 1 `.LL`, 2 `.LZ`), `.DC`, code. (The level 3
    does not exist.) -/
def texsCodes : List (Str × Nat × Bool × Nat) :=
  [(c!"1D", 2, false, 0), (c!"2D", 0, false, 1), (c!"2D", 2, false, 2), (c!"2D", 1, false, 3),
   (c!"2D", 0, true, 4), (c!"2D", 1, true, 5), (c!"2D", 2, true, 6),
   (c!"ARRAY_2D", 0, false, 7), (c!"ARRAY_2D", 2, false, 8), (c!"ARRAY_2D", 2, true, 9),
   (c!"3D", 0, false, 10), (c!"3D", 2, false, 11), (c!"CUBE", 0, false, 12), (c!"CUBE", 1, false, 13),
   (c!"2D", 3, false, 0), (c!"2D", 3, true, 0)]

/-- The bits of the word that an operand replaces instead of adding to them. -/
def clears : Operand → BitVec 64
  | .tldsType a => field a 7
  | .texsType a => field a 7
  | _ => 0

/-- `Accepts e v o ks k' b r`: with the labels and the address `e`, after operands that gave the word `v`,
    the tokens `ks` followed by `k'` are read as operand `o` and stand for the bits `b` and the reuse
    flags `r`. -/
def Accepts (e : Env) (v : BitVec 64) : Operand → Piece
  | .flag s a => optWord s (field a 1)
  | .uint m a => fun ks _ b r => r = 0 ∧ ∃ x : Nat, ks = [.imm x] ∧ (x : Int) ≤ m ∧ b = field a x
  | .sint w a => fun ks _ b r => r = 0 ∧ ∃ x : Int, ks = [.imm x] ∧
      -(2 ^ (w - 1)) ≤ x ∧ x < 2 ^ (w - 1) ∧ b = sfield a w x
  | .dotTable d a t => modifier d a t
  | .uimmExtended => fun ks _ b r => r = 0 ∧ ∃ x : Nat, ks = [.imm x] ∧ x ≤ 2 ^ 20 ∧
      b = if x < 2 ^ 19 then field 20 x else field 56 1 ||| field 20 (x - 2 ^ 19)
  | .comma => fun ks _ b r => r = 0 ∧ ks = [.comma] ∧ b = 0
  | .label => fun ks _ b r => r = 0 ∧ ∃ target : Int,
      ((∃ s a, ks = [.ident s] ∧ e.label s = some a ∧ target = a) ∨ ks = [.imm target]) ∧
      -(2 ^ 23) ≤ target - e.pc - 8 ∧ target - e.pc - 8 < 2 ^ 23 ∧ b = sfield 20 24 (target - e.pc - 8)
  | .gpr a => register a
  | .mirrorGpr a => fun ks k' b r =>
      b = 0 ∧ ∃ n rest, ks = .reg n :: rest ∧ bitsAt v a 8 = n ∧ reuse a rest k' r
  | .cbuf => fun ks _ b r => r = 0 ∧ ∃ (x : Nat) (y : Int),
      ks = [.ident c!"c", .lbracket, .imm x, .rbracket, .lbracket, .imm y, .rbracket] ∧
      x < 32 ∧ -(2 ^ 15) ≤ y ∧ y < 2 ^ 15 ∧ y % 4 = 0 ∧ b = field 34 x ||| sfield 20 14 (y / 4)
  | .imm20 => fun ks _ b r => r = 0 ∧ ∃ x : Int, ks = [.imm x] ∧ -(2 ^ 19) ≤ x ∧ x < 2 ^ 19 ∧
      b = sfield 20 19 x ||| field 56 (bit (x < 0))
  | .fimm wide => fun ks _ b r => r = 0 ∧ ∃ neg x,
      FloatText 32 id f32OfInt 0x7FC00000 0x7F800000 ks neg x ∧
      b = if wide then field 20 (x.toNat ^^^ (2 ^ 31 * bit neg))
        else field 20 (x.toNat / 2 ^ 12 % 2 ^ 19) ||| field 56 (x.toNat / 2 ^ 31 ^^^ bit neg)
  | .dimm20 => fun ks _ b r => r = 0 ∧ ∃ neg x,
      FloatText 64 f64OfF32 f64OfInt 0x7FF8000000000000 0x7FF0000000000000 ks neg x ∧
      b = field 20 (x.toNat / 2 ^ 44 % 2 ^ 19) ||| field 56 (bit (neg || literalNegative ks))
  | .himm wide offset negBit => fun ks _ b r => r = 0 ∧ ∃ neg x,
      FloatText 16 fp32ToFp16 (fun v => fp32ToFp16 (f32OfInt v)) 0x7FFF 0x7C00 ks neg x ∧
      b = (if wide then field offset (x.toNat + 2 ^ 15 * bit (neg && negBit.isNone))
          else field offset (x.toNat / 2 ^ 6 % 2 ^ 9)) |||
        (match negBit with
        | some n => field n (bit (neg || literalNegative ks))
        | none => 0)
  | .bop a => fun ks _ b r => r = 0 ∧ ∃ k i, ks = [k] ∧
      Entry c!"." [c!"AND", c!"OR", c!"XOR", c!"INVALIDBOP3"] k i ∧ b = field a i
  | .pred a negable => fun ks _ b r => r = 0 ∧ ∃ p n, ks = [.pred p n] ∧ (n = true → negable = true) ∧
      b = field a p ||| field (a + 3) (bit n)
  | .invertedPred a => fun ks _ b r => r = 0 ∧ ∃ p, ks = [.pred p false] ∧ b = field a (7 - p)
  | .neg a => fun ks k' b r => r = 0 ∧
      ((ks = [.minus] ∧ b = field a 1) ∨ (ks = [] ∧ k' ≠ .minus ∧ b = 0))
  | .tilde a => fun ks k' b r => r = 0 ∧
      ((ks = [.tilde] ∧ b = field a 1) ∨ (ks = [] ∧ k' ≠ .tilde ∧ b = 0))
  | .abs a inner => fun ks k' b r =>
      (∃ ks1 b1, ks = .vbar :: (ks1 ++ [.vbar]) ∧ b = field a 1 ||| b1 ∧
        Accepts e (v ||| field a 1) inner ks1 .vbar b1 r) ∨
      (ks.headD k' ≠ .vbar ∧ Accepts e v inner ks k' b r)
  | .po a1 a2 => optWord c!".PO" (field a1 1 ||| field a2 1)
  | .defaultRz a => fun ks _ b r => r = 0 ∧ ks = [] ∧ b = field a 255
  | .memAddress i a s r => memory i a s r
  | .ccTests a t => fun ks k' b r => r = 0 ∧
      ((∃ k i, ks = [.ident c!"CC", k] ∧ Entry c!"." t k i ∧ b = field a i) ∨
        (ks = [] ∧ k' ≠ .ident c!"CC" ∧ b = field a 15))
  | .expect s pre post => fun ks _ b r => r = 0 ∧ ks = [.ident s] ∧ b = (pre ++ post).foldr (· ||| ·) 0
  | .optText s => optWord s 0
  | .immAttr => fun ks _ b r => r = 0 ∧ ∃ x : Nat,
      ks = [.ident c!"a", .lbracket, .imm x, .rbracket] ∧ x < 2 ^ 10 ∧ b = field 20 x ||| field 8 255
  | .patchAttr => fun ks _ b r => ∃ n rest plus y,
      ks = .ident c!"a" :: .lbracket :: .reg n :: (rest ++ (plus ++ [.imm y, .rbracket])) ∧
      (plus = [] ∨ plus = [.plus]) ∧ reuse 8 rest (plus.headD (.imm y)) r ∧
      -(2 ^ 10) ≤ y ∧ y < 2 ^ 10 ∧ b = field 8 n ||| sfield 20 11 y
  | .physAttr => fun ks _ b r => ∃ n rest, ks = .ident c!"a" :: .lbracket :: .reg n :: (rest ++ [.rbracket]) ∧
      reuse 8 rest .rbracket r ∧ b = field 8 n
  | .xmadSigns => fun ks k' b r => r = 0 ∧
      ((∃ x y : Bool, ks = [.ident (if x then c!".S16" else c!".U16"), .ident (if y then c!".S16" else c!".U16")] ∧
        b = field 48 (bit x) ||| field 49 (bit y)) ∨
      (ks = [] ∧ k' ≠ .ident c!".S16" ∧ k' ≠ .ident c!".U16" ∧ b = 0))
  | .f2fRounding =>
      if bitsAt v 8 2 = bitsAt v 10 2 then fun ks k' b r => r = 0 ∧
        ((∃ k s x, ks = [k] ∧ (s, x) ∈ [(c!".ROUND", 8), (c!".FLOOR", 9), (c!".CEIL", 10), (c!".TRUNC", 11),
            (c!".PASS", 3)] ∧ k = .ident s ∧ b = field 39 x) ∨
        (ks = [] ∧ (∀ s ∈ [c!".ROUND", c!".FLOOR", c!".CEIL", c!".TRUNC", c!".PASS"], k' ≠ .ident s) ∧ b = 0))
      else modifier (some 0) 39 [c!"RN", c!"RM", c!"RP", c!"RZ"]
  | .intFormat u s a signed => fun ks _ b r => r = 0 ∧ ∃ k i, ks = [k] ∧
      ((Entry c!"." u k i ∧ b = field a i) ∨
        (NoEntry c!"." u k ∧ Entry c!"." s k i ∧ b = field signed 1 ||| field a i))
  | .plainTable a t => fun ks _ b r => r = 0 ∧ ∃ k i, ks = [k] ∧ Entry [] t k i ∧ b = field a i
  | .selector a ta short shorts bytes =>
      modifier (some 0) a (if bitsAt v ta 3 = short then shorts else bytes)
  | .ldcAddress => fun ks k' b r => ∃ (x : Nat) (rest : List Kind) (b1 : BitVec 64),
      ks = .ident c!"c" :: .lbracket :: .imm x :: .rbracket :: rest ∧ x < 32 ∧
      b = field 36 x ||| b1 ∧ memory true 20 16 0 rest k' b1 r
  | .s2r t => fun ks k' b r => r = 0 ∧
      ((∃ s x, (s, x) ∈ [(c!".X", 33), (c!".Y", 34), (c!".Z", 35)] ∧
          ks = [.ident c!"SR_TID", .ident s] ∧ b = field 20 x) ∨
        (ks = [.ident c!"SR_TID"] ∧ (∀ s ∈ [c!".X", c!".Y", c!".Z"], k' ≠ .ident s) ∧ b = field 20 32) ∨
        (∃ s x, (s, x) ∈ [(c!".X", 37), (c!".Y", 38), (c!".Z", 39)] ∧
          ks = [.ident c!"SR_CTAID", .ident s] ∧ b = field 20 x) ∨
        (∃ k i, ks = [k] ∧ k ≠ .ident c!"SR_TID" ∧ k ≠ .ident c!"SR_CTAID" ∧ Entry [] t k i ∧ b = field 20 i))
  | .ldgSize => fun ks k' b r => r = 0 ∧
      ((∃ k i, ks = [k] ∧ Entry c!"." [c!"U8", c!"S8", c!"U16", c!"S16", c!"32", c!"64", c!"128"] k i ∧
          b = field 48 i) ∨
        (ks = [.ident c!".U", .ident c!".128"] ∧ b = field 48 7) ∨
        (ks = [] ∧ (∀ s, k' = .ident s → s.head? ≠ some '.') ∧ b = field 48 4))
  | .atomicSize a => fun ks k' b r => r = 0 ∧
      ((∃ s x, (s, x) ∈ [(c!".U32", 0), (c!".S32", 1), (c!".U64", 2), (c!".S64", 5)] ∧
          ks = [.ident s] ∧ b = field a x) ∨
        (ks = [.ident c!".F32", .ident c!".FTZ", .ident c!".RN"] ∧ b = field a 3) ∨
        (ks = [.ident c!".F16x2", .ident c!".RN"] ∧ b = field a 4) ∨
        (ks = [] ∧ NoEntry c!"." [c!"U32", c!"S32", c!"U64", c!"F32", c!"F16x2", c!"S64"] k' ∧ b = 0))
  | .srcFormat a signed => fun ks k' b r => r = 0 ∧
      ((∃ k i, ks = [k] ∧ Entry c!"." [c!"S8", [], c!"S16", c!"S32"] k i ∧ b = field a i ||| field signed 1) ∨
        (∃ s x, (s, x) ∈ [(c!".U8", 0), (c!".U16", 2), (c!".U32", 3)] ∧ ks = [.ident s] ∧ b = field a x) ∨
        (ks = [] ∧ NoEntry c!"." [c!"S8", [], c!"S16", c!"S32", c!"U8", c!"U16", c!"U32"] k' ∧
          b = field a 3 ||| field signed 1))
  | .immFormat s => modifier (some 1) s [c!"U16", c!"S16"]
  | .texType a => fun ks _ b r => r = 0 ∧ ∃ k i, ks = [k] ∧ Entry [] [c!"1D", c!"ARRAY_1D", c!"2D", c!"ARRAY_2D",
      c!"3D", c!"ARRAY_3D", c!"CUBE", c!"ARRAY_CUBE"] k i ∧ b = field a i
  | .zero => fun ks _ b r => r = 0 ∧ ks = [.imm 0] ∧ b = 0
  | .texsMode a => fun ks k' b r => r = 0 ∧ ∃ lod dc x y, ks = lod ++ dc ∧ b = field a (x + y) ∧
      ((lod = [.ident c!".LZ"] ∧ x = 2) ∨ (lod = [.ident c!".LL"] ∧ x = 1) ∨
        (lod = [] ∧ dc.headD k' ≠ .ident c!".LZ" ∧ dc.headD k' ≠ .ident c!".LL" ∧ x = 0)) ∧
      ((dc = [.ident c!".DC"] ∧ y = 4) ∨ (dc = [] ∧ k' ≠ .ident c!".DC" ∧ y = 0))
  | .tldsType a => fun ks _ b r => r = 0 ∧ ∃ s x, ks = [.ident s] ∧ b = field a x ∧
      (s, bitsAt v a 1 == 1, bitsAt v (a + 1) 1 == 1, bitsAt v (a + 2) 1 == 1, x) ∈ tldsCodes
  | .texsType a => fun ks _ b r => r = 0 ∧ ∃ s x, ks = [.ident s] ∧ b = field 53 x ∧
      (s, bitsAt v a 2, bitsAt v (a + 2) 1 == 1, x) ∈ texsCodes
  | .texsSwizzle => fun ks _ b r => r = 0 ∧ ∃ k i, ks = [k] ∧ b = field 50 i ∧
      Entry [] (if bitsAt v 28 8 = 255 then [c!"R", c!"G", c!"B", c!"A", c!"RG", c!"RA", c!"GA", c!"BA"]
        else [c!"RGB", c!"RGA", c!"RBA", c!"GBA", c!"RGBA"]) k i

end Nxas.Spec
