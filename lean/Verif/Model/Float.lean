import Verif.Model.Basic
/-
Floating point.  The C++ code relies on IEEE-754 conversions done by the
compiler/runtime (`strtof`, int64 -> float, int64 -> double, float -> double).
They are modelled here exactly, with integer arithmetic, in the default
round-to-nearest-even mode.
-/

namespace Nxas

/-- Round a non-negative rational `num/den` (`0 < den`) to the nearest binary
    floating point number with `p` stored mantissa bits and minimum normal
    exponent `emin` (negative of `bias - 1`), ties to even, and return its
    encoding without sign.  Overflow gives infinity, whose encoding is `inf`.

    This is the IEEE-754 conversion performed by `strtof` and by the C++ numeric
    conversions; it is library/hardware behaviour, not code in /repo.

    `e` is the exponent of the result's binade before rounding, `k = p - e` the
    scaling, `m` the integer significand. -/
def roundRat (p : Nat) (bias : Nat) (inf : Nat) (num den : Nat) : Nat :=
  if num = 0 then 0 else
  -- floor(log2(num/den))
  let e0 : Int := (Nat.log2 num : Int) - (Nat.log2 den : Int)
  let lt : Bool :=
    if 0 ≤ e0 then num < den * 2 ^ e0.toNat else num * 2 ^ (-e0).toNat < den
  let e1 : Int := if lt then e0 - 1 else e0
  -- clamp to the subnormal binade
  let e : Int := max e1 (1 - (bias : Int))
  let k : Int := (p : Int) - e
  let n := if 0 ≤ k then num * 2 ^ k.toNat else num
  let d := if 0 ≤ k then den else den * 2 ^ (-k).toNat
  let m := n / d
  let r := n % d
  let m' := if 2 * r > d ∨ (2 * r = d ∧ m % 2 = 1) then m + 1 else m
  -- biased exponent minus one, so that a normal significand carries into it
  let be := (e + (bias : Int) - 1).toNat
  min (be * 2 ^ p + m') inf

/-- binary32 encoding of `(-1)^neg * num/den`. -/
def f32OfRat (neg : Bool) (num den : Nat) : BitVec 32 :=
  BitVec.ofNat 32 ((if neg then 2 ^ 31 else 0) + roundRat 23 127 0x7F800000 num den)

/-- binary64 encoding of `(-1)^neg * num/den`. -/
def f64OfRat (neg : Bool) (num den : Nat) : BitVec 64 :=
  BitVec.ofNat 64 ((if neg then 2 ^ 63 else 0) + roundRat 52 1023 0x7FF0000000000000 num den)

/-- `static_cast<float>(int64_t)`. -/
def f32OfInt (v : Int) : BitVec 32 := f32OfRat (v < 0) v.natAbs 1

/-- `static_cast<double>(int64_t)`. -/
def f64OfInt (v : Int) : BitVec 64 := f64OfRat (v < 0) v.natAbs 1

/-- sign bit of a binary32 pattern -/
def f32Neg (b : BitVec 32) : Bool := b.getLsbD 31
/-- exponent field of a binary32 pattern -/
def f32Exp (b : BitVec 32) : Nat := (b.toNat / 2 ^ 23) % 256
/-- mantissa field of a binary32 pattern -/
def f32Man (b : BitVec 32) : Nat := b.toNat % 2 ^ 23

/-- Widening `float -> double` (exact).  NaN does not arise: the only float
    tokens come from decimal literals. It is mapped to infinity's exponent with
    the mantissa shifted, as hardware does. -/
def f64OfF32 (b : BitVec 32) : BitVec 64 :=
  let neg := f32Neg b
  if f32Exp b = 255 then
    BitVec.ofNat 64 ((if neg then 2 ^ 63 else 0) + 0x7FF0000000000000 + f32Man b * 2 ^ 29)
  else if f32Exp b = 0 then
    f64OfRat neg (f32Man b) (2 ^ 149)
  else if f32Exp b < 150 then
    f64OfRat neg (f32Man b + 2 ^ 23) (2 ^ (150 - f32Exp b))
  else
    f64OfRat neg ((f32Man b + 2 ^ 23) * 2 ^ (f32Exp b - 150)) 1

/-- `value < 0` for a (non-NaN) binary32 pattern: sign set and magnitude non-zero. -/
def f32LtZero (b : BitVec 32) : Bool := f32Neg b && (b.toNat % 2 ^ 31 != 0)

/-- `std::numeric_limits<float>::quiet_NaN()` / `infinity()`, src/helper.cpp:170,172. -/
def f32QNaN : BitVec 32 := 0x7FC00000#32
def f32Inf : BitVec 32 := 0x7F800000#32
/-- `std::numeric_limits<double>::quiet_NaN()` / `infinity()`, src/helper.cpp:230,232. -/
def f64QNaN : BitVec 64 := 0x7FF8000000000000#64
def f64Inf : BitVec 64 := 0x7FF0000000000000#64

/-- `fp32_to_fp16<round_to_nearest>`, src/fp16.h:27-72, on the bit pattern of the
    argument.  `hbits` is a `uint16_t`, `bits`, `g`, `s` are `uint32_t`. -/
def fp32ToFp16 (value : BitVec 32) : BitVec 16 :=
  -- src/fp16.h:33-34
  let hbits : BitVec 16 := ((value >>> 16) &&& 0x8000#32).setWidth 16
  let bits : BitVec 32 := value &&& 0x7FFFFFFF#32
  -- src/fp16.h:36-39
  let exp : BitVec 32 := bits >>> 23
  if exp = 255#32 then
    hbits ||| 0x7C00#16 |||
      (0x3FF#32 &&& (- (if (bits &&& 0x7FFFFF#32) != 0#32 then 1#32 else 0#32))).setWidth 16
  -- src/fp16.h:40-48
  else if exp.toNat > 142 then
    (hbits ||| 0x7BFF#16) + 1#16
  -- src/fp16.h:49-53
  else if exp.toNat > 112 then
    let g : BitVec 32 := (bits >>> 12) &&& 1#32
    let s : BitVec 32 := if (bits &&& 0xFFF#32) != 0#32 then 1#32 else 0#32
    let h : BitVec 16 := hbits |||
      (((exp - 112#32) <<< 10) ||| ((bits >>> 13) &&& 0x3FF#32)).setWidth 16
    h + (g &&& (s ||| h.setWidth 32)).setWidth 16
  -- src/fp16.h:54-59
  else if exp.toNat > 101 then
    let i : Nat := 125 - exp.toNat
    let b : BitVec 32 := (bits &&& 0x7FFFFF#32) ||| 0x800000#32
    let g : BitVec 32 := (b >>> i) &&& 1#32
    let s : BitVec 32 := if (b &&& (BitVec.ofNat 32 (2 ^ i - 1))) != 0#32 then 1#32 else 0#32
    let h : BitVec 16 := hbits ||| (b >>> (i + 1)).setWidth 16
    h + (g &&& (s ||| h.setWidth 32)).setWidth 16
  -- src/fp16.h:60-63: g = 0, so nothing is added
  else
    let g : BitVec 32 := 0#32
    let s : BitVec 32 := if bits != 0#32 then 1#32 else 0#32
    hbits + (g &&& (s ||| hbits.setWidth 32)).setWidth 16

end Nxas
