import Verif.Model.Core
/-
The operand parsers of src/operand.h and src/helper.cpp.

`Operand` is a syntax for them: one constructor per family (each C++ macro or
template is one constructor, its template/macro arguments are the constructor's
arguments).  `Operand.run` is the code.  The named operands at the end of the file
are the instances used by the instruction table.
-/

namespace Nxas

/-- Operand parsers, src/operand.h. -/
inductive Operand where
  /-- `DEFINE_FLAG`, operand.h:15-19 -/
  | flag (s : Str) (address : Nat)
  /-- `DEFINE_UINT`, operand.h:21-25 -/
  | uint (max : Int) (address : Nat)
  /-- `DEFINE_INT`, operand.h:27-31 -/
  | sint (bits address : Nat)
  /-- `DEFINE_DOT_TABLE`, operand.h:33-48; `none` is a negative default -/
  | dotTable (dflt : Option Nat) (address : Nat) (table : List Str)
  /-- `uimm_extended`, operand.h:89-100 -/
  | uimmExtended
  /-- `comma`, operand.h:115-120 -/
  | comma
  /-- `label`, operand.h:122-154 -/
  | label
  /-- `dgpr` and `sgpr`, operand.h:156-166 -/
  | gpr (address : Nat)
  /-- `mirror_dgpr`, operand.h:168-181 -/
  | mirrorGpr (address : Nat)
  /-- `cbuf`, operand.h:183-186 -/
  | cbuf
  /-- `imm`, operand.h:188-191 -/
  | imm20
  /-- `fimm` / `fimm32`, operand.h:193-201: 20 or 32 bits -/
  | fimm (wide : Bool)
  /-- `dimm20`, operand.h:203-206 -/
  | dimm20
  /-- `fimm9_low/high`, `fimm16_low/high`, operand.h:208-228: `wide` is 16 bits
      (otherwise 9), offset, and negation bit (`none` for -1) -/
  | himm (wide : Bool) (offset : Nat) (negBit : Option Nat)
  /-- `bop`, operand.h:296-307 -/
  | bop (address : Nat)
  /-- `pred`, operand.h:309-323 -/
  | pred (address : Nat) (negable : Bool)
  /-- `inverted_pred`, operand.h:325-335 -/
  | invertedPred (address : Nat)
  /-- `neg`, operand.h:337-345 -/
  | neg (address : Nat)
  /-- `tilde`, operand.h:347-355 -/
  | tilde (address : Nat)
  /-- `abs`, operand.h:363-379 -/
  | abs (address : Nat) (inner : Operand)
  /-- `po`, operand.h:381-390 -/
  | po (address1 address2 : Nat)
  /-- `default_rz`, operand.h:398-403 -/
  | defaultRz (address : Nat)
  /-- `memory::address`, operand.h:409-441 -/
  | memAddress (immOffset : Bool) (addr size shr : Nat)
  /-- `flow_tests` through `assemble_cc_tests`, operand.h:52-69, 444-452 -/
  | ccTests (address : Nat) (table : List Str)
  /-- "if (!equal(token, s)) return fail(...); add_bits(pre)...; token = ctx.tokenize();
      add_bits(post)...": `ald::p`, `ald::phys`, `b2r::warp`, `b2r::result`, `cc_text`,
      `lop3::lut`, `image::p`, `image::d`, `lea::hi`, `shf::r`, `shf::l`, `b_text`,
      `lod_text` -/
  | expect (s : Str) (pre post : List (BitVec 64))
  /-- `lea::lo`, operand.h:1366-1372 -/
  | optText (s : Str)
  /-- `ald::imm_attr`, operand.h:514-530 -/
  | immAttr
  /-- `ald::patch_attr`, operand.h:532-552 -/
  | patchAttr
  /-- `ald::phys_attr`, operand.h:554-569 -/
  | physAttr
  /-- `xmad::signs`, operand.h:624-645 -/
  | xmadSigns
  /-- `f2f::rounding`, operand.h:702-733 -/
  | f2fRounding
  /-- `f2i::int_format`, `i2f::int_format`, `i2i::format`: operand.h:754-770, 1232-1248,
      1268-1285 -/
  | intFormat (unsignedTable signedTable : List Str) (address signAddress : Nat)
  /-- `p2r::mode`, `txq::mode`: operand.h:777-788, 1808-1827 -/
  | plainTable (address : Nat) (table : List Str)
  /-- `i2f::selector`, `i2i::selector`, `video::selector`: operand.h:1250-1263,
      1287-1300, 1435-1449 -/
  | selector (address typeAddress : Nat) (shortType : Nat) (shorts bytes : List Str)
  /-- `ldc::address`, operand.h:843-861 -/
  | ldcAddress
  /-- `s2r`, operand.h:898-1197 -/
  | s2r (table : List Str)
  /-- `ldg::size`, operand.h:1208-1225 -/
  | ldgSize
  /-- `atomic_size`, operand.h:1316-1340 -/
  | atomicSize (address : Nat)
  /-- `video::src_format`, operand.h:1406-1426 -/
  | srcFormat (address signAddress : Nat)
  /-- `video::imm_format`, operand.h:1451-1461 -/
  | immFormat (signAddress : Nat)
  /-- `tex_type`, operand.h:1495-1509 -/
  | texType (address : Nat)
  /-- `zero`, operand.h:1529-1536 -/
  | zero
  /-- `texs_mode`, operand.h:1551-1571 -/
  | texsMode (address : Nat)
  /-- `tlds_type`, operand.h:1573-1640 -/
  | tldsType (address : Nat)
  /-- `texs_type`, operand.h:1642-1742 -/
  | texsType (address : Nat)
  /-- `texs_swizzle`, operand.h:1744-1783 -/
  | texsSwizzle
  deriving DecidableEq, Repr

/-! ### Shared pieces -/

/-- `assemble_flag`, operand.h:71-78. -/
def runFlag (s : Str) (address : Nat) : M Unit := do
  let t ← getKind
  if t.equal s then do
    addBits (1#64 <<< address)
    advance
  else M.pure ()

/-- `assemble_uint`, operand.h:80-87. -/
def runUint (max : Int) (address : Nat) : M Unit := do
  let v ← convertInteger 0 max
  addBits (u64 v <<< address)
  advance

/-- `assemble_int`, operand.h:102-113. -/
def runSint (bits address : Nat) : M Unit := do
  let v ← convertInteger (-(2 ^ (bits - 1))) (2 ^ (bits - 1) - 1)
  addBits ((u64 v &&& BitVec.ofNat 64 (2 ^ bits - 1)) <<< address)
  advance

/-- Body of `DEFINE_DOT_TABLE`, operand.h:33-48. -/
def runDotTable (dflt : Option Nat) (address : Nat) (table : List Str) : M Unit := do
  let r ← findInTable true table c!"."
  match dflt, r with
  | none, none => failTok "invalid identifier"
  | _, some i => do
    advance
    addBits (BitVec.ofNat 64 i <<< address)
  | some d, none => addBits (BitVec.ofNat 64 d <<< address)

/-- `uimm_extended`, operand.h:89-100. -/
def runUimmExtended : M Unit := do
  let v ← convertInteger 0 (2 ^ 20)
  if v ≥ 0x80000 then do
    addBits (1#64 <<< 56)
    addBits (u64 (v - 0x80000) <<< 20)
  else
    addBits (u64 v <<< 20)
  advance

/-- `comma`, operand.h:115-120. -/
def runComma : M Unit := do
  confirm .comma
  advance

/-- The tail of `label`, operand.h:143-153: displacement of an absolute target.
    `absolute - ctx.pc - 8` is evaluated in `int64_t`. -/
def runLabelTarget (absolute : Int) : M Unit := do
  let ctx ← getCtx
  let value : Int := absolute - ctx.pc - 8
  if value < -(2 ^ 63) then ubM .signedOverflow
  else if value > 2 ^ 23 - 1 ∨ value < -(2 ^ 23) then failTok "label out of range"
  else do
    addBits ((u64 value &&& 0x7FFFFF#64) <<< 20)
    addBits ((if value < 0 then 1#64 else 0#64) <<< 43)
    advance

/-- `label`, operand.h:122-154. -/
def runLabel : M Unit := do
  let t ← getKind
  match t with
  | .ident s => do
    let ctx ← getCtx
    match ctx.labels.find s with
    | none => failTok ⟨"label \x1b[1m%.*s\x1b[0m not defined", [.sized s]⟩
    | some a => runLabelTarget a
  | .imm v => runLabelTarget v
  | _ => failTok "expected label"

/-- `mirror_dgpr`, operand.h:168-181. -/
def runMirror (address : Nat) : M Unit := do
  let old ← getValue
  setValue (old &&& ~~~(0xFF#64 <<< address))
  assembleGpr address
  let new ← getValue
  if new ≠ old then failTok "source register is not mirrored to destination register"
  else M.pure ()

/-- src/helper.cpp:328 -/
def cbufAlignMsg : Msg := "immediate constant buffer access has to be aligned to 4 bytes"

/-- `assemble_constant_buffer`, helper.cpp:306-336. -/
def runCbuf : M Unit := blameStart cbufAlignMsg (do
  let first ← getKind
  if !first.equal c!"c" then failTok "expected constant buffer"
  else do
    advance
    confirm .lbracket
    advance
    let v ← convertInteger 0 (maxBits 5)
    addBits (u64 v <<< 34)
    advance
    confirm .rbracket
    advance
    confirm .lbracket
    advance
    let off ← convertInteger (-(2 ^ 15)) (2 ^ 15 - 1)
    if off.tmod 4 ≠ 0 then
      failTok cbufAlignMsg
    else do
      -- static_cast<uint16_t>(offset) >> 2
      addBits ((((BitVec.ofInt 16 off) >>> 2).setWidth 64) <<< 20)
      advance
      confirm .rbracket
      advance)

/-- `assemble_signed_20bit_immediate`, helper.cpp:124-144. -/
def runImm20 : M Unit := do
  let v ← convertInteger (-(2 ^ 19)) (maxBits 19)
  let raw : BitVec 64 :=
    if v < 0 then u64 (v - 2 ^ 19) &&& BitVec.ofNat 64 (2 ^ 19 - 1) else u64 v
  let negative : BitVec 64 := if v < 0 then 1#64 else 0#64
  addBits (raw <<< 20)
  addBits (negative <<< 56)
  advance

/-- The keyword part shared by the float operands (helper.cpp:162-180, 220-236,
    268-289): `QNAN` or `INF`, after an optional sign already inspected by the caller. -/
def floatKeyword (qnan inf : BitVec n) : M (BitVec n) := do
  let t ← getKind
  if t.equal c!"QNAN" then M.pure qnan
  else if t.equal c!"INF" then M.pure inf
  else failTok "expected floating-point literal, QNAN, or INF"

/-- The value part of `assemble_float_immediate`, helper.cpp:150-184, as the bits of
    `raw`.  Line 157 compares the `int64_t` with its own conversion to `float`; by the
    usual arithmetic conversions both sides are the same `float`, so the error branch
    is dead.  It is kept literally. -/
def floatValue : M (BitVec 32) := do
  let t ← getKind
  match t with
  | .fimm b => M.pure b
  | .imm v =>
    if f32OfInt v ≠ f32OfInt v then failTok ⟨"integer immediate ldcannot be represented as float", [.long v]⟩
    else M.pure (f32OfInt v)
  | .plus => do
    advance
    floatKeyword f32QNaN f32Inf
  | .minus => do
    advance
    let b ← floatKeyword f32QNaN f32Inf
    M.pure (b ^^^ 0x80000000#32)
  | .ident _ => floatKeyword f32QNaN f32Inf
  | _ => failTok "expected floating-point literal, QNAN, or INF"

/-- `assemble_float_immediate`, helper.cpp:146-200; `wide` is `bits == 32`. -/
def runFimm (wide : Bool) : M Unit := do
  let raw ← floatValue
  if wide then
    addBits (raw.setWidth 64 <<< 20)
  else do
    addBits ((((raw <<< 1) >>> 13).setWidth 64) <<< 20)
    if raw >>> 31 ≠ 0#32 then addBits (1#64 <<< 56) else M.pure ()
  advance

/-- The value part of `assemble_double_immediate`, helper.cpp:206-241. Sets the sign
    bit 56 on the way, as the code does. -/
def doubleValue : M (BitVec 64) := do
  let t ← getKind
  match t with
  | .fimm b => do
    if f32LtZero b then addBits (1#64 <<< 56) else M.pure ()
    M.pure (f64OfF32 b)
  | .imm v => do
    if v < 0 then addBits (1#64 <<< 56) else M.pure ()
    M.pure (f64OfInt v)
  | .plus => do
    advance
    floatKeyword f64QNaN f64Inf
  | .minus => do
    addBits (1#64 <<< 56)
    advance
    floatKeyword f64QNaN f64Inf
  | .ident _ => floatKeyword f64QNaN f64Inf
  | _ => failTok "expected floating-point literal, QNAN, or INF"

/-- `assemble_double_immediate`, helper.cpp:202-247. -/
def runDimm20 : M Unit := do
  let raw ← doubleValue
  addBits (((raw <<< 1) >>> 45) <<< 20)
  advance

/-- `if (neg_bit >= 0) op.add_bits(1ULL << neg_bit)` -/
def addNegBit (negBit : Option Nat) : M Unit :=
  match negBit with
  | some n => addBits (1#64 <<< n)
  | none => M.pure ()

/-- The value part of `assemble_half_float_immediate`, helper.cpp:254-293. -/
def halfValue (negBit : Option Nat) : M (BitVec 16) := do
  let t ← getKind
  match t with
  | .fimm b => do
    if f32LtZero b then addNegBit negBit else M.pure ()
    M.pure (fp32ToFp16 b)
  | .imm v => do
    if v < 0 then addNegBit negBit else M.pure ()
    M.pure (fp32ToFp16 (f32OfInt v))
  | .plus => do
    advance
    floatKeyword 0x7FFF#16 0x7C00#16
  | .minus => do
    advance
    let b ← floatKeyword 0x7FFF#16 0x7C00#16
    addNegBit negBit
    M.pure (if negBit.isSome then b else b ||| 0x8000#16)
  | .ident _ => floatKeyword 0x7FFF#16 0x7C00#16
  | _ => failTok "expected floating-point literal, QNAN, or INF"

/-- `assemble_half_float_immediate`, helper.cpp:249-304. -/
def runHimm (wide : Bool) (offset : Nat) (negBit : Option Nat) : M Unit := do
  let value ← halfValue negBit
  if wide then addBits (value.setWidth 64 <<< offset)
  else addBits ((((value <<< 1) >>> 7).setWidth 64) <<< offset)
  advance

/-- `bop`, operand.h:296-307. -/
def runBop (address : Nat) : M Unit := do
  let r ← findInTable true [c!"AND", c!"OR", c!"XOR", c!"INVALIDBOP3"] c!"."
  match r with
  | none => failTok "expected .AND, .OR or .XOR"
  | some i => do
    addBits (BitVec.ofNat 64 i <<< address)
    advance

/-- `pred`, operand.h:309-323. -/
def runPred (address : Nat) (negable : Bool) : M Unit := do
  let p ← confirmPred
  addBits (BitVec.ofNat 64 p.1 <<< address)
  if negable then do
    addBits ((if p.2 then 1#64 else 0#64) <<< (address + 3))
    advance
  else if p.2 then failTok "predicate can't be negated"
  else advance

/-- `inverted_pred`, operand.h:325-335. `7 - index` is an `int`; the index of a
    predicate token is at most 7. -/
def runInvertedPred (address : Nat) : M Unit := do
  let p ← confirmPred
  addBits (u64 (7 - (p.1 : Int)) <<< address)
  if p.2 then failTok "predicate can't be negated"
  else advance

/-- `neg` and `tilde`, operand.h:337-355. -/
def runSign (k : Kind) (address : Nat) : M Unit := do
  let t ← getKind
  if t = k then do
    addBits (1#64 <<< address)
    advance
  else M.pure ()

/-- `abs`, operand.h:363-379. -/
def runAbs (address : Nat) (inner : M Unit) : M Unit := do
  let t ← getKind
  if t = .vbar then do
    addBits (1#64 <<< address)
    advance
    inner
    confirm .vbar
    advance
  else inner

/-- `po`, operand.h:381-390. -/
def runPo (address1 address2 : Nat) : M Unit := do
  let t ← getKind
  if !t.equal c!".PO" then M.pure ()
  else do
    addBits ((1#64 <<< address1) ||| (1#64 <<< address2))
    advance

/-- `memory::address`, operand.h:409-441.  `value >>= shr` is a logical shift of the
    `uint64_t`. The result of `try_reuse` is ignored by the code; with address 8 it
    never fails. -/
def runMemAddress (immOffset : Bool) (addr size shr : Nat) : M Unit := do
  confirm .lbracket
  advance
  let t ← getKind
  let regster ← (match t with
    | .reg n => do
      advance
      tryReuse 8
      M.pure n
    | _ => M.pure 255)
  addBits (BitVec.ofNat 64 regster <<< 8)
  if immOffset then do
    let t2 ← getKind
    match t2 with
    | .imm _ => do
      let isZeroReg : Bool := regster = 255
      let min : Int := if isZeroReg then 0 else -(2 ^ (size - 1))
      let max : Int := maxBits (if isZeroReg then size else size - 1)
      let v ← convertInteger min max
      addBits (((u64 v >>> shr) &&& BitVec.ofNat 64 (2 ^ size - 1)) <<< addr)
      advance
    | _ => M.pure ()
  else M.pure ()
  confirm .rbracket
  advance

/-- `assemble_cc_tests`, operand.h:52-69. -/
def runCcTests (address : Nat) (table : List Str) : M Unit := do
  let t ← getKind
  if t.equal c!"CC" then do
    advance
    let x ← confirmIdent
    let r ← findInTable true table c!"."
    match r with
    | none => failTok ⟨"unexpected test %.*s", [.sized x]⟩
    | some i => do
      advance
      addBits (BitVec.ofNat 64 i <<< address)
  else
    addBits (15#64 <<< address)

/-- `add_bits` of several values in order -/
def addAll : List (BitVec 64) → M Unit
  | [] => M.pure ()
  | b :: bs => do
    addBits b
    addAll bs

/-- The messages of `Operand.expect`: operand.h:496, 506, 582, 593, 611, 658, 869, 878, 1360,
    1380, 1389, 1514, 1523.  `image::p` (no bits, unlike `ald::p`) and `image::d` share a
    message. -/
def expectMsg (s : Str) (pre : List (BitVec 64)) : Msg :=
  if s = c!".D" ∨ (s = c!".P" ∧ pre = []) then "expected .P or .B"
  else if s = c!".P" then "expected .P"
  else if s = c!".PHYS" then "expected .PHYS"
  else if s = c!".WARP" then "expected .WARP"
  else if s = c!".RESULT" then "expected .RESULT"
  else if s = c!"CC" then "expected CC"
  else if s = c!".LUT" then "expected .LUT"
  else if s = c!".HI" then "expected .HI"
  else if s = c!".R" then "expected .R"
  else if s = c!".L" then "expected .L"
  else if s = c!".B" then "expected .B"
  else "expected .LOD"

/-- See `Operand.expect`. -/
def runExpect (s : Str) (pre post : List (BitVec 64)) : M Unit := do
  let t ← getKind
  if !t.equal s then failTok (expectMsg s pre)
  else do
    addAll pre
    advance
    addAll post

/-- `lea::lo`, operand.h:1366-1372. -/
def runOptText (s : Str) : M Unit := do
  let t ← getKind
  if t.equal s then advance else M.pure ()

/-- `a [` : the common start of the attribute operands, operand.h:516-522, 534-540,
    556-562. -/
def attrOpen : M Unit := do
  let t ← getKind
  if !t.equal c!"a" then failTok "expected 'a'"
  else do
    advance
    confirm .lbracket
    advance

/-- `]` : the common end of the attribute operands, operand.h:527-529. -/
def attrClose : M Unit := do
  confirm .rbracket
  advance

/-- `ald::imm_attr`, operand.h:514-530. -/
def runImmAttr : M Unit := do
  attrOpen
  runUint (maxBits 10) 20
  addBits (0xFF#64 <<< 8)
  attrClose

/-- `ald::patch_attr`, operand.h:532-552. -/
def runPatchAttr : M Unit := do
  attrOpen
  assembleGpr 8
  let t ← getKind
  if t = .plus then advance else M.pure ()
  runSint 11 20
  attrClose

/-- `ald::phys_attr`, operand.h:554-569. -/
def runPhysAttr : M Unit := do
  attrOpen
  assembleGpr 8
  attrClose

/-- `xmad::signs`, operand.h:624-645. -/
def runXmadSigns : M Unit := do
  let t ← getKind
  if !t.equal c!".S16" && !t.equal c!".U16" then M.pure ()
  else do
    advance
    if t.equal c!".S16" then addBits (1#64 <<< 48) else M.pure ()
    let t2 ← getKind
    if t2.equal c!".S16" then do
      addBits (1#64 <<< 49)
      advance
    else if !t2.equal c!".U16" then failTok "expected .S16 or .U16"
    else advance

/-- `f2f::rounding`, operand.h:702-733. -/
def runF2fRounding : M Unit := do
  let v ← getValue
  let dst := (v >>> 8) &&& 3#64
  let src := (v >>> 10) &&& 3#64
  if dst = src then do
    let t ← getKind
    let r : Option (BitVec 64) :=
      if t.equal c!".ROUND" then some 8#64
      else if t.equal c!".FLOOR" then some 9#64
      else if t.equal c!".CEIL" then some 10#64
      else if t.equal c!".TRUNC" then some 11#64
      else if t.equal c!".PASS" then some 3#64
      else none
    match r with
    | some b => do
      advance
      addBits (b <<< 39)
    | none => addBits (0#64 <<< 39)
  else runDotTable (some 0) 39 [c!"RN", c!"RM", c!"RP", c!"RZ"]

/-- The messages of operand.h:763, 1241, 1278, told apart by the table of the function. -/
def formatMsg (ut : List Str) : Msg :=
  if ut = [c!"INVALID0", c!"U16", c!"U32", c!"U64"] then "expected .U16, .U32, .U64, .S16, .S32 or .S64"
  else if ut = [c!"U8", c!"U16", c!"U32", c!"U64"] then
    "expected .U8, .U16, .U32, .U64, .S8, .S16, .S32 or .S64"
  else "expected .U8, .U16, .U32, .S8, .S16 or .S32"

/-- `f2i::int_format`, `i2f::int_format`, `i2i::format`: operand.h:754-770, 1232-1248,
    1268-1285. -/
def runIntFormat (ut st : List Str) (address signAddress : Nat) : M Unit := do
  let u ← findInTable true ut c!"."
  match u with
  | some i => do
    addBits (BitVec.ofNat 64 i <<< address)
    advance
  | none => do
    let r ← findInTable true st c!"."
    match r with
    | none => failTok (formatMsg ut)
    | some i => do
      addBits (1#64 <<< signAddress)
      addBits (BitVec.ofNat 64 i <<< address)
      advance

/-- The messages of operand.h:783, 1821, told apart by the table of the function. -/
def modeMsg (table : List Str) : Msg :=
  if table = [c!"PR", c!"CC"] then "expected PR or CC" else "invalid mode"

/-- `p2r::mode`, `txq::mode`: operand.h:777-788, 1808-1827. -/
def runPlainTable (address : Nat) (table : List Str) : M Unit := do
  let r ← findInTable true table []
  match r with
  | none => failTok (modeMsg table)
  | some i => do
    addBits (BitVec.ofNat 64 i <<< address)
    advance

/-- `i2f::selector`, `i2i::selector`, `video::selector`: operand.h:1250-1263, 1287-1300,
    1435-1449. -/
def runSelector (address typeAddress shortType : Nat) (shorts bytes : List Str) : M Unit := do
  let v ← getValue
  let type := (v >>> typeAddress) &&& 7#64
  runDotTable (some 0) address (if type = BitVec.ofNat 64 shortType then shorts else bytes)

/-- `ldc::address`, operand.h:843-861. -/
def runLdcAddress : M Unit := do
  let t ← getKind
  if !t.equal c!"c" then failTok "expected constant buffer"
  else do
    advance
    confirm .lbracket
    advance
    let v ← convertInteger 0 (maxBits 5)
    addBits (u64 v <<< 36)
    advance
    confirm .rbracket
    advance
    runMemAddress true 20 16 0

/-- `s2r`, operand.h:1160-1196; the name table is operand.h:900-1158.  The failure
    message at line 1190 reads `token.data.string` whatever the token is. -/
def runS2r (table : List Str) : M Unit := do
  let t ← getKind
  if t.equal c!"SR_TID" then do
    advance
    let t2 ← getKind
    if t2.equal c!".X" then do { advance; addBits (33#64 <<< 20) }
    else if t2.equal c!".Y" then do { advance; addBits (34#64 <<< 20) }
    else if t2.equal c!".Z" then do { advance; addBits (35#64 <<< 20) }
    else addBits (32#64 <<< 20)
  else if t.equal c!"SR_CTAID" then do
    advance
    let t2 ← getKind
    if t2.equal c!".X" then do { advance; addBits (37#64 <<< 20) }
    else if t2.equal c!".Y" then do { advance; addBits (38#64 <<< 20) }
    else if t2.equal c!".Z" then do { advance; addBits (39#64 <<< 20) }
    else failTok "expected .X, .Y or .Z after SR_CTAID"
  else do
    let r ← findInTable true table []
    match r with
    | none =>
      if t.stringActive then failTok ⟨"invalid system register \x1b[1m%.*s\x1b[0m", [.text t.info]⟩ else ubM .inactiveUnion
    | some i => do
      advance
      addBits (BitVec.ofNat 64 i <<< 20)

/-- `ldg::size`, operand.h:1208-1225.  The table has no terminating `nullptr`. -/
def runLdgSize : M Unit := do
  let r ← findInTable false
    [c!"U8", c!"S8", c!"U16", c!"S16", c!"32", c!"64", c!"128", c!"U"] c!"."
  match r with
  | some i => do
    advance
    if i = 7 then do
      let t ← getKind
      if !t.equal c!".128" then failTok "expected .U8, .S8, .U16, .S16, .32, .64, .128 or .U.128"
      else advance
    else M.pure ()
    addBits (BitVec.ofNat 64 i <<< 48)
  | none => addBits (4#64 <<< 48)

/-- `atomic_size`, operand.h:1316-1340. -/
def runAtomicSize (address : Nat) : M Unit := do
  let r ← findInTable true [c!"U32", c!"S32", c!"U64", c!"F32", c!"F16x2", c!"S64"] c!"."
  match r with
  | some i => do
    advance
    if i = 3 then do
      let t ← getKind
      if !t.equal c!".FTZ" then failTok "expected .U32, .S32, .U64, .S64, .F32.FTZ.RN, .F16x2.RN or .S64"
      else do
        advance
        let t2 ← getKind
        if !t2.equal c!".RN" then failTok "expected .U32, .S32, .U64, .S64, .F32.FTZ.RN, .F16x2.RN or .S64"
        else advance
    else if i = 4 then do
      let t ← getKind
      if !t.equal c!".RN" then failTok "expected .U32, .S32, .U64, .S64, .F32.FTZ.RN, .F16x2.RN or .S64"
      else advance
    else M.pure ()
    addBits (BitVec.ofNat 64 i <<< address)
  | none => addBits (0#64 <<< address)

/-- `video::src_format`, operand.h:1406-1426. -/
def runSrcFormat (address signAddress : Nat) : M Unit := do
  let s ← findInTable true [c!"S8", [], c!"S16", c!"S32"] c!"."
  match s with
  | some i => do
    advance
    addBits (BitVec.ofNat 64 i <<< address)
    addBits (1#64 <<< signAddress)
  | none => do
    let u ← findInTable true [c!"U8", [], c!"U16", c!"U32"] c!"."
    match u with
    | some i => do
      advance
      addBits (BitVec.ofNat 64 i <<< address)
      addBits (0#64 <<< signAddress)
    | none => do
      addBits (3#64 <<< address)
      addBits (1#64 <<< signAddress)

/-- `tex_type`, operand.h:1495-1509.  The table has no terminating `nullptr`. -/
def runTexType (address : Nat) : M Unit := do
  let r ← findInTable false
    [c!"1D", c!"ARRAY_1D", c!"2D", c!"ARRAY_2D", c!"3D", c!"ARRAY_3D", c!"CUBE", c!"ARRAY_CUBE"] []
  match r with
  | none => failTok "expected 1D, ARRAY_1D, 2D, ARRAY_2D, 3D, ARRAY_3D, CUBE, or ARRAY_CUBE"
  | some i => do
    advance
    addBits (BitVec.ofNat 64 i <<< address)

/-- `zero`, operand.h:1529-1536. -/
def runZero : M Unit := do
  let t ← getKind
  if t ≠ .imm 0 then failTok "expected 0"
  else advance

/-- `texs_mode`, operand.h:1551-1571 (`Lod`: None 0, LL 1, LZ 2, operand.h:1544-1549). -/
def runTexsMode (address : Nat) : M Unit := do
  let t ← getKind
  let lod ← (if t.equal c!".LZ" then do { advance; M.pure 2#64 }
    else if t.equal c!".LL" then do { advance; M.pure 1#64 }
    else M.pure 0#64)
  let t2 ← getKind
  let dc ← (if t2.equal c!".DC" then do { advance; M.pure 4#64 } else M.pure 0#64)
  addBits ((dc ||| lod) <<< address)

/-- The mode number chosen by `tlds_type`, operand.h:1588-1636, or its complaint. -/
def tldsMode (type : Nat) (ll aoffi ms : Bool) : Except Msg Nat :=
  match type with
  | 0 =>
    if aoffi then .error "1D has no AOFFI"
    else if ms then .error "1D has no MS"
    else .ok (if ll then 1 else 0)
  | 1 =>
    if aoffi && ms then .error "AOFFI and MS can't be used at the same time"
    else if ll then
      if ms then .error "LL can't be used with MS in 2D"
      else .ok (if aoffi then 12 else 5)
    else if aoffi then .ok 4
    else if ms then .ok 6
    else .ok 2
  | 2 =>
    if aoffi then .error "AOFFI can't be used in 3D"
    else if ms then .error "MS can't be used in 3D"
    else .ok 7
  | _ =>
    if aoffi then .error "AOFFI can't be used in ARRAY_2D"
    else if ms then .error "MS can't be used in ARRAY_2D"
    else .ok 8

/-- `tlds_type`, operand.h:1573-1640. -/
def runTldsType (address : Nat) : M Unit := do
  let v ← getValue
  let ll : Bool := ((v >>> address) &&& 1#64) ≠ 0#64
  let aoffi : Bool := ((v >>> (address + 1)) &&& 1#64) ≠ 0#64
  let ms : Bool := ((v >>> (address + 2)) &&& 1#64) ≠ 0#64
  setValue (v &&& ~~~(7#64 <<< address))
  let r ← findInTable true [c!"1D", c!"2D", c!"3D", c!"ARRAY_2D"] []
  match r with
  | none => failTok "expected 1D, 2D, ARRAY_2D, or 3D"
  | some i =>
    match tldsMode i ll aoffi ms with
    | .error msg => failTok msg
    | .ok mode => do
      addBits (BitVec.ofNat 64 mode <<< address)
      advance

/-- The bits chosen by `texs_type`, operand.h:1656-1739, or its complaint.
    `lod`: 0 None, 1 LL, 2 LZ.  A `lod` of 3 (no such enumerator) makes the C++
    `switch`es over 2D fall out without adding bits; `texs_mode` never writes it. -/
def texsBits (type : Nat) (lod : Nat) (dc : Bool) : Except Msg (BitVec 64) :=
  match type with
  | 0 =>
    if lod ≠ 2 ∨ dc then .error "1D is only valid with LZ and no-DC" else .ok 0#64
  | 1 =>
    if dc then
      match lod with
      | 0 => .ok 0x0080000000000000#64
      | 2 => .ok 0x00C0000000000000#64
      | 1 => .ok 0x00A0000000000000#64
      | _ => .ok 0#64
    else
      match lod with
      | 0 => .ok 0x0020000000000000#64
      | 2 => .ok 0x0040000000000000#64
      | 1 => .ok 0x0060000000000000#64
      | _ => .ok 0#64
  | 7 =>
    if dc then
      if lod ≠ 2 then .error "DC ARRAY_2D is only valid with LZ" else .ok 0x0120000000000000#64
    else
      match lod with
      | 0 => .ok 0x00E0000000000000#64
      | 2 => .ok 0x0100000000000000#64
      | _ => .error "LL ARRAY_2D is illegal"
  | 10 =>
    if dc then .error "3D cannot be DC"
    else
      match lod with
      | 0 => .ok 0x0140000000000000#64
      | 2 => .ok 0x0160000000000000#64
      | _ => .error "3D can only have the default lod or LZ"
  | 12 =>
    if dc then .error "CUBE cannot be DC"
    else
      match lod with
      | 0 => .ok 0x0180000000000000#64
      | 1 => .ok 0x01A0000000000000#64
      | _ => .error "CUBE can only have the default lod or LL"
  | _ => .ok 0#64

/-- The type table of `texs_type`, operand.h:1645-1647. -/
def texsTypeTable : List Str :=
  [c!"1D", c!"2D", [], [], [], [], [], c!"ARRAY_2D", [], [], c!"3D", [], c!"CUBE", []]

/-- `texs_type`, operand.h:1642-1742. -/
def runTexsType (address : Nat) : M Unit := do
  let r ← findInTable true texsTypeTable []
  match r with
  | none => failTok "expected 1D, 2D, ARRAY_2D, 3D, or CUBE"
  | some i => do
    let v ← getValue
    let lod := ((v >>> address) &&& 3#64).toNat
    let dc : Bool := ((v >>> address) &&& 4#64) ≠ 0#64
    setValue (v &&& ~~~(7#64 <<< address))
    match texsBits i lod dc with
    | .error msg => failTok msg
    | .ok b => do
      addBits b
      advance

/-- The swizzle codes of `texs_swizzle`, operand.h:1746-1780: index of the component
    string, placed at bit 50. -/
def swizzleSingle : List Str :=
  [c!"R", c!"G", c!"B", c!"A", c!"RG", c!"RA", c!"GA", c!"BA"]
/-- See `swizzleSingle`. -/
def swizzleDouble : List Str := [c!"RGB", c!"RGA", c!"RBA", c!"GBA", c!"RGBA"]

/-- `texs_swizzle`, operand.h:1744-1783.  The constants added at lines 1748-1776 are
    `index << 50`. -/
def runTexsSwizzle : M Unit := do
  let v ← getValue
  let r ← findInTable true
    (if ((v >>> 28) &&& 0xFF#64) = 0xFF#64 then swizzleSingle else swizzleDouble) []
  match r with
  | none => failTok "invalid RGBA swizzle"
  | some i => do
    addBits (BitVec.ofNat 64 i <<< 50)
    advance

/-- The code of each operand parser. -/
def Operand.run : Operand → M Unit
  | .flag s a => runFlag s a
  | .uint m a => runUint m a
  | .sint b a => runSint b a
  | .dotTable d a t => runDotTable d a t
  | .uimmExtended => runUimmExtended
  | .comma => runComma
  | .label => runLabel
  | .gpr a => assembleGpr a
  | .mirrorGpr a => runMirror a
  | .cbuf => runCbuf
  | .imm20 => runImm20
  | .fimm w => runFimm w
  | .dimm20 => runDimm20
  | .himm w o n => runHimm w o n
  | .bop a => runBop a
  | .pred a n => runPred a n
  | .invertedPred a => runInvertedPred a
  | .neg a => runSign .minus a
  | .tilde a => runSign .tilde a
  | .abs a inner => runAbs a inner.run
  | .po a b => runPo a b
  | .defaultRz a => addBits (0xFF#64 <<< a)
  | .memAddress i a s r => runMemAddress i a s r
  | .ccTests a t => runCcTests a t
  | .expect s pre post => runExpect s pre post
  | .optText s => runOptText s
  | .immAttr => runImmAttr
  | .patchAttr => runPatchAttr
  | .physAttr => runPhysAttr
  | .xmadSigns => runXmadSigns
  | .f2fRounding => runF2fRounding
  | .intFormat u s a b => runIntFormat u s a b
  | .plainTable a t => runPlainTable a t
  | .selector a t k s b => runSelector a t k s b
  | .ldcAddress => runLdcAddress
  | .s2r t => runS2r t
  | .ldgSize => runLdgSize
  | .atomicSize a => runAtomicSize a
  | .srcFormat a s => runSrcFormat a s
  | .immFormat s => runDotTable (some 1) s [c!"U16", c!"S16"]
  | .texType a => runTexType a
  | .zero => runZero
  | .texsMode a => runTexsMode a
  | .tldsType a => runTldsType a
  | .texsType a => runTexsType a
  | .texsSwizzle => runTexsSwizzle

end Nxas
