import Verif.Model.Assemble
/-
`context::write_dksh` (src/dksh.cpp) once more, with all the members it reads and with the structures it fills as bytes in memory.
The layout is that of the System V ABI on a little-endian machine: `uint32_t` and `unsigned` have four bytes and are aligned to four,
`bool` has one.
-/

namespace Nxas

/-- The members of `class context` that `write_dksh` reads, src/context.h:59-79, including those that no code assigns. -/
structure Members where
  type : Option ProgType := none
  entrypoint : Option Str := none
  numGprs : BitVec 32 := 8
  localMem : BitVec 32 := 0
  secondEntrypoint : Option Str := none
  secondNumGprs : BitVec 32 := 0
  earlyFragmentTests : Bool := false
  postDepthCoverage : Bool := false
  persampleInvocation : Bool := false
  blockDims : BitVec 32 × BitVec 32 × BitVec 32 := (1, 1, 1)
  sharedMem : BitVec 32 := 0
  numBarriers : BitVec 32 := 0
  deriving DecidableEq, Repr

/-- The members after the options of a source: the others keep their initial values. -/
def Opts.members (o : Opts) : Members :=
  { type := o.type, localMem := o.localMem, blockDims := o.blockDims, sharedMem := o.sharedMem }

/-- An object in memory. -/
abbrev Bytes := List (BitVec 8)

/-- `memcpy(m + off, bs, sizeof(bs))`. -/
def Bytes.put (m : Bytes) (off : Nat) (bs : Bytes) : Bytes := m.take off ++ bs ++ m.drop (off + bs.length)

/-- A 32-bit number in memory. -/
def le32 (v : BitVec 32) : Bytes := [v.extractLsb' 0 8, v.extractLsb' 8 8, v.extractLsb' 16 8, v.extractLsb' 24 8]

/-- A `bool` in memory. -/
def byteOfBool (b : Bool) : Bytes := [if b then 1#8 else 0#8]

/-- The 64-bit numbers of an array in memory. -/
def words64 : Bytes → List (BitVec 64)
  | b0 :: b1 :: b2 :: b3 :: b4 :: b5 :: b6 :: b7 :: rest =>
    ((b7 ++ b6 ++ b5 ++ b4 ++ b3 ++ b2 ++ b1 ++ b0 : BitVec 64)) :: words64 rest
  | _ => []

/-- `align256`, src/dksh.cpp:71-74, in `size_t`. -/
def align256z (v : BitVec 64) : BitVec 64 := (v + 0xFF#64) &&& (~~~0xFF#32).signExtend 64

/-- `align8`, src/dksh.cpp:76-79, in `size_t`. -/
def align8z (v : BitVec 64) : BitVec 64 := (v + 0xF#64) &&& (~~~0xF#32).signExtend 64

/-- `dksh_header`, src/dksh.cpp:11-19, 131-137: 24 bytes. -/
def headerBytes (codeSize : Nat) : Bytes :=
  let h : Bytes := List.replicate 24 0#8
  let h := h.put 0 (le32 0x48534B44#32)
  let h := h.put 4 (le32 24#32)
  let h := h.put 8 (le32 ((align256z (24#64 + 64#64)).setWidth 32))
  let h := h.put 12 (le32 ((align256z (BitVec.ofNat 64 codeSize * 8#64)).setWidth 32))
  let h := h.put 16 (le32 24#32)
  h.put 20 (le32 1#32)

/-- The assignments to the union, src/dksh.cpp:108-129; the union begins at byte 24.  The flags of fragment shaders are its second to
    fourth byte, src/dksh.cpp:36-46; the members for compute shaders are 32-bit numbers, src/dksh.cpp:58-66. -/
def unionBytes (m : Members) (pos : BitVec 32) (type : ProgType) (h : Bytes) : Res Bytes :=
  match type with
  | .vertex =>
    if m.secondEntrypoint.isSome ∨ m.secondNumGprs ≠ 0 then .exit (.plain "dual vertex shaders are not implemented") else .ok h
  | .fragment =>
    let h := h.put 25 (byteOfBool m.earlyFragmentTests)
    let h := h.put 26 (byteOfBool m.postDepthCoverage)
    .ok (h.put 27 (byteOfBool m.persampleInvocation))
  | .compute =>
    let h := h.put 24 (le32 m.blockDims.1 ++ le32 m.blockDims.2.1 ++ le32 m.blockDims.2.2)
    let h := h.put 36 (le32 ((align256z (m.sharedMem.signExtend 64)).setWidth 32))
    let h := h.put 40 (le32 pos)
    let h := h.put 44 (le32 0#32)
    let h := h.put 48 (le32 0x800#32)
    .ok (h.put 52 (le32 m.numBarriers))
  | _ => .ok h

/-- The program header up to the union, src/dksh.cpp:100-107. -/
def commonBytes (m : Members) (type : ProgType) (off : Nat) (scratch : BitVec 32) : Bytes :=
  let p : Bytes := List.replicate 64 0#8
  let p := p.put 0 (le32 (BitVec.ofNat 32 type.code))
  let p := p.put 4 (le32 (BitVec.ofNat 32 (off - 8)))
  let p := p.put 8 (le32 m.numGprs)
  let p := p.put 12 (le32 0#32)
  let p := p.put 16 (le32 0#32)
  p.put 20 (le32 scratch)

/-- The control section: an array of zeros into which both structures are copied, src/dksh.cpp:139-142. -/
def controlBytes (header program : Bytes) : Bytes :=
  let r : Bytes := List.replicate 256 0#8
  let r := r.put 0 header
  r.put 24 program

/-- `context::write_dksh`, src/dksh.cpp:81-144. -/
def writeDkshBytes (m : Members) (labels : Labels) (codeSize : Nat) : Res (List (BitVec 64)) :=
  match m.type with
  | none => .exit (.plain "no type provided, valid are types: vertex, tess_control, tess_eval, geometry, fragment, compute")
  | some type =>
    let entry := m.entrypoint.getD c!"main"
    match labels.find entry with
    | none => .exit (.plain ⟨"entrypoint \"%s\" not found", [.text entry]⟩)
    | some off =>
      if off % 32 ≠ 8 then .exit (.plain "entrypoint is not aligned")
      else
        let pos : BitVec 32 := (align8z (m.localMem.signExtend 64)).setWidth 32
        let scratch : Int := (pos.toInt + 0) * 32 + 0x800
        if scratch < -(2 ^ 31) ∨ scratch > 2 ^ 31 - 1 then .ub .scratchOverflow
        else
          match unionBytes m pos type (commonBytes m type off (BitVec.ofInt 32 scratch)) with
          | .ok p => .ok (words64 (controlBytes (headerBytes codeSize) p))
          | .exit d => .exit d
          | .abort => .abort
          | .ub u => .ub u

end Nxas
