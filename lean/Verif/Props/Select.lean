import Verif.Lemmas.Readback
/-
C57: every row of the instruction table is used for some source.
-/

namespace Nxas

set_option Elab.async false

/-! ### A source for every row -/

/-- Rows 0 to 23. -/
def selecting0 : List Str :=
  [c!"AL2P P1, R1, R2, 1;",
   c!"AL2P R1, R2, 1;",
   c!"AL2P P1, R1, 1;",
   c!"AL2P R1, 1;",
   c!"AL2P P1, R1, R2;",
   c!"AL2P R1, R2;",
   c!"AL2P P1, R1;",
   c!"AL2P R1;",
   c!"ALD R1, a[0x10];",
   c!"ALD R1, a[0x10], R5;",
   c!"ALD.P R1, a[R1+0x10];",
   c!"ALD.P R1, a[R1+0x10], R5;",
   c!"ALD.PHYS R1, a[R1];",
   c!"ALD.PHYS R1, a[R1], R5;",
   c!"AST a[0x10], R1;",
   c!"AST a[0x10], R1, R5;",
   c!"AST.P a[R1+0x10], R1;",
   c!"AST.PHYS a[R1], R1;",
   c!"AST.PHYS a[R1], R1, R5;",
   c!"ATOM.ADD R1, [R1], R7;",
   c!"ATOMS.ADD.U32 R1, [R1], R7;",
   c!"B2R R1, 1;",
   c!"B2R.WARP R1;",
   c!"B2R.RESULT R1, P1;"]

/-- Rows 24 to 47. -/
def selecting1 : List Str :=
  [c!"BFE R1, R2, R7;",
   c!"BFE R1, R2, c[1][4];",
   c!"BFE R1, R2, 1;",
   c!"BFI R1, R2, R7, R5;",
   c!"BFI R1, R2, R5, c[1][4];",
   c!"BFI R1, R2, c[1][4], R5;",
   c!"BFI R1, R2, 1, R5;",
   c!"BPT.DRAIN_ILLEGAL 1;",
   c!"BPT.DRAIN_ILLEGAL;",
   c!"CSET.AND R1, CC, P1;",
   c!"CSETP.AND P1, P1, CC, P1;",
   c!"DADD R1, R2, R7;",
   c!"DADD R1, R2, c[1][4];",
   c!"DADD R1, R2, 1.0;",
   c!"DFMA R1, R2, R7, R5;",
   c!"DFMA R1, R2, R5, c[1][4];",
   c!"DFMA R1, R2, c[1][4], R5;",
   c!"DFMA R1, R2, 1.0, R5;",
   c!"DMNMX R1, R2, R7, P1;",
   c!"DMNMX R1, R2, c[1][4], P1;",
   c!"DMNMX R1, R2, 1.0, P1;",
   c!"DMUL R1, R2, R7;",
   c!"DMUL R1, R2, c[1][4];",
   c!"DMUL R1, R2, 1.0;"]

/-- Rows 48 to 71. -/
def selecting2 : List Str :=
  [c!"DSET.F.AND R1, R2, R7, P1;",
   c!"DSET.F.AND R1, R2, c[1][4], P1;",
   c!"DSET.F.AND R1, R2, 1.0, P1;",
   c!"DSETP.F.AND P1, P1, R2, R7, P1;",
   c!"DSETP.F.AND P1, P1, R2, c[1][4], P1;",
   c!"DSETP.F.AND P1, P1, R2, 1.0, P1;",
   c!"NOP;",
   c!"NOP CC;",
   c!"NOP 1;",
   c!"NOP CC, 1;",
   c!"MOV R1, R7;",
   c!"MOV R1, R7, 1;",
   c!"MOV R1, c[1][4];",
   c!"MOV R1, c[1][4], 1;",
   c!"MOV R1, 1;",
   c!"MOV R1, 1, 1;",
   c!"MOV32I R1, 1;",
   c!"MOV32I R1, 1, 1;",
   c!"MUFU.COS R1, R2;",
   c!"S2R R1, SR_CLOCK;",
   c!"FADD R1, R2, R7;",
   c!"FADD R1, R2, c[1][4];",
   c!"FADD R1, R2, 1.0;",
   c!"FADD32I R1, R2, 1.0;"]

/-- Rows 72 to 95. -/
def selecting3 : List Str :=
  [c!"FFMA R1, R2, R7, R5;",
   c!"FFMA R1, R2, R5, c[1][4];",
   c!"FFMA R1, R2, c[1][4], R5;",
   c!"FFMA R1, R2, 1.0, R5;",
   c!"FFMA32I R1, R2, 1.0, R1;",
   c!"FMNMX R1, R2, R7, P1;",
   c!"FMNMX R1, R2, c[1][4], P1;",
   c!"FMNMX R1, R2, 1.0, P1;",
   c!"FMUL R1, R2, R7;",
   c!"FMUL R1, R2, c[1][4];",
   c!"FMUL R1, R2, 1.0;",
   c!"FMUL32I R1, R2, 1.0;",
   c!"FSET.F.AND R1, R2, R7, P1;",
   c!"FSET.F.AND R1, R2, c[1][4], P1;",
   c!"FSET.F.AND R1, R2, 1.0, P1;",
   c!"FSETP.F.AND P1, P1, R2, R7, P1;",
   c!"FSETP.F.AND P1, P1, R2, c[1][4], P1;",
   c!"FSETP.F.AND P1, P1, R2, 1.0, P1;",
   c!"XMAD R1, R2, R7, R5;",
   c!"XMAD R1, R2, R5, c[1][4];",
   c!"XMAD R1, R2, c[1][4], R5;",
   c!"XMAD R1, R2, 1, R5;",
   c!"SHR R1, R2, R7;",
   c!"SHR R1, R2, c[1][4];"]

/-- Rows 96 to 119. -/
def selecting4 : List Str :=
  [c!"SHR R1, R2, 1;",
   c!"SHF.R R1, R2, R7, R5;",
   c!"SHF.L R1, R2, R7, R5;",
   c!"SHF.R R1, R2, 1, R5;",
   c!"SHF.L R1, R2, 1, R5;",
   c!"F2F R1, R7;",
   c!"F2F R1, c[1][4];",
   c!"F2F R1, 1.0;",
   c!"F2I.INVALID0 R1, R7;",
   c!"F2I.INVALID0 R1, c[1][4];",
   c!"I2F.U8 R1, R7;",
   c!"I2F.U8 R1, c[1][4];",
   c!"I2F.U8 R1, 1;",
   c!"I2I.U8.U8 R1, R7;",
   c!"I2I.U8.U8 R1, c[1][4];",
   c!"I2I.U8.U8 R1, 1;",
   c!"HADD2 R1, R2, R7;",
   c!"HADD2 R1, R2, c[1][4];",
   c!"HADD2 R1, R2, 1.0, 1.0;",
   c!"HADD2_32I R1, R2, 1.0, 1.0;",
   c!"HFMA2 R1, R2, c[1][4], R5;",
   c!"HFMA2 R1, R2, 1.0, 1.0, R5;",
   c!"HFMA2 R1, R2, R5, c[1][4];",
   c!"HFMA2 R1, R2, R7, R5;"]

/-- Rows 120 to 143. -/
def selecting5 : List Str :=
  [c!"HFMA2_32I R1, R2, 1.0, 1.0, R1;",
   c!"HMUL2 R1, R2, R7;",
   c!"HMUL2 R1, R2, c[1][4];",
   c!"HMUL2 R1, R2, 1.0, 1.0;",
   c!"HMUL2_32I R1, R2, 1.0, 1.0;",
   c!"HSET2.F.AND R1, R2, R7, P1;",
   c!"HSET2.F.AND R1, R2, c[1][4], P1;",
   c!"HSET2.F.AND R1, R2, 1.0, 1.0, P1;",
   c!"HSETP2.F.AND P1, P1, R2, R7, P1;",
   c!"HSETP2.F.AND P1, P1, R2, c[1][4], P1;",
   c!"HSETP2.F.AND P1, P1, R2, 1.0, 1.0, P1;",
   c!"PSETP.AND.AND P1, P1, P1, P1, P1;",
   c!"PSET.AND.AND R1, P1, P1, P1;",
   c!"P2R R1, PR, R2, R7;",
   c!"P2R R1, PR, R2, c[1][4];",
   c!"P2R R1, PR, R2, 1;",
   c!"R2P PR, R2, R7;",
   c!"R2P PR, R2, c[1][4];",
   c!"R2P PR, R2, 1;",
   c!"IADD R1, R2, R7;",
   c!"IADD R1, R2, c[1][4];",
   c!"IADD R1, R2, 1;",
   c!"IADD32I R1, R2, 1;",
   c!"IADD3 R1, R2, R7, R5;"]

/-- Rows 144 to 167. -/
def selecting6 : List Str :=
  [c!"IADD3 R1, R2, c[1][4], R5;",
   c!"IADD3 R1, R2, 1, R5;",
   c!"ICMP.F R1, R2, R7, R5;",
   c!"ICMP.F R1, R2, R5, c[1][4];",
   c!"ICMP.F R1, R2, c[1][4], R5;",
   c!"ICMP.F R1, R2, 1, R5;",
   c!"IMNMX R1, R2, R7, P1;",
   c!"IMNMX R1, R2, c[1][4], P1;",
   c!"IMNMX R1, R2, 1, P1;",
   c!"ISCADD R1, R2, R7, 1;",
   c!"ISCADD R1, R2, c[1][4], 1;",
   c!"ISCADD R1, R2, 1, 1;",
   c!"ISET.F.AND R1, R2, R7, P1;",
   c!"ISET.F.AND R1, R2, c[1][4], P1;",
   c!"ISET.F.AND R1, R2, 1, P1;",
   c!"ISETP.F.AND P1, P1, R2, R7, P1;",
   c!"ISETP.F.AND P1, P1, R2, c[1][4], P1;",
   c!"ISETP.F.AND P1, P1, R2, 1, P1;",
   c!"FLO R1, R7;",
   c!"FLO R1, c[1][4];",
   c!"FLO R1, 1;",
   c!"POPC R1, R7;",
   c!"POPC R1, c[1][4];",
   c!"POPC R1, 1;"]

/-- Rows 168 to 191. -/
def selecting7 : List Str :=
  [c!"LDC.U8 R1, c[0x1][R1];",
   c!"LEA.HI R1, R2, R7, R5;",
   c!"LEA.HI R1, R2, R7, R5, 1;",
   c!"LEA.HI P1, R1, R2, R7, R5;",
   c!"LEA.HI P1, R1, R2, R7, R5, 1;",
   c!"LEA.HI R1, R2, c[1][4], R5;",
   c!"LEA.HI R1, R2, c[1][4], R5, 1;",
   c!"LEA.HI P1, R1, R2, c[1][4], R5;",
   c!"LEA.HI P1, R1, R2, c[1][4], R5, 1;",
   c!"LEA R1, R2, R7;",
   c!"LEA R1, R2, R7, 1;",
   c!"LEA P1, R1, R2, R7;",
   c!"LEA P1, R1, R2, R7, 1;",
   c!"LEA R1, R2, c[1][4];",
   c!"LEA R1, R2, c[1][4], 1;",
   c!"LEA P1, R1, R2, c[1][4];",
   c!"LEA P1, R1, R2, c[1][4], 1;",
   c!"LEA R1, R2, 1;",
   c!"LEA R1, R2, 1, 1;",
   c!"LEA P1, R1, R2, 1;",
   c!"LEA P1, R1, R2, 1, 1;",
   c!"LOP.AND P1, R1, R2, R7;",
   c!"LOP.AND P1, R1, R2, c[1][4];",
   c!"LOP.AND P1, R1, R2, 1;"]

/-- Rows 192 to 215. -/
def selecting8 : List Str :=
  [c!"LOP32I.AND R1, R2, 1;",
   c!"LOP3.LUT P1, R1, R2, R7, R5, 1;",
   c!"LOP3.LUT R1, R2, R7, R5, 1;",
   c!"LOP3.LUT R1, R2, 1, R5, 1;",
   c!"LOP3.LUT R1, R2, c[1][4], R5, 1;",
   c!"FCMP.F R1, R2, R7, R5;",
   c!"FCMP.F R1, R2, R5, c[1][4];",
   c!"FCMP.F R1, R2, c[1][4], R5;",
   c!"FCMP.F R1, R2, 1.0, R5;",
   c!"SEL R1, R2, R7, P1;",
   c!"SEL R1, R2, c[1][4], P1;",
   c!"SEL R1, R2, 1, P1;",
   c!"SHFL.IDX P1, R1, R2, R7, R5;",
   c!"SHFL.IDX P1, R1, R2, 1, R5;",
   c!"SHFL.IDX P1, R1, R2, R7, 1;",
   c!"SHFL.IDX P1, R1, R2, 1, 1;",
   c!"SHL R1, R2, R7;",
   c!"SHL R1, R2, c[1][4];",
   c!"SHL R1, R2, 1;",
   c!"SYNC;",
   c!"CONT;",
   c!"BRK;",
   c!"KIL;",
   c!"RET;"]

/-- Rows 216 to 239. -/
def selecting9 : List Str :=
  [c!"LONGJMP;",
   c!"EXIT;",
   c!"RRO.SINCOS R1, R7;",
   c!"RRO.SINCOS R1, c[1][4];",
   c!"RRO.SINCOS R1, 1.0;",
   c!"SUST.P.1D [R1], R1, R5;",
   c!"SUST.P.1D [R1], R1, 1;",
   c!"SUST.D.1D [R1], R1, R5;",
   c!"SUST.D.1D [R1], R1, 1;",
   c!"SULD.P.1D R1, [R1], R5;",
   c!"SULD.P.1D R1, [R1], 1;",
   c!"SULD.D.1D R1, [R1], R5;",
   c!"SULD.D.1D R1, [R1], 1;",
   c!"VOTE.ALL R1, P1, P1;",
   c!"VMAD R1, R2, R7, R5;",
   c!"VMAD R1, R2, 1, R5;",
   c!"VMNMX R1, R2, R7, R5;",
   c!"VMNMX R1, R2, 1, R5;",
   c!"VSETP.F.AND P1, P1, R2, R7, P1;",
   c!"VSETP.F.AND P1, P1, R2, 1, P1;",
   c!"STG [R1], R1;",
   c!"STS [R1], R1;",
   c!"STL [R1], R1;",
   c!"TEX P1, R1, R2, R7, 1, 2D, 1;"]

/-- Rows 240 to 263. -/
def selecting10 : List Str :=
  [c!"TEX.B P1, R1, R2, R7, 0, 2D, 1;",
   c!"TEXS R1, R1, R2, R7, 1, 2D, RGBA;",
   c!"TLD4.R P1, R1, R2, R7, 1, 2D, 1;",
   c!"TLD4.R.B P1, R1, R2, R7, 0, 2D, 1;",
   c!"TLD4S.R R1, R1, R2, R7, 1;",
   c!"TLD.LZ P1, R1, R2, R7, 1, 2D, 1;",
   c!"TLD.B.LZ P1, R1, R2, R7, 0, 2D, 1;",
   c!"TLDS.LZ R1, R1, R2, R7, 1, 2D, RGBA;",
   c!"TMML.LOD R1, R2, 1, 2D, 1;",
   c!"TMML.B.LOD R1, R2, R7, 0, 2D, 1;",
   c!"TXD P1, R1, R2, R7, 1, 2D, 1;",
   c!"TXD.B P1, R1, R2, R7, 0, 2D, 1;",
   c!"TXQ R1, R2, TEX_HEADER_DIMENSION, 1, 1;",
   c!"TXQ.B R1, R2, TEX_HEADER_DIMENSION, 0, 1;",
   c!"LDG R1, [R1];",
   c!"LDG P1, R1, [R1];",
   c!"LDS R1, [R1];",
   c!"LDL R1, [R1];",
   c!"RED [R1], R1;",
   c!"BRA, 0x10;",
   c!"BRA 0x10;",
   c!"PBK 0x10;",
   c!"SSY 0x10;",
   c!"CAL 0x10;"]

/-- Rows 264 to 264. -/
def selecting11 : List Str :=
  [c!"PCNT 0x10;"]

/-- A source for every row. -/
def selecting : List Str :=
  selecting0 ++
    selecting1 ++
    selecting2 ++
    selecting3 ++
    selecting4 ++
    selecting5 ++
    selecting6 ++
    selecting7 ++
    selecting8 ++
    selecting9 ++
    selecting10 ++
    selecting11

/-- The sources are encoded by the rows from number `n` on. -/
def selects (n : Nat) (l : List Str) : Bool :=
  (l.zipIdx n).all fun x => (instrRow true x.1 0).any (·.1 == x.2)

theorem selecting0_row : selects 0 selecting0 = true := by decide +kernel
theorem selecting1_row : selects 24 selecting1 = true := by decide +kernel
theorem selecting2_row : selects 48 selecting2 = true := by decide +kernel
theorem selecting3_row : selects 72 selecting3 = true := by decide +kernel
theorem selecting4_row : selects 96 selecting4 = true := by decide +kernel
theorem selecting5_row : selects 120 selecting5 = true := by decide +kernel
theorem selecting6_row : selects 144 selecting6 = true := by decide +kernel
theorem selecting7_row : selects 168 selecting7 = true := by decide +kernel
theorem selecting8_row : selects 192 selecting8 = true := by decide +kernel
theorem selecting9_row : selects 216 selecting9 = true := by decide +kernel
theorem selecting10_row : selects 240 selecting10 = true := by decide +kernel
theorem selecting11_row : selects 264 selecting11 = true := by decide +kernel

theorem selects_append {n m : Nat} {l l' : List Str} (h : selects n l = true) (hm : m = l.length + n) (h' : selects m l' = true) :
    selects n (l ++ l') = true := by
  subst hm
  unfold selects at *
  rw [List.zipIdx_append, List.all_append, h, Nat.add_comm n, h']
  rfl

theorem selecting_row : selects 0 selecting = true := by
  unfold selecting
  exact selects_append (selects_append (selects_append (selects_append (selects_append (selects_append (selects_append (selects_append (selects_append (selects_append (selects_append selecting0_row (by decide +kernel)
    selecting1_row) (by decide +kernel)
    selecting2_row) (by decide +kernel)
    selecting3_row) (by decide +kernel)
    selecting4_row) (by decide +kernel)
    selecting5_row) (by decide +kernel)
    selecting6_row) (by decide +kernel)
    selecting7_row) (by decide +kernel)
    selecting8_row) (by decide +kernel)
    selecting9_row) (by decide +kernel)
    selecting10_row) (by decide +kernel)
    selecting11_row

theorem selecting_length : selecting.length = insnTable.length := by decide +kernel

/-- C57. No row is hidden by the rows before it: there is a source that the row encodes (in the debug build and hence in the
    release build, see C26). -/
theorem C57 : ∀ row ∈ insnTable, ∃ code args op, Instr true code 0 row args op := by
  intro row hr
  obtain ⟨n, hn⟩ := List.mem_iff_getElem?.1 hr
  have hlt : n < selecting.length := by
    rw [selecting_length]
    exact (List.getElem?_eq_some_iff.1 hn).1
  have h := List.all_eq_true.1 selecting_row (selecting[n], n) (List.mem_zipIdx_iff_getElem?.2 (List.getElem?_eq_getElem hlt))
  rw [Option.any_eq_true] at h
  obtain ⟨⟨m, op⟩, h1, h2⟩ := h
  obtain rfl : m = n := eq_of_beq h2
  obtain ⟨row', args, h3, h4⟩ := instr_of_row h1
  obtain rfl : row = row' := Option.some.inj (hn.symm.trans h3)
  exact ⟨_, args, op, h4⟩

/-- C57. The rows are different, so that a row is determined by its contents. -/
theorem C57_distinct : insnTable.Pairwise (· ≠ ·) := by
  decide +kernel

/-- The last of the 20 rows of `LEA`. -/
example : (instrRow true c!"LEA P1, R1, R2, 1, 1;" 0).map (·.1) = some 188 := by decide +kernel

end Nxas
