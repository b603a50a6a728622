import Verif.Lemmas.Cover
/-
Sources for the rows 0 to 95 that use all their bits, see `covers`.
-/

namespace Nxas

set_option Elab.async false

/-- Rows 0 to 11. -/
def covering0 : List (List Str) :=
  [[c!"AL2P P0, R0, RZ, 0;", c!"@!P0 AL2P.O.96 PT, RZ, R0.reuse, -1;", c!"AL2P.64 P0, R0, R0, 0;"],
   [c!"AL2P R0, RZ, 0;", c!"@!P0 AL2P.O RZ, R0.reuse, -1;", c!"AL2P.128 R0, RZ, 0;"],
   [c!"AL2P P0, RZ, 0;", c!"@!P0 AL2P.O.64 PT, R0, -1;", c!"AL2P.96 PT, RZ, 0;"],
   [c!"AL2P R0, 0;", c!"@!P0 AL2P.O.128 RZ, -1;"],
   [c!"AL2P P0, R0, RZ;", c!"@!P0 AL2P.O.96 PT, RZ, R0.reuse;", c!"AL2P.64 PT, RZ, RZ;"],
   [c!"AL2P R0, RZ;", c!"@!P0 AL2P.O.128 RZ, R0.reuse;"],
   [c!"AL2P PT, RZ;", c!"@!P0 AL2P.128 P0, R0;", c!"AL2P.O P0, R0;"],
   [c!"AL2P RZ;", c!"@!P0 AL2P.O.128 R0;"],
   [c!"ALD R0, a[0];", c!"@!P0 ALD.O.128 RZ, a[1023];"],
   [c!"ALD R0, a[0], R0;", c!"@!P0 ALD.O RZ, a[1023], RZ.reuse;", c!"ALD.128 RZ, a[0], RZ;"],
   [c!"ALD.P RZ, a[RZ-1];", c!"@!P0 ALD.O.P.128 R0, a[R0.reuse+0];"],
   [c!"ALD.P R0, a[RZ-1], R0;", c!"@!P0 ALD.O.P.128 RZ, a[R0+0], RZ.reuse;", c!"ALD.P R0, a[R0.reuse+0], RZ;"]]

theorem covering0_bits : covers 0 covering0 = true := by decide +kernel

/-- Rows 12 to 23. -/
def covering1 : List (List Str) :=
  [[c!"ALD.PHYS RZ, a[R0];", c!"@!P0 ALD.O.PHYS.128 R0, a[RZ];", c!"ALD.PHYS RZ, a[R0.reuse];"],
   [c!"ALD.PHYS RZ, a[RZ], RZ;", c!"@!P0 ALD.PHYS.128 R0, a[R0.reuse], R0;", c!"ALD.O.PHYS.32 R0, a[R0], RZ.reuse;"],
   [c!"AST a[0], R0;", c!"@!P0 AST.128 a[1023], RZ;"],
   [c!"AST a[0], RZ, RZ;", c!"@!P0 AST.128 a[1023], R0, R0.reuse;"],
   [c!"AST.P a[RZ-1], RZ;", c!"@!P0 AST.P.128 a[R0+0], R0;", c!"AST.P a[R0.reuse+0], RZ;"],
   [c!"AST.PHYS a[R0], R0;", c!"@!P0 AST.PHYS.128 a[RZ], RZ;", c!"AST.PHYS a[R0.reuse], R0;"],
   [c!"AST.PHYS a[R0], R0, RZ;", c!"@!P0 AST.PHYS a[RZ], RZ, R0.reuse;", c!"AST.PHYS.128 a[R0.reuse], RZ, RZ;"],
   [c!"ATOM.ADD R0, [R0], R0;", c!"@!P0 ATOM.OR.S64 RZ, [RZ+1048575], RZ;", c!"@!P0 ATOM.SAFEADD.F32.FTZ.RN RZ, [RZ.reuse], RZ.reuse;", c!"ATOM.E.MIN RZ, [RZ], RZ;"],
   [c!"ATOMS.OR.U32 R0, [R0], R0;", c!"@!P0 ATOMS.MIN.S32 RZ, [RZ+4194303], RZ;", c!"@!PT ATOMS.EXCH.S64 RZ, [R0-1], R0.reuse;", c!"ATOMS.ADD.U32 R0, [RZ.reuse], R0;"],
   [c!"B2R R0, 0;", c!"@!P0 B2R RZ, 255;"],
   [c!"B2R.WARP RZ;", c!"@!P0 B2R.WARP R0;"],
   [c!"B2R.RESULT R0, PT;", c!"@!P0 B2R.RESULT RZ, !P0;"]]

theorem covering1_bits : covers 12 covering1 = true := by decide +kernel

/-- Rows 24 to 35. -/
def covering2 : List (List Str) :=
  [[c!"BFE R0, R0, R0;", c!"@!P0 BFE.U32.BREV RZ.CC, RZ.reuse, RZ;", c!"BFE RZ, RZ, R0.reuse;"],
   [c!"BFE R0, R0, c[0][0];", c!"@!P0 BFE.U32.BREV RZ.CC, RZ, c[31][-4];", c!"BFE RZ, RZ.reuse, c[31][-4];"],
   [c!"BFE R0, R0, 0;", c!"@!P0 BFE.U32.BREV RZ.CC, RZ, -1;", c!"BFE RZ, R0.reuse, 0;"],
   [c!"BFI RZ, R0, R0, RZ;", c!"@!P0 BFI R0.CC, RZ.reuse, RZ.reuse, R0;", c!"BFI R0, RZ, RZ, R0.reuse;"],
   [c!"BFI R0, R0, R0, c[0][0];", c!"@!P0 BFI RZ.CC, RZ, RZ, c[31][-4];", c!"BFI R0, R0.reuse, RZ.reuse, c[0][0];"],
   [c!"BFI R0, R0, c[0][0], RZ;", c!"@!P0 BFI RZ.CC, RZ, c[31][-4], R0.reuse;", c!"BFI R0, R0.reuse, c[0][0], R0;"],
   [c!"BFI RZ, RZ, 0, R0;", c!"@P0 BFI R0, R0.reuse, -1, RZ.reuse;", c!"@!PT BFI R0.CC, RZ, 0, R0;"],
   [c!"BPT.CAL 0;", c!"@!P0 BPT.INT 1048575;", c!"BPT.TRAP 0;"],
   [c!"BPT.INT;", c!"@!P0 BPT.TRAP;"],
   [c!"CSET.AND R0, CC, P0;", c!"@!P0 CSET.BF.F.OR RZ.CC, CC, !PT;", c!"CSET.BF.LO.XOR RZ, CC, !P0;"],
   [c!"CSETP.OR P0, P0, CC, P0;", c!"@!P0 CSETP.OFF.INVALIDBOP3 PT, PT, CC, PT;", c!"CSETP.AND P0, P0, CC, !PT;"],
   [c!"DADD R0, R0, R0;", c!"@!P0 DADD.RZ RZ.CC, - RZ, - RZ;", c!"DADD.RZ R0, |R0.reuse|, |R0.reuse|;"]]

theorem covering2_bits : covers 24 covering2 = true := by decide +kernel

/-- Rows 36 to 47. -/
def covering3 : List (List Str) :=
  [[c!"DADD R0, R0, c[0][0];", c!"@P0 DADD RZ.CC, - |RZ.reuse|, - |c[31][-4]|;", c!"@!PT DADD.RZ RZ, RZ, |c[0][0]|;"],
   [c!"DADD R0, R0, 0;", c!"@P0 DADD.RZ RZ.CC, - RZ, -QNAN .NEG.ABS;", c!"@!PT DADD.RM R0, - |R0.reuse|, 16777215 .NEG;"],
   [c!"DFMA R0, R0, R0, RZ;", c!"@!P0 DFMA.RM RZ.CC, RZ, RZ.reuse, - R0;", c!"@!P0 DFMA.RP RZ, R0.reuse, - R0, - R0.reuse;"],
   [c!"DFMA R0, RZ, R0, c[0][0];", c!"@P0 DFMA.RZ RZ.CC, R0.reuse, - RZ.reuse, - c[31][-4];", c!"@!PT DFMA R0, R0, RZ, c[0][0];"],
   [c!"DFMA R0, R0, c[0][0], R0;", c!"@!P0 DFMA.RM RZ.CC, RZ, - c[31][-4], - RZ;", c!"DFMA.RP RZ.CC, R0.reuse, - c[0][0], RZ.reuse;"],
   [c!"DFMA R0, R0, 0, RZ;", c!"@P0 DFMA.RN RZ.CC, RZ.reuse, -QNAN .NEG, - R0.reuse;", c!"@!P0 DFMA.RZ RZ, R0, 16777215, RZ;"],
   [c!"DMNMX R0, R0, R0, PT;", c!"@!P0 DMNMX RZ, - |RZ.reuse|, |RZ|, !P0;", c!"DMNMX RZ.CC, RZ, - R0.reuse, PT;"],
   [c!"DMNMX RZ, R0, c[0][0], P0;", c!"@!P0 DMNMX R0.CC, - RZ, - c[31][-4], !PT;", c!"DMNMX R0, |RZ.reuse|, |c[0][0]|, !PT;"],
   [c!"DMNMX R0, R0, 0, PT;", c!"@!P0 DMNMX RZ.CC, - RZ, -QNAN .NEG.ABS, !P0;", c!"@P0 DMNMX RZ, - |R0.reuse|, 16777215, P0;"],
   [c!"DMUL RZ, R0, RZ;", c!"@!P0 DMUL.RM R0.CC, RZ.reuse, R0;", c!"DMUL.RP RZ, RZ, - R0.reuse;"],
   [c!"DMUL RZ, RZ, c[0][0];", c!"@!P0 DMUL R0.CC, R0.reuse, - c[31][-4];", c!"DMUL.RZ RZ, RZ, c[0][0];"],
   [c!"DMUL R0, R0, 0;", c!"@!P0 DMUL.RZ RZ, RZ.reuse, -QNAN .NEG;", c!"DMUL.RP R0.CC, RZ, 16777215;"]]

theorem covering3_bits : covers 36 covering3 = true := by decide +kernel

/-- Rows 48 to 59. -/
def covering4 : List (List Str) :=
  [[c!"DSET.F.OR R0, RZ, RZ, PT;", c!"@!P0 DSET.T.XOR RZ, R0, R0, P0;", c!"@P0 DSET.BF.NE.XOR RZ, - |RZ|, - |RZ.reuse|, !P0;", c!"DSET.F.AND R0.CC, |R0.reuse|, R0, P0;"],
   [c!"DSET.F.AND R0, R0, c[0][0], P0;", c!"@P0 DSET.BF.GTU.OR RZ.CC, - |RZ.reuse|, - c[31][-4], PT;", c!"@!P0 DSET.BF.NUM.XOR R0, - |RZ|, |c[31][-4]|, !P0;"],
   [c!"DSET.F.OR R0, R0, 0, PT;", c!"@!P0 DSET.BF.GEU.AND RZ.CC, - RZ, -QNAN .ABS, P0;", c!"@P0 DSET.BF.LTU.INVALIDBOP3 R0.CC, |RZ.reuse|, 16777215 .ABS, !P0;", c!"DSET.F.OR R0, R0, 0 .NEG, P0;"],
   [c!"DSETP.F.OR P0, PT, R0, R0, PT;", c!"@P0 DSETP.T.XOR PT, P0, - |RZ.reuse|, |RZ|, PT;", c!"@!PT DSETP.F.OR P0, PT, |RZ|, - RZ.reuse, !P0;"],
   [c!"DSETP.F.OR P0, P0, R0, c[0][0], P0;", c!"@!P0 DSETP.LEU.OR PT, PT, - RZ, - c[31][-4], PT;", c!"DSETP.GE.XOR P0, PT, |R0.reuse|, |c[31][-4]|, PT;", c!"DSETP.F.AND P0, P0, R0, c[0][0], !PT;"],
   [c!"DSETP.F.AND P0, P0, R0, 0, P0;", c!"@!P0 DSETP.GEU.OR PT, PT, - RZ, -QNAN .NEG.ABS, !PT;", c!"@!PT DSETP.LT.INVALIDBOP3 PT, PT, RZ.reuse, 16777215, PT;", c!"DSETP.GTU.XOR PT, P0, |RZ|, 0, !P0;"],
   [c!"NOP;", c!"@!P0 NOP.TRIG;"],
   [c!"NOP CC;", c!"@!P0 NOP.TRIG CC.F;", c!"NOP CC.HS;"],
   [c!"NOP 0;", c!"@!P0 NOP.TRIG 65535;"],
   [c!"NOP CC, 0;", c!"@!P0 NOP.TRIG CC.F, 65535;", c!"NOP CC.HS, 0;"],
   [c!"MOV RZ, RZ;", c!"@!P0 MOV R0, R0.reuse;"],
   [c!"MOV R0, RZ, 0;", c!"@!P0 MOV RZ, R0, 15;", c!"MOV R0, RZ.reuse, 0;"]]

theorem covering4_bits : covers 48 covering4 = true := by decide +kernel

/-- Rows 60 to 71. -/
def covering5 : List (List Str) :=
  [[c!"MOV R0, c[0][0];", c!"@!P0 MOV RZ, c[31][-4];"],
   [c!"MOV R0, c[0][0], 0;", c!"@!P0 MOV RZ, c[31][-4], 15;"],
   [c!"MOV RZ, 0;", c!"@!P0 MOV R0, -1;"],
   [c!"MOV RZ, 0, 0;", c!"@!P0 MOV R0, -1, 15;"],
   [c!"MOV32I RZ, 0;", c!"@!P0 MOV32I R0, 4294967295;"],
   [c!"MOV32I R0, 0, 0;", c!"@!P0 MOV32I RZ, 4294967295, 15;"],
   [c!"MUFU.COS R0, R0;", c!"@!P0 MUFU.RCP64H RZ, - |RZ.reuse|;", c!"MUFU.RSQ.SAT R0, R0;", c!"MUFU.SQRT RZ, - RZ;"],
   [c!"S2R RZ, SR95;", c!"@!P0 S2R R0, SR_TID;", c!"S2R RZ, SR255;"],
   [c!"FADD R0, R0, R0;", c!"@P0 FADD.FTZ.RZ.SAT RZ, - RZ, - |RZ.reuse|;", c!"@!P0 FADD.RN R0.CC, |RZ.reuse|, |R0|;"],
   [c!"FADD R0, R0, c[0][0];", c!"@!P0 FADD.FTZ.RZ.SAT RZ.CC, - RZ, - c[31][-4];", c!"FADD R0, |RZ.reuse|, |c[31][-4]|;"],
   [c!"FADD R0, RZ, 0;", c!"@!P0 FADD.FTZ.SAT RZ.CC, R0, 16777215;", c!"@!PT FADD.RZ R0.CC, |R0.reuse|, -QNAN .NEG.ABS;", c!"FADD RZ, - RZ, 0;"],
   [c!"FADD32I R0, R0, 0;", c!"@!P0 FADD32I.FTZ RZ.CC, - RZ, 16777215 .NEG.ABS;", c!"FADD32I RZ, |R0.reuse|, -QNAN;"]]

theorem covering5_bits : covers 60 covering5 = true := by decide +kernel

/-- Rows 72 to 83. -/
def covering6 : List (List Str) :=
  [[c!"FFMA R0, R0, R0, R0;", c!"@P0 FFMA.INVALIDFMZ3.RM.SAT RZ.CC, RZ.reuse, - RZ.reuse, - RZ;", c!"@!P0 FFMA.RP.SAT RZ, RZ, RZ, - RZ.reuse;"],
   [c!"FFMA R0, R0, RZ, c[0][0];", c!"@!P0 FFMA.RP.SAT RZ.CC, RZ, - R0.reuse, - c[31][-4];", c!"FFMA.INVALIDFMZ3.RM R0, R0.reuse, R0, - c[0][0];"],
   [c!"FFMA RZ, R0, c[0][0], R0;", c!"@!P0 FFMA.FMZ.RZ R0, RZ.reuse, - c[31][-4], RZ;", c!"@P0 FFMA.INVALIDFMZ3.RZ.SAT R0.CC, R0.reuse, - c[31][-4], - R0.reuse;"],
   [c!"FFMA R0, R0, 0, R0;", c!"@!P0 FFMA.INVALIDFMZ3.RM.SAT RZ.CC, RZ.reuse, 16777215, - RZ.reuse;", c!"FFMA.RZ.SAT RZ, R0, -QNAN .NEG, R0;"],
   [c!"FFMA32I R0, R0, 0, R0;", c!"@P0 FFMA32I..SAT RZ.CC, - RZ, 16777215, - RZ;", c!"@!PT FFMA32I.INVALIDFMZ3 R0.CC, - R0.reuse, -QNAN, - R0;"],
   [c!"FMNMX R0, R0, R0, P0;", c!"@!P0 FMNMX.FTZ RZ.CC, - RZ, - |RZ.reuse|, PT;", c!"@!P0 FMNMX R0, |R0.reuse|, RZ, !P0;"],
   [c!"FMNMX R0, R0, c[0][0], P0;", c!"@!P0 FMNMX.FTZ RZ.CC, - RZ, - c[31][-4], !PT;", c!"FMNMX RZ, - |R0.reuse|, |c[0][0]|, !PT;"],
   [c!"FMNMX R0, R0, 0, P0;", c!"@!P0 FMNMX.FTZ RZ, - |RZ.reuse|, 16777215 .NEG.ABS, PT;", c!"FMNMX R0.CC, - R0, -QNAN, !PT;"],
   [c!"FMUL R0, R0, R0;", c!"@!P0 FMUL..D8.RN.SAT RZ.CC, RZ.reuse, - RZ;", c!"@!PT FMUL.INVALIDFMZ3.M4.RZ R0, RZ, R0.reuse;"],
   [c!"FMUL R0, R0, c[0][0];", c!"@P0 FMUL.FMZ.D4.RZ.SAT RZ.CC, RZ.reuse, c[31][-4];", c!"@!P0 FMUL.FTZ.INVALIDSCALE37 R0.CC, RZ, - c[0][0];"],
   [c!"FMUL R0, RZ, 0;", c!"@P0 FMUL.INVALIDFMZ3.M2.RM RZ.CC, R0.reuse, 16777215 .NEG;", c!"FMUL..M4.RZ.SAT RZ, RZ, -QNAN;", c!"@!P0 FMUL R0, R0, 0;"],
   [c!"FMUL32I R0, R0, 0;", c!"@!P0 FMUL32I.INVALIDFMZ3.SAT RZ.CC, RZ, 16777215;", c!"@P0 FMUL32I R0, R0.reuse, -QNAN;"]]

theorem covering6_bits : covers 72 covering6 = true := by decide +kernel

/-- Rows 84 to 95. -/
def covering7 : List (List Str) :=
  [[c!"FSET.F.OR R0, R0, R0, P0;", c!"@P0 FSET.BF.NEU.FTZ.INVALIDBOP3 RZ.CC, RZ.reuse, - RZ, !PT;", c!"@!P0 FSET.LEU.FTZ.XOR RZ.CC, - |R0|, R0.reuse, !P0;", c!"FSET.EQ.AND R0, R0, |RZ|, P0;"],
   [c!"FSET.F.OR R0, R0, c[0][0], P0;", c!"@P0 FSET.BF.GEU.FTZ.OR RZ.CC, - RZ.reuse, - c[31][-4], PT;", c!"@!PT FSET.BF.LEU.AND RZ, - |R0|, - |c[31][-4]|, !P0;", c!"FSET.F.XOR R0, R0, |c[31][-4]|, P0;"],
   [c!"FSET.T.OR R0, R0, 0, P0;", c!"@P0 FSET.F.FTZ.INVALIDBOP3 RZ.CC, - |RZ.reuse|, 16777215 .NEG.ABS, !PT;", c!"@!P0 FSET.BF.LEU.XOR RZ, R0, -QNAN .NEG.ABS, P0;"],
   [c!"FSETP.NE.OR PT, P0, R0, RZ, P0;", c!"@!P0 FSETP.EQ.FTZ.INVALIDBOP3 P0, PT, - RZ, - R0.reuse, P0;", c!"FSETP.LTU.FTZ.AND P0, PT, - |R0.reuse|, |RZ.reuse|, !PT;"],
   [c!"FSETP.F.AND P0, PT, R0, c[0][0], P0;", c!"@!P0 FSETP.NE.AND PT, P0, |RZ.reuse|, - |c[31][-4]|, !PT;", c!"@P0 FSETP.LEU.FTZ.INVALIDBOP3 PT, P0, - |R0.reuse|, c[0][0], !PT;"],
   [c!"FSETP.F.OR P0, P0, R0, 0, P0;", c!"@!P0 FSETP.LT.FTZ.XOR PT, PT, - RZ, 16777215 .ABS, PT;", c!"@!P0 FSETP.LEU.AND PT, P0, |RZ.reuse|, -QNAN .NEG, !P0;", c!"FSETP.GE.AND P0, P0, R0, 0, P0;"],
   [c!"XMAD R0, R0, R0, R0;", c!"@!P0 XMAD.S16.S16.PSL..MRG.X RZ.CC, RZ.reuse, RZ.H0, RZ;", c!"@!P0 XMAD.PSL.CBCC.MRG.X R0, RZ.reuse.H1, R0.reuse.H1, RZ.reuse;", c!"@P0 XMAD.CSFU R0, R0, R0, R0;"],
   [c!"XMAD RZ, R0, RZ, c[0][0];", c!"@!P0 XMAD.S16.S16..X R0.CC, RZ.H1, R0, c[31][-4];", c!"XMAD.U16.S16.CSFU.X R0, RZ.reuse.H0, RZ.reuse.H1, c[0][0];"],
   [c!"XMAD R0, R0, c[0][0], R0;", c!"@!P0 XMAD.S16.S16.PSL.CSFU.MRG.X RZ.CC, RZ.H0, c[31][-4], RZ;", c!"XMAD..X R0, R0.reuse.H1, c[31][-4].H1, RZ.reuse;"],
   [c!"XMAD R0, R0, 0, R0;", c!"@!P0 XMAD.S16.S16.PSL.CHI.MRG.X RZ.CC, RZ.H0, 65535, RZ;", c!"XMAD.U16.S16.CLO R0.CC, R0.reuse.H1, 0, RZ.reuse;", c!"XMAD.CBCC.X RZ, R0.H0, 65535, RZ;"],
   [c!"SHR R0, R0, R0;", c!"@!P0 SHR.U32.W.XHI.BREV RZ.CC, RZ.reuse, RZ.reuse;"],
   [c!"SHR R0, R0, c[0][0];", c!"@!P0 SHR.U32.W.XHI.BREV RZ.CC, RZ, c[31][-4];", c!"SHR R0, R0.reuse, c[0][0];"]]

theorem covering7_bits : covers 84 covering7 = true := by decide +kernel

end Nxas
