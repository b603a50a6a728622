import Verif.Lemmas.Cover
/-
Sources for the rows 192 to 264 that use all their bits, see `covers`.
-/

namespace Nxas

set_option Elab.async false

/-- Rows 192 to 203. -/
def covering16 : List (List Str) :=
  [[c!"LOP32I.OR R0, R0, 0;", c!"@!P0 LOP32I.OR.X RZ.CC, ~ RZ, 4294967295 .INV;", c!"LOP32I.XOR R0, RZ.reuse, 0;"],
   [c!"LOP3.LUT PT, RZ, RZ, R0, R0, 0;", c!"LOP3.LUT.X.NZ P0, R0.CC, R0.reuse, RZ, RZ.reuse, 255;", c!"@!P0 LOP3.LUT. P0, R0, R0, R0.reuse, R0, 0;"],
   [c!"LOP3.LUT R0, R0, R0, R0, 0;", c!"@!P0 LOP3.LUT.X.T RZ.CC, RZ, RZ, RZ, 255;", c!"LOP3.LUT.Z R0.CC, R0.reuse, R0.reuse, RZ.reuse, 255;"],
   [c!"LOP3.LUT RZ, R0, 0, R0, 0;", c!"@!P0 LOP3.LUT R0.CC, RZ, -1, RZ, 255;", c!"LOP3.LUT R0, R0.reuse, 0, R0.reuse, 0;"],
   [c!"LOP3.LUT R0, R0, c[0][0], R0, 0;", c!"@!P0 LOP3.LUT RZ.CC, RZ, c[31][-4], RZ.reuse, 255;", c!"LOP3.LUT R0, R0.reuse, c[0][0], R0, 0;"],
   [c!"FCMP.T R0, RZ, RZ, RZ;", c!"@!P0 FCMP.LT.FTZ RZ, R0.reuse, R0, R0;", c!"@P0 FCMP.GT RZ, R0, R0.reuse, RZ.reuse;"],
   [c!"FCMP.F RZ, R0, R0, c[0][0];", c!"@!P0 FCMP.LE.FTZ R0, RZ, RZ, c[31][-4];", c!"FCMP.NEU.FTZ R0, R0.reuse, RZ.reuse, c[0][0];"],
   [c!"FCMP.T RZ, R0, c[0][0], RZ;", c!"@!P0 FCMP.F.FTZ R0, RZ.reuse, c[31][-4], R0.reuse;"],
   [c!"FCMP.F R0, RZ, 0, RZ;", c!"FCMP.T.FTZ RZ, R0, 16777215, R0.reuse;", c!"@!P0 FCMP.LTU RZ, RZ.reuse, -QNAN, R0;"],
   [c!"SEL R0, RZ, R0, P0;", c!"@!P0 SEL RZ, R0.reuse, RZ.reuse, !PT;"],
   [c!"SEL RZ, RZ, c[0][0], PT;", c!"@!P0 SEL R0, R0, c[31][-4], !P0;", c!"SEL RZ, R0.reuse, c[0][0], PT;"],
   [c!"SEL RZ, RZ, 0, PT;", c!"@!P0 SEL R0, R0, -1, P0;", c!"SEL R0, RZ.reuse, 0, !PT;"]]

theorem covering16_bits : covers 192 covering16 = true := by decide +kernel

/-- Rows 204 to 215. -/
def covering17 : List (List Str) :=
  [[c!"SHFL.UP P0, R0, R0, R0, R0;", c!"@!P0 SHFL.BFLY PT, RZ, RZ, RZ, RZ.reuse;", c!"SHFL.IDX P0, R0, R0.reuse, R0.reuse, R0;"],
   [c!"SHFL.UP PT, RZ, R0, 0, RZ;", c!"@!P0 SHFL.UP P0, R0, RZ, 31, R0.reuse;", c!"SHFL.DOWN P0, R0, R0.reuse, 0, R0;"],
   [c!"SHFL.UP PT, RZ, RZ, RZ, 0;", c!"@P0 SHFL.DOWN P0, R0, R0.reuse, R0, 8191;", c!"@!PT SHFL.UP P0, RZ, R0, RZ.reuse, 0;"],
   [c!"SHFL.UP PT, RZ, RZ, 0, 0;", c!"@!P0 SHFL.IDX P0, R0, R0, 31, 8191;", c!"SHFL.DOWN P0, RZ, RZ.reuse, 0, 0;"],
   [c!"SHL R0, R0, R0;", c!"@!P0 SHL.W.X RZ.CC, RZ.reuse, RZ;", c!"SHL R0, R0, R0.reuse;"],
   [c!"SHL R0, RZ, c[0][0];", c!"@!P0 SHL.W RZ.CC, R0.reuse, c[31][-4];", c!"SHL.X R0, R0, c[0][0];"],
   [c!"SHL R0, R0, 0;", c!"@!P0 SHL.W.X RZ.CC, RZ, -1;", c!"SHL RZ, RZ.reuse, 0;"],
   [c!"SYNC;", c!"@!P0 SYNC CC.OFF;"],
   [c!"CONT;", c!"@!P0 CONT CC.OFF;"],
   [c!"BRK;", c!"@!P0 BRK CC.OFF;"],
   [c!"KIL;", c!"@!P0 KIL CC.OFF;"],
   [c!"RET;", c!"@!P0 RET CC.OFF;"]]

theorem covering17_bits : covers 204 covering17 = true := by decide +kernel

/-- Rows 216 to 227. -/
def covering18 : List (List Str) :=
  [[c!"LONGJMP;", c!"@!P0 LONGJMP CC.F;", c!"LONGJMP CC.HS;"],
   [c!"EXIT;", c!"@!P0 EXIT CC.OFF;", c!"EXIT.KEEPREFCOUNT;"],
   [c!"RRO.EX2 RZ, RZ;", c!"@!P0 RRO.SINCOS R0, - |R0|;", c!"RRO.EX2 RZ, R0.reuse;"],
   [c!"RRO.EX2 RZ, c[0][0];", c!"@!P0 RRO.EX2 R0, - |c[31][-4]|;", c!"RRO.SINCOS R0, c[0][0];"],
   [c!"RRO.EX2 RZ, 0;", c!"@!P0 RRO.SINCOS R0, 16777215 .NEG;", c!"RRO.EX2 R0, -QNAN .ABS;"],
   [c!"SUST.P.1D [R0], R0, R0;", c!"@!P0 SUST.P.1D_ARRAY.WT.RA.TRAP [RZ.reuse], RZ, RZ.reuse;", c!"SUST.P.3D.B [R0], R0, R0;"],
   [c!"SUST.P.1D [R0], R0, 0;", c!"@P0 SUST.P.2D.WT.R [RZ], RZ, 8191;", c!"SUST.P.3D.CS.G.TRAP [RZ], R0, 0;", c!"@!PT SUST.P.1D [RZ.reuse], R0, 0;"],
   [c!"SUST.D.1D [R0], R0, R0;", c!"@!P0 SUST.D.3D.CG.S16.IGN [RZ], RZ, RZ;", c!"@!PT SUST.D.2D.WT.128.TRAP [RZ.reuse], RZ, R0;", c!"SUST.D.1D.64 [R0], R0, RZ.reuse;"],
   [c!"SUST.D.1D [RZ], R0, 0;", c!"@!P0 SUST.D.1D.CG.S8.TRAP [R0], RZ, 8191;", c!"SUST.D.3D.WT.S16 [RZ.reuse], RZ, 0;", c!"SUST.D.2D.WT [RZ], R0, 0;"],
   [c!"SULD.P.1D R0, [R0], R0;", c!"@!P0 SULD.P.2D.CG.B RZ, [RZ], RZ.reuse;", c!"@P0 SULD.P.2D_ARRAY..A.TRAP RZ, [RZ.reuse], R0;", c!"SULD.P.1D.CV R0, [R0], R0;"],
   [c!"SULD.P.1D R0, [R0], 0;", c!"@!P0 SULD.P.2D...TRAP RZ, [RZ], 8191;", c!"@!PT SULD.P.3D.CV.GA RZ, [RZ.reuse], 0;"],
   [c!"SULD.D.3D RZ, [R0], RZ;", c!"@!P0 SULD.D.BA.1D_BUFFER.CV.S16 R0, [RZ.reuse], R0;", c!"@!P0 SULD.D.1D_ARRAY.CI.S16.TRAP R0, [RZ], RZ.reuse;"]]

theorem covering18_bits : covers 216 covering18 = true := by decide +kernel

/-- Rows 228 to 239. -/
def covering19 : List (List Str) :=
  [[c!"SULD.D.1D RZ, [RZ], 0;", c!"@P0 SULD.D.1D_BUFFER..64.TRAP R0, [R0], 8191;", c!"@!P0 SULD.D.BA.2D_ARRAY.CV.S16 RZ, [RZ], 0;", c!"SULD.D.2D RZ, [RZ.reuse], 0;"],
   [c!"VOTE.EQ RZ, PT, PT;", c!"@!P0 VOTE.ANY R0, P0, !P0;"],
   [c!"VMAD R0, R0, R0, R0;", c!"@!P0 VMAD.S32.PO..SAT RZ.CC, R0.reuse.B0, RZ, RZ;", c!"@!P0 VMAD.S8.U8 R0.CC, - RZ.B1, R0, R0.reuse;", c!"VMAD.S16.INVALIDVMADSCALE3 R0, - R0.reuse.H0, R0.reuse.B1, R0;", c!"VMAD.U8. R0, R0, R0, R0;"],
   [c!"VMAD R0, R0, 0, R0;", c!"@P0 VMAD.S8.U16..SAT RZ.CC, - RZ, 65535, - RZ;", c!"@!PT VMAD.U8.S16.PO.SHR_15.SAT RZ.CC, RZ.reuse.B1, 65535, R0;", c!"VMAD.S16.U16.SHR_7.SAT R0, RZ, 65535, - RZ.reuse;"],
   [c!"VMNMX R0, R0, R0, RZ;", c!"@!P0 VMNMX.SD.S8.U32.MRG_16L RZ.CC, RZ.reuse, RZ.B1, R0;", c!"@!P0 VMNMX.SD.U32.S8.MX.MAX RZ, R0.B1, RZ.reuse.B0, R0.reuse;", c!"VMNMX.UD.SAT R0, RZ, R0, R0;"],
   [c!"VMNMX R0, R0, 0, R0;", c!"@!P0 VMNMX.UD.S8.U16.MN.SAT.MRG_16H RZ.CC, RZ.B1, 65535, RZ;", c!"@!PT VMNMX.U16.S16.MX RZ, R0.H1, 0, R0.reuse;", c!"VMNMX R0, RZ.reuse, 0, R0;"],
   [c!"VSETP..XOR P0, PT, R0, R0, P0;", c!"@!PT VSETP.F.S8.S8.AND PT, P0, RZ.reuse, RZ.B1, PT;", c!"@P0 VSETP.NE.U8.S32.AND P0, PT, R0, R0, P0;", c!"VSETP.T.S8.S8.XOR PT, P0, R0.reuse.B2, RZ.reuse.B0, !PT;", c!"VSETP..S8.U8.XOR P0, PT, R0.B3, RZ, PT;"],
   [c!"VSETP.F.OR P0, P0, R0, 0, P0;", c!"@!P0 VSETP.LT.S8.U16.OR PT, PT, RZ.B1, 65535, PT;", c!"@!PT VSETP.GE.S8.S16.XOR P0, PT, R0.reuse.B1, 65535, !PT;", c!"VSETP.F.U8.AND P0, P0, R0, 0, P0;"],
   [c!"STG [R0], RZ;", c!"@!P0 STG.S16 [RZ+16777215], R0;", c!"STG.E.WT [RZ.reuse], R0;"],
   [c!"STS [RZ], RZ;", c!"@P0 STS.S8 [R0-1], R0;", c!"@!P0 STS.U16 [RZ.reuse], R0;"],
   [c!"STL [RZ], RZ;", c!"@!P0 STL.CS.S8 [R0-1], R0;", c!"@P0 STL.CG.S16 [RZ.reuse], RZ;"],
   [c!"TEX P0, R0, R0, R0, 0, 1D, 0;", c!"@!P0 TEX.NDV.NODEP.AOFFI..DC.LC PT, RZ, RZ, RZ, 8191, ARRAY_2D, 15;", c!"@!PT TEX.AOFFI.LBA.DC PT, RZ, RZ.reuse, R0.reuse, 8191, 3D, 0;", c!"TEX.LL.DC P0, R0, R0, R0, 0, 1D, 0;"]]

theorem covering19_bits : covers 228 covering19 = true := by decide +kernel

/-- Rows 240 to 251. -/
def covering20 : List (List Str) :=
  [[c!"TEX.B P0, R0, R0, R0, 0, 1D, 0;", c!"@P0 TEX.B.NDV.NODEP.AOFFI.LLA.DC.LC PT, RZ, RZ, RZ, 0, 3D, 15;", c!"@!P0 TEX.B.NDV.LB.LC P0, RZ, R0.reuse, RZ.reuse, 0, ARRAY_2D, 15;"],
   [c!"TEXS.LZ RZ, R0, R0, RZ, 0, 1D, G;", c!"@!P0 TEXS..NODEP R0, RZ, RZ, R0.reuse, 8191, 2D, RGA;", c!"@P0 TEXS.F16 RZ, RZ, RZ, R0, 8191, CUBE, GA;", c!"@!P0 TEXS.LZ RZ, RZ, RZ.reuse, R0, 0, 2D, RA;"],
   [c!"TLD4.R P0, R0, R0, R0, 0, 1D, 0;", c!"@P0 TLD4.G.PTP.DC.NDV.NODEP PT, RZ, RZ, RZ, 8191, CUBE, 15;", c!"@!PT TLD4.A.AOFFI.DC.NDV.NODEP P0, R0, RZ.reuse, RZ.reuse, 0, ARRAY_2D, 0;"],
   [c!"TLD4.R.B P0, RZ, R0, R0, 0, 1D, 0;", c!"@!P0 TLD4.G.B..DC PT, R0, RZ, RZ, 0, ARRAY_2D, 15;", c!"@!P0 TLD4.B.B.AOFFI.DC.NDV.NODEP PT, R0, R0.reuse, R0.reuse, 0, ARRAY_CUBE, 0;", c!"TLD4.R.B.PTP P0, RZ, R0, R0, 0, 1D, 0;"],
   [c!"TLD4S.R R0, R0, R0, R0, 0;", c!"@!P0 TLD4S..G.AOFFI.DC.NODEP RZ, RZ, RZ, RZ, 8191;", c!"@P0 TLD4S.F16.B RZ, RZ, RZ.reuse, R0.reuse, 0;"],
   [c!"TLD.LZ P0, R0, R0, R0, 0, 1D, 0;", c!"@!P0 TLD.LL.AOFFI.MS.CL.NODEP PT, RZ, RZ.reuse, RZ, 8191, ARRAY_1D, 15;", c!"TLD.LL.CL P0, RZ, RZ, RZ.reuse, 0, CUBE, 0;"],
   [c!"TLD.B.LZ PT, R0, RZ, R0, 0, 2D, 0;", c!"@!P0 TLD.B.LL.AOFFI.MS.CL.NODEP PT, RZ, R0.reuse, RZ, 0, ARRAY_1D, 15;", c!"TLD.B.LZ P0, R0, R0, R0.reuse, 0, 3D, 0;"],
   [c!"TLDS.LL RZ, R0, R0, R0, 0, 3D, A;", c!"@!P0 TLDS.F16.LL.AOFFI.NODEP RZ, RZ, RZ, RZ, 8191, 2D, G;", c!"TLDS..LZ.NODEP R0, R0, R0.reuse, RZ, 0, ARRAY_2D, RGBA;", c!"TLDS.LL RZ, R0, R0, R0.reuse, 0, ARRAY_2D, A;"],
   [c!"TMML.LOD RZ, R0, 0, 1D, 0;", c!"@P0 TMML.LOD.NDV R0, RZ.reuse, 8191, ARRAY_3D, 15;", c!"@!P0 TMML.LOD.NODEP RZ, R0, 0, 2D, 0;"],
   [c!"TMML.B.LOD R0, R0, R0, 0, 1D, 0;", c!"@P0 TMML.B.LOD.NDV.NODEP RZ, RZ, RZ.reuse, 0, ARRAY_CUBE, 15;", c!"@!P0 TMML.B.LOD R0, R0.reuse, R0, 0, 1D, 0;"],
   [c!"TXD P0, R0, R0, RZ, 0, 3D, 0;", c!"@!P0 TXD.LC.AOFFI P0, RZ, RZ, R0.reuse, 8191, ARRAY_1D, 15;", c!"@P0 TXD.NODEP PT, RZ, RZ.reuse, R0.reuse, 0, CUBE, 15;"],
   [c!"TXD.B P0, R0, R0, R0, 0, 1D, 0;", c!"@!P0 TXD.B.LC.AOFFI PT, RZ, RZ.reuse, RZ, 0, CUBE, 15;", c!"TXD.B.LC.NODEP PT, RZ, RZ, RZ.reuse, 0, ARRAY_1D, 15;"]]

theorem covering20_bits : covers 240 covering20 = true := by decide +kernel

/-- Rows 252 to 263. -/
def covering21 : List (List Str) :=
  [[c!"TXQ R0, R0, TEX_HEADER_DIMENSION, 0, 0;", c!"@!P0 TXQ.NODEP RZ, RZ.reuse, TEX_HEADER_DIMENSION, 8191, 15;", c!"TXQ R0, R0, TEX_HEADER_TEXTURE_TYPE, 0, 0;", c!"TXQ R0, RZ, TEX_HEADER_SAMPLER_POS, 0, 15;"],
   [c!"TXQ.B RZ, R0, TEX_HEADER_DIMENSION, 0, 0;", c!"@!P0 TXQ.B.NODEP R0, RZ, TEX_HEADER_SAMPLER_POS, 0, 15;", c!"TXQ.B R0, RZ.reuse, TEX_HEADER_TEXTURE_TYPE, 0, 0;"],
   [c!"LDG R0, [R0];", c!"@!P0 LDG.S16 RZ, [RZ+16777215];", c!"@!P0 LDG.E.CV.U16 RZ, [RZ.reuse];"],
   [c!"LDG P0, R0, [R0];", c!"@!P0 LDG.CI.128 PT, RZ, [RZ+1048575];", c!"LDG.E.CV.S8 PT, RZ, [RZ.reuse];"],
   [c!"LDS RZ, [RZ];", c!"@P0 LDS.U.S16 R0, [R0-1];", c!"@!PT LDS R0, [RZ.reuse];"],
   [c!"LDL R0, [RZ];", c!"@P0 LDL.CV.128 RZ, [R0-1];", c!"@!PT LDL.S8 RZ, [RZ.reuse];"],
   [c!"RED [R0], RZ;", c!"@P0 RED.E.XOR.F32.FTZ.RN [RZ+1048575], R0;", c!"@!P0 RED.XOR.F16x2.RN [RZ.reuse], R0;"],
   [c!"BRA, 15;", c!"@!P0 BRA.U.LMT CC.F, 16;", c!"BRA CC.HS, 16;"],
   [c!"BRA 15;", c!"@!P0 BRA.U.LMT 16;"],
   [c!"PBK 15;", c!"@!PT PBK 16;"],
   [c!"SSY 15;", c!"@!PT SSY 16;"],
   [c!"CAL 16;", c!"@!PT CAL.NOINC 15;"]]

theorem covering21_bits : covers 252 covering21 = true := by decide +kernel

/-- Rows 264 to 264. -/
def covering22 : List (List Str) :=
  [[c!"PCNT 15;", c!"@!PT PCNT 16;"]]

theorem covering22_bits : covers 264 covering22 = true := by decide +kernel

end Nxas
