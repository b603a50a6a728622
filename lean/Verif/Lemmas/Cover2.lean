import Verif.Lemmas.Cover
/-
Sources for the rows 96 to 191 that use all their bits, see `covers`.
-/

namespace Nxas

set_option Elab.async false

/-- Rows 96 to 107. -/
def covering8 : List (List Str) :=
  [[c!"SHR R0, R0, 0;", c!"@!P0 SHR.U32.C.X.BREV RZ.CC, RZ.reuse, -1;", c!"SHR.U32.W.XHI RZ.CC, R0, -1;"],
   [c!"SHF.R R0, R0, RZ, RZ;", c!"@P0 SHF.R.W.S64.XHI RZ.CC, RZ.reuse, R0.reuse, R0.reuse;", c!"@!PT SHF.R R0, R0, R0, R0;"],
   [c!"SHF.L R0, R0, R0, R0;", c!"@P0 SHF.L.W.S64 RZ.CC, RZ.reuse, RZ.reuse, RZ.reuse;", c!"@!PT SHF.L.XHI RZ, R0, R0, R0;"],
   [c!"SHF.R R0, R0, 0, R0;", c!"@!PT SHF.R.W.S64.XHI RZ.CC, RZ.reuse, 63, RZ.reuse;", c!"@P0 SHF.R R0, RZ, 0, R0;"],
   [c!"SHF.L R0, RZ, 0, R0;", c!"@P0 SHF.L.W.S64 RZ, R0.reuse, 63, RZ;", c!"@!P0 SHF.L.XHI R0, R0, 0, R0.reuse;", c!"SHF.L R0.CC, RZ, 0, RZ;"],
   [c!"F2F R0, R0;", c!"@!P0 F2F.FTZ...ROUND.SAT RZ.CC, - |RZ|.H0;", c!"F2F.FTZ.F64.F64.FLOOR RZ, - |RZ.reuse|.H1;", c!"F2F.PASS R0, R0;"],
   [c!"F2F R0, c[0][0];", c!"@!P0 F2F.FTZ...CEIL.SAT RZ.CC, - c[31][-4].H0;", c!"F2F.F16.F16.TRUNC R0, |c[0][0]|.H0;", c!"F2F R0, c[0][0].H1;"],
   [c!"F2F R0, 0;", c!"@!P0 F2F.FTZ...ROUND.SAT RZ.CC, 16777215 .NEG.ABS.H0;", c!"F2F.FTZ.F64.F64.PASS RZ, -QNAN;", c!"F2F.F16 R0, 0 .H1;"],
   [c!"F2I.U64 R0, R0;", c!"@!P0 F2I.FTZ.U16..CEIL RZ.CC, - RZ.H1;", c!"@P0 F2I.INVALID1.F16.FLOOR R0, R0.reuse;", c!"@P0 F2I.S64. R0, - |R0|;"],
   [c!"F2I.S16 RZ, c[0][0];", c!"@P0 F2I.FTZ.U32.F16.TRUNC R0, |c[31][-4]|.H1;", c!"@!P0 F2I.U16.. RZ.CC, - c[31][-4];"],
   [c!"I2F.U8 R0, R0;", c!"@!P0 I2F..U64.RN RZ, - |RZ.reuse|.B1;", c!"@!PT I2F.F16.S32.RM R0.CC, |R0|.B3;", c!"I2F.U8.RZ R0, R0;"],
   [c!"I2F.U8 R0, c[0][0];", c!"@!P0 I2F.F16.S16.RZ RZ, - c[31][-4].H0;", c!"I2F.F32.U32.RZ R0.CC, - |c[31][-4]|.B3;"]]

theorem covering8_bits : covers 96 covering8 = true := by decide +kernel

/-- Rows 108 to 119. -/
def covering9 : List (List Str) :=
  [[c!"I2F.U8 R0, 0;", c!"@!P0 I2F.F32.U64.RZ RZ, -1 .NEG.ABS.B3;", c!"I2F.F16.S8.RP RZ.CC, -1 .B1;"],
   [c!"I2I.S8.U8 R0, R0;", c!"@!P0 I2I.U32.U16.SAT RZ.CC, - RZ.INVALIDSIZE3;", c!"@!PT I2I.U16.S32.SAT R0.CC, - |R0.reuse|;"],
   [c!"I2I.U8.U8 R0, c[0][0];", c!"@!P0 I2I.S32.S32.SAT RZ.CC, - |c[31][-4]|.B1;", c!"@!P0 I2I.U16.S16 R0.CC, - c[0][0].H1;"],
   [c!"I2I.U8.U8 R0, 0;", c!"@!P0 I2I.S16.U16.SAT RZ.CC, -1 .NEG.ABS;", c!"I2I.U32.S32.SAT RZ.CC, 0 .ABS;"],
   [c!"HADD2 R0, R0, R0;", c!"@P0 HADD2.MRG_H1.SAT RZ, |RZ.reuse|.H1_H1, |RZ.reuse|.H1_H1;", c!"@!PT HADD2..FTZ RZ, - RZ, - RZ.reuse;"],
   [c!"HADD2 RZ, R0, c[0][0];", c!"@!P0 HADD2.F32 R0, - |RZ.reuse|.H1_H1, - c[31][-4];", c!"HADD2.MRG_H0.FTZ.SAT R0, - R0.H1_H1, |c[31][-4]|;"],
   [c!"HADD2 R0, R0, 0, 0;", c!"@P0 HADD2.MRG_H1.FTZ.SAT RZ, - |RZ.reuse|.H1_H0, -QNAN, -QNAN;", c!"@!P0 HADD2. R0, - RZ.H1_H1, 0, 0;"],
   [c!"HADD2_32I R0, R0, 0, 0;", c!"@!P0 HADD2_32I.FTZ.SAT RZ, - RZ.H1_H0, -QNAN, -QNAN;", c!"@!PT HADD2_32I R0, RZ.reuse.H1_H1, 0, 0;"],
   [c!"HFMA2 R0, R0, c[0][0], R0;", c!"@!P0 HFMA2.FTZ.SAT RZ, RZ.F32, - c[31][-4], - RZ;", c!"HFMA2.MRG_H1..SAT R0, RZ.reuse.H1_H1, - c[0][0], - R0.reuse.H1_H1;", c!"@!PT HFMA2.FMZ R0, R0, c[0][0], R0;"],
   [c!"HFMA2 R0, R0, 0, 0, R0;", c!"@!P0 HFMA2.FMZ.SAT RZ, RZ.H1_H1, -QNAN, -QNAN, - RZ.H1_H0;", c!"@!PT HFMA2.F32.FTZ R0, R0.reuse.H0_H0, -QNAN, -QNAN, R0.reuse.H1_H1;", c!"HFMA2.MRG_H1 R0, R0, 0, 0, R0;"],
   [c!"HFMA2 R0, R0, R0, c[0][0];", c!"@!P0 HFMA2.MRG_H1.FTZ.SAT RZ, RZ.reuse.F32, - RZ.reuse.H1_H1, - c[31][-4];", c!"HFMA2..FMZ.SAT R0, R0.reuse.H0_H0, R0, c[0][0];"],
   [c!"HFMA2 R0, R0, RZ, R0;", c!"@P0 HFMA2.F32.FMZ.SAT RZ, RZ.reuse.H1_H0, - R0.reuse.F32, - RZ.F32;", c!"@!P0 HFMA2.MRG_H0.FTZ.SAT R0, RZ.H1_H1, R0.reuse.F32, RZ.reuse.H0_H0;", c!"@P0 HFMA2 R0, R0, R0.H1_H1, R0;"]]

theorem covering9_bits : covers 108 covering9 = true := by decide +kernel

/-- Rows 120 to 131. -/
def covering10 : List (List Str) :=
  [[c!"HFMA2_32I R0, R0, 0, 0, R0;", c!"@!P0 HFMA2_32I.FTZ RZ, RZ.H1_H0, -QNAN, -QNAN, - RZ;", c!"HFMA2_32I.FMZ R0, R0.H1_H1, -2047, 2047, R0;", c!"HFMA2_32I R0, R0.reuse, 0, 0, R0;"],
   [c!"HMUL2 R0, R0, R0;", c!"@!P0 HMUL2.MRG_H1..SAT RZ, |RZ|.H1_H1, - |RZ.reuse|.F32;", c!"HMUL2..FTZ.SAT RZ, RZ.reuse.F32, - RZ.reuse.H1_H1;", c!"HMUL2.FMZ R0, R0, - R0;"],
   [c!"HMUL2 R0, R0, c[0][0];", c!"@!P0 HMUL2. RZ, |RZ|.H1_H1, - |c[31][-4]|;", c!"HMUL2.MRG_H1.FTZ.SAT RZ, R0.reuse.H0_H0, - c[0][0];", c!"HMUL2.FMZ.SAT RZ, RZ, c[0][0];"],
   [c!"HMUL2 RZ, R0, 0, 0;", c!"HMUL2.F32.SAT R0, - |RZ.reuse|.H1_H1, -QNAN, -QNAN;", c!"@!P0 HMUL2.MRG_H1.FTZ.SAT R0, R0, 2047, -QNAN;", c!"@!PT HMUL2.FMZ R0, R0, 0, 0;"],
   [c!"HMUL2_32I R0, RZ, 0, 0;", c!"@P0 HMUL2_32I..SAT RZ, R0.reuse.H1_H0, -QNAN, -QNAN;", c!"@!PT HMUL2_32I.FMZ RZ, R0.H1_H1, QNAN, -2047;", c!"HMUL2_32I.FTZ.SAT R0, RZ, 0, 0;"],
   [c!"HSET2.F.AND R0, R0, R0, P0;", c!"@P0 HSET2.BF.NE.FTZ.XOR RZ, - RZ.reuse.H1_H0, - |RZ.reuse|.F32, PT;", c!"@!PT HSET2.LEU.OR R0, - RZ.H1_H1, R0.H0_H0, !PT;", c!"HSET2.F.FTZ.AND R0, |RZ|, R0, P0;"],
   [c!"HSET2.F.AND R0, R0, c[0][0], P0;", c!"@!P0 HSET2.NUM.FTZ.XOR RZ, - RZ.H1_H1, c[31][-4], !PT;", c!"HSET2.BF.T.FTZ.OR RZ, - |R0.reuse|.H1_H0, - c[31][-4], PT;"],
   [c!"HSET2.F.AND R0, R0, 0, 0, P0;", c!"@!P0 HSET2.BF.LT.FTZ.OR RZ, - RZ.H1_H0, -QNAN, -QNAN, !PT;", c!"HSET2.T.XOR R0, R0.reuse.H1_H1, 0, 0, P0;", c!"HSET2.F.XOR R0, |RZ|.H1_H1, 0, 0, P0;"],
   [c!"HSETP2.F.AND P0, P0, R0, RZ, P0;", c!"@P0 HSETP2.GEU.H_AND.INVALIDBOP3 PT, PT, RZ.H1_H1, R0.H1_H1, !PT;", c!"@!P0 HSETP2.LE.FTZ.AND P0, PT, - |R0|, - |R0.reuse|, PT;", c!"HSETP2.F.AND P0, P0, R0.reuse, - R0, P0;"],
   [c!"HSETP2.F.AND P0, P0, R0, c[0][0], P0;", c!"@P0 HSETP2.NUM.H_AND.XOR PT, PT, |RZ.reuse|.H1_H1, - |c[31][-4]|, !PT;", c!"@!P0 HSETP2.LEU.FTZ.OR P0, P0, - R0.H0_H0, - c[31][-4], PT;"],
   [c!"HSETP2.F.OR PT, P0, R0, 0, 0, P0;", c!"@!P0 HSETP2.GEU.H_AND.FTZ.OR PT, PT, - RZ.F32, -QNAN, -QNAN, PT;", c!"@!P0 HSETP2.LE.FTZ.XOR P0, P0, |R0.reuse|.H0_H0, 2047, -2047, PT;", c!"@!P0 HSETP2.F.AND P0, P0, R0, 0, 0, !PT;"],
   [c!"PSETP.OR.OR PT, PT, PT, PT, PT;", c!"@!P0 PSETP.AND.INVALIDBOP3 P0, P0, !P0, !P0, !P0;", c!"PSETP.XOR.AND PT, PT, PT, P0, P0;"]]

theorem covering10_bits : covers 120 covering10 = true := by decide +kernel

/-- Rows 132 to 143. -/
def covering11 : List (List Str) :=
  [[c!"PSET.OR.OR R0, PT, PT, P0;", c!"@!P0 PSET.BF.AND.OR RZ.CC, P0, P0, !PT;", c!"@!PT PSET.XOR.XOR RZ.CC, !PT, !P0, !PT;"],
   [c!"P2R R0, PR, RZ, R0;", c!"@!P0 P2R.B1 RZ, PR, R0, RZ;", c!"P2R.B2 R0, CC, RZ.reuse, R0.reuse;"],
   [c!"P2R RZ, CC, R0, c[0][0];", c!"@!P0 P2R.B3 R0, PR, RZ.reuse, c[31][-4];"],
   [c!"P2R RZ, PR, R0, 0;", c!"@!P0 P2R.B1 R0, CC, RZ.reuse, -1;", c!"P2R.B2 RZ, PR, R0, 0;"],
   [c!"R2P CC, R0, RZ;", c!"@!P0 R2P PR, RZ.reuse.B3, R0.reuse;"],
   [c!"R2P PR, RZ, c[0][0];", c!"@!P0 R2P CC, R0.reuse, c[31][-4];", c!"R2P PR, R0.B3, c[0][0];"],
   [c!"R2P PR, R0, 0;", c!"@!P0 R2P CC, RZ.B3, -1;", c!"R2P PR, R0.reuse, 0;"],
   [c!"IADD R0, R0, R0;", c!"@!P0 IADD.PO.X RZ.CC, RZ, RZ;", c!"IADD.SAT.X R0, RZ.reuse, - R0.reuse;"],
   [c!"IADD R0, R0, c[0][0];", c!"@!P0 IADD.SAT.X RZ.CC, - RZ.reuse, - c[31][-4];"],
   [c!"IADD R0, R0, 0;", c!"@P0 IADD.SAT.X RZ.CC, - RZ.reuse, -1 .NEG;", c!"@!PT IADD R0, R0, 0;"],
   [c!"IADD32I R0, R0, 0;", c!"@!P0 IADD32I.PO.SAT.X RZ.CC, RZ, -1;", c!"IADD32I RZ, R0.reuse, 0;"],
   [c!"IADD3 R0, R0, R0, R0;", c!"@!P0 IADD3.LS RZ.CC, RZ.reuse., RZ.reuse.H1, - RZ.reuse.;", c!"@P0 IADD3.LS.X RZ, - RZ.H1, - R0.reuse.H0, - RZ.H0;", c!"IADD3.RS R0, R0.H1, RZ., - RZ.reuse.H1;", c!"@P0 IADD3 R0, R0.H0, R0, R0;"]]

theorem covering11_bits : covers 132 covering11 = true := by decide +kernel

/-- Rows 144 to 155. -/
def covering12 : List (List Str) :=
  [[c!"IADD3 R0, R0, c[0][0], R0;", c!"@!P0 IADD3.X RZ.CC, - RZ, - c[31][-4], - RZ.reuse;", c!"IADD3 R0, RZ.reuse, c[0][0], R0;"],
   [c!"IADD3 R0, R0, 0, RZ;", c!"@!P0 IADD3 RZ.CC, - RZ.reuse, 0xFFFFF .NEG, - R0.reuse;", c!"IADD3.X R0, R0, 0, R0;"],
   [c!"ICMP.F RZ, RZ, R0, RZ;", c!"@!P0 ICMP.LE.U32 R0, R0.reuse, RZ.reuse, R0.reuse;", c!"ICMP.T RZ, RZ, R0, R0;"],
   [c!"ICMP.F R0, RZ, R0, c[0][0];", c!"@P0 ICMP.GE RZ, R0.reuse, RZ, c[31][-4];", c!"@!PT ICMP.NE.U32 R0, RZ, R0.reuse, c[0][0];"],
   [c!"ICMP.F R0, R0, c[0][0], R0;", c!"@P0 ICMP.NE.U32 RZ, RZ.reuse, c[31][-4], RZ.reuse;", c!"@!PT ICMP.T R0, R0, c[0][0], R0;"],
   [c!"ICMP.F R0, R0, 0, RZ;", c!"@!P0 ICMP.GT.U32 RZ, RZ.reuse, -1, R0.reuse;", c!"ICMP.LE R0, R0, 0, R0;"],
   [c!"IMNMX R0, R0, R0, PT;", c!"@!P0 IMNMX.U32.XLO RZ.CC, RZ.reuse, RZ, P0;", c!"IMNMX.XMED R0.CC, R0, RZ.reuse, !P0;"],
   [c!"IMNMX R0, R0, c[0][0], PT;", c!"@!P0 IMNMX.U32.XLO RZ.CC, RZ, c[31][-4], P0;", c!"IMNMX.XHI RZ, RZ.reuse, c[31][-4], !P0;"],
   [c!"IMNMX R0, R0, 0, P0;", c!"@!P0 IMNMX.U32.XHI RZ.CC, RZ, -1, PT;", c!"@P0 IMNMX R0, R0.reuse, 0, !PT;"],
   [c!"ISCADD R0, R0, R0, 0;", c!"@!P0 ISCADD.PO RZ.CC, RZ, RZ, 31;", c!"ISCADD R0, RZ.reuse, R0.reuse, 0;"],
   [c!"ISCADD R0, R0, c[0][0], 0;", c!"@!P0 ISCADD.PO RZ.CC, RZ, c[31][-4], 31;", c!"ISCADD R0, R0.reuse, c[0][0], 0;"],
   [c!"ISCADD R0, RZ, 0, 0;", c!"@P0 ISCADD RZ, R0, - -1, 31;", c!"@!P0 ISCADD RZ.CC, - R0.reuse, 0, 0;"]]

theorem covering12_bits : covers 144 covering12 = true := by decide +kernel

/-- Rows 156 to 167. -/
def covering13 : List (List Str) :=
  [[c!"ISET.F.OR R0, R0, R0, P0;", c!"@P0 ISET.BF.LT.X.XOR RZ.CC, RZ, RZ.reuse, !PT;", c!"@!P0 ISET.BF.T.U32.X.OR RZ.CC, RZ.reuse, R0, !P0;"],
   [c!"ISET.F.OR RZ, RZ, c[0][0], P0;", c!"@P0 ISET.LT.X.AND R0.CC, R0.reuse, c[31][-4], !PT;", c!"ISET.BF.T.U32.X.XOR RZ.CC, RZ, c[31][-4], PT;", c!"@!P0 ISET.F.OR R0, R0, c[0][0], P0;"],
   [c!"ISET.F.AND R0, R0, 0, P0;", c!"@!P0 ISET.BF.NE.U32.X.OR RZ.CC, RZ, -1, PT;", c!"ISET.LE.X.XOR RZ, R0.reuse, 0, !PT;"],
   [c!"ISETP.F.OR PT, P0, R0, RZ, PT;", c!"@P0 ISETP.T.OR P0, PT, RZ.reuse, R0, PT;", c!"@!PT ISETP.LT.U32.X.XOR P0, P0, RZ, R0, !P0;", c!"ISETP.LT.X.OR PT, PT, RZ, R0.reuse, P0;"],
   [c!"ISETP.F.OR P0, PT, R0, c[0][0], P0;", c!"@!P0 ISETP.T.S32.X.INVALIDBOP3 PT, P0, RZ.reuse, c[31][-4], PT;", c!"ISETP.LT.U32.X.AND PT, PT, RZ, c[0][0], !PT;"],
   [c!"ISETP.F.OR P0, P0, R0, 0, P0;", c!"@!P0 ISETP.LT.X.INVALIDBOP3 PT, PT, RZ.reuse, -1, PT;", c!"ISETP.T.U32.X.AND PT, P0, RZ, 0, !PT;"],
   [c!"FLO R0, RZ;", c!"@!P0 FLO.U32.SH RZ.CC, ~ R0;", c!"FLO R0, R0.reuse;"],
   [c!"FLO R0, c[0][0];", c!"@!P0 FLO.U32.SH RZ.CC, ~ c[31][-4];"],
   [c!"FLO R0, 0;", c!"@!P0 FLO.U32.SH RZ.CC, -1 .INV;"],
   [c!"POPC R0, RZ;", c!"@!P0 POPC RZ, ~ R0.reuse;"],
   [c!"POPC RZ, c[0][0];", c!"@!P0 POPC R0, ~ c[31][-4];"],
   [c!"POPC RZ, 0;", c!"@!P0 POPC R0, -1 .INV;"]]

theorem covering13_bits : covers 156 covering13 = true := by decide +kernel

/-- Rows 168 to 179. -/
def covering14 : List (List Str) :=
  [[c!"LDC.U8 R0, c[0][R0];", c!"@P0 LDC.64. RZ, c[31][RZ.reuse+0xFFFF];", c!"@!PT LDC.S16.ISL RZ, c[31][RZ];"],
   [c!"LEA.HI RZ, R0, R0, R0;", c!"@P0 LEA.HI.X R0.CC, - RZ, RZ.reuse, RZ.reuse;", c!"@!PT LEA.HI R0, RZ.reuse, R0, R0;"],
   [c!"LEA.HI R0, R0, R0, R0, 0;", c!"@!P0 LEA.HI.X RZ.CC, - RZ.reuse, RZ, RZ, 31;", c!"LEA.HI RZ, RZ, RZ.reuse, R0.reuse, 31;"],
   [c!"LEA.HI PT, R0, RZ, R0, R0;", c!"@P0 LEA.HI.X P0, RZ, R0.reuse, RZ.reuse, RZ.reuse;", c!"@!P0 LEA.HI PT, R0.CC, - R0, RZ, RZ;"],
   [c!"LEA.HI PT, RZ, R0, R0, RZ, 0;", c!"@!P0 LEA.HI.X P0, R0.CC, - RZ, RZ, R0, 31;", c!"LEA.HI P0, R0, RZ.reuse, RZ.reuse, RZ.reuse, 0;"],
   [c!"LEA.HI R0, R0, c[0][0], RZ;", c!"@!P0 LEA.HI.X RZ.CC, - RZ.reuse, c[31][-4], R0;", c!"LEA.HI R0, R0, c[0][0], R0.reuse;"],
   [c!"LEA.HI R0, R0, c[0][0], R0, 0;", c!"@!P0 LEA.HI.X RZ.CC, - RZ, c[31][-4], RZ, 31;", c!"LEA.HI RZ, RZ.reuse, c[0][0], R0.reuse, 31;"],
   [c!"LEA.HI P0, R0, R0, c[0][0], RZ;", c!"@!P0 LEA.HI.X PT, RZ.CC, - RZ, c[31][-4], R0.reuse;", c!"LEA.HI P0, R0, R0.reuse, c[0][0], R0;"],
   [c!"LEA.HI P0, R0, R0, c[0][0], RZ, 0;", c!"@P0 LEA.HI.X PT, RZ.CC, - RZ, c[31][-4], R0, 31;", c!"@!PT LEA.HI PT, RZ, RZ.reuse, c[0][0], RZ.reuse, 0;"],
   [c!"LEA R0, R0, RZ;", c!"@!P0 LEA.LO.X RZ.CC, - RZ.reuse, R0;", c!"LEA R0, R0, R0.reuse;"],
   [c!"LEA R0, R0, R0, 0;", c!"@!P0 LEA.X RZ.CC, - RZ.reuse, RZ, 31;", c!"LEA RZ, RZ, R0.reuse, 0;"],
   [c!"LEA P0, R0, R0, R0;", c!"@!P0 LEA.LO.X PT, RZ.CC, - RZ, RZ.reuse;", c!"LEA PT, R0, RZ.reuse, RZ;"]]

theorem covering14_bits : covers 168 covering14 = true := by decide +kernel

/-- Rows 180 to 191. -/
def covering15 : List (List Str) :=
  [[c!"LEA P0, R0, R0, R0, 0;", c!"@!P0 LEA.LO.X PT, RZ.CC, - RZ, RZ.reuse, 31;", c!"LEA P0, R0, R0.reuse, R0, 0;"],
   [c!"LEA R0, R0, c[0][0];", c!"@!P0 LEA.LO.X RZ.CC, - RZ.reuse, c[31][-4];"],
   [c!"LEA R0, R0, c[0][0], 0;", c!"@!P0 LEA.X RZ.CC, - RZ, c[31][-4], 31;", c!"LEA.X RZ, - R0.reuse, c[0][0], 0;"],
   [c!"LEA P0, R0, R0, c[0][0];", c!"@!P0 LEA.LO.X PT, RZ.CC, - RZ.reuse, c[31][-4];"],
   [c!"LEA P0, R0, R0, c[0][0], 0;", c!"@!P0 LEA.X PT, RZ.CC, - RZ, c[31][-4], 31;", c!"LEA P0, R0, RZ.reuse, c[0][0], 0;"],
   [c!"LEA R0, R0, 0;", c!"@!P0 LEA.LO.X RZ.CC, - RZ.reuse, -1;"],
   [c!"LEA R0, R0, 0, 0;", c!"@!P0 LEA.LO.X RZ.CC, - RZ, -1, 31;", c!"LEA R0, R0.reuse, 0, 0;"],
   [c!"LEA P0, R0, R0, 0;", c!"@!P0 LEA.X PT, RZ.CC, - RZ.reuse, -1;"],
   [c!"LEA P0, RZ, R0, 0, 0;", c!"@!P0 LEA.LO.X PT, R0.CC, - RZ, -1, 31;", c!"LEA P0, R0, R0.reuse, 0, 0;"],
   [c!"LOP.XOR P0, R0, R0, R0;", c!"@!P0 LOP.OR.NZ PT, RZ.CC, RZ, ~ RZ;", c!"@P0 LOP.XOR.X. P0, RZ, ~ R0.reuse, R0.reuse;"],
   [c!"LOP.XOR P0, R0, R0, c[0][0];", c!"@P0 LOP.OR.X.NZ PT, RZ.CC, ~ RZ, ~ c[31][-4];", c!"@!P0 LOP.AND. P0, RZ, R0.reuse, c[31][-4];"],
   [c!"LOP.OR P0, R0, R0, 0;", c!"@P0 LOP.PASS_B.X.NZ PT, RZ.CC, ~ RZ, ~ -1;", c!"@!PT LOP.AND P0, R0, RZ.reuse, 0;"]]

theorem covering15_bits : covers 180 covering15 = true := by decide +kernel

end Nxas
