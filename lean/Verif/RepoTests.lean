import Verif.Model.Assemble
/-
Fidelity check of the model against the repository's own test list
(/repo/tests/CMakeLists.txt): every positive case must give the expected instruction
word, every negative case must end with a diagnostic.

This is a test of the model, not a proof of any property; no theorem depends on it.
-/

namespace Nxas.RepoTests

/-- Expected word and source of the positive cases. -/
def pos : List (Nat × String) := [(0xefa0000000000000, "@P0 AL2P P0, R0, R0"),
(0xefa0000000100000, "@P0 AL2P P0, R0, R0, 0x1"),
(0xefa000007ff00000, "@P0 AL2P P0, R0, R0, -0x1"),
(0xefa000007fe00000, "@P0 AL2P P0, R0, R0, -0x2"),
(0xefa0000040000000, "@P0 AL2P P0, R0, R0, -0x400"),
(0xefa000003ff00000, "@P0 AL2P P0, R0, R0, 0x3ff"),
(0xefa170000147ff00, "AL2P.96 R0, 0x14"),
(0xefa1700001070500, "AL2P.96 R0, R5, 0x10"),
(0xefa120000107ff00, "AL2P.96 P2, R0, 0x10"),
(0xefa130003ff70500, "AL2P.96 P3, R0, R5, 0x3ff"),
(0xefa1300000070500, "AL2P.96 P3, R0, R5"),
(0xefa070010007ff00, "AL2P.O R0"),
(0xefa070013ff7ffff, "AL2P.O RZ, 0x3ff"),
(0xefa070013f47ffff, "AL2P.O RZ, 0x3f4"),
(0xefa0c0007fb70500, "AL2P.64 P4, R0, R5, -0x5"),
(0xefa1c00000170500, "AL2P.128 P4, R0, R5, 1"),
(0xefd87f800707ff00, "ALD R0, a[0x70]"),
(0xefd804000707ff00, "ALD R0, a[0x70], R8"),
(0xefd87f8087070100, "ALD.P R0, a[R1+0x70]"),
(0xefd80400f9070100, "ALD.P R0, a[R1+-0x70], R8"),
(0xefd80400f9070100, "ALD.P R0, a[R1+-0x70], R8"),
(0xefd87f8000070500, "ALD.PHYS R0, a[R5]"),
(0xefd8040000070500, "ALD.PHYS R0, a[R5], R8"),
(0xefd8840100070500, "ALD.O.PHYS.64 R0, a[R5], R8"),
(0xefd9040100070500, "ALD.O.PHYS.96 R0, a[R5], R8"),
(0xefd9840100070500, "ALD.O.PHYS.128 R0, a[R5], R8"),
(0xeff07f800707ff00, "AST a[0x70], R0"),
(0xeff004000707ff00, "AST a[0x70], R0, R8"),
(0xeff07f8087070100, "AST.P a[R1+0x70], R0"),
(0xeff0ff80f9070103, "AST.P.64 a[R1+-0x70], R3"),
(0xeff07f8000070500, "AST.PHYS a[R5], R0"),
(0xeff0040000070500, "AST.PHYS a[R5], R0, R8"),
(0xeff0ff800707ff00, "AST.64 a[0x70], R0"),
(0xeff17f800707ff00, "AST.96 a[0x70], R0"),
(0xeff1ff800707ff00, "AST.128 a[0x70], R0"),
(0xf0b800000007de04, "B2R R4, 0xde"),
(0xf0b8000e0007ff06, "B2R.WARP R6"),
(0xf0b8800d0007ff06, "B2R.RESULT R6, P4"),
(0x3900817215370904, "BFE.U32.BREV R4.CC, R9, -0xdead"),
(0x4c01011000c702ff, "BFE.BREV RZ, R2, c[0x4][0x30]"),
(0x5c00000000470304, "BFE.U32 R4, R3, R4"),
(0x5bf0020000370201, "BFI R1, R2, R3, R4"),
(0x5bf0820000370201, "BFI R1.CC, R2, R3, R4"),
(0x53f081a000170201, "BFI R1.CC, R2, R3, c[0x8][0x4]"),
(0x4bf081a000170201, "BFI R1.CC, R2, c[0x8][0x4], R3"),
(0x36f0818cafe70201, "BFI R1.CC, R2, 0xcafe, R3"),
(0xe3a0000dead70000, "BPT.DRAIN_ILLEGAL 0xdead"),
(0xe3a0000006370040, "BPT.CAL 0x63"),
(0xe3a0000000470080, "BPT.PAUSE 0x4"),
(0xe3a0000cafe700c0, "BPT.TRAP 0xcafe"),
(0xe3a0000002b70100, "BPT.INT 0x2b"),
(0xe3a0000002270140, "BPT.DRAIN 0x22"),
(0xe3a0000000070140, "BPT.DRAIN"),
(0x5098920000070002, "CSET.BF.F.AND R2.CC, CC, P4"),
(0x5098120000070002, "CSET.BF.F.AND R2, CC, P4"),
(0x5098a20000070002, "CSET.F.OR R2.CC, CC, P4"),
(0x5098c20000070002, "CSET.F.XOR R2.CC, CC, P4"),
(0x5098820000070102, "CSET.LT.AND R2.CC, CC, P4"),
(0x5098820000070202, "CSET.EQ.AND R2.CC, CC, P4"),
(0x5098820000070302, "CSET.LE.AND R2.CC, CC, P4"),
(0x5098820000070402, "CSET.GT.AND R2.CC, CC, P4"),
(0x5098820000070502, "CSET.NE.AND R2.CC, CC, P4"),
(0x5098820000070602, "CSET.GE.AND R2.CC, CC, P4"),
(0x5098820000070702, "CSET.NUM.AND R2.CC, CC, P4"),
(0x5098820000070802, "CSET.NAN.AND R2.CC, CC, P4"),
(0x5098820000070902, "CSET.LTU.AND R2.CC, CC, P4"),
(0x5098820000070a02, "CSET.EQU.AND R2.CC, CC, P4"),
(0x5098820000070b02, "CSET.LEU.AND R2.CC, CC, P4"),
(0x5098820000070902, "CSET.LTU.AND R2.CC, CC, P4"),
(0x5098820000070a02, "CSET.EQU.AND R2.CC, CC, P4"),
(0x5098820000070b02, "CSET.LEU.AND R2.CC, CC, P4"),
(0x5098820000070c02, "CSET.GTU.AND R2.CC, CC, P4"),
(0x5098820000070d02, "CSET.NEU.AND R2.CC, CC, P4"),
(0x5098820000070e02, "CSET.GEU.AND R2.CC, CC, P4"),
(0x5098820000070f02, "CSET.T.AND R2.CC, CC, P4"),
(0x5098820000071002, "CSET.OFF.AND R2.CC, CC, P4"),
(0x5098820000071102, "CSET.LO.AND R2.CC, CC, P4"),
(0x5098820000071202, "CSET.SFF.AND R2.CC, CC, P4"),
(0x5098820000071302, "CSET.LS.AND R2.CC, CC, P4"),
(0x5098820000071402, "CSET.HI.AND R2.CC, CC, P4"),
(0x5098820000071502, "CSET.SFT.AND R2.CC, CC, P4"),
(0x5098820000071602, "CSET.HS.AND R2.CC, CC, P4"),
(0x5098820000071702, "CSET.OFT.AND R2.CC, CC, P4"),
(0x5098820000071802, "CSET.CSM_TA.AND R2.CC, CC, P4"),
(0x5098820000071902, "CSET.CSM_TR.AND R2.CC, CC, P4"),
(0x5098820000071a02, "CSET.CSM_MX.AND R2.CC, CC, P4"),
(0x5098820000071b02, "CSET.FCSM_TA.AND R2.CC, CC, P4"),
(0x5098820000071c02, "CSET.FCSM_TR.AND R2.CC, CC, P4"),
(0x5098820000071d02, "CSET.FCSM_MX.AND R2.CC, CC, P4"),
(0x5098820000071e02, "CSET.RLE.AND R2.CC, CC, P4"),
(0x5098820000071f02, "CSET.RGT.AND R2.CC, CC, P4"),
(0x5098868000071f02, "CSET.RGT.AND R2.CC, CC, !P5"),
(0x50a0068000071f0b, "CSETP.RGT.AND P1, P3, CC, !P5"),
(0x5c70000000470200, "DADD R0, R2, R4"),
(0x5c70008000470200, "DADD.RM R0, R2, R4"),
(0x5c70010000470200, "DADD.RP R0, R2, R4"),
(0x5c70018000470200, "DADD.RZ R0, R2, R4"),
(0x5c70800000470200, "DADD R0.CC, R2, R4"),
(0x5c71000000470200, "DADD R0, -R2, R4"),
(0x5c70400000470200, "DADD R0, |R2|, R4"),
(0x5c70200000470200, "DADD R0, R2, -R4"),
(0x5c72000000470200, "DADD R0, R2, |R4|"),
(0x4c70000800070200, "DADD R0, R2, c[0x2][0x0]"),
(0x4c70008800070200, "DADD.RM R0, R2, c[0x2][0x0]"),
(0x4c70010800070200, "DADD.RP R0, R2, c[0x2][0x0]"),
(0x4c70018800070200, "DADD.RZ R0, R2, c[0x2][0x0]"),
(0x4c70800800070200, "DADD R0.CC, R2, c[0x2][0x0]"),
(0x4c71000800070200, "DADD R0, -R2, c[0x2][0x0]"),
(0x4c70400800070200, "DADD R0, |R2|, c[0x2][0x0]"),
(0x4c70200800070200, "DADD R0, R2, -c[0x2][0x0]"),
(0x4c72000800070200, "DADD R0, R2, |c[0x2][0x0]|"),
(0x3870004026070200, "DADD R0, R2, 11"),
(0x387000c026070200, "DADD.RM R0, R2, 11"),
(0x3970217ff0070200, "DADD.RP R0, R2, -INF .NEG"),
(0x387001fff0070200, "DADD.RZ R0, R2, +INF "),
(0x3872807ff8070200, "DADD R0.CC, R2, +QNAN .ABS"),
(0x3971004026070200, "DADD R0, -R2, -11"),
(0x3870404026070200, "DADD R0, |R2|, 11"),
(0x3970204026070200, "DADD R0, R2, -11 .NEG"),
(0x3870004026070200, "DADD R0, R2, 11"),
(0x5b70030000470200, "DFMA R0, R2, R4, R6"),
(0x5b71030000470200, "DFMA R0, R2, -R4, R6"),
(0x5b72030000470200, "DFMA R0, R2, R4, -R6"),
(0x5b74030000470200, "DFMA.RM R0, R2, R4, R6"),
(0x5b78030000470200, "DFMA.RP R0, R2, R4, R6"),
(0x5b7c030000470200, "DFMA.RZ R0, R2, R4, R6"),
(0x4b70030800070200, "DFMA R0, R2, c[0x2][0x0], R6"),
(0x4b71030800070200, "DFMA R0, R2, -c[0x2][0x0], R6"),
(0x4b72030800070200, "DFMA R0, R2, c[0x2][0x0], -R6"),
(0x4b74030800070200, "DFMA.RM R0, R2, c[0x2][0x0], R6"),
(0x4b78030800070200, "DFMA.RP R0, R2, c[0x2][0x0], R6"),
(0x4b7c030800070200, "DFMA.RZ R0, R2, c[0x2][0x0], R6"),
(0x5370020800070200, "DFMA R0, R2, R4, c[0x2][0x0]"),
(0x5371020800070200, "DFMA R0, R2, -R4, c[0x2][0x0]"),
(0x5372020800070200, "DFMA R0, R2, R4, -c[0x2][0x0]"),
(0x5374020800070200, "DFMA.RM R0, R2, R4, c[0x2][0x0]"),
(0x5378020800070200, "DFMA.RP R0, R2, R4, c[0x2][0x0]"),
(0x537c020800070200, "DFMA.RZ R0, R2, R4, c[0x2][0x0]"),
(0x3670034050e70200, "DFMA R0, R2, 67.5, R6"),
(0x3670034040870200, "DFMA R0, R2, 33, R6"),
(0x3773034033070200, "DFMA R0, R2, -19 .NEG, -R6"),
(0x3674034032070200, "DFMA.RM R0, R2, 18, R6"),
(0x3678034031070200, "DFMA.RP R0, R2, 17, R6"),
(0x367c03402e070200, "DFMA.RZ R0, R2, 15, R6"),
(0x5c50030000470200, "DMNMX R0, R2, R4, P6"),
(0x5c50830000470200, "DMNMX R0.CC, R2, R4, P6"),
(0x5c50430000470200, "DMNMX R0, |R2|, R4, P6"),
(0x5c51030000470200, "DMNMX R0, -R2, R4, P6"),
(0x5c52030000470200, "DMNMX R0, R2, |R4|, P6"),
(0x5c50230000470200, "DMNMX R0, R2, -R4, P6"),
(0x5c50070000470200, "DMNMX R0, R2, R4, !P6"),
(0x4c50030800070200, "DMNMX R0, R2, c[0x2][0x0], P6"),
(0x4c50830800070200, "DMNMX R0.CC, R2, c[0x2][0x0], P6"),
(0x4c50430800070200, "DMNMX R0, |R2|, c[0x2][0x0], P6"),
(0x4c51030800070200, "DMNMX R0, -R2, c[0x2][0x0], P6"),
(0x4c52030800070200, "DMNMX R0, R2, |c[0x2][0x0]|, P6"),
(0x4c50230800070200, "DMNMX R0, R2, -c[0x2][0x0], P6"),
(0x4c50070800070200, "DMNMX R0, R2, c[0x2][0x0], !P6"),
(0x395003402a070200, "DMNMX R0, R2, -13, P6"),
(0x385083402a070200, "DMNMX R0.CC, R2, 13, P6"),
(0x385043402a070200, "DMNMX R0, |R2|, 13, P6"),
(0x385103402a070200, "DMNMX R0, -R2, 13, P6"),
(0x385203402a070200, "DMNMX R0, R2, 13 .ABS, P6"),
(0x395023402a070200, "DMNMX R0, R2, -13 .NEG, P6"),
(0x5c50070000470200, "DMNMX R0, R2, R4, !P6"),
(0x5c80000000470200, "DMUL R0, R2, R4"),
(0x5c80008000470200, "DMUL.RM R0, R2, R4"),
(0x5c80010000470200, "DMUL.RP R0, R2, R4"),
(0x5c80018000470200, "DMUL.RZ R0, R2, R4"),
(0x5c80800000470200, "DMUL R0.CC, R2, R4"),
(0x5c81000000470200, "DMUL R0, R2, -R4"),
(0x4c80000800070200, "DMUL R0, R2, c[0x2][0x0]"),
(0x4c80008800070200, "DMUL.RM R0, R2, c[0x2][0x0]"),
(0x4c80010800070200, "DMUL.RP R0, R2, c[0x2][0x0]"),
(0x4c80018800070200, "DMUL.RZ R0, R2, c[0x2][0x0]"),
(0x4c80800800070200, "DMUL R0.CC, R2, c[0x2][0x0]"),
(0x4c81000800070200, "DMUL R0, R2, -c[0x2][0x0]"),
(0x3880004010070200, "DMUL R0, R2, 4"),
(0x388000c01c070200, "DMUL.RM R0, R2, 7"),
(0x3980014008070200, "DMUL.RP R0, R2, -3"),
(0x388001c000070200, "DMUL.RZ R0, R2, 2"),
(0x3880803ff0070200, "DMUL R0.CC, R2, 1"),
(0x3881004018070200, "DMUL R0, R2, 6 .NEG"),
(0x590f030000470200, "DSET.T.AND R0, R2, R4, P6"),
(0x5901030000470200, "DSET.LT.AND R0, R2, R4, P6"),
(0x590f830000470200, "DSET.T.AND R0.CC, R2, R4, P6"),
(0x590f0b0000470200, "DSET.T.AND R0, -R2, R4, P6"),
(0x594f030000470200, "DSET.T.AND R0, |R2|, R4, P6"),
(0x592f030000470200, "DSET.T.AND R0, R2, -R4, P6"),
(0x590f130000470200, "DSET.T.AND R0, R2, |R4|, P6"),
(0x590f070000470200, "DSET.T.AND R0, R2, R4, !P6"),
(0x590f230000470200, "DSET.T.OR R0, R2, R4, P6"),
(0x590e430000470200, "DSET.GEU.XOR R0, R2, R4, P6"),
(0x591f030000470200, "DSET.BF.T.AND R0, R2, R4, P6"),
(0x490f030800070200, "DSET.T.AND R0, R2, c[0x2][0x0], P6"),
(0x4901030800070200, "DSET.LT.AND R0, R2, c[0x2][0x0], P6"),
(0x490f830800070200, "DSET.T.AND R0.CC, R2, c[0x2][0x0], P6"),
(0x490f0b0800070200, "DSET.T.AND R0, -R2, c[0x2][0x0], P6"),
(0x494f030800070200, "DSET.T.AND R0, |R2|, c[0x2][0x0], P6"),
(0x492f030800070200, "DSET.T.AND R0, R2, -c[0x2][0x0], P6"),
(0x490f130800070200, "DSET.T.AND R0, R2, |c[0x2][0x0]|, P6"),
(0x490f070800070200, "DSET.T.AND R0, R2, c[0x2][0x0], !P6"),
(0x490f230800070200, "DSET.T.OR R0, R2, c[0x2][0x0], P6"),
(0x490e430800070200, "DSET.GEU.XOR R0, R2, c[0x2][0x0], P6"),
(0x491f030800070200, "DSET.BF.T.AND R0, R2, c[0x2][0x0], P6"),
(0x320f034000070200, "DSET.T.AND R0, R2, 2, P6"),
(0x3201034010070200, "DSET.LT.AND R0, R2, 4, P6"),
(0x320f834018070200, "DSET.T.AND R0.CC, R2, 6, P6"),
(0x320f0b4020070200, "DSET.T.AND R0, -R2, 8, P6"),
(0x334f034008070200, "DSET.T.AND R0, |R2|, -3, P6"),
(0x322f034014070200, "DSET.T.AND R0, R2, 5 .NEG, P6"),
(0x320f134010070200, "DSET.T.AND R0, R2, 4 .ABS, P6"),
(0x320f07402a070200, "DSET.T.AND R0, R2, 13, !P6"),
(0x320f234028070200, "DSET.T.OR R0, R2, 12, P6"),
(0x320e434031070200, "DSET.GEU.XOR R0, R2, 17, P6"),
(0x321f034032070200, "DSET.BF.T.AND R0, R2, 18, P6"),
(0x5b8f030000470201, "DSETP.T.AND P0, P1, R2, R4, P6"),
(0x5b8f0b0000470201, "DSETP.T.AND P0, P1, -R2, R4, P6"),
(0x5b8f030000470281, "DSETP.T.AND P0, P1, |R2|, R4, P6"),
(0x5b8f030000470241, "DSETP.T.AND P0, P1, R2, -R4, P6"),
(0x5b8f130000470201, "DSETP.T.AND P0, P1, R2, |R4|, P6"),
(0x5b84030000470201, "DSETP.GT.AND P0, P1, R2, R4, P6"),
(0x5b8f230000470201, "DSETP.T.OR P0, P1, R2, R4, P6"),
(0x5b8f430000470201, "DSETP.T.XOR P0, P1, R2, R4, P6"),
(0x5b8f070000470201, "DSETP.T.AND P0, P1, R2, R4, !P6"),
(0x4b8f030800070201, "DSETP.T.AND P0, P1, R2, c[0x2][0x0], P6"),
(0x4b8f0b0800070201, "DSETP.T.AND P0, P1, -R2, c[0x2][0x0], P6"),
(0x4b8f030800070281, "DSETP.T.AND P0, P1, |R2|, c[0x2][0x0], P6"),
(0x4b8f030800070241, "DSETP.T.AND P0, P1, R2, -c[0x2][0x0], P6"),
(0x4b8f130800070201, "DSETP.T.AND P0, P1, R2, |c[0x2][0x0]|, P6"),
(0x4b84030800070201, "DSETP.GT.AND P0, P1, R2, c[0x2][0x0], P6"),
(0x4b8f230800070201, "DSETP.T.OR P0, P1, R2, c[0x2][0x0], P6"),
(0x4b8f430800070201, "DSETP.T.XOR P0, P1, R2, c[0x2][0x0], P6"),
(0x4b8f070800070201, "DSETP.T.AND P0, P1, R2, c[0x2][0x0], !P6"),
(0x368f034008070201, "DSETP.T.AND P0, P1, R2, 3, P6"),
(0x378f0b4014070201, "DSETP.T.AND P0, P1, -R2, -5, P6"),
(0x368f03401c070281, "DSETP.T.AND P0, P1, |R2|, 7, P6"),
(0x378f034020070241, "DSETP.T.AND P0, P1, R2, -8 .NEG, P6"),
(0x368f13402e070201, "DSETP.T.AND P0, P1, R2, 15 .ABS, P6"),
(0x3684034000070201, "DSETP.GT.AND P0, P1, R2, 2, P6"),
(0x368f237ff8070201, "DSETP.T.OR P0, P1, R2, +QNAN , P6"),
(0x368f437ff0070201, "DSETP.T.XOR P0, P1, R2, +INF , P6"),
(0x368f074035070201, "DSETP.T.AND P0, P1, R2, 21, !P6"),
(0x50b0000000070f00, "NOP"),
(0x50b0000000072f00, "NOP.TRIG"),
(0x50b0000000070000, "NOP CC.F"),
(0x50b0000000070100, "NOP CC.LT"),
(0x50b0000000070200, "NOP CC.EQ"),
(0x50b0000000070300, "NOP CC.LE"),
(0x50b0000000070400, "NOP CC.GT"),
(0x50b0000000070500, "NOP CC.NE"),
(0x50b0000000070600, "NOP CC.GE"),
(0x50b0000000070700, "NOP CC.NUM"),
(0x50b0000000070800, "NOP CC.NAN"),
(0x50b0000000070900, "NOP CC.LTU"),
(0x50b0000000070a00, "NOP CC.EQU"),
(0x50b0000000070b00, "NOP CC.LEU"),
(0x50b0000000070c00, "NOP CC.GTU"),
(0x50b0000000070d00, "NOP CC.NEU"),
(0x50b0000000070e00, "NOP CC.GEU"),
(0x50b0000000070f00, "NOP CC.T"),
(0x50b0000000071000, "NOP CC.OFF"),
(0x50b0000000071100, "NOP CC.LO"),
(0x50b0000000071200, "NOP CC.SFF"),
(0x50b0000000071300, "NOP CC.LS"),
(0x50b0000000071400, "NOP CC.HI"),
(0x50b0000000071500, "NOP CC.SFT"),
(0x50b0000000071600, "NOP CC.HS"),
(0x50b0000000071700, "NOP CC.OFT"),
(0x50b0000000071800, "NOP CC.CSM_TA"),
(0x50b0000000071900, "NOP CC.CSM_TR"),
(0x50b0000000071a00, "NOP CC.CSM_MX"),
(0x50b0000000071b00, "NOP CC.FCSM_TA"),
(0x50b0000000071c00, "NOP CC.FCSM_TR"),
(0x50b0000000071d00, "NOP CC.FCSM_MX"),
(0x50b0000000071e00, "NOP CC.RLE"),
(0x50b0000000071f00, "NOP CC.RGT"),
(0x50b0000000370f00, "NOP 0x3"),
(0x50b0000008071000, "NOP CC.OFF, 0x80"),
(0x5c98078000170000, "MOV R0, R1"),
(0x5c9802800ff700ff, "MOV RZ, RZ, 0x5"),
(0x4c98078c00870008, "MOV R8, c[0x3][0x20]"),
(0x4c98044002470002, "MOV R2, c[0x10][0x90], 0x8"),
(0x3898078003d70001, "MOV R1, 0x3d"),
(0x3998047f5d070002, "MOV R2, -0xa30, 0x8"),
(0x010aaccddee7f000, "MOV32I R0, 0xaaccddee"),
(0x010deadbeef780ff, "MOV32I RZ, 0xdeadbeef, 0x8"),
(0x5085400000070304, "MUFU.COS.SAT R4, -|R3|"),
(0x5084000000170304, "MUFU.SIN.SAT R4, R3"),
(0x5084000000270304, "MUFU.EX2.SAT R4, R3"),
(0x5084000000370304, "MUFU.LG2.SAT R4, R3"),
(0x5084000000470304, "MUFU.RCP.SAT R4, R3"),
(0x5084000000570304, "MUFU.RSQ.SAT R4, R3"),
(0x5084000000670304, "MUFU.RCP64H.SAT R4, R3"),
(0x5085000000770304, "MUFU.RSQ64H.SAT R4, -R3"),
(0x5084400000870304, "MUFU.SQRT.SAT R4, |R3|"),
(0x5c5800000ff7ffff, "FADD RZ, RZ, RZ"),
(0x5c58100000870300, "FADD.FTZ R0, R3, R8"),
(0x5c5891000ff70100, "FADD.FTZ.RP R0.CC, R1, RZ"),
(0x5c5d40000007ff00, "FADD.SAT R0, -|RZ|, R0"),
(0x5c598080000700ff, "FADD.RM RZ.CC, -R0, R0"),
(0x5c584180000700ff, "FADD.RZ RZ, |R0|, R0"),
(0x5c582000001700ff, "FADD RZ, R0, -R1"),
(0x5c5a0000001700ff, "FADD RZ, R0, |R1|"),
(0x4c5800002b87ffff, "FADD RZ, RZ, c[0x0][0xae0]"),
(0x4c5ca09002b7ffff, "FADD.RM.SAT RZ.CC, RZ, -c[0x4][0xac]"),
(0x4c5a000000070100, "FADD R0, R1, |c[0x0][0x0]|"),
(0x3858100000070000, "FADD.FTZ R0, R0, 0.0"),
(0x3858103f80070000, "FADD.FTZ R0, R0, 1.0"),
(0x3858104000070000, "FADD.FTZ R0, R0, 2.0"),
(0x3858104248070000, "FADD.FTZ R0, R0, 50"),
(0x3958103f80070000, "FADD.FTZ R0, R0, -1.0"),
(0x3858103fc0070000, "FADD.FTZ R0, R0, 1.5"),
(0x0bfc010000070804, "FADD32I.FTZ R4.CC, -|R8|, -2.25 .NEG.ABS"),
(0x582822000ff70405, "FSET.NAN.OR R5, R4, -RZ, P4"),
(0x58083a000ff70405, "FSET.NAN.OR R5, -R4, |RZ|, P4"),
(0x586e32000ff70405, "FSET.GEU.OR R5, |R4|, -|RZ|, P4"),
(0x58f89e000ff70405, "FSET.BF.NAN.FTZ.AND R5.CC, -|R4|, -|RZ|, !P4"),
(0x48f89e1000470405, "FSET.BF.NAN.FTZ.AND R5.CC, -|R4|, -|c[0x4][0x10]|, !P4"),
(0x31f89e4040070405, "FSET.BF.NAN.FTZ.AND R5.CC, -|R4|, -3 .NEG.ABS, !P4"),
(0x5bb0020000370201, "FSETP.F.AND P0, P1, R2, R3, P4"),
(0x5bb0060000370201, "FSETP.F.AND P0, P1, R2, R3, !P4"),
(0x5bb0220000370201, "FSETP.F.OR P0, P1, R2, R3, P4"),
(0x5bb0420000370201, "FSETP.F.XOR P0, P1, R2, R3, P4"),
(0x5bb02a0000370201, "FSETP.F.OR P0, P1, -R2, R3, P4"),
(0x5bb0220000370281, "FSETP.F.OR P0, P1, |R2|, R3, P4"),
(0x5bb0220000370241, "FSETP.F.OR P0, P1, R2, -R3, P4"),
(0x5bb0320000370201, "FSETP.F.OR P0, P1, R2, |R3|, P4"),
(0x5bb123800ff7ff3f, "FSETP.LT.OR PT, PT, RZ, RZ, PT"),
(0x5bb223800ff7ff3f, "FSETP.EQ.OR PT, PT, RZ, RZ, PT"),
(0x5bb323800ff7ff3f, "FSETP.LE.OR PT, PT, RZ, RZ, PT"),
(0x5bb423800ff7ff3f, "FSETP.GT.OR PT, PT, RZ, RZ, PT"),
(0x5bb523800ff7ff3f, "FSETP.NE.OR PT, PT, RZ, RZ, PT"),
(0x5bb623800ff7ff3f, "FSETP.GE.OR PT, PT, RZ, RZ, PT"),
(0x5bb723800ff7ff3f, "FSETP.NUM.OR PT, PT, RZ, RZ, PT"),
(0x5bb823800ff7ff3f, "FSETP.NAN.OR PT, PT, RZ, RZ, PT"),
(0x5bb923800ff7ff3f, "FSETP.LTU.OR PT, PT, RZ, RZ, PT"),
(0x5bba23800ff7ff3f, "FSETP.EQU.OR PT, PT, RZ, RZ, PT"),
(0x5bbb23800ff7ff3f, "FSETP.LEU.OR PT, PT, RZ, RZ, PT"),
(0x5bbc23800ff7ff3f, "FSETP.GTU.OR PT, PT, RZ, RZ, PT"),
(0x5bbd23800ff7ff3f, "FSETP.NEU.OR PT, PT, RZ, RZ, PT"),
(0x5bbe23800ff7ff3f, "FSETP.GEU.OR PT, PT, RZ, RZ, PT"),
(0x5bbf23800ff7ff3f, "FSETP.T.OR PT, PT, RZ, RZ, PT"),
(0x37bf23c0b007083f, "FSETP.T.OR PT, PT, R8, -5.5, PT"),
(0x5cc0010000170007, "IADD3 R7, R0, R1, R2"),
(0x5cc2010000170007, "IADD3 R7, R0, R1, -R2"),
(0x5cc6010000170007, "IADD3 R7, R0, -R1, -R2"),
(0x5cce010000170007, "IADD3 R7, -R0, -R1, -R2"),
(0x5cc7812c80170007, "IADD3.RS.X R7.CC, R0.H0, -R1.H1, -R2.H0"),
(0x5cc7815300170007, "IADD3.LS.X R7.CC, R0.H1, -R1.H0, -R2.H1"),
(0x4cc1808000170007, "IADD3.X R7.CC, R0, c[0x0][0x4], R1"),
(0x4cc3808400170007, "IADD3.X R7.CC, R0, c[0x1][0x4], -R1"),
(0x4cc9808800170007, "IADD3.X R7.CC, -R0, c[0x2][0x4], R1"),
(0x4cc5808c00170007, "IADD3.X R7.CC, R0, -c[0x3][0x4], R1"),
(0x5cc0020000370205, "IADD3 R5, R2, R3, R4"),
(0x5cc8020000370205, "IADD3 R5, -R2, R3, R4"),
(0x5cc4020000370205, "IADD3 R5, R2, -R3, R4"),
(0x5cc2020000370205, "IADD3 R5, R2, R3, -R4"),
(0x5cc1020000370205, "IADD3.X R5, R2, R3, R4"),
(0x5cc0024000370205, "IADD3.LS R5, R2, R3, R4"),
(0x5cc0022000370205, "IADD3.RS R5, R2, R3, R4"),
(0x5cc1024000370205, "IADD3.LS.X R5, R2, R3, R4"),
(0x5cc1022000370205, "IADD3.RS.X R5, R2, R3, R4"),
(0x5cc0021000370205, "IADD3 R5, R2.H1, R3, R4"),
(0x5cc0020400370205, "IADD3 R5, R2, R3.H1, R4"),
(0x5cc0020100370205, "IADD3 R5, R2, R3, R4.H1"),
(0x5cc2020100370205, "IADD3 R5, R2, R3, -R4.H1"),
(0x5cc4020400370205, "IADD3 R5, R2, -R3.H1, R4"),
(0x5cc8021000370205, "IADD3 R5, -R2.H1, R3, R4"),
(0x5cc0820000370205, "IADD3 R5.CC, R2, R3, R4"),
(0x4cc0020800070205, "IADD3 R5, R2, c[0x2][0x0], R4"),
(0x4cc4020800070205, "IADD3 R5, R2, -c[0x2][0x0], R4"),
(0x38c0020003270205, "IADD3 R5, R2, 0x32, R4"),
(0x38c4020003270205, "IADD3 R5, R2, 0x32 .NEG, R4"),
(0x38c2020003270205, "IADD3 R5, R2, 0x32, -R4"),
(0x38c8020003270205, "IADD3 R5, -R2, 0x32, R4"),
(0x39c57f8deadfffff, "@!PT IADD3.X RZ, RZ, 0x8dead .NEG, RZ"),
(0x1c7000000057ffff, "IADD32I.SAT.X RZ.CC, RZ, 0x5"),
(0x1dddeadbeef7ffff, "IADD32I.PO.SAT RZ.CC, RZ, -0x21524111"),
(0x1d10000cccc70205, "IADD32I R5.CC, -R2, 0xcccc"),
(0x5b4a038000670504, "ICMP.NE.U32 R4, R5, R6, R7"),
(0x534c038800070504, "ICMP.GE.U32 R4, R5, R7, c[0x2][0x0]"),
(0x534e030800070504, "ICMP.T.U32 R4, R5, R6, c[0x2][0x0]"),
(0x3644038cafe70504, "ICMP.EQ.U32 R4, R5, 0xcafe, R7"),
(0x5c20950000270704, "IMNMX.U32.XMED R4.CC, R7, R2, !P2"),
(0x4c209d0800070704, "IMNMX.U32.XHI R4.CC, R7, c[0x2][0x0], !P2"),
(0x39208d7050670704, "IMNMX.U32.XLO R4.CC, R7, -0xfafa, !P2"),
(0x5b54de8000570403, "ISET.BF.EQ.U32.X.XOR R3.CC, R4, R5, !P5"),
(0x4b54de8800270405, "ISET.BF.EQ.U32.X.XOR R5.CC, R4, c[0x2][0x8], !P5"),
(0x37541ef3502705e6, "ISET.BF.EQ.U32.X.AND R230, R5, -0xcafe, !P5"),
(0x5b60018000170007, "ISETP.F.U32.AND P0, PT, R0, R1, P3"),
(0x5b62018000170007, "ISETP.LT.U32.AND P0, PT, R0, R1, P3"),
(0x5b64018000170007, "ISETP.EQ.U32.AND P0, PT, R0, R1, P3"),
(0x5b66018000170007, "ISETP.LE.U32.AND P0, PT, R0, R1, P3"),
(0x5b68018000170007, "ISETP.GT.U32.AND P0, PT, R0, R1, P3"),
(0x5b6a018000170007, "ISETP.NE.U32.AND P0, PT, R0, R1, P3"),
(0x5b6c018000170007, "ISETP.GE.U32.AND P0, PT, R0, R1, P3"),
(0x5b6e018000170007, "ISETP.T.U32.AND P0, PT, R0, R1, P3"),
(0x4b60008000070007, "ISETP.F.U32.AND P0, PT, R0, c[0x0][0x0], P1"),
(0x4b62410000070007, "ISETP.LT.U32.XOR P0, PT, R0, c[0x0][0x0], P2"),
(0x4b64018000070007, "ISETP.EQ.U32.AND P0, PT, R0, c[0x0][0x0], P3"),
(0x4b66020000070007, "ISETP.LE.U32.AND P0, PT, R0, c[0x0][0x0], P4"),
(0x4b68028000070007, "ISETP.GT.U32.AND P0, PT, R0, c[0x0][0x0], P5"),
(0x4b6a030000070007, "ISETP.NE.U32.AND P0, PT, R0, c[0x0][0x0], P6"),
(0x4b6c200000070007, "ISETP.GE.U32.OR P0, PT, R0, c[0x0][0x0], P0"),
(0x4b6e478000070007, "ISETP.T.U32.XOR P0, PT, R0, c[0x0][0x0], !PT"),
(0x36600580c3470007, "ISETP.F.U32.AND P0, PT, R0, 0xc34, !P3"),
(0x376005ff3cc70007, "ISETP.F.U32.AND P0, PT, R0, -0xc34, !P3"),
(0x5baf01000ff70000, "FCMP.T R0, R0, RZ, R2"),
(0x4ba5010400170000, "FCMP.NE R0, R0, c[0x1][0x4], R2"),
(0x53a8011000270000, "FCMP.NAN R0, R0, R2, c[0x4][0x8]"),
(0x37a1814200070000, "FCMP.LT.FTZ R0, R0, -32, R2"),
(0x59838480003705ff, "FFMA RZ.CC, R5, -R3, -R9"),
(0x49838480001705ff, "FFMA RZ.CC, R5, -c[0x0][0x4], -R9"),
(0x51838200001705ff, "FFMA RZ.CC, R5, -R4, -c[0x0][0x4]"),
(0x328082bf000705ff, "FFMA RZ.CC, R5, 0.5, R5"),
(0x0e343e4000070503, "FFMA32I.FTZ R3.CC, R5, 456, -R3"),
(0x0d443e4000070503, "FFMA32I.FMZ R3, -R5, 456, R3"),
(0x5c60038000370201, "FMNMX R1, R2, R3, PT"),
(0x5c62830000370201, "FMNMX R1.CC, R2, |R3|, P6"),
(0x5c60a28000370201, "FMNMX R1.CC, R2, -R3, P5"),
(0x5c61820000370201, "FMNMX R1.CC, -R2, R3, P4"),
(0x5c60c58000370201, "FMNMX R1.CC, |R2|, R3, !P3"),
(0x4c63300000170302, "FMNMX.FTZ R2, -R3, -|c[0x0][0x4]|, P0"),
(0x396117c090070302, "FMNMX.FTZ R2, -R3, -4.5, !PT"),
(0x396337c090070302, "FMNMX.FTZ R2, -R3, -4.5.NEG.ABS, !PT"),
(0x5c6da58000470203, "FMUL.FMZ.D4.RZ.SAT R3.CC, R2, -R4"),
(0x39691041b80700ff, "FMUL.FTZ RZ, R0, -23 .NEG"),
(0x4c691000001700ff, "FMUL.FTZ RZ, R0, -c[0x0][0x4]"),
(0x39691e41b80700ff, "FMUL.FTZ.INVALIDSCALE37 RZ, R0, -23 .NEG"),
(0x1ec4209000070100, "FMUL32I.FMZ.SAT R0, R1, 34.25"),
(0x36bf33ff8007027f, "FSETP.T.OR PT, PT, R2, INF .NEG.ABS, PT"),
(0x37bf23ff8007037f, "FSETP.T.OR PT, PT, R3, -INF .NEG, PT"),
(0x36bf33ffc007053f, "FSETP.T.OR PT, PT, R5, +QNAN .ABS, PT"),
(0x37bf23ffc007043f, "FSETP.T.OR PT, PT, R4, -QNAN, PT"),
(0x39a8004201970a00, "F2F R0, -32.390625"),
(0x38aa207fc0070a00, "F2F R0, QNAN.NEG.ABS"),
(0x5ca8200000470a00, "F2F R0, -R4"),
(0x4ca8800000170a03, "F2F R3.CC, c[0][4]"),
(0x5ca80000000709ff, "F2F.F16.F32 RZ, R0"),
(0x5ca82200000705ff, "F2F.F16.F16 RZ, -R0.H1"),
(0x5caa000000070bff, "F2F.F64.F32 RZ, |R0|"),
(0x5ca8000000170fff, "F2F.F64.F64 RZ, R1"),
(0x5ca8100000170fff, "F2F.FTZ.F64.F64 RZ, R1"),
(0x5ca804000ff70fff, "F2F.F64.F64.ROUND RZ, RZ"),
(0x5ca804800ff70fff, "F2F.F64.F64.FLOOR RZ, RZ"),
(0x5ca805000ff70fff, "F2F.F64.F64.CEIL RZ, RZ"),
(0x5ca805800ff70fff, "F2F.F64.F64.TRUNC RZ, RZ"),
(0x5ca800000ff70bff, "F2F.F64.F32.RN RZ, RZ"),
(0x5ca800800ff70bff, "F2F.F64.F32.RM RZ, RZ"),
(0x5ca801000ff70bff, "F2F.F64.F32.RP RZ, RZ"),
(0x5ca801800ff70bff, "F2F.F64.F32.RZ RZ, RZ"),
(0x5cac15800ff70fff, "F2F.FTZ.F64.F64.TRUNC.SAT RZ, RZ"),
(0xef9530402807ff03, "LDC.64.ISL R3, c[0x4][0x280]"),
(0xef90304800170103, "LDC.U8.ISL R3, c[0x4][R1-0x7fff]"),
(0x5c443e0000570206, "LOP.PASS_B.X.NZ P4, R6, R2, R5"),
(0x5c441e8000570206, "LOP.PASS_B.X.T P4, R6, ~R2, R5"),
(0x5c44af0000570206, "LOP.PASS_B.X.Z P4, R6.CC, R2, ~R5"),
(0x4c44840800070206, "LOP.XOR P4, R6.CC, R2, c[0x2][0x0]"),
(0x38450000062702ff, "LOP.AND P5, RZ, R2, 0x62"),
(0x071deadbeef70703, "LOP32I.AND.X R3.CC, R7, 0xdeadbeef .INV"),
(0x073deadbeef70703, "LOP32I.OR.X R3.CC, R7, 0xdeadbeef .INV"),
(0x04caaaa000270703, "LOP32I.XOR R3, ~R7, 0xaaaa0002"),
(0x04eaaaa000270703, "LOP32I.PASS_B R3, ~R7, 0xaaaa0002"),
(0x5be7ffffffffffff, "@!PT LOP3.LUT.X.NZ RZ.CC, RZ, RZ, RZ, 0xff"),
(0x3cffffffffffffff, "@!PT LOP3.LUT RZ.CC, RZ, 0x7ffff, RZ, 0xff"),
(0x02ffffffffffffff, "@!PT LOP3.LUT RZ.CC, RZ, c[0x1f][-0x4], RZ, 0xff"),
(0x5088d6016007a004, "PSET.BF.AND.XOR R4.CC, !P2, !P3, !P4"),
(0x5c90000000270004, "RRO.SINCOS R4, R2"),
(0x5c92208000170005, "RRO.EX2 R5, -|R1|"),
(0x4c92008000170005, "RRO.EX2 R5, |c[0x0][0x4]|"),
(0x389220c0a8070005, "RRO.EX2 R5, 5.25 .NEG.ABS"),
(0x5ca0060000270100, "SEL R0, R1, R2, !P4"),
(0x4ca0038000170100, "SEL R0, R1, c[0x0][0x4], PT"),
(0x38a0020004070100, "SEL R0, R1, 0x40, P4"),
(0x5c488080001700ff, "SHL.W RZ.CC, R0, R1"),
(0x5c488800001700ff, "SHL.X RZ.CC, R0, R1"),
(0x5c480000001700ff, "SHL RZ, R0, R1"),
(0x4c48000c000700ff, "SHL RZ, R0, c[0x3][0x0]"),
(0x3948007fffb702ff, "SHL RZ, R2, -0x5"),
(0x38480000005703ff, "SHL RZ, R3, 0x5"),
(0x50d8e38000070002, "VOTE.ALL R2, PT, PT"),
(0x50d8e78000070003, "VOTE.ALL R3, PT, !PT"),
(0x50d8278000070005, "VOTE.ALL R5, P1, !PT"),
(0x50da278000070005, "VOTE.EQ R5, P1, !PT"),
(0x50d9220000070007, "VOTE.ANY R7, P1, P4"),
(0x5cb8000000272102, "I2F.F16.S8 R2, R2"),
(0x5cb8000000270102, "I2F.F16.U8 R2, R2"),
(0x7a04004b94070102, "HADD2.MRG_H0 R2, R1, 15, 32"),
(0x7a06004b94070102, "HADD2.MRG_H1 R2, R1, 15, 32"),
(0x7a02004b94070102, "HADD2.F32 R2, R1, 15, 32"),
(0x7a12004b94070102, "HADD2.F32.SAT R2, R1, 15, 32"),
(0x7b02084c7ff70102, "HADD2.F32 R2, -R1, -17, -QNAN"),
(0x7b03004c7ff70102, "HADD2.F32 R2, R1.H0_H0, -17, -QNAN"),
(0x7b03804c7ff70102, "HADD2.F32 R2, R1.H1_H1, -17, -QNAN"),
(0x7b04004c7ff70102, "HADD2.MRG_H0 R2, R1, -17, -QNAN"),
(0x7b04004c5ff70102, "HADD2.MRG_H0 R2, R1, -17, +QNAN"),
(0x7a04007c3f070102, "HADD2.MRG_H0 R2, R1, +INF , -INF"),
(0x5d16000040470102, "HADD2.MRG_H1 R2, R1, |R4|"),
(0x5d12800080470102, "HADD2.F32 R2, R1.F32, -R4"),
(0x5d12000100470102, "HADD2.F32.SAT R2, R1, R4"),
(0x5d10108120470102, "HADD2.FTZ.SAT R2, |R1|, R4.H0_H0"),
(0x5d12080030470102, "HADD2.F32 R2, -R1, R4.H1_H1"),
(0x5d13000010470102, "HADD2.F32 R2, R1.H0_H0, R4.F32"),
(0x5d13800090570102, "HADD2.F32 R2, R1.H1_H1, -R5.F32"),
(0x5d14000000270102, "HADD2.MRG_H0 R2, R1, R2"),
(0x5d14000000470102, "HADD2.MRG_H0 R2, R1, R4"),
(0x5d14000000170102, "HADD2.MRG_H0 R2, R1, R1"),
(0x7a84000800170102, "HADD2.MRG_H0 R2, R1, c[0x2][0x4]"),
(0x7ac6000800270102, "HADD2.MRG_H1 R2, R1, |c[0x2][0x8]|"),
(0x7b82800800370102, "HADD2.F32 R2, R1.F32, -c[0x2][0xc]"),
(0x7a92000800270102, "HADD2.F32.SAT R2, R1, c[0x2][0x8]"),
(0x7a90108800370102, "HADD2.FTZ.SAT R2, |R1|, c[0x2][0xc]"),
(0x7a82080800470102, "HADD2.F32 R2, -R1, c[0x2][0x10]"),
(0x7a83000800670102, "HADD2.F32 R2, R1.H0_H0, c[0x2][0x18]"),
(0x7b83800800870102, "HADD2.F32 R2, R1.H1_H1, -c[0x2][0x20]"),
(0x7a84000801070102, "HADD2.MRG_H0 R2, R1, c[0x2][0x40]"),
(0x7a84000800370102, "HADD2.MRG_H0 R2, R1, c[0x2][0xc]"),
(0x7a84000800070102, "HADD2.MRG_H0 R2, R1, c[0x2][0x0]"),
(0x2c045004a8070100, "HADD2_32I R0, R1, 5, 13"),
(0x2c845004a8070100, "HADD2_32I.FTZ R0, R1, 5, 13"),
(0x2c145004a8070100, "HADD2_32I.SAT R0, R1, 5, 13"),
(0x2c0c5004a8070100, "HADD2_32I R0, R1, -5, 13"),
(0x2c04500ca8070100, "HADD2_32I R0, R1, 5, -13"),
(0x2d045004a8070100, "HADD2_32I R0, -R1, 5, 13"),
(0x2c645004a8070100, "HADD2_32I R0, R1.H1_H1, 5, 13"),
(0x2c445004a8070100, "HADD2_32I R0, R1.H0_H0, 5, 13"),
(0x2c245004a8070100, "HADD2_32I R0, R1.F32, 5, 13"),
(0x5d00018000270100, "HFMA2 R0, R1, R2, R3"),
(0x5d04018000270100, "HFMA2.MRG_H0 R0, R1, R2, R3"),
(0x5d06018000270100, "HFMA2.MRG_H1 R0, R1, R2, R3"),
(0x5d02018000270100, "HFMA2.F32 R0, R1, R2, R3"),
(0x5d00018100270100, "HFMA2.SAT R0, R1, R2, R3"),
(0x5d0001a000270100, "HFMA2.FTZ R0, R1, R2, R3"),
(0x5d0001c000270100, "HFMA2.FMZ R0, R1, R2, R3"),
(0x5d01818000270100, "HFMA2 R0, R1.H1_H1, R2, R3"),
(0x5d01018000270100, "HFMA2 R0, R1.H0_H0, R2, R3"),
(0x5d00818000270100, "HFMA2 R0, R1.F32, R2, R3"),
(0x5d00018030270100, "HFMA2 R0, R1, R2.H1_H1, R3"),
(0x5d00018020270100, "HFMA2 R0, R1, R2.H0_H0, R3"),
(0x5d00018010270100, "HFMA2 R0, R1, R2.F32, R3"),
(0x5d00019800270100, "HFMA2 R0, R1, R2, R3.H1_H1"),
(0x5d00019000270100, "HFMA2 R0, R1, R2, R3.H0_H0"),
(0x5d00018800270100, "HFMA2 R0, R1, R2, R3.F32"),
(0x5d00018080270100, "HFMA2 R0, R1, -R2, R3"),
(0x5d00018040270100, "HFMA2 R0, R1, R2, -R3"),
(0x7080018800070100, "HFMA2 R0, R1, c[0x2][0x0], R3"),
(0x7084018800070100, "HFMA2.MRG_H0 R0, R1, c[0x2][0x0], R3"),
(0x7086018800070100, "HFMA2.MRG_H1 R0, R1, c[0x2][0x0], R3"),
(0x7082018800070100, "HFMA2.F32 R0, R1, c[0x2][0x0], R3"),
(0x7090018800070100, "HFMA2.SAT R0, R1, c[0x2][0x0], R3"),
(0x7280018800070100, "HFMA2.FTZ R0, R1, c[0x2][0x0], R3"),
(0x7480018800070100, "HFMA2.FMZ R0, R1, c[0x2][0x0], R3"),
(0x7081818800070100, "HFMA2 R0, R1.H1_H1, c[0x2][0x0], R3"),
(0x7081018800070100, "HFMA2 R0, R1.H0_H0, c[0x2][0x0], R3"),
(0x7080818800070100, "HFMA2 R0, R1.F32, c[0x2][0x0], R3"),
(0x70e0018800070100, "HFMA2 R0, R1, c[0x2][0x0], R3.H1_H1"),
(0x70c0018800070100, "HFMA2 R0, R1, c[0x2][0x0], R3.H0_H0"),
(0x70a0018800070100, "HFMA2 R0, R1, c[0x2][0x0], R3.F32"),
(0x7180018800070100, "HFMA2 R0, R1, -c[0x2][0x0], R3"),
(0x7088018800070100, "HFMA2 R0, R1, c[0x2][0x0], -R3"),
(0x6080010800070100, "HFMA2 R0, R1, R2, c[0x2][0x0]"),
(0x6084010800070100, "HFMA2.MRG_H0 R0, R1, R2, c[0x2][0x0]"),
(0x6086010800070100, "HFMA2.MRG_H1 R0, R1, R2, c[0x2][0x0]"),
(0x6082010800070100, "HFMA2.F32 R0, R1, R2, c[0x2][0x0]"),
(0x6090010800070100, "HFMA2.SAT R0, R1, R2, c[0x2][0x0]"),
(0x6280010800070100, "HFMA2.FTZ R0, R1, R2, c[0x2][0x0]"),
(0x6480010800070100, "HFMA2.FMZ R0, R1, R2, c[0x2][0x0]"),
(0x6081810800070100, "HFMA2 R0, R1.H1_H1, R2, c[0x2][0x0]"),
(0x6081010800070100, "HFMA2 R0, R1.H0_H0, R2, c[0x2][0x0]"),
(0x6080810800070100, "HFMA2 R0, R1.F32, R2, c[0x2][0x0]"),
(0x60e0010800070100, "HFMA2 R0, R1, R2.H1_H1, c[0x2][0x0]"),
(0x60c0010800070100, "HFMA2 R0, R1, R2.H0_H0, c[0x2][0x0]"),
(0x60a0010800070100, "HFMA2 R0, R1, R2.F32, c[0x2][0x0]"),
(0x6180010800070100, "HFMA2 R0, R1, -R2, c[0x2][0x0]"),
(0x6088010800070100, "HFMA2 R0, R1, R2, -c[0x2][0x0]"),
(0x710001cb93270100, "HFMA2 R0, R1, -15, 18, R3"),
(0x710401cb93270100, "HFMA2.MRG_H0 R0, R1, -15, 18, R3"),
(0x710601cb93270100, "HFMA2.MRG_H1 R0, R1, -15, 18, R3"),
(0x710201cbb3270100, "HFMA2.F32 R0, R1, -15, -18, R3"),
(0x711001cb93270100, "HFMA2.SAT R0, R1, -15, 18, R3"),
(0x730001cb93270100, "HFMA2.FTZ R0, R1, -15, 18, R3"),
(0x750001cb93270100, "HFMA2.FMZ R0, R1, -15, 18, R3"),
(0x710181cb93270100, "HFMA2 R0, R1.H1_H1, -15, 18, R3"),
(0x710101cbb3270100, "HFMA2 R0, R1.H0_H0, -15, -18, R3"),
(0x710081cb93270100, "HFMA2 R0, R1.F32, -15, 18, R3"),
(0x716001cb93270100, "HFMA2 R0, R1, -15, 18, R3.H1_H1"),
(0x714001cbb3270100, "HFMA2 R0, R1, -15, -18, R3.H0_H0"),
(0x712001cb93270100, "HFMA2 R0, R1, -15, 18, R3.F32"),
(0x710001cb93270100, "HFMA2 R0, R1, -15, 18, R3"),
(0x710801cb93270100, "HFMA2 R0, R1, -15, 18, -R3"),
(0x5d08000000270100, "HMUL2 R0, R1, R2"),
(0x28045007fff70100, "HFMA2_32I R0, R1, 5, +QNAN , R0"),
(0x28845007fff70100, "HFMA2_32I.FTZ R0, R1, 5, +QNAN , R0"),
(0x29045007fff70100, "HFMA2_32I.FMZ R0, R1, 5, +QNAN , R0"),
(0x28645007fff70100, "HFMA2_32I R0, R1.H1_H1, 5, +QNAN , R0"),
(0x28445007fff70100, "HFMA2_32I R0, R1.H0_H0, 5, +QNAN , R0"),
(0x28245007fff70100, "HFMA2_32I R0, R1.F32, 5, +QNAN , R0"),
(0x280c5007fff70100, "HFMA2_32I R0, R1, -5, +QNAN , R0"),
(0x2804500ffff70100, "HFMA2_32I R0, R1, 5, -QNAN , R0"),
(0x28145007fff70100, "HFMA2_32I R0, R1, 5, +QNAN , -R0"),
(0x5d0a000000270100, "HMUL2.F32 R0, R1, R2"),
(0x5d0c000000270100, "HMUL2.MRG_H0 R0, R1, R2"),
(0x5d0e000000270100, "HMUL2.MRG_H1 R0, R1, R2"),
(0x5d08008000270100, "HMUL2.FTZ R0, R1, R2"),
(0x5d08010000270100, "HMUL2.FMZ R0, R1, R2"),
(0x5d08000100270100, "HMUL2.SAT R0, R1, R2"),
(0x5d08100000270100, "HMUL2 R0, |R1|, R2"),
(0x5d08000080270100, "HMUL2 R0, R1, -R2"),
(0x5d08000040270100, "HMUL2 R0, R1, |R2|"),
(0x5d09000000270100, "HMUL2 R0, R1.H0_H0, R2"),
(0x5d09800000270100, "HMUL2 R0, R1.H1_H1, R2"),
(0x5d08800000270100, "HMUL2 R0, R1.F32, R2"),
(0x5d08000020270100, "HMUL2 R0, R1, R2.H0_H0"),
(0x5d08000030270100, "HMUL2 R0, R1, R2.H1_H1"),
(0x5d08000010270100, "HMUL2 R0, R1, R2.F32"),
(0x7880000800070100, "HMUL2 R0, R1, c[0x2][0x0]"),
(0x7882000800070100, "HMUL2.F32 R0, R1, c[0x2][0x0]"),
(0x7884000800070100, "HMUL2.MRG_H0 R0, R1, c[0x2][0x0]"),
(0x7886000800070100, "HMUL2.MRG_H1 R0, R1, c[0x2][0x0]"),
(0x7880008800070100, "HMUL2.FTZ R0, R1, c[0x2][0x0]"),
(0x7880010800070100, "HMUL2.FMZ R0, R1, c[0x2][0x0]"),
(0x7890000800070100, "HMUL2.SAT R0, R1, c[0x2][0x0]"),
(0x7880100800070100, "HMUL2 R0, |R1|, c[0x2][0x0]"),
(0x7880080800070100, "HMUL2 R0, R1, -c[0x2][0x0]"),
(0x78c0000800070100, "HMUL2 R0, R1, |c[0x2][0x0]|"),
(0x7881000800070100, "HMUL2 R0, R1.H0_H0, c[0x2][0x0]"),
(0x7881800800070100, "HMUL2 R0, R1.H1_H1, c[0x2][0x0]"),
(0x7880800800070100, "HMUL2 R0, R1.F32, c[0x2][0x0]"),
(0x7800004a93370100, "HMUL2 R0, R1, 13, 19"),
(0x7800084a93370100, "HMUL2 R0, -R1, 13, 19"),
(0x7802004a93370100, "HMUL2.F32 R0, R1, 13, 19"),
(0x7804004ab3370100, "HMUL2.MRG_H0 R0, R1, 13, -19"),
(0x7906004a93370100, "HMUL2.MRG_H1 R0, R1, -13, 19"),
(0x780000ca93370100, "HMUL2.FTZ R0, R1, 13, 19"),
(0x7800014a93370100, "HMUL2.FMZ R0, R1, 13, 19"),
(0x7910004ab3370100, "HMUL2.SAT R0, R1, -13, -19"),
(0x7800104a93370100, "HMUL2 R0, |R1|, 13, 19"),
(0x7900004a93370100, "HMUL2 R0, R1, -13, 19"),
(0x7800004ab3370100, "HMUL2 R0, R1, 13, -19"),
(0x7800004ab3370100, "HMUL2 R0, R1, 13, -19"),
(0x7801004a93370100, "HMUL2 R0, R1.H0_H0, 13, 19"),
(0x7801804ab3370100, "HMUL2 R0, R1.H1_H1, 13, -19"),
(0x7800804a93370100, "HMUL2 R0, R1.F32, 13, 19"),
(0x2a07c00542070100, "HMUL2_32I R0, R1, +INF , 66"),
(0x2a87c00542070100, "HMUL2_32I.FTZ R0, R1, +INF , 66"),
(0x2b07c00542070100, "HMUL2_32I.FMZ R0, R1, +INF , 66"),
(0x2a17c00542070100, "HMUL2_32I.SAT R0, R1, +INF , 66"),
(0x2a67c00542070100, "HMUL2_32I R0, R1.H1_H1, +INF , 66"),
(0x2a47c00542070100, "HMUL2_32I R0, R1.H0_H0, +INF , 66"),
(0x2a27c00542070100, "HMUL2_32I R0, R1.F32, +INF , 66"),
(0x2a0fc00542070100, "HMUL2_32I R0, R1, -INF , 66"),
(0x2a07c00d42070100, "HMUL2_32I R0, R1, +INF , -66"),
(0x5d18038000270100, "HSET2.F.AND R0, R1, R2, PT"),
(0x5d1a038000270100, "HSET2.BF.F.AND R0, R1, R2, PT"),
(0x5d1c038000270100, "HSET2.F.FTZ.AND R0, R1, R2, PT"),
(0x5d180b8000270100, "HSET2.F.AND R0, -R1, R2, PT"),
(0x5d18138000270100, "HSET2.F.AND R0, |R1|, R2, PT"),
(0x5d18038080270100, "HSET2.F.AND R0, R1, -R2, PT"),
(0x5d18038040270100, "HSET2.F.AND R0, R1, |R2|, PT"),
(0x5d18078000270100, "HSET2.F.AND R0, R1, R2, !PT"),
(0x5d19038000270100, "HSET2.F.AND R0, R1.H0_H0, R2, PT"),
(0x5d19838000270100, "HSET2.F.AND R0, R1.H1_H1, R2, PT"),
(0x5d18838000270100, "HSET2.F.AND R0, R1.F32, R2, PT"),
(0x5d18038020270100, "HSET2.F.AND R0, R1, R2.H0_H0, PT"),
(0x5d18038030270100, "HSET2.F.AND R0, R1, R2.H1_H1, PT"),
(0x5d18038010270100, "HSET2.F.AND R0, R1, R2.F32, PT"),
(0x5d18238000270100, "HSET2.F.OR R0, R1, R2, PT"),
(0x5d18438000270100, "HSET2.F.XOR R0, R1, R2, PT"),
(0x5d1803f800270100, "HSET2.T.AND R0, R1, R2, PT"),
(0x5d1803b800270100, "HSET2.NUM.AND R0, R1, R2, PT"),
(0x7c80038800070100, "HSET2.F.AND R0, R1, c[0x2][0x0], PT"),
(0x7ca0038800070100, "HSET2.BF.F.AND R0, R1, c[0x2][0x0], PT"),
(0x7cc0038800070100, "HSET2.F.FTZ.AND R0, R1, c[0x2][0x0], PT"),
(0x7c800b8800070100, "HSET2.F.AND R0, -R1, c[0x2][0x0], PT"),
(0x7c80138800070100, "HSET2.F.AND R0, |R1|, c[0x2][0x0], PT"),
(0x7d80038800070100, "HSET2.F.AND R0, R1, -c[0x2][0x0], PT"),
(0x7c80078800070100, "HSET2.F.AND R0, R1, c[0x2][0x0], !PT"),
(0x7c81038800070100, "HSET2.F.AND R0, R1.H0_H0, c[0x2][0x0], PT"),
(0x7c81838800070100, "HSET2.F.AND R0, R1.H1_H1, c[0x2][0x0], PT"),
(0x7c80838800070100, "HSET2.F.AND R0, R1.F32, c[0x2][0x0], PT"),
(0x7c80238800070100, "HSET2.F.OR R0, R1, c[0x2][0x0], PT"),
(0x7c80438800070100, "HSET2.F.XOR R0, R1, c[0x2][0x0], PT"),
(0x7c9e038800070100, "HSET2.T.AND R0, R1, c[0x2][0x0], PT"),
(0x7c8e038800070100, "HSET2.NUM.AND R0, R1, c[0x2][0x0], PT"),
(0x7c0003cc12270100, "HSET2.F.AND R0, R1, 16, 9, PT"),
(0x7d2003cc32270100, "HSET2.BF.F.AND R0, R1, -16, -9, PT"),
(0x7c4003cc32270100, "HSET2.F.FTZ.AND R0, R1, 16, -9, PT"),
(0x7c000bcc12270100, "HSET2.F.AND R0, -R1, 16, 9, PT"),
(0x7c0013cc12270100, "HSET2.F.AND R0, |R1|, 16, 9, PT"),
(0x7d0003cc12270100, "HSET2.F.AND R0, R1, -16, 9, PT"),
(0x7c0007cc12270100, "HSET2.F.AND R0, R1, 16, 9, !PT"),
(0x7c0103cc12270100, "HSET2.F.AND R0, R1.H0_H0, 16, 9, PT"),
(0x7c0183cc12270100, "HSET2.F.AND R0, R1.H1_H1, 16, 9, PT"),
(0x7c0083cc12270100, "HSET2.F.AND R0, R1.F32, 16, 9, PT"),
(0x7c0023cc12270100, "HSET2.F.OR R0, R1, 16, 9, PT"),
(0x7c0043cc12270100, "HSET2.F.XOR R0, R1, 16, 9, PT"),
(0x7c1e03cc32270100, "HSET2.T.AND R0, R1, 16, -9, PT"),
(0x7c0e03cc12270100, "HSET2.NUM.AND R0, R1, 16, 9, PT"),
(0x5d20038000370201, "HSETP2.F.AND P0, P1, R2, R3, PT"),
(0x5d22038000370201, "HSETP2.F.H_AND.AND P0, P1, R2, R3, PT"),
(0x5d20038000370241, "HSETP2.F.FTZ.AND P0, P1, R2, R3, PT"),
(0x5d200b8000370201, "HSETP2.F.AND P0, P1, -R2, R3, PT"),
(0x5d20138000370201, "HSETP2.F.AND P0, P1, |R2|, R3, PT"),
(0x5d20038080370201, "HSETP2.F.AND P0, P1, R2, -R3, PT"),
(0x5d20038040370201, "HSETP2.F.AND P0, P1, R2, |R3|, PT"),
(0x5d20078000370201, "HSETP2.F.AND P0, P1, R2, R3, !PT"),
(0x5d20238000370201, "HSETP2.F.OR P0, P1, R2, R3, PT"),
(0x5d20438000370201, "HSETP2.F.XOR P0, P1, R2, R3, PT"),
(0x5d2003b800370201, "HSETP2.NUM.AND P0, P1, R2, R3, PT"),
(0x5d2003f800370201, "HSETP2.T.AND P0, P1, R2, R3, PT"),
(0x7e80038800070201, "HSETP2.F.AND P0, P1, R2, c[0x2][0x0], PT"),
(0x7ea0038800070201, "HSETP2.F.H_AND.AND P0, P1, R2, c[0x2][0x0], PT"),
(0x7e80038800070241, "HSETP2.F.FTZ.AND P0, P1, R2, c[0x2][0x0], PT"),
(0x7e800b8800070201, "HSETP2.F.AND P0, P1, -R2, c[0x2][0x0], PT"),
(0x7e80138800070201, "HSETP2.F.AND P0, P1, |R2|, c[0x2][0x0], PT"),
(0x7f80038800070201, "HSETP2.F.AND P0, P1, R2, -c[0x2][0x0], PT"),
(0x7ec0038800070201, "HSETP2.F.AND P0, P1, R2, |c[0x2][0x0]|, PT"),
(0x7e80078800070201, "HSETP2.F.AND P0, P1, R2, c[0x2][0x0], !PT"),
(0x7e80238800070201, "HSETP2.F.OR P0, P1, R2, c[0x2][0x0], PT"),
(0x7e80438800070201, "HSETP2.F.XOR P0, P1, R2, c[0x2][0x0], PT"),
(0x7e8e038800070201, "HSETP2.NUM.AND P0, P1, R2, c[0x2][0x0], PT"),
(0x7e9e038800070201, "HSETP2.T.AND P0, P1, R2, c[0x2][0x0], PT"),
(0x7e0003ccd0870201, "HSETP2.F.AND P0, P1, R2, 19, 3, PT"),
(0x7f2003ccf0870201, "HSETP2.F.H_AND.AND P0, P1, R2, -19, -3, PT"),
(0x7f0003ccd0870241, "HSETP2.F.FTZ.AND P0, P1, R2, -19, 3, PT"),
(0x7e000bccf0870201, "HSETP2.F.AND P0, P1, -R2, 19, -3, PT"),
(0x7e0013ccd0870201, "HSETP2.F.AND P0, P1, |R2|, 19, 3, PT"),
(0x7f0003ccd0870201, "HSETP2.F.AND P0, P1, R2, -19, 3, PT"),
(0x7e0007ccf0870201, "HSETP2.F.AND P0, P1, R2, 19, -3, !PT"),
(0x7e0023ccd0870201, "HSETP2.F.OR P0, P1, R2, 19, 3, PT"),
(0x7e0043ccd0870201, "HSETP2.F.XOR P0, P1, R2, 19, 3, PT"),
(0x7e0e03ccd0870201, "HSETP2.NUM.AND P0, P1, R2, 19, 3, PT"),
(0x7e1e03ccd0870201, "HSETP2.T.AND P0, P1, R2, 19, 3, PT"),
(0xc5980f3720470200, "TEX.LL.LC P3, R0, R2, R4, 0xf3, 2D, 0xe"),
(0xc330013120270604, "TEX.LBA P6, R4, R6, R2, 0x13, 2D, 0x2"),
(0xc3900171b0370404, "TEX.LLA P2, R4, R4, R3, 0x17, ARRAY_2D, 0x3"),
(0xc3940171c0370404, "TEX.LLA.DC P2, R4, R4, R3, 0x17, 3D, 0x3"),
(0xc0500171e0370404, "TEX.AOFFI P2, R4, R4, R3, 0x17, CUBE, 0x3"),
(0xc012017180370404, "TEX.NODEP P2, R4, R4, R3, 0x17, 1D, 0x3"),
(0xc010017990370404, "TEX.NDV P2, R4, R4, R3, 0x17, ARRAY_1D, 0x3"),
(0xde980167a0470200, "TEX.B.LL.LC P3, R0, R2, R4, 0x0, 2D, 0xf"),
(0xdeb000c100270604, "TEX.B.LBA P6, R4, R6, R2, 0x0, 1D, 0x2"),
(0xde9000e1d0370404, "TEX.B.LLA P2, R4, R4, R3, 0x0, ARRAY_3D, 0x3"),
(0xde9400e1f0370404, "TEX.B.LLA.DC P2, R4, R4, R3, 0x0, ARRAY_CUBE, 0x3"),
(0xde90001260370404, "TEX.B.AOFFI P2, R4, R4, R3, 0x0, CUBE, 0x4"),
(0xde92000340370404, "TEX.B.NODEP P2, R4, R4, R3, 0x0, 3D, 0x6"),
(0xde90000d30370404, "TEX.B.NDV P2, R4, R4, R3, 0x0, ARRAY_2D, 0xa"),
(0xd830028020870604, "TEXS R2, R4, R6, R8, 0x28, 2D, RGBA"),
(0xd850028020870604, "TEXS.LZ R2, R4, R6, R8, 0x28, 2D, RGBA"),
(0xd870028020870604, "TEXS.LL R2, R4, R6, R8, 0x28, 2D, RGBA"),
(0xd890028020870604, "TEXS.DC R2, R4, R6, R8, 0x28, 2D, RGBA"),
(0xd8b0028020870604, "TEXS.LL.DC R2, R4, R6, R8, 0x28, 2D, RGBA"),
(0xd8d0028020870604, "TEXS.LZ.DC R2, R4, R6, R8, 0x28, 2D, RGBA"),
(0xd810028020870604, "TEXS.LZ R2, R4, R6, R8, 0x28, 1D, RGBA"),
(0xd8f0028020870604, "TEXS R2, R4, R6, R8, 0x28, ARRAY_2D, RGBA"),
(0xd910028020870604, "TEXS.LZ R2, R4, R6, R8, 0x28, ARRAY_2D, RGBA"),
(0xd930028020870604, "TEXS.LZ.DC R2, R4, R6, R8, 0x28, ARRAY_2D, RGBA"),
(0xd950028020870604, "TEXS R2, R4, R6, R8, 0x28, 3D, RGBA"),
(0xd970028020870604, "TEXS.LZ R2, R4, R6, R8, 0x28, 3D, RGBA"),
(0xd990028020870604, "TEXS R2, R4, R6, R8, 0x28, CUBE, RGBA"),
(0xd9b0028020870604, "TEXS.LL R2, R4, R6, R8, 0x28, CUBE, RGBA"),
(0xd830028ff0870604, "TEXS RZ, R4, R6, R8, 0x28, 2D, RG"),
(0xd824028ff0870604, "TEXS RZ, R4, R6, R8, 0x28, 2D, G"),
(0xd828028ff0870604, "TEXS RZ, R4, R6, R8, 0x28, 2D, B"),
(0xd82c028ff0870604, "TEXS RZ, R4, R6, R8, 0x28, 2D, A"),
(0xd830028ff0870604, "TEXS RZ, R4, R6, R8, 0x28, 2D, RG"),
(0xd834028ff0870604, "TEXS RZ, R4, R6, R8, 0x28, 2D, RA"),
(0xd838028ff0870604, "TEXS RZ, R4, R6, R8, 0x28, 2D, GA"),
(0xd83c028ff0870604, "TEXS RZ, R4, R6, R8, 0x28, 2D, BA"),
(0xd820028020870604, "TEXS R2, R4, R6, R8, 0x28, 2D, RGB"),
(0xd824028020870604, "TEXS R2, R4, R6, R8, 0x28, 2D, RGA"),
(0xd828028020870604, "TEXS R2, R4, R6, R8, 0x28, 2D, RBA"),
(0xd82c028020870604, "TEXS R2, R4, R6, R8, 0x28, 2D, GBA"),
(0xd832028020870604, "TEXS.NODEP R2, R4, R6, R8, 0x28, 2D, RGBA"),
(0xd030020020870604, "TEXS.F16 R2, R4, R6, R8, 0x20, 2D, RGBA"),
(0xc8000287a0870604, "TLD4.R P0, R4, R6, R8, 0x28, 2D, 0xf"),
(0xc9000287a0870604, "TLD4.G P0, R4, R6, R8, 0x28, 2D, 0xf"),
(0xca000287a0870604, "TLD4.B P0, R4, R6, R8, 0x28, 2D, 0xf"),
(0xcb000287a0870604, "TLD4.A P0, R4, R6, R8, 0x28, 2D, 0xf"),
(0xc8000281a0870604, "TLD4.R P0, R4, R6, R8, 0x28, 2D, 0x3"),
(0xc800028780870604, "TLD4.R P0, R4, R6, R8, 0x28, 1D, 0xf"),
(0xc800028790870604, "TLD4.R P0, R4, R6, R8, 0x28, ARRAY_1D, 0xf"),
(0xc8000287b0870604, "TLD4.R P0, R4, R6, R8, 0x28, ARRAY_2D, 0xf"),
(0xc8000287e0870604, "TLD4.R P0, R4, R6, R8, 0x28, CUBE, 0xf"),
(0xc8000287d0870604, "TLD4.R P0, R4, R6, R8, 0x28, ARRAY_3D, 0xf"),
(0xc8000287c0870604, "TLD4.R P0, R4, R6, R8, 0x28, 3D, 0xf"),
(0xc8000287f0870604, "TLD4.R P0, R4, R6, R8, 0x28, ARRAY_CUBE, 0xf"),
(0xc8400287a0870604, "TLD4.R.AOFFI P0, R4, R6, R8, 0x28, 2D, 0xf"),
(0xc8800287a0870604, "TLD4.R.PTP P0, R4, R6, R8, 0x28, 2D, 0xf"),
(0xc8040287a0870604, "TLD4.R.DC P0, R4, R6, R8, 0x28, 2D, 0xf"),
(0xc800028fa0870604, "TLD4.R.NDV P0, R4, R6, R8, 0x28, 2D, 0xf"),
(0xc8020287a0870604, "TLD4.R.NODEP P0, R4, R6, R8, 0x28, 2D, 0xf"),
(0xc8200287a0870604, "TLD4.R P4, R4, R6, R8, 0x28, 2D, 0xf"),
(0xdec00007a0870604, "TLD4.R.B P0, R4, R6, R8, 0x0, 2D, 0xf"),
(0xdec00047a0870604, "TLD4.G.B P0, R4, R6, R8, 0x0, 2D, 0xf"),
(0xdec00087a0870604, "TLD4.B.B P0, R4, R6, R8, 0x0, 2D, 0xf"),
(0xdec000c7a0870604, "TLD4.A.B P0, R4, R6, R8, 0x0, 2D, 0xf"),
(0xdec00001a0870604, "TLD4.R.B P0, R4, R6, R8, 0x0, 2D, 0x3"),
(0xdec0000780870604, "TLD4.R.B P0, R4, R6, R8, 0x0, 1D, 0xf"),
(0xdec0000790870604, "TLD4.R.B P0, R4, R6, R8, 0x0, ARRAY_1D, 0xf"),
(0xdec00007b0870604, "TLD4.R.B P0, R4, R6, R8, 0x0, ARRAY_2D, 0xf"),
(0xdec00007e0870604, "TLD4.R.B P0, R4, R6, R8, 0x0, CUBE, 0xf"),
(0xdec00007d0870604, "TLD4.R.B P0, R4, R6, R8, 0x0, ARRAY_3D, 0xf"),
(0xdec00007c0870604, "TLD4.R.B P0, R4, R6, R8, 0x0, 3D, 0xf"),
(0xdec00007f0870604, "TLD4.R.B P0, R4, R6, R8, 0x0, ARRAY_CUBE, 0xf"),
(0xdec00017a0870604, "TLD4.R.B.AOFFI P0, R4, R6, R8, 0x0, 2D, 0xf"),
(0xdec00027a0870604, "TLD4.R.B.PTP P0, R4, R6, R8, 0x0, 2D, 0xf"),
(0xdec40007a0870604, "TLD4.R.B.DC P0, R4, R6, R8, 0x0, 2D, 0xf"),
(0xdec0000fa0870604, "TLD4.R.B.NDV P0, R4, R6, R8, 0x0, 2D, 0xf"),
(0xdec20007a0870604, "TLD4.R.B.NODEP P0, R4, R6, R8, 0x0, 2D, 0xf"),
(0xdee00007a0870604, "TLD4.R.B P4, R4, R6, R8, 0x0, 2D, 0xf"),
(0xdf00028040570206, "TLD4S.R R4, R6, R2, R5, 0x28"),
(0xdf80028040570206, "TLD4S.F16.R R4, R6, R2, R5, 0x28"),
(0xdf10028040570206, "TLD4S.G R4, R6, R2, R5, 0x28"),
(0xdf20028040570206, "TLD4S.B R4, R6, R2, R5, 0x28"),
(0xdf30028040570206, "TLD4S.A R4, R6, R2, R5, 0x28"),
(0xdf08028040570206, "TLD4S.R.AOFFI R4, R6, R2, R5, 0x28"),
(0xdf0c028040570206, "TLD4S.R.AOFFI.DC R4, R6, R2, R5, 0x28"),
(0xdf0e028040570206, "TLD4S.R.AOFFI.DC.NODEP R4, R6, R2, R5, 0x28"),
(0xdf02030040570206, "TLD4S.R.NODEP R4, R6, R2, R5, 0x30"),
(0xdf000280107705ff, "TLD4S.R R1, RZ, R5, R7, 0x28"),
(0xdc200287a0770204, "TLD.LZ P4, R4, R2, R7, 0x28, 2D, 0xf"),
(0xdca00284a0770204, "TLD.LL P4, R4, R2, R7, 0x28, 2D, 0x9"),
(0xdc280284a0770204, "TLD.LZ P5, R4, R2, R7, 0x28, 2D, 0x9"),
(0xdc20028ca0770204, "TLD.LZ.AOFFI P4, R4, R2, R7, 0x28, 2D, 0x9"),
(0xdc240284a0770204, "TLD.LZ.MS P4, R4, R2, R7, 0x28, 2D, 0x9"),
(0xdc600284a0770204, "TLD.LZ.CL P4, R4, R2, R7, 0x28, 2D, 0x9"),
(0xdc220284a0770204, "TLD.LZ.NODEP P4, R4, R2, R7, 0x28, 2D, 0x9"),
(0xdc200304a0770204, "TLD.LZ P4, R4, R2, R7, 0x30, 2D, 0x9"),
(0xdc200284a0570404, "TLD.LZ P4, R4, R4, R5, 0x28, 2D, 0x9"),
(0xdc200281a0770204, "TLD.LZ P4, R4, R2, R7, 0x28, 2D, 0x3"),
(0xdc20028480770204, "TLD.LZ P4, R4, R2, R7, 0x28, 1D, 0x9"),
(0xdc20028490770204, "TLD.LZ P4, R4, R2, R7, 0x28, ARRAY_1D, 0x9"),
(0xdc200284b0770204, "TLD.LZ P4, R4, R2, R7, 0x28, ARRAY_2D, 0x9"),
(0xdc200284c0770204, "TLD.LZ P4, R4, R2, R7, 0x28, 3D, 0x9"),
(0xdc200284d0770204, "TLD.LZ P4, R4, R2, R7, 0x28, ARRAY_3D, 0x9"),
(0xdc200284e0770204, "TLD.LZ P4, R4, R2, R7, 0x28, CUBE, 0x9"),
(0xdc200284f0770204, "TLD.LZ P4, R4, R2, R7, 0x28, ARRAY_CUBE, 0x9"),
(0xdd200004f0770204, "TLD.B.LZ P4, R4, R2, R7, 0x0, ARRAY_CUBE, 0x9"),
(0xdd200007a0770204, "TLD.B.LZ P4, R4, R2, R7, 0x0, 2D, 0xf"),
(0xdda00004a0770204, "TLD.B.LL P4, R4, R2, R7, 0x0, 2D, 0x9"),
(0xdd280004a0770204, "TLD.B.LZ P5, R4, R2, R7, 0x0, 2D, 0x9"),
(0xdd20000ca0770204, "TLD.B.LZ.AOFFI P4, R4, R2, R7, 0x0, 2D, 0x9"),
(0xdd240004a0770204, "TLD.B.LZ.MS P4, R4, R2, R7, 0x0, 2D, 0x9"),
(0xdd600004a0770204, "TLD.B.LZ.CL P4, R4, R2, R7, 0x0, 2D, 0x9"),
(0xdd220004a0770204, "TLD.B.LZ.NODEP P4, R4, R2, R7, 0x0, 2D, 0x9"),
(0xdd200004a0770204, "TLD.B.LZ P4, R4, R2, R7, 0x0, 2D, 0x9"),
(0xdd200004a0570404, "TLD.B.LZ P4, R4, R4, R5, 0x0, 2D, 0x9"),
(0xdd200001a0770204, "TLD.B.LZ P4, R4, R2, R7, 0x0, 2D, 0x3"),
(0xdd20000480770204, "TLD.B.LZ P4, R4, R2, R7, 0x0, 1D, 0x9"),
(0xdd20000490770204, "TLD.B.LZ P4, R4, R2, R7, 0x0, ARRAY_1D, 0x9"),
(0xdd200004b0770204, "TLD.B.LZ P4, R4, R2, R7, 0x0, ARRAY_2D, 0x9"),
(0xdd200004c0770204, "TLD.B.LZ P4, R4, R2, R7, 0x0, 3D, 0x9"),
(0xdd200004d0770204, "TLD.B.LZ P4, R4, R2, R7, 0x0, ARRAY_3D, 0x9"),
(0xdd200004e0770204, "TLD.B.LZ P4, R4, R2, R7, 0x0, CUBE, 0x9"),
(0xdd200004f0770204, "TLD.B.LZ P4, R4, R2, R7, 0x0, ARRAY_CUBE, 0x9"),
(0xda10028040270806, "TLDS.LZ R4, R6, R8, R2, 0x28, 1D, RGBA"),
(0xda30028040270806, "TLDS.LL R4, R6, R8, R2, 0x28, 1D, RGBA"),
(0xda50028040270806, "TLDS.LZ R4, R6, R8, R2, 0x28, 2D, RGBA"),
(0xda90028040270806, "TLDS.LZ.AOFFI R4, R6, R8, R2, 0x28, 2D, RGBA"),
(0xdab0028040270806, "TLDS.LL R4, R6, R8, R2, 0x28, 2D, RGBA"),
(0xdad0028040270806, "TLDS.LZ.MS R4, R6, R8, R2, 0x28, 2D, RGBA"),
(0xdaf0028040270806, "TLDS.LZ R4, R6, R8, R2, 0x28, 3D, RGBA"),
(0xdb10028040270806, "TLDS.LZ R4, R6, R8, R2, 0x28, ARRAY_2D, RGBA"),
(0xdb90028040270806, "TLDS.LL.AOFFI R4, R6, R8, R2, 0x28, 2D, RGBA"),
(0xda04028ff0270806, "TLDS.LZ RZ, R6, R8, R2, 0x28, 1D, G"),
(0xda08028ff0270806, "TLDS.LZ RZ, R6, R8, R2, 0x28, 1D, B"),
(0xda00028040270806, "TLDS.LZ R4, R6, R8, R2, 0x28, 1D, RGB"),
(0xd210028040270806, "TLDS.F16.LZ R4, R6, R8, R2, 0x28, 1D, RGBA"),
(0xda12028040270806, "TLDS.LZ.NODEP R4, R6, R8, R2, 0x28, 1D, RGBA"),
(0xda10020040270806, "TLDS.LZ R4, R6, R8, R2, 0x20, 1D, RGBA"),
(0xdf580287a0070806, "TMML.LOD R6, R8, 0x28, 2D, 0xf"),
(0xdf58028fa0070806, "TMML.LOD.NDV R6, R8, 0x28, 2D, 0xf"),
(0xdf5a0287a0070806, "TMML.LOD.NODEP R6, R8, 0x28, 2D, 0xf"),
(0xdf600007a0470806, "TMML.B.LOD R6, R8, R4, 0x0, 2D, 0xf"),
(0xdf60000720470806, "TMML.B.LOD R6, R8, R4, 0x0, 2D, 0xe"),
(0xdf60000780470806, "TMML.B.LOD R6, R8, R4, 0x0, 1D, 0xf"),
(0xdf600007c0470806, "TMML.B.LOD R6, R8, R4, 0x0, 3D, 0xf"),
(0xdf600007e0470806, "TMML.B.LOD R6, R8, R4, 0x0, CUBE, 0xf"),
(0xdf60000790470806, "TMML.B.LOD R6, R8, R4, 0x0, ARRAY_1D, 0xf"),
(0xdf600007b0470806, "TMML.B.LOD R6, R8, R4, 0x0, ARRAY_2D, 0xf"),
(0xdf600007d0470806, "TMML.B.LOD R6, R8, R4, 0x0, ARRAY_3D, 0xf"),
(0xdf600007f0470806, "TMML.B.LOD R6, R8, R4, 0x0, ARRAY_CUBE, 0xf"),
(0xdf4802878047040a, "TXQ R10, R4, TEX_HEADER_DIMENSION, 0x28, 0xf"),
(0xdf4802878087040a, "TXQ R10, R4, TEX_HEADER_TEXTURE_TYPE, 0x28, 0xf"),
(0xdf4802878147040a, "TXQ R10, R4, TEX_HEADER_SAMPLER_POS, 0x28, 0xf"),
(0xdf5000078047040a, "TXQ.B R10, R4, TEX_HEADER_DIMENSION, 0x0, 0xf"),
(0xdf5000078087040a, "TXQ.B R10, R4, TEX_HEADER_TEXTURE_TYPE, 0x0, 0xf"),
(0xdf5000078147040a, "TXQ.B R10, R4, TEX_HEADER_SAMPLER_POS, 0x0, 0xf"),
(0xdf5000050147040a, "TXQ.B R10, R4, TEX_HEADER_SAMPLER_POS, 0x0, 0xa"),
(0xdf50000781470602, "TXQ.B R2, R6, TEX_HEADER_SAMPLER_POS, 0x0, 0xf"),
(0xde080287a0970402, "TXD P1, R2, R4, R9, 0x28, 2D, 0xf"),
(0xde10028780970402, "TXD P2, R2, R4, R9, 0x28, 1D, 0xf"),
(0xde180287c0970402, "TXD P3, R2, R4, R9, 0x28, 3D, 0xf"),
(0xde200287b0970402, "TXD P4, R2, R4, R9, 0x28, ARRAY_2D, 0xf"),
(0xde28028790970402, "TXD P5, R2, R4, R9, 0x28, ARRAY_1D, 0xf"),
(0xde300287d0970402, "TXD P6, R2, R4, R9, 0x28, ARRAY_3D, 0xf"),
(0xde000287e0970402, "TXD P0, R2, R4, R9, 0x28, CUBE, 0xf"),
(0xde000287f0970402, "TXD P0, R2, R4, R9, 0x28, ARRAY_CUBE, 0xf"),
(0xde000307a0970402, "TXD P0, R2, R4, R9, 0x30, 2D, 0xf"),
(0xde00028720970402, "TXD P0, R2, R4, R9, 0x28, 2D, 0xe"),
(0xde000284a0970402, "TXD P0, R2, R4, R9, 0x28, 2D, 0x9"),
(0xde000287a0270402, "TXD P0, R2, R4, R2, 0x28, 2D, 0xf"),
(0xde000287a0970302, "TXD P0, R2, R3, R9, 0x28, 2D, 0xf"),
(0xde000287a0970401, "TXD P0, R1, R4, R9, 0x28, 2D, 0xf"),
(0xde00028fa0970402, "TXD.AOFFI P0, R2, R4, R9, 0x28, 2D, 0xf"),
(0xde020287a0970402, "TXD.NODEP P0, R2, R4, R9, 0x28, 2D, 0xf"),
(0xde040287a0970402, "TXD.LC P0, R2, R4, R9, 0x28, 2D, 0xf"),
(0xde440007a0970402, "TXD.B.LC P0, R2, R4, R9, 0x0, 2D, 0xf"),
(0x5f34011060770602, "VMAD.U8.U32.SHR_15 R2, R6.B1, R7, -R2"),
(0x5f2c012060770602, "VMAD.U8.U32.SHR_7 R2, R6.B2, R7, -R2"),
(0x5f2c013060770602, "VMAD.U8.U32.SHR_7 R2, R6.B3, R7, -R2"),
(0x5f25013060770602, "VMAD.S8.U32 R2, R6.B3, R7, -R2"),
(0x5f24015060770602, "VMAD.U16.U32 R2, R6.H1, R7, -R2"),
(0x5f2c014060770602, "VMAD.U16.U32.SHR_7 R2, R6, R7, -R2"),
(0x5f34015020770602, "VMAD.U16.U8.SHR_15 R2, R6.H1, R7.B2, -R2"),
(0x5f24014030770602, "VMAD.U16.U8 R2, R6, R7.B3, -R2"),
(0x5f27816060770602, "VMAD R2.CC, R6, R7, -R2"),
(0x5f20014dead70602, "VMAD.U16.U16 R2, R6, 0xdead, -R2"),
(0x5f20014beef70602, "VMAD.U16.U16 R2, R6, 0xbeef, -R2"),
(0x5f22014beef70602, "VMAD.U16.S16 R2, R6, 0xbeef, -R2"),
(0x5f2a016beef70602, "VMAD.U32.S16.SHR_7 R2, R6, 0xbeef, -R2"),
(0x5f23016beef70602, "VMAD R2, R6, 0xbeef, -R2"),
(0x5f22014beef70602, "VMAD.U16.S16 R2, R6, 0xbeef, -R2"),
(0x5f27816060770602, "VMAD R2.CC, R6, R7, -R2"),
(0x5f2301600aa70602, "VMAD R2, R6, 0xaa, -R2"),
(0x50f416e060970522, "VSETP.EQ.U32.U32.AND P4, P2, R5, R9, !P5"),
(0x50f436e060970522, "VSETP.EQ.U32.U32.OR P4, P2, R5, R9, !P5"),
(0x50f456e060970522, "VSETP.EQ.U32.U32.XOR P4, P2, R5, R9, !P5"),
(0x50f586e000970522, "VSETP.GT.S32.U8.AND P4, P2, R5, R9, !P5"),
(0x50f68ec060970522, "VSETP.NE.U16.S32.AND P4, P2, R5, R9, !P5"),
(0x50f68ec060570623, "VSETP.NE.U16.S32.AND P4, P3, R6, R5, !P5"),
(0x50f68ec060570623, "VSETP.NE.U16.S32.AND P4, P3, R6, R5, !P5"),
(0x50f699c060570623, "VSETP.T.U16.S32.AND P4, P3, R6, R5, P3"),
(0x50f699d060570623, "VSETP.T.U16.S32.AND P4, P3, R6.H1, R5, P3"),
(0x50f699a060570623, "VSETP.T.U8.S32.AND P4, P3, R6.B2, R5, P3"),
(0x50f699c050570623, "VSETP.T.U16.S16.AND P4, P3, R6, R5.H1, P3"),
(0x50f699c030570623, "VSETP.T.U16.S8.AND P4, P3, R6, R5.B3, P3"),
(0x50f699c030570623, "VSETP.T.U16.S8.AND P4, P3, R6, R5.B3, P3"),
(0x50f099cbeef70623, "VSETP.T.U16.U16.AND P4, P3, R6, 0xbeef, P3"),
(0x50f099ccafe70323, "VSETP.T.U16.U16.AND P4, P3, R3, 0xcafe, P3"),
(0xf0c8000000070004, "S2R R4, SR_LANEID"),
(0xf0c8000000170004, "S2R R4, SR_CLOCK"),
(0xf0c8000000270004, "S2R R4, SR_VIRTCFG"),
(0xf0c8000000370004, "S2R R4, SR_VIRTID"),
(0xf0c8000000470004, "S2R R4, SR_PM0"),
(0xf0c8000000570004, "S2R R4, SR_PM1"),
(0xf0c8000000670004, "S2R R4, SR_PM2"),
(0xf0c8000000770004, "S2R R4, SR_PM3"),
(0xf0c8000000870004, "S2R R4, SR_PM4"),
(0xf0c8000000970004, "S2R R4, SR_PM5"),
(0xf0c8000000a70004, "S2R R4, SR_PM6"),
(0xf0c8000000b70004, "S2R R4, SR_PM7"),
(0xf0c8000000c70004, "S2R R4, SR12"),
(0xf0c8000000d70004, "S2R R4, SR13"),
(0xf0c8000000e70004, "S2R R4, SR14"),
(0xf0c8000000f70004, "S2R R4, SR_ORDERING_TICKET"),
(0xf0c8000001070004, "S2R R4, SR_PRIM_TYPE"),
(0xf0c8000001170004, "S2R R4, SR_INVOCATION_ID"),
(0xf0c8000001270004, "S2R R4, SR_Y_DIRECTION"),
(0xf0c8000001370004, "S2R R4, SR_THREAD_KILL"),
(0xf0c8000001470004, "S2R R4, SM_SHADER_TYPE"),
(0xf0c8000001570004, "S2R R4, SR_DIRECTCBEWRITEADDRESSLOW"),
(0xf0c8000001670004, "S2R R4, SR_DIRECTCBEWRITEADDRESSHIGH"),
(0xf0c8000001770004, "S2R R4, SR_DIRECTCBEWRITEENABLED"),
(0xf0c8000001870004, "S2R R4, SR_MACHINE_ID_0"),
(0xf0c8000001970004, "S2R R4, SR_MACHINE_ID_1"),
(0xf0c8000001a70004, "S2R R4, SR_MACHINE_ID_2"),
(0xf0c8000001b70004, "S2R R4, SR_MACHINE_ID_3"),
(0xf0c8000001c70004, "S2R R4, SR_AFFINITY"),
(0xf0c8000001d70004, "S2R R4, SR_INVOCATION_INFO"),
(0xf0c8000001e70004, "S2R R4, SR_WSCALEFACTOR_XY"),
(0xf0c8000001f70004, "S2R R4, SR_WSCALEFACTOR_Z"),
(0xf0c8000002070004, "S2R R4, SR_TID"),
(0xf0c8000002170004, "S2R R4, SR_TID.X"),
(0xf0c8000002270004, "S2R R4, SR_TID.Y"),
(0xf0c8000002370004, "S2R R4, SR_TID.Z"),
(0xf0c8000002470004, "S2R R4, SR_CTA_PARAM"),
(0xf0c8000002570004, "S2R R4, SR_CTAID.X"),
(0xf0c8000002670004, "S2R R4, SR_CTAID.Y"),
(0xf0c8000002770004, "S2R R4, SR_CTAID.Z"),
(0xf0c8000002870004, "S2R R4, SR_NTID"),
(0xf0c8000002970004, "S2R R4, SR_CirQueueIncrMinusOne"),
(0xf0c8000002a70004, "S2R R4, SR_NLATC"),
(0xf0c8000002b70004, "S2R R4, SR43"),
(0xf0c8000002c70004, "S2R R4, SR_SM_SPA_VERSION"),
(0xf0c8000002d70004, "S2R R4, SR_MULTIPASSSHADERINFO"),
(0xf0c8000002e70004, "S2R R4, SR_LWINHI"),
(0xf0c8000002f70004, "S2R R4, SR_SWINHI"),
(0xf0c8000003070004, "S2R R4, SR_SWINLO"),
(0xf0c8000003170004, "S2R R4, SR_SWINSZ"),
(0xf0c8000003270004, "S2R R4, SR_SMEMSZ"),
(0xf0c8000003370004, "S2R R4, SR_SMEMBANKS"),
(0xf0c8000003470004, "S2R R4, SR_LWINLO"),
(0xf0c8000003570004, "S2R R4, SR_LWINSZ"),
(0xf0c8000003670004, "S2R R4, SR_LMEMLOSZ"),
(0xf0c8000003770004, "S2R R4, SR_LMEMHIOFF"),
(0xf0c8000003870004, "S2R R4, SR_EQMASK"),
(0xf0c8000003970004, "S2R R4, SR_LTMASK"),
(0xf0c8000003a70004, "S2R R4, SR_LEMASK"),
(0xf0c8000003b70004, "S2R R4, SR_GTMASK"),
(0xf0c8000003c70004, "S2R R4, SR_GEMASK"),
(0xf0c8000003d70004, "S2R R4, SR_REGALLOC"),
(0xf0c8000003e70004, "S2R R4, SR_BARRIERALLOC"),
(0xf0c8000003f70004, "S2R R4, SR63"),
(0xf0c8000004070004, "S2R R4, SR_GLOBALERRORSTATUS"),
(0xf0c8000004170004, "S2R R4, SR65"),
(0xf0c8000004270004, "S2R R4, SR_WARPERRORSTATUS"),
(0xf0c8000004370004, "S2R R4, SR_WARPERRORSTATUSCLEAR"),
(0xf0c8000004470004, "S2R R4, SR68"),
(0xf0c8000004570004, "S2R R4, SR69"),
(0xf0c8000004670004, "S2R R4, SR70"),
(0xf0c8000004770004, "S2R R4, SR71"),
(0xf0c8000004870004, "S2R R4, SR_PM_HI0"),
(0xf0c8000004970004, "S2R R4, SR_PM_HI1"),
(0xf0c8000004a70004, "S2R R4, SR_PM_HI2"),
(0xf0c8000004b70004, "S2R R4, SR_PM_HI3"),
(0xf0c8000004c70004, "S2R R4, SR_PM_HI4"),
(0xf0c8000004d70004, "S2R R4, SR_PM_HI5"),
(0xf0c8000004e70004, "S2R R4, SR_PM_HI6"),
(0xf0c8000004f70004, "S2R R4, SR_PM_HI7"),
(0xf0c8000005070004, "S2R R4, SR_CLOCKLO"),
(0xf0c8000005170004, "S2R R4, SR_CLOCKHI"),
(0xf0c8000005270004, "S2R R4, SR_GLOBALTIMERLO"),
(0xf0c8000005370004, "S2R R4, SR_GLOBALTIMERHI"),
(0xf0c8000005470004, "S2R R4, SR84"),
(0xf0c8000005570004, "S2R R4, SR85"),
(0xf0c8000005670004, "S2R R4, SR86"),
(0xf0c8000005770004, "S2R R4, SR87"),
(0xf0c8000005870004, "S2R R4, SR88"),
(0xf0c8000005970004, "S2R R4, SR89"),
(0xf0c8000005a70004, "S2R R4, SR90"),
(0xf0c8000005b70004, "S2R R4, SR91"),
(0xf0c8000005c70004, "S2R R4, SR92"),
(0xf0c8000005d70004, "S2R R4, SR93"),
(0xf0c8000005e70004, "S2R R4, SR94"),
(0xf0c8000005f70004, "S2R R4, SR95"),
(0xf0c8000006070004, "S2R R4, SR_HWTASKID"),
(0xf0c8000006170004, "S2R R4, SR_CIRCULARQUEUEENTRYINDEX"),
(0xf0c8000006270004, "S2R R4, SR_CIRCULARQUEUEENTRYADDRESSLOW"),
(0xf0c8000006370004, "S2R R4, SR_CIRCULARQUEUEENTRYADDRESSHIGH"),
(0xf0c8000006470004, "S2R R4, SR100"),
(0xf0c8000006570004, "S2R R4, SR101"),
(0xf0c8000006670004, "S2R R4, SR102"),
(0xf0c8000006770004, "S2R R4, SR103"),
(0xf0c8000006970004, "S2R R4, SR105"),
(0xf0c8000006a70004, "S2R R4, SR106"),
(0xf0c8000006b70004, "S2R R4, SR107"),
(0xf0c8000006c70004, "S2R R4, SR108"),
(0xf0c8000006d70004, "S2R R4, SR109"),
(0xf0c8000006e70004, "S2R R4, SR110"),
(0xf0c8000006f70004, "S2R R4, SR111"),
(0xf0c8000007070004, "S2R R4, SR112"),
(0xf0c8000007170004, "S2R R4, SR113"),
(0xf0c8000007270004, "S2R R4, SR114"),
(0xf0c8000007370004, "S2R R4, SR115"),
(0xf0c8000007470004, "S2R R4, SR116"),
(0xf0c8000007570004, "S2R R4, SR117"),
(0xf0c8000007670004, "S2R R4, SR118"),
(0xf0c8000007770004, "S2R R4, SR119"),
(0xf0c8000007870004, "S2R R4, SR120"),
(0xf0c8000007970004, "S2R R4, SR121"),
(0xf0c8000007a70004, "S2R R4, SR122"),
(0xf0c8000007b70004, "S2R R4, SR123"),
(0xf0c8000007c70004, "S2R R4, SR124"),
(0xf0c8000007d70004, "S2R R4, SR125"),
(0xf0c8000007e70004, "S2R R4, SR126"),
(0xf0c8000007f70004, "S2R R4, SR127"),
(0xf0c8000008070004, "S2R R4, SR128"),
(0xf0c8000008270004, "S2R R4, SR130"),
(0xf0c8000008370004, "S2R R4, SR131"),
(0xf0c8000008470004, "S2R R4, SR132"),
(0xf0c8000008570004, "S2R R4, SR133"),
(0xf0c8000008670004, "S2R R4, SR134"),
(0xf0c8000008770004, "S2R R4, SR135"),
(0xf0c8000008870004, "S2R R4, SR136"),
(0xf0c8000008970004, "S2R R4, SR137"),
(0xf0c8000008a70004, "S2R R4, SR138"),
(0xf0c8000008b70004, "S2R R4, SR139"),
(0xf0c800000ff70004, "S2R R4, SR255"),
(0x50b0000000070f00, "NOP"),
(0x50b0000000070f00, "NOP"),
(0xe2400fffff87000f, "foo: BRA foo"),
(0xe2400fffff87000f, "Foo: BRA Foo")]
/-- Sources that must be rejected. -/
def neg : List String := ["F2F !R0, R1",
"F2F R0, R255",
"F2F R0, R256",
"F2F A, RZ",
"@P7 F2F RZ, RZ",
"{: BRA {",
"_: BRA _",
"FADD R0, RZ, 13a.5",
"I2I.U32.U32 RZ, 5k",
"BRA foo",
"NOP @Y @Y",
"NOP @INVALID",
"NOP @DEP 0 @DEP 1 @DEP 0",
"NOP @DEP 6",
"NOP @WB -1",
"NOP @WB 6",
"NOP @RB -1",
"NOP @RB 6",
"NOP @RB -322",
"NOP @WAIT 16",
"NOP @WAIT -1",
"NOP @WAIT 5 @WAIT 0",
"NOP @WAIT id",
"NOP @DEP -1",
"0x0d443e4000070503 FFMA32I.FMZ R3, -R5, 456, R4"]

/-- The tester assembles one instruction and reads the second word (tests/tester.cpp). -/
def runOne (e : String) : Res (List (BitVec 64)) := assemble true (e ++ ";").toList

/-- The positive cases that differ. -/
def badPos : List String :=
  (pos.filter (fun p => match runOne p.2 with
    | .ok ws => ws[1]? != some (BitVec.ofNat 64 p.1)
    | _ => true)).map (·.2)

/-- The negative cases that are not rejected with a diagnostic. -/
def badNeg : List String :=
  neg.filter (fun e => match runOne e with
    | .exit _ => false
    | _ => true)

#guard pos.length = 1085 ∧ neg.length = 25
#guard badPos = []
#guard badNeg = []

end Nxas.RepoTests
