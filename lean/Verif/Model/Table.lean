import Verif.Model.Operands
/-
The instruction table of src/table.h:31-302, row by row and in order.
-/

namespace Nxas

open Opnd

/-- `struct insn`, src/table.h:22-28.  `flags`: bit 0 NO_PRED, bit 1 RD, bit 2 WR
    (src/table.h:18-20). -/
structure Insn where
  opcode : BitVec 64
  flags : Nat
  mnemonic : Str
  operands : List Operand
  deriving DecidableEq, Repr

/-- src/table.h:32-55 -/
def insnTable0 : List Insn := [
  ⟨0xEFA0000000000000#64, 0, c!"AL2P", [al2p_o, amem_size, (pred 44), comma, (dgpr 0), comma, (sgpr 8), comma, (sinteger 11 20)]⟩,
  ⟨0xEFA0700000000000#64, 0, c!"AL2P", [al2p_o, amem_size, (dgpr 0), comma, (sgpr 8), comma, (sinteger 11 20)]⟩,
  ⟨0xEFA000000000FF00#64, 0, c!"AL2P", [al2p_o, amem_size, (pred 44), comma, (dgpr 0), comma, (sinteger 11 20)]⟩,
  ⟨0xEFA070000000FF00#64, 0, c!"AL2P", [al2p_o, amem_size, (dgpr 0), comma, (sinteger 11 20)]⟩,
  ⟨0xEFA0000000000000#64, 0, c!"AL2P", [al2p_o, amem_size, (pred 44), comma, (dgpr 0), comma, (sgpr 8)]⟩,
  ⟨0xEFA0700000000000#64, 0, c!"AL2P", [al2p_o, amem_size, (dgpr 0), comma, (sgpr 8)]⟩,
  ⟨0xEFA000000000FF00#64, 0, c!"AL2P", [al2p_o, amem_size, (pred 44), comma, (dgpr 0)]⟩,
  ⟨0xEFA070000000FF00#64, 0, c!"AL2P", [al2p_o, amem_size, (dgpr 0)]⟩,
  ⟨0xEFD8000000000000#64, 0, c!"ALD", [ald_o, ald_size, (dgpr 0), comma, ald_imm_attr, (default_rz 39)]⟩,
  ⟨0xEFD8000000000000#64, 0, c!"ALD", [ald_o, ald_size, (dgpr 0), comma, ald_imm_attr, comma, (sgpr 39)]⟩,
  ⟨0xEFD8000000000000#64, 0, c!"ALD", [ald_o, ald_p, ald_size, (dgpr 0), comma, ald_patch_attr, (default_rz 39)]⟩,
  ⟨0xEFD8000000000000#64, 0, c!"ALD", [ald_o, ald_p, ald_size, (dgpr 0), comma, ald_patch_attr, comma, (sgpr 39)]⟩,
  ⟨0xEFD8000000000000#64, 0, c!"ALD", [ald_o, ald_phys, ald_size, (dgpr 0), comma, ald_phys_attr, (default_rz 39)]⟩,
  ⟨0xEFD8000000000000#64, 0, c!"ALD", [ald_o, ald_phys, ald_size, (dgpr 0), comma, ald_phys_attr, comma, (sgpr 39)]⟩,
  ⟨0xEFF0000000000000#64, 0, c!"AST", [ald_size, ald_imm_attr, comma, (sgpr 0), (default_rz 39)]⟩,
  ⟨0xEFF0000000000000#64, 0, c!"AST", [ald_size, ald_imm_attr, comma, (sgpr 0), comma, (sgpr 39)]⟩,
  ⟨0xEFF0000000000000#64, 0, c!"AST", [ald_p, ald_size, ald_patch_attr, comma, (sgpr 0), (default_rz 39)]⟩,
  ⟨0xEFF0000000000000#64, 0, c!"AST", [ald_phys, ald_size, ald_phys_attr, comma, (sgpr 0), (default_rz 39)]⟩,
  ⟨0xEFF0000000000000#64, 0, c!"AST", [ald_phys, ald_size, ald_phys_attr, comma, (sgpr 0), comma, (sgpr 39)]⟩,
  ⟨0xED00000000000000#64, 6, c!"ATOM", [atom_e, atom_operation, (atomic_size 49), (dgpr 0), comma, (memory_address true 28 20 0), comma, (sgpr 20)]⟩,
  ⟨0xEC00000000000000#64, 6, c!"ATOMS", [atoms_operation, atoms_size, (dgpr 0), comma, (memory_address true 30 22 2), comma, (sgpr 20)]⟩,
  ⟨0xF0B8000000000000#64, 0, c!"B2R", [(dgpr 0), comma, (uinteger 8 8)]⟩,
  ⟨0xF0B8000000000000#64, 0, c!"B2R", [b2r_warp, (dgpr 0)]⟩,
  ⟨0xF0B8000000000000#64, 0, c!"B2R", [b2r_result, (dgpr 0), comma, (pred 45 true)]⟩]

/-- src/table.h:57-80 -/
def insnTable1 : List Insn := [
  ⟨0x5C00000000000000#64, 0, c!"BFE", [bfe_format, (brev 40), (dgpr 0), (cc), comma, (sgpr 8), comma, (sgpr 20)]⟩,
  ⟨0x4C00000000000000#64, 0, c!"BFE", [bfe_format, (brev 40), (dgpr 0), (cc), comma, (sgpr 8), comma, cbuf]⟩,
  ⟨0x3800000000000000#64, 0, c!"BFE", [bfe_format, (brev 40), (dgpr 0), (cc), comma, (sgpr 8), comma, imm]⟩,
  ⟨0x5BF0000000000000#64, 0, c!"BFI", [(dgpr 0), (cc), comma, (sgpr 8), comma, (sgpr 20), comma, (sgpr 39)]⟩,
  ⟨0x53F0000000000000#64, 0, c!"BFI", [(dgpr 0), (cc), comma, (sgpr 8), comma, (sgpr 39), comma, cbuf]⟩,
  ⟨0x4BF0000000000000#64, 0, c!"BFI", [(dgpr 0), (cc), comma, (sgpr 8), comma, cbuf, comma, (sgpr 39)]⟩,
  ⟨0x36F0000000000000#64, 0, c!"BFI", [(dgpr 0), (cc), comma, (sgpr 8), comma, imm, comma, (sgpr 39)]⟩,
  ⟨0xE3A0000000000000#64, 0, c!"BPT", [bpt_mode, (uinteger 20 20)]⟩,
  ⟨0xE3A0000000000000#64, 0, c!"BPT", [bpt_mode]⟩,
  ⟨0x5098000000000000#64, 0, c!"CSET", [(bf 44), cc_tests, (bop 45), (dgpr 0), (cc), comma, cc_text, comma, (pred 39 true)]⟩,
  ⟨0x50A0000000000000#64, 0, c!"CSETP", [cc_tests, (bop 45), (pred 3), comma, (pred 0), comma, cc_text, comma, (pred 39 true)]⟩,
  ⟨0x5C70000000000000#64, 0, c!"DADD", [(fp_rounding 39), (dgpr 0), (cc), comma, (neg 48), (abs 46 (sgpr 8)), comma, (neg 45), (abs 49 (sgpr 20))]⟩,
  ⟨0x4C70000000000000#64, 0, c!"DADD", [(fp_rounding 39), (dgpr 0), (cc), comma, (neg 48), (abs 46 (sgpr 8)), comma, (neg 45), (abs 49 cbuf)]⟩,
  ⟨0x3870000000000000#64, 0, c!"DADD", [(fp_rounding 39), (dgpr 0), (cc), comma, (neg 48), (abs 46 (sgpr 8)), comma, dimm20, (post_neg 45), (post_abs 49)]⟩,
  ⟨0x5B70000000000000#64, 0, c!"DFMA", [(fp_rounding 50), (dgpr 0), (cc), comma, (sgpr 8), comma, (neg 48), (sgpr 20), comma, (neg 49), (sgpr 39)]⟩,
  ⟨0x5370000000000000#64, 0, c!"DFMA", [(fp_rounding 50), (dgpr 0), (cc), comma, (sgpr 8), comma, (neg 48), (sgpr 39), comma, (neg 49), cbuf]⟩,
  ⟨0x4B70000000000000#64, 0, c!"DFMA", [(fp_rounding 50), (dgpr 0), (cc), comma, (sgpr 8), comma, (neg 48), cbuf, comma, (neg 49), (sgpr 39)]⟩,
  ⟨0x3670000000000000#64, 0, c!"DFMA", [(fp_rounding 50), (dgpr 0), (cc), comma, (sgpr 8), comma, dimm20, (post_neg 48), comma, (neg 49), (sgpr 39)]⟩,
  ⟨0x5C50000000000000#64, 0, c!"DMNMX", [(dgpr 0), (cc), comma, (neg 48), (abs 46 (sgpr 8)), comma, (neg 45), (abs 49 (sgpr 20)), comma, (pred 39 true)]⟩,
  ⟨0x4C50000000000000#64, 0, c!"DMNMX", [(dgpr 0), (cc), comma, (neg 48), (abs 46 (sgpr 8)), comma, (neg 45), (abs 49 cbuf), comma, (pred 39 true)]⟩,
  ⟨0x3850000000000000#64, 0, c!"DMNMX", [(dgpr 0), (cc), comma, (neg 48), (abs 46 (sgpr 8)), comma, dimm20, (post_neg 45), (post_abs 49), comma, (pred 39 true)]⟩,
  ⟨0x5C80000000000000#64, 0, c!"DMUL", [(fp_rounding 39), (dgpr 0), (cc), comma, (sgpr 8), comma, (neg 48), (sgpr 20)]⟩,
  ⟨0x4C80000000000000#64, 0, c!"DMUL", [(fp_rounding 39), (dgpr 0), (cc), comma, (sgpr 8), comma, (neg 48), cbuf]⟩,
  ⟨0x3880000000000000#64, 0, c!"DMUL", [(fp_rounding 39), (dgpr 0), (cc), comma, (sgpr 8), comma, dimm20, (post_neg 48)]⟩]

/-- src/table.h:81-104 -/
def insnTable2 : List Insn := [
  ⟨0x5900000000000000#64, 0, c!"DSET", [(bf 52), (float_compare 48), (bop 45), (dgpr 0), (cc), comma, (neg 43), (abs 54 (sgpr 8)), comma, (neg 53), (abs 44 (sgpr 20)), comma, (pred 39 true)]⟩,
  ⟨0x4900000000000000#64, 0, c!"DSET", [(bf 52), (float_compare 48), (bop 45), (dgpr 0), (cc), comma, (neg 43), (abs 54 (sgpr 8)), comma, (neg 53), (abs 44 cbuf), comma, (pred 39 true)]⟩,
  ⟨0x3200000000000000#64, 0, c!"DSET", [(bf 52), (float_compare 48), (bop 45), (dgpr 0), (cc), comma, (neg 43), (abs 54 (sgpr 8)), comma, dimm20, (post_neg 53), (post_abs 44), comma, (pred 39 true)]⟩,
  ⟨0x5B80000000000000#64, 0, c!"DSETP", [(float_compare 48), (bop 45), (pred 3), comma, (pred 0), comma, (neg 43), (abs 7 (sgpr 8)), comma, (neg 6), (abs 44 (sgpr 20)), comma, (pred 39 true)]⟩,
  ⟨0x4B80000000000000#64, 0, c!"DSETP", [(float_compare 48), (bop 45), (pred 3), comma, (pred 0), comma, (neg 43), (abs 7 (sgpr 8)), comma, (neg 6), (abs 44 cbuf), comma, (pred 39 true)]⟩,
  ⟨0x3680000000000000#64, 0, c!"DSETP", [(float_compare 48), (bop 45), (pred 3), comma, (pred 0), comma, (neg 43), (abs 7 (sgpr 8)), comma, dimm20, (post_neg 6), (post_abs 44), comma, (pred 39 true)]⟩,
  ⟨0x50B0000000000F00#64, 0, c!"NOP", [nop_trig]⟩,
  ⟨0x50B0000000000000#64, 0, c!"NOP", [nop_trig, cc_text, cc_tests]⟩,
  ⟨0x50B0000000000F00#64, 0, c!"NOP", [nop_trig, nop_mask]⟩,
  ⟨0x50B0000000000000#64, 0, c!"NOP", [nop_trig, cc_text, cc_tests, comma, nop_mask]⟩,
  ⟨0x5C98078000000000#64, 0, c!"MOV", [(dgpr 0), comma, (sgpr 20)]⟩,
  ⟨0x5C98000000000000#64, 0, c!"MOV", [(dgpr 0), comma, (sgpr 20), comma, (mask4 39)]⟩,
  ⟨0x4C98078000000000#64, 0, c!"MOV", [(dgpr 0), comma, cbuf]⟩,
  ⟨0x4C98000000000000#64, 0, c!"MOV", [(dgpr 0), comma, cbuf, comma, (mask4 39)]⟩,
  ⟨0x3898078000000000#64, 0, c!"MOV", [(dgpr 0), comma, imm]⟩,
  ⟨0x3898000000000000#64, 0, c!"MOV", [(dgpr 0), comma, imm, comma, (mask4 39)]⟩,
  ⟨0x010000000000F000#64, 0, c!"MOV32I", [(dgpr 0), comma, uimm32]⟩,
  ⟨0x0100000000000000#64, 0, c!"MOV32I", [(dgpr 0), comma, uimm32, comma, (mask4 12)]⟩,
  ⟨0x5080000000000000#64, 0, c!"MUFU", [mufu_operation, (sat 50), (dgpr 0), comma, (neg 48), (abs 46 (sgpr 8))]⟩,
  ⟨0xF0C8000000000000#64, 0, c!"S2R", [(dgpr 0), comma, s2r]⟩,
  ⟨0x5C58000000000000#64, 0, c!"FADD", [(ftz 44), (fp_rounding 39), (sat 50), (dgpr 0), (cc), comma, (neg 48), (abs 46 (sgpr 8)), comma, (neg 45), (abs 49 (sgpr 20))]⟩,
  ⟨0x4C58000000000000#64, 0, c!"FADD", [(ftz 44), (fp_rounding 39), (sat 50), (dgpr 0), (cc), comma, (neg 48), (abs 46 (sgpr 8)), comma, (neg 45), (abs 49 cbuf)]⟩,
  ⟨0x3858000000000000#64, 0, c!"FADD", [(ftz 44), (fp_rounding 39), (sat 50), (dgpr 0), (cc), comma, (neg 48), (abs 46 (sgpr 8)), comma, fimm, (post_neg 45), (post_abs 49)]⟩,
  ⟨0x0800000000000000#64, 0, c!"FADD32I", [(ftz 55), (dgpr 0), (cc 52), comma, (neg 56), (abs 54 (sgpr 8)), comma, fimm32, (post_neg 53), (post_abs 57)]⟩]

/-- src/table.h:105-128 -/
def insnTable3 : List Insn := [
  ⟨0x5980000000000000#64, 0, c!"FFMA", [(fmul_fmz 53), (fp_rounding 51), (sat 50), (dgpr 0), (cc), comma, (sgpr 8), comma, (neg 48), (sgpr 20), comma, (neg 49), (sgpr 39)]⟩,
  ⟨0x5180000000000000#64, 0, c!"FFMA", [(fmul_fmz 53), (fp_rounding 51), (sat 50), (dgpr 0), (cc), comma, (sgpr 8), comma, (neg 48), (sgpr 39), comma, (neg 49), cbuf]⟩,
  ⟨0x4980000000000000#64, 0, c!"FFMA", [(fmul_fmz 53), (fp_rounding 51), (sat 50), (dgpr 0), (cc), comma, (sgpr 8), comma, (neg 48), cbuf, comma, (neg 49), (sgpr 39)]⟩,
  ⟨0x3280000000000000#64, 0, c!"FFMA", [(fmul_fmz 53), (fp_rounding 51), (sat 50), (dgpr 0), (cc), comma, (sgpr 8), comma, fimm, (post_neg 48), comma, (neg 49), (sgpr 39)]⟩,
  ⟨0x0c00000000000000#64, 0, c!"FFMA32I", [(fmul_fmz 53), (sat 55), (dgpr 0), (cc 52), comma, (neg 56), (sgpr 8), comma, fimm32, comma, (neg 57), (mirror_dgpr 0)]⟩,
  ⟨0x5C60000000000000#64, 0, c!"FMNMX", [(ftz 44), (dgpr 0), (cc), comma, (neg 48), (abs 46 (sgpr 8)), comma, (neg 45), (abs 49 (sgpr 20)), comma, (pred 39 true)]⟩,
  ⟨0x4C60000000000000#64, 0, c!"FMNMX", [(ftz 44), (dgpr 0), (cc), comma, (neg 48), (abs 46 (sgpr 8)), comma, (neg 45), (abs 49 cbuf), comma, (pred 39 true)]⟩,
  ⟨0x3860000000000000#64, 0, c!"FMNMX", [(ftz 44), (dgpr 0), (cc), comma, (neg 48), (abs 46 (sgpr 8)), comma, fimm, (post_neg 45), (post_abs 49), comma, (pred 39 true)]⟩,
  ⟨0x5C68000000000000#64, 0, c!"FMUL", [(fmul_fmz 44), fmul_scale, (fp_rounding 39), (sat 50), (dgpr 0), (cc), comma, (sgpr 8), comma, (neg 48), (sgpr 20)]⟩,
  ⟨0x4C68000000000000#64, 0, c!"FMUL", [(fmul_fmz 44), fmul_scale, (fp_rounding 39), (sat 50), (dgpr 0), (cc), comma, (sgpr 8), comma, (neg 48), cbuf]⟩,
  ⟨0x3868000000000000#64, 0, c!"FMUL", [(fmul_fmz 44), fmul_scale, (fp_rounding 39), (sat 50), (dgpr 0), (cc), comma, (sgpr 8), comma, fimm, (post_neg 48)]⟩,
  ⟨0x1E00000000000000#64, 0, c!"FMUL32I", [(fmul_fmz 53), (sat 55), (dgpr 0), (cc 52), comma, (sgpr 8), comma, fimm32]⟩,
  ⟨0x5800000000000000#64, 0, c!"FSET", [(bf 52), (float_compare 48), (ftz 55), (bop 45), (dgpr 0), (cc), comma, (neg 43), (abs 54 (sgpr 8)), comma, (neg 53), (abs 44 (sgpr 20)), comma, (pred 39 true)]⟩,
  ⟨0x4800000000000000#64, 0, c!"FSET", [(bf 52), (float_compare 48), (ftz 55), (bop 45), (dgpr 0), (cc), comma, (neg 43), (abs 54 (sgpr 8)), comma, (neg 53), (abs 44 cbuf), comma, (pred 39 true)]⟩,
  ⟨0x3000000000000000#64, 0, c!"FSET", [(bf 52), (float_compare 48), (ftz 55), (bop 45), (dgpr 0), (cc), comma, (neg 43), (abs 54 (sgpr 8)), comma, fimm, (post_neg 53), (post_abs 44), comma, (pred 39 true)]⟩,
  ⟨0x5BB0000000000000#64, 0, c!"FSETP", [(float_compare 48), (ftz 47), (bop 45), (pred 3), comma, (pred 0), comma, (neg 43), (abs 7 (sgpr 8)), comma, (neg 6), (abs 44 (sgpr 20)), comma, (pred 39 true)]⟩,
  ⟨0x4BB0000000000000#64, 0, c!"FSETP", [(float_compare 48), (ftz 47), (bop 45), (pred 3), comma, (pred 0), comma, (neg 43), (abs 7 (sgpr 8)), comma, (neg 6), (abs 44 cbuf), comma, (pred 39 true)]⟩,
  ⟨0x36B0000000000000#64, 0, c!"FSETP", [(float_compare 48), (ftz 47), (bop 45), (pred 3), comma, (pred 0), comma, (neg 43), (abs 7 (sgpr 8)), comma, fimm, (post_neg 6), (post_abs 44), comma, (pred 39 true)]⟩,
  ⟨0x5B00000000000000#64, 0, c!"XMAD", [xmad_signs, (psl 36), xmad_mode_a, (mrg 37), (x 38), (dgpr 0), (cc), comma, (sgpr 8), (half 53), comma, (sgpr 20), (half 35), comma, (sgpr 39)]⟩,
  ⟨0x5100000000000000#64, 0, c!"XMAD", [xmad_signs, xmad_mode_b, (x 54), (dgpr 0), (cc), comma, (sgpr 8), (half 53), comma, (sgpr 39), (half 52), comma, cbuf]⟩,
  ⟨0x4E00000000000000#64, 0, c!"XMAD", [xmad_signs, (psl 55), xmad_mode_b, (mrg 56), (x 54), (dgpr 0), (cc), comma, (sgpr 8), (half 53), comma, cbuf, (half 52), comma, (sgpr 39)]⟩,
  ⟨0x3600000000000000#64, 0, c!"XMAD", [xmad_signs, (psl 36), xmad_mode_a, (mrg 37), (x 38), (dgpr 0), (cc), comma, (sgpr 8), (half 53), comma, uimm16, comma, (sgpr 39)]⟩,
  ⟨0x5C28000000000000#64, 0, c!"SHR", [shr_format, shr_mode, shr_xmode, (brev 40), (dgpr 0), (cc), comma, (sgpr 8), comma, (sgpr 20)]⟩,
  ⟨0x4C28000000000000#64, 0, c!"SHR", [shr_format, shr_mode, shr_xmode, (brev 40), (dgpr 0), (cc), comma, (sgpr 8), comma, cbuf]⟩]

/-- src/table.h:129-153 -/
def insnTable4 : List Insn := [
  ⟨0x3828000000000000#64, 0, c!"SHR", [shr_format, shr_mode, shr_xmode, (brev 40), (dgpr 0), (cc), comma, (sgpr 8), comma, imm]⟩,
  ⟨0x5CF8000000000000#64, 0, c!"SHF", [shf_r, (w 50), shf_max_shift, shf_xmode, (dgpr 0), (cc), comma, (sgpr 8), comma, (sgpr 20), comma, (sgpr 39)]⟩,
  ⟨0x5BF8000000000000#64, 0, c!"SHF", [shf_l, (w 50), shf_max_shift, shf_xmode, (dgpr 0), (cc), comma, (sgpr 8), comma, (sgpr 20), comma, (sgpr 39)]⟩,
  ⟨0x38F8000000000000#64, 0, c!"SHF", [shf_r, (w 50), shf_max_shift, shf_xmode, (dgpr 0), (cc), comma, (sgpr 8), comma, (uinteger 6 20), comma, (sgpr 39)]⟩,
  ⟨0x36F8000000000000#64, 0, c!"SHF", [shf_l, (w 50), shf_max_shift, shf_xmode, (dgpr 0), (cc), comma, (sgpr 8), comma, (uinteger 6 20), comma, (sgpr 39)]⟩,
  ⟨0x5CA8000000000000#64, 0, c!"F2F", [(ftz 44), (float_format 8), (float_format 10), f2f_rounding, (sat 50), (dgpr 0), (cc), comma, (neg 45), (abs 49 (sgpr 20)), (half 41)]⟩,
  ⟨0x4CA8000000000000#64, 0, c!"F2F", [(ftz 44), (float_format 8), (float_format 10), f2f_rounding, (sat 50), (dgpr 0), (cc), comma, (neg 45), (abs 49 cbuf), (half 41)]⟩,
  ⟨0x38A8000000000000#64, 0, c!"F2F", [(ftz 44), (float_format 8), (float_format 10), f2f_rounding, (sat 50), (dgpr 0), (cc), comma, fimm, (post_neg 45), (post_abs 49), (half 41)]⟩,
  ⟨0x5CB0000000000000#64, 0, c!"F2I", [(ftz 44), f2i_int_format, (float_format 10), f2i_rounding, (dgpr 0), (cc), comma, (neg 45), (abs 49 (sgpr 20)), (half 41)]⟩,
  ⟨0x4CB0000000000000#64, 0, c!"F2I", [(ftz 44), f2i_int_format, (float_format 10), f2i_rounding, (dgpr 0), (cc), comma, (neg 45), (abs 49 cbuf), (half 41)]⟩,
  ⟨0x5CB8000000000000#64, 0, c!"I2F", [(float_format 8), i2f_int_format, (fp_rounding 39), (dgpr 0), (cc), comma, (neg 45), (abs 49 (sgpr 20)), i2f_selector]⟩,
  ⟨0x4CB8000000000000#64, 0, c!"I2F", [(float_format 8), i2f_int_format, (fp_rounding 39), (dgpr 0), (cc), comma, (neg 45), (abs 49 cbuf), i2f_selector]⟩,
  ⟨0x38B8000000000000#64, 0, c!"I2F", [(float_format 8), i2f_int_format, (fp_rounding 39), (dgpr 0), (cc), comma, imm, (post_neg 45), (post_abs 49), i2f_selector]⟩,
  ⟨0x5CE0000000000000#64, 0, c!"I2I", [(i2i_format 8 12), (i2i_format 10 13), (sat 50), (dgpr 0), (cc), comma, (neg 45), (abs 49 (sgpr 20)), i2i_selector]⟩,
  ⟨0x4CE0000000000000#64, 0, c!"I2I", [(i2i_format 8 12), (i2i_format 10 13), (sat 50), (dgpr 0), (cc), comma, (neg 45), (abs 49 cbuf), i2i_selector]⟩,
  ⟨0x38E0000000000000#64, 0, c!"I2I", [(i2i_format 8 12), (i2i_format 10 13), (sat 50), (dgpr 0), (cc), comma, imm, (post_neg 45), (post_abs 49)]⟩,
  ⟨0x5D10000000000000#64, 0, c!"HADD2", [(fp16_merge 49), (ftz 39), (sat 32), (dgpr 0), comma, (neg 43), (abs 44 (sgpr 8)), (fp16_swizzle 47), comma, (neg 31), (abs 30 (sgpr 20)), (fp16_swizzle 28)]⟩,
  ⟨0x7A80000000000000#64, 0, c!"HADD2", [(fp16_merge 49), (ftz 39), (sat 52), (dgpr 0), comma, (neg 43), (abs 44 (sgpr 8)), (fp16_swizzle 47), comma, (neg 56), (abs 54 cbuf)]⟩,
  ⟨0x7A00000000000000#64, 0, c!"HADD2", [(fp16_merge 49), (ftz 39), (sat 52), (dgpr 0), comma, (neg 43), (abs 44 (sgpr 8)), (fp16_swizzle 47), comma, (fimm9_high 56), comma, (fimm9_low 29)]⟩,
  ⟨0x2C00000000000000#64, 0, c!"HADD2_32I", [(ftz 55), (sat 52), (dgpr 0), comma, (neg 56), (sgpr 8), (fp16_swizzle 53), comma, fimm16_high, comma, fimm16_low]⟩,
  ⟨0x7080000000000000#64, 0, c!"HFMA2", [(fp16_merge 49), (fp16_control 57), (sat 52), (dgpr 0), comma, (sgpr 8), (fp16_swizzle 47), comma, (neg 56), cbuf, comma, (neg 51), (sgpr 39), (fp16_swizzle 53)]⟩,
  ⟨0x7000000000000000#64, 0, c!"HFMA2", [(fp16_merge 49), (fp16_control 57), (sat 52), (dgpr 0), comma, (sgpr 8), (fp16_swizzle 47), comma, (fimm9_high 56), comma, (fimm9_low 29), comma, (neg 51), (sgpr 39), (fp16_swizzle 53)]⟩,
  ⟨0x6080000000000000#64, 0, c!"HFMA2", [(fp16_merge 49), (fp16_control 57), (sat 52), (dgpr 0), comma, (sgpr 8), (fp16_swizzle 47), comma, (neg 56), (sgpr 39), (fp16_swizzle 53), comma, (neg 51), cbuf]⟩,
  ⟨0x5D00000000000000#64, 0, c!"HFMA2", [(fp16_merge 49), (fp16_control 37), (sat 32), (dgpr 0), comma, (sgpr 8), (fp16_swizzle 47), comma, (neg 31), (sgpr 20), (fp16_swizzle 28), comma, (neg 30), (sgpr 39), (fp16_swizzle 35)]⟩]

/-- src/table.h:154-177 -/
def insnTable5 : List Insn := [
  ⟨0x2800000000000000#64, 0, c!"HFMA2_32I", [(fp16_control 55), (dgpr 0), comma, (sgpr 8), (fp16_swizzle 53), comma, fimm16_high, comma, fimm16_low, comma, (neg 52), (mirror_dgpr 0)]⟩,
  ⟨0x5D08000000000000#64, 0, c!"HMUL2", [(fp16_merge 49), (fp16_control 39), (sat 32), (dgpr 0), comma, (abs 44 (sgpr 8)), (fp16_swizzle 47), comma, (neg 31), (abs 30 (sgpr 20)), (fp16_swizzle 28)]⟩,
  ⟨0x7880000000000000#64, 0, c!"HMUL2", [(fp16_merge 49), (fp16_control 39), (sat 52), (dgpr 0), comma, (abs 44 (sgpr 8)), (fp16_swizzle 47), comma, (neg 43), (abs 54 cbuf)]⟩,
  ⟨0x7800000000000000#64, 0, c!"HMUL2", [(fp16_merge 49), (fp16_control 39), (sat 52), (dgpr 0), comma, (neg 43), (abs 44 (sgpr 8)), (fp16_swizzle 47), comma, (fimm9_high 56), comma, (fimm9_low 29)]⟩,
  ⟨0x2A00000000000000#64, 0, c!"HMUL2_32I", [(fp16_control 55), (sat 52), (dgpr 0), comma, (sgpr 8), (fp16_swizzle 53), comma, fimm16_high, comma, fimm16_low]⟩,
  ⟨0x5D18000000000000#64, 0, c!"HSET2", [(bf 49), (float_compare 35), (ftz 50), (bop 45), (dgpr 0), comma, (neg 43), (abs 44 (sgpr 8)), (fp16_swizzle 47), comma, (neg 31), (abs 30 (sgpr 20)), (fp16_swizzle 28), comma, (pred 39 true)]⟩,
  ⟨0x7C80000000000000#64, 0, c!"HSET2", [(bf 53), (float_compare 49), (ftz 54), (bop 45), (dgpr 0), comma, (neg 43), (abs 44 (sgpr 8)), (fp16_swizzle 47), comma, (neg 56), cbuf, comma, (pred 39 true)]⟩,
  ⟨0x7C00000000000000#64, 0, c!"HSET2", [(bf 53), (float_compare 49), (ftz 54), (bop 45), (dgpr 0), comma, (neg 43), (abs 44 (sgpr 8)), (fp16_swizzle 47), comma, (fimm9_high 56), comma, (fimm9_low 29), comma, (pred 39 true)]⟩,
  ⟨0x5D20000000000000#64, 0, c!"HSETP2", [(float_compare 35), (h_and 49), (ftz 6), (bop 45), (pred 3), comma, (pred 0), comma, (neg 43), (abs 44 (sgpr 8)), (fp16_swizzle 47), comma, (neg 31), (abs 30 (sgpr 20)), (fp16_swizzle 28), comma, (pred 39 true)]⟩,
  ⟨0x7E80000000000000#64, 0, c!"HSETP2", [(float_compare 49), (h_and 53), (ftz 6), (bop 45), (pred 3), comma, (pred 0), comma, (neg 43), (abs 44 (sgpr 8)), (fp16_swizzle 47), comma, (neg 56), (abs 54 cbuf), comma, (pred 39 true)]⟩,
  ⟨0x7E00000000000000#64, 0, c!"HSETP2", [(float_compare 49), (h_and 53), (ftz 6), (bop 45), (pred 3), comma, (pred 0), comma, (neg 43), (abs 44 (sgpr 8)), (fp16_swizzle 47), comma, (fimm9_high 56), comma, (fimm9_low 29), comma, (pred 39 true)]⟩,
  ⟨0x5090000000000000#64, 0, c!"PSETP", [(bop 24), (bop 45), (pred 3), comma, (pred 0), comma, (pred 12 true), comma, (pred 29 true), comma, (pred 39 true)]⟩,
  ⟨0x5088000000000000#64, 0, c!"PSET", [(bf 44), (bop 24), (bop 45), (dgpr 0), (cc), comma, (pred 12 true), comma, (pred 29 true), comma, (pred 39 true)]⟩,
  ⟨0x5CE8000000000000#64, 0, c!"P2R", [(byte_selector 41), (dgpr 0), comma, (p2r_mode 40), comma, (sgpr 8), comma, (sgpr 20)]⟩,
  ⟨0x4CE8000000000000#64, 0, c!"P2R", [(byte_selector 41), (dgpr 0), comma, (p2r_mode 40), comma, (sgpr 8), comma, cbuf]⟩,
  ⟨0x38E8000000000000#64, 0, c!"P2R", [(byte_selector 41), (dgpr 0), comma, (p2r_mode 40), comma, (sgpr 8), comma, imm]⟩,
  ⟨0x5CF0000000000000#64, 0, c!"R2P", [(p2r_mode 40), comma, (sgpr 8), (byte_selector 41), comma, (sgpr 20)]⟩,
  ⟨0x4CF0000000000000#64, 0, c!"R2P", [(p2r_mode 40), comma, (sgpr 8), (byte_selector 41), comma, cbuf]⟩,
  ⟨0x38F0000000000000#64, 0, c!"R2P", [(p2r_mode 40), comma, (sgpr 8), (byte_selector 41), comma, imm]⟩,
  ⟨0x5C10000000000000#64, 0, c!"IADD", [(po 48 49), (sat 50), (x 43), (dgpr 0), (cc), comma, (neg 49), (sgpr 8), comma, (neg 48), (sgpr 20)]⟩,
  ⟨0x4C10000000000000#64, 0, c!"IADD", [(po 48 49), (sat 50), (x 43), (dgpr 0), (cc), comma, (neg 49), (sgpr 8), comma, (neg 48), cbuf]⟩,
  ⟨0x3810000000000000#64, 0, c!"IADD", [(po 48 49), (sat 50), (x 43), (dgpr 0), (cc), comma, (neg 49), (sgpr 8), comma, imm, (post_neg 48)]⟩,
  ⟨0x1C00000000000000#64, 0, c!"IADD32I", [(po 55 56), (sat 54), (x 53), (dgpr 0), (cc 52), comma, (neg 56), (sgpr 8), comma, simm32]⟩,
  ⟨0x5CC0000000000000#64, 0, c!"IADD3", [iadd3_shift, (x 48), (dgpr 0), (cc), comma, (neg 51), (sgpr 8), (iadd3_half 35), comma, (neg 50), (sgpr 20), (iadd3_half 33), comma, (neg 49), (sgpr 39), (iadd3_half 31)]⟩]

/-- src/table.h:178-201 -/
def insnTable6 : List Insn := [
  ⟨0x4CC0000000000000#64, 0, c!"IADD3", [(x 48), (dgpr 0), (cc), comma, (neg 51), (sgpr 8), comma, (neg 50), cbuf, comma, (neg 49), (sgpr 39)]⟩,
  ⟨0x38C0000000000000#64, 0, c!"IADD3", [(x 48), (dgpr 0), (cc), comma, (neg 51), (sgpr 8), comma, uimm_extended, (post_neg 50), comma, (neg 49), (sgpr 39)]⟩,
  ⟨0x5B40000000000000#64, 0, c!"ICMP", [(integer_compare 49), int_sign, (dgpr 0), comma, (sgpr 8), comma, (sgpr 20), comma, (sgpr 39)]⟩,
  ⟨0x5340000000000000#64, 0, c!"ICMP", [(integer_compare 49), int_sign, (dgpr 0), comma, (sgpr 8), comma, (sgpr 39), comma, cbuf]⟩,
  ⟨0x5340000000000000#64, 0, c!"ICMP", [(integer_compare 49), int_sign, (dgpr 0), comma, (sgpr 8), comma, cbuf, comma, (sgpr 39)]⟩,
  ⟨0x3640000000000000#64, 0, c!"ICMP", [(integer_compare 49), int_sign, (dgpr 0), comma, (sgpr 8), comma, imm, comma, (sgpr 39)]⟩,
  ⟨0x5C20000000000000#64, 0, c!"IMNMX", [int_sign, imnmx_mode, (dgpr 0), (cc), comma, (sgpr 8), comma, (sgpr 20), comma, (pred 39 true)]⟩,
  ⟨0x4C20000000000000#64, 0, c!"IMNMX", [int_sign, imnmx_mode, (dgpr 0), (cc), comma, (sgpr 8), comma, cbuf, comma, (pred 39 true)]⟩,
  ⟨0x3820000000000000#64, 0, c!"IMNMX", [int_sign, imnmx_mode, (dgpr 0), (cc), comma, (sgpr 8), comma, imm, comma, (pred 39 true)]⟩,
  ⟨0x5C18000000000000#64, 0, c!"ISCADD", [(po 48 49), (dgpr 0), (cc), comma, (neg 49), (sgpr 8), comma, (neg 48), (sgpr 20), comma, (uinteger 5 39)]⟩,
  ⟨0x4C18000000000000#64, 0, c!"ISCADD", [(po 48 49), (dgpr 0), (cc), comma, (neg 49), (sgpr 8), comma, (neg 48), cbuf, comma, (uinteger 5 39)]⟩,
  ⟨0x3818000000000000#64, 0, c!"ISCADD", [(po 48 49), (dgpr 0), (cc), comma, (neg 49), (sgpr 8), comma, (neg 48), imm, comma, (uinteger 5 39)]⟩,
  ⟨0x5B50000000000000#64, 0, c!"ISET", [(bf 44), (integer_compare 49), int_sign, (x 43), (bop 45), (dgpr 0), (cc), comma, (sgpr 8), comma, (sgpr 20), comma, (pred 39 true)]⟩,
  ⟨0x4B50000000000000#64, 0, c!"ISET", [(bf 44), (integer_compare 49), int_sign, (x 43), (bop 45), (dgpr 0), (cc), comma, (sgpr 8), comma, cbuf, comma, (pred 39 true)]⟩,
  ⟨0x3650000000000000#64, 0, c!"ISET", [(bf 44), (integer_compare 49), int_sign, (x 43), (bop 45), (dgpr 0), (cc), comma, (sgpr 8), comma, imm, comma, (pred 39 true)]⟩,
  ⟨0x5B60000000000000#64, 0, c!"ISETP", [(integer_compare 49), int_sign, (x 43), (bop 45), (pred 3), comma, (pred 0), comma, (sgpr 8), comma, (sgpr 20), comma, (pred 39 true)]⟩,
  ⟨0x4B60000000000000#64, 0, c!"ISETP", [(integer_compare 49), int_sign, (x 43), (bop 45), (pred 3), comma, (pred 0), comma, (sgpr 8), comma, cbuf, comma, (pred 39 true)]⟩,
  ⟨0x3660000000000000#64, 0, c!"ISETP", [(integer_compare 49), int_sign, (x 43), (bop 45), (pred 3), comma, (pred 0), comma, (sgpr 8), comma, imm, comma, (pred 39 true)]⟩,
  ⟨0x5C30000000000000#64, 0, c!"FLO", [int_sign, (sh 41), (dgpr 0), (cc), comma, (tilde 40), (sgpr 20)]⟩,
  ⟨0x4C30000000000000#64, 0, c!"FLO", [int_sign, (sh 41), (dgpr 0), (cc), comma, (tilde 40), cbuf]⟩,
  ⟨0x3830000000000000#64, 0, c!"FLO", [int_sign, (sh 41), (dgpr 0), (cc), comma, imm, (inv 40)]⟩,
  ⟨0x5C08000000000000#64, 0, c!"POPC", [(dgpr 0), comma, (tilde 40), (sgpr 20)]⟩,
  ⟨0x4C08000000000000#64, 0, c!"POPC", [(dgpr 0), comma, (tilde 40), cbuf]⟩,
  ⟨0x3808000000000000#64, 0, c!"POPC", [(dgpr 0), comma, imm, (inv 40)]⟩]

/-- src/table.h:202-225 -/
def insnTable7 : List Insn := [
  ⟨0xEF90000000000000#64, 0, c!"LDC", [ldc_size, ldc_mode, (dgpr 0), comma, ldc_address]⟩,
  ⟨0x5BDF000000000000#64, 0, c!"LEA", [lea_hi, (x 38), (dgpr 0), (cc), comma, (neg 37), (sgpr 8), comma, (sgpr 20), comma, (sgpr 39)]⟩,
  ⟨0x5BDF000000000000#64, 0, c!"LEA", [lea_hi, (x 38), (dgpr 0), (cc), comma, (neg 37), (sgpr 8), comma, (sgpr 20), comma, (sgpr 39), comma, (uinteger 5 28)]⟩,
  ⟨0x5BD8000000000000#64, 0, c!"LEA", [lea_hi, (x 38), (pred 48), comma, (dgpr 0), (cc), comma, (neg 37), (sgpr 8), comma, (sgpr 20), comma, (sgpr 39)]⟩,
  ⟨0x5BD8000000000000#64, 0, c!"LEA", [lea_hi, (x 38), (pred 48), comma, (dgpr 0), (cc), comma, (neg 37), (sgpr 8), comma, (sgpr 20), comma, (sgpr 39), comma, (uinteger 5 28)]⟩,
  ⟨0x1807000000000000#64, 0, c!"LEA", [lea_hi, (x 57), (dgpr 0), (cc), comma, (neg 56), (sgpr 8), comma, cbuf, comma, (sgpr 39)]⟩,
  ⟨0x1807000000000000#64, 0, c!"LEA", [lea_hi, (x 57), (dgpr 0), (cc), comma, (neg 56), (sgpr 8), comma, cbuf, comma, (sgpr 39), comma, (uinteger 5 51)]⟩,
  ⟨0x1800000000000000#64, 0, c!"LEA", [lea_hi, (x 57), (pred 48), comma, (dgpr 0), (cc), comma, (neg 56), (sgpr 8), comma, cbuf, comma, (sgpr 39)]⟩,
  ⟨0x1800000000000000#64, 0, c!"LEA", [lea_hi, (x 57), (pred 48), comma, (dgpr 0), (cc), comma, (neg 56), (sgpr 8), comma, cbuf, comma, (sgpr 39), comma, (uinteger 5 51)]⟩,
  ⟨0x5BD7000000000000#64, 0, c!"LEA", [lea_lo, (x 46), (dgpr 0), (cc), comma, (neg 45), (sgpr 8), comma, (sgpr 20)]⟩,
  ⟨0x5BD7000000000000#64, 0, c!"LEA", [lea_lo, (x 46), (dgpr 0), (cc), comma, (neg 45), (sgpr 8), comma, (sgpr 20), comma, (uinteger 5 39)]⟩,
  ⟨0x5BD0000000000000#64, 0, c!"LEA", [lea_lo, (x 46), (pred 48), comma, (dgpr 0), (cc), comma, (neg 45), (sgpr 8), comma, (sgpr 20)]⟩,
  ⟨0x5BD0000000000000#64, 0, c!"LEA", [lea_lo, (x 46), (pred 48), comma, (dgpr 0), (cc), comma, (neg 45), (sgpr 8), comma, (sgpr 20), comma, (uinteger 5 39)]⟩,
  ⟨0x4BD7000000000000#64, 0, c!"LEA", [lea_lo, (x 46), (dgpr 0), (cc), comma, (neg 45), (sgpr 8), comma, cbuf]⟩,
  ⟨0x4BD7000000000000#64, 0, c!"LEA", [lea_lo, (x 46), (dgpr 0), (cc), comma, (neg 45), (sgpr 8), comma, cbuf, comma, (uinteger 5 39)]⟩,
  ⟨0x4BD0000000000000#64, 0, c!"LEA", [lea_lo, (x 46), (pred 48), comma, (dgpr 0), (cc), comma, (neg 45), (sgpr 8), comma, cbuf]⟩,
  ⟨0x4BD0000000000000#64, 0, c!"LEA", [lea_lo, (x 46), (pred 48), comma, (dgpr 0), (cc), comma, (neg 45), (sgpr 8), comma, cbuf, comma, (uinteger 5 39)]⟩,
  ⟨0x36D7000000000000#64, 0, c!"LEA", [lea_lo, (x 46), (dgpr 0), (cc), comma, (neg 45), (sgpr 8), comma, imm]⟩,
  ⟨0x36D7000000000000#64, 0, c!"LEA", [lea_lo, (x 46), (dgpr 0), (cc), comma, (neg 45), (sgpr 8), comma, imm, comma, (uinteger 5 39)]⟩,
  ⟨0x36D0000000000000#64, 0, c!"LEA", [lea_lo, (x 46), (pred 48), comma, (dgpr 0), (cc), comma, (neg 45), (sgpr 8), comma, imm]⟩,
  ⟨0x36D0000000000000#64, 0, c!"LEA", [lea_lo, (x 46), (pred 48), comma, (dgpr 0), (cc), comma, (neg 45), (sgpr 8), comma, imm, comma, (uinteger 5 39)]⟩,
  ⟨0x5C40000000000000#64, 0, c!"LOP", [(lop_bit_op 41), (x 43), lop_pred_op, (pred 48), comma, (dgpr 0), (cc), comma, (tilde 39), (sgpr 8), comma, (tilde 40), (sgpr 20)]⟩,
  ⟨0x4C40000000000000#64, 0, c!"LOP", [(lop_bit_op 41), (x 43), lop_pred_op, (pred 48), comma, (dgpr 0), (cc), comma, (tilde 39), (sgpr 8), comma, (tilde 40), cbuf]⟩,
  ⟨0x3840000000000000#64, 0, c!"LOP", [(lop_bit_op 41), (x 43), lop_pred_op, (pred 48), comma, (dgpr 0), (cc), comma, (tilde 39), (sgpr 8), comma, (tilde 40), imm]⟩]

/-- src/table.h:226-249 -/
def insnTable8 : List Insn := [
  ⟨0x0400000000000000#64, 0, c!"LOP32I", [(lop_bit_op 53), (x 57), (dgpr 0), (cc 52), comma, (tilde 55), (sgpr 8), comma, uimm32, (inv 56)]⟩,
  ⟨0x5BE0000000000000#64, 0, c!"LOP3", [lop3_lut, (x 38), lop3_operation, (pred 48), comma, (dgpr 0), (cc), comma, (sgpr 8), comma, (sgpr 20), comma, (sgpr 39), comma, (uinteger 8 28)]⟩,
  ⟨0x5BE7000000000000#64, 0, c!"LOP3", [lop3_lut, (x 38), lop3_operation, (dgpr 0), (cc), comma, (sgpr 8), comma, (sgpr 20), comma, (sgpr 39), comma, (uinteger 8 28)]⟩,
  ⟨0x3C00000000000000#64, 0, c!"LOP3", [lop3_lut, (dgpr 0), (cc), comma, (sgpr 8), comma, imm, comma, (sgpr 39), comma, (uinteger 8 48)]⟩,
  ⟨0x0200000000000000#64, 0, c!"LOP3", [lop3_lut, (dgpr 0), (cc), comma, (sgpr 8), comma, cbuf, comma, (sgpr 39), comma, (uinteger 8 48)]⟩,
  ⟨0x5BA0000000000000#64, 0, c!"FCMP", [(float_compare 48), (ftz 47), (dgpr 0), comma, (sgpr 8), comma, (sgpr 20), comma, (sgpr 39)]⟩,
  ⟨0x53A0000000000000#64, 0, c!"FCMP", [(float_compare 48), (ftz 47), (dgpr 0), comma, (sgpr 8), comma, (sgpr 39), comma, cbuf]⟩,
  ⟨0x4BA0000000000000#64, 0, c!"FCMP", [(float_compare 48), (ftz 47), (dgpr 0), comma, (sgpr 8), comma, cbuf, comma, (sgpr 39)]⟩,
  ⟨0x36A0000000000000#64, 0, c!"FCMP", [(float_compare 48), (ftz 47), (dgpr 0), comma, (sgpr 8), comma, fimm, comma, (sgpr 39)]⟩,
  ⟨0x5CA0000000000000#64, 0, c!"SEL", [(dgpr 0), comma, (sgpr 8), comma, (sgpr 20), comma, (pred 39 true)]⟩,
  ⟨0x4CA0000000000000#64, 0, c!"SEL", [(dgpr 0), comma, (sgpr 8), comma, cbuf, comma, (pred 39 true)]⟩,
  ⟨0x38A0000000000000#64, 0, c!"SEL", [(dgpr 0), comma, (sgpr 8), comma, imm, comma, (pred 39 true)]⟩,
  ⟨0xEF10000000000000#64, 0, c!"SHFL", [shfl_mode, (pred 48), comma, (dgpr 0), comma, (sgpr 8), comma, (sgpr 20), comma, (sgpr 39)]⟩,
  ⟨0xEF10000010000000#64, 0, c!"SHFL", [shfl_mode, (pred 48), comma, (dgpr 0), comma, (sgpr 8), comma, (uinteger 5 20), comma, (sgpr 39)]⟩,
  ⟨0xEF10000020000000#64, 0, c!"SHFL", [shfl_mode, (pred 48), comma, (dgpr 0), comma, (sgpr 8), comma, (sgpr 20), comma, (uinteger 13 34)]⟩,
  ⟨0xEF10000030000000#64, 0, c!"SHFL", [shfl_mode, (pred 48), comma, (dgpr 0), comma, (sgpr 8), comma, (uinteger 5 20), comma, (uinteger 13 34)]⟩,
  ⟨0x5C48000000000000#64, 0, c!"SHL", [(w 39), (x 43), (dgpr 0), (cc), comma, (sgpr 8), comma, (sgpr 20)]⟩,
  ⟨0x4C48000000000000#64, 0, c!"SHL", [(w 39), (x 43), (dgpr 0), (cc), comma, (sgpr 8), comma, cbuf]⟩,
  ⟨0x3848000000000000#64, 0, c!"SHL", [(w 39), (x 43), (dgpr 0), (cc), comma, (sgpr 8), comma, imm]⟩,
  ⟨0xF0F8000000000000#64, 0, c!"SYNC", [flow_tests]⟩,
  ⟨0xE350000000000000#64, 0, c!"CONT", [flow_tests]⟩,
  ⟨0xE340000000000000#64, 0, c!"BRK", [flow_tests]⟩,
  ⟨0xE330000000000000#64, 0, c!"KIL", [flow_tests]⟩,
  ⟨0xE320000000000000#64, 0, c!"RET", [flow_tests]⟩]

/-- src/table.h:250-273 -/
def insnTable9 : List Insn := [
  ⟨0xE310000000000000#64, 0, c!"LONGJMP", [flow_tests]⟩,
  ⟨0xE300000000000000#64, 0, c!"EXIT", [keeprefcount, flow_tests]⟩,
  ⟨0x5C90000000000000#64, 0, c!"RRO", [rro_mode, (dgpr 0), comma, (neg 45), (abs 49 (sgpr 20))]⟩,
  ⟨0x4C90000000000000#64, 0, c!"RRO", [rro_mode, (dgpr 0), comma, (neg 45), (abs 49 cbuf)]⟩,
  ⟨0x3890000000000000#64, 0, c!"RRO", [rro_mode, (dgpr 0), comma, fimm, (post_neg 45), (post_abs 49)]⟩,
  ⟨0xEB20000000000000#64, 0, c!"SUST", [image_p, image_type, (store_cache 24), image_rgba, image_clamp, (memory_address false), comma, (sgpr 0), comma, (sgpr 39)]⟩,
  ⟨0xEB28000000000000#64, 0, c!"SUST", [image_p, image_type, (store_cache 24), image_rgba, image_clamp, (memory_address false), comma, (sgpr 0), comma, (uinteger 13 36)]⟩,
  ⟨0xEB20000000000000#64, 0, c!"SUST", [image_d, (image_ba 52), image_type, (store_cache 24), image_size, image_clamp, (memory_address false), comma, (sgpr 0), comma, (sgpr 39)]⟩,
  ⟨0xEB28000000000000#64, 0, c!"SUST", [image_d, (image_ba 52), image_type, (store_cache 24), image_size, image_clamp, (memory_address false), comma, (sgpr 0), comma, (uinteger 13 36)]⟩,
  ⟨0xEB00000000000000#64, 0, c!"SULD", [image_p, image_type, (load_cache 24), image_rgba, image_clamp, (dgpr 0), comma, (memory_address false), comma, (sgpr 39)]⟩,
  ⟨0xEB08000000000000#64, 0, c!"SULD", [image_p, image_type, (load_cache 24), image_rgba, image_clamp, (dgpr 0), comma, (memory_address false), comma, (uinteger 13 36)]⟩,
  ⟨0xEB00000000000000#64, 0, c!"SULD", [image_d, (image_ba 23), image_type, (load_cache 24), image_size, image_clamp, (dgpr 0), comma, (memory_address false), comma, (sgpr 39)]⟩,
  ⟨0xEB08000000000000#64, 0, c!"SULD", [image_d, (image_ba 23), image_type, (load_cache 24), image_size, image_clamp, (dgpr 0), comma, (memory_address false), comma, (uinteger 13 36)]⟩,
  ⟨0x50D8000000000000#64, 0, c!"VOTE", [vote_operation, (dgpr 0), comma, (pred 45 false), comma, (pred 39 true)]⟩,
  ⟨0x5F04000000000000#64, 0, c!"VMAD", [(video_src_format 37 48), (video_src_format 29 49), (po 53 54), vmad_scale, (sat 55), (dgpr 0), (cc), comma, (neg 54), (sgpr 8), (video_selector 36 37), comma, (sgpr 20), (video_selector 28 29), comma, (neg 53), (sgpr 39)]⟩,
  ⟨0x5F00000000000000#64, 0, c!"VMAD", [(video_src_format 37 48), (video_imm_format 29 49), (po 53 54), vmad_scale, (sat 55), (dgpr 0), (cc), comma, (neg 54), (sgpr 8), (video_selector 36 37), comma, (uinteger 16 20), comma, (neg 53), (sgpr 39)]⟩,
  ⟨0x3A04000000000000#64, 0, c!"VMNMX", [video_dest_sign, (video_src_format 37 48), (video_src_format 29 49), (video_mx 56), (sat 55), (video_vmnmx_op 51), (dgpr 0), (cc), comma, (sgpr 8), (video_selector 36 37), comma, (sgpr 20), (video_selector 28 29), comma, (sgpr 39)]⟩,
  ⟨0x3A00000000000000#64, 0, c!"VMNMX", [video_dest_sign, (video_src_format 37 48), (video_imm_format 29 49), (video_mx 56), (sat 55), (video_vmnmx_op 51), (dgpr 0), (cc), comma, (sgpr 8), (video_selector 36 37), comma, (uinteger 16 20), comma, (sgpr 39)]⟩,
  ⟨0x50F4000000000000#64, 0, c!"VSETP", [(vsetp_integer_compare 43), (video_src_format 37 48), (video_src_format 29 49), (bop 45), (pred 3), comma, (pred 0), comma, (sgpr 8), (video_selector 36 37), comma, (sgpr 20), (video_selector 28 29), comma, (pred 39 true)]⟩,
  ⟨0x50F0000000000000#64, 0, c!"VSETP", [(vsetp_integer_compare 43), (video_src_format 37 48), (video_imm_format 29 49), (bop 45), (pred 3), comma, (pred 0), comma, (sgpr 8), (video_selector 36 37), comma, (uinteger 16 20), comma, (pred 39 true)]⟩,
  ⟨0xEED8000000000000#64, 2, c!"STG", [stg_e, (store_cache 46), memory_size, (memory_address), comma, (sgpr 0)]⟩,
  ⟨0xEF58000000000000#64, 2, c!"STS", [memory_size, (memory_address), comma, (sgpr 0)]⟩,
  ⟨0xEF50000000000000#64, 2, c!"STL", [stl_cache, memory_size, (memory_address), comma, (sgpr 0)]⟩,
  ⟨0xC000000000000000#64, 0, c!"TEX", [(ndv 35), (nodep 49), (aoffi 54), (blod 55), (dc 50), (lc 58), (pred 51), comma, (dgpr 0), comma, (sgpr 8), comma, (sgpr 20), comma, (uinteger 13 36), comma, (tex_type 28), comma, (uinteger 4 31)]⟩]

/-- src/table.h:274-299 -/
def insnTable10 : List Insn := [
  ⟨0xDE80000000000000#64, 0, c!"TEX", [b_text, (ndv 35), (nodep 49), (aoffi 36), (blod 37), (dc 50), (lc 40), (pred 51), comma, (dgpr 0), comma, (sgpr 8), comma, (sgpr 20), comma, zero, comma, (tex_type 28), comma, (uinteger 4 31)]⟩,
  ⟨0xD000000000000000#64, 0, c!"TEXS", [(sample_size 59), (texs_mode 53), (nodep 49), (dgpr 28), comma, (dgpr 0), comma, (sgpr 8), comma, (sgpr 20), comma, (uinteger 13 36), comma, (texs_type 53), comma, texs_swizzle]⟩,
  ⟨0xC800000000000000#64, 0, c!"TLD4", [(tld4_component 56), (tld4_offset 54), (dc 50), (ndv 35), (nodep 49), (pred 51), comma, (dgpr 0), comma, (sgpr 8), comma, (sgpr 20), comma, (uinteger 13 36), comma, (tex_type 28), comma, (uinteger 4 31)]⟩,
  ⟨0xDEC0000000000000#64, 0, c!"TLD4", [(tld4_component 38), b_text, (tld4_offset 36), (dc 50), (ndv 35), (nodep 49), (pred 51), comma, (dgpr 0), comma, (sgpr 8), comma, (sgpr 20), comma, zero, comma, (tex_type 28), comma, (uinteger 4 31)]⟩,
  ⟨0xDF00000000000000#64, 0, c!"TLD4S", [(sample_size_inv 55), (tld4_component 52), (aoffi 51), (dc 50), (nodep 49), (dgpr 28), comma, (dgpr 0), comma, (sgpr 8), comma, (sgpr 20), comma, (uinteger 13 36)]⟩,
  ⟨0xDC00000000000000#64, 0, c!"TLD", [(tld_lod 55), (aoffi 35), (ms 50), (cl 54), (nodep 49), (pred 51), comma, (dgpr 0), comma, (sgpr 8), comma, (sgpr 20), comma, (uinteger 13 36), comma, (tex_type 28), comma, (uinteger 4 31)]⟩,
  ⟨0xDD00000000000000#64, 0, c!"TLD", [b_text, (tld_lod 55), (aoffi 35), (ms 50), (cl 54), (nodep 49), (pred 51), comma, (dgpr 0), comma, (sgpr 8), comma, (sgpr 20), comma, zero, comma, (tex_type 28), comma, (uinteger 4 31)]⟩,
  ⟨0xD200000000000000#64, 0, c!"TLDS", [(sample_size 59), (tld_lod 53), (aoffi 54), (ms 55), (nodep 49), (dgpr 28), comma, (dgpr 0), comma, (sgpr 8), comma, (sgpr 20), comma, (uinteger 13 36), comma, (tlds_type 53), comma, texs_swizzle]⟩,
  ⟨0xDF58000000000000#64, 0, c!"TMML", [lod_text, (ndv 35), (nodep 49), (dgpr 0), comma, (sgpr 8), comma, (uinteger 13 36), comma, (tex_type 28), comma, (uinteger 4 31)]⟩,
  ⟨0xDF60000000000000#64, 0, c!"TMML", [b_text, lod_text, (ndv 35), (nodep 49), (dgpr 0), comma, (sgpr 8), comma, (sgpr 20), comma, zero, comma, (tex_type 28), comma, (uinteger 4 31)]⟩,
  ⟨0xDE00000000000000#64, 0, c!"TXD", [(lc 50), (aoffi 35), (nodep 49), (pred 51), comma, (dgpr 0), comma, (sgpr 8), comma, (sgpr 20), comma, (uinteger 13 36), comma, (tex_type 28), comma, (uinteger 4 31)]⟩,
  ⟨0xDE40000000000000#64, 0, c!"TXD", [b_text, (lc 50), (aoffi 35), (nodep 49), (pred 51), comma, (dgpr 0), comma, (sgpr 8), comma, (sgpr 20), comma, zero, comma, (tex_type 28), comma, (uinteger 4 31)]⟩,
  ⟨0xDF48000000000000#64, 0, c!"TXQ", [(nodep 49), (dgpr 0), comma, (sgpr 8), comma, txq_mode, comma, (uinteger 13 36), comma, (uinteger 4 31)]⟩,
  ⟨0xDF50000000000000#64, 0, c!"TXQ", [b_text, (nodep 49), (dgpr 0), comma, (sgpr 8), comma, txq_mode, comma, zero, comma, (uinteger 4 31)]⟩,
  ⟨0xEED0000000000000#64, 6, c!"LDG", [stg_e, ldg_cache, ldg_size, (dgpr 0), comma, (memory_address)]⟩,
  ⟨0xEEC8000000000000#64, 6, c!"LDG", [stg_e, ldg_cache, ldg_size, (inverted_pred 41), comma, (dgpr 0), comma, (memory_address true 20 20)]⟩,
  ⟨0xEF48000000000000#64, 6, c!"LDS", [lds_u, memory_size, (dgpr 0), comma, (memory_address)]⟩,
  ⟨0xEF40000000000000#64, 6, c!"LDL", [ldl_cache, memory_size, (dgpr 0), comma, (memory_address)]⟩,
  ⟨0xEBF8000000000000#64, 6, c!"RED", [red_e, red_operation, (atomic_size 20), (memory_address true 28 20 0), comma, (sgpr 0)]⟩,
  ⟨0xE240000000000000#64, 0, c!"BRA", [(u 7), (lmt 6), flow_tests, comma, label]⟩,
  ⟨0xE24000000000000F#64, 0, c!"BRA", [(u 7), (lmt 6), label]⟩,
  ⟨0xE2A0000000000000#64, 1, c!"PBK", [label]⟩,
  ⟨0xE290000000000000#64, 1, c!"SSY", [label]⟩,
  ⟨0xE260000000000000#64, 1, c!"CAL", [noinc, label]⟩]

/-- src/table.h:301-301 -/
def insnTable11 : List Insn := [
  ⟨0xE2B0000000000000#64, 1, c!"PCNT", [label]⟩]

/-- `table`, src/table.h:31-302 -/
def insnTable : List Insn :=
  insnTable0 ++ insnTable1 ++ insnTable2 ++ insnTable3 ++ insnTable4 ++ insnTable5 ++ insnTable6 ++ insnTable7 ++ insnTable8 ++ insnTable9 ++ insnTable10 ++ insnTable11

end Nxas
