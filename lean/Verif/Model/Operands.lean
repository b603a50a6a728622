import Verif.Model.Operand
/-
The named operands of src/operand.h: the arguments given to the parser families of
`Operand.lean`.  `stg::size` (operand.h:686-697) and the template `int_sign<address>`
(operand.h:284-285) are used by no table row and are omitted.
-/

namespace Nxas.Opnd

/-! ### Instances of `DEFINE_FLAG`, `DEFINE_UINT`, `DEFINE_INT`, `DEFINE_DOT_TABLE` -/

/-- `uimm32`, operand.h:230 -/
def uimm32 : Operand :=
  .uint 0xFFFFFFFF 20
/-- `simm32`, operand.h:232 -/
def simm32 : Operand :=
  .sint 32 20
/-- `uimm16`, operand.h:234 -/
def uimm16 : Operand :=
  .uint 0xFFFF 20
/-- `cc`, operand.h:237 -/
def cc (address : Nat := 47) : Operand :=
  .flag c!".CC" address
/-- `uinteger`, operand.h:240 -/
def uinteger (bits : Nat) (address : Nat) : Operand :=
  .uint (maxBits bits) address
/-- `sinteger`, operand.h:243 -/
def sinteger (bits : Nat) (address : Nat) : Operand :=
  .sint bits address
/-- `mask4`, operand.h:246 -/
def mask4 (address : Nat) : Operand :=
  .uint 0xF address
/-- `psl`, operand.h:249 -/
def psl (address : Nat) : Operand :=
  .flag c!".PSL" address
/-- `x`, operand.h:252 -/
def x (address : Nat) : Operand :=
  .flag c!".X" address
/-- `mrg`, operand.h:255 -/
def mrg (address : Nat) : Operand :=
  .flag c!".MRG" address
/-- `half`, operand.h:258 -/
def half (address : Nat) : Operand :=
  .dotTable (some 0) address [c!"H0", c!"H1"]
/-- `brev`, operand.h:261 -/
def brev (address : Nat) : Operand :=
  .flag c!".BREV" address
/-- `ftz`, operand.h:264 -/
def ftz (address : Nat) : Operand :=
  .flag c!".FTZ" address
/-- `sat`, operand.h:267 -/
def sat (address : Nat) : Operand :=
  .flag c!".SAT" address
/-- `bf`, operand.h:270 -/
def bf (address : Nat) : Operand :=
  .flag c!".BF" address
/-- `h_and`, operand.h:273 -/
def h_and (address : Nat) : Operand :=
  .flag c!".H_AND" address
/-- `u`, operand.h:276 -/
def u (address : Nat) : Operand :=
  .flag c!".U" address
/-- `lmt`, operand.h:279 -/
def lmt (address : Nat) : Operand :=
  .flag c!".LMT" address
/-- `w`, operand.h:282 -/
def w (address : Nat) : Operand :=
  .flag c!".W" address
/-- `float_format`, operand.h:288 -/
def float_format (address : Nat) : Operand :=
  .dotTable (some 2) address [[], c!"F16", c!"F32", c!"F64"]
/-- `byte_selector`, operand.h:291 -/
def byte_selector (address : Nat) : Operand :=
  .dotTable (some 0) address [c!"B0", c!"B1", c!"B2", c!"B3"]
/-- `fp_rounding`, operand.h:294 -/
def fp_rounding (address : Nat) : Operand :=
  .dotTable (some 0) address [c!"RN", c!"RM", c!"RP", c!"RZ"]
/-- `post_neg`, operand.h:358 -/
def post_neg (address : Nat) : Operand :=
  .flag c!".NEG" address
/-- `post_abs`, operand.h:361 -/
def post_abs (address : Nat) : Operand :=
  .flag c!".ABS" address
/-- `sh`, operand.h:393 -/
def sh (address : Nat) : Operand :=
  .flag c!".SH" address
/-- `inv`, operand.h:396 -/
def inv (address : Nat) : Operand :=
  .flag c!".INV" address
/-- `memory::size`, operand.h:407 -/
def memory_size : Operand :=
  .dotTable (some 4) 48 [c!"U8", c!"S8", c!"U16", c!"S16", c!"32", c!"64", c!"128"]
/-- `keeprefcount`, operand.h:454 -/
def keeprefcount : Operand :=
  .flag c!".KEEPREFCOUNT" 5
/-- `rro::mode`, operand.h:470 -/
def rro_mode : Operand :=
  .dotTable none 39 [c!"SINCOS", c!"EX2"]
/-- `load_cache`, operand.h:474 -/
def load_cache (address : Nat) : Operand :=
  .dotTable (some 0) address [[], c!"CG", c!"CI", c!"CV"]
/-- `lop::bit_op`, operand.h:479 -/
def lop_bit_op (address : Nat) : Operand :=
  .dotTable none address [c!"AND", c!"OR", c!"XOR", c!"PASS_B"]
/-- `lop::pred_op`, operand.h:481 -/
def lop_pred_op : Operand :=
  .dotTable (some 0) 44 [[], c!"T", c!"Z", c!"NZ"]
/-- `amem::size`, operand.h:486 -/
def amem_size : Operand :=
  .dotTable (some 0) 47 [c!"32", c!"64", c!"96", c!"128"]
/-- `ald::o`, operand.h:491 -/
def ald_o : Operand :=
  .flag c!".O" 32
/-- `ald::size`, operand.h:512 -/
def ald_size : Operand :=
  .dotTable (some 0) 47 [c!"32", c!"64", c!"96", c!"128"]
/-- `al2p::o`, operand.h:574 -/
def al2p_o : Operand :=
  .flag c!".O" 32
/-- `nop::trig`, operand.h:604 -/
def nop_trig : Operand :=
  .flag c!".TRIG" 13
/-- `nop::mask`, operand.h:605 -/
def nop_mask : Operand :=
  .uint 0xFFFF 20
/-- `cc_tests`, operand.h:617-620 -/
def cc_tests : Operand :=
  .dotTable (some 15) 8 [c!"F", c!"LT", c!"EQ", c!"LE", c!"GT", c!"NE", c!"GE", c!"NUM", c!"NAN", c!"LTU", c!"EQU", c!"LEU", c!"GTU", c!"NEU", c!"GEU", c!"T", c!"OFF", c!"LO", c!"SFF", c!"LS", c!"HI", c!"SFT", c!"HS", c!"OFT", c!"CSM_TA", c!"CSM_TR", c!"CSM_MX", c!"FCSM_TA", c!"FCSM_TR", c!"FCSM_MX", c!"RLE", c!"RGT"]
/-- `xmad::mode_a`, operand.h:647 -/
def xmad_mode_a : Operand :=
  .dotTable (some 0) 50 [[], c!"CLO", c!"CHI", c!"CSFU", c!"CBCC"]
/-- `xmad::mode_b`, operand.h:648 -/
def xmad_mode_b : Operand :=
  .dotTable (some 0) 50 [[], c!"CLO", c!"CHI", c!"CSFU"]
/-- `lop3::operation`, operand.h:653 -/
def lop3_operation : Operand :=
  .dotTable (some 0) 36 [[], c!"T", c!"Z", c!"NZ"]
/-- `shr::format`, operand.h:667 -/
def shr_format : Operand :=
  .dotTable (some 1) 48 [c!"U32", c!"S32"]
/-- `shr::mode`, operand.h:668 -/
def shr_mode : Operand :=
  .dotTable (some 0) 39 [c!"C", c!"W"]
/-- `shr::xmode`, operand.h:669 -/
def shr_xmode : Operand :=
  .dotTable (some 0) 43 [[], c!"INVALIDSHRXMODE1", c!"X", c!"XHI"]
/-- `bfe::format`, operand.h:674 -/
def bfe_format : Operand :=
  .dotTable (some 1) 48 [c!"U32", c!"S32"]
/-- `bpt::mode`, operand.h:679 -/
def bpt_mode : Operand :=
  .dotTable none 6 [c!"DRAIN_ILLEGAL", c!"CAL", c!"PAUSE", c!"TRAP", c!"INT", c!"DRAIN"]
/-- `stg::e`, operand.h:684 -/
def stg_e : Operand :=
  .flag c!".E" 45
/-- `fmul::fmz`, operand.h:739 -/
def fmul_fmz (address : Nat) : Operand :=
  .dotTable (some 0) address [[], c!"FTZ", c!"FMZ", c!"INVALIDFMZ3"]
/-- `fmul::scale`, operand.h:741 -/
def fmul_scale : Operand :=
  .dotTable (some 0) 41 [[], c!"D2", c!"D4", c!"D8", c!"M8", c!"M4", c!"M2", c!"INVALIDSCALE37"]
/-- `iadd3::shift`, operand.h:746 -/
def iadd3_shift : Operand :=
  .dotTable (some 0) 37 [[], c!"RS", c!"LS"]
/-- `iadd3::half`, operand.h:749 -/
def iadd3_half (address : Nat) : Operand :=
  .dotTable (some 0) address [[], c!"H0", c!"H1"]
/-- `f2i::rounding`, operand.h:772 -/
def f2i_rounding : Operand :=
  .dotTable (some 0) 39 [[], c!"FLOOR", c!"CEIL", c!"TRUNC"]
/-- `fp16::merge`, operand.h:794 -/
def fp16_merge (address : Nat) : Operand :=
  .dotTable (some 0) address [[], c!"F32", c!"MRG_H0", c!"MRG_H1"]
/-- `fp16::control`, operand.h:797 -/
def fp16_control (address : Nat) : Operand :=
  .dotTable (some 0) address [[], c!"FTZ", c!"FMZ"]
/-- `fp16::swizzle`, operand.h:800 -/
def fp16_swizzle (address : Nat) : Operand :=
  .dotTable (some 0) address [c!"H1_H0", c!"F32", c!"H0_H0", c!"H1_H1"]
/-- `stl::cache`, operand.h:805 -/
def stl_cache : Operand :=
  .dotTable (some 0) 44 [[], c!"CG", c!"CS", c!"WT"]
/-- `lds::u`, operand.h:810 -/
def lds_u : Operand :=
  .flag c!".U" 44
/-- `float_compare`, operand.h:814-815 -/
def float_compare (address : Nat) : Operand :=
  .dotTable none address [c!"F", c!"LT", c!"EQ", c!"LE", c!"GT", c!"NE", c!"GE", c!"NUM", c!"NAN", c!"LTU", c!"EQU", c!"LEU", c!"GTU", c!"NEU", c!"GEU", c!"T"]
/-- `integer_compare`, operand.h:818 -/
def integer_compare (address : Nat) : Operand :=
  .dotTable none address [c!"F", c!"LT", c!"EQ", c!"LE", c!"GT", c!"NE", c!"GE", c!"T"]
/-- `vsetp::integer_compare`, operand.h:823-824 -/
def vsetp_integer_compare (address : Nat) : Operand :=
  .dotTable none address [c!"F", c!"LT", c!"EQ", c!"LE", [], [], [], [], [], [], [], [], [], [], [], [], c!"GT", c!"NE", c!"GE", c!"T"]
/-- `mufu::operation`, operand.h:829-830 -/
def mufu_operation : Operand :=
  .dotTable none 20 [c!"COS", c!"SIN", c!"EX2", c!"LG2", c!"RCP", c!"RSQ", c!"RCP64H", c!"RSQ64H", c!"SQRT"]
/-- `imnmx::mode`, operand.h:835 -/
def imnmx_mode : Operand :=
  .dotTable (some 0) 43 [[], c!"XLO", c!"XMED", c!"XHI"]
/-- `ldc::mode`, operand.h:840 -/
def ldc_mode : Operand :=
  .dotTable (some 0) 44 [[], c!"IL", c!"IS", c!"ISL"]
/-- `ldc::size`, operand.h:841 -/
def ldc_size : Operand :=
  .dotTable none 48 [c!"U8", c!"S8", c!"U16", c!"S16", c!"32", c!"64"]
/-- `image::ba`, operand.h:886 -/
def image_ba (address : Nat) : Operand :=
  .flag c!".BA" address
/-- `image::type`, operand.h:888 -/
def image_type : Operand :=
  .dotTable none 33 [c!"1D", c!"1D_BUFFER", c!"1D_ARRAY", c!"2D", c!"2D_ARRAY", c!"3D"]
/-- `image::rgba`, operand.h:890-891 -/
def image_rgba : Operand :=
  .dotTable (some 15) 20 [[], c!"R", c!"G", c!"RG", c!"B", c!"RB", c!"GB", c!"RGB", c!"A", c!"RA", c!"GA", c!"RGA", c!"BA", c!"RBA", c!"GBA", c!"RGBA"]
/-- `image::size`, operand.h:893 -/
def image_size : Operand :=
  .dotTable (some 4) 20 [c!"U8", c!"S8", c!"U16", c!"S16", c!"32", c!"64", c!"128"]
/-- `image::clamp`, operand.h:895 -/
def image_clamp : Operand :=
  .dotTable (some 1) 49 [c!"IGN", [], c!"TRAP"]
/-- `shfl::mode`, operand.h:1201 -/
def shfl_mode : Operand :=
  .dotTable none 30 [c!"IDX", c!"UP", c!"DOWN", c!"BFLY"]
/-- `int_sign`, operand.h:1204 -/
def int_sign : Operand :=
  .dotTable (some 1) 48 [c!"U32", c!"S32"]
/-- `ldg::cache`, operand.h:1227 -/
def ldg_cache : Operand :=
  .dotTable (some 0) 46 [[], c!"CG", c!"CI", c!"CV"]
/-- `atoms::operation`, operand.h:1305-1306 -/
def atoms_operation : Operand :=
  .dotTable none 52 [c!"ADD", c!"MIN", c!"MAX", c!"INC", c!"DEC", c!"AND", c!"OR", c!"XOR", c!"EXCH"]
/-- `atoms::size`, operand.h:1308 -/
def atoms_size : Operand :=
  .dotTable none 28 [c!"U32", c!"S32", c!"U64", c!"S64"]
/-- `ldl::cache`, operand.h:1313 -/
def ldl_cache : Operand :=
  .dotTable (some 0) 44 [[], c!"LU", c!"CI", c!"CV"]
/-- `vote::operation`, operand.h:1344 -/
def vote_operation : Operand :=
  .dotTable none 48 [c!"ALL", c!"ANY", c!"EQ"]
/-- `atom::e`, operand.h:1349 -/
def atom_e : Operand :=
  .flag c!".E" 48
/-- `atom::operation`, operand.h:1351-1352 -/
def atom_operation : Operand :=
  .dotTable none 52 [c!"ADD", c!"MIN", c!"MAX", c!"INC", c!"DEC", c!"AND", c!"OR", c!"XOR", c!"EXCH", c!"SAFEADD"]
/-- `shf::max_shift`, operand.h:1395 -/
def shf_max_shift : Operand :=
  .dotTable (some 0) 37 [c!"32", c!"INVALIDMAXSHIFT3", c!"U64", c!"S64"]
/-- `shf::xmode`, operand.h:1397 -/
def shf_xmode : Operand :=
  .dotTable (some 0) 48 [[], c!"HI", c!"X", c!"XHI"]
/-- `noinc`, operand.h:1400 -/
def noinc : Operand :=
  .dotTable (some 1) 6 [c!"NOINC", c!"INC"]
/-- `video::dest_sign`, operand.h:1404 -/
def video_dest_sign : Operand :=
  .dotTable (some 1) 54 [c!"UD", c!"SD"]
/-- `video::mx`, operand.h:1429 -/
def video_mx (address : Nat) : Operand :=
  .dotTable (some 0) address [c!"MN", c!"MX"]
/-- `video::vmnmx_op`, operand.h:1432-1433 -/
def video_vmnmx_op (address : Nat) : Operand :=
  .dotTable (some 7) address [c!"MRG_16H", c!"MRG_16L", c!"MRG_8B0", c!"MRG_8B2", c!"ACC", c!"MIN", c!"MAX"]
/-- `vmad::scale`, operand.h:1466 -/
def vmad_scale : Operand :=
  .dotTable (some 0) 51 [[], c!"SHR_7", c!"SHR_15", c!"INVALIDVMADSCALE3"]
/-- `red::e`, operand.h:1471 -/
def red_e : Operand :=
  .flag c!".E" 48
/-- `red::operation`, operand.h:1473 -/
def red_operation : Operand :=
  .dotTable (some 0) 23 [c!"ADD", c!"MIN", c!"MAX", c!"INC", c!"DEC", c!"AND", c!"OR", c!"XOR"]
/-- `ndv`, operand.h:1477 -/
def ndv (address : Nat) : Operand :=
  .flag c!".NDV" address
/-- `nodep`, operand.h:1480 -/
def nodep (address : Nat) : Operand :=
  .flag c!".NODEP" address
/-- `dc`, operand.h:1483 -/
def dc (address : Nat) : Operand :=
  .flag c!".DC" address
/-- `aoffi`, operand.h:1486 -/
def aoffi (address : Nat) : Operand :=
  .flag c!".AOFFI" address
/-- `lc`, operand.h:1489 -/
def lc (address : Nat) : Operand :=
  .flag c!".LC" address
/-- `blod`, operand.h:1492-1493 -/
def blod (address : Nat) : Operand :=
  .dotTable (some 0) address [[], c!"LZ", c!"LB", c!"LL", c!"INVALIDBLOD4", c!"INVALIDBLOD5", c!"LBA", c!"LLA"]
/-- `sample_size`, operand.h:1539 -/
def sample_size (address : Nat) : Operand :=
  .dotTable (some 1) address [c!"F16", []]
/-- `sample_size_inv`, operand.h:1542 -/
def sample_size_inv (address : Nat) : Operand :=
  .dotTable (some 0) address [[], c!"F16"]
/-- `tld4::component`, operand.h:1788 -/
def tld4_component (address : Nat) : Operand :=
  .dotTable none address [c!"R", c!"G", c!"B", c!"A"]
/-- `tld4::offset`, operand.h:1791 -/
def tld4_offset (address : Nat) : Operand :=
  .dotTable (some 0) address [[], c!"AOFFI", c!"PTP"]
/-- `tld::lod`, operand.h:1797 -/
def tld_lod (address : Nat) : Operand :=
  .dotTable none address [c!"LZ", c!"LL"]
/-- `ms`, operand.h:1801 -/
def ms (address : Nat) : Operand :=
  .flag c!".MS" address
/-- `cl`, operand.h:1804 -/
def cl (address : Nat) : Operand :=
  .flag c!".CL" address

/-! ### Hand-written instances of the parsers defined by `DEFINE_OPERAND` -/

/-- operand.h:89-100 -/
def uimm_extended : Operand := .uimmExtended
/-- operand.h:115-120 -/
def comma : Operand := .comma
/-- operand.h:122-154 -/
def label : Operand := .label
/-- operand.h:156-160 -/
def dgpr (address : Nat) : Operand := .gpr address
/-- operand.h:162-166 -/
def sgpr (address : Nat) : Operand := .gpr address
/-- operand.h:168-181 -/
def mirror_dgpr (address : Nat) : Operand := .mirrorGpr address
/-- operand.h:183-186 -/
def cbuf : Operand := .cbuf
/-- operand.h:188-191 -/
def imm : Operand := .imm20
/-- operand.h:193-196 -/
def fimm : Operand := .fimm false
/-- operand.h:198-201 -/
def fimm32 : Operand := .fimm true
/-- operand.h:203-206 -/
def dimm20 : Operand := .dimm20
/-- operand.h:208-212 -/
def fimm9_low (negBit : Nat) : Operand := .himm false 20 (some negBit)
/-- operand.h:214-218 -/
def fimm9_high (negBit : Nat) : Operand := .himm false 30 (some negBit)
/-- operand.h:220-223 -/
def fimm16_low : Operand := .himm true 20 none
/-- operand.h:225-228 -/
def fimm16_high : Operand := .himm true 36 none
/-- operand.h:296-307 -/
def bop (address : Nat) : Operand := .bop address
/-- operand.h:309-323 -/
def pred (address : Nat) (negable : Bool := false) : Operand := .pred address negable
/-- operand.h:325-335 -/
def inverted_pred (address : Nat) : Operand := .invertedPred address
/-- operand.h:337-345 -/
def neg (address : Nat) : Operand := .neg address
/-- operand.h:347-355 -/
def tilde (address : Nat) : Operand := .tilde address
/-- operand.h:363-379 -/
def abs (address : Nat) (inner : Operand) : Operand := .abs address inner
/-- operand.h:381-390 -/
def po (address1 address2 : Nat) : Operand := .po address1 address2
/-- operand.h:398-403 -/
def default_rz (address : Nat) : Operand := .defaultRz address
/-- operand.h:409-441 -/
def memory_address (immOffset : Bool := true) (addr : Nat := 20) (size : Nat := 24)
    (shr : Nat := 0) : Operand := .memAddress immOffset addr size shr
/-- operand.h:444-452 -/
def flow_tests : Operand :=
  .ccTests 0 [c!"F", c!"LT", c!"EQ", c!"LE", c!"GT", c!"NE", c!"GE", c!"NUM", c!"NAN",
    c!"LTU", c!"EQU", c!"LEU", c!"GTU", c!"NEU", c!"GEU", c!"T", c!"OFF", c!"LO",
    c!"SFF", c!"LS", c!"HI", c!"SFT", c!"HS", c!"OFT", c!"CSM_TA", c!"CSM_TR", c!"CSM_MX",
    c!"FCSM_TA", c!"FCSM_TR", c!"FCSM_MX", c!"RLE", c!"RGT"]
/-- operand.h:456-466: same code as a dot table with default 0 -/
def store_cache (address : Nat) : Operand := .dotTable (some 0) address [[], c!"CG", c!"CS", c!"WT"]
/-- operand.h:493-501 -/
def ald_p : Operand := .expect c!".P" [1#64 <<< 31] []
/-- operand.h:503-510 -/
def ald_phys : Operand := .expect c!".PHYS" [] []
/-- operand.h:514-530 -/
def ald_imm_attr : Operand := .immAttr
/-- operand.h:532-552 -/
def ald_patch_attr : Operand := .patchAttr
/-- operand.h:554-569 -/
def ald_phys_attr : Operand := .physAttr
/-- operand.h:579-588 -/
def b2r_warp : Operand := .expect c!".WARP" [] [0xE#64 <<< 32, 0xFF#64 <<< 8]
/-- operand.h:590-599 -/
def b2r_result : Operand := .expect c!".RESULT" [] [0xD#64 <<< 32, 0xFF#64 <<< 8]
/-- operand.h:608-615 -/
def cc_text : Operand := .expect c!"CC" [] []
/-- operand.h:624-645 -/
def xmad_signs : Operand := .xmadSigns
/-- operand.h:655-662 -/
def lop3_lut : Operand := .expect c!".LUT" [] []
/-- operand.h:702-733 -/
def f2f_rounding : Operand := .f2fRounding
/-- operand.h:754-770 -/
def f2i_int_format : Operand :=
  .intFormat [c!"INVALID0", c!"U16", c!"U32", c!"U64"] [c!"INVALID1", c!"S16", c!"S32", c!"S64"] 8 12
/-- operand.h:777-788 -/
def p2r_mode (address : Nat) : Operand := .plainTable address [c!"PR", c!"CC"]
/-- operand.h:843-861 -/
def ldc_address : Operand := .ldcAddress
/-- operand.h:866-873 -/
def image_p : Operand := .expect c!".P" [] []
/-- operand.h:875-883 -/
def image_d : Operand := .expect c!".D" [1#64 <<< 52] []
/-- The system register names, operand.h:900-1158. -/
def s2rTable : List Str :=
  [c!"SR_LANEID", c!"SR_CLOCK", c!"SR_VIRTCFG", c!"SR_VIRTID", c!"SR_PM0", c!"SR_PM1",
   c!"SR_PM2", c!"SR_PM3", c!"SR_PM4", c!"SR_PM5", c!"SR_PM6", c!"SR_PM7",
   c!"SR12", c!"SR13", c!"SR14", c!"SR_ORDERING_TICKET", c!"SR_PRIM_TYPE", c!"SR_INVOCATION_ID",
   c!"SR_Y_DIRECTION", c!"SR_THREAD_KILL", c!"SM_SHADER_TYPE", c!"SR_DIRECTCBEWRITEADDRESSLOW", c!"SR_DIRECTCBEWRITEADDRESSHIGH", c!"SR_DIRECTCBEWRITEENABLED",
   c!"SR_MACHINE_ID_0", c!"SR_MACHINE_ID_1", c!"SR_MACHINE_ID_2", c!"SR_MACHINE_ID_3", c!"SR_AFFINITY", c!"SR_INVOCATION_INFO",
   c!"SR_WSCALEFACTOR_XY", c!"SR_WSCALEFACTOR_Z", c!"", c!"", c!"", c!"",
   c!"SR_CTA_PARAM", c!"", c!"", c!"", c!"SR_NTID", c!"SR_CirQueueIncrMinusOne",
   c!"SR_NLATC", c!"SR43", c!"SR_SM_SPA_VERSION", c!"SR_MULTIPASSSHADERINFO", c!"SR_LWINHI", c!"SR_SWINHI",
   c!"SR_SWINLO", c!"SR_SWINSZ", c!"SR_SMEMSZ", c!"SR_SMEMBANKS", c!"SR_LWINLO", c!"SR_LWINSZ",
   c!"SR_LMEMLOSZ", c!"SR_LMEMHIOFF", c!"SR_EQMASK", c!"SR_LTMASK", c!"SR_LEMASK", c!"SR_GTMASK",
   c!"SR_GEMASK", c!"SR_REGALLOC", c!"SR_BARRIERALLOC", c!"SR63", c!"SR_GLOBALERRORSTATUS", c!"SR65",
   c!"SR_WARPERRORSTATUS", c!"SR_WARPERRORSTATUSCLEAR", c!"SR68", c!"SR69", c!"SR70", c!"SR71",
   c!"SR_PM_HI0", c!"SR_PM_HI1", c!"SR_PM_HI2", c!"SR_PM_HI3", c!"SR_PM_HI4", c!"SR_PM_HI5",
   c!"SR_PM_HI6", c!"SR_PM_HI7", c!"SR_CLOCKLO", c!"SR_CLOCKHI", c!"SR_GLOBALTIMERLO", c!"SR_GLOBALTIMERHI",
   c!"SR84", c!"SR85", c!"SR86", c!"SR87", c!"SR88", c!"SR89",
   c!"SR90", c!"SR91", c!"SR92", c!"SR93", c!"SR94", c!"SR95",
   c!"SR_HWTASKID", c!"SR_CIRCULARQUEUEENTRYINDEX", c!"SR_CIRCULARQUEUEENTRYADDRESSLOW", c!"SR_CIRCULARQUEUEENTRYADDRESSHIGH", c!"SR100", c!"SR101",
   c!"SR102", c!"SR103", c!"SR104", c!"SR105", c!"SR106", c!"SR107",
   c!"SR108", c!"SR109", c!"SR110", c!"SR111", c!"SR112", c!"SR113",
   c!"SR114", c!"SR115", c!"SR116", c!"SR117", c!"SR118", c!"SR119",
   c!"SR120", c!"SR121", c!"SR122", c!"SR123", c!"SR124", c!"SR125",
   c!"SR126", c!"SR127", c!"SR128", c!"SR129", c!"SR130", c!"SR131",
   c!"SR132", c!"SR133", c!"SR134", c!"SR135", c!"SR136", c!"SR137",
   c!"SR138", c!"SR139", c!"SR140", c!"SR141", c!"SR142", c!"SR143",
   c!"SR144", c!"SR145", c!"SR146", c!"SR147", c!"SR148", c!"SR149",
   c!"SR150", c!"SR151", c!"SR152", c!"SR153", c!"SR154", c!"SR155",
   c!"SR156", c!"SR157", c!"SR158", c!"SR159", c!"SR160", c!"SR161",
   c!"SR162", c!"SR163", c!"SR164", c!"SR165", c!"SR166", c!"SR167",
   c!"SR168", c!"SR169", c!"SR170", c!"SR171", c!"SR172", c!"SR173",
   c!"SR174", c!"SR175", c!"SR176", c!"SR177", c!"SR178", c!"SR179",
   c!"SR180", c!"SR181", c!"SR182", c!"SR183", c!"SR184", c!"SR185",
   c!"SR186", c!"SR187", c!"SR188", c!"SR189", c!"SR190", c!"SR191",
   c!"SR192", c!"SR193", c!"SR194", c!"SR195", c!"SR196", c!"SR197",
   c!"SR198", c!"SR199", c!"SR200", c!"SR201", c!"SR202", c!"SR203",
   c!"SR204", c!"SR205", c!"SR206", c!"SR207", c!"SR208", c!"SR209",
   c!"SR210", c!"SR211", c!"SR212", c!"SR213", c!"SR214", c!"SR215",
   c!"SR216", c!"SR217", c!"SR218", c!"SR219", c!"SR220", c!"SR221",
   c!"SR222", c!"SR223", c!"SR224", c!"SR225", c!"SR226", c!"SR227",
   c!"SR228", c!"SR229", c!"SR230", c!"SR231", c!"SR232", c!"SR233",
   c!"SR234", c!"SR235", c!"SR236", c!"SR237", c!"SR238", c!"SR239",
   c!"SR240", c!"SR241", c!"SR242", c!"SR243", c!"SR244", c!"SR245",
   c!"SR246", c!"SR247", c!"SR248", c!"SR249", c!"SR250", c!"SR251",
   c!"SR252", c!"SR253", c!"SR254", c!"SR255"]
/-- operand.h:898-1197 -/
def s2r : Operand := .s2r s2rTable
/-- operand.h:1208-1225 -/
def ldg_size : Operand := .ldgSize
/-- operand.h:1232-1248 -/
def i2f_int_format : Operand :=
  .intFormat [c!"U8", c!"U16", c!"U32", c!"U64"] [c!"S8", c!"S16", c!"S32", c!"S64"] 10 13
/-- operand.h:1250-1263 -/
def i2f_selector : Operand :=
  .selector 41 10 1 [c!"H0", c!"INVALIDSIZE1", c!"H1", c!"INVALIDSIZE3"] [c!"B0", c!"B1", c!"B2", c!"B3"]
/-- operand.h:1268-1285 -/
def i2i_format (address sign_address : Nat) : Operand :=
  .intFormat [c!"U8", c!"U16", c!"U32"] [c!"S8", c!"S16", c!"S32"] address sign_address
/-- operand.h:1287-1300 -/
def i2i_selector : Operand :=
  .selector 41 10 1 [c!"H0", c!"INVALIDSIZE1", c!"H1", c!"INVALIDSIZE3"] [c!"B0", c!"B1", c!"B2", c!"B3"]
/-- operand.h:1316-1340 -/
def atomic_size (address : Nat) : Operand := .atomicSize address
/-- operand.h:1357-1364 -/
def lea_hi : Operand := .expect c!".HI" [] []
/-- operand.h:1366-1372 -/
def lea_lo : Operand := .optText c!".LO"
/-- operand.h:1377-1384 -/
def shf_r : Operand := .expect c!".R" [] []
/-- operand.h:1386-1393 -/
def shf_l : Operand := .expect c!".L" [] []
/-- operand.h:1406-1426 -/
def video_src_format (address sign_address : Nat) : Operand := .srcFormat address sign_address
/-- operand.h:1435-1449 -/
def video_selector (address type_address : Nat) : Operand :=
  .selector address type_address 2 [c!"H0", c!"H1"] [c!"B0", c!"B1", c!"B2", c!"B3"]
/-- operand.h:1451-1461; `address` is unused by the code -/
def video_imm_format (_address sign_address : Nat) : Operand := .immFormat sign_address
/-- operand.h:1495-1509 -/
def tex_type (address : Nat) : Operand := .texType address
/-- operand.h:1511-1518 -/
def b_text : Operand := .expect c!".B" [] []
/-- operand.h:1520-1527 -/
def lod_text : Operand := .expect c!".LOD" [] []
/-- operand.h:1529-1536 -/
def zero : Operand := .zero
/-- operand.h:1551-1571 -/
def texs_mode (address : Nat) : Operand := .texsMode address
/-- operand.h:1573-1640 -/
def tlds_type (address : Nat) : Operand := .tldsType address
/-- operand.h:1642-1742 -/
def texs_type (address : Nat) : Operand := .texsType address
/-- operand.h:1744-1783 -/
def texs_swizzle : Operand := .texsSwizzle
/-- operand.h:1808-1827 -/
def txq_mode : Operand :=
  .plainTable 22 [[], c!"TEX_HEADER_DIMENSION", c!"TEX_HEADER_TEXTURE_TYPE", [], [], c!"TEX_HEADER_SAMPLER_POS"]

end Nxas.Opnd
