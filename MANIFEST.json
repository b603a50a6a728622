{
 "claims": [
  {
   "property": "C01",
   "status": "proved",
   "theorems": [
    "Nxas.C01_buffer",
    "Nxas.C01_decoded"
   ],
   "note": "For every source and build mode the parse loop never indexes the instruction buffer out of bounds; C01_decoded bounds the number of decoded instructions for any table."
  },
  {
   "property": "C02",
   "status": "proved",
   "theorems": [
    "Nxas.C02_no_overread",
    "Nxas.C05_causes"
   ],
   "note": "C05_causes also says exactly which text endings can cause the over-read."
  },
  {
   "property": "C03",
   "status": "proved",
   "theorems": [
    "Nxas.C03_terminates",
    "Nxas.C03_tokenizer",
    "Nxas.C03_progress",
    "Nxas.C03_labels"
   ],
   "note": "Loops are modelled with a bound; exhausting any bound is the distinct outcome UB.fuel, proved unreachable."
  },
  {
   "property": "C04",
   "status": "proved",
   "theorems": [
    "Nxas.C04_label_pass",
    "Nxas.C04_assemble"
   ],
   "note": "Equivalence for the label pass, and its consequence for a whole run."
  },
  {
   "property": "C05",
   "status": "partial",
   "theorems": [
    "Nxas.C05_violated",
    "Nxas.C05_causes",
    "Nxas.C05_defined_partial",
    "Nxas.C05_exact"
   ],
   "note": "The property is false of the code: C05_violated gives sources for five kinds of undefined behaviour. C05_causes and C05_defined_partial give conditions under which behaviour is defined; C05_exact gives the sources with defined behaviour exactly, for up to 2^59 characters."
  },
  {
   "property": "C06",
   "status": "proved",
   "theorems": [
    "Nxas.C06_length",
    "Nxas.C06_count",
    "Nxas.C06_at_most",
    "Nxas.C06_violated_release"
   ],
   "note": "debug builds: length and number of instructions; release builds: at most one instruction per semicolon, with a concrete violation of equality"
  },
  {
   "property": "C07",
   "status": "proved",
   "theorems": [
    "Nxas.C07_word"
   ],
   "note": ""
  },
  {
   "property": "C08",
   "status": "proved",
   "theorems": [
    "Nxas.C08_control"
   ],
   "note": ""
  },
  {
   "property": "C09",
   "status": "proved",
   "theorems": [
    "Nxas.C09_padding",
    "Nxas.C09_groups"
   ],
   "note": ""
  },
  {
   "property": "C10",
   "status": "proved",
   "theorems": [
    "Nxas.C10_empty"
   ],
   "note": "names starting with RZ excluded: the code takes them for a register and rejects them"
  },
  {
   "property": "C100",
   "status": "proved",
   "theorems": [
    "Nxas.C100_reserved",
    "Nxas.C100_words",
    "Nxas.C100_raw",
    "Nxas.C100_bytes",
    "Nxas.C100_fields",
    "Nxas.C100_larger"
   ],
   "note": ""
  },
  {
   "property": "C101",
   "status": "partial",
   "theorems": [
    "Nxas.C101_entry_partial",
    "Nxas.C101_branch_partial",
    "Nxas.C101_entry_violated",
    "Nxas.C101_not_claim",
    "Nxas.C101_branch_violated"
   ],
   "note": "false at the end of the code: exact condition for sources accepted with assertions"
  },
  {
   "property": "C102",
   "status": "proved",
   "theorems": [
    "Nxas.C102_splits",
    "Nxas.C102_debug",
    "Nxas.C102_everywhere",
    "Nxas.C102_layout",
    "Nxas.C102_insert",
    "Nxas.C102_append",
    "Nxas.C102_link",
    "Nxas.C102_before",
    "Nxas.C102_behind"
   ],
   "note": "acceptance with assertions is acceptance without, one instruction per semicolon, and no instruction with a clash"
  },
  {
   "property": "C103",
   "status": "proved",
   "theorems": [
    "Nxas.C103_images",
    "Nxas.C103_builds",
    "Nxas.C103_decide",
    "Nxas.C103_case"
   ],
   "note": "For sources without container; the bound 2^58 on the words is that of C96. C103_case is a case in which the source and the text of the disassembler both fail an assertion."
  },
  {
   "property": "C104",
   "status": "proved",
   "theorems": [
    "Nxas.C104_entry",
    "Nxas.C104_groups",
    "Nxas.C104_images",
    "Nxas.C104_builds",
    "Nxas.C104_decide",
    "Nxas.C104_differ",
    "Nxas.C104_end"
   ],
   "note": "The bound 2^58 on the words is that of C96. C104_differ is the witness that the builds have different containers; C104_end a container that both have."
  },
  {
   "property": "C105",
   "status": "proved",
   "theorems": [
    "Nxas.C105_append",
    "Nxas.C105_groups",
    "Nxas.C105_instructions",
    "Nxas.C105_select",
    "Nxas.C105_case"
   ],
   "note": "Images are the sequences of instructions each of which is an image on its own, in both builds, below 2^58 words."
  },
  {
   "property": "C106",
   "status": "proved",
   "theorems": [
    "Nxas.C106_containers",
    "Nxas.C106_code",
    "Nxas.C106_exchange",
    "Nxas.C106_case"
   ],
   "note": "Exact characterisation of the containers of both builds, below 2^58 words."
  },
  {
   "property": "C107",
   "status": "proved",
   "theorems": [
    "Nxas.C107_schedule",
    "Nxas.C107_reuse",
    "Nxas.C107_guard",
    "Nxas.C107_guards",
    "Nxas.C107_case"
   ],
   "note": "For all words, control bits and guards in both builds."
  },
  {
   "property": "C108",
   "status": "proved",
   "theorems": [
    "Nxas.C108_rename",
    "Nxas.C108_accepted",
    "Nxas.C108_debug",
    "Nxas.C108_case",
    "Nxas.C108_violated",
    "Nxas.C108_asserts"
   ],
   "note": "Proved for both builds. The claims about the bits of the words and about the build with assertions exclude sources with the number 2^20, for which C108_violated and C108_asserts are counterexamples."
  },
  {
   "property": "C109",
   "status": "proved",
   "theorems": [
    "Nxas.C109_rename",
    "Nxas.C109_accepted",
    "Nxas.C109_debug",
    "Nxas.C109_case"
   ],
   "note": "Proved for both builds. With assertions the renaming has to be one that can be undone, and the sources have to have as many semicolons, which that build counts in comments too."
  },
  {
   "property": "C11",
   "status": "proved",
   "theorems": [
    "Nxas.C11_parts",
    "Nxas.C11_position",
    "Nxas.C11_groups"
   ],
   "note": "C11_parts is the stated property (groups of A ++ B; release build); C11_position is the second sentence; C11_groups adds labels behind whole groups."
  },
  {
   "property": "C110",
   "status": "proved",
   "theorems": [
    "Nxas.C110_function",
    "Nxas.C110_order",
    "Nxas.C110_debug",
    "Nxas.C110_case",
    "Nxas.C110_branch"
   ],
   "note": "The function is given before the sources; options are left out of the sources."
  },
  {
   "property": "C111",
   "status": "proved",
   "theorems": [
    "Nxas.C111_listed",
    "Nxas.C111_options",
    "Nxas.C111_debug",
    "Nxas.C111_case",
    "Nxas.C111_last",
    "Nxas.C111_lines"
   ],
   "note": "Proved for both builds."
  },
  {
   "property": "C112",
   "status": "proved",
   "theorems": [
    "Nxas.C112_words",
    "Nxas.C112_cut",
    "Nxas.C112_sharp"
   ],
   "note": "Every row has an opcode bit in the highest byte that no operand clears; over the whole table."
  },
  {
   "property": "C113",
   "status": "proved",
   "theorems": [
    "Nxas.C113_spelled",
    "Nxas.C113_debug",
    "Nxas.C113_symm",
    "Nxas.C113_iff",
    "Nxas.C113_needed"
   ],
   "note": "For both builds."
  },
  {
   "property": "C114",
   "status": "proved",
   "theorems": [
    "Nxas.C114_raw",
    "Nxas.C114_container"
   ],
   "note": "For the build without assertions."
  },
  {
   "property": "C12",
   "status": "proved",
   "theorems": [
    "Nxas.C12_literal",
    "Nxas.C12_written",
    "Nxas.C12_decimal",
    "Nxas.C12_hexadecimal",
    "Nxas.C12_octal"
   ],
   "note": "A literal must not be followed by '+', '-' or '.', although these are separators (example in the file)."
  },
  {
   "property": "C13",
   "status": "partial",
   "theorems": [
    "Nxas.C13_partial",
    "Nxas.C13_token",
    "Nxas.C13_ends",
    "Nxas.C13_violated",
    "Nxas.C13_exact"
   ],
   "note": "Violated by the code: floating point instructions encode a saturated literal (C13_violated), options too. C13_partial proves it for sources without options and without floating point instructions.; C13_exact: literals out of range are accepted in options and as floating point operands only"
  },
  {
   "property": "C14",
   "status": "proved",
   "theorems": [
    "Nxas.C14_register",
    "Nxas.C14_index",
    "Nxas.C14_zero"
   ],
   "note": ""
  },
  {
   "property": "C15",
   "status": "proved",
   "theorems": [
    "Nxas.C15_predicate"
   ],
   "note": ""
  },
  {
   "property": "C16",
   "status": "proved",
   "theorems": [
    "Nxas.C16_layout",
    "Nxas.C16_lines"
   ],
   "note": "Token sequences are given by the lexical grammar (Scans). C16_lines covers sources with options."
  },
  {
   "property": "C17",
   "status": "proved",
   "theorems": [
    "Nxas.C17_label"
   ],
   "note": "a definition found by the label pass is the address of the instruction the label precedes"
  },
  {
   "property": "C18",
   "status": "proved",
   "theorems": [
    "Nxas.C18_labels"
   ],
   "note": ""
  },
  {
   "property": "C19",
   "status": "proved",
   "theorems": [
    "Nxas.C19_first",
    "Nxas.C19_silent"
   ],
   "note": ""
  },
  {
   "property": "C20",
   "status": "proved",
   "theorems": [
    "Nxas.C20_target"
   ],
   "note": ""
  },
  {
   "property": "C21",
   "status": "proved",
   "theorems": [
    "Nxas.C21_accepts",
    "Nxas.C20_target"
   ],
   "note": ""
  },
  {
   "property": "C22",
   "status": "proved",
   "theorems": [
    "Nxas.C22_bits",
    "Nxas.C22_owns",
    "Nxas.C22_output"
   ],
   "note": "Every set bit is an opcode bit, a guard bit or owned by an operand of the row; holds for every row of the table. C22_output ties the words of the raw output to instructions of the source."
  },
  {
   "property": "C23",
   "status": "proved",
   "theorems": [
    "Nxas.C23_guard",
    "Nxas.C23_guarded",
    "Nxas.C23_unguarded"
   ],
   "note": "Holds for every row, including the branch family."
  },
  {
   "property": "C24",
   "status": "partial",
   "theorems": [
    "Nxas.C24_partial",
    "Nxas.C24_violated",
    "Nxas.C24_rows"
   ],
   "note": "The code accepts @!PT before PBK, SSY, CAL and PCNT: C24_violated refutes the full claim with a concrete source; C24_partial proves that the guard must name PT."
  },
  {
   "property": "C25",
   "status": "proved",
   "theorems": [
    "Nxas.C25_row",
    "Nxas.C25_abort",
    "Nxas.C25_overlapping",
    "Nxas.C25_witnesses"
   ],
   "note": "16 rows have overlapping fields; each has an aborting source."
  },
  {
   "property": "C26",
   "status": "proved",
   "theorems": [
    "Nxas.C26_same",
    "Nxas.C26_accepted",
    "Nxas.C26_rejected",
    "Nxas.C26_converse_false"
   ],
   "note": "On every source the build with assertions aborts or has the same outcome as the build without; the converse is refuted by a witness."
  },
  {
   "property": "C27",
   "status": "proved",
   "theorems": [
    "Nxas.C27_accepts",
    "Nxas.C27_stored"
   ],
   "note": ""
  },
  {
   "property": "C28",
   "status": "proved",
   "theorems": [
    "Nxas.C28_accepts",
    "Nxas.C28_imm20_accepts",
    "Nxas.C28_signed",
    "Nxas.C28_imm20"
   ],
   "note": ""
  },
  {
   "property": "C29",
   "status": "partial",
   "theorems": [
    "Nxas.C29_partial",
    "Nxas.C29_violated"
   ],
   "note": "uimm_extended accepts 0x100000, whose highest bit falls on bit 39, the lowest bit of the next register; the proved negation shows two different IADD3 texts with one word"
  },
  {
   "property": "C30",
   "status": "proved",
   "theorems": [
    "Nxas.C30_stored",
    "Nxas.C30_accepts"
   ],
   "note": ""
  },
  {
   "property": "C31",
   "status": "proved",
   "theorems": [
    "Nxas.C31_stored",
    "Nxas.C31_accepts",
    "Nxas.C31_rows",
    "Nxas.C31_atoms_rounds"
   ],
   "note": "the offset of ATOMS is divided by four; C31_atoms_rounds shows that an offset that is no multiple of four is accepted and rounded"
  },
  {
   "property": "C32",
   "status": "proved",
   "theorems": [
    "Nxas.C32_literal",
    "Nxas.C32_wide",
    "Nxas.C32_short",
    "Nxas.C32_truncates"
   ],
   "note": "nearness is stated in rational arithmetic, independent of the rounding function of the model; strtof and the C++ conversions themselves are modelled as rounding to nearest"
  },
  {
   "property": "C33",
   "status": "proved",
   "theorems": [
    "Nxas.C33_half",
    "Nxas.C33_forms",
    "Nxas.C33_wide",
    "Nxas.C33_short"
   ],
   "note": "for all 2^32 patterns"
  },
  {
   "property": "C34",
   "status": "partial",
   "theorems": [
    "Nxas.C34_partial",
    "Nxas.C34_violated"
   ],
   "note": "the sign of -0.0 is kept by 32-, 20- and 16-bit immediates and lost by double and 9-bit half immediates"
  },
  {
   "property": "C35",
   "status": "proved",
   "theorems": [
    "Nxas.C35_equal",
    "Nxas.C35_accepts",
    "Nxas.C35_rows"
   ],
   "note": ""
  },
  {
   "property": "C36",
   "status": "proved",
   "theorems": [
    "Nxas.C36_flags",
    "Nxas.C36_register",
    "Nxas.C36_stored"
   ],
   "note": ""
  },
  {
   "property": "C37",
   "status": "proved",
   "theorems": [
    "Nxas.C37_annotations",
    "Nxas.C37_fields",
    "Nxas.C37_default"
   ],
   "note": ""
  },
  {
   "property": "C38",
   "status": "proved",
   "theorems": [
    "Nxas.C38_accepts",
    "Nxas.C38_duplicate",
    "Nxas.C38_dep",
    "Nxas.C38_range"
   ],
   "note": ""
  },
  {
   "property": "C39",
   "status": "proved",
   "theorems": [
    "Nxas.C39_order"
   ],
   "note": ""
  },
  {
   "property": "C40",
   "status": "proved",
   "theorems": [
    "Nxas.C40_first",
    "Nxas.C40_source",
    "Nxas.C40_grammar"
   ],
   "note": "First accepting row decides; stated for any table, for every instruction of a source, and in terms of the grammar."
  },
  {
   "property": "C41",
   "status": "proved",
   "theorems": [
    "Nxas.C41_unknown"
   ],
   "note": "Any instruction of the source, with or without a guard. A mnemonic beginning with a dot and without guard is an option, hence the side condition."
  },
  {
   "property": "C42",
   "status": "proved",
   "theorems": [
    "Nxas.C42_tail",
    "Nxas.C42_no_garbage"
   ],
   "note": "a word that starts with P may contain one blank, see SkippedWord"
  },
  {
   "property": "C43",
   "status": "proved",
   "theorems": [
    "Nxas.C43_position"
   ],
   "note": "Every located diagnostic, any source, both build modes."
  },
  {
   "property": "C44",
   "status": "proved",
   "theorems": [
    "Nxas.C44_furthest",
    "Nxas.C44_source"
   ],
   "note": "For every instruction whose rows of that mnemonic all fail with a diagnostic."
  },
  {
   "property": "C45",
   "status": "proved",
   "theorems": [
    "Nxas.C45_compute",
    "Nxas.C45_rejected"
   ],
   "note": ""
  },
  {
   "property": "C46",
   "status": "proved",
   "theorems": [
    "Nxas.C46_once"
   ],
   "note": ""
  },
  {
   "property": "C47",
   "status": "proved",
   "theorems": [
    "Nxas.C47_type"
   ],
   "note": "Equivalence: also says which sources are still accepted with the line in front."
  },
  {
   "property": "C48",
   "status": "proved",
   "theorems": [
    "Nxas.C48_embeds",
    "Nxas.C48_raw"
   ],
   "note": ""
  },
  {
   "property": "C49",
   "status": "proved",
   "theorems": [
    "Nxas.C49_header"
   ],
   "note": ""
  },
  {
   "property": "C50",
   "status": "partial",
   "theorems": [
    "Nxas.C50_partial",
    "Nxas.C50_excess",
    "Nxas.C50_violated"
   ],
   "note": "Violated by the code when the code is a multiple of 32 words: C50_violated is a witness, C50_excess gives the excess for all such sources, C50_partial proves the claim for all others."
  },
  {
   "property": "C51",
   "status": "proved",
   "theorems": [
    "Nxas.C51_entry"
   ],
   "note": ""
  },
  {
   "property": "C52",
   "status": "proved",
   "theorems": [
    "Nxas.C52_unusable",
    "Nxas.C52_violated"
   ],
   "note": "The option is unusable: proved for all sources, with a witness."
  },
  {
   "property": "C53",
   "status": "proved",
   "theorems": [
    "Nxas.C53_arguments",
    "Nxas.C53_rejected",
    "Nxas.C53_runs",
    "Nxas.C53_unreadable"
   ],
   "note": "An input file that cannot be opened is undefined behaviour (null format pointer), stated by C53_unreadable."
  },
  {
   "property": "C54",
   "status": "proved",
   "theorems": [
    "Nxas.C54_written",
    "Nxas.C54_untouched"
   ],
   "note": "File operations are the events of mainProgram."
  },
  {
   "property": "C55",
   "status": "proved",
   "theorems": [
    "Nxas.C55_command_line",
    "Nxas.C55_release",
    "Nxas.C55_debug",
    "Nxas.C55_assert"
   ],
   "note": ""
  },
  {
   "property": "C56",
   "status": "proved",
   "theorems": [
    "Nxas.C56_distinct",
    "Nxas.C56_stored",
    "Nxas.C56_system_registers"
   ],
   "note": "Names are unique within each operand, every name written in an accepted instruction is stored as its index (all rows but VMAD, VMNMX, VSETP and TLDS, whose fields are shared), and each of the 256 system registers has a text that is encoded as its number."
  },
  {
   "property": "C57",
   "status": "proved",
   "theorems": [
    "Nxas.C57",
    "Nxas.C57_distinct"
   ],
   "note": "One source per row, evaluated by the kernel for the whole table; the rows are pairwise different."
  },
  {
   "property": "C58",
   "status": "proved",
   "theorems": [
    "Nxas.C58_refinement",
    "Nxas.C58_debug",
    "Nxas.C58_unambiguous",
    "Nxas.C58_rejected"
   ],
   "note": ""
  },
  {
   "property": "C59",
   "status": "proved",
   "theorems": [
    "Nxas.C59_release"
   ],
   "note": ""
  },
  {
   "property": "C60",
   "status": "partial",
   "theorems": [
    "Nxas.C60_partial",
    "Nxas.C60_integer",
    "Nxas.C60_violated"
   ],
   "note": "literals that are binary32 numbers or integers of at most 24 bits; refuted in general by 1.000488281250001; C80 says exactly when"
  },
  {
   "property": "C61",
   "status": "partial",
   "theorems": [
    "Nxas.C61_partial",
    "Nxas.C61_violated"
   ],
   "note": "refuted in general by 10^39, which becomes infinity; C81 says when and by how much"
  },
  {
   "property": "C62",
   "status": "proved",
   "theorems": [
    "Nxas.C62_mnemonic"
   ],
   "note": "Whole-table kernel check that two rows with different mnemonics differ in an opcode bit that neither the guard nor an operand of either row can change, lifted to all accepted instructions."
  },
  {
   "property": "C63",
   "status": "partial",
   "theorems": [
    "Nxas.C63_violated",
    "Nxas.C63_partial"
   ],
   "note": "Violated by the code: the two ICMP rows with a constant have the same opcode and the same fields, so ICMP R4, R5, R7, c[2][0] and ICMP R4, R5, c[2][0], R7 are the same word. Proved for all other rows."
  },
  {
   "property": "C64",
   "status": "proved",
   "theorems": [
    "Nxas.C64_bounds",
    "Nxas.C64_defined",
    "Nxas.C64_passes"
   ],
   "note": "tests/tester.cpp; the exact condition for the result 0 is for expressions without .dksh (with it, the driver compares a word of the header)"
  },
  {
   "property": "C65",
   "status": "proved",
   "theorems": [
    "Nxas.C65_complete",
    "Nxas.C65_same"
   ],
   "note": "the text is what fmt and its arguments give; lengths are natural numbers (int in the code)"
  },
  {
   "property": "C66",
   "status": "partial",
   "theorems": [
    "Nxas.C66_violated",
    "Nxas.C66_violated_release",
    "Nxas.C66_operand_partial",
    "Nxas.C66_partial",
    "Nxas.C66_instruction_partial",
    "Nxas.C66_program_partial",
    "Nxas.C66_plain_partial",
    "Nxas.C66_instruction_plain_partial",
    "Nxas.C66_program_plain_partial",
    "Nxas.C66_collisions",
    "Nxas.C66_collisions_release"
   ],
   "note": "False as stated: IADD R0, -R1, -R2 and IADD.PO R0, R1, R2 give the same word. Proved for all rows of the table (C66_plain_partial) unless an instruction uses one of the six combinations listed in Spec/Plain.lean; C66_collisions and C66_collisions_release give for each of them two instructions with the same word. C66_partial has no such condition for rows whose operands share no bits. The row itself is determined but for the mnemonics of 'indistinct', whose rows share all fixed bits."
  },
  {
   "property": "C67",
   "status": "proved",
   "theorems": [
    "Nxas.C67_annotations",
    "Nxas.C67_instructions"
   ],
   "note": "Same scheduling bits, same annotations but for their order and @WAIT 0."
  },
  {
   "property": "C68",
   "status": "proved",
   "theorems": [
    "Nxas.C68_slots"
   ],
   "note": "Raw output; equal words give equal instructions slot by slot up to trailing NOPs."
  },
  {
   "property": "C69",
   "status": "partial",
   "theorems": [
    "Nxas.C69_violated",
    "Nxas.C69_rows_partial",
    "Nxas.C69_words_partial"
   ],
   "note": "False as stated: ICMP with a constant as second source has the opcode of the form with a constant as third source. Proved for all other mnemonics, for the rows and for the words of accepted instructions."
  },
  {
   "property": "C70",
   "status": "proved",
   "theorems": [
    "Nxas.C70_row",
    "Nxas.C70_grammar",
    "Nxas.C70_order",
    "Nxas.C70_orders"
   ],
   "note": "No tokens fit two rows of the table (C70_row), so that the rule about the first row can be left out of the grammar (C70_grammar) and the table can be reordered (C70_order). The converse of C70_order (the reordered table accepts as much) is not claimed, because a row tried first may have undefined behaviour."
  },
  {
   "property": "C71",
   "status": "partial",
   "theorems": [
    "Nxas.C71_partial",
    "Nxas.C71_violated",
    "Nxas.C71_not_claim"
   ],
   "note": "Violated: five messages are false of some sources (one witness each). Proved for all other messages, with exact positions."
  },
  {
   "property": "C72",
   "status": "partial",
   "theorems": [
    "Nxas.C72_partial",
    "Nxas.C72_violated",
    "Nxas.C72_not_claim",
    "Nxas.C72_printed",
    "Nxas.C72_range",
    "Nxas.C72_misprint",
    "Nxas.C72_output"
   ],
   "note": "Violated: four formats have arguments of other types (one witness each). Proved for all other formats; the printed text on 64-bit Linux is proved for all of them."
  },
  {
   "property": "C73",
   "status": "proved",
   "theorems": [
    "Nxas.C73_undefined",
    "Nxas.C73_debug",
    "Nxas.C73_debug_conv",
    "Nxas.C73_unique"
   ],
   "note": "Release build: assemble = .ub u iff Undefined (visible code) u, for u other than readPastEnd and sources of at most 2^59 characters (pc stays in int64). Debug build: no other undefined behaviour; an assertion may fail first."
  },
  {
   "property": "C74",
   "status": "proved",
   "theorems": [
    "Nxas.C74_position",
    "Nxas.C74_message",
    "Nxas.C74_instruction",
    "Nxas.C74_label",
    "Nxas.C74_sharp"
   ],
   "note": "For sources of less than 2^29 characters; C74_sharp shows that the column of a diagnostic overflows behind 2^29 tabs."
  },
  {
   "property": "C75",
   "status": "partial",
   "theorems": [
    "Nxas.C75_violated",
    "Nxas.C75_not_claim",
    "Nxas.C75_partial",
    "Nxas.C75_unnoticed",
    "Nxas.C75_unsized",
    "Nxas.C75_shrunk",
    "Nxas.C75_grown",
    "Nxas.C75_blanks"
   ],
   "note": "Violated by the code: write errors are ignored (C75_violated: a full disk). Proved: what is written is a beginning of the image, all of it iff there is room (C75_partial); apart from that, faults of the output file change nothing (C75_unnoticed); input files that change or have no size (C75_shrunk, C75_grown, C75_unsized)."
  },
  {
   "property": "C76",
   "status": "proved",
   "theorems": [
    "Nxas.C76_past_end",
    "Nxas.C76_debug"
   ],
   "note": "exact, for sources of up to 2^59 characters; in debug builds an assertion may fail first"
  },
  {
   "property": "C77",
   "status": "proved",
   "theorems": [
    "Nxas.C77_outcome",
    "Nxas.C77_disjoint"
   ],
   "note": "release build; the four classes are specified without the parser"
  },
  {
   "property": "C78",
   "status": "proved",
   "theorems": [
    "Nxas.C78_tokens",
    "Nxas.C78_programs",
    "Nxas.C78_instructions",
    "Nxas.C78_floats"
   ],
   "note": "names containing a line end or semicolon (possible after an initial P) are covered by C78_tokens only"
  },
  {
   "property": "C79",
   "status": "proved",
   "theorems": [
    "Nxas.C79_aborts",
    "Nxas.C79_builds",
    "Nxas.C79_outcome"
   ],
   "note": "exact, for all sources; C79_outcome gives all outcomes of the debug build for sources of up to 2^59 characters"
  },
  {
   "property": "C80",
   "status": "proved",
   "theorems": [
    "Nxas.C80_nearest",
    "Nxas.C80_faithful"
   ],
   "note": "exact characterisation of the literals for which C60 fails"
  },
  {
   "property": "C81",
   "status": "proved",
   "theorems": [
    "Nxas.C81_double",
    "Nxas.C81_range"
   ],
   "note": "the fractions for which C61 fails"
  },
  {
   "property": "C82",
   "status": "partial",
   "theorems": [
    "Nxas.C82_partial",
    "Nxas.C82_local",
    "Nxas.C82_violated",
    "Nxas.C82_wraps",
    "Nxas.C82_not_claim"
   ],
   "note": "exact border of the numbers for which it holds; refuted by .shared_memory 0x100000001"
  },
  {
   "property": "C83",
   "status": "proved",
   "theorems": [
    "Nxas.C83_link"
   ],
   "note": "the first source has no options; generalises C11_groups"
  },
  {
   "property": "C84",
   "status": "proved",
   "theorems": [
    "Nxas.C84_targets",
    "Nxas.C84_numbers"
   ],
   "note": "C84_numbers for sources shorter than 2^58 characters, so that addresses can be written as numbers"
  },
  {
   "property": "C85",
   "status": "proved",
   "theorems": [
    "Nxas.C85",
    "Nxas.C85_rejected"
   ],
   "note": "C85_rejected: the hypothesis is needed. Only the errors of table rows are traced; those raised at once end the program and are part of the outcome (C72)"
  },
  {
   "property": "C86",
   "status": "proved",
   "theorems": [
    "Nxas.C86",
    "Nxas.C86_label",
    "Nxas.C86_swallowed"
   ],
   "note": "every continuation of a rejected source is rejected with the same diagnostic; the two side conditions are necessary"
  },
  {
   "property": "C87",
   "status": "proved",
   "theorems": [
    "Nxas.C87_local",
    "Nxas.C87_guard",
    "Nxas.C87_annotations"
   ],
   "note": "Sources with .dksh are excluded; the four mnemonics that take no guard are excluded from C87_guard."
  },
  {
   "property": "C88",
   "status": "proved",
   "theorems": [
    "Nxas.C88_rows",
    "Nxas.C88_extend"
   ],
   "note": "Both builds; the outcome includes diagnostics and undefined behaviour."
  },
  {
   "property": "C89",
   "status": "partial",
   "theorems": [
    "Nxas.C89_branch_partial",
    "Nxas.C89_reached",
    "Nxas.C89_next",
    "Nxas.C89_violated"
   ],
   "note": "Violated in release builds (witness). Both builds: the target is the instruction with the number of semicolons before the label; with assertions the instruction behind the label."
  },
  {
   "property": "C90",
   "status": "partial",
   "theorems": [
    "Nxas.C90_wide_partial",
    "Nxas.C90_short_partial",
    "Nxas.C90_violated"
   ],
   "note": "Violated (witness): integers are rounded silently. Proved: the sign is kept, and the number is exact if and only if it has at most 24 (20-bit form: 12) binary digits."
  },
  {
   "property": "C91",
   "status": "proved",
   "theorems": [
    "Nxas.C91_reported",
    "Nxas.C91_unreported"
   ],
   "note": "Exact list of the messages that are reported; nine messages of the code never are."
  },
  {
   "property": "C92",
   "status": "proved",
   "theorems": [
    "Nxas.C92_first",
    "Nxas.C92_accepted",
    "Nxas.C92_text",
    "Nxas.C92_swallowed"
   ],
   "note": "Proved in tokens without conditions. In characters, the count of semicolons needs that no word P ends directly in front of a semicolon; C92_swallowed shows that the condition is needed."
  },
  {
   "property": "C93",
   "status": "proved",
   "theorems": [
    "Nxas.C93_refines",
    "Nxas.C93_fields",
    "Nxas.C93_dual"
   ],
   "note": "A byte-level model of src/dksh.cpp with all members; the word-level model that the other properties use is proved equal to it."
  },
  {
   "property": "C94",
   "status": "proved",
   "theorems": [
    "Nxas.C94_tokens",
    "Nxas.C94_labels",
    "Nxas.C94_step",
    "Nxas.C94_exact",
    "Nxas.C94_beyond",
    "Nxas.C94_gap"
   ],
   "note": "C94_gap: the string for which the model of the assembler says readPastEnd while the code goes on."
  },
  {
   "property": "C95",
   "status": "proved",
   "theorems": [
    "Nxas.C95_set",
    "Nxas.C95_always",
    "Nxas.C95_free"
   ],
   "note": "Equivalences: the footprint of C22 is exact."
  },
  {
   "property": "C96",
   "status": "proved",
   "theorems": [
    "Nxas.C96_sound",
    "Nxas.C96_plain",
    "Nxas.C96_complete",
    "Nxas.C96_image",
    "Nxas.C96_line"
   ],
   "note": "Sources with .dksh are not covered (their image is a container)."
  },
  {
   "property": "C97",
   "status": "proved",
   "theorems": [
    "Nxas.C97_sound",
    "Nxas.C97_complete",
    "Nxas.C97_image",
    "Nxas.C97_apart",
    "Nxas.C97_kind"
   ],
   "note": "Images of less than 2^58 words, because branch targets are written as 64-bit numbers."
  },
  {
   "property": "C98",
   "status": "proved",
   "theorems": [
    "Nxas.C98_before",
    "Nxas.C98_behind"
   ],
   "note": "The container is described by its settings, entry point and code."
  },
  {
   "property": "C99",
   "status": "proved",
   "theorems": [
    "Nxas.C99_insert"
   ],
   "note": "release build; the place is behind an instruction"
  }
 ]
}
