{"id": "C01", "title": "Decoded instructions never overflow the instruction buffer", "statement": "assemble() sizes its instruction buffer from the number of ';' characters in the source. No source text, however malformed, makes it store or read an instruction outside that buffer.", "quantifier": "for every source string (including strings with embedded NUL bytes) and both build modes (assertions on or off)", "why_tests_cant": "The buffer is sized by counting characters while instructions are consumed by a tokenizer with special cases; a test can only try particular texts, an overflow would need the one text where the two counts diverge upwards.", "anchors": ["src/nxas.cpp: nxas::assemble", "src/parse.cpp: parse_instruction, parse_insn", "src/context.cpp: context::tokenize"]}
{"id": "C02", "title": "A source that ends in a newline, blank or operator is never read past its end", "statement": "If the source (up to its first NUL) is empty or its last character is a blank, a newline, '.' or an operator such as ';', neither the label pass nor the instruction pass dereferences a character after the terminating NUL.", "quantifier": "for every such source and both build modes", "why_tests_cant": "Out-of-bounds reads of a C string are silent in a unit test and depend on what the text ends with at every intermediate cursor position.", "anchors": ["src/context.cpp: context::tokenize, context::next, context::generate_labels"]}
{"id": "C03", "title": "Assembling always terminates", "statement": "Every loop and recursion of the assembler (label pass, tokenizer label skipping, option loop, scheduling-annotation loop, instruction loop) makes progress through the text, so assemble() finishes on every input.", "quantifier": "for every source string and both build modes", "why_tests_cant": "Termination is a statement about all inputs; a test suite cannot observe non-termination on the inputs it does not contain.", "anchors": ["src/context.cpp: context::tokenize, context::generate_labels", "src/parse.cpp: parse_instruction, assemble_sched", "src/nxas.cpp: nxas::assemble"]}
{"id": "C04", "title": "The label pass reads past the end exactly on sources whose last line is a bare word", "statement": "The label pass reads past the terminating NUL if and only if the last line of the source is non-empty, starts with a letter and consists only of letters, digits and '_'.", "quantifier": "for every source string", "why_tests_cant": "An exact characterisation quantifies over all texts in both directions.", "anchors": ["src/context.cpp: context::generate_labels"]}
{"id": "C05", "title": "No undefined behaviour on any input (violated)", "statement": "assemble() has defined behaviour for every source string. This is false of the code: there are sources that read past the end of the text, scan a name table without terminator past its end, read an inactive union member, or overflow a signed integer. For sources that end in a separator, use no option line, no mnemonic whose operands scan an unterminated table and no branch or system-register mnemonic, the behaviour is always defined.", "quantifier": "for every source string; the violation by concrete sources, the safe fragment for every source in it", "why_tests_cant": "Undefined behaviour may go unnoticed in a test run; absence of it is a statement about all executions.", "anchors": ["src/context.cpp: context::tokenize", "src/operand.h: ldg::size, tex_type, s2r, label", "src/options.cpp: context::parse_option", "src/dksh.cpp: context::write_dksh", "src/helper.cpp: find_in_table"]}
{"id": "C06", "title": "One instruction per semicolon", "statement": "When assertions are enabled and assemble() accepts a source without DKSH container, the output contains exactly one instruction word per ';' of the source, and its length in 64-bit words depends on the number of semicolons only: with n semicolons it is n plus one control word per started group of three, rounded up to a multiple of four. Without assertions the claim is false (a token can swallow a ';').", "quantifier": "for every accepted source", "why_tests_cant": "The property relates a character count to the result of parsing for all texts.", "anchors": ["src/nxas.cpp: nxas::assemble", "src/context.cpp: context::tokenize"]}
{"id": "C07", "title": "The i-th instruction is emitted at word i + i/3 + 1", "statement": "In an accepted source the encoding of the i-th instruction (from 0) is at word index i + i/3 + 1 of the code, each group of three instructions being preceded by its control word at an index that is a multiple of four.", "quantifier": "for every accepted source and every instruction index", "why_tests_cant": "Quantifies over programs of every length.", "anchors": ["src/nxas.cpp: nxas::assemble"]}
{"id": "C08", "title": "Control words carry the scheduling data of their three instructions, losslessly", "statement": "The control word of a group holds, in bits 21*j..21*j+20, the scheduling annotations (17 bits) and the reuse flags (4 bits) of the j-th instruction of the group; the three fields never overlap and bit 63 is zero, so every instruction's data can be read back from the output.", "quantifier": "for every accepted source and every instruction", "why_tests_cant": "Needs a bound on every value that parsing can produce, not just on sampled ones.", "anchors": ["src/nxas.cpp: generate_sched", "src/parse.cpp: assemble_sched", "src/opcode.h: opcode"]}
{"id": "C09", "title": "Incomplete groups are padded with default scheduling and NOP", "statement": "If the number of instructions is not a multiple of three, the unused slots of the last control word hold the default scheduling value 0x7E0 and the remaining words of the group are the NOP encoding 0x50B0000000070F00; the code length is always a multiple of four words.", "quantifier": "for every accepted source", "why_tests_cant": "Quantifies over programs of every length.", "anchors": ["src/nxas.cpp: generate_sched, nxas::assemble"]}
{"id": "C10", "title": "A source without instructions assembles to nothing", "statement": "A source consisting only of blanks, newlines and label definitions assembles to an empty output.", "quantifier": "for every such source", "why_tests_cant": "Infinite family of texts.", "anchors": ["src/nxas.cpp: nxas::assemble", "src/context.cpp: context::tokenize"]}
{"id": "C11", "title": "Instructions are assembled independently of what surrounds them", "statement": "If two label-free and option-free sources a and b assemble, a ends in ';' and contains no NUL, then a followed by b assembles and its instruction words are those of a followed by those of b. Branches with a numeric target are the only instructions whose encoding depends on their position.", "quantifier": "for every pair of such sources", "why_tests_cant": "Compositionality quantifies over pairs of arbitrary programs.", "anchors": ["src/nxas.cpp: nxas::assemble", "src/parse.cpp: parse_instruction"]}
{"id": "C12", "title": "Decimal, hexadecimal and octal literals denote their value", "statement": "Every integer of the signed 64-bit range written in decimal, in hexadecimal with 0x or in octal with a leading 0, with an optional sign, and followed by the end of the text or by a separator other than '+', '-' and '.' is read as exactly that integer.", "quantifier": "for every 64-bit integer and every one of the notations", "why_tests_cant": "2^64 values; carries, signs and the 1D/2D special case of the tokenizer are involved.", "anchors": ["src/context.cpp: context::tokenize"]}
{"id": "C13", "title": "Literals outside the 64-bit range are never encoded as another value (violated)", "statement": "An integer literal that does not fit in 64 bits is never silently replaced. Instructions without floating point operands satisfy this: they reject it. Violated by option lines, where a size literal beyond 64 bits is accepted and stored as another value, and by floating point instructions, which accept it and encode 2^63 or -2^63.", "quantifier": "for every literal outside the 64-bit range and every instruction of the table", "why_tests_cant": "Infinitely many literals.", "anchors": ["src/context.cpp: context::tokenize", "src/helper.cpp: convert_integer", "src/options.cpp: context::parse_option"]}
{"id": "C14", "title": "Register names denote their index", "statement": "R0 to R254 followed by a separator are read as that register, RZ as register 255; any other decimal index is rejected with a diagnostic and never wraps around.", "quantifier": "for every natural number n written after R", "why_tests_cant": "Infinitely many indices.", "anchors": ["src/context.cpp: context::tokenize"]}
{"id": "C15", "title": "Predicate names denote their index and negation", "statement": "P0 to P6 and PT (also in lower case), optionally preceded by '!', are read as that predicate; P7, P8 and P9 are rejected.", "quantifier": "for every predicate spelling followed by any separator and any text", "why_tests_cant": "The rest of the text is arbitrary.", "anchors": ["src/context.cpp: context::tokenize"]}
{"id": "C16", "title": "Layout does not matter", "statement": "Two option-free sources that consist of the same sequence of tokens and define the same labels assemble to the same output: blanks, tabs, line breaks and their number between tokens have no influence.", "quantifier": "for every pair of sources with equal token sequences", "why_tests_cant": "Quantifies over all pairs of texts.", "anchors": ["src/context.cpp: context::tokenize", "src/parse.cpp: parse_instruction"]}
{"id": "C17", "title": "A label denotes the address of the instruction that follows it", "statement": "In a source accepted with assertions enabled, every label recognised at the start of a line denotes the byte address, in the emitted code, of the first instruction after it: with k semicolons before it, 8*(k + k/3 + 1).", "quantifier": "for every accepted source and every label in it", "why_tests_cant": "Two independent passes (one counting characters, one parsing) must agree on every program.", "anchors": ["src/context.cpp: context::generate_labels", "src/parse.cpp: parse_instruction", "src/nxas.cpp: nxas::assemble"]}
{"id": "C18", "title": "Labels are exactly the words followed by ':' at the start of a line", "statement": "The label table contains a name if and only if some line of the source starts with it immediately followed by ':', where a name is a letter followed by letters, digits and '_'. In particular an indented definition is not a label.", "quantifier": "for every source and every name", "why_tests_cant": "Exact characterisation of a scan over all texts.", "anchors": ["src/context.cpp: context::generate_labels"]}
{"id": "C19", "title": "The first definition of a duplicated label wins silently", "statement": "If a label is defined several times, every use denotes the first definition; no diagnostic is given.", "quantifier": "for every source and label", "why_tests_cant": "Quantifies over all sources.", "anchors": ["src/context.cpp: context::generate_labels"]}
{"id": "C20", "title": "Branch displacements decode to their target", "statement": "For every accepted branch-like operand at instruction address A with target T (a label's address or a literal), bits 20..43 of the instruction, read as a 24-bit two's complement number, equal T - A - 8.", "quantifier": "for every target and every instruction address", "why_tests_cant": "2^24 displacements times all positions, negative displacements are split over two fields.", "anchors": ["src/operand.h: label"]}
{"id": "C21", "title": "Out-of-range and undefined branch targets are rejected", "statement": "A branch operand is accepted if and only if it is a defined label or an integer literal whose displacement is between -2^23 and 2^23-1; an undefined name or an unreachable target is always rejected, never truncated.", "quantifier": "for every target", "why_tests_cant": "Infinitely many targets.", "anchors": ["src/operand.h: label"]}
{"id": "C22", "title": "Instruction words contain only bits of their operands", "statement": "Every accepted instruction is encoded as the opcode of one table row with that mnemonic plus the guard predicate plus bits inside the fields that the row's operands own: no other bit of the word is ever set and no opcode bit is lost.", "quantifier": "for every accepted instruction text", "why_tests_cant": "265 rows times all operand values and failed alternatives that wrote to the same word before.", "anchors": ["src/parse.cpp: parse_instruction, parse_insn", "src/table.h: table", "src/operand.h", "src/opcode.h: opcode::add_bits"]}
{"id": "C23", "title": "The guard predicate is stored in bits 16..19", "statement": "For every accepted instruction outside the branch family, bits 16..18 hold the index of the guard predicate (7 if there is none) and bit 19 its negation.", "quantifier": "for every accepted instruction", "why_tests_cant": "Any operand of any row could write into these bits.", "anchors": ["src/parse.cpp: assemble_predicate, parse_instruction", "src/table.h: table"]}
{"id": "C24", "title": "Instructions without predication reject guards (violated for @!PT)", "statement": "An instruction flagged as not supporting predicated execution is rejected when it has a guard other than PT. The code accepts the guard @!PT ('never'), which is therefore encoded.", "quantifier": "for every instruction text with such a mnemonic", "why_tests_cant": "Quantifies over all texts; the violation is a single missing bit in a mask.", "anchors": ["src/parse.cpp: parse_insn"]}
{"id": "C25", "title": "Internal bit-overlap assertions never fire for table rows with disjoint fields", "statement": "For every table row whose operand fields are pairwise disjoint (checked row by row), no operand text makes add_bits assert. The rows with overlapping fields are identified and each has a source that aborts in a debug build.", "quantifier": "for every row and every operand text", "why_tests_cant": "The assertion depends on the combination of all operand values.", "anchors": ["src/opcode.h: opcode::add_bits", "src/table.h: table", "src/operand.h"]}
{"id": "C26", "title": "A source accepted with assertions gives the same output without", "statement": "If a debug build accepts a source, a release build produces the identical output. The converse is false: a release build accepts sources on which a debug build aborts.", "quantifier": "for every source", "why_tests_cant": "Differential claim over all inputs.", "anchors": ["src/opcode.h: opcode::add_bits, opcode::add_reuse", "src/nxas.cpp: nxas::assemble"]}
{"id": "C27", "title": "Unsigned immediates are range checked and stored exactly", "statement": "An unsigned immediate operand of a given maximum at a given position accepts exactly the literals from 0 to that maximum, and stores the value in its field and nowhere else.", "quantifier": "for every literal, every maximum below 2^32 and every field position used", "why_tests_cant": "All values of all field widths.", "anchors": ["src/operand.h: assemble_uint", "src/helper.cpp: convert_integer"]}
{"id": "C28", "title": "Signed immediates are range checked and stored in two's complement", "statement": "A signed immediate of b bits accepts exactly -2^(b-1)..2^(b-1)-1 and stores its two's complement in its field; the 20-bit ALU immediate stores its low 19 bits at bit 20 and its sign at bit 56, and decodes to the literal.", "quantifier": "for every literal", "why_tests_cant": "All values, sign handling split over two fields.", "anchors": ["src/operand.h: assemble_int", "src/helper.cpp: assemble_signed_20bit_immediate"]}
{"id": "C29", "title": "Extended unsigned immediates stay inside their field (violated at 0x100000)", "statement": "The extended unsigned immediate accepts 0..2^20-1 and its value can be read back from bits 20..38 and 56. The code also accepts 0x100000, which sets bit 39, the lowest bit of the neighbouring register field.", "quantifier": "for every literal", "why_tests_cant": "One value out of 2^20+1 is wrong.", "anchors": ["src/operand.h: uimm_extended"]}
{"id": "C30", "title": "Constant buffer operands decode to their slot and offset", "statement": "c[slot][offset] is accepted exactly for slots 0..31 and offsets -0x8000..0x7FFF divisible by 4, and slot and offset can be read back from bits 34..38 and 20..33.", "quantifier": "for every slot and offset", "why_tests_cant": "2^21 combinations, negative offsets and divisibility.", "anchors": ["src/helper.cpp: assemble_constant_buffer"]}
{"id": "C31", "title": "Memory operands decode to their base register and offset", "statement": "[Rn + offset] stores the register at bit 8 and the offset in two's complement in its field; without register (or with RZ) the offset is unsigned. Offsets outside the field are rejected. For ATOMS, whose offset field counts words, a byte offset that is not a multiple of four is silently rounded down.", "quantifier": "for every register and offset", "why_tests_cant": "All combinations of 255 registers and 2^24 offsets.", "anchors": ["src/operand.h: memory::address"]}
{"id": "C32", "title": "32-bit float immediates are the nearest binary32 value", "statement": "A float literal or integer literal used as 32-bit float immediate is stored as the binary32 number nearest to it (ties to even); the 20-bit form stores the sign, exponent and 11 upper mantissa bits of the same number, i.e. truncates towards zero.", "quantifier": "for every decimal literal", "why_tests_cant": "Infinitely many literals; rounding ties.", "anchors": ["src/helper.cpp: assemble_float_immediate", "src/context.cpp: context::tokenize"]}
{"id": "C33", "title": "Half-precision immediates are rounded to nearest even", "statement": "fp32_to_fp16 returns the binary16 number nearest to its argument, ties to even, overflow to infinity, underflow to (signed) zero or subnormals, NaN to NaN.", "quantifier": "for every 32-bit pattern", "why_tests_cant": "2^32 arguments with rounding, subnormal and overflow boundaries.", "anchors": ["src/fp16.h: fp32_to_fp16"]}
{"id": "C34", "title": "Negative zero keeps its sign in floating point immediates (violated for double and 9-bit half)", "statement": "The literal -0.0 is encoded with its sign bit set. 32-bit, 20-bit and 16-bit forms do; the double immediate and the 9-bit half immediates lose the sign.", "quantifier": "for every float operand kind", "why_tests_cant": "Special value in a comparison value < 0.", "anchors": ["src/helper.cpp: assemble_double_immediate, assemble_half_float_immediate"]}
{"id": "C35", "title": "Mirrored registers must be equal", "statement": "Instructions whose third source must be the destination register (FFMA32I and similar) are accepted if and only if both registers are the same, and a rejected one never leaves traces in the word.", "quantifier": "for all pairs of registers", "why_tests_cant": "256*256 pairs in each row.", "anchors": ["src/operand.h: mirror_dgpr"]}
{"id": "C36", "title": "Reuse flags are recorded exactly for the registers marked .reuse", "statement": "A source register marked .reuse sets exactly the flag of its position (8, 20 or 39) in the control word, an unmarked one none; .reuse on a register at any other position is rejected.", "quantifier": "for every register operand and following text", "why_tests_cant": "All rows and positions.", "anchors": ["src/helper.cpp: try_reuse, assemble_gpr", "src/nxas.cpp: generate_sched"]}
{"id": "C37", "title": "Scheduling annotations are encoded as written", "statement": "@WAIT n, @WB n, @RB n, @Y and @DEP n after an instruction are stored in the stall, write barrier, read barrier, yield and wait-mask fields; absent annotations give stall 0, barriers 7, no yield, empty mask.", "quantifier": "for every list of annotations", "why_tests_cant": "Lists of unbounded length in every order.", "anchors": ["src/parse.cpp: assemble_sched"]}
{"id": "C38", "title": "Duplicate or out-of-range annotations are rejected", "statement": "A repeated @WAIT, @WB, @RB, @Y or @DEP with the same index, or an index outside its range, is always rejected.", "quantifier": "for every list of annotations", "why_tests_cant": "Lists of unbounded length in every order.", "anchors": ["src/parse.cpp: assemble_sched"]}
{"id": "C39", "title": "The order of scheduling annotations is irrelevant", "statement": "Two lists of annotations that are permutations of each other are either both rejected or give the same scheduling bits.", "quantifier": "for every pair of permuted lists", "why_tests_cant": "All permutations of all lists.", "anchors": ["src/parse.cpp: assemble_sched"]}
{"id": "C40", "title": "The first matching table row decides, and failed alternatives leave no trace", "statement": "The encoding of an accepted instruction is the one given, from a fresh state, by the first table row with its mnemonic that accepts its operands; bits, reuse flags, scheduling data and cursor movements of rows tried before have no influence.", "quantifier": "for every accepted instruction", "why_tests_cant": "Failed rows write to the same opcode before failing; every combination of partial failures matters.", "anchors": ["src/parse.cpp: parse_instruction"]}
{"id": "C41", "title": "Unknown mnemonics are rejected", "statement": "A source whose first instruction has a mnemonic that is in no table row is rejected with a diagnostic at that token.", "quantifier": "for every identifier not in the table", "why_tests_cant": "Infinitely many identifiers.", "anchors": ["src/parse.cpp: parse_instruction"]}
{"id": "C42", "title": "No text is silently ignored at the end", "statement": "In an accepted source everything after the last instruction's ';' is blanks or label definitions; a missing final semicolon or trailing garbage is always rejected.", "quantifier": "for every accepted source", "why_tests_cant": "All texts.", "anchors": ["src/parse.cpp: parse_instruction, parse_insn", "src/nxas.cpp: nxas::assemble"]}
{"id": "C43", "title": "Diagnostics point into the source", "statement": "Every located diagnostic carries the line and column of a position of the source: the position reached by counting new lines and columns (tabs count four) over some prefix of the text.", "quantifier": "for every rejected source", "why_tests_cant": "All rejected texts.", "anchors": ["src/error.cpp: fail, fatal_error", "src/context.cpp: context::next, context::tokenize"]}
{"id": "C44", "title": "The reported error comes from the alternative that got furthest", "statement": "When every table row of a mnemonic fails, the diagnostic is that of a row with the largest number of parsed operands, the earliest such row among equals.", "quantifier": "for every rejected instruction", "why_tests_cant": "All combinations of failing rows.", "anchors": ["src/parse.cpp: parse_instruction"]}
{"id": "C45", "title": "Only compute programs can be written", "statement": "A source that declares any program type other than compute never produces an output.", "quantifier": "for every source", "why_tests_cant": "All sources with such a declaration.", "anchors": ["src/write.cpp: context::binary, context::write_gfx_header", "src/options.cpp: context::parse_option"]}
{"id": "C46", "title": "The program type is declared at most once", "statement": "A source with two type declarations (.type or .dksh, in any combination) is always rejected.", "quantifier": "for every source", "why_tests_cant": "All sources.", "anchors": ["src/options.cpp: context::parse_option"]}
{"id": "C47", "title": "Declaring a raw compute program does not change the code", "statement": "A source accepted with the option line '.type compute' in front gives the same code as without it.", "quantifier": "for every source", "why_tests_cant": "All sources.", "anchors": ["src/options.cpp: context::parse_option", "src/write.cpp: context::binary"]}
{"id": "C48", "title": "The DKSH container embeds the raw code unchanged", "statement": "For a compute program in a DKSH container, words 0..31 are the control section and the following words are exactly the raw code, then zeros.", "quantifier": "for every accepted source", "why_tests_cant": "All programs.", "anchors": ["src/write.cpp: context::binary", "src/dksh.cpp: context::write_dksh"]}
{"id": "C49", "title": "DKSH header fields describe the program", "statement": "The control section holds the magic number, header size 24, control size 256, the code size rounded up to 256 bytes, one compute program with its work group dimensions, shared memory rounded up to 256, local memory rounded up to 16 and per-warp scratch size 32*local+0x800.", "quantifier": "for every accepted DKSH source", "why_tests_cant": "All option values.", "anchors": ["src/dksh.cpp: context::write_dksh, align256, align8"]}
{"id": "C50", "title": "The DKSH file size matches its header (violated for multiples of 256 bytes)", "statement": "The number of bytes written equals control_sz + code_sz. When the code is a multiple of 32 words long, 32 superfluous words are appended.", "quantifier": "for every accepted DKSH source", "why_tests_cant": "All program lengths.", "anchors": ["src/write.cpp: context::binary", "src/dksh.cpp: context::write_dksh"]}
{"id": "C51", "title": "The DKSH entry point is the aligned label main", "statement": "A DKSH program is accepted only if the label 'main' exists and is the first instruction of a group; the header then holds the byte offset of the control word of that group.", "quantifier": "for every DKSH source", "why_tests_cant": "All sources.", "anchors": ["src/dksh.cpp: context::write_dksh"]}
{"id": "C52", "title": "The register count option works (violated)", "statement": "'.num_gprs n' sets the number of registers in the header. In the code the check is inverted: an integer is always rejected and anything else reads an inactive union member; no accepted source can use the option.", "quantifier": "for every source with that option", "why_tests_cant": "All sources.", "anchors": ["src/options.cpp: context::parse_option"]}
{"id": "C53", "title": "The command line accepts input and -o output in any order and nothing else", "statement": "main runs the assembler if and only if the arguments are one input file and one '-o' followed by an output file, in any order; everything else ends with a diagnostic.", "quantifier": "for every argument list", "why_tests_cant": "All argument lists.", "anchors": ["src/command_line.cpp: main"]}
{"id": "C54", "title": "The output file is the little-endian image of the words, written only on success", "statement": "On success the output file holds 8 bytes per word, least significant first, from which the words can be read back; if the arguments or the source are rejected the output file is never opened.", "quantifier": "for every invocation", "why_tests_cant": "All invocations.", "anchors": ["src/command_line.cpp: main"]}
{"id": "C55", "title": "The command line ignores everything after a NUL byte", "statement": "The command line tool assembles only the part of the file before its first NUL byte. The library, given such a text, aborts (debug) or ignores the rest (release) when a semicolon follows the NUL.", "quantifier": "for every file contents", "why_tests_cant": "All contents.", "anchors": ["src/command_line.cpp: main, read_file", "src/nxas.cpp: nxas::assemble"]}
{"id": "C56", "title": "Every modifier and system register name encodes its table index", "statement": "Each non-empty name of each modifier table, including all 256 system registers, is encoded as its own index: no name is shadowed by an equal earlier entry.", "quantifier": "for every operand of every row and every name of its table", "why_tests_cant": "Hundreds of names; a duplicated entry silently maps to another index.", "anchors": ["src/operand.h", "src/table.h: table", "src/helper.cpp: find_in_table"]}
{"id": "C57", "title": "Every table row can be selected", "statement": "For every row of the instruction table there is a source text that is encoded by this row, i.e. no row is completely shadowed by earlier rows of the same mnemonic.", "quantifier": "for every row of the table", "why_tests_cant": "Depends on the interplay of all rows of a mnemonic; 265 rows.", "anchors": ["src/table.h: table", "src/parse.cpp: parse_instruction"]}
{"id": "C58", "title": "The assembler implements its grammar", "statement": "The release build accepts a source if and only if the source belongs to a declarative grammar (lexical grammar, options, instructions of the table, label definitions, container), and its output is the image the grammar assigns; the grammar assigns at most one image. The debug build accepts no further source and gives the same image.", "quantifier": "for every source text and every word list", "why_tests_cant": "Both directions quantify over all texts; rejected texts are infinitely many and tests can only sample them.", "anchors": ["src/nxas.cpp: nxas::assemble", "src/context.cpp: context::tokenize", "src/parse.cpp: parse_instruction, parse_insn", "src/options.cpp: context::parse_option", "src/context.cpp: generate_labels", "src/write.cpp", "src/dksh.cpp"]}
{"id": "C59", "title": "The release build never aborts", "statement": "With NDEBUG defined every source is accepted, rejected with a diagnostic, or its treatment is undefined behaviour; there is no assertion failure.", "quantifier": "for every source text", "why_tests_cant": "Absence of an outcome over all inputs.", "anchors": ["src/opcode.h: opcode::add_bits, opcode::add_reuse", "src/nxas.cpp: nxas::assemble", "src/operand.h"]}
{"id": "C60", "title": "Half-precision immediates are nearest to the literal (violated by double rounding)", "statement": "A half-precision immediate holds the binary16 number nearest to the literal as written. The code rounds first to binary32 and then to binary16, so a literal just above the middle of two binary16 numbers may be rounded down; for literals that are binary32 numbers and for integers of at most 24 bits the claim holds.", "quantifier": "for every literal and every half-precision operand", "why_tests_cant": "The literals concerned lie within 2^-24 of a tie; infinitely many literals.", "anchors": ["src/helper.cpp: assemble_half_float_immediate", "src/context.cpp: context::tokenize", "src/fp16.h: fp32_to_fp16"]}
{"id": "C61", "title": "Double immediates hold the upper bits of the nearest binary64 number (violated for fractions)", "statement": "A double immediate holds the upper 20 bits of the binary64 number nearest to the literal. The code reads fractions as binary32, so that large ones become infinity and others are rounded twice; integers, and fractions that are binary32 numbers, are right except for the sign of zero.", "quantifier": "for every literal and every double-precision operand", "why_tests_cant": "Infinitely many literals; the value range of the two formats differs only far away from common values.", "anchors": ["src/helper.cpp: assemble_double_immediate", "src/context.cpp: context::tokenize"]}
{"id": "C62", "title": "A word determines its mnemonic", "statement": "Two accepted instructions, of whatever sources, that are encoded as the same 64-bit word have the same mnemonic.", "quantifier": "for all pairs of accepted instructions with all their operands", "why_tests_cant": "A collision may need particular values of several operands of two unrelated rows; the tests compare each instruction only with its own expected word.", "anchors": ["src/table.h: table", "src/parse.cpp: assemble_instruction", "src/operand.h"]}
{"id": "C63", "title": "The order of the operands is encoded", "statement": "If two rows of the table have the same operands in a different order, an instruction of the one and an instruction of the other are never encoded as the same word.", "quantifier": "for all pairs of rows and all accepted instructions of them", "why_tests_cant": "The suite tests both ICMP rows with a constant by instructions of the same shape, so that the wrong opcode of one of them is not noticed.", "anchors": ["src/table.h:181-182", "tests/CMakeLists.txt:390-393"]}
{"id": "C64", "title": "The test driver is sound", "statement": "For every expression without a NUL character the test driver never looks outside of the assembled result, its undefined behaviour is only that of the assembler, and (without .dksh) it returns 0 if and only if the expression followed by ';' is accepted and the expected argument is 0x or 0X followed by the hexadecimal digits of the 64-bit word of the first instruction (anything may follow the digits).", "quantifier": "for all expressions and expected arguments", "why_tests_cant": "The driver is what runs the tests: a driver that accepted a wrong word, or read outside of the result, would make every test pass or fail for the wrong reason.", "anchors": ["tests/tester.cpp:10-44"]}
{"id": "C65", "title": "Error messages are complete", "statement": "For every file name, position and text, fail never writes outside of the buffer it allocates, and what is printed is the complete message: file, line and column counted from 1, text, newline; fatal_error prints the same.", "quantifier": "for all file names, positions and message texts", "why_tests_cant": "The lengths of file names, numbers and texts are unbounded; an off-by-one in the buffer length truncates or overruns only for some of them.", "anchors": ["src/error.cpp:9-57"]}
{"id": "C66", "title": "The output determines the operands (violated by IADD.PO)", "statement": "Two accepted instructions of the same table row, of whatever sources and builds, with the same word and reuse flags have the same operands, one by one, up to the listed synonyms (a default modifier may be left out, [R1] is [R1+0], a label stands for its address, float literals that differ only in dropped bits, and so on).", "quantifier": "for all pairs of accepted instructions and all operands", "why_tests_cant": "The suite compares single instructions with single words; that no other operands give the same word is a statement about all pairs of instructions.", "anchors": ["src/table.h:1-303", "src/operand.h:1-1828"]}
{"id": "C67", "title": "The output determines the annotations", "statement": "Two accepted instructions, of whatever sources and builds, with the same scheduling bits have the same annotations but for their order and @WAIT 0.", "quantifier": "for all pairs of accepted instructions", "why_tests_cant": "There are 2^17 combinations of annotations in every order; the suite has no test of annotations.", "anchors": ["src/parse.cpp:30-95"]}
{"id": "C68", "title": "The output determines the instructions", "statement": "If two sources give the same raw output, their instructions at the same index have the same word, reuse flags and scheduling bits, and an instruction that only one of them has is a NOP like those that fill the last group.", "quantifier": "for all pairs of sources and builds", "why_tests_cant": "A statement about all pairs of sources with any number of instructions.", "anchors": ["src/nxas.cpp:15-61"]}
{"id": "C69", "title": "The forms of an instruction differ in the upper bits only (violated by ICMP)", "statement": "Of two table rows with the same mnemonic, one with registers only and one with a constant as second source, a constant as third source or a 20-bit immediate in its place, the second has the opcode of the first with bits 59 to 63 changed from 01011 to 01001, 01010 or 0011a in the same way for all mnemonics; accepted instructions of these rows differ accordingly in all bits that belong to no operand.", "quantifier": "for all pairs of rows of the table and all pairs of accepted instructions of them", "why_tests_cant": "The suite compares single instructions with words that were written down by hand; a wrong opcode in the table and in the test is not noticed, and rows without a test are not compared at all.", "anchors": ["src/table.h:1-303"]}
{"id": "C70", "title": "The order of the instruction table does not matter", "statement": "No instruction, with whatever operands, guard, labels and position, fits two rows of the instruction table. Hence an assembler whose table has the same rows in another order, or only some of them, accepts no other source and gives the same words for the sources it accepts.", "quantifier": "for all instructions as lists of tokens, all pairs of rows, all tables made of rows of the table, all sources and both builds", "why_tests_cant": "An overlap of two rows shows only for operands that fit both; there are 265 rows and infinitely many instructions.", "anchors": ["src/table.h:1-303", "src/parse.cpp:135-185"]}
{"id": "C71", "title": "Error messages are true of the place they point at (violated by five messages)", "statement": "Every diagnostic with a position points at the beginning of a token, at the end of the source or at a text that is no token, and what it says is true of it: the token has another class than the expected one, is none of the listed names, is an integer outside of the stated range, a name that is no mnemonic, a label without definition, and so on.", "quantifier": "for all sources, both builds and all diagnostics with a position", "why_tests_cant": "The negative tests only check that a source is rejected; no test looks at the text or the position of a message.", "anchors": ["src/helper.cpp:29-60", "src/operand.h:1-1400", "src/context.cpp:90-250", "src/options.cpp:1-76", "src/parse.cpp:1-185"]}
{"id": "C72", "title": "Printing an error has defined behaviour (violated by four messages)", "statement": "The arguments of every diagnostic have the types that its format asks for, so that the program prints the position and the text with the arguments in place. On 64-bit Linux the text is always printed, and the integer in a message about its range is the one of the source iff it fits 32 bits.", "quantifier": "for all sources, command lines, file systems and both builds", "why_tests_cant": "The suite never looks at the error output; the mismatches show only for literals beyond 32 bits, or on platforms that pass size_t and int differently.", "anchors": ["src/error.cpp:9-69", "src/helper.cpp:50-62", "src/operand.h:62", "src/operand.h:130", "src/parse.cpp:182", "src/command_line.cpp:24-64"]}
{"id": "C73", "title": "The undefined behaviours of the assembler and their causes", "statement": "Apart from reading beyond the end of the text, a source makes the assembler run into undefined behaviour exactly if its tokens begin with valid options and instructions, followed by the first part of an option or of an instruction up to one of these tokens: a size of LDG or a type of a texture that is not in the table, a register, predicate or number in the place of a special register or of a program type, anything but a number after .num_gprs, a branch distance below the 64-bit range; or if it is a valid program in a DKSH container whose scratch size exceeds 32 bits.", "quantifier": "for all sources of at most 2^59 characters, both builds and all kinds of undefined behaviour other than reading beyond the end", "why_tests_cant": "Undefined behaviour need not show in a test, and no test can say that there are no other causes.", "anchors": ["src/operand.h:1-1400", "src/options.cpp:14-76", "src/parse.cpp:90-185", "src/dksh.cpp:81-144", "src/nxas.cpp:25-59"]}
{"id": "C74", "title": "The counters of the assembler fit their types", "statement": "In a source of less than 2^29 characters, the line and the column, counted from 1, of every place that the tokenizer gets to and of every diagnostic fit an int; the program counter before and after every instruction and the address of every label fit an int64_t. The bound is sharp: behind 2^29 tabs the column overflows.", "quantifier": "for all sources of less than 2^29 characters, both builds, all instructions, labels and diagnostics", "why_tests_cant": "No test source is larger than a few kilobytes; the absence of an overflow in all sources below a bound is not a matter of examples.", "anchors": ["src/context.h:29", "src/context.h:55-56", "src/token.h:45-46", "src/context.cpp:236-299", "src/error.cpp:9-56", "src/parse.cpp:138-168"]}
{"id": "C75", "title": "The exit status tells whether the output has been written (violated on a full disk)", "statement": "If the program ends with status 0, the output file contains the whole image of the source. An input file that shrinks while it is read is assembled as it is when it is read, one that grows is cut off, one without a size ends the program with an exception and leaves the output file alone.", "quantifier": "for all command lines, both builds, all contents and sizes of input files and all capacities of output files", "why_tests_cant": "The suite neither fills up the disk nor changes files while the assembler runs.", "anchors": ["src/command_line.cpp:10-22", "src/command_line.cpp:53-63"]}
{"id": "C76", "title": "The sources on which the assembler reads beyond the end of the text", "statement": "The assembler reads beyond the NUL at the end of the source exactly if the last line is a bare word, which the search for labels runs over, or the source ends in one of P, p, !P, !p and the tokens before it are the beginning of a program after which the parser asks for another token. In a debug build an assertion may fail first.", "quantifier": "for all sources of up to 2^59 characters, both builds", "why_tests_cant": "Whether the parser asks for one more token depends on the row, the operand and the annotations reached, and on all rows of the same mnemonic tried before; a suite contains none of these sources, and a sanitizer run sees only the sources it is given.", "anchors": ["src/context.cpp:80-224", "src/context.cpp:252-299", "src/parse.cpp:30-185", "src/options.cpp:6-76", "src/operand.h:330-1828"]}
{"id": "C77", "title": "The outcome of the assembler on every source", "statement": "Every source belongs to exactly one of four classes, each given by a specification that does not mention the parser: it is valid, and its words are written; it is read beyond its end; it has another undefined behaviour, which is determined; or it ends in a diagnostic.", "quantifier": "for all sources of up to 2^59 characters, in a build without assertions", "why_tests_cant": "Tests give the outcome of sources one at a time; that there is no fifth class, and that no source is in two, is a statement about all of them.", "anchors": ["src/nxas.cpp:25-59", "src/context.cpp:72-299", "src/parse.cpp:1-185", "src/options.cpp:6-76"]}
{"id": "C78", "title": "Everything the grammar describes can be written", "statement": "The lists of tokens some source text consists of are exactly those in which every token is a name of the lexical grammar, a register up to RZ, a predicate up to PT, a 64-bit integer, a binary32 number that is not NaN or an operator, and in which lines do not decrease. Every layout of such tokens and of labels that is a program of the grammar has a source that assembles to its image; every binary32 number that is not NaN can be an operand.", "quantifier": "for all lists of tokens with lines, all layouts of tokens and labels, all programs of the grammar and all binary32 numbers", "why_tests_cant": "A test assembles a text that exists; whether an encoding can be reached by any text at all, for each of 2^32 constants and all programs, takes a construction of the text.", "anchors": ["src/context.cpp:72-299", "src/parse.cpp:1-185"]}
{"id": "C79", "title": "The sources on which an assertion fails", "statement": "In a build with assertions, assembling a source is aborted if and only if its tokens begin with an instruction, after correct instructions and options, in which an operand sets a bit that the guard, the opcode or an earlier operand of the row has set, or if the source is correct and has not as many instructions as semicolons. On every other source the build with assertions does what the build without does, so that valid programs, undefined behaviours and messages are determined for it too.", "quantifier": "for all sources; the classification of undefined behaviours for all sources of up to 2^59 characters", "why_tests_cant": "A failing assertion found by a test shows one such source; that there are no others needs all rows with the same mnemonic, all beginnings of programs and all combinations of modifiers and registers.", "anchors": ["src/opcode.h:46-57", "src/nxas.cpp:25-59", "src/parse.cpp:106-185"]}
{"id": "C80", "title": "Half-precision immediates are wrong only beside a tie", "statement": "The binary16 number encoded for a 16-bit immediate is the one nearest to the literal (ties to even) if and only if it is not the case that the binary32 number nearest to the literal is exactly in the middle of two neighbouring binary16 numbers and the other one of them is nearer to the literal. In any case no binary16 number lies strictly between the literal and the one encoded.", "quantifier": "for every fraction and integer literal and every half-precision operand of 16 bits", "why_tests_cant": "Infinitely many literals; a wrong result needs one within 2^-25 of a tie of its size, so that samples show either only correct results or single wrong ones but never the exact border.", "anchors": ["src/helper.cpp: assemble_half_float_immediate", "src/context.cpp: context::tokenize", "src/fp16.h: fp32_to_fp16"]}
{"id": "C81", "title": "Double immediates of fractions are wrong by at most one unit", "statement": "The double immediate of a fraction whose binary32 number is normal holds the upper bits of the binary64 number nearest to the fraction, unless that is less than the binary32 number and the latter has no bits below those stored; then it holds the next number. A fraction whose binary32 number is infinite becomes infinity, one whose binary32 number is below the normal ones stays below them.", "quantifier": "for every fraction literal and every double-precision operand", "why_tests_cant": "Infinitely many literals; wrong results need a literal just below a number of eight mantissa bits.", "anchors": ["src/helper.cpp: assemble_double_immediate", "src/context.cpp: context::tokenize"]}
{"id": "C82", "title": "The numbers of options are encoded as written (violated)", "statement": "In a DKSH container the sizes of shared and local memory are those of the options, rounded up to multiples of 256 and 16, and the numbers of threads are those of .workgroup_size. The code reduces all of them to 32 bits without a check: a size is right if and only if it is a number up to 2^32 - 256 (shared) or 2^32 - 16 (local), a number of threads if and only if it has 32 bits; other numbers, negative ones too, are accepted and become something else.", "quantifier": "for all accepted sources with a DKSH container and all numbers", "why_tests_cant": "No test of the suite uses .dksh; the border of the accepted numbers is a statement about all of them.", "anchors": ["src/options.cpp:50-71", "src/dksh.cpp:71-124"]}
{"id": "C83", "title": "Sources with labels can be put one after the other", "statement": "If a source without options consists of whole groups of three instructions and ends with a line, and another source has no .dksh option and no branch to a number, and no label that both define is used in the second, then the two sources one after the other are assembled to the words of the first followed by the words of the second, whatever labels and branches they have.", "quantifier": "for all pairs of accepted sources", "why_tests_cant": "The suite assembles sources of one instruction without labels; that all branches in both parts keep their distances is a statement about all pairs of programs.", "anchors": ["src/context.cpp:281-296", "src/operand.h:122-153"]}
{"id": "C84", "title": "The names of labels do not matter", "statement": "Two sources whose tokens agree except for the targets of branches, which stand for the same addresses (as labels or as numbers), are assembled to the same words; in particular labels can be renamed and exchanged. For every accepted source without .dksh there is a source without any label that is assembled to the same words.", "quantifier": "for all accepted sources and all replacements of targets", "why_tests_cant": "A consistent renaming concerns all occurrences of all names in sources of any length; the suite has no two sources that differ in names.", "anchors": ["src/operand.h:122-153", "src/context.cpp:281-296"]}
{"id": "C85", "title": "Accepted sources format no message with arguments of the wrong type", "statement": "An error formats its message when it is built, and the parser builds one for every table row that it tries in vain, also when a later row fits. While a source is read that is accepted, in either build, every message that is formatted in this way has arguments of the types its format asks for: the four formats with mismatched arguments are never reached, so that assembling an accepted source has no undefined behaviour through printf.", "quantifier": "for all accepted sources, all their instructions and all table rows tried before the accepting one", "why_tests_cant": "The messages are discarded, so that a test that passes says nothing about them; which rows are tried in vain and where they fail depends on every token of the instruction.", "anchors": ["src/error.cpp:16-39", "src/parse.cpp:160-179", "src/helper.cpp:57", "src/operand.h:62", "src/operand.h:130"]}
{"id": "C86", "title": "What follows the first error does not change the diagnostic", "statement": "If a source that ends with a semicolon is rejected with a diagnostic at a position of the source, then every continuation of it is rejected with the same message at the same position, in both builds. The continuation may be anything (also text that is not a program) that defines no label that the source lacks and that does not make the last line a bare word; the character before the semicolon is not a P.", "quantifier": "for all rejected sources, all continuations and both builds", "why_tests_cant": "The suite has no rejected source; the continuation is an arbitrary text, and that the parser never looks past a semicolon concerns every operand, every table row and every way of failing.", "anchors": ["src/context.cpp:80-224", "src/parse.cpp:129-185", "src/nxas.cpp:37-39"]}
{"id": "C87", "title": "Instructions, guards and annotations can be changed one by one", "statement": "Two accepted sources with the same labels whose tokens differ in one instruction only are assembled to words that differ at most in the word of this instruction and in its 21 bits of the control word. If an accepted source is changed in the guard of one instruction, and the mnemonic allows guards, the result is accepted and differs at most in bits 16 to 19 of the word of this instruction, which are those of the new guard. If it is changed in the annotations of one instruction, the result is accepted and differs at most in the 17 scheduling bits of this instruction, which are those of the new annotations. Sources with .dksh are excluded.", "quantifier": "for all accepted sources, all positions of the changed instruction, all guards and all lists of annotations", "why_tests_cant": "Each test assembles one source. That a change has no effect elsewhere concerns pairs of sources of any length, and that the guard is independent of the operands concerns all rows of the table with all their operands.", "anchors": ["src/parse.cpp:96-127", "src/parse.cpp:129-185", "src/nxas.cpp:12-58", "src/operand.h:1-1828", "src/table.h:16-303"]}
{"id": "C88", "title": "Only the rows of the mnemonics of a source matter, and the table can be extended", "statement": "Two tables that have the same rows, in the same order, for every mnemonic that occurs in the text of a source assemble it alike: the outcome is the same in all cases, accepted with the same words, rejected with the same diagnostic or undefined, in both builds. A source that is accepted stays accepted with the same words if rows are appended to the table, also rows of the same mnemonics.", "quantifier": "for all tables, all sources and both builds", "why_tests_cant": "Tests run with one table; the claim is about every change of the table, and covers the reported messages, which depend on the scores of all rows that are tried.", "anchors": ["src/parse.cpp:160-184", "src/table.h:16-303"]}
{"id": "C89", "title": "A branch leads to the instruction behind its label", "statement": "In an accepted source, the distance encoded in a branch to a label, added to the address of the word after the branch, is the address of an instruction word, never of a control word: that of the instruction whose number is the number of instructions in front of the label. With assertions it is the first instruction that ends behind the label, and the word there is the one emitted for it. An instruction that is no branch is followed by the next one of the source.", "quantifier": "for all accepted sources, all their branches with any guard and annotations, and all labels", "why_tests_cant": "Labels are found in a pass of their own that counts semicolon characters, branches are encoded while the instructions are counted; that both agree is a statement about all texts between a branch and its label. In release builds it is wrong.", "anchors": ["src/context.cpp:226-299", "src/operand.h:122-152", "src/nxas.cpp:12-58"]}
{"id": "C90", "title": "Integers given as float immediates are encoded exactly or rejected", "statement": "An integer where a floating point immediate is expected is encoded with its sign and as exactly this number, or it is rejected. (Violated: integers with more than 24 binary digits between the first and the last one are rounded, with more than 12 digits in the 20-bit form.) The encoded number is the integer exactly if it has at most 24 digits, and at most 12 in the 20-bit form.", "quantifier": "for all accepted sources, all their floating point immediates that are written as integers", "why_tests_cant": "The code has a check for this with a message of its own, but the check compares the number after its conversion with itself; tests of small integers pass. The equivalence is about all 2^64 integers.", "anchors": ["src/helper.cpp:146-200", "src/operand.h:193-201"]}
{"id": "C91", "title": "The messages that can be reported", "statement": "Each of the 81 messages of a list is reported for some source, in both builds, and no other message is ever reported. Nine messages of the code are not in the list: they are never reported, whatever the source.", "quantifier": "for all sources, both builds and all messages", "why_tests_cant": "That a message is never reported is a statement about all sources. It depends on the scores of all rows of a mnemonic, because a message can be produced by a row and be lost against that of another.", "anchors": ["src/operand.h:1-1828", "src/helper.cpp:1-330", "src/parse.cpp:96-185", "src/dksh.cpp:60-130", "src/table.h:16-303"]}
{"id": "C92", "title": "A diagnostic is about the first instruction that is rejected", "statement": "When a source is rejected with a position, all instructions before some instruction are accepted, this instruction is not, and from its beginning to the token (or the text that is no token) that the diagnostic points at no semicolon token is passed. An accepted instruction ends with its first semicolon. In the text: the number of semicolons in front of the reported position is the number of accepted instructions, provided that every P directly in front of a semicolon ends a longer word; without this condition the count fails.", "quantifier": "for all sources that are rejected with a position, both builds", "why_tests_cant": "All 265 rows are tried with all their operand parsers, and the furthest error wins; that none of them ever reads past the semicolon on its way to the error is a statement about every operand parser on every text.", "anchors": ["src/parse.cpp:96-185", "src/nxas.cpp:37-39", "src/operand.h:1-1828", "src/helper.cpp:1-330", "src/context.cpp:33-224"]}
{"id": "C93", "title": "The container in memory", "statement": "With the structures of the container laid out in memory byte by byte, every assignment of write_dksh to them and both copies done in bytes, and all members of the context taken into account, the words of the control section are those that the model gives for the options of a source. For all values of all members, also of those that no source can set, every field is at its place and everything else is zero; the flags of fragment shaders are the second, third and fourth byte of the union. The message about two vertex shaders is reported exactly if a second entry point or a second number of registers is set.", "quantifier": "for all values of the members, all label maps and all code sizes", "why_tests_cant": "The sizes, offsets and alignments are about all 64-bit sizes and all 32-bit members; half of the members cannot be set by any source, so no test of the assembler reaches them.", "anchors": ["src/dksh.cpp:11-144", "src/context.h:57-79"]}
{"id": "C94", "title": "What lies behind a NUL in the string", "statement": "The lexer, run on the whole buffer of a string that contains a NUL, gives the tokens and the labels of the text before the first NUL, whatever is behind it, unless that text ends with the bare letter of a predicate or its last line is a bare word. A letter P in front of the NUL makes the NUL and the characters behind it a part of a name, so that there are strings that are read on to their real end. Without a NUL in the string the lexer on the buffer and the lexer on the text agree everywhere.", "quantifier": "for all strings", "why_tests_cant": "All texts and all continuations behind the NUL; a test sees one memory.", "anchors": ["src/context.cpp:80-224", "src/context.cpp:235-250", "src/context.cpp:260-299", "src/nxas.cpp:25-39", "src/command_line.cpp:52-53"]}
{"id": "C95", "title": "Which bits of an instruction can be set and unset", "statement": "For every row of the table, a bit of the word or a reuse flag is set in some accepted instruction of the row exactly if it belongs to the opcode, the guard or a field of an operand, and it is set in all of them exactly if it belongs to the opcode, to a keyword or a missing register of an operand, or to the guard of an instruction without predicate. No field is wider than what can be written, and no row has a bit that is the same in all its instructions besides these.", "quantifier": "for all rows, all bits and all sources", "why_tests_cant": "That a bit is never set, or never unset, is a statement about all texts of an instruction.", "anchors": ["src/table.h:1-303", "src/operand.h:1-1828", "src/parse.cpp:20-185"]}
{"id": "C96", "title": "Every image can be disassembled", "statement": "There is a disassembler, written with nothing but the tables of the assembler, such that what it gives for a list of words is a source that is assembled to these words, and such that it gives one for every list of words that is the image of a source without container. So it decides which words are an image, and every image is that of one line of instructions without labels.", "quantifier": "for all words and all sources whose image has less than 2^58 words", "why_tests_cant": "A round trip can be tested for some sources; that no image of any source is missed, and that nothing wrong is ever printed, cannot.", "anchors": ["src/table.h:1-303", "src/operand.h:1-1828", "src/parse.cpp:20-185", "src/nxas.cpp:20-61", "src/helper.cpp:40-336"]}
{"id": "C97", "title": "Which words are an image", "statement": "A second disassembler gives, for the words of a DKSH container, a source that is assembled to them. For every list of words, one of the two disassemblers gives a source exactly if some source has this image, and never both: the image says whether the source asked for a container.", "quantifier": "for all words and all sources, raw or with container, whose image has less than 2^58 words", "why_tests_cant": "It is about all sources at once: that none has a given image, and that no container can be mistaken for code.", "anchors": ["src/dksh.cpp:1-144", "src/nxas.cpp:20-61", "src/parse.cpp:20-185", "src/table.h:1-303"]}
{"id": "C98", "title": "Sources can be put together when one of them asks for a container", "statement": "A source without options, with whole groups of instructions, can be put in front of or behind a source with a container. The result is a container with the same settings whose code is the code of both, one after the other. The entry point moves by the size of what is put in front and stays if something is put behind.", "quantifier": "for all pairs of sources, with labels and branches, in which no name used in the second one is defined in both", "why_tests_cant": "Sizes, entry points and targets are computed from the whole text; the statement is about all pairs of texts.", "anchors": ["src/dksh.cpp:1-144", "src/write.cpp:1-33", "src/context.cpp:226-299", "src/nxas.cpp:25-61", "src/options.cpp:1-76"]}
{"id": "C99", "title": "Blank lines and unused labels can be inserted and removed", "statement": "Between two lines of a source, the first of which ends an instruction, any text of blanks, line ends and labels that are not used (and not main in a container) can be inserted or removed: the release build accepts the source before if and only if it accepts it afterwards, with the same image.", "quantifier": "for all sources, all places between two lines behind an instruction, all inserted texts without tokens and semicolons", "why_tests_cant": "The inserted text moves every later token to another line and the label pass goes through it as well; the statement is about all texts and both directions.", "anchors": ["src/context.cpp:60-299", "src/options.cpp:1-76", "src/nxas.cpp:25-61"]}
{"id": "C100", "title": "The size of the output is bounded by the source", "statement": "The code has no more words than the assembler reserves, so that the vector never grows; the output has at most one word of 8 bytes per three characters of the source and 66 words more, or 8/3 words more without a container, which is reached; for sources of less than 2^28 characters the size of the code and the entry point in a container are not truncated to 32 bits; of less than 2^30 characters the size is not, nor is the entry point if the source is accepted with assertions.", "quantifier": "for all accepted sources in both build modes", "why_tests_cant": "A bound over sources of any length; truncation needs sources of hundreds of megabytes.", "anchors": ["src/nxas.cpp:34-58", "src/dksh.cpp:71-144"]}
{"id": "C101", "title": "Programs are entered and branch inside their code (violated at the end of the code)", "statement": "The entry point of a container and the target of a branch to a label are addresses inside the code. Violated: the label may stand behind the last instruction.", "quantifier": "for all accepted sources", "why_tests_cant": "The exact condition (no instruction behind the label, last group full) quantifies over all sources.", "anchors": ["src/context.cpp:226-299", "src/dksh.cpp:86-92", "src/operand.h:122-150"]}
{"id": "C102", "title": "Assertions fail instruction by instruction", "statement": "A source accepted without assertions is accepted with them exactly if it has as many instructions as semicolons and none of its instructions makes two of its parts set the same bit; whether an instruction does depends on its tokens only, neither on its place nor on labels. So an instruction accepted with assertions in one source is so in every source, and layout, insertion of empty lines and labels, and linking of sources and containers keep acceptance with assertions.", "quantifier": "for all sources and all instructions in them", "why_tests_cant": "Compares two build modes over all sources and all places an instruction can be at.", "anchors": ["src/opcode.h:47-57", "src/nxas.cpp:34-41"]}
{"id": "C103", "title": "Assertions take away sources but no images", "statement": "Every image that a source without container has in the build without assertions is the image of some source that the build with assertions accepts: each instruction whose parts set the same bit can be written in another way with the same word, on which neither its own row nor an earlier or later row of its mnemonic fails an assertion. So the two builds have the same images, and the disassembler decides which words are an image in the build with assertions too.", "quantifier": "for all sources without container whose image has less than 2^58 words, in both build modes", "why_tests_cant": "Each source has infinitely many others with the same image; that one of them passes every assertion is a statement about all rows, all ways to clash and all instructions.", "anchors": ["src/opcode.h:47-57", "src/nxas.cpp:34-41", "src/parse.cpp:130-185", "src/table.h:1-303"]}
{"id": "C104", "title": "Containers with and without assertions", "statement": "A container that some source has in the build without assertions is the image of some source the build with assertions accepts exactly if its entry point is not behind the end of its code. So the builds have different containers, and together with C103 it is decided for all words whether they are an image of the build with assertions. The image of a container says how many groups of instructions the source has.", "quantifier": "for all words and all sources, raw or with container, whose image has less than 2^58 words", "why_tests_cant": "It is about all sources at once: that some source accepted with assertions has a given container, and that none has.", "anchors": ["src/opcode.h:47-57", "src/nxas.cpp:34-58", "src/dksh.cpp:71-144", "src/context.cpp:226-299"]}
{"id": "C105", "title": "Images are sequences of instructions that are images on their own", "statement": "Words are the image of some source without container exactly if they are a sequence of groups of four words each of which is such an image on its own; a group is one exactly if the last bit of its control word is not set and each of its three instructions, with its own bits of the control word, is one beside two instructions that do nothing. So two images in a row are an image, and the groups of an image in any order, left out or repeated, are one, whatever branches they have, in both builds.", "quantifier": "for all lists of less than 2^58 words and both build modes", "why_tests_cant": "It is about the existence and the absence of a source for all words; branches are encoded relative to their address, so a moved group needs another source.", "anchors": ["src/nxas.cpp:34-58", "src/context.cpp:226-299", "src/operand.h:122-150", "src/opcode.h:16-75"]}
{"id": "C106", "title": "Containers have any code, settings and entry point", "statement": "Words are the container of some source exactly if they are header, code and padding, where the code is any non-empty image, the settings are any whose scratch memory size fits, and the entry point is any multiple of 32, which with assertions is not behind the end of the code. So the code of a container is an image on its own in both builds and can be exchanged for any image of the same size under the same header.", "quantifier": "for all lists of less than 2^58 words, all settings, entry points and codes, both build modes", "why_tests_cant": "It quantifies over all settings and codes at once and says that nothing else is a container.", "anchors": ["src/dksh.cpp:71-144", "src/nxas.cpp:34-58", "src/options.cpp:1-76"]}
{"id": "C107", "title": "Annotations, reuse flags and guards of an instruction are independent of the rest", "statement": "Whether a word with its bits of the control word is an instruction of some image does not depend on its annotations, except that each of its two barriers is one of six or absent and that bit 20 is not set: any stall count, yield flag, barriers and set of barriers to wait for can go with any instruction. Any of its reuse flags can be taken away. The guards that can go with the rest of a word are all sixteen, or the constant and its negation only, or none.", "quantifier": "for all words, control bits and guards, both build modes", "why_tests_cant": "It is about the existence and the absence of a source for all words, all 2^21 control bits and all instructions of the table.", "anchors": ["src/opcode.h:16-75", "src/parse.cpp:16-180", "src/helper.cpp:85-110", "src/table.h:18-28"]}
{"id": "C108", "title": "Registers can be renamed", "statement": "If a source is accepted, then the source with the same tokens, in which each register is replaced by another one so that RZ stays RZ and nothing else becomes RZ, is accepted by the build without assertions. The output has the same size and the same control words. If the number 2^20 does not occur in the source, then the output holds the registers of the source in turn in bytes of its words, the other output holds the replaced registers in the same bytes, and all other bits are the same. (`IADD3 R0, R1, 0x100000, R2` puts a bit of that number into the byte of R2.) If the replacement can be undone, one source is accepted if and only if the other one is. If moreover the number 2^20 does not occur, the source is accepted by the build with assertions and both have as many semicolons, comments included, that build accepts the other source too.", "quantifier": "for all sources, label maps and renamings", "why_tests_cant": "There are as many renamings as functions on 255 registers, and the claim compares two runs over all sources.", "anchors": ["src/helper.cpp:85-110", "src/operand.h", "src/table.h", "src/parse.cpp:106-180"]}
{"id": "C109", "title": "Predicates can be renamed", "statement": "If a source is accepted, then the source with the same tokens, in which each predicate is replaced by another one so that PT stays PT and nothing else becomes PT, is accepted by the build without assertions. The output has the same size and the same control words; it holds the predicates of the source in turn, guards included, in three bits of its words, the other output holds the replaced predicates in the same bits, and all other bits are the same. If the replacement can be undone, one source is accepted if and only if the other one is. If moreover the source is accepted by the build with assertions and both have as many semicolons, comments included, that build accepts the other source too.", "quantifier": "for all sources, label maps and renamings", "why_tests_cant": "The claim compares two runs over all sources and all functions on the predicates.", "anchors": ["src/parse.cpp:16-28", "src/operand.h:309-335", "src/table.h"]}
{"id": "C110", "title": "Instructions are translated one by one by one function", "statement": "There is one function from the tokens of an instruction, its number in the source and the labels to a code (word, reuse flags and annotations), partly defined, such that a source of instructions is accepted by the build without assertions exactly if the function is defined for each of them, and its image is then their codes in groups of three. For instructions that are no branches the function depends on the tokens only; for branches that are not to a number it depends on the distances to the labels only. So instructions of an accepted source that are no branches can be put in any order, repeated and left out, each keeping its code, and with assertions too if the other source has as many semicolons as instructions. (Branches to numbers depend on where they are.)", "quantifier": "there is a function, for all sources of any number of instructions, all labels and all numbers", "why_tests_cant": "The claim is that one function serves all sources of any length and order; a test sees one source, in which the encoding of an instruction could still depend on those before it.", "anchors": ["src/nxas.cpp: nxas::assemble", "src/parse.cpp: parse_instruction", "src/operand.h:122-152"]}
{"id": "C111", "title": "Where the options stand does not matter", "statement": "The tokens of an accepted source are instructions and options, in one way. A source with the same instructions in the same order and the same labels, and with options that are some of those of the accepted one, at any places between the instructions, in any order and any of them more than once, is accepted and has the same output, provided that the declaration of the program type is kept, that of each size (.workgroup_size, .shared_memory, .local_memory) the last one is the same, and that each option is in a line of its own which is not the last. With assertions as many semicolons are needed as before. (The last size counts; an option and an instruction in one line are rejected.)", "quantifier": "for all accepted sources, all orders and places of their options", "why_tests_cant": "The claim is about all orders and places of options among any number of instructions.", "anchors": ["src/options.cpp", "src/nxas.cpp: nxas::assemble", "src/dksh.cpp"]}
{"id": "C112", "title": "The code in a container can be cut out without knowing its size", "statement": "In the image of a source without container every word that is not a control word is at least 2^56; so code never ends in zeros. The words behind the first 32 of a container, without the zeros at their end, are as many as the groups of the source need, and they are exactly what the same program is assembled to with .type in the place of .dksh. (The bound 2^56 is reached, and control words can be 0.)", "quantifier": "for all accepted sources", "why_tests_cant": "The claim needs that no choice of operands of any instruction gives a word that looks like padding.", "anchors": ["src/dksh.cpp", "src/nxas.cpp: nxas::assemble", "src/table.h:1-303"]}
{"id": "C113", "title": "There are several ways to write an instruction", "statement": "A source with the instructions and labels of an accepted one, where in any of the instructions @PT and @WAIT 0 are written or left out, the annotations are in another order and @Y is written @YIELD, is accepted and has the same output, also if its options are arranged as in C111. With assertions as many semicolons are needed as before. The relation is symmetric, so both sources are accepted or none. (No other annotation and not @!PT can be left out.)", "quantifier": "for all accepted sources, all ways to write any number of their instructions", "why_tests_cant": "The claim is about any number of instructions written in any of these ways, in sources with labels, options and containers.", "anchors": ["src/parse.cpp", "src/nxas.cpp: nxas::assemble"]}
{"id": "C114", "title": "Reuse flags can be left out", "statement": "A source with the instructions and labels of an accepted one, all registers without .reuse, is accepted by the build without assertions, and its output is that of the first one with the bits 17 to 20 of each of the three parts of the control words cleared; everything else, also the rest of a container, is the same. Its options may be arranged as in C111.", "quantifier": "for all accepted sources, with and without container", "why_tests_cant": "The claim is about any operands of any number of instructions.", "anchors": ["src/operand.h:1-1828", "src/parse.cpp", "src/nxas.cpp: nxas::assemble"]}
