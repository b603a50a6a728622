# Design

Subject: nxas, a Maxwell GPU assembler (C++), /repo. The model and the proofs are in
`lean/Verif`.

## Model

The model is a function-by-function transcription of the code; every definition cites file and
lines.

| file | code |
|---|---|
| `Model/Basic.lean` | character classes (context.cpp), tokens (token.h) |
| `Model/Float.lean` | IEEE conversions used by the code (library/hardware), fp16.h |
| `Model/Lexer.lean` | context.cpp: tokenizer, label pass; `strtoll`, `strtof` (C library) |
| `Model/Core.lean` | opcode.h, helper.cpp basics; state, outcomes, the operand monad |
| `Model/Operand.lean` | operand.h and helper.cpp operand parsers, as a syntax `Operand` with an interpreter `Operand.run` |
| `Model/Operands.lean` | the named operands of operand.h (generated from the text of operand.h, then checked by hand) |
| `Model/Table.lean` | the 265 rows of table.h (generated from its text) |
| `Model/Parse.lean` | options.cpp, parse.cpp |
| `Model/Assemble.lean` | nxas.cpp, write.cpp, dksh.cpp, command_line.cpp |
| `Model/Dksh.lean` | dksh.cpp once more, byte by byte, with all members of the context |
| `Model/Memory.lean` | context.cpp: the tokenizer and the label pass once more, on a string with characters behind a NUL |
| `Model/World.lean` | command_line.cpp on files that change, have no size or are full |
| `Model/Error.lean` | error.cpp: buffers of messages; `printf` (C library) for the conversions in use |
| `Model/Trace.lean` | error.cpp, parse.cpp: the errors built for rejected table rows, reported or not |
| `Model/Tester.lean` | tests/tester.cpp |

Outcomes are distinct: success, returned error (with the mutated state), `exit` with a
diagnostic, failed `assert` (`abort`, only in debug mode), undefined behaviour with its reason.
The build mode (assertions compiled in or not) is a parameter, so both are covered.

As a fidelity check (a test, not a proof) `Verif/RepoTests.lean` runs the model on all 1085 positive
and 25 negative cases of /repo/tests/CMakeLists.txt with the expected result of each.

## Specifications, lemmas and properties

`Spec` contains notions that do not use the functions of the model, or only `tokenize` and the table:

| file | notion |
|---|---|
| `Spec/Text.lean`, `Spec/Lexical.lean`, `Spec/Tokens.lean` | lines, words and tokens of a text; `Scans` gives the tokens of a whole text without the cursor of the model |
| `Spec/Fields.lean` | which bits of a word each kind of operand may change |
| `Spec/Grammar.lean`, `Spec/Syntax.lean` | the tokens accepted by each kind of operand and the bits they stand for, then annotations, rows and instructions |
| `Spec/Synonyms.lean` | when two lists of tokens are the same operand |
| `Spec/Plain.lean` | the combinations of operands that other operands encode as well |
| `Spec/Forms.lean` | the opcodes of the forms of an instruction with a register, constant or immediate |
| `Spec/Settings.lean`, `Spec/Source.lean`, `Spec/Program.lean`, `Spec/Compose.lean` | options, containers and whole sources; `Assembles t ws` |
| `Spec/Undefined.lean` | the beginnings of sources that lead to undefined behaviour |
| `Spec/Ending.lean` | the beginnings of programs after which the parser asks for another token |
| `Spec/Clash.lean` | the beginnings of sources that lead to a failing assertion |
| `Spec/Written.lean` | the tokens that can be written, and layouts of tokens and labels |
| `Spec/Targets.lean` | sources whose tokens differ in the targets of branches |
| `Spec/Messages.lean`, `Spec/Reports.lean` | what messages say about their place, and which messages are reported |
| `Spec/Locality.lean`, `Spec/Flow.lean` | where instructions are in the code, and where branches lead |
| `Spec/Floats.lean` | rounding to nearest even over the rationals |

The main result is `C58_refinement`: the release build accepts exactly the sources of the grammar and
writes their images. Most properties of words are proved from the grammar rather than from the code.

`Lemmas` contains the proofs about the model, `Props` the property theorems (named after the property),
each with a concrete case as `example`. Properties which the code violates have a theorem `_violated`
with a witness evaluated by the kernel and a theorem `_partial` for the largest fragment that was found to hold.

Checks of the whole instruction table are evaluated by the kernel (`decide +kernel`); the table is a constant
of the code, so that these are proofs for all rows. They are split to keep the memory below 5 GB.

`AXIOMS.md` lists the axioms of every theorem of the manifest.

## Trusted base

* Lean's kernel; the axioms `propext`, `Classical.choice`, `Quot.sound`. No other axiom, no `sorry`,
  no `native_decide`, no `bv_decide`.
* That the model transcribes the C++ code. Simplifications:
  - source bytes are Lean characters (every byte string is covered, and more);
  - `line`, `column`, `pc` are unbounded naturals (the code: `int`, `int`, `int64_t`); C74 proves that they fit
    these types for all sources of less than 2^29 characters;
  - a diagnostic is its position, its format string and its arguments. Formatting it is a separate step
    (`printf` in `Model/Error.lean`, C72), so that the mismatched variadic arguments (`%d` with `int64_t`,
    `%.*s` with `size_t`), which are formally undefined, are not an outcome of `assemble`. The code formats
    the errors of rejected table rows as well, even if a later row accepts the instruction (`Model/Trace.lean`, C85);
  - `unordered_map` is an association list; `std::vector` allocation never fails;
  - bit-field layout and `memcpy` of structs are those of the little-endian platforms the code targets; `sched.raw` is read after `sched.values` has been written (src/opcode.h:28-40, src/parse.cpp:95-102, src/nxas.cpp:15-23), which the C++ standard leaves undefined and the compilers the code targets define as reading the bits that were written;
  - `float`/`double` are IEEE with round-to-nearest-even; `strtoll` is the C17 one (newer glibc also
    accepts a `0b` prefix);
  - the text ends at its first NUL. The code can step over a NUL inside a `std::string` (after the letter of a predicate, and in
    the label pass after a bare word) and then goes on in defined memory, while the model says `readPastEnd`. C94 proves that
    these are the only differences for the lexer. The command line only passes strings without NUL;
  - `mainProgram` has no short reads or write errors; `mainWorld` (C75) has them.
* Not modelled: CMake files, conversions of `printf` that no message uses, memory allocation, `stg::size` and the template
  `int_sign<address>` (unused).

## Properties

* **C01** Decoded instructions never overflow the instruction buffer. Invariant: every accepted instruction consumes at least one `;` of the text, so the loop stops before the room counted from the whole string runs out. Proved for every table of instructions whose operands never step over a `;`.
* **C02** A source that ends in a newline, blank or operator is never read past its end. Invariant "the remaining text is empty or ends in a separator" is kept by every cursor move; under it `tokenize` and the label pass never return `readPastEnd`.
* **C03** Assembling always terminates. All loops of the model are bounded by fuel computed from the text length; proved that the bound is never exhausted (`UB.fuel` is unreachable).
* **C04** The label pass reads past the end exactly on sources whose last line is a bare word. Both directions, by induction on the lines of the text.
* **C05** No undefined behaviour on any input (violated). Negation by concrete sources, one per kind of undefined behaviour (evaluated by the kernel); `_partial` for the safe fragment; `C05_exact` gives the safe sources exactly, by the specifications of C73 and C76.
* **C06** One instruction per semicolon. Upper bound as in C01; the assertion gives equality. Counterexample for release builds evaluated by the kernel.
* **C07** The i-th instruction is emitted at word i + i/3 + 1. Induction over the emission loop.
* **C08** Control words carry the scheduling data of their three instructions, losslessly. Bounds on the scheduling and reuse values of every accepted instruction, bit-vector algebra.
* **C09** Incomplete groups are padded with default scheduling and NOP. Induction over the emission loop.
* **C10** A source without instructions assembles to nothing. Induction over the text; the label pass is covered by C04.
* **C11** Instructions are assembled independently of what surrounds them. Locality of `tokenize` (the tokens of `a` are the same in `a ++ b`), position independence of every operand but `label`.
* **C12** Decimal, hexadecimal and octal literals denote their value. Induction on digit strings; specification by a separate renderer (`Nat.toDigits`-like) and evaluator.
* **C13** Literals outside the 64-bit range are never encoded as another value. Saturated value is outside every accepted range; whole-table check of the ranges. Negation for options. `C13_exact` says where such literals are accepted: in options and as floating point operands.
* **C14** Register names denote their index. Induction on digits.
* **C15** Predicate names denote their index and negation. Case analysis.
* **C16** Layout does not matter. Simulation between the two runs (equal token kinds).
* **C17** A label denotes the address of the instruction that follows it. Label pass counts characters, instruction pass counts instructions; both related to the number of `;` consumed.
* **C18** Labels are exactly the words followed by ':' at the start of a line. Specification by splitting the text in lines; induction.
* **C19** The first definition of a duplicated label wins silently. Same specification.
* **C20** Branch displacements decode to their target. Integer and bit-vector arithmetic.
* **C21** Out-of-range and undefined branch targets are rejected. Case analysis on the token.
* **C22** Instruction words contain only bits of their operands. Static mask per operand (specification), soundness of masks by symbolic execution of each operand; lifted to rows and `assemble`.
* **C23** The guard predicate is stored in bits 16..19. Masks of all rows avoid bits 16..19 (whole-table kernel check), C22.
* **C24** Instructions without predication reject guards (violated for @!PT). Negation by witness; `_partial` for the index bits.
* **C25** Internal bit-overlap assertions never fire for table rows with disjoint fields. Masks pairwise disjoint (whole-table kernel check) implies no overlap; witnesses for the other rows.
* **C26** A source accepted with assertions gives the same output without. Every primitive agrees in both modes unless the debug one aborts; lifted through the monad.
* **C27** Unsigned immediates are range checked and stored exactly. Operand semantics against a field decoder.
* **C28** Signed immediates are range checked and stored in two's complement. Same.
* **C29** Extended unsigned immediates stay inside their field (violated at 0x100000). Witness and `_partial`.
* **C30** Constant buffer operands decode to their slot and offset. Same as C27.
* **C31** Memory operands decode to their base register and offset. Same as C27.
* **C32** 32-bit float immediates are the nearest binary32 value. Rounding specified over the rationals.
* **C33** Half-precision immediates are rounded to nearest even. Rounding specified over the rationals/integers, proof by cases on the exponent.
* **C34** Negative zero keeps its sign in floating point immediates (violated for double and 9-bit half). Witness and `_partial`.
* **C35** Mirrored registers must be equal. Operand semantics.
* **C36** Reuse flags are recorded exactly for the registers marked .reuse. Operand semantics.
* **C37** Scheduling annotations are encoded as written. Induction over the list of annotations, rendered as tokens.
* **C38** Duplicate or out-of-range annotations are rejected. Same.
* **C39** The order of scheduling annotations is irrelevant. From C37/C38.
* **C40** The first matching table row decides, and failed alternatives leave no trace. Induction over the table; the specification runs each row on a fresh copy of the state.
* **C41** Unknown mnemonics are rejected. Induction over the table.
* **C42** No text is silently ignored at the end. Invariant of the parse loop.
* **C43** Diagnostics point into the source. Invariant of the cursor.
* **C44** The reported error comes from the alternative that got furthest. Induction over the table.
* **C45** Only compute programs can be written. Case analysis of the container code.
* **C46** The program type is declared at most once. Invariant of the option loop.
* **C47** Declaring a raw compute program does not change the code. Simulation.
* **C48** The DKSH container embeds the raw code unchanged. Case analysis.
* **C49** DKSH header fields describe the program. Case analysis, decoding 32-bit fields.
* **C50** The DKSH file size matches its header (violated for multiples of 256 bytes). Witness and `_partial`.
* **C51** The DKSH entry point is the aligned label main. Case analysis.
* **C52** The register count option works (violated). Negation for every source that starts with the option.
* **C53** The command line accepts input and -o output in any order and nothing else. Induction over the argument list.
* **C54** The output file is the little-endian image of the words, written only on success. Case analysis, byte decoding.
* **C55** The command line ignores everything after a NUL byte. Idempotence of C-string truncation.
* **C56** Every modifier and system register name encodes its table index. Whole-table kernel check of duplicates plus the general search lemma.
* **C57** Every table row can be selected. One source per row, evaluated by the kernel (the table is finite, the check is exhaustive).
* **C58** The assembler accepts exactly the sources of its grammar. Denotation of every monadic primitive as a relation on tokens, composed along operands, rows, instructions, options and the source.
* **C59** The release build never aborts, and rejects or accepts. Absence of `abort` by induction on the monadic primitives.
* **C60** Half immediates are the nearest half precision number (violated by double rounding). Witness; `_partial` for literals that are binary32 numbers.
* **C61** Double immediates hold the upper bits of the nearest binary64 number (violated for fractions). Witness; `_partial` for integers and binary32 numbers.
* **C62** A word determines its mnemonic. Whole-table kernel check of the fixed bits of all pairs of rows, C22.
* **C63** The order of the operands is encoded (violated by `ICMP`). Witness; `_partial` for all other rows.
* **C64** The test driver is sound. The source ends in `;`, so that something is decoded; the expected word is read by a specification of numerals.
* **C65** Error messages are complete. Buffers as lists, `snprintf` as truncation; a write outside of the buffer is a distinct outcome.
* **C66** The output determines the operands (violated by `IADD.PO`). Witness; `_partial` for all operands that share no bit with another operand of their row, for whole rows, instructions and programs; `C66_plain_partial` for all rows and all instructions that use none of the six combinations of `Spec/Plain.lean`, each of which collides with another instruction (`C66_collisions`, `C66_collisions_release`).
* **C67** The output determines the annotations. Each annotation is read back from its field; only `@WAIT 0` is the same as no annotation.
* **C68** The output determines the instructions. The slots of the groups are read back from the words; programs may differ in trailing `NOP`s.
* **C69** The forms of an instruction differ in the upper bits only (violated by `ICMP`). Whole-table kernel check of all pairs of rows with the same mnemonic, C22; witness; `_partial` for all other mnemonics.
* **C70** The order of the instruction table does not matter. Each operand is over-approximated by a finite list of token shapes (proved sound against the grammar); the shapes of all pairs of rows with the same mnemonic are disjoint (whole-table kernel check of a product construction).
* **C71** Error messages are true (violated by five messages). The messages and what they claim about the token they point at are a specification (`Spec/Messages.lean`); a calculus of preconditions for the operand monad shows it for every error; witnesses; `_partial` for all other messages.
* **C72** Printing an error is defined (violated by four messages). A model of `printf` with argument types; witnesses; `_partial` for all other messages; what is printed on 64-bit Linux.
* **C73** The undefined behaviours and their causes. A grammar of the tokens up to the one that cannot be dealt with (`Spec/Undefined.lean`); both directions, with a whole-table kernel check that rows with the same mnemonic reach the same faulty operand.
* **C74** The counters of the assembler fit their types. Bounds on the positions after a beginning of the text; a family of sources with large columns shows that the bound is sharp.
* **C75** The exit status tells whether the output has been written (violated on a full disk). Case analysis of `mainWorld`; that blanks at the end of a source do not matter is proved from the grammar (`Lemmas/Padding.lean`).
* **C76** The sources read beyond their end. The tokenizer does so exactly at a final `P`, `p`, `!P` or `!p`; the beginnings after which another token is asked for are a grammar (`Spec/Ending.lean`) proved exact row by row, and a whole-table kernel check shows that rows tried before with the same mnemonic do not get in the way. The search for labels does so exactly if the last line is a bare word.
* **C77** The outcome on every source. C58, C59, C73 and C76 together: valid, read beyond the end, another undefined behaviour, or a diagnostic, and never two of them.
* **C78** Everything the grammar describes can be written. A text is constructed for every token, with blanks or line ends in front of each and labels at the beginning of lines; binary32 numbers are written with 149 digits after the dot, which are exact, so that the proof that literals are rounded to nearest gives back the number. The other direction is read off the lexical grammar.
* **C79** The sources on which an assertion fails. The tokens up to the one that stands for a bit already set are a grammar (`Spec/Clash.lean`); a kernel check over the table shows that only five kinds of operands can fail (signs, words, registers, boolean operations, parts of registers), and another that a row tried before with the same mnemonic fails with a message or by an assertion too, following both rows through the same tokens while their words differ. With C58, C73, C76 and C77 this gives all outcomes of the debug build.
* **C80** Half immediates are wrong only beside a tie. Rounding twice is analysed for any two formats of which the finer one has the middles of the coarser one; a number is nearest if its two neighbours are not nearer.
* **C81** Double immediates of fractions are wrong by at most one unit. The numbers of eight mantissa bits are binary32 numbers, the middles of binary32 numbers are binary64 numbers; monotonicity of both formats.
* **C82** The numbers of options are encoded as written (violated). From C49; witnesses; `_partial` is an equivalence that says exactly for which numbers it holds.
* **C83** Sources with labels can be put one after the other. Labels of the first text are found first, those of the second move by whole groups; the rows of the table are disjoint (C70), so a known label never makes another row fit.
* **C84** The names of labels do not matter. Tokens related by `Retargets`; the target is the last token before annotations or the semicolon, and no other operand accepts the mnemonic of a branch (whole table). Labels replaced by numbers are written down by C78.
* **C85** Accepted sources format no message with arguments of the wrong type. The operands of a row that can end in such a message are listed with the tokens that lead there (`breaks`); a kernel check over all pairs of rows of one mnemonic shows that no instruction of the later row begins with such tokens (`table_unbroken`). `C85_rejected`: rejected sources can, even when the message that is reported is another one.
* **C86** What follows the first error does not change the diagnostic (`Props/Prefix.lean`). The lexer on a text that ends with a semicolon reads the same tokens when the text is continued (`Lemmas/Extend.lean`), and no parser moves past a semicolon, so that the runs on the text and on its continuation go the same way (`Lemmas/Twin.lean`: a relation between two runs, one lemma for each parser). Needed: the continuation defines no new label (`C86_label`), and the character before the semicolon is not a `P`, which would swallow it (`C86_swallowed`: `P;` is rejected, `P;:` is a label).
* **C87** Instructions, guards and annotations can be changed one by one (`Props/Locality.lean`, spec `Spec/Locality.lean`). `C87_local` compares two accepted sources; `C87_guard` and `C87_annotations` also conclude that the changed source is accepted. They rest on facts about every operand of the table (`Lemmas/Orthogonal.lean`): none writes or reads bits 16 to 19, and none distinguishes the `@` of an annotation from the semicolon. `Program.kinds` says that the tokens without their lines determine the instructions. A guard cannot be put on the four mnemonics of C24.
* **C88** Only the rows of the mnemonics of a source matter, and the table can be extended (`Props/Tables.lean`). The loop over the rows passes over the rows of other mnemonics without a trace, and the mnemonic is a part of the text. An accepting row is found before the appended ones.
* **C89** A branch leads to the instruction behind its label (`Props/Flow.lean`, spec `Spec/Flow.lean`; violated in release builds). `C89_branch_partial`: in both builds the target is the instruction whose number is the number of semicolons in front of the label. `C89_reached`: with assertions it is the first one that ends behind the label. `C89_violated`: without assertions the semicolon of a label `P;:` is counted, and a branch leads to itself. `C89_next`: the instruction after another one is the next one of the source.
* **C90** Integers given as float immediates are encoded exactly or rejected (`Props/Exact.lean`; violated). `C90_wide_partial` and `C90_short_partial`: the sign is right, and the number is exact if and only if it has at most 24 (12) binary digits. From C32: the pattern is the nearest one, and the patterns are in order. `C90_violated`: the neighbours 2^24 and 2^24 + 1 have the same words, and the message for this case is never reported.
* **C91** The messages that can be reported (`Props/Reported.lean`, spec `Spec/Reports.lean`). A witness for each of the 81 messages; for the converse a calculus of the messages a parser can end in (`Lemmas/Loud.lean`), with a kernel check over the table that a row in which one of the silent messages arises is always outdone by another row of its mnemonic, which fails later or accepts.
* **C92** A diagnostic is about the first instruction that is rejected (`Props/First.lean`). A calculus of the tokens that a parser reads and blames (`Lemmas/Stay.lean`): no parser goes past a semicolon, and a diagnostic names a token that was read or the place where none is. `C92_first` and `C92_accepted` say it in tokens, `C92_text` in characters; the latter needs the condition `Apart` on the text, because an initial `P` swallows a semicolon (`C92_swallowed`).
* **C93** The container in memory (`Model/Dksh.lean`, `Props/Dksh.lean`). A second, finer model of src/dksh.cpp: objects are lists of bytes, `memset`, `memcpy` and every assignment to a field are done at byte offsets, sizes are computed in 64 bits, and all members of the context are there. `C93_refines`: with the members that no code assigns at their initial values this is `writeDksh`, for all options, labels and sizes. `C93_fields` and `C93_dual` are about all values of all members.
* **C94** What is behind a NUL in the string (`Model/Memory.lean`, `Props/Memory.lean`). The lexer once more, on the whole buffer of a string, where the end is the character NUL and only a step beyond the terminating one is undefined. `C94_exact`: without a NUL in the string the two lexers agree. `C94_tokens`, `C94_labels`, `C94_step`: with a NUL they agree wherever the model is defined. `C94_beyond` and `C94_gap` say what happens elsewhere.
* **C95** Which bits can be set and unset (`Spec/Fixed.lean`, `Lemmas/Cover*.lean`, `Props/Tight.lean`). The footprint of C22 is exact: `C95_set` and `C95_always` are equivalences. From left to right they follow from the footprints and from the meaning of the operands; from right to left from about 800 sources, three for a row on average, which together set and unset every bit that the specification allows (`covers`, evaluated by the kernel for all rows).
* **C96** A disassembler (`Lemmas/Disasm*.lean`, `Props/Disasm.lean`). Not a part of the code: it is written here, and proved to be an inverse of the assembler. For a word it goes through the rows of the table, proposes tokens for every operand from the bits, and asks `parseInstruction` whether one of the choices gives the word with its control bits back. `C96_sound` follows from this check and from the lexical grammar (every token is written with a blank in front). `C96_complete` says that the proposals are never too few: for every operand, the tokens that gave the word may be replaced by proposed ones with the same bits (`texts_complete`), which for half and double immediates needs that some binary32 literal has any given upper bits. `C96_image`: it decides which words are the image of a source without container.
* **C97** Which words are an image (`Lemmas/DisasmDksh.lean`, `Props/Decide.lean`). The settings are read from the header and rounded sizes are given back as they are; they have the same header (`read_back`). The label `main` stands at the beginning, after as many labels `P;:` as its address needs: each of them counts as an instruction when addresses are computed (C89), so that entry points outside the code, which release builds accept, can be written too. `C97_apart`: the third word of a header is constant, and a kernel check over the table shows that no row has it.
* **C98** Sources and containers put together (`Props/LinkDksh.lean`). As C83; the label `main` is found in the first text, or in the second one and moved by whole groups, so that it is still a multiple of 32.
* **C99** Insertion and removal of lines without tokens (`Props/Insert.lean`). The tokens before and after are the same up to the lines of those behind; options only compare lines, and no token in front of the place is in a line with one behind it. The label maps agree on all names that the inserted text does not define.
* **C100** Sizes (`Props/Room.lean`). The instructions are as many as the `;` tokens, which are at most as many as the characters `;`. For the bound on the output, every instruction has a mnemonic of at least three characters (whole-table check) and a semicolon, and tokens do not share characters.
* **C101** Where the code is entered (`Props/Room.lean`, partial: a label behind the last instruction of a full group is outside the code). The exact condition in sources accepted with assertions, for entry points and for branches to labels.
* **C102** Assertions, instruction by instruction (`Spec/Solid.lean`, `Lemmas/Solid.lean`, `Props/Solid.lean`). The clashes of C79 do not depend on the address and the labels, because a target is always the last operand of a row (whole-table check). A clash is at most one token longer than the part of the instruction it needs, so it never reaches over the semicolon. With the splitting of the tokens into options and instructions, debug versions of C16, C83, C98 and C99 follow.
* **C103** The same images with and without assertions (`Lemmas/Mend.lean`, `Lemmas/Flee.lean`, `Lemmas/Placid.lean`, `Props/Placid.lean`). `mend` replaces the operands on which an assertion fails by others with the same word, row by row (`table_mendable`, a whole-table check lifted by a lemma: a row either has disjoint fields, or each operand that can clash can be left out or written without the part that sets the bit again). `flee` shows that no other row of the mnemonic fails an assertion before it rejects the text (`table_flee`). Sources with a container are the subject of C104. `C103_case` is an instruction for which both the source and what the disassembler of C96 gives fail an assertion, so the theorem does not follow from C96.
* **C104** Containers with and without assertions (`Lemmas/Entry.lean`, `Props/Entry.lean`). A build without assertions counts the semicolons in names such as `P;:` for the address of `main`, so that the entry point can be anywhere; with assertions there are as many semicolons as instructions, which keeps it inside the code or at its end. `calm_container` writes a source with the label between the instructions for each such entry point. The number of groups is read from the image: no instruction is 0 (`no_zero`, a whole-table check), and only zeros follow the code. `C104_differ` is a container of the release build that no source has in the debug build.
* **C105** Images are put together from instructions (`Lemmas/Shift.lean`, `Props/Shift.lean`). `IsImage d ws` says that some source without container has the image `ws`. `instr_shift` moves an instruction to any other address; a branch gets the moved address as a number for its target. Together with the disassembler (C96) and C103 this shows that whether words are an image is decided group by group and instruction by instruction (`alone`).
* **C106** Which words are containers (`Props/Contents.lean`). `IsContainer d ws` says that some source with container has the image `ws`; `packed` puts header, code and padding together. `C106_code` and `C106_exchange` are stated with words only: the first 32 words, the code up to the last word that is not 0 (`codeSize`) and the rest.
* **C107** Which annotations, reuse flags and guards go with an instruction (`Props/Slots.lean`). Stated with words and their 21 bits of the control word only, by way of `alone` (C105). `C107_schedule` says which annotations are possible, `C107_reuse` that reuse flags can be dropped (they cannot always be added: that depends on the operands), `C107_guard` and `C107_guards` which guards are possible; the third case of the latter is that the word is no instruction whatever its guard is.
* **C108** Registers can be renamed (`Props/Rename.lean`). `C108_rename` takes two sources whose tokens differ by a `Renaming` (RZ stays RZ, nothing else becomes RZ: the range of an offset to an address depends on whether the register is `RZ`, operand.h:415-430, and the swizzle of `TEXS` on whether the second destination is) and equal label maps. The conclusion is a `Layout.Image`: a list of places, one for every register token of the source and in the order of the tokens, at which the first output holds the register and the second one the renamed register, and outside of which the outputs agree. The exception for the number 2^20 is not one of the proof: `C108_violated` shows that in `IADD3` with an immediate its highest bit ends up in the lowest bit of the third register (rows with overlapping fields, C25, C29), so that no renaming relates the outputs. Acceptance is by the build without assertions, since with that number the overlap assertion depends on the register (`C108_asserts`: `R2` passes, `R3` aborts). `C108_accepted` is the equivalence for renamings that can be undone, and `C108_debug` says that for these, and without that number, the build with assertions accepts the other source as well.
* **C109** Predicates can be renamed (`Props/Trade.lean`), in the same form as C108 and without an exception. `PT` has to stay: it is the only guard of the instructions without predicated execution. The predicate of `LDG` is stored as the difference to 7 (`inverted_pred`), which the layout says. For a renaming that can be undone the build with assertions accepts the other source too (`C109_debug`): no row lets a predicate share a bit with another part, so what clashes does not depend on the predicates.
* **C110** Instructions are translated one by one by one function (`Props/Translate.lean`). `C110_function` gives the function before the sources: acceptance and image of every source of instructions are then an equivalence. The function is chosen from the grammar, which is unambiguous for tokens that can be written (`instr_unique`). `C110_order` and `C110_debug` follow for sources whose instructions are among those of an accepted one; `C110_branch` shows that numeric branches have to be left out.
* **C111** Where the options stand does not matter (`Props/Arrange.lean`, specification in `Spec/Arrange.lean`). `Listed` takes the tokens apart into instructions and options; `Neat` says the same with lines, for the source that is claimed to be accepted; `Rearranged` is the condition on the options. Each setting is determined by the last option of its kind (`chain_last`), and whether options are accepted depends on the others only through the declaration of the program type (C46). `C111_last` and `C111_lines` show that the conditions are needed.
* **C112** The code in a container can be cut out without knowing its size (`Props/Cut.lean`, specification in `Spec/Cut.lean`). Every row has an opcode bit in the highest byte that none of its operands clears (`table_marked`, over the whole table), so no instruction word looks like padding; the filling `NOP`s are checked likewise. `C112_cut` then needs no count of instructions to find the end of the code. `C112_sharp` shows that the bound is reached and that control words have to be left out.
* **C113** There are several ways to write an instruction (`Props/Spell.lean`, specification in `Spec/Spell.lean`). `Spelled` compares the annotations as sets without `@WAIT 0`, and guards with `PT` as default. The claim is about whole sources and includes C111. With assertions as many semicolons are needed (`C113_debug`): what clashes is decided before the annotations, and depends on the value of the guard only. `C113_iff` is the equivalence for two sources with the same options. `C113_needed` shows that the other annotations and `@!PT` cannot be left out.
* **C114** Reuse flags can be left out (`Props/Strip.lean`, specification in `Spec/Strip.lean`). That `.reuse` is read only as a mark of a register is checked for the operands of the whole table (`table_strippable`); labels cannot have this name. The claim is about the build without assertions.

## Disagreements between the code and the properties

Found while proving; each has a theorem with a witness.

* C05: `NOP` without a final newline, `LDG.X R0, [R1];`, `S2R R0, R1;`, `BRA -0x8000000000000000;` and `.local_memory 0x3fffff0` are undefined behaviour of five kinds (`C05_violated`).
* C12: a literal followed by `+`, `-` or `.` does not end there (`5+3` is rejected, `5.` is a float), so that these are excluded from the separators.
* C13: an integer literal above the 64-bit range is encoded as 2^63 where a float is expected (`FADD32I R0, R1, 100000000000000000000;`).
* C24: `@!PT` is accepted where no guard is allowed.
* C29: `0x100000` is accepted as a 20-bit number.
* C34: negative zero is lost in double and 9-bit half immediates.
* C50: a program whose size is a multiple of 256 bytes gets 256 bytes that its header does not account for.
* C52: `.num_gprs` has an inverted test, so that every use of it is rejected.
* C60, C61: fractions are read as binary32 first.
* C63: `ICMP` with the constant before the register has the opcode of the row with the register before the constant.
* C66: `IADD R0, -R1, -R2;` is encoded like `IADD.PO R0, R1, R2;`, and nothing is reported. The complete list of such combinations: two of `.PO`, `-` and `.NEG`; a lone dot as format or comparison (`VMNMX. .S32` is `VMNMX.S8.S32` with `.B2`, `VSETP. .AND` is `VSETP.F.OR`); `.B2` and `.B3` of an operand of 32 bits (release only); `0x100000` in `IADD3`; `.BA` of `SUST.D` (release only); `.LL` of `TLDS` with `3D` and `ARRAY_2D`, which is encoded like `.LZ`.
  `SUST.D.BA` is encoded like `SUST.D` in release builds, because both set bit 52 (`SULD` has `.BA` at bit 23).
* C69: `ICMP` with a constant as second source (src/table.h:182) has the opcode of the form with a constant as third source.
* C71: `expected .P or .B` is said of `.B` in `SUST.B.2D.IGN [R0], R1, 0x0;`, a list with `.64` of `.64` in `LDG.U.64 R0, [R2];`,
  a list with `.U32` of `.U32` in `ATOM.ADD.F32.U32 R0, [R2], R1;`, `expected floating-point literal, QNAN, or INF` of `1.0` in
  `FADD32I R0, R1, - 1.0;` and `expected number of general purpose registers` of `5` in `.num_gprs 5`.
* C72: the range message prints an `int64_t` with `%d` (src/helper.cpp:57); three messages give `size_t` lengths to `%.*s`
  (src/operand.h:62, 130, src/parse.cpp:182). On 64-bit Linux `MOV32I R1, 0x100000000;` is rejected with "integer 0 is out of range,
  expected to be from 0 to 4294967295 inclusively".
* C75: on a full disk the program ends with status 0 and an incomplete output file.
* C82: `.shared_memory 0x100000001` is accepted and reserves 256 bytes, `.shared_memory 0xffffffff` none, `.workgroup_size -1 1 1` asks
  for 4294967295 threads.
* C89: in a release build the source `P;:`, `L:`, `NOP;`, `BRA L;` (four lines) is accepted, and the branch leads to itself.
* C90: `FADD32I R0, R1, 16777217;` is accepted and encodes 16777216. The test in src/helper.cpp:157 compares an `int64_t` with a `float`, so that the integer is converted again and the two are always equal. (For the 20-bit form a comment in the code says that losses are not reported yet.)
* C91: seven alternatives (`expected .P`, `.PHYS`, `.WARP`, `.RESULT`, `.HI`, `.L`, `.B` at src/operand.h:496, 506, 582, 593, 1360, 1389, 1514) are never reported because another row gets as far; neither is the message of src/helper.cpp:158 (see C90), nor `no type provided` of src/dksh.cpp:85, because `.dksh` cannot be given without a type.
* C101: `.dksh compute`, `NOP;NOP;NOP;`, `main:` is accepted, and the container is entered at the zeros behind its code; `NOP;NOP;BRA L;`, `L:` branches behind the end of the output.
