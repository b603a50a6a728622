import Verif.Spec.Lexical
/-
The diagnostics of the assembler: the formats of all messages that it can report, and of those that its source code contains and that
it can never report.
-/

namespace Nxas.Spec

/-- The formats of the messages that are reported for some source. -/
def reported : List String :=
  ["%s barrier already specified", "%s does not support predicated execution", "1D has no AOFFI", "1D has no MS",
   "1D is only valid with LZ and no-DC", "3D can only have the default lod or LZ", "3D cannot be DC",
   "AOFFI and MS can't be used at the same time", "AOFFI can't be used in 3D", "AOFFI can't be used in ARRAY_2D",
   "CUBE can only have the default lod or LL", "CUBE cannot be DC", "DC ARRAY_2D is only valid with LZ",
   "LL ARRAY_2D is illegal", "LL can't be used with MS in 2D", "MS can't be used in 3D", "MS can't be used in ARRAY_2D",
   "barrier index must be between 0 and 5 inclusively", "clocks to stall are already specified",
   "dependency barrier index %d already specified", "dependency barrier index must be between 0 and 5 inclusively",
   "entrypoint \"%s\" not found", "entrypoint is not aligned", "expected 'a'", "expected .AND, .OR or .XOR",
   "expected .LOD", "expected .LUT", "expected .P or .B", "expected .R", "expected .S16 or .U16",
   "expected .U16, .U32, .U64, .S16, .S32 or .S64", "expected .U32, .S32, .U64, .S64, .F32.FTZ.RN, .F16x2.RN or .S64",
   "expected .U8, .S8, .U16, .S16, .32, .64, .128 or .U.128", "expected .U8, .U16, .U32, .S8, .S16 or .S32",
   "expected .U8, .U16, .U32, .U64, .S8, .S16, .S32 or .S64", "expected .X, .Y or .Z after SR_CTAID", "expected 0",
   "expected 1D, 2D, ARRAY_2D, 3D, or CUBE", "expected 1D, 2D, ARRAY_2D, or 3D",
   "expected 1D, ARRAY_1D, 2D, ARRAY_2D, 3D, ARRAY_3D, CUBE, or ARRAY_CUBE", "expected @WAIT, @WB, @RB, @DEP, or @YIELD/@Y",
   "expected CC", "expected PR or CC", "expected \x1b[1m%s\x1b[0m and got \x1b[1m%s %.*s\x1b[0m",
   "expected \x1b[1m%s\x1b[0m", "expected constant buffer", "expected floating-point literal, QNAN, or INF",
   "expected label", "expected local memory size", "expected mnemonic", "expected new line after option",
   "expected number of general purpose registers", "expected shared memory size", "expected workgroup sizes",
   "failed to parse literal \x1b[1;31m%.*s\x1b[0m", "fatal: invalid usage of '!'\n",
   "floating point literal cannot have hex characters", "immediate constant buffer access has to be aligned to 4 bytes",
   "integer \x1b[1m%d\x1b[0m is out of range, expected to be from %ld to %ld inclusively", "invalid RGBA swizzle",
   "invalid identifier", "invalid mode", "invalid program type \x1b[1m%.*s\x1b[0m",
   "invalid register index \x1b[1;31m%.*s\x1b[0m", "invalid system register \x1b[1m%.*s\x1b[0m",
   "label \x1b[1m%.*s\x1b[0m not defined", "label out of range", "no separator after immediate",
   "no separator after register", "number of waited clocks must be between 0 and 15 inclusively", "out of range predicate",
   "predicate can't be negated", "program type already specified", "register cannot be reused",
   "register index \x1b[1;31m%.*s\x1b[0m is out of range, expected to be from 0 to 254 inclusively",
   "source register is not mirrored to destination register", "unexpected new line in option", "unexpected test %.*s",
   "unknown mnemonic \x1b[1m%.*s\x1b[0m", "write_gfx_header is not implemented", "yield already specified"]

/-- Formats of messages that are in the source code of the assembler, where a reader would expect them to be reported: src/operand.h:496,
    506, 582, 593, 1360, 1389, 1514, src/helper.cpp:158 and src/dksh.cpp:85. -/
def unreported : List String :=
  ["expected .P", "expected .PHYS", "expected .WARP", "expected .RESULT", "expected .HI", "expected .L", "expected .B",
   "integer immediate ldcannot be represented as float",
   "no type provided, valid are types: vertex, tess_control, tess_eval, geometry, fragment, compute"]

end Nxas.Spec
