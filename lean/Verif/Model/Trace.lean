import Verif.Model.Assemble
/-
The errors that are built while a source is read.

An `error` formats its message when it is built (src/error.cpp:16-39), not when it is raised.  `parse_instruction` tries
the rows of a mnemonic in turn and builds an error for every row that does not fit (src/parse.cpp:160-179), also when a
later row fits and nothing is reported.  The model of the parser keeps of these errors only what decides the outcome; here
they are all listed.  (`raise` prints what has been formatted and formats nothing, src/error.cpp:9-14.  The errors that are
raised where they are built end the program and are part of the outcome.)
-/

namespace Nxas

/-- The errors built by the row loop of `parse_instruction`, src/parse.cpp:160-184: the rows are those of `tryRows`. -/
def rowsTrace (mn : Token) (saved : St) : List Insn → Bool → St → List Err
  | [], _, _ => []
  | i :: is, dbg, s =>
    if !mn.equal i.mnemonic then rowsTrace mn saved is dbg s
    else
      match parseInsn i dbg s with
      | (.fail e s', _) => e :: rowsTrace mn saved is dbg { s' with ctx := saved.ctx, op := saved.op }
      | _ => []

/-- `parse_instruction` as far as the row loop, src/parse.cpp:129-158; `false` at the end of the text. -/
def insnHead : M Bool := do
  advance
  let t ← getTok
  if t.kind = .none then M.pure false
  else do
    fun dbg s => parseOptions (s.ctx.cur.text.length + 2) dbg s
    parsePrologue
    M.pure true

/-- The errors built by `parse_instruction`, src/parse.cpp:129-185. -/
def insnTrace (table : List Insn) (dbg : Bool) (s0 : St) : List Err :=
  match insnHead dbg s0 with
  | .ok true s => rowsTrace s.tok s table dbg s
  | _ => []

/-- The errors built by the loop of `assemble`, src/nxas.cpp:37-39. -/
def parseAllTrace (table : List Insn) (dbg : Bool) : Nat → Ctx → List Err
  | 0, _ => []
  | room + 1, ctx =>
    insnTrace table dbg ⟨ctx, ⟨.none, 0, 0⟩, {}⟩ ++
      match parseInstruction table dbg ⟨ctx, ⟨.none, 0, 0⟩, {}⟩ with
      | .ok true s => parseAllTrace table dbg room s.ctx
      | _ => []

/-- The errors built while `assemble` reads a source, src/nxas.cpp:25-39. -/
def assembleTrace (dbg : Bool) (code : Str) : List Err :=
  match genLabels (cstr code) with
  | .ok labels => parseAllTrace insnTable dbg (countSemicolons code + 1) ⟨⟨cstr code, 0, 0⟩, labels, 0, {}⟩
  | _ => []

end Nxas
