import Verif.Model.Table
/-
Options (src/options.cpp) and instructions (src/parse.cpp).
-/

namespace Nxas

/-- `fatal_error(token, msg)` with the current token, src/error.cpp:43-56. -/
def exitTok (msg : Msg) : M α := fun _ s => .exit ⟨s.tok.line, s.tok.col, msg⟩

/-- update the program settings of the context -/
def modifyOpts (f : Opts → Opts) : M Unit := fun _ s =>
  .ok () { s with ctx := { s.ctx with opts := f s.ctx.opts } }

/-- update `ctx.pc` -/
def modifyPc (f : Nat → Nat) : M Unit := fun _ s =>
  .ok () { s with ctx := { s.ctx with pc := f s.ctx.pc } }

/-! ### src/options.cpp -/

/-- `check_option_line`, src/options.cpp:9-13. -/
def checkOptionLine (optionLine : Nat) : M Unit := do
  let t ← getTok
  if t.line ≠ optionLine then exitTok "unexpected new line in option" else M.pure ()

/-- The names accepted as program type, src/options.cpp:21-36. -/
def progTypeOfName (t : Token) : Option ProgType :=
  if t.equal c!"vertex" then some .vertex
  else if t.equal c!"tess_control" || t.equal c!"hull" then some .tessControl
  else if t.equal c!"tess_eval" || t.equal c!"domain" then some .tessEval
  else if t.equal c!"geometry" then some .geometry
  else if t.equal c!"fragment" || t.equal c!"pixel" then some .fragment
  else if t.equal c!"compute" then some .compute
  else none

/-- `parse_type`, src/options.cpp:14-37.  The message of line 34 reads
    `token.data.string` whatever the token is. -/
def parseType (optionLine : Nat) : M Unit := do
  let ctx ← getCtx
  if ctx.opts.type.isSome then exitTok "program type already specified"
  else do
    advance
    checkOptionLine optionLine
    let t ← getTok
    match progTypeOfName t with
    | some p => modifyOpts (fun o => { o with type := some p })
    | none =>
      if t.kind.stringActive then exitTok ⟨"invalid program type \x1b[1m%.*s\x1b[0m", [.text t.kind.info]⟩ else ubM .inactiveUnion

/-- `static_cast<int>` of an immediate: reduction modulo 2^32. -/
def toInt32 (v : Int) : BitVec 32 := BitVec.ofInt 32 v

/-- `token = tokenize(); if (token.type != immediate) fatal_error(...)`. -/
def nextImmediate (msg : Msg) : M (BitVec 32) := do
  advance
  let t ← getTok
  match t.kind with
  | .imm v => M.pure (toInt32 v)
  | _ => exitTok msg

/-- The option-specific part of `context::parse_option`, src/options.cpp:38-71.
    `.num_gprs` (43-49): the type test of line 45 is inverted, so that an immediate is
    rejected and anything else makes line 48 read an inactive union member. -/
def optionBody (t0 : Token) : M Unit := do
  if t0.equal c!".dksh" then do
    modifyOpts (fun o => { o with isDksh := true })
    parseType t0.line
  else if t0.equal c!".type" then parseType t0.line
  else if t0.equal c!".num_gprs" then do
    advance
    let t ← getTok
    match t.kind with
    | .imm _ => exitTok "expected number of general purpose registers"
    | _ => ubM .inactiveUnion
  else if t0.equal c!".workgroup_size" then do
    let x ← nextImmediate "expected workgroup sizes"
    modifyOpts (fun o => { o with blockDims := (x, o.blockDims.2.1, o.blockDims.2.2) })
    let y ← nextImmediate "expected workgroup sizes"
    modifyOpts (fun o => { o with blockDims := (o.blockDims.1, y, o.blockDims.2.2) })
    let z ← nextImmediate "expected workgroup sizes"
    modifyOpts (fun o => { o with blockDims := (o.blockDims.1, o.blockDims.2.1, z) })
    checkOptionLine t0.line
  else if t0.equal c!".shared_memory" then do
    let v ← nextImmediate "expected shared memory size"
    modifyOpts (fun o => { o with sharedMem := v })
  else if t0.equal c!".local_memory" then do
    let v ← nextImmediate "expected local memory size"
    modifyOpts (fun o => { o with localMem := v })
  else M.pure ()

/-- `context::parse_option`, src/options.cpp:6-76. -/
def parseOption : M Unit := do
  let t0 ← getTok
  optionBody t0
  advance
  let t ← getTok
  if t0.line = t.line then exitTok "expected new line after option" else M.pure ()

/-- `token.type == identifier && token.data.string[0] == '.'`, src/parse.cpp:135. -/
def Token.isOption (t : Token) : Bool :=
  match t.kind with
  | .ident s => s.head? = some '.'
  | _ => false

/-- The option loop of `parse_instruction`, src/parse.cpp:135-137. `fuel` bounds the
    number of iterations. -/
def parseOptions : Nat → M Unit
  | 0 => ubM .fuel
  | fuel + 1 => do
    let t ← getTok
    if t.isOption then do
      parseOption
      parseOptions fuel
    else M.pure ()

/-! ### src/parse.cpp -/

/-- `assemble_predicate` with `is_negable = 1` and `shift = 16`, src/parse.cpp:16-28. -/
def guardPredicate : M Unit := do
  let p ← confirmPred
  addBits ((BitVec.ofNat 64 p.1 ||| ((if p.2 then 1#64 else 0#64) <<< 3)) <<< 16)

/-- The local variables of `assemble_sched`, src/parse.cpp:32-36. -/
structure Sched where
  stall : Option Nat := none
  wb : Option Nat := none
  rb : Option Nat := none
  wait : BitVec 32 := 0
  yield : Bool := false
  deriving DecidableEq, Repr

/-- The bit-field assignment of src/parse.cpp:95-102 with the layout of
    src/opcode.h:30-38 (least significant first, as on the platforms of the code). -/
def Sched.raw (s : Sched) : BitVec 32 :=
  BitVec.ofNat 32 (s.stall.getD 0) |||
  ((if s.yield then 1#32 else 0#32) <<< 4) |||
  (BitVec.ofNat 32 (s.wb.getD 7) <<< 5) |||
  (BitVec.ofNat 32 (s.rb.getD 7) <<< 8) |||
  (s.wait <<< 11)

/-- `confirm_type(token, immediate)` and a range check with its own message. -/
def schedImmediate (max : Int) (msg : Msg) : M Nat := do
  let t ← getKind
  match t with
  | .imm v => if v < 0 ∨ v > max then failTok msg else M.pure v.toNat
  | _ => failTok (expectedMsg c!"immediate" t)

/-- One iteration of the loop of `assemble_sched`, src/parse.cpp:38-93. -/
def schedStep (s : Sched) : M Sched := do
  advance
  let t ← getKind
  if t.equal c!"WAIT" then
    if s.stall.isSome then failTok "clocks to stall are already specified"
    else do
      advance
      let v ← schedImmediate 15 "number of waited clocks must be between 0 and 15 inclusively"
      advance
      M.pure { s with stall := some v }
  else if t.equal c!"WB" || t.equal c!"RB" then
    if (if t.equal c!"WB" then s.wb else s.rb).isSome then
      failTok ⟨"%s barrier already specified", [.text (if t.equal c!"WB" then c!"write" else c!"read")]⟩
    else do
      advance
      let v ← schedImmediate 5 "barrier index must be between 0 and 5 inclusively"
      advance
      M.pure (if t.equal c!"WB" then { s with wb := some v } else { s with rb := some v })
  else if t.equal c!"Y" || t.equal c!"YIELD" then
    if s.yield then failTok "yield already specified"
    else do
      advance
      M.pure { s with yield := true }
  else if t.equal c!"DEP" then do
    advance
    let v ← schedImmediate 5 "dependency barrier index must be between 0 and 5 inclusively"
    let mask : BitVec 32 := 1#32 <<< v
    if (s.wait &&& mask) ≠ 0#32 then failTok ⟨"dependency barrier index %d already specified", [.int v]⟩
    else do
      advance
      M.pure { s with wait := s.wait ||| mask }
  else failTok "expected @WAIT, @WB, @RB, @DEP, or @YIELD/@Y"

/-- The loop of `assemble_sched`, src/parse.cpp:37-94. `fuel` bounds the iterations. -/
def schedLoop : Nat → Sched → M Sched
  | 0, _ => ubM .fuel
  | fuel + 1, s => do
    let t ← getKind
    if t = .at then do
      let s' ← schedStep s
      schedLoop fuel s'
    else M.pure s

/-- `op.sched.values = {...}` -/
def setSched (r : BitVec 32) : M Unit := fun _ s =>
  .ok () { s with op := { s.op with sched := r } }

/-- `assemble_sched`, src/parse.cpp:30-104. -/
def assembleSched : M Unit := fun dbg s =>
  (do
    let r ← schedLoop (s.ctx.cur.text.length + 1) {}
    setSched r.raw : M Unit) dbg s

/-- The operand loop of `parse_insn`, src/parse.cpp:114-120, with its score. -/
def runOperands : List Operand → Nat → Bool → St → Out Unit × Nat
  | [], score, _, s => (.ok () s, score)
  | o :: os, score, dbg, s =>
    match o.run dbg s with
    | .ok _ s' => runOperands os (score + 1) dbg s'
    | r => (r, score)

/-- The end of `parse_insn`, src/parse.cpp:123-126. -/
def finishInsn : M Unit := do
  assembleSched
  confirm .semicolon

/-- The start of `parse_insn`, src/parse.cpp:108-113. -/
def startInsn (i : Insn) : M Unit := do
  addBits i.opcode
  advance
  let v ← getValue
  if i.flags % 2 = 1 ∧ (~~~v &&& (7#64 <<< 16)) ≠ 0#64 then
    failTok ⟨"%s does not support predicated execution", [.text i.mnemonic]⟩
  else M.pure ()

/-- `parse_insn`, src/parse.cpp:106-127: the outcome and the score.  (The token is a
    local variable of the C++ function: the incoming `s.tok` is never read.) -/
def parseInsn (i : Insn) (dbg : Bool) (s : St) : Out Unit × Nat :=
  match startInsn i dbg s with
  | .ok _ s1 =>
    match runOperands i.operands 1 dbg s1 with
    | (.ok _ s2, score) => (finishInsn dbg s2, score + 1000)
    | r => r
  | r => (r, 0)

/-- The message of src/parse.cpp:182-183. -/
def unknownMsg (s : Str) : Msg := ⟨"unknown mnemonic \x1b[1m%.*s\x1b[0m", [.sized s]⟩

/-- The row loop of `parse_instruction`, src/parse.cpp:160-184. `mn` is the mnemonic
    token, `saved` the state copied at lines 154-155, `best` the error kept so far with
    its score (none: -1). -/
def tryRows (mn : Token) (saved : St) : List Insn → Option (Err × Nat) → Bool → St → Out Unit
  | [], best, _, _ =>
    match best with
    | some (e, _) => .exit e
    | none => .exit ⟨mn.line, mn.col, unknownMsg mn.kind.info⟩
  | i :: is, best, dbg, s =>
    if !mn.equal i.mnemonic then tryRows mn saved is best dbg s
    else
      match parseInsn i dbg s with
      | (.ok _ s', _) => .ok () { s' with ctx := { s'.ctx with pc := s'.ctx.pc + 8 } }
      | (.fail e s', score) =>
        let best' := match best with
          | none => some (e, score)
          | some (e0, sc0) => if score > sc0 then some (e, score) else some (e0, sc0)
        -- src/parse.cpp:176-177: restore the context and the opcode
        tryRows mn saved is best' dbg { s' with ctx := saved.ctx, op := saved.op }
      | (.exit e, _) => .exit e
      | (.abort, _) => .abort
      | (.ub u, _) => .ub u

/-- An `error` turned into `exit` by `raise()`, src/error.cpp:9-14. -/
def raising (m : M α) : M α := fun dbg s =>
  match m dbg s with
  | .fail e _ => .exit e
  | r => r

/-- The part of `parse_instruction` between the options and the row loop,
    src/parse.cpp:138-153. -/
def parsePrologue : M Unit := do
  modifyPc (fun pc => if pc % 0x20 = 0 then pc + 8 else pc)
  let t ← getTok
  if t.kind = .at then do
    advance
    raising guardPredicate
    advance
  else addBits (7#64 <<< 16)
  let t2 ← getTok
  match t2.kind with
  | .ident _ => M.pure ()
  | _ => exitTok "expected mnemonic"

/-- `parse_instruction`, src/parse.cpp:129-185; `false` at the end of the text.
    The token is a local variable: the incoming `s.tok` is never read. -/
def parseInstruction (table : List Insn) : M Bool := do
  advance
  let t ← getTok
  if t.kind = .none then M.pure false
  else do
    fun dbg s => parseOptions (s.ctx.cur.text.length + 2) dbg s
    parsePrologue
    fun dbg s => tryRows s.tok s table none dbg s
    M.pure true

end Nxas
