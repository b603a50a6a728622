import Verif.Lemmas.Orthogonal
import Verif.Lemmas.Readback
import Verif.Lemmas.Declared
import Verif.Lemmas.Sharing
/-
A disassembler: for the words of a group it looks for instructions that give them, one row of the table after the other.  It
proposes tokens for every operand, from the bits of the word, and asks the assembler.
-/

namespace Nxas

open Spec

/-! ### Text -/

/-- Digits with a point before the last 149 of them. -/
def pointed (ds : Str) : Str := ds.take (ds.length - 149) ++ '.' :: ds.drop (ds.length - 149)

/-- The text of a token. -/
def Kind.text : Kind → Str
  | .none => []
  | .ident s => s
  | .reg n => if n = 255 then c!"RZ" else 'R' :: Nat.toDigits 10 n
  | .pred i n => (if n then c!"!P" else c!"P") ++ [if i = 7 then 'T' else i.digitChar]
  | .imm v => (if v < 0 then ['-'] else []) ++ Nat.toDigits 10 v.natAbs
  | .fimm b => (if 2 ^ 31 ≤ b.toNat then ['-'] else []) ++ pointed (fractionDigits (b.toNat % 2 ^ 31))
  | .plus => ['+']
  | .minus => ['-']
  | .tilde => ['~']
  | .vbar => ['|']
  | .lbracket => ['[']
  | .rbracket => [']']
  | .at => ['@']
  | .semicolon => [';']
  | .comma => [',']

/-- Tokens in one line, with a blank in front of each. -/
def textOf (ks : List Kind) : Str := ks.flatMap fun k => ' ' :: k.text

/-! ### Operands -/

/-- All bits of `b` are set in `w`. -/
def bitsIn (b w : BitVec 64) : Bool := b &&& ~~~w == 0

/-- The names of a table, from the last one on, with the bits of their indices. -/
def entries (pfx : Str) (t : List Str) (f : Nat → BitVec 64) : List (List Kind × BitVec 64) :=
  (t.zipIdx.map fun x => ([Kind.ident (pfx ++ x.1)], f x.2)).reverse

/-- The texts of an operand without numbers, with their bits. -/
def Operand.shapes : Operand → List (List Kind × BitVec 64)
  | .flag s a => [([.ident s], field a 1), ([], 0)]
  | .dotTable d a t => entries c!"." t (field a) ++ (d.map fun d => ([], field a d)).toList
  | .comma => [([.comma], 0)]
  | .bop a => entries c!"." [c!"AND", c!"OR", c!"XOR", c!"INVALIDBOP3"] (field a)
  | .neg a => [([.minus], field a 1), ([], 0)]
  | .tilde a => [([.tilde], field a 1), ([], 0)]
  | .po a1 a2 => [([.ident c!".PO"], field a1 1 ||| field a2 1), ([], 0)]
  | .defaultRz a => [([], field a 255)]
  | .ccTests a t => ((entries c!"." t (field a)).map fun x => (Kind.ident c!"CC" :: x.1, x.2)) ++ [([], field a 15)]
  | .expect s pre post => [([.ident s], (pre ++ post).foldr (· ||| ·) 0)]
  | .optText s => [([], 0), ([.ident s], 0)]
  | .xmadSigns => [true, false].flatMap (fun x => [true, false].map fun y =>
      ([.ident (if x then c!".S16" else c!".U16"), .ident (if y then c!".S16" else c!".U16")], field 48 (bit x) ||| field 49 (bit y))) ++ [([], 0)]
  | .f2fRounding => [(c!".PASS", 3), (c!".TRUNC", 11), (c!".CEIL", 10), (c!".FLOOR", 9), (c!".ROUND", 8)].map (fun x => ([Kind.ident x.1], field 39 x.2)) ++
      entries c!"." [c!"RN", c!"RM", c!"RP", c!"RZ"] (field 39) ++ [([], 0)]
  | .intFormat u s a signed => entries c!"." s (fun i => field signed 1 ||| field a i) ++ entries c!"." u (field a)
  | .plainTable a t => entries [] t (field a)
  | .selector a _ _ shorts bytes => entries c!"." shorts (field a) ++ entries c!"." bytes (field a) ++ [([], field a 0)]
  | .s2r t => [(c!"SR_CTAID", c!".Z", 39), (c!"SR_CTAID", c!".Y", 38), (c!"SR_CTAID", c!".X", 37), (c!"SR_TID", c!".Z", 35), (c!"SR_TID", c!".Y", 34),
      (c!"SR_TID", c!".X", 33)].map (fun x => ([Kind.ident x.1, .ident x.2.1], field 20 x.2.2)) ++ [([.ident c!"SR_TID"], field 20 32)] ++
      entries [] t (field 20)
  | .ldgSize => [([.ident c!".U", .ident c!".128"], field 48 7)] ++
      entries c!"." [c!"U8", c!"S8", c!"U16", c!"S16", c!"32", c!"64", c!"128"] (field 48) ++ [([], field 48 4)]
  | .atomicSize a => [(c!".S64", 5), (c!".U64", 2), (c!".S32", 1), (c!".U32", 0)].map (fun x => ([Kind.ident x.1], field a x.2)) ++
      [([.ident c!".F32", .ident c!".FTZ", .ident c!".RN"], field a 3), ([.ident c!".F16x2", .ident c!".RN"], field a 4), ([], 0)]
  | .srcFormat a signed => entries c!"." [c!"S8", [], c!"S16", c!"S32"] (fun i => field a i ||| field signed 1) ++
      [(c!".U32", 3), (c!".U16", 2), (c!".U8", 0)].map (fun x => ([Kind.ident x.1], field a x.2)) ++ [([], field a 3 ||| field signed 1)]
  | .immFormat s => entries c!"." [c!"U16", c!"S16"] (field s) ++ [([], field s 1)]
  | .texType a => entries [] [c!"1D", c!"ARRAY_1D", c!"2D", c!"ARRAY_2D", c!"3D", c!"ARRAY_3D", c!"CUBE", c!"ARRAY_CUBE"] (field a)
  | .zero => [([.imm 0], 0)]
  | .texsMode a => [([Kind.ident c!".LZ"], 2), ([.ident c!".LL"], 1), ([], 0)].flatMap fun x =>
      [([Kind.ident c!".DC"], 4), ([], 0)].map fun y => (x.1 ++ y.1, field a (x.2 + y.2))
  | .tldsType a => tldsCodes.map fun c => ([.ident c.1], field a c.2.2.2.2)
  | .texsType _ => texsCodes.map fun c => ([.ident c.1], field 53 c.2.2.2)
  | .texsSwizzle => entries [] [c!"R", c!"G", c!"B", c!"A", c!"RG", c!"RA", c!"GA", c!"BA"] (field 50) ++
      entries [] [c!"RGB", c!"RGA", c!"RBA", c!"GBA", c!"RGBA"] (field 50)
  | _ => []

/-- `.reuse` or nothing after a register at position `a`. -/
def reuseTexts (a : Nat) (q : BitVec 32) : List (List Kind) :=
  match reuseFlag a with
  | some f => if q &&& f = 0 then [[]] else [[.ident c!".reuse"], []]
  | none => [[]]

/-- A register; the extended immediate may have set the lowest bit of a register at position 39. -/
def registerTexts (a : Nat) (w : BitVec 64) (q : BitVec 32) : List (List Kind) :=
  let n := bitsAt w a 8
  (n :: if a = 39 ∧ n % 2 = 1 then [n - 1] else []).flatMap fun n => (reuseTexts a q).map (Kind.reg n :: ·)

/-- An address in brackets. -/
def memoryTexts (immOffset : Bool) (addr size shr : Nat) (w : BitVec 64) (q : BitVec 32) : List (List Kind) :=
  let n := bitsAt w 8 8
  let x := bitsAt w addr size
  let y : Int := (if n = 255 then (x : Int) else signedOf size x) * 2 ^ shr
  ((reuseTexts 8 q).map (Kind.reg n :: ·) ++ if n = 255 then [[]] else []).flatMap fun base =>
    ([] :: if immOffset then [[Kind.imm y]] else []).map fun off => Kind.lbracket :: (base ++ (off ++ [Kind.rbracket]))

/-- The words for special floating point values. -/
def floatWords : List (List Kind) :=
  [Kind.ident c!"QNAN", .ident c!"INF"].flatMap fun k => [[k], [.plus, k], [.minus, k]]

/-- The binary32 number with the upper 20 bits of a binary64 number. -/
def narrowed (t s : Nat) : BitVec 32 :=
  BitVec.ofNat 32 (s * 2 ^ 31 + roundRat 23 127 0x7F800000 (sig 52 (t * 2 ^ 44)) (2 ^ 1074))

/-- The binary32 number that is the binary16 number `m`. -/
def widened (m : Nat) : Nat := roundRat 23 127 0x7F800000 (sig 10 m) (2 ^ 24)

/-- Texts that an operand of an instruction with the word `w` and the reuse flags `q` may have. -/
def Operand.texts (pc : Nat) (w : BitVec 64) (q : BitVec 32) : Operand → List (List Kind)
  | .uint m a => [[.imm (bitsAt w a (width m.toNat))]]
  | .sint n a => [[.imm (signedOf n (bitsAt w a n))]]
  | .uimmExtended => [[.imm (bitsAt w 20 19 + 2 ^ 19 * bitsAt w 56 1 : Nat)], [.imm (2 ^ 20 : Nat)]]
  | .label => [[.imm (signedOf 24 (bitsAt w 20 24) + pc + 8)]]
  | .gpr a => registerTexts a w q
  | .mirrorGpr a => (reuseTexts a q).map (Kind.reg (bitsAt w a 8) :: ·)
  | .cbuf => [[.ident c!"c", .lbracket, .imm (bitsAt w 34 5), .rbracket, .lbracket, .imm (4 * signedOf 14 (bitsAt w 20 14)), .rbracket]]
  | .imm20 => [[.imm ((bitsAt w 20 19 : Int) - 2 ^ 19 * bitsAt w 56 1)]]
  | .fimm wide => [.fimm (BitVec.ofNat 32 (if wide then bitsAt w 20 32 else bitsAt w 20 19 * 2 ^ 12 + bitsAt w 56 1 * 2 ^ 31))] :: floatWords
  | .dimm20 => [.fimm (narrowed (bitsAt w 20 19) (bitsAt w 56 1))] :: floatWords
  | .himm _ a none => [.fimm (BitVec.ofNat 32 (bitsAt w a 16 / 2 ^ 15 * 2 ^ 31 + widened (bitsAt w a 16 % 2 ^ 15)))] :: floatWords
  | .himm _ a (some n) =>
    let m := widened (bitsAt w a 9 * 2 ^ 6)
    [.fimm (BitVec.ofNat 32 (bitsAt w n 1 * (2 ^ 31 + if m = 0 then 1 else 0) + m))] :: floatWords
  | .pred a negable => [[.pred (bitsAt w a 3) (negable && bitsAt w (a + 3) 1 == 1)]]
  | .invertedPred a => [[.pred (7 - bitsAt w a 3) false]]
  | .abs a inner => (if w.getLsbD a then (inner.texts pc w q).map fun ks => .vbar :: (ks ++ [.vbar]) else []) ++ inner.texts pc w q
  | .memAddress i a s r => memoryTexts i a s r w q
  | .immAttr => [[.ident c!"a", .lbracket, .imm (bitsAt w 20 10), .rbracket]]
  | .patchAttr => (reuseTexts 8 q).flatMap fun rest => [[], [.plus]].map fun plus =>
      .ident c!"a" :: .lbracket :: .reg (bitsAt w 8 8) :: (rest ++ (plus ++ [.imm (signedOf 11 (bitsAt w 20 11)), .rbracket]))
  | .physAttr => (reuseTexts 8 q).map fun rest => .ident c!"a" :: .lbracket :: .reg (bitsAt w 8 8) :: (rest ++ [.rbracket])
  | .ldcAddress => (memoryTexts true 20 16 0 w q).map fun ks => .ident c!"c" :: .lbracket :: .imm (bitsAt w 36 5) :: .rbracket :: ks
  | o => (o.shapes.filter fun x => bitsIn x.2 w).map Prod.fst

/-! ### Instructions -/

/-- The first choice of texts that passes a check. -/
def search (check : List Kind → Bool) : List (List (List Kind)) → List Kind → Option (List Kind)
  | [], acc => if check acc then some acc else none
  | ts :: rest, acc => ts.findSome? fun t => search check rest (acc ++ t)

/-- The tokens, followed by a semicolon, are assembled to an instruction. -/
def assembles (pc : Nat) (op : Op) (ks : List Kind) : Bool :=
  let t := textOf (ks ++ [.semicolon])
  !ks.contains .semicolon && !(ks.head?.any fun k => Token.isOption ⟨k, 0, 0⟩) && !t.contains '\x00' && !t.contains '\n' &&
    lexAll (ks.length + 2) ⟨t, 0, 0⟩ == some ((ks ++ [Kind.semicolon]).map fun k => (k, 0)) &&
    match parseInstruction insnTable false (Ctx.fresh ⟨⟨t, 0, 0⟩, [], pc, {}⟩) with
    | .ok true s => s.op == op
    | _ => false

/-- The guard of a word. -/
def guardOf (v : BitVec 64) : Option (Nat × Bool) :=
  if bitsAt v 16 4 = 7 then none else some (bitsAt v 16 3, bitsAt v 19 1 == 1)

/-- The annotations of an instruction with these scheduling bits. -/
def annotsOf (s : Nat) : List Annot :=
  (if s % 16 = 0 then [] else [.wait (s % 16)]) ++ (if s / 2 ^ 4 % 2 = 0 then [] else [.yield]) ++
    (if s / 2 ^ 5 % 8 = 7 then [] else [.wb (s / 2 ^ 5 % 8)]) ++ (if s / 2 ^ 8 % 8 = 7 then [] else [.rb (s / 2 ^ 8 % 8)]) ++
    ((List.range 6).filter fun i => s / 2 ^ (11 + i) % 2 = 1).map .dep

/-- The tokens of an annotation. -/
def Annot.tokens : Annot → List Kind
  | .wait n => [.at, .ident c!"WAIT", .imm n]
  | .wb n => [.at, .ident c!"WB", .imm n]
  | .rb n => [.at, .ident c!"RB", .imm n]
  | .yield => [.at, .ident c!"Y"]
  | .dep n => [.at, .ident c!"DEP", .imm n]

/-- The bits that the operands of a row may clear. -/
def Insn.cleared (row : Insn) : BitVec 64 := row.operands.foldr (fun o x => clears o ||| x) 0

/-- The row may have given this word, as far as its fixed bits and its fields are concerned. -/
def Insn.possible (row : Insn) (v : BitVec 64) : Bool :=
  bitsIn row.opcode (v ||| row.cleared) &&
    (List.range 64).all fun p => !v.getLsbD p || row.opcode.getLsbD p || (decide (16 ≤ p) && decide (p < 20)) || row.operands.any fun o => o.sets p

/-- The tokens of an instruction at address `pc`, without the semicolon. -/
def decode (pc : Nat) (op : Op) : Option (List Kind) :=
  insnTable.findSome? fun row =>
    if row.possible op.value then
      let ann := (annotsOf op.sched.toNat).flatMap Annot.tokens
      (search (fun ks => assembles pc op (guardTokens (guardOf op.value) ++ .ident row.mnemonic :: (ks ++ ann)))
        (row.operands.map (Operand.texts pc (op.value ||| row.cleared) op.reuse)) []).map
        fun ks => guardTokens (guardOf op.value) ++ .ident row.mnemonic :: (ks ++ ann)
    else none

/-! ### Programs -/

/-- An instruction from its word and its bits in the control word. -/
def opOf (v : BitVec 64) (s : Nat) : Op := ⟨v, BitVec.ofNat 32 (s / 2 ^ 17), BitVec.ofNat 32 (s % 2 ^ 17)⟩

/-- The tokens of the instruction with index `i`. -/
def decodeAt (i : Nat) (v : BitVec 64) (s : Nat) : Option (List Kind) := (decode (addressOf i) (opOf v s)).map (· ++ [.semicolon])

/-- The tokens of the groups from instruction `i` on. -/
def decodeAll : Nat → List (BitVec 64) → Option (List Kind)
  | _, [] => some []
  | i, c :: x :: y :: z :: rest => do
    let a ← decodeAt i x (c.toNat % 2 ^ 21)
    let b ← decodeAt (i + 1) y (c.toNat / 2 ^ 21 % 2 ^ 21)
    let d ← decodeAt (i + 2) z (c.toNat / 2 ^ 42)
    let r ← decodeAll (i + 3) rest
    return a ++ (b ++ (d ++ r))
  | _, _ => none

/-- A source for an image, if it has one. -/
def disassemble (ws : List (BitVec 64)) : Option Str := (decodeAll 0 ws).map textOf

end Nxas
