import Verif.Spec.Lexical
/-
What the error messages say about the place they point at.  Messages are given by their formats, as in the
source code of the assembler, and by the arguments of the formats.
-/

namespace Nxas.Spec

open Nxas

/-- The names of the classes of tokens. -/
def className : Kind → Str
  | .none => c!"nothing"
  | .ident _ => c!"identifier"
  | .reg _ => c!"register"
  | .pred _ _ => c!"predicate"
  | .imm _ => c!"immediate"
  | .fimm _ => c!"floating-point immediate"
  | .plus => c!"plus"
  | .minus => c!"minus"
  | .tilde => c!"tilde"
  | .vbar => c!"vertical bar"
  | .lbracket => c!"squared bracket left"
  | .rbracket => c!"squared bracket right"
  | .at => c!"at"
  | .semicolon => c!"semicolon"
  | .comma => c!"comma"

/-- The text of a name; other tokens are not quoted. -/
def quoted : Kind → Str
  | .ident s => s
  | _ => []

/-- Messages that list the names that could be at this place, and these names. -/
def listings : List (String × List Str) :=
  [("expected constant buffer", [c!"c"]), ("expected 'a'", [c!"a"]), ("expected .P", [c!".P"]),
   ("expected .PHYS", [c!".PHYS"]), ("expected .WARP", [c!".WARP"]), ("expected .RESULT", [c!".RESULT"]),
   ("expected CC", [c!"CC"]), ("expected .LUT", [c!".LUT"]), ("expected .HI", [c!".HI"]), ("expected .R", [c!".R"]),
   ("expected .L", [c!".L"]), ("expected .B", [c!".B"]), ("expected .LOD", [c!".LOD"]),
   ("expected .AND, .OR or .XOR", [c!".AND", c!".OR", c!".XOR"]), ("expected .S16 or .U16", [c!".S16", c!".U16"]),
   ("expected .U16, .U32, .U64, .S16, .S32 or .S64", [c!".U16", c!".U32", c!".U64", c!".S16", c!".S32", c!".S64"]),
   ("expected .U8, .U16, .U32, .U64, .S8, .S16, .S32 or .S64",
     [c!".U8", c!".U16", c!".U32", c!".U64", c!".S8", c!".S16", c!".S32", c!".S64"]),
   ("expected .U8, .U16, .U32, .S8, .S16 or .S32", [c!".U8", c!".U16", c!".U32", c!".S8", c!".S16", c!".S32"]),
   ("expected PR or CC", [c!"PR", c!"CC"]), ("expected .X, .Y or .Z after SR_CTAID", [c!".X", c!".Y", c!".Z"]),
   ("expected 1D, ARRAY_1D, 2D, ARRAY_2D, 3D, ARRAY_3D, CUBE, or ARRAY_CUBE",
     [c!"1D", c!"ARRAY_1D", c!"2D", c!"ARRAY_2D", c!"3D", c!"ARRAY_3D", c!"CUBE", c!"ARRAY_CUBE"]),
   ("expected 1D, 2D, ARRAY_2D, or 3D", [c!"1D", c!"2D", c!"ARRAY_2D", c!"3D"]),
   ("expected 1D, 2D, ARRAY_2D, 3D, or CUBE", [c!"1D", c!"2D", c!"ARRAY_2D", c!"3D", c!"CUBE"]),
   ("expected @WAIT, @WB, @RB, @DEP, or @YIELD/@Y", [c!"WAIT", c!"WB", c!"RB", c!"DEP", c!"YIELD", c!"Y"])]

/-- Further messages of this kind, which the assembler gives at the wrong places. -/
def misplaced : List (String × List Str) :=
  [("expected .P or .B", [c!".P", c!".B"]),
   ("expected .U8, .S8, .U16, .S16, .32, .64, .128 or .U.128", [c!".U8", c!".S8", c!".U16", c!".S16", c!".32", c!".64", c!".128"]),
   ("expected .U32, .S32, .U64, .S64, .F32.FTZ.RN, .F16x2.RN or .S64", [c!".U32", c!".S32", c!".U64", c!".S64"])]

/-- Messages that say nothing about the token they are at. -/
def unspecific : List String :=
  ["invalid identifier", "label out of range", "source register is not mirrored to destination register",
   "immediate constant buffer access has to be aligned to 4 bytes", "invalid mode", "invalid RGBA swizzle",
   "1D has no AOFFI", "1D has no MS", "AOFFI and MS can't be used at the same time", "LL can't be used with MS in 2D",
   "AOFFI can't be used in 3D", "MS can't be used in 3D", "AOFFI can't be used in ARRAY_2D", "MS can't be used in ARRAY_2D",
   "1D is only valid with LZ and no-DC", "DC ARRAY_2D is only valid with LZ", "LL ARRAY_2D is illegal", "3D cannot be DC",
   "3D can only have the default lod or LZ", "CUBE cannot be DC", "CUBE can only have the default lod or LL",
   "unexpected new line in option", "expected new line after option"]

/-- Messages for tokens that are not integer literals. -/
def sizes : List String := ["expected workgroup sizes", "expected shared memory size", "expected local memory size"]

/-- The names of the types of programs. -/
def programTypes : List Str :=
  [c!"vertex", c!"tess_control", c!"hull", c!"tess_eval", c!"domain", c!"geometry", c!"fragment", c!"pixel", c!"compute"]

/-- The tests of the condition codes. -/
def conditionTests : List Str :=
  [c!".F", c!".LT", c!".EQ", c!".LE", c!".GT", c!".NE", c!".GE", c!".NUM", c!".NAN", c!".LTU", c!".EQU", c!".LEU", c!".GTU",
   c!".NEU", c!".GEU", c!".T", c!".OFF", c!".LO", c!".SFF", c!".LS", c!".HI", c!".SFT", c!".HS", c!".OFT", c!".CSM_TA", c!".CSM_TR",
   c!".CSM_MX", c!".FCSM_TA", c!".FCSM_TR", c!".FCSM_MX", c!".RLE", c!".RGT"]

/-- The instructions that cannot be predicated. -/
def unpredicated : List Str := [c!"PBK", c!"SSY", c!"CAL", c!"PCNT"]

/-- The words of the source. -/
structure Words where
  /-- the names of the instructions -/
  mnemonics : List Str
  /-- the instructions that cannot be predicated -/
  always : List Str
  /-- the tests of condition codes -/
  tests : List Str
  /-- the system registers -/
  registers : List Str
  /-- the types of programs -/
  types : List Str
  /-- the labels that are defined -/
  defined : Str → Prop

/-- `Fits full v k m`: the message `m` is true of the token `k`.  Without `full`, nothing is required of the messages
    that the assembler gives at wrong places. -/
inductive Fits (full : Bool) (v : Words) (k : Kind) : Msg → Prop
  | expected {want : Str} (hk : k ≠ .none) (h : className k ≠ want) :
      Fits full v k ⟨"expected \x1b[1m%s\x1b[0m and got \x1b[1m%s %.*s\x1b[0m", [.text want, .text (className k), .text (quoted k)]⟩
  | missing {want : Str} (hk : k = .none) : Fits full v k ⟨"expected \x1b[1m%s\x1b[0m", [.text want]⟩
  | range {x lo hi : Int} (hk : k = .imm x) (h : ¬ (lo ≤ x ∧ x ≤ hi)) :
      Fits full v k ⟨"integer \x1b[1m%d\x1b[0m is out of range, expected to be from %ld to %ld inclusively", [.long x, .long lo, .long hi]⟩
  | label {name : Str} (hk : k = .ident name) (h : ¬ v.defined name) :
      Fits full v k ⟨"label \x1b[1m%.*s\x1b[0m not defined", [.sized name]⟩
  | mnemonic {name : Str} (hk : k = .ident name) (h : name ∉ v.mnemonics) :
      Fits full v k ⟨"unknown mnemonic \x1b[1m%.*s\x1b[0m", [.sized name]⟩
  | test {name : Str} (hk : k = .ident name) (h : name ∉ v.tests) : Fits full v k ⟨"unexpected test %.*s", [.sized name]⟩
  | register (h : ∀ name, k = .ident name → name ∉ v.registers) :
      Fits full v k ⟨"invalid system register \x1b[1m%.*s\x1b[0m", [.text (quoted k)]⟩
  | type (h : ∀ name, k = .ident name → name ∉ v.types) :
      Fits full v k ⟨"invalid program type \x1b[1m%.*s\x1b[0m", [.text (quoted k)]⟩
  | always {name : Str} (h : name ∈ v.always) : Fits full v k ⟨"%s does not support predicated execution", [.text name]⟩
  | write (hk : k = .ident c!"WB") : Fits full v k ⟨"%s barrier already specified", [.text c!"write"]⟩
  | read (hk : k = .ident c!"RB") : Fits full v k ⟨"%s barrier already specified", [.text c!"read"]⟩
  | dependency {x : Int} (hk : k = .imm x) (h : 0 ≤ x ∧ x ≤ 5) :
      Fits full v k ⟨"dependency barrier index %d already specified", [.int x]⟩
  | listing {fmt : String} {names : List Str} (h : (fmt, names) ∈ listings) (hk : ∀ n ∈ names, k ≠ .ident n) : Fits full v k fmt
  | noName (h : ∀ n, k ≠ .ident n) : Fits full v k "expected mnemonic"
  | noLabel (h : ∀ n, k ≠ .ident n) (h' : ∀ x, k ≠ .imm x) : Fits full v k "expected label"
  | noZero (h : k ≠ .imm 0) : Fits full v k "expected 0"
  | noSize {fmt : String} (h : fmt ∈ sizes) (hk : ∀ x, k ≠ .imm x) : Fits full v k fmt
  | negated {i : Nat} (hk : k = .pred i true) : Fits full v k "predicate can't be negated"
  | reuse (hk : k = .ident c!".reuse") : Fits full v k "register cannot be reused"
  | stall {x : Int} (hk : k = .imm x) (h : ¬ (0 ≤ x ∧ x ≤ 15)) :
      Fits full v k "number of waited clocks must be between 0 and 15 inclusively"
  | barrier {x : Int} (hk : k = .imm x) (h : ¬ (0 ≤ x ∧ x ≤ 5)) : Fits full v k "barrier index must be between 0 and 5 inclusively"
  | depends {x : Int} (hk : k = .imm x) (h : ¬ (0 ≤ x ∧ x ≤ 5)) :
      Fits full v k "dependency barrier index must be between 0 and 5 inclusively"
  | stalled (hk : k = .ident c!"WAIT") : Fits full v k "clocks to stall are already specified"
  | yielded (hk : k = .ident c!"Y" ∨ k = .ident c!"YIELD") : Fits full v k "yield already specified"
  | typed (hk : k = .ident c!".type" ∨ k = .ident c!".dksh") : Fits full v k "program type already specified"
  | unspecific {fmt : String} (h : fmt ∈ unspecific) : Fits full v k fmt
  | misplaced {fmt : String} {names : List Str} (h : (fmt, names) ∈ misplaced) (hk : full = true → ∀ n ∈ names, k ≠ .ident n) :
      Fits full v k fmt
  | noFloat (h : full = true → (∀ x, k ≠ .imm x) ∧ (∀ b, k ≠ .fimm b) ∧ k ≠ .ident c!"QNAN" ∧ k ≠ .ident c!"INF") :
      Fits full v k "expected floating-point literal, QNAN, or INF"
  | noCount (h : full = true → ∀ x, k ≠ .imm x) : Fits full v k "expected number of general purpose registers"

/-- `NoToken post m`: the message `m` is true of a place where no token can be read. -/
inductive NoToken (post : Str) : Msg → Prop
  | literal {w r : Str} (h : post = w ++ r) (he : Ends r) (hd : ∃ sg d ds neg, w = sg ++ d :: ds ∧ Sign sg neg ∧ decimal d) :
      NoToken post ⟨"failed to parse literal \x1b[1;31m%.*s\x1b[0m", [.text w]⟩
  | register {r : Str} (h : post = 'R' :: r) (he : Ends r) (hn : NumberFollows r) :
      NoToken post ⟨"invalid register index \x1b[1;31m%.*s\x1b[0m", [.text c!"R"]⟩
  | index {ds r : Str} (h : post = 'R' :: (ds ++ r)) (he : Ends r) (hn : ds ≠ []) (hd : ∀ c ∈ ds, decimal c) (hv : 255 ≤ numeral 10 ds) :
      NoToken post ⟨"register index \x1b[1;31m%.*s\x1b[0m is out of range, expected to be from 0 to 254 inclusively",
        [.text ('R' :: ds)]⟩
  | negation {r : Str} (h : post = '!' :: r) (hr : ∀ c, r.head? = some c → c ≠ 'P' ∧ c ≠ 'p') :
      NoToken post "fatal: invalid usage of '!'\n"
  | predicate {p r : Str} {neg : Bool} {c : Char} (hp : PredPrefix p neg) (h : post = p ++ c :: r) (hc : c ∈ ['7', '8', '9'])
      (he : Ends r) : NoToken post "out of range predicate"
  | float {w r : Str} (h : post = w ++ '.' :: r) (hd : ∃ sg d ds neg, w = sg ++ d :: ds ∧ Sign sg neg ∧ decimal d)
      (hx : ∃ c ∈ w, c ∈ c!"AaBbCcDdEeFfXx") : NoToken post "floating point literal cannot have hex characters"
  | unseparated {w r : Str} {c : Char} (h : post = w ++ c :: r) (hc : c ∉ separators)
      (hd : ∃ sg d ds neg, w = sg ++ d :: ds ∧ Sign sg neg ∧ decimal d) : NoToken post "no separator after immediate"
  | zero {c : Char} {r : Str} (h : post = 'R' :: 'Z' :: c :: r) (hc : c ∉ separators) : NoToken post "no separator after register"

/-- `Tells full v post m`: the message `m` is true of the text `post` it points at. -/
inductive Tells (full : Bool) (v : Words) (post : Str) : Msg → Prop
  | token {w r : Str} {k : Kind} {m : Msg} (h : post = w ++ r) (hw : Lexeme w r k) (hm : Fits full v k m) : Tells full v post m
  | ended {m : Msg} (h : post = []) (hm : Fits full v .none m) : Tells full v post m
  | none {m : Msg} (h : ∀ w r k, post = w ++ r → ¬ Lexeme w r k) (hm : NoToken post m) : Tells full v post m

end Nxas.Spec
