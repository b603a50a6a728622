import Verif.Model.Lexer
/-
The lexer of src/context.cpp on the whole buffer of a `std::string`.  In `Model/Lexer.lean` the text of a cursor ends at the first NUL.
Here it ends at the end of the string, and the characters behind a NUL in the string are there: `*text == 0` is a test of the character,
and only a step beyond the NUL that terminates the buffer is undefined.  The branches of `tokenize` are the same.
-/

namespace Nxas

/-- `context::tokenize`, src/context.cpp:80-224, see `tokenizeAux`. -/
def tokenizeMemAux : Nat → Cur → Option TokRes
  | 0, _ => none
  | fuel + 1, c0 =>
    -- src/context.cpp:82-84
    let c := c0.skip isBlank
    -- src/context.cpp:90-93
    if c.peek = '\x00' then some (.ok ⟨.none, c.line, c.col⟩ c)
    else
      match lexHead c with
      | .done r => some r
      | .fall c1 =>
        match lexIdent c.text c1 with
        | .ub => some (.ub .readPastEnd)
        | .label c2 => tokenizeMemAux fuel c2
        | .ident s c2 => some (.ok ⟨.ident s, c.line, c.col⟩ c2)

/-- `context::tokenize`, src/context.cpp:80-224. -/
def tokenizeMem (c : Cur) : TokRes :=
  (tokenizeMemAux (c.text.length + 1) c).getD (.ub .fuel)

/-- `next_line`, src/context.cpp:271-275. -/
def LabelCur.nextLineMem : Nat → LabelCur → Except UB LabelCur
  | 0, _ => .error .fuel
  | fuel + 1, s =>
    match s.advance with
    | none => .error .readPastEnd
    | some s1 => if s1.cur.peek ≠ '\x00' ∧ s1.cur.col > 0 then LabelCur.nextLineMem fuel s1 else .ok s1

/-- The main loop of `generate_labels`, src/context.cpp:281-296. -/
def genLabelsMemAux : Nat → LabelCur → Labels → Except UB Labels
  | 0, _, _ => .error .fuel
  | fuel + 1, s, ls =>
    if s.cur.peek = '\x00' then .ok ls
    -- src/context.cpp:282-285
    else if !isAlpha s.cur.peek then
      match s.nextLineMem (s.cur.text.length + 1) with
      | .error u => .error u
      | .ok s1 => genLabelsMemAux fuel s1 ls
    else
      -- src/context.cpp:286-289
      let c1 := s.cur.skip isLabelChar
      let name := between s.cur.text c1.text
      -- src/context.cpp:290-295
      let ls1 := if c1.peek = ':' then ls.insert name s.pc else ls
      match LabelCur.nextLineMem (c1.text.length + 1) ⟨c1, s.pc⟩ with
      | .error u => .error u
      | .ok s1 => genLabelsMemAux fuel s1 ls1

/-- `context::generate_labels`, src/context.cpp:260-299. -/
def genLabelsMem (text : Str) : Except UB Labels :=
  genLabelsMemAux (text.length + 1) ⟨⟨text, 0, 0⟩, 8⟩ []

end Nxas
