import Verif.Model.Assemble
/-
`read_file` and `main` (src/command_line.cpp) on files that change, have no size or do not take all bytes.
-/

namespace Nxas

/-- A file opened for reading, src/command_line.cpp:12-20. -/
structure Source where
  /-- the position of the end, line 17; `none`: the file has none (-1) or it exceeds the largest string -/
  size : Option Nat
  /-- the characters that the file has when it is read, line 20 -/
  chars : Str

/-- What becomes of bytes written to a file, src/command_line.cpp:56-60. -/
inductive Sink where
  /-- it cannot be opened -/
  | closed
  /-- it takes that many bytes -/
  | full (room : Nat)
  /-- it takes all bytes -/
  | unlimited
  deriving DecidableEq, Repr

/-- The bytes that get to the file. -/
def Sink.keeps : Sink → List (BitVec 8) → List (BitVec 8)
  | .closed, _ => []
  | .full n, bytes => bytes.take n
  | .unlimited, bytes => bytes

/-- The files as `main` finds them. -/
structure World where
  source : Str → Option Source
  sink : Str → Sink

/-- `std::string text(size, ' ')` after `file.read`, src/command_line.cpp:17-20: what is missing in the file remains blank, and
    nobody looks at the state of the stream. -/
def readText (size : Nat) (chars : Str) : Str := chars.take size ++ List.replicate (size - chars.length) ' '

/-- `main`, src/command_line.cpp:24-64.  The constructor of the string throws if there is no size (line 17); nothing catches that
    exception.  `ofstream` throws no exceptions unless told to, so the `catch` of line 61 is never used and write errors have no
    consequences. -/
def mainWorld (dbg : Bool) (w : World) (args : List Str) : List Event × Res Unit :=
  match parseArgs args none none with
  | .error msg => ([], .exit (.plain msg))
  | .ok (none, _) => ([], .exit (.plain "no input file"))
  | .ok (some _, none) => ([], .exit (.plain "no output file"))
  | .ok (some i, some o) =>
    match w.source i with
    | none => ([], .ub .nullFormat)
    | some src =>
      match src.size with
      | none => ([], .abort)
      | some size =>
        match assemble dbg (cstr (readText size src.chars)) with
        | .ok words =>
          match w.sink o with
          | .closed => ([.read i], .exit (.plain ⟨"%s: failed to open", [.text o]⟩))
          | s => ([.read i, .create o, .write o (s.keeps (words.flatMap wordBytes))], .ok ())
        | .exit d => ([.read i], .exit d)
        | .abort => ([.read i], .abort)
        | .ub u => ([.read i], .ub u)

end Nxas
