import Verif.Model.Assemble
/-
The test driver, tests/tester.cpp.
-/

namespace Nxas

/-- How the test driver ends. -/
inductive TesterOut where
  /-- `main` returns -/
  | returns (status : Nat)
  /-- `fatal_error` in the assembler -/
  | exits (d : Diag)
  /-- failed assertion in the assembler -/
  | aborts
  /-- undefined behaviour in the assembler -/
  | ub (u : UB)
  /-- `result[1]` of a result with less than two words (undefined behaviour), tests/tester.cpp:38 -/
  | outOfBounds
  deriving DecidableEq, Repr

/-- `std::from_chars(..., 16)` for `uint64_t` (C++ library): the number given by the hexadecimal digits at the
    beginning; `none` without digits or out of range. -/
def fromCharsHex (s : Str) : Option (BitVec 64) :=
  let ds := s.takeWhile (isDigitOf 16)
  if ds = [] then none
  else if digitsVal 16 ds < 2 ^ 64 then some (BitVec.ofNat 64 (digitsVal 16 ds))
  else none

/-- The check of the result, tests/tester.cpp:23-43. -/
def testerCheck (result : List (BitVec 64)) (expected : Str) : TesterOut :=
  match expected with
  | z :: x :: d :: ds =>
    if z ≠ '0' ∨ (x ≠ 'x' ∧ x ≠ 'X') then .returns 1
    else
      match fromCharsHex (d :: ds) with
      | none => .returns 1
      | some e =>
        match result[1]? with
        | none => .outOfBounds
        | some w => if w ≠ e then .returns 1 else .returns 0
  | _ => .returns 1

/-- `main`, tests/tester.cpp:10-44; `args` are the arguments after the name of the program. -/
def tester (dbg : Bool) (args : List Str) : TesterOut :=
  match args with
  | [] => .returns 1
  | e :: rest =>
    match assemble dbg (e ++ c!";") with
    | .exit d => .exits d
    | .abort => .aborts
    | .ub u => .ub u
    | .ok result =>
      match rest with
      | [] => .returns 0
      | expected :: _ => testerCheck result expected

end Nxas
