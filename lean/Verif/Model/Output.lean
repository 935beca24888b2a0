import Verif.Model.CLI
import Verif.Format

/-!
# What the program prints

The text of standard output for the commands `-solvech` and `-solvenc` without `-verbose`: `main`,
/repo/src/Main.cc:26-35, `SolveFinite`, /repo/src/SolveFinite.cc:36-93, `PrintInfo` and `PrintModel`,
/repo/src/Formula.cc:217-240, and the message of `BuildFormula`, /repo/src/Formula.cc:84-92.  And
/repo/benchmarks/parse_results.cc and /repo/benchmarks/Nqueens/Output.cc, which read such texts.

Simplifications: the three times are parameters (their texts); `printf` and `cout` write in program order, which
`sync_with_stdio` guarantees; what `-verbose` adds is left out; the `int` counters are natural numbers as in `Report`.
-/

namespace Mvl

/-- The texts `%2.4f` of the three times of `SolveFinite`. -/
structure Times where
  build  : List Char
  search : List Char
  total  : List Char
deriving DecidableEq, Repr

/-- /repo/src/Main.cc:29,33: 72 asterisks. -/
def stars : List Char := List.replicate 72 '*'

/-- /repo/src/Main.cc:29-33. -/
def banner : List Char :=
  ['\n'] ++ stars ++ ['\n'] ++ ['\n'] ++ "Finite Domain Sat Solver".toList ++ ['\n'] ++ ['\n'] ++ stars ++ ['\n']

/-- /repo/src/Formula.cc:87-90. -/
def noFileText : List Char :=
  ['\n'] ++ "**** ERROR ****".toList ++ ['\n'] ++ "Could not open input file : ".toList ++ ['\n'] ++ ['\n']

/-- /repo/src/SolveFinite.cc:78-83. -/
def Answer.text : Answer → List Char
  | .SAT => "SAT".toList
  | .TIMEOUT => "TIMEOUT".toList
  | .UNSAT => "UNSAT".toList

/-- `PrintInfo`, /repo/src/Formula.cc:227-240. -/
def infoText (r : Report) : List Char :=
  ['\n'] ++
  ("Decisions   : ".toList ++ natText r.decisions ++ ['\n']) ++
  ("Units       : ".toList ++ natText r.units ++ ['\n']) ++
  ("Backtracks  : ".toList ++ natText r.backtracks ++ ['\n']) ++
  ("Entails     : ".toList ++ natText r.entails ++ ['\n']) ++
  ("Variables   : ".toList ++ natText r.variables ++ ['\n']) ++
  ("Clauses     : ".toList ++ natText r.clauses ++ ['\n']) ++
  ("Restarts   : ".toList ++ natText r.restarts ++ ['\n']) ++
  ['\n']

/-- `PrintModel`, /repo/src/Formula.cc:217-224, with `Literal::Print`, /repo/src/Literal.h:64-69. -/
def modelText (m : List Lit) : List Char := m.flatMap fun l => l.text ++ ['\n']

/-- `SolveFinite`, /repo/src/SolveFinite.cc:36-93; `WatchedLiterals` itself prints a line when it finds the conflict
at level 0, /repo/src/Formula.cc:1378. -/
def solveText (c : CommandLine) (name : List Char) (algo : Algo) (t : Times) (r : Report) : List Char :=
  (name ++ " \t".toList ++ t.build ++ ['\t']) ++
  (if algo = .learn ∧ c.WATCH = true ∧ r.answer = .UNSAT then "UNSAT".toList ++ ['\n'] else []) ++
  (t.search ++ "\t ".toList ++ t.total ++ ['\t']) ++ ['\n'] ++ ['\n'] ++ ['\x07'] ++
  (r.answer.text ++ ['\n']) ++
  infoText r ++
  (if r.answer = .SAT then
    (if c.MODEL = true then "The model: ".toList ++ ['\n'] ++ modelText r.model else []) ++
    "Verifying model ... ".toList ++
    (if r.verified = some true then "model is CORRECT".toList ++ ['\n'] else "model is INCORRECT".toList ++ ['\n'])
  else [])

/-- Standard output of a run.  An exception in `BuildFormula` ends the program after the banner. -/
def outcomeText (c : CommandLine) (name : List Char) (algo : Algo) (t : Times) : Outcome → List Char
  | .noFile => banner ++ noFileText
  | .lengthError => banner
  | .report r => banner ++ solveText c name algo t r

variable {S : Type}

/-- Standard output of the program for the commands `-solvech` and `-solvenc`; `none` for the other commands, and with
`-verbose`. -/
def programText (w : World S) (fuel : Nat) (argv : List (List Char)) (t : Times) : Res (Option (List Char)) := do
  let c ← parseCommandLine argv
  let o ← runSolver w fuel argv
  match o, c.FILE with
  | some o, some name =>
    if c.LOG = true then pure none
    else if command argv = .solvech then pure (some (outcomeText c name .chrono t o))
    else pure (some (outcomeText c name .learn t o))
  | _, _ => pure none

/-! ## The scripts that collect results -/

/-- The loop over the characters of a line with its terminating zero, /repo/benchmarks/parse_results.cc:20-29: the
argument is `oldstr + i`. -/
def resultChars : List Char → List Char
  | [] => []
  | c :: rest =>
    (if c = ':' then rest.drop 1 ++ [' '] else if c = 'T' ∧ rest.head? = some 'h' then ['\n'] else []) ++ resultChars rest

/-- What /repo/benchmarks/parse_results.cc:17-31 writes for a file of results. -/
def parseResults (cs : List Char) : List Char :=
  (pieces [] cs).flatMap fun l => resultChars (cString l ++ ['\x00'])

/-- The loop over the characters of a line, /repo/benchmarks/Nqueens/Output.cc:20-29. -/
def outputChars : List Char → List Char
  | [] => []
  | c :: rest => (if c = ':' then rest.drop 1 ++ [' '] else []) ++ outputChars rest

/-- What /repo/benchmarks/Nqueens/Output.cc:16-36 writes for a file of results. -/
def queensOutput (cs : List Char) : List Char :=
  ((pieces [] cs).flatMap fun l => outputChars (cString l ++ ['\x00'])) ++ ['\n']

end Mvl
