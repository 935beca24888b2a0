import Verif.Model.Output
import Verif.Model.OrigCLI

/-!
# What the original program prints

The text of standard output for the commands `-solvech` and `-solvenc`: `main`, /repo/original_solver/Main.cc:25-93,
`SolveFinite`, /repo/original_solver/SolveFinite.cc:21-75, `PrintInfo`, /repo/original_solver/Formula.cc:205-216, and the
messages of `ParseCommandLine`, /repo/original_solver/Global.cc:306-312,340-346, and `BuildFormula`,
/repo/original_solver/Formula.cc:78-85,103-109.

Simplifications as in `Verif/Model/Output.lean`; the two numbers that are passed to `%d` as `size_t`
(/repo/original_solver/Formula.cc:213-214) are printed as they are, which they are on the usual machines.
-/

namespace Mvl.Orig

/-- /repo/original_solver/Main.cc:27. -/
def obanner : List Char := ['\n'] ++ "**** Finite Domain Sat Solver - Hemal A Lal ****".toList ++ ['\n']

/-- /repo/original_solver/Global.cc:308-310. -/
def badLineText : List Char :=
  "**** INCORRECT COMMANDLINE ****".toList ++ ['\n'] ++ " Check Input format using : exe -help".toList ++ ['\n'] ++ ['\n']

/-- /repo/original_solver/Formula.cc:105-107. -/
def mismatchText : List Char :=
  "**** ERROR ****".toList ++ ['\n'] ++ " Commandline arguments and file arguments do not match.".toList ++ ['\n'] ++ ['\n']

/-- `PrintInfo`, /repo/original_solver/Formula.cc:205-216. -/
def oinfoText (r : OReport) : List Char :=
  ['\n'] ++
  ("Number of Decisions   : ".toList ++ natText r.decisions ++ ['\n']) ++
  ("Number of Units       : ".toList ++ natText r.units ++ ['\n']) ++
  ("Number of Backtracks  : ".toList ++ natText r.backtracks ++ ['\n']) ++
  ("Number of Entails     : ".toList ++ natText r.entails ++ ['\n']) ++
  ("Number of Levels      : ".toList ++ intText r.levels ++ ['\n']) ++
  ("Number of Variables   : ".toList ++ natText r.variables ++ ['\n']) ++
  ("Number of Clauses     : ".toList ++ natText r.clauses ++ ['\n']) ++
  ['\n']

/-- `SolveFinite`, /repo/original_solver/SolveFinite.cc:36-74; `ChronoBacktrack` itself prints a line when it finds no atom
to branch on, /repo/original_solver/Formula.cc:918. -/
def osolveText (name : List Char) (t : Times) (r : OReport) : List Char :=
  (name ++ " \t".toList ++ t.build ++ ['\t']) ++
  (if r.noBranch = true then "No Branch Atom selected".toList ++ ['\n'] else []) ++
  (t.search ++ "\t ".toList ++ t.total ++ ['\t']) ++
  (r.answer.text ++ ['\n']) ++
  oinfoText r ++
  (if r.answer = .SAT then
    "Verifying model ... ".toList ++
    (if r.verified = some true then "model is CORRECT".toList ++ ['\n'] else "model is INCORRECT".toList ++ ['\n'])
  else [])

/-- Standard output of a run; the message of /repo/original_solver/Formula.cc:80-83 is that of the other program. -/
def ooutcomeText (name : List Char) (t : Times) : OOutcome → List Char
  | .badLine => obanner ++ badLineText
  | .lengthError => obanner
  | .noFile => obanner ++ noFileText
  | .mismatch => obanner ++ mismatchText
  | .report r => obanner ++ osolveText name t r

/-- Standard output of the program for the commands `-solvech` and `-solvenc`; `none` for the other commands. -/
def oprogramText (w : OWorld) (fuel : Nat) (argv : List (List Char)) (t : Times) : Res (Option (List Char)) := do
  match ← orunSolver w fuel argv with
  | none => pure none
  | some o =>
    let c ← parseOpts osolveOpt {} argv.tail
    pure (some (ooutcomeText (c.FILE.getD []) t o))

end Mvl.Orig
