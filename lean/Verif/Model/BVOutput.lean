import Verif.Model.Output
import Verif.Model.BVCLI

/-!
# What the bit-vector program prints

The text of standard output for the command `-solvenc` without `-verbose`: `main`, /repo/bitvec/Main.cc:25-60,
`SolveFinite`, /repo/bitvec/SolveFinite.cc:21-73, `PrintModel` and `PrintInfo`, /repo/bitvec/Formula.cc:211-235, and the
message of `BuildFormula`, /repo/bitvec/Formula.cc:82-90.

Simplifications as in `Verif/Model/Output.lean`.  The message about a domain of more than 64 values
(/repo/bitvec/Formula.cc:116-118) is not modelled: such a file is `ub` in `bsolveFile`.
-/

namespace Mvl.BV

/-- A `bitset<64>` on a stream: 64 digits, the one of the largest value first. -/
def bitsText (b : Bits) : List Char := (List.range 64).map fun i => if b.getLsbD (63 - i) then '1' else '0'

/-- `PrintModel`, /repo/bitvec/Formula.cc:212-219; the list begins with the unused variable 0. -/
def bmodelText (m : List Bits) : List Char :=
  m.zipIdx.flatMap fun p => natText p.2 ++ ['='] ++ bitsText p.1 ++ ['\n']

/-- `PrintInfo`, /repo/bitvec/Formula.cc:222-235.  `ENTAILS` is never changed (/repo/bitvec/Formula.cc:28,50). -/
def binfoText (r : BReport) : List Char :=
  ['\n'] ++
  ("Decisions   : ".toList ++ natText r.decisions ++ ['\n']) ++
  ("Units       : ".toList ++ natText r.units ++ ['\n']) ++
  ("Backtracks  : ".toList ++ natText r.backtracks ++ ['\n']) ++
  ("Entails     : ".toList ++ natText 0 ++ ['\n']) ++
  ("Variables   : ".toList ++ natText r.variables ++ ['\n']) ++
  ("Clauses     : ".toList ++ natText r.clauses ++ ['\n']) ++
  ("Restarts   : ".toList ++ natText r.restarts ++ ['\n']) ++
  ['\n']

/-- `SolveFinite`, /repo/bitvec/SolveFinite.cc:36-72; the search itself prints a line when it finds the conflict at
level 0, /repo/bitvec/Formula.cc:649. -/
def bsolveText (c : BLine) (name : List Char) (t : Times) (r : BReport) : List Char :=
  (name ++ " \t".toList ++ t.build ++ ['\t']) ++
  (if r.answer = .UNSAT then "UNSAT".toList ++ ['\n'] else []) ++
  (t.search ++ "\t ".toList ++ t.total ++ ['\t']) ++ ['\n'] ++ ['\n'] ++ ['\x07'] ++
  (r.answer.text ++ ['\n']) ++
  binfoText r ++
  (if r.answer = .SAT then
    (if c.MODEL = true then "The model: ".toList ++ ['\n'] ++ bmodelText r.model else []) ++
    "Verifying model ... ".toList ++
    (if r.verified = some true then "model is CORRECT".toList ++ ['\n'] else "model is INCORRECT".toList ++ ['\n'])
  else [])

/-- Standard output of a run; the banner, /repo/bitvec/Main.cc:29-33, and the message, /repo/bitvec/Formula.cc:85-88, are
those of the other program. -/
def boutcomeText (c : BLine) (name : List Char) (t : Times) : BOutcome → List Char
  | .noFile => banner ++ noFileText
  | .lengthError => banner
  | .report r => banner ++ bsolveText c name t r

variable {S : Type}

/-- Standard output of the program for the command `-solvenc`; `none` for the menu, and with `-verbose`. -/
def bprogramText (w : World S) (fuel : Nat) (argv : List (List Char)) (t : Times) : Res (Option (List Char)) := do
  let c ← bparseCommandLine argv
  let o ← brunSolver w fuel argv
  match o, c.FILE with
  | some o, some name => if c.LOG = true then pure none else pure (some (boutcomeText c name t o))
  | _, _ => pure none

end Mvl.BV
