import Verif.Model.CLI
import Verif.Model.BitVec

/-!
# The command line of the bit-vector program

`ParseCommandLine`, /repo/bitvec/Global.cc:89-162, and the dispatch in `main`, /repo/bitvec/Main.cc:25-60.

As for the other program (`Verif/Model/CLI.lean`): `argv` is the list of arguments after the program name, an option that
wants a number as the last argument is `ub`, `atoi` outside the range of `int` is `ub`.
-/

namespace Mvl.BV

/-- `struct CommandLine`, /repo/bitvec/Global.h:33-58, with the defaults of /repo/bitvec/Global.cc:94-106. -/
structure BLine where
  NUM_VAR     : Int := -1
  NUM_CLAUSE  : Int := -1
  CLAUSE_SIZE : Int := 3
  DOMAIN_SIZE : Int := 10
  FILE        : Option (List Char) := none
  MODEL_FILE  : Option (List Char) := none
  TIME        : Int := 3600
  RESTARTS    : Int := 0
  MODEL       : Bool := true
  WATCH       : Bool := true
  VSIDS       : Bool := false
  LOG         : Bool := false
deriving DecidableEq, Repr

/-- Options of `-solvenc`, /repo/bitvec/Global.cc:127-150.  The second test for `-model` (:144) is never reached. -/
def bsolvencOpt (o : List Char) : Option (OptKind BLine) :=
  if o = "-restart".toList then some (.num fun c n => { c with RESTARTS := n })
  else if o = "-verbose".toList then some (.flag fun c => { c with LOG := true })
  else if o = "-wl".toList then some (.flag fun c => { c with WATCH := true })
  else if o = "-vsids".toList then some (.flag fun c => { c with VSIDS := true })
  else if o = "-model".toList then some (.flag fun c => { c with MODEL := true })
  else if o = "-var".toList then some (.num fun c n => { c with NUM_VAR := n })
  else if o = "-clause".toList then some (.num fun c n => { c with NUM_CLAUSE := n })
  else if o = "-clausesize".toList then some (.num fun c n => { c with CLAUSE_SIZE := n })
  else if o = "-file".toList then some (.text fun c f => { c with FILE := f })
  else if o = "-time".toList then some (.num fun c n => { c with TIME := n })
  else none

/-- Whether `main` solves, /repo/bitvec/Main.cc:40-55; otherwise it shows the menu. -/
def bsolves : List (List Char) → Bool
  | [] => false
  | a :: _ => a = "-solvenc".toList

/-- `ParseCommandLine`, /repo/bitvec/Global.cc:89-162. -/
def bparseCommandLine (argv : List (List Char)) : Res BLine :=
  if bsolves argv then parseOpts bsolvencOpt {} argv.tail else .ok {}

variable {S : Type}

/-- The solver settings taken from the command line: constructor of `Formula`, /repo/bitvec/Formula.cc:39-58, and
/repo/bitvec/SolveFinite.cc:46.  `WATCH` is not used. -/
def BLine.cfg (c : BLine) (w : World S) : BCfg S where
  vsids := c.VSIDS
  arith := w.arith
  restarts := c.RESTARTS
  late := w.late c.TIME

/-- Outcome of a run. -/
inductive BOutcome where
  | noFile
  | lengthError
  | report (r : BReport)
deriving DecidableEq, Repr

/-- `SolveFinite` on the file named on the command line, /repo/bitvec/SolveFinite.cc:21-73.  A null file name is `ub`; a
file that cannot be opened ends the program with a message, /repo/bitvec/Formula.cc:82-90; a negative `-clausesize` ends it
by an exception at the first line (`reserve`, /repo/bitvec/Formula.cc:96 and /repo/bitvec/Clause.cc:22-25). -/
def bsolveNamed (w : World S) (fuel : Nat) (c : BLine) : Res BOutcome :=
  match c.FILE with
  | none => .ub
  | some name =>
    match w.files name with
    | none => .ok .noFile
    | some cs =>
      if c.CLAUSE_SIZE < 0 ∧ fileLines cs ≠ [] then .ok .lengthError
      else do
        let r ← bsolveFile (c.cfg w) fuel cs
        pure (.report r)

/-- `main`, /repo/bitvec/Main.cc:25-60; `none`: the menu. -/
def brunSolver (w : World S) (fuel : Nat) (argv : List (List Char)) : Res (Option BOutcome) := do
  let c ← bparseCommandLine argv
  if bsolves argv then do
    let r ← bsolveNamed w fuel c
    pure (some r)
  else .ok none

end Mvl.BV
