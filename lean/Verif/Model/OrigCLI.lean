import Verif.Model.CLI
import Verif.Model.Orig

/-!
# The command line of the original solver

`ParseCommandLine`, /repo/original_solver/Global.cc:173-355, and the dispatch in `main`,
/repo/original_solver/Main.cc:25-93, for the two solver commands.

As for the other programs (`Verif/Model/CLI.lean`): `argv` is the list of arguments after the program name, an option that
wants a number as the last argument is `ub`, `atoi` outside the range of `int` is `ub`.  Allocation succeeds unless the
size is negative.
-/

namespace Mvl.Orig

open Mvl

/-- `struct CommandLine`, /repo/original_solver/Global.h, with the defaults of /repo/original_solver/Global.cc:179-188.
`none` is a null pointer. -/
structure OLine where
  NUM_VAR     : Int := -1
  NUM_CLAUSE  : Int := -1
  CLAUSE_SIZE : Int := 3
  FILE        : Option (List Char) := some "die".toList
  MODEL_FILE  : Option (List Char) := some "die".toList
  TIME        : Int := 3600
  BOOL_FINITE : Bool := false
deriving DecidableEq, Repr

/-- Options of `-solvech` and of `-solvenc`, the same, /repo/original_solver/Global.cc:282-300, 316-334.  `-bool` does not
read the next argument: it sets `atoi("-bool")`, which is 0. -/
def osolveOpt (o : List Char) : Option (OptKind OLine) :=
  if o = "-var".toList then some (.num fun c n => { c with NUM_VAR := n })
  else if o = "-clause".toList then some (.num fun c n => { c with NUM_CLAUSE := n })
  else if o = "-clausesize".toList then some (.num fun c n => { c with CLAUSE_SIZE := n })
  else if o = "-bool".toList then some (.flag fun c => { c with BOOL_FINITE := false })
  else if o = "-file".toList then some (.text fun c f => { c with FILE := f })
  else if o = "-model".toList then some (.text fun c f => { c with MODEL_FILE := f })
  else if o = "-time".toList then some (.num fun c n => { c with TIME := n })
  else none

/-- The solver command chosen by the first argument, /repo/original_solver/Main.cc:74-84; `none`: another command or the
menu. -/
def omode : List (List Char) → Option Mode
  | [] => none
  | a :: _ => if a = "-solvech".toList then some .ch else if a = "-solvenc".toList then some .nc else none

/-- The test for required options, /repo/original_solver/Global.cc:303-304, 337-338.  `strcmp` of a null pointer is
`ub`; it is reached only when the other tests fail. -/
def OLine.missing (c : OLine) : Res Bool :=
  if c.NUM_VAR = -1 ∨ c.NUM_CLAUSE = -1 ∨ c.CLAUSE_SIZE = -1 then .ok true
  else match c.FILE with
    | none => .ub
    | some f => .ok (f = "die".toList)

/-- Everything outside the program: what the uninitialised pointer holds, whether a bad `delete` goes unnoticed, the clock
and the files. -/
structure OWorld where
  tolerant : Bool
  ptr0     : Ptr
  late     : Int → Nat → Bool
  files    : List Char → Option (List Char)

def OLine.cfg (c : OLine) (w : OWorld) : OCfg := ⟨w.tolerant, w.ptr0, w.late c.TIME⟩

/-- Outcome of a run: the message about the command line, an exception (a negative size), the message about the file, the
message about the problem line, or an answer. -/
inductive OOutcome where
  | badLine
  | lengthError
  | noFile
  | mismatch
  | report (r : OReport)
deriving DecidableEq, Repr

/-- `SolveFinite`, /repo/original_solver/SolveFinite.cc:21-75, with the constructor of `Formula`,
/repo/original_solver/Formula.cc:34-52 (sizes `NUM_VAR+1` and, after it, `(int)(CLAUSE_SIZE*1.2)`; either may be out of the
range of `int`, and a negative one ends the program by an exception), and the opening of the file,
/repo/original_solver/Formula.cc:77-86. -/
def osolveNamed (w : OWorld) (m : Mode) (fuel : Nat) (c : OLine) : Res OOutcome :=
  if c.NUM_VAR = 2147483647 then .ub
  else if c.NUM_VAR + 1 < 0 then .ok .lengthError
  else if 5 * 2147483648 ≤ 6 * c.CLAUSE_SIZE ∨ 6 * c.CLAUSE_SIZE ≤ -(5 * 2147483649) then .ub
  else if c.CLAUSE_SIZE < 0 then .ok .lengthError
  else match c.FILE with
    | none => .ub
    | some name =>
      match w.files name with
      | none => .ok .noFile
      | some cs => do
        match ← solveFile (c.cfg w) m fuel c.NUM_VAR c.NUM_CLAUSE cs with
        | none => pure .mismatch
        | some r => pure (.report r)

/-- `main`, /repo/original_solver/Main.cc:25-93; `none`: not a solver command. -/
def orunSolver (w : OWorld) (fuel : Nat) (argv : List (List Char)) : Res (Option OOutcome) :=
  match omode argv with
  | none => .ok none
  | some m => do
    let c ← parseOpts osolveOpt {} argv.tail
    let bad ← c.missing
    if bad then pure (some .badLine)
    else do
      let r ← osolveNamed w m fuel c
      pure (some r)

end Mvl.Orig
