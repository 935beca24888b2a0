import Verif.Model.Parser

/-!
# The command line

`ParseCommandLine`, /repo/src/Global.cc:181-357, and the dispatch in `main`, /repo/src/Main.cc:26-101.

`argv` is the list of arguments after the program name; `argv[++current]` behind the last argument is the
null pointer, so `atoi` of it is `ub`, while `FILE = argv[++current]` just stores a null pointer.
Simplifications: an argument is a list of characters, `atoi` outside the range of `int` is `ub`.
-/

namespace Mvl

/-- `struct CommandLine`, /repo/src/Global.h:35-67. -/
structure CommandLine where
  NUM_VAR     : Int := -1
  NUM_CLAUSE  : Int := -1
  CLAUSE_SIZE : Int := 3
  SAT_UNSAT   : Bool := true
  DOMAIN_SIZE : Int := 10
  DRAND       : Bool := false
  BOOL_FINITE : Bool := false
  FILE        : Option (List Char) := none
  MODEL_FILE  : Option (List Char) := none
  TIME        : Int := 3600000
  RESTARTS    : Int := 0
  MODEL       : Bool := true
  WATCH       : Bool := false
  heuristic   : Heuristic := .BK
  LOG         : Bool := false
deriving DecidableEq, Repr

/-- `atoi`: 0 when no number can be read. -/
def atoi (a : List Char) : Res Int :=
  match scanInt a with
  | .ok (some (n, _)) => .ok n
  | .ok none => .ok 0
  | .ub => .ub
  | .fuel => .fuel

/-- One option of a command: a flag, an option with a number or one with a text. -/
inductive OptKind (C : Type := CommandLine) where
  | flag (f : C → C)
  | num  (f : C → Int → C)
  | text (f : C → Option (List Char) → C)

/-- Options of `-genben`, /repo/src/Global.cc:219-242. -/
def genbenOpt (o : List Char) : Option OptKind :=
  if o = "-var".toList then some (.num fun c n => { c with NUM_VAR := n })
  else if o = "-clause".toList then some (.num fun c n => { c with NUM_CLAUSE := n })
  else if o = "-clausesize".toList then some (.num fun c n => { c with CLAUSE_SIZE := n })
  else if o = "-sat".toList then some (.num fun c n => { c with SAT_UNSAT := n ≠ 0 })
  else if o = "-domain".toList then some (.num fun c n => { c with DOMAIN_SIZE := n })
  else if o = "-drand".toList then some (.num fun c n => { c with DRAND := n ≠ 0 })
  else if o = "-bool".toList then some (.num fun c n => { c with BOOL_FINITE := n ≠ 0 })
  else if o = "-file".toList then some (.text fun c f => { c with FILE := f })
  else none

/-- Options of `-b2f`, `-linenc` and `-quadenc`, /repo/src/Global.cc:244-284. -/
def convOpt (o : List Char) : Option OptKind :=
  if o = "-file".toList then some (.text fun c f => { c with FILE := f })
  else if o = "-model".toList then some (.text fun c f => { c with MODEL_FILE := f })
  else none

/-- Options of `-solvech`, /repo/src/Global.cc:286-311. -/
def solvechOpt (o : List Char) : Option OptKind :=
  if o = "-var".toList then some (.num fun c n => { c with NUM_VAR := n })
  else if o = "-clause".toList then some (.num fun c n => { c with NUM_CLAUSE := n })
  else if o = "-clausesize".toList then some (.num fun c n => { c with CLAUSE_SIZE := n })
  else if o = "-file".toList then some (.text fun c f => { c with FILE := f })
  else if o = "-model".toList then some (.text fun c f => { c with MODEL_FILE := f })
  else if o = "-time".toList then some (.num fun c n => { c with TIME := n })
  else if o = "-lazy".toList then some (.flag fun c => { c with heuristic := .lazy })
  else if o = "-verbose".toList then some (.flag fun c => { c with LOG := true })
  else none

/-- Options of `-solvenc`, /repo/src/Global.cc:313-349. -/
def solvencOpt (o : List Char) : Option OptKind :=
  if o = "-restart".toList then some (.num fun c n => { c with RESTARTS := n })
  else if o = "-verbose".toList then some (.flag fun c => { c with LOG := true })
  else if o = "-wl".toList then
    some (.flag fun c => { c with WATCH := true, heuristic := if c.heuristic = .BK then .VSIDS else c.heuristic })
  else if o = "-vsids".toList then some (.flag fun c => { c with heuristic := .VSIDS })
  else if o = "-vsids_pos".toList then some (.flag fun c => { c with heuristic := .VSIDS_pos })
  else if o = "-lazy".toList then some (.flag fun c => { c with heuristic := .lazy })
  else if o = "-model".toList then some (.flag fun c => { c with MODEL := true })
  else if o = "-var".toList then some (.num fun c n => { c with NUM_VAR := n })
  else if o = "-clause".toList then some (.num fun c n => { c with NUM_CLAUSE := n })
  else if o = "-clausesize".toList then some (.num fun c n => { c with CLAUSE_SIZE := n })
  else if o = "-file".toList then some (.text fun c f => { c with FILE := f })
  else if o = "-time".toList then some (.num fun c n => { c with TIME := n })
  else none

/-- The loop `for(current = 2; current < argc; current++)`; an argument that is no option is skipped. -/
def parseOpts {C : Type} (opt : List Char → Option (OptKind C)) : C → List (List Char) → Res C
  | c, [] => .ok c
  | c, o :: args =>
    match opt o with
    | none => parseOpts opt c args
    | some (.flag f) => parseOpts opt (f c) args
    | some (.num f) =>
      match args with
      | [] => .ub
      | a :: args =>
        match atoi a with
        | .ok n => parseOpts opt (f c n) args
        | .ub => .ub
        | .fuel => .fuel
    | some (.text f) =>
      match args with
      | [] => .ok (f c none)
      | a :: args => parseOpts opt (f c (some a)) args

/-- What `main` does after reading the options, /repo/src/Main.cc:40-98. -/
inductive Command where
  | help | genben | b2f | linenc | quadenc | solvech | solvenc
deriving DecidableEq, Repr

/-- The command is the first argument. -/
def command : List (List Char) → Command
  | [] => .help
  | a :: _ =>
    if a = "-genben".toList then .genben
    else if a = "-b2f".toList then .b2f
    else if a = "-linenc".toList then .linenc
    else if a = "-quadenc".toList then .quadenc
    else if a = "-solvech".toList then .solvech
    else if a = "-solvenc".toList then .solvenc
    else .help

/-- Options of a command, /repo/src/Global.cc:213-355. -/
def Command.opts : Command → List Char → Option OptKind
  | .genben => genbenOpt
  | .b2f => convOpt
  | .linenc => convOpt
  | .quadenc => convOpt
  | .solvech => solvechOpt
  | .solvenc => solvencOpt
  | .help => fun _ => none

/-- `ParseCommandLine`, /repo/src/Global.cc:181-357. -/
def parseCommandLine (argv : List (List Char)) : Res CommandLine :=
  parseOpts (command argv).opts {} argv.tail

variable {S : Type}

/-- Parts of a run that the command line does not decide: the score arithmetic and, for each clock reading,
whether more than `TIME` seconds have passed. -/
structure World (S : Type) where
  arith : ScoreArith S
  late  : Int → Nat → Bool
  files : List Char → Option (List Char)

/-- The solver settings taken from the command line: constructor of `Formula`, /repo/src/Formula.cc:40-60,
and /repo/src/SolveFinite.cc:45-68. -/
def CommandLine.cfg (c : CommandLine) (w : World S) : Cfg S where
  heur := c.heuristic
  watch := c.WATCH
  arith := w.arith
  restarts := c.RESTARTS
  late := w.late c.TIME

/-- Outcome of a run of the program with a solver command. -/
inductive Outcome where
  | noFile
  | lengthError
  | report (r : Report)
deriving DecidableEq, Repr

/-- `BuildFormula` and `SolveFinite` on the file named on the command line.  A null file name is `ub`; a file
that cannot be opened ends the program with a message, /repo/src/Formula.cc:84-92; a negative `-clausesize`
ends it by an exception at the first line (`reserve`, /repo/src/Formula.cc:98 and /repo/src/Clause.cc:25-27).
Whether memory suffices for a huge `-clausesize` is not modelled. -/
def solveNamed (w : World S) (fuel : Nat) (c : CommandLine) (algo : Algo) : Res Outcome :=
  match c.FILE with
  | none => .ub
  | some name =>
    match w.files name with
    | none => .ok .noFile
    | some cs =>
      if c.CLAUSE_SIZE < 0 ∧ fileLines cs ≠ [] then .ok .lengthError
      else do
        let r ← solveFile (c.cfg w) algo fuel cs
        pure (.report r)

/-- `main`, /repo/src/Main.cc:26-101, for the commands `-solvech` and `-solvenc`; `none` for the others. -/
def runSolver (w : World S) (fuel : Nat) (argv : List (List Char)) : Res (Option Outcome) := do
  let c ← parseCommandLine argv
  match command argv with
  | .solvech => do
    let r ← solveNamed w fuel c .chrono
    pure (some r)
  | .solvenc => do
    let r ← solveNamed w fuel c .learn
    pure (some r)
  | _ => .ok none

end Mvl
