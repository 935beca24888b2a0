import Verif.Model.Parser

/-!
# The solver that the project started from, /repo/original_solver

The repository ships the finite-domain solver by Hemal Lal it was derived from (/repo/README.md, "Original
solver"; /repo/original_solver/README).  It has the same input format as /repo/src and two searches,
`-solvech` and `-solvenc`, but its own data structures and conflict analysis.

Models /repo/original_solver/Formula.cc, SolveFinite.cc, Variable.cc, Clause.cc.  Not modelled:
`NonChronoBacktrack` (Formula.cc:924-1022, never called), `checkConflict` (:294-308, never called),
`checkPureLiteral` (:369-372, never called), the `Print…` functions other than `PrintInfo`.

Simplifications: `int` without overflow; `new` always succeeds; objects that are never freed (clauses,
records, literals on `DECSTACK`) are values.  The one object that is freed, `ENTAILLITERAL`, is followed by
the state of its pointer, see `Ptr`.
-/

namespace Mvl.Orig

open Mvl

/-- The pointer `ENTAILLITERAL` (Formula.h:62): null, pointing to an object, or pointing nowhere (garbage,
or to an object already deleted). -/
inductive Ptr where
  | null | live | stale
deriving DecidableEq, Repr

/-- What the environment decides.  `ptr0`: what the memory of `ENTAILLITERAL` holds when the `Formula` object
is made; neither constructor (Formula.cc:13-52) sets it.  `tolerant`: whether `delete` of a pointer that
points nowhere goes unnoticed; ISO C++ makes it undefined behaviour.  `late k`: whether the `k`-th reading
of the clock is past the time limit. -/
structure OCfg where
  tolerant : Bool
  ptr0     : Ptr
  late     : Nat → Bool

/-- `class Clause`, /repo/original_solver/Clause.h: `ATOM_LIST` (its length is `NumAtom`), `SAT`, `NumUnAss`,
`LEVEL`. -/
structure OCls where
  lits : List Lit
  sat  : Bool
  un   : Int
  lvl  : Int
deriving DecidableEq, Repr

/-- `class Formula` with its `Variable` objects, /repo/original_solver/Formula.h:44-64, Variable.h.
Pairs of arrays `…POS`/`…NEG` are one function on literals.  `FLAG` is left out, see `analyze`. -/
structure OSt where
  nv    : Nat
  dom   : Nat → Nat
  /-- `ATOMASSIGN` -/
  asg   : Nat → Nat → Asg
  /-- `ATOMLEVEL` -/
  alvl  : Nat → Nat → Int
  /-- `CLAUSEID` -/
  cid   : Nat → Nat → Int
  /-- `VAL` of a variable, `none` is -1 -/
  vval  : Nat → Option Nat
  /-- `SAT` of a variable -/
  vsat  : Nat → Bool
  /-- `LEVEL` of a variable -/
  vlvl  : Nat → Int
  /-- `ATOMCNTPOS`, `ATOMCNTNEG` -/
  cnt   : Lit → Int
  /-- `ATOMRECPOS`, `ATOMRECNEG`: clause numbers, the newest first -/
  recs  : Lit → List Nat
  /-- `CLAUSELIST` and its size -/
  cls   : Nat → OCls
  ncl   : Nat
  /-- `UNITLIST` -/
  units : List Nat
  /-- `DECSTACK`, first entry first -/
  decs  : List Lit
  LEVEL : Int
  conflict : Bool
  conflicting : Int
  unitClause : Int
  nUnits : Nat
  nBacktracks : Nat
  nDecisions : Nat
  nEntails : Nat
  ptr   : Ptr
  /-- number of clock readings so far -/
  ticks : Nat
  /-- whether "No Branch Atom selected" was printed -/
  noBranch : Bool

/-- The atoms of a variable-and-value double loop, in order. -/
def OSt.atoms (s : OSt) : List (Nat × Nat) :=
  (List.range' 1 s.nv).flatMap fun v => (List.range (s.dom v)).map fun d => (v, d)

/-! ## Building the state -/

/-- The `Formula` constructor and the dummy variable 0, Formula.cc:34-52, 74-75, Variable.cc:34-66. -/
def init (cfg : OCfg) : OSt where
  nv := 0
  dom := fun _ => 0
  asg := fun _ _ => .un
  alvl := fun _ _ => -1
  cid := fun _ _ => -1
  vval := fun _ => none
  vsat := fun v => v = 0
  vlvl := fun _ => -1
  cnt := fun _ => 0
  recs := fun _ => []
  cls := fun _ => ⟨[], false, 0, -1⟩
  ncl := 0
  units := []
  decs := []
  LEVEL := 0
  conflict := false
  conflicting := -1
  unitClause := -1
  nUnits := 0
  nBacktracks := 0
  nDecisions := 0
  nEntails := 0
  ptr := cfg.ptr0
  ticks := 0
  noBranch := false

/-- A `d` line, Formula.cc:114-119. -/
def addVar (s : OSt) (d : Nat) : OSt := { s with nv := s.nv + 1, dom := upd s.dom (s.nv + 1) d }

/-- One literal of a clause line: count and record, Formula.cc:153-164, Variable.cc:102-123. -/
def addLit (s : OSt) (l : Lit) : OSt :=
  { s with cnt := upd s.cnt l (s.cnt l + 1), recs := upd s.recs l (s.ncl :: s.recs l) }

/-- Whether `VARLIST[var]->…[val]` is inside its arrays. -/
def litInRange (s : OSt) (l : Lit) : Bool := l.var ≤ s.nv ∧ l.val < s.dom l.var

/-- A clause line, Formula.cc:121-171, and `Clause::AddAtom`, Clause.cc:41-47. -/
def addClause (s : OSt) (ls : List Lit) : Res OSt :=
  if ls.all (litInRange s) then
    let s := ls.foldl addLit s
    .ok { s with cls := upd s.cls s.ncl ⟨ls, false, ls.length, -1⟩, ncl := s.ncl + 1 }
  else .ub

/-- The reading loop of `BuildFormula` on tokenised lines, Formula.cc:91-172. -/
def buildItems : List Item → OSt → Res OSt
  | [], s => .ok s
  | .dom d :: is, s => buildItems is (addVar s d)
  | .clause ls :: is, s => do
    let s ← addClause s ls
    buildItems is s

/-- Build the state for a formula. -/
def build (cfg : OCfg) (P : Problem) : Res OSt := buildItems P.items (init cfg)

/-! ## Assigning -/

/-- The body of the loop of `satisfyClauses`, Formula.cc:497-516. -/
def satisfyOne (s : OSt) (id : Nat) : OSt :=
  let c := s.cls id
  if c.sat then s
  else
    let free := c.lits.filter fun l => s.asg l.var l.val = .un
    { s with cls := upd s.cls id { c with sat := true, lvl := s.LEVEL, un := c.un - free.length }
             cnt := free.foldl (fun f l => upd f l (f l - 1)) s.cnt }

/-- `Formula::satisfyClauses`, Formula.cc:481-518. -/
def satisfy (s : OSt) (l : Lit) : OSt := (s.recs l).foldl satisfyOne s

/-- The body of the loop of `removeLiteral`, Formula.cc:532-547. -/
def removeOne (l : Lit) (s : OSt) (id : Nat) : OSt :=
  let c := s.cls id
  if c.sat then s
  else
    { s with cls := upd s.cls id { c with un := c.un - 1 }
             cnt := upd s.cnt l (s.cnt l - 1)
             units := if c.un - 1 = 1 then id :: s.units else s.units
             conflict := if c.un - 1 = 0 then true else s.conflict
             conflicting := if c.un - 1 = 0 then id else s.conflicting }

/-- `Formula::removeLiteral`, Formula.cc:521-550. -/
def remove (s : OSt) (l : Lit) : OSt := (s.recs l).foldl (removeOne l) s

/-- `satisfyClauses(l)`, `removeLiteral` of the complement, and the entries of the arrays `ATOMASSIGN`,
`ATOMLEVEL`, `CLAUSEID`, Formula.cc:415-424, 436-440, 448-452, 459-464. -/
def assign (s : OSt) (l : Lit) : OSt :=
  let s := remove (satisfy s l) l.neg
  { s with asg := upd2 s.asg l.var l.val (Asg.ofSign l.eq)
           alvl := upd2 s.alvl l.var l.val s.LEVEL
           cid := upd2 s.cid l.var l.val s.unitClause }

/-- One round of the two loops over the other values, Formula.cc:431-454.  (`CONFLICT`, once set, stays set
in these loops, so skipping is the same as leaving the loop.) -/
def otherValue (v : Nat) (s : OSt) (i : Nat) : OSt :=
  if s.conflict = false ∧ s.asg v i = .un then assign s ⟨v, i, false⟩ else s

/-- `reduceTheory(var, true, val)`, Formula.cc:410-454. -/
def reduceEq (s : OSt) (v d : Nat) : OSt :=
  let s := assign s ⟨v, d, true⟩
  let s := { s with vval := upd s.vval v (some d), vsat := upd s.vsat v true, vlvl := upd s.vlvl v s.LEVEL,
                    decs := s.decs ++ [⟨v, d, true⟩] }
  (List.range d ++ List.range' (d + 1) (s.dom v - (d + 1))).foldl (otherValue v) s

/-- The loop of `checkEntail` over the domain with its `flag` and `break`, Formula.cc:340-356. -/
def entailLoop (s : OSt) (v : Nat) : List Nat → Option Nat → Option Nat
  | [], found => found
  | j :: js, found =>
    if s.asg v j = .un then
      match found with
      | none => entailLoop s v js (some j)
      | some _ => none
    else entailLoop s v js found

/-- The literal `checkEntail` finds, Formula.cc:334-357. -/
def entailed (s : OSt) (v : Nat) : Option Nat :=
  if s.vsat v then none else entailLoop s v (List.range (s.dom v)) none

/-- `if(ENTAILLITERAL) delete ENTAILLITERAL;`, Formula.cc:328-329. -/
def dropEntail (cfg : OCfg) (s : OSt) : Res OSt :=
  match s.ptr with
  | .null => .ok s
  | .live => .ok { s with ptr := .stale }
  | .stale => if cfg.tolerant then .ok s else .ub

/-- `Formula::reduceTheory`, Formula.cc:408-478. -/
def reduce (cfg : OCfg) (s : OSt) (l : Lit) : Res OSt :=
  if l.eq then .ok (reduceEq s l.var l.val)
  else do
    let s := assign s l
    let s := { s with decs := s.decs ++ [l] }
    let s ← dropEntail cfg s
    match entailed s l.var with
    | some d => pure (reduceEq { s with ptr := .live, nEntails := s.nEntails + 1 } l.var d)
    | none => pure s

/-! ## Undoing -/

/-- The body of the loop of `addLiteral`, Formula.cc:661-669. -/
def addOne (l : Lit) (s : OSt) (id : Nat) : OSt :=
  let c := s.cls id
  if c.sat then s
  else { s with cls := upd s.cls id { c with un := c.un + 1 }, cnt := upd s.cnt l (s.cnt l + 1) }

/-- One atom of the first double loop of `undoTheory`, Formula.cc:562-569, with `addLiteral`, :649-672. -/
def addBack (level : Int) (s : OSt) (a : Nat × Nat) : OSt :=
  if s.alvl a.1 a.2 > level then
    let l : Lit := ⟨a.1, a.2, s.asg a.1 a.2 = .ne⟩
    (s.recs l).foldl (addOne l) s
  else s

/-- The body of the loop of `unsatisfyClauses`, Formula.cc:621-643.  The counts go up on the side (`=` or
`!=`) of the literal being undone, not of the literal counted. -/
def unsatisfyOne (level : Int) (e : Bool) (s : OSt) (id : Nat) : OSt :=
  let c := s.cls id
  if c.lvl > level then
    let ls := c.lits.filter fun l => s.alvl l.var l.val > level ∨ s.asg l.var l.val = .un
    { s with cls := upd s.cls id { c with un := c.un + ls.length, lvl := -1, sat := false }
             cnt := ls.foldl (fun f l => upd f ⟨l.var, l.val, e⟩ (f ⟨l.var, l.val, e⟩ + 1)) s.cnt }
  else s

/-- One atom of the second double loop of `undoTheory`, Formula.cc:578-587. -/
def undoAtom (level : Int) (v : Nat) (s : OSt) (d : Nat) : OSt :=
  if s.alvl v d > level then
    let e : Bool := s.asg v d ≠ .ne
    let s := (s.recs ⟨v, d, e⟩).foldl (unsatisfyOne level e) s
    { s with alvl := upd2 s.alvl v d (-1), asg := upd2 s.asg v d .un, cid := upd2 s.cid v d (-1) }
  else s

/-- One variable of the second double loop of `undoTheory`, Formula.cc:574-594. -/
def undoVar (level : Int) (s : OSt) (v : Nat) : OSt :=
  let s := (List.range (s.dom v)).foldl (undoAtom level v) s
  if s.vlvl v > level then
    { s with vlvl := upd s.vlvl v (-1), vsat := upd s.vsat v false, vval := upd s.vval v none }
  else s

/-- `Formula::undoTheory`, Formula.cc:553-605. -/
def undo (s : OSt) (level : Int) : OSt :=
  let s := s.atoms.foldl (addBack level) s
  let s := (List.range' 1 s.nv).foldl (undoVar level) s
  { s with decs := s.decs.filter fun l => s.asg l.var l.val ≠ .un }

/-! ## Tests and choices -/

/-- `Formula::checkSat`, Formula.cc:280-291. -/
def checkSat (s : OSt) : Bool := (List.range s.ncl).all fun id => (s.cls id).sat

/-- `Formula::checkUnit`, Formula.cc:311-323. -/
def checkUnit (s : OSt) : OSt :=
  { s with units := (List.range s.ncl).filter fun id => (s.cls id).un = 1 ∧ (s.cls id).sat = false }

/-- `Formula::chooseLiteral`, Formula.cc:375-405, without `UNITCLAUSE = -1`.  The running maximum starts at
`-9999999999999999`, which does not fit in an `int`; modelled as a value below all counts. -/
def choose (s : OSt) : Option Lit :=
  (s.atoms.foldl (fun (best : Option (Int × Lit)) (a : Nat × Nat) =>
      if s.vsat a.1 = false ∧ s.asg a.1 a.2 = .un then
        let t := s.cnt ⟨a.1, a.2, true⟩ - s.cnt ⟨a.1, a.2, false⟩
        match best with
        | none => some (t, ⟨a.1, a.2, true⟩)
        | some (m, l) => if m < t then some (t, ⟨a.1, a.2, true⟩) else some (m, l)
      else best) none).map Prod.snd

/-- The `while(1)` of `analyzeConflict`, Formula.cc:703-785, going down `DECSTACK`: `n` is `index + 1`.
`FLAG` is `true` for every atom when the loop starts (:690-701 writes `true` in both branches), so the part
that collects literals (:708-737) and the inner `while` (:738-742) do nothing, `numLit` starts at 0 and only
decreases, and the loop goes on until `CID` is -1.  Reading `DECSTACK[-1]` is `ub`. -/
def walk (s : OSt) : Nat → Int → Res Nat
  | n, -1 => .ok n
  | 0, _ => .ub
  | k + 1, _ =>
    match s.decs[k]? with
    | none => .ub
    | some l => walk s k (s.cid l.var l.val)

/-- `Formula::analyzeConflict`, Formula.cc:675-788: the learned clause is the complement of the entry found,
with `NumUnAss` 0.  The returned level is always 0, since the clause has one literal (:763-764). -/
def analyze (s : OSt) : Res OSt := do
  let n ← walk s s.decs.length s.conflicting
  match n with
  | 0 => .ub
  | k + 1 =>
    match (s.decs.drop k).find? fun l => s.alvl l.var l.val = s.LEVEL with
    | none => .ub
    | some l =>
      pure { s with cls := upd s.cls s.ncl ⟨[l.neg], false, 0, -1⟩
                    recs := upd s.recs l.neg (s.ncl :: s.recs l.neg)
                    ncl := s.ncl + 1 }

/-! ## The searches -/

/-- One reading of the clock, `(TIME_E - TIME_S) > TIMELIMIT`. -/
def readClock (cfg : OCfg) (s : OSt) : Bool × OSt :=
  (cfg.late s.ticks, { s with ticks := s.ticks + 1 })

/-- The loop of `Formula::unitPropagation`, Formula.cc:801-828.  (`CLAUSEID` of the unit literal, :818, is
written again by `reduceTheory` with the same value.) -/
def unitLoop (cfg : OCfg) : Nat → OSt → Res OSt
  | 0, _ => .fuel
  | f + 1, s =>
    if s.conflict then .ok s
    else match s.units with
      | [] => .ok s
      | id :: rest =>
        let s1 : OSt := { s with nUnits := s.nUnits + 1, unitClause := id, units := rest }
        if id < s1.ncl then
          if (s1.cls id).sat then unitLoop cfg f s1
          else
            match (s1.cls id).lits.find? fun l => s1.asg l.var l.val = .un with
            | some l => do
              let s2 ← reduce cfg s1 l
              unitLoop cfg f s2
            | none => unitLoop cfg f s1
        else .ub

/-- `Formula::unitPropagation`, Formula.cc:791-838. -/
def unitProp (cfg : OCfg) (f : Nat) (s : OSt) : Res OSt := do
  let s ← unitLoop cfg f s
  pure (if s.conflict then { s with units := [] } else s)

/-- `Formula::ChronoBacktrack(level)`, Formula.cc:841-921.  Result code: 0 satisfied, 1 timeout, 2 conflict. -/
def chrono (cfg : OCfg) : Nat → OSt → Int → Res (Nat × OSt)
  | 0, _, _ => .fuel
  | f + 1, s, level => do
    let s : OSt := { s with LEVEL := level }
    if checkSat s then pure (0, s) else
    let (late, s) := readClock cfg s
    if late then pure (1, s) else
    let s ← if s.units = [] then pure s else unitProp cfg f s
    if checkSat s then pure (0, s) else
    let (late, s) := readClock cfg s
    if late then pure (1, s) else
    if s.conflict then
      let s : OSt := { s with nBacktracks := s.nBacktracks + 1, conflict := false }
      let s := undo s (s.LEVEL - 1)
      pure (2, { s with LEVEL := s.LEVEL - 1 })
    else
      match choose s with
      | none => pure (0, { s with unitClause := -1, noBranch := true })
      | some l =>
        let s : OSt := { s with unitClause := -1, nDecisions := s.nDecisions + 1, LEVEL := s.LEVEL + 1 }
        let s ← reduce cfg s l
        let (r, s) ← chrono cfg f s s.LEVEL
        if r = 0 then pure (0, s)
        else if r = 1 then pure (1, s)
        else if r = 2 ∧ s.LEVEL ≠ 0 then
          let s ← reduce cfg s l.neg
          chrono cfg f s s.LEVEL
        else pure (2, s)

/-- The conflict part of `NonChronoBacktrackLoop`, Formula.cc:1065-1074. -/
def conflictStep (s : OSt) : Res OSt := do
  let s ← analyze s
  let s : OSt := { s with LEVEL := 0, nBacktracks := s.nBacktracks + 1, conflict := false }
  pure (checkUnit (undo s s.LEVEL))

/-- The decision part of `NonChronoBacktrackLoop`, Formula.cc:1080-1088. -/
def decideStep (cfg : OCfg) (s : OSt) : Res OSt :=
  match choose s with
  | none => .ok { s with unitClause := -1 }
  | some l => reduce cfg { s with unitClause := -1, nDecisions := s.nDecisions + 1, LEVEL := s.LEVEL + 1 } l

/-- The `while(true)` of `Formula::NonChronoBacktrackLoop`, Formula.cc:1035-1090. -/
def learnLoop (cfg : OCfg) : Nat → OSt → Res (Nat × OSt)
  | 0, _ => .fuel
  | f + 1, s => do
    if checkSat s then pure (0, s) else
    let (late, s) := readClock cfg s
    if late then pure (1, s) else
    if s.units ≠ [] then
      let s ← unitProp cfg f s
      if checkSat s then pure (0, s) else
      let (late, s) := readClock cfg s
      if late then pure (1, s) else
      learnLoop cfg f s
    else if s.conflict then
      if s.LEVEL = 0 then pure (2, s) else do
      let s ← conflictStep s
      learnLoop cfg f s
    else do
      let s ← decideStep cfg s
      learnLoop cfg f s

/-! ## SolveFinite -/

/-- Which search runs: `-solvech` or `-solvenc`. -/
inductive Mode where
  | ch | nc
deriving DecidableEq, Repr

/-- What the loop of `verifyModel` over variable and value marks satisfied, Formula.cc:225-275. -/
def marks (s : OSt) (a : Nat × Nat) : List Nat :=
  match s.vval a.1 with
  | some d => s.recs ⟨a.1, a.2, a.2 = d⟩
  | none => if s.asg a.1 a.2 = .ne then s.recs ⟨a.1, a.2, false⟩ else []

/-- `Formula::verifyModel`, Formula.cc:219-277. -/
def verify (s : OSt) : Bool :=
  (List.range s.ncl).all fun id => id ∈ s.atoms.flatMap (marks s)

/-- What `SolveFinite` prints (times left out). -/
structure OReport where
  answer     : Answer
  decisions  : Nat
  units      : Nat
  backtracks : Nat
  entails    : Nat
  levels     : Int
  variables  : Nat
  clauses    : Nat
  noBranch   : Bool
  verified   : Option Bool
deriving DecidableEq, Repr

/-- The output part of `SolveFinite`, SolveFinite.cc:56-75, and `PrintInfo`, Formula.cc:205-216. -/
def report (r : Nat) (s : OSt) : OReport where
  answer := if r = 0 then .SAT else if r = 1 then .TIMEOUT else .UNSAT
  decisions := s.nDecisions
  units := s.nUnits
  backtracks := s.nBacktracks
  entails := s.nEntails
  levels := s.LEVEL
  variables := s.nv
  clauses := s.ncl
  noBranch := s.noBranch
  verified := if r = 0 then some (verify s) else none

/-- The search call of `SolveFinite`, SolveFinite.cc:41-55. -/
def search (cfg : OCfg) (m : Mode) (fuel : Nat) (s : OSt) : Res (Nat × OSt) :=
  match m with
  | .ch => chrono cfg fuel (checkUnit s) 0
  | .nc => learnLoop cfg fuel { checkUnit s with LEVEL := 0 }

/-- `BuildFormula` and the search, SolveFinite.cc:30-55. -/
def run (cfg : OCfg) (m : Mode) (fuel : Nat) (P : Problem) : Res (Nat × OSt) := do
  let s ← build cfg P
  search cfg m fuel s

/-- `SolveFinite`, SolveFinite.cc:21-75, on a formula. -/
def solve (cfg : OCfg) (m : Mode) (fuel : Nat) (P : Problem) : Res OReport := do
  let (r, s) ← run cfg m fuel P
  pure (report r s)

/-! ## Reading a file -/

/-- One line of the file, Formula.cc:92-171.  As in /repo/src (see `Mvl.scanLine`), except that a line that
begins with `p` ends the program when the two numbers are not those of the command line: outcome `none`. -/
def scanLine (nvars nclauses : Int) (s : Scan) (line : List Char) : Res (Option (Scan × Option Item)) :=
  match line with
  | 'p' :: _ => do
    let s ← scanP s line
    match s.var, s.val with
    | some a, some b => if a ≠ nvars ∨ b ≠ nclauses then pure none else pure (some (s, none))
    | _, _ => .ub
  | _ => do
    let r ← Mvl.scanLine s line
    pure (some r)

/-- The reading loop, Formula.cc:89-172; `none` is `exit(1)`. -/
def scanLines (nvars nclauses : Int) (s : Scan) : List (List Char) → Res (Option (List Item))
  | [] => .ok (some [])
  | l :: ls => do
    match ← scanLine nvars nclauses s (cString l) with
    | none => pure none
    | some (s, i) =>
      match ← scanLines nvars nclauses s ls with
      | none => pure none
      | some is => pure (some (i.toList ++ is))

/-- What `BuildFormula` reads from a file with `-var nvars -clause nclauses`. -/
def readFile (nvars nclauses : Int) (cs : List Char) : Res (Option (List Item)) :=
  scanLines nvars nclauses {} (fileLines cs)

/-- `SolveFinite` on the characters of a file; `none` is `exit(1)` on the problem line. -/
def solveFile (cfg : OCfg) (m : Mode) (fuel : Nat) (nvars nclauses : Int) (cs : List Char) :
    Res (Option OReport) := do
  match ← readFile nvars nclauses cs with
  | none => pure none
  | some is => do
    let s ← buildItems is (init cfg)
    let (r, s) ← search cfg m fuel s
    pure (some (report r s))

end Mvl.Orig
