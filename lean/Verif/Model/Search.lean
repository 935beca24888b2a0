import Verif.Model.Core

/-!
# The search loops of Formula.cc and SolveFinite.cc, and building the state from the input
-/

namespace Mvl

variable {S : Type}

/-- `TIME_E = GetTime(); if (TIME_E - TIME_S > TIMELIMIT)`: one clock reading. -/
def readClock (cfg : Cfg S) (s : St S) : Bool × St S :=
  (cfg.late s.ticks, { s with ticks := s.ticks + 1 })

/-- Loop of `Formula::unitPropagation`, /repo/src/Formula.cc:1604-1635. -/
def unitProp (cfg : Cfg S) : Nat → St S → Res (St S)
  | 0, _ => .fuel
  | f + 1, s =>
    if s.conflict then .ok s
    else match s.units with
      | [] => .ok s
      | id :: rest =>
        let s1 : St S := { s with unitClause := id, units := rest }
        if id < s1.ncl then
          if (s1.cl id).level = -1 then
            match (s1.cl id).lits.find? fun l => s1.asg l.var l.val = .un with
            | some l => unitProp cfg f (reduceTheory cfg { s1 with nUnits := s1.nUnits + 1 } l)
            | none => unitProp cfg f s1
          else unitProp cfg f s1
        else .ub

/-- Loop of `Formula::WatchedUnitPropagation`, /repo/src/Formula.cc:1165-1189. -/
def wunitProp (cfg : Cfg S) : Nat → St S → Res (St S)
  | 0, _ => .fuel
  | f + 1, s =>
    if s.ub then .ub
    else if s.conflict then .ok s
    else match s.units with
      | [] => .ok s
      | id :: rest =>
        let s1 : St S := { s with unitClause := id, units := rest }
        if id < s1.ncl then
          let c := s1.cl id
          match c.w0 with
          | none => .ub
          | some w =>
            if sat s1 w = 2 then
              let s2 := wreduceTheory s1 w
              wunitProp cfg f { s2 with nUnits := s2.nUnits + 1 }
            else if c.lits.length > 1 then
              match c.w1 with
              | none => .ub
              | some w' =>
                if sat s1 w' = 2 then
                  let s2 := wreduceTheory s1 w'
                  wunitProp cfg f { s2 with nUnits := s2.nUnits + 1 }
                else wunitProp cfg f s1
            else wunitProp cfg f s1
        else .ub

/-- `Formula::ChronoBacktrack(level)`, /repo/src/Formula.cc:1533-1602.  Result code: 0 satisfied,
1 timeout, 2 conflict. -/
def chrono (cfg : Cfg S) : Nat → St S → Int → Res (Nat × St S)
  | 0, _, _ => .fuel
  | f + 1, s, level => do
    let s : St S := { s with LEVEL := level }
    let (late, s) := readClock cfg s
    if late then pure (1, s) else
    let s ← if s.units = [] then pure s else unitProp cfg f s
    let (late, s) := readClock cfg s
    if late then pure (1, s) else
    if s.conflict then
      let s : St S := { s with nBacktracks := s.nBacktracks + 1, conflict := false }
      let s := undoTheory cfg s (s.LEVEL - 1)
      pure (2, { s with units := [], LEVEL := s.LEVEL - 1 })
    else
      match chooseChrono cfg s with
      | none => pure (0, chooseEffect cfg s)
      | some l =>
        let s := chooseEffect cfg s
        let s : St S := { s with nDecisions := s.nDecisions + 1, LEVEL := s.LEVEL + 1 }
        let s := reduceTheory cfg s l
        let (r, s) ← chrono cfg f s s.LEVEL
        if r = 0 then pure (0, s)
        else if r = 1 then pure (1, s)
        else if r = 2 ∧ s.LEVEL ≥ 0 then
          let s := reduceTheory cfg s l.neg
          chrono cfg f s s.LEVEL
        else pure (2, s)

/-- The decision part of the clause-learning loops, /repo/src/Formula.cc:1422-1441 and 1508-1527. -/
def decideNC (cfg : Cfg S) (s : St S) : Option (St S) :=
  match chooseNC cfg s with
  | none => none
  | some l =>
    let s := chooseEffect cfg s
    let s : St S := { s with nDecisions := s.nDecisions + 1, LEVEL := s.LEVEL + 1, unitClause := -1 }
    some (if cfg.watch then wreduceTheory s l else reduceTheory cfg s l)

/-- The conflict part of the loop in `NonChronoBacktrack`, /repo/src/Formula.cc:1463-1501, after the
test `LEVEL == 0`.  `rc` is the local `restartCount`. -/
def conflictNC (cfg : Cfg S) (f : Nat) (s : St S) (rc : Int) : Res (St S × Int) := do
  if s.conflicting < 0 ∨ s.conflicting.toNat ≥ s.ncl then .ub else
  let id := s.conflicting.toNat
  let (s, learned) ← analyze cfg f s (s.cl id) (some (s.ptr id))
  let s : St S := { s with LEVEL := backtrackLevel s learned.lits }
  let s : St S := { s with nBacktracks := s.nBacktracks + 1, conflict := false }
  if (s.nBacktracks : Int) = rc then
    let s := undoTheory cfg s 0
    let rc := (s.nBacktracks : Int) + cfg.restarts
    pure ({ s with nRestarts := s.nRestarts + 1
                   units := if s.LEVEL = 0 then [s.ncl - 1] else []
                   LEVEL := 0 }, rc)
  else
    let s := undoTheory cfg s s.LEVEL
    pure ({ s with units := [s.ncl - 1] }, rc)

/-- The level to return to in `WatchedLiterals`, /repo/src/Formula.cc:1378-1387: that of the second watched literal. -/
def wlLevel (s : St S) (c : Cls) : Res Int :=
  if c.lits.length > 1 then
    match c.w1 with
    | some w => .ok (s.lvl w.var w.val)
    | none => .ub
  else .ok 0

/-- The conflict part of the loop in `WatchedLiterals`, /repo/src/Formula.cc:1370-1416. -/
def conflictWL (cfg : Cfg S) (f : Nat) (s : St S) (rc : Int) : Res (St S × Int) := do
  if s.conflicting < 0 ∨ s.conflicting.toNat ≥ s.ncl then .ub else
  let id := s.conflicting.toNat
  let (s, learned) ← analyze cfg f s (s.cl id) (some (s.ptr id))
  let lv ← wlLevel s learned
  let s : St S := { s with LEVEL := lv }
  let s : St S := { s with nBacktracks := s.nBacktracks + 1, conflict := false }
  if (s.nBacktracks : Int) = rc then
    let s := wundoTheory s 0
    let rc := (s.nBacktracks : Int) + cfg.restarts
    pure ({ s with nRestarts := s.nRestarts + 1
                   units := if s.LEVEL = 0 then [s.ncl - 1] else []
                   LEVEL := 0 }, rc)
  else
    let s := wundoTheory s s.LEVEL
    pure ({ s with units := [s.ncl - 1] }, rc)

/-- The `while(true)` of `NonChronoBacktrack`, /repo/src/Formula.cc:1447-1529, and of
`WatchedLiterals`, /repo/src/Formula.cc:1354-1444 (same loop, watched versions of the parts). -/
def learnLoop (cfg : Cfg S) : Nat → St S → Int → Res (Nat × St S)
  | 0, _, _ => .fuel
  | f + 1, s, rc => do
    if s.ub then .ub else
    let (late, s) := readClock cfg s
    if late then pure (1, s) else
    if s.conflict ∧ s.LEVEL = 0 then pure (2, s) else
    let (s, rc) ← if s.conflict then
        if cfg.watch then conflictWL cfg f s rc else conflictNC cfg f s rc
      else pure (s, rc)
    let s ← if s.units = [] then pure s
      else if cfg.watch then wunitProp cfg f s else unitProp cfg f s
    if s.ub then .ub else
    if s.conflict then learnLoop cfg f s rc
    else match decideNC cfg s with
      | none => pure (0, chooseEffect cfg s)
      | some s => learnLoop cfg f s rc

/-- Which of the three searches `SolveFinite` runs. -/
inductive Algo where
  | chrono | learn
deriving DecidableEq, Repr

/-! ## Building the state -/

/-- Fresh `Formula` object after the dummy variable 0 is pushed,
/repo/src/Formula.cc:40-60 and 78-80, /repo/src/Variable.cc:36-66. -/
def initSt (cfg : Cfg S) : St S where
  nv := 0
  dom := fun _ => 0
  vval := fun v => if v = 0 then some 0 else none
  asg := fun _ _ => .un
  lvl := fun _ _ => -10
  idx := fun _ _ => -1
  rsn := fun _ _ => -10
  cnt := fun _ => 0
  score := fun _ => cfg.arith.zero
  recs := fun _ => []
  wlist := fun _ => []
  heap := fun _ => Cls.ofLits []
  nheap := 0
  ptr := fun _ => 0
  ncl := 0
  units := []
  decs := []
  LEVEL := 0
  conflict := false
  conflicting := -1
  unitClause := -1
  nUnits := 0
  nBacktracks := 0
  nDecisions := 0
  nEntails := 0
  nRestarts := 0
  ticks := 0
  flowOff := 0
  ub := false

/-- A `d` line: `VARLIST.push_back(new Variable(var, val))`, /repo/src/Formula.cc:112-117.  The name on
the line is stored but never used; the position decides the number. -/
def addVar (s : St S) (d : Nat) : St S :=
  { s with nv := s.nv + 1, dom := upd s.dom (s.nv + 1) d }

/-- Registering one literal of a clause line, /repo/src/Formula.cc:145-178 (occurrence counts, scores,
occurrence records). -/
def addLit (cfg : Cfg S) (s : St S) (l : Lit) : St S :=
  let s1 := match cfg.heur with
    | .BK => { s with cnt := upd s.cnt l (s.cnt l + 1) }
    | _ => bump cfg s l
  if cfg.watch then s1 else { s1 with recs := upd s1.recs l (s1.recs l ++ [s1.ncl]) }

/-- Whether the literal indexes existing arrays; otherwise `VARLIST[var]->...[val]` is out of
range. -/
def litInRange (s : St S) (l : Lit) : Bool := l.var ≤ s.nv ∧ l.val < s.dom l.var

/-- A clause line, /repo/src/Formula.cc:119-208. -/
def addClause (cfg : Cfg S) (s : St S) (ls : List Lit) : Res (St S) :=
  if ls.all (litInRange s) then
    let s1 := ls.foldl (addLit cfg) s
    let c := Cls.ofLits ls
    let c := if cfg.watch then { c with w0 := ls[0]?, w1 := ls[1]? } else c
    let id := s1.ncl
    let s2 := { s1 with heap := upd s1.heap s1.nheap c, nheap := s1.nheap + 1,
                        ptr := upd s1.ptr id s1.nheap, ncl := id + 1 }
    let s3 := if ls.length = 1 then { s2 with units := s2.units ++ [id] } else s2
    if cfg.watch then
      match ls with
      | [] => .ub
      | [a] => .ok (addWatch s3 a id)
      | a :: b :: _ => .ok (addWatch (addWatch s3 a id) b id)
    else .ok s3
  else .ub

/-- The lines that matter in an input file, in file order. -/
inductive Item where
  | dom (d : Nat)
  | clause (ls : List Lit)
deriving DecidableEq, Repr

/-- The reading loop of `BuildFormula` on already tokenised lines, /repo/src/Formula.cc:96-209. -/
def buildItems (cfg : Cfg S) : List Item → St S → Res (St S)
  | [], s => .ok s
  | .dom d :: is, s => buildItems cfg is (addVar s d)
  | .clause ls :: is, s => do
    let s ← addClause cfg s ls
    buildItems cfg is s

/-- The items of a file that declares the domains first and then lists the clauses. -/
def Problem.items (P : Problem) : List Item := P.doms.map .dom ++ P.clauses.map .clause

/-- Build the state for a formula. -/
def build (cfg : Cfg S) (P : Problem) : Res (St S) := buildItems cfg P.items (initSt cfg)

/-! ## SolveFinite -/

inductive Answer where
  | SAT | TIMEOUT | UNSAT
deriving DecidableEq, Repr

/-- What `SolveFinite` prints (times left out): answer, the statistics of `PrintInfo`, and after SAT the
model and the outcome of the self-check. -/
structure Report where
  answer     : Answer
  decisions  : Nat
  units      : Nat
  backtracks : Nat
  entails    : Nat
  variables  : Nat
  clauses    : Nat
  restarts   : Nat
  model      : List Lit
  verified   : Option Bool
deriving DecidableEq, Repr

/-- The output part of `SolveFinite`, /repo/src/SolveFinite.cc:78-93. -/
def report (r : Nat) (s : St S) : Report where
  answer := if r = 0 then .SAT else if r = 1 then .TIMEOUT else .UNSAT
  decisions := s.nDecisions
  units := s.nUnits
  backtracks := s.nBacktracks
  entails := s.nEntails
  variables := s.nv
  clauses := s.ncl
  restarts := s.nRestarts
  model := if r = 0 then printModel s else []
  verified := if r = 0 then some (verifyModel s) else none

/-- The search call of `SolveFinite`, /repo/src/SolveFinite.cc:45-68. -/
def search (cfg : Cfg S) (algo : Algo) (fuel : Nat) (s : St S) : Res (Nat × St S) :=
  match algo with
  | .chrono => chrono cfg fuel s 0
  | .learn => learnLoop cfg fuel s cfg.restarts

/-- `BuildFormula` followed by the search, /repo/src/SolveFinite.cc:36-68: the result code and the final
state of the `Formula` object. -/
def run (cfg : Cfg S) (algo : Algo) (fuel : Nat) (P : Problem) : Res (Nat × St S) := do
  let s ← build cfg P
  search cfg algo fuel s

/-- `SolveFinite`, /repo/src/SolveFinite.cc:21-94, on a formula. -/
def solve (cfg : Cfg S) (algo : Algo) (fuel : Nat) (P : Problem) : Res Report := do
  let (r, s) ← run cfg algo fuel P
  pure (report r s)

end Mvl
