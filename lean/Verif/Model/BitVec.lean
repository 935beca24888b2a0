import Verif.Model.Parser

/-!
# The bit-vector variant of the solver, /repo/bitvec

A separate program: a literal is a variable with a set of values, stored in a `bitset<64>`, a clause has one literal per
variable, and the only search is the one with watched literals.  Models /repo/bitvec/Literal.h, Clause.cc, Variable.cc,
Formula.cc and SolveFinite.cc.

Simplifications:
* the watch list of a variable (`VARREC`) is the list of its clause numbers from the head on; removing a record from the
  list of a variable that does not hold it (the code would then mix up two lists) is `ub`;
* a domain of more than 64 values is `ub` when it is read (the program prints an error and goes on, and then throws an
  exception at the first clause that uses the variable);
* reading the lines of the file is the same code as in /repo/src/Formula.cc and is not modelled again
  (`Model/Parser.lean`);
* as in the other model: no overflow of `int`, no `-verbose` output, freed clauses are not read again.
-/

namespace Mvl.BV

/-- `bitset<MAX_DOMAIN>`, /repo/bitvec/Literal.h:23. -/
abbrev Bits := BitVec 64

/-- The set with one element, `bitset<MAX_DOMAIN>()` followed by `set(val)`. -/
def bit (k : Nat) : Bits := BitVec.twoPow 64 k

/-- `class Literal`, /repo/bitvec/Literal.h:34-75. -/
structure BLit where
  var  : Nat
  vals : Bits
deriving DecidableEq, Repr, Inhabited

/-- `class Clause`, /repo/bitvec/Clause.h:35-59.  `w0`, `w1` are `WATCHED[0]`, `WATCHED[1]`; `none` is the default
literal with `VAR = -1`. -/
structure BCls where
  lits : List BLit
  w0   : Option BLit
  w1   : Option BLit
deriving DecidableEq, Repr, Inhabited

/-- `struct IGNode`, /repo/bitvec/Variable.h:42-55. -/
structure Node where
  index  : Int
  level  : Int
  reason : Int
  values : Bits
deriving DecidableEq, Repr, Inhabited

/-- Settings and environment: `VSIDS`, score arithmetic, restart interval and clock (see `Mvl.Cfg`). -/
structure BCfg (S : Type) where
  vsids    : Bool
  arith    : ScoreArith S
  restarts : Int
  late     : Nat → Bool

/-- State of a `Formula` object, /repo/bitvec/Formula.h:57-74, and of its variables, /repo/bitvec/Variable.h:77-85. -/
structure BSt (S : Type) where
  /-- `VARLIST.size() - 1` -/
  nv    : Nat
  /-- `DOMAINSIZE` -/
  size  : Nat → Nat
  /-- `CURRENT_DOMAIN` -/
  cur   : Nat → Bits
  /-- `graphNodes`, last one first -/
  nodes : Nat → List Node
  /-- `VSIDS_SCORE` -/
  score : Nat → Nat → S
  /-- `VARREC` -/
  recs  : Nat → List Nat
  /-- the clause objects, `nheap` of them allocated -/
  heap  : Nat → BCls
  nheap : Nat
  /-- `CLAUSELIST[i]` as a pointer, and `CLAUSELIST.size()` -/
  ptr   : Nat → Nat
  ncl   : Nat
  /-- `UNITLIST`, front first -/
  units : List Nat
  LEVEL : Int
  conflict    : Bool
  conflicting : Int
  unitClause  : Int
  /-- `ATOMINDEX` -/
  atomIndex   : Int
  /-- statistics: UNITS, BACKTRACKS, DECISIONS, RESTARTS (ENTAILS stays 0) -/
  nUnits : Nat
  nBacktracks : Nat
  nDecisions : Nat
  nRestarts : Nat
  /-- number of clock readings so far -/
  ticks : Nat

variable {S : Type}

/-- The clause `CLAUSELIST[id]`. -/
def BSt.cl (s : BSt S) (id : Nat) : BCls := s.heap (s.ptr id)

/-- Write back the clause object `CLAUSELIST[id]`. -/
def BSt.setCl (s : BSt S) (id : Nat) (c : BCls) : BSt S := { s with heap := upd s.heap (s.ptr id) c }

/-! ## Literals and clauses -/

/-- `Literal::isSuperset`, /repo/bitvec/Literal.h:60-62. -/
def BLit.isSuperset (l : BLit) (vals : Bits) : Bool := (~~~ l.vals &&& vals) == 0#64

/-- `Literal::falsifies`, /repo/bitvec/Literal.h:64-66. -/
def BLit.falsifies (l : BLit) (vals : Bits) : Bool := (l.vals &&& vals) == 0#64

/-- `Clause::addAtom`, /repo/bitvec/Clause.cc:34-44. -/
def addAtom : List BLit → BLit → List BLit
  | [], a => [a]
  | l :: ls, a => if l.var = a.var then { l with vals := l.vals ||| a.vals } :: ls else l :: addAtom ls a

/-- `Formula::resolve`, /repo/bitvec/Formula.cc:292-324. -/
def bresolve (clause : List BLit) (l : BLit) (reason : List BLit) : List BLit :=
  reason.foldl
    (fun acc r =>
      if r.var ≠ l.var then addAtom acc r
      else if (l.vals &&& r.vals) ≠ 0#64 then addAtom acc ⟨l.var, l.vals &&& r.vals⟩
      else acc)
    ((clause.filter fun c => c.var ≠ l.var).foldl addAtom [])

/-- `Variable::getIGNode`, /repo/bitvec/Variable.cc:104-111, on the nodes of a variable. -/
def getNode (ns : List Node) (vals : Bits) : Node :=
  (ns.find? fun n => (n.values &&& vals) ≠ 0#64).getD ⟨-1, -1, -1, vals⟩

/-- `VARLIST[l.VAR]->getIGNode(l.VALS)`. -/
def BSt.node (s : BSt S) (l : BLit) : Node := getNode (s.nodes l.var) l.vals

/-- `Formula::sat`, /repo/bitvec/Formula.cc:506-515: 2 undefined, 1 satisfied, 0 falsified.  (For literals of clauses;
their variables exist, which is checked when the clause is read.) -/
def bsat (s : BSt S) (l : BLit) : Nat :=
  if l.isSuperset (s.cur l.var) then 1
  else if l.falsifies (s.cur l.var) then 0
  else 2

/-- `sat` of a watched literal: with the default literal it reads `VARLIST[-1]`. -/
def satW (s : BSt S) : Option BLit → Res Nat
  | none => .ub
  | some l => if l.var ≤ s.nv then .ok (bsat s l) else .ub

/-! ## Watch lists -/

/-- `Variable::addRecord`, /repo/bitvec/Variable.cc:61-76. -/
def addRec (s : BSt S) (v id : Nat) : BSt S := { s with recs := upd s.recs v (id :: s.recs v) }

/-- `Variable::removeRecord` of variable `v`, /repo/bitvec/Variable.cc:79-94, for the record of clause `id` that stands in the
list of `home`.  Removing a record from the list of another variable would change the head of the wrong list: `ub`. -/
def removeRec (s : BSt S) (v home id : Nat) : Res (BSt S) :=
  if v = home ∧ id ∈ s.recs v then .ok { s with recs := upd s.recs v ((s.recs v).erase id) } else .ub

/-- `Formula::SwapPointer`, /repo/bitvec/Formula.cc:563-600, for the record of clause `id` in the list of `v`. -/
def swapPointer (s : BSt S) (v id : Nat) : Res (BSt S) := do
  let c := s.cl id
  match c.w0, c.w1 with
  | some w1, some w2 =>
    if (← satW s (some w2)) = 2 then
      match c.lits.find? fun l => bsat s l ≠ 0 ∧ l.var ≠ w2.var with
      | some l =>
        let s1 ← removeRec s w1.var v id
        let s2 := addRec s1 l.var id
        pure (s2.setCl id { c with w0 := some l })
      | none => pure { s with units := id :: s.units }
    else pure { s with conflict := true, conflicting := id }
  | _, _ => .ub

/-- Loop body of `watchedUpdateVar` for one record, /repo/bitvec/Formula.cc:387-407. -/
def updateOne (v : Nat) (s : BSt S) (id : Nat) : Res (BSt S) :=
  if s.conflict then .ok s
  else if id < s.ncl then do
    let c := s.cl id
    if (← satW s c.w0) = 1 then pure s
    else if (← satW s c.w1) = 1 then pure (s.setCl id { c with w0 := c.w1, w1 := c.w0 })
    else
      let s1 := if c.w1.map BLit.var = some v then s.setCl id { c with w0 := c.w1, w1 := c.w0 } else s
      if (← satW s1 (s1.cl id).w0) = 0 then swapPointer s1 v id else pure s1
  else .ub

/-- The loop over a list of records. -/
def updateList (v : Nat) : List Nat → BSt S → Res (BSt S)
  | [], s => .ok s
  | id :: ids, s => do
    let s ← updateOne v s id
    updateList v ids s

/-- `Formula::watchedUpdateVar`, /repo/bitvec/Formula.cc:376-408.  `next` is read before the record may be unlinked, so
the loop visits the records present at the start. -/
def updateVar (s : BSt S) (v : Nat) : Res (BSt S) := updateList v (s.recs v) s

/-- `Formula::watchedReduceTheory`, /repo/bitvec/Formula.cc:602-623. -/
def breduce (s : BSt S) (l : BLit) : Res (BSt S) :=
  let change := s.cur l.var &&& ~~~ l.vals
  if change = 0#64 then .ok s
  else
    let i := s.atomIndex + 1
    updateVar { s with
      atomIndex := i
      nodes := upd s.nodes l.var (⟨i, s.LEVEL, s.unitClause, change⟩ :: s.nodes l.var)
      cur := upd s.cur l.var (s.cur l.var &&& l.vals) } l.var

/-- `Formula::WatchedUnitPropagation`, /repo/bitvec/Formula.cc:517-547. -/
def bunitProp : Nat → BSt S → Res (BSt S)
  | 0, _ => .fuel
  | f + 1, s =>
    if s.conflict then .ok { s with units := [] }
    else match s.units with
      | [] => .ok s
      | id :: rest =>
        let s1 : BSt S := { s with unitClause := id, units := rest }
        if id < s1.ncl then do
          let c := s1.cl id
          match c.w0 with
          | none => .ub
          | some w =>
            if (← satW s1 (some w)) = 2 then
              let s2 ← breduce s1 w
              bunitProp f { s2 with nUnits := s2.nUnits + 1 }
            else if c.lits.length > 1 then
              match c.w1 with
              | none => .ub
              | some w' =>
                if (← satW s1 (some w')) = 2 then
                  let s2 ← breduce s1 w'
                  bunitProp f { s2 with nUnits := s2.nUnits + 1 }
                else bunitProp f s1
            else bunitProp f s1
        else .ub

/-! ## Undoing -/

/-- The inner loop of `watchedUndoTheory` for one variable, /repo/bitvec/Formula.cc:414-421: the new domain, the
remaining nodes and the number of nodes removed. -/
def undoNodes (level : Int) : Bits → List Node → Bits × List Node × Nat
  | d, [] => (d, [], 0)
  | d, n :: ns =>
    if n.level > level then
      let r := undoNodes level (d ||| n.values) ns
      (r.1, r.2.1, r.2.2 + 1)
    else (d, n :: ns, 0)

/-- `Formula::watchedUndoTheory`, /repo/bitvec/Formula.cc:410-424.  The argument `level` is not used by the code: it
compares with the member `LEVEL`. -/
def bundo (s : BSt S) (_level : Int) : BSt S :=
  { s with
    cur := fun v => if 1 ≤ v ∧ v ≤ s.nv then (undoNodes s.LEVEL (s.cur v) (s.nodes v)).1 else s.cur v
    nodes := fun v => if 1 ≤ v ∧ v ≤ s.nv then (undoNodes s.LEVEL (s.cur v) (s.nodes v)).2.1 else s.nodes v
    atomIndex := s.atomIndex -
      ((List.range' 1 s.nv).map fun v => (undoNodes s.LEVEL (s.cur v) (s.nodes v)).2.2).sum }

/-! ## Conflict analysis -/

/-- One turn of the loop in `assignWatched`: the two largest indices and their literals. -/
def watchStep (s : BSt S) (a : Int × Int × Option BLit × Option BLit) (l : BLit) :
    Int × Int × Option BLit × Option BLit :=
  let i := (s.node l).index
  if a.1 < i then (i, a.1, some l, a.2.2.1)
  else if a.2.1 < i then (a.1, i, a.2.2.1, some l)
  else a

/-- `Formula::assignWatched`, /repo/bitvec/Formula.cc:476-502. -/
def assignWatched (s : BSt S) (ls : List BLit) : BCls :=
  let a := ls.foldl (watchStep s) (-1, -1, none, none)
  ⟨ls, a.2.2.1, a.2.2.2⟩

/-- `Formula::potent`, /repo/bitvec/Formula.cc:328-342. -/
def bpotent (s : BSt S) (c : BCls) : Res Bool :=
  if c.lits.length = 1 then .ok true
  else match c.w1 with
    | some w => .ok ((s.node w).level < s.LEVEL)
    | none => .ub

/-- Scores of the values of a literal incremented, /repo/bitvec/Formula.cc:172-176 and 362-365. -/
def bbump (A : ScoreArith S) (s : BSt S) (l : BLit) : BSt S :=
  { s with score := fun v j =>
      if v = l.var ∧ j < s.size v ∧ l.vals.getLsbD j then A.inc (s.score v j) else s.score v j }

/-- All scores halved, /repo/bitvec/Formula.cc:367-371. -/
def bhalve (A : ScoreArith S) (s : BSt S) : BSt S :=
  { s with score := fun v j => if v ≤ s.nv ∧ j < s.size v then A.half (s.score v j) else s.score v j }

/-- `Formula::learnClause`, /repo/bitvec/Formula.cc:344-372.  `p` is the address of the clause when it is an object that
already sits in `CLAUSELIST`.  (The function has a return type and no return statement; the value is not used.) -/
def blearn (A : ScoreArith S) (s : BSt S) (c : BCls) (p : Option Nat) : Res (BSt S) :=
  let s1 : BSt S := match p with
    | some a => { s with ptr := upd s.ptr s.ncl a, ncl := s.ncl + 1 }
    | none => { s with heap := upd s.heap s.nheap c, nheap := s.nheap + 1,
                       ptr := upd s.ptr s.ncl s.nheap, ncl := s.ncl + 1 }
  match c.w0 with
  | none => .ub
  | some w =>
    let s2 := addRec s1 w.var s.ncl
    if c.lits.length > 1 then
      match c.w1 with
      | none => .ub
      | some w' => .ok (bhalve A (c.lits.foldl (bbump A) (addRec s2 w'.var s.ncl)))
    else .ok (bhalve A (c.lits.foldl (bbump A) s2))

/-- `Formula::analyzeConflict`, /repo/bitvec/Formula.cc:428-474.  Returns the new state and the learned clause. -/
def banalyze (A : ScoreArith S) : Nat → BSt S → BCls → Option Nat → Res (BSt S × BCls)
  | 0, _, _, _ => .fuel
  | f + 1, s, c, p => do
    if ← bpotent s c then
      let s ← blearn A s c p
      pure (s, c)
    else
      match c.w0 with
      | none => .ub
      | some l =>
        let r := (s.node l).reason
        if r < 0 ∨ r.toNat ≥ s.ncl then .ub
        else banalyze A f s (assignWatched s (bresolve c.lits l (s.cl r.toNat).lits)) none

/-! ## Decisions -/

/-- `bitset::count`. -/
def bcount (b : Bits) : Nat := ((List.range 64).filter fun j => b.getLsbD j).length

/-- `Formula::chooseLiteralVSIDS`, /repo/bitvec/Formula.cc:260-290; `none` is the literal with `VAR = -1`. -/
def bchooseVSIDS (A : ScoreArith S) (s : BSt S) : Option BLit :=
  ((List.range (s.nv + 1)).foldl (fun best v =>
      if bcount (s.cur v) > 1 then
        (List.range (s.size v)).foldl (fun (best : S × Option BLit) j =>
          if (s.cur v).getLsbD j then
            if A.lt best.1 (s.score v j) then (s.score v j, some ⟨v, bit j⟩) else best
          else best) best
      else best) (A.negOne, none)).2

/-- `Formula::lazyWatchedChooseLiteral`, /repo/bitvec/Formula.cc:549-561. -/
def blazyLoop (s : BSt S) : List Nat → Res (Option BLit)
  | [] => .ok none
  | id :: ids => do
    if (← satW s (s.cl id).w0) = 2 then pure (s.cl id).w0 else blazyLoop s ids

/-- /repo/bitvec/Formula.cc:695-697. -/
def bchoose (cfg : BCfg S) (s : BSt S) : Res (Option BLit) :=
  if cfg.vsids then .ok (bchooseVSIDS cfg.arith s) else blazyLoop s (List.range s.ncl)

/-! ## The search -/

/-- The level to return to, /repo/bitvec/Formula.cc:652-655. -/
def bbackLevel (s : BSt S) (c : BCls) : Res Int :=
  if c.lits.length > 1 then
    match c.w1 with
    | some w => .ok (s.node w).level
    | none => .ub
  else .ok 0

/-- The conflict part of the loop, /repo/bitvec/Formula.cc:651-687, after the test `LEVEL == 0`. -/
def bconflict (cfg : BCfg S) (f : Nat) (s : BSt S) (rc : Int) : Res (BSt S × Int) := do
  if s.conflicting < 0 ∨ s.conflicting.toNat ≥ s.ncl then .ub else
  let id := s.conflicting.toNat
  let (s, learned) ← banalyze cfg.arith f s (s.cl id) (some (s.ptr id))
  let lv ← bbackLevel s learned
  let s : BSt S := { s with LEVEL := lv, nBacktracks := s.nBacktracks + 1, conflict := false }
  if (s.nBacktracks : Int) = rc then
    let s := bundo s 0
    pure ({ s with nRestarts := s.nRestarts + 1
                   units := if s.LEVEL = 0 then [s.ncl - 1] else []
                   LEVEL := 0 }, (s.nBacktracks : Int) + cfg.restarts)
  else
    let s := bundo s s.LEVEL
    pure ({ s with units := [s.ncl - 1] }, rc)

/-- The decision part of the loop, /repo/bitvec/Formula.cc:694-708; `none` when there is nothing to decide.
(`chooseLiteralVSIDS` sets `UNITCLAUSE` to -1, which no result shows.) -/
def bdecide (cfg : BCfg S) (s : BSt S) : Res (Option (BSt S)) := do
  match ← bchoose cfg s with
  | none => pure none
  | some l =>
    let s ← breduce { s with nDecisions := s.nDecisions + 1, LEVEL := s.LEVEL + 1, unitClause := -1 } l
    pure (some s)

/-- `Formula::WatchedLiterals`, /repo/bitvec/Formula.cc:626-710.  Result code: 0 satisfied, 1 timeout,
2 unsatisfiable. -/
def bloop (cfg : BCfg S) : Nat → BSt S → Int → Res (Nat × BSt S)
  | 0, _, _ => .fuel
  | f + 1, s, rc => do
    let late := cfg.late s.ticks
    let s : BSt S := { s with ticks := s.ticks + 1 }
    if late then pure (1, s) else
    if s.conflict ∧ s.LEVEL = 0 then pure (2, s) else
    let (s, rc) ← if s.conflict then bconflict cfg f s rc else pure (s, rc)
    let s ← if s.units = [] then pure s else bunitProp f s
    if s.conflict then bloop cfg f s rc
    else match ← bdecide cfg s with
      | none => pure (0, s)
      | some s => bloop cfg f s rc

/-! ## Building the state -/

/-- Fresh `Formula` object with the dummy variable 0, /repo/bitvec/Formula.cc:39-58, 77, /repo/bitvec/Variable.cc:25-43. -/
def binit (A : ScoreArith S) : BSt S where
  nv := 0
  size := fun _ => 0
  cur := fun _ => 0#64
  nodes := fun _ => []
  score := fun _ _ => A.zero
  recs := fun _ => []
  heap := fun _ => ⟨[], none, none⟩
  nheap := 0
  ptr := fun _ => 0
  ncl := 0
  units := []
  LEVEL := 0
  conflict := false
  conflicting := -1
  unitClause := -1
  atomIndex := 0
  nUnits := 0
  nBacktracks := 0
  nDecisions := 0
  nRestarts := 0
  ticks := 0

/-- The full domain: all ones shifted right by `MAX_DOMAIN - domain`, /repo/bitvec/Variable.cc:29-31. -/
def full (d : Nat) : Bits := BitVec.allOnes 64 >>> (64 - d)

/-- A `d` line, /repo/bitvec/Formula.cc:110-119. -/
def baddVar (s : BSt S) (d : Nat) : Res (BSt S) :=
  if d ≤ 64 then
    .ok { s with nv := s.nv + 1, size := upd s.size (s.nv + 1) d, cur := upd s.cur (s.nv + 1) (full d) }
  else .ub

/-- The set of values for one literal of the file, /repo/bitvec/Formula.cc:147-156.  `set` and `reset` throw an exception
from 64 on; `VARLIST[var]` is read in the second case only. -/
def readLit (s : BSt S) (l : Lit) : Res BLit :=
  if l.val < 64 then
    if l.eq then .ok ⟨l.var, bit l.val⟩
    else if l.var ≤ s.nv then .ok ⟨l.var, s.cur l.var &&& ~~~ (bit l.val)⟩
    else .ub
  else .ub

/-- The words of a clause line, /repo/bitvec/Formula.cc:124-167. -/
def readLits (s : BSt S) : List BLit → List Lit → Res (List BLit)
  | acc, [] => .ok acc
  | acc, l :: ls => do
    let a ← readLit s l
    readLits s (addAtom acc a) ls

/-- A clause line, /repo/bitvec/Formula.cc:121-202.  An empty clause reads `ATOM_LIST[0]`; a variable that does not exist
is `ub` in the loop over the scores. -/
def baddClause (A : ScoreArith S) (s : BSt S) (ls : List Lit) : Res (BSt S) := do
  let c ← readLits s [] ls
  if c.all fun l => l.var ≤ s.nv then
    let id := s.ncl
    let s1 := c.foldl (bbump A) { s with heap := upd s.heap s.nheap ⟨c, c[0]?, c[1]?⟩, nheap := s.nheap + 1,
                                         ptr := upd s.ptr id s.nheap, ncl := id + 1 }
    match c with
    | [] => .ub
    | [a] => .ok (addRec { s1 with units := s1.units ++ [id] } a.var id)
    | a :: b :: _ => .ok (addRec (addRec s1 a.var id) b.var id)
  else .ub

/-- The reading loop of `BuildFormula`, /repo/bitvec/Formula.cc:94-203, on tokenised lines. -/
def bbuildItems (A : ScoreArith S) : List Item → BSt S → Res (BSt S)
  | [], s => .ok s
  | .dom d :: is, s => do
    let s ← baddVar s d
    bbuildItems A is s
  | .clause ls :: is, s => do
    let s ← baddClause A s ls
    bbuildItems A is s

/-- Build the state for a formula. -/
def bbuild (A : ScoreArith S) (P : Problem) : Res (BSt S) := bbuildItems A P.items (binit A)

/-! ## SolveFinite -/

/-- `Formula::verifyModel`, /repo/bitvec/Formula.cc:238-256. -/
def bverify (s : BSt S) : Bool :=
  (List.range s.ncl).all fun id => (s.cl id).lits.any fun l => l.isSuperset (s.cur l.var)

/-- What `SolveFinite` prints (times left out), /repo/bitvec/SolveFinite.cc:55-72: answer, statistics, and after SAT the
domains left for the variables (`PrintModel`, /repo/bitvec/Formula.cc:212-219) and the outcome of the self-check. -/
structure BReport where
  answer     : Answer
  decisions  : Nat
  units      : Nat
  backtracks : Nat
  variables  : Nat
  clauses    : Nat
  restarts   : Nat
  model      : List Bits
  verified   : Option Bool
deriving DecidableEq, Repr

def breport (r : Nat) (s : BSt S) : BReport where
  answer := if r = 0 then .SAT else if r = 1 then .TIMEOUT else .UNSAT
  decisions := s.nDecisions
  units := s.nUnits
  backtracks := s.nBacktracks
  variables := s.nv
  clauses := s.ncl
  restarts := s.nRestarts
  model := if r = 0 then (List.range (s.nv + 1)).map s.cur else []
  verified := if r = 0 then some (bverify s) else none

/-- `BuildFormula` followed by the search, /repo/bitvec/SolveFinite.cc:29-45. -/
def brun (cfg : BCfg S) (fuel : Nat) (P : Problem) : Res (Nat × BSt S) := do
  let s ← bbuild cfg.arith P
  bloop cfg fuel s cfg.restarts

/-- `SolveFinite`, /repo/bitvec/SolveFinite.cc:21-73, on a formula. -/
def bsolve (cfg : BCfg S) (fuel : Nat) (P : Problem) : Res BReport := do
  let (r, s) ← brun cfg fuel P
  pure (breport r s)

/-- The same on the characters of a file. -/
def bsolveFile (cfg : BCfg S) (fuel : Nat) (cs : List Char) : Res BReport := do
  let is ← readFile cs
  let s ← bbuildItems cfg.arith is (binit cfg.arith)
  let (r, s) ← bloop cfg fuel s cfg.restarts
  pure (breport r s)

end Mvl.BV
