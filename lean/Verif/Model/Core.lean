import Verif.Model.State

/-!
# Formula.cc, function by function (everything except the search loops)
-/

namespace Mvl

variable {S : Type}

/-! ## Literal tests -/

/-- `Formula::sat`, /repo/src/Formula.cc:1149-1163: 2 unassigned, 1 satisfied, 0 falsified. -/
def sat (s : St S) (l : Lit) : Nat :=
  if s.asg l.var l.val = Asg.ofSign l.eq then 1
  else if s.asg l.var l.val = .un then 2
  else 0

/-- `Formula::falsifies`, /repo/src/Formula.cc:1136-1145. -/
def falsifies (l d : Lit) : Bool :=
  if l.var ≠ d.var then false
  else if l.val ≠ d.val ∧ (¬ l.eq ∨ ¬ d.eq) then false
  else if l.val = d.val ∧ l.eq = d.eq then false
  else true

/-- `Formula::hasAtom`, /repo/src/Formula.cc:686-698. -/
def hasAtom (c : List Lit) (a : Lit) : Bool := c.any (fun x => a == x)

/-- `Formula::resolve`, /repo/src/Formula.cc:700-729: literals of the clause that do not falsify the
complement of the resolved literal, then literals of the reason that do not falsify the resolved
literal and are not present yet. -/
def resolve (clause : List Lit) (l : Lit) (reason : List Lit) : List Lit :=
  reason.foldl
    (fun acc r => if ¬ falsifies r l ∧ ¬ hasAtom acc r then acc ++ [r] else acc)
    (clause.filter fun c => ¬ falsifies c l.neg)

/-- `Formula::checkEntail`, /repo/src/Formula.cc:286-320: the loop over the domain with its `flag` and
`break`; `none` is -1. -/
def checkEntailLoop (s : St S) (v : Nat) : List Nat → Option Nat → Option Nat
  | [], found => found
  | j :: js, found =>
    if s.asg v j = .un then
      match found with
      | none => checkEntailLoop s v js (some j)
      | some _ => none
    else checkEntailLoop s v js found

def checkEntail (s : St S) (v : Nat) : Option Nat :=
  checkEntailLoop s v (List.range (s.dom v)) none

/-! ## Decision heuristics -/

/-- `Literal Formula::chooseLiteral`, /repo/src/Formula.cc:322-349 (default heuristic BK).  The running
maximum starts at `INT_MIN`, modelled by `none`.  (The function also sets `UNITCLAUSE = -1`, see
`choose`.) -/
def chooseBK (s : St S) : Option Lit :=
  (s.atoms.foldl (fun (best : Option (Int × Lit)) (a : Nat × Nat) =>
      if s.vval a.1 = none ∧ s.asg a.1 a.2 = .un then
        let t := s.cnt ⟨a.1, a.2, true⟩ - s.cnt ⟨a.1, a.2, false⟩
        match best with
        | none => some (t, ⟨a.1, a.2, true⟩)
        | some (m, l) => if m < t then some (t, ⟨a.1, a.2, true⟩) else some (m, l)
      else best) none).map Prod.snd

/-- One comparison `if (max < tmax)` of the VSIDS loops. -/
def better (A : ScoreArith S) (s : St S) (best : S × Option Lit) (l : Lit) : S × Option Lit :=
  if A.lt best.1 (s.score l) then (s.score l, some l) else best

/-- `Formula::chooseLiteralVSIDS`, /repo/src/Formula.cc:351-391. -/
def chooseVSIDS (A : ScoreArith S) (s : St S) : Option Lit :=
  (s.atoms.foldl (fun best (a : Nat × Nat) =>
      if s.vval a.1 = none ∧ s.asg a.1 a.2 = .un then
        better A s (better A s best ⟨a.1, a.2, true⟩) ⟨a.1, a.2, false⟩
      else best) (A.negOne, none)).2

/-- `Formula::chooseLiteralVSIDS_allPos`, /repo/src/Formula.cc:393-422. -/
def chooseVSIDSPos (A : ScoreArith S) (s : St S) : Option Lit :=
  (s.atoms.foldl (fun best (a : Nat × Nat) =>
      if s.vval a.1 = none ∧ s.asg a.1 a.2 = .un then
        better A s best ⟨a.1, a.2, true⟩
      else best) (A.negOne, none)).2

/-- `Formula::lazyChooseLiteral`, /repo/src/Formula.cc:1207-1222. -/
def lazyChoose (s : St S) : Option Lit :=
  (List.range s.ncl).findSome? fun id =>
    if (s.cl id).level = -1 then (s.cl id).lits.find? fun l => sat s l = 2 else none

/-- `Formula::lazyWatchedChooseLiteral`, /repo/src/Formula.cc:1191-1203. -/
def lazyWatchedChoose (s : St S) : Option Lit :=
  (List.range s.ncl).findSome? fun id =>
    match (s.cl id).w0 with
    | some w => if sat s w = 2 then some w else none
    | none => none

/-- The `switch(heuristic)` of the clause-learning loops, /repo/src/Formula.cc:1424-1428 (watched, no BK
case) and 1510-1515; a missing case leaves the default literal `VAR = -1`. -/
def chooseNC (cfg : Cfg S) (s : St S) : Option Lit :=
  match cfg.heur with
  | .VSIDS => chooseVSIDS cfg.arith s
  | .VSIDS_pos => chooseVSIDSPos cfg.arith s
  | .BK => if cfg.watch then none else chooseBK s
  | .lazy => if cfg.watch then lazyWatchedChoose s else lazyChoose s

/-- The `switch(heuristic)` of `ChronoBacktrack`, /repo/src/Formula.cc:1570-1575: only BK and lazy. -/
def chooseChrono (cfg : Cfg S) (s : St S) : Option Lit :=
  match cfg.heur with
  | .BK => chooseBK s
  | .lazy => lazyChoose s
  | _ => none

/-- Side effect of the chosen heuristic on `UNITCLAUSE` (/repo/src/Formula.cc:332, 363, 405): BK and the
VSIDS variants set it to -1, the lazy ones leave it. -/
def chooseEffect (cfg : Cfg S) (s : St S) : St S :=
  match cfg.heur with
  | .lazy => s
  | _ => { s with unitClause := -1 }

/-! ## Counter mode -/

/-- Body of the loop in `satisfyClauses` for one record, /repo/src/Formula.cc:541-567. -/
def satOne (cfg : Cfg S) (s : St S) (id : Nat) : St S :=
  if (s.cl id).level = -1 then
    let c := s.cl id
    let s1 := s.setCl id { c with level := s.LEVEL, numUn := 0 }
    if cfg.heur = .BK then
      c.lits.foldl (fun s l =>
        if s.asg l.var l.val = .un then { s with cnt := upd s.cnt l (s.cnt l - 1) } else s) s1
    else s1
  else s

/-- `Formula::satisfyClauses`, /repo/src/Formula.cc:524-570. -/
def satisfyClauses (cfg : Cfg S) (s : St S) (l : Lit) : St S :=
  (s.recs l).foldl (satOne cfg) s

/-- Body of the loop in `removeLiteral` for one record, /repo/src/Formula.cc:590-605. -/
def remOne (s : St S) (id : Nat) : St S :=
  if (s.cl id).level = -1 then
    let c := s.cl id
    let n := c.numUn - 1
    let s1 := s.setCl id { c with numUn := n }
    let s2 := if n = 1 then { s1 with units := id :: s1.units } else s1
    if n = 0 then { s2 with conflict := true, conflicting := id } else s2
  else s

/-- `Formula::removeLiteral`, /repo/src/Formula.cc:575-608. -/
def removeLiteral (s : St S) (l : Lit) : St S := (s.recs l).foldl remOne s

/-- Body of the loop in `addLiteral` for one record, /repo/src/Formula.cc:672-680. -/
def addOne (cfg : Cfg S) (l : Lit) (s : St S) (id : Nat) : St S :=
  if (s.cl id).level = -1 then
    let c := s.cl id
    let s1 := s.setCl id { c with numUn := c.numUn + 1 }
    if cfg.heur = .BK then { s1 with cnt := upd s1.cnt l (s1.cnt l + 1) } else s1
  else s

/-- `Formula::addLiteral`, /repo/src/Formula.cc:658-683. -/
def addLiteral (cfg : Cfg S) (s : St S) (l : Lit) : St S := (s.recs l).foldl (addOne cfg l) s

/-- Body of the loop over the literals of a clause in `unsatisfyClauses`,
/repo/src/Formula.cc:632-648. -/
def unsatLit (cfg : Cfg S) (level : Int) (id : Nat) (s : St S) (l : Lit) : St S :=
  if s.lvl l.var l.val > level ∨ s.asg l.var l.val = .un then
    let s1 := s.setCl id { s.cl id with numUn := (s.cl id).numUn + 1 }
    if cfg.heur = .BK then { s1 with cnt := upd s1.cnt l (s1.cnt l + 1) } else s1
  else s

/-- Body of the loop in `unsatisfyClauses` for one record, /repo/src/Formula.cc:628-652. -/
def unsatOne (cfg : Cfg S) (level : Int) (s : St S) (id : Nat) : St S :=
  if (s.cl id).level > level then
    let s1 := (s.cl id).lits.foldl (unsatLit cfg level id) s
    s1.setCl id { s1.cl id with level := -1 }
  else s

/-- `Formula::unsatisfyClauses`, /repo/src/Formula.cc:612-655. -/
def unsatisfyClauses (cfg : Cfg S) (s : St S) (l : Lit) (level : Int) : St S :=
  (s.recs l).foldl (unsatOne cfg level) s

/-- The block of array writes at the start of each assignment in `reduceTheory`,
/repo/src/Formula.cc:437-445 (value), 458-465 and 475-483 (other values), 498-505 (negative literal):
zero the counts, set ATOMASSIGN, ATOMLEVEL, CLAUSEID, and ATOMINDEX = DECSTACK.size() - 1. -/
def setAtom (cfg : Cfg S) (s : St S) (v d : Nat) (a : Asg) : St S :=
  { s with
    cnt := if cfg.heur = .BK then upd (upd s.cnt ⟨v, d, true⟩ 0) ⟨v, d, false⟩ 0 else s.cnt
    asg := upd2 s.asg v d a
    lvl := upd2 s.lvl v d s.LEVEL
    rsn := upd2 s.rsn v d s.unitClause
    idx := upd2 s.idx v d ((s.decs.length : Int) - 1) }

/-- Array writes followed by `satisfyClauses` and `removeLiteral`
(/repo/src/Formula.cc:437-449, 458-468, 475-486, 498-508). -/
def assign1 (cfg : Cfg S) (s : St S) (v d : Nat) (a : Asg) : St S :=
  removeLiteral (satisfyClauses cfg (setAtom cfg s v d a) ⟨v, d, a = .eq⟩) ⟨v, d, a ≠ .eq⟩

/-- One iteration of the loops over the other domain values, /repo/src/Formula.cc:454-470, 472-488:
`for (...; !CONFLICT; ...) if (ATOMASSIGN[i] == 0) { ... }`. -/
def excludeOne (cfg : Cfg S) (v : Nat) (s : St S) (i : Nat) : St S :=
  if s.conflict then s
  else if s.asg v i = .un then assign1 cfg s v i .ne
  else s

/-- `reduceTheory(var, true, val)`, /repo/src/Formula.cc:426-489. -/
def reduceEq (cfg : Cfg S) (s : St S) (v d : Nat) : St S :=
  let s1 : St S := { s with decs := s.decs ++ [⟨v, d, true⟩], vval := upd s.vval v (some d) }
  let s2 := assign1 cfg s1 v d .eq
  let s3 := (List.range d).foldl (excludeOne cfg v) s2
  (List.range' (d + 1) (s.dom v - (d + 1))).foldl (excludeOne cfg v) s3

/-- `reduceTheory(var, equals, val)`, /repo/src/Formula.cc:424-521. -/
def reduceTheory (cfg : Cfg S) (s : St S) (l : Lit) : St S :=
  if l.eq then reduceEq cfg s l.var l.val
  else
    let s1 : St S := { s with decs := s.decs ++ [⟨l.var, l.val, false⟩] }
    let s2 := assign1 cfg s1 l.var l.val .ne
    match checkEntail s2 l.var with
    | some e => reduceEq cfg { s2 with nEntails := s2.nEntails + 1, unitClause := -2 } l.var e
    | none => s2

/-- The loop "undo the decision stack", /repo/src/Formula.cc:909-915 and 987-992: from the top down,
erase every entry whose atom is unassigned.  `k` is the number of entries still to look at. -/
def undoDecs (s : St S) : Nat → List Lit → List Lit
  | 0, ds => ds
  | k + 1, ds =>
    match ds[k]? with
    | some l => undoDecs s k (if s.asg l.var l.val = .un then ds.eraseIdx k else ds)
    | none => undoDecs s k ds

/-- First loop body of `undoTheory`, /repo/src/Formula.cc:879-885. -/
def undoAdd (cfg : Cfg S) (level : Int) (s : St S) (a : Nat × Nat) : St S :=
  if s.lvl a.1 a.2 > level then
    if s.asg a.1 a.2 = .ne then addLiteral cfg s ⟨a.1, a.2, true⟩
    else addLiteral cfg s ⟨a.1, a.2, false⟩
  else s

/-- Second loop body of `undoTheory`, /repo/src/Formula.cc:893-904. -/
def undoUnsat (cfg : Cfg S) (level : Int) (s : St S) (a : Nat × Nat) : St S :=
  if s.lvl a.1 a.2 > level then
    let s1 := if s.asg a.1 a.2 = .ne then unsatisfyClauses cfg s ⟨a.1, a.2, false⟩ level
              else unsatisfyClauses cfg s ⟨a.1, a.2, true⟩ level
    { s1 with
      lvl := upd2 s1.lvl a.1 a.2 (-10)
      asg := upd2 s1.asg a.1 a.2 .un
      rsn := upd2 s1.rsn a.1 a.2 (-10)
      vval := upd s1.vval a.1 none }
  else s

/-- `Formula::undoTheory`, /repo/src/Formula.cc:870-916. -/
def undoTheory (cfg : Cfg S) (s : St S) (level : Int) : St S :=
  let s1 := s.atoms.foldl (undoAdd cfg level) s
  let s2 := s1.atoms.foldl (undoUnsat cfg level) s1
  { s2 with decs := undoDecs s2 s2.decs.length s2.decs }

/-! ## Conflict analysis -/

/-- `Formula::maxLit`, /repo/src/Formula.cc:1082-1106, returning the position of the literal:
the running maximum of ATOMINDEX starts at 0 and the position at 0. -/
def maxLitLoop (s : St S) : List Lit → (i best : Nat) → (max : Int) → Nat
  | [], _, best, _ => best
  | l :: ls, i, best, max =>
    if max < s.idx l.var l.val then maxLitLoop s ls (i + 1) i (s.idx l.var l.val)
    else maxLitLoop s ls (i + 1) best max

def maxLit (s : St S) (c : List Lit) : Nat := maxLitLoop s c 0 0 0

/-- Loop of `assignWatched`, /repo/src/Formula.cc:1108-1134. -/
def assignWatchedLoop (s : St S) :
    List Lit → (w1 w2 : Option Lit) → (m1 m2 : Int) → Option Lit × Option Lit
  | [], w1, w2, _, _ => (w1, w2)
  | l :: ls, w1, w2, m1, m2 =>
    if m1 < s.idx l.var l.val then assignWatchedLoop s ls (some l) w1 (s.idx l.var l.val) m1
    else if m2 < s.idx l.var l.val then assignWatchedLoop s ls w1 (some l) m1 (s.idx l.var l.val)
    else assignWatchedLoop s ls w1 w2 m1 m2

def assignWatched (s : St S) (c : Cls) : Cls :=
  let w := assignWatchedLoop s c.lits none none (-1) (-1)
  { c with w0 := w.1, w1 := w.2 }

/-- Number of literals of the clause whose atom was assigned at the current level. -/
def countAtLevel (s : St S) (c : List Lit) : Nat :=
  c.countP fun l => s.lvl l.var l.val = s.LEVEL

/-- `Formula::potent`, /repo/src/Formula.cc:733-770.  The counter-mode loop with `flag` returns true iff
exactly one literal is at the current level. -/
def potent (cfg : Cfg S) (s : St S) (c : Cls) : Res Bool :=
  if c.lits.length = 1 then .ok true
  else if cfg.watch then
    match c.w1 with
    | some w => .ok (s.lvl w.var w.val < s.LEVEL)
    | none => .ub
  else .ok (countAtLevel s c.lits = 1)

/-- Score bump for one literal, /repo/src/Formula.cc:801-817 and (while reading the file) 155-156, 164-173. -/
def bump (cfg : Cfg S) (s : St S) (l : Lit) : St S :=
  match cfg.heur with
  | .VSIDS => { s with score := upd s.score l (cfg.arith.inc (s.score l)) }
  | .VSIDS_pos =>
    if l.eq then { s with score := upd s.score l (cfg.arith.inc (s.score l)) }
    else (List.range (s.dom l.var)).foldl (fun s j =>
      if j ≠ l.val then
        { s with score := upd s.score ⟨l.var, j, true⟩ (cfg.arith.inc (s.score ⟨l.var, j, true⟩)) }
      else s) s
  | _ => s

/-- Halving of all scores, /repo/src/Formula.cc:820-834 (the double loops, written pointwise). -/
def halveScores (cfg : Cfg S) (s : St S) : St S :=
  match cfg.heur with
  | .VSIDS => { s with score := fun l =>
      if l.var ≤ s.nv ∧ l.val < s.dom l.var then cfg.arith.half (s.score l) else s.score l }
  | .VSIDS_pos => { s with score := fun l =>
      if l.var ≤ s.nv ∧ l.val < s.dom l.var ∧ l.eq then cfg.arith.half (s.score l) else s.score l }
  | _ => s

/-- `addRecord`, /repo/src/Variable.cc:102-124: new watch in front (the pointer-level version is
`Verif.Model.WatchList`). -/
def addWatch (s : St S) (l : Lit) (id : Nat) : St S :=
  { s with wlist := upd s.wlist l (id :: s.wlist l) }

/-- Record keeping for one literal of a learned clause, /repo/src/Formula.cc:791-818. -/
def learnLit (cfg : Cfg S) (cid : Nat) (s : St S) (l : Lit) : St S :=
  let s1 := if cfg.watch then s else { s with recs := upd s.recs l (s.recs l ++ [cid]) }
  bump cfg s1 l

/-- `Formula::learnClause`, /repo/src/Formula.cc:772-835.  `p` is the address of the clause when it is an
object that already sits in CLAUSELIST, `none` when it is the fresh resolvent (allocated here).
The C++ function has no return statement; the value is not used by the caller. -/
def learnClause (cfg : Cfg S) (s : St S) (c : Cls) (p : Option Nat) : St S :=
  let c1 : Cls := { c with numUn := 0 }
  let s1 : St S := match p with
    | some a => { s with heap := upd s.heap a c1, ptr := upd s.ptr s.ncl a, ncl := s.ncl + 1 }
    | none => { s with heap := upd s.heap s.nheap c1, nheap := s.nheap + 1,
                       ptr := upd s.ptr s.ncl s.nheap, ncl := s.ncl + 1 }
  let cid := s.ncl
  let s2 := if cfg.watch then
      let t := match c.w0 with
        | some w => addWatch s1 w cid
        | none => { s1 with ub := true }
      if c.lits.length > 1 then
        match c.w1 with
        | some w => addWatch t w cid
        | none => { t with ub := true }
      else t
    else s1
  let s3 := c.lits.foldl (learnLit cfg cid) s2
  let s4 := halveScores cfg s3
  { s4 with flowOff := s4.flowOff + 1 }

/-- `Formula::backtrackLevel`, /repo/src/Formula.cc:837-868. -/
def backtrackLevel (s : St S) (c : List Lit) : Int :=
  let m := c.foldl (fun m l =>
    if s.LEVEL > s.lvl l.var l.val ∧ m < s.lvl l.var l.val then s.lvl l.var l.val else m) (-1)
  if m ≠ -1 then m else 0

/-- The reason clause used for a literal, /repo/src/Formula.cc:1028-1048: for decisions the tautology on
the decision literal, for entailments the domain clause, otherwise the recorded clause. -/
def reasonOf (s : St S) (l : Lit) : Res (List Lit) :=
  let r := s.rsn l.var l.val
  if r = -1 then
    let i := s.idx l.var l.val
    if i < 0 then .ub
    else match s.decs[i.toNat]? with
      | some f => .ok [⟨f.var, f.val, true⟩, ⟨f.var, f.val, false⟩]
      | none => .ub
  else if r = -2 then .ok ((List.range (s.dom l.var)).map fun i => ⟨l.var, i, true⟩)
  else if r < 0 then .ub
  else if r.toNat < s.ncl then .ok (s.cl r.toNat).lits
  else .ub

/-- The latest falsified literal of the clause, /repo/src/Formula.cc:1012-1016. -/
def lastFalse (cfg : Cfg S) (s : St S) (c : Cls) : Res Lit :=
  if cfg.watch then
    match c.w0 with
    | some w => .ok w
    | none => .ub
  else
    match c.lits[maxLit s c.lits]? with
    | some l => .ok l
    | none => .ub

/-- `Formula::analyzeConflict`, /repo/src/Formula.cc:997-1078.  Returns the new state and the learned
clause. -/
def analyze (cfg : Cfg S) : Nat → St S → Cls → Option Nat → Res (St S × Cls)
  | 0, _, _, _ => .fuel
  | f + 1, s, c, p => do
    if ← potent cfg s c then
      pure (learnClause cfg s c p, c)
    else
      let l ← lastFalse cfg s c
      let reason ← reasonOf s l
      let r := Cls.ofLits (resolve c.lits l reason)
      analyze cfg f s (if cfg.watch then assignWatched s r else r) none

/-! ## Watched-literal mode -/

/-- `removeRecord`, /repo/src/Variable.cc:127-142, on the list of clause numbers (the pointer-level
version is `Verif.Model.WatchList`). -/
def removeWatch (s : St S) (l : Lit) (id : Nat) : St S :=
  { s with wlist := upd s.wlist l ((s.wlist l).erase id) }

/-- `Formula::SwapPointer`, /repo/src/Formula.cc:1224-1263, called with a record of clause `id` that sits in the watch list of
`cur`.  Line 1245 removes the record as one of the list of `WATCHED[0]`.  If that is another literal than `cur`, C++ overwrites
the head of the wrong list and leaves a freed record at the head of `cur`'s when the record is the first one, and
unlinks it correctly when it is not; the model counts both as `ub`. -/
def swapPointer (s : St S) (id : Nat) (cur : Lit) : St S :=
  let c := s.cl id
  if c.lits.length > 1 then
    match c.w1 with
    | none => { s with ub := true }
    | some w2 =>
      if sat s w2 = 2 then
        match c.lits.find? fun l => sat s l ≠ 0 ∧ l ≠ w2 with
        | some l =>
          if c.w0 = some cur then
            let s1 := addWatch (removeWatch s cur id) l id
            s1.setCl id { c with w0 := some l }
          else { s with ub := true }
        | none => { s with units := id :: s.units }
      else { s with conflict := true, conflicting := id }
  else { s with conflict := true, conflicting := id }

/-- Loop body of `watchedFalsifyLiteral` for one record, /repo/src/Formula.cc:932-963. -/
def falsifyOne (l : Lit) (s : St S) (id : Nat) : St S :=
  if s.conflict then s
  else
    let c := s.cl id
    match c.w0 with
    | none => { s with ub := true }
    | some w =>
      if sat s w ≠ 1 then
        if c.lits.length > 1 ∧ c.w1 = none then { s with ub := true }
        else if c.lits.length > 1 ∧ (c.w1.map (sat s)) = some 1 then
          s.setCl id { c with w0 := c.w1, w1 := c.w0 }
        else if c.w1 = some l then
          swapPointer (s.setCl id { c with w0 := c.w1, w1 := c.w0 }) id l
        else swapPointer s id l
      else s

/-- `Formula::watchedFalsifyLiteral`, /repo/src/Formula.cc:921-967.  The loop walks the watch list of the
literal; `next` is read before the record may be unlinked and nothing is added to this list
meanwhile, so it visits the records present at the start. -/
def watchedFalsify (s : St S) (l : Lit) : St S := (s.wlist l).foldl (falsifyOne l) s

/-- The array writes of `watchedReduceTheory` for one atom (`setAtom` without the counts),
/repo/src/Formula.cc:1277-1281, 1293-1298, 1310-1314, 1330-1334. -/
def wsetAtom (s : St S) (v d : Nat) (a : Asg) : St S :=
  { s with
    asg := upd2 s.asg v d a
    lvl := upd2 s.lvl v d s.LEVEL
    rsn := upd2 s.rsn v d s.unitClause
    idx := upd2 s.idx v d ((s.decs.length : Int) - 1) }

/-- Array writes followed by `watchedFalsifyLiteral`, /repo/src/Formula.cc:1277-1284, 1293-1301,
1310-1316, 1330-1336. -/
def wassign1 (s : St S) (v d : Nat) (a : Asg) : St S :=
  watchedFalsify (wsetAtom s v d a) ⟨v, d, a ≠ .eq⟩

/-- One iteration of the loops over the other domain values, /repo/src/Formula.cc:1289-1304, 1306-1318. -/
def wexcludeOne (v : Nat) (s : St S) (i : Nat) : St S :=
  if s.conflict then s
  else if s.asg v i = .un then wassign1 s v i .ne
  else s

/-- `watchedReduceTheory` on a positive literal, /repo/src/Formula.cc:1267-1318. -/
def wreduceEq (s : St S) (v d : Nat) : St S :=
  let s1 : St S := { s with decs := s.decs ++ [⟨v, d, true⟩], vval := upd s.vval v (some d) }
  let s2 := wassign1 s1 v d .eq
  let s3 := (List.range d).foldl (wexcludeOne v) s2
  (List.range' (d + 1) (s.dom v - (d + 1))).foldl (wexcludeOne v) s3

/-- `Formula::watchedReduceTheory`, /repo/src/Formula.cc:1265-1351. -/
def wreduceTheory (s : St S) (l : Lit) : St S :=
  if l.eq then wreduceEq s l.var l.val
  else
    let s1 : St S := { s with decs := s.decs ++ [⟨l.var, l.val, false⟩] }
    let s2 := wassign1 s1 l.var l.val .ne
    match checkEntail s2 l.var with
    | some e => wreduceEq { s2 with nEntails := s2.nEntails + 1, unitClause := -2 } l.var e
    | none => s2

/-- Loop body of `watchedUndoTheory`, /repo/src/Formula.cc:975-983. -/
def wundoAtom (level : Int) (s : St S) (a : Nat × Nat) : St S :=
  if s.lvl a.1 a.2 > level then
    { s with
      vval := upd s.vval a.1 none
      asg := upd2 s.asg a.1 a.2 .un
      lvl := upd2 s.lvl a.1 a.2 (-10)
      rsn := upd2 s.rsn a.1 a.2 (-10) }
  else s

/-- `Formula::watchedUndoTheory`, /repo/src/Formula.cc:969-993. -/
def wundoTheory (s : St S) (level : Int) : St S :=
  let s1 := s.atoms.foldl (wundoAtom level) s
  { s1 with decs := undoDecs s1 s1.decs.length s1.decs }

/-! ## Checks on the final state -/

/-- `Formula::verifyModel`, /repo/src/Formula.cc:243-266. -/
def verifyModel (s : St S) : Bool :=
  (List.range s.ncl).all fun id => (s.cl id).lits.any fun l =>
    if l.eq then s.asg l.var l.val = .eq else s.asg l.var l.val = .ne

/-- `Formula::PrintModel`, /repo/src/Formula.cc:217-224: the positive literals of DECSTACK. -/
def printModel (s : St S) : List Lit := s.decs.filter fun l => l.eq

end Mvl
