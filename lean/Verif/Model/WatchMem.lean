import Verif.Model.Search
import Verif.Model.WatchList

/-!
# The watched-literal search on linked records

`Model/Core.lean` and `Model/Search.lean` have the watch lists as lists of clause numbers.  Here the same functions work on
the records of `Model/WatchList.lean`, as the C++ code does: the walk over a watch list follows `next`, remembers it
before the record is handled, and hands the pointer to `removeRecord`.  A state is a `St` together with the memory of
records; the field `wlist` of the `St` is not used (it stays as `initSt` leaves it).

`new h` is the address that `new VARRECORD` returns in memory `h`.  `g` bounds the number of records looked at in one walk.
-/

namespace Mvl

variable {S : Type}

/-- A `Formula` object and the watch records. -/
abbrev PSt (S : Type) := St S × WMem

/-- `Formula::SwapPointer(current)`, /repo/src/Formula.cc:1224-1263; `rec` is the address of the record, `id` its `c_num`.
Lines 1245-1246: the record leaves the list of `WATCHED[0]`, a new one enters the list of the literal found. -/
def pswapPointer (new : WMem → Nat) (p : PSt S) (rec id : Nat) : Res (PSt S) :=
  let s := p.1
  let c := s.cl id
  if c.lits.length > 1 then
    match c.w1 with
    | none => .ub
    | some w2 =>
      if sat s w2 = 2 then
        match c.lits.find? fun l => sat s l ≠ 0 ∧ l ≠ w2 with
        | some l =>
          match c.w0 with
          | none => .ub
          | some w => do
            let h1 ← p.2.removeRecord rec w
            let h2 ← h1.addRecord id l (new h1)
            .ok (s.setCl id { c with w0 := some l }, h2)
        | none => .ok ({ s with units := id :: s.units }, p.2)
      else .ok ({ s with conflict := true, conflicting := id }, p.2)
  else .ok ({ s with conflict := true, conflicting := id }, p.2)

/-- Loop body of `watchedFalsifyLiteral`, /repo/src/Formula.cc:936-961. -/
def pfalsifyOne (new : WMem → Nat) (l : Lit) (p : PSt S) (rec id : Nat) : Res (PSt S) :=
  let s := p.1
  let c := s.cl id
  match c.w0 with
  | none => .ub
  | some w =>
    if sat s w ≠ 1 then
      if c.lits.length > 1 ∧ c.w1 = none then .ub
      else if c.lits.length > 1 ∧ (c.w1.map (sat s)) = some 1 then
        .ok (s.setCl id { c with w0 := c.w1, w1 := c.w0 }, p.2)
      else if c.w1 = some l then
        pswapPointer new (s.setCl id { c with w0 := c.w1, w1 := c.w0 }, p.2) rec id
      else pswapPointer new p rec id
    else .ok p

/-- The loop `while (current && !CONFLICT)`, /repo/src/Formula.cc:932-963. -/
def pwalk (new : WMem → Nat) (l : Lit) : Nat → PSt S → Option Nat → Res (PSt S)
  | 0, _, _ => .fuel
  | _ + 1, p, none => .ok p
  | g + 1, p, some rec =>
    if p.1.conflict then .ok p
    else do
      let r ← p.2.read rec
      let p1 ← pfalsifyOne new l p rec r.c_num
      pwalk new l g p1 r.next

/-- `Formula::watchedFalsifyLiteral`, /repo/src/Formula.cc:921-967. -/
def pwatchedFalsify (new : WMem → Nat) (g : Nat) (p : PSt S) (l : Lit) : Res (PSt S) := pwalk new l g p (p.2.head l)

/-- Array writes and `watchedFalsifyLiteral`, /repo/src/Formula.cc:1277-1284, 1293-1301, 1310-1316, 1330-1336. -/
def pwassign1 (new : WMem → Nat) (g : Nat) (p : PSt S) (v d : Nat) (a : Asg) : Res (PSt S) :=
  pwatchedFalsify new g (wsetAtom p.1 v d a, p.2) ⟨v, d, a ≠ .eq⟩

/-- The loops over the other values, /repo/src/Formula.cc:1289-1304, 1306-1318. -/
def pwexclude (new : WMem → Nat) (g v : Nat) : List Nat → PSt S → Res (PSt S)
  | [], p => .ok p
  | i :: is, p =>
    if p.1.conflict then pwexclude new g v is p
    else if p.1.asg v i = .un then do
      let p1 ← pwassign1 new g p v i .ne
      pwexclude new g v is p1
    else pwexclude new g v is p

/-- `watchedReduceTheory` on a positive literal, /repo/src/Formula.cc:1267-1318. -/
def pwreduceEq (new : WMem → Nat) (g : Nat) (p : PSt S) (v d : Nat) : Res (PSt S) := do
  let s := p.1
  let s1 : St S := { s with decs := s.decs ++ [⟨v, d, true⟩], vval := upd s.vval v (some d) }
  let p2 ← pwassign1 new g (s1, p.2) v d .eq
  let p3 ← pwexclude new g v (List.range d) p2
  pwexclude new g v (List.range' (d + 1) (s.dom v - (d + 1))) p3

/-- `Formula::watchedReduceTheory`, /repo/src/Formula.cc:1265-1351. -/
def pwreduceTheory (new : WMem → Nat) (g : Nat) (p : PSt S) (l : Lit) : Res (PSt S) :=
  if l.eq then pwreduceEq new g p l.var l.val
  else do
    let s := p.1
    let s1 : St S := { s with decs := s.decs ++ [⟨l.var, l.val, false⟩] }
    let p2 ← pwassign1 new g (s1, p.2) l.var l.val .ne
    match checkEntail p2.1 l.var with
    | some e => pwreduceEq new g ({ p2.1 with nEntails := p2.1.nEntails + 1, unitClause := -2 }, p2.2) l.var e
    | none => .ok p2

/-- `Formula::WatchedUnitPropagation`, /repo/src/Formula.cc:1165-1189. -/
def pwunitProp (new : WMem → Nat) (g : Nat) : Nat → PSt S → Res (PSt S)
  | 0, _ => .fuel
  | f + 1, p =>
    if p.1.conflict then .ok p
    else match p.1.units with
      | [] => .ok p
      | id :: rest =>
        let s1 : St S := { p.1 with unitClause := id, units := rest }
        if id < s1.ncl then
          let c := s1.cl id
          match c.w0 with
          | none => .ub
          | some w =>
            if sat s1 w = 2 then do
              let p2 ← pwreduceTheory new g (s1, p.2) w
              pwunitProp new g f ({ p2.1 with nUnits := p2.1.nUnits + 1 }, p2.2)
            else if c.lits.length > 1 then
              match c.w1 with
              | none => .ub
              | some w' =>
                if sat s1 w' = 2 then do
                  let p2 ← pwreduceTheory new g (s1, p.2) w'
                  pwunitProp new g f ({ p2.1 with nUnits := p2.1.nUnits + 1 }, p2.2)
                else pwunitProp new g f (s1, p.2)
            else pwunitProp new g f (s1, p.2)
        else .ub

/-- The records of a new clause: that of `w0`, and that of `w1` if there are two literals or more; `none` is the
literal without variable.  /repo/src/Formula.cc:786-788 and 192-202. -/
def paddWatches (new : WMem → Nat) (h : WMem) (cid len : Nat) (w0 w1 : Option Lit) : Res WMem :=
  match w0 with
  | none => .ub
  | some a => do
    let h1 ← h.addRecord cid a (new h)
    if len > 1 then
      match w1 with
      | none => .ub
      | some b => h1.addRecord cid b (new h1)
    else .ok h1

/-- `Formula::learnClause` with `-wl`, /repo/src/Formula.cc:772-835. -/
def plearnClause (cfg : Cfg S) (new : WMem → Nat) (p : PSt S) (c : Cls) (q : Option Nat) : Res (PSt S) := do
  let s := p.1
  let c1 : Cls := { c with numUn := 0 }
  let s1 : St S := match q with
    | some a => { s with heap := upd s.heap a c1, ptr := upd s.ptr s.ncl a, ncl := s.ncl + 1 }
    | none => { s with heap := upd s.heap s.nheap c1, nheap := s.nheap + 1,
                       ptr := upd s.ptr s.ncl s.nheap, ncl := s.ncl + 1 }
  let h1 ← paddWatches new p.2 s.ncl c.lits.length c.w0 c.w1
  let s4 := halveScores cfg (c.lits.foldl (learnLit cfg s.ncl) s1)
  .ok ({ s4 with flowOff := s4.flowOff + 1 }, h1)

/-- `Formula::analyzeConflict` with `-wl`, /repo/src/Formula.cc:997-1078. -/
def panalyze (cfg : Cfg S) (new : WMem → Nat) : Nat → PSt S → Cls → Option Nat → Res (PSt S × Cls)
  | 0, _, _, _ => .fuel
  | f + 1, p, c, q => do
    if ← potent cfg p.1 c then
      let p1 ← plearnClause cfg new p c q
      .ok (p1, c)
    else
      let l ← lastFalse cfg p.1 c
      let reason ← reasonOf p.1 l
      panalyze cfg new f p (assignWatched p.1 (Cls.ofLits (resolve c.lits l reason))) none

/-- The conflict part of the loop in `WatchedLiterals`, /repo/src/Formula.cc:1370-1416. -/
def pconflictWL (cfg : Cfg S) (new : WMem → Nat) (f : Nat) (p : PSt S) (rc : Int) : Res (PSt S × Int) := do
  if p.1.conflicting < 0 ∨ p.1.conflicting.toNat ≥ p.1.ncl then .ub else
  let id := p.1.conflicting.toNat
  let (p1, learned) ← panalyze cfg new f p (p.1.cl id) (some (p.1.ptr id))
  let lv ← wlLevel p1.1 learned
  let s := p1.1
  let s : St S := { s with LEVEL := lv, nBacktracks := s.nBacktracks + 1, conflict := false }
  if (s.nBacktracks : Int) = rc then
    let s := wundoTheory s 0
    .ok (({ s with nRestarts := s.nRestarts + 1
                   units := if s.LEVEL = 0 then [s.ncl - 1] else []
                   LEVEL := 0 }, p1.2), (s.nBacktracks : Int) + cfg.restarts)
  else
    let s := wundoTheory s s.LEVEL
    .ok (({ s with units := [s.ncl - 1] }, p1.2), rc)

/-- The decision, /repo/src/Formula.cc:1422-1441. -/
def pdecide (cfg : Cfg S) (new : WMem → Nat) (g : Nat) (p : PSt S) : Option (Res (PSt S)) :=
  match chooseNC cfg p.1 with
  | none => none
  | some l =>
    let s := chooseEffect cfg p.1
    some (pwreduceTheory new g
      ({ s with nDecisions := s.nDecisions + 1, LEVEL := s.LEVEL + 1, unitClause := -1 }, p.2) l)

/-- `Formula::WatchedLiterals`, /repo/src/Formula.cc:1354-1444. -/
def plearnLoop (cfg : Cfg S) (new : WMem → Nat) (g : Nat) : Nat → PSt S → Int → Res (Nat × PSt S)
  | 0, _, _ => .fuel
  | f + 1, p, rc => do
    let (late, s) := readClock cfg p.1
    if late then .ok (1, (s, p.2)) else
    if s.conflict ∧ s.LEVEL = 0 then .ok (2, (s, p.2)) else
    let (p, rc) ← if s.conflict then pconflictWL cfg new f (s, p.2) rc else .ok ((s, p.2), rc)
    let p ← if p.1.units = [] then .ok p else pwunitProp new g f p
    if p.1.conflict then plearnLoop cfg new g f p rc
    else match pdecide cfg new g p with
      | none => .ok (0, (chooseEffect cfg p.1, p.2))
      | some r => do
        let p ← r
        plearnLoop cfg new g f p rc

/-- A clause line with `-wl`, /repo/src/Formula.cc:119-208. -/
def paddClause (cfg : Cfg S) (new : WMem → Nat) (p : PSt S) (ls : List Lit) : Res (PSt S) :=
  if ls.all (litInRange p.1) then do
    let s1 := ls.foldl (addLit cfg) p.1
    let c := { Cls.ofLits ls with w0 := ls[0]?, w1 := ls[1]? }
    let id := s1.ncl
    let s2 := { s1 with heap := upd s1.heap s1.nheap c, nheap := s1.nheap + 1,
                        ptr := upd s1.ptr id s1.nheap, ncl := id + 1 }
    let s3 := if ls.length = 1 then { s2 with units := s2.units ++ [id] } else s2
    let h ← paddWatches new p.2 id ls.length ls[0]? ls[1]?
    .ok (s3, h)
  else .ub

/-- The reading loop, /repo/src/Formula.cc:96-209. -/
def pbuildItems (cfg : Cfg S) (new : WMem → Nat) : List Item → PSt S → Res (PSt S)
  | [], p => .ok p
  | .dom d :: is, p => pbuildItems cfg new is (addVar p.1 d, p.2)
  | .clause ls :: is, p => do
    let p ← paddClause cfg new p ls
    pbuildItems cfg new is p

/-- `BuildFormula` and `WatchedLiterals`, /repo/src/SolveFinite.cc:36-68 with `-wl`: result code, final state, final records. -/
def prun (cfg : Cfg S) (new : WMem → Nat) (g fuel : Nat) (P : Problem) : Res (Nat × PSt S) := do
  let p ← pbuildItems cfg new P.items (initSt cfg, WMem.empty)
  plearnLoop cfg new g fuel p cfg.restarts

end Mvl
