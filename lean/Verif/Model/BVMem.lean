import Verif.Model.BitVec
import Verif.Model.WatchList

/-!
# The bit-vector search on linked records

`Model/BitVec.lean` has the watch list of a variable as a list of clause numbers.  Here the functions of /repo/bitvec work on
records linked in both directions, `struct VARRECORD`, /repo/bitvec/Variable.h:33-40, as the C++ code does.  The memory of
records is that of `Model/WatchList.lean`; its table of head pointers is indexed by literals, and `VARREC` of variable `v` is
the entry `vkey v`.  A state is a `BSt` together with the memory; the field `recs` of the `BSt` is not used.

`new h` is the address that `new VARRECORD` returns in memory `h`.  `g` bounds the number of records looked at in one walk.
-/

namespace Mvl.BV

variable {S : Type}

/-- Where `VARLIST[v]->VARREC` stands in the table of head pointers. -/
def vkey (v : Nat) : Lit := ⟨v, 0, true⟩

/-- A `Formula` object and the watch records. -/
abbrev BPSt (S : Type) := BSt S × WMem

/-- `Variable::addRecord`, /repo/bitvec/Variable.cc:61-76; `p` is the address given by `new`.  (That `prev` of the new record
is set after that of the next one makes no difference.) -/
def baddRecord (h : WMem) (v id p : Nat) : Res WMem := h.addRecord id (vkey v) p

/-- `Variable::removeRecord`, /repo/bitvec/Variable.cc:79-94, of variable `v`. -/
def bremoveRecord (h : WMem) (v rec : Nat) : Res WMem :=
  h.unlinkPrev rec (vkey v) >>= fun h1 =>
  h1.unlinkNext rec >>= fun h2 =>
  h2.read rec >>= fun r =>
  (if h2.head (vkey v) = some rec then { h2 with head := upd h2.head (vkey v) r.next } else h2).free rec

/-- `Formula::SwapPointer(current)`, /repo/bitvec/Formula.cc:563-600; `rec` is the address of the record, `id` its `c_num`. -/
def bpswapPointer (new : WMem → Nat) (p : BPSt S) (rec id : Nat) : Res (BPSt S) :=
  let s := p.1
  let c := s.cl id
  match c.w0, c.w1 with
  | some w1, some w2 =>
    satW s (some w2) >>= fun x =>
    if x = 2 then
      match c.lits.find? fun l => bsat s l ≠ 0 ∧ l.var ≠ w2.var with
      | some l =>
        bremoveRecord p.2 w1.var rec >>= fun h1 =>
        baddRecord h1 l.var id (new h1) >>= fun h2 =>
        .ok (s.setCl id { c with w0 := some l }, h2)
      | none => .ok ({ s with units := id :: s.units }, p.2)
    else .ok ({ s with conflict := true, conflicting := id }, p.2)
  | _, _ => .ub

/-- Loop body of `watchedUpdateVar`, /repo/bitvec/Formula.cc:390-405. -/
def bpupdateOne (new : WMem → Nat) (v : Nat) (p : BPSt S) (rec id : Nat) : Res (BPSt S) :=
  let s := p.1
  if id < s.ncl then
    let c := s.cl id
    satW s c.w0 >>= fun x =>
    if x = 1 then .ok p
    else
      satW s c.w1 >>= fun y =>
      if y = 1 then .ok (s.setCl id { c with w0 := c.w1, w1 := c.w0 }, p.2)
      else
        let s1 := if c.w1.map BLit.var = some v then s.setCl id { c with w0 := c.w1, w1 := c.w0 } else s
        satW s1 (s1.cl id).w0 >>= fun z =>
        if z = 0 then bpswapPointer new (s1, p.2) rec id else .ok (s1, p.2)
  else .ub

/-- The loop `while (current && !CONFLICT)`, /repo/bitvec/Formula.cc:387-407; `next` is read first. -/
def bpwalk (new : WMem → Nat) (v : Nat) : Nat → BPSt S → Option Nat → Res (BPSt S)
  | 0, _, _ => .fuel
  | _ + 1, p, none => .ok p
  | g + 1, p, some rec =>
    if p.1.conflict then .ok p
    else
      p.2.read rec >>= fun r =>
      bpupdateOne new v p rec r.c_num >>= fun p1 =>
      bpwalk new v g p1 r.next

/-- `Formula::watchedUpdateVar`, /repo/bitvec/Formula.cc:376-408. -/
def bpupdateVar (new : WMem → Nat) (g : Nat) (p : BPSt S) (v : Nat) : Res (BPSt S) := bpwalk new v g p (p.2.head (vkey v))

/-- `Formula::watchedReduceTheory`, /repo/bitvec/Formula.cc:602-623. -/
def bpreduce (new : WMem → Nat) (g : Nat) (p : BPSt S) (l : BLit) : Res (BPSt S) :=
  let s := p.1
  let change := s.cur l.var &&& ~~~ l.vals
  if change = 0#64 then .ok p
  else
    let i := s.atomIndex + 1
    bpupdateVar new g ({ s with
      atomIndex := i
      nodes := upd s.nodes l.var (⟨i, s.LEVEL, s.unitClause, change⟩ :: s.nodes l.var)
      cur := upd s.cur l.var (s.cur l.var &&& l.vals) }, p.2) l.var

/-- `Formula::WatchedUnitPropagation`, /repo/bitvec/Formula.cc:517-547. -/
def bpunitProp (new : WMem → Nat) (g : Nat) : Nat → BPSt S → Res (BPSt S)
  | 0, _ => .fuel
  | f + 1, p =>
    if p.1.conflict then .ok ({ p.1 with units := [] }, p.2)
    else match p.1.units with
      | [] => .ok p
      | id :: rest =>
        let s1 : BSt S := { p.1 with unitClause := id, units := rest }
        if id < s1.ncl then
          let c := s1.cl id
          match c.w0 with
          | none => .ub
          | some w =>
            satW s1 (some w) >>= fun x =>
            if x = 2 then
              bpreduce new g (s1, p.2) w >>= fun p2 =>
              bpunitProp new g f ({ p2.1 with nUnits := p2.1.nUnits + 1 }, p2.2)
            else if c.lits.length > 1 then
              match c.w1 with
              | none => .ub
              | some w' =>
                satW s1 (some w') >>= fun y =>
                if y = 2 then
                  bpreduce new g (s1, p.2) w' >>= fun p2 =>
                  bpunitProp new g f ({ p2.1 with nUnits := p2.1.nUnits + 1 }, p2.2)
                else bpunitProp new g f (s1, p.2)
            else bpunitProp new g f (s1, p.2)
        else .ub

/-- `CLAUSELIST.push_back(clause)`, /repo/bitvec/Formula.cc:350; `q` as in `blearn`. -/
def bpushLearned (s : BSt S) (c : BCls) (q : Option Nat) : BSt S :=
  match q with
  | some a => { s with ptr := upd s.ptr s.ncl a, ncl := s.ncl + 1 }
  | none => { s with heap := upd s.heap s.nheap c, nheap := s.nheap + 1, ptr := upd s.ptr s.ncl s.nheap, ncl := s.ncl + 1 }

/-- `Formula::learnClause`, /repo/bitvec/Formula.cc:344-372. -/
def bplearn (A : ScoreArith S) (new : WMem → Nat) (p : BPSt S) (c : BCls) (q : Option Nat) : Res (BPSt S) :=
  let s := p.1
  let s1 := bpushLearned s c q
  match c.w0 with
  | none => .ub
  | some w =>
    baddRecord p.2 w.var s.ncl (new p.2) >>= fun h1 =>
    if c.lits.length > 1 then
      match c.w1 with
      | none => .ub
      | some w' =>
        baddRecord h1 w'.var s.ncl (new h1) >>= fun h2 =>
        .ok (bhalve A (c.lits.foldl (bbump A) s1), h2)
    else .ok (bhalve A (c.lits.foldl (bbump A) s1), h1)

/-- `Formula::analyzeConflict`, /repo/bitvec/Formula.cc:428-474. -/
def bpanalyze (A : ScoreArith S) (new : WMem → Nat) : Nat → BPSt S → BCls → Option Nat → Res (BPSt S × BCls)
  | 0, _, _, _ => .fuel
  | f + 1, p, c, q =>
    bpotent p.1 c >>= fun x =>
    if x = true then bplearn A new p c q >>= fun p1 => .ok (p1, c)
    else
      match c.w0 with
      | none => .ub
      | some l =>
        let r := (p.1.node l).reason
        if r < 0 ∨ r.toNat ≥ p.1.ncl then .ub
        else bpanalyze A new f p (assignWatched p.1 (bresolve c.lits l (p.1.cl r.toNat).lits)) none

/-- The conflict part of the loop, /repo/bitvec/Formula.cc:651-687. -/
def bpconflict (cfg : BCfg S) (new : WMem → Nat) (f : Nat) (p : BPSt S) (rc : Int) : Res (BPSt S × Int) :=
  if p.1.conflicting < 0 ∨ p.1.conflicting.toNat ≥ p.1.ncl then .ub else
  bpanalyze cfg.arith new f p (p.1.cl p.1.conflicting.toNat) (some (p.1.ptr p.1.conflicting.toNat)) >>= fun r =>
  bbackLevel r.1.1 r.2 >>= fun lv =>
  let s : BSt S := { r.1.1 with LEVEL := lv, nBacktracks := r.1.1.nBacktracks + 1, conflict := false }
  if (s.nBacktracks : Int) = rc then
    let s := bundo s 0
    .ok (({ s with nRestarts := s.nRestarts + 1
                   units := if s.LEVEL = 0 then [s.ncl - 1] else []
                   LEVEL := 0 }, r.1.2), (s.nBacktracks : Int) + cfg.restarts)
  else
    let s := bundo s s.LEVEL
    .ok (({ s with units := [s.ncl - 1] }, r.1.2), rc)

/-- The decision part of the loop, /repo/bitvec/Formula.cc:694-708. -/
def bpdecide (cfg : BCfg S) (new : WMem → Nat) (g : Nat) (p : BPSt S) : Res (Option (BPSt S)) :=
  bchoose cfg p.1 >>= fun o =>
  match o with
  | none => .ok none
  | some l =>
    bpreduce new g ({ p.1 with nDecisions := p.1.nDecisions + 1, LEVEL := p.1.LEVEL + 1, unitClause := -1 }, p.2) l >>=
      fun p1 => .ok (some p1)

/-- `Formula::WatchedLiterals`, /repo/bitvec/Formula.cc:626-710. -/
def bploop (cfg : BCfg S) (new : WMem → Nat) (g : Nat) : Nat → BPSt S → Int → Res (Nat × BPSt S)
  | 0, _, _ => .fuel
  | f + 1, p, rc =>
    let s1 : BSt S := { p.1 with ticks := p.1.ticks + 1 }
    if cfg.late p.1.ticks then .ok (1, (s1, p.2)) else
    if p.1.conflict ∧ p.1.LEVEL = 0 then .ok (2, (s1, p.2)) else
    (if p.1.conflict then bpconflict cfg new f (s1, p.2) rc else .ok ((s1, p.2), rc)) >>= fun q =>
    (if q.1.1.units = [] then .ok q.1 else bpunitProp new g f q.1) >>= fun p2 =>
    if p2.1.conflict then bploop cfg new g f p2 q.2
    else bpdecide cfg new g p2 >>= fun o =>
      match o with
      | none => .ok (0, p2)
      | some p3 => bploop cfg new g f p3 q.2

/-- The clause of a line put into `CLAUSELIST`. -/
def bpushRead (s : BSt S) (c : List BLit) : BSt S :=
  { s with heap := upd s.heap s.nheap ⟨c, c[0]?, c[1]?⟩, nheap := s.nheap + 1, ptr := upd s.ptr s.ncl s.nheap, ncl := s.ncl + 1 }

/-- A clause line, /repo/bitvec/Formula.cc:121-202. -/
def bpaddClause (A : ScoreArith S) (new : WMem → Nat) (p : BPSt S) (ls : List Lit) : Res (BPSt S) :=
  let s := p.1
  readLits s [] ls >>= fun c =>
  if c.all fun l => l.var ≤ s.nv then
    let id := s.ncl
    let s1 := c.foldl (bbump A) (bpushRead s c)
    match c with
    | [] => .ub
    | [a] => baddRecord p.2 a.var id (new p.2) >>= fun h1 => .ok ({ s1 with units := s1.units ++ [id] }, h1)
    | a :: b :: _ =>
      baddRecord p.2 a.var id (new p.2) >>= fun h1 =>
      baddRecord h1 b.var id (new h1) >>= fun h2 => .ok (s1, h2)
  else .ub

/-- The reading loop, /repo/bitvec/Formula.cc:94-203. -/
def bpbuildItems (A : ScoreArith S) (new : WMem → Nat) : List Item → BPSt S → Res (BPSt S)
  | [], p => .ok p
  | .dom d :: is, p => baddVar p.1 d >>= fun s => bpbuildItems A new is (s, p.2)
  | .clause ls :: is, p => bpaddClause A new p ls >>= fun p1 => bpbuildItems A new is p1

/-- `BuildFormula` and the search, /repo/bitvec/SolveFinite.cc:29-45: result code, final state, final records. -/
def bprun (cfg : BCfg S) (new : WMem → Nat) (g fuel : Nat) (P : Problem) : Res (Nat × BPSt S) :=
  bpbuildItems cfg.arith new P.items (binit cfg.arith, WMem.empty) >>= fun p =>
  bploop cfg new g fuel p cfg.restarts

/-- The destructor of variable `v`, /repo/bitvec/Variable.cc:46-58 (the records). -/
def bdestroy (h : WMem) (fuel v : Nat) : Res WMem := h.freeAll fuel (h.head (vkey v))

/-- The destructors of the variables `vs`, one after the other. -/
def bdestroyAll (fuel : Nat) : List Nat → WMem → Res WMem
  | [], h => .ok h
  | v :: vs, h => bdestroy h fuel v >>= fun h1 => bdestroyAll fuel vs h1

end Mvl.BV
