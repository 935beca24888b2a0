import Verif.Model.Core
import Verif.Model.BitVec

/-!
# Conflict analysis with clause objects that are made and freed

`analyzeConflict` makes temporary `Clause` objects (resolvents and reasons) and deletes them.  Here an address is the number
of a place in `heap`; `Live` says which places hold an object at the moment.  `new` returns any address (that it is a free
one is a hypothesis of the theorems).  Reading or deleting an object that is not there is `ub`.
-/

namespace Mvl

variable {S : Type}

/-- Which clause objects exist. -/
abbrev Live := Nat → Bool

/-- `new Clause`: an object with given contents at the address `new L`. -/
def newClause (new : Live → Nat) (s : St S) (L : Live) (c : Cls) : St S × Live × Nat :=
  ({ s with heap := upd s.heap (new L) c }, upd L (new L) true, new L)

/-- Reading through a `Clause *`. -/
def readClause (s : St S) (L : Live) (a : Nat) : Res Cls := if L a then .ok (s.heap a) else .ub

/-- `delete` of a `Clause *`. -/
def deleteClause (L : Live) (a : Nat) : Res Live := if L a then .ok (upd L a false) else .ub

/-- `if ( cond ) delete p;` -/
def deleteIf (cond : Bool) (L : Live) (a : Nat) : Res Live := if cond then deleteClause L a else .ok L

/-- The pointer `reason`, /repo/src/Formula.cc:1028-1048: a new object for decisions and entailments, otherwise the pointer in
`CLAUSELIST`. -/
def mreason (new : Live → Nat) (s : St S) (L : Live) (l : Lit) : Res (St S × Live × Nat) :=
  let r := s.rsn l.var l.val
  if r = -1 then
    let i := s.idx l.var l.val
    if i < 0 then .ub
    else match s.decs[i.toNat]? with
      | some f => .ok (newClause new s L (Cls.ofLits [⟨f.var, f.val, true⟩, ⟨f.var, f.val, false⟩]))
      | none => .ub
  else if r = -2 then .ok (newClause new s L (Cls.ofLits ((List.range (s.dom l.var)).map fun i => ⟨l.var, i, true⟩)))
  else if r < 0 then .ub
  else if r.toNat < s.ncl then .ok (s, L, s.ptr r.toNat)
  else .ub

/-- `assignWatched(resolvent)`, /repo/src/Formula.cc:1053-1055. -/
def massignWatched (cfg : Cfg S) (s : St S) (b : Nat) : St S :=
  if cfg.watch then { s with heap := upd s.heap b (assignWatched s (s.heap b)) } else s

/-- `Formula::analyzeConflict(clause, freeClauseAfterUse)`, /repo/src/Formula.cc:997-1078, with `clause` at address `a`.
Returns the address of the learned clause. -/
def manalyze (cfg : Cfg S) (new : Live → Nat) : Nat → St S → Live → Nat → Bool → Res (St S × Live × Nat)
  | 0, _, _, _, _ => .fuel
  | f + 1, s, L, a, free => do
    let c ← readClause s L a
    if ← potent cfg s c then
      pure (learnClause cfg s c (some a), L, a)
    else
      let l ← lastFalse cfg s c
      let (s1, L1, ra) ← mreason new s L l
      -- `resolve`, /repo/src/Formula.cc:700-727, reads both clauses
      let c1 ← readClause s1 L1 a
      let rc ← readClause s1 L1 ra
      let (s2, L2, b) := newClause new s1 L1 (Cls.ofLits (resolve c1.lits l rc.lits))
      let s3 := massignWatched cfg s2 b
      let L3 ← deleteIf free L2 a
      let L4 ← deleteIf (s.rsn l.var l.val < 0) L3 ra
      manalyze cfg new f s3 L4 b true

namespace BV

/-- `new Clause` of the bit-vector program. -/
def bnewClause (new : Live → Nat) (s : BSt S) (L : Live) (c : BCls) : BSt S × Live × Nat :=
  ({ s with heap := upd s.heap (new L) c }, upd L (new L) true, new L)

/-- Reading through a `Clause *`. -/
def breadClause (s : BSt S) (L : Live) (a : Nat) : Res BCls := if L a then .ok (s.heap a) else .ub

/-- `Formula::analyzeConflict(clause, freeClauseAfterUse)`, /repo/bitvec/Formula.cc:428-474. -/
def bmanalyze (A : ScoreArith S) (new : Live → Nat) : Nat → BSt S → Live → Nat → Bool → Res (BSt S × Live × Nat)
  | 0, _, _, _, _ => .fuel
  | f + 1, s, L, a, free => do
    let c ← breadClause s L a
    if ← bpotent s c then
      let s ← blearn A s c (some a)
      pure (s, L, a)
    else
      match c.w0 with
      | none => .ub
      | some l =>
        let r := (s.node l).reason
        if r < 0 ∨ r.toNat ≥ s.ncl then .ub
        else
          let rc ← breadClause s L (s.ptr r.toNat)
          -- `assignWatched` reads the nodes of variables only
          let (s2, L2, b) := bnewClause new s L (assignWatched s (bresolve c.lits l rc.lits))
          let L3 ← deleteIf free L2 a
          bmanalyze A new f s2 L3 b true

end BV

end Mvl
