import Verif.Format
import Verif.Model.CLI

/-!
# The random benchmark generators

`GenBenFin`, /repo/src/GenBenFunc.cc:25-140, and `GenBenBool`, /repo/src/GenBenFunc.cc:145-249.  The result is the
characters written to the output file.

`rand()` is a parameter: call number `i` gives `r i`, any number.  Every function takes the number of calls made so
far and gives back the new one.  `rand() % 0` is `ub`, and so is `new` with a negative size, which throws.  The loop
`do … while(already_exist)` need not stop, so it is given `fuel`.  Simplifications: whether the output file opens is
not modelled, `int` does not overflow.
-/

namespace Mvl

/-- `rand() % m`; the sign of the remainder is that of `rand()`, never negative. -/
def randMod (r : Nat → Nat) (i : Nat) (m : Int) : Res (Int × Nat) :=
  if m = 0 then .ub else .ok (Int.tmod (r i) m, i + 1)

/-- Reading an array; outside it is `ub`. -/
def arrGet (a : List Int) (i : Int) : Res Int :=
  if i < 0 then .ub else
    match a[i.toNat]? with
    | some x => .ok x
    | none => .ub

/-- The sizes given to `new`, /repo/src/GenBenFunc.cc:35-41. -/
def sizesOk (c : CommandLine) : Bool := 0 ≤ c.NUM_VAR && 0 ≤ c.NUM_CLAUSE && (c.NUM_CLAUSE == 0 || 0 ≤ c.CLAUSE_SIZE)

/-! ## Finite domains -/

/-- A domain size, /repo/src/GenBenFunc.cc:50 and 59. -/
def finDomain (c : CommandLine) (r : Nat → Nat) (i : Nat) : Res (Int × Nat) :=
  if c.DRAND then randMod r i c.DOMAIN_SIZE else .ok (c.DOMAIN_SIZE, i)

/-- The domain sizes, /repo/src/GenBenFunc.cc:45-61. -/
def finDomains (c : CommandLine) (r : Nat → Nat) : Nat → Nat → Res (List Int × Nat)
  | 0, i => .ok ([], i)
  | n + 1, i => do
    let (d, i) ← finDomain c r i
    let (ds, i) ← finDomains c r n i
    .ok (d :: ds, i)

/-- The solution, /repo/src/GenBenFunc.cc:64-68. -/
def finSolution (r : Nat → Nat) : List Int → Nat → Res (List Int × Nat)
  | [], i => .ok ([], i)
  | d :: ds, i => do
    let (k, i) ← randMod r i d
    let (ks, i) ← finSolution r ds i
    .ok (k :: ks, i)

/-- One pass of `for(z=0; z<x && !already_exist; z++)`, /repo/src/GenBenFunc.cc:94-105, over the variables already in
the clause: at the first equal one a new variable is drawn and the pass ends. -/
def finPass (c : CommandLine) (r : Nat → Nat) : List Int → Int → Nat → Res ((Int × Nat) × Bool)
  | [], v, i => .ok ((v, i), false)
  | z :: zs, v, i =>
    if v = z then do
      let p ← randMod r i c.NUM_VAR
      .ok (p, true)
    else finPass c r zs v i

/-- `do … while(already_exist)`, /repo/src/GenBenFunc.cc:91-106. -/
def finFresh (c : CommandLine) (r : Nat → Nat) : Nat → List Int → Int → Nat → Res (Int × Nat)
  | 0, _, _, _ => .fuel
  | fuel + 1, zs, v, i => do
    let (p, exist) ← finPass c r zs v i
    if exist then finFresh c r fuel zs p.1 p.2 else .ok p

/-- The first literal of a clause when the problem is to be satisfiable, /repo/src/GenBenFunc.cc:81-82.  `SOLN[x].VAR`
is `x`. -/
def finFirst (c : CommandLine) (r : Nat → Nat) (soln : List Int) (i : Nat) : Res ((Int × Int) × Nat) := do
  let (v, i) ← randMod r i c.NUM_VAR
  let k ← arrGet soln v
  .ok ((v, k), i)

/-- Any other literal, /repo/src/GenBenFunc.cc:89-107. -/
def finOther (c : CommandLine) (r : Nat → Nat) (fuel : Nat) (doms : List Int) (zs : List Int) (i : Nat) :
    Res ((Int × Int) × Nat) := do
  let (v, i) ← randMod r i c.NUM_VAR
  let (v, i) ← finFresh c r fuel zs v i
  let d ← arrGet doms v
  let (k, i) ← randMod r i d
  .ok ((v, k), i)

/-- The next literal of a clause; `done`: the literals before it, /repo/src/GenBenFunc.cc:78-108. -/
def finLit (c : CommandLine) (r : Nat → Nat) (fuel : Nat) (doms soln : List Int) (done : List (Int × Int)) (i : Nat) :
    Res ((Int × Int) × Nat) :=
  if c.SAT_UNSAT && done.length == 0 then finFirst c r soln i else finOther c r fuel doms (done.map Prod.fst) i

/-- The literals of a clause, /repo/src/GenBenFunc.cc:74-109. -/
def finLits (c : CommandLine) (r : Nat → Nat) (fuel : Nat) (doms soln : List Int) :
    Nat → List (Int × Int) → Nat → Res (List (Int × Int) × Nat)
  | 0, done, i => .ok (done, i)
  | n + 1, done, i => do
    let (l, i) ← finLit c r fuel doms soln done i
    finLits c r fuel doms soln n (done ++ [l]) i

/-- The clauses, /repo/src/GenBenFunc.cc:72-110. -/
def finClauses (c : CommandLine) (r : Nat → Nat) (fuel : Nat) (doms soln : List Int) :
    Nat → Nat → Res (List (List (Int × Int)) × Nat)
  | 0, i => .ok ([], i)
  | n + 1, i => do
    let (cl, i) ← finLits c r fuel doms soln c.CLAUSE_SIZE.toNat [] i
    let (cls, i) ← finClauses c r fuel doms soln n i
    .ok (cl :: cls, i)

/-- `p cnf` and the two numbers, /repo/src/GenBenFunc.cc:125 and 238. -/
def genHead (c : CommandLine) : List Char :=
  "p cnf ".toList ++ intText c.NUM_VAR ++ [' '] ++ intText c.NUM_CLAUSE ++ ['\n']

/-- The lines of the output file, /repo/src/GenBenFunc.cc:125-137. -/
def finText (c : CommandLine) (doms : List Int) (cls : List (List (Int × Int))) : List Char :=
  genHead c
  ++ (doms.mapIdx fun y d => "d ".toList ++ intText ((y : Int) + 1) ++ [' '] ++ intText d ++ ['\n']).flatten
  ++ cls.flatMap fun cl =>
      (cl.flatMap fun l => intText (l.1 + 1) ++ ['='] ++ intText l.2 ++ [' ']) ++ ['0', '\n']

/-- `GenBenFin`, /repo/src/GenBenFunc.cc:25-140. -/
def genBenFin (c : CommandLine) (r : Nat → Nat) (fuel : Nat) : Res (List Char) :=
  if sizesOk c then do
    let (doms, i) ← finDomains c r c.NUM_VAR.toNat 0
    let (soln, i) ← finSolution r doms i
    let (cls, _) ← finClauses c r fuel doms soln c.NUM_CLAUSE.toNat i
    .ok (finText c doms cls)
  else .ub

/-! ## Boolean -/

/-- `rand() % 2` as a condition. -/
def coin (r : Nat → Nat) (i : Nat) : Bool := r i % 2 != 0

/-- The entries of `BSOLN` from `x` on, `n` of them, /repo/src/GenBenFunc.cc:163-169. -/
def boolSolution (r : Nat → Nat) : Nat → Nat → Nat → List Int × Nat
  | 0, _, i => ([], i)
  | n + 1, x, i =>
    let rest := boolSolution r n (x + 1) (i + 1)
    ((if coin r i then (x : Int) else -(x : Int)) :: rest.1, rest.2)

/-- One pass over the literals already in the clause, /repo/src/GenBenFunc.cc:208-219. -/
def boolPass (c : CommandLine) (r : Nat → Nat) : List Int → Int → Nat → Res ((Int × Nat) × Bool)
  | [], v, i => .ok ((v, i), false)
  | z :: zs, v, i =>
    if v = z then do
      let p ← randMod r i c.NUM_VAR
      .ok ((p.1 + 1, p.2), true)
    else boolPass c r zs v i

/-- `do … while(already_exist)`, /repo/src/GenBenFunc.cc:205-220. -/
def boolFresh (c : CommandLine) (r : Nat → Nat) : Nat → List Int → Int → Nat → Res (Int × Nat)
  | 0, _, _, _ => .fuel
  | fuel + 1, zs, v, i => do
    let (p, exist) ← boolPass c r zs v i
    if exist then boolFresh c r fuel zs p.1 p.2 else .ok p

/-- The first literal of a clause when the problem is to be satisfiable, /repo/src/GenBenFunc.cc:182-189; `BSOLN[x]` is
entry `x - 1` of the list. -/
def boolFirst (c : CommandLine) (r : Nat → Nat) (soln : List Int) (i : Nat) : Res (Int × Nat) := do
  let (v, j) ← randMod r (i + 1) c.NUM_VAR
  let x ← arrGet soln v
  .ok (if coin r i then x else -1 * x, j)

/-- Any other literal, /repo/src/GenBenFunc.cc:196-220. -/
def boolOther (c : CommandLine) (r : Nat → Nat) (fuel : Nat) (zs : List Int) (i : Nat) : Res (Int × Nat) := do
  let (v, j) ← randMod r (i + 1) c.NUM_VAR
  boolFresh c r fuel zs (if coin r i then v + 1 else -1 * (v + 1)) j

/-- The next literal of a clause, /repo/src/GenBenFunc.cc:179-221. -/
def boolLit (c : CommandLine) (r : Nat → Nat) (fuel : Nat) (soln : List Int) (done : List Int) (i : Nat) :
    Res (Int × Nat) :=
  if c.SAT_UNSAT && done.length == 0 then boolFirst c r soln i else boolOther c r fuel done i

/-- The literals of a clause, /repo/src/GenBenFunc.cc:175-222. -/
def boolLits (c : CommandLine) (r : Nat → Nat) (fuel : Nat) (soln : List Int) : Nat → List Int → Nat →
    Res (List Int × Nat)
  | 0, done, i => .ok (done, i)
  | n + 1, done, i => do
    let (l, i) ← boolLit c r fuel soln done i
    boolLits c r fuel soln n (done ++ [l]) i

/-- The clauses, /repo/src/GenBenFunc.cc:173-223. -/
def boolClauses (c : CommandLine) (r : Nat → Nat) (fuel : Nat) (soln : List Int) : Nat → Nat →
    Res (List (List Int) × Nat)
  | 0, i => .ok ([], i)
  | n + 1, i => do
    let (cl, i) ← boolLits c r fuel soln c.CLAUSE_SIZE.toNat [] i
    let (cls, i) ← boolClauses c r fuel soln n i
    .ok (cl :: cls, i)

/-- The lines of the output file, /repo/src/GenBenFunc.cc:238-246. -/
def boolText (c : CommandLine) (cls : List (List Int)) : List Char :=
  genHead c ++ cls.flatMap fun cl => (cl.flatMap fun x => intText x ++ [' ']) ++ ['0', '\n']

/-- `GenBenBool`, /repo/src/GenBenFunc.cc:145-249. -/
def genBenBool (c : CommandLine) (r : Nat → Nat) (fuel : Nat) : Res (List Char) :=
  if sizesOk { c with NUM_VAR := c.NUM_VAR + 1 } then do
    let (soln, i) := boolSolution r c.NUM_VAR.toNat 1 0
    let (cls, _) ← boolClauses c r fuel soln c.NUM_CLAUSE.toNat i
    .ok (boolText c cls)
  else .ub

/-- `-genben`, /repo/src/Main.cc:45-60. -/
def genBen (c : CommandLine) (r : Nat → Nat) (fuel : Nat) : Res (List Char) :=
  if c.BOOL_FINITE then genBenFin c r fuel else genBenBool c r fuel

end Mvl
