import Verif.Model.Encode

/-!
# The random formula scripts

/repo/tests/RandomSAT/random_sat.py, fixed_clauses.py (the same text) and constant_probability.py.  The result is the
characters of the file.

`random.randint` is a parameter: call number `i` draws `r i`, any number, brought into the range asked for.  Every
function takes the number of calls made so far and gives back the new one.  An exception that ends the script (an empty
range for `randint`, division by zero) is `ub`.  `int` and `%d` have no bounds in Python.
-/

namespace Mvl

/-- `random.randint(1, n)`; with an empty range it raises `ValueError`. -/
def randint (r : Nat → Nat) (i : Nat) (n : Int) : Res (Int × Nat) :=
  if n < 1 then .ub else .ok (1 + Int.emod (r i) n, i + 1)

/-- `[random.randint(1, n) for _ in range(k)]`, random_sat.py:7. -/
def drawVars (r : Nat → Nat) (n : Int) : Nat → Nat → Res (List Int × Nat)
  | 0, i => .ok ([], i)
  | k + 1, i => do
    let (v, i) ← randint r i n
    let (vs, i) ← drawVars r n k i
    .ok (v :: vs, i)

/-- The signs, random_sat.py:8-11; `randint(1,2) == 1` when the number drawn is even. -/
def drawSigns (r : Nat → Nat) : List Int → Nat → List Int × Nat
  | [], i => ([], i)
  | v :: vs, i =>
    let rest := drawSigns r vs (i + 1)
    ((if 1 + Int.emod (r i) 2 = 1 then -v else v) :: rest.1, rest.2)

/-- `sat_formula` with `m` clauses, random_sat.py:4-13. -/
def satFormula (r : Nat → Nat) (n : Int) (k : Nat) : Nat → Nat → Res (List (List Int) × Nat)
  | 0, i => .ok ([], i)
  | m + 1, i => do
    let (vs, i) ← drawVars r n k i
    let (c, i) := drawSigns r vs i
    let (cs, i) ← satFormula r n k m i
    .ok (c :: cs, i)

/-- `" ".join(str(i) for i in c)`, random_sat.py:20. -/
def joinInts : List Int → List Char
  | [] => []
  | [x] => intText x
  | x :: y :: c => intText x ++ ' ' :: joinInts (y :: c)

/-- The string `s`, random_sat.py:16-21, constant_probability.py:31-35. -/
def pyDimacs (n m : Int) (cs : List (List Int)) : List Char :=
  "p cnf ".toList ++ intText n ++ [' '] ++ intText m ++ ['\n'] ++ cs.flatMap fun c => joinInts c ++ " 0\n".toList

/-- `dimacs`, random_sat.py:15-21; `range(m)` is empty for negative `m`. -/
def randomDimacs (r : Nat → Nat) (n m : Int) (k : Nat) : Res (List Char) := do
  let (cs, _) ← satFormula r n k m.toNat 0
  .ok (pyDimacs n m cs)

/-- The script run with two numbers, random_sat.py:23-28: `print` adds a line end. -/
def randomSatMain (r : Nat → Nat) (n m : Int) : Res (List Char) := do
  let t ← randomDimacs r n m 3
  .ok (t ++ ['\n'])

/-- The rest of `random_clause` from variable `v` on, `k` variables, constant_probability.py:6-16. -/
def coinClause (r : Nat → Nat) : Nat → Nat → Nat → List Int × Nat
  | 0, _, i => ([], i)
  | k + 1, v, i =>
    if 1 + Int.emod (r i) 2 = 1 then
      let rest := coinClause r k (v + 1) (i + 2)
      ((if 1 + Int.emod (r (i + 1)) 2 = 1 then -(v : Int) else v) :: rest.1, rest.2)
    else coinClause r k (v + 1) (i + 1)

/-- The list `formula`, constant_probability.py:19. -/
def coinFormula (r : Nat → Nat) (n : Nat) : Nat → Nat → List (List Int) × Nat
  | 0, i => ([], i)
  | m + 1, i =>
    let p := coinClause r n 1 i
    let rest := coinFormula r n m p.2
    (p.1 :: rest.1, rest.2)

/-- `random_formula` without the average, constant_probability.py:18-27: the formula and the number of variables in it,
kept here as a sorted list without repetition.  The average is a `float`, not modelled, but its computation divides by `m`. -/
def randomFormula (r : Nat → Nat) (n m : Int) : Res (List (List Int) × Nat) :=
  let f := (coinFormula r n.toNat m.toNat 0).1
  if m = 0 then .ub else .ok (f, (f.flatten.foldl (fun vs x => setInsert x.natAbs vs) []).length)

/-- `dimacs_formula` without the average, constant_probability.py:29-35. -/
def coinDimacs (r : Nat → Nat) (n m : Int) : Res (List Char × Nat) := do
  let (f, k) ← randomFormula r n m
  .ok (pyDimacs n m f, k)

end Mvl
