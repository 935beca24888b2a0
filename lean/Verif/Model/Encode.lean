import Verif.Format
import Verif.Model.Parser
import Verif.Model.CLI

/-!
# The encoders

`LinearEncode`, /repo/src/LinearEncode.cc:17-201, `QuadraticEncode`, /repo/src/QuadraticEncode.cc:25-155, and
`Boolean2Finite`, /repo/src/Boolean2Finite.cc:14-150.  The input is the characters of a file, read with `getline`
and `sscanf` as in `Model/Parser.lean`.  The output of the first two is the list of lines, each the list of its
words; the number of blanks between words is not modelled.  The output of the third is its characters.

`int` does not overflow, except in `Fact` where it is `ub`.  Whether the files open is not modelled here.
-/

namespace Mvl

/-- `sscanf(line, "d %d %d", &var, &val)`, /repo/src/LinearEncode.cc:84, /repo/src/QuadraticEncode.cc:84. -/
def scanDVals (s : Scan) (line : List Char) : Res Scan :=
  match matchText ['d', ' '] line with
  | some r => scanVarVal s r
  | none => .ok s

/-- The values of `var` and `val`; reading them uninitialised is `ub`. -/
def Scan.both (s : Scan) : Res (Int × Int) :=
  match s.var, s.val with
  | some v, some k => .ok (v, k)
  | _, _ => .ub

/-! ## Linear encoding -/

/-- The variables of `LinearEncode`, /repo/src/LinearEncode.cc:24-34.  `arr`: the arrays `domain` and `index` have
been allocated with this size, and the values of `domain`; `index`: values computed at the first clause line. -/
structure LinSt where
  scan      : Scan := {}
  numClause : Int := 0
  numVar    : Int := 0
  newClause : Int := 0
  newVar    : Int := 0
  count     : Int := 0
  arr       : Option (Nat × (Nat → Int)) := none
  index     : Option (Nat → Int) := none
  isdone    : Bool := false
  out       : List (List (List Char)) := []

/-- /repo/src/LinearEncode.cc:72-79.  An uninitialised or too small size is `ub`. -/
def linP (t : LinSt) (line : List Char) : Res LinSt := do
  let s ← scanP t.scan line
  let (v, k) ← s.both
  if v + 1 < 0 then .ub
  else pure { t with scan := s, numVar := v, numClause := k, arr := some ((v + 1).toNat, fun _ => 2), index := none }

/-- /repo/src/LinearEncode.cc:84-88.  Writing outside the array, or before it exists, is `ub`. -/
def linD (t : LinSt) (line : List Char) : Res LinSt := do
  let s ← scanDVals t.scan line
  let (v, k) ← s.both
  match t.arr with
  | none => .ub
  | some (n, dom) =>
    if 0 ≤ v ∧ v < n then
      pure { t with scan := s, count := t.count + 1, newVar := t.newVar + (2 * k - 1),
                    newClause := t.newClause + (4 * (k - 2) + 3 + 1),
                    arr := some (n, fun i => if i = v.toNat then k else dom i) }
    else .ub

/-- The array `index`, /repo/src/LinearEncode.cc:100-107; entry 0 is never written. -/
def linIndex (dom : Nat → Int) : Nat → Int
  | 0 => 0
  | 1 => 1
  | i + 2 => if dom (i + 1) = 2 then linIndex dom (i + 1) + 1 else 2 * dom (i + 1) - 1 + linIndex dom (i + 1)

/-- The words of a line of integers that ends with `0`. -/
def zeroLine (c : List Int) : List (List Char) := c.map intText ++ [['0']]

/-- The clauses written for a variable with first index `b` and `d > 2` values, /repo/src/LinearEncode.cc:115-136. -/
def linExtra (b : Int) (d : Nat) : List (List Int) :=
  [(List.range d).map fun j : Nat => b + j]
  ++ [[-(b + d), b], [b + d, -b]]
  ++ (List.range (d - 2)).flatMap (fun j : Nat =>
      [[-(b + d + 1 + j), b + d + j, b + 1 + j], [b + d + 1 + j, -(b + d + j)], [b + d + 1 + j, -(b + 1 + j)]])
  ++ (List.range (d - 1)).map fun j : Nat => [-(b + d + j), -(b + 1 + j)]

/-- The first clause line, /repo/src/LinearEncode.cc:93-144.  `index[1]` outside the array, `domain` not allocated, or
`index[0]` used although never written, is `ub`. -/
def linFirst (t : LinSt) : Res LinSt :=
  if t.isdone then .ok t
  else
    match t.arr with
    | none => .ub
    | some (n, dom) =>
      if n < 2 ∨ 2 < dom 0 then .ub
      else
        let newClause := t.newClause + t.numClause
        let newVar := t.newVar + (t.numVar - t.count)
        let extra := (List.range n).flatMap fun i =>
          if 2 < dom i then (linExtra (linIndex dom i) (dom i).toNat).map zeroLine else []
        .ok { t with isdone := true, newClause := newClause, newVar := newVar, index := some (linIndex dom),
                     out := t.out ++ ["p".toList, "cnf".toList, intText newVar, intText newClause] :: extra }

/-- The number computed and the word written for the stored values unless `var = 0`,
/repo/src/LinearEncode.cc:166-190; the number is stored in `var`. -/
def linLit (t : LinSt) : Res (LinSt × Option (List Char)) :=
  match t.scan.var with
  | none => .ub
  | some v =>
    if v = 0 then .ok (t, none)
    else
      match t.scan.val, t.scan.ch, t.arr, t.index with
      | some k, some c, some (n, dom), some index =>
        if 0 ≤ v ∧ v < n then
          if 2 < dom v.toNat then
            let x := index v.toNat + k
            .ok ({ t with scan := { t.scan with var := some x } }, some (if c = '!' then '-' :: intText x else intText x))
          else
            let x := if k = 1 then index v.toNat else -(index v.toNat)
            .ok ({ t with scan := { t.scan with var := some x } }, some (intText x))
        else .ub
      | _, _, _, _ => .ub

/-- The words of a clause line, /repo/src/LinearEncode.cc:146-193. -/
def linWords (t : LinSt) : List (List Char) → Res (LinSt × List (List Char))
  | [] => .ok (t, [])
  | w :: ws => do
    let s ← scanBoth t.scan w
    let (t, o) ← linLit { t with scan := s }
    let (t, os) ← linWords t ws
    pure (t, o.toList ++ os)

/-- One line of the input, /repo/src/LinearEncode.cc:62-195. -/
def linLine (t : LinSt) (line : List Char) : Res LinSt :=
  match line with
  | 'c' :: _ => .ok t
  | 'p' :: _ => linP t line
  | 'd' :: _ => linD t line
  | _ => do
    let t ← linFirst t
    let (t, os) ← linWords t (words line)
    pure { t with out := t.out ++ [os ++ [['0']]] }

def linLines (t : LinSt) : List (List Char) → Res LinSt
  | [] => .ok t
  | l :: ls => do
    let t ← linLine t (cString l)
    linLines t ls

/-- `LinearEncode` on the characters of a file: the lines written. -/
def linearEncode (cs : List Char) : Res (List (List (List Char))) := do
  let t ← linLines {} (fileLines cs)
  pure t.out

/-! ## Quadratic encoding -/

/-- `Fact`, /repo/src/QuadraticEncode.cc:14-20; overflow of `int` is `ub`. -/
def factLoop : Nat → Int → Int → Res Int
  | 0, _, temp => .ok temp
  | m + 1, x, temp => if temp * x ≤ 2147483647 then factLoop m (x + 1) (temp * x) else .ub

def fact (n : Int) : Res Int := factLoop n.toNat 1 1

/-- The variables of `QuadraticEncode`, /repo/src/QuadraticEncode.cc:32-40; `vars` is `VAR_LIST` (names and domain
sizes). -/
structure QuadSt where
  scan      : Scan := {}
  numClause : Int := 0
  numVar    : Int := 0
  vars      : List (Int × Int) := []
  isdone    : Bool := false
  out       : List (List (List Char)) := []

/-- /repo/src/QuadraticEncode.cc:78-79. -/
def quadP (t : QuadSt) (line : List Char) : Res QuadSt := do
  let s ← scanP t.scan line
  match s.val with
  | none => .ub
  | some k => pure { t with scan := s, numClause := t.numClause + k }

/-- /repo/src/QuadraticEncode.cc:84-89.  `new Variable` with a negative size is `ub`. -/
def quadD (t : QuadSt) (line : List Char) : Res QuadSt := do
  let s ← scanDVals t.scan line
  let (v, k) ← s.both
  if k < 0 then .ub
  else
    let f ← fact k
    let f2 ← fact (k - 2)
    if 2147483647 < f2 * 2 then .ub
    else pure { t with scan := s, vars := t.vars ++ [(v, k)], numVar := t.numVar + k,
                       numClause := t.numClause + Int.tdiv f (f2 * 2) + 1 }

/-- `<<v<<"="<<k`. -/
def atomWord (v k : Int) : List Char := intText v ++ '=' :: intText k

/-- The lines written for a variable, /repo/src/QuadraticEncode.cc:101-112; they do not end with `0`. -/
def quadExtra (p : Int × Int) : List (List (List Char)) :=
  ((List.range p.2.toNat).map fun y : Nat => atomWord p.1 y) ::
  (List.range p.2.toNat).flatMap fun a : Nat => (List.range' (a + 1) (p.2.toNat - (a + 1))).map fun b : Nat =>
    ['-' :: atomWord p.1 a, '-' :: atomWord p.1 b]

/-- The first clause line, /repo/src/QuadraticEncode.cc:94-114. -/
def quadFirst (t : QuadSt) : QuadSt :=
  if t.isdone then t
  else { t with isdone := true,
                out := t.out ++ ["p".toList, "cnf".toList, intText t.numVar, intText t.numClause] :: t.vars.flatMap quadExtra }

/-- One word, /repo/src/QuadraticEncode.cc:133-145. -/
def quadWord (s : Scan) (w : List Char) : Res (Scan × Option (List Char)) := do
  let s ← scan1 s w
  match s.var with
  | none => .ub
  | some v =>
    if v = 0 then pure (s, none)
    else
      match s.ch with
      | none => .ub
      | some c =>
        if c = '!' then do
          let s ← scan2 s w
          let (v, k) ← s.both
          pure (s, some ('-' :: atomWord v k))
        else do
          let (v, k) ← s.both
          pure (s, some (atomWord v k))

/-- The words of a clause line, /repo/src/QuadraticEncode.cc:115-147. -/
def quadWords (s : Scan) : List (List Char) → Res (Scan × List (List Char))
  | [] => .ok (s, [])
  | w :: ws => do
    let (s, o) ← quadWord s w
    let (s, os) ← quadWords s ws
    pure (s, o.toList ++ os)

/-- One line of the input, /repo/src/QuadraticEncode.cc:68-149. -/
def quadLine (t : QuadSt) (line : List Char) : Res QuadSt :=
  match line with
  | 'c' :: _ => .ok t
  | 'p' :: _ => quadP t line
  | 'd' :: _ => quadD t line
  | _ => do
    let t := quadFirst t
    let (s, os) ← quadWords t.scan (words line)
    pure { t with scan := s, out := t.out ++ [os ++ [['0']]] }

def quadLines (t : QuadSt) : List (List Char) → Res QuadSt
  | [] => .ok t
  | l :: ls => do
    let t ← quadLine t (cString l)
    quadLines t ls

/-- `QuadraticEncode` on the characters of a file: the lines written. -/
def quadraticEncode (cs : List Char) : Res (List (List (List Char))) := do
  let t ← quadLines {} (fileLines cs)
  pure t.out

/-! ## Boolean to finite domain -/

/-- `std::set<int>::insert` on the sorted list of elements. -/
def setInsert (n : Nat) : List Nat → List Nat
  | [] => [n]
  | m :: ms => if n < m then n :: m :: ms else if n = m then m :: ms else m :: setInsert n ms

/-- The variables of `Boolean2Finite`, /repo/src/Boolean2Finite.cc:21-24; `out`: characters written so far. -/
structure B2fSt where
  variables : List Nat := []
  data      : List (List Int) := []
  out       : List Char := []

/-- The words of a clause line, /repo/src/Boolean2Finite.cc:70-111.  `abs` of the least `int` is `ub`. -/
def b2fWords (vs : List Nat) : List (List Char) → Res (List Nat × List Int)
  | [] => .ok (vs, [])
  | w :: ws => do
    let v ← atoi w
    if v = -2147483648 then .ub
    else
      let (vs, c) ← b2fWords (setInsert v.natAbs vs) ws
      pure (vs, if v = 0 then c else v :: c)

/-- One line of the input, /repo/src/Boolean2Finite.cc:52-113. -/
def b2fLine (t : B2fSt) (line : List Char) : Res B2fSt :=
  match line with
  | 'c' :: _ => .ok { t with out := t.out ++ line ++ ['\n'] }
  | 'p' :: _ => .ok { t with out := t.out ++ line ++ ['\n'] }
  | _ => do
    let (vs, c) ← b2fWords t.variables (words line)
    pure { t with variables := vs, data := t.data ++ [c] }

def b2fLines (t : B2fSt) : List (List Char) → Res B2fSt
  | [] => .ok t
  | l :: ls => do
    let t ← b2fLine t (cString l)
    b2fLines t ls

/-- The domain lines: the loop prints every element of the set but the first, /repo/src/Boolean2Finite.cc:117-124.
`end--` on an empty set is `ub`. -/
def b2fDomains : List Nat → Res (List Char)
  | [] => .ub
  | _ :: vs => .ok (vs.flatMap fun v => ['d', ' '] ++ natText v ++ [' ', '2', '\n'])

/-- One clause, /repo/src/Boolean2Finite.cc:131-145. -/
def b2fClause (c : List Int) : List Char :=
  (c.flatMap fun v => if v < 0 then intText (-v) ++ ['=', '0', ' '] else intText v ++ ['=', '1', ' ']) ++ ['\n']

/-- `Boolean2Finite` on the characters of a file: the characters written. -/
def boolean2Finite (cs : List Char) : Res (List Char) := do
  let t ← b2fLines {} (fileLines cs)
  let d ← b2fDomains t.variables
  pure (t.out ++ d ++ t.data.flatMap b2fClause)

end Mvl
