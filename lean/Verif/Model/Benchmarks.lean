import Verif.Format

/-!
# The benchmark scripts

What the generator scripts under /repo/benchmarks write, as lists of lines of the documented format.  A C++
loop `for (int k = a; k < b && cond; k++)` stops at the first `k` with `cond` false: `forWhile`.

Simplifications: the sizes, fixed ranges in two of the scripts, are parameters; `int` does not overflow.
-/

namespace Mvl

/-- The values taken by `for (int k = a; k < b; k++)`. -/
def forUp (a b : Nat) : List Nat := List.range' a (b - a)

/-- The values taken by `for (int k = a; k < b && cond k; k++)`. -/
def forWhile (a b : Nat) (cond : Nat → Bool) : List Nat := (forUp a b).takeWhile cond

/-- The line `j!=i k!=l 0`. -/
def neLine (j i k l : Nat) : FileLine := .clause [⟨j, i, false⟩, ⟨k, l, false⟩]

/-- /repo/benchmarks/Pigeonhole/pigeon_script.cc:15-51, the file for `pgn` pigeons. -/
def pigeonFile (pgn : Nat) : List FileLine :=
  let hole := pgn - 1
  let clauses := (pgn - 1) ^ 2 * pgn / 2
  [.comment (" This is a pigeonhole problem with ".toList ++ natText pgn ++ " pigeons and ".toList
      ++ natText hole ++ " holes".toList),
   .problem false pgn clauses]
  ++ (forUp 1 (pgn + 1)).map (fun i => .domain i hole)
  ++ (forUp 0 hole).flatMap fun i => (forUp 1 (pgn + 1)).flatMap fun j =>
      (forWhile 1 (pgn + 1) fun k => k != j).map fun k => neLine j i k i

/-- /repo/benchmarks/Nqueens/Nqueens.cc:32-39, the lines about rows. -/
def queensRows (n : Nat) : List FileLine :=
  (forUp 0 n).flatMap fun i => (forUp 1 (n + 1)).flatMap fun j =>
    (forWhile 1 (n + 1) fun k => k != j).map fun k => neLine j i k i

/-- /repo/benchmarks/Nqueens/Nqueens.cc:44-55, the lines about diagonals. -/
def queensDiagonals (n : Nat) : List FileLine :=
  (forUp 1 (n + 1)).flatMap fun i => (forWhile 1 (n + 1) fun k => k != i).flatMap fun k : Nat =>
    (forUp 0 n).flatMap fun d : Nat => (forUp 0 n).flatMap fun l : Nat =>
      if (i : Int) - (d : Int) = (k : Int) - (l : Int) ∨ i + d = k + l then [neLine i d k l] else []

/-- /repo/benchmarks/Nqueens/Nqueens.cc:13-62, the file for `n` queens; `clauses` counts the lines written. -/
def queensFile (n : Nat) : List FileLine :=
  (forUp 1 (n + 1)).map (fun i => .domain i n)
  ++ queensRows n ++ [.comment " diagonals".toList] ++ queensDiagonals n
  ++ [.problem false n ((queensRows n).length + (queensDiagonals n).length)]

/-- A graph file in the CCG format as the colouring script sees it: comments before the edges, the numbers of
the problem line, the edge lines. -/
structure Graph where
  comments : List (List Char)
  vertices : Nat
  edgeNum  : Nat
  edges    : List (Nat × Nat)
deriving Repr, DecidableEq

/-- /repo/benchmarks/Graph_Coloring/coloring_script.py:15-24, 73-117, the file for a graph and `N` colours.
Only graph files with comments first, then the problem line, then the edge lines are covered. -/
def colouringFile (G : Graph) (N : Nat) : List FileLine :=
  G.comments.map .comment
  ++ .problem false G.vertices (G.edgeNum * N) :: (forUp 1 (G.vertices + 1)).map (fun v => .domain v N)
  ++ (List.range N).flatMap fun d => G.edges.map fun e => neLine e.1 d e.2 d

/-- Haskell's `[a..b]` on `Int`. -/
def upTo (a b : Int) : List Int := (List.range (b - a + 1).toNat).map fun i : Nat => a + (i : Int)

/-- `show x ++ "!=" ++ show k ++ " " ++ show y ++ "!=" ++ show l ++ " 0"`; all numbers written by the script
are non-negative. -/
def neLineI (x k y l : Int) : FileLine := neLine x.toNat k.toNat y.toNat l.toNat

/-- /repo/benchmarks/Namazons/Namazons-generator.hs:22-24. -/
def amazonsColumns (n : Int) : List FileLine :=
  (upTo 1 n).flatMap fun x => (upTo 1 n).flatMap fun y =>
    if x < y then (upTo 0 (n - 1)).map fun k => neLineI x k y k else []

/-- /repo/benchmarks/Namazons/Namazons-generator.hs:26-27 (`s = 1`) and 29-30 (`s = -1`). -/
def amazonsDiagonal (n s : Int) : List FileLine :=
  (upTo 1 n).flatMap fun x => (upTo 0 (n - 1)).flatMap fun k => (upTo (x + 1) n).flatMap fun y =>
    if k + s * (y - x) ∈ upTo 0 (n - 1) then [neLineI x k y (k + s * (y - x))] else []

/-- /repo/benchmarks/Namazons/Namazons-generator.hs:32-33, 35-36, 38-39 and 41-42 with the knight moves
`(1, 2)`, `(1, -2)`, `(2, 1)` and `(2, -1)`. -/
def amazonsKnight (n dx dk : Int) : List FileLine :=
  (upTo 1 n).flatMap fun x => (upTo 0 (n - 1)).flatMap fun k =>
    if x + dx ∈ upTo 1 n ∧ k + dk ∈ upTo 0 (n - 1) then [neLineI x k (x + dx) (k + dk)] else []

/-- /repo/benchmarks/Namazons/Namazons-generator.hs:13-42, the file for `n` amazons. -/
def amazonsFile (n : Nat) : List FileLine :=
  [.comment (' ' :: natText n ++ " amazons. see https://de.wikipedia.org/wiki/Damenproblem#Andere_Figuren".toList),
   .comment " one variable per row, value is the column to place an amazon:".toList]
  ++ (upTo 1 n).map (fun i => .domain i.toNat n)
  ++ .comment " Only one amazon per column:".toList :: amazonsColumns n
  ++ .comment " only one per diagonal:".toList :: amazonsDiagonal n 1 ++ amazonsDiagonal n (-1)
  ++ .comment " attack relation of knights: ".toList :: amazonsKnight n 1 2 ++ amazonsKnight n 1 (-2)
  ++ amazonsKnight n 2 1 ++ amazonsKnight n 2 (-1)

/-! ## The n-queens problem as a DIMACS file -/

/-- `LessEqualOneToCNF`, /repo/benchmarks/Nqueens/nqueens_sat.cc:29-42: the clauses added. -/
def lessEqualOne (literals : List Int) : List (List Int) :=
  (forUp 0 (literals.length - 1)).flatMap fun j => (forUp (j + 1) literals.length).map fun k =>
    [-(literals.getD j 0), -(literals.getD k 0)]

/-- `EqualOneToCNF`, /repo/benchmarks/Nqueens/nqueens_sat.cc:12-27: the clauses added. -/
def equalOne (literals : List Int) : List (List Int) := literals :: lessEqualOne literals

/-- `VarName[i][j]`, /repo/benchmarks/Nqueens/nqueens_sat.cc:48-55. -/
def varName (N i j : Nat) : Int := ((i * N + j + 1 : Nat) : Int)

/-- The formula of /repo/benchmarks/Nqueens/nqueens_sat.cc:57-111. -/
def queensCnf (N : Nat) : List (List Int) :=
  (forUp 0 N).flatMap (fun i => equalOne ((forUp 0 N).map fun j => varName N i j))
  ++ (forUp 0 N).flatMap (fun i => equalOne ((forUp 0 N).map fun j => varName N j i))
  ++ (forUp 0 (N - 1)).flatMap (fun i => lessEqualOne ((forUp 0 (N - i)).map fun j => varName N j (i + j)))
  ++ (forUp 1 (N - 1)).flatMap (fun i => lessEqualOne ((forUp 0 (N - i)).map fun j => varName N (j + i) j))
  ++ (forUp 0 (N - 1)).flatMap (fun i => lessEqualOne ((forUp 0 (N - i)).map fun j => varName N j (N - 1 - (i + j))))
  ++ (forUp 1 (N - 1)).flatMap fun i => lessEqualOne ((forUp 0 (N - i)).map fun j => varName N (j + i) (N - 1 - j))

/-- The characters written, /repo/benchmarks/Nqueens/nqueens_sat.cc:113-124. -/
def queensCnfText (N : Nat) : List Char :=
  "p cnf ".toList ++ natText (N * N) ++ [' '] ++ natText (queensCnf N).length ++ ['\n']
  ++ (queensCnf N).flatMap (fun c => c.flatMap (fun x => intText x ++ [' ']) ++ [' ', '0', '\n'])
  ++ ['\n']

/-! ## The pigeonhole script in Python -/

/-- /repo/benchmarks/Pigeonhole/pigeonhole_script.py:3-24, the lines of the file for `pgn` pigeons.  There are no domain
lines. -/
def pigeonPyLines (pgn : Nat) : List FileLine :=
  let hole := pgn - 1
  let clauses := (pgn - 1) ^ 2 * pgn / 2
  [.comment (" This is a pigeonhole problem with ".toList ++ natText pgn ++ " pigeons and ".toList
      ++ natText hole ++ " holes".toList),
   .problem false pgn clauses]
  ++ (forUp 0 hole).flatMap fun i => (forUp 1 (pgn + 1)).flatMap fun j =>
      ((forUp j (pgn + 1)).filter fun d => d != j).map fun d => neLine j i d i

/-- The characters: the script writes the line end before each clause, and none at the end of the file. -/
def pigeonPyText (pgn : Nat) : List Char := (fileText (pigeonPyLines pgn)).dropLast

end Mvl
