import Verif.Model.Program
import Verif.Model.Benchmarks

/-!
# The scripts that write colouring problems, character by character

/repo/benchmarks/Graph_Coloring/coloring_script.py, which reads graph files in the CCG format and writes a file for each, and
/repo/benchmarks/Graph_Coloring/convert_folders.py, which runs it for several numbers of colours.

Simplifications: a character is a byte; files hold no carriage return (Python reads it as a line end); `int` refuses the
underscores and the digits beyond ASCII that Python allows; the directories can be created and written; the messages are
given by their first part.
-/

namespace Mvl

/-- The lines `f.readline()` delivers, with their line ends. -/
def pyLines : List Char → List Char → List (List Char)
  | acc, [] => if acc = [] then [] else [acc.reverse]
  | acc, c :: cs => if c = '\n' then (c :: acc).reverse :: pyLines [] cs else pyLines (c :: acc) cs

/-- White space of `str.split`, below 128. -/
def pySpace (c : Char) : Bool :=
  c = ' ' || (decide (9 ≤ c.toNat) && decide (c.toNat ≤ 13)) || (decide (28 ≤ c.toNat) && decide (c.toNat ≤ 31))

/-- `line.split()`. -/
def pySplit : List Char → List Char → List (List Char)
  | acc, [] => if acc = [] then [] else [acc.reverse]
  | acc, c :: cs =>
    if pySpace c then (if acc = [] then pySplit [] cs else acc.reverse :: pySplit [] cs) else pySplit (c :: acc) cs

/-- `int(s)` for a word. -/
def pyDigits (s : List Char) : Option Nat := if s ≠ [] ∧ s.all Char.isDigit then some (digitsVal s) else none

def pyInt : List Char → Option Int
  | '-' :: s => (pyDigits s).map fun n => -(n : Int)
  | '+' :: s => (pyDigits s).map fun n => (n : Int)
  | s => (pyDigits s).map fun n => (n : Int)

/-- `range(a, b)`. -/
def pyRange (a b : Int) : List Int := (List.range (b - a).toNat).map fun i : Nat => a + (i : Int)

/-- What is known of a graph file while it is read: the text written so far, whether there was a problem line, whether comments
are left out by now, the edges. -/
structure ColState where
  out   : List Char := []
  seen  : Bool := false
  quiet : Bool := false
  edges : List (Int × Int) := []
deriving DecidableEq, Repr

/-- What `convert_problem_line` writes, /repo/benchmarks/Graph_Coloring/coloring_script.py:15-26; `none` is the exception. -/
def problemText (N : Int) (line : List Char) : Option (List Char) :=
  match (pySplit [] line)[2]?, (pySplit [] line)[3]? with
  | some a, some b =>
    match pyInt a, pyInt b with
    | some n, some e => some ("p cnf ".toList ++ intText n ++ [' '] ++ intText (e * N) ++ ['\n'] ++
        (pyRange 1 (n + 1)).flatMap fun v => "d ".toList ++ intText v ++ [' '] ++ intText N ++ ['\n'])
    | _, _ => none
  | _, _ => none

/-- The numbers of an edge line, lines 87-90: `line.split()[1:3:]` must have two elements. -/
def edgeOf (line : List Char) : Option (Int × Int) :=
  match (pySplit [] line)[1]?, (pySplit [] line)[2]? with
  | some a, some b =>
    match pyInt a, pyInt b with
    | some s, some t => some (s, t)
    | _, _ => none
  | _, _ => none

/-- One line, lines 78-103: the new state and the report, `none` for `OK`. -/
def colLine (N : Int) (s : ColState) (line : List Char) : ColState × Option (List Char) :=
  match line with
  | 'p' :: _ =>
    if s.seen then (s, some "The second problem line is found".toList)
    else match problemText N line with
      | some t => ({ s with out := s.out ++ t, seen := true }, none)
      | none => ({ s with seen := true }, some "Incorrect problem line".toList)
  | 'e' :: _ =>
    match edgeOf line with
    | some e => ({ s with edges := s.edges ++ [e], quiet := true }, none)
    | none => ({ s with quiet := true }, some "Incorrect edge line".toList)
  | 'c' :: _ => (if s.quiet then s else { s with out := s.out ++ line }, none)
  | _ => (s, some "Unknown line type".toList)

/-- The loop over the lines, lines 74-112; it ends at the first report. -/
def colLoop (N : Int) : ColState → List (List Char) → ColState × Option (List Char)
  | s, [] => (s, none)
  | s, l :: ls =>
    match (colLine N s l).2 with
    | none => colLoop N (colLine N s l).1 ls
    | some r => ((colLine N s l).1, some r)

/-- The clauses, lines 113-117. -/
def colClauses (N : Int) (es : List (Int × Int)) : List Char :=
  (pyRange 0 N).flatMap fun d => es.flatMap fun e =>
    intText e.1 ++ ['!', '='] ++ intText d ++ [' '] ++ intText e.2 ++ ['!', '='] ++ intText d ++ " 0\n".toList

/-- What is left after a graph file: the text of the result file, the report, and whether the script was ended. -/
structure Converted where
  file   : List Char
  report : Option (List Char)
  exited : Bool
deriving DecidableEq, Repr

/-- One graph file, lines 61-117.  With `-s` the result file is removed at a report, and opened again for the clauses. -/
def colourText (N : Int) (skip : Bool) (cs : List Char) : Converted :=
  match colLoop N {} (pyLines [] cs) with
  | (s, none) => ⟨s.out ++ colClauses N s.edges, none, false⟩
  | (s, some r) => if skip then ⟨colClauses N s.edges, some r, false⟩ else ⟨s.out, some r, true⟩

/-- `filename.rsplit('.', maxsplit = 1)[0]`. -/
def stem (name : List Char) : List Char :=
  if '.' ∈ name then ((name.reverse.dropWhile (· ≠ '.')).drop 1).reverse else name

/-- The name of the result file, line 64. -/
def resultName (N : Int) (name : List Char) : List Char := stem name ++ "_N".toList ++ intText N ++ ".dimacs".toList

/-- The files of a directory, lines 57-117: `path` and `folder` with their separators.  `false` if the script was ended by a
report.  (A file that was listed can be read.) -/
def colourFiles (N : Int) (skip : Bool) (path folder : List Char) : List (List Char) → Disk → Disk × Bool
  | [], d => (d, true)
  | name :: names, d =>
    let r := colourText N skip ((d.files (path ++ name)).getD [])
    let d' := d.write (folder ++ resultName N name) r.file
    if r.exited then (d', false) else colourFiles N skip path folder names d'

/-- `-folder N{N}_DIMACS`. -/
def folderOf (N : Int) : List Char := 'N' :: intText N ++ "_DIMACS/".toList

/-- The loop of /repo/benchmarks/Graph_Coloring/convert_folders.py:24-33 for the numbers of colours `Ns`; the script does not
notice a report. -/
def convertFolders (path : List Char) (names : List (List Char)) : List Int → Disk → Disk
  | [], d => d
  | N :: Ns, d => convertFolders path names Ns (colourFiles N false path (folderOf N) names d).1

end Mvl
