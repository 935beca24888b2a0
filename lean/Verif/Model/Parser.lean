import Verif.Model.Search

/-!
# Reading a file character by character

`Formula::BuildFormula`, /repo/src/Formula.cc:63-215.  The variables `var`, `val`, `ch` of that function
keep their values from one word and line to the next when `sscanf` stores nothing; `none` means not yet
initialised, and using such a value is the outcome `ub`.  The variable `ch1` is never read and left out.

Simplifications: a character is a byte; `%d` outside the range of `int` is `ub`.
-/

namespace Mvl

/-- `isspace` in the C locale. -/
def isSpace (c : Char) : Bool :=
  c = ' ' || c = '\t' || c = '\n' || c = '\x0b' || c = '\x0c' || c = '\r'

/-- A white-space directive of `sscanf`: skips any number of blanks. -/
def skipWs (cs : List Char) : List Char := cs.dropWhile isSpace

/-- Value of a string of digits. -/
def digitsVal (ds : List Char) : Nat := ds.foldl (fun n c => 10 * n + (c.toNat - 48)) 0

/-- The digits after an optional sign; fails without a digit. -/
def scanDigits (neg : Bool) (cs : List Char) : Res (Option (Int × List Char)) :=
  let ds := cs.takeWhile Char.isDigit
  if ds = [] then .ok none
  else
    let n : Int := if neg then - (digitsVal ds : Int) else digitsVal ds
    if -2147483648 ≤ n ∧ n ≤ 2147483647 then .ok (some (n, cs.dropWhile Char.isDigit)) else .ub

/-- Conversion `%d` of `sscanf`: skip blanks, optional sign, digits.  `none`: matching failure. -/
def scanInt (cs : List Char) : Res (Option (Int × List Char)) :=
  match skipWs cs with
  | '-' :: r => scanDigits true r
  | '+' :: r => scanDigits false r
  | r => scanDigits false r

/-- The variables of `BuildFormula` filled by `sscanf`, /repo/src/Formula.cc:70-72. -/
structure Scan where
  var : Option Int := none
  val : Option Int := none
  ch  : Option Char := none
deriving DecidableEq, Repr

/-- `… %d` as the last conversion, storing to `val`. -/
def scanVal (s : Scan) (cs : List Char) : Res Scan :=
  match scanInt cs with
  | .ok (some (k, _)) => .ok { s with val := some k }
  | .ok none => .ok s
  | .ub => .ub
  | .fuel => .fuel

/-- `%d %d` into `var` and `val`. -/
def scanVarVal (s : Scan) (cs : List Char) : Res Scan :=
  match scanInt cs with
  | .ok (some (n, r)) => scanVal { s with var := some n } r
  | .ok none => .ok s
  | .ub => .ub
  | .fuel => .fuel

/-- `sscanf(word, "%d %c %d", &var, &ch, &val)`, /repo/src/Formula.cc:139. -/
def scan1 (s : Scan) (w : List Char) : Res Scan :=
  match scanInt w with
  | .ok (some (n, r)) =>
    match skipWs r with
    | [] => .ok { s with var := some n }
    | c :: r => scanVal { s with var := some n, ch := some c } r
  | .ok none => .ok s
  | .ub => .ub
  | .fuel => .fuel

/-- `sscanf(word, "%d %c %c %d", &var, &ch, &ch1, &val)`, /repo/src/Formula.cc:141. -/
def scan2 (s : Scan) (w : List Char) : Res Scan :=
  match scanInt w with
  | .ok (some (n, r)) =>
    match skipWs r with
    | [] => .ok { s with var := some n }
    | c :: r =>
      match skipWs r with
      | [] => .ok { s with var := some n, ch := some c }
      | _ :: r => scanVal { s with var := some n, ch := some c } r
  | .ok none => .ok s
  | .ub => .ub
  | .fuel => .fuel

/-- The two `sscanf` calls on a word, /repo/src/Formula.cc:139-141. -/
def scanBoth (s : Scan) (w : List Char) : Res Scan := do
  let s ← scan1 s w
  match s.ch with
  | none => .ub
  | some c => if c = '!' then scan2 s w else .ok s

/-- The literal built from the stored values unless `var = 0`, /repo/src/Formula.cc:143-147; negative
numbers index outside `VARLIST` or the arrays of a variable (:156-175). -/
def scannedLit (s : Scan) : Res (Option Lit) :=
  match s.var with
  | none => .ub
  | some v =>
    if v = 0 then .ok none
    else match s.val, s.ch with
      | some k, some c => if v < 0 ∨ k < 0 then .ub else .ok (some ⟨v.toNat, k.toNat, c = '='⟩)
      | _, _ => .ub

/-- One word of a clause line, /repo/src/Formula.cc:137-147. -/
def scanWord (s : Scan) (w : List Char) : Res (Scan × Option Lit) := do
  let s ← scanBoth s w
  let l ← scannedLit s
  pure (s, l)

/-- The words of a line: maximal runs without space or tab, /repo/src/Formula.cc:121-137, 180.  (A line
holds no newline.)  `acc` is the current word, reversed. -/
def wordsAux : List Char → List Char → List (List Char)
  | acc, [] => if acc = [] then [] else [acc.reverse]
  | acc, c :: cs =>
    if c = ' ' ∨ c = '\t' then
      if acc = [] then wordsAux [] cs else acc.reverse :: wordsAux [] cs
    else wordsAux (c :: acc) cs

def words (line : List Char) : List (List Char) := wordsAux [] line

/-- The word loop of a clause line, /repo/src/Formula.cc:122-180. -/
def scanClause (s : Scan) : List (List Char) → Res (Scan × List Lit)
  | [] => .ok (s, [])
  | w :: ws => do
    let (s, l) ← scanWord s w
    let (s, ls) ← scanClause s ws
    pure (s, l.toList ++ ls)

/-- Matches a `sscanf` format without conversions: blanks skip blanks, other characters must agree. -/
def matchText : List Char → List Char → Option (List Char)
  | [], cs => some cs
  | f :: fs, cs =>
    if f = ' ' then matchText fs (skipWs cs)
    else match cs with
      | [] => none
      | c :: cs => if c = f then matchText fs cs else none

/-- `sscanf(line, "p cnf %d %d", &var, &val)`, /repo/src/Formula.cc:108. -/
def scanP (s : Scan) (line : List Char) : Res Scan :=
  match matchText ['p', ' ', 'c', 'n', 'f', ' '] line with
  | some r => scanVarVal s r
  | none => .ok s

/-- `sscanf(line, "d %d %d", &var, &val)` and the new variable, /repo/src/Formula.cc:114-116.  A size not
read, or a negative one (`new int[DOMAINSIZE]`), is `ub`; so is `new Variable(var, …)` with `var` not
read. -/
def scanD (s : Scan) (line : List Char) : Res (Scan × Nat) := do
  let s ← match matchText ['d', ' '] line with
    | some r => scanVarVal s r
    | none => .ok s
  match s.var, s.val with
  | some _, some d => if d < 0 then .ub else pure (s, d.toNat)
  | _, _ => .ub

/-- One line of the file, /repo/src/Formula.cc:98-209. -/
def scanLine (s : Scan) (line : List Char) : Res (Scan × Option Item) :=
  match line with
  | 'c' :: _ => .ok (s, none)
  | 'p' :: _ => do
    let s ← scanP s line
    pure (s, none)
  | 'd' :: _ => do
    let (s, d) ← scanD s line
    pure (s, some (.dom d))
  | _ => do
    let (s, ls) ← scanClause s (words line)
    pure (s, some (.clause ls))

/-- Pieces of a text between newlines; an empty last piece is not a line. -/
def pieces : List Char → List Char → List (List Char)
  | acc, [] => if acc = [] then [] else [acc.reverse]
  | acc, c :: cs => if c = '\n' then acc.reverse :: pieces [] cs else pieces (c :: acc) cs

/-- The lines delivered by `infile.getline(line_buffer, 3000)`, /repo/src/Formula.cc:96: reading stops at
the first line of 3000 or more characters, because `getline` then sets `failbit`. -/
def fileLines (cs : List Char) : List (List Char) :=
  (pieces [] cs).takeWhile fun l => l.length < 3000

/-- A line as a C string. -/
def cString (l : List Char) : List Char := l.takeWhile (· ≠ '\x00')

def scanLines (s : Scan) : List (List Char) → Res (List Item)
  | [] => .ok []
  | l :: ls => do
    let (s, i) ← scanLine s (cString l)
    let is ← scanLines s ls
    pure (i.toList ++ is)

/-- What `BuildFormula` reads from a file. -/
def readFile (cs : List Char) : Res (List Item) := scanLines {} (fileLines cs)

variable {S : Type}

/-- `BuildFormula` on the characters of a file. -/
def buildFile (cfg : Cfg S) (cs : List Char) : Res (St S) := do
  let is ← readFile cs
  buildItems cfg is (initSt cfg)

/-- `SolveFinite`, /repo/src/SolveFinite.cc:21-94, on the characters of a file. -/
def solveFile (cfg : Cfg S) (algo : Algo) (fuel : Nat) (cs : List Char) : Res Report := do
  let s ← buildFile cfg cs
  let (r, s) ← search cfg algo fuel s
  pure (report r s)

end Mvl
