import Verif.Spec

/-!
# The documented input format

/repo/README.md:49-86 ("Extended DIMACS format"), as a set of texts.  Nothing here mentions how the
solver reads a file.  The README documents the problem line as `p mvcnf`, the benchmarks and the code use
`p cnf`; both are allowed.  A character stands for a byte of the file.
-/

namespace Mvl

/-- A number in decimal. -/
def natText (n : Nat) : List Char := Nat.toDigits 10 n

/-- An integer in decimal, as `operator<<` writes it. -/
def intText (i : Int) : List Char := if i < 0 then '-' :: natText i.natAbs else natText i.natAbs

/-- `<VarName>=<DomainValue>` or `<VarName>!=<DomainValue>`. -/
def Lit.text (l : Lit) : List Char :=
  natText l.var ++ (if l.eq then ['='] else ['!', '=']) ++ natText l.val

/-- The literals separated by a space, and the end marker `0`. -/
def clauseText (c : List Lit) : List Char := c.flatMap (fun l => l.text ++ [' ']) ++ ['0']

/-- The kinds of lines of the format. -/
inductive FileLine where
  | comment (t : List Char)
  | problem (mv : Bool) (nvars nclauses : Nat)
  | domain (v d : Nat)
  | clause (c : List Lit)
deriving DecidableEq, Repr

namespace FileLine

def text : FileLine → List Char
  | comment t => 'c' :: t
  | problem mv n m =>
    ['p', ' '] ++ (if mv then ['m', 'v'] else []) ++ ['c', 'n', 'f', ' '] ++ natText n ++ [' '] ++ natText m
  | domain v d => ['d', ' '] ++ natText v ++ [' '] ++ natText d
  | clause c => clauseText c

/-- Numbers that fit in an `int`. -/
def Small (n : Nat) : Prop := n ≤ 2147483647

instance (n : Nat) : Decidable (Small n) := by unfold Small; infer_instance

/-- A line allowed by the format: comments stay on one line, numbers fit in an `int`, clauses are not
empty and name variables from 1. -/
def Ok : FileLine → Prop
  | comment t => '\n' ∉ t
  | problem _ n m => Small n ∧ Small m
  | domain v d => Small v ∧ Small d
  | clause c => c ≠ [] ∧ ∀ l ∈ c, 1 ≤ l.var ∧ Small l.var ∧ Small l.val

instance (l : FileLine) : Decidable l.Ok := by cases l <;> unfold Ok <;> infer_instance

end FileLine

/-- The text of a file with the given lines. -/
def fileText (ls : List FileLine) : List Char := ls.flatMap fun l => l.text ++ ['\n']

/-- The formula a file describes: domain sizes in the order of the domain lines, and the clauses. -/
def fileDoms (ls : List FileLine) : List Nat :=
  ls.filterMap fun l => match l with | .domain _ d => some d | _ => none

def fileClauses (ls : List FileLine) : List (List Lit) :=
  ls.filterMap fun l => match l with | .clause c => some c | _ => none

/-- The domain lines declare the variables `1, 2, …` in this order and come before the clause lines, as
the README asks. -/
def DomainsFirst : List FileLine → Nat → Prop
  | [], _ => True
  | .domain v _ :: ls, n => v = n ∧ DomainsFirst ls (n + 1)
  | .clause _ :: ls, _ => fileDoms ls = []
  | _ :: ls, n => DomainsFirst ls n

/-- `ls` is a file in the documented format that describes the formula `P`. -/
structure Describes (ls : List FileLine) (P : Problem) : Prop where
  ok      : ∀ l ∈ ls, l.Ok
  short   : ∀ l ∈ ls, l.text.length < 3000
  order   : DomainsFirst ls 1
  doms    : fileDoms ls = P.doms
  clauses : fileClauses ls = P.clauses

/-- The plainest file for a formula: a problem line, the domain lines, the clause lines. -/
def Problem.file (P : Problem) : List FileLine :=
  .problem false P.doms.length P.clauses.length
    :: (P.doms.mapIdx fun i d => FileLine.domain (i + 1) d) ++ P.clauses.map .clause

end Mvl
