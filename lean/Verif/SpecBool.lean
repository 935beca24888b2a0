import Verif.Format

/-!
# Specification: Boolean formulas

The DIMACS format: a literal is a non-zero integer, a clause a list of literals, and each clause is written as its
literals followed by `0`.  Nothing here mentions the encoders.
-/

namespace Mvl

/-- `x` is true: variable `x` when positive, the negation of variable `-x` when negative. -/
def BLitHolds (β : Nat → Bool) (x : Int) : Prop := if 0 < x then β x.natAbs = true else β x.natAbs = false

instance (β : Nat → Bool) (x : Int) : Decidable (BLitHolds β x) := by unfold BLitHolds; infer_instance

def BClauseHolds (β : Nat → Bool) (c : List Int) : Prop := ∃ x ∈ c, BLitHolds β x

instance (β : Nat → Bool) (c : List Int) : Decidable (BClauseHolds β c) := by unfold BClauseHolds; infer_instance

/-- `β` is a model of the clauses. -/
def BSolves (β : Nat → Bool) (cs : List (List Int)) : Prop := ∀ c ∈ cs, BClauseHolds β c

instance (β : Nat → Bool) (cs : List (List Int)) : Decidable (BSolves β cs) := by unfold BSolves; infer_instance

def BSatisfiable (cs : List (List Int)) : Prop := ∃ β, BSolves β cs

/-- Literals are not zero. -/
def BWellFormed (cs : List (List Int)) : Prop := ∀ c ∈ cs, ∀ x ∈ c, x ≠ 0

instance (cs : List (List Int)) : Decidable (BWellFormed cs) := by unfold BWellFormed; infer_instance

/-- The words of a DIMACS file with problem line `p cnf n m` and the given clauses, one per line. -/
def dimacsWords (n m : Int) (cs : List (List Int)) : List (List (List Char)) :=
  [['p'], ['c', 'n', 'f'], intText n, intText m] :: cs.map fun c => c.map intText ++ [['0']]

/-- Quadratic encoding: a literal is an atom `v=k` or its negation `-v=k`. -/
structure ALit where
  pos : Bool
  var : Nat
  val : Nat
deriving DecidableEq, Repr

def ALit.text (l : ALit) : List Char :=
  (if l.pos then [] else ['-']) ++ natText l.var ++ '=' :: natText l.val

/-- An assignment says of each atom whether it is true. -/
def ALit.holds (β : Nat → Nat → Bool) (l : ALit) : Prop := β l.var l.val = l.pos

instance (β : Nat → Nat → Bool) (l : ALit) : Decidable (l.holds β) := by unfold ALit.holds; infer_instance

def ASolves (β : Nat → Nat → Bool) (cs : List (List ALit)) : Prop := ∀ c ∈ cs, ∃ l ∈ c, l.holds β

instance (β : Nat → Nat → Bool) (cs : List (List ALit)) : Decidable (ASolves β cs) := by unfold ASolves; infer_instance

def ASatisfiable (cs : List (List ALit)) : Prop := ∃ β, ASolves β cs

/-- The lines of a file of the quadratic encoding, each a list of words: a problem line, clauses `ex` without end
marker, clauses `cl` with end marker `0`. -/
def atomWords (nv nc : Nat) (ex cl : List (List ALit)) : List (List (List Char)) :=
  [['p'], ['c', 'n', 'f'], natText nv, natText nc] ::
    ex.map (fun c => c.map ALit.text) ++ cl.map fun c => c.map ALit.text ++ [['0']]

/-! Boolean input files -/

/-- The lines of a DIMACS file. -/
inductive BLine where
  | comment (t : List Char)
  | problem (n m : Nat)
  | clause (c : List Int)
deriving DecidableEq, Repr

namespace BLine

def text : BLine → List Char
  | comment t => 'c' :: t
  | problem n m => ['p', ' ', 'c', 'n', 'f', ' '] ++ natText n ++ [' '] ++ natText m
  | clause c => c.flatMap (fun x => intText x ++ [' ']) ++ ['0']

/-- Comments stay on one line, numbers fit in an `int`, literals are not zero, lines are not too long. -/
def Ok (l : BLine) : Prop :=
  l.text.length < 3000 ∧
  match l with
  | comment t => '\n' ∉ t ∧ '\x00' ∉ t
  | problem n m => FileLine.Small n ∧ FileLine.Small m
  | clause c => ∀ x ∈ c, x ≠ 0 ∧ FileLine.Small x.natAbs

instance (l : BLine) : Decidable l.Ok := by unfold Ok; cases l <;> infer_instance

end BLine

def bFileText (ls : List BLine) : List Char := ls.flatMap fun l => l.text ++ ['\n']

/-- The formula of a DIMACS file. -/
def bClauses (ls : List BLine) : List (List Int) :=
  ls.filterMap fun l => match l with | .clause c => some c | _ => none

/-- Variable `v` occurs in the formula. -/
def BUses (cs : List (List Int)) (v : Nat) : Prop := ∃ c ∈ cs, ∃ x ∈ c, x.natAbs = v

/-- The finite-domain clause that says the same: `v=1` for `v`, `v=0` for `-v`. -/
def finClause (c : List Int) : List Lit := c.map fun x => ⟨x.natAbs, if x < 0 then 0 else 1, true⟩

/-- A clause line without end marker. -/
def openClauseText (c : List Lit) : List Char := c.flatMap fun l => l.text ++ [' ']

/-- The lines of a file that is not a clause line. -/
def bHead (ls : List BLine) : List Char :=
  ls.flatMap fun l => match l with | .clause _ => [] | l => l.text ++ ['\n']

/-! The place of the problem line, which the encoders need -/

/-- All problem lines say `p cnf`. -/
def PlainProblem (ls : List FileLine) : Prop := ∀ l ∈ ls, ∀ n m, l ≠ .problem true n m

/-- No problem line. -/
def NoProblem (ls : List FileLine) : Prop := ∀ l ∈ ls, ∀ mv n m, l ≠ .problem mv n m

/-- Only comments before the problem line, and no other problem line. -/
def HeaderFirst : List FileLine → Nat → Nat → Prop
  | .comment _ :: ls, n, m => HeaderFirst ls n m
  | .problem mv n' m' :: ls, n, m => mv = false ∧ n' = n ∧ m' = m ∧ NoProblem ls
  | _, _, _ => False

end Mvl
