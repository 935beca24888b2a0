import Verif.Spec

/-!
# The solver's state

Models the data of `class Formula` (/repo/src/Formula.h), `class Variable` (/repo/src/Variable.h)
and `class Clause` (/repo/src/Clause.h).  Per-variable arrays are functions indexed by variable and
value; pairs of arrays `XPOS`/`XNEG` are one function indexed by a literal.

General simplifications, used throughout the model:
* C++ `int` is `Int`/`Nat` without overflow;
* `-LOG` output is not modelled;
* clause objects live in a heap, `CLAUSELIST` is a list of pointers into it, so two entries of
  `CLAUSELIST` can be the same object (this does happen in the code, see `learnClause`).
-/

namespace Mvl

/-- Outcome of a model function.  `ub`: the C++ code would read outside an array or vector;
`fuel`: the step budget of the model ran out (no result yet). -/
inductive Res (α : Type) where
  | ok (a : α)
  | ub
  | fuel
deriving DecidableEq, Repr

namespace Res
def bind {α β : Type} : Res α → (α → Res β) → Res β
  | ok a, f => f a
  | ub, _ => ub
  | fuel, _ => fuel

instance : Monad Res where
  pure := ok
  bind := bind

@[simp] theorem pure_eq {α : Type} (a : α) : (pure a : Res α) = ok a := rfl
@[simp] theorem ok_bind {α β : Type} (a : α) (f : α → Res β) : (ok a >>= f) = f a := rfl
@[simp] theorem ub_bind {α β : Type} (f : α → Res β) : ((ub : Res α) >>= f) = ub := rfl
@[simp] theorem fuel_bind {α β : Type} (f : α → Res β) : ((fuel : Res α) >>= f) = fuel := rfl

theorem bind_eq_ok {α β : Type} {x : Res α} {f : α → Res β} {b : β} :
    (x >>= f) = ok b ↔ ∃ a, x = ok a ∧ f a = ok b := by
  cases x <;> simp
end Res

/-- Value of `ATOMASSIGN` (/repo/src/Variable.h:57-58, 76): `un` = 0, `eq` = 1, `ne` = -1. -/
inductive Asg where
  | un | eq | ne
deriving DecidableEq, Repr, Inhabited

/-- The value of `ATOMASSIGN` that makes a literal with sign `e` true. -/
def Asg.ofSign (e : Bool) : Asg := if e then .eq else .ne

/-- `enum class Heuristic`, /repo/src/Global.h. -/
inductive Heuristic where
  | BK | VSIDS | VSIDS_pos | lazy
deriving DecidableEq, Repr

/-- Arithmetic on VSIDS scores (`double` in /repo/src/Variable.h:79-80).  Kept abstract so that the
theorems hold for every arithmetic, IEEE doubles included, in which scores stay above `-1`. -/
structure ScoreArith (S : Type) where
  zero   : S
  negOne : S
  inc    : S → S
  half   : S → S
  lt     : S → S → Bool

/-- Exact rational-free instance used to run the model: a score is a natural number scaled by a power
of two, `⟨m, k⟩ = m / 2^k`, and `none` is `-1`. -/
def ScoreArith.dyadic : ScoreArith (Option (Nat × Nat)) where
  zero := some (0, 0)
  negOne := none
  inc := fun s => s.map fun (m, k) => (m + 2 ^ k, k)
  half := fun s => s.map fun (m, k) => (m, k + 1)
  lt := fun a b => match a, b with
    | none, none => false
    | none, some _ => true
    | some _, none => false
    | some (m, k), some (m', k') => decide (m * 2 ^ k' < m' * 2 ^ k)

/-- `class Clause`, /repo/src/Clause.h:35-77, /repo/src/Literal.h:42.  `w0`, `w1` are `WATCHED[0]`, `WATCHED[1]`; `none` is the
default literal `Literal()` with `VAR = -1`. -/
structure Cls where
  lits  : List Lit
  numUn : Int
  level : Int
  w0    : Option Lit
  w1    : Option Lit
deriving DecidableEq, Repr, Inhabited

/-- A clause object as built by `Clause()` and successive `addAtom`
(/repo/src/Clause.cc:16-22, 40-44): every `addAtom` increments `NumUnAss`, `LEVEL` is `-1`. -/
def Cls.ofLits (ls : List Lit) : Cls := ⟨ls, ls.length, -1, none, none⟩

/-- The parts of the command line and environment the search depends on: heuristic and `-wl`
(/repo/src/Global.h), score arithmetic, restart interval, and the clock: `late k` says whether the
`k`-th reading `TIME_E = GetTime()` satisfies `TIME_E - TIME_S > TIMELIMIT`. -/
structure Cfg (S : Type) where
  heur     : Heuristic
  watch    : Bool
  arith    : ScoreArith S
  restarts : Int
  late     : Nat → Bool

/-- State of a `Formula` object. -/
structure St (S : Type) where
  /-- `VARLIST.size() - 1`; entry 0 of VARLIST is a dummy with `VAL = 0`. -/
  nv    : Nat
  /-- `DOMAINSIZE` -/
  dom   : Nat → Nat
  /-- `VAL`, `none` = -1 -/
  vval  : Nat → Option Nat
  /-- `ATOMASSIGN` -/
  asg   : Nat → Nat → Asg
  /-- `ATOMLEVEL` -/
  lvl   : Nat → Nat → Int
  /-- `ATOMINDEX` -/
  idx   : Nat → Nat → Int
  /-- `CLAUSEID` -/
  rsn   : Nat → Nat → Int
  /-- `ATOMCNTPOS` / `ATOMCNTNEG` -/
  cnt   : Lit → Int
  /-- `VSIDS_SCORE` / `VSIDS_SCORE_NEG` -/
  score : Lit → S
  /-- `ATOMRECPOS` / `ATOMRECNEG` -/
  recs  : Lit → List Nat
  /-- `ATOMWATCHPOS` / `ATOMWATCHNEG`, as the list of `c_num`s from the head on. -/
  wlist : Lit → List Nat
  /-- the clause objects, `nheap` of them allocated -/
  heap  : Nat → Cls
  nheap : Nat
  /-- `CLAUSELIST[i]` as a pointer, and `CLAUSELIST.size()` -/
  ptr   : Nat → Nat
  ncl   : Nat
  /-- `UNITLIST`, front first -/
  units : List Nat
  /-- `DECSTACK`, bottom first -/
  decs  : List Lit
  LEVEL : Int
  /-- `CONFLICT`, `CONFLICTINGCLAUSE`, `UNITCLAUSE` -/
  conflict   : Bool
  conflicting : Int
  unitClause : Int
  /-- statistics: UNITS, BACKTRACKS, DECISIONS, ENTAILS, RESTARTS -/
  nUnits : Nat
  nBacktracks : Nat
  nDecisions : Nat
  nEntails : Nat
  nRestarts : Nat
  /-- number of clock readings so far -/
  ticks : Nat
  /-- how often control flowed off the end of the value-returning `learnClause`
  (/repo/src/Formula.cc:772-835), which ISO C++ makes undefined behaviour -/
  flowOff : Nat
  /-- set when the watched-literal code dereferences a watch that does not exist -/
  ub    : Bool

/-- Update one cell of a two-index array. -/
def upd2 {α : Type} (f : Nat → Nat → α) (v d : Nat) (x : α) : Nat → Nat → α :=
  fun v' d' => if v' = v ∧ d' = d then x else f v' d'

/-- Update one cell of an array. -/
def upd {ι α : Type} [DecidableEq ι] (f : ι → α) (i : ι) (x : α) : ι → α :=
  fun j => if j = i then x else f j

@[simp] theorem upd2_same {α : Type} (f : Nat → Nat → α) (v d : Nat) (x : α) :
    upd2 f v d x v d = x := by simp [upd2]

@[simp] theorem upd_same {ι α : Type} [DecidableEq ι] (f : ι → α) (i : ι) (x : α) :
    upd f i x i = x := by simp [upd]

theorem upd_of_ne {ι α : Type} [DecidableEq ι] (f : ι → α) {i j : ι} (x : α) (h : j ≠ i) :
    upd f i x j = f j := by simp [upd, h]

variable {S : Type}

/-- The clause `CLAUSELIST[id]`. -/
def St.cl (s : St S) (id : Nat) : Cls := s.heap (s.ptr id)

/-- Write back the clause object `CLAUSELIST[id]`. -/
def St.setCl (s : St S) (id : Nat) (c : Cls) : St S := { s with heap := upd s.heap (s.ptr id) c }

/-- The complementary literal. -/
def Lit.neg (l : Lit) : Lit := { l with eq := !l.eq }

/-- The atoms visited by the double loop
`for i = 1 .. VARLIST.size()-1, for j = 0 .. DOMAINSIZE-1`, in order. -/
def St.atoms (s : St S) : List (Nat × Nat) :=
  (List.range' 1 s.nv).flatMap fun v => (List.range (s.dom v)).map fun d => (v, d)

end Mvl
