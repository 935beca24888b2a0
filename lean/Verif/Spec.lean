/-!
# Specification: finite-domain (multi-valued) satisfiability

Nothing in this file mentions the solver.  It says what a finite-domain formula is and when an
assignment solves it, in the words of /repo/README.md ("Input format"): variables are numbered
`1..N`, variable `v` ranges over `0..dom v - 1`, a literal is `v=k` or `v!=k`, a clause is a
disjunction of literals and the formula is the conjunction of its clauses.
-/

namespace Mvl

/-- A literal `var=val` (`eq = true`) or `var!=val` (`eq = false`).
Mirrors `class Literal`, /repo/src/Literal.h:31-71 (fields VAR, VAL, EQUAL). -/
structure Lit where
  var : Nat
  val : Nat
  eq  : Bool
deriving DecidableEq, Repr, Inhabited

/-- An assignment gives every variable a value. -/
abbrev Assignment := Nat → Nat

/-- When an assignment makes a literal true. -/
def Lit.holds (a : Assignment) (l : Lit) : Prop :=
  if l.eq then a l.var = l.val else a l.var ≠ l.val

instance (a : Assignment) (l : Lit) : Decidable (l.holds a) := by
  unfold Lit.holds; infer_instance

/-- A clause holds when one of its literals does. -/
def clauseHolds (a : Assignment) (c : List Lit) : Prop := ∃ l ∈ c, l.holds a

instance (a : Assignment) (c : List Lit) : Decidable (clauseHolds a c) := by
  unfold clauseHolds; infer_instance

/-- A finite-domain formula: `doms[i]` is the domain size of variable `i+1`. -/
structure Problem where
  doms    : List Nat
  clauses : List (List Lit)
deriving DecidableEq, Repr, Inhabited

namespace Problem

/-- Number of variables. -/
def numVars (P : Problem) : Nat := P.doms.length

/-- Domain size of variable `v` (variables are numbered from 1). -/
def dom (P : Problem) : Nat → Nat
  | 0 => 0
  | v + 1 => P.doms.getD v 0

/-- Every variable has a value inside its domain. -/
def InDom (P : Problem) (a : Assignment) : Prop :=
  ∀ v, 1 ≤ v → v ≤ P.numVars → a v < P.dom v

/-- `a` is a solution of `P`. -/
def Solves (P : Problem) (a : Assignment) : Prop :=
  P.InDom a ∧ ∀ c ∈ P.clauses, clauseHolds a c

def Satisfiable (P : Problem) : Prop := ∃ a, P.Solves a

/-- The literal names a declared variable and a value of its domain. -/
def LitOk (P : Problem) (l : Lit) : Prop :=
  1 ≤ l.var ∧ l.var ≤ P.numVars ∧ l.val < P.dom l.var

/-- Well-formed input: domains have at least two values, clauses are non-empty, literals are
in range. -/
structure WellFormed (P : Problem) : Prop where
  dom_two   : ∀ d ∈ P.doms, 2 ≤ d
  nonempty  : ∀ c ∈ P.clauses, c ≠ []
  lits_ok   : ∀ c ∈ P.clauses, ∀ l ∈ c, P.LitOk l

/-- Like `WellFormed`, with variables that have one value only. -/
structure Proper (P : Problem) : Prop where
  dom_one   : ∀ d ∈ P.doms, 1 ≤ d
  nonempty  : ∀ c ∈ P.clauses, c ≠ []
  lits_ok   : ∀ c ∈ P.clauses, ∀ l ∈ c, P.LitOk l

/-- The problem in which variables with one value have got a second one. -/
def widen (P : Problem) : Problem := ⟨P.doms.map (max 2), P.clauses⟩

/-- One-value domains, but no literal excludes the only value of a variable. -/
structure Regular (P : Problem) : Prop extends Proper P where
  pos : ∀ c ∈ P.clauses, ∀ l ∈ c, P.dom l.var = 1 → l.eq = true

theorem WellFormed.proper {P : Problem} (h : P.WellFormed) : P.Proper :=
  ⟨fun d hd => Nat.le_trans (by decide) (h.dom_two d hd), h.nonempty, h.lits_ok⟩

instance (P : Problem) : Coe P.WellFormed P.Proper := ⟨WellFormed.proper⟩

theorem WellFormed.two {P : Problem} (h : P.WellFormed) {v : Nat} (h1 : 1 ≤ v) (h2 : v ≤ P.numVars) : 2 ≤ P.dom v := by
  obtain ⟨w, rfl⟩ : ∃ w, v = w + 1 := ⟨v - 1, by omega⟩
  have hw : w < P.doms.length := h2
  show 2 ≤ P.doms.getD w 0
  rw [List.getD_eq_getElem?_getD, List.getElem?_eq_getElem hw]
  exact h.dom_two _ (List.getElem_mem hw)

theorem WellFormed.regular {P : Problem} (h : P.WellFormed) : P.Regular :=
  ⟨h.proper, fun c hc l hl h1 => by
    obtain ⟨h2, h3, _⟩ := h.lits_ok c hc l hl
    have := h.two h2 h3
    omega⟩

instance (P : Problem) : Coe P.WellFormed P.Regular := ⟨WellFormed.regular⟩

theorem WellFormed.widen {P : Problem} (h : P.WellFormed) : P.widen = P := by
  obtain ⟨ds, cs⟩ := P
  have : ds.map (max 2) = ds := by
    conv => rhs; rw [← List.map_id ds]
    apply List.map_congr_left
    intro d hd
    have := h.dom_two d hd
    simp only [id_eq]
    omega
  unfold Problem.widen
  rw [this]

theorem widen_numVars (P : Problem) : P.widen.numVars = P.numVars := by
  unfold widen numVars; simp

theorem widen_dom (P : Problem) {v : Nat} (h1 : 1 ≤ v) (h2 : v ≤ P.numVars) : P.widen.dom v = max 2 (P.dom v) := by
  obtain ⟨w, rfl⟩ : ∃ w, v = w + 1 := ⟨v - 1, by omega⟩
  have hw : w < P.doms.length := by unfold numVars at h2; omega
  show (P.doms.map (max 2)).getD w 0 = max 2 (P.doms.getD w 0)
  rw [List.getD_eq_getElem?_getD, List.getD_eq_getElem?_getD, List.getElem?_map, List.getElem?_eq_getElem hw]
  rfl

/-- If no literal excludes the only value of a variable, raising the one-value domains changes nothing. -/
theorem satisfiable_of_widen {P : Problem} (hp : ∀ d ∈ P.doms, 1 ≤ d)
    (h : ∀ c ∈ P.clauses, ∀ l ∈ c, P.dom l.var = 1 → l.eq = true)
    (hs : P.widen.Satisfiable) (hr : ∀ c ∈ P.clauses, ∀ l ∈ c, P.LitOk l) : P.Satisfiable := by
  obtain ⟨a, h1, h2⟩ := hs
  refine ⟨fun v => if P.dom v = 1 then 0 else a v, ?_, ?_⟩
  · intro v hv1 hv2
    have h3 := h1 v hv1 (by rw [P.widen_numVars]; exact hv2)
    rw [P.widen_dom hv1 hv2] at h3
    have h4 : 1 ≤ P.dom v := by
      obtain ⟨w, rfl⟩ : ∃ w, v = w + 1 := ⟨v - 1, by omega⟩
      have hw : w < P.doms.length := hv2
      show 1 ≤ P.doms.getD w 0
      rw [List.getD_eq_getElem?_getD, List.getElem?_eq_getElem hw]
      exact hp _ (List.getElem_mem hw)
    show (if P.dom v = 1 then 0 else a v) < P.dom v
    split <;> omega
  · intro c hc
    obtain ⟨l, hl, hh⟩ := h2 c hc
    refine ⟨l, hl, ?_⟩
    have hok := (hr c hc l hl).2.2
    unfold Lit.holds at hh ⊢
    by_cases hd : P.dom l.var = 1
    · have he := h c hc l hl hd
      simp only [he, if_true, hd]
      omega
    · simpa only [hd, if_false] using hh

theorem Solves.widen {P : Problem} {a : Assignment} (h : P.Solves a) : P.widen.Solves a := by
  refine ⟨?_, h.2⟩
  intro v h1 h2
  rw [widen_numVars] at h2
  rw [P.widen_dom h1 h2]
  have := h.1 v h1 h2
  omega

/-- No clause repeats a literal. -/
def NoDupLits (P : Problem) : Prop := ∀ c ∈ P.clauses, c.Nodup

/-! Decision procedures, used only to check concrete examples. -/

instance (P : Problem) (l : Lit) : Decidable (P.LitOk l) := by unfold LitOk; infer_instance

instance (P : Problem) (a : Assignment) : Decidable (P.InDom a) :=
  decidable_of_iff (∀ v ∈ List.range P.numVars, a (v + 1) < P.dom (v + 1)) (by
    constructor
    · intro h v h1 h2
      obtain ⟨w, rfl⟩ : ∃ w, v = w + 1 := ⟨v - 1, by omega⟩
      exact h w (List.mem_range.2 (by omega))
    · intro h v hv
      exact h (v + 1) (by omega) (by have := List.mem_range.1 hv; omega))

instance (P : Problem) (a : Assignment) : Decidable (P.Solves a) := by unfold Solves; infer_instance

instance (P : Problem) : Decidable P.WellFormed :=
  decidable_of_iff ((∀ d ∈ P.doms, 2 ≤ d) ∧ (∀ c ∈ P.clauses, c ≠ []) ∧ ∀ c ∈ P.clauses, ∀ l ∈ c, P.LitOk l)
    ⟨fun h => ⟨h.1, h.2.1, h.2.2⟩, fun h => ⟨h.dom_two, h.nonempty, h.lits_ok⟩⟩

instance (P : Problem) : Decidable P.Proper :=
  decidable_of_iff ((∀ d ∈ P.doms, 1 ≤ d) ∧ (∀ c ∈ P.clauses, c ≠ []) ∧ ∀ c ∈ P.clauses, ∀ l ∈ c, P.LitOk l)
    ⟨fun h => ⟨h.1, h.2.1, h.2.2⟩, fun h => ⟨h.dom_one, h.nonempty, h.lits_ok⟩⟩

instance (P : Problem) : Decidable P.Regular :=
  decidable_of_iff (P.Proper ∧ ∀ c ∈ P.clauses, ∀ l ∈ c, P.dom l.var = 1 → l.eq = true)
    ⟨fun h => ⟨h.1, h.2⟩, fun h => ⟨h.toProper, h.pos⟩⟩

instance (P : Problem) : Decidable P.NoDupLits := by unfold NoDupLits; infer_instance

end Problem

end Mvl
