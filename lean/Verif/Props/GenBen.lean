import Verif.Proof.GenBen
import Verif.Props.CLI

/-!
# Properties of the random benchmark generators

C32 (finite domains) and C33 (Boolean), for every sequence of random numbers on which generation ends.
-/

namespace Mvl

variable {S : Type}

/-! ## C32 -/

/-- C32.  Missing: a clause size of 0 (`C32_fails`), and a fixed domain size below 1, for which the file has domain
lines that declare no values. -/
theorem C32_finite_partial {c : CommandLine} {r : Nat → Nat} {fuel : Nat} {t : List Char}
    (hb : c.BOOL_FINITE = true) (hd : c.DRAND = false → 1 ≤ c.DOMAIN_SIZE) (hz : 1 ≤ c.CLAUSE_SIZE)
    (h : genBen c r fuel = .ok t) :
    ∃ P : Problem, t = fileText P.file ∧ (P.numVars : Int) = c.NUM_VAR ∧ (P.clauses.length : Int) = c.NUM_CLAUSE ∧
      (∀ d ∈ P.doms, 1 ≤ d ∧ (c.DRAND = false → (d : Int) = c.DOMAIN_SIZE) ∧
        (c.DRAND = true → 0 < c.DOMAIN_SIZE → (d : Int) < c.DOMAIN_SIZE)) ∧
      (∀ cl ∈ P.clauses, (cl.length : Int) = c.CLAUSE_SIZE ∧ (cl.map Lit.var).Nodup ∧
        ∀ l ∈ cl, P.LitOk l ∧ l.eq = true) ∧
      (c.SAT_UNSAT = true → P.Satisfiable) := by
  unfold genBen at h
  rw [if_pos hb] at h
  obtain ⟨doms, soln, cls, ht, hv, hc, -, hdom, hsol, hcl⟩ := genBenFin_ok (fun e => by have := hd e; omega) h
  have hvar : ∀ cl ∈ cls, ∀ l ∈ cl, ∃ d : Int, doms[l.1.toNat]? = some d ∧ l.2 < d ∧ 0 ≤ l.2 ∧ 0 ≤ l.1 ∧
      (l.1 + 1).toNat = l.1.toNat + 1 := by
    intro cl h1 l h2
    obtain ⟨a, b, k, d, e1, e2⟩ := (hcl cl h1).1.lits l h2
    exact ⟨d, e1, e2, k, a, by omega⟩
  refine ⟨genProblem doms cls, ht, ?_, ?_, ?_, ?_, ?_⟩
  · simp [genProblem, Problem.numVars, hv]
  · simp [genProblem, hc]
  · intro d h1
    obtain ⟨d', h2, rfl⟩ := List.mem_map.1 h1
    have := hdom d' h2
    exact ⟨by omega, fun e => by have := this.2.1 e; omega, fun e e' => by have := this.2.2 e e'; omega⟩
  · intro cl h1
    obtain ⟨cl', h2, rfl⟩ := List.mem_map.1 h1
    refine ⟨?_, ?_, ?_⟩
    · have := (hcl cl' h2).2
      rw [List.length_map]
      omega
    · rw [List.map_map]
      have e : cl'.map (Lit.var ∘ finToLit) = (cl'.map Prod.fst).map fun v => (v + 1).toNat := by
        rw [List.map_map]
        rfl
      rw [e]
      refine List.Pairwise.map _ ?_ ((List.pairwise_iff_forall_sublist.2 fun {a b} hs => ?_ :
        (cl'.map Prod.fst).Pairwise fun a b : Int => a ≠ b ∧ 0 ≤ a ∧ 0 ≤ b))
      · intro a b ⟨h1, h2, h3⟩
        omega
      · have hm : ∀ x ∈ cl'.map Prod.fst, 0 ≤ x := by
          intro x hx
          obtain ⟨l, hl, rfl⟩ := List.mem_map.1 hx
          exact ((hcl cl' h2).1.lits l hl).var
        refine ⟨List.pairwise_iff_forall_sublist.1 (hcl cl' h2).1.nodup hs, hm _ (hs.subset ?_), hm _ (hs.subset ?_)⟩
          <;> simp
    · intro l hl
      obtain ⟨l', hl', rfl⟩ := List.mem_map.1 hl
      obtain ⟨d, e1, e2, e3, e4, e5⟩ := hvar cl' h2 l' hl'
      refine ⟨⟨?_, ?_, ?_⟩, rfl⟩
      · show 1 ≤ (l'.1 + 1).toNat
        omega
      · show (l'.1 + 1).toNat ≤ (doms.map Int.toNat).length
        have := (List.getElem?_eq_some_iff.1 e1).1
        rw [List.length_map]
        omega
      · show l'.2.toNat < (genProblem doms cls).dom (l'.1 + 1).toNat
        rw [e5]
        show l'.2.toNat < (doms.map Int.toNat).getD l'.1.toNat 0
        rw [List.getD_eq_getElem?_getD, List.getElem?_map, e1]
        show l'.2.toNat < d.toNat
        omega
  · intro hsat
    refine ⟨fun v => ((soln[v - 1]?).getD 0).toNat, ?_, ?_⟩
    · intro v h1 h2
      have hlt : v - 1 < doms.length := by
        have : v ≤ (doms.map Int.toNat).length := h2
        rw [List.length_map] at this
        omega
      obtain ⟨k, e1, e2, e3⟩ := hsol (v - 1) _ (List.getElem?_eq_getElem hlt)
      obtain ⟨w, rfl⟩ : ∃ w, v = w + 1 := ⟨v - 1, by omega⟩
      show ((soln[w + 1 - 1]?).getD 0).toNat < (doms.map Int.toNat).getD w 0
      simp only [Nat.add_sub_cancel] at hlt e1 e3 ⊢
      rw [e1, List.getD_eq_getElem?_getD, List.getElem?_map, List.getElem?_eq_getElem hlt]
      show k.toNat < (doms[w]).toNat
      omega
    · intro cl h1
      obtain ⟨cl', h2, rfl⟩ := List.mem_map.1 h1
      have hk := hcl cl' h2
      cases cl' with
      | nil =>
        have := hk.2
        simp only [List.length_nil] at this
        omega
      | cons l ls =>
        have e := hk.1.first hsat l ls rfl
        have e' := (hk.1.lits l List.mem_cons_self).var
        refine ⟨finToLit l, by simp, ?_⟩
        unfold Lit.holds finToLit
        rw [if_pos rfl]
        show ((soln[(l.1 + 1).toNat - 1]?).getD 0).toNat = l.2.toNat
        rw [show (l.1 + 1).toNat - 1 = l.1.toNat by omega, e]
        rfl

/-- Two variables with 3 values, two clauses of size 2. -/
def exGen : CommandLine :=
  { NUM_VAR := 2, NUM_CLAUSE := 2, CLAUSE_SIZE := 2, DOMAIN_SIZE := 3, BOOL_FINITE := true }

/-- Some random numbers. -/
def exRand (i : Nat) : Nat := [1, 5, 1, 3, 1, 0, 2, 0, 1, 2].getD i 0

/-- The hypotheses are met, with a repeated variable drawn twice more. -/
example : genBen exGen exRand 5 = .ok "p cnf 2 2\nd 1 3\nd 2 3\n2=2 1=2 0\n1=1 2=2 0\n".toList := by decide +kernel

/-- With clauses of size 0 the file asked to be satisfiable is not. -/
theorem C32_fails : ∃ (c : CommandLine) (r : Nat → Nat) (P : Problem), c.BOOL_FINITE = true ∧ c.SAT_UNSAT = true ∧
    genBen c r 5 = .ok (fileText P.file) ∧ ¬ P.Satisfiable := by
  refine ⟨{ exGen with CLAUSE_SIZE := 0 }, exRand, ⟨[3, 3], [[], []]⟩, rfl, rfl, by decide +kernel, ?_⟩
  rintro ⟨a, -, h⟩
  obtain ⟨l, hl, -⟩ := h [] (by decide)
  cases hl

/-- Generation of clauses longer than the number of variables never ends. -/
theorem genben_too_long {c : CommandLine} {r : Nat → Nat} {fuel : Nat} {t : List Char}
    (hb : c.BOOL_FINITE = true) (hd : c.DRAND = false → 1 ≤ c.DOMAIN_SIZE) (hc : 1 ≤ c.NUM_CLAUSE)
    (hz : c.NUM_VAR < c.CLAUSE_SIZE) : genBen c r fuel ≠ .ok t := by
  intro h
  have hn : 0 ≤ c.NUM_VAR := by
    unfold genBen at h
    rw [if_pos hb] at h
    obtain ⟨doms, soln, cls, ht, hv, -⟩ := genBenFin_ok (fun e => by have := hd e; omega) h
    omega
  obtain ⟨P, -, h1, h2, -, h3, -⟩ := C32_finite_partial hb hd (by omega) h
  cases hP : P.clauses with
  | nil =>
    rw [hP] at h2
    simp only [List.length_nil] at h2
    omega
  | cons cl cls =>
    obtain ⟨a, b, k⟩ := h3 cl (by rw [hP]; exact List.mem_cons_self)
    have hsub : cl.map Lit.var ⊆ List.range' 1 P.numVars := by
      intro v hv
      obtain ⟨l, hl, rfl⟩ := List.mem_map.1 hv
      have := (k l hl).1
      rw [List.mem_range'_1]
      exact ⟨this.1, by have := this.2.1; omega⟩
    have := List.Nodup.length_le_of_subset b hsub
    rw [List.length_map, List.length_range'] at this
    omega

example : genBen { exGen with CLAUSE_SIZE := 3 } exRand 1000 = .fuel := by decide +kernel

/-- The chronological solver never answers UNSAT on a file asked to be satisfiable with domains of at least two
values. -/
theorem genben_solve {c : CommandLine} {r : Nat → Nat} {fuel fuel' : Nat} {t : List Char}
    (hb : c.BOOL_FINITE = true) (hd : 2 ≤ c.DOMAIN_SIZE) (hr : c.DRAND = false) (hz : 1 ≤ c.CLAUSE_SIZE)
    (hs : c.SAT_UNSAT = true) (h : genBen c r fuel = .ok t) {cfg : Cfg S} (hw : cfg.watch = false)
    (hh : cfg.heur = .BK ∨ cfg.heur = .lazy) :
    ∃ P : Problem, t = fileText P.file ∧ P.WellFormed ∧ P.NoDupLits ∧
      ∀ rep, solve cfg .chrono fuel' P = .ok rep → rep.answer ≠ .UNSAT := by
  obtain ⟨P, h1, h2, h3, h4, h5, h6⟩ := C32_finite_partial hb (fun _ => by omega) hz h
  have hwf : P.WellFormed := by
    refine ⟨?_, ?_, ?_⟩
    · intro d hm
      have := (h4 d hm).2.1 hr
      omega
    · intro cl hcl he
      have := (h5 cl hcl).1
      rw [he] at this
      simp only [List.length_nil] at this
      omega
    · intro cl hcl l hl
      exact ((h5 cl hcl).2.2 l hl).1
  refine ⟨P, h1, hwf, ?_, ?_⟩
  · intro cl hcl
    exact List.Pairwise.of_map Lit.var (fun a b hab e => hab (by rw [e])) (h5 cl hcl).2.1
  · intro rep hrun hu
    exact C02_chrono_unsat hw hh hwf hrun hu (h6 hs)

/-! ## C33 -/

/-- C33, the part that holds: clauses of the requested size without repeated literals over the variables, and a model
when the coin thrown for the first literal of each clause never asks to negate it.  Missing: the other throws, see
`C33_fails`. -/
theorem C33_bool_partial {c : CommandLine} {r : Nat → Nat} {fuel : Nat} {t : List Char}
    (hb : c.BOOL_FINITE = false) (hn : 0 ≤ c.NUM_VAR) (hz : 1 ≤ c.CLAUSE_SIZE) (h : genBen c r fuel = .ok t) :
    ∃ cs : List (List Int),
      t = bFileText (.problem c.NUM_VAR.toNat c.NUM_CLAUSE.toNat :: cs.map .clause) ∧
      (cs.length : Int) = c.NUM_CLAUSE ∧
      (∀ cl ∈ cs, (cl.length : Int) = c.CLAUSE_SIZE ∧ cl.Nodup ∧
        ∀ x ∈ cl, 1 ≤ x.natAbs ∧ (x.natAbs : Int) ≤ c.NUM_VAR) ∧
      (c.SAT_UNSAT = true →
        (∀ i ∈ boolStarts c r fuel (boolSolution r c.NUM_VAR.toNat 1 0).1 c.NUM_CLAUSE.toNat
          (boolSolution r c.NUM_VAR.toNat 1 0).2, r i % 2 = 1) → BSatisfiable cs) := by
  unfold genBen at h
  rw [if_neg (by rw [hb]; exact Bool.false_ne_true)] at h
  obtain ⟨cls, ht, hc, hcl⟩ := genBenBool_ok hn h
  refine ⟨cls, ht, by omega, ?_, ?_⟩
  · intro cl hm
    obtain ⟨⟨i, -, hk⟩, hlen⟩ := hcl cl hm
    exact ⟨by omega, hk.nodup, hk.lits⟩
  · intro hsat hcoin
    have hsol := boolSolution_ok (r := r) (n := c.NUM_VAR.toNat) (x := 1) (i := 0)
    generalize (boolSolution r c.NUM_VAR.toNat 1 0).1 = soln at hsol hcl hcoin
    refine ⟨fun v => decide (0 < (soln[v - 1]?).getD 0), ?_⟩
    intro cl hm
    obtain ⟨⟨i, hi, hk⟩, hlen⟩ := hcl cl hm
    cases cl with
    | nil =>
      simp only [List.length_nil] at hlen
      omega
    | cons x xs =>
      obtain ⟨y, hy, e⟩ := hk.first hsat x xs rfl
      have hco : coin r i = true := by
        unfold coin
        rw [hcoin i hi]
        rfl
      rw [if_pos hco] at e
      subst e
      refine ⟨x, List.mem_cons_self, ?_⟩
      obtain ⟨j, hj⟩ := List.mem_iff_getElem?.1 hy
      have ha := hsol.2 j x hj
      unfold BLitHolds
      dsimp only
      rw [show x.natAbs - 1 = j by omega, hj]
      by_cases hx : 0 < x
      · simp [hx]
      · simp [hx]

/-- The hypotheses are met, with both signs and with all coins of the first literals odd. -/
example : genBen { NUM_VAR := 3, NUM_CLAUSE := 2, CLAUSE_SIZE := 2 } (fun i => [0, 1, 0, 1, 0, 0, 1, 1, 2, 1, 4].getD i 0) 5
      = .ok "p cnf 3 2\n-1 -2 0\n-3 2 0\n".toList ∧
    boolStarts { NUM_VAR := 3, NUM_CLAUSE := 2, CLAUSE_SIZE := 2 } (fun i => [0, 1, 0, 1, 0, 0, 1, 1, 2, 1, 4].getD i 0) 5
      [-1, 2, -3] 2 3 = [3, 7] := by decide +kernel

/-- A file asked to be satisfiable need not be: `1 0` and `-1 0`. -/
theorem C33_fails : ∃ (c : CommandLine) (r : Nat → Nat) (cs : List (List Int)),
    c.BOOL_FINITE = false ∧ c.SAT_UNSAT = true ∧ 1 ≤ c.CLAUSE_SIZE ∧
    genBen c r 5 = .ok (bFileText (.problem 1 2 :: cs.map .clause)) ∧ ¬ BSatisfiable cs := by
  refine ⟨{ NUM_VAR := 1, NUM_CLAUSE := 2, CLAUSE_SIZE := 1 }, fun i => [1, 1, 0, 0, 0].getD i 0, [[1], [-1]], rfl, rfl,
    by decide, by decide +kernel, ?_⟩
  rintro ⟨β, h⟩
  have h1 := h [1] (by decide)
  have h2 := h [-1] (by decide)
  simp [BClauseHolds, BLitHolds] at h1 h2
  rw [h1] at h2
  cases h2

/-- **C33, without `-var`**: the number of variables is then -1, and with no clauses `-genben` writes that number into the
problem line; the file is not DIMACS. -/
theorem C33_no_var (r : Nat → Nat) (fuel : Nat) :
    genBen { NUM_CLAUSE := 0 } r fuel = .ok "p cnf -1 0\n".toList := by
  unfold genBen genBenBool
  rw [if_neg (by decide), if_pos (by decide)]
  rfl

end Mvl
