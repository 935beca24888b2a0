import Verif.Proof.DNC
import Verif.Props.Chrono

/-!
# Properties of `Solver -solvenc` without `-wl`

C04, C05, C06, C18 and the parts of C10, C11, C12, C42 about counter mode.
The reachable states `NReach` are the states at the loop heads of `NonChronoBacktrack` and of
`unitPropagation` within it.
-/

namespace Mvl

variable {S : Type}

theorem run_learn_eq {cfg : Cfg S} {P : Problem} {s0 : St S} (hb : build cfg P = .ok s0) (fuel : Nat) :
    run cfg .learn fuel P = learnLoop cfg fuel s0 cfg.restarts := by
  unfold run; rw [hb]; rfl

/-- What a clause-learning run gives, in one place. -/
theorem run_learn {cfg : Cfg S} (hw : cfg.watch = false) (hs : cfg.ScoreOK) {P : Problem} (hwf : P.Proper)
    (hnd : P.NoDupLits) (fuel : Nat) : (run cfg .learn fuel P).Sat (LPost cfg (NReach cfg P)) := by
  obtain ⟨s0, h1, _⟩ := build_ninv (cfg := cfg) hw hwf hnd
  rw [run_learn_eq h1]
  exact learnLoop_spec (NReach.loopInv hw hs hwf hnd) fuel s0 _ (.start h1)

/-- Does a run finish with a result that passes a test (for examples). -/
def Res.passes {α : Type} (p : α → Bool) : Res α → Bool
  | .ok a => p a
  | _ => false

theorem exCfg_score (h : Heuristic) (w : Bool) : (exCfg h w).ScoreOK := ⟨_, ScoreArith.dyadic_good⟩

/-- Four variables over {0,1,2}; the first must not be 0, although that value satisfies the most clauses. -/
def exSat3 : Problem :=
  ⟨[3, 3, 3, 3], [[⟨1, 0, true⟩, ⟨2, 0, true⟩], [⟨1, 0, true⟩, ⟨4, 0, true⟩], [⟨1, 0, true⟩, ⟨2, 1, false⟩],
    [⟨1, 0, true⟩, ⟨4, 1, false⟩], [⟨1, 0, false⟩, ⟨3, 0, true⟩], [⟨1, 0, false⟩, ⟨3, 0, false⟩]]⟩

/-- Four variables over {0,1,2}, pairwise different: unsatisfiable. -/
def exPigeon : Problem :=
  ⟨[3, 3, 3, 3], (List.range 3).flatMap fun k =>
    [[⟨1, k, false⟩, ⟨2, k, false⟩], [⟨1, k, false⟩, ⟨3, k, false⟩], [⟨1, k, false⟩, ⟨4, k, false⟩],
     [⟨2, k, false⟩, ⟨3, k, false⟩], [⟨2, k, false⟩, ⟨4, k, false⟩], [⟨3, k, false⟩, ⟨4, k, false⟩]]⟩

example : exSat3.WellFormed ∧ exSat3.NoDupLits ∧ exPigeon.WellFormed ∧ exPigeon.NoDupLits := by decide

/-- Where no decision is found every clause in the list is satisfied, the shared ones included: a shared clause has a
single literal, which is assigned, and is true because the file implies it. -/
theorem DNInv.all_sat {cfg : Cfg S} (hw : cfg.watch = false) (hs : cfg.ScoreOK) {P : Problem} {G : Nat → Prop} {s : St S}
    {rc : Int} (h : DNInv cfg P G s rc) (hc : s.conflict = false) (hu : s.units = []) (hd : decideNC cfg s = none) :
    (∃ a, Completes P.widen s a) ∧ (∀ a, Completes P.widen s a → P.widen.Solves a) ∧ ∀ id, id < s.ncl → CSat s.asg (s.cl id).lits := by
  have hno : ∀ id, id < s.ncl → (s.cl id).level = -1 → ∀ l ∈ (s.cl id).lits, ¬ LU s.asg l := by
    rcases chooseNC_none hw hs h.scores (decideNC_none hd) with hn | hn
    · intro id hid _ l hl
      exact no_open h.inv.base (h.inv.vars hc) hn l (h.inv.rng id hid l hl)
    · exact (lazyChoose_spec s).1 hn
  have hgood := h.inv.choose_none hc hu hno
  have hcomp := completion_of h.inv.base (h.inv.vars hc) h.linv.nv h.linv.dom
  have hsol : ∀ a, Completes P.widen s a → P.widen.Solves a := by
    intro a ha
    refine ⟨ha.1, ?_⟩
    intro c hcm
    obtain ⟨i, hi⟩ := List.getElem?_of_mem hcm
    obtain ⟨k1, k2, k3⟩ := h.linv.keep i c hi
    have hag : Agrees a s.asg := ha.2
    have := hag.clause (hgood i k1 k2)
    rw [k3] at this; exact this
  refine ⟨hcomp, hsol, ?_⟩
  intro id hid
  by_cases hl : (s.cl id).level = -1
  · obtain ⟨a, ha⟩ := hcomp
    obtain ⟨x, hx, hxh⟩ := (h.linv.sound a (hsol a ha)).2 id hid
    refine ⟨x, hx, ?_⟩
    rcases lit_cases s.asg x with h1 | h1 | h1
    · exact h1
    · have hag : Agrees a s.asg := ha.2
      exact absurd hxh (hag.of_LF h1)
    · exact absurd h1 (hno id hid hl x hx)
  · exact (h.inv.cnt.mark id hid).sat hl

/-- **C04**, **C19.** When `-solvenc` prints SAT, every completion of the assignment it holds satisfies the file with its
one-value domains raised to two values, and there is one. -/
theorem C04_learn_sat_proper {cfg : Cfg S} (hw : cfg.watch = false) (hs : cfg.ScoreOK)
    {P : Problem} (hwf : P.Proper) {fuel : Nat} {rep : Report}
    (hrun : solve cfg .learn fuel P = .ok rep) (hans : rep.answer = .SAT) :
    ∃ s, run cfg .learn fuel P = .ok (0, s) ∧ (∃ a, Completes P.widen s a) ∧
      ∀ a, Completes P.widen s a → P.widen.Solves a := by
  obtain ⟨r, s, h1, rfl⟩ := solve_eq_ok.1 hrun
  have hr := report_sat.1 hans
  subst hr
  have hpost := run_learn_safe hw hs hwf fuel _ h1
  refine ⟨s, h1, ?_⟩
  cases hpost with
  | sat s1 rc hre hc hu hd =>
    obtain ⟨G, hn⟩ := hre.dninv hw hs hwf
    obtain ⟨⟨a, ha⟩, h2, _⟩ := hn.all_sat hw hs hc hu hd
    have hasg : (chooseEffect cfg s1).asg = s1.asg := by
      obtain ⟨u, e⟩ := chooseEffect_eq cfg s1; rw [e]
    exact ⟨⟨a, ha.1, by rw [hasg]; exact ha.2⟩, fun a ha => h2 a ⟨ha.1, by rw [← hasg]; exact ha.2⟩⟩

/-- **C04.** When `-solvenc` prints SAT, every completion of the assignment it holds satisfies the file, and there is
one. -/
theorem C04_learn_sat {cfg : Cfg S} (hw : cfg.watch = false) (hs : cfg.ScoreOK)
    {P : Problem} (hwf : P.WellFormed) {fuel : Nat} {rep : Report}
    (hrun : solve cfg .learn fuel P = .ok rep) (hans : rep.answer = .SAT) :
    ∃ s, run cfg .learn fuel P = .ok (0, s) ∧ (∃ a, Completes P s a) ∧ ∀ a, Completes P s a → P.Solves a := by
  have h := C04_learn_sat_proper hw hs hwf.proper hrun hans
  rw [hwf.widen] at h
  exact h

example : ∃ rep, solve (exCfg .BK false) .learn 60 exSat3 = .ok rep ∧ rep.answer = .SAT ∧ 0 < rep.backtracks :=
  ⟨_, rfl, by decide +kernel⟩

/-- A satisfiable file with a repeated literal on which the search learns clauses. -/
def exDupLearn : Problem :=
  ⟨[3, 2], [[⟨2, 1, true⟩, ⟨1, 0, true⟩], [⟨1, 0, false⟩, ⟨1, 2, false⟩],
    [⟨2, 1, false⟩, ⟨2, 1, false⟩, ⟨2, 1, false⟩, ⟨1, 1, false⟩, ⟨1, 0, true⟩], [⟨1, 1, true⟩, ⟨1, 1, true⟩, ⟨2, 1, false⟩]]⟩

example : exDupLearn.WellFormed ∧ ¬ exDupLearn.NoDupLits ∧
    (solve { exCfg .lazy false with restarts := 1 } .learn 60 exDupLearn).passes
      (fun rep => rep.answer == .SAT && rep.backtracks == 2 && rep.verified == some true) = true := by decide +kernel

/-- An unsatisfiable file with repeated literals. -/
def exDupNo : Problem :=
  ⟨[3, 3, 3], [[⟨3, 0, true⟩], [⟨1, 2, true⟩], [⟨2, 2, true⟩, ⟨3, 0, false⟩, ⟨1, 0, true⟩, ⟨2, 2, true⟩],
    [⟨2, 0, true⟩, ⟨2, 1, false⟩, ⟨2, 1, false⟩], [⟨2, 2, false⟩, ⟨2, 1, true⟩]]⟩

/-- **C05**, **C19.** When `-solvenc` prints UNSAT, the file has no satisfying assignment, not even with its one-value
domains raised to two values. -/
theorem C05_learn_unsat_proper {cfg : Cfg S} (hw : cfg.watch = false) (hs : cfg.ScoreOK)
    {P : Problem} (hwf : P.Proper) {fuel : Nat} {rep : Report}
    (hrun : solve cfg .learn fuel P = .ok rep) (hans : rep.answer = .UNSAT) : ¬ P.widen.Satisfiable := by
  obtain ⟨r, s, h1, rfl⟩ := solve_eq_ok.1 hrun
  have hpost := run_learn_safe hw hs hwf fuel _ h1
  cases hpost with
  | sat => simp [report] at hans
  | timeout => simp [report] at hans
  | unsat s1 rc hre hc hL =>
    obtain ⟨G, hn⟩ := hre.dninv hw hs hwf
    rintro ⟨a, ha⟩
    have e0 : s1.tr.asgAt 0 = s1.asg := Trail.asgAt_of_le hn.inv.base (by show s1.LEVEL ≤ 0; omega)
    have hag := hn.linv.lev0 a ha
    rw [e0] at hag
    obtain ⟨id, hid, _, hf⟩ := hn.inv.cnt.conf hc
    obtain ⟨x, hx, hxh⟩ := (hn.linv.sound a ha).2 id hid
    exact hag.of_LF (hf x hx) hxh

/-- **C05.** When `-solvenc` prints UNSAT, the file has no satisfying assignment. -/
theorem C05_learn_unsat {cfg : Cfg S} (hw : cfg.watch = false) (hs : cfg.ScoreOK)
    {P : Problem} (hwf : P.Proper) {fuel : Nat} {rep : Report}
    (hrun : solve cfg .learn fuel P = .ok rep) (hans : rep.answer = .UNSAT) : ¬ P.Satisfiable :=
  fun ⟨a, ha⟩ => C05_learn_unsat_proper hw hs hwf hrun hans ⟨a, ha.widen⟩

example : (solve (exCfg .VSIDS false) .learn 200 exPigeon).passes
    (fun rep => rep.answer == .UNSAT && decide (1 < rep.backtracks)) = true := by decide +kernel
example : exDupNo.WellFormed ∧ ¬ exDupNo.NoDupLits ∧ (solve (exCfg .BK false) .learn 60 exDupNo).passes
    (fun rep => rep.answer == .UNSAT && rep.backtracks == 2) = true := by decide +kernel

/-- **C11**, `-solvenc`: TIMEOUT is printed only if one of the clock readings made was late. -/
theorem C11_learn_timeout {cfg : Cfg S} (hw : cfg.watch = false) (hs : cfg.ScoreOK)
    {P : Problem} (hwf : P.Proper) {fuel : Nat} {rep : Report}
    (hrun : solve cfg .learn fuel P = .ok rep) (hans : rep.answer = .TIMEOUT) :
    ∃ r s k, run cfg .learn fuel P = .ok (r, s) ∧ k < s.ticks ∧ cfg.late k = true := by
  obtain ⟨r, s, h1, rfl⟩ := solve_eq_ok.1 hrun
  have hpost := run_learn_safe hw hs hwf fuel _ h1
  refine ⟨r, s, ?_⟩
  cases hpost with
  | sat => simp [report] at hans
  | timeout s1 rc hre hl => exact ⟨s1.ticks, h1, Nat.lt_succ_self _, hl⟩
  | unsat => simp [report] at hans

example : ∃ rep, solve { exCfg .BK false with late := fun k => decide (2 ≤ k) } .learn 60 exPigeon = .ok rep ∧
    rep.answer = .TIMEOUT := ⟨_, rfl, by decide +kernel⟩

/-- **C06**, **C19.** With a clock that is never late, `-solvenc` stops on duplicate-free files.  It answers SAT exactly
when the file with its one-value domains raised to two values is satisfiable, and UNSAT otherwise. -/
theorem C06_learn_decides_proper {cfg : Cfg S} (hw : cfg.watch = false) (hs : cfg.ScoreOK)
    (hclock : ∀ k, cfg.late k = false) {P : Problem} (hwf : P.Proper) (hnd : P.NoDupLits) :
    ∃ rep f0, (∀ fuel, f0 ≤ fuel → solve cfg .learn fuel P = .ok rep) ∧
      (rep.answer = .SAT ↔ P.widen.Satisfiable) ∧ (rep.answer = .UNSAT ↔ ¬ P.widen.Satisfiable) := by
  obtain ⟨s0, hb, _⟩ := build_ninv (cfg := cfg) hw hwf hnd
  obtain ⟨p, f0, hp⟩ := learnLoop_term (NReach.loopInv hw hs hwf hnd) (NReach.loopTerm hw hs hwf hnd) _ s0 cfg.restarts
    (Nat.le_refl _) (.start hb)
  have hall : ∀ fuel, f0 ≤ fuel → solve cfg .learn fuel P = .ok (report p.1 p.2) := by
    intro fuel hf
    rw [solve_eq_ok]
    exact ⟨p.1, p.2, by rw [run_learn_eq hb]; exact hp fuel hf, rfl⟩
  have hS : (report p.1 p.2).answer = .SAT → P.widen.Satisfiable := by
    intro h
    obtain ⟨s, _, ⟨a, ha⟩, h2⟩ := C04_learn_sat_proper hw hs hwf (hall f0 (Nat.le_refl _)) h
    exact ⟨a, h2 a ha⟩
  have hU : (report p.1 p.2).answer = .UNSAT → ¬ P.widen.Satisfiable :=
    fun h => C05_learn_unsat_proper hw hs hwf (hall f0 (Nat.le_refl _)) h
  have hT : (report p.1 p.2).answer ≠ .TIMEOUT := by
    intro h
    obtain ⟨_, _, k, _, _, hk⟩ := C11_learn_timeout hw hs hwf (hall f0 (Nat.le_refl _)) h
    rw [hclock k] at hk; simp at hk
  refine ⟨_, f0, hall, ⟨hS, ?_⟩, ⟨hU, ?_⟩⟩
  · intro hs'
    cases h : (report p.1 p.2).answer with
    | SAT => rfl
    | TIMEOUT => exact absurd h hT
    | UNSAT => exact absurd hs' (hU h)
  · intro hs'
    cases h : (report p.1 p.2).answer with
    | SAT => exact absurd (hS h) hs'
    | TIMEOUT => exact absurd h hT
    | UNSAT => rfl

/-- **C06.** With a clock that is never late, `-solvenc` stops on duplicate-free files, and answers SAT exactly on
satisfiable files and UNSAT exactly on unsatisfiable ones. -/
theorem C06_learn_decides {cfg : Cfg S} (hw : cfg.watch = false) (hs : cfg.ScoreOK)
    (hclock : ∀ k, cfg.late k = false) {P : Problem} (hwf : P.WellFormed) (hnd : P.NoDupLits) :
    ∃ rep f0, (∀ fuel, f0 ≤ fuel → solve cfg .learn fuel P = .ok rep) ∧
      (rep.answer = .SAT ↔ P.Satisfiable) ∧ (rep.answer = .UNSAT ↔ ¬ P.Satisfiable) := by
  have h := C06_learn_decides_proper hw hs hclock hwf.proper hnd
  rw [hwf.widen] at h
  exact h

example : (exCfg .lazy false).watch = false ∧ (exCfg .lazy false).ScoreOK ∧ (∀ k, (exCfg .lazy false).late k = false) ∧
    exPigeon.WellFormed ∧ exPigeon.NoDupLits := ⟨rfl, exCfg_score _ _, fun _ => rfl, by decide, by decide⟩

/-- **C10**, `-solvenc`: after SAT the self-check succeeds, on the learned clauses too. -/
theorem C10_learn_verified {cfg : Cfg S} (hw : cfg.watch = false) (hs : cfg.ScoreOK)
    {P : Problem} (hwf : P.Proper) {fuel : Nat} {rep : Report}
    (hrun : solve cfg .learn fuel P = .ok rep) (hans : rep.answer = .SAT) : rep.verified = some true := by
  obtain ⟨r, s, h1, rfl⟩ := solve_eq_ok.1 hrun
  have hr := report_sat.1 hans
  subst hr
  have hpost := run_learn_safe hw hs hwf fuel _ h1
  cases hpost with
  | sat s1 rc hre hc hu hd =>
    obtain ⟨G, hn⟩ := hre.dninv hw hs hwf
    have hsat := (hn.all_sat hw hs hc hu hd).2.2
    obtain ⟨u, e⟩ := chooseEffect_eq cfg s1
    show some (verifyModel (chooseEffect cfg s1)) = some true
    rw [e, verifyModel_of_csat (s := { s1 with unitClause := u }) hsat]

example : (solve (exCfg .lazy false) .learn 60 exSat3).passes
    (fun rep => rep.answer == .SAT && rep.verified == some true && decide (exSat3.clauses.length < rep.clauses)) = true := by
  decide +kernel

/-- One step of the search, to compute reachable states for the examples. -/
def ncStep (cfg : Cfg S) (p : St S × Int) : St S × Int :=
  if p.1.conflict then
    if p.1.LEVEL = 0 then p else
      match conflictNC cfg 50 p.1 p.2 with
      | .ok q => q
      | _ => p
  else if p.1.units ≠ [] then (unitStep cfg p.1, p.2)
  else match decideNC cfg p.1 with
    | some s => (s, p.2)
    | none => p

theorem ncStep_reach {cfg : Cfg S} {P : Problem} {p : St S × Int} (h : NReach cfg P p.1 p.2) :
    NReach cfg P (ncStep cfg p).1 (ncStep cfg p).2 := by
  unfold ncStep
  by_cases hc : p.1.conflict = true
  · rw [if_pos hc]
    by_cases hL : p.1.LEVEL = 0
    · rw [if_pos hL]; exact h
    · rw [if_neg hL]
      split
      · rename_i q hq; exact .conf h hc hL hq
      · exact h
  · rw [if_neg hc]
    have hc' := Bool.eq_false_iff.2 hc
    by_cases hu : p.1.units = []
    · rw [if_neg (by simp [hu])]
      split
      · rename_i s hs; exact .dec h hc' hu hs
      · exact h
    · rw [if_pos hu]; exact .prop h hc' hu

/-- The state after `n` steps. -/
def ncState (cfg : Cfg S) (P : Problem) (n : Nat) : Res (St S × Int) :=
  match build cfg P with
  | .ok s => .ok (n.repeat (ncStep cfg) (s, cfg.restarts))
  | .ub => .ub
  | .fuel => .fuel

theorem ncState_reach {cfg : Cfg S} {P : Problem} {n : Nat} {p : St S × Int} (h : ncState cfg P n = .ok p) :
    NReach cfg P p.1 p.2 := by
  unfold ncState at h
  split at h
  · rename_i s hs
    cases h
    induction n with
    | zero => exact .start hs
    | succ n ih => exact ncStep_reach ih
  · cases h
  · cases h

theorem Res.of_passes {α : Type} {r : Res α} {q : α → Bool} (h : r.passes q = true) : ∃ a, r = .ok a ∧ q a = true := by
  cases r with
  | ok a => exact ⟨a, rfl, h⟩
  | ub => simp [Res.passes] at h
  | fuel => simp [Res.passes] at h

/-- A reachable state with a conflict at level 1 that can be handled. -/
theorem exConflict : ∃ (s : St (Option (Nat × Nat))) (rc : Int) (q : St (Option (Nat × Nat)) × Int),
    NReach (exCfg .BK false) exSat3 s rc ∧ s.conflict = true ∧ s.LEVEL ≠ 0 ∧
    conflictNC (exCfg .BK false) 50 s rc = .ok q := by
  have : (ncState (exCfg .BK false) exSat3 2).passes (fun p => p.1.conflict && decide (p.1.LEVEL ≠ 0) &&
    (conflictNC (exCfg .BK false) 50 p.1 p.2).passes fun _ => true) = true := by decide +kernel
  obtain ⟨p, h1, h2⟩ := Res.of_passes this
  simp only [Bool.and_eq_true, decide_eq_true_eq] at h2
  obtain ⟨q, h3, _⟩ := Res.of_passes h2.2
  exact ⟨p.1, p.2, q, ncState_reach h1, h2.1.1, h2.1.2, h3⟩

/-- **C12**, `-solvenc`: in every reachable state the clause list starts with the clauses of the file, and every
clause in it is satisfied by every satisfying assignment of the file. -/
theorem C12_learn_sound {cfg : Cfg S} (hw : cfg.watch = false) (hs : cfg.ScoreOK)
    {P : Problem} (hwf : P.Proper) {s : St S} {rc : Int} (h : NReach cfg P s rc) :
    (∀ (i : Nat) (c : List Lit), P.clauses[i]? = some c → i < s.ncl ∧ (s.cl i).lits = c) ∧
    ∀ a, P.Solves a → ∀ id, id < s.ncl → clauseHolds a (s.cl id).lits := by
  obtain ⟨G, hn⟩ := h.dninv hw hs hwf
  exact ⟨fun i c hc => ⟨(hn.linv.keep i c hc).1, (hn.linv.keep i c hc).2.2⟩, fun a ha => (hn.linv.sound a ha.widen).2⟩

example : ∃ (s : St (Option (Nat × Nat))) (rc : Int), NReach (exCfg .BK false) exSat3 s rc ∧
    exSat3.clauses.length < s.ncl := by
  obtain ⟨p, h1, h2⟩ := Res.of_passes (r := ncState (exCfg .BK false) exSat3 4)
    (q := fun p => decide (exSat3.clauses.length < p.1.ncl)) (by decide +kernel)
  exact ⟨p.1, p.2, ncState_reach h1, of_decide_eq_true h2⟩

/-- A run that ends has gone through reachable states only: its final state differs from one in the clock
count and the recorded reason alone. -/
theorem run_learn_reach {cfg : Cfg S} (hw : cfg.watch = false) (hs : cfg.ScoreOK) {P : Problem} (hwf : P.Proper)
    {fuel : Nat} {r : Nat} {s : St S} (h : run cfg .learn fuel P = .ok (r, s)) :
    ∃ s1 rc, NReach cfg P s1 rc ∧ ∃ u n, s = { s1 with unitClause := u, ticks := n } := by
  have hpost := run_learn_safe hw hs hwf fuel _ h
  cases hpost with
  | sat s1 rc hre =>
    obtain ⟨u, e⟩ := chooseEffect_eq cfg s1
    exact ⟨s1, rc, hre, u, s1.ticks, by rw [e]⟩
  | timeout s1 rc hre => exact ⟨s1, rc, hre, s1.unitClause, s1.ticks + 1, rfl⟩
  | unsat s1 rc hre => exact ⟨s1, rc, hre, s1.unitClause, s1.ticks + 1, rfl⟩

/-- **C42**, `-solvenc`: handling a conflict adds exactly one clause, non-empty, with all literals false in the state
in which the conflict was found; exactly one of them was assigned at that state's level, and afterwards the solver is at
a lower level. -/
theorem C42_learn_false {cfg : Cfg S} (hw : cfg.watch = false) (hs : cfg.ScoreOK)
    {P : Problem} (hwf : P.Proper) (hnd : P.NoDupLits) {s s' : St S} {rc rc' : Int} {f : Nat} (h : NReach cfg P s rc)
    (hc : s.conflict = true) (hL : s.LEVEL ≠ 0) (hrun : conflictNC cfg f s rc = .ok (s', rc')) :
    s'.ncl = s.ncl + 1 ∧ (s'.cl s.ncl).lits ≠ [] ∧
    (∀ l ∈ (s'.cl s.ncl).lits, s.asg l.var l.val = (if l.eq then .ne else .eq)) ∧
    (∃ x ∈ (s'.cl s.ncl).lits, ∀ y ∈ (s'.cl s.ncl).lits, s.lvl y.var y.val = s.LEVEL ↔ y = x) ∧
    s'.LEVEL < s.LEVEL := by
  have := (h.ninv hw hs hwf hnd).conf hw hc hL f
  rw [hrun] at this
  obtain ⟨_, hb, _⟩ := this
  obtain ⟨id, hid, _, c, hl, hadd⟩ := hb.confl
  rw [hadd.new]
  obtain ⟨x, hx, hxl, hu⟩ := hl.unique
  refine ⟨hadd.ncl, ?_, ?_, ⟨x, hx, ?_⟩, hb.level.2⟩
  · intro he; rw [he] at hx; simp at hx
  · intro l hlm
    have : LF s.asg l := hl.confl.fals l hlm
    unfold LF at this
    rw [this]; cases l.eq <;> rfl
  · intro y hy
    constructor
    · intro hyl
      apply Classical.byContradiction
      intro hne
      exact hu y hy hne hyl
    · rintro rfl; exact hxl

example : ∃ (s s' : St (Option (Nat × Nat))) (rc rc' : Int), NReach (exCfg .BK false) exSat3 s rc ∧ s.conflict = true ∧
    s.LEVEL ≠ 0 ∧ conflictNC (exCfg .BK false) 50 s rc = .ok (s', rc') := by
  obtain ⟨s, rc, q, h⟩ := exConflict
  exact ⟨s, q.1, rc, q.2, h⟩

/-- **C18**, clause learning: no run on a duplicate-free file touches data that does not exist. -/
theorem C18_learn_no_ub {cfg : Cfg S} (hw : cfg.watch = false) (hs : cfg.ScoreOK) {P : Problem} (hwf : P.Proper)
    (hnd : P.NoDupLits) (fuel : Nat) : solve cfg .learn fuel P ≠ .ub := by
  have hpost := run_learn hw hs hwf hnd fuel
  unfold solve
  cases h : run cfg .learn fuel P with
  | ok p => simp
  | ub => rw [h] at hpost; exact absurd hpost (by simp [Res.Sat])
  | fuel => simp

/-- One variable; the second clause repeats its literal. -/
def exDupRead : Problem :=
  ⟨[3], [[⟨1, 1, false⟩, ⟨1, 0, true⟩], [⟨1, 2, true⟩, ⟨1, 2, true⟩], [⟨1, 1, true⟩, ⟨1, 2, false⟩]]⟩

/-- **C18 needs the restriction**: on a file with a repeated literal the analysis can reach a literal that has no reason
clause and read outside its arrays. -/
theorem C18_dup_fails : exDupRead.WellFormed ∧ ¬ exDupRead.NoDupLits ∧
    solve (exCfg .lazy false) .learn 60 exDupRead = .ub := by
  decide +kernel

/-- **C18**, chronological search (duplicates allowed). -/
theorem C18_chrono_no_ub {cfg : Cfg S} (hw : cfg.watch = false) (hh : cfg.heur = .BK ∨ cfg.heur = .lazy)
    {P : Problem} (hwf : P.Proper) (fuel : Nat) : solve cfg .chrono fuel P ≠ .ub := by
  obtain ⟨_, _, _, _, hpost⟩ := run_chrono hw hh hwf fuel
  unfold solve
  cases h : run cfg .chrono fuel P with
  | ok p => simp
  | ub => rw [h] at hpost; exact absurd hpost (by simp [Res.Sat])
  | fuel => simp

end Mvl
