import Verif.Proof.WSound
import Verif.Props.Heur
import Verif.Props.Counts

/-!
# Properties of `Solver -solvenc -wl`

C07, C08, C48 to C53 and the parts of C09, C10, C12, C42 about watched literals.  The reachable states
`WReach` are the states at the loop heads of `WatchedLiterals` and of `WatchedUnitPropagation` within it.
-/

namespace Mvl

variable {S : Type}

/-- What a run with watched literals gives, in one place. -/
theorem run_watch {cfg : Cfg S} (hw : cfg.watch = true) (hs : cfg.ScoreOK) {P : Problem} (hwf : P.Proper)
    (hnd : P.NoDupLits) (fuel : Nat) : (run cfg .learn fuel P).Sat (LPost cfg (WReach cfg P)) := by
  obtain ⟨s0, h1, _⟩ := build_vinv (cfg := cfg) hw hwf hnd
  rw [run_learn_eq h1]
  exact learnLoop_spec (WReach.loopInv hw hs hwf hnd) fuel s0 _ (.start h1)

/-- **C07**, **C19**, for files whose clauses repeat no literal: when `-solvenc -wl` prints SAT, every completion of the
assignment it holds satisfies the file with its one-value domains raised to two values, and there is one. -/
theorem C07_watch_sat_proper_partial {cfg : Cfg S} (hw : cfg.watch = true) (hh : cfg.heur ≠ .BK) (hs : cfg.ScoreOK)
    {P : Problem} (hwf : P.Proper) (hnd : P.NoDupLits) {fuel : Nat} {rep : Report}
    (hrun : solve cfg .learn fuel P = .ok rep) (hans : rep.answer = .SAT) :
    ∃ s, run cfg .learn fuel P = .ok (0, s) ∧ (∃ a, Completes P.widen s a) ∧
      ∀ a, Completes P.widen s a → P.widen.Solves a := by
  obtain ⟨r, s, h1, rfl⟩ := solve_eq_ok.1 hrun
  have hr := report_sat.1 hans
  subst hr
  have hpost := run_watch hw hs hwf hnd fuel
  rw [h1] at hpost
  refine ⟨s, h1, ?_⟩
  cases hpost with
  | sat s1 rc hre hc hu hd =>
    have hn := hre.vinv hw hs hwf hnd
    have hsat := hn.inv.choose_none hc hu (chooseWL_none hw hh hs hn.scores (decideNC_none hd))
    have hasg : (chooseEffect cfg s1).asg = s1.asg := by
      obtain ⟨u, e⟩ := chooseEffect_eq cfg s1; rw [e]
    obtain ⟨a, ha⟩ := completion_of hn.inv.base (hn.inv.vars hc) hn.linv.nv hn.linv.dom
    refine ⟨⟨a, ha.1, by rw [hasg]; exact ha.2⟩, ?_⟩
    intro a ha
    refine ⟨ha.1, ?_⟩
    intro c hcm
    obtain ⟨i, hi⟩ := List.getElem?_of_mem hcm
    obtain ⟨k1, k2⟩ := hn.linv.keep i c hi
    have hag : Agrees a s1.asg := by rw [← hasg]; exact ha.2
    have := hag.clause (hsat i k1)
    rw [k2] at this; exact this

/-- **C07**, for files whose clauses repeat no literal (with repetitions it fails, see `C07_dup_fails`): when
`-solvenc -wl` prints SAT, every completion of the assignment it holds satisfies the file, and there is one. -/
theorem C07_watch_sat_partial {cfg : Cfg S} (hw : cfg.watch = true) (hh : cfg.heur ≠ .BK) (hs : cfg.ScoreOK)
    {P : Problem} (hwf : P.WellFormed) (hnd : P.NoDupLits) {fuel : Nat} {rep : Report}
    (hrun : solve cfg .learn fuel P = .ok rep) (hans : rep.answer = .SAT) :
    ∃ s, run cfg .learn fuel P = .ok (0, s) ∧ (∃ a, Completes P s a) ∧ ∀ a, Completes P s a → P.Solves a := by
  have h := C07_watch_sat_proper_partial hw hh hs hwf.proper hnd hrun hans
  rw [hwf.widen] at h
  exact h

example : (exCfg .VSIDS true).watch = true ∧ (exCfg .VSIDS true).heur ≠ .BK ∧ exSat3.WellFormed ∧ exSat3.NoDupLits ∧
    (solve (exCfg .VSIDS true) .learn 60 exSat3).passes
      (fun rep => rep.answer == .SAT && decide (0 < rep.backtracks)) = true := by decide +kernel

/-- **C08**, **C19**, for files whose clauses repeat no literal: when `-solvenc -wl` prints UNSAT, the file has no
satisfying assignment, not even with its one-value domains raised to two values. -/
theorem C08_watch_unsat_proper_partial {cfg : Cfg S} (hw : cfg.watch = true) (hs : cfg.ScoreOK)
    {P : Problem} (hwf : P.Proper) (hnd : P.NoDupLits) {fuel : Nat} {rep : Report}
    (hrun : solve cfg .learn fuel P = .ok rep) (hans : rep.answer = .UNSAT) : ¬ P.widen.Satisfiable := by
  obtain ⟨r, s, h1, rfl⟩ := solve_eq_ok.1 hrun
  have hpost := run_watch hw hs hwf hnd fuel
  rw [h1] at hpost
  cases hpost with
  | sat => simp [report] at hans
  | timeout => simp [report] at hans
  | unsat s1 rc hre hc hL =>
    have hn := hre.vinv hw hs hwf hnd
    rintro ⟨a, ha⟩
    apply hn.inv.conflict_noModel hc (hn.linv.sound a ha)
    have e0 : s1.tr.asgAt 0 = s1.asg := Trail.asgAt_of_le hn.inv.base (by show s1.LEVEL ≤ 0; omega)
    rw [← e0]; exact hn.linv.lev0 a ha

/-- **C08**, for files whose clauses repeat no literal (with repetitions it fails, see `C08_dup_fails`): when
`-solvenc -wl` prints UNSAT, the file has no satisfying assignment. -/
theorem C08_watch_unsat_partial {cfg : Cfg S} (hw : cfg.watch = true) (hs : cfg.ScoreOK)
    {P : Problem} (hwf : P.Proper) (hnd : P.NoDupLits) {fuel : Nat} {rep : Report}
    (hrun : solve cfg .learn fuel P = .ok rep) (hans : rep.answer = .UNSAT) : ¬ P.Satisfiable :=
  fun ⟨a, ha⟩ => C08_watch_unsat_proper_partial hw hs hwf hnd hrun hans ⟨a, ha.widen⟩

example : exPigeon.WellFormed ∧ exPigeon.NoDupLits ∧ (solve (exCfg .lazy true) .learn 200 exPigeon).passes
    (fun rep => rep.answer == .UNSAT && decide (1 < rep.backtracks)) = true := by decide +kernel

/-- **C48**, **C19.** With a clock that is never late, `-solvenc -wl` with a heuristic the program can have together with
it stops on duplicate-free files.  It answers SAT exactly when the file with its one-value domains raised to two values is
satisfiable, and UNSAT otherwise. -/
theorem C48_watch_decides_proper {cfg : Cfg S} (hw : cfg.watch = true) (hh : cfg.heur ≠ .BK) (hs : cfg.ScoreOK)
    (hclock : ∀ k, cfg.late k = false) {P : Problem} (hwf : P.Proper) (hnd : P.NoDupLits) :
    ∃ rep f0, (∀ fuel, f0 ≤ fuel → solve cfg .learn fuel P = .ok rep) ∧
      (rep.answer = .SAT ↔ P.widen.Satisfiable) ∧ (rep.answer = .UNSAT ↔ ¬ P.widen.Satisfiable) := by
  obtain ⟨s0, hb, _⟩ := build_vinv (cfg := cfg) hw hwf hnd
  obtain ⟨p, f0, hp⟩ := learnLoop_term (WReach.loopInv hw hs hwf hnd) (WReach.loopTerm hw hs hwf hnd) _ s0 cfg.restarts
    (Nat.le_refl _) (.start hb)
  have hall : ∀ fuel, f0 ≤ fuel → solve cfg .learn fuel P = .ok (report p.1 p.2) := by
    intro fuel hf
    rw [solve_eq_ok]
    exact ⟨p.1, p.2, by rw [run_learn_eq hb]; exact hp fuel hf, rfl⟩
  have hS : (report p.1 p.2).answer = .SAT → P.widen.Satisfiable := by
    intro h
    obtain ⟨s, _, ⟨a, ha⟩, h2⟩ := C07_watch_sat_proper_partial hw hh hs hwf hnd (hall f0 (Nat.le_refl _)) h
    exact ⟨a, h2 a ha⟩
  have hU : (report p.1 p.2).answer = .UNSAT → ¬ P.widen.Satisfiable :=
    fun h => C08_watch_unsat_proper_partial hw hs hwf hnd (hall f0 (Nat.le_refl _)) h
  have hT : (report p.1 p.2).answer ≠ .TIMEOUT := by
    intro h
    have hpost := run_watch hw hs hwf hnd f0
    rw [run_learn_eq hb, hp f0 (Nat.le_refl _)] at hpost
    have h1 := report_timeout h
    obtain ⟨r, s⟩ := p
    dsimp only at h1
    subst h1
    cases hpost with
    | timeout s1 rc _ hl => rw [hclock] at hl; simp at hl
  refine ⟨_, f0, hall, ⟨hS, ?_⟩, ⟨hU, ?_⟩⟩
  · intro hs'
    cases h : (report p.1 p.2).answer with
    | SAT => rfl
    | TIMEOUT => exact absurd h hT
    | UNSAT => exact absurd hs' (hU h)
  · intro hs'
    cases h : (report p.1 p.2).answer with
    | SAT => exact absurd (hS h) hs'
    | TIMEOUT => exact absurd h hT
    | UNSAT => rfl

/-- **C48.** With a clock that is never late, `-solvenc -wl` with a heuristic the program can have together with it
stops on duplicate-free files, and answers SAT exactly on satisfiable files and UNSAT exactly on unsatisfiable ones. -/
theorem C48_watch_decides {cfg : Cfg S} (hw : cfg.watch = true) (hh : cfg.heur ≠ .BK) (hs : cfg.ScoreOK)
    (hclock : ∀ k, cfg.late k = false) {P : Problem} (hwf : P.WellFormed) (hnd : P.NoDupLits) :
    ∃ rep f0, (∀ fuel, f0 ≤ fuel → solve cfg .learn fuel P = .ok rep) ∧
      (rep.answer = .SAT ↔ P.Satisfiable) ∧ (rep.answer = .UNSAT ↔ ¬ P.Satisfiable) := by
  have h := C48_watch_decides_proper hw hh hs hclock hwf.proper hnd
  rw [hwf.widen] at h
  exact h

example : (exCfg .VSIDS_pos true).watch = true ∧ (exCfg .VSIDS_pos true).heur ≠ .BK ∧ (exCfg .VSIDS_pos true).ScoreOK ∧
    (∀ k, (exCfg .VSIDS_pos true).late k = false) ∧ exPigeon.WellFormed ∧ exPigeon.NoDupLits :=
  ⟨rfl, by decide, exCfg_score _ _, fun _ => rfl, by decide, by decide⟩

/-- **C49.** No run of `-solvenc -wl` on a duplicate-free file touches data that does not exist. -/
theorem C49_watch_no_ub {cfg : Cfg S} (hw : cfg.watch = true) (hs : cfg.ScoreOK) {P : Problem} (hwf : P.Proper)
    (hnd : P.NoDupLits) (fuel : Nat) : solve cfg .learn fuel P ≠ .ub := by
  have hpost := run_watch hw hs hwf hnd fuel
  unfold solve
  cases h : run cfg .learn fuel P with
  | ok p => simp
  | ub => rw [h] at hpost; exact absurd hpost (by simp [Res.Sat])
  | fuel => simp

/-- Repeated literals can make the program use a watched literal that was never set. -/
theorem C49_dup_ub :
    solve (exCfg .VSIDS_pos true) .learn 30 ⟨[2, 3, 2],
      [[⟨1, 0, false⟩, ⟨1, 0, false⟩, ⟨1, 1, false⟩, ⟨1, 1, false⟩]]⟩ = .ub := by decide +kernel

/-- **C10**, `-solvenc -wl`, for files whose clauses repeat no literal (with repetitions it fails, see
`C10_dup_fails`): after SAT the self-check succeeds, on the learned clauses too. -/
theorem C10_watch_verified_partial {cfg : Cfg S} (hw : cfg.watch = true) (hh : cfg.heur ≠ .BK) (hs : cfg.ScoreOK)
    {P : Problem} (hwf : P.Proper) (hnd : P.NoDupLits) {fuel : Nat} {rep : Report}
    (hrun : solve cfg .learn fuel P = .ok rep) (hans : rep.answer = .SAT) : rep.verified = some true := by
  obtain ⟨r, s, h1, rfl⟩ := solve_eq_ok.1 hrun
  have hr := report_sat.1 hans
  subst hr
  have hpost := run_watch hw hs hwf hnd fuel
  rw [h1] at hpost
  cases hpost with
  | sat s1 rc hre hc hu hd =>
    have hn := hre.vinv hw hs hwf hnd
    have hsat := hn.inv.choose_none hc hu (chooseWL_none hw hh hs hn.scores (decideNC_none hd))
    obtain ⟨u, e⟩ := chooseEffect_eq cfg s1
    show some (verifyModel (chooseEffect cfg s1)) = some true
    rw [e, verifyModel_of_csat (s := { s1 with unitClause := u }) hsat]

example : (solve (exCfg .VSIDS true) .learn 60 exSat3).passes
    (fun rep => rep.answer == .SAT && rep.verified == some true && decide (exSat3.clauses.length < rep.clauses)) = true := by
  decide +kernel

/-- **C09**, `-solvenc -wl` with a VSIDS heuristic, for files whose clauses repeat no literal: after SAT the printed
model names every variable exactly once, and what it names satisfies the file. -/
theorem C09_watch_model_partial {cfg : Cfg S} (hw : cfg.watch = true) (hs : cfg.ScoreOK)
    (hh : cfg.heur = .VSIDS ∨ cfg.heur = .VSIDS_pos)
    {P : Problem} (hwf : P.WellFormed) (hnd : P.NoDupLits) {fuel : Nat} {rep : Report}
    (hrun : solve cfg .learn fuel P = .ok rep) (hans : rep.answer = .SAT) :
    NamesAll P rep.model ∧ ∀ a : Assignment, (∀ l ∈ rep.model, a l.var = l.val) → P.Solves a := by
  have hbk : cfg.heur ≠ .BK := by rcases hh with h | h <;> rw [h] <;> decide
  obtain ⟨s, h1, _, h3⟩ := C07_watch_sat_partial hw hbk hs hwf hnd hrun hans
  obtain ⟨r, s', h1', rfl⟩ := solve_eq_ok.1 hrun
  rw [h1] at h1'
  cases h1'
  have hpost := run_watch hw hs hwf hnd fuel
  rw [h1] at hpost
  cases hpost with
  | sat s1 rc hre hc hu hd =>
    have hn := hre.vinv hw hs hwf hnd
    obtain ⟨pos, hg⟩ := hs
    have hok := scoresOK hg (hn.scores pos hg)
    have hno : ∀ v d, ¬ OpenAtom s1 v d := by
      have hch := decideNC_none hd
      unfold chooseNC at hch
      rcases hh with hh | hh
      · rw [hh] at hch; exact (chooseVSIDS_spec cfg.arith s1 hok).1 hch
      · rw [hh] at hch; exact (chooseVSIDSPos_spec cfg.arith s1 hok).1 hch
    obtain ⟨p1, p2⟩ := printed_of hn.inv.base (hn.inv.vars hc) hno hn.linv.nv hn.linv.dom hwf
    obtain ⟨u, e⟩ := chooseEffect_eq cfg s1
    have em : (report 0 (chooseEffect cfg s1)).model = printModel s1 := by rw [e]; rfl
    rw [em]
    refine ⟨p1, fun a ha => h3 a ?_⟩
    obtain ⟨q1, q2⟩ := p2 a ha
    exact ⟨q1, by rw [e]; exact q2⟩

example : (solve (exCfg .VSIDS_pos true) .learn 60 exSat3).passes
    (fun rep => rep.answer == .SAT && rep.model.length == 4) = true := by
  decide +kernel

/-! ## Single steps -/

/-- One step of the search, to compute reachable states for the examples. -/
def wlStep (cfg : Cfg S) (p : St S × Int) : St S × Int :=
  if p.1.conflict then
    if p.1.LEVEL = 0 then p else
      match conflictWL cfg 50 p.1 p.2 with
      | .ok q => q
      | _ => p
  else if p.1.units ≠ [] then (wunitStep p.1, p.2)
  else match decideNC cfg p.1 with
    | some s => (s, p.2)
    | none => p

theorem wlStep_reach {cfg : Cfg S} {P : Problem} {p : St S × Int} (h : WReach cfg P p.1 p.2) :
    WReach cfg P (wlStep cfg p).1 (wlStep cfg p).2 := by
  unfold wlStep
  by_cases hc : p.1.conflict = true
  · rw [if_pos hc]
    by_cases hL : p.1.LEVEL = 0
    · rw [if_pos hL]; exact h
    · rw [if_neg hL]
      split
      · rename_i q hq; exact .conf h hc hL hq
      · exact h
  · rw [if_neg hc]
    have hc' := Bool.eq_false_iff.2 hc
    by_cases hu : p.1.units = []
    · rw [if_neg (by simp [hu])]
      split
      · rename_i s hs; exact .dec h hc' hu hs
      · exact h
    · rw [if_pos hu]; exact .prop h hc' hu

/-- The state after `n` steps. -/
def wlState (cfg : Cfg S) (P : Problem) (n : Nat) : Res (St S × Int) :=
  match build cfg P with
  | .ok s => .ok (n.repeat (wlStep cfg) (s, cfg.restarts))
  | .ub => .ub
  | .fuel => .fuel

theorem wlState_reach {cfg : Cfg S} {P : Problem} {n : Nat} {p : St S × Int} (h : wlState cfg P n = .ok p) :
    WReach cfg P p.1 p.2 := by
  unfold wlState at h
  split at h
  · rename_i s hs
    cases h
    induction n with
    | zero => exact .start hs
    | succ n ih => exact wlStep_reach ih
  · cases h
  · cases h

/-- A run that ends has gone through reachable states only. -/
theorem run_watch_reach {cfg : Cfg S} (hw : cfg.watch = true) (hs : cfg.ScoreOK) {P : Problem} (hwf : P.WellFormed)
    {fuel : Nat} {r : Nat} {s : St S} (h : run cfg .learn fuel P = .ok (r, s)) :
    ∃ s1 rc, WReach cfg P s1 rc ∧ ∃ u n, s = { s1 with unitClause := u, ticks := n } := by
  have hpost := run_watch_safe hw hs hwf fuel _ h
  cases hpost with
  | sat s1 rc hre =>
    obtain ⟨u, e⟩ := chooseEffect_eq cfg s1
    exact ⟨s1, rc, hre, u, s1.ticks, by rw [e]⟩
  | timeout s1 rc hre => exact ⟨s1, rc, hre, s1.unitClause, s1.ticks + 1, rfl⟩
  | unsat s1 rc hre => exact ⟨s1, rc, hre, s1.unitClause, s1.ticks + 1, rfl⟩

/-- The same for files with one-value domains whose clauses repeat no literal. -/
theorem run_watch_reach_nodup {cfg : Cfg S} (hw : cfg.watch = true) (hs : cfg.ScoreOK) {P : Problem} (hwf : P.Proper)
    (hnd : P.NoDupLits) {fuel : Nat} {r : Nat} {s : St S} (h : run cfg .learn fuel P = .ok (r, s)) :
    ∃ s1 rc, WReach cfg P s1 rc ∧ ∃ u n, s = { s1 with unitClause := u, ticks := n } := by
  have hpost := run_watch hw hs hwf hnd fuel
  rw [h] at hpost
  cases hpost with
  | sat s1 rc hre =>
    obtain ⟨u, e⟩ := chooseEffect_eq cfg s1
    exact ⟨s1, rc, hre, u, s1.ticks, by rw [e]⟩
  | timeout s1 rc hre => exact ⟨s1, rc, hre, s1.unitClause, s1.ticks + 1, rfl⟩
  | unsat s1 rc hre => exact ⟨s1, rc, hre, s1.unitClause, s1.ticks + 1, rfl⟩

/-- A reachable state with a conflict above level 0 that can be handled. -/
theorem exConflictW : ∃ (s : St (Option (Nat × Nat))) (rc : Int) (q : St (Option (Nat × Nat)) × Int),
    WReach (exCfg .lazy true) exPigeon s rc ∧ s.conflict = true ∧ s.LEVEL ≠ 0 ∧
    conflictWL (exCfg .lazy true) 50 s rc = .ok q := by
  have : (List.range 30).any (fun n => (wlState (exCfg .lazy true) exPigeon n).passes (fun p => p.1.conflict &&
    decide (p.1.LEVEL ≠ 0) && (conflictWL (exCfg .lazy true) 50 p.1 p.2).passes fun _ => true)) = true := by decide +kernel
  obtain ⟨n, _, hn⟩ := List.any_eq_true.1 this
  obtain ⟨p, h1, h2⟩ := Res.of_passes hn
  simp only [Bool.and_eq_true, decide_eq_true_eq] at h2
  obtain ⟨q, h3, _⟩ := Res.of_passes h2.2
  exact ⟨p.1, p.2, q, wlState_reach h1, h2.1.1, h2.1.2, h3⟩

/-- **C12**, `-solvenc -wl`: in every reachable state the clause list starts with the clauses of the file, and every
clause in it is satisfied by every satisfying assignment of the file, repeated literals or not. -/
theorem C12_watch_sound {cfg : Cfg S} (hw : cfg.watch = true) (hs : cfg.ScoreOK)
    {P : Problem} (hwf : P.WellFormed) {s : St S} {rc : Int} (h : WReach cfg P s rc) :
    (∀ (i : Nat) (c : List Lit), P.clauses[i]? = some c → i < s.ncl ∧ (s.cl i).lits = c) ∧
    ∀ a, P.Solves a → ∀ id, id < s.ncl → clauseHolds a (s.cl id).lits := by
  have hn := h.kinv hw hs hwf
  exact ⟨hn.keep, fun a ha => (hn.sound a ha.widen).2⟩

example : ∃ (s : St (Option (Nat × Nat))) (rc : Int), WReach (exCfg .VSIDS true) exSat3 s rc ∧
    exSat3.clauses.length < s.ncl := by
  obtain ⟨p, h1, h2⟩ := Res.of_passes (r := wlState (exCfg .VSIDS true) exSat3 12)
    (q := fun p => decide (exSat3.clauses.length < p.1.ncl)) (by decide +kernel)
  exact ⟨p.1, p.2, wlState_reach h1, of_decide_eq_true h2⟩

/-- A file with repeated literals on which the watched solver learns clauses before it answers, wrongly, SAT. -/
def exDupUnsat : Problem :=
  ⟨[3, 4, 3], [[⟨3, 2, true⟩, ⟨3, 0, true⟩, ⟨1, 1, true⟩], [⟨1, 0, true⟩, ⟨1, 0, true⟩], [⟨3, 1, true⟩, ⟨3, 1, true⟩],
    [⟨1, 1, false⟩, ⟨1, 1, false⟩, ⟨3, 0, false⟩]]⟩

example : exDupUnsat.WellFormed ∧ ¬ exDupUnsat.NoDupLits ∧ ∃ (s : St (Option (Nat × Nat))) (rc : Int),
    WReach (exCfg .lazy true) exDupUnsat s rc ∧ exDupUnsat.clauses.length < s.ncl := by
  have : (List.range 30).any (fun n => (wlState (exCfg .lazy true) exDupUnsat n).passes
    (fun p => decide (exDupUnsat.clauses.length < p.1.ncl))) = true := by decide +kernel
  obtain ⟨n, _, hn⟩ := List.any_eq_true.1 this
  obtain ⟨p, h1, h2⟩ := Res.of_passes hn
  exact ⟨by decide, by decide, p.1, p.2, wlState_reach h1, of_decide_eq_true h2⟩

/-- **C42**, `-solvenc -wl`: handling a conflict adds exactly one clause, non-empty, with all literals false in the
state in which the conflict was found; exactly one of them was assigned at that state's level, and afterwards the solver
is at a lower level. -/
theorem C42_watch_false {cfg : Cfg S} (hw : cfg.watch = true) (hs : cfg.ScoreOK)
    {P : Problem} (hwf : P.Proper) (hnd : P.NoDupLits) {s s' : St S} {rc rc' : Int} {f : Nat} (h : WReach cfg P s rc)
    (hc : s.conflict = true) (hL : s.LEVEL ≠ 0) (hrun : conflictWL cfg f s rc = .ok (s', rc')) :
    s'.ncl = s.ncl + 1 ∧ (s'.cl s.ncl).lits ≠ [] ∧
    (∀ l ∈ (s'.cl s.ncl).lits, IsFalse s l) ∧
    (∃ x ∈ (s'.cl s.ncl).lits, ∀ y ∈ (s'.cl s.ncl).lits, s.lvl y.var y.val = s.LEVEL ↔ y = x) ∧
    s'.LEVEL < s.LEVEL := by
  have := (h.vinv hw hs hwf hnd).conf hw hc hL f
  rw [hrun] at this
  obtain ⟨_, hb, _⟩ := this
  obtain ⟨id, hid, _, c, hl, hadd⟩ := hb.confl
  rw [hadd.new]
  obtain ⟨x, hx, hxl, hu⟩ := hl.unique
  refine ⟨hadd.ncl, ?_, ?_, ⟨x, hx, ?_⟩, hb.level.2⟩
  · intro he; rw [he] at hx; simp at hx
  · intro l hlm
    exact isFalse_iff.2 (hl.confl.fals l hlm)
  · intro y hy
    constructor
    · intro hyl
      apply Classical.byContradiction
      intro hne
      exact hu y hy hne hyl
    · rintro rfl; exact hxl

example : ∃ (s s' : St (Option (Nat × Nat))) (rc rc' : Int), WReach (exCfg .lazy true) exPigeon s rc ∧ s.conflict = true ∧
    s.LEVEL ≠ 0 ∧ conflictWL (exCfg .lazy true) 50 s rc = .ok (s', rc') := by
  obtain ⟨s, rc, q, h⟩ := exConflictW
  exact ⟨s, q.1, rc, q.2, h⟩

/-- **C50**, conflicts: the clause named by a conflict exists and all its literals are false. -/
theorem C50_conflict {cfg : Cfg S} (hw : cfg.watch = true) (hs : cfg.ScoreOK) {P : Problem} (hwf : P.Proper)
    (hnd : P.NoDupLits) {s : St S} {rc : Int} (h : WReach cfg P s rc) (hc : s.conflict = true) :
    ∃ id : Nat, id < s.ncl ∧ s.conflicting = (id : Nat) ∧ ∀ l ∈ (s.cl id).lits, IsFalse s l := by
  obtain ⟨id, h1, h2, h3, _⟩ := (h.vinv hw hs hwf hnd).inv.core.conf hc
  exact ⟨id, h1, h2, fun l hl => isFalse_iff.2 (h3 l hl)⟩

/-- **C50**, propagations: when unit propagation takes a clause from the queue, it is skipped because a literal of it
is true already, or a literal `l` is propagated with the clause as reason, and then `l` was unassigned and every other
literal of the clause was false. -/
theorem C50_propagate {cfg : Cfg S} (hw : cfg.watch = true) (hs : cfg.ScoreOK) {P : Problem} (hwf : P.Proper)
    (hnd : P.NoDupLits) {s : St S} {rc : Int} (h : WReach cfg P s rc) (hc : s.conflict = false)
    {id : Nat} {rest : List Nat} (hu : s.units = id :: rest) (f : Nat) :
    id < s.ncl ∧
    ((∃ l ∈ (s.cl id).lits, IsTrue s l) ∧
        wunitProp cfg (f + 1) s = wunitProp cfg f { s with unitClause := id, units := rest } ∨
      ∃ l ∈ (s.cl id).lits, IsOpen s l ∧ (∀ l' ∈ (s.cl id).lits, l' ≠ l → IsFalse s l') ∧
        ∃ s2, s2 = wreduceTheory { s with unitClause := id, units := rest } l ∧
          wunitProp cfg (f + 1) s = wunitProp cfg f { s2 with nUnits := s2.nUnits + 1 }) := by
  have hv := h.vinv hw hs hwf hnd
  have hi := hv.inv
  have hid := hi.core.units id (by rw [hu]; simp)
  have hok := hi.core.cur hc id hid
  have hp : id ∈ s.units ∨ False := Or.inl (by rw [hu]; simp)
  refine ⟨hid, ?_⟩
  rw [wunitProp_succ cfg f hi hv.linv.ub hc (by rw [hu]; simp)]
  unfold wunitStep
  rw [hu]
  dsimp only
  cases ho : openWatch ({ s with unitClause := (id : Int), units := rest } : St S)
      (({ s with unitClause := (id : Int), units := rest } : St S).cl id) with
  | some w =>
    right
    obtain ⟨hwt, hlu⟩ := openWatch_some ho
    obtain ⟨hm, hoth⟩ := hok.unit hp hwt hlu
    exact ⟨w, hm, hlu, fun l' h1 h2 => isFalse_iff.2 (hoth l' h1 h2), _, rfl, rfl⟩
  | none =>
    left
    refine ⟨?_, rfl⟩
    have hcl := hok.of_closed (openWatch_none (hi.core.shape id hid) ho) False
    rcases hcl with ⟨a, h1, h2⟩ | ⟨a, b, h1, h2⟩
    · rcases h2 with h2 | h2
      · exact ⟨a, h1.2.1, isTrue_iff.2 h2⟩
      · exact h2.2.elim
    · have hna := openWatch_none (hi.core.shape id hid) ho a (h1.watches.2 (Or.inl rfl))
      rcases lit_cases s.asg a with h3 | h3 | h3
      · exact ⟨a, h1.2.2.1, isTrue_iff.2 h3⟩
      · rcases h2.fst h3 with h4 | h4
        · exact ⟨b, h1.2.2.2.1, isTrue_iff.2 h4⟩
        · exact h4.2.elim
      · exact absurd h3 hna

example : ∃ (s : St (Option (Nat × Nat))) (rc : Int), WReach (exCfg .lazy true) exPigeon s rc ∧ s.conflict = false ∧
    1 ≤ s.LEVEL ∧ ∃ id rest, s.units = id :: rest := by
  have : (List.range 30).any (fun n => (wlState (exCfg .lazy true) exPigeon n).passes (fun p => !p.1.conflict &&
    decide (1 ≤ p.1.LEVEL) && p.1.units != [])) = true := by decide +kernel
  obtain ⟨n, _, hn⟩ := List.any_eq_true.1 this
  obtain ⟨p, h1, h2⟩ := Res.of_passes hn
  simp only [Bool.and_eq_true, Bool.not_eq_true', decide_eq_true_eq, bne_iff_ne] at h2
  exact ⟨p.1, p.2, wlState_reach h1, h2.1.1, h2.1.2, List.exists_cons_of_ne_nil h2.2⟩

/-- **C51.** Where the watched-literal search decides (no conflict, empty queue), every clause it has, learned ones
included, is satisfied or has at least two unassigned literals: no unit clause and no falsified clause is missed. -/
theorem C51_decision {cfg : Cfg S} (hw : cfg.watch = true) (hs : cfg.ScoreOK) {P : Problem} (hwf : P.Proper)
    (hnd : P.NoDupLits) {s : St S} {rc : Int} (h : WReach cfg P s rc) (hc : s.conflict = false) (hu : s.units = []) :
    ∀ id, id < s.ncl → (∃ l ∈ (s.cl id).lits, IsTrue s l) ∨
      ∃ l ∈ (s.cl id).lits, ∃ l' ∈ (s.cl id).lits, l ≠ l' ∧ IsOpen s l ∧ IsOpen s l' := by
  intro id hid
  have hok := ((h.vinv hw hs hwf hnd).inv.core.cur hc id hid).congr (q := False) (by rw [hu]; simp)
  rcases hok with ⟨a, h1, h2⟩ | ⟨a, b, h1, h2⟩
  · rcases h2 with h2 | h2
    · exact .inl ⟨a, h1.2.1, isTrue_iff.2 h2⟩
    · exact h2.2.elim
  · rcases lit_cases s.asg a with h3 | h3 | h3
    · exact .inl ⟨a, h1.2.2.1, isTrue_iff.2 h3⟩
    · rcases h2.fst h3 with h4 | h4
      · exact .inl ⟨b, h1.2.2.2.1, isTrue_iff.2 h4⟩
      · exact h4.2.elim
    · rcases lit_cases s.asg b with h4 | h4 | h4
      · exact .inl ⟨b, h1.2.2.2.1, isTrue_iff.2 h4⟩
      · rcases h2.snd h4 with h5 | h5
        · exact .inl ⟨a, h1.2.2.1, isTrue_iff.2 h5⟩
        · exact h5.2.elim
      · exact .inr ⟨a, h1.2.2.1, b, h1.2.2.2.1, h1.2.2.2.2.1, h3, h4⟩

example : ∃ (s : St (Option (Nat × Nat))) (rc : Int), WReach (exCfg .lazy true) exPigeon s rc ∧ s.conflict = false ∧
    s.units = [] ∧ exPigeon.clauses.length < s.ncl ∧ s.decs ≠ [] := by
  have : (List.range 40).any (fun n => (wlState (exCfg .lazy true) exPigeon n).passes (fun p => !p.1.conflict &&
    p.1.units == [] && decide (exPigeon.clauses.length < p.1.ncl) && p.1.decs != [])) = true := by decide +kernel
  obtain ⟨n, _, hn⟩ := List.any_eq_true.1 this
  obtain ⟨p, h1, h2⟩ := Res.of_passes hn
  simp only [Bool.and_eq_true, Bool.not_eq_true', decide_eq_true_eq, bne_iff_ne, beq_iff_eq] at h2
  exact ⟨p.1, p.2, wlState_reach h1, h2.1.1.1, h2.1.1.2, h2.1.2, h2.2⟩

/-- **C52.** In every state of the search a clause of one literal watches it, a longer clause watches two different
ones of its literals, and a clause stands in a watch list, once, exactly if it watches the literal of the list. -/
theorem C52_watch_lists {cfg : Cfg S} (hw : cfg.watch = true) (hs : cfg.ScoreOK) {P : Problem} (hwf : P.Proper)
    (hnd : P.NoDupLits) {s : St S} {rc : Int} (h : WReach cfg P s rc) :
    (∀ id, id < s.ncl → ∃ a ∈ (s.cl id).lits, (s.cl id).w0 = some a ∧
      ((s.cl id).lits = [a] ∧ (∀ l, (s.wlist l).count id = if l = a then 1 else 0) ∨
        ∃ b ∈ (s.cl id).lits, (s.cl id).w1 = some b ∧ a ≠ b ∧
          ∀ l, (s.wlist l).count id = if l = a ∨ l = b then 1 else 0)) ∧
    ∀ l, ∀ id ∈ s.wlist l, id < s.ncl := by
  have hi := (h.vinv hw hs hwf hnd).inv
  refine ⟨?_, ?_⟩
  · intro id hid
    rcases hi.core.shape id hid with ⟨a, h1⟩ | ⟨a, b, h1⟩
    · refine ⟨a, h1.2.1, h1.1, .inl ⟨?_, ?_⟩⟩
      · have hm := h1.2.1
        match hl : (s.cl id).lits, h1.2.2 with
        | [x], _ =>
          rw [hl] at hm
          have : a = x := by simpa using hm
          rw [this]
      · intro l
        rw [hi.core.lists l id]
        simp [hid, h1.watches]
    · refine ⟨a, h1.2.2.1, h1.1, .inr ⟨b, h1.2.2.2.1, h1.2.1, h1.2.2.2.2.1, ?_⟩⟩
      intro l
      rw [hi.core.lists l id]
      simp [hid, h1.watches]
  · intro l id hm
    have := hi.core.lists l id
    have hpos := List.count_pos_iff.2 hm
    apply Classical.byContradiction
    intro hn
    rw [if_neg (fun h => hn h.1)] at this
    omega

/-- **C53.** `watchedUndoTheory`, called in any state of the search and for any level, restores exactly, and touches
neither the clauses and what they watch nor the watch lists. -/
theorem C53_undo {cfg : Cfg S} (hw : cfg.watch = true) (hs : cfg.ScoreOK) {P : Problem} (hwf : P.Proper)
    (hnd : P.NoDupLits) {s : St S} {rc : Int} (h : WReach cfg P s rc) {k : Int} (hk : -1 ≤ k) :
    Restored s k (wundoTheory s k) ∧ (wundoTheory s k).cl = s.cl ∧ (wundoTheory s k).ncl = s.ncl ∧
      (wundoTheory s k).wlist = s.wlist := by
  have hi := (h.vinv hw hs hwf hnd).inv
  obtain ⟨ht, g, l, r, vv, ds, e⟩ := wundoTheory_spec (K := s.LEVEL) hi.base hk
  refine ⟨restored_of hi.base hi.stack hk (congrArg Trail.asg ht) (congrArg Trail.lvl ht)
    (congrArg Trail.rsn ht) (congrArg Trail.idx ht) (congrArg Trail.vval ht) (congrArg Trail.decs ht), ?_, ?_, ?_⟩
  all_goals rw [e]
  rfl

/-- **C53**, handling a conflict as a whole (analysis, learning, undoing, restarts included) restores the level it
returns to. -/
theorem C53_backjump {cfg : Cfg S} (hw : cfg.watch = true) (hs : cfg.ScoreOK)
    {P : Problem} (hwf : P.Proper) (hnd : P.NoDupLits) {s s' : St S} {rc rc' : Int} {f : Nat} (h : WReach cfg P s rc)
    (hc : s.conflict = true) (hL : s.LEVEL ≠ 0) (hrun : conflictWL cfg f s rc = .ok (s', rc')) :
    Restored s s'.LEVEL s' ∧ 0 ≤ s'.LEVEL ∧ s'.LEVEL < s.LEVEL := by
  have hn := h.vinv hw hs hwf hnd
  have := hn.conf hw hc hL f
  rw [hrun] at this
  obtain ⟨hn', hb, _⟩ := this
  have ht := hb.tr
  exact ⟨restored_of hn.inv.base hn.inv.stack (Int.le_trans (by omega) hb.level.1) (congrArg Trail.asg ht)
    (congrArg Trail.lvl ht) (congrArg Trail.rsn ht) (congrArg Trail.idx ht) (congrArg Trail.vval ht)
    (congrArg Trail.decs ht), hb.level.1, hb.level.2⟩

example : ∃ (s : St (Option (Nat × Nat))) (rc : Int), WReach (exCfg .lazy true) exPigeon s rc ∧ 2 ≤ s.LEVEL ∧
    s.decs.filter (fun l => s.lvl l.var l.val ≤ 1) ≠ s.decs ∧ s.decs.filter (fun l => s.lvl l.var l.val ≤ 1) ≠ [] := by
  have : (List.range 30).any (fun n => (wlState (exCfg .lazy true) exPigeon n).passes (fun p => decide (2 ≤ p.1.LEVEL) &&
      p.1.decs.filter (fun l => p.1.lvl l.var l.val ≤ 1) != p.1.decs &&
      p.1.decs.filter (fun l => p.1.lvl l.var l.val ≤ 1) != [])) = true := by decide +kernel
  obtain ⟨n, _, hn⟩ := List.any_eq_true.1 this
  obtain ⟨p, h1, h2⟩ := Res.of_passes hn
  simp only [Bool.and_eq_true, decide_eq_true_eq, bne_iff_ne] at h2
  exact ⟨p.1, p.2, wlState_reach h1, h2.1.1, h2.1.2, h2.2⟩

/-! ## Where the claims fail -/

/-- x1 = 2, and a clause that repeats `x1 ≠ 2` before the literal that satisfies it. -/
def exDup : Problem := ⟨[4, 2], [[⟨1, 2, true⟩], [⟨1, 2, false⟩, ⟨1, 2, false⟩, ⟨2, 0, false⟩]]⟩

/-- **C08 fails with a repeated literal**: `-solvenc -wl` prints UNSAT for a satisfiable file, with every heuristic. -/
theorem C08_dup_fails : exDup.WellFormed ∧ exDup.Satisfiable ∧
    ∀ h ∈ [Heuristic.VSIDS, .VSIDS_pos, .lazy], (solve (exCfg h true) .learn 20 exDup).passes
      (fun rep => rep.answer == .UNSAT) = true := by
  refine ⟨by decide, ⟨fun v => if v = 1 then 2 else 1, by decide⟩, by decide +kernel⟩

/-- Satisfiable; two clauses repeat a literal. -/
def exDupSat : Problem :=
  ⟨[3, 3, 2, 3], [[⟨3, 0, true⟩, ⟨2, 2, true⟩], [⟨4, 1, true⟩, ⟨4, 1, true⟩],
    [⟨4, 1, false⟩, ⟨4, 1, false⟩, ⟨2, 1, false⟩]]⟩

/-- The assignment agrees with the state on the atoms of the problem. -/
def Allows (P : Problem) (s : St S) (a : Assignment) : Prop :=
  ∀ v ∈ List.range (P.numVars + 1), ∀ d ∈ List.range (P.dom v), (s.asg v d = .eq → a v = d) ∧ (s.asg v d = .ne → a v ≠ d)

instance (P : Problem) (s : St S) (a : Assignment) : Decidable (Allows P s a) := by unfold Allows; infer_instance

/-- x = (0, 2, 0, 2). -/
def exDupA : Assignment := fun v => if v = 2 ∨ v = 4 then 2 else 0

/-- **C07 and C10 fail with a repeated literal**: `-solvenc -wl -vsids_pos` prints SAT although the assignment it
holds is x = (0, 2, 0, 2), which violates the second clause; the self-check reports it. -/
theorem C07_dup_fails : exDupSat.WellFormed ∧
    ∃ s, run (exCfg .VSIDS_pos true) .learn 40 exDupSat = .ok (0, s) ∧ (report 0 s).answer = .SAT ∧
      (report 0 s).verified = some false ∧ exDupSat.InDom exDupA ∧ Allows exDupSat s exDupA ∧ ¬ exDupSat.Solves exDupA := by
  refine ⟨by decide, ?_⟩
  have h : (run (exCfg .VSIDS_pos true) .learn 40 exDupSat).passes (fun p => decide (p.1 = 0 ∧
    (report 0 p.2).verified = some false ∧ exDupSat.InDom exDupA ∧ Allows exDupSat p.2 exDupA ∧
    ¬ exDupSat.Solves exDupA)) = true := by decide +kernel
  obtain ⟨⟨r, s⟩, h1, h2⟩ := Res.of_passes h
  obtain ⟨h3, h4⟩ := of_decide_eq_true h2
  dsimp only at h3
  subst h3
  exact ⟨s, h1, rfl, h4⟩

/-- **C10 and C09 fail with a repeated literal**: `-solvenc -wl -lazy` prints SAT for an unsatisfiable file, with a
model that gives the third variable two values, and then INCORRECT. -/
theorem C10_dup_fails : exDupUnsat.WellFormed ∧ ¬ exDupUnsat.Satisfiable ∧
    (solve (exCfg .lazy true) .learn 40 exDupUnsat).passes (fun rep => rep.answer == .SAT && rep.verified == some false &&
      rep.model == [⟨3, 2, true⟩, ⟨1, 0, true⟩, ⟨3, 1, true⟩]) = true := by
  refine ⟨by decide, ?_, by decide +kernel⟩
  rintro ⟨a, _, h⟩
  have h1 := h [⟨3, 2, true⟩, ⟨3, 0, true⟩, ⟨1, 1, true⟩] (by decide)
  have h2 := h [⟨1, 0, true⟩, ⟨1, 0, true⟩] (by decide)
  have h3 := h [⟨3, 1, true⟩, ⟨3, 1, true⟩] (by decide)
  simp [clauseHolds, Lit.holds] at h1 h2 h3
  omega

/-- The search itself would answer wrongly with the default heuristic, which makes no decision when literals are watched;
the command line never selects this combination (`C23_options`). -/
theorem C07_default_fails : exUnsat.WellFormed ∧ exUnsat.NoDupLits ∧ (solve (exCfg .BK true) .learn 20 exUnsat).passes
    (fun rep => rep.answer == .SAT && rep.verified == some false) = true := by decide +kernel

end Mvl
