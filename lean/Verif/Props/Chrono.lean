import Verif.Proof.Build

/-!
# Properties of `Solver -solvech`

C01, C02, C03 and the chronological parts of C09, C10, C11.
-/

namespace Mvl

variable {S : Type}

/-- `a` gives every variable a domain value compatible with what the state holds: values set to true are
taken, excluded values are not. -/
def Completes (P : Problem) (s : St S) (a : Assignment) : Prop :=
  P.InDom a ∧ ∀ v d, (s.asg v d = .eq → a v = d) ∧ (s.asg v d = .ne → a v ≠ d)

/-- An unbounded clock, exact scores; used in the examples. -/
def exCfg (h : Heuristic) (w : Bool) : Cfg (Option (Nat × Nat)) := ⟨h, w, ScoreArith.dyadic, 0, fun _ => false⟩

/-- x1 ∈ {0,1}, x2 ∈ {0,1,2}: three clauses, one decision and one propagation needed. -/
def exSat : Problem :=
  ⟨[2, 3], [[⟨1, 0, true⟩, ⟨2, 1, true⟩], [⟨1, 0, false⟩, ⟨2, 2, false⟩], [⟨2, 0, true⟩, ⟨1, 1, true⟩]]⟩

/-- Two variables over {0,1,2} that must be equal, different and not 0: unsatisfiable, needs search. -/
def exUnsat : Problem :=
  ⟨[3, 3], [[⟨1, 0, false⟩, ⟨2, 0, false⟩], [⟨1, 1, false⟩, ⟨2, 1, false⟩], [⟨1, 2, false⟩, ⟨2, 2, false⟩],
    [⟨1, 1, true⟩, ⟨2, 1, true⟩], [⟨1, 0, false⟩], [⟨2, 0, false⟩], [⟨1, 1, true⟩, ⟨2, 2, true⟩, ⟨1, 0, true⟩],
    [⟨1, 2, true⟩, ⟨2, 2, true⟩], [⟨2, 1, true⟩, ⟨1, 2, false⟩], [⟨1, 2, true⟩, ⟨2, 1, true⟩]]⟩

theorem exSat_wf : exSat.WellFormed := by decide
theorem exUnsat_wf : exUnsat.WellFormed := by decide

/-- What a chronological run gives, in one place. -/
theorem run_chrono {cfg : Cfg S} (hw : cfg.watch = false) (hh : cfg.ChronoOK) {P : Problem} (hwf : P.Proper)
    (fuel : Nat) : ∃ s0, Read cfg P.doms P.clauses s0 ∧ build cfg P = .ok s0 ∧
      run cfg .chrono fuel P = chrono cfg fuel s0 s0.LEVEL ∧ (run cfg .chrono fuel P).Sat (CPost cfg s0) := by
  obtain ⟨s0, h1, h2⟩ := build_read cfg hwf.lits_ok (fun h => by rw [hw] at h; simp at h)
  have h3 : run cfg .chrono fuel P = chrono cfg fuel s0 s0.LEVEL := by
    unfold run; rw [h1, h2.LEVEL]; rfl
  refine ⟨s0, h2, h1, h3, ?_⟩
  rw [h3]
  exact chrono_spec cfg hh fuel (h2.cinv hw hwf)

theorem solve_eq_ok {cfg : Cfg S} {algo : Algo} {fuel : Nat} {P : Problem} {rep : Report} :
    solve cfg algo fuel P = .ok rep ↔ ∃ r s, run cfg algo fuel P = .ok (r, s) ∧ rep = report r s := by
  unfold solve
  rw [Res.bind_eq_ok]
  constructor
  · rintro ⟨⟨r, s⟩, h1, h2⟩
    exact ⟨r, s, h1, by cases h2; rfl⟩
  · rintro ⟨r, s, h1, rfl⟩
    exact ⟨(r, s), h1, rfl⟩

theorem report_sat {r : Nat} {s : St S} : (report r s).answer = .SAT ↔ r = 0 := by
  unfold report; dsimp only; split
  · simp_all
  · split <;> simp_all

/-- The values a variable can still take. -/
theorem VarOK.pick {dom : Nat → Nat} {g : PA} {v : Nat} (h : VarOK dom g v) :
    ∃ d, d < max 2 (dom v) ∧ (d < dom v → g v d ≠ .ne) ∧ ∀ e, g v e = .eq → e < dom v → d = e := by
  rcases h with ⟨d, h1, h2, h3⟩ | ⟨h1, d, e, h2, h3, h4, h5, h6⟩ | h1
  · refine ⟨d, by omega, fun _ => by rw [h2]; simp, ?_⟩
    intro e he hd
    apply Classical.byContradiction
    intro hne
    have := h3 e hd (fun h => hne h.symm)
    rw [he] at this; simp at this
  · exact ⟨d, by omega, fun _ => by rw [h5]; simp, fun e he hd => absurd he (h1 e hd)⟩
  · by_cases h0 : g v 0 = .ne
    · refine ⟨1, by omega, by omega, fun e he hd => ?_⟩
      have : e = 0 := by omega
      subst this
      rw [h0] at he; simp at he
    · exact ⟨0, by omega, fun _ => h0, fun e he hd => by omega⟩

/-- In a state without conflict there is always a completion. -/
theorem completion_of {s : St S} (hb : s.tr.Base) (hvars : ∀ v, 1 ≤ v → v ≤ s.nv → VarOK s.dom s.asg v) {P : Problem}
    (hn : s.nv = P.numVars) (hd : s.dom = P.dom) : ∃ a, Completes P.widen s a := by
  have : ∀ v, ∃ d, (1 ≤ v → v ≤ s.nv → d < max 2 (s.dom v) ∧ (d < s.dom v → s.asg v d ≠ .ne) ∧
      ∀ e, s.asg v e = .eq → e < s.dom v → d = e) := by
    intro v
    by_cases hv : 1 ≤ v ∧ v ≤ s.nv
    · obtain ⟨d, h1⟩ := (hvars v hv.1 hv.2).pick
      exact ⟨d, fun _ _ => h1⟩
    · exact ⟨0, fun h1 h2 => absurd ⟨h1, h2⟩ hv⟩
  obtain ⟨a, ha⟩ := Classical.skolem.1 this
  refine ⟨a, ?_, ?_⟩
  · intro v h1 h2
    rw [P.widen_numVars] at h2
    rw [P.widen_dom h1 h2, ← hd]
    exact (ha v h1 (by rw [hn]; exact h2)).1
  · intro v d
    by_cases hu : s.asg v d = .un
    · rw [hu]; simp
    · obtain ⟨r1, r2, r3⟩ := hb.rng v d hu
      obtain ⟨p1, p2, p3⟩ := ha v r1 r2
      exact ⟨fun he => p3 d he r3, fun he hav => p2 (by rw [hav]; exact r3) (by rw [hav]; exact he)⟩

theorem CInv.completion {ex : Nat → Prop} {s : St S} (h : CInv ex s) (hc : s.conflict = false) {P : Problem}
    (hn : s.nv = P.numVars) (hd : s.dom = P.dom) : ∃ a, Completes P.widen s a :=
  completion_of h.base (h.vars hc) hn hd

/-- **C01**, **C19.** The same with one-value domains: what is satisfied is the file with every domain raised to
at least two values. -/
theorem C01_chrono_sat_proper {cfg : Cfg S} (hw : cfg.watch = false) (hh : cfg.heur = .BK ∨ cfg.heur = .lazy)
    {P : Problem} (hwf : P.Proper) {fuel : Nat} {rep : Report}
    (hrun : solve cfg .chrono fuel P = .ok rep) (hans : rep.answer = .SAT) :
    ∃ s, run cfg .chrono fuel P = .ok (0, s) ∧ (∃ a, Completes P.widen s a) ∧
      ∀ a, Completes P.widen s a → P.widen.Solves a := by
  obtain ⟨r, s, h1, rfl⟩ := solve_eq_ok.1 hrun
  have hr := report_sat.1 hans
  subst hr
  obtain ⟨s0, hread, _, _, hpost⟩ := run_chrono hw hh hwf fuel
  rw [h1] at hpost
  obtain ⟨hinv, hc, _, hsat⟩ := hpost.sat rfl
  have hsf := hpost.sameF
  refine ⟨s, h1, hinv.completion hc (hsf.nv.trans hread.nv) (hsf.dom.trans hread.dom), ?_⟩
  intro a ha
  rw [← hread.model]
  apply hsf.symm.model
  refine ⟨?_, fun id hid => Agrees.clause ha.2 (hsat id hid)⟩
  intro v h2 h3
  have e1 : s.nv = P.numVars := hsf.nv.trans hread.nv
  have e2 : s.dom = P.dom := hsf.dom.trans hread.dom
  have := ha.1 v h2 (by rw [P.widen_numVars, ← e1]; exact h3)
  rw [P.widen_dom h2 (by rw [← e1]; exact h3)] at this
  rw [e2]; exact this

/-- **C01.** When `-solvech` prints SAT, every completion of the assignment it holds satisfies the file, and
there is one. -/
theorem C01_chrono_sat {cfg : Cfg S} (hw : cfg.watch = false) (hh : cfg.heur = .BK ∨ cfg.heur = .lazy)
    {P : Problem} (hwf : P.WellFormed) {fuel : Nat} {rep : Report}
    (hrun : solve cfg .chrono fuel P = .ok rep) (hans : rep.answer = .SAT) :
    ∃ s, run cfg .chrono fuel P = .ok (0, s) ∧ (∃ a, Completes P s a) ∧ ∀ a, Completes P s a → P.Solves a := by
  have h := C01_chrono_sat_proper hw hh hwf.proper hrun hans
  rw [hwf.widen] at h
  exact h

example : (solve (exCfg .BK false) .chrono 30 exSat = .ok ⟨.SAT, 1, 1, 0, 0, 2, 3, 0, [⟨1, 1, true⟩, ⟨2, 1, true⟩], some true⟩) := by
  decide +kernel

/-- **C02**, **C19.** When `-solvech` prints UNSAT, the file has no satisfying assignment, not even with its
one-value domains raised to two values. -/
theorem C02_chrono_unsat_proper {cfg : Cfg S} (hw : cfg.watch = false) (hh : cfg.heur = .BK ∨ cfg.heur = .lazy)
    {P : Problem} (hwf : P.Proper) {fuel : Nat} {rep : Report}
    (hrun : solve cfg .chrono fuel P = .ok rep) (hans : rep.answer = .UNSAT) : ¬ P.widen.Satisfiable := by
  obtain ⟨r, s, h1, rfl⟩ := solve_eq_ok.1 hrun
  obtain ⟨s0, hread, _, _, hpost⟩ := run_chrono hw hh hwf fuel
  rw [h1] at hpost
  have hr : r = 2 := by
    rcases hpost.code with h | h | h <;> simp only at h
    · subst h; simp [report] at hans
    · subst h; simp [report] at hans
    · exact h
  rintro ⟨a, ha⟩
  exact hpost.unsat hr a ((hread.model a).2 ha) (hread.agrees a)

/-- **C02.** When `-solvech` prints UNSAT, the file has no satisfying assignment. -/
theorem C02_chrono_unsat {cfg : Cfg S} (hw : cfg.watch = false) (hh : cfg.heur = .BK ∨ cfg.heur = .lazy)
    {P : Problem} (hwf : P.Proper) {fuel : Nat} {rep : Report}
    (hrun : solve cfg .chrono fuel P = .ok rep) (hans : rep.answer = .UNSAT) : ¬ P.Satisfiable :=
  fun ⟨a, ha⟩ => C02_chrono_unsat_proper hw hh hwf hrun hans ⟨a, ha.widen⟩

example : ∃ rep, solve (exCfg .lazy false) .chrono 60 exUnsat = .ok rep ∧ rep.answer = .UNSAT ∧ 0 < rep.decisions :=
  ⟨_, rfl, by decide +kernel⟩

/-- **C11**, chronological search: TIMEOUT is printed only if one of the clock readings made was late. -/
theorem C11_chrono_timeout {cfg : Cfg S} (hw : cfg.watch = false) (hh : cfg.heur = .BK ∨ cfg.heur = .lazy)
    {P : Problem} (hwf : P.Proper) {fuel : Nat} {rep : Report}
    (hrun : solve cfg .chrono fuel P = .ok rep) (hans : rep.answer = .TIMEOUT) :
    ∃ r s k, run cfg .chrono fuel P = .ok (r, s) ∧ k < s.ticks ∧ cfg.late k = true := by
  obtain ⟨r, s, h1, rfl⟩ := solve_eq_ok.1 hrun
  obtain ⟨s0, hread, _, _, hpost⟩ := run_chrono hw hh hwf fuel
  rw [h1] at hpost
  have hr : r = 1 := by
    rcases hpost.code with h | h | h <;> simp only at h
    · subst h; simp [report] at hans
    · exact h
    · subst h; simp [report] at hans
  obtain ⟨k, _, h2, h3⟩ := hpost.nolate hr
  exact ⟨r, s, k, h1, h2, h3⟩

example : ∃ rep, solve { exCfg .BK false with late := fun k => decide (2 ≤ k) } .chrono 60 exUnsat = .ok rep ∧
    rep.answer = .TIMEOUT := ⟨_, rfl, by decide +kernel⟩

/-- **C03**, **C19.** With a clock that is never late, `-solvech` stops.  It answers SAT exactly when the file with
its one-value domains raised to two values is satisfiable, and UNSAT otherwise. -/
theorem C03_chrono_decides_proper {cfg : Cfg S} (hw : cfg.watch = false) (hh : cfg.heur = .BK ∨ cfg.heur = .lazy)
    (hclock : ∀ k, cfg.late k = false) {P : Problem} (hwf : P.Proper) :
    ∃ rep f0, (∀ fuel, f0 ≤ fuel → solve cfg .chrono fuel P = .ok rep) ∧
      (rep.answer = .SAT ↔ P.widen.Satisfiable) ∧ (rep.answer = .UNSAT ↔ ¬ P.widen.Satisfiable) := by
  obtain ⟨s0, hread, hb, _, _⟩ := run_chrono hw hh hwf 0
  obtain ⟨p, f0, hp⟩ := chrono_term cfg hh _ s0 (Nat.le_refl _) (hread.cinv hw hwf)
  have hall : ∀ fuel, f0 ≤ fuel → solve cfg .chrono fuel P = .ok (report p.1 p.2) := by
    intro fuel hf
    rw [solve_eq_ok]
    refine ⟨p.1, p.2, ?_, rfl⟩
    unfold run
    rw [hb]
    show chrono cfg fuel s0 0 = _
    rw [← hread.LEVEL]; exact hp fuel hf
  have hS : (report p.1 p.2).answer = .SAT → P.widen.Satisfiable := by
    intro h
    obtain ⟨s, _, ⟨a, ha⟩, h2⟩ := C01_chrono_sat_proper hw hh hwf (hall f0 (Nat.le_refl _)) h
    exact ⟨a, h2 a ha⟩
  have hU : (report p.1 p.2).answer = .UNSAT → ¬ P.widen.Satisfiable :=
    fun h => C02_chrono_unsat_proper hw hh hwf (hall f0 (Nat.le_refl _)) h
  have hT : (report p.1 p.2).answer ≠ .TIMEOUT := by
    intro h
    obtain ⟨_, _, k, _, _, hk⟩ := C11_chrono_timeout hw hh hwf (hall f0 (Nat.le_refl _)) h
    rw [hclock k] at hk; simp at hk
  refine ⟨_, f0, hall, ⟨hS, ?_⟩, ⟨hU, ?_⟩⟩
  · intro hs
    cases h : (report p.1 p.2).answer with
    | SAT => rfl
    | TIMEOUT => exact absurd h hT
    | UNSAT => exact absurd hs (hU h)
  · intro hs
    cases h : (report p.1 p.2).answer with
    | SAT => exact absurd (hS h) hs
    | TIMEOUT => exact absurd h hT
    | UNSAT => rfl

/-- **C03.** With a clock that is never late, `-solvech` stops and answers SAT exactly on satisfiable files and
UNSAT exactly on unsatisfiable ones. -/
theorem C03_chrono_decides {cfg : Cfg S} (hw : cfg.watch = false) (hh : cfg.heur = .BK ∨ cfg.heur = .lazy)
    (hclock : ∀ k, cfg.late k = false) {P : Problem} (hwf : P.WellFormed) :
    ∃ rep f0, (∀ fuel, f0 ≤ fuel → solve cfg .chrono fuel P = .ok rep) ∧
      (rep.answer = .SAT ↔ P.Satisfiable) ∧ (rep.answer = .UNSAT ↔ ¬ P.Satisfiable) := by
  have h := C03_chrono_decides_proper hw hh hclock hwf.proper
  rw [hwf.widen] at h
  exact h

example : exSat.Satisfiable := ⟨fun _ => 1, by decide⟩

theorem verifyModel_of_csat {s : St S} (h : ∀ id, id < s.ncl → CSat s.asg (s.cl id).lits) : verifyModel s = true := by
  unfold verifyModel
  rw [List.all_eq_true]
  intro id hid
  obtain ⟨l, hl, ht⟩ := h id (List.mem_range.1 hid)
  rw [List.any_eq_true]
  refine ⟨l, hl, ?_⟩
  unfold LT at ht
  cases he : l.eq <;> rw [he] at ht <;> simp [Asg.ofSign] at ht <;> simp [ht]

/-- **C10**, chronological search: after SAT the self-check succeeds. -/
theorem C10_chrono_verified {cfg : Cfg S} (hw : cfg.watch = false) (hh : cfg.heur = .BK ∨ cfg.heur = .lazy)
    {P : Problem} (hwf : P.Proper) {fuel : Nat} {rep : Report}
    (hrun : solve cfg .chrono fuel P = .ok rep) (hans : rep.answer = .SAT) : rep.verified = some true := by
  obtain ⟨r, s, h1, rfl⟩ := solve_eq_ok.1 hrun
  have hr := report_sat.1 hans
  subst hr
  obtain ⟨s0, hread, _, _, hpost⟩ := run_chrono hw hh hwf fuel
  rw [h1] at hpost
  obtain ⟨hinv, hc, _, hsat⟩ := hpost.sat rfl
  show some (verifyModel s) = some true
  rw [verifyModel_of_csat hsat]

end Mvl
