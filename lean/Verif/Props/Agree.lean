import Verif.Props.WL

/-!
# The solver variants agree

C35: no two of `-solvech`, `-solvenc` and `-solvenc -wl` contradict each other.
-/

namespace Mvl

variable {S S' : Type}

/-- The combinations of search, watched literals and heuristic that the command line can select. -/
def Selectable (cfg : Cfg S) : Algo → Prop
  | .chrono => cfg.watch = false ∧ (cfg.heur = .BK ∨ cfg.heur = .lazy)
  | .learn => ¬ (cfg.watch = true ∧ cfg.heur = .BK)

/-- What every variant's answer means; with `-wl`, on a duplicate-free file.  One-value domains count as having two
values. -/
theorem answer_proper {cfg : Cfg S} {algo : Algo} (hv : Selectable cfg algo) (hs : cfg.ScoreOK) {P : Problem}
    (hwf : P.Proper) (hnd : cfg.watch = true → P.NoDupLits) {fuel : Nat} {rep : Report}
    (hrun : solve cfg algo fuel P = .ok rep) :
    (rep.answer = .SAT → P.widen.Satisfiable) ∧ (rep.answer = .UNSAT → ¬ P.widen.Satisfiable) := by
  cases algo with
  | chrono =>
    obtain ⟨hw, hh⟩ := hv
    refine ⟨fun h => ?_, C02_chrono_unsat_proper hw hh hwf hrun⟩
    obtain ⟨_, _, ⟨a, h1⟩, h2⟩ := C01_chrono_sat_proper hw hh hwf hrun h
    exact ⟨a, h2 a h1⟩
  | learn =>
    cases hw : cfg.watch with
    | false =>
      refine ⟨fun h => ?_, C05_learn_unsat_proper hw hs hwf hrun⟩
      obtain ⟨_, _, ⟨a, h1⟩, h2⟩ := C04_learn_sat_proper hw hs hwf hrun h
      exact ⟨a, h2 a h1⟩
    | true =>
      refine ⟨fun h => ?_, C08_watch_unsat_proper_partial hw hs hwf (hnd hw) hrun⟩
      obtain ⟨_, _, ⟨a, h1⟩, h2⟩ := C07_watch_sat_proper_partial hw (fun hb => hv ⟨hw, hb⟩) hs hwf (hnd hw) hrun h
      exact ⟨a, h2 a h1⟩

/-- What every variant's answer means; with `-wl`, on a duplicate-free file. -/
theorem answer_right {cfg : Cfg S} {algo : Algo} (hv : Selectable cfg algo) (hs : cfg.ScoreOK) {P : Problem}
    (hwf : P.WellFormed) (hnd : cfg.watch = true → P.NoDupLits) {fuel : Nat} {rep : Report}
    (hrun : solve cfg algo fuel P = .ok rep) :
    (rep.answer = .SAT → P.Satisfiable) ∧ (rep.answer = .UNSAT → ¬ P.Satisfiable) := by
  have h := answer_proper hv hs hwf.proper hnd hrun
  rw [hwf.widen] at h
  exact h

/-- The same for files with one-value domains whose only value no clause excludes. -/
theorem answer_regular {cfg : Cfg S} {algo : Algo} (hv : Selectable cfg algo) (hs : cfg.ScoreOK) {P : Problem}
    (hwf : P.Regular) (hnd : cfg.watch = true → P.NoDupLits) {fuel : Nat} {rep : Report}
    (hrun : solve cfg algo fuel P = .ok rep) :
    (rep.answer = .SAT → P.Satisfiable) ∧ (rep.answer = .UNSAT → ¬ P.Satisfiable) := by
  have h := answer_proper hv hs hwf.toProper hnd hrun
  exact ⟨fun ha => Problem.satisfiable_of_widen hwf.dom_one hwf.pos (h.1 ha) hwf.lits_ok,
    fun ha ⟨a, h1⟩ => h.2 ha ⟨a, h1.widen⟩⟩

/-- Under these conditions the second value makes no difference. -/
theorem Problem.Regular.widen_iff {P : Problem} (h : P.Regular) : P.widen.Satisfiable ↔ P.Satisfiable :=
  ⟨fun hs => Problem.satisfiable_of_widen h.dom_one h.pos hs h.lits_ok, fun ⟨a, ha⟩ => ⟨a, ha.widen⟩⟩

/-- Every variant answers, with a clock that is never late, on a duplicate-free file of this kind. -/
theorem decides_regular {cfg : Cfg S} {algo : Algo} (hv : Selectable cfg algo) (hs : cfg.ScoreOK)
    (hclock : ∀ k, cfg.late k = false) {P : Problem} (hwf : P.Regular) (hnd : P.NoDupLits) :
    ∃ rep f0, (∀ fuel, f0 ≤ fuel → solve cfg algo fuel P = .ok rep) ∧
      (rep.answer = .SAT ↔ P.Satisfiable) ∧ (rep.answer = .UNSAT ↔ ¬ P.Satisfiable) := by
  rw [← hwf.widen_iff]
  cases algo with
  | chrono => exact C03_chrono_decides_proper hv.1 hv.2 hclock hwf.toProper
  | learn =>
    cases hw : cfg.watch with
    | false => exact C06_learn_decides_proper hw hs hclock hwf.toProper hnd
    | true => exact C48_watch_decides_proper hw (fun hb => hv ⟨hw, hb⟩) hs hclock hwf.toProper hnd

/-- **C35.** Two variants, with whatever heuristics, score arithmetics, restart intervals, clocks and execution lengths, never
give opposite answers on the same file; if one of them uses watched literals, the file must be duplicate-free. -/
theorem C35_agree {cfg : Cfg S} {cfg' : Cfg S'} {algo algo' : Algo} (hv : Selectable cfg algo) (hv' : Selectable cfg' algo')
    (hs : cfg.ScoreOK) (hs' : cfg'.ScoreOK) {P : Problem} (hwf : P.Proper)
    (hnd : cfg.watch = true ∨ cfg'.watch = true → P.NoDupLits)
    {fuel fuel' : Nat} {rep rep' : Report} (h : solve cfg algo fuel P = .ok rep) (h' : solve cfg' algo' fuel' P = .ok rep') :
    ¬ (rep.answer = .SAT ∧ rep'.answer = .UNSAT) := by
  rintro ⟨h1, h2⟩
  exact (answer_proper hv' hs' hwf (fun hw => hnd (.inr hw)) h').2 h2
    ((answer_proper hv hs hwf (fun hw => hnd (.inl hw)) h).1 h1)

example : Selectable (exCfg .lazy false) .chrono ∧ Selectable (exCfg .VSIDS_pos true) .learn ∧
    (solve (exCfg .lazy false) .chrono 60 exSat3).passes (fun rep => rep.answer == .SAT) = true ∧
    (solve (exCfg .VSIDS_pos true) .learn 60 exSat3).passes (fun rep => rep.answer == .SAT) = true :=
  ⟨⟨rfl, .inr rfl⟩, (fun h => by cases h.2), by decide +kernel, by decide +kernel⟩

example : (⟨[1, 2], [[⟨1, 0, false⟩, ⟨2, 0, true⟩], [⟨2, 0, false⟩]]⟩ : Problem).Proper ∧
    (solve (exCfg .lazy false) .chrono 60 ⟨[1, 2], [[⟨1, 0, false⟩, ⟨2, 0, true⟩], [⟨2, 0, false⟩]]⟩).passes
      (fun rep => rep.answer == .SAT) = true ∧
    (solve (exCfg .VSIDS true) .learn 60 ⟨[1, 2], [[⟨1, 0, false⟩, ⟨2, 0, true⟩], [⟨2, 0, false⟩]]⟩).passes
      (fun rep => rep.answer == .SAT) = true := by decide +kernel

/-- With a repeated literal and watched literals they do contradict each other. -/
theorem C35_dup_fails : exDup.WellFormed ∧
    (solve (exCfg .BK false) .chrono 20 exDup).passes (fun rep => rep.answer == .SAT) = true ∧
    (solve (exCfg .VSIDS true) .learn 20 exDup).passes (fun rep => rep.answer == .UNSAT) = true := by decide +kernel

end Mvl
