import Verif.Proof.Stat
import Verif.Props.NC

/-!
# Properties of the clock and of the reported counts

C11, C25 and C43.  They hold for every formula, well-formed or not, every configuration and both searches.
-/

namespace Mvl

variable {S : Type}

theorem run_end {cfg : Cfg S} {algo : Algo} {fuel : Nat} {P : Problem} {r : Nat} {s : St S}
    (h : run cfg algo fuel P = .ok (r, s)) : r = 1 → ∃ k, k < s.ticks ∧ cfg.late k = true := by
  obtain ⟨s0, hb, h⟩ := Res.bind_eq_ok.1 h
  cases algo with
  | chrono => exact (chrono_end _ _ _ _ _ h).2
  | learn => exact (learnLoop_end _ _ _ _ _ (build_rinv hb) h).clock

theorem run_rinv {cfg : Cfg S} {fuel : Nat} {P : Problem} {r : Nat} {s : St S}
    (h : run cfg .learn fuel P = .ok (r, s)) : ∃ rc, RInv cfg s rc := by
  obtain ⟨s0, hb, h⟩ := Res.bind_eq_ok.1 h
  exact (learnLoop_end _ _ _ _ _ (build_rinv hb) h).rinv

theorem report_timeout {r : Nat} {s : St S} (h : (report r s).answer = .TIMEOUT) : r = 1 := by
  unfold report at h
  dsimp only at h
  split at h
  · cases h
  · split at h
    · assumption
    · cases h

/-- **C11.** TIMEOUT is printed only if one of the clock readings made during the search was late. -/
theorem C11_timeout {cfg : Cfg S} {algo : Algo} {fuel : Nat} {P : Problem} {rep : Report}
    (hrun : solve cfg algo fuel P = .ok rep) (hans : rep.answer = .TIMEOUT) :
    ∃ r s k, run cfg algo fuel P = .ok (r, s) ∧ k < s.ticks ∧ cfg.late k = true := by
  obtain ⟨r, s, h1, rfl⟩ := solve_eq_ok.1 hrun
  obtain ⟨k, h2, h3⟩ := run_end h1 (report_timeout hans)
  exact ⟨r, s, k, h1, h2, h3⟩

example : (solve { exCfg .VSIDS true with late := fun k => decide (2 ≤ k) } .learn 60 exPigeon).passes
    (fun rep => rep.answer == .TIMEOUT) = true := by decide +kernel

/-- **C11**, second half: if none of the readings made is late, the answer is SAT or UNSAT. -/
theorem C11_answer {cfg : Cfg S} {algo : Algo} {fuel : Nat} {P : Problem} {r : Nat} {s : St S}
    (hrun : run cfg algo fuel P = .ok (r, s)) (hc : ∀ k, k < s.ticks → cfg.late k = false) :
    (report r s).answer = .SAT ∨ (report r s).answer = .UNSAT := by
  cases h : (report r s).answer with
  | SAT => exact .inl rfl
  | UNSAT => exact .inr rfl
  | TIMEOUT =>
    obtain ⟨k, h2, h3⟩ := run_end hrun (report_timeout h)
    rw [hc k h2] at h3; cases h3

example : (solve { exCfg .VSIDS true with late := fun k => decide (40 ≤ k) } .learn 60 exPigeon).passes
    (fun rep => rep.answer == .UNSAT) = true := by decide +kernel

/-- The number of restarts from the invariant of the loops. -/
theorem RInv.restarts {cfg : Cfg S} {s : St S} {rc : Int} (h : RInv cfg s rc) :
    (0 < cfg.restarts → (s.nRestarts : Int) = s.nBacktracks / cfg.restarts) ∧
    (cfg.restarts ≤ 0 → s.nRestarts = 0) := by
  refine ⟨?_, fun hz => (h.zero hz).1⟩
  intro hp
  obtain ⟨h1, h2, h3⟩ := h.pos hp
  rw [h1] at h3
  symm
  rw [Int.ediv_eq_iff_of_pos hp]
  rw [Int.mul_comm] at h2
  rw [Int.mul_comm, Int.add_mul] at h3
  omega

/-- **C25.** The restarts reported are the backtracks divided by the interval, with or without `-wl`. -/
theorem C25_restarts {cfg : Cfg S} {P : Problem} {fuel : Nat} {rep : Report} (hrun : solve cfg .learn fuel P = .ok rep) :
    (0 < cfg.restarts → (rep.restarts : Int) = rep.backtracks / cfg.restarts) ∧
    (cfg.restarts ≤ 0 → rep.restarts = 0) := by
  obtain ⟨r, s, h1, rfl⟩ := solve_eq_ok.1 hrun
  obtain ⟨rc, h2⟩ := run_rinv h1
  exact h2.restarts

example : (solve { exCfg .VSIDS false with restarts := 2 } .learn 200 exPigeon).passes
    (fun rep => decide (1 < rep.backtracks) && decide (0 < rep.restarts)) = true := by decide +kernel
example : (solve { exCfg .VSIDS true with restarts := 2 } .learn 200 exPigeon).passes
    (fun rep => decide (1 < rep.backtracks) && decide (0 < rep.restarts)) = true := by decide +kernel

/-- **C43**, the negation made precise: the number of times `learnClause` runs off its end is the number of
backtracks, so every run with a conflict above level 0 does so. -/
theorem C43_flow_off {cfg : Cfg S} {P : Problem} {fuel : Nat} {r : Nat} {s : St S}
    (h : run cfg .learn fuel P = .ok (r, s)) : s.flowOff = s.nBacktracks := by
  obtain ⟨rc, h2⟩ := run_rinv h
  exact h2.flow

/-- **C43** is false: a run that learns. -/
theorem C43_fails : ∃ s : St (Option (Nat × Nat)), run (exCfg .BK false) .learn 60 exSat3 = .ok (0, s) ∧ 0 < s.flowOff :=
  ⟨_, rfl, by decide +kernel⟩

end Mvl
