import Verif.Props.BoolSolve
import Verif.Props.Pipeline

/-!
# Encoded files and the bit-vector solver

C113: `-linenc`, then `-b2f`, then the bit-vector solver.  All variables of the result are two-valued, so that domains of more
than 64 values can be solved this way.
-/

namespace Mvl.BV

variable {S : Type}

/-- **C113**, without `-restart`: for a file with at least three values for each variable, the answer of the bit-vector solver
on the encoded and converted file is right for the file, and with a clock that is never late SAT is printed for every
satisfiable file.  Missing: `-restart` (`C55_restart_fails`), two-valued variables, for which the encoding is wrong
(`C26_fails`), lines that are too long, and that UNSAT is printed in every other case (contradicting clauses about one
variable are read out of bounds, `C38_two_valued_fails`). -/
theorem C113_linenc_b2f_bitvec_partial {cfg : BCfg S} (hs : cfg.ScoreOK) (hrs : cfg.restarts ≤ 0)
    {ls : List FileLine} {P : Problem} (h : Describes ls P) (hw : P.WellFormed)
    (hh : HeaderFirst ls P.numVars P.clauses.length) (hc : P.clauses ≠ []) (h3 : ∀ d ∈ P.doms, 3 ≤ d ∧ d ≤ 230)
    (hlen : ∀ c ∈ P.clauses, c.length ≤ 230) (hsz : 4 * P.doms.sum + P.clauses.length ≤ 2147483647) :
    ∃ W, linearEncode (fileText ls) = .ok W ∧ ∀ T, Prints W T → ∃ out, boolean2Finite T = .ok out ∧
      (∀ fuel rep, bsolveFile cfg fuel out = .ok rep →
        (rep.answer = .SAT → P.Satisfiable) ∧ (rep.answer = .UNSAT → ¬ P.Satisfiable)) ∧
      ((∀ k, cfg.late k = false) → P.Satisfiable →
        ∃ rep f0, (∀ fuel, f0 ≤ fuel → bsolveFile cfg fuel out = .ok rep) ∧ rep.answer = .SAT ∧ rep.verified = some true) := by
  obtain ⟨W, cs, N, k1, h0, hu, hne, _, hsat, k2⟩ := linenc_b2f_items h hw hh hc (fun d hd => (h3 d hd).1)
    (linCnf_short hw h3 hlen hsz) hsz
  refine ⟨W, k1, fun T hT => ?_⟩
  obtain ⟨out, e1, e2⟩ := k2 T hT
  have hwf := (finProblem_wellFormed hu hne).regular
  have e3 := (finProblem_sat h0 hu).trans hsat
  refine ⟨out, e1, fun fuel rep hr => ?_, fun hclock hx => ?_⟩
  · rw [bsolveFile_read cfg e2] at hr
    exact ⟨fun ha => e3.1 (C54_bitvec_satisfiable_partial hs hrs hwf finProblem_fits hr ha),
      fun ha hx => C55_bitvec_unsat_partial hs hrs hwf finProblem_fits hr ha (e3.2 hx)⟩
  · obtain ⟨rep, f0, g1, g2, g3⟩ := C56_two_valued_partial hs hrs hclock hwf finProblem_fits (e3.2 hx) (by
      intro c hc _ l hl
      obtain ⟨c', hc', rfl⟩ := List.mem_map.1 hc
      obtain ⟨x, hx', rfl⟩ := List.mem_map.1 hl
      have := hu x.natAbs ⟨c', hc', x, hx', rfl⟩
      exact Nat.le_of_eq (finProblem_dom this.1 this.2))
    exact ⟨rep, f0, fun fuel hf => by rw [bsolveFile_read cfg e2, g1 fuel hf], g2, g3⟩

/-- The hypotheses are met by a formula with domains of three and four values (`exPipe`, see C67), which is satisfiable; the
bit-vector solver prints SAT for the encoded file. -/
example : exPipe.Satisfiable ∧ (linearEncode (fileText exPipe.file) >>= fun W => boolean2Finite
      (W.flatMap fun w => (w.flatMap fun x => x ++ [' ']) ++ ['\n']) >>= fun out => bsolveFile (exB true 0) 60 out).passes
    (fun rep => rep.answer == .SAT && rep.verified == some true) = true :=
  ⟨⟨fun _ => 1, by decide +kernel⟩, by decide +kernel⟩

end Mvl.BV
