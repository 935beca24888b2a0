import Verif.Props.Program
import Verif.Props.BVCLI
import Verif.Props.OrigCLI

/-!
# Generated files and the other two programs

C99: the file written by `-genben -bool 1` given to the bit-vector solver, /repo/bitvec, and to the original solver,
/repo/original_solver.  (For the solvers of /repo/src see C98.)
-/

namespace Mvl

variable {S S' : Type}

/-- The clauses of a generated file are about one variable only if they have one literal. -/
theorem single_of_nodup {cl : List Lit} (h : (cl.map Lit.var).Nodup) (h1 : ∀ l ∈ cl, ∀ l' ∈ cl, l.var = l'.var) :
    cl.length ≤ 1 := by
  match cl, h, h1 with
  | [], _, _ => simp
  | [_], _, _ => simp
  | a :: b :: _, h, h1 =>
    have e := h1 a (by simp) b (by simp)
    simp [e] at h

/-- **C99**, bit-vector solver: `-genben -bool 1` with a domain size of 1 to 64 and clauses of 1 to 130 literals, then the
bit-vector solver without `-restart` on the file written.  Every answer is right, and after SAT every choice from the printed
domains solves the formula; if the clauses have at least two literals and the clock is never late, an answer is printed, and it
is SAT if `-sat 1` was asked for (the default).  (Missing: `-restart`, with which the solver may be wrong, `C65_restart_fails`,
and longer clauses.) -/
theorem C99_generate_bitvec_partial {m : Machine S} {d d1 : Disk} {f1 : Nat}
    {os : List GenOpt} (hos : ∀ o ∈ os, o.Ok) {out : List Char} (hout : (os.filterMap GenOpt.fileOf).getLast? = some out)
    (hb : (os.filterMap GenOpt.boolOf).getLast? = some true)
    (hd : 1 ≤ (os.filterMap GenOpt.domainOf).getLast?.getD 10 ∧ (os.filterMap GenOpt.domainOf).getLast?.getD 10 ≤ 64)
    (hz : 1 ≤ (os.filterMap GenOpt.sizeOf).getLast?.getD 3 ∧ (os.filterMap GenOpt.sizeOf).getLast?.getD 3 ≤ 130)
    (hrun : runMain m f1 ("-genben".toList :: os.flatMap GenOpt.args) d = .ok (.written, d1)) :
    ∃ P : Problem, d1.files out = some (fileText P.file) ∧
      (P.numVars : Int) = (os.filterMap GenOpt.varOf).getLast?.getD (-1) ∧
      (P.clauses.length : Int) = (os.filterMap GenOpt.clauseOf).getLast?.getD (-1) ∧
      ((os.filterMap GenOpt.satOf).getLast?.getD true = true → P.Satisfiable) ∧
      ∀ {w : World S'} {argv : List (List Char)} {c : BV.BLine}, (c.cfg w).ScoreOK → w.files = d1.files →
        argv.head? = some "-solvenc".toList → BV.bparseCommandLine argv = .ok c → c.FILE = some out → c.RESTARTS ≤ 0 →
        (∀ fuel rep, BV.brunSolver w fuel argv = .ok (some (.report rep)) →
          (rep.answer = .SAT → P.Satisfiable ∧ ∀ a : Assignment,
            (∀ v, 1 ≤ v → v ≤ P.numVars → ∃ b, rep.model[v]? = some b ∧ b.getLsbD (a v) = true) → P.Solves a) ∧
          (rep.answer = .UNSAT → ¬ P.Satisfiable)) ∧
        (2 ≤ (os.filterMap GenOpt.sizeOf).getLast?.getD 3 → 0 ≤ c.CLAUSE_SIZE → (∀ k, w.late c.TIME k = false) →
          ∃ rep f0, (∀ fuel, f0 ≤ fuel → BV.brunSolver w fuel argv = .ok (some (.report rep))) ∧
            (rep.answer = .SAT ↔ P.Satisfiable) ∧ (rep.answer = .UNSAT ↔ ¬ P.Satisfiable)) := by
  obtain ⟨P, rfl, hw, hnd, hdesc, p2, p3, p6, p7, p8⟩ := generated hos hout hb hd.1 hz hrun
  refine ⟨P, write_same, p2, p3, p6, ?_⟩
  intro w argv c hs hfiles hcmd hline hf hrs
  have hin : BV.BInput w argv c P := by
    refine ⟨hcmd, hline, ⟨out, P.file, hf, by rw [hfiles]; exact write_same, hdesc⟩, hw, ?_⟩
    intro k hk
    have := (p7 k hk).1
    omega
  refine ⟨fun fuel rep hr => ?_, fun h2 hcs hclock => ?_⟩
  · have := BV.C65_bitvec_partial hin hs hrs hr
    exact ⟨fun ha => ⟨(this.1 ha).1, (this.1 ha).2.2⟩, this.2⟩
  · refine BV.C65_bitvec_answers_partial hin hs hrs hcs hclock ?_
    intro i j hi hj h1 _
    have a := single_of_nodup (p8 _ (List.getElem_mem hi)).2.1 h1
    have b := (p8 _ (List.getElem_mem hi)).1
    omega

/-- **C99**, original solver: `-genben -bool 1` with a fixed domain size of at least 2 and clauses of 1 to 130 literals, then
the original solver on the file written, given the numbers of variables and clauses of the first command line.  It ends, SAT is
right and verified, TIMEOUT comes only from the clock, UNSAT without a decision is right.  (Missing: UNSAT after a decision,
which can be wrong, C73.) -/
theorem C99_generate_original_partial {m : Machine S} {d d1 : Disk} {f1 : Nat}
    {os : List GenOpt} (hos : ∀ o ∈ os, o.Ok) {out : List Char} (hout : (os.filterMap GenOpt.fileOf).getLast? = some out)
    (hb : (os.filterMap GenOpt.boolOf).getLast? = some true) (hdr : (os.filterMap GenOpt.drandOf).getLast?.getD false = false)
    (hd : 2 ≤ (os.filterMap GenOpt.domainOf).getLast?.getD 10)
    (hz : 1 ≤ (os.filterMap GenOpt.sizeOf).getLast?.getD 3 ∧ (os.filterMap GenOpt.sizeOf).getLast?.getD 3 ≤ 130)
    (hrun : runMain m f1 ("-genben".toList :: os.flatMap GenOpt.args) d = .ok (.written, d1)) :
    ∃ P : Problem, d1.files out = some (fileText P.file) ∧
      ((os.filterMap GenOpt.satOf).getLast?.getD true = true → P.Satisfiable) ∧
      ∀ {w : Orig.OWorld} (mode : Orig.Mode) (oo : List Orig.OOpt), (∀ o ∈ oo, o.Ok) → w.files = d1.files →
        out ≠ "die".toList →
        (oo.filterMap Orig.OOpt.varOf).getLast? = (os.filterMap GenOpt.varOf).getLast? →
        (oo.filterMap Orig.OOpt.clauseOf).getLast? = (os.filterMap GenOpt.clauseOf).getLast? →
        (oo.filterMap Orig.OOpt.fileOf).getLast? = some out →
        (∃ f0, ∀ f, f0 ≤ f → Orig.orunSolver w f (mode.arg :: oo.flatMap Orig.OOpt.args) ≠ .fuel) ∧
        ∀ fuel o, Orig.orunSolver w fuel (mode.arg :: oo.flatMap Orig.OOpt.args) = .ok o →
          ∃ rep, o = some (.report rep) ∧ rep.variables = P.numVars ∧
            (rep.answer = .SAT → P.Satisfiable ∧ rep.verified = some true) ∧
            (rep.answer = .TIMEOUT → ∃ k, w.late ((oo.filterMap Orig.OOpt.timeOf).getLast?.getD 3600) k = true) ∧
            (rep.answer = .UNSAT → rep.decisions = 0 → ¬ P.Satisfiable) := by
  obtain ⟨P, rfl, hw, hnd, hdesc, p2, p3, p6, p7, p8⟩ := generated hos hout hb (by omega) hz hrun
  refine ⟨P, write_same, p6, ?_⟩
  intro w mode oo hoo hfiles hdie hv hc hf
  have hwf : P.WellFormed := by
    refine ⟨fun k hk => ?_, hw.nonempty, hw.lits_ok⟩
    have := (p7 k hk).2 hdr
    omega
  have key : ∀ {o : Option Int} {n : Nat}, (n : Int) = o.getD (-1) → o = some (n : Int) := by
    intro o n h
    cases o with
    | none => simp only [Option.getD_none] at h; omega
    | some x => simp only [Option.getD_some] at h; rw [h]
  refine Orig.C80_original_answers_partial w mode oo hoo (N := P.numVars) (M := P.clauses.length) (by rw [hv]; exact key p2)
    (by rw [hc]; exact key p3) hf hdie hdesc ?_ (by rw [hfiles]; exact write_same) hwf
  intro mv n k h
  unfold Problem.file at h
  simp at h
  exact h

/-- The hypotheses of C99, and two runs each: the generator, then the bit-vector solver or the original one. -/
example : (∀ o ∈ ([.var 2, .clause 2, .clausesize 2, .domain 3, .bool 1, .file "g".toList] : List GenOpt), o.Ok) ∧
    (runMain { exMachine with rand := exRand } 5 (argvOf ["-genben", "-var", "2", "-clause", "2", "-clausesize", "2", "-domain", "3",
      "-bool", "1", "-file", "g"]) exDisk >>= fun r1 =>
      BV.brunSolver { BV.exWorldB with files := r1.2.files } 60 (argvOf ["-solvenc", "-file", "g"])).passes
        (fun r => match r with | some (.report rep) => decide (rep.answer = .SAT) | _ => false) = true ∧
    (runMain { exMachine with rand := exRand } 5 (argvOf ["-genben", "-var", "2", "-clause", "2", "-clausesize", "2", "-domain", "3",
      "-bool", "1", "-file", "g"]) exDisk >>= fun r1 =>
      Orig.orunSolver { Orig.exWorld Orig.exWrong with files := r1.2.files } 60
        (Orig.Mode.ch.arg :: [Orig.OOpt.file "g".toList, .var 2, .clause 2].flatMap Orig.OOpt.args)).passes
        (fun r => match r with | some (.report rep) => decide (rep.answer = .SAT) | _ => false) = true := by
  refine ⟨?_, by decide +kernel, by decide +kernel⟩
  intro o ho
  simp at ho
  rcases ho with rfl | rfl | rfl | rfl | rfl | rfl <;> simp [GenOpt.Ok, FileLine.Small]

end Mvl
