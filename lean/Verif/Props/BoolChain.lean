import Verif.Props.Program
import Verif.Props.RandomSat

/-!
# Boolean benchmarks through three runs

C107: `-genben` without `-bool 1` writes a DIMACS file, `-b2f` converts it, a solver answers.
-/

namespace Mvl

variable {S : Type}

/-- The numbers given to `-genben` fit into an `int`. -/
theorem last_small {os : List GenOpt} {ex : GenOpt → Option Int} {dflt : Int} {n : Nat}
    (hx : ∀ o ∈ os, ∀ x, ex o = some x → x ≤ 2147483647) (hdf : dflt ≤ 2147483647)
    (e : (n : Int) = (os.filterMap ex).getLast?.getD dflt) : FileLine.Small n := by
  unfold FileLine.Small
  cases hg : (os.filterMap ex).getLast? with
  | none => rw [hg] at e; simp only [Option.getD_none] at e; omega
  | some y =>
    rw [hg] at e
    simp only [Option.getD_some] at e
    obtain ⟨o, ho, hy⟩ := List.mem_filterMap.1 (List.mem_of_getLast? hg)
    have := hx o ho y hy
    omega

/-- The variables of the formula are numbered `1..N` without a gap. -/
def NoGap (cs : List (List Int)) : Prop := ∃ N, ∀ v, BUses cs v ↔ 1 ≤ v ∧ v ≤ N

/-- What `-genben` writes for a Boolean formula with clauses of 1 to 230 literals. -/
theorem generated_bool {m : Machine S} {d d1 : Disk} {f1 : Nat} {os : List GenOpt} (hos : ∀ o ∈ os, o.Ok) {a : List Char}
    (hout : (os.filterMap GenOpt.fileOf).getLast? = some a)
    (hb : (os.filterMap GenOpt.boolOf).getLast?.getD false = false)
    {nv nc k : Nat} (hv : (os.filterMap GenOpt.varOf).getLast?.getD (-1) = nv)
    (hc : (os.filterMap GenOpt.clauseOf).getLast?.getD (-1) = nc)
    (hz : (os.filterMap GenOpt.sizeOf).getLast?.getD 3 = k) (hk : 1 ≤ k) (hk' : k ≤ 230)
    (hrun : runMain m f1 ("-genben".toList :: os.flatMap GenOpt.args) d = .ok (.written, d1)) :
    ∃ cs : List (List Int), d1 = d.write a (bFileText (.problem nv nc :: cs.map .clause)) ∧ cs.length = nc ∧
      (∀ cl ∈ cs, SizedClause nv k cl ∧ cl.Nodup) ∧ FileLine.Small nv ∧ FileLine.Small nc := by
  obtain ⟨c, hl, hcmd, e1, e2, e3, e4, e5, e6, e7, e8⟩ := C95_genben os hos
  unfold runMain at hrun
  rw [hl, Res.ok_bind, hcmd] at hrun
  dsimp only at hrun
  obtain ⟨t, ht, h2⟩ := Res.bind_eq_ok.1 hrun
  rw [e8, hout] at h2
  dsimp only at h2
  have hd1 : d1 = d.write a t := by
    split at h2
    · cases h2; rfl
    · cases h2
  clear h2
  subst hd1
  rw [hv] at e1
  rw [hc] at e2
  rw [hz] at e3
  obtain ⟨cs, rfl, h1, h2, -⟩ := C33_bool_partial (by rw [e7, hb]) (by rw [e1]; omega) (by rw [e3]; omega) ht
  have sm : ∀ {n : Nat}, FileLine.Small n → (n : Int) ≤ 2147483647 := by
    intro n h; unfold FileLine.Small at h; omega
  refine ⟨cs, ?_, by omega, fun cl hcl => ⟨⟨?_, fun x hx => ?_⟩, (h2 cl hcl).2.1⟩, ?_, ?_⟩
  · rw [e1, e2]; rfl
  · have := (h2 cl hcl).1; omega
  · have := (h2 cl hcl).2.2 x hx; omega
  · exact last_small (ex := GenOpt.varOf) (by
      intro o ho x hx
      cases o <;> cases hx
      exact sm (hos _ ho)) (by decide) hv.symm
  · exact last_small (ex := GenOpt.clauseOf) (by
      intro o ho x hx
      cases o <;> cases hx
      exact sm (hos _ ho)) (by decide) hc.symm

/-- **C107.** Three runs of the program: `-genben` for a Boolean formula with at least one clause and clauses of 1 to 230 literals
into `a`, `-b2f` from `a` into `b`, a solver on `b`.  Whatever `rand()` returns, if the first run writes the file, it holds a
formula of the size asked for, the second run succeeds, and no other file changes.  If the formula uses the variables `1..N`
without a gap, every answer the solver prints is right for it, the lines printed as the model are one without `-lazy`, and with
a clock that is never late there is an answer.  If there is a gap, no run of any solver gets to an answer. (Missing: that the
solver always answers, which is false because of the gaps; longer clauses, `C31_long_fails`.) -/
theorem C107_three_runs_partial {m : Machine S} (hs : ∃ pos, m.arith.Good pos) {d d1 : Disk} {f1 : Nat} {os : List GenOpt}
    (hos : ∀ o ∈ os, o.Ok) {a b : List Char} (hab : a ≠ b) (hwb : d.canWrite b = true)
    (hout : (os.filterMap GenOpt.fileOf).getLast? = some a)
    (hb : (os.filterMap GenOpt.boolOf).getLast?.getD false = false)
    {nv nc k : Nat} (hv : (os.filterMap GenOpt.varOf).getLast?.getD (-1) = nv)
    (hc : (os.filterMap GenOpt.clauseOf).getLast?.getD (-1) = nc) (hc1 : 1 ≤ nc)
    (hz : (os.filterMap GenOpt.sizeOf).getLast?.getD 3 = k) (hk : 1 ≤ k) (hk' : k ≤ 230)
    (hrun : runMain m f1 ("-genben".toList :: os.flatMap GenOpt.args) d = .ok (.written, d1)) (f2 : Nat) :
    ∃ (cs : List (List Int)) (d2 : Disk), d1.files a = some (bFileText (.problem nv nc :: cs.map .clause)) ∧ cs.length = nc ∧
      (∀ cl ∈ cs, SizedClause nv k cl ∧ cl.Nodup) ∧
      runMain m f2 ["-b2f".toList, "-file".toList, a, "-model".toList, b] d1 = .ok (.written, d2) ∧
      (∀ name, name ≠ a → name ≠ b → d2.files name = d.files name) ∧
      ∀ {argv : List (List Char)} {cl : CommandLine}, parseCommandLine argv = .ok cl →
        command argv = .solvech ∨ command argv = .solvenc → cl.FILE = some b →
        (NoGap cs →
          (∀ fuel rep d3, runMain m fuel argv d2 = .ok (.solved (.report rep), d3) → Decided cs (cl.heuristic == .lazy) rep) ∧
          (0 ≤ cl.CLAUSE_SIZE → (∀ k, m.late cl.TIME k = false) →
            ∃ rep f0, (∀ fuel, f0 ≤ fuel → runMain m fuel argv d2 = .ok (.solved (.report rep), d2)) ∧
              (rep.answer = .SAT ↔ BSatisfiable cs) ∧ (rep.answer = .UNSAT ↔ ¬ BSatisfiable cs))) ∧
        (¬ NoGap cs → 0 ≤ cl.CLAUSE_SIZE → ∀ fuel, runMain m fuel argv d2 = .ub) := by
  obtain ⟨cs, rfl, h1, h2, sn, sm⟩ := generated_bool hos hout hb hv hc hz hk hk' hrun
  have hl := sized_lines sn sm hk' fun c hc => (h2 c hc).1
  have hbc := bClauses_clauses nv nc cs
  have hne : bClauses (.problem nv nc :: cs.map .clause) ≠ [] := by
    rw [hbc]; rintro rfl; simp at h1; omega
  have hopen : ∀ c ∈ bClauses (.problem nv nc :: cs.map .clause), c ≠ [] ∧ (openClauseText (finClause c)).length < 3000 := by
    rw [hbc]
    intro c hc
    refine ⟨?_, sized_open sn hk' (h2 c hc).1⟩
    rintro rfl
    have := (h2 _ hc).1.1
    simp at this
    omega
  have hnd : BNoDup (bClauses (.problem nv nc :: cs.map .clause)) := by
    rw [hbc]; exact fun c hc => (h2 c hc).2
  obtain ⟨_, -, -, eout⟩ := boolean2Finite_text hl hne
  obtain ⟨txt, hB⟩ : ∃ txt, boolean2Finite (bFileText (.problem nv nc :: cs.map .clause)) = .ok txt := ⟨_, eout⟩
  obtain ⟨c2, q1, -, q2, q3⟩ := C95_convert [.file a, .model b]
    (by intro o ho; simp at ho; rcases ho with rfl | rfl <;> trivial) (cmd := "-b2f".toList) (.inl rfl)
  have q2 : c2.FILE = some a := q2
  have q3 : c2.MODEL_FILE = some b := q3
  obtain ⟨d2, s1, s2, s3, s4⟩ := C96_converted_partial (m := m) (fuel := f2)
    (d := d.write a (bFileText (.problem nv nc :: cs.map .clause))) q1 (.inl rfl) q2 write_same q3 hwb hab hB
  refine ⟨cs, d2, write_same, h1, h2, s1, fun name ha hb => (s4 name hb).trans (write_other ha), ?_⟩
  intro argv cl hl' hcmd hf
  have hrun : ∃ algo, Selectable (CommandLine.cfg cl (⟨m.arith, m.late, d2.files⟩ : World S)) algo ∧
      ∀ fuel, runMain m fuel argv d2 = solveOnDisk m fuel cl algo d2 := by
    obtain ⟨k1, k2⟩ := C23_options hl'
    rcases hcmd with hcmd | hcmd
    · refine ⟨.chrono, ?_, fun fuel => ?_⟩
      · obtain ⟨g1, g2, g3⟩ := k2 hcmd
        refine ⟨g1, ?_⟩
        show cl.heuristic = _ ∨ cl.heuristic = _
        cases e : cl.heuristic <;> simp_all
      · unfold runMain; rw [hl', hcmd]; rfl
    · refine ⟨.learn, k1, fun fuel => ?_⟩
      unfold runMain; rw [hl', hcmd]; rfl
  obtain ⟨algo, hsel, hrun⟩ := hrun
  have hgo : ∀ fuel, 0 ≤ cl.CLAUSE_SIZE → runMain m fuel argv d2 =
      (solveFile (CommandLine.cfg cl (⟨m.arith, m.late, d2.files⟩ : World S)) algo fuel txt >>= fun r => .ok (.solved (.report r), d2)) := by
    intro fuel hcs
    rw [hrun]
    unfold solveOnDisk solveNamed
    rw [hf]
    dsimp only
    rw [s2]
    dsimp only
    rw [if_neg (by intro h; omega)]
    cases solveFile (CommandLine.cfg cl (⟨m.arith, m.late, d2.files⟩ : World S)) algo fuel txt <;> rfl
  refine ⟨?_, fun hg hcs fuel => ?_⟩
  · rintro ⟨N, hN⟩
    rw [← hbc] at hN
    refine ⟨fun fuel rep d3 hr => ?_, fun hcs hclock => ?_⟩
    · obtain ⟨out, e1, e2⟩ := C66_b2f_solve_partial hsel hs hl hN hne hopen fun _ => hnd
      rw [hB] at e1
      cases e1
      rw [hrun] at hr
      obtain ⟨o, g1, g2⟩ := Res.bind_eq_ok.1 hr
      cases g2
      have := e2 fuel rep ?_
      · rw [hbc] at this
        exact this
      unfold solveNamed at g1
      rw [hf] at g1
      dsimp only at g1
      rw [s2] at g1
      dsimp only at g1
      split at g1
      · cases g1
      · obtain ⟨r, g3, g4⟩ := Res.bind_eq_ok.1 g1
        cases g4
        exact g3
    · obtain ⟨out, rep, f0, e1, e2, e3⟩ := C66_b2f_answers_partial hsel hs hclock hl hN hne hopen hnd
      rw [hB] at e1
      cases e1
      rw [hbc] at e3
      refine ⟨rep, f0, fun fuel hfu => ?_, e3⟩
      rw [hgo fuel hcs, e2 fuel hfu]
      rfl
  · obtain ⟨out, e1, e2, -⟩ := C31_gap_fails hl hne (fun c hc => (hopen c hc).2) (by rw [hbc]; exact hg)
    rw [hB] at e1
    cases e1
    rw [hgo fuel hcs, e2]
    rfl

/-- Options that meet the hypotheses of C107. -/
example : let os : List GenOpt := [.var 2, .clause 2, .clausesize 2, .file "g".toList]
    (os.filterMap GenOpt.boolOf).getLast?.getD false = false ∧ (os.filterMap GenOpt.varOf).getLast?.getD (-1) = (2 : Nat) ∧
    (os.filterMap GenOpt.clauseOf).getLast?.getD (-1) = (2 : Nat) ∧ (os.filterMap GenOpt.sizeOf).getLast?.getD 3 = (2 : Nat) := by
  decide

/-- Three runs for them: the formula has no gap, and the answer is SAT. -/
example : ((runMain { exMachine with rand := exRand } 5 (argvOf ["-genben", "-var", "2", "-clause", "2", "-clausesize", "2",
      "-file", "g"]) exDisk >>= fun r1 =>
      runMain exMachine 0 (argvOf ["-b2f", "-file", "g", "-model", "c"]) r1.2 >>= fun r2 =>
      runMain exMachine 60 (argvOf ["-solvenc", "-file", "c"]) r2.2).passes
        (fun r => match r.1 with | .solved (.report rep) => decide (rep.answer = .SAT) | _ => false) = true) := by
  decide +kernel

/-- **C107, `-sat 1`**: three runs after which the solver says UNSAT although a satisfiable formula was asked for (`C33_fails`). -/
theorem C107_sat_fails : (runMain { exMachine with rand := fun i => [1, 1, 0, 0, 0].getD i 0 } 5 (argvOf ["-genben", "-var", "1",
      "-clause", "2", "-clausesize", "1", "-sat", "1", "-file", "g"]) exDisk >>= fun r1 =>
      runMain exMachine 0 (argvOf ["-b2f", "-file", "g", "-model", "c"]) r1.2 >>= fun r2 =>
      runMain exMachine 60 (argvOf ["-solvenc", "-file", "c"]) r2.2).passes
        (fun r => match r.1 with | .solved (.report rep) => decide (rep.answer = .UNSAT) | _ => false) = true := by
  decide +kernel

/-- **C107, a gap**: one clause over variable 2 of two; every solver has undefined behaviour on the converted file. -/
theorem C107_gap_witness (solver : String) (hsv : solver ∈ ["-solvech", "-solvenc"]) :
    (runMain { exMachine with rand := fun i => [1, 1, 1, 1, 1].getD i 0 } 5 (argvOf ["-genben", "-var", "2",
      "-clause", "1", "-clausesize", "1", "-file", "g"]) exDisk >>= fun r1 =>
      runMain exMachine 0 (argvOf ["-b2f", "-file", "g", "-model", "c"]) r1.2 >>= fun r2 =>
      runMain exMachine 60 (argvOf [solver, "-file", "c"]) r2.2) = .ub := by
  simp only [List.mem_cons, List.not_mem_nil, or_false] at hsv
  rcases hsv with rfl | rfl <;> rfl

end Mvl
