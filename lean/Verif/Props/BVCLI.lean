import Verif.Model.BVCLI
import Verif.Props.BitVec
import Verif.Props.CLI

/-!
# The bit-vector program from its command line to its answer

C64: the options of the bit-vector program are honoured, in any order.  C65: what it prints for a file in the documented
format is right (false with `-restart`).
-/

namespace Mvl.BV

variable {S : Type}

/-! ## C64 -/

/-- The options the help text of the program names (/repo/bitvec/Global.cc:63-73) and `-restart`, `-vsids`, `-wl`. -/
inductive BOpt where
  | file (name : List Char)
  | time (n : Nat)
  | restart (n : Nat)
  | var (n : Nat)
  | clause (n : Nat)
  | vsids
  | wl
deriving DecidableEq, Repr

namespace BOpt

/-- How the option is written. -/
def args : BOpt → List (List Char)
  | file n => ["-file".toList, n]
  | time n => ["-time".toList, natText n]
  | restart n => ["-restart".toList, natText n]
  | var n => ["-var".toList, natText n]
  | clause n => ["-clause".toList, natText n]
  | vsids => ["-vsids".toList]
  | wl => ["-wl".toList]

def fileOf : BOpt → Option (List Char)
  | file n => some n
  | _ => none

def timeOf : BOpt → Option Int
  | time n => some n
  | _ => none

def restartOf : BOpt → Option Int
  | restart n => some n
  | _ => none

def Ok : BOpt → Prop
  | time n => FileLine.Small n
  | restart n => FileLine.Small n
  | var n => FileLine.Small n
  | clause n => FileLine.Small n
  | _ => True

end BOpt

/-- Reading options of the bit-vector program. -/
theorem bparse_opts : ∀ (os : List BOpt) (c : BLine), (∀ o ∈ os, o.Ok) →
    ∃ c', parseOpts bsolvencOpt c (os.flatMap BOpt.args) = .ok c' ∧
      c'.TIME = (os.filterMap BOpt.timeOf).getLast?.getD c.TIME ∧
      c'.FILE = ((os.filterMap BOpt.fileOf).map some).getLast?.getD c.FILE ∧
      c'.RESTARTS = (os.filterMap BOpt.restartOf).getLast?.getD c.RESTARTS ∧
      c'.VSIDS = (c.VSIDS || decide (BOpt.vsids ∈ os)) ∧
      c'.CLAUSE_SIZE = c.CLAUSE_SIZE ∧ c'.MODEL = c.MODEL
  | [], c, _ => ⟨c, rfl, rfl, rfl, rfl, by simp, rfl, rfl⟩
  | o :: os, c, h => by
    have ho := h o (.head _)
    have hos := fun o' h' => h o' (.tail _ h')
    cases o with
    | file n =>
      obtain ⟨c', h1, h2, h3, h4, h5, h6⟩ := bparse_opts os { c with FILE := some n } hos
      refine ⟨c', ?_, h2, ?_, h4, ?_, h6⟩
      · rw [List.flatMap_cons, ← h1]; rfl
      · rw [h3]
        show _ = (some n :: _).getLast?.getD _
        rw [getLast_cons_getD]
      · rw [h5]; simp
    | time n =>
      obtain ⟨c', h1, h2, h3, h4, h5, h6⟩ := bparse_opts os { c with TIME := n } hos
      refine ⟨c', ?_, ?_, h3, h4, ?_, h6⟩
      · rw [List.flatMap_cons, ← h1]
        exact parseOpts_num (opt := bsolvencOpt) (o := "-time".toList) (f := fun c n => { c with TIME := n }) rfl (atoi_nat ho)
      · rw [h2]
        show _ = ((n : Int) :: _).getLast?.getD _
        rw [getLast_cons_getD]
      · rw [h5]; simp
    | restart n =>
      obtain ⟨c', h1, h2, h3, h4, h5, h6⟩ := bparse_opts os { c with RESTARTS := n } hos
      refine ⟨c', ?_, h2, h3, ?_, ?_, h6⟩
      · rw [List.flatMap_cons, ← h1]
        exact parseOpts_num (opt := bsolvencOpt) (o := "-restart".toList) (f := fun c n => { c with RESTARTS := n }) rfl
          (atoi_nat ho)
      · rw [h4]
        show _ = ((n : Int) :: _).getLast?.getD _
        rw [getLast_cons_getD]
      · rw [h5]; simp
    | var n =>
      obtain ⟨c', h1, h2, h3, h4, h5, h6⟩ := bparse_opts os { c with NUM_VAR := n } hos
      refine ⟨c', ?_, h2, h3, h4, ?_, h6⟩
      · rw [List.flatMap_cons, ← h1]
        exact parseOpts_num (opt := bsolvencOpt) (o := "-var".toList) (f := fun c n => { c with NUM_VAR := n }) rfl (atoi_nat ho)
      · rw [h5]; simp
    | clause n =>
      obtain ⟨c', h1, h2, h3, h4, h5, h6⟩ := bparse_opts os { c with NUM_CLAUSE := n } hos
      refine ⟨c', ?_, h2, h3, h4, ?_, h6⟩
      · rw [List.flatMap_cons, ← h1]
        exact parseOpts_num (opt := bsolvencOpt) (o := "-clause".toList) (f := fun c n => { c with NUM_CLAUSE := n }) rfl
          (atoi_nat ho)
      · rw [h5]; simp
    | vsids =>
      obtain ⟨c', h1, h2, h3, h4, h5, h6⟩ := bparse_opts os { c with VSIDS := true } hos
      refine ⟨c', ?_, h2, h3, h4, ?_, h6⟩
      · rw [List.flatMap_cons, ← h1]; rfl
      · rw [h5]; simp
    | wl =>
      obtain ⟨c', h1, h2, h3, h4, h5, h6⟩ := bparse_opts os { c with WATCH := true } hos
      refine ⟨c', ?_, h2, h3, h4, ?_, h6⟩
      · rw [List.flatMap_cons, ← h1]; rfl
      · rw [h5]; simp

/-- **C64.** Whatever the order and number of the options after `-solvenc`, the last `-file`, `-time` and `-restart` are
the ones used, and the VSIDS heuristic exactly when `-vsids` is given. -/
theorem C64_bitvec_options (os : List BOpt) (h : ∀ o ∈ os, o.Ok) (w : World S) :
    ∃ c, bparseCommandLine ("-solvenc".toList :: os.flatMap BOpt.args) = .ok c ∧
      c.FILE = (os.filterMap BOpt.fileOf).getLast? ∧ 0 ≤ c.CLAUSE_SIZE ∧
      ((c.cfg w).vsids = true ↔ BOpt.vsids ∈ os) ∧
      (c.cfg w).restarts = (os.filterMap BOpt.restartOf).getLast?.getD 0 ∧
      (c.cfg w).late = w.late ((os.filterMap BOpt.timeOf).getLast?.getD 3600) := by
  obtain ⟨c', h1, h2, h3, h4, h5, h6, _⟩ := bparse_opts os {} h
  refine ⟨c', h1, ?_, ?_, ?_, h4, ?_⟩
  · rw [h3, List.getLast?_map]
    cases (os.filterMap BOpt.fileOf).getLast? <;> rfl
  · rw [h6]; decide
  · show c'.VSIDS = true ↔ _
    rw [h5]; simp
  · show w.late c'.TIME = _
    rw [h2]

example : ∀ o ∈ [BOpt.restart 3, .time 7, .vsids, .file "-wl".toList, .time 9, .wl, .restart 0], o.Ok := by
  simp [BOpt.Ok, FileLine.Small]

/-- The menu is shown, and nothing solved, unless the first argument is `-solvenc`. -/
theorem bitvec_menu {w : World S} {fuel : Nat} {argv : List (List Char)} (h : argv.head? ≠ some "-solvenc".toList) :
    brunSolver w fuel argv = .ok none := by
  have hb : bsolves argv = false := by
    cases argv with
    | nil => rfl
    | cons a as =>
      show decide _ = false
      rw [decide_eq_false_iff_not]
      rintro rfl
      exact h rfl
  unfold brunSolver bparseCommandLine
  rw [hb]; rfl

example : (argvOf ["-solvech", "-file", "a"]).head? ≠ some "-solvenc".toList := by decide

/-! ## C65 -/

/-- The command line names a file in the documented format that describes a well-formed formula with domains of at most 64
values. -/
structure BInput (w : World S) (argv : List (List Char)) (c : BLine) (P : Problem) : Prop where
  cmd  : argv.head? = some "-solvenc".toList
  line : bparseCommandLine argv = .ok c
  file : ∃ name ls, c.FILE = some name ∧ w.files name = some (fileText ls) ∧ Describes ls P
  wf   : P.Regular
  fits : Fits P

theorem BInput.solves {w : World S} {argv : List (List Char)} {c : BLine} {P : Problem} (h : BInput w argv c P) (fuel : Nat) :
    brunSolver w fuel argv = (bsolveNamed w fuel c).bind fun r => .ok (some r) := by
  have hb : bsolves argv = true := by
    have := h.cmd
    cases argv with
    | nil => cases this
    | cons a as => cases this; rfl
  unfold brunSolver
  rw [h.line, hb]; rfl

theorem BInput.named {w : World S} {argv : List (List Char)} {c : BLine} {P : Problem}
    (h : BInput w argv c P) (hc : 0 ≤ c.CLAUSE_SIZE) (fuel : Nat) :
    bsolveNamed w fuel c = (bsolve (c.cfg w) fuel P).bind fun r => .ok (.report r) := by
  obtain ⟨name, ls, h1, h2, h3⟩ := h.file
  unfold bsolveNamed
  rw [h1]; dsimp only
  rw [h2]; dsimp only
  rw [if_neg (by intro h; omega), bsolveFile_describes _ _ h3]
  rfl

theorem BInput.report {w : World S} {argv : List (List Char)} {c : BLine} {P : Problem}
    (h : BInput w argv c P) {fuel : Nat} {rep : BReport}
    (hr : brunSolver w fuel argv = .ok (some (.report rep))) : bsolve (c.cfg w) fuel P = .ok rep := by
  rw [h.solves] at hr
  have hr : bsolveNamed w fuel c = .ok (.report rep) := by
    cases e : bsolveNamed w fuel c <;> rw [e] at hr <;> cases hr
    rfl
  by_cases hc : 0 ≤ c.CLAUSE_SIZE
  · rw [h.named hc] at hr
    cases e : bsolve (c.cfg w) fuel P <;> rw [e] at hr <;> cases hr
    rfl
  · obtain ⟨name, ls, h1, h2, h3⟩ := h.file
    unfold bsolveNamed at hr
    rw [h1] at hr; dsimp only at hr
    rw [h2] at hr; dsimp only at hr
    split at hr
    · cases hr
    · rw [bsolveFile_describes _ _ h3] at hr
      cases e : bsolve (c.cfg w) fuel P <;> rw [e] at hr <;> cases hr
      rfl

/-- **C65**, without `-restart`: whatever other options are given, SAT and UNSAT are right, and after SAT the domains
printed are not empty and every choice from them solves the formula. (The full claim has no restriction on `-restart`, and
fails without it: `C65_restart_fails`.) -/
theorem C65_bitvec_partial {w : World S} {argv : List (List Char)} {c : BLine} {P : Problem} (h : BInput w argv c P)
    (hs : (c.cfg w).ScoreOK) (hrs : c.RESTARTS ≤ 0) {fuel : Nat} {rep : BReport}
    (hr : brunSolver w fuel argv = .ok (some (.report rep))) :
    (rep.answer = .SAT → P.Satisfiable ∧
      (∀ v, 1 ≤ v → v ≤ P.numVars → ∃ b j, rep.model[v]? = some b ∧ b.getLsbD j = true) ∧
      ∀ a : Assignment, (∀ v, 1 ≤ v → v ≤ P.numVars → ∃ b, rep.model[v]? = some b ∧ b.getLsbD (a v) = true) → P.Solves a) ∧
    (rep.answer = .UNSAT → ¬ P.Satisfiable) := by
  have hb := h.report hr
  exact ⟨fun ha => ⟨C54_bitvec_satisfiable_partial hs hrs h.wf h.fits hb ha, C54_bitvec_sat_partial hs hrs h.wf h.fits hb ha⟩,
    C55_bitvec_unsat_partial hs hrs h.wf h.fits hb⟩

/-- **C65**, with any options: if the self-check printed CORRECT the formula is satisfiable, and the statistics are exact. -/
theorem C65_bitvec_checked {w : World S} {argv : List (List Char)} {c : BLine} {P : Problem} (h : BInput w argv c P)
    (hs : (c.cfg w).ScoreOK) {fuel : Nat} {rep : BReport} (hr : brunSolver w fuel argv = .ok (some (.report rep))) :
    (rep.verified = some true →
      (∀ v, 1 ≤ v → v ≤ P.numVars → ∃ b j, rep.model[v]? = some b ∧ b.getLsbD j = true) ∧
      ∀ a : Assignment, (∀ v, 1 ≤ v → v ≤ P.numVars → ∃ b, rep.model[v]? = some b ∧ b.getLsbD (a v) = true) → P.Solves a) ∧
    rep.variables = P.numVars ∧ rep.clauses = P.clauses.length + rep.backtracks := by
  have hb := h.report hr
  exact ⟨C54_bitvec_checked hs h.wf h.fits hb, (C58_bitvec_counts hs h.wf h.fits hb).1, (C58_bitvec_counts hs h.wf h.fits hb).2.1⟩

/-- **C65**, with `-vsids` and any other options, also `-restart`: SAT is right, and after SAT the domains printed are not
empty and every choice from them solves the formula. (Missing: UNSAT, which is wrong on some file with `-restart`.) -/
theorem C65_bitvec_vsids_partial {w : World S} {argv : List (List Char)} {c : BLine} {P : Problem} (h : BInput w argv c P)
    (hs : (c.cfg w).ScoreOK) (hvs : c.VSIDS = true) {fuel : Nat} {rep : BReport}
    (hr : brunSolver w fuel argv = .ok (some (.report rep))) (ha : rep.answer = .SAT) :
    P.Satisfiable ∧ (∀ v, 1 ≤ v → v ≤ P.numVars → ∃ b j, rep.model[v]? = some b ∧ b.getLsbD j = true) ∧
      ∀ a : Assignment, (∀ v, 1 ≤ v → v ≤ P.numVars → ∃ b, rep.model[v]? = some b ∧ b.getLsbD (a v) = true) → P.Solves a := by
  have hb := h.report hr
  exact ⟨C54_bitvec_vsids_satisfiable hs hvs h.wf h.fits hb ha, C54_bitvec_vsids_partial hs hvs h.wf h.fits hb ha⟩

/-- **C65**, an answer is printed: without `-restart`, with at most one clause about a single variable, a clock that is
never late and a `-clausesize` that is not negative. -/
theorem C65_bitvec_answers_partial {w : World S} {argv : List (List Char)} {c : BLine} {P : Problem} (h : BInput w argv c P)
    (hs : (c.cfg w).ScoreOK) (hrs : c.RESTARTS ≤ 0) (hsz : 0 ≤ c.CLAUSE_SIZE) (hclock : ∀ k, w.late c.TIME k = false)
    (hone : ∀ i j, (hi : i < P.clauses.length) → (hj : j < P.clauses.length) →
      (∀ l ∈ P.clauses[i], ∀ l' ∈ P.clauses[i], l.var = l'.var) →
      (∀ l ∈ P.clauses[j], ∀ l' ∈ P.clauses[j], l.var = l'.var) → i = j) :
    ∃ rep f0, (∀ fuel, f0 ≤ fuel → brunSolver w fuel argv = .ok (some (.report rep))) ∧
      (rep.answer = .SAT ↔ P.Satisfiable) ∧ (rep.answer = .UNSAT ↔ ¬ P.Satisfiable) := by
  obtain ⟨rep, f0, h1, h2⟩ := C56_bitvec_decides_partial (cfg := c.cfg w) hs hrs hclock h.wf h.fits hone
  refine ⟨rep, f0, ?_, h2⟩
  intro fuel hf
  rw [h.solves, h.named hsz, h1 fuel hf]
  rfl

/-- A directory with the file of `exUns` (`C55_restart_fails`) and the one of the other program's example. -/
def exWorldB : World (Option (Nat × Nat)) where
  arith := ScoreArith.dyadic
  late := fun _ _ => false
  files := fun n => if n = "a".toList then some (fileText exFile) else if n = "b".toList then some (fileText exUns.file)
    else none

theorem exInputB : BInput exWorldB (argvOf ["-solvenc", "-vsids", "-file", "a", "-time", "5"])
    { FILE := some "a".toList, VSIDS := true, TIME := 5 } ⟨[2, 12], [[⟨1, 0, true⟩, ⟨2, 11, false⟩], [⟨2, 10, true⟩]]⟩ :=
  ⟨rfl, by decide, ⟨"a".toList, exFile, rfl, rfl, by decide, by decide, ⟨rfl, rfl, rfl⟩, rfl, rfl⟩, by decide, by decide⟩

example : ∃ rep, brunSolver exWorldB 30 (argvOf ["-solvenc", "-vsids", "-file", "a", "-time", "5"]) =
    .ok (some (.report rep)) ∧ rep.answer = .SAT := by
  have h : (brunSolver exWorldB 30 (argvOf ["-solvenc", "-vsids", "-file", "a", "-time", "5"])).passes
      (fun r => match r with | some (.report rep) => decide (rep.answer = .SAT) | _ => false) = true := by decide +kernel
  obtain ⟨r, h1, h2⟩ := Res.of_passes h
  match r, h2 with
  | some (.report rep), h2 => exact ⟨rep, h1, of_decide_eq_true h2⟩

/-- A command line with `-vsids` and `-restart` after which a satisfiable file is answered SAT after a restart. -/
example : (brunSolver { exWorldB with files := fun _ => some (fileText exRestart.file) } 100
    (argvOf ["-solvenc", "-restart", "1", "-vsids", "-file", "b"])).passes
      (fun r => match r with | some (.report rep) => decide (rep.answer = .SAT ∧ 0 < rep.restarts) | _ => false) = true := by
  decide +kernel

/-- **C65 fails with `-restart`**: `-solvenc -restart 2 -file b` prints UNSAT for a satisfiable file. -/
theorem C65_restart_fails : BInput exWorldB (argvOf ["-solvenc", "-restart", "2", "-file", "b"])
      { FILE := some "b".toList, RESTARTS := 2 } exUns ∧ exUns.Satisfiable ∧
    (brunSolver exWorldB 60 (argvOf ["-solvenc", "-restart", "2", "-file", "b"])).passes
      (fun r => match r with | some (.report rep) => decide (rep.answer = .UNSAT) | _ => false) = true :=
  ⟨⟨rfl, by decide, ⟨"b".toList, exUns.file, rfl, rfl, by decide, by decide, ⟨rfl, rfl, rfl, rfl, rfl, rfl, rfl, rfl, rfl⟩, rfl, rfl⟩, by decide, by decide⟩,
    C55_restart_fails.2.2.2.1, by decide +kernel⟩

end Mvl.BV
