import Verif.Model.CLI
import Verif.Props.Files
import Verif.Props.Agree

/-!
# Properties of the command line

C23 (every accepted combination of options has a decision rule), C24 (documented options are honoured; false
for `-restarts`) and the solver theorems stated for a command line and the characters of a file.
-/

namespace Mvl

variable {S : Type}

/-! ## C23 -/

/-- An option keeps a property of the settings. -/
def Keeps {C : Type} (Q : C → Prop) : Option (OptKind C) → Prop
  | none => True
  | some (.flag f) => ∀ c, Q c → Q (f c)
  | some (.num f) => ∀ c n, Q c → Q (f c n)
  | some (.text f) => ∀ c t, Q c → Q (f c t)

theorem Keeps.ite {C : Type} {Q : C → Prop} {p : Prop} [Decidable p] {a b : Option (OptKind C)} (ha : Keeps Q a)
    (hb : Keeps Q b) : Keeps Q (if p then a else b) := by
  split <;> assumption

/-- A property kept by the options of a command holds after reading any arguments. -/
theorem parseOpts_keeps {C : Type} {opt : List Char → Option (OptKind C)} {Q : C → Prop}
    (hk : ∀ o, Keeps Q (opt o)) {c' : C} :
    ∀ (args : List (List Char)) (c : C), Q c → parseOpts opt c args = .ok c' → Q c'
  | [], c, hc, h => by
    rw [parseOpts] at h; cases h; exact hc
  | o :: args, c, hc, h => by
    have hq := hk o
    rw [parseOpts.eq_def] at h
    dsimp only at h
    split at h
    · exact parseOpts_keeps hk args c hc h
    · rename_i f e
      rw [e] at hq
      exact parseOpts_keeps hk args _ (hq c hc) h
    · rename_i f e
      rw [e] at hq
      cases args with
      | nil => cases h
      | cons a args =>
        dsimp only at h
        split at h
        · exact parseOpts_keeps hk args _ (hq c _ hc) h
        · cases h
        · cases h
    · rename_i f e
      rw [e] at hq
      cases args with
      | nil => cases h; exact hq c none hc
      | cons a args => exact parseOpts_keeps hk args _ (hq c _ hc) h

/-- What `-solvech` can select. -/
def ChronoLine (c : CommandLine) : Prop := c.WATCH = false ∧ (c.heuristic = .BK ∨ c.heuristic = .lazy)

/-- What `-solvenc` can select. -/
def LearnLine (c : CommandLine) : Prop := c.WATCH = true → c.heuristic ≠ .BK

theorem genben_keeps (o : List Char) : Keeps (fun c => c.WATCH = false) (genbenOpt o) := by
  unfold genbenOpt
  repeat' apply Keeps.ite
  all_goals first | exact fun _ _ h => h | trivial

theorem conv_keeps (o : List Char) : Keeps (fun c => c.WATCH = false) (convOpt o) := by
  unfold convOpt
  repeat' apply Keeps.ite
  all_goals first | exact fun _ _ h => h | trivial

theorem solvech_keeps (o : List Char) : Keeps ChronoLine (solvechOpt o) := by
  unfold solvechOpt
  repeat' apply Keeps.ite
  all_goals first | exact fun _ _ h => h | exact fun _ h => h | exact fun _ h => ⟨h.1, .inr rfl⟩ | trivial

theorem solvenc_keeps (o : List Char) : Keeps LearnLine (solvencOpt o) := by
  unfold solvencOpt
  repeat' apply Keeps.ite
  all_goals first | exact fun _ _ h => h | exact fun _ h => h | trivial | skip
  · intro c _ _ hb
    by_cases e : c.heuristic = .BK
    · simp [e] at hb
    · simp [e] at hb
  all_goals exact fun _ _ _ h => by cases h

/-- **C23.** After reading any command line, `-wl` is not combined with the default heuristic BK, and `-solvech`
is combined neither with `-wl` nor with a VSIDS heuristic. -/
theorem C23_options {argv : List (List Char)} {c : CommandLine} (h : parseCommandLine argv = .ok c) :
    ¬ (c.WATCH = true ∧ c.heuristic = .BK) ∧
    (command argv = .solvech → c.WATCH = false ∧ c.heuristic ≠ .VSIDS ∧ c.heuristic ≠ .VSIDS_pos) := by
  have key : ∀ {b : Bool} {x : Heuristic}, b = false → ¬ (b = true ∧ x = .BK) := by
    rintro b x h ⟨h', _⟩; rw [h] at h'; cases h'
  unfold parseCommandLine at h
  cases hc : command argv <;> rw [hc] at h
  · exact ⟨key (parseOpts_keeps (opt := fun _ => none) (Q := fun c : CommandLine => c.WATCH = false) (fun _ => trivial) _ {} rfl h), by intro h; cases h⟩
  · exact ⟨key (parseOpts_keeps genben_keeps _ {} rfl h), by intro h; cases h⟩
  · exact ⟨key (parseOpts_keeps conv_keeps _ {} rfl h), by intro h; cases h⟩
  · exact ⟨key (parseOpts_keeps conv_keeps _ {} rfl h), by intro h; cases h⟩
  · exact ⟨key (parseOpts_keeps conv_keeps _ {} rfl h), by intro h; cases h⟩
  · obtain ⟨h1, h2⟩ := parseOpts_keeps solvech_keeps _ {} ⟨rfl, .inl rfl⟩ h
    refine ⟨key h1, fun _ => ⟨h1, ?_⟩⟩
    rcases h2 with h2 | h2 <;> rw [h2] <;> exact ⟨by decide, by decide⟩
  · exact ⟨fun hx => parseOpts_keeps solvenc_keeps _ {} (by intro h; cases h) h hx.1 hx.2, by intro h; cases h⟩

/-- The command line as the shell passes it. -/
def argvOf (l : List String) : List (List Char) := l.map String.toList

example : parseCommandLine (argvOf ["-solvenc", "-file", "a", "-wl", "-time", "5"]) =
    .ok { FILE := some "a".toList, WATCH := true, heuristic := .VSIDS, TIME := 5 } := by decide

example : parseCommandLine (argvOf ["-solvech", "-wl", "-vsids", "-lazy"]) = .ok { heuristic := .lazy } := by decide

/-! ## C24 -/

/-- The solver options of the README, /repo/README.md:100-111, and `-vsids_pos`; the number of `-restarts`
is left to `C24_restarts_fails`. -/
inductive SolverOpt where
  | file (name : List Char)
  | wl
  | time (n : Nat)
  | vsids
  | vsids_pos
  | lazy
deriving DecidableEq, Repr

namespace SolverOpt

/-- How the option is written. -/
def args : SolverOpt → List (List Char)
  | file n => ["-file".toList, n]
  | wl => ["-wl".toList]
  | time n => ["-time".toList, natText n]
  | vsids => ["-vsids".toList]
  | vsids_pos => ["-vsids_pos".toList]
  | lazy => ["-lazy".toList]

def fileOf : SolverOpt → Option (List Char)
  | file n => some n
  | _ => none

def timeOf : SolverOpt → Option Int
  | time n => some n
  | _ => none

def heurOf : SolverOpt → Option Heuristic
  | vsids => some .VSIDS
  | vsids_pos => some .VSIDS_pos
  | lazy => some .lazy
  | _ => none

def Ok : SolverOpt → Prop
  | time n => FileLine.Small n
  | _ => True

end SolverOpt

theorem getLast_cons_getD {α : Type} (a : α) (l : List α) (d : α) : (a :: l).getLast?.getD d = l.getLast?.getD a := by
  cases l with
  | nil => rfl
  | cons b l =>
    rw [List.getLast?_eq_some_getLast (by simp), List.getLast?_eq_some_getLast (by simp)]
    rfl

theorem atoi_nat {n : Nat} (h : FileLine.Small n) : atoi (natText n) = .ok (n : Int) := by
  unfold atoi
  rw [scanInt_nat' h]

theorem parseOpts_num {C : Type} {opt : List Char → Option (OptKind C)} {o a : List Char} {f : C → Int → C}
    {n : Int} {c : C} {args : List (List Char)} (ho : opt o = some (.num f)) (ha : atoi a = .ok n) :
    parseOpts opt c (o :: a :: args) = parseOpts opt (f c n) args := by
  rw [parseOpts, ho]
  dsimp only
  rw [ha]

/-- Reading documented options of `-solvenc`. -/
theorem parse_solvenc : ∀ (os : List SolverOpt) (c : CommandLine), (∀ o ∈ os, o.Ok) →
    ∃ c', parseOpts solvencOpt c (os.flatMap SolverOpt.args) = .ok c' ∧
      c'.TIME = (os.filterMap SolverOpt.timeOf).getLast?.getD c.TIME ∧
      c'.FILE = ((os.filterMap SolverOpt.fileOf).map some).getLast?.getD c.FILE ∧
      c'.WATCH = (c.WATCH || decide (SolverOpt.wl ∈ os)) ∧
      c'.heuristic = (os.filterMap SolverOpt.heurOf).getLast?.getD
        (if c.heuristic = .BK ∧ SolverOpt.wl ∈ os then .VSIDS else c.heuristic) ∧
      c'.RESTARTS = c.RESTARTS ∧ c'.CLAUSE_SIZE = c.CLAUSE_SIZE ∧ c'.MODEL = c.MODEL
  | [], c, _ => ⟨c, rfl, rfl, rfl, by simp, by simp, rfl, rfl, rfl⟩
  | o :: os, c, h => by
    have ho := h o (.head _)
    have hos := fun o' h' => h o' (.tail _ h')
    cases o with
    | file n =>
      obtain ⟨c', h1, h2, h3, h4, h5, h6⟩ := parse_solvenc os { c with FILE := some n } hos
      refine ⟨c', ?_, h2, ?_, ?_, ?_, h6⟩
      · rw [List.flatMap_cons, ← h1]; rfl
      · rw [h3]
        show _ = (some n :: _).getLast?.getD _
        rw [getLast_cons_getD]
      · rw [h4]; simp
      · rw [h5]; simp [SolverOpt.heurOf]
    | wl =>
      obtain ⟨c', h1, h2, h3, h4, h5, h6⟩ := parse_solvenc os
        { c with WATCH := true, heuristic := if c.heuristic = .BK then .VSIDS else c.heuristic } hos
      refine ⟨c', ?_, h2, h3, ?_, ?_, h6⟩
      · rw [List.flatMap_cons, ← h1]; rfl
      · rw [h4]; simp
      · rw [h5]
        show _ = (os.filterMap SolverOpt.heurOf).getLast?.getD _
        congr 1
        by_cases hb : c.heuristic = .BK <;> simp [hb]
    | time n =>
      obtain ⟨c', h1, h2, h3, h4, h5, h6⟩ := parse_solvenc os { c with TIME := n } hos
      refine ⟨c', ?_, ?_, h3, ?_, ?_, h6⟩
      · rw [List.flatMap_cons, ← h1]
        exact parseOpts_num (opt := solvencOpt) (o := "-time".toList) (f := fun c n => { c with TIME := n }) rfl
          (atoi_nat ho)
      · rw [h2]
        show _ = ((n : Int) :: _).getLast?.getD _
        rw [getLast_cons_getD]
      · rw [h4]; simp
      · rw [h5]; simp [SolverOpt.heurOf]
    | vsids =>
      obtain ⟨c', h1, h2, h3, h4, h5, h6⟩ := parse_solvenc os { c with heuristic := .VSIDS } hos
      refine ⟨c', ?_, h2, h3, ?_, ?_, h6⟩
      · rw [List.flatMap_cons, ← h1]; rfl
      · rw [h4]; simp
      · rw [h5]
        show _ = (Heuristic.VSIDS :: _).getLast?.getD _
        rw [getLast_cons_getD]
        simp
    | vsids_pos =>
      obtain ⟨c', h1, h2, h3, h4, h5, h6⟩ := parse_solvenc os { c with heuristic := .VSIDS_pos } hos
      refine ⟨c', ?_, h2, h3, ?_, ?_, h6⟩
      · rw [List.flatMap_cons, ← h1]; rfl
      · rw [h4]; simp
      · rw [h5]
        show _ = (Heuristic.VSIDS_pos :: _).getLast?.getD _
        rw [getLast_cons_getD]
        simp
    | lazy =>
      obtain ⟨c', h1, h2, h3, h4, h5, h6⟩ := parse_solvenc os { c with heuristic := .lazy } hos
      refine ⟨c', ?_, h2, h3, ?_, ?_, h6⟩
      · rw [List.flatMap_cons, ← h1]; rfl
      · rw [h4]; simp
      · rw [h5]
        show _ = (Heuristic.lazy :: _).getLast?.getD _
        rw [getLast_cons_getD]
        simp

/-- **C24**, without `-restarts`: whatever the order and number of the documented options after `-solvenc`, the
last `-time` and the last `-file` are the ones used, `-wl` is on exactly when given, and the heuristic is the last
one named, or else VSIDS with `-wl` and BK without. -/
theorem C24_solvenc_partial (os : List SolverOpt) (h : ∀ o ∈ os, o.Ok) :
    ∃ c, parseCommandLine ("-solvenc".toList :: os.flatMap SolverOpt.args) = .ok c ∧
      c.TIME = (os.filterMap SolverOpt.timeOf).getLast?.getD 3600000 ∧
      c.FILE = (os.filterMap SolverOpt.fileOf).getLast? ∧
      (c.WATCH = true ↔ SolverOpt.wl ∈ os) ∧
      c.heuristic = (os.filterMap SolverOpt.heurOf).getLast?.getD (if SolverOpt.wl ∈ os then .VSIDS else .BK) := by
  obtain ⟨c', h1, h2, h3, h4, h5, h6⟩ := parse_solvenc os {} h
  refine ⟨c', h1, h2, ?_, ?_, ?_⟩
  · rw [h3, List.getLast?_map]
    cases (os.filterMap SolverOpt.fileOf).getLast? <;> rfl
  · rw [h4]; simp
  · rw [h5]; simp

example : ∀ o ∈ [SolverOpt.time 7, .lazy, .wl, .file "-wl".toList, .vsids, .time 9], o.Ok := by
  simp [SolverOpt.Ok, FileLine.Small]

/-- Reading documented options of `-solvech`: `-wl`, `-vsids` and `-vsids_pos` are passed over. -/
theorem parse_solvech : ∀ (os : List SolverOpt) (c : CommandLine), (∀ o ∈ os, o.Ok) →
    ∃ c', parseOpts solvechOpt c (os.flatMap SolverOpt.args) = .ok c' ∧
      c'.TIME = (os.filterMap SolverOpt.timeOf).getLast?.getD c.TIME ∧
      c'.FILE = ((os.filterMap SolverOpt.fileOf).map some).getLast?.getD c.FILE ∧
      c'.WATCH = c.WATCH ∧
      c'.heuristic = (if SolverOpt.lazy ∈ os then .lazy else c.heuristic) ∧
      c'.RESTARTS = c.RESTARTS ∧ c'.CLAUSE_SIZE = c.CLAUSE_SIZE
  | [], c, _ => ⟨c, rfl, rfl, rfl, rfl, by simp, rfl, rfl⟩
  | o :: os, c, h => by
    have ho := h o (.head _)
    have hos := fun o' h' => h o' (.tail _ h')
    cases o with
    | file n =>
      obtain ⟨c', h1, h2, h3, h4, h5, h6⟩ := parse_solvech os { c with FILE := some n } hos
      refine ⟨c', ?_, h2, ?_, h4, ?_, h6⟩
      · rw [List.flatMap_cons, ← h1]; rfl
      · rw [h3]
        show _ = (some n :: _).getLast?.getD _
        rw [getLast_cons_getD]
      · rw [h5]; simp
    | time n =>
      obtain ⟨c', h1, h2, h3, h4, h5, h6⟩ := parse_solvech os { c with TIME := n } hos
      refine ⟨c', ?_, ?_, h3, h4, ?_, h6⟩
      · rw [List.flatMap_cons, ← h1]
        exact parseOpts_num (opt := solvechOpt) (o := "-time".toList) (f := fun c n => { c with TIME := n }) rfl
          (atoi_nat ho)
      · rw [h2]
        show _ = ((n : Int) :: _).getLast?.getD _
        rw [getLast_cons_getD]
      · rw [h5]; simp
    | lazy =>
      obtain ⟨c', h1, h2, h3, h4, h5, h6⟩ := parse_solvech os { c with heuristic := .lazy } hos
      refine ⟨c', ?_, h2, h3, h4, ?_, h6⟩
      · rw [List.flatMap_cons, ← h1]; rfl
      · rw [h5]; simp
    | wl =>
      obtain ⟨c', h1, h2, h3, h4, h5, h6⟩ := parse_solvech os c hos
      refine ⟨c', ?_, h2, h3, h4, ?_, h6⟩
      · rw [List.flatMap_cons, ← h1]; rfl
      · rw [h5]; simp
    | vsids =>
      obtain ⟨c', h1, h2, h3, h4, h5, h6⟩ := parse_solvech os c hos
      refine ⟨c', ?_, h2, h3, h4, ?_, h6⟩
      · rw [List.flatMap_cons, ← h1]; rfl
      · rw [h5]; simp
    | vsids_pos =>
      obtain ⟨c', h1, h2, h3, h4, h5, h6⟩ := parse_solvech os c hos
      refine ⟨c', ?_, h2, h3, h4, ?_, h6⟩
      · rw [List.flatMap_cons, ← h1]; rfl
      · rw [h5]; simp

/-- **C24** for `-solvech`, whose options are `-file`, `-time` and `-lazy`: the last `-time` and the last `-file` are
used and the heuristic is the lazy one exactly when `-lazy` is given.  The options of the other solver have no effect
here. -/
theorem C24_solvech (os : List SolverOpt) (h : ∀ o ∈ os, o.Ok) :
    ∃ c, parseCommandLine ("-solvech".toList :: os.flatMap SolverOpt.args) = .ok c ∧
      c.TIME = (os.filterMap SolverOpt.timeOf).getLast?.getD 3600000 ∧
      c.FILE = (os.filterMap SolverOpt.fileOf).getLast? ∧
      c.WATCH = false ∧ c.heuristic = if SolverOpt.lazy ∈ os then .lazy else .BK := by
  obtain ⟨c', h1, h2, h3, h4, h5, h6⟩ := parse_solvech os {} h
  refine ⟨c', h1, h2, ?_, h4, h5⟩
  rw [h3, List.getLast?_map]
  cases (os.filterMap SolverOpt.fileOf).getLast? <;> rfl

/-- **C24** does not hold for `-restarts`: the parser ignores it and its number, so the restart interval stays 0
(it reads `-restart`). -/
theorem C24_restarts_fails (n : Nat) (os : List SolverOpt) (h : ∀ o ∈ os, o.Ok) :
    ∃ c, parseCommandLine ("-solvenc".toList :: "-restarts".toList :: natText n :: os.flatMap SolverOpt.args) = .ok c ∧
      c.RESTARTS = 0 := by
  obtain ⟨c', h1, _, _, _, _, h6, _⟩ := parse_solvenc os {} h
  refine ⟨c', ?_, h6⟩
  rw [← h1]
  show parseOpts solvencOpt {} (natText n :: _) = _
  have hd : ∀ o : List Char, o.head? = some '-' → natText n ≠ o := by
    intro o ho e
    have := natText_digit (n := n) '-' (by
      rw [e]; cases o with
      | nil => cases ho
      | cons a o => cases ho; exact .head _)
    exact absurd this (by decide)
  have hnone : solvencOpt (natText n) = none := by
    unfold solvencOpt
    simp only [if_neg (hd _ (show ("-restart".toList).head? = some '-' from rfl)),
      if_neg (hd _ (show ("-verbose".toList).head? = some '-' from rfl)),
      if_neg (hd _ (show ("-wl".toList).head? = some '-' from rfl)),
      if_neg (hd _ (show ("-vsids".toList).head? = some '-' from rfl)),
      if_neg (hd _ (show ("-vsids_pos".toList).head? = some '-' from rfl)),
      if_neg (hd _ (show ("-lazy".toList).head? = some '-' from rfl)),
      if_neg (hd _ (show ("-model".toList).head? = some '-' from rfl)),
      if_neg (hd _ (show ("-var".toList).head? = some '-' from rfl)),
      if_neg (hd _ (show ("-clause".toList).head? = some '-' from rfl)),
      if_neg (hd _ (show ("-clausesize".toList).head? = some '-' from rfl)),
      if_neg (hd _ (show ("-file".toList).head? = some '-' from rfl)),
      if_neg (hd _ (show ("-time".toList).head? = some '-' from rfl))]
  rw [parseOpts, hnone]

/-- `-restart` does set the interval. -/
theorem restart_read {n : Nat} (h : FileLine.Small n) :
    parseCommandLine ["-solvenc".toList, "-restart".toList, natText n] = .ok { RESTARTS := n } := by
  exact parseOpts_num (opt := solvencOpt) (o := "-restart".toList) (f := fun c n => { c with RESTARTS := n })
    (args := []) rfl (atoi_nat h)

/-- An option that wants a number, given as the last word, makes `atoi` read a null pointer. -/
theorem option_without_number :
    ∀ o ∈ ["-restart", "-var", "-clause", "-clausesize", "-time"],
      parseCommandLine (argvOf ["-solvenc", "-file", "a", o]) = .ub := by decide

/-! ## From the command line and the file to the answer -/

/-- The command line names a file in the documented format; its clauses are not empty, its literals are in range, and none
excludes the only value of a variable with one value (all domains of at least two values: `WellFormed.regular`). -/
structure Input (w : World S) (argv : List (List Char)) (c : CommandLine) (P : Problem) : Prop where
  line : parseCommandLine argv = .ok c
  file : ∃ name ls, c.FILE = some name ∧ w.files name = some (fileText ls) ∧ Describes ls P
  wf   : P.Regular

theorem Input.solveNamed {w : World S} {argv : List (List Char)} {c : CommandLine} {P : Problem}
    (h : Input w argv c P) (hc : 0 ≤ c.CLAUSE_SIZE) (fuel : Nat) (algo : Algo) :
    solveNamed w fuel c algo = (solve (c.cfg w) algo fuel P).bind fun r => .ok (.report r) := by
  obtain ⟨name, ls, h1, h2, h3⟩ := h.file
  unfold Mvl.solveNamed
  rw [h1]; dsimp only
  rw [h2]; dsimp only
  rw [if_neg (by intro h; omega), solveFile_describes _ h3]
  rfl

theorem Input.report {w : World S} {argv : List (List Char)} {c : CommandLine} {P : Problem}
    (h : Input w argv c P) {fuel : Nat} {algo : Algo} {rep : Report}
    (hr : Mvl.solveNamed w fuel c algo = .ok (.report rep)) : solve (c.cfg w) algo fuel P = .ok rep := by
  by_cases hc : 0 ≤ c.CLAUSE_SIZE
  · rw [h.solveNamed hc] at hr
    cases e : solve (c.cfg w) algo fuel P <;> rw [e] at hr <;> cases hr
    rfl
  · obtain ⟨name, ls, h1, h2, h3⟩ := h.file
    unfold Mvl.solveNamed at hr
    rw [h1] at hr; dsimp only at hr
    rw [h2] at hr; dsimp only at hr
    split at hr
    · cases hr
    · rw [solveFile_describes _ h3] at hr
      cases e : solve (c.cfg w) algo fuel P <;> rw [e] at hr <;> cases hr
      rfl

theorem runSolver_solvech {w : World S} {argv : List (List Char)} {c : CommandLine} (hl : parseCommandLine argv = .ok c)
    (hc : command argv = .solvech) (fuel : Nat) :
    runSolver w fuel argv = (solveNamed w fuel c .chrono).bind fun r => .ok (some r) := by
  unfold runSolver
  rw [hl, hc]; rfl

theorem runSolver_solvenc {w : World S} {argv : List (List Char)} {c : CommandLine} (hl : parseCommandLine argv = .ok c)
    (hc : command argv = .solvenc) (fuel : Nat) :
    runSolver w fuel argv = (solveNamed w fuel c .learn).bind fun r => .ok (some r) := by
  unfold runSolver
  rw [hl, hc]; rfl

theorem some_report {r : Res Outcome} {rep : Report} (h : (r.bind fun r => .ok (some r)) = .ok (some (.report rep))) :
    r = .ok (.report rep) := by
  cases r <;> cases h
  rfl

theorem Input.chrono {w : World S} {argv : List (List Char)} {c : CommandLine} {P : Problem}
    (h : Input w argv c P) (hc : command argv = .solvech) :
    (c.cfg w).watch = false ∧ ((c.cfg w).heur = .BK ∨ (c.cfg w).heur = .lazy) := by
  obtain ⟨_, h2⟩ := C23_options h.line
  obtain ⟨k1, k2, k3⟩ := h2 hc
  refine ⟨k1, ?_⟩
  show c.heuristic = _ ∨ c.heuristic = _
  cases e : c.heuristic
  · exact .inl rfl
  · exact absurd e k2
  · exact absurd e k3
  · exact .inr rfl

/-- **C44**, `-solvech`: whatever options follow, what the program prints for a file in the documented format is
right. -/
theorem C44_solvech {w : World S} {argv : List (List Char)} {c : CommandLine} {P : Problem}
    (h : Input w argv c P) (hc : command argv = .solvech) {fuel : Nat} {rep : Report}
    (hr : runSolver w fuel argv = .ok (some (.report rep))) :
    (rep.answer = .SAT → P.Satisfiable) ∧ (rep.answer = .UNSAT → ¬ P.Satisfiable) := by
  obtain ⟨k1, k2⟩ := h.chrono hc
  rw [runSolver_solvech h.line hc] at hr
  have hs := h.report (some_report hr)
  refine ⟨fun ha => ?_, C02_chrono_unsat k1 k2 h.wf.toProper hs⟩
  obtain ⟨s, _, ⟨a, h2⟩, h3⟩ := C01_chrono_sat_proper k1 k2 h.wf.toProper hs ha
  exact h.wf.widen_iff.1 ⟨a, h3 a h2⟩

/-- **C44**, `-solvech`: with a clock that is never late and a `-clausesize` that is not negative, the program
prints an answer. -/
theorem C44_solvech_answers {w : World S} {argv : List (List Char)} {c : CommandLine} {P : Problem}
    (h : Input w argv c P) (hc : command argv = .solvech) (hsz : 0 ≤ c.CLAUSE_SIZE) (hclock : ∀ k, w.late c.TIME k = false) :
    ∃ rep f0, (∀ fuel, f0 ≤ fuel → runSolver w fuel argv = .ok (some (.report rep))) ∧
      (rep.answer = .SAT ∨ rep.answer = .UNSAT) := by
  obtain ⟨k1, k2⟩ := h.chrono hc
  obtain ⟨rep, f0, h1, h2, h3⟩ := C03_chrono_decides_proper k1 k2 hclock h.wf.toProper
  rw [h.wf.widen_iff] at h2 h3
  refine ⟨rep, f0, ?_, ?_⟩
  · intro fuel hf
    rw [runSolver_solvech h.line hc, h.solveNamed hsz, h1 fuel hf]
    rfl
  · by_cases hsat : P.Satisfiable
    · exact .inl (h2.2 hsat)
    · exact .inr (h3.2 hsat)

theorem Input.learn {w : World S} {argv : List (List Char)} {c : CommandLine} {P : Problem}
    (h : Input w argv c P) : Selectable (c.cfg w) .learn := (C23_options h.line).1

/-- **C44**, `-solvenc`: with `-wl`, for files whose clauses repeat no literal (the full claim has no such restriction, but
fails without it, see `C44_dup_fails`); without `-wl`, for all files. -/
theorem C44_solvenc_partial {w : World S} {argv : List (List Char)} {c : CommandLine} {P : Problem}
    (h : Input w argv c P) (hc : command argv = .solvenc) (hs : (c.cfg w).ScoreOK)
    (hnd : c.WATCH = true → P.NoDupLits) {fuel : Nat} {rep : Report} (hr : runSolver w fuel argv = .ok (some (.report rep))) :
    (rep.answer = .SAT → P.Satisfiable) ∧ (rep.answer = .UNSAT → ¬ P.Satisfiable) := by
  rw [runSolver_solvenc h.line hc] at hr
  exact answer_regular h.learn hs h.wf hnd (h.report (some_report hr))

theorem C44_solvenc_answers_partial {w : World S} {argv : List (List Char)} {c : CommandLine} {P : Problem}
    (h : Input w argv c P) (hc : command argv = .solvenc) (hs : (c.cfg w).ScoreOK)
    (hnd : P.NoDupLits) (hsz : 0 ≤ c.CLAUSE_SIZE) (hclock : ∀ k, w.late c.TIME k = false) :
    ∃ rep f0, (∀ fuel, f0 ≤ fuel → runSolver w fuel argv = .ok (some (.report rep))) ∧
      (rep.answer = .SAT ∨ rep.answer = .UNSAT) := by
  have : ∃ rep f0, (∀ fuel, f0 ≤ fuel → solve (c.cfg w) .learn fuel P = .ok rep) ∧
      (rep.answer = .SAT ↔ P.Satisfiable) ∧ (rep.answer = .UNSAT ↔ ¬ P.Satisfiable) :=
    decides_regular h.learn hs hclock h.wf hnd
  obtain ⟨rep, f0, h1, h2, h3⟩ := this
  refine ⟨rep, f0, ?_, ?_⟩
  · intro fuel hf
    rw [runSolver_solvenc h.line hc, h.solveNamed hsz, h1 fuel hf]
    rfl
  · by_cases hsat : P.Satisfiable
    · exact .inl (h2.2 hsat)
    · exact .inr (h3.2 hsat)

/-- **C44**, the other side: a solver command that names a file that cannot be opened prints no answer. -/
theorem C44_no_file {w : World S} {argv : List (List Char)} {c : CommandLine} {name : List Char}
    (hl : parseCommandLine argv = .ok c) (hc : command argv = .solvech ∨ command argv = .solvenc)
    (hf : c.FILE = some name) (hn : w.files name = none) (fuel : Nat) :
    runSolver w fuel argv = .ok (some .noFile) := by
  have : ∀ algo, solveNamed w fuel c algo = .ok .noFile := by
    intro algo
    unfold solveNamed
    rw [hf]; dsimp only
    rw [hn]
  rcases hc with hc | hc
  · rw [runSolver_solvech hl hc, this]; rfl
  · rw [runSolver_solvenc hl hc, this]; rfl

/-- A directory with one file. -/
def exWorld : World (Option (Nat × Nat)) where
  arith := ScoreArith.dyadic
  late := fun _ _ => false
  files := fun n => if n = "a".toList then some (fileText exFile) else none

example : Input exWorld (argvOf ["-solvenc", "-vsids", "-file", "a", "-time", "5"])
    { FILE := some "a".toList, heuristic := .VSIDS, TIME := 5 }
    ⟨[2, 12], [[⟨1, 0, true⟩, ⟨2, 11, false⟩], [⟨2, 10, true⟩]]⟩ :=
  ⟨by decide, ⟨"a".toList, exFile, rfl, rfl, by decide, by decide, ⟨rfl, rfl, rfl⟩, rfl, rfl⟩, by decide⟩

example : ∃ rep, runSolver exWorld 30 (argvOf ["-solvech", "-file", "a"]) = .ok (some (.report rep)) ∧
    rep.answer = .SAT := by
  have h : (runSolver exWorld 30 (argvOf ["-solvech", "-file", "a"])).passes
      (fun r => match r with | some (.report rep) => decide (rep.answer = .SAT) | _ => false) = true := by decide +kernel
  obtain ⟨r, h1, h2⟩ := Res.of_passes h
  match r, h2 with
  | some (.report rep), h2 => exact ⟨rep, h1, of_decide_eq_true h2⟩

example (fuel : Nat) : runSolver exWorld fuel (argvOf ["-solvenc", "-wl", "-file", "b"]) = .ok (some .noFile) :=
  C44_no_file (c := { FILE := some "b".toList, WATCH := true, heuristic := .VSIDS }) (by decide) (.inr (by decide)) rfl
    (by decide) fuel

/-- The file of `exDup` in the documented format. -/
def exDupFile : List FileLine :=
  [.problem true 2 2, .domain 1 4, .domain 2 2, .clause [⟨1, 2, true⟩],
    .clause [⟨1, 2, false⟩, ⟨1, 2, false⟩, ⟨2, 0, false⟩]]

/-- **C44 fails with a repeated literal**: `-solvenc -wl -file a` prints UNSAT for a satisfiable file. -/
theorem C44_dup_fails : ∃ w : World (Option (Nat × Nat)),
    Input w (argvOf ["-solvenc", "-wl", "-file", "a"]) { FILE := some "a".toList, heuristic := .VSIDS, WATCH := true } exDup ∧
    exDup.Satisfiable ∧ (runSolver w 30 (argvOf ["-solvenc", "-wl", "-file", "a"])).passes
      (fun r => match r with | some (.report rep) => decide (rep.answer = .UNSAT) | _ => false) = true :=
  ⟨{ exWorld with files := fun n => if n = "a".toList then some (fileText exDupFile) else none },
    ⟨by decide, ⟨"a".toList, exDupFile, rfl, rfl, by decide, by decide, ⟨rfl, rfl, rfl⟩, rfl, rfl⟩, by decide⟩,
    C08_dup_fails.2.1, by decide +kernel⟩

end Mvl
