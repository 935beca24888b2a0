import Verif.Model.OrigCLI
import Verif.Props.Orig
import Verif.Props.CLI
import Verif.Props.Files

/-!
# The original solver from its command line to its answer

C78: reading a file.  C79: the options.  C80: the answers.
-/

namespace Mvl.Orig

open Mvl

/-! ## C78 -/

theorem scanP_problem (s : Scan) {n m : Nat} (hn : FileLine.Small n) (hm : FileLine.Small m) :
    scanP s (FileLine.text (.problem false n m)) = .ok { s with var := some n, val := some m } := by
  have : matchText ['p', ' ', 'c', 'n', 'f', ' '] (FileLine.text (.problem false n m)) =
      some (natText n ++ ' ' :: natText m) := by
    have e : FileLine.text (.problem false n m) =
        'p' :: ' ' :: 'c' :: 'n' :: 'f' :: ' ' :: (natText n ++ ' ' :: natText m) := by
      simp [FileLine.text]
    rw [e]
    have w : skipWs (' ' :: (natText n ++ ' ' :: natText m)) = natText n ++ ' ' :: natText m := by
      rw [show skipWs (' ' :: (natText n ++ ' ' :: natText m)) = skipWs (natText n ++ ' ' :: natText m) from by
        simp [skipWs, isSpace]]
      exact skipWs_natText _ _
    have w' : ∀ r, skipWs (' ' :: 'c' :: r) = 'c' :: r := by intro r; simp [skipWs, isSpace]
    simp only [matchText, w', w]
    simp
  unfold scanP
  rw [this]
  exact scanVarVal_two s hn hm

/-- The problem lines of a file are `p cnf N M`. -/
def HeadersMatch (N M : Nat) (ls : List FileLine) : Prop :=
  ∀ mv n m, FileLine.problem mv n m ∈ ls → mv = false ∧ n = N ∧ m = M

theorem cString_problem {mv : Bool} {n m : Nat} :
    cString (FileLine.text (.problem mv n m)) = FileLine.text (.problem mv n m) := by
  rw [cString_id]
  intro hc
  have e1 := natText_no (n := n) (c := '\x00') (by decide)
  have e2 := natText_no (n := m) (c := '\x00') (by decide)
  cases mv <;> simp [FileLine.text, e1, e2] at hc

theorem natText_cons (n : Nat) : ∃ c r, natText n = c :: r ∧ c ≠ 'p' := by
  cases h : natText n with
  | nil => exact absurd h (by unfold natText; simp)
  | cons c r =>
    refine ⟨c, r, rfl, ?_⟩
    rintro rfl
    exact natText_no (n := n) (c := 'p') (by decide) (by rw [h]; simp)

/-- A line that is no problem line is read as by the solver in /repo/src. -/
theorem scanLine_other {N M : Int} (s : Scan) {l : FileLine} (h : l.Ok) (hp : ∀ mv n m, l ≠ .problem mv n m) :
    ∃ s', scanLine N M s (cString l.text) = .ok (some (s', l.item)) := by
  obtain ⟨s', e⟩ := scanLine_text s h
  refine ⟨s', ?_⟩
  have e' : Mvl.scanLine s (cString l.text) = .ok (s', l.item) := by rw [scanLine_cString s h, e]
  unfold scanLine
  split
  · rename_i cs hcs
    exfalso
    cases l with
    | comment t =>
      have : cString (FileLine.text (.comment t)) = 'c' :: cString t := by simp [FileLine.text, cString]
      rw [this] at hcs; cases hcs
    | problem mv n m => exact hp mv n m rfl
    | domain v d =>
      have : cString (FileLine.text (.domain v d)) = 'd' :: cString (' ' :: (natText v ++ ' ' :: natText d)) := by
        simp [FileLine.text, cString]
      rw [this] at hcs; cases hcs
    | clause c =>
      cases c with
      | nil => exact h.1 rfl
      | cons l c =>
        obtain ⟨x, r, e1, e2⟩ := natText_cons l.var
        have hx : x ≠ '\x00' := by
          rintro rfl
          exact natText_no (n := l.var) (c := '\x00') (by decide) (by rw [e1]; simp)
        have : FileLine.text (.clause (l :: c)) = x :: (FileLine.text (.clause (l :: c))).tail := by
          simp [FileLine.text, clauseText, Lit.text, e1]
        rw [this] at hcs
        unfold cString at hcs
        rw [List.takeWhile_cons, if_pos (by simpa using hx)] at hcs
        cases hcs
        exact e2 rfl
  · rw [e', Res.ok_bind]; rfl

theorem scanLine_problem {N M : Int} (s : Scan) {n m : Nat} (hn : FileLine.Small n) (hm : FileLine.Small m) :
    scanLine N M s (cString (FileLine.text (.problem false n m))) =
      if (n : Int) ≠ N ∨ (m : Int) ≠ M then .ok none else .ok (some ({ s with var := some n, val := some m }, none)) := by
  rw [cString_problem]
  have hs := scanP_problem s hn hm
  have : FileLine.text (.problem false n m) = 'p' :: (FileLine.text (.problem false n m)).tail := by
    simp [FileLine.text]
  rw [this] at hs ⊢
  unfold scanLine
  simp only [hs, Res.ok_bind]
  split <;> rfl

theorem scanLines_match {N M : Nat} : ∀ {ls : List FileLine}, (∀ l ∈ ls, l.Ok) → HeadersMatch N M ls →
    ∀ s, scanLines N M s (ls.map FileLine.text) = .ok (some (ls.filterMap FileLine.item)) := by
  intro ls
  induction ls with
  | nil => intro _ _ s; rfl
  | cons l ls ih =>
    intro h hm s
    have ih := ih (fun x hx => h x (List.mem_cons_of_mem _ hx)) (fun mv n m hx => hm mv n m (List.mem_cons_of_mem _ hx))
    have hl := h l List.mem_cons_self
    have key : ∃ s', scanLine N M s (cString l.text) = .ok (some (s', l.item)) := by
      by_cases hp : ∀ mv n m, l ≠ .problem mv n m
      · exact scanLine_other s hl hp
      · cases l with
        | problem mv n m =>
          obtain ⟨rfl, rfl, rfl⟩ := hm mv n m List.mem_cons_self
          refine ⟨{ s with var := some n, val := some m }, ?_⟩
          rw [scanLine_problem s hl.1 hl.2, if_neg (by simp)]
          rfl
        | _ => exact absurd (by intro _ _ _ z; cases z) hp
    obtain ⟨s', e⟩ := key
    rw [List.map_cons, scanLines, e, Res.ok_bind]
    simp only [ih s', Res.ok_bind]
    cases l <;> rfl

theorem scanLines_mismatch {N M : Nat} : ∀ {ls : List FileLine}, (∀ l ∈ ls, l.Ok) →
    (∀ n m, FileLine.problem true n m ∉ ls) → (∃ n m, FileLine.problem false n m ∈ ls ∧ (n ≠ N ∨ m ≠ M)) →
    ∀ s, scanLines N M s (ls.map FileLine.text) = .ok none := by
  intro ls
  induction ls with
  | nil => rintro _ _ ⟨n, m, h, -⟩; cases h
  | cons l ls ih =>
    intro h hm hx s
    have hl := h l List.mem_cons_self
    by_cases hb : ∃ n m, l = .problem false n m ∧ (n ≠ N ∨ m ≠ M)
    · obtain ⟨n, m, rfl, hb⟩ := hb
      rw [List.map_cons, scanLines, scanLine_problem s hl.1 hl.2, if_pos (by omega), Res.ok_bind]
      rfl
    · have hx' : ∃ n m, FileLine.problem false n m ∈ ls ∧ (n ≠ N ∨ m ≠ M) := by
        obtain ⟨n, m, hx, hy⟩ := hx
        rcases List.mem_cons.1 hx with e | hx
        · exact absurd ⟨n, m, e.symm, hy⟩ hb
        · exact ⟨n, m, hx, hy⟩
      have ih := ih (fun x hx => h x (List.mem_cons_of_mem _ hx)) (fun n m hx => hm n m (List.mem_cons_of_mem _ hx)) hx'
      have key : ∃ s', scanLine N M s (cString l.text) = .ok (some (s', l.item)) := by
        by_cases hp : ∀ mv n m, l ≠ .problem mv n m
        · exact scanLine_other s hl hp
        · cases l with
          | problem mv n m =>
            cases mv with
            | true => exact absurd List.mem_cons_self (hm n m)
            | false =>
              refine ⟨{ s with var := some n, val := some m }, ?_⟩
              rw [scanLine_problem s hl.1 hl.2, if_neg (by
                intro z
                exact hb ⟨n, m, rfl, by omega⟩)]
              rfl
          | _ => exact absurd (by intro _ _ _ z; cases z) hp
      obtain ⟨s', e⟩ := key
      rw [List.map_cons, scanLines, e, Res.ok_bind]
      simp only [ih s', Res.ok_bind]
      rfl

/-- **C78.** A file in the documented format whose problem lines are `p cnf N M`, with `-var N -clause M`, is answered
like the formula it describes. -/
theorem C78_original_file (cfg : OCfg) (m : Mode) (fuel : Nat) {N M : Nat} {ls : List FileLine} {P : Problem}
    (h : Describes ls P) (hm : HeadersMatch N M ls) :
    solveFile cfg m fuel N M (fileText ls) = (solve cfg m fuel P >>= fun r => .ok (some r)) := by
  unfold solveFile readFile solve run build
  rw [fileLines_file h.ok h.short, scanLines_match h.ok hm, items_order h.order, h.doms, h.clauses]
  show (buildItems P.items (init cfg) >>= _) = _
  cases buildItems P.items (init cfg) with
  | ok s =>
    show (search cfg m fuel s >>= _) = ((search cfg m fuel s >>= _) >>= _)
    cases search cfg m fuel s <;> rfl
  | _ => rfl

/-- **C78.** When a problem line `p cnf n m` has other numbers than the command line, the program ends without an answer. -/
theorem C78_original_mismatch (cfg : OCfg) (m : Mode) (fuel : Nat) {N M : Nat} {ls : List FileLine}
    (hok : ∀ l ∈ ls, l.Ok) (hs : ∀ l ∈ ls, l.text.length < 3000) (hmv : ∀ n m, FileLine.problem true n m ∉ ls)
    (hx : ∃ n m, FileLine.problem false n m ∈ ls ∧ (n ≠ N ∨ m ≠ M)) :
    solveFile cfg m fuel N M (fileText ls) = .ok none := by
  unfold solveFile readFile
  rw [fileLines_file hok hs, scanLines_mismatch hok hmv hx]
  rfl

/-- A file that begins with `p mvcnf …`, as the main README documents it, makes the program compare numbers it never
read. -/
theorem C78_mvcnf_fails (cfg : OCfg) (m : Mode) (fuel : Nat) (N M : Int) (a b : Nat) (ls : List FileLine)
    (hok : ∀ l ∈ FileLine.problem true a b :: ls, l.Ok)
    (hs : ∀ l ∈ FileLine.problem true a b :: ls, l.text.length < 3000) :
    solveFile cfg m fuel N M (fileText (.problem true a b :: ls)) = .ub := by
  unfold solveFile readFile
  rw [fileLines_file hok hs, List.map_cons, scanLines, cString_problem]
  have : matchText ['p', ' ', 'c', 'n', 'f', ' '] (FileLine.text (.problem true a b)) = none := by
    simp [FileLine.text, matchText, skipWs, isSpace]
  have hp : scanP {} (FileLine.text (.problem true a b)) = .ok {} := by
    unfold scanP; rw [this]
  have e : FileLine.text (.problem true a b) = 'p' :: (FileLine.text (.problem true a b)).tail := by
    simp [FileLine.text]
  rw [e] at hp ⊢
  unfold scanLine
  simp only [hp, Res.ok_bind]
  rfl

/-! ## C79 -/

/-- The options of the two solver commands, /repo/original_solver/Global.cc (help text at 120-148). -/
inductive OOpt where
  | var (n : Nat)
  | clause (n : Nat)
  | clausesize (n : Nat)
  | bool
  | file (name : List Char)
  | model (name : List Char)
  | time (n : Nat)
deriving DecidableEq, Repr

namespace OOpt

/-- How the option is written. -/
def args : OOpt → List (List Char)
  | var n => ["-var".toList, natText n]
  | clause n => ["-clause".toList, natText n]
  | clausesize n => ["-clausesize".toList, natText n]
  | bool => ["-bool".toList]
  | file n => ["-file".toList, n]
  | model n => ["-model".toList, n]
  | time n => ["-time".toList, natText n]

def varOf : OOpt → Option Int
  | var n => some n
  | _ => none

def clauseOf : OOpt → Option Int
  | clause n => some n
  | _ => none

def sizeOf : OOpt → Option Int
  | clausesize n => some n
  | _ => none

def fileOf : OOpt → Option (List Char)
  | file n => some n
  | _ => none

def timeOf : OOpt → Option Int
  | time n => some n
  | _ => none

/-- The numbers are numbers the program can read; the variable and size bounds are those of the sizes it computes. -/
def Ok : OOpt → Prop
  | var n => n + 1 < 2147483648
  | clause n => FileLine.Small n
  | clausesize n => n ≤ 1000000000
  | time n => FileLine.Small n
  | _ => True

end OOpt

theorem oparse_opts : ∀ (os : List OOpt) (c : OLine), (∀ o ∈ os, o.Ok) →
    ∃ c', parseOpts osolveOpt c (os.flatMap OOpt.args) = .ok c' ∧
      c'.NUM_VAR = (os.filterMap OOpt.varOf).getLast?.getD c.NUM_VAR ∧
      c'.NUM_CLAUSE = (os.filterMap OOpt.clauseOf).getLast?.getD c.NUM_CLAUSE ∧
      c'.CLAUSE_SIZE = (os.filterMap OOpt.sizeOf).getLast?.getD c.CLAUSE_SIZE ∧
      c'.FILE = ((os.filterMap OOpt.fileOf).map some).getLast?.getD c.FILE ∧
      c'.TIME = (os.filterMap OOpt.timeOf).getLast?.getD c.TIME
  | [], c, _ => ⟨c, rfl, rfl, rfl, rfl, rfl, rfl⟩
  | o :: os, c, h => by
    have ho := h o (.head _)
    have hos := fun o' h' => h o' (.tail _ h')
    cases o with
    | var n =>
      obtain ⟨c', h1, h2, h3, h4, h5, h6⟩ := oparse_opts os { c with NUM_VAR := n } hos
      refine ⟨c', ?_, ?_, h3, h4, h5, h6⟩
      · rw [List.flatMap_cons, ← h1]
        exact parseOpts_num (opt := osolveOpt) (o := "-var".toList) (f := fun c n => { c with NUM_VAR := n }) rfl
          (atoi_nat (by have : n + 1 < 2147483648 := ho; show n ≤ 2147483647; omega))
      · rw [h2]
        show _ = ((n : Int) :: _).getLast?.getD _
        rw [getLast_cons_getD]
    | clause n =>
      obtain ⟨c', h1, h2, h3, h4, h5, h6⟩ := oparse_opts os { c with NUM_CLAUSE := n } hos
      refine ⟨c', ?_, h2, ?_, h4, h5, h6⟩
      · rw [List.flatMap_cons, ← h1]
        exact parseOpts_num (opt := osolveOpt) (o := "-clause".toList) (f := fun c n => { c with NUM_CLAUSE := n }) rfl
          (atoi_nat ho)
      · rw [h3]
        show _ = ((n : Int) :: _).getLast?.getD _
        rw [getLast_cons_getD]
    | clausesize n =>
      obtain ⟨c', h1, h2, h3, h4, h5, h6⟩ := oparse_opts os { c with CLAUSE_SIZE := n } hos
      refine ⟨c', ?_, h2, h3, ?_, h5, h6⟩
      · rw [List.flatMap_cons, ← h1]
        exact parseOpts_num (opt := osolveOpt) (o := "-clausesize".toList) (f := fun c n => { c with CLAUSE_SIZE := n }) rfl
          (atoi_nat (by have : n ≤ 1000000000 := ho; show n ≤ 2147483647; omega))
      · rw [h4]
        show _ = ((n : Int) :: _).getLast?.getD _
        rw [getLast_cons_getD]
    | bool =>
      obtain ⟨c', h1, h2, h3, h4, h5, h6⟩ := oparse_opts os { c with BOOL_FINITE := false } hos
      refine ⟨c', ?_, h2, h3, h4, h5, h6⟩
      rw [List.flatMap_cons, ← h1]; rfl
    | file n =>
      obtain ⟨c', h1, h2, h3, h4, h5, h6⟩ := oparse_opts os { c with FILE := some n } hos
      refine ⟨c', ?_, h2, h3, h4, ?_, h6⟩
      · rw [List.flatMap_cons, ← h1]; rfl
      · rw [h5]
        show _ = (some n :: _).getLast?.getD _
        rw [getLast_cons_getD]
    | model n =>
      obtain ⟨c', h1, h2, h3, h4, h5, h6⟩ := oparse_opts os { c with MODEL_FILE := some n } hos
      refine ⟨c', ?_, h2, h3, h4, h5, h6⟩
      rw [List.flatMap_cons, ← h1]; rfl
    | time n =>
      obtain ⟨c', h1, h2, h3, h4, h5, h6⟩ := oparse_opts os { c with TIME := n } hos
      refine ⟨c', ?_, h2, h3, h4, h5, ?_⟩
      · rw [List.flatMap_cons, ← h1]
        exact parseOpts_num (opt := osolveOpt) (o := "-time".toList) (f := fun c n => { c with TIME := n }) rfl (atoi_nat ho)
      · rw [h6]
        show _ = ((n : Int) :: _).getLast?.getD _
        rw [getLast_cons_getD]

/-- The command of a mode. -/
def Mode.arg : Mode → List Char
  | .ch => "-solvech".toList
  | .nc => "-solvenc".toList

theorem omode_arg (m : Mode) (r : List (List Char)) : omode (m.arg :: r) = some m := by
  cases m <;> rfl

/-- The machine under which the search runs when the last `-time` is `t`. -/
def OWorld.at (w : OWorld) (t : Int) : OCfg := ⟨w.tolerant, w.ptr0, w.late t⟩

theorem orun_named (w : OWorld) (m : Mode) (fuel : Nat) (os : List OOpt) (hos : ∀ o ∈ os, o.Ok)
    {N M : Nat} {name : List Char} (hN : (os.filterMap OOpt.varOf).getLast? = some (N : Int))
    (hM : (os.filterMap OOpt.clauseOf).getLast? = some (M : Int))
    (hF : (os.filterMap OOpt.fileOf).getLast? = some name) (hdie : name ≠ "die".toList) :
    orunSolver w fuel (m.arg :: os.flatMap OOpt.args) =
      match w.files name with
      | none => .ok (some .noFile)
      | some cs => solveFile (w.at ((os.filterMap OOpt.timeOf).getLast?.getD 3600)) m fuel N M cs >>= fun o =>
          match o with
          | none => .ok (some .mismatch)
          | some r => .ok (some (.report r)) := by
  obtain ⟨c, h1, h2, h3, h4, h5, h6⟩ := oparse_opts os {} hos
  rw [hN] at h2; rw [hM] at h3; rw [List.getLast?_map, hF] at h5
  have h2 : c.NUM_VAR = N := h2
  have h3 : c.NUM_CLAUSE = M := h3
  have h5 : c.FILE = some name := h5
  have hN' : N + 1 < 2147483648 := by
    have := List.mem_of_getLast? hN
    obtain ⟨o, ho, e⟩ := List.mem_filterMap.1 this
    have := hos o ho
    cases o <;> simp [OOpt.varOf] at e
    have : _ < _ := this
    omega
  have hS : 0 ≤ c.CLAUSE_SIZE ∧ c.CLAUSE_SIZE ≤ 1000000000 := by
    rw [h4]
    cases hz : (os.filterMap OOpt.sizeOf).getLast? with
    | none => decide
    | some z =>
      have := List.mem_of_getLast? hz
      obtain ⟨o, ho, e⟩ := List.mem_filterMap.1 this
      have := hos o ho
      cases o <;> simp [OOpt.sizeOf] at e
      rename_i k
      have : k ≤ 1000000000 := this
      show 0 ≤ z ∧ z ≤ 1000000000
      omega
  unfold orunSolver
  rw [omode_arg]
  simp only [List.tail_cons, h1, Res.ok_bind]
  have hmiss : c.missing = .ok false := by
    unfold OLine.missing
    rw [if_neg (by omega), h5]
    exact congrArg Res.ok (decide_eq_false hdie)
  simp only [hmiss, Res.ok_bind, Bool.false_eq_true, if_false]
  unfold osolveNamed
  rw [if_neg (by omega), if_neg (by omega), if_neg (by omega), if_neg (by omega), h5]
  have : c.cfg w = w.at ((os.filterMap OOpt.timeOf).getLast?.getD 3600) := by
    unfold OLine.cfg OWorld.at; rw [h6]
  rw [this, h2, h3]
  cases hw : w.files name with
  | none => simp only [hw]; rfl
  | some cs =>
    simp only [hw]
    cases solveFile (w.at ((os.filterMap OOpt.timeOf).getLast?.getD 3600)) m fuel N M cs with
    | ok r => cases r <;> rfl
    | _ => rfl

/-- **C79.** In any order and number of options, the last `-var`, `-clause`, `-file` and `-time` count (one hour without
`-time`); with a file in the documented format whose problem lines are `p cnf N M`, the outcome is that of the formula. -/
theorem C79_original_command_line (w : OWorld) (m : Mode) (fuel : Nat) (os : List OOpt) (hos : ∀ o ∈ os, o.Ok)
    {N M : Nat} {name : List Char} (hN : (os.filterMap OOpt.varOf).getLast? = some (N : Int))
    (hM : (os.filterMap OOpt.clauseOf).getLast? = some (M : Int))
    (hF : (os.filterMap OOpt.fileOf).getLast? = some name) (hdie : name ≠ "die".toList)
    {ls : List FileLine} {P : Problem} (h : Describes ls P) (hm : HeadersMatch N M ls)
    (hw : w.files name = some (fileText ls)) :
    orunSolver w fuel (m.arg :: os.flatMap OOpt.args) =
      (solve (w.at ((os.filterMap OOpt.timeOf).getLast?.getD 3600)) m fuel P >>= fun r => .ok (some (.report r))) := by
  rw [orun_named w m fuel os hos hN hM hF hdie, hw]
  simp only []
  rw [C78_original_file _ m fuel h hm]
  cases solve (w.at ((os.filterMap OOpt.timeOf).getLast?.getD 3600)) m fuel P <;> rfl

/-- **C79.** Without `-var`, without `-clause` or without `-file` there is the message about the command line. -/
theorem C79_original_required (w : OWorld) (m : Mode) (fuel : Nat) (os : List OOpt) (hos : ∀ o ∈ os, o.Ok)
    (h : (∀ n, .var n ∉ os) ∨ (∀ n, .clause n ∉ os) ∨ (∀ n, .file n ∉ os)) :
    orunSolver w fuel (m.arg :: os.flatMap OOpt.args) = .ok (some .badLine) := by
  obtain ⟨c, h1, h2, h3, h4, h5, h6⟩ := oparse_opts os {} hos
  unfold orunSolver
  rw [omode_arg]
  simp only [List.tail_cons, h1, Res.ok_bind]
  have hmiss : c.missing = .ok true := by
    unfold OLine.missing
    rcases h with h | h | h
    · have : os.filterMap OOpt.varOf = [] := by
        rw [List.filterMap_eq_nil_iff]
        intro o ho; cases o <;> first | rfl | exact absurd ho (h _)
      rw [this] at h2
      exact if_pos (.inl h2)
    · have : os.filterMap OOpt.clauseOf = [] := by
        rw [List.filterMap_eq_nil_iff]
        intro o ho; cases o <;> first | rfl | exact absurd ho (h _)
      rw [this] at h3
      exact if_pos (.inr (.inl h3))
    · have : os.filterMap OOpt.fileOf = [] := by
        rw [List.filterMap_eq_nil_iff]
        intro o ho; cases o <;> first | rfl | exact absurd ho (h _)
      rw [this] at h5
      split
      · rfl
      · rw [h5]; rfl
  rw [hmiss]; rfl

/-- **C79.** Numbers that are not those of the problem line: the message, and no answer. -/
theorem C79_original_mismatch (w : OWorld) (m : Mode) (fuel : Nat) (os : List OOpt) (hos : ∀ o ∈ os, o.Ok)
    {N M : Nat} {name : List Char} (hN : (os.filterMap OOpt.varOf).getLast? = some (N : Int))
    (hM : (os.filterMap OOpt.clauseOf).getLast? = some (M : Int))
    (hF : (os.filterMap OOpt.fileOf).getLast? = some name) (hdie : name ≠ "die".toList)
    {ls : List FileLine} (hok : ∀ l ∈ ls, l.Ok) (hs : ∀ l ∈ ls, l.text.length < 3000)
    (hmv : ∀ n m, FileLine.problem true n m ∉ ls)
    (hx : ∃ n m, FileLine.problem false n m ∈ ls ∧ (n ≠ N ∨ m ≠ M))
    (hw : w.files name = some (fileText ls)) :
    orunSolver w fuel (m.arg :: os.flatMap OOpt.args) = .ok (some .mismatch) := by
  rw [orun_named w m fuel os hos hN hM hF hdie, hw]
  simp only []
  rw [C78_original_mismatch _ m fuel hok hs hmv hx]
  rfl

/-- **C79.** A file that cannot be opened: the message, and no answer. -/
theorem C79_original_no_file (w : OWorld) (m : Mode) (fuel : Nat) (os : List OOpt) (hos : ∀ o ∈ os, o.Ok)
    {N M : Nat} {name : List Char} (hN : (os.filterMap OOpt.varOf).getLast? = some (N : Int))
    (hM : (os.filterMap OOpt.clauseOf).getLast? = some (M : Int))
    (hF : (os.filterMap OOpt.fileOf).getLast? = some name) (hdie : name ≠ "die".toList)
    (hw : w.files name = none) :
    orunSolver w fuel (m.arg :: os.flatMap OOpt.args) = .ok (some .noFile) := by
  rw [orun_named w m fuel os hos hN hM hF hdie, hw]

/-! ## C80 -/

/-- C80, what holds of it.  Full statement: each answer printed is right; it is false for `UNSAT`, see `C80_fails`.
From the command line to the answer: the program ends; `SAT` is right and so is the line about the model;
`TIMEOUT` only after the time given; `UNSAT` without a decision is right. -/
theorem C80_original_answers_partial (w : OWorld) (m : Mode) (os : List OOpt) (hos : ∀ o ∈ os, o.Ok)
    {N M : Nat} {name : List Char} (hN : (os.filterMap OOpt.varOf).getLast? = some (N : Int))
    (hM : (os.filterMap OOpt.clauseOf).getLast? = some (M : Int))
    (hF : (os.filterMap OOpt.fileOf).getLast? = some name) (hdie : name ≠ "die".toList)
    {ls : List FileLine} {P : Problem} (h : Describes ls P) (hm : HeadersMatch N M ls)
    (hw : w.files name = some (fileText ls)) (hwf : P.WellFormed) :
    (∃ f0, ∀ f, f0 ≤ f → orunSolver w f (m.arg :: os.flatMap OOpt.args) ≠ .fuel) ∧
    ∀ fuel out, orunSolver w fuel (m.arg :: os.flatMap OOpt.args) = .ok out →
      ∃ rep, out = some (.report rep) ∧ rep.variables = P.numVars ∧
        (rep.answer = .SAT → P.Satisfiable ∧ rep.verified = some true) ∧
        (rep.answer = .TIMEOUT → ∃ k, w.late ((os.filterMap OOpt.timeOf).getLast?.getD 3600) k = true) ∧
        (rep.answer = .UNSAT → rep.decisions = 0 → ¬ P.Satisfiable) := by
  refine ⟨?_, ?_⟩
  · obtain ⟨f0, h0⟩ := C75_original_ends (w.at ((os.filterMap OOpt.timeOf).getLast?.getD 3600)) m hwf
    refine ⟨f0, fun f hf => ?_⟩
    rw [C79_original_command_line w m f os hos hN hM hF hdie h hm hw]
    have := h0 f hf
    cases hs : solve (w.at ((os.filterMap OOpt.timeOf).getLast?.getD 3600)) m f P with
    | fuel => exact absurd hs this
    | _ => intro z; cases z
  · intro fuel out ho
    rw [C79_original_command_line w m fuel os hos hN hM hF hdie h hm hw] at ho
    obtain ⟨rep, hs, e⟩ := Res.bind_eq_ok.1 ho
    cases e
    refine ⟨rep, rfl, ?_, C72_original_sat hwf hs, C75_original_timeout hwf hs, ?_⟩
    · cases m with
      | ch => exact (C77_original_ch_statistics hwf hs).2.1
      | nc => exact (C77_original_nc_statistics hwf hs).2.1
    · intro ha hd
      cases m with
      | ch =>
        rcases C73_original_ch_unsat_partial hwf hs ha with ⟨-, a⟩ | ⟨a, -⟩
        · exact a
        · omega
      | nc =>
        have h1 := (C77_original_nc_statistics hwf hs)
        exact (C74_original_nc_unsat_partial hwf hs ha).1 (by
          have := h1.2.2.2.2.1
          have := h1.2.2.2.1
          omega)

/-- The file of a formula, and a machine that has it, for examples. -/
def exLines (P : Problem) : List FileLine :=
  [.comment " for the original solver".toList, .problem false P.numVars P.clauses.length] ++
    (List.range P.numVars).map (fun i => .domain (i + 1) (P.doms.getD i 0)) ++ P.clauses.map .clause

def exWorld (P : Problem) : OWorld :=
  ⟨true, .null, fun _ _ => false, fun f => if f = "f.txt".toList then some (fileText (exLines P)) else none⟩

def exOpts : List OOpt :=
  [.file "g.txt".toList, .bool, .var 7, .time 60, .file "f.txt".toList, .clausesize 4, .var 2, .clause 3]

/-- The hypotheses of C78, C79 and C80 are met. -/
theorem C80_example : Describes (exLines exWrong) exWrong ∧ HeadersMatch 2 3 (exLines exWrong) ∧ (∀ o ∈ exOpts, o.Ok) ∧
    (exOpts.filterMap OOpt.varOf).getLast? = some 2 ∧ (exOpts.filterMap OOpt.clauseOf).getLast? = some 3 ∧
    (exOpts.filterMap OOpt.fileOf).getLast? = some "f.txt".toList ∧
    (exWorld exWrong).files "f.txt".toList = some (fileText (exLines exWrong)) := by
  refine ⟨⟨by decide +kernel, by decide +kernel, ⟨rfl, rfl, rfl⟩, rfl, rfl⟩, ?_, ?_, rfl, rfl, rfl, rfl⟩
  · intro mv n m h
    simp [exLines] at h
    exact h
  · intro o ho
    simp [exOpts] at ho
    rcases ho with rfl | rfl | rfl | rfl | rfl | rfl | rfl | rfl <;> simp [OOpt.Ok, FileLine.Small]

/-- C80 says nothing about `UNSAT` after a decision, and cannot: a satisfiable formula from a file. -/
theorem C80_fails : exWrong.Satisfiable ∧
    (orunSolver (exWorld exWrong) 40 (Mode.ch.arg :: exOpts.flatMap OOpt.args)).passes
      (fun o => match o with | some (.report rep) => rep.answer == .UNSAT | _ => false) = true :=
  ⟨C73_fails.2.1, by decide +kernel⟩

/-- The other outcomes: a number that is not that of the file, an option missing, a file that is missing. -/
theorem C79_example :
    orunSolver (exWorld exWrong) 40 (Mode.ch.arg :: [OOpt.file "f.txt".toList, .var 2, .clause 4].flatMap OOpt.args) =
      .ok (some .mismatch) ∧
    orunSolver (exWorld exWrong) 40 (Mode.nc.arg :: [OOpt.file "f.txt".toList, .clause 3].flatMap OOpt.args) =
      .ok (some .badLine) ∧
    orunSolver (exWorld exWrong) 40 (Mode.nc.arg :: [OOpt.file "h.txt".toList, .clause 3, .var 2].flatMap OOpt.args) =
      .ok (some .noFile) ∧
    orunSolver (exWorld exWrong) 40 ["-solvenc".toList, "-var".toList, "-2".toList, "-clause".toList, "3".toList,
      "-file".toList, "f.txt".toList] = .ok (some .lengthError) :=
  ⟨by decide +kernel, by decide +kernel, by decide +kernel, by decide +kernel⟩

end Mvl.Orig
