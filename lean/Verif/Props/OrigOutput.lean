import Verif.Model.OrigOutput
import Verif.Props.Output
import Verif.Props.OrigCLI

/-!
# Properties of the text printed by the original program

C104: what the printed lines say about the file.
-/

namespace Mvl.Orig

/-! ## The lines of a run -/

def obannerLines : List (List Char) := [[], "**** Finite Domain Sat Solver - Hemal A Lal ****".toList]

/-- The line with the file name, the times and the answer. -/
def otimeLines (name : List Char) (t : Times) (r : OReport) : List (List Char) :=
  if r.noBranch = true then
    [name ++ " \t".toList ++ t.build ++ ['\t'] ++ "No Branch Atom selected".toList,
     t.search ++ "\t ".toList ++ t.total ++ '\t' :: r.answer.text]
  else [name ++ " \t".toList ++ t.build ++ ['\t'] ++ t.search ++ "\t ".toList ++ t.total ++ '\t' :: r.answer.text]

def ostatLines (r : OReport) : List (List Char) :=
  ["Number of Decisions   : ".toList ++ natText r.decisions, "Number of Units       : ".toList ++ natText r.units,
   "Number of Backtracks  : ".toList ++ natText r.backtracks, "Number of Entails     : ".toList ++ natText r.entails,
   "Number of Levels      : ".toList ++ intText r.levels, "Number of Variables   : ".toList ++ natText r.variables,
   "Number of Clauses     : ".toList ++ natText r.clauses]

def ocheckLines (r : OReport) : List (List Char) :=
  if r.answer = .SAT then [if r.verified = some true then "Verifying model ... model is CORRECT".toList
      else "Verifying model ... model is INCORRECT".toList] else []

/-- All lines of a run that ends with an answer. -/
def orunLines (name : List Char) (t : Times) (r : OReport) : List (List Char) :=
  obannerLines ++ otimeLines name t r ++ [[]] ++ ostatLines r ++ [[]] ++ ocheckLines r

theorem ocheckText_eq (r : OReport) :
    (if r.answer = .SAT then
      "Verifying model ... ".toList ++
      (if r.verified = some true then "model is CORRECT".toList ++ ['\n'] else "model is INCORRECT".toList ++ ['\n'])
    else []) = unlines (ocheckLines r) := by
  have e1 : "Verifying model ... model is CORRECT".toList = "Verifying model ... ".toList ++ "model is CORRECT".toList := by
    decide
  have e2 : "Verifying model ... model is INCORRECT".toList =
      "Verifying model ... ".toList ++ "model is INCORRECT".toList := by decide
  unfold ocheckLines
  rw [e1, e2]
  by_cases h1 : r.answer = .SAT
  · rw [if_pos h1, if_pos h1]
    by_cases h3 : r.verified = some true
    · rw [if_pos h3, if_pos h3]
      simp only [unlines, List.flatMap_cons, List.flatMap_nil, List.append_assoc, List.append_nil]
    · rw [if_neg h3, if_neg h3]
      simp only [unlines, List.flatMap_cons, List.flatMap_nil, List.append_assoc, List.append_nil]
  · rw [if_neg h1, if_neg h1]
    rfl

theorem oreportText_eq (name : List Char) (t : Times) (r : OReport) :
    ooutcomeText name t (.report r) = unlines (orunLines name t r) := by
  show obanner ++ osolveText name t r = _
  unfold osolveText orunLines
  rw [ocheckText_eq, unlines_append _ (ocheckLines r), ← List.append_assoc obanner]
  refine congrArg (· ++ _) ?_
  unfold obanner obannerLines otimeLines ostatLines oinfoText
  by_cases h : r.noBranch = true
  · rw [if_pos h, if_pos h]
    simp only [unlines, List.flatMap_cons, List.flatMap_nil, List.append_assoc, List.append_nil, List.cons_append,
      List.nil_append]
  · rw [if_neg h, if_neg h]
    simp only [unlines, List.flatMap_cons, List.flatMap_nil, List.append_assoc, List.append_nil, List.cons_append,
      List.nil_append]

theorem intText_no {i : Int} {x : Char} (h : x.isDigit = false) (hm : x ≠ '-') : x ∉ intText i := by
  unfold intText
  have := natText_no (n := i.natAbs) h
  split <;> simp_all

/-- The lines that are not about the times. -/
def oplain (r : OReport) : List (List Char) := obannerLines ++ [[]] ++ ostatLines r ++ [[]] ++ ocheckLines r

theorem oplain_no {r : OReport} {x : Char} (hx : x = '\n' ∨ x = '\t') : ∀ l ∈ oplain r, x ∉ l := by
  have hd : x.isDigit = false := by rcases hx with rfl | rfl <;> decide
  have ht : ∀ n, x ∉ natText n := fun n => natText_no hd
  have hi : ∀ n, x ∉ intText n := fun n => intText_no hd (by rcases hx with rfl | rfl <;> decide)
  intro l hl
  simp only [oplain, List.mem_append, List.mem_singleton] at hl
  rcases hl with (((hl | hl) | hl) | hl) | hl
  · simp only [obannerLines, List.mem_cons, List.not_mem_nil, or_false] at hl
    rcases hl with rfl | rfl <;> rcases hx with rfl | rfl <;> decide
  · rw [hl]; simp
  · simp only [ostatLines, List.mem_cons, List.not_mem_nil, or_false] at hl
    rcases hl with rfl | rfl | rfl | rfl | rfl | rfl | rfl <;> rw [List.mem_append, not_or] <;>
      first | exact ⟨by rcases hx with rfl | rfl <;> decide, ht _⟩ | exact ⟨by rcases hx with rfl | rfl <;> decide, hi _⟩
  · rw [hl]; simp
  · unfold ocheckLines at hl
    split at hl
    · rw [List.mem_singleton] at hl
      rw [hl]
      split <;> rcases hx with rfl | rfl <;> decide
    · cases hl

theorem mem_orunLines {name : List Char} {t : Times} {r : OReport} {l : List Char} :
    l ∈ orunLines name t r ↔ l ∈ otimeLines name t r ∨ l ∈ oplain r := by
  unfold orunLines oplain
  simp only [List.mem_append]
  grind

theorem otimeLines_tab {name : List Char} {t : Times} {r : OReport} : ∀ l ∈ otimeLines name t r, '\t' ∈ l := by
  intro l hl
  unfold otimeLines at hl
  split at hl <;> simp only [List.mem_cons, List.not_mem_nil, or_false] at hl
  · rcases hl with rfl | rfl <;> simp
  · rw [hl]; simp

theorem linesOf_oreport {name : List Char} {t : Times} {r : OReport} (h : OneLine name t) :
    linesOf (ooutcomeText name t (.report r)) = orunLines name t r := by
  rw [oreportText_eq, linesOf_unlines]
  obtain ⟨h1, h2, h3, h4⟩ := h
  have ha : '\n' ∉ r.answer.text := by cases r.answer <;> decide
  intro l hl
  rcases mem_orunLines.1 hl with hl | hl
  · unfold otimeLines at hl
    split at hl <;> simp only [List.mem_cons, List.not_mem_nil, or_false] at hl
    · rcases hl with rfl | rfl <;> simp [h1, h2, h3, h4, ha]
    · rw [hl]; simp [h1, h2, h3, h4, ha]
  · exact oplain_no (.inl rfl) l hl

theorem omem_plain {name : List Char} {t : Times} {r : OReport} {l : List Char} (hl : '\t' ∉ l) :
    l ∈ orunLines name t r ↔ l ∈ oplain r := by
  rw [mem_orunLines]
  exact ⟨fun h => h.resolve_left fun h' => hl (otimeLines_tab l h'), .inr⟩

/-- The text ends a line with a tabulator and the answer. -/
def Answers (txt : List Char) (a : Answer) : Prop := ∃ p : List Char, p ++ '\t' :: (match a with
  | .SAT => "SAT".toList
  | .TIMEOUT => "TIMEOUT".toList
  | .UNSAT => "UNSAT".toList) ∈ linesOf txt

theorem end_ne {p q : List Char} {a b : List Char} (h : p ++ a = q ++ b) (h' : ¬ a <:+ b) (h'' : ¬ b <:+ a) : False := by
  have h1 : a <:+ q ++ b := ⟨p, h⟩
  have h2 : b <:+ q ++ b := ⟨q, rfl⟩
  rcases Nat.le_total a.length b.length with hl | hl
  · exact h' (List.suffix_of_suffix_length_le h1 h2 hl)
  · exact h'' (List.suffix_of_suffix_length_le h2 h1 hl)

theorem omem_answer {name : List Char} {t : Times} {r : OReport} (ho : OneLine name t) {a : Answer} :
    Answers (ooutcomeText name t (.report r)) a ↔ r.answer = a := by
  unfold Answers
  rw [linesOf_oreport ho]
  constructor
  · rintro ⟨p, h⟩
    rcases mem_orunLines.1 h with h | h
    · unfold otimeLines at h
      split at h <;> simp only [List.mem_cons, List.not_mem_nil, or_false] at h
      · rcases h with h | h
        · exfalso
          revert h
          cases a <;> exact fun h => end_ne h (by decide) (by decide)
        · revert h
          cases a <;> cases r.answer <;> first | (intro _; rfl) | exact fun h => (end_ne h (by decide) (by decide)).elim
      · revert h
        cases a <;> cases r.answer <;> first | (intro _; rfl) | exact fun h => (end_ne h (by decide) (by decide)).elim
    · exact absurd (List.mem_append_right _ List.mem_cons_self) (oplain_no (.inr rfl) _ h)
  · rintro rfl
    have e : (match r.answer with
      | .SAT => "SAT".toList
      | .TIMEOUT => "TIMEOUT".toList
      | .UNSAT => "UNSAT".toList) = r.answer.text := by cases r.answer <;> rfl
    rw [e]
    by_cases h : r.noBranch = true
    · refine ⟨t.search ++ "\t ".toList ++ t.total, mem_orunLines.2 (.inl ?_)⟩
      unfold otimeLines
      rw [if_pos h]
      simp
    · refine ⟨name ++ " \t".toList ++ t.build ++ ['\t'] ++ t.search ++ "\t ".toList ++ t.total, mem_orunLines.2 (.inl ?_)⟩
      unfold otimeLines
      rw [if_neg h]
      simp

theorem omem_correct {name : List Char} {t : Times} {r : OReport} (h1 : r.answer = .SAT) (h2 : r.verified = some true) :
    "Verifying model ... model is CORRECT".toList ∈ orunLines name t r := by
  refine mem_orunLines.2 (.inr (List.mem_append_right _ ?_))
  unfold ocheckLines
  rw [if_pos h1, if_pos h2]
  exact List.mem_cons_self

theorem omem_stat {name : List Char} {t : Times} {r : OReport} {l : List Char} (hl : '\t' ∉ l) (hb : ':' ∈ l) :
    l ∈ orunLines name t r ↔ l ∈ ostatLines r := by
  rw [omem_plain hl]
  constructor
  · intro h
    simp only [oplain, List.mem_append, List.mem_singleton] at h
    rcases h with (((h | h) | h) | h) | h
    · simp only [obannerLines, List.mem_cons, List.not_mem_nil, or_false] at h
      rcases h with rfl | rfl <;> exact absurd hb (by decide)
    · rw [h] at hb; exact absurd hb (by simp)
    · exact h
    · rw [h] at hb; exact absurd hb (by simp)
    · unfold ocheckLines at h
      split at h
      · rw [List.mem_singleton] at h
        exfalso; rw [h] at hb; revert hb; split <;> decide
      · cases h
  · intro h
    simp only [oplain, List.mem_append]
    exact .inl (.inl (.inr h))

theorem intText_nat (n : Nat) : intText (n : Int) = natText n := by
  unfold intText
  rw [if_neg (by omega)]
  rfl

/-- The line of label `k` of the seven. -/
def statLabel (k : Nat) : List Char := ["Number of Decisions   : ".toList, "Number of Units       : ".toList,
  "Number of Backtracks  : ".toList, "Number of Entails     : ".toList, "Number of Levels      : ".toList,
  "Number of Variables   : ".toList, "Number of Clauses     : ".toList].getD k []

theorem intText_inj {a b : Int} (h : intText a = intText b) : a = b := by
  unfold intText at h
  have hd : ∀ n, '-' ∉ natText n := fun n => natText_no (by decide)
  by_cases ha : a < 0 <;> by_cases hb : b < 0
  · rw [if_pos ha, if_pos hb] at h
    have := natText_inj (List.cons.inj h).2
    omega
  · rw [if_pos ha, if_neg hb] at h
    exact absurd (by rw [← h]; exact List.mem_cons_self) (hd b.natAbs)
  · rw [if_neg ha, if_pos hb] at h
    exact absurd (by rw [h]; exact List.mem_cons_self) (hd a.natAbs)
  · rw [if_neg ha, if_neg hb] at h
    have := natText_inj h
    omega

/-- The seven numbers in the order in which they are printed. -/
def OReport.number (r : OReport) (k : Nat) : Int :=
  [(r.decisions : Int), r.units, r.backtracks, r.entails, r.levels, r.variables, r.clauses].getD k 0

theorem ostatLines_eq (r : OReport) : ostatLines r = (List.range 7).map fun k => statLabel k ++ intText (r.number k) := by
  unfold ostatLines
  simp only [← intText_nat]
  rfl

theorem statLabel_ok : ∀ k < 7, (statLabel k).length = 24 ∧ '\t' ∉ statLabel k ∧ ':' ∈ statLabel k := by decide +kernel

theorem statLabel_inj : ∀ j < 7, ∀ k < 7, statLabel j = statLabel k → j = k := by decide +kernel

theorem ostat_iff {name : List Char} {t : Times} {r : OReport} {k : Nat} (hk : k < 7) (n : Int) :
    statLabel k ++ intText n ∈ orunLines name t r ↔ n = r.number k := by
  obtain ⟨h1, h2, h3⟩ := statLabel_ok k hk
  have ht : '\t' ∉ statLabel k ++ intText n := fun h' =>
    (List.mem_append.1 h').elim h2 (intText_no (by decide) (by decide))
  rw [omem_stat ht (List.mem_append_left _ h3), ostatLines_eq, List.mem_map]
  constructor
  · rintro ⟨j, hj, h⟩
    have hj := List.mem_range.1 hj
    have := statLabel_inj j hj k hk (List.append_inj_left h ((statLabel_ok j hj).1.trans h1.symm))
    subst this
    exact (intText_inj (List.append_cancel_left h)).symm
  · rintro rfl
    exact ⟨k, List.mem_range.2 hk, rfl⟩

/-! ## C104 -/

theorem otext_named (w : OWorld) (m : Mode) (fuel : Nat) (os : List OOpt) (hos : ∀ o ∈ os, o.Ok)
    {name : List Char} (hF : (os.filterMap OOpt.fileOf).getLast? = some name) (t : Times) :
    oprogramText w fuel (m.arg :: os.flatMap OOpt.args) t =
      (orunSolver w fuel (m.arg :: os.flatMap OOpt.args)).bind fun o => .ok (o.map (ooutcomeText name t)) := by
  obtain ⟨c, h1, h2, h3, h4, h5, h6⟩ := oparse_opts os {} hos
  rw [List.getLast?_map, hF] at h5
  have h5 : c.FILE = some name := h5
  unfold oprogramText
  cases orunSolver w fuel (m.arg :: os.flatMap OOpt.args) with
  | ub => rfl
  | fuel => rfl
  | ok o =>
    cases o with
    | none => rfl
    | some o =>
      show (parseOpts osolveOpt {} (os.flatMap OOpt.args) >>= _) = _
      rw [h1, Res.ok_bind, h5]
      rfl

/-- What C104 says about the lines of a text, for a formula. -/
structure OSays (P : Problem) (txt : List Char) : Prop where
  one      : ∃ a : Answer, ∀ a', Answers txt a' ↔ a' = a
  sat      : Answers txt .SAT → P.Satisfiable ∧ "Verifying model ... model is CORRECT".toList ∈ linesOf txt
  unsat    : Answers txt .UNSAT → "Number of Decisions   : 0".toList ∈ linesOf txt → ¬ P.Satisfiable
  vars     : ∀ n, "Number of Variables   : ".toList ++ intText n ∈ linesOf txt ↔ n = P.numVars

/-- **C104**: the original program, from the command line to the printed lines: exactly one line ends with an answer; SAT
is right and then the self-check is printed to be correct; UNSAT is right if no decision is printed.  (The full claim, that
UNSAT is right, fails: `C104_fails`.) -/
theorem C104_original_partial (w : OWorld) (m : Mode) (os : List OOpt) (hos : ∀ o ∈ os, o.Ok)
    {N M : Nat} {name : List Char} (hN : (os.filterMap OOpt.varOf).getLast? = some (N : Int))
    (hM : (os.filterMap OOpt.clauseOf).getLast? = some (M : Int))
    (hF : (os.filterMap OOpt.fileOf).getLast? = some name) (hdie : name ≠ "die".toList)
    {ls : List FileLine} {P : Problem} (h : Describes ls P) (hm : HeadersMatch N M ls)
    (hw : w.files name = some (fileText ls)) (hwf : P.WellFormed) {t : Times} (ho : OneLine name t) {fuel : Nat}
    {txt : List Char} (hr : oprogramText w fuel (m.arg :: os.flatMap OOpt.args) t = .ok (some txt)) :
    OSays P txt ∧
    (Answers txt .TIMEOUT → ∃ k, w.late ((os.filterMap OOpt.timeOf).getLast?.getD 3600) k = true) := by
  rw [otext_named w m fuel os hos hF] at hr
  obtain ⟨o, h1, h2⟩ := Res.bind_eq_ok.1 hr
  obtain ⟨rep, rfl, k1, k2, k3, k4⟩ := (C80_original_answers_partial w m os hos hN hM hF hdie h hm hw hwf).2 fuel o h1
  cases h2
  refine ⟨⟨⟨rep.answer, fun a => by rw [omem_answer ho]; exact eq_comm⟩, fun ha => ?_, fun ha hd => ?_, fun n => ?_⟩, ?_⟩
  · rw [omem_answer ho] at ha
    rw [linesOf_oreport ho]
    exact ⟨(k2 ha).1, omem_correct ha (k2 ha).2⟩
  · rw [omem_answer ho] at ha
    rw [linesOf_oreport ho] at hd
    have e : "Number of Decisions   : 0".toList = statLabel 0 ++ intText 0 := by decide
    rw [e, ostat_iff (by decide)] at hd
    have hd : (0 : Int) = (rep.decisions : Int) := hd
    exact k4 ha (by omega)
  · rw [linesOf_oreport ho, ← k1]
    exact ostat_iff (k := 5) (by decide) n
  · rw [omem_answer ho]
    exact k3

/-- **C104**, the statistics: the seven numbers can be read in one way only; with `-solvech` the number of levels is
decisions minus backtracks and the clauses are those of the file; with `-solvenc` there is one more clause for each
backtrack. -/
theorem C104_numbers (w : OWorld) (m : Mode) (os : List OOpt) (hos : ∀ o ∈ os, o.Ok)
    {N M : Nat} {name : List Char} (hN : (os.filterMap OOpt.varOf).getLast? = some (N : Int))
    (hM : (os.filterMap OOpt.clauseOf).getLast? = some (M : Int))
    (hF : (os.filterMap OOpt.fileOf).getLast? = some name) (hdie : name ≠ "die".toList)
    {ls : List FileLine} {P : Problem} (h : Describes ls P) (hm : HeadersMatch N M ls)
    (hw : w.files name = some (fileText ls)) (hwf : P.WellFormed) {t : Times} (ho : OneLine name t) {fuel : Nat}
    {txt : List Char} (hr : oprogramText w fuel (m.arg :: os.flatMap OOpt.args) t = .ok (some txt)) :
    ∃ decisions backtracks levels clauses : Int, (∀ n,
      ("Number of Decisions   : ".toList ++ intText n ∈ linesOf txt ↔ n = decisions) ∧
      ("Number of Backtracks  : ".toList ++ intText n ∈ linesOf txt ↔ n = backtracks) ∧
      ("Number of Levels      : ".toList ++ intText n ∈ linesOf txt ↔ n = levels) ∧
      ("Number of Clauses     : ".toList ++ intText n ∈ linesOf txt ↔ n = clauses)) ∧
      (m = .ch → levels = decisions - backtracks ∧ clauses = P.clauses.length) ∧
      (m = .nc → clauses = P.clauses.length + backtracks ∧ 0 ≤ levels ∧ levels + backtracks ≤ decisions ∧
        backtracks ≤ P.doms.sum) := by
  rw [otext_named w m fuel os hos hF] at hr
  obtain ⟨o, h1, h2⟩ := Res.bind_eq_ok.1 hr
  rw [C79_original_command_line w m fuel os hos hN hM hF hdie h hm hw] at h1
  obtain ⟨rep, hs, e⟩ := Res.bind_eq_ok.1 h1
  cases e
  cases h2
  refine ⟨rep.decisions, rep.backtracks, rep.levels, rep.clauses, fun n => ?_, ?_, ?_⟩
  · rw [linesOf_oreport ho]
    exact ⟨ostat_iff (k := 0) (by decide) n, ostat_iff (k := 2) (by decide) n, ostat_iff (k := 4) (by decide) n,
      ostat_iff (k := 6) (by decide) n⟩
  · rintro rfl
    obtain ⟨a, _, c⟩ := C77_original_ch_statistics hwf hs
    exact ⟨a, by rw [c]⟩
  · rintro rfl
    obtain ⟨a, _, c, d, e, _⟩ := C77_original_nc_statistics hwf hs
    exact ⟨by rw [a]; omega, d, e, by omega⟩

/-- **C104 fails for UNSAT**: a satisfiable file for which the text says UNSAT (the hypotheses of C104 are met, see
`C80_example`). -/
theorem C104_fails : exWrong.Satisfiable ∧ ∃ txt,
    oprogramText (exWorld exWrong) 40 (Mode.ch.arg :: exOpts.flatMap OOpt.args) exTimes = .ok (some txt) ∧
    Answers txt .UNSAT := by
  refine ⟨C73_fails.2.1, ?_⟩
  have h : (oprogramText (exWorld exWrong) 40 (Mode.ch.arg :: exOpts.flatMap OOpt.args) exTimes).passes (fun o => match o with
      | some txt => decide ("f.txt \t0.0000\t0.0001\t 0.0001".toList ++ '\t' :: "UNSAT".toList ∈ linesOf txt)
      | none => false) = true := by decide +kernel
  obtain ⟨o, h1, h2⟩ := Res.of_passes h
  match o, h2 with
  | some txt, h2 => exact ⟨txt, h1, _, of_decide_eq_true h2⟩

/-- The whole text of a run. -/
example : (oprogramText (exWorld exWrong) 40 (Mode.ch.arg :: exOpts.flatMap OOpt.args) exTimes).passes (fun o => o = some (
    ("\n**** Finite Domain Sat Solver - Hemal A Lal ****\nf.txt \t0.0000\t0.0001\t 0.0001\tUNSAT\n\n" ++
    "Number of Decisions   : 1\nNumber of Units       : 1\nNumber of Backtracks  : 1\nNumber of Entails     : 1\n" ++
    "Number of Levels      : 0\nNumber of Variables   : 2\nNumber of Clauses     : 3\n\n").toList)) = true := by
  decide +kernel

/-- The line `l` of one message is in the text, and those of the other messages are not. -/
def Reports (txt l : List Char) : Prop :=
  ∀ l' ∈ ["**** INCORRECT COMMANDLINE ****".toList, "Could not open input file : ".toList,
      " Commandline arguments and file arguments do not match.".toList],
    l' ∈ linesOf txt ↔ l' = l

/-- **C104**, the messages: without a required option, with numbers that are not those of the file, or without the file,
the text says so and no line ends with an answer. -/
theorem C104_messages (w : OWorld) (m : Mode) (fuel : Nat) (os : List OOpt) (hos : ∀ o ∈ os, o.Ok) (t : Times) :
    (((∀ n, .var n ∉ os) ∨ (∀ n, .clause n ∉ os) ∨ (∀ n, .file n ∉ os)) →
      ∃ txt, oprogramText w fuel (m.arg :: os.flatMap OOpt.args) t = .ok (some txt) ∧
        Reports txt "**** INCORRECT COMMANDLINE ****".toList ∧ ∀ a, ¬ Answers txt a) ∧
    (∀ (N M : Nat) (name : List Char), (os.filterMap OOpt.varOf).getLast? = some (N : Int) →
      (os.filterMap OOpt.clauseOf).getLast? = some (M : Int) → (os.filterMap OOpt.fileOf).getLast? = some name →
      name ≠ "die".toList →
      (w.files name = none → ∃ txt, oprogramText w fuel (m.arg :: os.flatMap OOpt.args) t = .ok (some txt) ∧
        Reports txt "Could not open input file : ".toList ∧ ∀ a, ¬ Answers txt a) ∧
      ∀ ls : List FileLine, (∀ l ∈ ls, l.Ok) → (∀ l ∈ ls, l.text.length < 3000) →
        (∀ n m, FileLine.problem true n m ∉ ls) → (∃ n m, FileLine.problem false n m ∈ ls ∧ (n ≠ N ∨ m ≠ M)) →
        w.files name = some (fileText ls) → ∃ txt, oprogramText w fuel (m.arg :: os.flatMap OOpt.args) t = .ok (some txt) ∧
        Reports txt " Commandline arguments and file arguments do not match.".toList ∧
        "**** ERROR ****".toList ∈ linesOf txt ∧ ∀ a, ¬ Answers txt a) := by
  have key : ∀ txt : List Char, '\t' ∉ txt → ∀ a, ¬ Answers txt a := by
    have mem_of : ∀ (txt : List Char) l, l ∈ linesOf txt → ∀ x ∈ l, x ∈ txt := by
      intro txt
      induction txt with
      | nil => intro l hl; cases hl
      | cons c cs ih =>
        intro l hl x hx
        unfold linesOf at hl
        split at hl
        · rcases List.mem_cons.1 hl with rfl | hl
          · cases hx
          · exact List.mem_cons_of_mem _ (ih l hl x hx)
        · split at hl
          · rw [List.mem_singleton] at hl
            subst hl
            rw [List.mem_singleton] at hx
            subst hx
            exact List.mem_cons_self
          · rename_i l' ls' e
            rcases List.mem_cons.1 hl with rfl | hl
            · rcases List.mem_cons.1 hx with rfl | hx
              · exact List.mem_cons_self
              · exact List.mem_cons_of_mem _ (ih l' (by rw [e]; exact List.mem_cons_self) x hx)
            · exact List.mem_cons_of_mem _ (ih l (by rw [e]; exact List.mem_cons_of_mem _ hl) x hx)
    rintro txt ht a ⟨p, hp⟩
    exact ht (mem_of txt _ hp _ (List.mem_append_right _ List.mem_cons_self))
  refine ⟨fun hreq => ?_, fun N M name hN hM hF hdie => ⟨fun hn => ?_, fun ls a b c d e => ?_⟩⟩
  · refine ⟨obanner ++ badLineText, ?_, by unfold Reports; decide +kernel, key _ (by decide +kernel)⟩
    obtain ⟨c, h1, _⟩ := oparse_opts os {} hos
    unfold oprogramText
    rw [C79_original_required w m fuel os hos hreq, Res.ok_bind]
    show (parseOpts osolveOpt {} (os.flatMap OOpt.args) >>= _) = _
    rw [h1]
    rfl
  · refine ⟨obanner ++ noFileText, ?_, by unfold Reports; decide +kernel, key _ (by decide +kernel)⟩
    rw [otext_named w m fuel os hos hF, C79_original_no_file w m fuel os hos hN hM hF hdie hn]
    rfl
  · refine ⟨obanner ++ mismatchText, ?_, by unfold Reports; decide +kernel, by decide +kernel, key _ (by decide +kernel)⟩
    rw [otext_named w m fuel os hos hF, C79_original_mismatch w m fuel os hos hN hM hF hdie a b c d e]
    rfl

end Mvl.Orig
