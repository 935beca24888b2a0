import Verif.Props.BVOutput
import Verif.Props.OrigOutput

/-!
# Collecting the results of all three programs

C108: what /repo/benchmarks/parse_results.cc writes for texts of the solver, of the bit-vector solver and of the original
solver.
-/

namespace Mvl

theorem lineResult_number {lab n : List Char} (h0 : '\x00' ∉ lab) (h1 : ':' ∉ lab) (h2 : 'T' ∉ lab) (n0 : '\x00' ∉ n)
    (n1 : ':' ∉ n) (n2 : 'T' ∉ n) : lineResult (lab ++ ':' :: ' ' :: n) = n ++ ['\x00', ' '] := by
  unfold lineResult
  rw [cString_eq (by simp [h0, n0]), List.append_assoc, List.cons_append,
    resultChars_quiet (by decide) h1 (fun h => h2 (h.subset (by simp))), resultChars, if_pos rfl,
    resultChars_plain (by simp [n1]) (by simp [n2])]
  simp

/-- What the script writes for one number. -/
def entryText (i : Int) : List Char := intText i ++ ['\x00', ' ']

namespace BV

theorem bmodelLines_result {c : BLine} {r : BReport} (hm : c.MODEL = true) :
    (bmodelLines c r).flatMap lineResult = if r.answer = .SAT then ['\n', '\x00', ' '] else [] := by
  unfold bmodelLines
  by_cases h : r.answer = .SAT
  · rw [if_pos ⟨h, hm⟩, if_pos h, List.flatMap_cons]
    have h1 : (r.model.zipIdx.map fun p => setLine p.2 p.1).flatMap lineResult = [] := by
      rw [List.flatMap_eq_nil_iff]
      intro l hl
      obtain ⟨x, _, rfl⟩ := List.mem_map.1 hl
      exact lineResult_plain (setLine_no (by decide) (by decide)) (setLine_no (by decide) (by decide))
        (setLine_no (by decide) (by decide))
    rw [h1]
    decide +kernel
  · rw [if_neg (fun h' => h h'.1), if_neg h]
    rfl

theorem brunLines_result {c : BLine} {name : List Char} {t : Times} {r : BReport} (hq : QuietRun name t)
    (hm : c.MODEL = true) : (brunLines c name t r).flatMap lineResult = runResult r.plain := by
  have key := runLines_result (c := { WATCH := true, MODEL := true }) (algo := .learn) (r := r.plain) hq rfl
  have hsat : ∀ c' : CommandLine, c'.MODEL = true →
      (satLines c' r.plain).flatMap lineResult = (bmodelLines c r ++ bcheckLines r).flatMap lineResult := by
    intro c' hc
    rw [List.flatMap_append, bmodelLines_result hm]
    unfold satLines bcheckLines
    rw [if_pos hc]
    show (if r.answer = .SAT then _ else _ : List (List Char)).flatMap lineResult = _
    by_cases h : r.answer = .SAT
    · rw [if_pos h, if_pos h, if_pos h]
      show (if r.verified = some true then _ else _ : List Char) |> fun x => (["The model: ".toList] ++ [x]).flatMap lineResult = _
      by_cases hv : r.verified = some true
      · simp only [if_pos hv]; decide +kernel
      · simp only [if_neg hv]; decide +kernel
    · rw [if_neg h, if_neg h, if_neg h]
      rfl
  unfold runLines at key
  unfold brunLines
  rw [List.flatMap_append] at key ⊢
  rw [← hsat { WATCH := true, MODEL := true } rfl]
  exact key

end BV

namespace Orig

theorem orunLines_result {name : List Char} {t : Times} {r : OReport} (hq : QuietRun name t) :
    (orunLines name t r).flatMap lineResult = (List.range 7).flatMap fun k => entryText (r.number k) := by
  obtain ⟨⟨_, n2, n3, n4⟩, ⟨_, b2, b3, b4⟩, ⟨_, s2, s3, s4⟩, ⟨_, t2, t3, t4⟩⟩ := hq
  have ha0 : '\x00' ∉ r.answer.text := by cases r.answer <;> decide
  have htime : (otimeLines name t r).flatMap lineResult = [] := by
    unfold otimeLines
    split
    · simp only [List.flatMap_cons, List.flatMap_nil, List.append_nil]
      unfold lineResult
      rw [cString_eq (by simp [n2, b2]), cString_eq (by simp [s2, t2, ha0])]
      simp only [show " \t".toList = [' ', '\t'] from rfl, show "\t ".toList = ['\t', ' '] from rfl, List.append_assoc,
        List.cons_append, List.nil_append]
      rw [resultChars_quiet (by decide) n3 n4, resultChars_quiet (by decide) s3 s4]
      rw [resultChars, if_neg (by decide), if_neg (by simp), resultChars, if_neg (by decide), if_neg (by simp),
        resultChars_quiet (by decide) b3 b4]
      rw [show resultChars ('\t' :: ("No Branch Atom selected".toList ++ ['\x00'])) = [] by decide +kernel]
      rw [resultChars, if_neg (by decide), if_neg (by simp), resultChars, if_neg (by decide), if_neg (by simp),
        resultChars_quiet (by decide) t3 t4]
      cases r.answer <;> decide +kernel
    · simp only [List.flatMap_cons, List.flatMap_nil, List.append_nil]
      unfold lineResult
      rw [cString_eq (by simp [n2, b2, s2, t2, ha0])]
      simp only [show " \t".toList = [' ', '\t'] from rfl, show "\t ".toList = ['\t', ' '] from rfl, List.append_assoc,
        List.cons_append, List.nil_append]
      rw [resultChars_quiet (by decide) n3 n4]
      rw [resultChars, if_neg (by decide), if_neg (by simp), resultChars, if_neg (by decide), if_neg (by simp),
        resultChars_quiet (by decide) b3 b4]
      rw [resultChars, if_neg (by decide), if_neg (by simp), resultChars_quiet (by decide) s3 s4]
      rw [resultChars, if_neg (by decide), if_neg (by simp), resultChars, if_neg (by decide), if_neg (by simp),
        resultChars_quiet (by decide) t3 t4]
      cases r.answer <;> decide +kernel
  have hban : obannerLines.flatMap lineResult = [] := by decide +kernel
  have hchk : (ocheckLines r).flatMap lineResult = [] := by
    unfold ocheckLines
    split
    · split <;> decide +kernel
    · rfl
  have hstat : (ostatLines r).flatMap lineResult = (List.range 7).flatMap fun k => entryText (r.number k) := by
    rw [ostatLines_eq, List.flatMap_map]
    have hlab : ∀ k < 7, ∃ lab, statLabel k = lab ++ [':', ' '] ∧ '\x00' ∉ lab ∧ ':' ∉ lab ∧ 'T' ∉ lab := by
      intro k hk
      refine ⟨(statLabel k).dropLast.dropLast, ?_⟩
      revert k
      decide +kernel
    have : ∀ k ∈ List.range 7, lineResult (statLabel k ++ intText (r.number k)) = entryText (r.number k) := by
      intro k hk
      obtain ⟨lab, e, h0, h1, h2⟩ := hlab k (List.mem_range.1 hk)
      rw [e, List.append_assoc]
      exact lineResult_number h0 h1 h2 (intText_no (by decide) (by decide)) (intText_no (by decide) (by decide))
        (intText_no (by decide) (by decide))
    rw [List.flatMap_def, List.flatMap_def, List.map_congr_left this]
  unfold orunLines
  rw [List.flatMap_append, List.flatMap_append, List.flatMap_append, List.flatMap_append, List.flatMap_append, hban, htime,
    hchk, hstat]
  rw [show [[]].flatMap lineResult = [] from by decide]
  simp only [List.nil_append, List.append_nil]

end Orig

/-- A run of one of the three programs that ended with an answer. -/
inductive AnyRun where
  | solver (l : Logged)
  | bitvec (c : BV.BLine) (name : List Char) (t : Times) (r : BV.BReport)
  | orig (name : List Char) (t : Times) (r : Orig.OReport)

namespace AnyRun

/-- What it printed. -/
def text : AnyRun → List Char
  | solver l => l.text
  | bitvec c name t r => BV.boutcomeText c name t (.report r)
  | orig name t r => Orig.ooutcomeText name t (.report r)

/-- Name and times hold nothing that the script looks for, and the model is printed (the default). -/
def Fine : AnyRun → Prop
  | solver l => QuietRun l.name l.t ∧ l.c.MODEL = true
  | bitvec c name t _ => QuietRun name t ∧ c.MODEL = true
  | orig name t _ => QuietRun name t

/-- The seven numbers of its statistics in the order of the text. -/
def numbers : AnyRun → List Int
  | solver l => [(l.r.decisions : Int), l.r.units, l.r.backtracks, l.r.entails, l.r.variables, l.r.clauses, l.r.restarts]
  | bitvec _ _ _ r => [(r.decisions : Int), r.units, r.backtracks, 0, r.variables, r.clauses, r.restarts]
  | orig _ _ r => [(r.decisions : Int), r.units, r.backtracks, r.entails, r.levels, r.variables, r.clauses]

/-- It printed a model. -/
def model : AnyRun → Bool
  | solver l => l.r.answer == .SAT
  | bitvec _ _ _ r => r.answer == .SAT
  | orig _ _ _ => false

/-- The lines of the text. -/
def lines : AnyRun → List (List Char)
  | solver l => runLines l.c l.name l.algo l.t l.r
  | bitvec c name t r => BV.brunLines c name t r
  | orig name t r => Orig.orunLines name t r

theorem text_eq (a : AnyRun) : a.text = unlines a.lines := by
  cases a with
  | solver l => exact reportText_eq _ _ _ _ _
  | bitvec c name t r => exact BV.breportText_eq _ _ _ _
  | orig name t r => exact Orig.oreportText_eq _ _ _

theorem lines_no {a : AnyRun} (h : a.Fine) : ∀ x ∈ a.lines, '\n' ∉ x := by
  cases a with
  | solver l =>
    intro x hx
    rcases mem_runLines.1 hx with hx | hx
    · exact timeLines_no h.1.oneLine x hx
    · exact plain_no (.inl rfl) x hx
  | bitvec c name t r =>
    intro x hx
    rcases BV.mem_brunLines.1 hx with hx | hx
    · rcases mem_runLines.1 hx with hx | hx
      · exact timeLines_no h.1.oneLine x hx
      · exact plain_no (.inl rfl) x hx
    · exact BV.bmodelLines_no (by decide) (by decide) (by decide) x hx
  | orig name t r =>
    intro x hx
    have ha : '\n' ∉ r.answer.text := by cases r.answer <;> decide
    obtain ⟨h1, h2, h3, h4⟩ := QuietRun.oneLine h
    rcases Orig.mem_orunLines.1 hx with hx | hx
    · unfold Orig.otimeLines at hx
      split at hx <;> simp only [List.mem_cons, List.not_mem_nil, or_false] at hx
      · rcases hx with rfl | rfl <;> simp [h1, h2, h3, h4, ha]
      · rw [hx]; simp [h1, h2, h3, h4, ha]
    · exact Orig.oplain_no (.inl rfl) x hx

theorem lines_result {a : AnyRun} (h : a.Fine) : a.lines.flatMap lineResult =
    a.numbers.flatMap entryText ++ if a.model = true then ['\n', '\x00', ' '] else [] := by
  have conv : ∀ r : Report, runResult r =
      [(r.decisions : Int), r.units, r.backtracks, r.entails, r.variables, r.clauses, r.restarts].flatMap entryText ++
        if r.answer = .SAT then ['\n', '\x00', ' '] else [] := by
    intro r
    unfold runResult Report.numbers entryText
    simp only [List.flatMap_cons, List.flatMap_nil, Orig.intText_nat]
  cases a with
  | solver l =>
    show (runLines l.c l.name l.algo l.t l.r).flatMap lineResult = _
    rw [runLines_result h.1 h.2, conv]
    simp only [numbers, model, beq_iff_eq]
  | bitvec c name t r =>
    show (BV.brunLines c name t r).flatMap lineResult = _
    rw [BV.brunLines_result h.1 h.2, conv]
    simp only [numbers, model, beq_iff_eq]
    rfl
  | orig name t r =>
    show (Orig.orunLines name t r).flatMap lineResult = _
    rw [Orig.orunLines_result h]
    simp only [model, Bool.false_eq_true, if_false, List.append_nil]
    rfl

end AnyRun

/-- **C108**: from the texts of any runs of the three programs, one after the other, `parse_results` writes the seven numbers of
each run in the order of the text, every number followed by a zero byte and a space, and after the numbers of the runs that
print a model a newline, a zero byte and a space. -/
theorem C108_collect {ls : List AnyRun} (h : ∀ l ∈ ls, l.Fine) : parseResults (ls.flatMap AnyRun.text) =
    ls.flatMap fun l => l.numbers.flatMap (fun i => intText i ++ ['\x00', ' ']) ++
      if l.model = true then ['\n', '\x00', ' '] else [] := by
  have h1 : ls.flatMap AnyRun.text = unlines (ls.flatMap AnyRun.lines) := by
    rw [unlines, List.flatMap_assoc]
    exact congrArg (ls.flatMap ·) (funext fun l => l.text_eq)
  have h2 : ∀ x ∈ ls.flatMap AnyRun.lines, '\n' ∉ x := by
    intro x hx
    obtain ⟨l, hl, hx⟩ := List.mem_flatMap.1 hx
    exact AnyRun.lines_no (h l hl) x hx
  unfold parseResults
  rw [h1, pieces_unlines h2, List.flatMap_assoc, List.flatMap_def, List.flatMap_def]
  exact congrArg List.flatten (List.map_congr_left fun l hl => AnyRun.lines_result (h l hl))

theorem collect_count (l : AnyRun) : (l.numbers.flatMap (fun i => intText i ++ ['\x00', ' ']) ++
      if l.model = true then ['\n', '\x00', ' '] else []).count '\n' = if l.model = true then 1 else 0 := by
  rw [List.count_append]
  have : (l.numbers.flatMap fun i => intText i ++ ['\x00', ' ']).count '\n' = 0 := by
    rw [List.count_eq_zero]
    intro h
    obtain ⟨n, _, h⟩ := List.mem_flatMap.1 h
    have := Orig.intText_no (i := n) (x := '\n') (by decide) (by decide)
    simp_all
  rw [this]
  split <;> decide

/-- **C108**, rows: the table has as many newlines as runs that print a model. -/
theorem C108_rows {ls : List AnyRun} (h : ∀ l ∈ ls, l.Fine) :
    (parseResults (ls.flatMap AnyRun.text)).count '\n' = ls.countP AnyRun.model := by
  rw [C108_collect h]
  clear h
  induction ls with
  | nil => rfl
  | cons l ls ih =>
    rw [List.flatMap_cons, List.count_append, ih, collect_count, List.countP_cons]
    omega

/-- **C108, one row for each run, fails** for every series of runs of the original solver: however many there are and whatever
they answer, all numbers are in one row. -/
theorem C108_original_fails {ls : List AnyRun} (h : ∀ l ∈ ls, ∃ name t r, l = .orig name t r ∧ QuietRun name t) :
    '\n' ∉ parseResults (ls.flatMap AnyRun.text) := by
  rw [← List.count_eq_zero, C108_rows (fun l hl => by obtain ⟨_, _, _, rfl, hq⟩ := h l hl; exact hq), List.countP_eq_zero]
  intro l hl
  obtain ⟨_, _, _, rfl, _⟩ := h l hl
  exact Bool.false_ne_true

/-- One run of each program. -/
def exRuns : List AnyRun := [.orig "Test".toList exTimes ⟨.SAT, 4, 1, 2, 0, 2, 5, 7, false, some true⟩,
  .bitvec {} "Test".toList exTimes ⟨.SAT, 4, 1, 2, 5, 9, 0, [0, 1], some true⟩, .solver (exLogged .UNSAT)]

example : (∀ l ∈ exRuns, l.Fine) ∧ parseResults (exRuns.flatMap AnyRun.text) =
    "4_1_2_0_2_5_7_4_1_2_0_5_9_0_\n_12_3_0_0_5_7_0_".toList.flatMap (fun c => if c = '_' then ['\x00', ' '] else [c]) := by
  refine ⟨?_, by decide +kernel⟩
  intro l hl
  simp only [exRuns, List.mem_cons, List.not_mem_nil, or_false] at hl
  rcases hl with rfl | rfl | rfl
  · exact exLogged_quiet .SAT
  · exact ⟨exLogged_quiet .SAT, rfl⟩
  · exact ⟨exLogged_quiet .UNSAT, rfl⟩

end Mvl
