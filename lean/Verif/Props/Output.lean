import Verif.Model.Output
import Verif.Props.CLI
import Verif.Props.Heur
import Verif.Props.Learned

/-!
# Properties of the printed text

C100: the answer can be read from the printed lines.  C101: so can the model.  C102: so can the statistics, and what
the collecting scripts make of them.
-/

namespace Mvl

variable {S : Type}

/-- The lines of a text; a last line need not end with a newline. -/
def linesOf : List Char → List (List Char)
  | [] => []
  | c :: cs =>
    if c = '\n' then [] :: linesOf cs
    else match linesOf cs with
      | [] => [[c]]
      | l :: ls => (c :: l) :: ls

example : linesOf "ab\n\nc".toList = ["ab".toList, [], "c".toList] := by decide

/-- The text with the given lines. -/
def unlines (ls : List (List Char)) : List Char := ls.flatMap (· ++ ['\n'])

theorem linesOf_line : ∀ {l t : List Char}, '\n' ∉ l → linesOf (l ++ '\n' :: t) = l :: linesOf t
  | [], t, _ => by rw [List.nil_append, linesOf, if_pos rfl]
  | c :: l, t, h => by
    rw [List.cons_append, linesOf, if_neg (by rintro rfl; exact h List.mem_cons_self),
      linesOf_line (fun hc => h (List.mem_cons_of_mem _ hc))]

theorem linesOf_unlines : ∀ {ls : List (List Char)}, (∀ l ∈ ls, '\n' ∉ l) → linesOf (unlines ls) = ls
  | [], _ => rfl
  | l :: ls, h => by
    rw [unlines, List.flatMap_cons, List.append_assoc, List.singleton_append, linesOf_line (h l List.mem_cons_self)]
    exact congrArg _ (linesOf_unlines fun x hx => h x (List.mem_cons_of_mem _ hx))

theorem pieces_unlines : ∀ {ls : List (List Char)}, (∀ l ∈ ls, '\n' ∉ l) → pieces [] (unlines ls) = ls
  | [], _ => rfl
  | l :: ls, h => by
    rw [unlines, List.flatMap_cons, List.append_assoc, List.singleton_append, pieces_line (h l List.mem_cons_self)]
    exact congrArg _ (pieces_unlines fun x hx => h x (List.mem_cons_of_mem _ hx))

theorem unlines_append (a b : List (List Char)) : unlines (a ++ b) = unlines a ++ unlines b := List.flatMap_append

/-! ## The lines of a run -/

/-- The line with the file name, or the two lines with `-wl` and UNSAT. -/
def timeLines (c : CommandLine) (name : List Char) (algo : Algo) (t : Times) (r : Report) : List (List Char) :=
  if algo = .learn ∧ c.WATCH = true ∧ r.answer = .UNSAT then
    [name ++ " \t".toList ++ t.build ++ ['\t'] ++ "UNSAT".toList, t.search ++ "\t ".toList ++ t.total ++ ['\t']]
  else [name ++ " \t".toList ++ t.build ++ ['\t'] ++ t.search ++ "\t ".toList ++ t.total ++ ['\t']]

def bannerLines : List (List Char) := [[], stars, [], "Finite Domain Sat Solver".toList, [], stars]

def statLines (r : Report) : List (List Char) :=
  ["Decisions   : ".toList ++ natText r.decisions, "Units       : ".toList ++ natText r.units,
   "Backtracks  : ".toList ++ natText r.backtracks, "Entails     : ".toList ++ natText r.entails,
   "Variables   : ".toList ++ natText r.variables, "Clauses     : ".toList ++ natText r.clauses,
   "Restarts   : ".toList ++ natText r.restarts]

def satLines (c : CommandLine) (r : Report) : List (List Char) :=
  if r.answer = .SAT then
    (if c.MODEL = true then "The model: ".toList :: r.model.map Lit.text else []) ++
    [if r.verified = some true then "Verifying model ... model is CORRECT".toList
      else "Verifying model ... model is INCORRECT".toList]
  else []

/-- All lines of a run that ends with an answer. -/
def runLines (c : CommandLine) (name : List Char) (algo : Algo) (t : Times) (r : Report) : List (List Char) :=
  bannerLines ++ timeLines c name algo t r ++ [[], '\x07' :: r.answer.text, []] ++ statLines r ++ [[]] ++ satLines c r

theorem modelText_eq (m : List Lit) : modelText m = unlines (m.map Lit.text) := by
  unfold modelText unlines
  rw [List.flatMap_map]

theorem satText_eq (c : CommandLine) (r : Report) :
    (if r.answer = .SAT then
      (if c.MODEL = true then "The model: ".toList ++ ['\n'] ++ modelText r.model else []) ++
      "Verifying model ... ".toList ++
      (if r.verified = some true then "model is CORRECT".toList ++ ['\n'] else "model is INCORRECT".toList ++ ['\n'])
    else []) = unlines (satLines c r) := by
  have e1 : "Verifying model ... model is CORRECT".toList = "Verifying model ... ".toList ++ "model is CORRECT".toList := by
    decide
  have e2 : "Verifying model ... model is INCORRECT".toList =
      "Verifying model ... ".toList ++ "model is INCORRECT".toList := by decide
  unfold satLines
  rw [e1, e2, modelText_eq]
  by_cases h1 : r.answer = .SAT
  · rw [if_pos h1, if_pos h1]
    by_cases h2 : c.MODEL = true <;> by_cases h3 : r.verified = some true
    · rw [if_pos h2, if_pos h2, if_pos h3, if_pos h3]
      simp only [unlines, List.flatMap_cons, List.flatMap_nil, List.append_assoc, List.append_nil, List.cons_append,
        List.nil_append, List.flatMap_append]
    · rw [if_pos h2, if_pos h2, if_neg h3, if_neg h3]
      simp only [unlines, List.flatMap_cons, List.flatMap_nil, List.append_assoc, List.append_nil, List.cons_append,
        List.nil_append, List.flatMap_append]
    · rw [if_neg h2, if_neg h2, if_pos h3, if_pos h3]
      simp only [unlines, List.flatMap_cons, List.flatMap_nil, List.append_assoc, List.append_nil, List.nil_append]
    · rw [if_neg h2, if_neg h2, if_neg h3, if_neg h3]
      simp only [unlines, List.flatMap_cons, List.flatMap_nil, List.append_assoc, List.append_nil, List.nil_append]
  · rw [if_neg h1, if_neg h1]
    rfl

theorem reportText_eq (c : CommandLine) (name : List Char) (algo : Algo) (t : Times) (r : Report) :
    outcomeText c name algo t (.report r) = unlines (runLines c name algo t r) := by
  show banner ++ solveText c name algo t r = _
  unfold solveText runLines
  rw [satText_eq, unlines_append, ← List.append_assoc banner]
  refine congrArg (· ++ _) ?_
  unfold banner bannerLines timeLines statLines infoText
  by_cases h : algo = .learn ∧ c.WATCH = true ∧ r.answer = .UNSAT
  · rw [if_pos h, if_pos h]
    simp only [unlines, List.flatMap_cons, List.flatMap_nil, List.append_assoc, List.append_nil, List.cons_append,
      List.nil_append]
  · rw [if_neg h, if_neg h]
    simp only [unlines, List.flatMap_cons, List.flatMap_nil, List.append_assoc, List.append_nil, List.cons_append,
      List.nil_append]

/-- The texts of the times and the name of the file stay on one line. -/
structure OneLine (name : List Char) (t : Times) : Prop where
  name   : '\n' ∉ name
  build  : '\n' ∉ t.build
  search : '\n' ∉ t.search
  total  : '\n' ∉ t.total

theorem litText_no {l : Lit} {x : Char} (h1 : x.isDigit = false) (h2 : x ≠ '=') (h3 : x ≠ '!') : x ∉ l.text := by
  unfold Lit.text
  have := natText_no (n := l.var) h1
  have := natText_no (n := l.val) h1
  split <;> simp_all

/-- No line of a run but those with the times holds a newline, a tabulator or a zero byte. -/
theorem plain_no {c : CommandLine} {r : Report} {x : Char} (hx : x = '\n' ∨ x = '\t' ∨ x = '\x00') :
    ∀ l ∈ bannerLines ++ [[], '\x07' :: r.answer.text, []] ++ statLines r ++ [[]] ++ satLines c r, x ∉ l := by
  have hd : x.isDigit = false := by rcases hx with rfl | rfl | rfl <;> decide
  have ht : ∀ n, x ∉ natText n := fun n => natText_no hd
  have hm : ∀ l : Lit, x ∉ l.text := fun l => by
    apply litText_no hd <;> rcases hx with rfl | rfl | rfl <;> decide
  intro l hl
  simp only [List.mem_append, List.mem_singleton] at hl
  rcases hl with (((hl | hl) | hl) | hl) | hl
  · simp only [bannerLines, List.mem_cons, List.not_mem_nil, or_false] at hl
    rcases hl with rfl | rfl | rfl | rfl | rfl | rfl <;> rcases hx with rfl | rfl | rfl <;> decide
  · simp only [List.mem_cons, List.not_mem_nil, or_false] at hl
    rcases hl with rfl | rfl | rfl
    · simp
    · cases r.answer <;> rcases hx with rfl | rfl | rfl <;> decide
    · simp
  · simp only [statLines, List.mem_cons, List.not_mem_nil, or_false] at hl
    rcases hl with rfl | rfl | rfl | rfl | rfl | rfl | rfl <;> rw [List.mem_append, not_or] <;>
      refine ⟨?_, ht _⟩ <;> rcases hx with rfl | rfl | rfl <;> decide
  · rw [hl]; simp
  · unfold satLines at hl
    split at hl
    · rw [List.mem_append, List.mem_singleton] at hl
      rcases hl with hl | rfl
      · split at hl
        · rw [List.mem_cons, List.mem_map] at hl
          rcases hl with rfl | ⟨y, _, rfl⟩
          · rcases hx with rfl | rfl | rfl <;> decide
          · exact hm y
        · cases hl
      · split <;> rcases hx with rfl | rfl | rfl <;> decide
    · cases hl

theorem timeLines_no {c : CommandLine} {name : List Char} {algo : Algo} {t : Times} {r : Report} (h : OneLine name t) :
    ∀ l ∈ timeLines c name algo t r, '\n' ∉ l := by
  obtain ⟨h1, h2, h3, h4⟩ := h
  intro l hl
  unfold timeLines at hl
  split at hl <;> simp only [List.mem_cons, List.not_mem_nil, or_false] at hl
  · rcases hl with rfl | rfl <;> simp [h1, h2, h3, h4]
  · rw [hl]; simp [h1, h2, h3, h4]

theorem timeLines_tab {c : CommandLine} {name : List Char} {algo : Algo} {t : Times} {r : Report} :
    ∀ l ∈ timeLines c name algo t r, '\t' ∈ l := by
  intro l hl
  unfold timeLines at hl
  split at hl <;> simp only [List.mem_cons, List.not_mem_nil, or_false] at hl
  · rcases hl with rfl | rfl <;> simp
  · rw [hl]; simp

theorem mem_runLines {c : CommandLine} {name : List Char} {algo : Algo} {t : Times} {r : Report} {l : List Char} :
    l ∈ runLines c name algo t r ↔ l ∈ timeLines c name algo t r ∨
      l ∈ bannerLines ++ [[], '\x07' :: r.answer.text, []] ++ statLines r ++ [[]] ++ satLines c r := by
  unfold runLines
  simp only [List.mem_append]
  grind

theorem linesOf_report {c : CommandLine} {name : List Char} {algo : Algo} {t : Times} {r : Report} (h : OneLine name t) :
    linesOf (outcomeText c name algo t (.report r)) = runLines c name algo t r := by
  rw [reportText_eq, linesOf_unlines]
  intro l hl
  rcases mem_runLines.1 hl with hl | hl
  · exact timeLines_no h l hl
  · exact plain_no (.inl rfl) l hl

/-- A line without a tabulator is a line of the run exactly if it is one of those not about the times. -/
theorem mem_plain {c : CommandLine} {name : List Char} {algo : Algo} {t : Times} {r : Report} {l : List Char}
    (hl : '\t' ∉ l) : l ∈ runLines c name algo t r ↔
      l ∈ bannerLines ++ [[], '\x07' :: r.answer.text, []] ++ statLines r ++ [[]] ++ satLines c r := by
  rw [mem_runLines]
  exact ⟨fun h => h.resolve_left fun h' => hl (timeLines_tab l h'), .inr⟩

/-- Which lines hold a bell: the answer. -/
theorem mem_bell {c : CommandLine} {name : List Char} {algo : Algo} {t : Times} {r : Report} {l : List Char}
    (hl : '\t' ∉ l) (hb : '\x07' ∈ l) : l ∈ runLines c name algo t r ↔ l = '\x07' :: r.answer.text := by
  rw [mem_plain hl]
  constructor
  · intro h
    have hd : ∀ n, '\x07' ∉ natText n := fun n => natText_no (by decide)
    have hm : ∀ l : Lit, '\x07' ∉ l.text := fun l => litText_no (by decide) (by decide) (by decide)
    simp only [List.mem_append, List.mem_singleton] at h
    rcases h with (((h | h) | h) | h) | h
    · simp only [bannerLines, List.mem_cons, List.not_mem_nil, or_false] at h
      rcases h with rfl | rfl | rfl | rfl | rfl | rfl <;> exact absurd hb (by decide)
    · simp only [List.mem_cons, List.not_mem_nil, or_false] at h
      rcases h with rfl | rfl | rfl
      · exact absurd hb (by simp)
      · rfl
      · exact absurd hb (by simp)
    · simp only [statLines, List.mem_cons, List.not_mem_nil, or_false] at h
      rcases h with rfl | rfl | rfl | rfl | rfl | rfl | rfl <;> rw [List.mem_append] at hb <;>
        exact absurd hb (not_or.2 ⟨by decide, hd _⟩)
    · rw [h] at hb; exact absurd hb (by simp)
    · unfold satLines at h
      split at h
      · rw [List.mem_append, List.mem_singleton] at h
        rcases h with h | rfl
        · split at h
          · rw [List.mem_cons, List.mem_map] at h
            rcases h with rfl | ⟨y, _, rfl⟩
            · exact absurd hb (by decide)
            · exact absurd hb (hm y)
          · cases h
        · exfalso; revert hb; split <;> decide
      · cases h
  · rintro rfl
    simp

/-- Which lines hold `=`: the literals of the model. -/
theorem mem_equal {c : CommandLine} {name : List Char} {algo : Algo} {t : Times} {r : Report} {l : List Char}
    (hl : '\t' ∉ l) (hb : '=' ∈ l) : l ∈ runLines c name algo t r ↔
      r.answer = .SAT ∧ c.MODEL = true ∧ ∃ x ∈ r.model, l = x.text := by
  rw [mem_plain hl]
  constructor
  · intro h
    have hd : ∀ n, '=' ∉ natText n := fun n => natText_no (by decide)
    simp only [List.mem_append, List.mem_singleton] at h
    rcases h with (((h | h) | h) | h) | h
    · simp only [bannerLines, List.mem_cons, List.not_mem_nil, or_false] at h
      rcases h with rfl | rfl | rfl | rfl | rfl | rfl <;> exact absurd hb (by decide)
    · simp only [List.mem_cons, List.not_mem_nil, or_false] at h
      rcases h with rfl | rfl | rfl
      · exact absurd hb (by simp)
      · exfalso; revert hb; cases r.answer <;> decide
      · exact absurd hb (by simp)
    · simp only [statLines, List.mem_cons, List.not_mem_nil, or_false] at h
      rcases h with rfl | rfl | rfl | rfl | rfl | rfl | rfl <;> rw [List.mem_append] at hb <;>
        exact absurd hb (not_or.2 ⟨by decide, hd _⟩)
    · rw [h] at hb; exact absurd hb (by simp)
    · unfold satLines at h
      split at h
      · rename_i h1
        rw [List.mem_append, List.mem_singleton] at h
        rcases h with h | rfl
        · split at h
          · rename_i h2
            rw [List.mem_cons, List.mem_map] at h
            rcases h with rfl | ⟨y, hy, rfl⟩
            · exact absurd hb (by decide)
            · exact ⟨h1, h2, y, hy, rfl⟩
          · cases h
        · exfalso; revert hb; split <;> decide
      · cases h
  · rintro ⟨h1, h2, x, hx, rfl⟩
    refine List.mem_append_right _ ?_
    unfold satLines
    rw [if_pos h1, if_pos h2]
    exact List.mem_append_left _ (List.mem_cons_of_mem _ (List.mem_map_of_mem hx))

/-! ## C100 -/

theorem programText_solvech {w : World S} {argv : List (List Char)} {c : CommandLine} {name : List Char} {t : Times}
    (hl : parseCommandLine argv = .ok c) (hc : command argv = .solvech) (hlog : c.LOG = false) (hf : c.FILE = some name)
    (fuel : Nat) : programText w fuel argv t =
      (solveNamed w fuel c .chrono).bind fun o => .ok (some (outcomeText c name .chrono t o)) := by
  unfold programText
  rw [hl, runSolver_solvech hl hc]
  simp only [Res.ok_bind]
  cases solveNamed w fuel c .chrono with
  | ub => rfl
  | fuel => rfl
  | ok o =>
    show (match some o, c.FILE with | some o, some name => _ | _, _ => _) = _
    rw [hf]
    show (if c.LOG = true then _ else if command argv = .solvech then _ else _) = _
    rw [hlog, if_neg (by decide), if_pos hc]
    rfl

theorem programText_solvenc {w : World S} {argv : List (List Char)} {c : CommandLine} {name : List Char} {t : Times}
    (hl : parseCommandLine argv = .ok c) (hc : command argv = .solvenc) (hlog : c.LOG = false) (hf : c.FILE = some name)
    (fuel : Nat) : programText w fuel argv t =
      (solveNamed w fuel c .learn).bind fun o => .ok (some (outcomeText c name .learn t o)) := by
  unfold programText
  rw [hl, runSolver_solvenc hl hc]
  simp only [Res.ok_bind]
  cases solveNamed w fuel c .learn with
  | ub => rfl
  | fuel => rfl
  | ok o =>
    show (match some o, c.FILE with | some o, some name => _ | _, _ => _) = _
    rw [hf]
    show (if c.LOG = true then _ else if command argv = .solvech then _ else _) = _
    rw [hlog, if_neg (by decide), if_neg (by rw [hc]; decide)]
    rfl

theorem model_keeps : ∀ (k : Command) (o : List Char), Keeps (fun c => c.MODEL = true) (k.opts o)
  | .help, _ => trivial
  | .genben, o => by
    show Keeps _ (genbenOpt o)
    unfold genbenOpt
    repeat' apply Keeps.ite
    all_goals first | exact fun _ _ h => h | exact fun _ h => h | trivial
  | .b2f, o => by
    show Keeps _ (convOpt o)
    unfold convOpt
    repeat' apply Keeps.ite
    all_goals first | exact fun _ _ h => h | exact fun _ h => h | trivial
  | .linenc, o => by
    show Keeps _ (convOpt o)
    unfold convOpt
    repeat' apply Keeps.ite
    all_goals first | exact fun _ _ h => h | exact fun _ h => h | trivial
  | .quadenc, o => by
    show Keeps _ (convOpt o)
    unfold convOpt
    repeat' apply Keeps.ite
    all_goals first | exact fun _ _ h => h | exact fun _ h => h | trivial
  | .solvech, o => by
    show Keeps _ (solvechOpt o)
    unfold solvechOpt
    repeat' apply Keeps.ite
    all_goals first | exact fun _ _ h => h | exact fun _ h => h | trivial
  | .solvenc, o => by
    show Keeps _ (solvencOpt o)
    unfold solvencOpt
    repeat' apply Keeps.ite
    all_goals first | exact fun _ _ h => h | exact fun _ h => h | exact fun _ _ => rfl | trivial

/-- `-model` changes nothing: the model is printed after every SAT. -/
theorem model_on {argv : List (List Char)} {c : CommandLine} (h : parseCommandLine argv = .ok c) : c.MODEL = true :=
  parseOpts_keeps (model_keeps _) _ {} rfl h

/-- The line with an answer: a bell and the word. -/
def answerLine (a : Answer) : List Char := '\x07' :: match a with
  | .SAT => "SAT".toList
  | .TIMEOUT => "TIMEOUT".toList
  | .UNSAT => "UNSAT".toList

theorem mem_answer {c : CommandLine} {name : List Char} {algo : Algo} {t : Times} {r : Report} {a : Answer} :
    answerLine a ∈ runLines c name algo t r ↔ r.answer = a := by
  rw [mem_bell (by cases a <;> decide) (by cases a <;> decide)]
  cases a <;> cases r.answer <;> decide

theorem correct_mem {c : CommandLine} {name : List Char} {algo : Algo} {t : Times} {r : Report} (h1 : r.answer = .SAT)
    (h2 : r.verified = some true) : "Verifying model ... model is CORRECT".toList ∈ runLines c name algo t r := by
  refine mem_runLines.2 (.inr (List.mem_append_right _ ?_))
  unfold satLines
  rw [if_pos h1, if_pos h2]
  exact List.mem_append_right _ List.mem_cons_self

/-- What C100 says about the lines of a text, for a formula. -/
structure Says (P : Problem) (txt : List Char) : Prop where
  sat     : answerLine .SAT ∈ linesOf txt → P.Satisfiable
  unsat   : answerLine .UNSAT ∈ linesOf txt → ¬ P.Satisfiable
  correct : answerLine .SAT ∈ linesOf txt → "Verifying model ... model is CORRECT".toList ∈ linesOf txt
  one     : ∃ a : Answer, ∀ a', answerLine a' ∈ linesOf txt ↔ a' = a

theorem says_of {c : CommandLine} {name : List Char} {algo : Algo} {t : Times} {r : Report} {P : Problem}
    (ho : OneLine name t) (h1 : r.answer = .SAT → P.Satisfiable) (h2 : r.answer = .UNSAT → ¬ P.Satisfiable)
    (h3 : r.answer = .SAT → r.verified = some true) : Says P (outcomeText c name algo t (.report r)) := by
  refine ⟨?_, ?_, ?_, ?_⟩ <;> try rw [linesOf_report ho]
  · exact fun h => h1 (mem_answer.1 h)
  · exact fun h => h2 (mem_answer.1 h)
  · exact fun h => correct_mem (mem_answer.1 h) (h3 (mem_answer.1 h))
  · exact ⟨r.answer, fun a => by rw [mem_answer]; exact eq_comm⟩

theorem Input.outcome {w : World S} {argv : List (List Char)} {c : CommandLine} {P : Problem} (h : Input w argv c P)
    {fuel : Nat} {algo : Algo} {o : Outcome} (hsz : 0 ≤ c.CLAUSE_SIZE) (ho : Mvl.solveNamed w fuel c algo = .ok o) :
    ∃ rep, o = .report rep ∧ solve (c.cfg w) algo fuel P = .ok rep := by
  rw [h.solveNamed hsz] at ho
  obtain ⟨rep, h1, h2⟩ := Res.bind_eq_ok.1 ho
  cases h2
  exact ⟨rep, rfl, h1⟩

/-- **C100**, `-solvech`: what the printed lines say is right: there is exactly one line with an answer, the one for SAT
only if the formula is satisfiable, and then the self-check is printed to be correct, the one for UNSAT only if it is not. -/
theorem C100_solvech {w : World S} {argv : List (List Char)} {c : CommandLine} {P : Problem}
    (h : Input w argv c P) (hc : command argv = .solvech) (hlog : c.LOG = false) (hsz : 0 ≤ c.CLAUSE_SIZE) {t : Times}
    (ho : ∀ name, c.FILE = some name → OneLine name t) {fuel : Nat} {txt : List Char}
    (hr : programText w fuel argv t = .ok (some txt)) : Says P txt := by
  obtain ⟨name, ls, h1, _, _⟩ := h.file
  rw [programText_solvech h.line hc hlog h1] at hr
  obtain ⟨o, h2, h3⟩ := Res.bind_eq_ok.1 hr
  cases h3
  obtain ⟨rep, rfl, h4⟩ := h.outcome hsz h2
  obtain ⟨k1, k2⟩ := h.chrono hc
  have hans := C44_solvech h hc (fuel := fuel) (rep := rep) (by rw [runSolver_solvech h.line hc, h2]; rfl)
  exact says_of (ho name h1) hans.1 hans.2 (C10_chrono_verified k1 k2 h.wf.toProper h4)

/-- **C100**, `-solvenc`; with `-wl` for files whose clauses repeat no literal (it fails otherwise, see
`C44_dup_fails`). -/
theorem C100_solvenc_partial {w : World S} {argv : List (List Char)} {c : CommandLine} {P : Problem}
    (h : Input w argv c P) (hc : command argv = .solvenc) (hs : (c.cfg w).ScoreOK) (hnd : c.WATCH = true → P.NoDupLits)
    (hlog : c.LOG = false) (hsz : 0 ≤ c.CLAUSE_SIZE) {t : Times}
    (ho : ∀ name, c.FILE = some name → OneLine name t) {fuel : Nat} {txt : List Char}
    (hr : programText w fuel argv t = .ok (some txt)) : Says P txt := by
  obtain ⟨name, ls, h1, _, _⟩ := h.file
  rw [programText_solvenc h.line hc hlog h1] at hr
  obtain ⟨o, h2, h3⟩ := Res.bind_eq_ok.1 hr
  cases h3
  obtain ⟨rep, rfl, h4⟩ := h.outcome hsz h2
  have hans := C44_solvenc_partial h hc hs hnd (fuel := fuel) (rep := rep) (by rw [runSolver_solvenc h.line hc, h2]; rfl)
  refine says_of (ho name h1) hans.1 hans.2 fun hsat => ?_
  by_cases hw : c.WATCH = true
  · have hb : (c.cfg w).heur ≠ .BK := fun e => (C23_options h.line).1 ⟨hw, e⟩
    exact C10_watch_verified_partial (cfg := c.cfg w) hw hb hs h.wf.toProper (hnd hw) h4 hsat
  · exact C10_learn_verified (cfg := c.cfg w) (Bool.eq_false_iff.2 hw) hs h.wf.toProper h4 hsat

/-- **C100**, `-solvech`: with a clock that is never late the text is complete after finitely many steps, and a bell and
SAT is a line of it exactly if the formula is satisfiable, a bell and UNSAT exactly if it is not. -/
theorem C100_solvech_decides {w : World S} {argv : List (List Char)} {c : CommandLine} {P : Problem}
    (h : Input w argv c P) (hc : command argv = .solvech) (hlog : c.LOG = false) (hsz : 0 ≤ c.CLAUSE_SIZE)
    (hclock : ∀ k, w.late c.TIME k = false) {t : Times} (ho : ∀ name, c.FILE = some name → OneLine name t) :
    ∃ txt f0, (∀ fuel, f0 ≤ fuel → programText w fuel argv t = .ok (some txt)) ∧
      (answerLine .SAT ∈ linesOf txt ↔ P.Satisfiable) ∧ (answerLine .UNSAT ∈ linesOf txt ↔ ¬ P.Satisfiable) := by
  obtain ⟨name, ls, h1, _, _⟩ := h.file
  obtain ⟨rep, f0, h2, h3⟩ := C44_solvech_answers h hc hsz hclock
  have hrun : ∀ fuel, f0 ≤ fuel → programText w fuel argv t = .ok (some (outcomeText c name .chrono t (.report rep))) := by
    intro fuel hf
    have := h2 fuel hf
    rw [runSolver_solvech h.line hc] at this
    rw [programText_solvech h.line hc hlog h1, some_report this]
    rfl
  have hs := C100_solvech h hc hlog hsz ho (hrun f0 (Nat.le_refl _))
  refine ⟨_, f0, hrun, ⟨hs.sat, fun hp => ?_⟩, ⟨hs.unsat, fun hp => ?_⟩⟩ <;>
    rw [linesOf_report (ho name h1), mem_answer] <;> rcases h3 with h3 | h3
  · exact h3
  · exact absurd hp (hs.unsat (by rw [linesOf_report (ho name h1), mem_answer]; exact h3))
  · exact absurd (hs.sat (by rw [linesOf_report (ho name h1), mem_answer]; exact h3)) hp
  · exact h3

/-- **C100**, `-solvenc`, for files whose clauses repeat no literal. -/
theorem C100_solvenc_decides_partial {w : World S} {argv : List (List Char)} {c : CommandLine} {P : Problem}
    (h : Input w argv c P) (hc : command argv = .solvenc) (hs : (c.cfg w).ScoreOK) (hnd : P.NoDupLits)
    (hlog : c.LOG = false) (hsz : 0 ≤ c.CLAUSE_SIZE)
    (hclock : ∀ k, w.late c.TIME k = false) {t : Times} (ho : ∀ name, c.FILE = some name → OneLine name t) :
    ∃ txt f0, (∀ fuel, f0 ≤ fuel → programText w fuel argv t = .ok (some txt)) ∧
      (answerLine .SAT ∈ linesOf txt ↔ P.Satisfiable) ∧ (answerLine .UNSAT ∈ linesOf txt ↔ ¬ P.Satisfiable) := by
  obtain ⟨name, ls, h1, _, _⟩ := h.file
  obtain ⟨rep, f0, h2, h3⟩ := C44_solvenc_answers_partial h hc hs hnd hsz hclock
  have hrun : ∀ fuel, f0 ≤ fuel → programText w fuel argv t = .ok (some (outcomeText c name .learn t (.report rep))) := by
    intro fuel hf
    have := h2 fuel hf
    rw [runSolver_solvenc h.line hc] at this
    rw [programText_solvenc h.line hc hlog h1, some_report this]
    rfl
  have hs := C100_solvenc_partial h hc hs (fun _ => hnd) hlog hsz ho (hrun f0 (Nat.le_refl _))
  refine ⟨_, f0, hrun, ⟨hs.sat, fun hp => ?_⟩, ⟨hs.unsat, fun hp => ?_⟩⟩ <;>
    rw [linesOf_report (ho name h1), mem_answer] <;> rcases h3 with h3 | h3
  · exact h3
  · exact absurd hp (hs.unsat (by rw [linesOf_report (ho name h1), mem_answer]; exact h3))
  · exact absurd (hs.sat (by rw [linesOf_report (ho name h1), mem_answer]; exact h3)) hp
  · exact h3

/-- Times as the program might print them. -/
def exTimes : Times := ⟨"0.0000".toList, "0.0001".toList, "0.0001".toList⟩

theorem exTimes_oneLine : ∀ name, (some "a".toList : Option (List Char)) = some name → OneLine name exTimes := by
  intro name h
  cases h
  exact ⟨by decide, by decide, by decide, by decide⟩

/-- The whole text of a run. -/
example : (programText exWorld 30 (argvOf ["-solvech", "-file", "a"]) exTimes).passes (fun o => o = some (
    ("\n" ++ String.ofList stars ++ "\n\nFinite Domain Sat Solver\n\n" ++ String.ofList stars ++ "\n" ++
    "a \t0.0000\t0.0001\t 0.0001\t\n\n\x07SAT\n\n" ++
    "Decisions   : 1\nUnits       : 1\nBacktracks  : 0\nEntails     : 0\n" ++
    "Variables   : 2\nClauses     : 2\nRestarts   : 0\n\n" ++
    "The model: \n2=10\n1=0\nVerifying model ... model is CORRECT\n").toList)) = true := by decide +kernel

/-- **C100**, a file that cannot be opened: the text says so, and no line of it holds an answer. -/
theorem C100_no_file {w : World S} {argv : List (List Char)} {c : CommandLine} {name : List Char} {t : Times}
    (hl : parseCommandLine argv = .ok c) (hc : command argv = .solvech ∨ command argv = .solvenc) (hlog : c.LOG = false)
    (hf : c.FILE = some name) (hn : w.files name = none) (fuel : Nat) :
    ∃ txt, programText w fuel argv t = .ok (some txt) ∧ "Could not open input file : ".toList ∈ linesOf txt ∧
      ∀ a, answerLine a ∉ linesOf txt := by
  have key : ∀ algo, solveNamed w fuel c algo = .ok .noFile := by
    intro algo
    unfold solveNamed
    rw [hf]; dsimp only
    rw [hn]
  refine ⟨banner ++ noFileText, ?_, by decide +kernel, by intro a; cases a <;> decide +kernel⟩
  rcases hc with hc | hc
  · rw [programText_solvech hl hc hlog hf, key]; rfl
  · rw [programText_solvenc hl hc hlog hf, key]; rfl

/-! ## C101 -/

/-- The line that gives variable `v` the value `d`. -/
def valueLine (v d : Nat) : List Char := natText v ++ '=' :: natText d

theorem valueLine_no {v d : Nat} : '\t' ∉ valueLine v d := by
  unfold valueLine
  have := natText_no (n := v) (c := '\t') (by decide)
  have := natText_no (n := d) (c := '\t') (by decide)
  simp_all

theorem natText_inj {a b : Nat} (h : natText a = natText b) : a = b := by
  rw [← digitsVal_natText a, ← digitsVal_natText b, h]

theorem valueLine_eq {v d : Nat} {x : Lit} (hx : x.eq = true) : valueLine v d = x.text ↔ x.var = v ∧ x.val = d := by
  constructor
  · intro h
    unfold valueLine Lit.text at h
    rw [hx, if_pos rfl, List.append_assoc, List.singleton_append] at h
    have n1 : ∀ r, NoDigit ('=' :: r) := fun r => noDigit_cons (by decide)
    obtain ⟨a1, a2⟩ := takeWhile_digits (ds := natText v) (fun c hc => natText_digit c hc) (n1 (natText d))
    obtain ⟨b1, b2⟩ := takeWhile_digits (ds := natText x.var) (fun c hc => natText_digit c hc) (n1 (natText x.val))
    rw [h] at a1 a2
    have e1 := a1.symm.trans b1
    have e2 := a2.symm.trans b2
    exact ⟨(natText_inj e1).symm, (natText_inj (List.cons.inj e2).2).symm⟩
  · rintro ⟨rfl, rfl⟩
    unfold valueLine Lit.text
    rw [hx, if_pos rfl, List.append_assoc, List.singleton_append]

/-- What C101 says about the lines of a text, for a formula: every variable has exactly one value in them, from its
domain, no other variable has one, and together they solve the formula. -/
structure Shows (P : Problem) (txt : List Char) : Prop where
  value : ∀ v, 1 ≤ v → v ≤ P.numVars → ∃ d, d < P.dom v ∧ ∀ d', valueLine v d' ∈ linesOf txt ↔ d' = d
  only  : ∀ v d, valueLine v d ∈ linesOf txt → 1 ≤ v ∧ v ≤ P.numVars
  sol   : ∀ a : Assignment, (∀ v d, valueLine v d ∈ linesOf txt → a v = d) → P.Solves a

theorem mem_value {c : CommandLine} {name : List Char} {algo : Algo} {t : Times} {r : Report} {v d : Nat}
    (hm : ∀ l ∈ r.model, l.eq = true) : valueLine v d ∈ runLines c name algo t r ↔
      r.answer = .SAT ∧ c.MODEL = true ∧ ⟨v, d, true⟩ ∈ r.model := by
  rw [mem_equal valueLine_no (by unfold valueLine; simp)]
  refine and_congr_right fun _ => and_congr_right fun _ => ⟨?_, ?_⟩
  · rintro ⟨⟨v', d', e'⟩, hx, e⟩
    have he := hm _ hx
    obtain ⟨h1, h2⟩ := (valueLine_eq he).1 e
    dsimp only at h1 h2 he
    subst h1; subst h2; subst he
    exact hx
  · exact fun hx => ⟨_, hx, (valueLine_eq rfl).2 ⟨rfl, rfl⟩⟩

theorem shows_of {c : CommandLine} {name : List Char} {algo : Algo} {t : Times} {r : Report} {P : Problem}
    (ho : OneLine name t) (hm : c.MODEL = true) (hsat : r.answer = .SAT)
    (h : NamesAll P r.model ∧ ∀ a : Assignment, (∀ l ∈ r.model, a l.var = l.val) → P.Solves a) :
    Shows P (outcomeText c name algo t (.report r)) := by
  obtain ⟨⟨h1, h2⟩, h3⟩ := h
  have key : ∀ v d, valueLine v d ∈ linesOf (outcomeText c name algo t (.report r)) ↔ ⟨v, d, true⟩ ∈ r.model := by
    intro v d
    rw [linesOf_report ho, mem_value fun l hl => (h1 l hl).1]
    exact ⟨fun h => h.2.2, fun h => ⟨hsat, hm, h⟩⟩
  constructor
  · intro v hv1 hv2
    obtain ⟨d, hd, hf⟩ := h2 v hv1 hv2
    refine ⟨d, hd, fun d' => ?_⟩
    rw [key]
    constructor
    · intro hx
      have : (⟨v, d', true⟩ : Lit) ∈ r.model.filter fun l => l.var = v := List.mem_filter.2 ⟨hx, by simp⟩
      rw [hf, List.mem_singleton] at this
      exact congrArg Lit.val this
    · rintro rfl
      have : (⟨v, d', true⟩ : Lit) ∈ r.model.filter fun l => l.var = v := by rw [hf]; exact List.mem_singleton.2 rfl
      exact (List.mem_filter.1 this).1
  · exact fun v d hx => ⟨(h1 _ ((key v d).1 hx)).2.1, (h1 _ ((key v d).1 hx)).2.2⟩
  · intro a ha
    apply h3 a
    rintro ⟨v, d, e⟩ hl
    have he := (h1 _ hl).1
    dsimp only at he
    subst he
    exact ha v d ((key v d).2 hl)

/-- **C101**, `-solvech` without `-lazy` (with `-lazy` it fails, see `C09_lazy_fails`): after SAT the lines `v=d` of the
printed text are a solution of the file. -/
theorem C101_solvech_partial {w : World S} {argv : List (List Char)} {c : CommandLine} {P : Problem}
    (h : Input w argv c P) (hwf : P.WellFormed) (hc : command argv = .solvech) (hz : c.heuristic ≠ .lazy)
    (hlog : c.LOG = false) (hsz : 0 ≤ c.CLAUSE_SIZE) {t : Times}
    (ho : ∀ name, c.FILE = some name → OneLine name t) {fuel : Nat} {txt : List Char}
    (hr : programText w fuel argv t = .ok (some txt)) (hans : answerLine .SAT ∈ linesOf txt) : Shows P txt := by
  obtain ⟨name, ls, h1, _, _⟩ := h.file
  rw [programText_solvech h.line hc hlog h1] at hr
  obtain ⟨o, h2, h3⟩ := Res.bind_eq_ok.1 hr
  cases h3
  obtain ⟨rep, rfl, h4⟩ := h.outcome hsz h2
  obtain ⟨k1, k2⟩ := h.chrono hc
  rw [linesOf_report (ho name h1), mem_answer] at hans
  exact shows_of (ho name h1) (model_on h.line) hans (C09_chrono_model_partial k1 (k2.resolve_right hz) hwf h4 hans)

/-- **C101**, `-solvenc` without `-lazy`; with `-wl` for files whose clauses repeat no literal. -/
theorem C101_solvenc_partial {w : World S} {argv : List (List Char)} {c : CommandLine} {P : Problem}
    (h : Input w argv c P) (hwf : P.WellFormed) (hc : command argv = .solvenc) (hz : c.heuristic ≠ .lazy)
    (hs : (c.cfg w).ScoreOK) (hnd : c.WATCH = true → P.NoDupLits)
    (hlog : c.LOG = false) (hsz : 0 ≤ c.CLAUSE_SIZE) {t : Times}
    (ho : ∀ name, c.FILE = some name → OneLine name t) {fuel : Nat} {txt : List Char}
    (hr : programText w fuel argv t = .ok (some txt)) (hans : answerLine .SAT ∈ linesOf txt) : Shows P txt := by
  obtain ⟨name, ls, h1, _, _⟩ := h.file
  rw [programText_solvenc h.line hc hlog h1] at hr
  obtain ⟨o, h2, h3⟩ := Res.bind_eq_ok.1 hr
  cases h3
  obtain ⟨rep, rfl, h4⟩ := h.outcome hsz h2
  rw [linesOf_report (ho name h1), mem_answer] at hans
  refine shows_of (ho name h1) (model_on h.line) hans ?_
  by_cases hw : c.WATCH = true
  · have hb : c.heuristic ≠ .BK := fun e => (C23_options h.line).1 ⟨hw, e⟩
    have hh : (c.cfg w).heur = .VSIDS ∨ (c.cfg w).heur = .VSIDS_pos := by
      show c.heuristic = _ ∨ c.heuristic = _
      cases e : c.heuristic <;> simp_all
    exact C09_watch_model_partial (cfg := c.cfg w) hw hs hh hwf (hnd hw) h4 hans
  · exact C09_learn_model_partial (cfg := c.cfg w) (Bool.eq_false_iff.2 hw) hs hz hwf h4 hans

def exNeFile : List FileLine := [.problem true 1 1, .domain 1 3, .clause [⟨1, 0, false⟩]]

/-- A directory with the file of `exNe`. -/
def exNeWorld : World (Option (Nat × Nat)) :=
  { exWorld with files := fun n =>
      if n = "a".toList then some (fileText exNeFile) else none }

/-- **C101 fails with `-lazy`**: SAT is printed and no line gives the variable a value. -/
theorem C101_lazy_fails : ∃ (w : World (Option (Nat × Nat))) (txt : List Char),
    Input w (argvOf ["-solvech", "-lazy", "-file", "a"]) { FILE := some "a".toList, heuristic := .lazy } exNe ∧
    exNe.WellFormed ∧ programText w 30 (argvOf ["-solvech", "-lazy", "-file", "a"]) exTimes = .ok (some txt) ∧
    answerLine .SAT ∈ linesOf txt ∧ ¬ Shows exNe txt := by
  have h : (programText exNeWorld 30
      (argvOf ["-solvech", "-lazy", "-file", "a"]) exTimes).passes (fun o => match o with
        | some txt => decide (answerLine .SAT ∈ linesOf txt ∧ valueLine 1 0 ∉ linesOf txt ∧ valueLine 1 1 ∉ linesOf txt ∧
          valueLine 1 2 ∉ linesOf txt)
        | none => false) = true := by decide +kernel
  obtain ⟨o, h1, h2⟩ := Res.of_passes h
  match o, h2 with
  | some txt, h2 =>
    have h2 := of_decide_eq_true h2
    refine ⟨exNeWorld, txt, ⟨by decide, ⟨"a".toList, exNeFile, rfl, rfl, by decide, by decide, ⟨rfl, rfl⟩, rfl, rfl⟩, by decide⟩,
      by decide, h1, h2.1, fun hs => ?_⟩
    obtain ⟨d, hd, hv⟩ := hs.value 1 (by decide) (by decide)
    have hd : d < 3 := hd
    have hm := (hv d).2 rfl
    obtain ⟨_, k0, k1, k2⟩ := h2
    rcases (show d = 0 ∨ d = 1 ∨ d = 2 by omega) with rfl | rfl | rfl
    · exact k0 hm
    · exact k1 hm
    · exact k2 hm

/-! ## C102 -/

/-- The seven numbers in the order in which they are printed. -/
def Report.numbers (r : Report) : List Nat :=
  [r.decisions, r.units, r.backtracks, r.entails, r.variables, r.clauses, r.restarts]

/-- Lines with a colon and no tabulator, on which no line of the model can be found. -/
theorem mem_stat {c : CommandLine} {name : List Char} {algo : Algo} {t : Times} {r : Report} {l : List Char}
    (hl : '\t' ∉ l) (hb : ':' ∈ l) (hT : l.head? ≠ some 'T') : l ∈ runLines c name algo t r ↔ l ∈ statLines r := by
  rw [mem_plain hl]
  constructor
  · intro h
    simp only [List.mem_append, List.mem_singleton] at h
    rcases h with (((h | h) | h) | h) | h
    · simp only [bannerLines, List.mem_cons, List.not_mem_nil, or_false] at h
      rcases h with rfl | rfl | rfl | rfl | rfl | rfl <;> exact absurd hb (by decide)
    · simp only [List.mem_cons, List.not_mem_nil, or_false] at h
      rcases h with rfl | rfl | rfl
      · exact absurd hb (by simp)
      · exfalso; revert hb; cases r.answer <;> decide
      · exact absurd hb (by simp)
    · exact h
    · rw [h] at hb; exact absurd hb (by simp)
    · unfold satLines at h
      split at h
      · rw [List.mem_append, List.mem_singleton] at h
        rcases h with h | rfl
        · split at h
          · rw [List.mem_cons, List.mem_map] at h
            rcases h with rfl | ⟨y, hy, rfl⟩
            · exact absurd (by decide) hT
            · exact absurd hb (litText_no (by decide) (by decide) (by decide))
          · cases h
        · exfalso; revert hb; split <;> decide
      · cases h
  · intro h
    simp only [List.mem_append]
    exact .inl (.inl (.inr h))

theorem stat_iff {lab : List Char} {n m : Nat} : lab ++ natText n = lab ++ natText m ↔ n = m :=
  ⟨fun h => natText_inj (List.append_cancel_left h), fun h => by rw [h]⟩

/-- **C102**: for every run that ends with an answer, the seven numbers can be read from the printed lines. -/
theorem C102_numbers {c : CommandLine} {name : List Char} {algo : Algo} {t : Times} {r : Report} (ho : OneLine name t)
    {txt : List Char} (he : txt = outcomeText c name algo t (.report r)) (n : Nat) :
    ("Decisions   : ".toList ++ natText n ∈ linesOf txt ↔ n = r.decisions) ∧
    ("Units       : ".toList ++ natText n ∈ linesOf txt ↔ n = r.units) ∧
    ("Backtracks  : ".toList ++ natText n ∈ linesOf txt ↔ n = r.backtracks) ∧
    ("Entails     : ".toList ++ natText n ∈ linesOf txt ↔ n = r.entails) ∧
    ("Variables   : ".toList ++ natText n ∈ linesOf txt ↔ n = r.variables) ∧
    ("Clauses     : ".toList ++ natText n ∈ linesOf txt ↔ n = r.clauses) ∧
    ("Restarts   : ".toList ++ natText n ∈ linesOf txt ↔ n = r.restarts) := by
  subst he
  rw [linesOf_report ho]
  have ht : ∀ {lab : List Char}, '\t' ∉ lab → '\t' ∉ lab ++ natText n := fun h h' =>
    (List.mem_append.1 h').elim h (natText_no (by decide))
  have hh : ∀ {a b x y : List Char} {c d : Char}, a.head? = some c → b.head? = some d → c ≠ d → ¬ (a ++ x = b ++ y) := by
    intro a b x y c d h1 h2 h3 h4
    have := congrArg List.head? h4
    rw [List.head?_append, List.head?_append, h1, h2] at this
    exact h3 (by simpa using this)
  refine ⟨?_, ?_, ?_, ?_, ?_, ?_, ?_⟩ <;>
    rw [mem_stat (ht (by decide)) (List.mem_append_left _ (by decide)) (by
      rw [List.head?_append]; exact fun h => by cases h)] <;>
    simp only [statLines, List.mem_cons, List.not_mem_nil, or_false]
  · refine ⟨fun h => ?_, fun h => by subst h; exact .inl rfl⟩
    rcases h with h | h | h | h | h | h | h
    · exact stat_iff.1 h
    · exact absurd h (hh rfl rfl (by decide))
    · exact absurd h (hh rfl rfl (by decide))
    · exact absurd h (hh rfl rfl (by decide))
    · exact absurd h (hh rfl rfl (by decide))
    · exact absurd h (hh rfl rfl (by decide))
    · exact absurd h (hh rfl rfl (by decide))
  · refine ⟨fun h => ?_, fun h => by subst h; exact .inr (.inl rfl)⟩
    rcases h with h | h | h | h | h | h | h
    · exact absurd h (hh rfl rfl (by decide))
    · exact stat_iff.1 h
    · exact absurd h (hh rfl rfl (by decide))
    · exact absurd h (hh rfl rfl (by decide))
    · exact absurd h (hh rfl rfl (by decide))
    · exact absurd h (hh rfl rfl (by decide))
    · exact absurd h (hh rfl rfl (by decide))
  · refine ⟨fun h => ?_, fun h => by subst h; exact .inr (.inr (.inl rfl))⟩
    rcases h with h | h | h | h | h | h | h
    · exact absurd h (hh rfl rfl (by decide))
    · exact absurd h (hh rfl rfl (by decide))
    · exact stat_iff.1 h
    · exact absurd h (hh rfl rfl (by decide))
    · exact absurd h (hh rfl rfl (by decide))
    · exact absurd h (hh rfl rfl (by decide))
    · exact absurd h (hh rfl rfl (by decide))
  · refine ⟨fun h => ?_, fun h => by subst h; exact .inr (.inr (.inr (.inl rfl)))⟩
    rcases h with h | h | h | h | h | h | h
    · exact absurd h (hh rfl rfl (by decide))
    · exact absurd h (hh rfl rfl (by decide))
    · exact absurd h (hh rfl rfl (by decide))
    · exact stat_iff.1 h
    · exact absurd h (hh rfl rfl (by decide))
    · exact absurd h (hh rfl rfl (by decide))
    · exact absurd h (hh rfl rfl (by decide))
  · refine ⟨fun h => ?_, fun h => by subst h; exact .inr (.inr (.inr (.inr (.inl rfl))))⟩
    rcases h with h | h | h | h | h | h | h
    · exact absurd h (hh rfl rfl (by decide))
    · exact absurd h (hh rfl rfl (by decide))
    · exact absurd h (hh rfl rfl (by decide))
    · exact absurd h (hh rfl rfl (by decide))
    · exact stat_iff.1 h
    · exact absurd h (hh rfl rfl (by decide))
    · exact absurd h (hh rfl rfl (by decide))
  · refine ⟨fun h => ?_, fun h => by subst h; exact .inr (.inr (.inr (.inr (.inr (.inl rfl)))))⟩
    rcases h with h | h | h | h | h | h | h
    · exact absurd h (hh rfl rfl (by decide))
    · exact absurd h (hh rfl rfl (by decide))
    · exact absurd h (hh rfl rfl (by decide))
    · exact absurd h (hh rfl rfl (by decide))
    · exact absurd h (hh rfl rfl (by decide))
    · exact stat_iff.1 h
    · exact absurd h (hh rfl rfl (by decide))
  · refine ⟨fun h => ?_, fun h => by subst h; exact .inr (.inr (.inr (.inr (.inr (.inr rfl)))))⟩
    rcases h with h | h | h | h | h | h | h
    · exact absurd h (hh rfl rfl (by decide))
    · exact absurd h (hh rfl rfl (by decide))
    · exact absurd h (hh rfl rfl (by decide))
    · exact absurd h (hh rfl rfl (by decide))
    · exact absurd h (hh rfl rfl (by decide))
    · exact absurd h (hh rfl rfl (by decide))
    · exact stat_iff.1 h

/-- **C102**, what the lines mean for `-solvenc` without `-wl` on files whose clauses repeat no literal: the number of
clauses printed is that of the file plus the number of backtracks printed, and the number of restarts printed is that
of the backtracks divided by the interval. -/
theorem C102_solvenc {w : World S} {argv : List (List Char)} {c : CommandLine} {P : Problem}
    (h : Input w argv c P) (hc : command argv = .solvenc) (hs : (c.cfg w).ScoreOK) (hw : c.WATCH = false)
    (hnd : P.NoDupLits) (hlog : c.LOG = false) (hsz : 0 ≤ c.CLAUSE_SIZE) {t : Times}
    (ho : ∀ name, c.FILE = some name → OneLine name t) {fuel : Nat} {txt : List Char}
    (hr : programText w fuel argv t = .ok (some txt)) :
    ∃ n, (∀ k, "Backtracks  : ".toList ++ natText k ∈ linesOf txt ↔ k = n) ∧
      (∀ k, "Clauses     : ".toList ++ natText k ∈ linesOf txt ↔ k = P.clauses.length + n) ∧
      (∀ k, "Restarts   : ".toList ++ natText k ∈ linesOf txt ↔
        (k : Int) = if 0 < c.RESTARTS then (n : Int) / c.RESTARTS else 0) := by
  obtain ⟨name, ls, h1, _, _⟩ := h.file
  rw [programText_solvenc h.line hc hlog h1] at hr
  obtain ⟨o, h2, h3⟩ := Res.bind_eq_ok.1 hr
  cases h3
  obtain ⟨rep, rfl, h4⟩ := h.outcome hsz h2
  have hn := C102_numbers (c := c) (algo := .learn) (r := rep) (ho name h1) rfl
  have h5 := (C62_learn_bound (cfg := c.cfg w) hw hs h.wf.toProper hnd h4).1
  have h6 := C25_restarts h4
  refine ⟨rep.backtracks, fun k => (hn k).2.2.1, fun k => ?_, fun k => ?_⟩
  · rw [(hn k).2.2.2.2.2.1, h5]
  · rw [(hn k).2.2.2.2.2.2]
    have h7 : 0 < c.RESTARTS → (rep.restarts : Int) = rep.backtracks / c.RESTARTS := h6.1
    have h8 : c.RESTARTS ≤ 0 → rep.restarts = 0 := h6.2
    split
    · rename_i hp
      rw [← h7 hp]; omega
    · rename_i hp
      rw [h8 (by omega)]; omega

/-! ### The collecting scripts -/

/-- A text on which the scripts find nothing. -/
structure Quiet (a : List Char) : Prop where
  line  : '\n' ∉ a
  zero  : '\x00' ∉ a
  colon : ':' ∉ a
  th    : ¬ ['T', 'h'] <:+: a

theorem resultChars_quiet {x : Char} {b : List Char} (hx : x ≠ 'h') : ∀ {a : List Char}, ':' ∉ a → ¬ ['T', 'h'] <:+: a →
    resultChars (a ++ x :: b) = resultChars (x :: b)
  | [], _, _ => rfl
  | c :: a, h1, h2 => by
    rw [List.cons_append, resultChars, if_neg (by rintro rfl; exact h1 List.mem_cons_self), if_neg,
      List.nil_append, resultChars_quiet hx (fun h => h1 (List.mem_cons_of_mem _ h))
        (fun h => h2 (h.trans (List.suffix_cons c a).isInfix))]
    rintro ⟨rfl, h⟩
    cases a with
    | nil => exact hx (by simpa using h)
    | cons d a =>
      have hd : d = 'h' := by simpa using h
      subst hd
      exact h2 ⟨[], a, rfl⟩

theorem resultChars_plain : ∀ {a : List Char}, ':' ∉ a → 'T' ∉ a → resultChars a = []
  | [], _, _ => rfl
  | c :: a, h1, h2 => by
    rw [resultChars, if_neg (by rintro rfl; exact h1 List.mem_cons_self),
      if_neg (by rintro ⟨rfl, _⟩; exact h2 List.mem_cons_self), List.nil_append]
    exact resultChars_plain (fun h => h1 (List.mem_cons_of_mem _ h)) (fun h => h2 (List.mem_cons_of_mem _ h))

theorem cString_eq {l : List Char} (h : '\x00' ∉ l) : cString l = l := by
  unfold cString
  induction l with
  | nil => rfl
  | cons c l ih =>
    rw [List.takeWhile_cons, if_pos (by
      have : c ≠ '\x00' := by rintro rfl; exact h List.mem_cons_self
      exact decide_eq_true this),
      ih fun hc => h (List.mem_cons_of_mem _ hc)]

/-- What the script writes for a line of the results. -/
def lineResult (l : List Char) : List Char := resultChars (cString l ++ ['\x00'])

theorem lineResult_plain {l : List Char} (h0 : '\x00' ∉ l) (h1 : ':' ∉ l) (h2 : 'T' ∉ l) : lineResult l = [] := by
  unfold lineResult
  rw [cString_eq h0]
  apply resultChars_plain <;> simp [h1, h2]

theorem lineResult_stat {lab : List Char} {n : Nat} (h0 : '\x00' ∉ lab) (h1 : ':' ∉ lab) (h2 : 'T' ∉ lab) :
    lineResult (lab ++ ':' :: ' ' :: natText n) = natText n ++ ['\x00', ' '] := by
  have hz : '\x00' ∉ natText n := natText_no (by decide)
  have hc : ':' ∉ natText n := natText_no (by decide)
  have hT : 'T' ∉ natText n := natText_no (by decide)
  unfold lineResult
  rw [cString_eq (by simp [h0, hz]), List.append_assoc, List.cons_append,
    resultChars_quiet (by decide) h1 (fun h => h2 (h.subset (by simp))), resultChars, if_pos rfl,
    resultChars_plain (by simp [hc]) (by simp [hT])]
  simp

/-- What the script writes for a run: the seven numbers, each followed by a zero byte and a space, and after SAT a
newline and for the words `The model:` another zero byte and space. -/
def runResult (r : Report) : List Char :=
  r.numbers.flatMap (fun n => natText n ++ ['\x00', ' ']) ++ (if r.answer = .SAT then ['\n', '\x00', ' '] else [])

/-- The name of the file and the texts of the times hold nothing that the script looks for. -/
structure QuietRun (name : List Char) (t : Times) : Prop where
  name   : Quiet name
  build  : Quiet t.build
  search : Quiet t.search
  total  : Quiet t.total

theorem QuietRun.oneLine {name : List Char} {t : Times} (h : QuietRun name t) : OneLine name t :=
  ⟨h.name.line, h.build.line, h.search.line, h.total.line⟩

theorem runLines_result {c : CommandLine} {name : List Char} {algo : Algo} {t : Times} {r : Report} (hq : QuietRun name t)
    (hm : c.MODEL = true) : (runLines c name algo t r).flatMap lineResult = runResult r := by
  obtain ⟨⟨_, n2, n3, n4⟩, ⟨_, b2, b3, b4⟩, ⟨_, s2, s3, s4⟩, ⟨_, t2, t3, t4⟩⟩ := hq
  have hbanner : bannerLines.flatMap lineResult = [] := by decide +kernel
  have htime : (timeLines c name algo t r).flatMap lineResult = [] := by
    unfold timeLines
    split
    · simp only [List.flatMap_cons, List.flatMap_nil, List.append_nil]
      unfold lineResult
      rw [cString_eq (by simp [n2, b2]), cString_eq (by simp [s2, t2])]
      simp only [show " \t".toList = [' ', '\t'] from rfl, show "\t ".toList = ['\t', ' '] from rfl, List.append_assoc,
        List.cons_append, List.nil_append]
      rw [resultChars_quiet (by decide) n3 n4, resultChars_quiet (by decide) s3 s4]
      rw [resultChars, if_neg (by decide), if_neg (by simp), resultChars, if_neg (by decide), if_neg (by simp),
        resultChars_quiet (by decide) b3 b4]
      rw [show resultChars ('\t' :: ("UNSAT".toList ++ ['\x00'])) = [] by decide +kernel]
      rw [resultChars, if_neg (by decide), if_neg (by simp), resultChars, if_neg (by decide), if_neg (by simp),
        resultChars_quiet (by decide) t3 t4]
      decide +kernel
    · simp only [List.flatMap_cons, List.flatMap_nil, List.append_nil]
      unfold lineResult
      rw [cString_eq (by simp [n2, b2, s2, t2])]
      simp only [show " \t".toList = [' ', '\t'] from rfl, show "\t ".toList = ['\t', ' '] from rfl, List.append_assoc,
        List.cons_append, List.nil_append]
      rw [resultChars_quiet (by decide) n3 n4]
      rw [resultChars, if_neg (by decide), if_neg (by simp), resultChars, if_neg (by decide), if_neg (by simp),
        resultChars_quiet (by decide) b3 b4]
      rw [resultChars, if_neg (by decide), if_neg (by simp), resultChars_quiet (by decide) s3 s4]
      rw [resultChars, if_neg (by decide), if_neg (by simp), resultChars, if_neg (by decide), if_neg (by simp),
        resultChars_quiet (by decide) t3 t4]
      decide +kernel
  have hans : [[], '\x07' :: r.answer.text, []].flatMap lineResult = [] := by
    cases r.answer <;> decide +kernel
  have hstat : (statLines r).flatMap lineResult = r.numbers.flatMap (fun n => natText n ++ ['\x00', ' ']) := by
    unfold statLines Report.numbers
    simp only [List.flatMap_cons, List.flatMap_nil, List.append_nil]
    rw [show "Decisions   : ".toList = "Decisions   ".toList ++ [':', ' '] from by decide,
      show "Units       : ".toList = "Units       ".toList ++ [':', ' '] from by decide,
      show "Backtracks  : ".toList = "Backtracks  ".toList ++ [':', ' '] from by decide,
      show "Entails     : ".toList = "Entails     ".toList ++ [':', ' '] from by decide,
      show "Variables   : ".toList = "Variables   ".toList ++ [':', ' '] from by decide,
      show "Clauses     : ".toList = "Clauses     ".toList ++ [':', ' '] from by decide,
      show "Restarts   : ".toList = "Restarts   ".toList ++ [':', ' '] from by decide]
    simp only [List.append_assoc _ [':', ' '], List.cons_append, List.nil_append]
    rw [lineResult_stat, lineResult_stat, lineResult_stat, lineResult_stat, lineResult_stat, lineResult_stat,
      lineResult_stat] <;> decide
  have hsat : (satLines c r).flatMap lineResult = if r.answer = .SAT then ['\n', '\x00', ' '] else [] := by
    unfold satLines
    split
    · rw [List.flatMap_append, List.flatMap_cons]
      have h1 : (r.model.map Lit.text).flatMap lineResult = [] := by
        rw [List.flatMap_eq_nil_iff]
        intro l hl
        obtain ⟨x, _, rfl⟩ := List.mem_map.1 hl
        exact lineResult_plain (litText_no (by decide) (by decide) (by decide)) (litText_no (by decide) (by decide)
          (by decide)) (litText_no (by decide) (by decide) (by decide))
      rw [h1]
      split <;> decide +kernel
    · rfl
  unfold runLines runResult
  rw [List.flatMap_append, List.flatMap_append, List.flatMap_append, List.flatMap_append, List.flatMap_append, hbanner,
    htime, hans, hstat, hsat]
  rw [show [[]].flatMap lineResult = [] from by decide]
  simp only [List.nil_append, List.append_nil]

/-- A run of the solver that ended with an answer, as far as its text depends on it. -/
structure Logged where
  c    : CommandLine
  name : List Char
  algo : Algo
  t    : Times
  r    : Report

def Logged.text (l : Logged) : List Char := outcomeText l.c l.name l.algo l.t (.report l.r)

/-- **C102**, `parse_results`: from the texts of any number of runs, one after the other, the script writes the seven
numbers of each run, every number followed by a zero byte and a space, and a newline (with another zero byte) after the
numbers of the runs with SAT. -/
theorem C102_parse_results {ls : List Logged} (hq : ∀ l ∈ ls, QuietRun l.name l.t) (hm : ∀ l ∈ ls, l.c.MODEL = true) :
    parseResults (ls.flatMap Logged.text) = ls.flatMap fun l => runResult l.r := by
  have h1 : ls.flatMap Logged.text = unlines (ls.flatMap fun l => runLines l.c l.name l.algo l.t l.r) := by
    rw [unlines, List.flatMap_assoc]
    exact congrArg (ls.flatMap ·) (funext fun l => reportText_eq _ _ _ _ _)
  have h2 : ∀ x ∈ ls.flatMap fun l => runLines l.c l.name l.algo l.t l.r, '\n' ∉ x := by
    intro x hx
    obtain ⟨l, hl, hx⟩ := List.mem_flatMap.1 hx
    rcases mem_runLines.1 hx with hx | hx
    · exact timeLines_no (hq l hl).oneLine x hx
    · exact plain_no (.inl rfl) x hx
  unfold parseResults
  rw [h1, pieces_unlines h2, List.flatMap_assoc]
  clear h1 h2
  induction ls with
  | nil => rfl
  | cons l ls ih =>
    rw [List.flatMap_cons, List.flatMap_cons, ih (fun x hx => hq x (List.mem_cons_of_mem _ hx))
      (fun x hx => hm x (List.mem_cons_of_mem _ hx))]
    exact congrArg (· ++ _) (runLines_result (hq l List.mem_cons_self) (hm l List.mem_cons_self))

theorem runResult_count (r : Report) : (runResult r).count '\n' = if r.answer = .SAT then 1 else 0 := by
  unfold runResult
  rw [List.count_append]
  have : (r.numbers.flatMap fun n => natText n ++ ['\x00', ' ']).count '\n' = 0 := by
    rw [List.count_eq_zero]
    intro h
    obtain ⟨n, _, h⟩ := List.mem_flatMap.1 h
    have := natText_no (n := n) (c := '\n') (by decide)
    simp_all
  rw [this]
  split <;> decide

/-- **C102**, the rows of the table: as many newlines as runs with SAT, so a run with UNSAT or TIMEOUT has no row of its
own. -/
theorem C102_rows {ls : List Logged} (hq : ∀ l ∈ ls, QuietRun l.name l.t) (hm : ∀ l ∈ ls, l.c.MODEL = true) :
    (parseResults (ls.flatMap Logged.text)).count '\n' = ls.countP fun l => l.r.answer = .SAT := by
  rw [C102_parse_results hq hm]
  clear hq hm
  induction ls with
  | nil => rfl
  | cons l ls ih =>
    rw [List.flatMap_cons, List.count_append, ih, runResult_count, List.countP_cons]
    simp only [decide_eq_true_eq]
    omega

/-- A run with the given answer. -/
def exLogged (a : Answer) : Logged where
  c := { FILE := some "Test".toList }
  name := "Test".toList
  algo := .learn
  t := exTimes
  r := ⟨a, 12, 3, 0, 0, 5, 7, 0, if a = .SAT then [⟨1, 0, true⟩, ⟨2, 1, true⟩] else [], if a = .SAT then some true else none⟩

theorem exLogged_quiet (a : Answer) : QuietRun (exLogged a).name (exLogged a).t := by
  show QuietRun "Test".toList exTimes
  constructor <;> refine ⟨by decide, by decide, by decide, ?_⟩ <;> decide

example : parseResults ([Answer.UNSAT, .SAT].flatMap fun a => (exLogged a).text) =
    "12\x003\x000\x000\x005\x007\x000\x00".toList.flatMap (fun c => if c = '\x00' then ['\x00', ' '] else [c]) ++
    "12\x003\x000\x000\x005\x007\x000\x00".toList.flatMap (fun c => if c = '\x00' then ['\x00', ' '] else [c]) ++
    "\n\x00 ".toList := by decide +kernel

/-- **C102, one row for each run, fails**: two runs with UNSAT share a row with the run after them. -/
theorem C102_row_fails : (parseResults ([exLogged .UNSAT, exLogged .UNSAT, exLogged .SAT].flatMap Logged.text)).count '\n' = 1 := by
  rw [C102_rows (by
    intro l hl
    simp only [List.mem_cons, List.not_mem_nil, or_false] at hl
    rcases hl with rfl | rfl | rfl <;> exact exLogged_quiet _) (by
    intro l hl
    simp only [List.mem_cons, List.not_mem_nil, or_false] at hl
    rcases hl with rfl | rfl | rfl <;> rfl)]
  decide

theorem outputChars_mem {x : Char} : ∀ {l : List Char}, x ∈ outputChars l → x = ' ' ∨ x ∈ l
  | [], h => absurd h (by simp [outputChars])
  | c :: rest, h => by
    rw [outputChars, List.mem_append] at h
    rcases h with h | h
    · split at h
      · rw [List.mem_append, List.mem_singleton] at h
        exact h.symm.imp id fun h => List.mem_cons_of_mem _ (List.mem_of_mem_drop h)
      · cases h
    · exact (outputChars_mem h).imp id (List.mem_cons_of_mem _)

theorem pieces_no : ∀ (cs acc : List Char), '\n' ∉ acc → ∀ l ∈ pieces acc cs, '\n' ∉ l
  | [], acc, h, l, hl => by
    rw [pieces] at hl
    split at hl
    · cases hl
    · rw [List.mem_singleton] at hl
      rw [hl, List.mem_reverse]; exact h
  | c :: cs, acc, h, l, hl => by
    rw [pieces] at hl
    split at hl
    · rcases List.mem_cons.1 hl with rfl | hl
      · rw [List.mem_reverse]; exact h
      · exact pieces_no cs [] (by simp) l hl
    · rename_i hc
      exact pieces_no cs (c :: acc) (by
        intro h'
        rcases List.mem_cons.1 h' with h' | h'
        · exact hc h'.symm
        · exact h h') l hl

/-- **C102**, the script of the queens benchmark: whatever the file holds, it writes a single row. -/
theorem C102_queens_row (cs : List Char) : ∃ row, '\n' ∉ row ∧ queensOutput cs = row ++ ['\n'] := by
  refine ⟨_, ?_, rfl⟩
  intro h
  obtain ⟨l, hl, h⟩ := List.mem_flatMap.1 h
  rcases outputChars_mem h with h | h
  · exact absurd h (by decide)
  · rw [List.mem_append, List.mem_singleton] at h
    rcases h with h | h
    · exact pieces_no cs [] (by simp) l hl ((List.takeWhile_subset _) h)
    · exact absurd h (by decide)

example : queensOutput ([Answer.UNSAT, .SAT].flatMap fun a => (exLogged a).text) =
    "12\x003\x000\x000\x005\x007\x000\x00".toList.flatMap (fun c => if c = '\x00' then ['\x00', ' '] else [c]) ++
    "12\x003\x000\x000\x005\x007\x000\x00\x00".toList.flatMap (fun c => if c = '\x00' then ['\x00', ' '] else [c]) ++
    ['\n'] := by decide +kernel

end Mvl
