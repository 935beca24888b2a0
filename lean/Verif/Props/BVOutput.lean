import Verif.Model.BVOutput
import Verif.Props.Output
import Verif.Props.BVCLI

/-!
# Properties of the text printed by the bit-vector program

C103: the answer, the sets of values and the statistics can be read from the printed lines, and are right.
-/

namespace Mvl.BV

variable {S : Type}

/-! ## The lines of a run -/

/-- The report without the model, as one of the other program. -/
def BReport.plain (r : BReport) : Report where
  answer := r.answer
  decisions := r.decisions
  units := r.units
  backtracks := r.backtracks
  entails := 0
  variables := r.variables
  clauses := r.clauses
  restarts := r.restarts
  model := []
  verified := r.verified

/-- The line with the set of values of a variable. -/
def setLine (v : Nat) (b : Bits) : List Char := natText v ++ '=' :: bitsText b

def bmodelLines (c : BLine) (r : BReport) : List (List Char) :=
  if r.answer = .SAT ∧ c.MODEL = true then "The model: ".toList :: r.model.zipIdx.map fun p => setLine p.2 p.1 else []

def bcheckLines (r : BReport) : List (List Char) :=
  if r.answer = .SAT then [if r.verified = some true then "Verifying model ... model is CORRECT".toList
      else "Verifying model ... model is INCORRECT".toList] else []

/-- All lines of a run that ends with an answer. -/
def brunLines (c : BLine) (name : List Char) (t : Times) (r : BReport) : List (List Char) :=
  bannerLines ++ timeLines { WATCH := true } name .learn t r.plain ++ [[], '\x07' :: r.answer.text, []] ++
    statLines r.plain ++ [[]] ++ (bmodelLines c r ++ bcheckLines r)

theorem bmodelText_eq (m : List Bits) : bmodelText m = unlines (m.zipIdx.map fun p => setLine p.2 p.1) := by
  unfold bmodelText unlines setLine
  rw [List.flatMap_map]
  refine congrArg (List.flatMap · _) (funext fun p => ?_)
  simp only [List.append_assoc, List.cons_append, List.nil_append]

theorem bsatText_eq (c : BLine) (r : BReport) :
    (if r.answer = .SAT then
      (if c.MODEL = true then "The model: ".toList ++ ['\n'] ++ bmodelText r.model else []) ++
      "Verifying model ... ".toList ++
      (if r.verified = some true then "model is CORRECT".toList ++ ['\n'] else "model is INCORRECT".toList ++ ['\n'])
    else []) = unlines (bmodelLines c r ++ bcheckLines r) := by
  have e1 : "Verifying model ... model is CORRECT".toList = "Verifying model ... ".toList ++ "model is CORRECT".toList := by
    decide
  have e2 : "Verifying model ... model is INCORRECT".toList =
      "Verifying model ... ".toList ++ "model is INCORRECT".toList := by decide
  unfold bmodelLines bcheckLines
  rw [e1, e2, bmodelText_eq]
  by_cases h1 : r.answer = .SAT
  · rw [if_pos h1, if_pos h1]
    by_cases h2 : c.MODEL = true
    · rw [if_pos h2, if_pos (show r.answer = .SAT ∧ c.MODEL = true from ⟨h1, h2⟩)]
      by_cases h3 : r.verified = some true
      · rw [if_pos h3, if_pos h3]
        simp only [unlines, List.flatMap_cons, List.flatMap_nil, List.append_assoc, List.append_nil, List.cons_append,
          List.nil_append, List.flatMap_append]
      · rw [if_neg h3, if_neg h3]
        simp only [unlines, List.flatMap_cons, List.flatMap_nil, List.append_assoc, List.append_nil, List.cons_append,
          List.nil_append, List.flatMap_append]
    · rw [if_neg h2, if_neg (show ¬ (r.answer = .SAT ∧ c.MODEL = true) from fun h => h2 h.2)]
      by_cases h3 : r.verified = some true
      · rw [if_pos h3, if_pos h3]
        simp only [unlines, List.flatMap_cons, List.flatMap_nil, List.append_assoc, List.append_nil, List.nil_append]
      · rw [if_neg h3, if_neg h3]
        simp only [unlines, List.flatMap_cons, List.flatMap_nil, List.append_assoc, List.append_nil, List.nil_append]
  · rw [if_neg h1, if_neg (show ¬ (r.answer = .SAT ∧ c.MODEL = true) from fun h => h1 h.1), if_neg h1]
    rfl

theorem breportText_eq (c : BLine) (name : List Char) (t : Times) (r : BReport) :
    boutcomeText c name t (.report r) = unlines (brunLines c name t r) := by
  show banner ++ bsolveText c name t r = _
  unfold bsolveText brunLines
  rw [bsatText_eq, unlines_append _ (bmodelLines c r ++ bcheckLines r), ← List.append_assoc banner]
  refine congrArg (· ++ _) ?_
  unfold banner bannerLines timeLines statLines binfoText BReport.plain
  by_cases h : r.answer = .UNSAT
  · rw [if_pos h, if_pos ⟨rfl, rfl, h⟩]
    simp only [unlines, List.flatMap_cons, List.flatMap_nil, List.append_assoc, List.append_nil, List.cons_append,
      List.nil_append]
  · rw [if_neg h, if_neg (fun h' => h h'.2.2)]
    simp only [unlines, List.flatMap_cons, List.flatMap_nil, List.append_assoc, List.append_nil, List.cons_append,
      List.nil_append]

theorem mem_brunLines {c : BLine} {name : List Char} {t : Times} {r : BReport} {l : List Char} :
    l ∈ brunLines c name t r ↔
      l ∈ runLines { WATCH := true, MODEL := false } name .learn t r.plain ∨ l ∈ bmodelLines c r := by
  have e : satLines { WATCH := true, MODEL := false } r.plain = bcheckLines r := by
    unfold satLines bcheckLines
    show (if r.answer = .SAT then [] ++ _ else _) = _
    rw [List.nil_append]
    rfl
  have e2 : ∀ c' : CommandLine, timeLines { WATCH := true, MODEL := false } name .learn t r.plain =
      timeLines { WATCH := true } name .learn t r.plain := fun _ => rfl
  unfold brunLines runLines
  rw [e, e2 {}]
  show _ ↔ l ∈ _ ++ _ ++ [[], '\x07' :: r.answer.text, []] ++ _ ++ _ ++ _ ∨ _
  simp only [List.mem_append]
  grind

theorem bitsText_no {b : Bits} {x : Char} (h0 : x ≠ '0') (h1 : x ≠ '1') : x ∉ bitsText b := by
  unfold bitsText
  rw [List.mem_map]
  rintro ⟨i, _, h⟩
  split at h
  · exact h1 h.symm
  · exact h0 h.symm

theorem setLine_no {v : Nat} {b : Bits} {x : Char} (h : x.isDigit = false) (he : x ≠ '=') : x ∉ setLine v b := by
  unfold setLine
  have h0 : x ≠ '0' := by rintro rfl; exact absurd h (by decide)
  have h1 : x ≠ '1' := by rintro rfl; exact absurd h (by decide)
  have a1 := natText_no (n := v) h
  have a2 := bitsText_no (b := b) h0 h1
  simp_all

theorem bmodelLines_no {c : BLine} {r : BReport} {x : Char} (h : x.isDigit = false) (he : x ≠ '=')
    (hm : x ∉ "The model: ".toList) : ∀ l ∈ bmodelLines c r, x ∉ l := by
  intro l hl
  unfold bmodelLines at hl
  split at hl
  · rw [List.mem_cons, List.mem_map] at hl
    rcases hl with rfl | ⟨p, _, rfl⟩
    · exact hm
    · exact setLine_no h he
  · cases hl

theorem linesOf_breport {c : BLine} {name : List Char} {t : Times} {r : BReport} (h : OneLine name t) :
    linesOf (boutcomeText c name t (.report r)) = brunLines c name t r := by
  rw [breportText_eq, linesOf_unlines]
  intro l hl
  rcases mem_brunLines.1 hl with hl | hl
  · rcases mem_runLines.1 hl with hl | hl
    · exact timeLines_no h l hl
    · exact plain_no (.inl rfl) l hl
  · exact bmodelLines_no (by decide) (by decide) (by decide) l hl

theorem bmem_answer {c : BLine} {name : List Char} {t : Times} {r : BReport} {a : Answer} :
    answerLine a ∈ brunLines c name t r ↔ r.answer = a := by
  rw [mem_brunLines, mem_answer]
  refine ⟨fun h => h.resolve_right fun h => ?_, .inl⟩
  exact bmodelLines_no (x := '\x07') (by decide) (by decide) (by decide) _ h (by cases a <;> decide)

theorem bmem_correct {c : BLine} {name : List Char} {t : Times} {r : BReport} :
    "Verifying model ... model is CORRECT".toList ∈ brunLines c name t r ↔ r.answer = .SAT ∧ r.verified = some true := by
  constructor
  · intro h
    rcases mem_brunLines.1 h with h | h
    · rw [mem_plain (by decide)] at h
      simp only [List.mem_append, List.mem_singleton] at h
      rcases h with (((h | h) | h) | h) | h
      · simp only [bannerLines, List.mem_cons, List.not_mem_nil, or_false] at h
        rcases h with h | h | h | h | h | h <;> exact absurd h (by decide)
      · simp only [List.mem_cons, List.not_mem_nil, or_false] at h
        rcases h with h | h | h
        · exact absurd h (by decide)
        · cases h
        · exact absurd h (by decide)
      · exfalso
        have hc : ':' ∈ "Verifying model ... model is CORRECT".toList := by
          simp only [statLines, List.mem_cons, List.not_mem_nil, or_false] at h
          rcases h with h | h | h | h | h | h | h <;> rw [h] <;> exact List.mem_append_left _ (by decide)
        exact absurd hc (by decide)
      · exact absurd h (by decide)
      · unfold satLines at h
        split at h
        · rename_i h1
          refine ⟨h1, ?_⟩
          rw [List.mem_append, List.mem_singleton] at h
          rcases h with h | h
          · cases h
          · split at h
            · assumption
            · exact absurd h (by decide)
        · cases h
    · exact absurd (show 'V' ∈ "Verifying model ... model is CORRECT".toList by decide)
        (bmodelLines_no (by decide) (by decide) (by decide) _ h)
  · rintro ⟨h1, h2⟩
    exact mem_brunLines.2 (.inl (correct_mem h1 h2))

theorem setLine_eq {v i : Nat} {ds : List Char} {b : Bits} (h : natText v ++ '=' :: ds = setLine i b) :
    i = v ∧ ds = bitsText b := by
  unfold setLine at h
  have n1 : ∀ r, NoDigit ('=' :: r) := fun r => noDigit_cons (by decide)
  obtain ⟨a1, a2⟩ := takeWhile_digits (ds := natText v) (fun c hc => natText_digit c hc) (n1 ds)
  obtain ⟨b1, b2⟩ := takeWhile_digits (ds := natText i) (fun c hc => natText_digit c hc) (n1 (bitsText b))
  rw [h] at a1 a2
  exact ⟨natText_inj (b1.symm.trans a1), (List.cons.inj (a2.symm.trans b2)).2⟩

/-- Which lines give a variable a set. -/
theorem bmem_set {c : BLine} {name : List Char} {t : Times} {r : BReport} {v : Nat} {ds : List Char} (hd : '\t' ∉ ds) :
    natText v ++ '=' :: ds ∈ brunLines c name t r ↔
      r.answer = .SAT ∧ c.MODEL = true ∧ ∃ b, r.model[v]? = some b ∧ ds = bitsText b := by
  have ht : '\t' ∉ natText v ++ '=' :: ds := by
    have := natText_no (n := v) (c := '\t') (by decide)
    simp_all
  have he : '=' ∈ natText v ++ '=' :: ds := by simp
  rw [mem_brunLines, mem_equal ht he]
  constructor
  · rintro (⟨_, h, _⟩ | h)
    · cases h
    · unfold bmodelLines at h
      split at h
      · rename_i h1
        rw [List.mem_cons, List.mem_map] at h
        rcases h with h | ⟨⟨b, i⟩, hp, h⟩
        · rw [h] at he
          exact absurd he (by decide)
        · obtain ⟨rfl, rfl⟩ := setLine_eq h.symm
          exact ⟨h1.1, h1.2, b, List.mem_zipIdx_iff_getElem?.1 hp, rfl⟩
      · cases h
  · rintro ⟨h1, h2, b, hb, rfl⟩
    refine .inr ?_
    unfold bmodelLines
    rw [if_pos ⟨h1, h2⟩, List.mem_cons, List.mem_map]
    exact .inr ⟨(b, v), List.mem_zipIdx_iff_getElem?.2 hb, rfl⟩

theorem bitsText_get {b : Bits} {d : Nat} (hd : d < 64) : (bitsText b)[63 - d]? = some (if b.getLsbD d then '1' else '0') := by
  unfold bitsText
  rw [List.getElem?_map, List.getElem?_range (by omega)]
  show some (if b.getLsbD (63 - (63 - d)) then '1' else '0') = _
  rw [show 63 - (63 - d) = d by omega]

/-! ## The program -/

theorem BInput.text {w : World S} {argv : List (List Char)} {c : BLine} {P : Problem} {name : List Char} {t : Times}
    (h : BInput w argv c P) (hlog : c.LOG = false) (hf : c.FILE = some name) (fuel : Nat) :
    bprogramText w fuel argv t = (brunSolver w fuel argv).bind fun o => .ok (o.map (boutcomeText c name t)) := by
  unfold bprogramText
  rw [h.line, h.solves]
  simp only [Res.ok_bind]
  cases bsolveNamed w fuel c with
  | ub => rfl
  | fuel => rfl
  | ok o =>
    show (match some o, c.FILE with | some o, some name => _ | _, _ => _) = _
    rw [hf]
    show (if c.LOG = true then _ else _) = _
    rw [hlog, if_neg (by decide)]
    rfl

theorem bmodel_keeps (o : List Char) : Keeps (fun c : BLine => c.MODEL = true) (bsolvencOpt o) := by
  unfold bsolvencOpt
  repeat' apply Keeps.ite
  all_goals first | exact fun _ _ h => h | exact fun _ h => h | exact fun _ _ => rfl | trivial

/-- The model is printed after every SAT. -/
theorem bmodel_on {argv : List (List Char)} {c : BLine} (h : bparseCommandLine argv = .ok c) : c.MODEL = true := by
  unfold bparseCommandLine at h
  split at h
  · exact parseOpts_keeps bmodel_keeps _ {} rfl h
  · cases h; rfl

theorem BInput.textReport {w : World S} {argv : List (List Char)} {c : BLine} {P : Problem} {t : Times}
    (h : BInput w argv c P) (hlog : c.LOG = false) (hsz : 0 ≤ c.CLAUSE_SIZE) {fuel : Nat} {txt : List Char}
    (hr : bprogramText w fuel argv t = .ok (some txt)) :
    ∃ name rep, c.FILE = some name ∧ brunSolver w fuel argv = .ok (some (.report rep)) ∧
      txt = boutcomeText c name t (.report rep) := by
  obtain ⟨name, ls, h1, _, _⟩ := h.file
  rw [h.text hlog h1] at hr
  obtain ⟨o, h2, h3⟩ := Res.bind_eq_ok.1 hr
  rw [h.solves, h.named hsz] at h2
  obtain ⟨o', h4, h5⟩ := Res.bind_eq_ok.1 h2
  obtain ⟨rep, h6, h7⟩ := Res.bind_eq_ok.1 h4
  cases h7; cases h5; cases h3
  exact ⟨name, rep, h1, by rw [h.solves, h.named hsz, h6]; rfl, rfl⟩

/-- The text allows value `d` for variable `v`: its line holds 64 binary digits, and the one of `d`, counted from the
right, is 1. -/
def Allowed (txt : List Char) (v d : Nat) : Prop :=
  ∃ ds : List Char, natText v ++ '=' :: ds ∈ linesOf txt ∧ ds.length = 64 ∧ (∀ x ∈ ds, x = '0' ∨ x = '1') ∧
    d < 64 ∧ ds[63 - d]? = some '1'

/-- What C103 says about the lines of a text, for a formula: every variable has exactly one line, which allows a value of
its domain, there is no line for a number above the variables (there is one for 0), and every choice of allowed values
solves the formula. -/
structure BShows (P : Problem) (txt : List Char) : Prop where
  line  : ∀ v, 1 ≤ v → v ≤ P.numVars → ∃ ds, ∀ ds', '\t' ∉ ds' → (natText v ++ '=' :: ds' ∈ linesOf txt ↔ ds' = ds)
  value : ∀ v, 1 ≤ v → v ≤ P.numVars → ∃ d, d < P.dom v ∧ Allowed txt v d
  only  : ∀ v ds, '\t' ∉ ds → natText v ++ '=' :: ds ∈ linesOf txt → v ≤ P.numVars
  sol   : ∀ a : Assignment, (∀ v, 1 ≤ v → v ≤ P.numVars → Allowed txt v (a v)) → P.Solves a

theorem allowed_iff {c : BLine} {name : List Char} {t : Times} {r : BReport} (ho : OneLine name t) (hsat : r.answer = .SAT)
    (hm : c.MODEL = true) {v d : Nat} :
    Allowed (boutcomeText c name t (.report r)) v d ↔ ∃ b, r.model[v]? = some b ∧ b.getLsbD d = true := by
  unfold Allowed
  rw [linesOf_breport ho]
  constructor
  · rintro ⟨ds, h1, _, h3, h4, h5⟩
    have hd : '\t' ∉ ds := fun h => by rcases h3 _ h with h | h <;> cases h
    obtain ⟨_, _, b, hb, rfl⟩ := (bmem_set hd).1 h1
    refine ⟨b, hb, ?_⟩
    rw [bitsText_get h4] at h5
    by_cases hv : b.getLsbD d = true
    · exact hv
    · rw [if_neg hv] at h5
      cases h5
  · rintro ⟨b, hb, hv⟩
    have hd : d < 64 := Nat.lt_of_not_le fun h => by rw [BitVec.getLsbD_of_ge b d h] at hv; cases hv
    refine ⟨bitsText b, (bmem_set (bitsText_no (by decide) (by decide))).2 ⟨hsat, hm, b, hb, rfl⟩, ?_, ?_, hd, ?_⟩
    · unfold bitsText
      rw [List.length_map, List.length_range]
    · intro x hx
      unfold bitsText at hx
      obtain ⟨i, _, rfl⟩ := List.mem_map.1 hx
      split
      · exact .inr rfl
      · exact .inl rfl
    · rw [bitsText_get hd, if_pos hv]

theorem bshows_of {c : BLine} {name : List Char} {t : Times} {r : BReport} {P : Problem} (ho : OneLine name t)
    (hm : c.MODEL = true) (hsat : r.answer = .SAT) (hlen : r.model.length = P.numVars + 1)
    (h : (∀ v, 1 ≤ v → v ≤ P.numVars → ∃ b j, r.model[v]? = some b ∧ b.getLsbD j = true) ∧
      ∀ a : Assignment, (∀ v, 1 ≤ v → v ≤ P.numVars → ∃ b, r.model[v]? = some b ∧ b.getLsbD (a v) = true) → P.Solves a) :
    BShows P (boutcomeText c name t (.report r)) := by
  obtain ⟨h1, h2⟩ := h
  have h3 : ∀ v, ∃ j, 1 ≤ v → v ≤ P.numVars → ∃ b, r.model[v]? = some b ∧ b.getLsbD j = true := by
    intro v
    by_cases hv : 1 ≤ v ∧ v ≤ P.numVars
    · obtain ⟨b, j, hb⟩ := h1 v hv.1 hv.2
      exact ⟨j, fun _ _ => ⟨b, hb⟩⟩
    · exact ⟨0, fun a b => absurd ⟨a, b⟩ hv⟩
  obtain ⟨a, ha⟩ := Classical.axiomOfChoice h3
  constructor
  · intro v hv1 hv2
    obtain ⟨b, _, hb, _⟩ := h1 v hv1 hv2
    refine ⟨bitsText b, fun ds' hd => ?_⟩
    rw [linesOf_breport ho, bmem_set hd]
    constructor
    · rintro ⟨_, _, b', hb', rfl⟩
      rw [hb] at hb'
      cases hb'; rfl
    · rintro rfl
      exact ⟨hsat, hm, b, hb, rfl⟩
  · intro v hv1 hv2
    exact ⟨a v, (h2 a ha).1 v hv1 hv2, (allowed_iff ho hsat hm).2 (ha v hv1 hv2)⟩
  · intro v ds hd hl
    rw [linesOf_breport ho, bmem_set hd] at hl
    obtain ⟨_, _, b, hb, _⟩ := hl
    have := (List.getElem?_eq_some_iff.1 hb).1
    omega
  · exact fun a ha => h2 a fun v h1 h2 => (allowed_iff ho hsat hm).1 (ha v h1 h2)

/-! ## C103 -/

theorem model_length {cfg : BCfg S} {fuel : Nat} {P : Problem} {rep : BReport} (h : bsolve cfg fuel P = .ok rep)
    (hsat : rep.answer = .SAT) : rep.model.length = rep.variables + 1 := by
  unfold bsolve at h
  obtain ⟨⟨r, s⟩, _, h2⟩ := Res.bind_eq_ok.1 h
  cases h2
  have hr : r = 0 := by
    apply Classical.byContradiction
    intro h0
    have hsat : (if r = 0 then Answer.SAT else if r = 1 then .TIMEOUT else .UNSAT) = .SAT := hsat
    rw [if_neg h0] at hsat
    split at hsat <;> cases hsat
  subst hr
  show ((List.range (s.nv + 1)).map s.cur).length = _
  rw [List.length_map, List.length_range]
  rfl

theorem bsays_of {c : BLine} {name : List Char} {t : Times} {r : BReport} {P : Problem}
    (ho : OneLine name t) (h1 : r.answer = .SAT → P.Satisfiable) (h2 : r.answer = .UNSAT → ¬ P.Satisfiable)
    (h3 : r.answer = .SAT → r.verified = some true) : Says P (boutcomeText c name t (.report r)) := by
  refine ⟨?_, ?_, ?_, ?_⟩ <;> try rw [linesOf_breport ho]
  · exact fun h => h1 (bmem_answer.1 h)
  · exact fun h => h2 (bmem_answer.1 h)
  · exact fun h => bmem_correct.2 ⟨bmem_answer.1 h, h3 (bmem_answer.1 h)⟩
  · exact ⟨r.answer, fun a => by rw [bmem_answer]; exact eq_comm⟩

/-- **C103**, without `-restart`: there is exactly one line with an answer and it is right; after SAT the self-check is
printed to be correct, and the sets printed allow a value for every variable, and every choice solves the file.  (With
`-restart` it fails: `C103_restart_fails`.) -/
theorem C103_bitvec_partial {w : World S} {argv : List (List Char)} {c : BLine} {P : Problem} (h : BInput w argv c P)
    (hs : (c.cfg w).ScoreOK) (hrs : c.RESTARTS ≤ 0) (hlog : c.LOG = false) (hsz : 0 ≤ c.CLAUSE_SIZE) {t : Times}
    (ho : ∀ name, c.FILE = some name → OneLine name t) {fuel : Nat} {txt : List Char}
    (hr : bprogramText w fuel argv t = .ok (some txt)) :
    Says P txt ∧ (answerLine .SAT ∈ linesOf txt → BShows P txt) := by
  obtain ⟨name, rep, h1, h2, rfl⟩ := h.textReport hlog hsz hr
  have hb := h.report h2
  obtain ⟨k1, k2⟩ := C65_bitvec_partial h hs hrs h2
  refine ⟨bsays_of (ho name h1) (fun ha => (k1 ha).1) k2 fun ha => ?_, fun ha => ?_⟩
  · rw [C57_bitvec_check_partial hs hrs h.wf h.fits hb, if_pos ha]
  · rw [linesOf_breport (ho name h1), bmem_answer] at ha
    refine bshows_of (ho name h1) (bmodel_on h.line) ha ?_ (k1 ha).2
    rw [model_length hb ha, (C58_bitvec_counts hs h.wf h.fits hb).1]

/-- **C103**, with any options: if the text says that the self-check was correct, the sets printed allow a value for every
variable, and every choice solves the file. -/
theorem C103_checked {w : World S} {argv : List (List Char)} {c : BLine} {P : Problem} (h : BInput w argv c P)
    (hs : (c.cfg w).ScoreOK) (hlog : c.LOG = false) (hsz : 0 ≤ c.CLAUSE_SIZE) {t : Times}
    (ho : ∀ name, c.FILE = some name → OneLine name t) {fuel : Nat} {txt : List Char}
    (hr : bprogramText w fuel argv t = .ok (some txt))
    (hv : "Verifying model ... model is CORRECT".toList ∈ linesOf txt) : BShows P txt := by
  obtain ⟨name, rep, h1, h2, rfl⟩ := h.textReport hlog hsz hr
  have hb := h.report h2
  rw [linesOf_breport (ho name h1), bmem_correct] at hv
  refine bshows_of (ho name h1) (bmodel_on h.line) hv.1 ?_ ((C65_bitvec_checked h hs h2).1 hv.2)
  rw [model_length hb hv.1, (C58_bitvec_counts hs h.wf h.fits hb).1]

/-- **C103**, with `-vsids` and any other options, also `-restart`: after SAT the self-check is printed to be correct, so
that `C103_checked` applies. -/
theorem C103_vsids {w : World S} {argv : List (List Char)} {c : BLine} {P : Problem} (h : BInput w argv c P)
    (hs : (c.cfg w).ScoreOK) (hvs : c.VSIDS = true) (hlog : c.LOG = false) (hsz : 0 ≤ c.CLAUSE_SIZE) {t : Times}
    (ho : ∀ name, c.FILE = some name → OneLine name t) {fuel : Nat} {txt : List Char}
    (hr : bprogramText w fuel argv t = .ok (some txt)) (ha : answerLine .SAT ∈ linesOf txt) :
    "Verifying model ... model is CORRECT".toList ∈ linesOf txt ∧ BShows P txt := by
  have key : "Verifying model ... model is CORRECT".toList ∈ linesOf txt := by
    obtain ⟨name, rep, h1, h2, rfl⟩ := h.textReport hlog hsz hr
    rw [linesOf_breport (ho name h1)] at ha ⊢
    have ha := bmem_answer.1 ha
    refine bmem_correct.2 ⟨ha, ?_⟩
    rw [C57_bitvec_vsids_partial hs hvs h.wf h.fits (h.report h2), if_pos ha]
  exact ⟨key, C103_checked h hs hlog hsz ho hr key⟩

/-- **C103**, an answer is printed: without `-restart`, with at most one clause about a single variable and a clock that
is never late, a bell and SAT is a line of the text exactly if the file is satisfiable, a bell and UNSAT exactly if not. -/
theorem C103_decides_partial {w : World S} {argv : List (List Char)} {c : BLine} {P : Problem} (h : BInput w argv c P)
    (hs : (c.cfg w).ScoreOK) (hrs : c.RESTARTS ≤ 0) (hlog : c.LOG = false) (hsz : 0 ≤ c.CLAUSE_SIZE)
    (hclock : ∀ k, w.late c.TIME k = false)
    (hone : ∀ i j, (hi : i < P.clauses.length) → (hj : j < P.clauses.length) →
      (∀ l ∈ P.clauses[i], ∀ l' ∈ P.clauses[i], l.var = l'.var) →
      (∀ l ∈ P.clauses[j], ∀ l' ∈ P.clauses[j], l.var = l'.var) → i = j) {t : Times}
    (ho : ∀ name, c.FILE = some name → OneLine name t) :
    ∃ txt f0, (∀ fuel, f0 ≤ fuel → bprogramText w fuel argv t = .ok (some txt)) ∧
      (answerLine .SAT ∈ linesOf txt ↔ P.Satisfiable) ∧ (answerLine .UNSAT ∈ linesOf txt ↔ ¬ P.Satisfiable) := by
  obtain ⟨name, ls, h1, _, _⟩ := h.file
  obtain ⟨rep, f0, h2, h3, h4⟩ := C65_bitvec_answers_partial h hs hrs hsz hclock hone
  refine ⟨boutcomeText c name t (.report rep), f0, fun fuel hf => ?_, ?_, ?_⟩
  · rw [h.text hlog h1, h2 fuel hf]
    rfl
  · rw [linesOf_breport (ho name h1), bmem_answer]; exact h3
  · rw [linesOf_breport (ho name h1), bmem_answer]; exact h4

/-- **C103**, the statistics, with any options: the lines with the numbers of variables, clauses, backtracks, restarts
and entailed literals can be read in one way only, and there are as many clauses as clauses of the file and backtracks. -/
theorem C103_numbers {w : World S} {argv : List (List Char)} {c : BLine} {P : Problem} (h : BInput w argv c P)
    (hs : (c.cfg w).ScoreOK) (hlog : c.LOG = false) (hsz : 0 ≤ c.CLAUSE_SIZE) {t : Times}
    (ho : ∀ name, c.FILE = some name → OneLine name t) {fuel : Nat} {txt : List Char}
    (hr : bprogramText w fuel argv t = .ok (some txt)) :
    ∃ backtracks restarts : Nat, ∀ n,
      ("Backtracks  : ".toList ++ natText n ∈ linesOf txt ↔ n = backtracks) ∧
      ("Entails     : ".toList ++ natText n ∈ linesOf txt ↔ n = 0) ∧
      ("Variables   : ".toList ++ natText n ∈ linesOf txt ↔ n = P.numVars) ∧
      ("Clauses     : ".toList ++ natText n ∈ linesOf txt ↔ n = P.clauses.length + backtracks) ∧
      ("Restarts   : ".toList ++ natText n ∈ linesOf txt ↔ n = restarts) ∧
      (restarts : Int) = if c.RESTARTS ≤ 0 then 0 else (backtracks : Int) / c.RESTARTS := by
  obtain ⟨name, rep, h1, h2, rfl⟩ := h.textReport hlog hsz hr
  obtain ⟨k1, k2, k3⟩ := C58_bitvec_counts hs h.wf h.fits (h.report h2)
  refine ⟨rep.backtracks, rep.restarts, fun n => ?_⟩
  have key : ∀ lab : List Char, ':' ∈ lab → 'a' ∈ lab ∨ 'k' ∈ lab →
      (lab ++ natText n ∈ linesOf (boutcomeText c name t (.report rep)) ↔
      lab ++ natText n ∈ linesOf (outcomeText { WATCH := true, MODEL := false } name .learn t (.report rep.plain))) := by
    intro lab _ hl
    rw [linesOf_breport (ho name h1), linesOf_report (ho name h1), mem_brunLines]
    refine ⟨fun h => h.resolve_right fun h => ?_, .inl⟩
    rcases hl with hl | hl
    · exact bmodelLines_no (x := 'a') (by decide) (by decide) (by decide) _ h (List.mem_append_left _ hl)
    · exact bmodelLines_no (x := 'k') (by decide) (by decide) (by decide) _ h (List.mem_append_left _ hl)
  obtain ⟨_, _, q3, q4, q5, q6, q7⟩ := C102_numbers (c := { WATCH := true, MODEL := false }) (algo := .learn)
    (r := rep.plain) (ho name h1) rfl n
  refine ⟨?_, ?_, ?_, ?_, ?_, k3⟩
  · rw [key _ (by decide) (by decide)]; exact q3
  · rw [key _ (by decide) (by decide)]; exact q4
  · rw [key _ (by decide) (by decide), ← k1]; exact q5
  · rw [key _ (by decide) (by decide), ← k2]; exact q6
  · rw [key _ (by decide) (by decide)]; exact q7

/-- **C103 fails with `-restart`**: for a satisfiable file the text says UNSAT. -/
theorem C103_restart_fails : exUns.Satisfiable ∧
    BInput exWorldB (argvOf ["-solvenc", "-restart", "2", "-file", "b"])
      { FILE := some "b".toList, RESTARTS := 2 } exUns ∧
    (bprogramText exWorldB 60 (argvOf ["-solvenc", "-restart", "2", "-file", "b"]) exTimes).passes (fun o => match o with
        | some txt => decide (answerLine .UNSAT ∈ linesOf txt)
        | none => false) = true :=
  ⟨C65_restart_fails.2.1, C65_restart_fails.1, by decide +kernel⟩

/-- The whole text of a run. -/
example : (bprogramText exWorldB 30 (argvOf ["-solvenc", "-vsids", "-file", "a", "-time", "5"]) exTimes).passes
    (fun o => o = some (
    ("\n" ++ String.ofList stars ++ "\n\nFinite Domain Sat Solver\n\n" ++ String.ofList stars ++ "\n" ++
    "a \t0.0000\t0.0001\t 0.0001\t\n\n\x07SAT\n\n" ++
    "Decisions   : 1\nUnits       : 1\nBacktracks  : 0\nEntails     : 0\n" ++
    "Variables   : 2\nClauses     : 2\nRestarts   : 0\n\n" ++
    "The model: \n0=0000000000000000000000000000000000000000000000000000000000000000\n" ++
    "1=0000000000000000000000000000000000000000000000000000000000000001\n" ++
    "2=0000000000000000000000000000000000000000000000000000010000000000\nVerifying model ... model is CORRECT\n").toList)) = true := by decide +kernel

/-- **C103**, a file that cannot be opened: the text says so, and no line of it holds an answer. -/
theorem C103_no_file {w : World S} {argv : List (List Char)} {c : BLine} {name : List Char} {t : Times}
    (hc : argv.head? = some "-solvenc".toList) (hl : bparseCommandLine argv = .ok c) (hlog : c.LOG = false)
    (hf : c.FILE = some name) (hn : w.files name = none) (fuel : Nat) :
    ∃ txt, bprogramText w fuel argv t = .ok (some txt) ∧ "Could not open input file : ".toList ∈ linesOf txt ∧
      ∀ a, answerLine a ∉ linesOf txt := by
  refine ⟨banner ++ noFileText, ?_, by decide +kernel, by intro a; cases a <;> decide +kernel⟩
  have hb : bsolves argv = true := by
    cases argv with
    | nil => cases hc
    | cons a as => cases hc; rfl
  have key : bsolveNamed w fuel c = .ok .noFile := by
    unfold bsolveNamed
    rw [hf]; dsimp only
    rw [hn]
  unfold bprogramText brunSolver
  rw [hl, hb]
  simp only [Res.ok_bind, if_true, key]
  show (match some BOutcome.noFile, c.FILE with | some o, some name => _ | _, _ => _) = _
  rw [hf]
  show (if c.LOG = true then _ else _) = _
  rw [hlog, if_neg (by decide)]
  rfl

end Mvl.BV
