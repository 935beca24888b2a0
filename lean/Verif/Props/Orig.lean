import Verif.Proof.OrigLearn
import Verif.Props.NC

/-!
# Properties of /repo/original_solver

C72 to C77.  `-solvech` is `Mode.ch`, `-solvenc` is `Mode.nc`.
-/

namespace Mvl.Orig

open Mvl

/-! ## From a problem to the search -/

theorem solve_eq {cfg : OCfg} {P : Problem} {s : OSt} (hb : build cfg P = .ok s) (m : Mode) (fuel : Nat) :
    solve cfg m fuel P = (search cfg m fuel s >>= fun p => .ok (report p.1 p.2)) := by
  unfold solve run
  rw [hb, Res.ok_bind]
  rfl

theorem solve_ok {cfg : OCfg} {P : Problem} {s : OSt} (hb : build cfg P = .ok s) {m : Mode} {fuel : Nat} {rep : OReport} :
    solve cfg m fuel P = .ok rep ↔ ∃ r t, search cfg m fuel s = .ok (r, t) ∧ rep = report r t := by
  rw [solve_eq hb, Res.bind_eq_ok]
  constructor
  · rintro ⟨⟨r, t⟩, h, k⟩
    exact ⟨r, t, h, by cases k; rfl⟩
  · rintro ⟨r, t, h, rfl⟩
    exact ⟨(r, t), h, rfl⟩

theorem built_level {cfg : OCfg} {ds : List Nat} {cs : List (List Lit)} {s : OSt} (hb : Built cfg ds cs s) :
    s.LEVEL = 0 ∧ s.nDecisions = 0 ∧ s.nBacktracks = 0 ∧ s.conflict = false ∧ s.noBranch = false ∧ s.decs = [] ∧
    (∀ v d, s.asg v d = .un) ∧ ∀ id < s.ncl, (s.cls id).sat = false := by
  obtain ⟨nv, dom, cnt, recs, cls, ncl, f⟩ := hb.frame
  refine ⟨?_, ?_, ?_, ?_, ?_, ?_, ?_, ?_⟩
  · rw [f]; rfl
  · rw [f]; rfl
  · rw [f]; rfl
  · rw [f]; rfl
  · rw [f]; rfl
  · rw [f]; rfl
  · intro v d; rw [f]; rfl
  · intro id hi
    rw [hb.ncl] at hi
    rw [hb.cls id cs[id] (List.getElem?_eq_getElem hi)]

theorem search_ch {cfg : OCfg} {P : Problem} {s : OSt} (hb : Built cfg P.doms P.clauses s) (fuel : Nat) :
    search cfg .ch fuel s = chrono cfg fuel (checkUnit s) (checkUnit s).LEVEL := by
  have : (checkUnit s).LEVEL = 0 := (built_level hb).1
  rw [this]; rfl

theorem search_nc {cfg : OCfg} {P : Problem} {s : OSt} (hb : Built cfg P.doms P.clauses s) (fuel : Nat) :
    search cfg .nc fuel s = learnLoop cfg fuel (checkUnit s) := by
  have h : (checkUnit s).LEVEL = 0 := (built_level hb).1
  show learnLoop cfg fuel { checkUnit s with LEVEL := 0 } = _
  congr 1
  generalize checkUnit s = u at h
  cases u
  simp only at h
  subst h
  rfl

theorem built_nc {cfg : OCfg} {P : Problem} (hwf : P.WellFormed) {s : OSt} (hb : Built cfg P.doms P.clauses s) :
    Nc s (checkUnit s) := by
  obtain ⟨b1, b2, b3, b4, b5, b6, b7, b8⟩ := built_level hb
  constructor
  · exact built_inv hwf hb
  · show 0 ≤ s.LEVEL; omega
  · rfl
  · rfl
  · show s.ncl = s.ncl + s.nBacktracks; omega
  · intro id _; rfl
  · intro id h1 h2
    have : id < s.ncl := h2
    omega
  · rfl
  · intro m hm
    have : m ∈ s.decs := hm
    rw [b6] at this; cases this
  · intro h
    have : 1 ≤ s.LEVEL := h
    omega
  · intro σ _ v d _
    have : (checkUnit s).asg v d = .un := b7 v d
    rw [this]; exact ⟨fun h => (nomatch h), fun h => (nomatch h)⟩
  · show s.LEVEL + s.nBacktracks ≤ s.nDecisions; omega
  · intro _ σ h; exact h
  · left
    show s.nBacktracks + nOpen (checkUnit s) ≤ s.atoms.length
    rw [b3, Nat.zero_add]
    exact List.countP_le_length

theorem atoms_length {cfg : OCfg} {ds : List Nat} {cs : List (List Lit)} {s : OSt} (hb : Built cfg ds cs s) :
    s.atoms.length = ds.sum := by
  have key : ∀ (ds : List Nat) (k : Nat) (f : Nat → Nat), (∀ i, i < ds.length → f (k + i) = ds.getD i 0) →
      ((List.range' k ds.length).flatMap fun v => (List.range (f v)).map fun d => (v, d)).length = ds.sum := by
    intro ds
    induction ds with
    | nil => intro k f _; rfl
    | cons d ds ih =>
      intro k f h
      rw [List.length_cons, List.range'_succ, List.flatMap_cons, List.length_append, ih (k + 1) f (by
        intro i hi
        have := h (i + 1) (by simp; omega)
        rw [show k + 1 + i = k + (i + 1) by omega, this]; simp)]
      have := h 0 (by simp)
      simp at this
      simp [this]
  unfold OSt.atoms
  rw [hb.nv]
  apply key
  intro i hi
  rw [hb.dom, Nat.add_comm]
  rfl

/-- What a result of `-solvech` means. -/
theorem ch_result {cfg : OCfg} {P : Problem} (hwf : P.WellFormed) {fuel : Nat} {rep : OReport}
    (h : solve cfg .ch fuel P = .ok rep) : ∃ s r t, Built cfg P.doms P.clauses s ∧ ChRes (checkUnit s) r t ∧
      rep = report r t ∧ chrono cfg fuel (checkUnit s) (checkUnit s).LEVEL = .ok (r, t) := by
  obtain ⟨s, h1, hb⟩ := build_built cfg hwf
  obtain ⟨r, t, h2, h3⟩ := (solve_ok h1).1 h
  rw [search_ch hb] at h2
  exact ⟨s, r, t, hb, chrono_spec fuel (built_inv hwf hb) (by show 0 ≤ s.LEVEL; rw [(built_level hb).1]; exact Int.le_refl _) h2, h3, h2⟩

/-- What a result of `-solvenc` means. -/
theorem nc_result {cfg : OCfg} {P : Problem} (hwf : P.WellFormed) {fuel : Nat} {rep : OReport}
    (h : solve cfg .nc fuel P = .ok rep) : ∃ s r t, Built cfg P.doms P.clauses s ∧ Nc s t ∧ r ≤ 2 ∧
      (r = 0 → checkSat t = true) ∧ (r = 2 → t.conflict = true ∧ t.LEVEL = 0) ∧ rep = report r t ∧
      learnLoop cfg fuel (checkUnit s) = .ok (r, t) := by
  obtain ⟨s, h1, hb⟩ := build_built cfg hwf
  obtain ⟨r, t, h2, h3⟩ := (solve_ok h1).1 h
  rw [search_nc hb] at h2
  obtain ⟨a, b, c, d⟩ := learnLoop_spec fuel (built_nc hwf hb) h2
  exact ⟨s, r, t, hb, a, b, c, d, h3, h2⟩

theorem Nc.solves {s0 t : OSt} (h : Nc s0 t) {σ : Assignment} (hσ : SolvesAll t σ) : SolvesAll s0 σ := by
  refine ⟨?_, fun id hi => ?_⟩
  · rw [← h.nv, ← h.dom]; exact hσ.1
  · rw [← h.lits id hi]
    exact hσ.2 id (by rw [h.ncl]; omega)

theorem answer_sat {r : Nat} {t : OSt} (h : (report r t).answer = .SAT) : r = 0 := by
  by_cases h0 : r = 0
  · exact h0
  · by_cases h1 : r = 1 <;> simp [report, h0, h1] at h

theorem answer_unsat {r : Nat} {t : OSt} (h : (report r t).answer = .UNSAT) (hr : r ≤ 2) : r = 2 := by
  by_cases h0 : r = 0
  · simp [report, h0] at h
  · by_cases h1 : r = 1
    · simp [report, h1] at h
    · omega

/-! ## Concrete problems -/

/-- An environment: `delete` of a bad pointer goes unnoticed or not, and time never runs out. -/
def exO (tolerant : Bool) : OCfg := ⟨tolerant, .null, fun _ => false⟩

/-- Two variables, over {0,1} and {0,1,2}; satisfied by 1 = 1 together with 2 = 1. -/
def exWrong : Problem :=
  ⟨[2, 3], [[⟨2, 2, true⟩, ⟨1, 0, false⟩], [⟨2, 0, true⟩, ⟨1, 0, false⟩], [⟨1, 1, false⟩, ⟨2, 1, true⟩]]⟩

theorem exWrong_wf : exWrong.WellFormed := by
  refine ⟨?_, ?_, ?_⟩ <;> decide +kernel

/-- Three variables with domains 3, 2 and 3. -/
def exSat : Problem :=
  ⟨[3, 2, 3], [[⟨1, 0, true⟩, ⟨2, 1, true⟩], [⟨1, 0, false⟩, ⟨3, 2, true⟩], [⟨2, 0, false⟩, ⟨3, 2, false⟩]]⟩

theorem exSat_wf : exSat.WellFormed := by
  refine ⟨?_, ?_, ?_⟩ <;> decide +kernel

/-! ## C72: SAT is right -/

theorem sat_satisfiable {cfg : OCfg} {P : Problem} (hwf : P.WellFormed) {s t : OSt} (hb : Built cfg P.doms P.clauses s)
    (h : Inv t) (hs : checkSat t = true) (hncl : s.ncl ≤ t.ncl) (hso : ∀ σ, SolvesAll t σ → SolvesAll s σ) : P.Satisfiable := by
  by_cases hc : P.clauses = []
  · refine ⟨fun _ => 0, ?_, ?_⟩
    · intro v h1 h2
      obtain ⟨v, rfl⟩ : ∃ w, v = w + 1 := ⟨v - 1, by omega⟩
      have hv : v < P.doms.length := by unfold Problem.numVars at h2; omega
      have := hwf.dom_two _ (List.getElem_mem hv)
      show 0 < P.doms.getD v 0
      rw [List.getD_eq_getElem?_getD, List.getElem?_eq_getElem hv]; simp only [Option.getD_some]; omega
    · intro c hcm; rw [hc] at hcm; cases hcm
  · have hn : 0 < t.ncl := by
      have := hb.ncl
      have := List.length_pos_iff.2 hc
      omega
    have hs0 : (t.cls 0).sat = true := by
      unfold checkSat at hs
      rw [List.all_eq_true] at hs
      exact hs 0 (by simpa using hn)
    obtain ⟨-, l, -, a, -⟩ := h.csat 0 hn hs0
    have := h.las l.var l.val (by rw [a]; exact Asg.ofSign_ne _)
    exact ⟨_, (built_solves hb _).1 (hso _ (sat_model h (by omega) hs))⟩

/-- C72.  When the program prints SAT, the problem is satisfiable, and its own check of the result prints
"correct". -/
theorem C72_original_sat {cfg : OCfg} {m : Mode} {P : Problem} (hwf : P.WellFormed) {fuel : Nat} {rep : OReport}
    (h : solve cfg m fuel P = .ok rep) (ha : rep.answer = .SAT) : P.Satisfiable ∧ rep.verified = some true := by
  cases m with
  | ch =>
    obtain ⟨s, r, t, hb, C, rfl, -⟩ := ch_result hwf h
    have hr := answer_sat ha
    have hs := C.sat hr
    refine ⟨sat_satisfiable hwf hb C.inv hs (Nat.le_of_eq C.same.ncl.symm) ?_, ?_⟩
    · rintro σ ⟨a, b⟩
      refine ⟨?_, fun id hi => ?_⟩
      · rw [C.same.nv, C.same.dom] at a; exact a
      · obtain ⟨l, hl, hσ⟩ := b id (by rw [C.same.ncl]; exact hi)
        rw [C.same.lits] at hl
        exact ⟨l, hl, hσ⟩
    · simp [report, hr, sat_verify C.inv hs]
  | nc =>
    obtain ⟨s, r, t, hb, N, -, hs, -, rfl, -⟩ := nc_result hwf h
    have hr := answer_sat ha
    have hs := hs hr
    refine ⟨sat_satisfiable hwf hb N.inv hs (by rw [N.ncl]; omega) (fun σ => N.solves), ?_⟩
    simp [report, hr, sat_verify N.inv hs]

/-- C72.  The program never prints that there is no atom to branch on. -/
theorem C72_no_missing_branch {cfg : OCfg} {m : Mode} {P : Problem} (hwf : P.WellFormed) {fuel : Nat} {rep : OReport}
    (h : solve cfg m fuel P = .ok rep) : rep.noBranch = false := by
  cases m with
  | ch =>
    obtain ⟨s, r, t, hb, C, rfl, -⟩ := ch_result hwf h
    exact C.same.nob.trans (built_level hb).2.2.2.2.1
  | nc =>
    obtain ⟨s, r, t, hb, N, -, -, -, rfl, -⟩ := nc_result hwf h
    exact N.nob.trans (built_level hb).2.2.2.2.1

/-- C72 is not about nothing: both searches print SAT, after a decision. -/
theorem C72_example : exSat.WellFormed ∧
    (solve (exO true) .ch 40 exSat).passes (fun rep => rep.answer == .SAT && rep.decisions != 0) = true ∧
    (solve (exO true) .nc 40 exSat).passes (fun rep => rep.answer == .SAT && rep.decisions != 0) = true :=
  ⟨exSat_wf, by decide +kernel, by decide +kernel⟩

/-- C72 needs clauses that are not empty: with an empty clause `-solvech` prints SAT, that there is no atom
to branch on, and "incorrect". -/
theorem C72_empty_clause : (solve (exO true) .ch 20 ⟨[2], [[]]⟩).passes
    (fun rep => rep.answer == .SAT && rep.noBranch && rep.verified == some false) = true := by decide +kernel

/-! ## C73: UNSAT of `-solvech` -/

/-- C73, what holds of it.  UNSAT with no decision is right.  Otherwise the search has only shown that some
variable cannot have some value of its domain: after a failed first decision it stops.  Full statement: `UNSAT`
implies that the problem has no solution; it is false, see `C73_fails`. -/
theorem C73_original_ch_unsat_partial {cfg : OCfg} {P : Problem} (hwf : P.WellFormed) {fuel : Nat} {rep : OReport}
    (h : solve cfg .ch fuel P = .ok rep) (ha : rep.answer = .UNSAT) :
    (rep.decisions = 0 ∧ ¬ P.Satisfiable) ∨
    (0 < rep.decisions ∧ ∃ v d, 1 ≤ v ∧ v ≤ P.numVars ∧ d < P.dom v ∧ ∀ σ, P.Solves σ → σ v ≠ d) := by
  obtain ⟨s, r, t, hb, C, rfl, -⟩ := ch_result hwf h
  have hr := answer_unsat ha C.code
  obtain ⟨b1, b2, b3, b4, -⟩ := built_level hb
  rcases C.uns0 hr b1 with ⟨a, -, c⟩ | ⟨a, l, le, lr, c⟩
  · left
    refine ⟨?_, ?_⟩
    · show t.nDecisions = 0
      rw [a]; exact b2
    · rintro ⟨σ, hσ⟩
      exact c σ ((built_solves hb σ).2 hσ) (built_agree hb σ)
  · right
    refine ⟨?_, l.var, l.val, lr.1, ?_, ?_, ?_⟩
    · show 0 < t.nDecisions; omega
    · have := lr.2.1
      have e : (checkUnit s).nv = P.doms.length := hb.nv
      rw [e] at this; exact this
    · have := lr.2.2
      have e : (checkUnit s).dom l.var = P.dom l.var := hb.dom _
      rw [e] at this; exact this
    · intro σ hσ hv
      apply c σ ((built_solves hb σ).2 hσ) (built_agree hb σ)
      simp [Lit.holds, le, hv]

/-- C73 is false: a satisfiable problem for which `-solvech` prints UNSAT. -/
theorem C73_fails : exWrong.WellFormed ∧ exWrong.Satisfiable ∧
    (solve (exO true) .ch 40 exWrong).passes (fun rep => rep.answer == .UNSAT) = true :=
  ⟨exWrong_wf, ⟨fun _ => 1, by decide +kernel⟩, by decide +kernel⟩

/-- Two unit clauses against each other. -/
def exUnsat : Problem := ⟨[3, 2], [[⟨1, 0, true⟩], [⟨1, 0, false⟩, ⟨2, 1, true⟩], [⟨2, 0, true⟩]]⟩

/-- Both cases of C73 happen. -/
theorem C73_example : exUnsat.WellFormed ∧
    (solve (exO true) .ch 40 exUnsat).passes (fun rep => rep.answer == .UNSAT && rep.decisions == 0) = true ∧
    (solve (exO true) .ch 40 exWrong).passes (fun rep => rep.answer == .UNSAT && rep.decisions != 0) = true := by
  refine ⟨⟨?_, ?_, ?_⟩, ?_, ?_⟩ <;> decide +kernel

/-! ## C74: UNSAT of `-solvenc` -/

/-- C74, what holds of it.  UNSAT is right when there were as many decisions as backtracks.  In general, the
search has excluded one value of one variable at each backtrack, and has shown that no solution is left: each
solution uses one of the excluded values.  Full statement: `UNSAT` implies that the problem has no solution; it
is false, see `C74_fails`. -/
theorem C74_original_nc_unsat_partial {cfg : OCfg} {P : Problem} (hwf : P.WellFormed) {fuel : Nat} {rep : OReport}
    (h : solve cfg .nc fuel P = .ok rep) (ha : rep.answer = .UNSAT) :
    (rep.decisions = rep.backtracks → ¬ P.Satisfiable) ∧
    ∃ ex : List (Nat × Nat), ex.length = rep.backtracks ∧ ∀ σ, P.Solves σ → ∃ a ∈ ex, σ a.1 = a.2 := by
  obtain ⟨s, r, t, hb, N, hr2, -, hu, rfl, -⟩ := nc_result hwf h
  have hr := answer_unsat ha hr2
  obtain ⟨hc, hL⟩ := hu hr
  have no : ∀ σ, ¬ SolvesAll t σ := by
    intro σ hσ
    exact N.inv.refuted hc hσ ((N.a0 σ hσ).all N.inv.toCore (by omega))
  refine ⟨?_, ?_⟩
  · rintro he ⟨σ, hσ⟩
    have he : t.nDecisions = t.nBacktracks := he
    exact no σ (N.right (by omega) σ ((built_solves hb σ).2 hσ))
  · let at' : Nat → Nat × Nat := fun i => match (t.cls (s.ncl + i)).lits with
      | l :: _ => (l.var, l.val)
      | [] => (0, 0)
    refine ⟨(List.range t.nBacktracks).map at', by simp [report], ?_⟩
    intro σ hσ
    apply Classical.byContradiction
    intro hno
    apply no σ
    have hs := (built_solves hb σ).2 hσ
    refine ⟨?_, fun id hi => ?_⟩
    · rw [N.nv, N.dom]; exact hs.1
    · by_cases hlt : id < s.ncl
      · rw [N.lits id hlt]; exact hs.2 id hlt
      · obtain ⟨v, d, e⟩ := N.learned id (by omega) hi
        rw [e]
        refine ⟨⟨v, d, false⟩, by simp, ?_⟩
        have hne : σ v ≠ d := by
          intro hv
          apply hno
          refine ⟨(v, d), ?_, hv⟩
          rw [List.mem_map]
          refine ⟨id - s.ncl, ?_, ?_⟩
          · have := N.ncl
            simp; omega
          · have : s.ncl + (id - s.ncl) = id := by omega
            simp only [at', this, e]
        simp [Lit.holds, hne]

/-- Three variables over {0,1}; satisfied by 1 = 1, 2 = 1, 3 = 0. -/
def exWrongNc : Problem :=
  ⟨[2, 2, 2], [[⟨3, 0, true⟩, ⟨2, 0, false⟩], [⟨3, 1, false⟩, ⟨2, 1, false⟩], [⟨3, 0, false⟩, ⟨2, 0, false⟩],
    [⟨3, 0, false⟩, ⟨1, 1, true⟩, ⟨2, 1, false⟩], [⟨3, 0, true⟩, ⟨1, 0, true⟩], [⟨2, 1, true⟩, ⟨3, 0, false⟩]]⟩

theorem exWrongNc_wf : exWrongNc.WellFormed := by
  refine ⟨?_, ?_, ?_⟩ <;> decide +kernel

/-- C74 is false: a satisfiable problem for which `-solvenc` prints UNSAT. -/
theorem C74_fails : exWrongNc.WellFormed ∧ exWrongNc.Satisfiable ∧
    (solve (exO true) .nc 40 exWrongNc).passes (fun rep => rep.answer == .UNSAT) = true :=
  ⟨exWrongNc_wf, ⟨fun v => if v = 3 then 0 else 1, by decide +kernel⟩, by decide +kernel⟩

/-- A unit clause; the rest has no solution and needs a decision. -/
def exUnsatNc : Problem :=
  ⟨[2, 2, 2], [[⟨3, 0, true⟩], [⟨1, 0, true⟩, ⟨2, 0, true⟩], [⟨1, 0, true⟩, ⟨2, 1, true⟩], [⟨1, 1, true⟩, ⟨2, 0, true⟩],
    [⟨1, 1, true⟩, ⟨2, 1, true⟩]]⟩

theorem exUnsatNc_wf : exUnsatNc.WellFormed := by
  refine ⟨?_, ?_, ?_⟩ <;> decide +kernel

/-- Both cases of C74 happen. -/
theorem C74_example : exUnsatNc.WellFormed ∧
    (solve (exO true) .nc 40 exUnsatNc).passes
      (fun rep => rep.answer == .UNSAT && rep.decisions == 1 && rep.backtracks == 1) = true ∧
    (solve (exO true) .nc 40 exWrongNc).passes
      (fun rep => rep.answer == .UNSAT && rep.decisions == 2 && rep.backtracks == 1) = true :=
  ⟨exUnsatNc_wf, by decide +kernel, by decide +kernel⟩

/-! ## C75: the search ends -/

theorem chrono_timeout {cfg : OCfg} : ∀ (f : Nat) {s t : OSt} {r : Nat}, chrono cfg f s s.LEVEL = .ok (r, t) → r = 1 →
    ∃ k, cfg.late k = true := by
  intro f
  induction f with
  | zero => intro s t r h; cases h
  | succ f ih =>
    intro s t r h hr
    subst hr
    rw [chrono_eq] at h
    by_cases hs : checkSat s = true
    · rw [if_pos hs] at h; cases h
    rw [if_neg hs] at h
    by_cases hl : cfg.late s.ticks = true
    · exact ⟨_, hl⟩
    rw [if_neg hl] at h
    obtain ⟨u, -, h⟩ := Res.bind_eq_ok.1 h
    unfold chronoTail at h
    by_cases hs : checkSat u = true
    · rw [if_pos hs] at h; cases h
    rw [if_neg hs] at h
    by_cases hl : cfg.late u.ticks = true
    · exact ⟨_, hl⟩
    rw [if_neg hl] at h
    split at h
    · cases h
    split at h
    · cases h
    obtain ⟨w, -, h⟩ := Res.bind_eq_ok.1 h
    obtain ⟨⟨r1, w1⟩, h1, h⟩ := Res.bind_eq_ok.1 h
    simp only at h
    split at h
    · cases h
    split at h
    · rename_i hr1
      exact ih h1 hr1
    split at h
    · obtain ⟨x, -, h⟩ := Res.bind_eq_ok.1 h
      exact ih h rfl
    · cases h

theorem learnLoop_timeout {cfg : OCfg} : ∀ (f : Nat) {s t : OSt}, learnLoop cfg f s = .ok (1, t) →
    ∃ k, cfg.late k = true := by
  intro f
  induction f with
  | zero => intro s t h; cases h
  | succ f ih =>
    intro s t h
    rw [learnLoop_eq] at h
    split at h
    · cases h
    split at h
    · rename_i hl; exact ⟨_, hl⟩
    split at h
    · obtain ⟨u, -, h⟩ := Res.bind_eq_ok.1 h
      split at h
      · cases h
      split at h
      · rename_i hl; exact ⟨_, hl⟩
      exact ih h
    split at h
    · split at h
      · cases h
      obtain ⟨u, -, h⟩ := Res.bind_eq_ok.1 h
      exact ih h
    obtain ⟨u, -, h⟩ := Res.bind_eq_ok.1 h
    exact ih h

/-- C75.  Both searches end on every well-formed problem: from some number of steps on the outcome is not "out
of steps". -/
theorem C75_original_ends (cfg : OCfg) (m : Mode) {P : Problem} (hwf : P.WellFormed) :
    ∃ f0, ∀ f, f0 ≤ f → solve cfg m f P ≠ .fuel := by
  obtain ⟨s, h1, hb⟩ := build_built cfg hwf
  have key : ∃ f0, ∀ f, f0 ≤ f → search cfg m f s ≠ .fuel := by
    cases m with
    | ch =>
      obtain ⟨f0, h0⟩ := chrono_total cfg _ (checkUnit s) (built_inv hwf hb)
        (by show 0 ≤ s.LEVEL; rw [(built_level hb).1]; exact Int.le_refl _) rfl
      exact ⟨f0, fun f hf => by rw [search_ch hb]; exact h0 f hf⟩
    | nc =>
      obtain ⟨f0, h0⟩ := learnLoop_total cfg s _ _ _ (checkUnit s) (built_nc hwf hb) (Nat.le_refl _) (Nat.le_refl _)
        (Nat.le_refl _)
      exact ⟨f0, fun f hf => by rw [search_nc hb]; exact h0 f hf⟩
  obtain ⟨f0, h0⟩ := key
  refine ⟨f0, fun f hf => ?_⟩
  rw [solve_eq h1]
  apply bind_ne_fuel (h0 f hf)
  intro a _ z; cases z

/-- C75.  `TIMEOUT` is printed only when some reading of the clock was past the limit. -/
theorem C75_original_timeout {cfg : OCfg} {m : Mode} {P : Problem} (hwf : P.WellFormed) {fuel : Nat} {rep : OReport}
    (h : solve cfg m fuel P = .ok rep) (ha : rep.answer = .TIMEOUT) : ∃ k, cfg.late k = true := by
  have one : ∀ {r : Nat} {t : OSt}, (report r t).answer = .TIMEOUT → r = 1 := by
    intro r t h
    by_cases h0 : r = 0
    · simp [report, h0] at h
    · by_cases h1 : r = 1
      · exact h1
      · simp [report, h0, h1] at h
  cases m with
  | ch =>
    obtain ⟨s, r, t, -, -, rfl, h2⟩ := ch_result hwf h
    exact chrono_timeout fuel h2 (one ha)
  | nc =>
    obtain ⟨s, r, t, -, -, -, -, -, rfl, h2⟩ := nc_result hwf h
    rw [one ha] at h2
    exact learnLoop_timeout fuel h2

/-- A run that times out, at the second reading of the clock. -/
theorem C75_example : (solve ⟨true, .null, fun k => decide (1 ≤ k)⟩ .ch 40 exSat).passes
    (fun rep => rep.answer == .TIMEOUT) = true ∧
    (solve ⟨true, .null, fun k => decide (1 ≤ k)⟩ .nc 40 exSat).passes (fun rep => rep.answer == .TIMEOUT) = true :=
  ⟨by decide +kernel, by decide +kernel⟩

/-! ## C76: undefined behaviour -/

/-- C76, what holds of it: when `delete` of a bad pointer goes unnoticed, `-solvech` has no undefined
behaviour.  Full statement: neither search has undefined behaviour on a well-formed problem; false, see
`C76_double_delete`, `C76_stack_underflow`. -/
theorem C76_original_ch_partial {cfg : OCfg} (hto : cfg.tolerant = true) {P : Problem} (hwf : P.WellFormed) (fuel : Nat) :
    solve cfg .ch fuel P ≠ .ub := by
  obtain ⟨s, h1, hb⟩ := build_built cfg hwf
  rw [solve_eq h1, search_ch hb]
  apply bind_ne_ub
  · exact chrono_ne_ub hto fuel (built_inv hwf hb)
      (by show 0 ≤ s.LEVEL; rw [(built_level hb).1]; exact Int.le_refl _)
  · intro a _ z; cases z

/-- C76, what holds of it: when `delete` of a bad pointer goes unnoticed and the problem has a clause with
one literal, `-solvenc` has no undefined behaviour. -/
theorem C76_original_nc_partial {cfg : OCfg} (hto : cfg.tolerant = true) {P : Problem} (hwf : P.WellFormed)
    (hunit : ∃ l, [l] ∈ P.clauses) (fuel : Nat) : solve cfg .nc fuel P ≠ .ub := by
  obtain ⟨s, h1, hb⟩ := build_built cfg hwf
  rw [solve_eq h1, search_nc hb]
  apply bind_ne_ub
  · apply learnLoop_ne_ub hto fuel (built_nc hwf hb)
    right
    obtain ⟨b1, b2, b3, b4, -⟩ := built_level hb
    refine ⟨b1, b4, ?_⟩
    obtain ⟨l, hl⟩ := hunit
    obtain ⟨i, hi, e⟩ := List.getElem_of_mem hl
    have ec := hb.cls i [l] (by rw [List.getElem?_eq_getElem hi, e])
    refine ⟨i, ?_, ?_⟩
    · show i ∈ (List.range s.ncl).filter _
      simp only [List.mem_filter, List.mem_range, decide_eq_true_eq]
      refine ⟨by rw [hb.ncl]; exact hi, ?_, ?_⟩ <;> rw [ec] <;> rfl
    · show (s.cls i).sat = false
      rw [ec]
  · intro a _ z; cases z

/-- A case of `C76_original_nc_partial` with a conflict above level 0. -/
theorem C76_example : exUnsatNc.WellFormed ∧ (∃ l, [l] ∈ exUnsatNc.clauses) ∧
    (solve (exO true) .nc 40 exUnsatNc).passes (fun rep => rep.backtracks == 1) = true :=
  ⟨exUnsatNc_wf, ⟨⟨3, 0, true⟩, by decide +kernel⟩, by decide +kernel⟩

/-- Does a run end in undefined behaviour (for examples). -/
def isUb {α : Type} : Res α → Bool
  | .ub => true
  | _ => false

/-- Three unit clauses: 1 != 0, 3 != 1, 3 != 2. -/
def exDelete : Problem := ⟨[2, 2, 3], [[⟨1, 0, false⟩], [⟨3, 1, false⟩], [⟨3, 2, false⟩]]⟩

/-- C76 is false: `ENTAILLITERAL` is deleted twice, in both searches, when every reuse of the pointer counts. -/
theorem C76_double_delete : exDelete.WellFormed ∧ isUb (solve (exO false) .ch 20 exDelete) = true ∧
    isUb (solve (exO false) .nc 20 exDelete) = true := by
  refine ⟨⟨?_, ?_, ?_⟩, ?_, ?_⟩ <;> decide +kernel

/-- C76 is false: `-solvenc` reads `DECSTACK[-1]`, whatever `delete` does. -/
theorem C76_stack_underflow : exWrong.WellFormed ∧ isUb (solve (exO true) .nc 20 exWrong) = true ∧
    isUb (solve (exO false) .nc 20 exWrong) = true :=
  ⟨exWrong_wf, by decide +kernel, by decide +kernel⟩

/-! ## C77: statistics -/

/-- C77, `-solvech`.  The level printed is decisions minus backtracks; the numbers of variables and clauses are
those of the problem. -/
theorem C77_original_ch_statistics {cfg : OCfg} {P : Problem} (hwf : P.WellFormed) {fuel : Nat} {rep : OReport}
    (h : solve cfg .ch fuel P = .ok rep) : rep.levels = (rep.decisions : Int) - rep.backtracks ∧
    rep.variables = P.numVars ∧ rep.clauses = P.clauses.length := by
  obtain ⟨s, r, t, hb, C, rfl, -⟩ := ch_result hwf h
  obtain ⟨b1, b2, b3, -⟩ := built_level hb
  refine ⟨?_, ?_, ?_⟩
  · have := C.stat
    have e1 : (checkUnit s).LEVEL = 0 := b1
    have e2 : (checkUnit s).nDecisions = 0 := b2
    have e3 : (checkUnit s).nBacktracks = 0 := b3
    rw [e1, e2, e3] at this
    show t.LEVEL = (t.nDecisions : Int) - t.nBacktracks
    omega
  · exact C.same.nv.trans hb.nv
  · exact C.same.ncl.trans hb.ncl

/-- C77, `-solvenc`.  Each backtrack adds one clause; there are no more backtracks than pairs of a variable and a
value, and no more than decisions; the level is at most decisions minus backtracks, and is 0 after UNSAT. -/
theorem C77_original_nc_statistics {cfg : OCfg} {P : Problem} (hwf : P.WellFormed) {fuel : Nat} {rep : OReport}
    (h : solve cfg .nc fuel P = .ok rep) : rep.clauses = P.clauses.length + rep.backtracks ∧
    rep.variables = P.numVars ∧ rep.backtracks ≤ P.doms.sum ∧ 0 ≤ rep.levels ∧
    rep.levels + rep.backtracks ≤ rep.decisions ∧ (rep.answer = .UNSAT → rep.levels = 0) := by
  obtain ⟨s, r, t, hb, N, hr, -, hu, rfl, -⟩ := nc_result hwf h
  refine ⟨?_, ?_, ?_, N.lev, N.stat, fun ha => (hu (answer_unsat ha hr)).2⟩
  · show t.ncl = _ + t.nBacktracks
    rw [N.ncl, hb.ncl]
  · exact N.nv.trans hb.nv
  · show t.nBacktracks ≤ _
    have e : t.atoms.length = P.doms.sum := by
      have : t.atoms = s.atoms := by unfold OSt.atoms; rw [N.nv, N.dom]
      rw [this]; exact atoms_length hb
    rw [← e]
    rcases N.bound with b | ⟨hL, b, hcf, id, hid, hs⟩
    · omega
    · -- the clause waiting for unit propagation has an unassigned literal
      obtain ⟨hi, -⟩ := N.inv.uni id hid
      rcases N.inv.nz id hi hs with ⟨l, hl, hun⟩ | ⟨hc, -⟩
      · have hr := N.inv.rng id hi l hl
        have : 0 < nOpen t := by
          unfold nOpen
          rw [List.countP_pos_iff (p := fun a : Nat × Nat => decide (t.asg a.1 a.2 = .un ∨ 0 < t.alvl a.1 a.2))]
          exact ⟨(l.var, l.val), (mem_atoms t _ _).2 hr, by simp [hun]⟩
        omega
      · rw [hcf] at hc; cases hc

/-- The statistics of two runs. -/
theorem C77_example :
    (solve (exO true) .ch 40 exUnsat).passes (fun rep => rep.levels == -1 && rep.backtracks == 1 && rep.clauses == 3) = true ∧
    (solve (exO true) .nc 40 exWrongNc).passes
      (fun rep => rep.levels == 0 && rep.backtracks == 1 && rep.decisions == 2 && rep.clauses == 7) = true :=
  ⟨by decide +kernel, by decide +kernel⟩

end Mvl.Orig
