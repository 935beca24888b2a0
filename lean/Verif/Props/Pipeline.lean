import Verif.Proof.B2fLines
import Verif.Props.Agree
import Verif.Props.Heur
import Verif.Props.WL

/-!
# Encoders and solvers one after the other

C66: `-b2f` and then any solver decides the Boolean formula.  C67: `-linenc`, then `-b2f`, then any solver decides the
finite-domain formula.
-/

namespace Mvl

variable {S : Type}

/-! ## C66 -/

/-- The answer on a file that is read as a formula is the answer on the formula. -/
theorem solveFile_read (cfg : Cfg S) {out : List Char} {P : Problem} (h : readFile out = .ok P.items) (algo : Algo)
    (fuel : Nat) : solveFile cfg algo fuel out = solve cfg algo fuel P := by
  unfold solveFile buildFile solve run build
  rw [h]
  simp only [Res.ok_bind]
  cases buildItems cfg P.items (initSt cfg) <;> rfl

/-- Every variant decides a well-formed file without repeated literals. -/
theorem every_decides {cfg : Cfg S} {algo : Algo} (hv : Selectable cfg algo) (hs : cfg.ScoreOK)
    (hclock : ∀ k, cfg.late k = false) {P : Problem} (hwf : P.WellFormed) (hnd : P.NoDupLits) :
    ∃ rep f0, (∀ fuel, f0 ≤ fuel → solve cfg algo fuel P = .ok rep) ∧
      (rep.answer = .SAT ↔ P.Satisfiable) ∧ (rep.answer = .UNSAT ↔ ¬ P.Satisfiable) := by
  cases algo with
  | chrono => exact C03_chrono_decides hv.1 hv.2 hclock hwf
  | learn =>
    cases hw : cfg.watch with
    | false => exact C06_learn_decides hw hs hclock hwf hnd
    | true => exact C48_watch_decides hw (fun hb => hv ⟨hw, hb⟩) hs hclock hwf hnd

/-- Every variant but those with `-lazy` prints a model of the file. -/
theorem every_model {cfg : Cfg S} {algo : Algo} (hv : Selectable cfg algo) (hs : cfg.ScoreOK) (hl : cfg.heur ≠ .lazy)
    {P : Problem} (hwf : P.WellFormed) (hnd : cfg.watch = true → P.NoDupLits) {fuel : Nat} {rep : Report}
    (hrun : solve cfg algo fuel P = .ok rep) (hans : rep.answer = .SAT) :
    NamesAll P rep.model ∧ ∀ a : Assignment, (∀ l ∈ rep.model, a l.var = l.val) → P.Solves a := by
  cases algo with
  | chrono => exact C09_chrono_model_partial hv.1 (hv.2.resolve_right hl) hwf hrun hans
  | learn =>
    cases hw : cfg.watch with
    | false => exact C09_learn_model_partial hw hs hl hwf hrun hans
    | true =>
      refine C09_watch_model_partial hw hs ?_ hwf (hnd hw) hrun hans
      cases e : cfg.heur with
      | BK => exact absurd e (fun e => hv ⟨hw, e⟩)
      | lazy => exact absurd e hl
      | VSIDS => exact .inl rfl
      | VSIDS_pos => exact .inr rfl

/-- No clause repeats a literal. -/
def BNoDup (cs : List (List Int)) : Prop := ∀ c ∈ cs, c.Nodup

theorem finProblem_nodup {N : Nat} {cs : List (List Int)} (h0 : BWellFormed cs) (h : BNoDup cs) :
    (finProblem N cs).NoDupLits := by
  intro c' hc'
  obtain ⟨c, hc, rfl⟩ := List.mem_map.1 hc'
  unfold finClause List.Nodup
  rw [List.pairwise_map]
  refine List.Pairwise.imp_of_mem ?_ (h c hc)
  intro x y hx hy hne e
  have e1 : x.natAbs = y.natAbs := congrArg Lit.var e
  have e2 : (if x < 0 then 0 else 1) = (if y < 0 then 0 else 1) := congrArg Lit.val e
  have := h0 c hc x hx
  have := h0 c hc y hy
  split at e2 <;> split at e2 <;> first | omega | cases e2

/-- What a run on the finite-domain version of a Boolean formula means for the formula. -/
structure Decided (cs : List (List Int)) (lz : Bool) (rep : Report) : Prop where
  sat   : rep.answer = .SAT → BSatisfiable cs
  unsat : rep.answer = .UNSAT → ¬ BSatisfiable cs
  /-- Without `-lazy`, the variables printed with value 1 are those true in a model. -/
  model : rep.answer = .SAT → lz = false → BSolves (fun v => decide (⟨v, 1, true⟩ ∈ rep.model)) cs

theorem finProblem_decided {cfg : Cfg S} {algo : Algo} (hv : Selectable cfg algo) (hs : cfg.ScoreOK) {N : Nat}
    {cs : List (List Int)} (h0 : BWellFormed cs) (hu : ∀ v, BUses cs v → 1 ≤ v ∧ v ≤ N) (hne : ∀ c ∈ cs, c ≠ [])
    (hnd : cfg.watch = true → BNoDup cs) {fuel : Nat} {rep : Report}
    (hrun : solve cfg algo fuel (finProblem N cs) = .ok rep) : Decided cs (cfg.heur == .lazy) rep := by
  have hwf := finProblem_wellFormed hu hne
  have hnd' := fun hw => finProblem_nodup (N := N) h0 (hnd hw)
  have hsat := finProblem_sat h0 hu
  obtain ⟨g1, g2⟩ := answer_right hv hs hwf hnd' hrun
  refine ⟨fun h => hsat.1 (g1 h), fun h h' => g2 h (hsat.2 h'), fun h hl => ?_⟩
  have hl : cfg.heur ≠ .lazy := by
    intro e
    rw [e] at hl
    cases hl
  obtain ⟨⟨m1, m2⟩, m3⟩ := every_model hv hs hl hwf hnd' hrun h
  have hdom : ∀ v, 1 ≤ v → v ≤ N → (finProblem N cs).dom v = 2 := by
    intro v h1 h2
    obtain ⟨w, rfl⟩ : ∃ w, v = w + 1 := ⟨v - 1, by omega⟩
    simp only [finProblem, Problem.dom, List.getD_eq_getElem?_getD, List.getElem?_replicate, if_pos (show w < N from by omega)]
    rfl
  have hn : (finProblem N cs).numVars = N := by simp [finProblem, Problem.numVars]
  rw [hn] at m1 m2
  let a : Assignment := fun v => if ⟨v, 1, true⟩ ∈ rep.model then 1 else 0
  have ha : ∀ l ∈ rep.model, a l.var = l.val := by
    rintro ⟨v, k, b⟩ hm
    obtain ⟨e, h1, h2⟩ := m1 _ hm
    cases e
    obtain ⟨d, hd, hf⟩ := m2 v h1 h2
    rw [hdom v h1 h2] at hd
    have hk : (⟨v, k, true⟩ : Lit) ∈ [(⟨v, d, true⟩ : Lit)] := by
      rw [← hf]; exact List.mem_filter.2 ⟨hm, by simp⟩
    have hk : k = d := by simpa using hk
    subst hk
    show (if _ then 1 else 0) = k
    by_cases h1' : (⟨v, 1, true⟩ : Lit) ∈ rep.model
    · rw [if_pos h1']
      have : (⟨v, 1, true⟩ : Lit) ∈ [(⟨v, k, true⟩ : Lit)] := by
        rw [← hf]; exact List.mem_filter.2 ⟨h1', by simp⟩
      simpa using this
    · rw [if_neg h1']
      have : k ≠ 1 := by rintro rfl; exact h1' hm
      omega
  have hsol := (m3 a ha).2
  intro c hc
  refine (finClause_holds (a := a) (h0 c hc) ?_).1 (hsol _ (List.mem_map.2 ⟨c, hc, rfl⟩))
  intro x hx
  simp [a]

/-- **C66**: the answer of any solver on the output of `-b2f` is right for the DIMACS file given to `-b2f`, and without
`-lazy` the model printed is a model of it.  Missing: formulas that leave out a variable (`C31_fails`), lines too long for
the solver (`C31_long_fails`), empty clauses (C20), and repeated literals with `-wl` (C08). -/
theorem C66_b2f_solve_partial {cfg : Cfg S} {algo : Algo} (hv : Selectable cfg algo) (hs : cfg.ScoreOK) {ls : List BLine}
    (h : ∀ l ∈ ls, l.Ok) {N : Nat} (hN : ∀ v, BUses (bClauses ls) v ↔ 1 ≤ v ∧ v ≤ N) (h1 : bClauses ls ≠ [])
    (hlen : ∀ c ∈ bClauses ls, c ≠ [] ∧ (openClauseText (finClause c)).length < 3000)
    (hnd : cfg.watch = true → BNoDup (bClauses ls)) :
    ∃ out, boolean2Finite (bFileText ls) = .ok out ∧ ∀ fuel rep, solveFile cfg algo fuel out = .ok rep →
      Decided (bClauses ls) (cfg.heur == .lazy) rep := by
  have hb := bWellFormed h
  obtain ⟨out, e1, _, e2, _⟩ := C31_b2f_partial h h1 hN fun c hc => (hlen c hc).2
  refine ⟨out, e1, fun fuel rep hr => ?_⟩
  rw [solveFile_read cfg e2] at hr
  exact finProblem_decided hv hs (fun c hc x hx => (hb c hc x hx).1) (fun v hv => (hN v).1 hv) (fun c hc => (hlen c hc).1) hnd hr

/-- **C66**, an answer is printed: with a clock that is never late and no repeated literal. -/
theorem C66_b2f_answers_partial {cfg : Cfg S} {algo : Algo} (hv : Selectable cfg algo) (hs : cfg.ScoreOK)
    (hclock : ∀ k, cfg.late k = false) {ls : List BLine}
    (h : ∀ l ∈ ls, l.Ok) {N : Nat} (hN : ∀ v, BUses (bClauses ls) v ↔ 1 ≤ v ∧ v ≤ N) (h1 : bClauses ls ≠ [])
    (hlen : ∀ c ∈ bClauses ls, c ≠ [] ∧ (openClauseText (finClause c)).length < 3000) (hnd : BNoDup (bClauses ls)) :
    ∃ out rep f0, boolean2Finite (bFileText ls) = .ok out ∧ (∀ fuel, f0 ≤ fuel → solveFile cfg algo fuel out = .ok rep) ∧
      (rep.answer = .SAT ↔ BSatisfiable (bClauses ls)) ∧ (rep.answer = .UNSAT ↔ ¬ BSatisfiable (bClauses ls)) := by
  have hb := bWellFormed h
  obtain ⟨out, e1, _, e2, e3, e4⟩ := C31_b2f_partial h h1 hN fun c hc => (hlen c hc).2
  obtain ⟨rep, f0, g1, g2, g3⟩ := every_decides hv hs hclock (e4 fun c hc => (hlen c hc).1)
    (finProblem_nodup (fun c hc x hx => (hb c hc x hx).1) hnd)
  refine ⟨out, rep, f0, e1, fun fuel hf => ?_, g2.trans e3, g3.trans (not_congr e3)⟩
  rw [solveFile_read cfg e2, g1 fuel hf]

example : (∀ l ∈ exBool, l.Ok) ∧ bClauses exBool ≠ [] ∧ (∀ v, BUses (bClauses exBool) v ↔ 1 ≤ v ∧ v ≤ 3) ∧
    (∀ c ∈ bClauses exBool, c ≠ [] ∧ (openClauseText (finClause c)).length < 3000) ∧ BNoDup (bClauses exBool) ∧ Selectable (exCfg .VSIDS true) .learn := by
  refine ⟨by decide, by decide, ?_, by decide, ?_, by simp [Selectable, exCfg]⟩
  · intro v
    constructor
    · rintro ⟨c, hc, x, hx, rfl⟩
      revert x
      have : ∀ c ∈ bClauses exBool, ∀ x ∈ c, 1 ≤ x.natAbs ∧ x.natAbs ≤ 3 := by decide
      exact this c hc
    · rintro ⟨h1, h2⟩
      obtain rfl | rfl | rfl : v = 1 ∨ v = 2 ∨ v = 3 := by omega
      · exact ⟨[1, -2], by decide, 1, by decide, rfl⟩
      · exact ⟨[1, -2], by decide, -2, by decide, rfl⟩
      · exact ⟨[2, 3], by decide, 3, by decide, rfl⟩
  · show ∀ c ∈ bClauses exBool, c.Nodup
    decide

/-! ## C67 -/

/-- The characters printed for the lines of words `W`: the words of the first line with one blank between them, those of
the others with any number of blanks after each word; no line is too long. -/
def Prints (W : List (List (List Char))) (T : List Char) : Prop :=
  ∃ (hd : List (List Char)) (ls : List (List (List Char) × List Char)), W = hd :: ls.map Prod.fst ∧
    T = [' '].intercalate hd ++ '\n' :: ls.flatMap (fun p => p.2 ++ ['\n']) ∧
    ∀ p ∈ ls, words p.2 = p.1 ∧ (∀ ch ∈ p.2, ch = ' ' ∨ ∃ x ∈ p.1, ch ∈ x) ∧ p.2.length < 3000

theorem intText_numeric (x : Int) : RLine.Numeric (intText x) := by
  intro ch hc
  unfold intText at hc
  split at hc
  · rcases List.mem_cons.1 hc with rfl | hc
    · exact .inr (.inl rfl)
    · exact .inl (natText_digit ch hc)
  · exact .inl (natText_digit ch hc)

/-- A printed DIMACS file as a list of lines. -/
theorem prints_lines {n m : Nat} {cs : List (List Int)} {T : List Char} (hn : FileLine.Small n) (hm : FileLine.Small m)
    (hb : ∀ c ∈ cs, ∀ x ∈ c, x ≠ 0 ∧ FileLine.Small x.natAbs) (h : Prints (dimacsWords n m cs) T) :
    ∃ ls : List RLine, (∀ l ∈ ls, l.Ok) ∧ T = rText ls ∧ rClauses ls = cs ∧ (cs ≠ [] → ∃ l ∈ ls, l.ended = true) := by
  obtain ⟨hd, ts, e, rfl, hf⟩ := h
  unfold dimacsWords at e
  obtain ⟨rfl, e1⟩ := List.cons.inj e
  have key : ∀ (cs : List (List Int)) (ts : List (List (List Char) × List Char)), (∀ c ∈ cs, ∀ x ∈ c, x ≠ 0 ∧ FileLine.Small x.natAbs) →
      (∀ p ∈ ts, words p.2 = p.1 ∧ (∀ ch ∈ p.2, ch = ' ' ∨ ∃ x ∈ p.1, ch ∈ x) ∧ p.2.length < 3000) →
      (cs.map fun c => c.map intText ++ [['0']]) = ts.map Prod.fst →
      ∃ ls : List RLine, (∀ l ∈ ls, l.Ok) ∧ (ts.flatMap fun p => p.2 ++ ['\n']) = rText ls ∧ rClauses ls = cs ∧
        (cs ≠ [] → ∃ l ∈ ls, l.ended = true) := by
    intro cs
    induction cs with
    | nil =>
      intro ts _ _ e
      cases ts with
      | cons t ts => cases e
      | nil => exact ⟨[], by simp, rfl, rfl, fun h => absurd rfl h⟩
    | cons c cs ih =>
      intro ts hb hf e
      match ts, hf, e with
      | [], _, e => cases e
      | (w, t) :: ts, hf, e =>
      rw [List.map_cons, List.map_cons] at e
      obtain ⟨e0, e1⟩ := List.cons.inj e
      obtain rfl : c.map intText ++ [['0']] = w := e0
      have ht := hf _ List.mem_cons_self
      dsimp only at ht
      obtain ⟨ls, g1, g2, g3, _⟩ := ih ts (fun c hc => hb c (List.mem_cons_of_mem _ hc))
        (fun p hp => hf p (List.mem_cons_of_mem _ hp)) e1
      refine ⟨.ints c true t :: ls, ?_, ?_, ?_, fun _ => ⟨_, List.mem_cons_self, rfl⟩⟩
      · intro l hl
        rcases List.mem_cons.1 hl with rfl | hl
        · refine ⟨ht.2.2, ?_, ht.1, hb c List.mem_cons_self⟩
          intro ch hch
          rcases ht.2.1 ch hch with h | ⟨x, hx, hch⟩
          · exact .inr (.inr h)
          · rcases List.mem_append.1 hx with hx | hx
            · obtain ⟨y, _, rfl⟩ := List.mem_map.1 hx
              exact intText_numeric y ch hch
            · simp at hx
              subst hx
              simp at hch
              subst hch
              exact .inl (by decide)
        · exact g1 l hl
      · rw [List.flatMap_cons, g2]
        rfl
      · rw [rClauses_ints, g3]
  obtain ⟨ls, g1, g2, g3, g4⟩ := key cs ts hb hf e1
  refine ⟨.head (.problem n m) :: ls, ?_, ?_, by rw [rClauses_head, g3], fun h => ?_⟩
  · intro l hl
    rcases List.mem_cons.1 hl with rfl | hl
    · have hl : (BLine.text (.problem n m)).length < 3000 := by
        have := natText_length_small hn
        have := natText_length_small hm
        simp [BLine.text]
        omega
      exact ⟨hl, ⟨hl, hn, hm⟩, fun c e => by cases e⟩
    · exact g1 l hl
  · rw [g2]
    unfold rText
    simp [List.intercalate, List.intersperse, RLine.text, BLine.text, intText_nat]
  · obtain ⟨l, hl, e⟩ := g4 h
    exact ⟨l, List.mem_cons_of_mem _ hl, e⟩

/-- The number of Boolean variables. -/
def linTotal (D : Nat → Nat) (n : Nat) : Nat := linIdx D (n + 1) - 1

theorem linBlock (D : Nat → Nat) : ∀ n i, 1 ≤ i → i < linIdx D (n + 1) →
    ∃ v, 1 ≤ v ∧ v ≤ n ∧ linIdx D v ≤ i ∧ i < linIdx D v + linWidth (D v)
  | 0, i, h1, h2 => by
    have : linIdx D (0 + 1) = 1 := rfl
    omega
  | n + 1, i, h1, h2 => by
    by_cases h : i < linIdx D (n + 1)
    · obtain ⟨v, a, b, c⟩ := linBlock D n i h1 h
      exact ⟨v, a, by omega, c⟩
    · exact ⟨n + 1, by omega, Nat.le_refl _, by omega, h2⟩

/-- With at least three values for every variable, the encoding uses all the variables up to the last. -/
theorem linCnf_uses {D : Nat → Nat} {n : Nat} {cs : List (List Lit)} (hD : ∀ v, 1 ≤ v → v ≤ n → 3 ≤ D v)
    (hok : ∀ c ∈ cs, ∀ l ∈ c, 1 ≤ l.var ∧ l.var ≤ n ∧ l.val < D l.var) (u : Nat) :
    BUses (linCnf D n cs) u ↔ 1 ≤ u ∧ u ≤ linTotal D n := by
  have hle : ∀ v, 1 ≤ v → v ≤ n → linIdx D v + (2 * D v - 1) ≤ linIdx D (n + 1) := by
    intro v h1 h2
    have := linIdx_lt D h1 (Nat.lt_succ_of_le h2)
    have h3 := hD v h1 h2
    unfold linWidth at this
    rw [if_neg (by omega)] at this
    exact this
  unfold linTotal
  constructor
  · rintro ⟨c, hc, x, hx, rfl⟩
    rcases List.mem_append.1 hc with hc | hc
    · obtain ⟨v, h1, h2, h3, h4⟩ := mem_linExtras.1 hc
      have g0 := linIdx_pos D v h1
      have g1 := linExtra_ne g0 c h4 x hx
      have g2 := linExtra_le h3 c h4 x hx
      have := hle v h1 h2
      omega
    · obtain ⟨c0, h0, rfl⟩ := List.mem_map.1 hc
      obtain ⟨l, hl, rfl⟩ := List.mem_map.1 hx
      obtain ⟨o1, o2, o3⟩ := hok c0 h0 l hl
      have g0 := linIdx_pos D l.var o1
      have := hle l.var o1 o2
      have h3 := hD l.var o1 o2
      unfold linLitInt
      rw [if_pos (by omega)]
      split <;> omega
  · rintro ⟨h1, h2⟩
    obtain ⟨v, a, b, c, d⟩ := linBlock D n u h1 (by omega)
    have h3 := hD v a b
    unfold linWidth at d
    rw [if_neg (by omega)] at d
    by_cases hu : u < linIdx D v + D v
    · refine ⟨(List.range (D v)).map fun j : Nat => (linIdx D v : Int) + j, List.mem_append_left _
        (mem_linExtras.2 ⟨v, a, b, by omega, by simp [linExtra]⟩), (linIdx D v : Int) + (u - linIdx D v : Nat), ?_, by omega⟩
      exact List.mem_map.2 ⟨u - linIdx D v, List.mem_range.2 (by omega), rfl⟩
    · refine ⟨[-((linIdx D v : Int) + D v + (u - linIdx D v - D v : Nat)), -((linIdx D v : Int) + 1 + (u - linIdx D v - D v : Nat))],
        List.mem_append_left _ (mem_linExtras.2 ⟨v, a, b, by omega, ?_⟩), _, List.mem_cons_self, by omega⟩
      refine List.mem_append_right _ (List.mem_map.2 ⟨u - linIdx D v - D v, List.mem_range.2 (by omega), rfl⟩)

theorem linExtra_nodup {b d : Nat} (hb : 1 ≤ b) : ∀ c ∈ linExtra (b : Int) d, c.Nodup := by
  intro c hc
  unfold linExtra at hc
  simp only [List.mem_append, List.mem_cons, List.not_mem_nil, or_false, List.mem_flatMap, List.mem_map,
    List.mem_range] at hc
  rcases hc with ((rfl | rfl | rfl) | ⟨j, hj, rfl | rfl | rfl⟩) | ⟨j, hj, rfl⟩
  · unfold List.Nodup
    rw [List.pairwise_map]
    refine List.Pairwise.imp ?_ List.nodup_range
    intro x y hne e
    omega
  all_goals simp; try omega

theorem linExtra_sizes {b d : Nat} (hd : 3 ≤ d) : ∀ c ∈ linExtra (b : Int) d, c ≠ [] ∧ c.length ≤ d := by
  intro c hc
  unfold linExtra at hc
  simp only [List.mem_append, List.mem_cons, List.not_mem_nil, or_false, List.mem_flatMap, List.mem_map,
    List.mem_range] at hc
  rcases hc with ((rfl | rfl | rfl) | ⟨j, hj, rfl | rfl | rfl⟩) | ⟨j, hj, rfl⟩
  · constructor
    · simp; omega
    · simp
  all_goals simp; try omega

theorem linLitInt_inj {D : Nat → Nat} {l l' : Lit} (h1 : 1 ≤ l.var) (h1' : 1 ≤ l'.var) (h3 : 3 ≤ D l.var) (h3' : 3 ≤ D l'.var)
    (hv : l.val < D l.var) (hv' : l'.val < D l'.var) (e : linLitInt D l = linLitInt D l') : l = l' := by
  have p := linIdx_pos D l.var h1
  have p' := linIdx_pos D l'.var h1'
  have w : ∀ d, 3 ≤ d → linWidth d = 2 * d - 1 := fun d h => by unfold linWidth; rw [if_neg (by omega)]
  unfold linLitInt at e
  rw [if_pos (show 2 < D l.var by omega), if_pos (show 2 < D l'.var by omega)] at e
  have heq : l.eq = l'.eq ∧ linIdx D l.var + l.val = linIdx D l'.var + l'.val := by
    cases hl : l.eq <;> cases hl' : l'.eq <;> rw [hl, hl'] at e <;> simp only [if_true, Bool.false_eq_true, if_false] at e <;>
      first | exact ⟨rfl, by omega⟩ | omega
  have hvar : l.var = l'.var := by
    rcases Nat.lt_trichotomy l.var l'.var with h | h | h
    · have := linIdx_lt D h1 h
      rw [w _ h3] at this
      omega
    · exact h
    · have := linIdx_lt D h1' h
      rw [w _ h3'] at this
      omega
  obtain ⟨v, k, b⟩ := l
  obtain ⟨v', k', b'⟩ := l'
  dsimp only at *
  subst hvar
  obtain ⟨rfl, h⟩ := heq
  have : k = k' := by omega
  rw [this]

theorem dom_mem {P : Problem} {v : Nat} (h1 : 1 ≤ v) (h2 : v ≤ P.numVars) : P.dom v ∈ P.doms := by
  obtain ⟨v, rfl⟩ : ∃ w, v = w + 1 := ⟨v - 1, by omega⟩
  have : v < P.doms.length := h2
  unfold Problem.dom
  simp [List.getD_eq_getElem?_getD, List.getElem?_eq_getElem this]

/-- What a run of a solver means for the formula. -/
def Right (P : Problem) (rep : Report) : Prop :=
  (rep.answer = .SAT → P.Satisfiable) ∧ (rep.answer = .UNSAT → ¬ P.Satisfiable)

theorem linTotal_sum {P : Problem} (h3 : ∀ d ∈ P.doms, 3 ≤ d) :
    linTotal (domOf P.doms) P.numVars + P.doms.length = 2 * P.doms.sum := by
  unfold linTotal
  rw [linIdx_sum]
  have e : ((List.range' 1 P.numVars).map fun i => linWidth (domOf P.doms i)) = P.doms.map linWidth := by
    conv => rhs; rw [← map_domOf P.doms]
    rw [List.map_map]; rfl
  rw [e]
  have : ∀ ds : List Nat, (∀ d ∈ ds, 3 ≤ d) → (ds.map linWidth).sum + ds.length = 2 * ds.sum := by
    intro ds
    induction ds with
    | nil => intro _; rfl
    | cons d ds ih =>
      intro hd
      have := ih fun x hx => hd x (List.mem_cons_of_mem _ hx)
      have h3 := hd d List.mem_cons_self
      have : linWidth d = 2 * d - 1 := by unfold linWidth; rw [if_neg (by omega)]
      simp only [List.map_cons, List.sum_cons, List.length_cons]
      omega
  have := this P.doms h3
  omega

/-- `-linenc`, then `-b2f`: the items of the file written, whatever solver reads it. -/
theorem linenc_b2f_items {ls : List FileLine} {P : Problem} (h : Describes ls P) (hw : P.WellFormed)
    (hh : HeaderFirst ls P.numVars P.clauses.length) (hc : P.clauses ≠ []) (h3 : ∀ d ∈ P.doms, 3 ≤ d)
    (hlen : ∀ c ∈ linCnf (domOf P.doms) P.numVars P.clauses, (openClauseText (finClause c)).length < 3000)
    (hsz : 4 * P.doms.sum + P.clauses.length ≤ 2147483647) :
    ∃ W cs N, linearEncode (fileText ls) = .ok W ∧ BWellFormed cs ∧ (∀ v, BUses cs v → 1 ≤ v ∧ v ≤ N) ∧
      (∀ c ∈ cs, c ≠ []) ∧ (P.NoDupLits → BNoDup cs) ∧ (BSatisfiable cs ↔ P.Satisfiable) ∧
      ∀ T, Prints W T → ∃ out, boolean2Finite T = .ok out ∧ readFile out = .ok (finProblem N cs).items := by
  have hD : ∀ v, 1 ≤ v → v ≤ P.numVars → 3 ≤ domOf P.doms v := by
    intro v h1 h2
    rw [domOf_eq h1 h2]
    exact h3 _ (dom_mem h1 h2)
  have hok : ∀ c ∈ P.clauses, ∀ l ∈ c, 1 ≤ l.var ∧ l.var ≤ P.numVars ∧ l.val < domOf P.doms l.var := by
    intro c hc l hl
    obtain ⟨o1, o2, o3⟩ := hw.lits_ok c hc l hl
    exact ⟨o1, o2, by rw [domOf_eq o1 o2]; exact o3⟩
  let cs := linCnf (domOf P.doms) P.numVars P.clauses
  have hsum := linTotal_sum h3
  have huses := linCnf_uses (cs := P.clauses) hD hok
  have hbs : ∀ c ∈ cs, ∀ x ∈ c, x ≠ 0 ∧ FileLine.Small x.natAbs := by
    intro c hc x hx
    have := (huses x.natAbs).1 ⟨c, hc, x, hx, rfl⟩
    exact ⟨by omega, by unfold FileLine.Small; omega⟩
  have hne : ∀ c ∈ cs, c ≠ [] := by
    intro c hc
    rcases List.mem_append.1 hc with hc | hc
    · obtain ⟨v, h1, h2, _, h4⟩ := mem_linExtras.1 hc
      exact (linExtra_sizes (hD v h1 h2) c h4).1
    · obtain ⟨c0, h0, rfl⟩ := List.mem_map.1 hc
      have := hw.nonempty c0 h0
      simpa using this
  have hcne : cs ≠ [] := by
    intro e
    have : P.clauses = [] := by
      have := (List.append_eq_nil_iff.1 e).2
      simpa using this
    exact hc this
  have hdup : P.NoDupLits → BNoDup cs := by
    intro hnd c hc
    rcases List.mem_append.1 hc with hc | hc
    · obtain ⟨v, h1, h2, _, h4⟩ := mem_linExtras.1 hc
      exact linExtra_nodup (linIdx_pos _ v h1) c h4
    · obtain ⟨c0, h0, rfl⟩ := List.mem_map.1 hc
      unfold List.Nodup
      rw [List.pairwise_map]
      refine List.Pairwise.imp_of_mem ?_ (hnd c0 h0)
      intro l l' hl hl' hne e
      obtain ⟨o1, o2, o3⟩ := hok c0 h0 l hl
      obtain ⟨o1', o2', o3'⟩ := hok c0 h0 l' hl'
      exact hne (linLitInt_inj o1 o1' (hD _ o1 o2) (hD _ o1' o2') o3 o3' e)
  have hsat : BSatisfiable cs ↔ P.Satisfiable := by
    rw [linCnf_sat (fun i _ => domOf_two hw.dom_two i) hok]
    · constructor
      · rintro ⟨a, h1, h2⟩
        exact ⟨a, fun v hv hv' => by rw [← domOf_eq hv hv']; exact h1 v hv hv', h2⟩
      · rintro ⟨a, h1, h2⟩
        exact ⟨a, fun v hv hv' => by rw [domOf_eq hv hv']; exact h1 v hv hv', h2⟩
    · intro c hc l hl _
      obtain ⟨o1, o2, _⟩ := hok c hc l hl
      have := (hD _ o1 o2)
      omega
  obtain ⟨nv, hnv⟩ : ∃ n : Nat, linVars P.numVars P.doms = n ∧ FileLine.Small n := by
    have : linVars P.numVars P.doms = 2 * (P.doms.sum : Int) - P.doms.length := by
      unfold linVars
      have e : ∀ ds : List Nat, (ds.map fun d : Nat => 2 * (d : Int) - 1).sum = 2 * (ds.sum : Int) - ds.length := by
        intro ds
        induction ds with
        | nil => rfl
        | cons d ds ih => simp only [List.map_cons, List.sum_cons, ih, List.length_cons]; omega
      have := e P.doms
      have : (P.numVars : Int) = P.doms.length := rfl
      omega
    refine ⟨linTotal (domOf P.doms) P.numVars, by omega, by unfold FileLine.Small; omega⟩
  obtain ⟨nc, hnc⟩ : ∃ n : Nat, linClauses P.clauses.length P.doms = n ∧ FileLine.Small n := by
    have e : ∀ ds : List Nat, (∀ d ∈ ds, 3 ≤ d) →
        0 ≤ (ds.map fun d : Nat => 4 * ((d : Int) - 2) + 3 + 1).sum ∧
        (ds.map fun d : Nat => 4 * ((d : Int) - 2) + 3 + 1).sum ≤ 4 * (ds.sum : Int) := by
      intro ds
      induction ds with
      | nil => intro _; simp
      | cons d ds ih =>
        intro hd
        have := ih fun x hx => hd x (List.mem_cons_of_mem _ hx)
        have h3 := hd d List.mem_cons_self
        simp only [List.map_cons, List.sum_cons]
        omega
    have := e P.doms h3
    unfold linClauses
    refine ⟨((P.doms.map fun d : Nat => 4 * ((d : Int) - 2) + 3 + 1).sum + P.clauses.length).toNat, by omega, ?_⟩
    unfold FileLine.Small
    omega
  refine ⟨_, cs, linTotal (domOf P.doms) P.numVars, linearEncode_text h hw hh hc, fun c hc x hx => (hbs c hc x hx).1,
    fun v hv => (huses v).1 hv, hne, hdup, hsat, fun T hT => ?_⟩
  rw [hnv.1, hnc.1] at hT
  obtain ⟨rs, r1, rfl, r3, r4⟩ := prints_lines hnv.2 hnc.2 hbs hT
  obtain ⟨out, e1, e2⟩ := b2f_read r1 (r4 hcne) (by rw [r3]; exact huses) fun c hc => by
    rw [r3] at hc
    exact hlen c hc
  rw [r3] at e2
  exact ⟨out, e1, e2⟩

/-- **C67**: `-linenc`, then `-b2f`, then any solver.  For a file whose variables have at least three values, the answer on
the result is right for the file, if no clause of the encoding gives a line too long for the solver.  Missing: two-valued
variables, for which the encoding is wrong (`C26_fails`); lines that are too long; files without clauses. -/
theorem C67_linenc_b2f_lines_partial {cfg : Cfg S} {algo : Algo} (hv : Selectable cfg algo) (hs : cfg.ScoreOK)
    {ls : List FileLine} {P : Problem} (h : Describes ls P) (hw : P.WellFormed) (hnd : cfg.watch = true → P.NoDupLits)
    (hh : HeaderFirst ls P.numVars P.clauses.length) (hc : P.clauses ≠ []) (h3 : ∀ d ∈ P.doms, 3 ≤ d)
    (hlen : ∀ c ∈ linCnf (domOf P.doms) P.numVars P.clauses, (openClauseText (finClause c)).length < 3000)
    (hsz : 4 * P.doms.sum + P.clauses.length ≤ 2147483647) :
    ∃ W, linearEncode (fileText ls) = .ok W ∧ ∀ T, Prints W T → ∃ out, boolean2Finite T = .ok out ∧
      (∀ fuel rep, solveFile cfg algo fuel out = .ok rep → Right P rep) ∧
      ((∀ k, cfg.late k = false) → P.NoDupLits →
        ∃ rep f0, (∀ fuel, f0 ≤ fuel → solveFile cfg algo fuel out = .ok rep) ∧
          (rep.answer = .SAT ↔ P.Satisfiable) ∧ (rep.answer = .UNSAT ↔ ¬ P.Satisfiable)) := by
  obtain ⟨W, cs, N, k1, h0, hu, hne, hdup, hsat, k2⟩ := linenc_b2f_items h hw hh hc h3 hlen hsz
  refine ⟨W, k1, fun T hT => ?_⟩
  obtain ⟨out, e1, e2⟩ := k2 T hT
  refine ⟨out, e1, fun fuel rep hr => ?_, fun hclock hnd' => ?_⟩
  · rw [solveFile_read cfg e2] at hr
    have := finProblem_decided hv hs h0 hu hne (fun w => hdup (hnd w)) hr
    exact ⟨fun h => hsat.1 (this.sat h), fun h h' => this.unsat h (hsat.2 h')⟩
  · obtain ⟨rep, f0, g1, g2, g3⟩ := every_decides hv hs hclock (finProblem_wellFormed hu hne)
      (finProblem_nodup h0 (hdup hnd'))
    have e3 := (finProblem_sat h0 hu).trans hsat
    exact ⟨rep, f0, fun fuel hf => by rw [solveFile_read cfg e2, g1 fuel hf], g2.trans e3, g3.trans (not_congr e3)⟩

/-- Lines of the encoding are short enough if no domain has more than 230 values and no clause more than 230 literals. -/
theorem linCnf_short {P : Problem} (hw : P.WellFormed) (h3 : ∀ d ∈ P.doms, 3 ≤ d ∧ d ≤ 230)
    (hlen : ∀ c ∈ P.clauses, c.length ≤ 230) (hsz : 4 * P.doms.sum + P.clauses.length ≤ 2147483647) :
    ∀ c ∈ linCnf (domOf P.doms) P.numVars P.clauses, (openClauseText (finClause c)).length < 3000 := by
  have hD : ∀ v, 1 ≤ v → v ≤ P.numVars → 3 ≤ domOf P.doms v ∧ domOf P.doms v ≤ 230 := by
    intro v h1 h2
    rw [domOf_eq h1 h2]
    exact h3 _ (dom_mem h1 h2)
  have hok : ∀ c ∈ P.clauses, ∀ l ∈ c, 1 ≤ l.var ∧ l.var ≤ P.numVars ∧ l.val < domOf P.doms l.var := by
    intro c hc l hl
    obtain ⟨o1, o2, o3⟩ := hw.lits_ok c hc l hl
    exact ⟨o1, o2, by rw [domOf_eq o1 o2]; exact o3⟩
  intro c hc
  have hsum := linTotal_sum fun d hd => (h3 d hd).1
  have hsm : ∀ x ∈ c, FileLine.Small x.natAbs := by
    intro x hx
    have := (linCnf_uses (cs := P.clauses) (fun v h1 h2 => (hD v h1 h2).1) hok x.natAbs).1 ⟨c, hc, x, hx, rfl⟩
    unfold FileLine.Small
    omega
  have h1 := openClause_length hsm
  have h2 : c.length ≤ 230 := by
    rcases List.mem_append.1 hc with hc | hc
    · obtain ⟨v, g1, g2, _, g4⟩ := mem_linExtras.1 hc
      have := linExtra_sizes (hD v g1 g2).1 c g4
      have := (hD v g1 g2).2
      omega
    · obtain ⟨c0, h0, rfl⟩ := List.mem_map.1 hc
      rw [List.length_map]; exact hlen c0 h0
  omega

/-- **C67**, in terms of the file: the lines are short enough if no domain has more than 230 values and no clause more than
230 literals. -/
theorem C67_linenc_b2f_solve_partial {cfg : Cfg S} {algo : Algo} (hv : Selectable cfg algo) (hs : cfg.ScoreOK)
    {ls : List FileLine} {P : Problem} (h : Describes ls P) (hw : P.WellFormed) (hnd : cfg.watch = true → P.NoDupLits)
    (hh : HeaderFirst ls P.numVars P.clauses.length) (hc : P.clauses ≠ []) (h3 : ∀ d ∈ P.doms, 3 ≤ d ∧ d ≤ 230)
    (hlen : ∀ c ∈ P.clauses, c.length ≤ 230) (hsz : 4 * P.doms.sum + P.clauses.length ≤ 2147483647) :
    ∃ W, linearEncode (fileText ls) = .ok W ∧ ∀ T, Prints W T → ∃ out, boolean2Finite T = .ok out ∧
      (∀ fuel rep, solveFile cfg algo fuel out = .ok rep → Right P rep) ∧
      ((∀ k, cfg.late k = false) → P.NoDupLits →
        ∃ rep f0, (∀ fuel, f0 ≤ fuel → solveFile cfg algo fuel out = .ok rep) ∧
          (rep.answer = .SAT ↔ P.Satisfiable) ∧ (rep.answer = .UNSAT ↔ ¬ P.Satisfiable)) :=
  C67_linenc_b2f_lines_partial hv hs h hw hnd hh hc (fun d hd => (h3 d hd).1) (linCnf_short hw h3 hlen hsz) hsz

/-- Two variables with three and four values. -/
def exPipe : Problem := ⟨[3, 4], [[⟨1, 0, true⟩, ⟨2, 3, false⟩], [⟨1, 0, false⟩]]⟩

example : Describes exPipe.file exPipe ∧ exPipe.WellFormed ∧ exPipe.NoDupLits ∧
    HeaderFirst exPipe.file exPipe.numVars exPipe.clauses.length ∧ exPipe.clauses ≠ [] ∧
    (∀ d ∈ exPipe.doms, 3 ≤ d ∧ d ≤ 230) ∧ (∀ c ∈ exPipe.clauses, c.length ≤ 230) ∧
    4 * exPipe.doms.sum + exPipe.clauses.length ≤ 2147483647 := by
  refine ⟨⟨by decide, by decide, ?_, by decide, by decide⟩, by decide, by decide, ?_, by decide, by decide, by decide, by decide⟩
  · simp [Problem.file, exPipe, DomainsFirst, fileDoms]
  · simp [Problem.file, exPipe, HeaderFirst, NoProblem, Problem.numVars]

/-- The hypothesis on the characters printed is met, for instance with one blank between words. -/
theorem exPrints (W : List (List (List Char))) (hd : List (List Char)) (hW : ∀ w ∈ W, ∀ x ∈ w, NoBlank x ∧ x ≠ [])
    (hl : ∀ w ∈ W, (w.flatMap fun x => x ++ [' ']).length < 3000) :
    Prints (hd :: W) ([' '].intercalate hd ++ '\n' :: W.flatMap fun w => (w.flatMap fun x => x ++ [' ']) ++ ['\n']) := by
  refine ⟨hd, W.map fun w => (w, w.flatMap fun x => x ++ [' ']), ?_, ?_, ?_⟩
  · rw [List.map_map]
    congr 1
    exact (List.map_id W).symm
  · rw [List.flatMap_map]
  · intro p hp
    obtain ⟨w, hw, rfl⟩ := List.mem_map.1 hp
    refine ⟨?_, ?_, hl w hw⟩
    · have := hW w hw
      clear hw hl hW hp
      induction w with
      | nil => rfl
      | cons x w ih =>
        have h1 := this x List.mem_cons_self
        simp only [List.flatMap_cons, List.append_assoc, List.cons_append, List.nil_append] at ih ⊢
        rw [words_cons h1.1 h1.2, ih fun y hy => this y (List.mem_cons_of_mem _ hy)]
    · intro ch hch
      obtain ⟨x, hx, hm⟩ := List.mem_flatMap.1 hch
      rcases List.mem_append.1 hm with hm | hm
      · exact .inr ⟨x, hx, hm⟩
      · exact .inl (List.mem_singleton.1 hm)

end Mvl
