import Verif.Model.RandomSat
import Verif.Props.Reading
import Verif.Props.QueensCnf

/-!
# The random formula scripts

C86: random_sat.py writes a formula of the size asked for, and can write every such formula.  C87: its file, converted by
`-b2f` (fails: `print` adds a blank line; without it, C66).  C88, C89: the same for
constant_probability.py.
-/

namespace Mvl

variable {S : Type}

/-! ## C86 -/

theorem randint_ok {r : Nat → Nat} {i : Nat} {n : Int} {p : Int × Nat} (h : randint r i n = .ok p) :
    1 ≤ p.1 ∧ p.1 ≤ n := by
  unfold randint at h
  split at h
  · cases h
  · cases h
    have h1 := Int.emod_nonneg (r i : Int) (b := n) (by omega)
    have h2 := Int.emod_lt_of_pos (r i : Int) (b := n) (by omega)
    show 1 ≤ 1 + (r i : Int) % n ∧ 1 + (r i : Int) % n ≤ n
    omega

theorem drawVars_ok {r : Nat → Nat} {n : Int} : ∀ {k i : Nat} {p : List Int × Nat}, drawVars r n k i = .ok p →
    p.1.length = k ∧ ∀ v ∈ p.1, 1 ≤ v ∧ v ≤ n
  | 0, i, p, h => by cases h; simp
  | k + 1, i, p, h => by
    unfold drawVars at h
    obtain ⟨⟨v, j⟩, h1, h⟩ := Res.bind_eq_ok.1 h
    obtain ⟨⟨vs, j'⟩, h2, h⟩ := Res.bind_eq_ok.1 h
    cases h
    obtain ⟨g1, g2⟩ := drawVars_ok h2
    refine ⟨by simp; exact g1, ?_⟩
    intro x hx
    rcases List.mem_cons.1 hx with rfl | hx
    · exact randint_ok h1
    · exact g2 x hx

theorem drawSigns_ok {r : Nat → Nat} : ∀ (vs : List Int) (i : Nat), (drawSigns r vs i).1.map Int.natAbs = vs.map Int.natAbs
  | [], _ => rfl
  | v :: vs, i => by
    unfold drawSigns
    simp only [List.map_cons, drawSigns_ok vs (i + 1)]
    split <;> simp

/-- A clause of `k` literals about the variables `1..n`. -/
def SizedClause (n : Int) (k : Nat) (c : List Int) : Prop :=
  c.length = k ∧ ∀ x ∈ c, 1 ≤ (x.natAbs : Int) ∧ (x.natAbs : Int) ≤ n

instance (n : Int) (k : Nat) (c : List Int) : Decidable (SizedClause n k c) := by unfold SizedClause; infer_instance

theorem satFormula_ok {r : Nat → Nat} {n : Int} {k : Nat} : ∀ {m i : Nat} {p : List (List Int) × Nat},
    satFormula r n k m i = .ok p → p.1.length = m ∧ ∀ c ∈ p.1, SizedClause n k c
  | 0, i, p, h => by cases h; simp
  | m + 1, i, p, h => by
    unfold satFormula at h
    obtain ⟨⟨vs, j⟩, h1, h⟩ := Res.bind_eq_ok.1 h
    obtain ⟨⟨cs, j'⟩, h2, h⟩ := Res.bind_eq_ok.1 h
    cases h
    obtain ⟨g1, g2⟩ := satFormula_ok h2
    obtain ⟨v1, v2⟩ := drawVars_ok h1
    have hs := drawSigns_ok (r := r) vs j
    refine ⟨by simp; exact g1, ?_⟩
    intro c hc
    rcases List.mem_cons.1 hc with rfl | hc
    · refine ⟨?_, ?_⟩
      · have := congrArg List.length hs
        simp at this
        rw [this]; exact v1
      · intro x hx
        have : x.natAbs ∈ vs.map Int.natAbs := by rw [← hs]; exact List.mem_map.2 ⟨x, hx, rfl⟩
        obtain ⟨v, hv, e⟩ := List.mem_map.1 this
        have := v2 v hv
        omega
    · exact g2 c hc

theorem satFormula_runs (r : Nat → Nat) {n : Int} (hn : 1 ≤ n) (k : Nat) : ∀ m i, ∃ p, satFormula r n k m i = .ok p := by
  have hv : ∀ k i, ∃ p, drawVars r n k i = .ok p := by
    intro k
    induction k with
    | zero => exact fun i => ⟨_, rfl⟩
    | succ k ih =>
      intro i
      obtain ⟨p, e⟩ := ih (i + 1)
      unfold drawVars randint
      rw [if_neg (by omega), Res.ok_bind]
      dsimp only
      rw [e]
      exact ⟨_, rfl⟩
  intro m
  induction m with
  | zero => exact fun i => ⟨_, rfl⟩
  | succ m ih =>
    intro i
    obtain ⟨⟨vs, j⟩, e⟩ := hv k i
    obtain ⟨p, e2⟩ := ih (drawSigns r vs j).2
    unfold satFormula
    rw [e, Res.ok_bind]
    dsimp only
    rw [e2]
    exact ⟨_, rfl⟩

theorem joinInts_eq : ∀ {c : List Int}, c ≠ [] → joinInts c ++ [' '] = c.flatMap fun x => intText x ++ [' ']
  | [], h => absurd rfl h
  | [x], _ => by simp [joinInts]
  | x :: y :: c, _ => by
    have := joinInts_eq (c := y :: c) (by simp)
    rw [List.flatMap_cons, ← this]
    simp [joinInts]

/-- The file of a formula without empty clauses, with its problem line. -/
theorem pyDimacs_eq {n m : Nat} {cs : List (List Int)} (h : ∀ c ∈ cs, c ≠ []) :
    pyDimacs n m cs = bFileText (.problem n m :: cs.map .clause) := by
  have : cs.flatMap (fun c => joinInts c ++ " 0\n".toList) = bFileText (cs.map .clause) := by
    unfold bFileText
    rw [List.flatMap_map]
    induction cs with
    | nil => rfl
    | cons c cs ih =>
      rw [List.flatMap_cons, List.flatMap_cons, ih fun d hd => h d (List.mem_cons_of_mem _ hd)]
      congr 1
      have := joinInts_eq (h c List.mem_cons_self)
      simp only [BLine.text, ← this]
      simp
  unfold pyDimacs
  rw [this]
  simp [bFileText, BLine.text, intText_nat]

theorem bClauses_clauses (n m : Nat) (cs : List (List Int)) : bClauses (.problem n m :: cs.map .clause) = cs := by
  unfold bClauses
  rw [List.filterMap_cons]
  simp [List.filterMap_map, Function.comp_def]

/-- **C86.** Whatever the random numbers, for at least one variable and clause length the file is the DIMACS file of a
formula with as many clauses as its problem line says, each of the length asked for, about the variables announced. -/
theorem C86_random_formula (r : Nat → Nat) {n m k : Nat} (hn : 1 ≤ n) (hk : 1 ≤ k) :
    ∃ cs : List (List Int), randomDimacs r n m k = .ok (bFileText (.problem n m :: cs.map .clause)) ∧ cs.length = m ∧
      ∀ c ∈ cs, SizedClause n k c := by
  obtain ⟨⟨cs, j⟩, e⟩ := satFormula_runs r (n := n) (by omega) k m 0
  obtain ⟨h1, h2⟩ := satFormula_ok e
  refine ⟨cs, ?_, h1, h2⟩
  unfold randomDimacs
  rw [show ((m : Int).toNat) = m by omega, e, Res.ok_bind]
  dsimp only
  rw [pyDimacs_eq]
  intro c hc h0
  have := (h2 c hc).1
  rw [h0] at this
  simp at this
  omega

/-- The numbers drawn for a formula. -/
def drawsFor (c : List Int) : List Nat := c.map (fun x => x.natAbs - 1) ++ c.map fun x => if x < 0 then 0 else 1

/-- The stream gives these numbers from call `i` on. -/
def Gives (r : Nat → Nat) (i : Nat) (l : List Nat) : Prop := ∀ j, (h : j < l.length) → r (i + j) = l[j]

theorem Gives.cons {r : Nat → Nat} {i a : Nat} {l : List Nat} (h : Gives r i (a :: l)) : r i = a ∧ Gives r (i + 1) l := by
  refine ⟨h 0 (by simp), fun j hj => ?_⟩
  have := h (j + 1) (by simp; omega)
  rw [show i + 1 + j = i + (j + 1) by omega, this]
  rfl

theorem Gives.append {r : Nat → Nat} {i : Nat} {l m : List Nat} (h : Gives r i (l ++ m)) :
    Gives r i l ∧ Gives r (i + l.length) m := by
  refine ⟨fun j hj => ?_, fun j hj => ?_⟩
  · rw [h j (by simp; omega), List.getElem_append_left hj]
  · rw [Nat.add_assoc, h (l.length + j) (by simp; omega), List.getElem_append_right (by omega)]
    simp

theorem drawVars_gives {r : Nat → Nat} {n : Int} : ∀ (c : List Int) (i : Nat),
    (∀ x ∈ c, 1 ≤ (x.natAbs : Int) ∧ (x.natAbs : Int) ≤ n) → Gives r i (c.map fun x => x.natAbs - 1) →
    drawVars r n c.length i = .ok (c.map fun x => (x.natAbs : Int), i + c.length)
  | [], i, _, _ => rfl
  | x :: c, i, hc, h => by
    obtain ⟨h1, h2⟩ := h.cons
    have hx := hc x List.mem_cons_self
    have ih := drawVars_gives c (i + 1) (fun y hy => hc y (List.mem_cons_of_mem _ hy)) h2
    have e : 1 + Int.emod (r i) n = x.natAbs := by
      rw [h1]
      show 1 + ((x.natAbs - 1 : Nat) : Int) % n = _
      rw [Int.emod_eq_of_lt (by omega) (by omega)]
      omega
    rw [List.length_cons]
    unfold drawVars randint
    rw [if_neg (by omega), Res.ok_bind]
    dsimp only
    rw [ih, Res.ok_bind, e, show i + (c.length + 1) = i + 1 + c.length by omega]
    rfl

theorem drawSigns_gives {r : Nat → Nat} : ∀ (c : List Int) (i : Nat), (∀ x ∈ c, x ≠ 0) →
    Gives r i (c.map fun x => if x < 0 then 0 else 1) →
    drawSigns r (c.map fun x => (x.natAbs : Int)) i = (c, i + c.length)
  | [], i, _, _ => rfl
  | x :: c, i, hc, h => by
    obtain ⟨h1, h2⟩ := h.cons
    have ih := drawSigns_gives c (i + 1) (fun y hy => hc y (List.mem_cons_of_mem _ hy)) h2
    have hx := hc x List.mem_cons_self
    have h1 : r i = if x < 0 then 0 else 1 := h1
    rw [List.map_cons]
    unfold drawSigns
    rw [ih, h1]
    by_cases hlt : x < 0
    · rw [if_pos hlt, if_pos (by rfl)]
      simp only [List.length_cons, Prod.mk.injEq, List.cons.injEq, and_true]
      omega
    · rw [if_neg hlt, if_neg (by decide)]
      simp only [List.length_cons, Prod.mk.injEq, List.cons.injEq, and_true]
      omega

theorem satFormula_gives {r : Nat → Nat} {n : Int} {k : Nat} : ∀ (cs : List (List Int)) (i : Nat),
    (∀ c ∈ cs, SizedClause n k c) → Gives r i (cs.flatMap drawsFor) → ∃ j, satFormula r n k cs.length i = .ok (cs, j)
  | [], i, _, _ => ⟨i, rfl⟩
  | c :: cs, i, hc, h => by
    rw [List.flatMap_cons] at h
    obtain ⟨h1, h2⟩ := h.append
    obtain ⟨h3, h4⟩ := Gives.append (l := c.map fun x => x.natAbs - 1) h1
    have hcc := hc c List.mem_cons_self
    have e1 := drawVars_gives c i hcc.2 h3
    rw [List.length_map] at h4
    have e2 := drawSigns_gives c (i + c.length) (fun x hx => by have := (hcc.2 x hx).1; omega) h4
    have hl : i + (drawsFor c).length = i + c.length + c.length := by simp [drawsFor]; omega
    rw [hl] at h2
    obtain ⟨j, ih⟩ := satFormula_gives cs _ (fun d hd => hc d (List.mem_cons_of_mem _ hd)) h2
    refine ⟨j, ?_⟩
    rw [List.length_cons]
    unfold satFormula
    rw [← hcc.1, e1, Res.ok_bind]
    dsimp only
    rw [e2]
    dsimp only
    rw [← hcc.1] at ih
    rw [ih, Res.ok_bind]

/-- **C86**, conversely: every formula of the size asked for is written for some random numbers. -/
theorem C86_random_all {n m k : Nat} (hk : 1 ≤ k) {cs : List (List Int)} (hm : cs.length = m)
    (hc : ∀ c ∈ cs, SizedClause n k c) :
    ∃ r, randomDimacs r n m k = .ok (bFileText (.problem n m :: cs.map .clause)) := by
  let L := cs.flatMap drawsFor
  obtain ⟨j, e⟩ := satFormula_gives (r := fun i => L.getD i 0) cs 0 hc (fun j hj => by
    show L.getD (0 + j) 0 = _
    rw [Nat.zero_add, List.getD_eq_getElem?_getD, List.getElem?_eq_getElem hj]
    rfl)
  refine ⟨fun i => L.getD i 0, ?_⟩
  unfold randomDimacs
  rw [show ((m : Int).toNat) = cs.length by omega, e, Res.ok_bind]
  dsimp only
  rw [pyDimacs_eq]
  intro c hc' h0
  have := (hc c hc').1
  rw [h0] at this
  simp at this
  omega

example : (∀ c ∈ [[3, -1, 3], [2, -2, 1]], SizedClause 3 3 c) ∧
    randomDimacs (fun i => [2, 0, 2, 1, 0, 1, 1, 1, 0, 1, 0, 1].getD i 0) 3 2 3 =
      .ok "p cnf 3 2\n3 -1 3 0\n2 -2 1 0\n".toList := by decide +kernel

/-! ## C87 -/

/-- A file with an empty clause, converted by `-b2f`: either the variables are not `1..N` and no solver reaches its
search, or an empty clause is in the formula.  The bit-vector solver and `-wl` never get to an answer, the others report
their own model as incorrect after SAT. -/
theorem b2f_empty {ls : List RLine} (h : ∀ l ∈ ls, l.Ok) (hz : ∃ l ∈ ls, l.ended = true)
    (hs : ∀ c ∈ rClauses ls, (openClauseText (finClause c)).length < 3000) (he : [] ∈ rClauses ls) :
    ∃ out, boolean2Finite (rText ls) = .ok out ∧
      (∀ (S : Type) (cfg : Cfg S) (algo : Algo) (fuel : Nat), (cfg.watch = true → solveFile cfg algo fuel out = .ub) ∧
        ∀ rep, solveFile cfg algo fuel out = .ok rep → rep.answer = .SAT → rep.verified = some false) ∧
      (∀ (S : Type) (cfg : BV.BCfg S) (fuel : Nat), BV.bsolveFile cfg fuel out = .ub) := by
  obtain ⟨out, used, e, _, _, h3⟩ := b2f_read_used h hz hs
  have hc : [] ∈ (finProblem used.length (rClauses ls)).clauses := List.mem_map.2 ⟨[], he, rfl⟩
  have hi : Item.clause [] ∈ (finProblem used.length (rClauses ls)).items :=
    List.mem_append_right _ (List.mem_map.2 ⟨[], hc, rfl⟩)
  refine ⟨out, e, fun S cfg algo fuel => ⟨fun hw => (C85_reading h3 cfg).2 (fun hL => ?_) algo fuel, fun rep hr hans =>
    C20_flagged_partial h3 hi hr hans⟩, fun S cfg fuel => (BV.C85_bitvec_reading h3 cfg).2 (fun hL => ?_) fuel⟩
  · exact (lines_items.1 hL _ hc).2 hw rfl
  · exact (lines_items.1 hL.2 _ hc).1 rfl

/-- The lines of the printed file: the last one is blank. -/
def printedLines (n m : Nat) (cs : List (List Int)) : List RLine :=
  (.problem n m :: cs.map .clause : List BLine).map BLine.toR ++ [.ints [] false []]

theorem printed_text (n m : Nat) (cs : List (List Int)) :
    rText (printedLines n m cs) = bFileText (.problem n m :: cs.map .clause) ++ ['\n'] := by
  rw [← toR_text]
  unfold printedLines rText
  rw [List.flatMap_append]
  rfl

theorem printed_clauses (n m : Nat) (cs : List (List Int)) : rClauses (printedLines n m cs) = cs ++ [[]] := by
  unfold printedLines
  have := toR_clauses (.problem n m :: cs.map .clause)
  rw [bClauses_clauses] at this
  unfold rClauses at this ⊢
  rw [List.filterMap_append, this]
  rfl

/-- The lines of a formula about the variables `1..n`. -/
theorem sized_lines {n m k : Nat} {cs : List (List Int)} (hn : FileLine.Small n) (hm : FileLine.Small m) (hk : k ≤ 230)
    (hc : ∀ c ∈ cs, SizedClause n k c) : ∀ l ∈ (.problem n m :: cs.map .clause : List BLine), l.Ok := by
  intro l hl
  rcases List.mem_cons.1 hl with rfl | hl
  · refine ⟨?_, hn, hm⟩
    have := natText_length_small hn
    have := natText_length_small hm
    simp [BLine.text]
    omega
  · obtain ⟨c, hc', rfl⟩ := List.mem_map.1 hl
    obtain ⟨h1, h2⟩ := hc c hc'
    have hsm : ∀ x ∈ c, x ≠ 0 ∧ FileLine.Small x.natAbs := by
      intro x hx
      have := h2 x hx
      unfold FileLine.Small at hn ⊢
      omega
    refine ⟨?_, hsm⟩
    have := intLine_length fun x hx => (hsm x hx).2
    simp only [BLine.text, List.length_append, List.length_cons, List.length_nil]
    omega

theorem sized_open {n k : Nat} {c : List Int} (hn : FileLine.Small n) (hk : k ≤ 230) (hc : SizedClause n k c) :
    (openClauseText (finClause c)).length < 3000 := by
  have := openClause_length (c := c) fun x hx => by
    have := hc.2 x hx
    unfold FileLine.Small at hn ⊢
    omega
  have := hc.1
  omega

/-- **C87 does not hold** (the full claim: the printed file, converted by `-b2f`, is answered correctly), whatever the
random numbers and for every number of variables and clauses but 0: `print` adds a blank line, which becomes an empty
clause.  No answer with `-wl` or from the bit-vector solver; otherwise SAT is reported together with an incorrect model. -/
theorem C87_printed_fails (r : Nat → Nat) {n m : Nat} (hn : 1 ≤ n) (hm : 1 ≤ m) (sn : FileLine.Small n)
    (sm : FileLine.Small m) :
    ∃ t out, randomSatMain r n m = .ok t ∧ boolean2Finite t = .ok out ∧
      (∀ (S : Type) (cfg : Cfg S) (algo : Algo) (fuel : Nat), (cfg.watch = true → solveFile cfg algo fuel out = .ub) ∧
        ∀ rep, solveFile cfg algo fuel out = .ok rep → rep.answer = .SAT → rep.verified = some false) ∧
      (∀ (S : Type) (cfg : BV.BCfg S) (fuel : Nat), BV.bsolveFile cfg fuel out = .ub) := by
  obtain ⟨cs, e, h1, h2⟩ := C86_random_formula r (m := m) hn (k := 3) (by omega)
  have hl := sized_lines sn sm (by omega) h2
  have key := b2f_empty (ls := printedLines n m cs) ?_ ?_ ?_ ?_
  · obtain ⟨out, g1, g2, g3⟩ := key
    refine ⟨_, out, ?_, g1, g2, g3⟩
    unfold randomSatMain
    rw [e, Res.ok_bind, printed_text]
  · intro l hl'
    rcases List.mem_append.1 hl' with hl' | hl'
    · obtain ⟨b, hb, rfl⟩ := List.mem_map.1 hl'
      exact toR_ok (hl b hb)
    · rw [List.mem_singleton] at hl'
      subst hl'
      exact ⟨by decide, by decide, rfl, by simp⟩
  · cases cs with
    | nil => simp at h1; omega
    | cons c cs =>
      exact ⟨BLine.toR (.clause c), List.mem_append_left _ (List.mem_map.2 ⟨.clause c, by simp, rfl⟩), rfl⟩
  · intro c hc
    rw [printed_clauses] at hc
    rcases List.mem_append.1 hc with hc | hc
    · exact sized_open sn (by omega) (h2 c hc)
    · rw [List.mem_singleton] at hc; subst hc; decide
  · rw [printed_clauses]; simp

/-- **C87**, the text of `dimacs`, without the blank line (the part that holds, if the formula uses the variables `1..N`;
otherwise `C31_gap_fails`): every solver's answer on the converted file is right for the formula drawn.  Missing: repeated
literals with `-wl`. -/
theorem C87_dimacs_partial {cfg : Cfg S} {algo : Algo} (hv : Selectable cfg algo) (hs : cfg.ScoreOK) (r : Nat → Nat)
    {n m k : Nat} (hn : 1 ≤ n) (hm : 1 ≤ m) (hk : 1 ≤ k) (hk' : k ≤ 230) (sn : FileLine.Small n) (sm : FileLine.Small m) :
    ∃ t cs, randomDimacs r n m k = .ok t ∧ t = bFileText (.problem n m :: cs.map .clause) ∧ cs.length = m ∧
      ((∃ N, ∀ v, BUses cs v ↔ 1 ≤ v ∧ v ≤ N) → (cfg.watch = true → BNoDup cs) → ∃ out, boolean2Finite t = .ok out ∧
        ∀ fuel rep, solveFile cfg algo fuel out = .ok rep → Decided cs (cfg.heur == .lazy) rep) := by
  obtain ⟨cs, e, h1, h2⟩ := C86_random_formula r (m := m) hn hk
  have hl := sized_lines sn sm hk' h2
  refine ⟨_, cs, e, rfl, h1, ?_⟩
  rintro ⟨N, hN⟩ hnd
  have hb := bClauses_clauses n m cs
  have := C66_b2f_solve_partial hv hs (ls := .problem n m :: cs.map .clause) hl (N := N) (by rw [hb]; exact hN)
    (by rw [hb]; rintro rfl; simp at h1; omega) (by
      rw [hb]
      intro c hc
      refine ⟨?_, sized_open sn hk' (h2 c hc)⟩
      rintro rfl
      have := (h2 _ hc).1
      simp at this
      omega) (by rw [hb]; exact hnd)
  rw [hb] at this
  exact this

example : (∃ N, ∀ v, BUses [[3, -1, 3], [2, -2, 1]] v ↔ 1 ≤ v ∧ v ≤ N) ∧ ¬ BNoDup [[3, -1, 3], [2, -2, 1]] := by
  refine ⟨⟨3, fun v => ⟨?_, ?_⟩⟩, by unfold BNoDup; decide⟩
  · rintro ⟨c, hc, x, hx, rfl⟩
    revert x
    revert c
    decide
  · rintro ⟨h1, h2⟩
    have : v = 1 ∨ v = 2 ∨ v = 3 := by omega
    rcases this with rfl | rfl | rfl
    · exact ⟨[2, -2, 1], by simp, 1, by simp, rfl⟩
    · exact ⟨[2, -2, 1], by simp, 2, by simp, rfl⟩
    · exact ⟨[3, -1, 3], by simp, 3, by simp, rfl⟩

/-! ## C88 -/

/-- A clause that names its variables in increasing order, from `a` on and below `b`. -/
def Increasing (a b : Nat) (c : List Int) : Prop :=
  (c.map Int.natAbs).Pairwise (· < ·) ∧ ∀ x ∈ c, a ≤ x.natAbs ∧ x.natAbs < b

theorem coinClause_ok {r : Nat → Nat} : ∀ {k v i : Nat}, 1 ≤ v → Increasing v (v + k) (coinClause r k v i).1
  | 0, _, _, _ => ⟨by simp [coinClause], by simp [coinClause]⟩
  | k + 1, v, i, hv => by
    unfold coinClause
    split
    · obtain ⟨h1, h2⟩ := coinClause_ok (r := r) (k := k) (v := v + 1) (i := i + 2) (by omega)
      have e : (if 1 + Int.emod (r (i + 1)) 2 = 1 then -(v : Int) else v).natAbs = v := by split <;> simp
      refine ⟨?_, ?_⟩
      · rw [List.map_cons, List.pairwise_cons]
        refine ⟨fun w hw => ?_, h1⟩
        obtain ⟨x, hx, rfl⟩ := List.mem_map.1 hw
        have := (h2 x hx).1
        rw [e]; omega
      · intro x hx
        rcases List.mem_cons.1 hx with rfl | hx
        · rw [e]; omega
        · have := h2 x hx
          omega
    · obtain ⟨h1, h2⟩ := coinClause_ok (r := r) (k := k) (v := v + 1) (i := i + 1) (by omega)
      exact ⟨h1, fun x hx => by have := h2 x hx; omega⟩

theorem coinFormula_ok {r : Nat → Nat} {n : Nat} : ∀ {m i : Nat}, (coinFormula r n m i).1.length = m ∧
    ∀ c ∈ (coinFormula r n m i).1, Increasing 1 (n + 1) c
  | 0, _ => by simp [coinFormula]
  | m + 1, i => by
    obtain ⟨h1, h2⟩ := coinFormula_ok (r := r) (n := n) (m := m) (i := (coinClause r n 1 i).2)
    unfold coinFormula
    refine ⟨by simp; exact h1, fun c hc => ?_⟩
    rcases List.mem_cons.1 hc with rfl | hc
    · have := coinClause_ok (r := r) (k := n) (v := 1) (i := i) (by omega)
      rw [Nat.add_comm] at this
      exact this
    · exact h2 c hc

theorem foldl_insert (f : List Int) (vs : List Nat) :
    f.foldl (fun vs x => setInsert x.natAbs vs) vs = insertAll vs (f.map Int.natAbs) := by
  induction f generalizing vs with
  | nil => rfl
  | cons x f ih => exact ih _

/-- **C88.** Whatever the random numbers, the text is a problem line with the two numbers and as many clause lines as it
says; no clause names a variable twice, nor one beyond those announced; the number given back with it is the number of
variables that occur. -/
theorem C88_coin_formula (r : Nat → Nat) {n m : Nat} (hm : 1 ≤ m) :
    ∃ (cs : List (List Int)) (used : List Nat), coinDimacs r n m = .ok (pyDimacs n m cs, used.length) ∧ cs.length = m ∧
      (∀ c ∈ cs, Increasing 1 (n + 1) c) ∧ used.Nodup ∧ ∀ v, v ∈ used ↔ BUses cs v := by
  obtain ⟨h1, h2⟩ := coinFormula_ok (r := r) (n := n) (m := m) (i := 0)
  refine ⟨(coinFormula r n m 0).1, insertAll [] ((coinFormula r n m 0).1.flatten.map Int.natAbs), ?_, h1, h2, ?_, ?_⟩
  · unfold coinDimacs randomFormula
    dsimp only
    rw [if_neg (by omega), Res.ok_bind]
    dsimp only
    rw [foldl_insert]
    rfl
  · exact (insertAll_sorted List.Pairwise.nil).imp Nat.ne_of_lt
  · intro v
    rw [mem_insertAll]
    simp only [List.not_mem_nil, false_or, List.mem_map, List.mem_flatten, BUses]
    constructor
    · rintro ⟨x, ⟨c, hc, hx⟩, rfl⟩; exact ⟨c, hc, x, hx, rfl⟩
    · rintro ⟨c, hc, x, hx, rfl⟩; exact ⟨x, ⟨c, hc, hx⟩, rfl⟩

/-- The numbers drawn for a clause. -/
def coinsFor : Nat → Nat → List Int → List Nat
  | 0, _, _ => []
  | k + 1, v, [] => 1 :: coinsFor k (v + 1) []
  | k + 1, v, x :: c => if x.natAbs = v then 0 :: (if x < 0 then 0 else 1) :: coinsFor k (v + 1) c
      else 1 :: coinsFor k (v + 1) (x :: c)

theorem coinClause_gives {r : Nat → Nat} : ∀ (k v i : Nat) (c : List Int), 1 ≤ v → Increasing v (v + k) c →
    Gives r i (coinsFor k v c) → coinClause r k v i = (c, i + (coinsFor k v c).length)
  | 0, v, i, c, _, hc, _ => by
    cases c with
    | nil => rfl
    | cons x c => have := hc.2 x List.mem_cons_self; omega
  | k + 1, v, i, [], hv, hc, h => by
    unfold coinsFor at h
    obtain ⟨h1, h2⟩ := h.cons
    have ih := coinClause_gives k (v + 1) (i + 1) [] (by omega) ⟨by simp, by simp⟩ h2
    unfold coinClause coinsFor
    rw [h1, if_neg (by decide), ih, List.length_cons]
    congr 1
    omega
  | k + 1, v, i, x :: c, hv, hc, h => by
    obtain ⟨p1, p2⟩ := hc
    rw [List.map_cons, List.pairwise_cons] at p1
    by_cases hx : x.natAbs = v
    · unfold coinsFor at h
      rw [if_pos hx] at h
      obtain ⟨h1, h2⟩ := h.cons
      obtain ⟨h2, h3⟩ := h2.cons
      have ih := coinClause_gives k (v + 1) (i + 2) c (by omega) ⟨p1.2, fun y hy => by
        have g1 := p1.1 _ (List.mem_map.2 ⟨y, hy, rfl⟩)
        have g2 := p2 y (List.mem_cons_of_mem _ hy)
        omega⟩ h3
      unfold coinClause coinsFor
      rw [if_pos hx, h1, if_pos (by rfl), h2, ih, List.length_cons, List.length_cons]
      by_cases hlt : x < 0
      · rw [if_pos hlt, if_pos (by rfl)]
        simp only [Prod.mk.injEq, List.cons.injEq, and_true]
        omega
      · rw [if_neg hlt, if_neg (by decide)]
        simp only [Prod.mk.injEq, List.cons.injEq, and_true]
        omega
    · unfold coinsFor at h
      rw [if_neg hx] at h
      obtain ⟨h1, h2⟩ := h.cons
      have hx' := p2 x List.mem_cons_self
      have ih := coinClause_gives k (v + 1) (i + 1) (x :: c) (by omega) ⟨by
        rw [List.map_cons, List.pairwise_cons]; exact p1, fun y hy => by
        have g2 := p2 y hy
        rcases List.mem_cons.1 hy with rfl | hy
        · omega
        · have g1 := p1.1 _ (List.mem_map.2 ⟨y, hy, rfl⟩)
          omega⟩ h2
      unfold coinClause coinsFor
      rw [if_neg hx, h1, if_neg (by decide), ih, List.length_cons]
      congr 1
      omega

theorem coinFormula_gives {r : Nat → Nat} {n : Nat} : ∀ (cs : List (List Int)) (i : Nat),
    (∀ c ∈ cs, Increasing 1 (n + 1) c) → Gives r i (cs.flatMap (coinsFor n 1)) → (coinFormula r n cs.length i).1 = cs
  | [], _, _, _ => rfl
  | c :: cs, i, hc, h => by
    rw [List.flatMap_cons] at h
    obtain ⟨h1, h2⟩ := h.append
    have e := coinClause_gives n 1 i c (by omega) (by rw [Nat.add_comm]; exact hc c List.mem_cons_self) h1
    rw [List.length_cons]
    unfold coinFormula
    dsimp only
    rw [e]
    dsimp only
    rw [coinFormula_gives cs _ (fun d hd => hc d (List.mem_cons_of_mem _ hd)) h2]

/-- **C88**, conversely: every such formula is written for some random numbers. -/
theorem C88_coin_all {n m : Nat} (hm : 1 ≤ m) {cs : List (List Int)} (hl : cs.length = m)
    (hc : ∀ c ∈ cs, Increasing 1 (n + 1) c) : ∃ r k, coinDimacs r n m = .ok (pyDimacs n m cs, k) := by
  let L := cs.flatMap (coinsFor n 1)
  have e := coinFormula_gives (r := fun i => L.getD i 0) cs 0 hc (fun j hj => by
    show L.getD (0 + j) 0 = _
    rw [Nat.zero_add, List.getD_eq_getElem?_getD, List.getElem?_eq_getElem hj]
    rfl)
  refine ⟨fun i => L.getD i 0, (cs.flatten.foldl (fun vs x => setInsert x.natAbs vs) []).length, ?_⟩
  unfold coinDimacs randomFormula
  dsimp only
  rw [show (m : Int).toNat = cs.length by omega, show (n : Int).toNat = n by omega, e, if_neg (by omega), Res.ok_bind]

/-- The lines of the text. -/
def coinLines (n m : Nat) (cs : List (List Int)) : List RLine :=
  .head (.problem n m) :: cs.map fun c => .ints c true (joinInts c ++ [' ', '0'])

theorem coin_text (n m : Nat) (cs : List (List Int)) : pyDimacs n m cs = rText (coinLines n m cs) := by
  unfold pyDimacs coinLines rText
  rw [List.flatMap_cons, List.flatMap_map]
  simp [RLine.text, BLine.text, intText_nat]

theorem coin_clauses (n m : Nat) (cs : List (List Int)) : rClauses (coinLines n m cs) = cs := by
  unfold coinLines
  rw [rClauses_head]
  induction cs with
  | nil => rfl
  | cons c cs ih => rw [List.map_cons, rClauses_ints, ih]

theorem join_words (c : List Int) : words (joinInts c ++ [' ', '0']) = c.map intText ++ [['0']] := by
  cases c with
  | nil => decide
  | cons x c =>
    have := joinInts_eq (c := x :: c) (by simp)
    rw [← words_ints, ← this]
    simp

theorem join_sub {c : List Int} {ch : Char} (h : ch ∈ joinInts c) : ch ∈ c.flatMap fun x => intText x ++ [' '] := by
  cases c with
  | nil => cases h
  | cons x c =>
    rw [← joinInts_eq (c := x :: c) (by simp)]
    exact List.mem_append_left _ h

theorem join_length (c : List Int) : (joinInts c).length ≤ (c.flatMap fun x => intText x ++ [' ']).length := by
  cases c with
  | nil => simp [joinInts]
  | cons x c =>
    rw [← joinInts_eq (c := x :: c) (by simp)]
    simp

theorem increasing_length {n : Nat} {c : List Int} (h : Increasing 1 (n + 1) c) : c.length ≤ n := by
  have key : ∀ (l : List Nat) (a b : Nat), l.Pairwise (· < ·) → (∀ x ∈ l, a ≤ x ∧ x < b) → l.length ≤ b - a := by
    intro l
    induction l with
    | nil => intros; simp
    | cons x l ih =>
      intro a b hp hb
      rw [List.pairwise_cons] at hp
      have hx := hb x List.mem_cons_self
      have := ih (x + 1) b hp.2 fun y hy => ⟨hp.1 y hy, (hb y (List.mem_cons_of_mem _ hy)).2⟩
      rw [List.length_cons]
      omega
  have := key _ 1 (n + 1) h.1 fun x hx => by
    obtain ⟨y, hy, rfl⟩ := List.mem_map.1 hx
    exact h.2 y hy
  rw [List.length_map] at this
  omega

theorem increasing_nodup {a b : Nat} {c : List Int} (h : Increasing a b c) : c.Nodup := by
  have := List.pairwise_map.1 h.1
  exact this.imp fun h e => by rw [e] at h; omega

theorem coin_ok {n m : Nat} {cs : List (List Int)} (hn : n ≤ 230) (hm : FileLine.Small m)
    (hc : ∀ c ∈ cs, Increasing 1 (n + 1) c) : ∀ l ∈ coinLines n m cs, l.Ok := by
  have sn : FileLine.Small n := by unfold FileLine.Small; omega
  intro l hl
  rcases List.mem_cons.1 hl with rfl | hl
  · have hl : (BLine.text (.problem n m)).length < 3000 := by
      have := natText_length_small sn
      have := natText_length_small hm
      simp [BLine.text]
      omega
    exact ⟨hl, ⟨hl, sn, hm⟩, fun c e => by cases e⟩
  · obtain ⟨c, hc', rfl⟩ := List.mem_map.1 hl
    have hi := hc c hc'
    have hsm : ∀ x ∈ c, x ≠ 0 ∧ FileLine.Small x.natAbs := by
      intro x hx
      have := hi.2 x hx
      unfold FileLine.Small at sn ⊢
      omega
    refine ⟨?_, ?_, join_words c, hsm⟩
    · have := intLine_length fun x hx => (hsm x hx).2
      have := join_length c
      have := increasing_length hi
      simp only [RLine.text, List.length_append, List.length_cons, List.length_nil]
      omega
    · intro ch hch
      rcases List.mem_append.1 hch with hch | hch
      · obtain ⟨x, _, hch⟩ := List.mem_flatMap.1 (join_sub hch)
        rcases List.mem_append.1 hch with hch | hch
        · exact intText_numeric x ch hch
        · exact .inr (.inr (List.mem_singleton.1 hch))
      · simp only [List.mem_cons, List.not_mem_nil, or_false] at hch
        rcases hch with rfl | rfl
        · exact .inr (.inr rfl)
        · exact .inl (by decide)

/-- **C89**, the file converted by `-b2f`: if no clause is empty and the variables that occur are `1..N`, every solver's
answer is right for the formula, and without a time limit there is one. -/
theorem C89_coin_solve_partial {cfg : Cfg S} {algo : Algo} (hv : Selectable cfg algo) (hs : cfg.ScoreOK)
    {n m : Nat} {cs : List (List Int)} (hn : n ≤ 230) (hm : FileLine.Small m) (h1 : cs ≠ [])
    (hc : ∀ c ∈ cs, Increasing 1 (n + 1) c) (hne : ∀ c ∈ cs, c ≠ []) {N : Nat} (hN : ∀ v, BUses cs v ↔ 1 ≤ v ∧ v ≤ N) :
    ∃ out, boolean2Finite (pyDimacs n m cs) = .ok out ∧
      (∀ fuel rep, solveFile cfg algo fuel out = .ok rep → Decided cs (cfg.heur == .lazy) rep) ∧
      ((∀ k, cfg.late k = false) → ∃ rep f0, (∀ fuel, f0 ≤ fuel → solveFile cfg algo fuel out = .ok rep) ∧
        (rep.answer = .SAT ↔ BSatisfiable cs) ∧ (rep.answer = .UNSAT ↔ ¬ BSatisfiable cs)) := by
  have hl := coin_ok hn hm hc
  have hb : bClauses (.problem n m :: cs.map .clause) = cs := bClauses_clauses n m cs
  have hBL : ∀ l ∈ (.problem n m :: cs.map .clause : List BLine), l.Ok := by
    intro l hl'
    rcases List.mem_cons.1 hl' with rfl | hl'
    · exact (hl _ List.mem_cons_self).2.1
    · obtain ⟨c, hc', rfl⟩ := List.mem_map.1 hl'
      have := hl _ (List.mem_cons_of_mem _ (List.mem_map.2 ⟨c, hc', rfl⟩))
      refine ⟨?_, this.2.2.2⟩
      have h3 := this.1
      have e := joinInts_eq (hne c hc')
      simp only [RLine.text] at h3
      simp only [BLine.text, ← e]
      simp at h3 ⊢
      omega
  have hopen : ∀ c ∈ cs, c ≠ [] ∧ (openClauseText (finClause c)).length < 3000 := by
    intro c hc'
    refine ⟨hne c hc', ?_⟩
    have := openClause_length (c := c) fun x hx => by
      have := (hc c hc').2 x hx
      unfold FileLine.Small
      omega
    have := increasing_length (hc c hc')
    omega
  have hnd : BNoDup cs := fun c hc' => increasing_nodup (hc c hc')
  rw [pyDimacs_eq hne]
  obtain ⟨out, e1, e2⟩ := C66_b2f_solve_partial hv hs (ls := .problem n m :: cs.map .clause) hBL (N := N)
    (by rw [hb]; exact hN) (by rw [hb]; exact h1) (by rw [hb]; exact hopen) (by rw [hb]; exact fun _ => hnd)
  refine ⟨out, e1, by rw [hb] at e2; exact e2, fun hclock => ?_⟩
  obtain ⟨out', rep, f0, e3, e4, e5⟩ := C66_b2f_answers_partial hv hs hclock (ls := .problem n m :: cs.map .clause) hBL
    (N := N) (by rw [hb]; exact hN) (by rw [hb]; exact h1) (by rw [hb]; exact hopen) (by rw [hb]; exact hnd)
  rw [e1] at e3
  cases e3
  rw [hb] at e5
  exact ⟨rep, f0, e4, e5⟩

/-- **C89**, where it fails (the full claim: the file is answered correctly): a variable that does not occur, below one that
does, or a clause for which no variable was chosen, and the file cannot be used: no answer from the bit-vector solver or
with `-wl`, and SAT only with an incorrect model. -/
theorem C89_fails {n m : Nat} {cs : List (List Int)} (hn : n ≤ 230) (hm : FileLine.Small m) (h1 : cs ≠ [])
    (hc : ∀ c ∈ cs, Increasing 1 (n + 1) c) (hbad : [] ∈ cs ∨ ¬ ∃ N, ∀ v, BUses cs v ↔ 1 ≤ v ∧ v ≤ N) :
    ∃ out, boolean2Finite (pyDimacs n m cs) = .ok out ∧
      (∀ (S : Type) (cfg : Cfg S) (algo : Algo) (fuel : Nat), (cfg.watch = true → solveFile cfg algo fuel out = .ub) ∧
        ∀ rep, solveFile cfg algo fuel out = .ok rep → rep.answer = .SAT → rep.verified = some false) ∧
      (∀ (S : Type) (cfg : BV.BCfg S) (fuel : Nat), BV.bsolveFile cfg fuel out = .ub) := by
  have hl := coin_ok hn hm hc
  have hz : ∃ l ∈ coinLines n m cs, l.ended = true := by
    cases cs with
    | nil => exact absurd rfl h1
    | cons c cs => exact ⟨.ints c true _, List.mem_cons_of_mem _ List.mem_cons_self, rfl⟩
  have hopen : ∀ c ∈ rClauses (coinLines n m cs), (openClauseText (finClause c)).length < 3000 := by
    rw [coin_clauses]
    intro c hc'
    have := openClause_length (c := c) fun x hx => by
      have := (hc c hc').2 x hx
      unfold FileLine.Small
      omega
    have := increasing_length (hc c hc')
    omega
  rw [coin_text]
  rcases hbad with he | hg
  · exact b2f_empty hl hz hopen (by rw [coin_clauses]; exact he)
  · obtain ⟨out, e, g1, g2⟩ := b2f_gap hl hz hopen (by rw [coin_clauses]; exact hg)
    refine ⟨out, e, fun S cfg algo fuel => ⟨fun _ => g1 S cfg algo fuel, fun rep hr => ?_⟩, g2⟩
    rw [g1] at hr
    cases hr

example : coinDimacs (fun i => [0, 0, 1, 0, 1, 1, 1, 1].getD i 1) 3 2 = .ok ("p cnf 3 2\n-1 3 0\n 0\n".toList, 2) ∧
    Increasing 1 4 [-1, 3] ∧ Increasing 1 4 [] := by
  refine ⟨by decide +kernel, ⟨by decide, by decide⟩, ⟨by decide, by decide⟩⟩

end Mvl
