import Verif.Props.Reading
import Verif.Props.BVCLI
import Verif.Props.OrigCLI

/-!
# The other two solvers on converted files

C90: the bit-vector solver on the output of `-b2f`.  C91: the original solver on it.
-/

namespace Mvl

theorem bEnded {ls : List BLine} (hc : bClauses ls ≠ []) : ∃ l ∈ ls.map BLine.toR, l.ended = true := by
  cases hc' : bClauses ls with
  | nil => exact absurd hc' hc
  | cons c cs =>
    have : c ∈ bClauses ls := by rw [hc']; exact List.mem_cons_self
    obtain ⟨l, hl, e⟩ := List.mem_filterMap.1 this
    refine ⟨l.toR, List.mem_map.2 ⟨l, hl, rfl⟩, ?_⟩
    cases l with
    | clause c' => rfl
    | comment t => cases e
    | problem n m => cases e

theorem finProblem_dom {N v : Nat} {cs : List (List Int)} (h1 : 1 ≤ v) (h2 : v ≤ N) : (finProblem N cs).dom v = 2 := by
  obtain ⟨w, rfl⟩ : ∃ w, v = w + 1 := ⟨v - 1, by omega⟩
  simp only [finProblem, Problem.dom, List.getD_eq_getElem?_getD, List.getElem?_replicate, if_pos (show w < N from by omega)]
  rfl

theorem finProblem_numVars {N : Nat} {cs : List (List Int)} : (finProblem N cs).numVars = N := by
  simp [finProblem, Problem.numVars]

/-- A Boolean assignment as an assignment of 0 and 1 solves the formula of `-b2f` if and only if it solves the Boolean
formula. -/
theorem finProblem_solves {N : Nat} {cs : List (List Int)} (h0 : BWellFormed cs) (b : Nat → Bool)
    (h : (finProblem N cs).Solves fun v => if b v then 1 else 0) : BSolves b cs := by
  intro c hc
  refine (finClause_holds (a := fun v => if b v then 1 else 0) (h0 c hc) ?_).1 (h.2 _ (List.mem_map.2 ⟨c, hc, rfl⟩))
  intro x hx
  simp

end Mvl

namespace Mvl.BV

variable {S : Type}

theorem bsolveFile_read (cfg : BCfg S) {out : List Char} {P : Problem} (h : readFile out = .ok P.items) (fuel : Nat) :
    bsolveFile cfg fuel out = bsolve cfg fuel P := by
  unfold bsolveFile bsolve brun bbuild
  rw [h]
  simp only [Res.ok_bind]
  cases bbuildItems cfg.arith P.items (binit cfg.arith) <;> rfl

theorem finProblem_fits {N : Nat} {cs : List (List Int)} : Fits (finProblem N cs) := by
  intro d hd
  have : d = 2 := (List.mem_replicate.1 hd).2
  omega

/-- What a run of the bit-vector solver means for a Boolean formula with the variables 1 to `N`: SAT and UNSAT are right,
and after SAT the set printed for each variable has 0 or 1 in it, and every choice from these sets satisfies the formula. -/
structure BDecided (N : Nat) (cs : List (List Int)) (rep : BReport) : Prop where
  sat   : rep.answer = .SAT → BSatisfiable cs
  unsat : rep.answer = .UNSAT → ¬ BSatisfiable cs
  sets  : rep.answer = .SAT → ∀ v, 1 ≤ v → v ≤ N → ∃ x, rep.model[v]? = some x ∧ (x.getLsbD 0 = true ∨ x.getLsbD 1 = true)
  model : rep.answer = .SAT → ∀ b : Nat → Bool, (∀ v, 1 ≤ v → v ≤ N → ∃ x, rep.model[v]? = some x ∧
    x.getLsbD (if b v then 1 else 0) = true) → BSolves b cs

/-- **C90**, without `-restart`: the answers of the bit-vector solver on the output of `-b2f` are right for the DIMACS file
given to `-b2f`.  Missing: `-restart` (`C55_restart_fails`) and the formulas of `C31_gap_fails`, `C31_long_fails`. -/
theorem C90_b2f_bitvec_partial {cfg : BCfg S} (hs : cfg.ScoreOK) (hrs : cfg.restarts ≤ 0) {ls : List Mvl.BLine}
    (h : ∀ l ∈ ls, l.Ok) {N : Nat} (hN : ∀ v, BUses (bClauses ls) v ↔ 1 ≤ v ∧ v ≤ N) (h1 : bClauses ls ≠ [])
    (hlen : ∀ c ∈ bClauses ls, c ≠ [] ∧ (openClauseText (finClause c)).length < 3000) :
    ∃ out, boolean2Finite (bFileText ls) = .ok out ∧ ∀ fuel rep, bsolveFile cfg fuel out = .ok rep →
      BDecided N (bClauses ls) rep := by
  have hb := bWellFormed h
  have h0 : BWellFormed (bClauses ls) := fun c hc x hx => (hb c hc x hx).1
  obtain ⟨out, e1, _, e2, hsat, hwf⟩ := C31_b2f_partial h h1 hN fun c hc => (hlen c hc).2
  have hwf := (hwf fun c hc => (hlen c hc).1).regular
  refine ⟨out, e1, fun fuel rep hr => ?_⟩
  rw [bsolveFile_read cfg e2] at hr
  refine ⟨fun ha => hsat.1 (C54_bitvec_satisfiable_partial hs hrs hwf finProblem_fits hr ha),
    fun ha hx => C55_bitvec_unsat_partial hs hrs hwf finProblem_fits hr ha (hsat.2 hx), fun ha => ?_, fun ha b hv => ?_⟩
  all_goals obtain ⟨g1, g2⟩ := C54_bitvec_sat_partial hs hrs hwf finProblem_fits hr ha
  · intro v hv1 hv2
    obtain ⟨x, j, e, hj⟩ := g1 v hv1 (by rw [finProblem_numVars]; exact hv2)
    -- the values printed are in the domain: choose `j` for `v`, anything printed for the others
    have hj2 : j < 2 := by
      have hx : ∀ u, ∃ k, 1 ≤ u → u ≤ (finProblem N (bClauses ls)).numVars →
          (u = v → k = j) ∧ ∃ x, rep.model[u]? = some x ∧ x.getLsbD k = true := by
        intro u
        by_cases hu : u = v
        · exact ⟨j, fun _ _ => ⟨fun _ => rfl, x, by rw [hu]; exact e, hj⟩⟩
        · by_cases hr : 1 ≤ u ∧ u ≤ (finProblem N (bClauses ls)).numVars
          · obtain ⟨y, k, e', hk⟩ := g1 u hr.1 hr.2
            exact ⟨k, fun _ _ => ⟨fun h => absurd h hu, y, e', hk⟩⟩
          · exact ⟨0, fun a b => absurd ⟨a, b⟩ hr⟩
      have hsol := g2 (fun u => Classical.choose (hx u)) fun u a b => (Classical.choose_spec (hx u) a b).2
      have hd := hsol.1 v hv1 (by rw [finProblem_numVars]; exact hv2)
      rw [finProblem_dom hv1 hv2] at hd
      have := (Classical.choose_spec (hx v) hv1 (by rw [finProblem_numVars]; exact hv2)).1 rfl
      dsimp only at hd
      omega
    refine ⟨x, e, ?_⟩
    obtain rfl | rfl : j = 0 ∨ j = 1 := by omega
    · exact .inl hj
    · exact .inr hj
  · exact finProblem_solves h0 b (g2 _ fun v a c => hv v a (by rw [finProblem_numVars] at c; exact c))

/-- **C90**, an answer is printed: for every satisfiable formula, and for every formula with at most one clause about a
single variable.  (Clauses about a single variable that contradict each other are read out of bounds,
`C38_two_valued_fails`.) -/
theorem C90_b2f_bitvec_answers_partial {cfg : BCfg S} (hs : cfg.ScoreOK) (hrs : cfg.restarts ≤ 0)
    (hclock : ∀ k, cfg.late k = false) {ls : List Mvl.BLine}
    (h : ∀ l ∈ ls, l.Ok) {N : Nat} (hN : ∀ v, BUses (bClauses ls) v ↔ 1 ≤ v ∧ v ≤ N) (h1 : bClauses ls ≠ [])
    (hlen : ∀ c ∈ bClauses ls, c ≠ [] ∧ (openClauseText (finClause c)).length < 3000)
    (hone : BSatisfiable (bClauses ls) ∨ ∀ i j, (hi : i < (bClauses ls).length) → (hj : j < (bClauses ls).length) →
      (∀ x ∈ (bClauses ls)[i], ∀ y ∈ (bClauses ls)[i], x.natAbs = y.natAbs) →
      (∀ x ∈ (bClauses ls)[j], ∀ y ∈ (bClauses ls)[j], x.natAbs = y.natAbs) → i = j) :
    ∃ out rep f0, boolean2Finite (bFileText ls) = .ok out ∧ (∀ fuel, f0 ≤ fuel → bsolveFile cfg fuel out = .ok rep) ∧
      (rep.answer = .SAT ↔ BSatisfiable (bClauses ls)) ∧ (rep.answer = .UNSAT ↔ ¬ BSatisfiable (bClauses ls)) := by
  obtain ⟨out, e1, _, e2, hsat, hwf⟩ := C31_b2f_partial h h1 hN fun c hc => (hlen c hc).2
  have hwf := (hwf fun c hc => (hlen c hc).1).regular
  have key : ∃ rep f0, (∀ fuel, f0 ≤ fuel → bsolve cfg fuel (finProblem N (bClauses ls)) = .ok rep) ∧
      (rep.answer = .SAT ↔ (finProblem N (bClauses ls)).Satisfiable) ∧
      (rep.answer = .UNSAT ↔ ¬ (finProblem N (bClauses ls)).Satisfiable) := by
    rcases hone with hx | hone
    · obtain ⟨rep, f0, g1, g2, _⟩ := C56_two_valued_partial hs hrs hclock hwf finProblem_fits (hsat.2 hx) (by
        intro c hc _ l hl
        obtain ⟨c', hc', rfl⟩ := List.mem_map.1 hc
        obtain ⟨x, hx', rfl⟩ := List.mem_map.1 hl
        have := (hN x.natAbs).1 ⟨c', hc', x, hx', rfl⟩
        exact Nat.le_of_eq (finProblem_dom this.1 this.2))
      exact ⟨rep, f0, g1, ⟨fun _ => hsat.2 hx, fun _ => g2⟩, fun e => (by rw [g2] at e; cases e), fun e => absurd (hsat.2 hx) e⟩
    · refine C56_bitvec_decides_partial hs hrs hclock hwf finProblem_fits ?_
      intro i j hi hj ai aj
      have hi' : i < (bClauses ls).length := by simpa [finProblem] using hi
      have hj' : j < (bClauses ls).length := by simpa [finProblem] using hj
      have conv : ∀ k (hk : k < (finProblem N (bClauses ls)).clauses.length) (hk' : k < (bClauses ls).length),
          (∀ l ∈ (finProblem N (bClauses ls)).clauses[k], ∀ l' ∈ (finProblem N (bClauses ls)).clauses[k], l.var = l'.var) →
          ∀ x ∈ (bClauses ls)[k], ∀ y ∈ (bClauses ls)[k], x.natAbs = y.natAbs := by
        intro k hk hk' hh x hx y hy
        have e : (finProblem N (bClauses ls)).clauses[k] = finClause (bClauses ls)[k] := by simp [finProblem]
        rw [e] at hh
        exact hh _ (List.mem_map.2 ⟨x, hx, rfl⟩) _ (List.mem_map.2 ⟨y, hy, rfl⟩)
      exact hone i j hi' hj' (conv i hi hi' ai) (conv j hj hj' aj)
  obtain ⟨rep, f0, g1, g2, g3⟩ := key
  refine ⟨out, rep, f0, e1, fun fuel hf => ?_, g2.trans hsat, g3.trans (not_congr hsat)⟩
  rw [bsolveFile_read cfg e2, g1 fuel hf]

/-- Clauses about one variable, one of them twice, and a formula that needs the rest to be searched. -/
def exUnitsB : List Mvl.BLine :=
  [.comment " units".toList, .problem 4 5, .clause [1], .clause [-1, 2, 3], .clause [1], .clause [-2, -3, -2], .clause [4, -4]]

/-- The hypotheses of C90 hold for a formula with three clauses about a single variable. -/
example : (∀ l ∈ exUnitsB, l.Ok) ∧ bClauses exUnitsB ≠ [] ∧ (∀ v, BUses (bClauses exUnitsB) v ↔ 1 ≤ v ∧ v ≤ 4) ∧
    (∀ c ∈ bClauses exUnitsB, c ≠ [] ∧ (openClauseText (finClause c)).length < 3000) ∧ BSatisfiable (bClauses exUnitsB) ∧
    ((boolean2Finite (bFileText exUnitsB)).bind fun out => bsolveFile (exB true 0) 40 out).passes
      (fun rep => rep.answer == .SAT && rep.verified == some true) = true := by
  refine ⟨by decide, by decide, ?_, by decide, ⟨fun v => v == 1 || v == 2, ?_⟩, by decide +kernel⟩
  · intro v
    constructor
    · rintro ⟨c, hc, x, hx, rfl⟩
      revert x
      have : ∀ c ∈ bClauses exUnitsB, ∀ x ∈ c, 1 ≤ x.natAbs ∧ x.natAbs ≤ 4 := by decide
      exact this c hc
    · rintro ⟨h1, h2⟩
      obtain rfl | rfl | rfl | rfl : v = 1 ∨ v = 2 ∨ v = 3 ∨ v = 4 := by omega
      · exact ⟨[1], by decide, 1, by decide, rfl⟩
      · exact ⟨[-1, 2, 3], by decide, 2, by decide, rfl⟩
      · exact ⟨[-1, 2, 3], by decide, 3, by decide, rfl⟩
      · exact ⟨[4, -4], by decide, 4, by decide, rfl⟩
  · show ∀ c ∈ bClauses exUnitsB, _
    decide

/-- **C90 does not hold for every formula**: `1 0` and `-1 0` make the solver access an object that does not exist. -/
theorem C90_fails : (∀ l ∈ [Mvl.BLine.problem 1 2, .clause [1], .clause [-1]], l.Ok) ∧
    ∀ b, (boolean2Finite (bFileText [.problem 1 2, .clause [1], .clause [-1]])).bind
      (fun out => bsolveFile (exB b 0) 20 out) = .ub :=
  ⟨by decide, by decide +kernel⟩

end Mvl.BV

namespace Mvl.Orig

open Mvl

theorem scanLine_notP {N M : Int} {s s' : Scan} {cs : List Char} {i : Option Item} (hp : ∀ r, cs ≠ 'p' :: r)
    (h : Mvl.scanLine s cs = .ok (s', i)) : scanLine N M s cs = .ok (some (s', i)) := by
  unfold scanLine
  split
  · exact absurd rfl (hp _)
  · rw [h, Res.ok_bind]; rfl

theorem readFile_lines {α : Type} (text : α → List Char) (item : α → Option Item) {N M : Int} {ls : List α}
    (h1 : ∀ l ∈ ls, '\n' ∉ text l) (h2 : ∀ l ∈ ls, (text l).length < 3000)
    (h3 : ∀ l ∈ ls, ∀ s, ∃ s', scanLine N M s (cString (text l)) = .ok (some (s', item l))) :
    readFile N M (ls.flatMap fun l => text l ++ ['\n']) = .ok (some (ls.filterMap item)) := by
  have hp : pieces [] (ls.flatMap fun l => text l ++ ['\n']) = ls.map text := by
    clear h2 h3
    induction ls with
    | nil => rfl
    | cons l ls ih =>
      simp only [List.flatMap_cons, List.append_assoc, List.cons_append, List.nil_append, List.map_cons]
      rw [pieces_line (h1 l List.mem_cons_self), ih (fun x hx => h1 x (List.mem_cons_of_mem _ hx))]
      simp
  unfold readFile fileLines
  rw [hp, takeWhile_all]
  · clear hp h1 h2
    generalize ({} : Scan) = s
    induction ls generalizing s with
    | nil => rfl
    | cons l ls ih =>
      obtain ⟨s', e⟩ := h3 l List.mem_cons_self s
      simp only [List.map_cons, scanLines, e, Res.ok_bind, ih (fun x hx => h3 x (List.mem_cons_of_mem _ hx)) s',
        List.filterMap_cons]
      cases item l <;> rfl
  · intro a ha
    obtain ⟨l, hl, rfl⟩ := List.mem_map.1 ha
    simpa using h2 l hl

theorem bHead_filter (ls : List BLine) :
    (ls.filter fun l => match l with | .clause _ => false | _ => true).flatMap (fun l => l.text ++ ['\n']) = bHead ls := by
  unfold bHead
  induction ls with
  | nil => rfl
  | cons l ls ih => cases l <;> simp [List.filter_cons, ih]

/-- The file `-b2f` writes, read by the original solver with the numbers of the problem line. -/
theorem b2f_original_read {ls : List BLine} (h : ∀ l ∈ ls, l.Ok) (hc : bClauses ls ≠ []) {N : Nat}
    (hN : ∀ v, BUses (bClauses ls) v ↔ 1 ≤ v ∧ v ≤ N)
    (hs : ∀ c ∈ bClauses ls, (openClauseText (finClause c)).length < 3000) {n m : Nat}
    (hm : ∀ a b, BLine.problem a b ∈ ls → a = n ∧ b = m) :
    ∃ out, boolean2Finite (bFileText ls) = .ok out ∧
      readFile n m out = .ok (some (finProblem N (bClauses ls)).items) := by
  have hb := bWellFormed h
  obtain ⟨out, e, ho, _⟩ := C31_b2f_partial h hc hN hs
  refine ⟨out, e, ?_⟩
  subst ho
  let H : List BLine := ls.filter fun l => match l with | .clause _ => false | _ => true
  have hH : ∀ l ∈ H, l.Ok ∧ (∀ c, l ≠ .clause c) ∧ l ∈ ls := by
    intro l hl
    obtain ⟨g1, g2⟩ := List.mem_filter.1 hl
    exact ⟨h l g1, (fun c e => by subst e; cases g2), g1⟩
  let L : List (List Char × Option Item) := H.map (fun l => (l.text, none)) ++
    (List.range' 1 N).map (fun v => (FileLine.text (.domain v 2), some (Item.dom 2))) ++
    (bClauses ls).map fun c => (openClauseText (finClause c), some (Item.clause (finClause c)))
  have hsm : ∀ v ∈ List.range' 1 N, FileLine.Small v := by
    intro v hv
    rw [List.mem_range'_1] at hv
    obtain ⟨c, hc, x, hx, rfl⟩ := (hN v).2 (by omega)
    exact (hb c hc x hx).2
  have key := readFile_lines (fun p : List Char × Option Item => p.1) (fun p => p.2) (N := n) (M := m) (ls := L) ?_ ?_ ?_
  · have et : (L.flatMap fun l => l.1 ++ ['\n']) = bHead ls ++
        (List.range' 1 N).flatMap (fun v => FileLine.text (.domain v 2) ++ ['\n']) ++
        (bClauses ls).flatMap (fun c => openClauseText (finClause c) ++ ['\n']) := by
      have e0 : (H.flatMap fun l => l.text ++ ['\n']) = bHead ls := by
        exact bHead_filter ls
      simp only [L, List.flatMap_append, List.flatMap_map, e0]
    have ei : L.filterMap (fun p => p.2) = (finProblem N (bClauses ls)).items := by
      have e1 : (H.map fun l => (BLine.text l, (none : Option Item))).filterMap (fun p => p.2) = [] := by
        rw [List.filterMap_eq_nil_iff]
        intro p hp
        obtain ⟨l, _, rfl⟩ := List.mem_map.1 hp
        rfl
      have e2 : ∀ l : List Nat, (l.map fun v => (FileLine.text (.domain v 2), some (Item.dom 2))).filterMap (fun p => p.2) =
          List.replicate l.length (Item.dom 2) := by
        intro l
        induction l with
        | nil => rfl
        | cons a l ih => simp [ih, List.replicate_succ]
      have e3 : ∀ l : List (List Int), (l.map fun c => (openClauseText (finClause c), some (Item.clause (finClause c)))).filterMap
          (fun p => p.2) = l.map fun c => Item.clause (finClause c) := by
        intro l
        induction l with
        | nil => rfl
        | cons a l ih => simp [ih]
      simp only [L, List.filterMap_append, e1, e2, e3, List.nil_append]
      simp [finProblem, Problem.items]
    rw [et, ei] at key
    exact key
  · intro p hp
    simp only [L, List.mem_append, List.mem_map] at hp
    rcases hp with (⟨l, hl, rfl⟩ | ⟨v, hv, rfl⟩) | ⟨c, hc, rfl⟩
    · exact bText_no (hH l hl).1 (.inl rfl)
    · exact text_no_newline (l := .domain v 2) ⟨hsm v hv, by decide⟩
    · exact openClauseText_no (by decide) (by decide) (by decide) (by decide)
  · intro p hp
    simp only [L, List.mem_append, List.mem_map] at hp
    rcases hp with (⟨l, hl, rfl⟩ | ⟨v, hv, rfl⟩) | ⟨c, hc, rfl⟩
    · exact (hH l hl).1.1
    · have := natText_length_small (hsm v hv)
      simp [FileLine.text, show natText 2 = ['2'] from rfl]
      omega
    · exact hs c hc
  · intro p hp s
    simp only [L, List.mem_append, List.mem_map] at hp
    rcases hp with (⟨l, hl, rfl⟩ | ⟨v, hv, rfl⟩) | ⟨c, hc, rfl⟩
    · obtain ⟨o1, o2, o3⟩ := hH l hl
      cases l with
      | comment t =>
        obtain ⟨s', e'⟩ := scanLine_head o1 o2 s
        refine ⟨s', scanLine_notP ?_ e'⟩
        intro r er
        have : cString (BLine.text (.comment t)) = 'c' :: cString t := by simp [BLine.text, cString]
        rw [this] at er
        cases er
      | problem a b =>
        obtain ⟨rfl, rfl⟩ := hm a b o3
        have e : BLine.text (.problem a b) = FileLine.text (.problem false a b) := by simp [BLine.text, FileLine.text]
        dsimp only
        rw [e, scanLine_problem s o1.2.1 o1.2.2, if_neg (by simp)]
        exact ⟨_, rfl⟩
      | clause c => exact absurd rfl (o2 c)
    · exact scanLine_other s (l := .domain v 2) ⟨hsm v hv, by decide⟩ (fun _ _ _ e => by cases e)
    · obtain ⟨s', e'⟩ := scanLine_open (c := finClause c) (by
        intro l hl
        obtain ⟨x, hx, rfl⟩ := List.mem_map.1 hl
        obtain ⟨g1, g2⟩ := hb c hc x hx
        refine ⟨by show 1 ≤ x.natAbs; omega, g2, ?_⟩
        show FileLine.Small (if x < 0 then 0 else 1)
        split <;> decide) s
      refine ⟨s', scanLine_notP ?_ e'⟩
      intro r er
      rw [cString_id (openClauseText_no (by decide) (by decide) (by decide) (by decide))] at er
      have : 'p' ∈ openClauseText (finClause c) := by rw [er]; exact List.mem_cons_self
      exact openClauseText_no (by decide) (by decide) (by decide) (by decide) this

/-- **C91**, what holds of it: on the output of `-b2f`, with the numbers of the problem line as `-var` and `-clause`, the
original solver ends; its SAT is right, and so is its UNSAT if it made no decision, and with `-solvenc` if it made as many
decisions as backtracks.  Full statement: UNSAT is always right; it is false, `C91_fails`. -/
theorem C91_b2f_original_partial (cfg : OCfg) (md : Mode) {ls : List BLine} (h : ∀ l ∈ ls, l.Ok) {N : Nat}
    (hN : ∀ v, BUses (bClauses ls) v ↔ 1 ≤ v ∧ v ≤ N) (h1 : bClauses ls ≠ [])
    (hlen : ∀ c ∈ bClauses ls, c ≠ [] ∧ (openClauseText (finClause c)).length < 3000) {n m : Nat}
    (hm : ∀ a b, BLine.problem a b ∈ ls → a = n ∧ b = m) :
    ∃ out, boolean2Finite (bFileText ls) = .ok out ∧
      (∃ f0, ∀ fuel, f0 ≤ fuel → solveFile cfg md fuel n m out ≠ .fuel) ∧
      ∀ fuel r, solveFile cfg md fuel n m out = .ok r → ∃ rep, r = some rep ∧
        (rep.answer = .SAT → BSatisfiable (bClauses ls) ∧ rep.verified = some true) ∧
        (rep.answer = .UNSAT → rep.decisions = 0 → ¬ BSatisfiable (bClauses ls)) ∧
        (rep.answer = .UNSAT → md = .nc → rep.decisions = rep.backtracks → ¬ BSatisfiable (bClauses ls)) := by
  obtain ⟨out0, e0, _, _, hsat, hwf⟩ := C31_b2f_partial h h1 hN fun c hc => (hlen c hc).2
  obtain ⟨out, e, e2⟩ := b2f_original_read h h1 hN (fun c hc => (hlen c hc).2) hm
  have hwf := hwf fun c hc => (hlen c hc).1
  have hsolve : ∀ fuel, solveFile cfg md fuel n m out = (solve cfg md fuel (finProblem N (bClauses ls)) >>= fun r => .ok (some r)) := by
    intro fuel
    unfold solveFile solve run build
    rw [e2, Res.ok_bind]
    show (buildItems _ (init cfg) >>= _) = _
    cases buildItems (finProblem N (bClauses ls)).items (init cfg) with
    | ok s =>
      show (search cfg md fuel s >>= _) = ((search cfg md fuel s >>= _) >>= _)
      cases search cfg md fuel s <;> rfl
    | _ => rfl
  refine ⟨out, e, ?_, ?_⟩
  · obtain ⟨f0, g⟩ := C75_original_ends cfg md hwf
    refine ⟨f0, fun f hf z => ?_⟩
    rw [hsolve] at z
    cases hh : solve cfg md f (finProblem N (bClauses ls)) with
    | fuel => exact g f hf hh
    | ok a => rw [hh] at z; cases z
    | ub => rw [hh] at z; cases z
  · intro fuel r hr
    rw [hsolve] at hr
    obtain ⟨rep, hrun, er⟩ := Res.bind_eq_ok.1 hr
    cases er
    refine ⟨rep, rfl, ?_, ?_, ?_⟩
    · intro ha
      obtain ⟨a, b⟩ := C72_original_sat hwf hrun ha
      exact ⟨hsat.1 a, b⟩
    · intro ha hd hx
      cases md with
      | ch =>
        rcases C73_original_ch_unsat_partial hwf hrun ha with ⟨-, a⟩ | ⟨a, -⟩
        · exact a (hsat.2 hx)
        · omega
      | nc =>
        have h1 := C77_original_nc_statistics hwf hrun
        exact (C74_original_nc_unsat_partial hwf hrun ha).1 (by
          have := h1.2.2.2.2.1
          have := h1.2.2.2.1
          omega) (hsat.2 hx)
    · rintro ha rfl hd hx
      exact (C74_original_nc_unsat_partial hwf hrun ha).1 hd (hsat.2 hx)

/-- Satisfied by making all three variables true. -/
def exWrongB : List BLine := [.problem 3 4, .clause [2, 1], .clause [-1, 2], .clause [-1, 3], .clause [-2, 1]]

/-- The hypotheses of C91 hold, and **C91 does not hold in full**: `-solvech` prints UNSAT after a decision for the
converted file of a satisfiable formula. -/
theorem C91_fails : (∀ l ∈ exWrongB, l.Ok) ∧ (∀ v, BUses (bClauses exWrongB) v ↔ 1 ≤ v ∧ v ≤ 3) ∧
    bClauses exWrongB ≠ [] ∧ (∀ c ∈ bClauses exWrongB, c ≠ [] ∧ (openClauseText (finClause c)).length < 3000) ∧
    (∀ a b, BLine.problem a b ∈ exWrongB → a = 3 ∧ b = 4) ∧ BSatisfiable (bClauses exWrongB) ∧
    ((boolean2Finite (bFileText exWrongB)).bind fun out => solveFile (exO true) .ch 60 3 4 out).passes
      (fun r => match r with | some rep => rep.answer == .UNSAT && rep.decisions == 1 | none => false) = true := by
  refine ⟨by decide, ?_, by decide, by decide, ?_, ⟨fun _ => true, ?_⟩, by decide +kernel⟩
  · intro v
    constructor
    · rintro ⟨c, hc, x, hx, rfl⟩
      revert x
      have : ∀ c ∈ bClauses exWrongB, ∀ x ∈ c, 1 ≤ x.natAbs ∧ x.natAbs ≤ 3 := by decide
      exact this c hc
    · rintro ⟨h1, h2⟩
      obtain rfl | rfl | rfl : v = 1 ∨ v = 2 ∨ v = 3 := by omega
      · exact ⟨[2, 1], by decide, 1, by decide, rfl⟩
      · exact ⟨[2, 1], by decide, 2, by decide, rfl⟩
      · exact ⟨[-1, 3], by decide, 3, by decide, rfl⟩
  · intro a b h
    simp [exWrongB] at h
    exact h
  · show ∀ c ∈ bClauses exWrongB, _
    decide

/-- A formula for which the original solver is right, with and without a decision. -/
example : ((boolean2Finite (bFileText [.problem 2 3, .clause [1], .clause [-1, 2], .clause [-2]])).bind
      fun out => solveFile (exO true) .ch 60 2 3 out).passes
      (fun r => match r with | some rep => rep.answer == .UNSAT && rep.decisions == 0 | none => false) = true ∧
    ((boolean2Finite (bFileText [.problem 3 2, .clause [1, 2], .clause [-1, 3]])).bind
      fun out => solveFile (exO true) .ch 60 3 2 out).passes
      (fun r => match r with | some rep => rep.answer == .SAT && rep.decisions != 0 | none => false) = true := by
  decide +kernel

end Mvl.Orig
