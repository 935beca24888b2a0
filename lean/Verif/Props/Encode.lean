import Verif.Proof.Quad
import Verif.Proof.B2f
import Verif.Props.Files

/-!
# The encoders: properties C26 to C31
-/

namespace Mvl

/-! ## C26: linear encoding preserves satisfiability -/

theorem domOf_eq {P : Problem} {v : Nat} (h1 : 1 ≤ v) (h2 : v ≤ P.numVars) : domOf P.doms v = P.dom v := by
  obtain ⟨v, rfl⟩ : ∃ w, v = w + 1 := ⟨v - 1, by omega⟩
  have : v < P.doms.length := h2
  unfold domOf Problem.dom
  simp [List.getD_eq_getElem?_getD, List.getElem?_eq_getElem this]

theorem linLitInt_ne {P : Problem} {l : Lit} (h : 1 ≤ l.var) : linLitInt (domOf P.doms) l ≠ 0 := by
  have := linIdx_pos (domOf P.doms) l.var h
  unfold linLitInt
  split <;> split <;> omega

theorem linExtra_ne {b d : Nat} (hb : 1 ≤ b) : ∀ c ∈ linExtra (b : Int) d, ∀ x ∈ c, x ≠ 0 := by
  intro c hc x hx
  unfold linExtra at hc
  simp only [List.mem_append, List.mem_cons, List.not_mem_nil, or_false, List.mem_flatMap, List.mem_map,
    List.mem_range] at hc
  rcases hc with ((rfl | rfl | rfl) | ⟨j, hj, rfl | rfl | rfl⟩) | ⟨j, hj, rfl⟩ <;>
    simp only [List.mem_cons, List.not_mem_nil, or_false, List.mem_map, List.mem_range] at hx
  · obtain ⟨j, _, rfl⟩ := hx; omega
  all_goals rcases hx with rfl | rfl | rfl <;> omega

/-- The formula written is well formed, and satisfiable exactly when the input is, if no literal `v!=k` names a
two-valued variable.  Missing: such literals, which the encoder writes as `v=k` (`C26_fails`).  A file without clauses
is left out: then nothing is written, not even a problem line. -/
theorem C26_linear_partial {ls : List FileLine} {P : Problem} {m : Nat} (h : Describes ls P) (hw : P.WellFormed)
    (hh : HeaderFirst ls P.numVars m) (hc : P.clauses ≠ [])
    (hneg : ∀ c ∈ P.clauses, ∀ l ∈ c, l.eq = false → P.dom l.var ≠ 2) :
    ∃ nv nc cs, linearEncode (fileText ls) = .ok (dimacsWords nv nc cs) ∧ BWellFormed cs ∧
      (BSatisfiable cs ↔ P.Satisfiable) := by
  refine ⟨_, _, _, linearEncode_text h hw hh hc, ?_, ?_⟩
  · intro c hc' x hx
    rcases List.mem_append.1 hc' with hc' | hc'
    · obtain ⟨v, h1, _, _, h4⟩ := mem_linExtras.1 hc'
      exact linExtra_ne (linIdx_pos _ v h1) c h4 x hx
    · obtain ⟨c0, h0, rfl⟩ := List.mem_map.1 hc'
      obtain ⟨l, hl, rfl⟩ := List.mem_map.1 hx
      exact linLitInt_ne (hw.lits_ok c0 h0 l hl).1
  · rw [linCnf_sat (fun i _ => domOf_two hw.dom_two i)]
    · constructor
      · rintro ⟨a, h1, h2⟩
        exact ⟨a, fun v hv hv' => by rw [← domOf_eq hv hv']; exact h1 v hv hv', h2⟩
      · rintro ⟨a, h1, h2⟩
        exact ⟨a, fun v hv hv' => by rw [domOf_eq hv hv']; exact h1 v hv hv', h2⟩
    · intro c hc l hl
      obtain ⟨o1, o2, o3⟩ := hw.lits_ok c hc l hl
      exact ⟨o1, o2, by rw [domOf_eq o1 o2]; exact o3⟩
    · intro c hc l hl e
      obtain ⟨o1, o2, _⟩ := hw.lits_ok c hc l hl
      have := hneg c hc l hl e
      have h2 := domOf_two hw.dom_two l.var
      rw [domOf_eq o1 o2] at h2 ⊢
      omega

/-- A formula with domains of 3, 2 and 4 values. -/
def exLin : Problem := ⟨[3, 2, 4], [[⟨1, 0, true⟩, ⟨2, 1, true⟩], [⟨3, 2, false⟩], [⟨1, 2, true⟩, ⟨3, 0, false⟩]]⟩

example : Describes exLin.file exLin ∧ exLin.WellFormed ∧ HeaderFirst exLin.file exLin.numVars 3 ∧
    exLin.clauses ≠ [] ∧ (∀ c ∈ exLin.clauses, ∀ l ∈ c, l.eq = false → exLin.dom l.var ≠ 2) := by
  refine ⟨⟨by decide, by decide, ?_, by decide, by decide⟩, by decide, ?_, by decide, by decide⟩
  · simp [Problem.file, exLin, DomainsFirst, fileDoms]
  · simp [Problem.file, exLin, HeaderFirst, NoProblem, Problem.numVars]

/-- The formula `1=0`, `1!=1` over two values. -/
def exLinBad : Problem := ⟨[2], [[⟨1, 0, true⟩], [⟨1, 1, false⟩]]⟩

/-- The claim as stated fails: `1=0`, `1!=1` is satisfiable, but the encoder writes `-1` and `1`. -/
theorem C26_fails : exLinBad.WellFormed ∧ Describes exLinBad.file exLinBad ∧ exLinBad.Satisfiable ∧
    linearEncode (fileText exLinBad.file) = .ok (dimacsWords 3 6 [[-1], [1]]) ∧ ¬ BSatisfiable [[-1], [1]] := by
  refine ⟨by decide, ⟨by decide, by decide, ?_, by decide, by decide⟩, ⟨fun _ => 0, by decide⟩, by decide +kernel, ?_⟩
  · simp [Problem.file, exLinBad, DomainsFirst, fileDoms]
  · rintro ⟨β, h⟩
    obtain ⟨x, hx, h1⟩ := h [-1] (by simp)
    obtain ⟨y, hy, h2⟩ := h [1] (by simp)
    simp at hx hy
    subst hx hy
    simp [BLitHolds] at h1 h2
    rw [h1] at h2
    cases h2

/-! ## C27: the numbers announced by the linear encoding -/

theorem linIdx_sum (D : Nat → Nat) (n : Nat) :
    linIdx D (n + 1) = 1 + ((List.range' 1 n).map fun i => linWidth (D i)).sum := by
  induction n with
  | zero => rfl
  | succ n ih =>
    rw [linIdx, ih, List.range'_concat, List.map_append, List.sum_append]
    simp [Nat.add_comm 1 n]
    omega

theorem map_domOf (ds : List Nat) : (List.range' 1 ds.length).map (domOf ds) = ds := by
  apply List.ext_getElem
  · simp
  · intro i h1 h2
    simp [domOf, List.getD_eq_getElem?_getD]
    rw [List.getElem?_eq_getElem h2]
    rfl

theorem linWidth_sum {ds : List Nat} (h : ∀ d ∈ ds, 2 ≤ d) :
    ((ds.map linWidth).sum : Int) ≤ (ds.map fun d : Nat => 2 * (d : Int) - 1).sum := by
  induction ds with
  | nil => simp
  | cons d ds ih =>
    have h1 := h d List.mem_cons_self
    have := ih fun x hx => h x (List.mem_cons_of_mem _ hx)
    simp only [List.map_cons, List.sum_cons]
    have : (linWidth d : Int) ≤ 2 * d - 1 := by unfold linWidth; split <;> omega
    omega

theorem linExtras_length (ds : List Nat) :
    ((linExtras (domOf ds) ds.length).length : Int) + 4 * (ds.count 2 : Int) + 0 =
      (ds.map fun d : Nat => if d < 2 then 0 else 4 * ((d : Int) - 2) + 3 + 1).sum := by
  have e : (linExtras (domOf ds) ds.length).length =
      (ds.map fun d => if 2 < d then 4 * (d - 2) + 4 else 0).sum := by
    unfold linExtras
    rw [List.length_flatMap]
    conv => rhs; rw [← map_domOf ds]
    rw [List.map_map]
    congr 1
    apply List.map_congr_left
    intro i _
    simp only [Function.comp]
    split
    · next h => exact linExtra_length _ h
    · rfl
  rw [e]
  clear e
  induction ds with
  | nil => rfl
  | cons d ds ih =>
    simp only [List.map_cons, List.sum_cons, List.count_cons]
    have hd : (((if 2 < d then 4 * (d - 2) + 4 else 0 : Nat) : Int)) + 4 * (((if d == 2 then 1 else 0 : Nat)) : Int) =
        if d < 2 then 0 else 4 * ((d : Int) - 2) + 3 + 1 := by
      rcases Nat.lt_trichotomy d 2 with h | h | h
      · rw [if_neg (by omega), if_pos h, if_neg (by simp; omega)]; rfl
      · subst h; rfl
      · rw [if_pos h, if_neg (by simp; omega), if_neg (by omega)]; omega
    omega

theorem linExtra_le {b d : Nat} (hd : 3 ≤ d) : ∀ c ∈ linExtra (b : Int) d, ∀ x ∈ c, x.natAbs < b + (2 * d - 1) := by
  intro c hc x hx
  unfold linExtra at hc
  simp only [List.mem_append, List.mem_cons, List.not_mem_nil, or_false, List.mem_flatMap, List.mem_map,
    List.mem_range] at hc
  rcases hc with ((rfl | rfl | rfl) | ⟨j, hj, rfl | rfl | rfl⟩) | ⟨j, hj, rfl⟩ <;>
    simp only [List.mem_cons, List.not_mem_nil, or_false, List.mem_map, List.mem_range] at hx
  · obtain ⟨j, _, rfl⟩ := hx; omega
  all_goals rcases hx with rfl | rfl | rfl <;> omega

/-- No literal exceeds the announced number of variables; the announced number of clauses is too large by 4 for each
two-valued variable, so it is right exactly when there is none.  Missing for C27: two-valued variables
(`C27_fails`). -/
theorem C27_linear_partial {ls : List FileLine} {P : Problem} (h : Describes ls P) (hw : P.WellFormed)
    (hh : HeaderFirst ls P.numVars P.clauses.length) (hc : P.clauses ≠ []) :
    ∃ nv nc cs, linearEncode (fileText ls) = .ok (dimacsWords nv nc cs) ∧
      (∀ c ∈ cs, ∀ x ∈ c, x ≠ 0 ∧ (x.natAbs : Int) ≤ nv) ∧ nc = cs.length + 4 * (P.doms.count 2 : Int) ∧
      (nc = cs.length ↔ 2 ∉ P.doms) := by
  have hcount : linClauses P.clauses.length P.doms =
      (linCnf (domOf P.doms) P.numVars P.clauses).length + 4 * (P.doms.count 2 : Int) := by
    unfold linClauses linCnf
    have := linExtras_length P.doms
    have e : (P.doms.map fun d : Nat => if d < 2 then 0 else 4 * ((d : Int) - 2) + 3 + 1) =
        P.doms.map fun d : Nat => 4 * ((d : Int) - 2) + 3 + 1 := by
      apply List.map_congr_left
      intro d hd
      have := hw.dom_two d hd
      rw [if_neg (by omega)]
    rw [e] at this
    rw [← this, List.length_append, List.length_map]
    show _ = ((((linExtras (domOf P.doms) P.doms.length).length + P.clauses.length : Nat) : Int)) + _
    omega
  have hidx : ∀ v, 1 ≤ v → v ≤ P.numVars →
      ((linIdx (domOf P.doms) v + linWidth (domOf P.doms v) : Nat) : Int) ≤ 1 + linVars P.numVars P.doms := by
    intro v h1 h2
    have g1 := linIdx_lt (domOf P.doms) h1 (Nat.lt_succ_of_le h2)
    rw [linIdx_sum] at g1
    have g2 := linWidth_sum hw.dom_two
    have e : ((List.range' 1 P.numVars).map fun i => linWidth (domOf P.doms i)) = P.doms.map linWidth := by
      conv => rhs; rw [← map_domOf P.doms]
      rw [List.map_map]; rfl
    rw [e] at g1
    unfold linVars
    have : (P.numVars : Int) = P.doms.length := rfl
    omega
  refine ⟨_, _, _, linearEncode_text h hw hh hc, ?_, hcount, ?_⟩
  · intro c hc' x hx
    rcases List.mem_append.1 hc' with hc' | hc'
    · obtain ⟨v, h1, h2, h3, h4⟩ := mem_linExtras.1 hc'
      refine ⟨linExtra_ne (linIdx_pos _ v h1) c h4 x hx, ?_⟩
      have g1 := linExtra_le h3 c h4 x hx
      have g2 := hidx v h1 h2
      have : linWidth (domOf P.doms v) = 2 * domOf P.doms v - 1 := by unfold linWidth; rw [if_neg (by omega)]
      omega
    · obtain ⟨c0, h0, rfl⟩ := List.mem_map.1 hc'
      obtain ⟨l, hl, rfl⟩ := List.mem_map.1 hx
      obtain ⟨o1, o2, o3⟩ := hw.lits_ok c0 h0 l hl
      refine ⟨linLitInt_ne o1, ?_⟩
      have g2 := hidx l.var o1 o2
      have h2 := domOf_two hw.dom_two l.var
      rw [← domOf_eq o1 o2] at o3
      unfold linLitInt
      unfold linWidth at g2
      by_cases hd : domOf P.doms l.var = 2
      · rw [if_pos hd] at g2
        rw [if_neg (by omega)]
        split <;> omega
      · rw [if_neg hd] at g2
        rw [if_pos (by omega)]
        split <;> omega
  · rw [hcount, ← List.count_eq_zero]
    omega

example : Describes exLin.file exLin ∧ exLin.WellFormed ∧
    HeaderFirst exLin.file exLin.numVars exLin.clauses.length ∧ exLin.clauses ≠ [] := by
  refine ⟨⟨by decide, by decide, ?_, by decide, by decide⟩, by decide, ?_, by decide⟩
  · simp [Problem.file, exLin, DomainsFirst, fileDoms]
  · simp [Problem.file, exLin, HeaderFirst, NoProblem, Problem.numVars]

/-- With a two-valued variable the announced number of clauses is wrong: 5 instead of 1. -/
theorem C27_fails : (⟨[2], [[⟨1, 0, true⟩]]⟩ : Problem).WellFormed ∧
    linearEncode (fileText (⟨[2], [[⟨1, 0, true⟩]]⟩ : Problem).file) = .ok (dimacsWords 3 5 [[-1]]) :=
  ⟨by decide, by decide +kernel⟩

/-! ## Files the encoder cannot read -/

/-- In a file with the domain lines before the problem line, as the n-queens script writes them, the encoder writes to
an array that does not exist. -/
theorem linear_needs_header :
    linearEncode (fileText [.domain 1 3, .problem false 1 1, .clause [⟨1, 0, true⟩]]) = .ub := by
  decide +kernel

/-! ## C28: quadratic encoding preserves satisfiability -/

theorem quadWords_eq {ls : List FileLine} {P : Problem} (h : Describes ls P) (hw : P.WellFormed)
    (hp : PlainProblem ls) (h13 : ∀ d ∈ P.doms, d < 13) (hc : P.clauses ≠ []) :
    quadraticEncode (fileText ls) = .ok (atomWords P.doms.sum (announced ls + (P.doms.map quadCount).sum)
      (aExtras 1 P.doms) (P.clauses.map fun c => c.map aLit)) := by
  rw [quadraticEncode_text h hw hp h13 hc]
  unfold atomWords
  rw [intText_nat, intText_nat]

theorem aSolves_append {β : Nat → Nat → Bool} {cs ds : List (List ALit)} :
    ASolves β (cs ++ ds) ↔ ASolves β cs ∧ ASolves β ds := by
  unfold ASolves
  constructor
  · intro h
    exact ⟨fun c hc => h c (List.mem_append_left _ hc), fun c hc => h c (List.mem_append_right _ hc)⟩
  · rintro ⟨h1, h2⟩ c hc
    rcases List.mem_append.1 hc with h | h
    · exact h1 c h
    · exact h2 c h

theorem aLit_holds {β : Nat → Nat → Bool} {a : Assignment} {l : Lit} {d : Nat} (hd : l.val < d)
    (h : ∀ j, j < d → (β l.var j = true ↔ j = a l.var)) : (aLit l).holds β ↔ l.holds a := by
  have := h l.val hd
  obtain ⟨v, k, e⟩ := l
  unfold ALit.holds aLit Lit.holds
  simp only at this ⊢
  cases e with
  | true => simp only [if_true]; rw [this]; exact eq_comm
  | false =>
    simp only [Bool.false_eq_true, if_false]
    rw [← Bool.not_eq_true, this]
    exact not_congr eq_comm

/-- Each line written is a clause over atoms `v=k`.  The formula is satisfiable exactly when the input is; in every
model each variable has exactly one value, and these values solve the input.  Missing: domains of 13 or more values,
where `Fact` overflows (`C28_fails`), files without clauses, where nothing is written, and the DIMACS rule that a clause
ends at `0` instead of the end of the line (`C28_stream_fails`). -/
theorem C28_quadratic_partial {ls : List FileLine} {P : Problem} (h : Describes ls P) (hw : P.WellFormed)
    (hp : PlainProblem ls) (h13 : ∀ d ∈ P.doms, d < 13) (hc : P.clauses ≠ []) :
    ∃ nv nc ex cl, quadraticEncode (fileText ls) = .ok (atomWords nv nc ex cl) ∧
      (ASatisfiable (ex ++ cl) ↔ P.Satisfiable) ∧
      ∀ β, ASolves β (ex ++ cl) → ∃ a : Assignment, P.Solves a ∧
        ∀ v, 1 ≤ v → v ≤ P.numVars → ∀ j, j < P.dom v → (β v j = true ↔ j = a v) := by
  have back : ∀ β, ASolves β (aExtras 1 P.doms ++ P.clauses.map fun c => c.map aLit) → ∃ a : Assignment, P.Solves a ∧
        ∀ v, 1 ≤ v → v ≤ P.numVars → ∀ j, j < P.dom v → (β v j = true ↔ j = a v) := by
    intro β hβ
    obtain ⟨h1, h2⟩ := aSolves_append.1 hβ
    have hex := aExtras_solves.1 h1
    let a : Assignment := fun v => if h : 1 ≤ v ∧ v ≤ P.numVars then Classical.choose (hex v h.1 h.2) else 0
    have ha : ∀ v, 1 ≤ v → v ≤ P.numVars → a v < P.dom v ∧ ∀ j, j < P.dom v → (β v j = true ↔ j = a v) := by
      intro v h1 h2
      have := Classical.choose_spec (hex v h1 h2)
      simp only [a, dif_pos (And.intro h1 h2)]
      exact this
    refine ⟨a, ⟨fun v h1 h2 => (ha v h1 h2).1, ?_⟩, fun v h1 h2 => (ha v h1 h2).2⟩
    intro c hc
    obtain ⟨l', hl', hh⟩ := h2 _ (List.mem_map.2 ⟨c, hc, rfl⟩)
    obtain ⟨l, hl, rfl⟩ := List.mem_map.1 hl'
    obtain ⟨o1, o2, o3⟩ := hw.lits_ok c hc l hl
    exact ⟨l, hl, (aLit_holds o3 (ha l.var o1 o2).2).1 hh⟩
  refine ⟨_, _, _, _, quadWords_eq h hw hp h13 hc, ⟨?_, ?_⟩, back⟩
  · rintro ⟨β, hβ⟩
    obtain ⟨a, ha, _⟩ := back β hβ
    exact ⟨a, ha⟩
  · rintro ⟨a, h1, h2⟩
    refine ⟨fun v k => decide (k = a v), aSolves_append.2 ⟨?_, ?_⟩⟩
    · exact aExtras_solves.2 fun v g1 g2 => ⟨a v, h1 v g1 g2, fun j _ => by simp⟩
    · intro c' hc'
      obtain ⟨c, hc, rfl⟩ := List.mem_map.1 hc'
      obtain ⟨l, hl, hh⟩ := h2 c hc
      obtain ⟨o1, o2, o3⟩ := hw.lits_ok c hc l hl
      exact ⟨_, List.mem_map.2 ⟨l, hl, rfl⟩, (aLit_holds o3 (fun j _ => by simp)).2 hh⟩

example : Describes exLin.file exLin ∧ exLin.WellFormed ∧ PlainProblem exLin.file ∧ (∀ d ∈ exLin.doms, d < 13) ∧
    exLin.clauses ≠ [] := by
  refine ⟨⟨by decide, by decide, ?_, by decide, by decide⟩, by decide, ?_, by decide, by decide⟩
  · simp [Problem.file, exLin, DomainsFirst, fileDoms]
  · simp [Problem.file, exLin, PlainProblem]

/-- A domain of 13 values: `Fact(13)` does not fit in an `int`. -/
theorem C28_fails : (⟨[13], [[⟨1, 0, true⟩]]⟩ : Problem).WellFormed ∧
    quadraticEncode (fileText (⟨[13], [[⟨1, 0, true⟩]]⟩ : Problem).file) = .ub :=
  ⟨by decide, by decide +kernel⟩

/-- The words of a list split at the word `0`, as DIMACS delimits clauses. -/
def splitAtZero : List (List Char) → List (List Char) → List (List (List Char))
  | acc, [] => if acc = [] then [] else [acc.reverse]
  | acc, w :: ws => if w = ['0'] then acc.reverse :: splitAtZero [] ws else splitAtZero (w :: acc) ws

/-- Read by the rule that a clause ends at `0`, the clauses about the variables merge with the first clause: the
formula `1=0`, `1=1` has no solution, but the file then has one. -/
theorem C28_stream_fails :
    let P : Problem := ⟨[2], [[⟨1, 0, true⟩], [⟨1, 1, true⟩]]⟩
    let cs : List (List ALit) := [[⟨true, 1, 0⟩, ⟨true, 1, 1⟩, ⟨false, 1, 0⟩, ⟨false, 1, 1⟩, ⟨true, 1, 0⟩], [⟨true, 1, 1⟩]]
    P.WellFormed ∧ ¬ P.Satisfiable ∧ ASatisfiable cs ∧
      ∃ hd lines, quadraticEncode (fileText P.file) = .ok (hd :: lines) ∧
        splitAtZero [] lines.flatten = cs.map fun c => c.map ALit.text := by
  refine ⟨by decide, ?_, ⟨fun _ _ => true, by decide⟩, _, _, rfl, by decide +kernel⟩
  rintro ⟨a, _, h⟩
  obtain ⟨l, hl, h1⟩ := h [⟨1, 0, true⟩] (by simp)
  obtain ⟨l', hl', h2⟩ := h [⟨1, 1, true⟩] (by simp)
  simp at hl hl'
  subst hl hl'
  simp [Lit.holds] at h1 h2
  omega

/-! ## C29: the numbers announced by the quadratic encoding -/

theorem announced_plain {ls : List FileLine} (h : NoProblem ls) : announced ls = 0 := by
  induction ls with
  | nil => rfl
  | cons l ls ih =>
    have ih := ih fun x hx => h x (List.mem_cons_of_mem _ hx)
    cases l with
    | comment t => exact ih
    | problem a b c => exact absurd rfl (h _ List.mem_cons_self a b c)
    | domain v d => exact ih
    | clause c => rfl

theorem announced_header {ls : List FileLine} {n m : Nat} (h : HeaderFirst ls n m) :
    announced ls = m ∧ PlainProblem ls := by
  induction ls with
  | nil => exact absurd h (by simp [HeaderFirst])
  | cons l ls ih =>
    cases l with
    | comment t =>
      obtain ⟨h1, h2⟩ := ih h
      refine ⟨h1, fun x hx a b => ?_⟩
      rcases List.mem_cons.1 hx with rfl | hx
      · simp
      · exact h2 x hx a b
    | problem a b c =>
      obtain ⟨rfl, rfl, rfl, hp⟩ := h
      refine ⟨by simp [announced, announced_plain hp], fun x hx u w => ?_⟩
      rcases List.mem_cons.1 hx with rfl | hx
      · simp
      · exact hp x hx true u w
    | domain v d => exact absurd h (by simp [HeaderFirst])
    | clause c => exact absurd h (by simp [HeaderFirst])

theorem aExtras_length {ds : List Nat} (h : ∀ d ∈ ds, d < 13) :
    ∀ v, (aExtras v ds).length = (ds.map quadCount).sum := by
  induction ds with
  | nil => intro v; rfl
  | cons d ds ih =>
    intro v
    simp only [aExtras, List.length_append, List.map_cons, List.sum_cons,
      aExtra_length d (h d List.mem_cons_self), ih (fun x hx => h x (List.mem_cons_of_mem _ hx))]

/-- The atoms of the variables from `v` on. -/
def atomsFrom : Nat → List Nat → List (Nat × Nat)
  | _, [] => []
  | v, d :: ds => (List.range d).map (fun k => (v, k)) ++ atomsFrom (v + 1) ds

theorem mem_atomsFrom {v w k : Nat} {ds : List Nat} :
    (w, k) ∈ atomsFrom v ds ↔ ∃ i, ∃ h : i < ds.length, w = v + i ∧ k < ds[i] := by
  induction ds generalizing v with
  | nil => simp [atomsFrom]
  | cons d ds ih =>
    simp only [atomsFrom, List.mem_append, List.mem_map, List.mem_range, Prod.mk.injEq, ih]
    constructor
    · rintro (⟨j, hj, rfl, rfl⟩ | ⟨i, hi, h1, h2⟩)
      · exact ⟨0, by simp, rfl, hj⟩
      · exact ⟨i + 1, by simp; omega, by omega, by simpa using h2⟩
    · rintro ⟨i, hi, h1, h2⟩
      cases i with
      | zero => exact .inl ⟨k, h2, by omega, rfl⟩
      | succ i => exact .inr ⟨i, by simpa using hi, by omega, by simpa using h2⟩

theorem atomsFrom_nodup (v : Nat) (ds : List Nat) : (atomsFrom v ds).Nodup := by
  induction ds generalizing v with
  | nil => exact List.nodup_nil
  | cons d ds ih =>
    refine List.nodup_append.2 ⟨?_, ih (v + 1), ?_⟩
    · unfold List.Nodup
      rw [List.pairwise_map]
      exact List.Pairwise.imp (fun h e => h (by cases e; rfl)) List.nodup_range
    · intro a ha b hb e
      subst e
      obtain ⟨k, _, rfl⟩ := List.mem_map.1 ha
      obtain ⟨i, _, h, _⟩ := mem_atomsFrom.1 hb
      omega

theorem atomsFrom_length (v : Nat) (ds : List Nat) : (atomsFrom v ds).length = ds.sum := by
  induction ds generalizing v with
  | nil => rfl
  | cons d ds ih => simp [atomsFrom, ih]

theorem aExtra_atoms {v d : Nat} {c : List ALit} (hc : c ∈ aExtra v d) : ∀ l ∈ c, l.var = v ∧ l.val < d := by
  intro l hl
  rcases List.mem_cons.1 hc with rfl | hc
  · obtain ⟨k, hk, rfl⟩ := List.mem_map.1 hl
    exact ⟨rfl, List.mem_range.1 hk⟩
  · obtain ⟨a, ha, hc⟩ := List.mem_flatMap.1 hc
    obtain ⟨b, hb, rfl⟩ := List.mem_map.1 hc
    have ha' := List.mem_range.1 ha
    have hb' := List.mem_range'_1.1 hb
    simp only [List.mem_cons, List.not_mem_nil, or_false] at hl
    rcases hl with rfl | rfl
    · exact ⟨rfl, ha'⟩
    · exact ⟨rfl, by show b < d; omega⟩

/-- The problem line announces the number of clauses written and the number of different atoms in them.  Missing:
domains of 13 or more values (`C28_fails`) and files without clauses. -/
theorem C29_quadratic_partial {ls : List FileLine} {P : Problem} (h : Describes ls P) (hw : P.WellFormed)
    (hh : HeaderFirst ls P.numVars P.clauses.length) (h13 : ∀ d ∈ P.doms, d < 13) (hc : P.clauses ≠ []) :
    ∃ nv nc ex cl, quadraticEncode (fileText ls) = .ok (atomWords nv nc ex cl) ∧ nc = (ex ++ cl).length ∧
      ∃ atoms : List (Nat × Nat), atoms.Nodup ∧ nv = atoms.length ∧
        ∀ v k, (v, k) ∈ atoms ↔ ∃ c ∈ ex ++ cl, ∃ l ∈ c, l.var = v ∧ l.val = k := by
  obtain ⟨ha, hp⟩ := announced_header hh
  refine ⟨_, _, _, _, quadWords_eq h hw hp h13 hc, ?_, atomsFrom 1 P.doms, atomsFrom_nodup _ _,
    (atomsFrom_length _ _).symm, fun v k => ⟨fun hm => ?_, ?_⟩⟩
  · rw [List.length_append, List.length_map, aExtras_length h13, ha, Nat.add_comm]
  · obtain ⟨i, hi, rfl, hk⟩ := mem_atomsFrom.1 hm
    refine ⟨(List.range P.doms[i]).map fun y => ⟨true, 1 + i, y⟩, List.mem_append_left _ ?_, ⟨true, 1 + i, k⟩, ?_, rfl, rfl⟩
    · exact (mem_aExtras 1 P.doms).2 ⟨i, hi, List.mem_cons_self⟩
    · exact List.mem_map.2 ⟨k, List.mem_range.2 hk, rfl⟩
  · rintro ⟨c, hc', l, hl, rfl, rfl⟩
    apply mem_atomsFrom.2
    rcases List.mem_append.1 hc' with hc' | hc'
    · obtain ⟨i, hi, hc'⟩ := (mem_aExtras 1 P.doms).1 hc'
      obtain ⟨e1, e2⟩ := aExtra_atoms hc' l hl
      exact ⟨i, hi, e1, e2⟩
    · obtain ⟨c0, h0, rfl⟩ := List.mem_map.1 hc'
      obtain ⟨l0, hl0, rfl⟩ := List.mem_map.1 hl
      obtain ⟨o1, o2, o3⟩ := hw.lits_ok c0 h0 l0 hl0
      have hi : l0.var - 1 < P.doms.length := by have : l0.var ≤ P.doms.length := o2; omega
      refine ⟨l0.var - 1, hi, by show l0.var = _; omega, ?_⟩
      obtain ⟨w, hw'⟩ : ∃ w, l0.var = w + 1 := ⟨l0.var - 1, by omega⟩
      show l0.val < _
      rw [hw'] at o3
      simp only [Problem.dom, List.getD_eq_getElem?_getD] at o3
      simp only [hw', Nat.add_sub_cancel]
      rwa [List.getElem?_eq_getElem (by omega)] at o3

example : Describes exLin.file exLin ∧ exLin.WellFormed ∧
    HeaderFirst exLin.file exLin.numVars exLin.clauses.length ∧ (∀ d ∈ exLin.doms, d < 13) ∧ exLin.clauses ≠ [] := by
  refine ⟨⟨by decide, by decide, ?_, by decide, by decide⟩, by decide, ?_, by decide, by decide⟩
  · simp [Problem.file, exLin, DomainsFirst, fileDoms]
  · simp [Problem.file, exLin, HeaderFirst, NoProblem, Problem.numVars]

/-! ## C30: Boolean to finite conversion preserves satisfiability -/

theorem finClause_holds {β : Nat → Bool} {a : Assignment} {c : List Int} (h0 : ∀ x ∈ c, x ≠ 0)
    (h : ∀ x ∈ c, a x.natAbs = if β x.natAbs then 1 else 0) : clauseHolds a (finClause c) ↔ BClauseHolds β c := by
  have hl : ∀ x ∈ c, Lit.holds a ⟨x.natAbs, if x < 0 then 0 else 1, true⟩ ↔ BLitHolds β x := by
    intro x hx
    have h1 := h0 x hx
    unfold Lit.holds BLitHolds
    simp only [if_true, h x hx]
    by_cases hp : 0 < x
    · have hn : ¬ x < 0 := by omega
      rw [if_pos hp, if_neg hn]
      cases β x.natAbs <;> simp
    · have hn : x < 0 := by omega
      rw [if_neg hp, if_pos hn]
      cases β x.natAbs <;> simp
  constructor
  · rintro ⟨l, hl', hh⟩
    obtain ⟨x, hx, rfl⟩ := List.mem_map.1 hl'
    exact ⟨x, hx, (hl x hx).1 hh⟩
  · rintro ⟨x, hx, hh⟩
    exact ⟨_, List.mem_map.2 ⟨x, hx, rfl⟩, (hl x hx).2 hh⟩

theorem bWellFormed {ls : List BLine} (h : ∀ l ∈ ls, l.Ok) :
    ∀ c ∈ bClauses ls, ∀ x ∈ c, x ≠ 0 ∧ FileLine.Small x.natAbs := by
  intro c hc x hx
  obtain ⟨l, hl, e⟩ := List.mem_filterMap.1 hc
  cases l with
  | comment t => cases e
  | problem n m => cases e
  | clause c' => cases e; exact (h _ hl).2 x hx

/-- The output is the other lines, the domain lines, and one clause line for each clause of the input; the clauses hold
under an assignment of 0 and 1 exactly when the input holds with 1 meaning true, and the output has a solution exactly
when the input has.  Missing: input without clauses, on which the program decrements the end of an empty set
(`C30_fails`). -/
theorem C30_b2f_partial {ls : List BLine} (h : ∀ l ∈ ls, l.Ok) (hc : bClauses ls ≠ []) :
    ∃ used : List Nat, boolean2Finite (bFileText ls) = .ok (bHead ls ++
        used.flatMap (fun v => FileLine.text (.domain v 2) ++ ['\n']) ++
        ((bClauses ls).map finClause).flatMap fun c => openClauseText c ++ ['\n']) ∧
      (∀ β, BSolves β (bClauses ls) ↔
        ∀ c ∈ (bClauses ls).map finClause, clauseHolds (fun v => if β v then 1 else 0) c) ∧
      (BSatisfiable (bClauses ls) ↔
        ∃ a : Assignment, (∀ v ∈ used, a v < 2) ∧ ∀ c ∈ (bClauses ls).map finClause, clauseHolds a c) := by
  obtain ⟨used, _, h2, e⟩ := boolean2Finite_text h hc
  have hb := bWellFormed h
  have iff1 : ∀ β, BSolves β (bClauses ls) ↔
        ∀ c ∈ (bClauses ls).map finClause, clauseHolds (fun v => if β v then 1 else 0) c := by
    intro β
    constructor
    · intro hs c' hc'
      obtain ⟨c, hc, rfl⟩ := List.mem_map.1 hc'
      exact (finClause_holds (fun x hx => (hb c hc x hx).1) (fun _ _ => rfl)).2 (hs c hc)
    · intro hs c hc
      exact (finClause_holds (fun x hx => (hb c hc x hx).1) (fun _ _ => rfl)).1 (hs _ (List.mem_map.2 ⟨c, hc, rfl⟩))
  refine ⟨used, ?_, iff1, ?_, ?_⟩
  · rw [e, List.flatMap_map]
  · rintro ⟨β, hβ⟩
    exact ⟨fun v => if β v then 1 else 0, fun v _ => by dsimp only; split <;> omega, (iff1 β).1 hβ⟩
  · rintro ⟨a, ha, hs⟩
    refine ⟨fun v => decide (a v = 1), fun c hc => ?_⟩
    refine (finClause_holds (fun x hx => (hb c hc x hx).1) ?_).1 (hs _ (List.mem_map.2 ⟨c, hc, rfl⟩))
    intro x hx
    have := ha x.natAbs ((h2 _).2 ⟨c, hc, x, hx, rfl⟩)
    by_cases e : a x.natAbs = 1
    · simp [e]
    · simp [e]; omega

/-- A Boolean formula over three variables. -/
def exBool : List BLine := [.comment " pre".toList, .problem 3 3, .clause [1, -2], .clause [2, 3], .clause [-1, -3]]

example : (∀ l ∈ exBool, l.Ok) ∧ bClauses exBool ≠ [] := by decide

/-- A Boolean formula without clauses. -/
theorem C30_fails : (∀ l ∈ [BLine.problem 0 0], l.Ok) ∧ BSatisfiable (bClauses [.problem 0 0]) ∧
    boolean2Finite (bFileText [.problem 0 0]) = .ub :=
  ⟨by decide, ⟨fun _ => true, by decide⟩, by decide +kernel⟩

/-! ## C31: the output of -b2f as input -/

/-- The finite-domain formula that says the same as a Boolean formula over the variables `1..N`. -/
def finProblem (N : Nat) (cs : List (List Int)) : Problem := ⟨List.replicate N 2, cs.map finClause⟩

theorem finProblem_sat {N : Nat} {cs : List (List Int)} (h0 : BWellFormed cs)
    (hu : ∀ v, BUses cs v → 1 ≤ v ∧ v ≤ N) : (finProblem N cs).Satisfiable ↔ BSatisfiable cs := by
  have hdom : ∀ v, 1 ≤ v → v ≤ N → (finProblem N cs).dom v = 2 := by
    intro v h1 h2
    obtain ⟨w, rfl⟩ : ∃ w, v = w + 1 := ⟨v - 1, by omega⟩
    simp only [finProblem, Problem.dom, List.getD_eq_getElem?_getD, List.getElem?_replicate, if_pos (show w < N from by omega)]
    rfl
  have hn : (finProblem N cs).numVars = N := by simp [finProblem, Problem.numVars]
  constructor
  · rintro ⟨a, ha, hs⟩
    refine ⟨fun v => decide (a v = 1), fun c hc => ?_⟩
    refine (finClause_holds (h0 c hc) ?_).1 (hs _ (List.mem_map.2 ⟨c, hc, rfl⟩))
    intro x hx
    obtain ⟨h1, h2⟩ := hu x.natAbs ⟨c, hc, x, hx, rfl⟩
    have := ha x.natAbs h1 (by rw [hn]; exact h2)
    rw [hdom _ h1 h2] at this
    by_cases e : a x.natAbs = 1
    · simp [e]
    · simp [e]; omega
  · rintro ⟨β, hβ⟩
    refine ⟨fun v => if β v then 1 else 0, fun v h1 h2 => ?_, fun c' hc' => ?_⟩
    · rw [hn] at h2
      rw [hdom v h1 h2]
      dsimp only; split <;> omega
    · obtain ⟨c, hc, rfl⟩ := List.mem_map.1 hc'
      exact (finClause_holds (h0 c hc) (fun _ _ => rfl)).2 (hβ c hc)

theorem finProblem_wellFormed {N : Nat} {cs : List (List Int)} (hu : ∀ v, BUses cs v → 1 ≤ v ∧ v ≤ N)
    (hne : ∀ c ∈ cs, c ≠ []) : (finProblem N cs).WellFormed := by
  refine ⟨?_, ?_, ?_⟩
  · intro d hd
    have := List.eq_of_mem_replicate hd
    omega
  · intro c' hc'
    obtain ⟨c, hc, rfl⟩ := List.mem_map.1 hc'
    have := hne c hc
    simpa [finClause] using this
  · intro c' hc' l hl
    obtain ⟨c, hc, rfl⟩ := List.mem_map.1 hc'
    obtain ⟨x, hx, rfl⟩ := List.mem_map.1 hl
    obtain ⟨h1, h2⟩ := hu x.natAbs ⟨c, hc, x, hx, rfl⟩
    refine ⟨h1, by simpa [finProblem, Problem.numVars] using h2, ?_⟩
    show _ < (finProblem N cs).dom x.natAbs
    obtain ⟨w, hw⟩ : ∃ w, x.natAbs = w + 1 := ⟨x.natAbs - 1, by omega⟩
    rw [hw]
    simp only [finProblem, Problem.dom, List.getD_eq_getElem?_getD, List.getElem?_replicate, if_pos (show w < N from by omega)]
    simp only [Option.getD_some]
    split <;> omega

theorem bHead_eq (ls : List BLine) : bHead ls =
    (ls.filter fun l => match l with | .clause _ => false | _ => true).flatMap fun l => l.text ++ ['\n'] := by
  unfold bHead
  induction ls with
  | nil => rfl
  | cons l ls ih => cases l <;> simp [ih]

theorem scanLine_head {l : BLine} (h : l.Ok) (hl : ∀ c, l ≠ .clause c) (s : Scan) :
    ∃ s', scanLine s (cString l.text) = .ok (s', none) := by
  cases l with
  | comment t => exact ⟨s, rfl⟩
  | problem n m =>
    have e : BLine.text (.problem n m) = FileLine.text (.problem false n m) := by simp [BLine.text, FileLine.text]
    obtain ⟨s', e'⟩ := scanLine_text s (l := .problem false n m) h.2
    refine ⟨s', ?_⟩
    rw [e, scanLine_cString s (l := .problem false n m) h.2, e']
    rfl
  | clause c => exact absurd rfl (hl c)

theorem natText_length_small {v : Nat} (h : FileLine.Small v) : (natText v).length ≤ 10 := by
  unfold natText FileLine.Small at *
  exact (Nat.length_toDigits_le_iff (by decide) (by decide)).2 (by omega)

/-- The domain lines declare exactly the variables used, in increasing order.  If these are `1..N` and no clause line of
the output has 3000 characters, the solver reads the intended formula.  Missing: formulas that leave out a variable
(`C31_fails`), and long clauses (`C31_long_fails`). -/
theorem C31_b2f_partial {ls : List BLine} (h : ∀ l ∈ ls, l.Ok) (hc : bClauses ls ≠ []) {N : Nat}
    (hN : ∀ v, BUses (bClauses ls) v ↔ 1 ≤ v ∧ v ≤ N)
    (hs : ∀ c ∈ bClauses ls, (openClauseText (finClause c)).length < 3000) :
    ∃ out, boolean2Finite (bFileText ls) = .ok out ∧
      out = bHead ls ++ (List.range' 1 N).flatMap (fun v => FileLine.text (.domain v 2) ++ ['\n']) ++
        (bClauses ls).flatMap (fun c => openClauseText (finClause c) ++ ['\n']) ∧
      readFile out = .ok (finProblem N (bClauses ls)).items ∧
      ((finProblem N (bClauses ls)).Satisfiable ↔ BSatisfiable (bClauses ls)) ∧
      ((∀ c ∈ bClauses ls, c ≠ []) → (finProblem N (bClauses ls)).WellFormed) := by
  have hb := bWellFormed h
  obtain ⟨used, h1, h2, e⟩ := boolean2Finite_text h hc
  have hused : used = List.range' 1 N := by
    refine sorted_ext h1 List.pairwise_lt_range' fun v => ?_
    rw [h2, hN, List.mem_range'_1]
    omega
  subst hused
  refine ⟨_, e, rfl, ?_, finProblem_sat (fun c hc x hx => (hb c hc x hx).1) (fun v hv => (hN v).1 hv),
    finProblem_wellFormed (fun v hv => (hN v).1 hv)⟩
  let hd := ls.filter fun l => match l with | .clause _ => false | _ => true
  let L : List (List Char × Option Item) := hd.map (fun l => (l.text, none)) ++
    (List.range' 1 N).map (fun v => (FileLine.text (.domain v 2), some (Item.dom 2))) ++
    (bClauses ls).map fun c => (openClauseText (finClause c), some (Item.clause (finClause c)))
  have hsm : ∀ v, 1 ≤ v → v ≤ N → FileLine.Small v := by
    intro v g1 g2
    obtain ⟨c, hc, x, hx, rfl⟩ := (hN v).2 ⟨g1, g2⟩
    exact (hb c hc x hx).2
  have hhd : ∀ l ∈ hd, l.Ok ∧ ∀ c, l ≠ .clause c := by
    intro l hl
    obtain ⟨g1, g2⟩ := List.mem_filter.1 hl
    refine ⟨h l g1, ?_⟩
    rintro c rfl
    cases g2
  have key := readFile_lines (fun p : List Char × Option Item => p.1) (fun p => p.2) (ls := L) ?_ ?_ ?_
  · have et : (L.flatMap fun l => l.1 ++ ['\n']) = bHead ls ++
        (List.range' 1 N).flatMap (fun v => FileLine.text (.domain v 2) ++ ['\n']) ++
        (bClauses ls).flatMap (fun c => openClauseText (finClause c) ++ ['\n']) := by
      simp only [L, List.flatMap_append, List.flatMap_map, bHead_eq]
      rfl
    have ei : L.filterMap (fun p => p.2) = (finProblem N (bClauses ls)).items := by
      have e1 : (hd.map fun l => (BLine.text l, (none : Option Item))).filterMap (fun p => p.2) = [] := by
        rw [List.filterMap_eq_nil_iff]
        intro p hp
        obtain ⟨l, _, rfl⟩ := List.mem_map.1 hp
        rfl
      have e2 : ∀ l : List Nat, (l.map fun v => (FileLine.text (.domain v 2), some (Item.dom 2))).filterMap (fun p => p.2) =
          List.replicate l.length (Item.dom 2) := by
        intro l
        induction l with
        | nil => rfl
        | cons a l ih => simp [ih, List.replicate_succ]
      have e3 : ∀ l : List (List Int), (l.map fun c => (openClauseText (finClause c), some (Item.clause (finClause c)))).filterMap
          (fun p => p.2) = l.map fun c => Item.clause (finClause c) := by
        intro l
        induction l with
        | nil => rfl
        | cons a l ih => simp [ih]
      simp only [L, List.filterMap_append, e1, e2, e3, List.nil_append, List.length_range']
      simp [finProblem, Problem.items]
    rw [et, ei] at key
    exact key
  · intro p hp
    simp only [L, List.mem_append, List.mem_map] at hp
    rcases hp with (⟨l, hl, rfl⟩ | ⟨v, hv, rfl⟩) | ⟨c, hc, rfl⟩
    · exact bText_no (hhd l hl).1 (.inl rfl)
    · have hv' := List.mem_range'_1.1 hv
      exact text_no_newline (l := .domain v 2) ⟨hsm v (by omega) (by omega), by decide⟩
    · exact openClauseText_no (by decide) (by decide) (by decide) (by decide)
  · intro p hp
    simp only [L, List.mem_append, List.mem_map] at hp
    rcases hp with (⟨l, hl, rfl⟩ | ⟨v, hv, rfl⟩) | ⟨c, hc, rfl⟩
    · exact (hhd l hl).1.1
    · have hv' := List.mem_range'_1.1 hv
      have := natText_length_small (hsm v (by omega) (by omega))
      simp [FileLine.text, show natText 2 = ['2'] from rfl]
      omega
    · exact hs c hc
  · intro p hp s
    simp only [L, List.mem_append, List.mem_map] at hp
    rcases hp with (⟨l, hl, rfl⟩ | ⟨v, hv, rfl⟩) | ⟨c, hc, rfl⟩
    · exact scanLine_head (hhd l hl).1 (hhd l hl).2 s
    · have hv' := List.mem_range'_1.1 hv
      have ho : (FileLine.domain v 2).Ok := ⟨hsm v (by omega) (by omega), by decide⟩
      obtain ⟨s', e'⟩ := scanLine_text s ho
      refine ⟨s', ?_⟩
      dsimp only
      rw [scanLine_cString s ho, e']
      rfl
    · apply scanLine_open
      intro l hl
      obtain ⟨x, hx, rfl⟩ := List.mem_map.1 hl
      obtain ⟨g1, g2⟩ := hb c hc x hx
      refine ⟨by show 1 ≤ x.natAbs; omega, g2, ?_⟩
      show FileLine.Small (if x < 0 then 0 else 1)
      split <;> decide

example : (∀ l ∈ exBool, l.Ok) ∧ bClauses exBool ≠ [] ∧ (∀ v, BUses (bClauses exBool) v ↔ 1 ≤ v ∧ v ≤ 3) ∧
    (∀ c ∈ bClauses exBool, (openClauseText (finClause c)).length < 3000) := by
  refine ⟨by decide, by decide, ?_, by decide⟩
  intro v
  constructor
  · rintro ⟨c, hc, x, hx, rfl⟩
    revert x
    revert c
    decide
  · rintro ⟨h1, h2⟩
    have : v = 1 ∨ v = 2 ∨ v = 3 := by omega
    rcases this with rfl | rfl | rfl
    · exact ⟨[1, -2], by decide, 1, by decide, rfl⟩
    · exact ⟨[1, -2], by decide, -2, by decide, rfl⟩
    · exact ⟨[2, 3], by decide, 3, by decide, rfl⟩

/-- Variable 2 is not used: the solver numbers the domain lines `d 1 2`, `d 3 2` as variables 1 and 2, and the clause
names a variable that does not exist. -/
theorem C31_fails : (∀ l ∈ [BLine.clause [1, 3]], l.Ok) ∧
    boolean2Finite (bFileText [.clause [1, 3]]) = .ok "d 1 2\nd 3 2\n1=1 3=1 \n".toList ∧
    ∀ m ∈ allModes, solveFile (exCfg m.2.1 m.2.2) m.1 10 "d 1 2\nd 3 2\n1=1 3=1 \n".toList = .ub :=
  ⟨by decide, by decide +kernel, by decide +kernel⟩

/-- A clause line of 2001 characters becomes one of 4000, at which the solver stops reading: the formula is
unsatisfiable, and the solver sees no clause. -/
theorem C31_long_fails :
    let ls : List BLine := [.clause (List.replicate 1000 1), .clause [-1]]
    (∀ l ∈ ls, l.Ok) ∧ ¬ BSatisfiable (bClauses ls) ∧
      (boolean2Finite (bFileText ls) >>= readFile) = .ok [.dom 2] := by
  refine ⟨by decide +kernel, ?_, by decide +kernel⟩
  rintro ⟨β, h⟩
  obtain ⟨x, hx, h1⟩ := h (List.replicate 1000 1) List.mem_cons_self
  obtain ⟨y, hy, h2⟩ := h [-1] (List.mem_cons_of_mem _ List.mem_cons_self)
  have hx := List.eq_of_mem_replicate hx
  simp at hy
  subst hx hy
  simp [BLitHolds] at h1 h2
  rw [h1] at h2
  cases h2

end Mvl
