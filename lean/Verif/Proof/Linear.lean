import Verif.Model.Encode
import Verif.SpecBool

/-!
# Linear encoding: the meaning of the clauses written
-/

namespace Mvl

theorem bLit_pos {β : Nat → Bool} {n : Nat} (h : 1 ≤ n) : BLitHolds β (n : Int) ↔ β n = true := by
  unfold BLitHolds
  rw [if_pos (by omega)]
  simp

theorem bLit_neg {β : Nat → Bool} {n : Nat} : BLitHolds β (-(n : Int)) ↔ β n = false := by
  unfold BLitHolds
  rw [if_neg (by omega)]
  simp

/-- The extra clauses say that exactly one of the first `d` variables is true, and that the others tell whether the
value has been passed. -/
theorem linExtra_iff {β : Nat → Bool} {b d : Nat} (hb : 1 ≤ b) (hd : 3 ≤ d) :
    BSolves β (linExtra (b : Int) d) ↔
      ∃ k, k < d ∧ (∀ j, j < d → β (b + j) = decide (j = k)) ∧ ∀ j, j < d - 1 → β (b + d + j) = decide (k ≤ j) := by
  have key : BSolves β (linExtra (b : Int) d) ↔
      (∃ k, k < d ∧ β (b + k) = true) ∧ (β (b + d) = false ∨ β b = true) ∧ (β (b + d) = true ∨ β b = false) ∧
      (∀ j, j < d - 2 → (β (b + d + 1 + j) = false ∨ β (b + d + j) = true ∨ β (b + 1 + j) = true) ∧
        (β (b + d + 1 + j) = true ∨ β (b + d + j) = false) ∧ (β (b + d + 1 + j) = true ∨ β (b + 1 + j) = false)) ∧
      ∀ j, j < d - 1 → β (b + d + j) = false ∨ β (b + 1 + j) = false := by
    have c1 : ∀ j : Nat, ((b : Int) + d + 1 + j) = ((b + d + 1 + j : Nat) : Int) := by intro j; omega
    have c2 : ∀ j : Nat, ((b : Int) + d + j) = ((b + d + j : Nat) : Int) := by intro j; omega
    have c3 : ∀ j : Nat, ((b : Int) + 1 + j) = ((b + 1 + j : Nat) : Int) := by intro j; omega
    have c4 : ∀ j : Nat, ((b : Int) + j) = ((b + j : Nat) : Int) := by intro j; omega
    have p1 : ∀ j, BLitHolds β ((b + d + 1 + j : Nat) : Int) ↔ _ := fun j => bLit_pos (by omega)
    have p2 : ∀ j, BLitHolds β ((b + d + j : Nat) : Int) ↔ _ := fun j => bLit_pos (by omega)
    have p3 : ∀ j, BLitHolds β ((b + 1 + j : Nat) : Int) ↔ _ := fun j => bLit_pos (by omega)
    have p4 : ∀ j, BLitHolds β ((b + j : Nat) : Int) ↔ _ := fun j => bLit_pos (by omega)
    have p5 : BLitHolds β ((b + d : Nat) : Int) ↔ _ := bLit_pos (by omega)
    have p6 : BLitHolds β (b : Int) ↔ _ := bLit_pos hb
    constructor
    · intro h
      refine ⟨?_, ?_, ?_, ?_, ?_⟩
      · obtain ⟨x, hx, hl⟩ := h ((List.range d).map fun j : Nat => (b : Int) + j) (by simp [linExtra])
        obtain ⟨k, hk, rfl⟩ := List.mem_map.1 hx
        rw [c4, p4] at hl
        exact ⟨k, List.mem_range.1 hk, hl⟩
      · obtain ⟨x, hx, hl⟩ := h [-((b : Int) + d), b] (by simp [linExtra])
        rcases List.mem_cons.1 hx with rfl | hx
        · rw [c4, bLit_neg] at hl; exact .inl hl
        · simp at hx; subst hx; rw [p6] at hl; exact .inr hl
      · obtain ⟨x, hx, hl⟩ := h [(b : Int) + d, -b] (by simp [linExtra])
        rcases List.mem_cons.1 hx with rfl | hx
        · rw [c4, p5] at hl; exact .inl hl
        · simp at hx; subst hx; rw [bLit_neg] at hl; exact .inr hl
      · intro j hj
        have hm : ∀ c, c ∈ [[-((b : Int) + d + 1 + j), b + d + j, b + 1 + j], [(b : Int) + d + 1 + j, -(b + d + j)],
            [(b : Int) + d + 1 + j, -(b + 1 + j)]] → BClauseHolds β c := by
          intro c hc
          apply h
          unfold linExtra
          refine List.mem_append_left _ (List.mem_append_right _ ?_)
          exact List.mem_flatMap.2 ⟨j, List.mem_range.2 hj, hc⟩
        refine ⟨?_, ?_, ?_⟩
        · obtain ⟨x, hx, hl⟩ := hm _ (by simp; exact .inl rfl)
          simp only [List.mem_cons, List.not_mem_nil, or_false] at hx
          rcases hx with rfl | rfl | rfl
          · rw [c1, bLit_neg] at hl; exact .inl hl
          · rw [c2, p2] at hl; exact .inr (.inl hl)
          · rw [c3, p3] at hl; exact .inr (.inr hl)
        · obtain ⟨x, hx, hl⟩ := hm _ (by simp; exact .inr (.inl rfl))
          simp only [List.mem_cons, List.not_mem_nil, or_false] at hx
          rcases hx with rfl | rfl
          · rw [c1, p1] at hl; exact .inl hl
          · rw [c2, bLit_neg] at hl; exact .inr hl
        · obtain ⟨x, hx, hl⟩ := hm _ (by simp; exact .inr (.inr rfl))
          simp only [List.mem_cons, List.not_mem_nil, or_false] at hx
          rcases hx with rfl | rfl
          · rw [c1, p1] at hl; exact .inl hl
          · rw [c3, bLit_neg] at hl; exact .inr hl
      · intro j hj
        obtain ⟨x, hx, hl⟩ := h [-((b : Int) + d + j), -(b + 1 + j)] (by
          unfold linExtra
          exact List.mem_append_right _ (List.mem_map.2 ⟨j, List.mem_range.2 hj, rfl⟩))
        simp only [List.mem_cons, List.not_mem_nil, or_false] at hx
        rcases hx with rfl | rfl
        · rw [c2, bLit_neg] at hl; exact .inl hl
        · rw [c3, bLit_neg] at hl; exact .inr hl
    · rintro ⟨⟨k, hk, h1⟩, h2, h3, h4, h5⟩ c hc
      unfold linExtra at hc
      rcases List.mem_append.1 hc with hc | hc
      · rcases List.mem_append.1 hc with hc | hc
        · rcases List.mem_append.1 hc with hc | hc
          · rw [List.mem_singleton] at hc
            subst hc
            exact ⟨_, List.mem_map.2 ⟨k, List.mem_range.2 hk, rfl⟩, by rw [c4, p4]; exact h1⟩
          · simp only [List.mem_cons, List.not_mem_nil, or_false] at hc
            rcases hc with rfl | rfl
            · rcases h2 with h | h
              · exact ⟨_, List.mem_cons_self, by rw [c4, bLit_neg]; exact h⟩
              · exact ⟨_, List.mem_cons_of_mem _ List.mem_cons_self, by rw [p6]; exact h⟩
            · rcases h3 with h | h
              · exact ⟨_, List.mem_cons_self, by rw [c4, p5]; exact h⟩
              · exact ⟨_, List.mem_cons_of_mem _ List.mem_cons_self, by rw [bLit_neg]; exact h⟩
        · obtain ⟨j, hj, hc⟩ := List.mem_flatMap.1 hc
          obtain ⟨g1, g2, g3⟩ := h4 j (List.mem_range.1 hj)
          simp only [List.mem_cons, List.not_mem_nil, or_false] at hc
          rcases hc with rfl | rfl | rfl
          · rcases g1 with h | h | h
            · exact ⟨_, List.mem_cons_self, by rw [c1, bLit_neg]; exact h⟩
            · exact ⟨_, List.mem_cons_of_mem _ List.mem_cons_self, by rw [c2, p2]; exact h⟩
            · exact ⟨_, List.mem_cons_of_mem _ (List.mem_cons_of_mem _ List.mem_cons_self), by rw [c3, p3]; exact h⟩
          · rcases g2 with h | h
            · exact ⟨_, List.mem_cons_self, by rw [c1, p1]; exact h⟩
            · exact ⟨_, List.mem_cons_of_mem _ List.mem_cons_self, by rw [c2, bLit_neg]; exact h⟩
          · rcases g3 with h | h
            · exact ⟨_, List.mem_cons_self, by rw [c1, p1]; exact h⟩
            · exact ⟨_, List.mem_cons_of_mem _ List.mem_cons_self, by rw [c3, bLit_neg]; exact h⟩
      · obtain ⟨j, hj, rfl⟩ := List.mem_map.1 hc
        rcases h5 j (List.mem_range.1 hj) with h | h
        · exact ⟨_, List.mem_cons_self, by rw [c2, bLit_neg]; exact h⟩
        · exact ⟨_, List.mem_cons_of_mem _ List.mem_cons_self, by rw [c3, bLit_neg]; exact h⟩
  rw [key]
  constructor
  · rintro ⟨⟨k, hk, h1⟩, h2, h3, h4, h5⟩
    have hy : ∀ j, j < d - 1 → (β (b + d + j) = true ↔ ∃ i, i ≤ j ∧ β (b + i) = true) := by
      intro j
      induction j with
      | zero =>
        intro _
        constructor
        · intro h
          refine ⟨0, Nat.le_refl _, ?_⟩
          rcases h2 with h' | h'
          · rw [Nat.add_zero, h'] at h; cases h
          · exact h'
        · rintro ⟨i, hi, h⟩
          obtain rfl : i = 0 := by omega
          rcases h3 with h' | h'
          · exact h'
          · rw [Nat.add_zero, h'] at h; cases h
      | succ j ih =>
        intro hj
        have ih := ih (by omega)
        obtain ⟨g1, g2, g3⟩ := h4 j (by omega)
        rw [show b + d + 1 + j = b + d + (j + 1) from by omega, show b + 1 + j = b + (j + 1) from by omega] at g1 g3
        rw [show b + d + 1 + j = b + d + (j + 1) from by omega] at g2
        constructor
        · intro h
          rcases g1 with g | g | g
          · rw [g] at h; cases h
          · obtain ⟨i, hi, h'⟩ := ih.1 g
            exact ⟨i, by omega, h'⟩
          · exact ⟨j + 1, Nat.le_refl _, g⟩
        · rintro ⟨i, hi, h⟩
          by_cases e : i = j + 1
          · subst e
            rcases g3 with g | g
            · exact g
            · rw [g] at h; cases h
          · have := ih.2 ⟨i, by omega, h⟩
            rcases g2 with g | g
            · exact g
            · rw [g] at this; cases this
    have hlt : ∀ i j, i < j → j < d → β (b + i) = true → β (b + j) = false := by
      intro i j hij hj h
      have := (hy (j - 1) (by omega)).2 ⟨i, by omega, h⟩
      rcases h5 (j - 1) (by omega) with g | g
      · rw [g] at this; cases this
      · rwa [show b + 1 + (j - 1) = b + j from by omega] at g
    have hx : ∀ j, j < d → β (b + j) = decide (j = k) := by
      intro j hj
      rcases Nat.lt_trichotomy j k with h | h | h
      · rw [decide_eq_false (by omega)]
        cases e : β (b + j) with
        | false => rfl
        | true => rw [hlt j k h hk e] at h1; cases h1
      · subst h; simp [h1]
      · rw [decide_eq_false (by omega)]; exact hlt k j h hj h1
    refine ⟨k, hk, hx, ?_⟩
    intro j hj
    by_cases h : k ≤ j
    · rw [decide_eq_true h]; exact (hy j hj).2 ⟨k, h, h1⟩
    · rw [decide_eq_false h]
      cases e : β (b + d + j) with
      | false => rfl
      | true =>
        obtain ⟨i, hi, h'⟩ := (hy j hj).1 e
        rw [hx i (by omega), decide_eq_true_eq] at h'
        omega
  · rintro ⟨k, hk, hx, hy⟩
    have y0 := hy 0 (by omega)
    have x0 := hx 0 (by omega)
    rw [Nat.add_zero] at y0 x0
    refine ⟨⟨k, hk, by rw [hx k hk]; simp⟩, ?_, ?_, ?_, ?_⟩
    · rw [y0, x0]; by_cases h : k = 0 <;> simp [h] <;> omega
    · rw [y0, x0]; by_cases h : k = 0 <;> simp [h] <;> omega
    · intro j hj
      rw [show b + d + 1 + j = b + d + (j + 1) from by omega, show b + 1 + j = b + (j + 1) from by omega,
        hy (j + 1) (by omega), hy j (by omega), hx (j + 1) (by omega)]
      simp only [decide_eq_false_iff_not, decide_eq_true_eq]
      omega
    · intro j hj
      rw [show b + 1 + j = b + (j + 1) from by omega, hy j hj, hx (j + 1) (by omega)]
      simp only [decide_eq_false_iff_not]
      omega

/-! ## The index -/

/-- Number of Boolean variables used for a variable with `d` values. -/
def linWidth (d : Nat) : Nat := if d = 2 then 1 else 2 * d - 1

def linIdx (D : Nat → Nat) : Nat → Nat
  | 0 => 0
  | 1 => 1
  | i + 2 => linIdx D (i + 1) + linWidth (D (i + 1))

theorem linIndex_eq {D : Nat → Nat} (h : ∀ i, 1 ≤ i → 2 ≤ D i) :
    ∀ i, linIndex (fun i => (D i : Int)) i = (linIdx D i : Int) := by
  intro i
  induction i using linIdx.induct with
  | case1 => rfl
  | case2 => rfl
  | case3 i ih =>
    rw [linIndex, linIdx, ih]
    have := h (i + 1) (by omega)
    unfold linWidth
    by_cases e : D (i + 1) = 2
    · rw [if_pos (by omega), if_pos e]; omega
    · rw [if_neg (by omega), if_neg e]; omega

theorem linIdx_pos (D : Nat → Nat) : ∀ i, 1 ≤ i → 1 ≤ linIdx D i := by
  intro i
  induction i using linIdx.induct with
  | case1 => intro h; omega
  | case2 => intro _; exact Nat.le_refl _
  | case3 i ih => intro _; rw [linIdx]; have := ih (by omega); omega

theorem linIdx_lt (D : Nat → Nat) {v w : Nat} (hv : 1 ≤ v) (h : v < w) :
    linIdx D v + linWidth (D v) ≤ linIdx D w := by
  obtain ⟨k, rfl⟩ : ∃ k, w = v + k + 1 := ⟨w - v - 1, by omega⟩
  clear h
  obtain ⟨v, rfl⟩ : ∃ u, v = u + 1 := ⟨v - 1, by omega⟩
  induction k with
  | zero => exact Nat.le_refl _
  | succ k ih =>
    rw [show v + 1 + (k + 1) + 1 = (v + 1 + k) + 2 from by omega, linIdx]
    omega

theorem linIdx_unique (D : Nat → Nat) {v w m : Nat} (hv : 1 ≤ v) (hw : 1 ≤ w)
    (h1 : linIdx D v ≤ m) (h2 : m < linIdx D v + linWidth (D v))
    (h3 : linIdx D w ≤ m) (h4 : m < linIdx D w + linWidth (D w)) : v = w := by
  rcases Nat.lt_trichotomy v w with h | h | h
  · have := linIdx_lt D hv h; omega
  · exact h
  · have := linIdx_lt D hw h; omega

/-! ## The whole formula -/

/-- The literal written for a literal of the input. -/
def linLitInt (D : Nat → Nat) (l : Lit) : Int :=
  if 2 < D l.var then if l.eq then ((linIdx D l.var + l.val : Nat) : Int) else -((linIdx D l.var + l.val : Nat) : Int)
  else if l.val = 1 then (linIdx D l.var : Int) else -(linIdx D l.var : Int)

/-- The extra clauses of all variables `1..n`. -/
def linExtras (D : Nat → Nat) (n : Nat) : List (List Int) :=
  (List.range' 1 n).flatMap fun i => if 2 < D i then linExtra (linIdx D i : Int) (D i) else []

/-- The clauses written. -/
def linCnf (D : Nat → Nat) (n : Nat) (cs : List (List Lit)) : List (List Int) :=
  linExtras D n ++ cs.map fun c => c.map (linLitInt D)

theorem mem_linExtras {D : Nat → Nat} {n : Nat} {c : List Int} :
    c ∈ linExtras D n ↔ ∃ i, 1 ≤ i ∧ i ≤ n ∧ 2 < D i ∧ c ∈ linExtra (linIdx D i : Int) (D i) := by
  unfold linExtras
  rw [List.mem_flatMap]
  constructor
  · rintro ⟨i, hi, hc⟩
    have := List.mem_range'_1.1 hi
    split at hc
    · next h => exact ⟨i, by omega, by omega, h, hc⟩
    · cases hc
  · rintro ⟨i, h1, h2, h3, h4⟩
    exact ⟨i, List.mem_range'_1.2 (by omega), by rw [if_pos h3]; exact h4⟩

/-- A Boolean assignment that represents `a`. -/
def Represents (D : Nat → Nat) (n : Nat) (β : Nat → Bool) (a : Assignment) : Prop :=
  ∀ v, 1 ≤ v → v ≤ n → a v < D v ∧ (D v = 2 → β (linIdx D v) = decide (a v = 1)) ∧
    (2 < D v → ∀ j, j < D v → β (linIdx D v + j) = decide (j = a v))

theorem linLit_holds {D : Nat → Nat} {n : Nat} {β : Nat → Bool} {a : Assignment} (hr : Represents D n β a)
    {l : Lit} (h1 : 1 ≤ l.var) (h2 : l.var ≤ n) (h3 : l.val < D l.var) (hd : 2 ≤ D l.var)
    (hn : l.eq = false → 2 < D l.var) : BLitHolds β (linLitInt D l) ↔ l.holds a := by
  obtain ⟨ha, r2, r3⟩ := hr l.var h1 h2
  have hi := linIdx_pos D l.var h1
  unfold linLitInt Lit.holds
  by_cases h : 2 < D l.var
  · rw [if_pos h]
    have := r3 h l.val h3
    by_cases e : l.eq = true
    · rw [if_pos e, if_pos e, bLit_pos (by omega), this, decide_eq_true_eq]; exact eq_comm
    · rw [if_neg e, if_neg e, bLit_neg, this, decide_eq_false_iff_not]; exact not_congr eq_comm
  · have e : l.eq = true := by
      cases e : l.eq with
      | true => rfl
      | false => exact absurd (hn e) h
    have hd2 : D l.var = 2 := by omega
    have := r2 hd2
    rw [if_neg h, if_pos e]
    by_cases hv : l.val = 1
    · rw [if_pos hv, bLit_pos hi, this, decide_eq_true_eq, hv]
    · rw [if_neg hv, bLit_neg, this, decide_eq_false_iff_not]; omega

/-- Equisatisfiability, when no literal `v!=k` names a two-valued variable. -/
theorem linCnf_sat {D : Nat → Nat} {n : Nat} {cs : List (List Lit)} (hD : ∀ i, 1 ≤ i → 2 ≤ D i)
    (hok : ∀ c ∈ cs, ∀ l ∈ c, 1 ≤ l.var ∧ l.var ≤ n ∧ l.val < D l.var)
    (hn : ∀ c ∈ cs, ∀ l ∈ c, l.eq = false → 2 < D l.var) :
    BSatisfiable (linCnf D n cs) ↔
      ∃ a : Assignment, (∀ v, 1 ≤ v → v ≤ n → a v < D v) ∧ ∀ c ∈ cs, clauseHolds a c := by
  have clauses : ∀ β a, Represents D n β a →
      ((∀ c ∈ cs.map fun c => c.map (linLitInt D), BClauseHolds β c) ↔ ∀ c ∈ cs, clauseHolds a c) := by
    intro β a hr
    constructor
    · intro h c hc
      obtain ⟨x, hx, hl⟩ := h _ (List.mem_map.2 ⟨c, hc, rfl⟩)
      obtain ⟨l, hl', rfl⟩ := List.mem_map.1 hx
      obtain ⟨o1, o2, o3⟩ := hok c hc l hl'
      exact ⟨l, hl', (linLit_holds hr o1 o2 o3 (hD _ o1) (hn c hc l hl')).1 hl⟩
    · intro h c' hc'
      obtain ⟨c, hc, rfl⟩ := List.mem_map.1 hc'
      obtain ⟨l, hl', hl⟩ := h c hc
      obtain ⟨o1, o2, o3⟩ := hok c hc l hl'
      exact ⟨_, List.mem_map.2 ⟨l, hl', rfl⟩, (linLit_holds hr o1 o2 o3 (hD _ o1) (hn c hc l hl')).2 hl⟩
  constructor
  · rintro ⟨β, hβ⟩
    have hex : ∀ v, 1 ≤ v → v ≤ n → ∃ k, k < D v ∧ (D v = 2 → β (linIdx D v) = decide (k = 1)) ∧
        (2 < D v → ∀ j, j < D v → β (linIdx D v + j) = decide (j = k)) := by
      intro v h1 h2
      by_cases h : 2 < D v
      · have : BSolves β (linExtra (linIdx D v : Int) (D v)) := by
          intro c hc
          exact hβ c (List.mem_append_left _ (mem_linExtras.2 ⟨v, h1, h2, h, hc⟩))
        obtain ⟨k, hk, hx, _⟩ := (linExtra_iff (linIdx_pos D v h1) h).1 this
        exact ⟨k, hk, by omega, fun _ => hx⟩
      · have := hD v h1
        refine ⟨if β (linIdx D v) = true then 1 else 0, by split <;> omega, fun _ => ?_, fun h' => absurd h' h⟩
        cases β (linIdx D v) <;> simp
    let a : Assignment := fun v => if h : 1 ≤ v ∧ v ≤ n then Classical.choose (hex v h.1 h.2) else 0
    have hr : Represents D n β a := by
      intro v h1 h2
      have := Classical.choose_spec (hex v h1 h2)
      simp only [a, dif_pos (And.intro h1 h2)]
      exact this
    refine ⟨a, fun v h1 h2 => (hr v h1 h2).1, (clauses β a hr).1 ?_⟩
    intro c hc
    exact hβ c (List.mem_append_right _ hc)
  · rintro ⟨a, ha, hc⟩
    let Q : Nat → Prop := fun m => ∃ v, 1 ≤ v ∧ v ≤ n ∧ ((D v = 2 ∧ m = linIdx D v ∧ a v = 1) ∨
      (2 < D v ∧ ((∃ j, j < D v ∧ m = linIdx D v + j ∧ j = a v) ∨
        (∃ j, j < D v - 1 ∧ m = linIdx D v + D v + j ∧ a v ≤ j))))
    let β : Nat → Bool := fun m => @decide (Q m) (Classical.propDecidable _)
    have hQ : ∀ m, β m = true ↔ Q m := by intro m; simp [β]
    have uniq : ∀ v w m, 1 ≤ v → v ≤ n → 1 ≤ w → w ≤ n → linIdx D v ≤ m → m < linIdx D v + linWidth (D v) →
        ((D w = 2 ∧ m = linIdx D w ∧ a w = 1) ∨ (2 < D w ∧ ((∃ j, j < D w ∧ m = linIdx D w + j ∧ j = a w) ∨
        (∃ j, j < D w - 1 ∧ m = linIdx D w + D w + j ∧ a w ≤ j)))) → v = w := by
      intro v w m h1 _ h3 _ h5 h6 hq
      apply linIdx_unique D h1 h3 h5 h6
      · rcases hq with ⟨_, e, _⟩ | ⟨_, ⟨j, _, e, _⟩ | ⟨j, _, e, _⟩⟩ <;> omega
      · unfold linWidth
        rcases hq with ⟨e0, e, _⟩ | ⟨e0, ⟨j, hj, e, _⟩ | ⟨j, hj, e, _⟩⟩
        · rw [if_pos e0]; omega
        · rw [if_neg (by omega)]; omega
        · rw [if_neg (by omega)]; omega
    have hbool : ∀ m (p : Prop) [Decidable p], (Q m ↔ p) → β m = decide p := by
      intro m p _ h
      by_cases hp : p
      · rw [decide_eq_true hp]; exact (hQ m).2 (h.2 hp)
      · rw [decide_eq_false hp]
        cases e : β m with
        | false => rfl
        | true => exact absurd (h.1 ((hQ m).1 e)) hp
    have b2 : ∀ v, 1 ≤ v → v ≤ n → D v = 2 → β (linIdx D v) = decide (a v = 1) := by
      intro v h1 h2 hd
      apply hbool
      constructor
      · rintro ⟨w, w1, w2, hq⟩
        obtain rfl := uniq v w _ h1 h2 w1 w2 (Nat.le_refl _) (by unfold linWidth; rw [if_pos hd]; omega) hq
        rcases hq with h | h
        · exact h.2.2
        · omega
      · intro h; exact ⟨v, h1, h2, .inl ⟨hd, rfl, h⟩⟩
    have bx : ∀ v, 1 ≤ v → v ≤ n → 2 < D v → ∀ j, j < D v → β (linIdx D v + j) = decide (j = a v) := by
      intro v h1 h2 hd j hj
      apply hbool
      constructor
      · rintro ⟨w, w1, w2, hq⟩
        obtain rfl := uniq v w _ h1 h2 w1 w2 (Nat.le_add_right _ _) (by unfold linWidth; rw [if_neg (by omega)]; omega) hq
        rcases hq with ⟨e0, _⟩ | ⟨_, ⟨i, hi, e, h⟩ | ⟨i, hi, e, h⟩⟩ <;> omega
      · intro h; exact ⟨v, h1, h2, .inr ⟨hd, .inl ⟨j, hj, rfl, h⟩⟩⟩
    have by' : ∀ v, 1 ≤ v → v ≤ n → 2 < D v → ∀ j, j < D v - 1 → β (linIdx D v + D v + j) = decide (a v ≤ j) := by
      intro v h1 h2 hd j hj
      apply hbool
      constructor
      · rintro ⟨w, w1, w2, hq⟩
        obtain rfl := uniq v w _ h1 h2 w1 w2 (by omega) (by unfold linWidth; rw [if_neg (by omega)]; omega) hq
        rcases hq with ⟨e0, _⟩ | ⟨_, ⟨i, hi, e, h⟩ | ⟨i, hi, e, h⟩⟩
        · omega
        · omega
        · omega
      · intro h; exact ⟨v, h1, h2, .inr ⟨hd, .inr ⟨j, hj, rfl, h⟩⟩⟩
    have hr : Represents D n β a := fun v h1 h2 => ⟨ha v h1 h2, b2 v h1 h2, bx v h1 h2⟩
    refine ⟨β, ?_⟩
    intro c hc'
    rcases List.mem_append.1 hc' with hc' | hc'
    · obtain ⟨v, h1, h2, h3, h4⟩ := mem_linExtras.1 hc'
      exact (linExtra_iff (linIdx_pos D v h1) h3).2 ⟨a v, ha v h1 h2, bx v h1 h2 h3, by' v h1 h2 h3⟩ c h4
    · exact (clauses β a hr).2 hc c hc'

/-! ## Sizes -/

theorem linExtra_length (b : Int) {d : Nat} (hd : 2 < d) : (linExtra b d).length = 4 * (d - 2) + 4 := by
  have : ∀ (m : Nat) (f g h : Nat → List Int), ((List.range m).flatMap fun j => [f j, g j, h j]).length = 3 * m := by
    intro m f g h
    induction m with
    | zero => rfl
    | succ m ih => rw [List.range_succ, List.flatMap_append, List.length_append, ih]; simp; omega
  unfold linExtra
  simp only [List.length_append, List.length_cons, List.length_nil, List.length_map, List.length_range, this]
  omega

end Mvl
