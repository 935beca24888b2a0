import Verif.Proof.PA

/-!
# The trail: assignments, levels, reasons, decision stack
-/

namespace Mvl

variable {S : Type}

/-- The part of the state that records the assignment. -/
structure Trail where
  nv    : Nat
  dom   : Nat → Nat
  vval  : Nat → Option Nat
  asg   : PA
  lvl   : Nat → Nat → Int
  idx   : Nat → Nat → Int
  rsn   : Nat → Nat → Int
  decs  : List Lit
  LEVEL : Int

def St.tr (s : St S) : Trail := ⟨s.nv, s.dom, s.vval, s.asg, s.lvl, s.idx, s.rsn, s.decs, s.LEVEL⟩

namespace Trail

def Rng (t : Trail) (v d : Nat) : Prop := 1 ≤ v ∧ v ≤ t.nv ∧ d < t.dom v

/-- The assignment restricted to levels up to `k`. -/
def asgAt (t : Trail) (k : Int) : PA := fun v d => if t.lvl v d > k then .un else t.asg v d

def set (t : Trail) (v d : Nat) (a : Asg) (r : Int) : Trail :=
  { t with
    asg := upd2 t.asg v d a
    lvl := upd2 t.lvl v d t.LEVEL
    rsn := upd2 t.rsn v d r
    idx := upd2 t.idx v d ((t.decs.length : Int) - 1) }

/-- Push a literal on the decision stack and assign its atom. -/
def assignL (t : Trail) (l : Lit) (r : Int) : Trail :=
  ({ t with decs := t.decs ++ [l],
            vval := if l.eq then upd t.vval l.var (some l.val) else t.vval } : Trail).set
    l.var l.val (Asg.ofSign l.eq) r

def undo (t : Trail) (k : Int) : Trail :=
  { t with
    asg := t.asgAt k
    lvl := fun v d => if t.lvl v d > k then -10 else t.lvl v d
    rsn := fun v d => if t.lvl v d > k then -10 else t.rsn v d
    vval := fun v => if 1 ≤ v ∧ v ≤ t.nv ∧ ∃ d < t.dom v, t.lvl v d > k then none else t.vval v
    decs := t.decs.filter fun l => t.asgAt k l.var l.val ≠ .un }

def level (t : Trail) (k : Int) : Trail := { t with LEVEL := k }

/-- Well-formedness of the trail; holds at all times, also in the middle of a conflict. -/
structure Base (t : Trail) : Prop where
  rng   : ∀ v d, t.asg v d ≠ .un → t.Rng v d
  un    : ∀ v d, t.asg v d = .un → t.lvl v d = -10
  lvl0  : ∀ v d, t.asg v d ≠ .un → 0 ≤ t.lvl v d
  lvlL  : ∀ v d, t.asg v d ≠ .un → t.lvl v d ≤ t.LEVEL
  vv    : ∀ v d, 1 ≤ v → v ≤ t.nv → (t.vval v = some d ↔ t.asg v d = .eq)
  d1    : ∀ v d, t.asg v d ≠ .un → ∃ (i : Nat) (L : Lit), t.idx v d = i ∧ t.decs[i]? = some L ∧
            L.var = v ∧ t.lvl v L.val = t.lvl v d ∧
            ((L.val = d ∧ t.asg v d = Asg.ofSign L.eq) ∨
             (L.eq = true ∧ L.val ≠ d ∧ t.asg v d = .ne))
  d2    : ∀ (i : Nat) (L : Lit), t.decs[i]? = some L → LT t.asg L ∧ t.idx L.var L.val = (i : Nat)
  d3    : ∀ (i j : Nat) (L M : Lit), i ≤ j → t.decs[i]? = some L → t.decs[j]? = some M →
            t.lvl L.var L.val ≤ t.lvl M.var M.val

variable {t : Trail}

theorem Base.un_iff (h : Base t) (v d : Nat) : t.asg v d = .un ↔ t.lvl v d = -10 := by
  constructor
  · exact h.un v d
  · intro hl
    by_cases hu : t.asg v d = .un
    · exact hu
    · have := h.lvl0 v d hu; omega

theorem upd2_of_ne {α : Type} (f : Nat → Nat → α) {v d v' d' : Nat} (x : α)
    (h : ¬ (v' = v ∧ d' = d)) : upd2 f v d x v' d' = f v' d' := by simp [upd2, h]

theorem upd2_apply {α : Type} (f : Nat → Nat → α) (v d v' d' : Nat) (x : α) :
    upd2 f v d x v' d' = if v' = v ∧ d' = d then x else f v' d' := rfl

theorem lvl_le_of_idx (h : Base t) {v d v' d' : Nat} (h1 : t.asg v d ≠ .un) (h2 : t.asg v' d' ≠ .un)
    (hi : t.idx v d ≤ t.idx v' d') : t.lvl v d ≤ t.lvl v' d' := by
  obtain ⟨i, L, hiv, hL, hLv, hLl, _⟩ := h.d1 v d h1
  obtain ⟨j, M, hjv, hM, hMv, hMl, _⟩ := h.d1 v' d' h2
  have := h.d3 i j L M (by omega) hL hM
  rw [hLv, hMv] at this
  omega

theorem asgAt_of_le (h : Base t) {k : Int} (hk : t.LEVEL ≤ k) : t.asgAt k = t.asg := by
  funext v d
  unfold asgAt
  by_cases hu : t.asg v d = .un
  · simp [hu]
  · have := h.lvlL v d hu
    rw [if_neg (by omega)]

theorem asgAt_ne_un {k : Int} {v d : Nat} (h : t.asgAt k v d ≠ .un) :
    t.asg v d ≠ .un ∧ t.lvl v d ≤ k ∧ t.asgAt k v d = t.asg v d := by
  unfold asgAt at *
  split at h
  · exact absurd rfl h
  · rename_i hl
    rw [if_neg hl]
    exact ⟨h, by omega, rfl⟩

theorem asgAt_eq_of_le {k : Int} {v d : Nat} (h : t.lvl v d ≤ k) : t.asgAt k v d = t.asg v d := by
  unfold asgAt; rw [if_neg (by omega)]

theorem asgAt_undo {j k : Int} (hjk : j ≤ k) : (t.undo k).asgAt j = t.asgAt j := by
  funext v d
  have h1 : (t.undo k).lvl v d = if t.lvl v d > k then -10 else t.lvl v d := rfl
  have h2 : (t.undo k).asg v d = if t.lvl v d > k then .un else t.asg v d := rfl
  unfold asgAt
  rw [h2]
  by_cases h : t.lvl v d > k
  · rw [if_pos h, if_pos (show t.lvl v d > j by omega)]; simp
  · rw [if_neg h] at h1
    rw [if_neg h, h1]

theorem asgAt_level {j k : Int} : (t.level k).asgAt j = t.asgAt j := rfl

/-! ### Assigning at the current level -/

theorem asgAt_set {v d : Nat} {a : Asg} {r k : Int} (hk : k < t.LEVEL) (hu : t.asg v d = .un) :
    (t.set v d a r).asgAt k = t.asgAt k := by
  funext v' d'
  simp only [asgAt, set, upd2_apply]
  by_cases h : v' = v ∧ d' = d
  · obtain ⟨rfl, rfl⟩ := h
    simp [hu]; omega
  · simp [h]

theorem asgAt_assignL {l : Lit} {r k : Int} (hk : k < t.LEVEL) (hu : LU t.asg l) :
    (t.assignL l r).asgAt k = t.asgAt k := asgAt_set (t := { t with decs := _, vval := _ }) hk hu

theorem Base.assignL (h : Base t) {l : Lit} {r : Int} (hr : t.Rng l.var l.val) (hu : LU t.asg l)
    (hv : t.vval l.var = none) (h0 : 0 ≤ t.LEVEL) : Base (t.assignL l r) := by
  obtain ⟨v, d, e⟩ := l
  simp only [LU] at hu hr hv
  have hidx : ∀ v' d', ¬ (v' = v ∧ d' = d) → (t.assignL ⟨v, d, e⟩ r).idx v' d' = t.idx v' d' := by
    intro v' d' hne; simp [Trail.assignL, set, upd2_apply, hne]
  have hasg : ∀ v' d', ¬ (v' = v ∧ d' = d) → (t.assignL ⟨v, d, e⟩ r).asg v' d' = t.asg v' d' := by
    intro v' d' hne; simp [Trail.assignL, set, upd2_apply, hne]
  have hlvl : ∀ v' d', ¬ (v' = v ∧ d' = d) → (t.assignL ⟨v, d, e⟩ r).lvl v' d' = t.lvl v' d' := by
    intro v' d' hne; simp [Trail.assignL, set, upd2_apply, hne]
  have hidx0 : (t.assignL ⟨v, d, e⟩ r).idx v d = t.decs.length := by
    simp [Trail.assignL, set]
  have hasg0 : (t.assignL ⟨v, d, e⟩ r).asg v d = Asg.ofSign e := by
    simp [Trail.assignL, set]
  have hlvl0 : (t.assignL ⟨v, d, e⟩ r).lvl v d = t.LEVEL := by
    simp [Trail.assignL, set]
  have hdecs : (t.assignL ⟨v, d, e⟩ r).decs = t.decs ++ [⟨v, d, e⟩] := rfl
  have hold : ∀ (i : Nat) (L : Lit), t.decs[i]? = some L → ¬ (L.var = v ∧ L.val = d) := by
    rintro i L hL ⟨rfl, rfl⟩
    exact (h.d2 i L hL).1.not_LU hu
  have hget : ∀ (i : Nat) (L : Lit), (t.decs ++ [(⟨v, d, e⟩ : Lit)])[i]? = some L ↔
      (t.decs[i]? = some L ∨ (i = t.decs.length ∧ L = ⟨v, d, e⟩)) := by
    intro i L
    rw [List.getElem?_append]
    split
    · rename_i hi
      constructor
      · exact Or.inl
      · rintro (h1 | ⟨h1, _⟩)
        · exact h1
        · omega
    · rename_i hi
      have h0 : t.decs[i]? = none := List.getElem?_eq_none (by omega)
      rw [h0]
      rcases Nat.eq_or_lt_of_le (Nat.le_of_not_lt hi) with h1 | h1
      · subst h1; simp [eq_comm]
      · rw [List.getElem?_eq_none (by simp; omega)]
        simp; intro h2; omega
  constructor
  · intro v' d' hne
    by_cases hc : v' = v ∧ d' = d
    · obtain ⟨rfl, rfl⟩ := hc; exact hr
    · rw [hasg _ _ hc] at hne; exact h.rng _ _ hne
  · intro v' d' hne
    by_cases hc : v' = v ∧ d' = d
    · obtain ⟨rfl, rfl⟩ := hc; rw [hasg0] at hne; simp at hne
    · rw [hasg _ _ hc] at hne; rw [hlvl _ _ hc]; exact h.un _ _ hne
  · intro v' d' hne
    by_cases hc : v' = v ∧ d' = d
    · obtain ⟨rfl, rfl⟩ := hc; rw [hlvl0]; exact h0
    · rw [hasg _ _ hc] at hne; rw [hlvl _ _ hc]; exact h.lvl0 _ _ hne
  · intro v' d' hne
    by_cases hc : v' = v ∧ d' = d
    · obtain ⟨rfl, rfl⟩ := hc; rw [hlvl0]; exact Int.le_refl _
    · rw [hasg _ _ hc] at hne; rw [hlvl _ _ hc]; exact h.lvlL _ _ hne
  · intro v' d' h1 h2
    have hvv := h.vv v' d' h1 h2
    by_cases hvc : v' = v
    · subst hvc
      have hnone : ∀ x, t.asg v' x ≠ .eq := by
        intro x hx
        have := (h.vv v' x h1 h2).2 hx
        rw [hv] at this; simp at this
      cases e
      · have : (t.assignL ⟨v', d, false⟩ r).vval v' = t.vval v' := by simp [Trail.assignL, set]
        rw [this, hv]
        by_cases hc : d' = d
        · subst hc; rw [hasg0]; simp
        · rw [hasg _ _ (by simp [hc])]; simp [hnone]
      · have : (t.assignL ⟨v', d, true⟩ r).vval v' = some d := by
          simp [Trail.assignL, set]
        rw [this]
        by_cases hc : d' = d
        · subst hc; rw [hasg0]; simp
        · rw [hasg _ _ (by simp [hc])]
          simp [hnone, Ne.symm hc]
    · have : (t.assignL ⟨v, d, e⟩ r).vval v' = t.vval v' := by
        cases e <;> simp [Trail.assignL, set, upd, hvc]
      rw [this, hasg _ _ (by simp [hvc])]; exact hvv
  · intro v' d' hne
    by_cases hc : v' = v ∧ d' = d
    · obtain ⟨rfl, rfl⟩ := hc
      refine ⟨t.decs.length, ⟨v', d', e⟩, hidx0, ?_, rfl, rfl, Or.inl ⟨rfl, hasg0⟩⟩
      rw [hdecs, hget]; right; exact ⟨rfl, rfl⟩
    · rw [hasg _ _ hc] at hne
      obtain ⟨i, L, h1, h2, h3, h4, h5⟩ := h.d1 v' d' hne
      have hLc : ¬ (L.var = v ∧ L.val = d) := hold i L h2
      refine ⟨i, L, by rw [hidx _ _ hc]; exact h1, by rw [hdecs, hget]; exact Or.inl h2, h3, ?_, ?_⟩
      · rw [hlvl _ _ hc, hlvl _ _ (by rw [← h3]; exact hLc)]; exact h4
      · rw [hasg _ _ hc]; exact h5
  · intro i L hL
    rw [hdecs, hget] at hL
    rcases hL with hL | ⟨rfl, rfl⟩
    · have hLc := hold i L hL
      obtain ⟨h1, h2⟩ := h.d2 i L hL
      exact ⟨by unfold LT at *; rw [hasg _ _ hLc]; exact h1, by rw [hidx _ _ hLc]; exact h2⟩
    · exact ⟨hasg0, hidx0⟩
  · intro i j L M hij hL hM
    rw [hdecs, hget] at hL hM
    rcases hL with hL | ⟨rfl, rfl⟩
    · have hLc := hold i L hL
      rcases hM with hM | ⟨rfl, rfl⟩
      · rw [hlvl _ _ hLc, hlvl _ _ (hold j M hM)]
        exact h.d3 i j L M hij hL hM
      · rw [hlvl _ _ hLc, hlvl0]
        exact h.lvlL _ _ (fun h' => (h.d2 i L hL).1.not_LU h')
    · rcases hM with hM | ⟨rfl, rfl⟩
      · have := List.getElem?_eq_some_iff.1 hM
        obtain ⟨h1, _⟩ := this
        omega
      · exact Int.le_refl _

/-- Excluding a further value of a variable whose value was pushed last. -/
theorem Base.excl (h : Base t) {v d i : Nat} {r : Int} (hr : t.Rng v i) (hu : t.asg v i = .un)
    (hlast : t.decs.getLast? = some ⟨v, d, true⟩) (hl : t.lvl v d = t.LEVEL) :
    Base (t.set v i .ne r) := by
  have hpos : t.decs ≠ [] := by intro hd; rw [hd] at hlast; simp at hlast
  have hlen : 0 < t.decs.length := List.length_pos_iff.2 hpos
  have hlast' : t.decs[t.decs.length - 1]? = some ⟨v, d, true⟩ := by
    rw [← List.getLast?_eq_getElem?]; exact hlast
  have hdeq : t.asg v d = .eq := (h.d2 _ _ hlast').1
  have hdi : d ≠ i := by rintro rfl; rw [hdeq] at hu; simp at hu
  have h0 : 0 ≤ t.LEVEL := by rw [← hl]; exact h.lvl0 v d (by rw [hdeq]; simp)
  have hidx : ∀ v' d', ¬ (v' = v ∧ d' = i) → (t.set v i .ne r).idx v' d' = t.idx v' d' := by
    intro v' d' hne; simp [set, upd2_apply, hne]
  have hasg : ∀ v' d', ¬ (v' = v ∧ d' = i) → (t.set v i .ne r).asg v' d' = t.asg v' d' := by
    intro v' d' hne; simp [set, upd2_apply, hne]
  have hlvl : ∀ v' d', ¬ (v' = v ∧ d' = i) → (t.set v i .ne r).lvl v' d' = t.lvl v' d' := by
    intro v' d' hne; simp [set, upd2_apply, hne]
  have hidx0 : (t.set v i .ne r).idx v i = (t.decs.length : Int) - 1 := by simp [set]
  have hasg0 : (t.set v i .ne r).asg v i = .ne := by simp [set]
  have hlvl0 : (t.set v i .ne r).lvl v i = t.LEVEL := by simp [set]
  have hold : ∀ (j : Nat) (L : Lit), t.decs[j]? = some L → ¬ (L.var = v ∧ L.val = i) := by
    rintro j L hL ⟨rfl, rfl⟩
    exact (h.d2 j L hL).1.not_LU hu
  constructor
  · intro v' d' hne
    by_cases hc : v' = v ∧ d' = i
    · obtain ⟨rfl, rfl⟩ := hc; exact hr
    · rw [hasg _ _ hc] at hne; exact h.rng _ _ hne
  · intro v' d' hne
    by_cases hc : v' = v ∧ d' = i
    · obtain ⟨rfl, rfl⟩ := hc; rw [hasg0] at hne; simp at hne
    · rw [hasg _ _ hc] at hne; rw [hlvl _ _ hc]; exact h.un _ _ hne
  · intro v' d' hne
    by_cases hc : v' = v ∧ d' = i
    · obtain ⟨rfl, rfl⟩ := hc; rw [hlvl0]; exact h0
    · rw [hasg _ _ hc] at hne; rw [hlvl _ _ hc]; exact h.lvl0 _ _ hne
  · intro v' d' hne
    by_cases hc : v' = v ∧ d' = i
    · obtain ⟨rfl, rfl⟩ := hc; rw [hlvl0]; exact Int.le_refl _
    · rw [hasg _ _ hc] at hne; rw [hlvl _ _ hc]; exact h.lvlL _ _ hne
  · intro v' d' h1 h2
    have hvv := h.vv v' d' h1 h2
    by_cases hc : v' = v ∧ d' = i
    · obtain ⟨rfl, rfl⟩ := hc
      rw [hasg0]
      have : t.asg v' d' ≠ .eq := by rw [hu]; simp
      constructor
      · intro hx; exact absurd (hvv.1 hx) this
      · intro hx; simp at hx
    · rw [hasg _ _ hc]; exact hvv
  · intro v' d' hne
    by_cases hc : v' = v ∧ d' = i
    · obtain ⟨rfl, rfl⟩ := hc
      refine ⟨t.decs.length - 1, ⟨v', d, true⟩, ?_, hlast', rfl, ?_, Or.inr ⟨rfl, hdi, hasg0⟩⟩
      · rw [hidx0]; omega
      · rw [hlvl0, hlvl _ _ (by simp [hdi])]; exact hl
    · rw [hasg _ _ hc] at hne
      obtain ⟨j, L, h1, h2, h3, h4, h5⟩ := h.d1 v' d' hne
      have hLc : ¬ (L.var = v ∧ L.val = i) := hold j L h2
      refine ⟨j, L, by rw [hidx _ _ hc]; exact h1, h2, h3, ?_, ?_⟩
      · rw [hlvl _ _ hc, hlvl _ _ (by rw [← h3]; exact hLc)]; exact h4
      · rw [hasg _ _ hc]; exact h5
  · intro j L hL
    have hLc := hold j L hL
    obtain ⟨h1, h2⟩ := h.d2 j L hL
    exact ⟨by unfold LT at *; rw [hasg _ _ hLc]; exact h1, by rw [hidx _ _ hLc]; exact h2⟩
  · intro j k L M hij hL hM
    rw [hlvl _ _ (hold j L hL), hlvl _ _ (hold k M hM)]
    exact h.d3 j k L M hij hL hM

/-! ### Undoing -/

theorem filter_getElem? {α : Type} {p : α → Bool} : ∀ {l : List α},
    (∀ (i j : Nat) (x y : α), i ≤ j → l[i]? = some x → l[j]? = some y → p y = true → p x = true) →
    ∀ (i : Nat) (x : α), (l.filter p)[i]? = some x ↔ (l[i]? = some x ∧ p x = true)
  | [], _, i, x => by simp
  | a :: l, h, i, x => by
    have hl : ∀ (i j : Nat) (x y : α), i ≤ j → l[i]? = some x → l[j]? = some y → p y = true → p x = true := by
      intro i j x y hij hx hy
      exact h (i + 1) (j + 1) x y (by omega) (by simpa using hx) (by simpa using hy)
    by_cases ha : p a = true
    · rw [List.filter_cons_of_pos ha]
      cases i with
      | zero =>
        simp only [List.getElem?_cons_zero, Option.some.injEq]
        constructor
        · rintro rfl; exact ⟨rfl, ha⟩
        · exact fun h => h.1
      | succ i => simpa using filter_getElem? hl i x
    · rw [List.filter_cons_of_neg ha]
      have hnone : ∀ (j : Nat) (y : α), (a :: l)[j]? = some y → p y = false := by
        intro j y hy
        cases hp : p y with
        | false => rfl
        | true => exact absurd (h 0 j a y (by omega) rfl hy hp) ha
      constructor
      · intro hx
        have hm := List.mem_of_getElem? hx
        obtain ⟨hm1, hm2⟩ := List.mem_filter.1 hm
        obtain ⟨j, hj⟩ := List.mem_iff_getElem?.1 hm1
        have := hnone (j + 1) x (by simpa using hj)
        rw [hm2] at this; simp at this
      · rintro ⟨h1, h2⟩
        have := hnone i x h1
        rw [h2] at this; simp at this

theorem Base.undo (h : Base t) {k : Int} (h0 : 0 ≤ k) (hv : ∀ v, 1 ≤ v → v ≤ t.nv → VarOK t.dom (t.asgAt k) v) :
    Base ((t.undo k).level k) := by
  have hdown : ∀ (i j : Nat) (x y : Lit), i ≤ j → t.decs[i]? = some x → t.decs[j]? = some y →
      (decide (t.asgAt k y.var y.val ≠ .un)) = true → (decide (t.asgAt k x.var x.val ≠ .un)) = true := by
    intro i j x y hij hx hy hp
    simp only [decide_eq_true_eq] at hp ⊢
    obtain ⟨_, h2, _⟩ := asgAt_ne_un hp
    have h3 := h.d3 i j x y hij hx hy
    rw [asgAt_eq_of_le (by omega)]
    exact fun h' => (h.d2 i x hx).1.not_LU h'
  have hf := filter_getElem? hdown
  have hasg : ∀ v d, ((t.undo k).level k).asg v d = t.asgAt k v d := fun _ _ => rfl
  have hne : ∀ v d, ((t.undo k).level k).asg v d ≠ .un → t.asg v d ≠ .un ∧ t.lvl v d ≤ k ∧
      ((t.undo k).level k).asg v d = t.asg v d ∧ ((t.undo k).level k).lvl v d = t.lvl v d := by
    intro v d hx
    obtain ⟨h1, h2, h3⟩ := asgAt_ne_un hx
    exact ⟨h1, h2, h3, by simp only [Trail.undo, level]; rw [if_neg (by omega)]⟩
  have hdecs : ∀ (i : Nat) (L : Lit), ((t.undo k).level k).decs[i]? = some L ↔
      (t.decs[i]? = some L ∧ t.asgAt k L.var L.val ≠ .un) := by
    intro i L
    have := hf i L
    simp only [decide_eq_true_eq] at this
    exact this
  constructor
  · intro v d hx
    exact h.rng v d (hne v d hx).1
  · intro v d hx
    simp only [Trail.undo, level, asgAt] at hx ⊢
    split
    · rfl
    · rename_i hl; rw [if_neg hl] at hx; exact h.un v d hx
  · intro v d hx
    obtain ⟨h1, h2, h3, h4⟩ := hne v d hx
    rw [h4]; exact h.lvl0 v d h1
  · intro v d hx
    obtain ⟨h1, h2, h3, h4⟩ := hne v d hx
    rw [h4]; exact h2
  · intro v d h1 h2
    rw [hasg]
    have hvv : ((t.undo k).level k).vval v =
      if 1 ≤ v ∧ v ≤ t.nv ∧ ∃ d < t.dom v, t.lvl v d > k then none else t.vval v := rfl
    rw [hvv]
    split
    · rename_i hex
      obtain ⟨_, _, d0, hd0, hl0⟩ := hex
      constructor
      · simp
      · intro heq
        exfalso
        rcases hv v h1 h2 with ⟨x, hx, hxe, hall⟩ | ⟨hno, _⟩ | hone
        · have hdr : d < t.dom v := by
            have := h.rng v d (asgAt_ne_un (by rw [heq]; simp)).1
            exact this.2.2
          by_cases hxd : d0 = x
          · subst hxd
            unfold asgAt at hxe
            rw [if_pos hl0] at hxe; simp at hxe
          · have := hall d0 hd0 hxd
            unfold asgAt at this
            rw [if_pos hl0] at this; simp at this
        · have hdr : d < t.dom v := by
            have := h.rng v d (asgAt_ne_un (by rw [heq]; simp)).1
            exact this.2.2
          exact hno d hdr heq
        · have hdr : d < t.dom v := by
            have := h.rng v d (asgAt_ne_un (by rw [heq]; simp)).1
            exact this.2.2
          have : d0 = d := by omega
          subst this
          unfold asgAt at heq
          rw [if_pos hl0] at heq; simp at heq
    · rename_i hex
      have hle : ∀ d, t.lvl v d ≤ k := by
        intro d
        by_cases hd : d < t.dom v
        · apply Classical.byContradiction
          intro hc
          exact hex ⟨h1, h2, d, hd, by omega⟩
        · have : t.asg v d = .un := by
            apply Classical.byContradiction
            intro hc
            exact hd (h.rng v d hc).2.2
          rw [h.un v d this]; omega
      rw [asgAt_eq_of_le (hle d)]
      exact h.vv v d h1 h2
  · intro v d hx
    obtain ⟨h1, h2, h3, h4⟩ := hne v d hx
    obtain ⟨i, L, hi, hL, hLv, hLl, hor⟩ := h.d1 v d h1
    have hLk : t.lvl L.var L.val ≤ k := by rw [hLv]; omega
    refine ⟨i, L, hi, ?_, hLv, ?_, ?_⟩
    · rw [hdecs]
      refine ⟨hL, ?_⟩
      rw [asgAt_eq_of_le hLk]
      exact fun h' => (h.d2 i L hL).1.not_LU h'
    · rw [h4, ← hLl]
      simp only [Trail.undo, level]; rw [if_neg]; rw [← hLv]; omega
    · rw [h3]; exact hor
  · intro i L hL
    rw [hdecs] at hL
    obtain ⟨hL, hn⟩ := hL
    obtain ⟨h1, h2⟩ := h.d2 i L hL
    refine ⟨?_, h2⟩
    unfold LT at *
    rw [hasg, (asgAt_ne_un hn).2.2]; exact h1
  · intro i j L M hij hL hM
    rw [hdecs] at hL hM
    rw [(hne _ _ hL.2).2.2.2, (hne _ _ hM.2).2.2.2]
    exact h.d3 i j L M hij hL.1 hM.1

/-- Values of the variables recorded for each level below the current one. -/
def Stack (t : Trail) (cls : List Lit → Prop) : Prop :=
  ∀ k : Int, 0 ≤ k → k < t.LEVEL →
    (∀ v, 1 ≤ v → v ≤ t.nv → VarOK t.dom (t.asgAt k) v) ∧ ∀ c, cls c → TwoOrSat (t.asgAt k) c

end Trail

/-! ### The decision stack after undoing -/

theorem undoDecs_eq (s : St S) : ∀ k ds, k ≤ ds.length →
    undoDecs s k ds = (ds.take k).filter (fun l => s.asg l.var l.val ≠ .un) ++ ds.drop k
  | 0, ds, _ => by simp [undoDecs]
  | k + 1, ds, hk => by
    have hlt : k < ds.length := by omega
    have hget : ds[k]? = some ds[k] := List.getElem?_eq_getElem hlt
    rw [undoDecs, hget]
    simp only
    rw [List.take_succ_eq_append_getElem hlt, List.filter_append]
    by_cases hu : s.asg ds[k].var ds[k].val = .un
    · rw [if_pos hu, undoDecs_eq s k _ (by rw [List.length_eraseIdx_of_lt hlt]; omega)]
      have h1 : (ds.eraseIdx k).take k = ds.take k := by
        rw [List.eraseIdx_eq_take_drop_succ]
        rw [List.take_append_of_le_length (by rw [List.length_take]; omega), List.take_take, Nat.min_self]
      have h2 : (ds.eraseIdx k).drop k = ds.drop (k + 1) := by
        rw [List.eraseIdx_eq_take_drop_succ, List.drop_append_of_le_length (by rw [List.length_take]; omega)]
        simp
      rw [h1, h2]
      simp [hu]
    · rw [if_neg hu, undoDecs_eq s k _ (by omega)]
      simp [hu]

theorem undoDecs_full (s : St S) (ds : List Lit) :
    undoDecs s ds.length ds = ds.filter (fun l => s.asg l.var l.val ≠ .un) := by
  rw [undoDecs_eq s _ _ (Nat.le_refl _)]; simp

end Mvl
