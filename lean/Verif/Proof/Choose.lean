import Verif.Proof.Engine

/-!
# The decision heuristics
-/

namespace Mvl

variable {S : Type}

/-- Loops that keep a running best candidate. -/
theorem foldl_choose {α β : Type} (cond : α → Prop) [DecidablePred cond] (step : β → α → β)
    (opt : β → Option Lit) (J : β → Prop) (Q : Lit → Prop) : ∀ (as : List α) (b : β), J b →
    (∀ b a, J b → a ∈ as → cond a → J (step b a) ∧ ∃ l, opt (step b a) = some l ∧ (Q l ∨ opt b = some l)) →
    (∀ l, opt b = some l → Q l) →
    (opt (as.foldl (fun b a => if cond a then step b a else b) b) = none →
      opt b = none ∧ ∀ a ∈ as, ¬ cond a) ∧
    (∀ l, opt (as.foldl (fun b a => if cond a then step b a else b) b) = some l → Q l)
  | [], b, _, _, hq => ⟨fun h => ⟨h, by simp⟩, hq⟩
  | a :: as, b, hJ, hs, hq => by
    rw [List.foldl_cons]
    by_cases hc : cond a
    · rw [if_pos hc]
      obtain ⟨hJ', l, hl, hl'⟩ := hs b a hJ (by simp) hc
      obtain ⟨h1, h2⟩ := foldl_choose cond step opt J Q as (step b a) hJ'
        (fun b a hb ha => hs b a hb (by simp [ha]))
        (by
          intro l2 hl2
          rw [hl] at hl2; cases hl2
          rcases hl' with h | h
          · exact h
          · exact hq l h)
      refine ⟨?_, h2⟩
      intro hn
      have := (h1 hn).1
      rw [hl] at this; simp at this
    · rw [if_neg hc]
      obtain ⟨h1, h2⟩ := foldl_choose cond step opt J Q as b hJ
        (fun b a hb ha => hs b a hb (by simp [ha])) hq
      refine ⟨?_, h2⟩
      intro hn
      refine ⟨(h1 hn).1, ?_⟩
      intro x hx
      rcases List.mem_cons.1 hx with rfl | hx
      · exact hc
      · exact (h1 hn).2 x hx

/-- An open atom of a variable without value. -/
def OpenAtom (s : St S) (v d : Nat) : Prop :=
  (1 ≤ v ∧ v ≤ s.nv ∧ d < s.dom v) ∧ s.vval v = none ∧ s.asg v d = .un

theorem chooseBK_spec (s : St S) :
    (chooseBK s = none → ∀ v d, ¬ OpenAtom s v d) ∧
    (∀ l, chooseBK s = some l → l.eq = true ∧ OpenAtom s l.var l.val) := by
  have := foldl_choose (cond := fun a : Nat × Nat => s.vval a.1 = none ∧ s.asg a.1 a.2 = .un)
    (step := fun (best : Option (Int × Lit)) (a : Nat × Nat) =>
      let t := s.cnt ⟨a.1, a.2, true⟩ - s.cnt ⟨a.1, a.2, false⟩
        match best with
        | none => some (t, ⟨a.1, a.2, true⟩)
        | some (m, l) => if m < t then some (t, ⟨a.1, a.2, true⟩) else some (m, l))
    (opt := fun b => b.map Prod.snd) (J := fun _ => True)
    (Q := fun l => l.eq = true ∧ OpenAtom s l.var l.val) s.atoms none trivial
    (by
      rintro b ⟨v, d⟩ _ ha ⟨h1, h2⟩
      refine ⟨trivial, ?_⟩
      dsimp only
      have hq : OpenAtom s v d := ⟨mem_atoms.1 ha, h1, h2⟩
      cases b with
      | none => exact ⟨_, rfl, Or.inl ⟨rfl, hq⟩⟩
      | some b =>
        obtain ⟨m, l⟩ := b
        dsimp only
        split
        · exact ⟨_, rfl, Or.inl ⟨rfl, hq⟩⟩
        · exact ⟨_, rfl, Or.inr rfl⟩)
    (by simp)
  obtain ⟨h1, h2⟩ := this
  refine ⟨?_, h2⟩
  intro hn v d ho
  exact (h1 hn).2 (v, d) (mem_atoms.2 ho.1) ho.2

/-- Scores stay above `-1`. -/
def ScoresOK (A : ScoreArith S) (s : St S) : Prop := ∀ l, A.lt A.negOne (s.score l) = true

theorem better_spec (A : ScoreArith S) (s : St S) (hs : ScoresOK A s) (b : S × Option Lit) (l : Lit)
    (hJ : b.2 = none → b.1 = A.negOne) :
    ((better A s b l).2 = none → (better A s b l).1 = A.negOne) ∧
    ∃ x, (better A s b l).2 = some x ∧ (x = l ∨ b.2 = some x) := by
  unfold better
  split
  · simp
  · rename_i hlt
    cases hb : b.2 with
    | none => rw [hJ hb, hs l] at hlt; simp at hlt
    | some x => exact ⟨by simp, x, rfl, Or.inr rfl⟩

theorem chooseVSIDS_spec (A : ScoreArith S) (s : St S) (hs : ScoresOK A s) :
    (chooseVSIDS A s = none → ∀ v d, ¬ OpenAtom s v d) ∧
    (∀ l, chooseVSIDS A s = some l → OpenAtom s l.var l.val) := by
  have := foldl_choose (cond := fun a : Nat × Nat => s.vval a.1 = none ∧ s.asg a.1 a.2 = .un)
    (step := fun (best : S × Option Lit) (a : Nat × Nat) =>
        better A s (better A s best ⟨a.1, a.2, true⟩) ⟨a.1, a.2, false⟩)
    (opt := fun b => b.2) (J := fun b => b.2 = none → b.1 = A.negOne)
    (Q := fun l => OpenAtom s l.var l.val) s.atoms (A.negOne, none) (by simp)
    (by
      rintro b ⟨v, d⟩ hJ ha ⟨h1, h2⟩
      have hq : OpenAtom s v d := ⟨mem_atoms.1 ha, h1, h2⟩
      obtain ⟨a1, x, a2, a3⟩ := better_spec A s hs b ⟨v, d, true⟩ hJ
      obtain ⟨b1, y, b2, b3⟩ := better_spec A s hs (better A s b ⟨v, d, true⟩) ⟨v, d, false⟩ a1
      refine ⟨b1, y, b2, ?_⟩
      rcases b3 with rfl | b3
      · exact Or.inl hq
      · rw [a2] at b3; cases b3
        rcases a3 with rfl | a3
        · exact Or.inl hq
        · exact Or.inr a3)
    (by simp)
  obtain ⟨h1, h2⟩ := this
  refine ⟨?_, h2⟩
  intro hn v d ho
  exact (h1 hn).2 (v, d) (mem_atoms.2 ho.1) ho.2

theorem chooseVSIDSPos_spec (A : ScoreArith S) (s : St S) (hs : ScoresOK A s) :
    (chooseVSIDSPos A s = none → ∀ v d, ¬ OpenAtom s v d) ∧
    (∀ l, chooseVSIDSPos A s = some l → l.eq = true ∧ OpenAtom s l.var l.val) := by
  have := foldl_choose (cond := fun a : Nat × Nat => s.vval a.1 = none ∧ s.asg a.1 a.2 = .un)
    (step := fun (best : S × Option Lit) (a : Nat × Nat) => better A s best ⟨a.1, a.2, true⟩)
    (opt := fun b => b.2) (J := fun b => b.2 = none → b.1 = A.negOne)
    (Q := fun l => l.eq = true ∧ OpenAtom s l.var l.val) s.atoms (A.negOne, none) (by simp)
    (by
      rintro b ⟨v, d⟩ hJ ha ⟨h1, h2⟩
      have hq : OpenAtom s v d := ⟨mem_atoms.1 ha, h1, h2⟩
      obtain ⟨a1, x, a2, a3⟩ := better_spec A s hs b ⟨v, d, true⟩ hJ
      refine ⟨a1, x, a2, ?_⟩
      rcases a3 with rfl | a3
      · exact Or.inl ⟨rfl, hq⟩
      · exact Or.inr a3)
    (by simp)
  obtain ⟨h1, h2⟩ := this
  refine ⟨?_, h2⟩
  intro hn v d ho
  exact (h1 hn).2 (v, d) (mem_atoms.2 ho.1) ho.2

theorem sat_eq_two {s : St S} {l : Lit} : sat s l = 2 ↔ LU s.asg l := by
  unfold sat LU
  split
  · rename_i h; rw [h]; simp
  · split <;> simp_all

theorem sat_eq_one {s : St S} {l : Lit} : sat s l = 1 ↔ LT s.asg l := by
  unfold sat LT
  split
  · rename_i h; simp [h]
  · split <;> simp_all

theorem sat_eq_zero {s : St S} {l : Lit} : sat s l = 0 ↔ LF s.asg l := by
  constructor
  · intro h
    apply LF_of_not
    · intro h'; rw [sat_eq_one.2 h'] at h; simp at h
    · intro h'; rw [sat_eq_two.2 h'] at h; simp at h
  · intro h
    have h1 : ¬ s.asg l.var l.val = Asg.ofSign l.eq := fun h' => h.not_LT h'
    have h2 : ¬ s.asg l.var l.val = Asg.un := fun h' => h.not_LU h'
    unfold sat
    rw [if_neg h1, if_neg h2]

theorem lazyChoose_spec (s : St S) :
    (lazyChoose s = none → ∀ id, id < s.ncl → (s.cl id).level = -1 → ∀ l ∈ (s.cl id).lits, ¬ LU s.asg l) ∧
    (∀ l, lazyChoose s = some l → LU s.asg l ∧ ∃ id, id < s.ncl ∧ (s.cl id).level = -1 ∧ l ∈ (s.cl id).lits) := by
  unfold lazyChoose
  constructor
  · intro h id hid hl l hm hu
    rw [List.findSome?_eq_none_iff] at h
    have := h id (List.mem_range.2 hid)
    rw [if_pos hl, List.find?_eq_none] at this
    have := this l hm
    rw [sat_eq_two.2 hu] at this; simp at this
  · intro l h
    obtain ⟨id, hid, h1⟩ := List.exists_of_findSome?_eq_some h
    split at h1
    · rename_i hl
      have h2 := List.find?_some h1
      simp only [decide_eq_true_eq] at h2
      exact ⟨sat_eq_two.1 h2, id, List.mem_range.1 hid, hl, List.mem_of_find?_eq_some h1⟩
    · simp at h1

/-- If every variable has a value then every atom is assigned. -/
theorem no_open {s : St S} (hb : s.tr.Base) (hv : ∀ v, 1 ≤ v → v ≤ s.nv → VarOK s.dom s.asg v)
    (h : ∀ v d, ¬ OpenAtom s v d) : ∀ l : Lit, s.tr.Rng l.var l.val → ¬ LU s.asg l := by
  intro l hr hu
  apply h l.var l.val
  refine ⟨hr, ?_, hu⟩
  have hno := (hv l.var hr.1 hr.2.1).noeq hr.2.2 hu
  cases hvv : s.vval l.var with
  | none => rfl
  | some x =>
    have he := (hb.vv l.var x hr.1 hr.2.1).1 hvv
    exact absurd he (hno x (hb.rng _ _ (by rw [he]; simp)).2.2)

/-- A clause whose atoms are all assigned and that is satisfied or has two open literals is
satisfied. -/
theorem csat_of_twoOrSat {g : PA} {c : List Lit} (h : TwoOrSat g c) (hn : ∀ l ∈ c, ¬ LU g l) : CSat g c := by
  rcases h with h | h
  · exact h
  · obtain ⟨l, hl, hu⟩ := openCount_pos.1 (by omega : 0 < openCount g c)
    exact absurd hu (hn l hl)

/-- When no decision is found every clause is satisfied. -/
theorem CInv.choose_none {s : St S} (h : CInv (fun _ => False) s) (hc : s.conflict = false) (hu : s.units = [])
    (hn : (∀ v d, ¬ OpenAtom s v d) ∨ lazyChoose s = none) :
    ∀ id, id < s.ncl → CSat s.asg (s.cl id).lits := by
  intro id hid
  have h2 := h.twoOrSat hc hu ⟨id, hid, rfl⟩
  rcases hn with hn | hn
  · apply csat_of_twoOrSat h2
    intro l hl
    exact no_open h.base (h.vars hc) hn l (h.rng id hid l hl)
  · by_cases hl : (s.cl id).level = -1
    · apply csat_of_twoOrSat h2
      exact (lazyChoose_spec s).1 hn id hid hl
    · exact (h.cnt.exact id hid).sat hl

theorem CInv.choose_some {ex : Nat → Prop} {s : St S} (h : CInv ex s) {l : Lit}
    (hl : OpenAtom s l.var l.val ∨ lazyChoose s = some l) : s.tr.Rng l.var l.val ∧ LU s.asg l := by
  rcases hl with hl | hl
  · exact ⟨hl.1, hl.2.2⟩
  · obtain ⟨h1, id, hid, _, hm⟩ := (lazyChoose_spec s).2 l hl
    exact ⟨h.rng id hid l hm, h1⟩

/-- Opening a new decision level. -/
theorem CInv.open_level {s : St S} (h : CInv (fun _ => False) s) (hc : s.conflict = false) (hu : s.units = [])
    (u : Int) (n : Nat) :
    CInv (fun _ => False) ({ s with LEVEL := s.LEVEL + 1, unitClause := u, nDecisions := n } : St S) := by
  refine ⟨?_, ?_, ⟨⟨h.cnt.store.inj, h.cnt.store.recs, h.cnt.store.alloc⟩, h.cnt.exact, h.cnt.unitsOK, h.cnt.pend, h.cnt.conf⟩,
    ?_, h.vars, h.rng⟩
  · have hb := h.base
    exact ⟨hb.rng, hb.un, hb.lvl0, fun v d hn => by
      have : s.lvl v d ≤ s.LEVEL := hb.lvlL v d hn
      show s.lvl v d ≤ s.LEVEL + 1
      omega, hb.vv, hb.d1, hb.d2, hb.d3⟩
  · have := h.lev0
    show 0 ≤ s.LEVEL + 1
    omega
  · intro k hk0 hk
    have hk : k < s.LEVEL + 1 := hk
    by_cases hkL : k < s.LEVEL
    · exact h.stack k hk0 hkL
    · have hkE : k = s.LEVEL := by omega
      subst hkE
      have : ({ s with LEVEL := s.LEVEL + 1, unitClause := u, nDecisions := n } : St S).tr.asgAt s.LEVEL = s.asg :=
        Trail.asgAt_of_le (t := s.tr) h.base (Int.le_refl _)
      rw [this]
      exact ⟨h.vars hc, fun c hcl => h.twoOrSat hc hu hcl⟩

end Mvl
