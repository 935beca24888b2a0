import Verif.Proof.OrigInv

/-! # The original solver: `reduceTheory` keeps the invariant -/

namespace Mvl.Orig

open Mvl

/-- The fields of the variables agree with the assignment.  `w`: a variable whose last unassigned value is
about to be assigned (0: none). -/
structure VarsX (w : Nat) (s : OSt) : Prop where
  vv   : ∀ v d, s.vval v = some d → s.asg v d = .eq ∧ s.vlvl v = s.alvl v d
  ve   : ∀ v d, s.asg v d = .eq → s.vval v = some d
  vs   : ∀ v, s.vsat v = (decide (v = 0) || (s.vval v).isSome)
  vl   : ∀ v, s.vval v = none → s.vlvl v = -1
  full : ∀ v d e, s.vval v = some d → e < s.dom v →
    (s.asg v e ≠ .un ∧ s.alvl v e ≤ s.vlvl v) ∨ (s.conflict = true ∧ s.vlvl v = s.LEVEL)
  two  : ∀ v k, 1 ≤ v → v ≤ s.nv → (-1 : Int) ≤ k →
    (k < s.LEVEL ∨ (k ≤ s.LEVEL ∧ s.conflict = false ∧ v ≠ w)) → (s.vval v = none ∨ k < s.vlvl v) →
    ∃ d e, d ≠ e ∧ d < s.dom v ∧ e < s.dom v ∧ (s.asg v d = .un ∨ k < s.alvl v d) ∧
      (s.asg v e = .un ∨ k < s.alvl v e)

structure Inv (s : OSt) : Prop extends Core s where
  vars : VarsX 0 s

/-- `t` assigns more than `s`, at the current level. -/
structure Ext (s t : OSt) : Prop where
  nv   : t.nv = s.nv
  dom  : t.dom = s.dom
  ncl  : t.ncl = s.ncl
  recs : t.recs = s.recs
  lits : ∀ id, (t.cls id).lits = (s.cls id).lits
  lev  : t.LEVEL = s.LEVEL
  ndec : t.nDecisions = s.nDecisions
  nbt  : t.nBacktracks = s.nBacktracks
  nob  : t.noBranch = s.noBranch
  old  : ∀ v d, s.asg v d ≠ .un → t.asg v d = s.asg v d ∧ t.alvl v d = s.alvl v d
  new  : ∀ v d, s.asg v d = .un → t.asg v d ≠ .un → t.alvl v d = s.LEVEL
  cmono : s.conflict = true → t.conflict = true
  smono : ∀ id, (s.cls id).sat = true → (t.cls id).sat = true

theorem Ext.refl (s : OSt) : Ext s s :=
  ⟨rfl, rfl, rfl, rfl, fun _ => rfl, rfl, rfl, rfl, rfl, fun _ _ _ => ⟨rfl, rfl⟩, fun _ _ h h' => absurd h h',
    id, fun _ => id⟩

theorem Ext.trans {s t u : OSt} (h : Ext s t) (k : Ext t u) : Ext s u where
  nv := k.nv.trans h.nv
  dom := k.dom.trans h.dom
  ncl := k.ncl.trans h.ncl
  recs := k.recs.trans h.recs
  lits := fun id => (k.lits id).trans (h.lits id)
  lev := k.lev.trans h.lev
  ndec := k.ndec.trans h.ndec
  nbt := k.nbt.trans h.nbt
  nob := k.nob.trans h.nob
  old := fun v d hv => by
    obtain ⟨a, b⟩ := h.old v d hv
    obtain ⟨a', b'⟩ := k.old v d (by rw [a]; exact hv)
    exact ⟨a'.trans a, b'.trans b⟩
  new := fun v d hs hu => by
    by_cases ht : t.asg v d = .un
    · rw [k.new v d ht hu, h.lev]
    · rw [(k.old v d ht).2, h.new v d hs ht]
  cmono := fun hc => k.cmono (h.cmono hc)
  smono := fun id hs => k.smono id (h.smono id hs)

theorem assign_ext {s : OSt} (h : Core s) {l : Lit} (hu : s.asg l.var l.val = .un) : Ext s (assign s l) where
  nv := by simp
  dom := by simp
  ncl := by simp
  recs := by simp
  lits := assign_lits h l
  lev := by simp
  ndec := by simp
  nbt := by simp
  nob := by simp
  old := fun v d hv => by
    have e : ¬ (v = l.var ∧ d = l.val) := by rintro ⟨rfl, rfl⟩; exact hv hu
    simp only [assign_asg, assign_alvl, upd2, e, if_false, and_self]
  new := fun v d hs ht => by
    by_cases e : v = l.var ∧ d = l.val
    · simp only [assign_alvl, upd2, e, and_self, if_true]
    · simp only [assign_asg, upd2, e, if_false] at ht; exact absurd hs ht
  cmono := assign_conflict_mono s l
  smono := fun id hs => by rw [assign_sat_mono h l hs]; exact hs

/-- The assigned atoms of `s` are true of `σ`. -/
def Agree (s : OSt) (σ : Assignment) : Prop :=
  ∀ v d, (s.asg v d = .eq → σ v = d) ∧ (s.asg v d = .ne → σ v ≠ d)

/-- The loops over the other values. -/
theorem otherFold (v : Nat) (L : List Nat) : ∀ s : OSt, Core s → 0 ≤ s.LEVEL → 1 ≤ v → v ≤ s.nv →
    (∀ e ∈ L, e < s.dom v) →
    Core (L.foldl (otherValue v) s) ∧ Ext s (L.foldl (otherValue v) s) ∧
    ((L.foldl (otherValue v) s).vval = s.vval ∧ (L.foldl (otherValue v) s).vsat = s.vsat ∧
      (L.foldl (otherValue v) s).vlvl = s.vlvl ∧ (L.foldl (otherValue v) s).decs = s.decs ∧
      (L.foldl (otherValue v) s).ptr = s.ptr ∧ (L.foldl (otherValue v) s).unitClause = s.unitClause) ∧
    ((L.foldl (otherValue v) s).conflict = false → ∀ e ∈ L, (L.foldl (otherValue v) s).asg v e ≠ .un) ∧
    (∀ v' e, v' ≠ v → (L.foldl (otherValue v) s).asg v' e = s.asg v' e) ∧
    (∀ e, s.asg v e = .un → (L.foldl (otherValue v) s).asg v e = .un ∨ (L.foldl (otherValue v) s).asg v e = .ne) ∧
    (∀ v' e, (L.foldl (otherValue v) s).cid v' e = s.cid v' e ∨
      (s.asg v' e = .un ∧ (L.foldl (otherValue v) s).asg v' e ≠ .un ∧
        (L.foldl (otherValue v) s).cid v' e = s.unitClause)) ∧
    (∀ i ∈ s.units, i ∈ (L.foldl (otherValue v) s).units) := by
  induction L with
  | nil =>
    intro s h _ _ _ _
    exact ⟨h, Ext.refl s, ⟨rfl, rfl, rfl, rfl, rfl, rfl⟩, by simp, by simp, fun _ h => Or.inl h, by simp, by simp⟩
  | cons i L ih =>
    intro s h hL h1 h2 hr
    rw [List.foldl_cons]
    by_cases c : s.conflict = false ∧ s.asg v i = .un
    · have heq : otherValue v s i = assign s ⟨v, i, false⟩ := by simp only [otherValue, c, and_self, if_true]
      rw [heq]
      have hC := assign_core (l := ⟨v, i, false⟩) h ⟨h1, h2, hr i List.mem_cons_self⟩ c.2 hL
      have hE := assign_ext (l := ⟨v, i, false⟩) h c.2
      obtain ⟨a1, a2, a3, a4, a5, a6, a7, a8⟩ := ih _ hC (by simpa using hL) h1 (by simpa using h2)
        (fun e he => by simpa using hr e (List.mem_cons_of_mem _ he))
      have hi : (assign s ⟨v, i, false⟩).asg v i = .ne := by simp [Asg.ofSign]
      refine ⟨a1, hE.trans a2, by simpa using a3, ?_, ?_, ?_, ?_, fun j hj => a8 j (assign_units_mono _ _ j hj)⟩
      · intro hc e he
        rcases List.mem_cons.1 he with hei | he
        · rw [hei, (a2.old v i (by rw [hi]; simp)).1, hi]; simp
        · exact a4 hc e he
      · intro v' e he
        rw [a5 v' e he]
        simp [upd2, he]
      · intro e he
        by_cases z : e = i
        · right; rw [z, (a2.old v i (by rw [hi]; simp)).1, hi]
        · apply a6
          simp [upd2, z, he]
      · intro v' e
        by_cases z : v' = v ∧ e = i
        · obtain ⟨z1, z2⟩ := z
          rw [z1, z2]
          right
          have hn : (assign s ⟨v, i, false⟩).asg v i ≠ .un := by rw [hi]; simp
          refine ⟨c.2, by rw [(a2.old v i hn).1]; exact hn, ?_⟩
          rcases a7 v i with b | ⟨b, -⟩
          · rw [b]; simp
          · exact absurd b hn
        · have z1 : (assign s ⟨v, i, false⟩).cid v' e = s.cid v' e := by simp [upd2]; intro x y; exact absurd ⟨x, y⟩ z
          have z2 : (assign s ⟨v, i, false⟩).asg v' e = s.asg v' e := by simp [upd2]; intro x y; exact absurd ⟨x, y⟩ z
          rcases a7 v' e with b | ⟨b1, b2, b3⟩
          · left; rw [b, z1]
          · right; rw [z2] at b1; exact ⟨b1, b2, by simpa using b3⟩
    · have heq : otherValue v s i = s := by simp only [otherValue, c, if_false]
      rw [heq]
      obtain ⟨a1, a2, a3, a4, a5, a6, a7, a8⟩ := ih s h hL h1 h2 (fun e he => hr e (List.mem_cons_of_mem _ he))
      refine ⟨a1, a2, a3, ?_, a5, a6, a7, a8⟩
      intro hc e he
      rcases List.mem_cons.1 he with hei | he
      · rw [hei]
        have : s.conflict = false := by
          cases hs : s.conflict
          · rfl
          · rw [a2.cmono hs] at hc; cases hc
        have hu : s.asg v i ≠ .un := fun hu => c ⟨this, hu⟩
        rw [(a2.old v i hu).1]; exact hu
      · exact a4 hc e he

theorem mem_others {d n e : Nat} : e ∈ List.range d ++ List.range' (d + 1) (n - (d + 1)) ↔
    e ≠ d ∧ (e < d ∨ e < n) := by
  simp only [List.mem_append, List.mem_range, List.mem_range'_1]; omega

/-- What `reduceTheory(v, true, d)` does. -/
structure EqStep (s t : OSt) (v d : Nat) : Prop where
  core : Core t
  ext  : Ext s t
  val  : t.asg v d = .eq
  other : ∀ v' e, v' ≠ v → t.asg v' e = s.asg v' e
  rest : ∀ e, e ≠ d → s.asg v e = .un → t.asg v e = .un ∨ t.asg v e = .ne
  all  : t.conflict = false → ∀ e < s.dom v, t.asg v e ≠ .un
  vval : t.vval = upd s.vval v (some d)
  vsat : t.vsat = upd s.vsat v true
  vlvl : t.vlvl = upd s.vlvl v s.LEVEL
  decs : t.decs = s.decs ++ [⟨v, d, true⟩]
  ptr  : t.ptr = s.ptr
  uc   : t.unitClause = s.unitClause
  cid  : ∀ v' e, t.cid v' e = s.cid v' e ∨ (s.asg v' e = .un ∧ t.asg v' e ≠ .un ∧ t.cid v' e = s.unitClause)
  cidv : t.cid v d = s.unitClause
  units : ∀ i ∈ s.units, i ∈ t.units
  sats : ∀ id < s.ncl, ⟨v, d, true⟩ ∈ (s.cls id).lits → (t.cls id).sat = true

theorem reduceEq_step {s : OSt} (h : Core s) (hL : 0 ≤ s.LEVEL) {v d : Nat} (h1 : 1 ≤ v) (h2 : v ≤ s.nv)
    (hd : d < s.dom v) (hu : s.asg v d = .un) : EqStep s (reduceEq s v d) v d := by
  have hC := assign_core (l := ⟨v, d, true⟩) h ⟨h1, h2, hd⟩ hu hL
  have hE := assign_ext (l := ⟨v, d, true⟩) h hu
  have hvd : (assign s ⟨v, d, true⟩).asg v d = .eq := by simp [Asg.ofSign]
  let s2 : OSt := { assign s ⟨v, d, true⟩ with
    vval := upd s.vval v (some d), vsat := upd s.vsat v true, vlvl := upd s.vlvl v s.LEVEL,
    decs := s.decs ++ [⟨v, d, true⟩] }
  have hC2 : Core s2 := ⟨hC.occ, hC.rng, hC.arng, hC.lun, hC.las, hC.csat, hC.cuns, hC.nz, hC.conf, hC.uni, hC.smin⟩
  have hE2 : Ext s s2 := ⟨hE.nv, hE.dom, hE.ncl, hE.recs, hE.lits, hE.lev, hE.ndec, hE.nbt, hE.nob, hE.old, hE.new,
    hE.cmono, hE.smono⟩
  have e : reduceEq s v d = (List.range d ++ List.range' (d + 1) (s.dom v - (d + 1))).foldl (otherValue v) s2 := by
    simp [reduceEq, s2]
  have hvd2 : s2.asg v d = .eq := hvd
  obtain ⟨a1, a2, ⟨a31, a32, a33, a34, a35, a36⟩, a4, a5, a6, a7, a8⟩ :=
    otherFold v (List.range d ++ List.range' (d + 1) (s.dom v - (d + 1))) s2 hC2
    (by rw [hE2.lev]; exact hL) h1 (by rw [hE2.nv]; exact h2)
    (fun i hi => by rw [hE2.dom]; have := mem_others.1 hi; omega)
  rw [← e] at a1 a2 a31 a32 a33 a34 a35 a36 a4 a5 a6 a7 a8
  have huc : s2.unitClause = s.unitClause := assign_unitClause s _
  have hasg : ∀ v' e, ¬ (v' = v ∧ e = d) → s2.asg v' e = s.asg v' e := by
    intro v' e z
    show (assign s ⟨v, d, true⟩).asg v' e = _
    simp [upd2]; intro x y; exact absurd ⟨x, y⟩ z
  have hv : (reduceEq s v d).asg v d = .eq := by rw [(a2.old v d (by rw [hvd2]; simp)).1]; exact hvd2
  refine ⟨a1, hE2.trans a2, hv, ?_, ?_, ?_, a31, a32, a33, a34, ?_, ?_, ?_, ?_, ?_, ?_⟩
  · intro v' e' he
    rw [a5 v' e' he]; exact hasg v' e' (fun z => he z.1)
  · intro e' he hs
    apply a6; rw [hasg v e' (fun z => he z.2)]; exact hs
  · intro hc e' he
    by_cases z : e' = d
    · rw [z, hv]; simp
    · exact a4 hc e' (mem_others.2 ⟨z, Or.inr he⟩)
  · rw [a35]; exact assign_ptr s _
  · rw [a36]; exact huc
  · intro v' e'
    by_cases z : v' = v ∧ e' = d
    · obtain ⟨rfl, rfl⟩ := z
      right
      refine ⟨hu, by rw [hv]; simp, ?_⟩
      rcases a7 v' e' with b | ⟨b, -⟩
      · rw [b]; show (assign s ⟨v', e', true⟩).cid v' e' = _; simp
      · rw [hvd2] at b; cases b
    · have z1 : s2.cid v' e' = s.cid v' e' := by
        show (assign s ⟨v, d, true⟩).cid v' e' = _
        simp [upd2]; intro x y; exact absurd ⟨x, y⟩ z
      rcases a7 v' e' with b | ⟨b1, b2, b3⟩
      · left; rw [b, z1]
      · right; rw [hasg v' e' z] at b1; exact ⟨b1, b2, by rw [b3, huc]⟩
  · rcases a7 v d with b | ⟨b, -⟩
    · rw [b]; show (assign s ⟨v, d, true⟩).cid v d = _; simp
    · rw [hvd2] at b; cases b
  · intro i hi
    exact a8 i (assign_units_mono s _ i hi)
  · intro id hi hm
    exact a2.smono id (assign_sat_lit h hi hm)

/-- `reduceTheory(v, true, d)` keeps the invariant; before the call the variable may have one unassigned value. -/
theorem reduceEq_inv {s : OSt} (h : Core s) {v d : Nat} (hv : VarsX v s) (hL : 0 ≤ s.LEVEL) (h1 : 1 ≤ v)
    (h2 : v ≤ s.nv) (hd : d < s.dom v) (hu : s.asg v d = .un) (hn : s.vval v = none) : Inv (reduceEq s v d) := by
  have E := reduceEq_step h hL h1 h2 hd hu
  refine ⟨E.core, ?_⟩
  have hlevd : (reduceEq s v d).alvl v d = s.LEVEL := E.ext.new v d hu (by rw [E.val]; simp)
  have free : ∀ v' e k, k < s.LEVEL → (s.asg v' e = .un ∨ k < s.alvl v' e) →
      ((reduceEq s v d).asg v' e = .un ∨ k < (reduceEq s v d).alvl v' e) := by
    intro v' e k hk hf
    by_cases z : s.asg v' e = .un
    · by_cases z' : (reduceEq s v d).asg v' e = .un
      · exact Or.inl z'
      · right; rw [E.ext.new v' e z z']; exact hk
    · right
      rw [(E.ext.old v' e z).2]
      rcases hf with hf | hf
      · exact absurd hf z
      · exact hf
  have alvl_other : ∀ v' e, v' ≠ v → (reduceEq s v d).alvl v' e = s.alvl v' e := by
    intro v' e he
    by_cases z : s.asg v' e = .un
    · rw [h.lun v' e z, E.core.lun v' e (by rw [E.other v' e he]; exact z)]
    · exact (E.ext.old v' e z).2
  constructor
  · intro v' d' hs
    rw [E.vval] at hs
    rw [E.vlvl]
    by_cases z : v' = v
    · subst z
      rw [upd_same] at hs
      cases hs
      rw [upd_same]
      exact ⟨E.val, hlevd.symm⟩
    · rw [upd_of_ne _ _ z] at hs
      rw [upd_of_ne _ _ z, E.other v' d' z, alvl_other v' d' z]
      exact hv.vv v' d' hs
  · intro v' d' hs
    rw [E.vval]
    by_cases z : v' = v
    · subst z
      rw [upd_same]
      by_cases z' : d' = d
      · rw [z']
      · by_cases y : s.asg v' d' = .un
        · rcases E.rest d' z' y with b | b <;> rw [b] at hs <;> cases hs
        · rw [(E.ext.old v' d' y).1] at hs
          have := hv.ve v' d' hs
          rw [hn] at this; cases this
    · rw [upd_of_ne _ _ z]
      rw [E.other v' d' z] at hs
      exact hv.ve v' d' hs
  · intro v'
    rw [E.vsat, E.vval]
    by_cases z : v' = v
    · subst z; simp
    · rw [upd_of_ne _ _ z, upd_of_ne _ _ z]; exact hv.vs v'
  · intro v' hs
    rw [E.vval] at hs
    rw [E.vlvl]
    by_cases z : v' = v
    · subst z; simp at hs
    · rw [upd_of_ne _ _ z] at hs ⊢; exact hv.vl v' hs
  · intro v' d' e hs he
    rw [E.vval] at hs
    rw [E.ext.dom] at he
    rw [E.vlvl, E.ext.lev]
    by_cases z : v' = v
    · subst z
      rw [upd_same]
      by_cases y : (reduceEq s v' d).asg v' e = .un
      · right
        refine ⟨?_, rfl⟩
        cases hc : (reduceEq s v' d).conflict
        · exact absurd y (E.all hc e he)
        · rfl
      · left
        refine ⟨y, ?_⟩
        have := (E.core.las v' e y).2
        rw [E.ext.lev] at this; exact this
    · rw [upd_of_ne _ _ z] at hs ⊢
      rw [E.other v' e z, alvl_other v' e z]
      rcases hv.full v' d' e hs he with b | ⟨b1, b2⟩
      · exact Or.inl b
      · exact Or.inr ⟨E.ext.cmono b1, b2⟩
  · intro v' k h1' h2' hk hlev hnone
    rw [E.ext.nv] at h2'
    rw [E.ext.lev] at hlev
    rw [E.ext.dom]
    rw [E.vval, E.vlvl] at hnone
    by_cases z : v' = v
    · subst z
      rw [upd_same, upd_same] at hnone
      have hk' : k < s.LEVEL := by
        rcases hnone with b | b
        · cases b
        · exact b
      obtain ⟨d', e, b1, b2, b3, b4, b5⟩ := hv.two v' k h1' h2' hk (Or.inl hk') (Or.inl hn)
      exact ⟨d', e, b1, b2, b3, free _ _ _ hk' b4, free _ _ _ hk' b5⟩
    · rw [upd_of_ne _ _ z, upd_of_ne _ _ z] at hnone
      have hlev' : k < s.LEVEL ∨ (k ≤ s.LEVEL ∧ s.conflict = false ∧ v' ≠ v) := by
        rcases hlev with b | ⟨b, c, -⟩
        · exact Or.inl b
        · refine Or.inr ⟨b, ?_, z⟩
          cases hs : s.conflict
          · rfl
          · rw [E.ext.cmono hs] at c; cases c
      obtain ⟨d', e, b1, b2, b3, b4, b5⟩ := hv.two v' k h1' h2' hk hlev' hnone
      exact ⟨d', e, b1, b2, b3, by rw [E.other _ _ z, alvl_other _ _ z]; exact b4,
        by rw [E.other _ _ z, alvl_other _ _ z]; exact b5⟩

/-! ## Entailment -/

theorem entailLoop_spec (s : OSt) (v : Nat) : ∀ (js : List Nat) (found : Option Nat),
    (∀ e, entailLoop s v js found = some e →
      (found = some e ∧ ∀ j ∈ js, s.asg v j ≠ .un) ∨
      (found = none ∧ ∃ a b, js = a ++ e :: b ∧ s.asg v e = .un ∧ (∀ j ∈ a, s.asg v j ≠ .un) ∧
        ∀ j ∈ b, s.asg v j ≠ .un)) ∧
    (entailLoop s v js found = none →
      (found = none ∧ ∀ j ∈ js, s.asg v j ≠ .un) ∨
      (found ≠ none ∧ ∃ e ∈ js, s.asg v e = .un) ∨
      (found = none ∧ ∃ a e b f, js = a ++ e :: b ∧ f ∈ b ∧ s.asg v e = .un ∧ s.asg v f = .un)) := by
  intro js
  induction js with
  | nil => intro found; cases found <;> simp [entailLoop]
  | cons j js ih =>
    intro found
    by_cases hj : s.asg v j = .un
    · cases found with
      | none =>
        have e : entailLoop s v (j :: js) none = entailLoop s v js (some j) := by simp [entailLoop, hj]
        rw [e]
        constructor
        · intro f hf
          rcases (ih (some j)).1 f hf with ⟨b1, b2⟩ | ⟨b1, -⟩
          · cases b1
            exact Or.inr ⟨rfl, [], js, rfl, hj, by simp, b2⟩
          · cases b1
        · intro hf
          rcases (ih (some j)).2 hf with ⟨b1, -⟩ | ⟨-, f, b1, b2⟩ | ⟨b1, -⟩
          · cases b1
          · exact Or.inr (Or.inr ⟨rfl, [], j, js, f, rfl, b1, hj, b2⟩)
          · cases b1
      | some i =>
        have e : entailLoop s v (j :: js) (some i) = none := by simp [entailLoop, hj]
        rw [e]
        exact ⟨by simp, fun _ => Or.inr (Or.inl ⟨by simp, j, List.mem_cons_self, hj⟩)⟩
    · have e : entailLoop s v (j :: js) found = entailLoop s v js found := by simp [entailLoop, hj]
      rw [e]
      constructor
      · intro f hf
        rcases (ih found).1 f hf with ⟨b1, b2⟩ | ⟨b1, a, b, b2, b3, b4, b5⟩
        · exact Or.inl ⟨b1, fun i hi => by
            rcases List.mem_cons.1 hi with rfl | hi
            · exact hj
            · exact b2 i hi⟩
        · exact Or.inr ⟨b1, j :: a, b, by rw [b2]; rfl, b3, fun i hi => by
            rcases List.mem_cons.1 hi with rfl | hi
            · exact hj
            · exact b4 i hi, b5⟩
      · intro hf
        rcases (ih found).2 hf with ⟨b1, b2⟩ | ⟨b1, f, b2, b3⟩ | ⟨b1, a, f, b, g, b2, b3, b4, b5⟩
        · exact Or.inl ⟨b1, fun i hi => by
            rcases List.mem_cons.1 hi with rfl | hi
            · exact hj
            · exact b2 i hi⟩
        · exact Or.inr (Or.inl ⟨b1, f, List.mem_cons_of_mem _ b2, b3⟩)
        · exact Or.inr (Or.inr ⟨b1, j :: a, f, b, g, by rw [b2]; rfl, b3, b4, b5⟩)

theorem entailed_some {s : OSt} {v e : Nat} (h : entailed s v = some e) :
    s.vsat v = false ∧ e < s.dom v ∧ s.asg v e = .un ∧ ∀ j < s.dom v, j ≠ e → s.asg v j ≠ .un := by
  unfold entailed at h
  split at h
  · cases h
  · rename_i hs
    refine ⟨by simpa using hs, ?_⟩
    rcases (entailLoop_spec s v (List.range (s.dom v)) none).1 e h with ⟨b, -⟩ | ⟨-, a, b, h1, h2, h3, h4⟩
    · cases b
    · have he : e ∈ List.range (s.dom v) := by rw [h1]; simp
      refine ⟨by simpa using he, h2, fun j hj hne => ?_⟩
      have hj' : j ∈ List.range (s.dom v) := by simpa using hj
      rw [h1] at hj'
      rcases List.mem_append.1 hj' with b | b
      · exact h3 j b
      · rcases List.mem_cons.1 b with b | b
        · exact absurd b hne
        · exact h4 j b

theorem entailed_none {s : OSt} {v : Nat} (hs : s.vsat v = false) (h : entailed s v = none) :
    (∀ j < s.dom v, s.asg v j ≠ .un) ∨
    ∃ e f, e ≠ f ∧ e < s.dom v ∧ f < s.dom v ∧ s.asg v e = .un ∧ s.asg v f = .un := by
  unfold entailed at h
  rw [if_neg (by simp [hs])] at h
  rcases (entailLoop_spec s v (List.range (s.dom v)) none).2 h with ⟨-, b⟩ | ⟨b, -⟩ | ⟨-, a, e, b, f, h1, h2, h3, h4⟩
  · exact Or.inl fun j hj => b j (by simpa using hj)
  · exact absurd rfl b
  · right
    have nd : (List.range (s.dom v)).Nodup := List.nodup_range
    have he : e ∈ List.range (s.dom v) := by rw [h1]; simp
    have hf : f ∈ List.range (s.dom v) := by rw [h1]; simp [h2]
    rw [h1] at nd
    have := (List.nodup_cons.1 (List.nodup_append.1 nd).2.1).1
    exact ⟨e, f, fun z => this (by rw [z]; exact h2), by simpa using he, by simpa using hf, h3, h4⟩

/-! ## `reduceTheory` -/

/-- What a call of `reduceTheory` on an unassigned literal of a variable without value does. -/
structure Step (s t : OSt) (l : Lit) : Prop where
  inv  : Inv t
  ext  : Ext s t
  val  : t.asg l.var l.val = Asg.ofSign l.eq
  agree : ∀ σ : Assignment, (∀ v, 1 ≤ v → v ≤ s.nv → σ v < s.dom v) → l.holds σ → Agree s σ → Agree t σ
  decs : ∃ ds, t.decs = s.decs ++ l :: ds ∧ ∀ m ∈ ds, m.var = l.var ∧ s.asg m.var m.val = .un ∧
    t.asg m.var m.val ≠ .un ∧ t.cid m.var m.val = s.unitClause
  uc   : t.unitClause = s.unitClause
  cid  : ∀ v e, t.cid v e = s.cid v e ∨ (s.asg v e = .un ∧ t.asg v e ≠ .un ∧ t.cid v e = s.unitClause)
  cidl : t.cid l.var l.val = s.unitClause
  units : ∀ i ∈ s.units, i ∈ t.units
  sats : ∀ id < s.ncl, l ∈ (s.cls id).lits → (t.cls id).sat = true

theorem agree_eq {s t : OSt} {v d : Nat} (E : EqStep s t v d) {σ : Assignment} (hs : Agree s σ) (hd : σ v = d) :
    Agree t σ := by
  intro v' e
  by_cases z : v' = v
  · subst z
    by_cases y : e = d
    · subst y; rw [E.val]; exact ⟨fun _ => hd, fun h => by cases h⟩
    · by_cases x : s.asg v' e = .un
      · rcases E.rest e y x with b | b
        · rw [b]; exact ⟨fun h => (nomatch h), fun h => (nomatch h)⟩
        · rw [b]; exact ⟨fun h => (nomatch h), fun _ h => y (h.symm.trans hd)⟩
      · rw [(E.ext.old v' e x).1]; exact hs v' e
  · rw [E.other v' e z]; exact hs v' e

theorem dropEntail_frame {cfg : OCfg} {s t : OSt} (h : dropEntail cfg s = .ok t) :
    ∃ p, t = { s with ptr := p } := by
  unfold dropEntail at h
  split at h
  · exact ⟨s.ptr, by cases h; rfl⟩
  · exact ⟨.stale, by cases h; rfl⟩
  · split at h
    · exact ⟨s.ptr, by cases h; rfl⟩
    · cases h

theorem reduce_step {cfg : OCfg} {s t : OSt} {l : Lit} (h : Inv s) (hL : 0 ≤ s.LEVEL)
    (hc : s.conflict = false) (hr : 1 ≤ l.var ∧ l.var ≤ s.nv ∧ l.val < s.dom l.var)
    (hu : s.asg l.var l.val = .un) (hn : s.vval l.var = none) (ht : reduce cfg s l = .ok t) : Step s t l := by
  obtain ⟨v, d, e⟩ := l
  simp only at hr hu hn
  cases e with
  | true =>
    simp only [reduce, if_true] at ht
    cases ht
    have hv' : VarsX v s := by
      obtain ⟨a, b, c, d, e, f⟩ := h.vars
      refine ⟨a, b, c, d, e, ?_⟩
      intro v' k h1 h2 hk hlev hnone
      apply f v' k h1 h2 hk _ hnone
      rcases hlev with x | ⟨x, y, -⟩
      · exact Or.inl x
      · exact Or.inr ⟨x, y, by omega⟩
    have E := reduceEq_step h.toCore hL hr.1 hr.2.1 hr.2.2 hu
    refine ⟨reduceEq_inv h.toCore hv' hL hr.1 hr.2.1 hr.2.2 hu hn, E.ext, E.val, ?_, ⟨[], E.decs, by simp⟩, E.uc, E.cid,
      E.cidv, E.units, E.sats⟩
    intro σ _ hl hs
    simp only [Lit.holds, if_true] at hl
    exact agree_eq E hs hl
  | false =>
    have e0 : reduce cfg s ⟨v, d, false⟩ = (dropEntail cfg { assign s ⟨v, d, false⟩ with
        decs := (assign s ⟨v, d, false⟩).decs ++ [⟨v, d, false⟩] } >>= fun s =>
        match entailed s v with
        | some d => pure (reduceEq { s with ptr := .live, nEntails := s.nEntails + 1 } v d)
        | none => pure s) := rfl
    rw [e0] at ht
    obtain ⟨s1, h1, ht⟩ := Res.bind_eq_ok.1 ht
    obtain ⟨p, h1⟩ := dropEntail_frame h1
    have hC := assign_core (l := ⟨v, d, false⟩) h.toCore hr hu hL
    have hE := assign_ext (l := ⟨v, d, false⟩) h.toCore hu
    have hC1 : Core s1 := by
      rw [h1]; exact ⟨hC.occ, hC.rng, hC.arng, hC.lun, hC.las, hC.csat, hC.cuns, hC.nz, hC.conf, hC.uni, hC.smin⟩
    have hE1 : Ext s s1 := by
      rw [h1]; exact ⟨hE.nv, hE.dom, hE.ncl, hE.recs, hE.lits, hE.lev, hE.ndec, hE.nbt, hE.nob, hE.old, hE.new,
        hE.cmono, hE.smono⟩
    have hasg : s1.asg = upd2 s.asg v d .ne := by rw [h1]; simp [Asg.ofSign]
    have halvl : s1.alvl = upd2 s.alvl v d s.LEVEL := by rw [h1]; simp
    have hcid : s1.cid = upd2 s.cid v d s.unitClause := by rw [h1]; simp
    have hvval : s1.vval = s.vval := by rw [h1]; simp
    have hvsat : s1.vsat = s.vsat := by rw [h1]; simp
    have hvlvl : s1.vlvl = s.vlvl := by rw [h1]; simp
    have hdecs : s1.decs = s.decs ++ [⟨v, d, false⟩] := by rw [h1]; simp
    have huc : s1.unitClause = s.unitClause := by rw [h1]; simp
    have hcv : ∀ v' e, v' ≠ v → s1.asg v' e = s.asg v' e ∧ s1.alvl v' e = s.alvl v' e := by
      intro v' e z; rw [hasg, halvl]; simp [upd2, z]
    have hde : ∀ e, e ≠ d → s1.asg v e = s.asg v e := by
      intro e z; rw [hasg]; simp [upd2, z]
    have hdd : s1.asg v d = .ne := by rw [hasg]; simp
    have hV : VarsX v s1 := by
      constructor
      · intro v' d' hs
        rw [hvval] at hs
        have z : v' ≠ v := fun z => by rw [z, hn] at hs; cases hs
        rw [hvlvl, (hcv v' d' z).1, (hcv v' d' z).2]
        exact h.vars.vv v' d' hs
      · intro v' d' hs
        rw [hvval]
        by_cases z : v' = v
        · subst z
          by_cases y : d' = d
          · subst y; rw [hdd] at hs; cases hs
          · rw [hde d' y] at hs; exact h.vars.ve v' d' hs
        · rw [(hcv v' d' z).1] at hs; exact h.vars.ve v' d' hs
      · intro v'; rw [hvsat, hvval]; exact h.vars.vs v'
      · intro v' hs; rw [hvval] at hs; rw [hvlvl]; exact h.vars.vl v' hs
      · intro v' d' e hs he
        rw [hvval] at hs
        rw [hE1.dom] at he
        have z : v' ≠ v := fun z => by rw [z, hn] at hs; cases hs
        rw [hvlvl, (hcv v' e z).1, (hcv v' e z).2, hE1.lev]
        rcases h.vars.full v' d' e hs he with b | ⟨b, c⟩
        · exact Or.inl b
        · exact Or.inr ⟨hE1.cmono b, c⟩
      · intro v' k h1' h2' hk hlev hnone
        rw [hE1.nv] at h2'
        rw [hE1.lev] at hlev
        rw [hE1.dom]
        rw [hvval, hvlvl] at hnone
        by_cases z : v' = v
        · have hk' : k < s.LEVEL := by
            rcases hlev with b | ⟨-, -, b⟩
            · exact b
            · exact absurd z b
          obtain ⟨d', e, b1, b2, b3, b4, b5⟩ := h.vars.two v' k h1' h2' hk (Or.inl hk') hnone
          have free : ∀ e, (s.asg v' e = .un ∨ k < s.alvl v' e) → (s1.asg v' e = .un ∨ k < s1.alvl v' e) := by
            intro e hf
            by_cases y : e = d
            · right; rw [halvl, z, y]; simp; exact hk'
            · subst z
              rw [hde e y, halvl]; simp [upd2, y]; exact hf
          exact ⟨d', e, b1, b2, b3, free _ b4, free _ b5⟩
        · have hlev' : k < s.LEVEL ∨ (k ≤ s.LEVEL ∧ s.conflict = false ∧ v' ≠ 0) := by
            rcases hlev with b | ⟨b, -, -⟩
            · exact Or.inl b
            · exact Or.inr ⟨b, hc, by omega⟩
          obtain ⟨d', e, b1, b2, b3, b4, b5⟩ := h.vars.two v' k h1' h2' hk hlev' hnone
          exact ⟨d', e, b1, b2, b3, by rw [(hcv _ _ z).1, (hcv _ _ z).2]; exact b4,
            by rw [(hcv _ _ z).1, (hcv _ _ z).2]; exact b5⟩
    have hag : ∀ σ : Assignment, σ v ≠ d → Agree s σ → Agree s1 σ := by
      intro σ hl hs v' e
      by_cases z : v' = v
      · subst z
        by_cases y : e = d
        · subst y; rw [hdd]; exact ⟨fun h => (nomatch h), fun _ => hl⟩
        · rw [hde e y]; exact hs v' e
      · rw [(hcv v' e z).1]; exact hs v' e
    have hsats : ∀ id < s.ncl, (⟨v, d, false⟩ : Lit) ∈ (s.cls id).lits → (s1.cls id).sat = true := by
      intro id hi hm
      rw [h1]; exact assign_sat_lit h.toCore hi hm
    have hunits : ∀ i ∈ s.units, i ∈ s1.units := by
      intro i hi; rw [h1]; exact assign_units_mono s _ i hi
    have hvs : s1.vsat v = false := by
      rw [hvsat, h.vars.vs, hn]; simp; omega
    have noeq : ∀ e, s1.asg v e ≠ .eq := by
      intro e he
      have := hV.ve v e he
      rw [hvval, hn] at this; cases this
    cases hent : entailed s1 v with
    | none =>
      rw [hent] at ht
      have ht' : t = s1 := by cases ht; rfl
      rw [ht']
      have hI : Inv s1 := by
        refine ⟨hC1, hV.vv, hV.ve, hV.vs, hV.vl, hV.full, ?_⟩
        intro v' k h1' h2' hk hlev hnone
        by_cases z : v' = v
        · subst z
          by_cases hk' : k < s1.LEVEL
          · exact hV.two v' k h1' h2' hk (Or.inl hk') hnone
          · have hkL : k = s.LEVEL := by
              rw [hE1.lev] at hk' hlev; rcases hlev with b | ⟨b, -, -⟩ <;> omega
            rw [hvval, hvlvl] at hnone
            obtain ⟨d', e, b1, b2, b3, b4, b5⟩ := h.vars.two v' k h1' (by rw [← hE1.nv]; exact h2') hk
              (Or.inr ⟨by omega, hc, by omega⟩) hnone
            have un : ∀ e, (s.asg v' e = .un ∨ k < s.alvl v' e) → s.asg v' e = .un := by
              intro e he
              rcases he with b | b
              · exact b
              · by_cases y : s.asg v' e = .un
                · exact y
                · have := (h.las v' e y).2; omega
            rcases entailed_none hvs hent with b | ⟨e', f', c1, c2, c3, c4, c5⟩
            · exfalso
              by_cases y : d' = d
              · have y' : e ≠ d := fun z => b1 (y.trans z.symm)
                exact b e (by rw [hE1.dom]; exact b3) (by rw [hde e y']; exact un e b5)
              · exact b d' (by rw [hE1.dom]; exact b2) (by rw [hde d' y]; exact un d' b4)
            · exact ⟨e', f', c1, c2, c3, Or.inl c4, Or.inl c5⟩
        · apply hV.two v' k h1' h2' hk _ hnone
          rcases hlev with b | ⟨b, c, -⟩
          · exact Or.inl b
          · exact Or.inr ⟨b, c, z⟩
      refine ⟨hI, hE1, hdd, ?_, ⟨[], hdecs, by simp⟩, huc, ?_, ?_, hunits, hsats⟩
      · intro σ _ hl hs
        exact hag σ (by simpa [Lit.holds] using hl) hs
      · intro v' e
        rw [hcid]
        by_cases z : v' = v ∧ e = d
        · obtain ⟨rfl, rfl⟩ := z
          exact Or.inr ⟨hu, by rw [hdd]; simp, by simp⟩
        · left; simp only [upd2, z, if_false]
      · rw [hcid]; simp
    | some e =>
      rw [hent] at ht
      obtain ⟨-, k1, k2, k3⟩ := entailed_some hent
      have ht' : t = reduceEq { s1 with ptr := .live, nEntails := s1.nEntails + 1 } v e := by cases ht; rfl
      have hC2 : Core { s1 with ptr := .live, nEntails := s1.nEntails + 1 } :=
        ⟨hC1.occ, hC1.rng, hC1.arng, hC1.lun, hC1.las, hC1.csat, hC1.cuns, hC1.nz, hC1.conf, hC1.uni, hC1.smin⟩
      have hV2 : VarsX v { s1 with ptr := .live, nEntails := s1.nEntails + 1 } :=
        ⟨hV.vv, hV.ve, hV.vs, hV.vl, hV.full, hV.two⟩
      have hE2 : Ext s { s1 with ptr := .live, nEntails := s1.nEntails + 1 } :=
        ⟨hE1.nv, hE1.dom, hE1.ncl, hE1.recs, hE1.lits, hE1.lev, hE1.ndec, hE1.nbt, hE1.nob, hE1.old, hE1.new,
          hE1.cmono, hE1.smono⟩
      have hL2 : 0 ≤ s1.LEVEL := by rw [hE1.lev]; exact hL
      have h22 : v ≤ s1.nv := by rw [hE1.nv]; exact hr.2.1
      have E := reduceEq_step hC2 hL2 hr.1 h22 k1 k2
      have I := reduceEq_inv hC2 hV2 hL2 hr.1 h22 k1 k2 (by show s1.vval v = none; rw [hvval]; exact hn)
      rw [← ht'] at E I
      have hed : e ≠ d := fun z => by rw [z, hdd] at k2; cases k2
      have kd : t.asg v d = .ne := by
        rw [(E.ext.old v d (by show s1.asg v d ≠ .un; rw [hdd]; simp)).1]; exact hdd
      refine ⟨I, hE2.trans E.ext, kd, ?_, ?_, E.uc.trans huc, ?_, ?_, fun i hi => E.units i (hunits i hi),
        fun id hi hm => E.ext.smono id (hsats id hi hm)⟩
      · intro σ hdom hl hs
        have hs1 := hag σ (by simpa [Lit.holds] using hl) hs
        apply agree_eq E (fun v' e' => hs1 v' e')
        have hσ : σ v < s1.dom v := by rw [hE1.dom]; exact hdom v hr.1 hr.2.1
        by_cases z : σ v = e
        · exact z
        · have := k3 (σ v) hσ z
          have ne : s1.asg v (σ v) = .ne := by
            cases hx : s1.asg v (σ v)
            · exact absurd hx this
            · exact absurd hx (noeq _)
            · rfl
          exact absurd rfl ((hs1 v (σ v)).2 ne)
      · refine ⟨[⟨v, e, true⟩], ?_, ?_⟩
        · rw [E.decs]; show s1.decs ++ _ = _; rw [hdecs]; simp
        · intro m hm
          simp only [List.mem_singleton] at hm
          subst hm
          refine ⟨rfl, ?_, by simp only; rw [E.val]; simp, ?_⟩
          · simp only
            rw [← hde e hed]; exact k2
          · simp only
            rw [E.cidv]; exact huc
      · intro v' e'
        rcases E.cid v' e' with b | ⟨b1, b2, b3⟩
        · have b' : t.cid v' e' = s1.cid v' e' := b
          rw [b', hcid]
          by_cases z : v' = v ∧ e' = d
          · obtain ⟨rfl, rfl⟩ := z
            exact Or.inr ⟨hu, by rw [kd]; simp, by simp⟩
          · left; simp only [upd2, z, if_false]
        · right
          have b1' : s1.asg v' e' = .un := b1
          refine ⟨?_, b2, b3.trans huc⟩
          by_cases y : s.asg v' e' = .un
          · exact y
          · rw [(hE1.old v' e' y).1] at b1'; exact absurd b1' y
      · rcases E.cid v d with b | ⟨b1, -⟩
        · have b' : t.cid v d = s1.cid v d := b
          rw [b', hcid]; simp
        · have b1' : s1.asg v d = .un := b1
          rw [hdd] at b1'; cases b1'

/-- `reduceTheory` is never out of steps, and its only undefined behaviour is the pointer. -/
theorem reduce_ne_fuel (cfg : OCfg) (s : OSt) (l : Lit) : reduce cfg s l ≠ .fuel := by
  unfold reduce
  split
  · simp
  · intro h
    simp only at h
    unfold dropEntail at h
    split at h
    · simp only [Res.ok_bind] at h; split at h <;> cases h
    · simp only [Res.ok_bind] at h; split at h <;> cases h
    · split at h
      · simp only [Res.ok_bind] at h; split at h <;> cases h
      · cases h

theorem reduce_tolerant {cfg : OCfg} (ht : cfg.tolerant = true) (s : OSt) (l : Lit) :
    ∃ t, reduce cfg s l = .ok t := by
  cases h : reduce cfg s l with
  | ok t => exact ⟨t, rfl⟩
  | fuel => exact absurd h (reduce_ne_fuel cfg s l)
  | ub =>
    exfalso
    unfold reduce at h
    split at h
    · cases h
    · simp only at h
      unfold dropEntail at h
      split at h
      · simp only [Res.ok_bind] at h; split at h <;> cases h
      · simp only [Res.ok_bind] at h; split at h <;> cases h
      · rw [if_pos ht] at h
        simp only [Res.ok_bind] at h; split at h <;> cases h

end Mvl.Orig
