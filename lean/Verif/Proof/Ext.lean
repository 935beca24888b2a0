import Verif.Proof.Reduce

/-!
# Consequences of assigning a literal, on the trail
-/

namespace Mvl

variable {S : Type}

/-- Trail `t'` extends `t` by literal `l` (reason `r`) and its consequences inside the domain. -/
structure Ext (t : Trail) (l : Lit) (r : Int) (t' : Trail) : Prop where
  nv : t'.nv = t.nv
  dom : t'.dom = t.dom
  LEVEL : t'.LEVEL = t.LEVEL
  base : t'.Base
  old : ∀ v d, t.asg v d ≠ .un →
    t'.asg v d = t.asg v d ∧ t'.lvl v d = t.lvl v d ∧ t'.rsn v d = t.rsn v d ∧ t'.idx v d = t.idx v d
  new : ∀ v d, t.asg v d = .un → t'.asg v d ≠ .un → v = l.var ∧ t'.lvl v d = t.LEVEL ∧
    ((t'.rsn v d = r ∧ t'.idx v d = t.decs.length ∧
        ((d = l.val ∧ t'.asg v d = Asg.ofSign l.eq) ∨ (l.eq = true ∧ d ≠ l.val ∧ t'.asg v d = .ne))) ∨
     (l.eq = false ∧ t'.rsn v d = -2 ∧ d ≠ l.val ∧ t'.asg v d = .eq ∧ t'.idx v d = t.decs.length + 1 ∧
        t'.decs[t.decs.length + 1]? = some ⟨v, d, true⟩ ∧
        ∀ j, j < t.dom v → j ≠ d → t'.asg v j = .ne ∧ t'.idx v j ≤ t.decs.length))
  lt : LT t'.asg l
  decs : ∃ ds, t'.decs = t.decs ++ l :: ds
  noeq : ∀ d, t.asg l.var d ≠ .eq

theorem Trail.Base.idx_lt {t : Trail} (h : t.Base) {v d : Nat} (hn : t.asg v d ≠ .un) :
    0 ≤ t.idx v d ∧ t.idx v d < t.decs.length := by
  obtain ⟨i, L, h1, h2, _⟩ := h.d1 v d hn
  obtain ⟨h3, _⟩ := List.getElem?_eq_some_iff.1 h2
  omega

/-- A variable with an open value and in order has no value. -/
theorem VarOK.noeq {dom : Nat → Nat} {g : PA} {v d : Nat} (h : VarOK dom g v) (hd : d < dom v)
    (hu : g v d = .un) : ∀ e, e < dom v → g v e ≠ .eq := by
  rcases h with ⟨x, hx, hxe, hall⟩ | ⟨h1, _⟩ | h1
  · by_cases hdx : d = x
    · subst hdx; rw [hu] at hxe; simp at hxe
    · have := hall d hd hdx
      rw [hu] at this; simp at this
  · exact h1
  · intro e he
    have : e = d := by omega
    subst this; rw [hu]; simp

theorem excl_props {v d : Nat} {r : Int} {t t' : Trail} (h : Excl v r t t') (hb : t.Base)
    (hv : 1 ≤ v ∧ v ≤ t.nv)
    (hlast : t.decs.getLast? = some ⟨v, d, true⟩) (hl : t.lvl v d = t.LEVEL) :
    t'.Base ∧ t'.nv = t.nv ∧ t'.dom = t.dom ∧ t'.LEVEL = t.LEVEL ∧ t'.decs = t.decs ∧
    (∀ v' d', t.asg v' d' ≠ .un →
      t'.asg v' d' = t.asg v' d' ∧ t'.lvl v' d' = t.lvl v' d' ∧ t'.rsn v' d' = t.rsn v' d' ∧
      t'.idx v' d' = t.idx v' d') ∧
    (∀ v' d', t.asg v' d' = .un → t'.asg v' d' ≠ .un → v' = v ∧ t'.lvl v' d' = t.LEVEL ∧
      t'.rsn v' d' = r ∧ t'.idx v' d' = (t.decs.length : Int) - 1 ∧ t'.asg v' d' = .ne) := by
  induction h with
  | refl => exact ⟨hb, rfl, rfl, rfl, rfl, fun _ _ _ => ⟨rfl, rfl, rfl, rfl⟩, fun _ _ h1 h2 => absurd h1 h2⟩
  | @step t' i h' hx hy ih =>
    obtain ⟨b, n, dm, L, ds, o, nw⟩ := ih
    have hdeq : t.asg v d ≠ .un := by
      have : t.decs[t.decs.length - 1]? = some ⟨v, d, true⟩ := by
        rw [← List.getLast?_eq_getElem?]; exact hlast
      have h2 := (hb.d2 _ _ this).1
      exact fun h => h2.not_LU h
    refine ⟨b.excl (d := d) ⟨hv.1, by rw [n]; exact hv.2, hy⟩ hx (by rw [ds]; exact hlast)
      (by rw [(o v d hdeq).2.1, L]; exact hl), n, dm, L, ds, ?_, ?_⟩
    · intro v' d' hn
      have hne : ¬ (v' = v ∧ d' = i) := by
        rintro ⟨rfl, rfl⟩
        rw [(o v' d' hn).1] at hx; exact hn hx
      simp only [Trail.set, Trail.upd2_of_ne _ _ hne]
      exact o v' d' hn
    · intro v' d' hu hn
      by_cases hc : v' = v ∧ d' = i
      · obtain ⟨rfl, rfl⟩ := hc
        have e1 : (t'.set v' d' .ne r).lvl v' d' = t'.LEVEL := by simp [Trail.set]
        have e2 : (t'.set v' d' .ne r).rsn v' d' = r := by simp [Trail.set]
        have e3 : (t'.set v' d' .ne r).idx v' d' = (t'.decs.length : Int) - 1 := by simp [Trail.set]
        have e4 : (t'.set v' d' .ne r).asg v' d' = .ne := by simp [Trail.set]
        exact ⟨rfl, by rw [e1, L], e2, by rw [e3, ds], e4⟩
      · simp only [Trail.set, Trail.upd2_of_ne _ _ hc] at hn ⊢
        exact nw v' d' hu hn

theorem Reduced.ext {t t' : Trail} {l : Lit} {r : Int} (h : Reduced t l r t') (hb : t.Base)
    (hr : t.Rng l.var l.val) (hu : LU t.asg l) (hv : VarOK t.dom t.asg l.var) (h0 : 0 ≤ t.LEVEL) :
    Ext t l r t' := by
  have hnoeq' := hv.noeq hr.2.2 hu
  have hnoeq : ∀ d, t.asg l.var d ≠ .eq := by
    intro d he
    exact hnoeq' d (hb.rng _ _ (by rw [he]; simp)).2.2 he
  have hvnone : t.vval l.var = none := by
    cases hvv : t.vval l.var with
    | none => rfl
    | some x => exact absurd ((hb.vv l.var x hr.1 hr.2.1).1 hvv) (hnoeq x)
  have hb1 : (t.assignL l r).Base := hb.assignL hr hu hvnone h0
  have o1 : ∀ v d, ¬ (v = l.var ∧ d = l.val) → (t.assignL l r).asg v d = t.asg v d ∧
      (t.assignL l r).lvl v d = t.lvl v d ∧ (t.assignL l r).rsn v d = t.rsn v d ∧
      (t.assignL l r).idx v d = t.idx v d := by
    intro v d hne
    simp only [Trail.assignL, Trail.set, Trail.upd2_of_ne _ _ hne, and_self]
  have o1' : ∀ v d, t.asg v d ≠ .un → ¬ (v = l.var ∧ d = l.val) := by
    rintro v d hn ⟨rfl, rfl⟩; exact hn hu
  have a1 : (t.assignL l r).asg l.var l.val = Asg.ofSign l.eq := by simp [Trail.assignL, Trail.set]
  have l1 : (t.assignL l r).lvl l.var l.val = t.LEVEL := by simp [Trail.assignL, Trail.set]
  have r1 : (t.assignL l r).rsn l.var l.val = r := by simp [Trail.assignL, Trail.set]
  have i1 : (t.assignL l r).idx l.var l.val = t.decs.length := by simp [Trail.assignL, Trail.set]
  have d1 : (t.assignL l r).decs = t.decs ++ [l] := rfl
  have ne1 : ∀ v d, t.asg v d = .un → (t.assignL l r).asg v d ≠ .un → v = l.var ∧ d = l.val := by
    intro v d h1 h2
    by_cases hc : v = l.var ∧ d = l.val
    · exact hc
    · rw [(o1 v d hc).1] at h2; exact absurd h1 h2
  cases h with
  | eq he hx =>
    have hlast : (t.assignL l r).decs.getLast? = some ⟨l.var, l.val, true⟩ := by
      rw [d1, List.getLast?_append]; cases l; simp at he; simp [he]
    obtain ⟨b, n, dm, L, ds, o, nw⟩ := excl_props hx hb1 ⟨hr.1, hr.2.1⟩ hlast (by rw [l1]; rfl)
    have hl1 : (t.assignL l r).asg l.var l.val ≠ .un := by rw [a1]; simp
    refine ⟨n, dm, L, b, ?_, ?_, ?_, ⟨[], by rw [ds, d1]⟩, hnoeq⟩
    · intro v d hn
      have h2 := o1 v d (o1' v d hn)
      have h3 := o v d (by rw [h2.1]; exact hn)
      exact ⟨h3.1.trans h2.1, h3.2.1.trans h2.2.1, h3.2.2.1.trans h2.2.2.1, h3.2.2.2.trans h2.2.2.2⟩
    · intro v d h1 h2
      by_cases hc : (t.assignL l r).asg v d = .un
      · obtain ⟨e1, e2, e3, e4, e5⟩ := nw v d hc h2
        refine ⟨e1, e2, Or.inl ⟨e3, ?_, Or.inr ⟨he, ?_, e5⟩⟩⟩
        · rw [e4, d1]; simp
        · rintro rfl; subst e1; exact hl1 hc
      · obtain ⟨rfl, rfl⟩ := ne1 v d h1 hc
        have h3 := o _ _ hc
        refine ⟨rfl, by rw [h3.2.1, l1], Or.inl ⟨by rw [h3.2.2.1, r1], by rw [h3.2.2.2, i1],
          Or.inl ⟨rfl, by rw [h3.1, a1]⟩⟩⟩
    · unfold LT; rw [(o _ _ hl1).1, a1]
  | ne he =>
    refine ⟨rfl, rfl, rfl, hb1, fun v d hn => o1 v d (o1' v d hn), ?_, a1, ⟨[], rfl⟩, hnoeq⟩
    intro v d h1 h2
    obtain ⟨rfl, rfl⟩ := ne1 v d h1 h2
    exact ⟨rfl, l1, Or.inl ⟨r1, i1, Or.inl ⟨rfl, a1⟩⟩⟩
  | @ent e he hed heu hall =>
    have hel : e ≠ l.val := by
      rintro rfl; rw [a1] at heu; simp at heu
    have hvn : (t.assignL l r).vval l.var = none := by
      simp only [Trail.assignL, Trail.set, he]; exact hvnone
    have hb2 : ((t.assignL l r).assignL ⟨l.var, e, true⟩ (-2)).Base :=
      hb1.assignL ⟨hr.1, hr.2.1, hed⟩ heu hvn h0
    have o2 : ∀ v d, ¬ (v = l.var ∧ d = e) →
        ((t.assignL l r).assignL ⟨l.var, e, true⟩ (-2)).asg v d = (t.assignL l r).asg v d ∧
        ((t.assignL l r).assignL ⟨l.var, e, true⟩ (-2)).lvl v d = (t.assignL l r).lvl v d ∧
        ((t.assignL l r).assignL ⟨l.var, e, true⟩ (-2)).rsn v d = (t.assignL l r).rsn v d ∧
        ((t.assignL l r).assignL ⟨l.var, e, true⟩ (-2)).idx v d = (t.assignL l r).idx v d := by
      intro v d hne
      have e1 : ((t.assignL l r).assignL ⟨l.var, e, true⟩ (-2)).asg v d = (t.assignL l r).asg v d :=
        Trail.upd2_of_ne _ _ hne
      have e2 : ((t.assignL l r).assignL ⟨l.var, e, true⟩ (-2)).lvl v d = (t.assignL l r).lvl v d :=
        Trail.upd2_of_ne _ _ hne
      have e3 : ((t.assignL l r).assignL ⟨l.var, e, true⟩ (-2)).rsn v d = (t.assignL l r).rsn v d :=
        Trail.upd2_of_ne _ _ hne
      have e4 : ((t.assignL l r).assignL ⟨l.var, e, true⟩ (-2)).idx v d = (t.assignL l r).idx v d :=
        Trail.upd2_of_ne _ _ hne
      exact ⟨e1, e2, e3, e4⟩
    have heun : t.asg l.var e = .un := by
      rw [← (o1 l.var e (by simp [hel])).1]; exact heu
    have hle : ¬ (l.var = l.var ∧ l.val = e) := by simp [Ne.symm hel]
    refine ⟨rfl, rfl, rfl, hb2, ?_, ?_, ?_, ⟨[⟨l.var, e, true⟩], ?_⟩, hnoeq⟩
    · intro v d hn
      have h1 : ¬ (v = l.var ∧ d = e) := by rintro ⟨rfl, rfl⟩; exact hn heun
      have h2 := o1 v d (o1' v d hn)
      have h3 := o2 v d h1
      exact ⟨h3.1.trans h2.1, h3.2.1.trans h2.2.1, h3.2.2.1.trans h2.2.2.1, h3.2.2.2.trans h2.2.2.2⟩
    · intro v d h1 h2
      by_cases hc : v = l.var ∧ d = e
      · obtain ⟨rfl, rfl⟩ := hc
        have A : ((t.assignL l r).assignL ⟨l.var, d, true⟩ (-2)).asg l.var d = .eq := by
          simp [Trail.assignL, Trail.set]
        have B : ((t.assignL l r).assignL ⟨l.var, d, true⟩ (-2)).lvl l.var d = t.LEVEL := by
          simp [Trail.assignL, Trail.set]
        have C : ((t.assignL l r).assignL ⟨l.var, d, true⟩ (-2)).rsn l.var d = -2 := by
          simp [Trail.assignL, Trail.set]
        have D : ((t.assignL l r).assignL ⟨l.var, d, true⟩ (-2)).idx l.var d = t.decs.length + 1 := by
          simp [Trail.assignL, Trail.set]; omega
        have E : ((t.assignL l r).assignL ⟨l.var, d, true⟩ (-2)).decs[t.decs.length + 1]? =
            some ⟨l.var, d, true⟩ := by
          simp [Trail.assignL, Trail.set]
        refine ⟨rfl, B, Or.inr ⟨he, C, hel, A, D, E, ?_⟩⟩
        intro j hj hjd
        have hnc : ¬ (l.var = l.var ∧ j = d) := by simp [hjd]
        rw [(o2 l.var j hnc).1, (o2 l.var j hnc).2.2.2]
        have hn := hall j hj hjd
        by_cases hjl : j = l.val
        · subst hjl; rw [a1, i1, he]; exact ⟨rfl, Int.le_refl _⟩
        · have h3 := o1 l.var j (by simp [hjl])
          rw [h3.1] at hn ⊢
          rw [h3.2.2.2]
          have h4 := hb.idx_lt hn
          refine ⟨?_, by omega⟩
          cases hh : t.asg l.var j with
          | un => exact absurd hh hn
          | eq => exact absurd hh (hnoeq j)
          | ne => rfl
      · have h3 := o2 v d hc
        rw [h3.1] at h2
        obtain ⟨rfl, rfl⟩ := ne1 v d h1 h2
        refine ⟨rfl, by rw [h3.2.1, l1], Or.inl ⟨by rw [h3.2.2.1, r1], by rw [h3.2.2.2, i1], ?_⟩⟩
        exact Or.inl ⟨rfl, by rw [h3.1, a1]⟩
    · unfold LT; rw [(o2 _ _ hle).1, a1]
    · simp [Trail.assignL, Trail.set]

namespace Ext

variable {t t' : Trail} {l : Lit} {r : Int}

theorem asgAt (h : Ext t l r t') {k : Int} (hk : k < t.LEVEL) : t'.asgAt k = t.asgAt k := by
  funext v d
  unfold Trail.asgAt
  by_cases hn : t.asg v d = .un
  · by_cases hn' : t'.asg v d = .un
    · simp [hn, hn']
    · have := (h.new v d hn hn').2.1
      rw [if_pos (by omega), hn]; simp
  · have := h.old v d hn
    rw [this.1, this.2.1]

/-- Every in-domain assignment that agrees with the old trail and makes `l` true agrees with the new
one. -/
theorem agrees (h : Ext t l r t') {a : Assignment} (ha : Agrees a t.asg) (hl : l.holds a)
    (hdom : a l.var < max 2 (t.dom l.var)) : Agrees a t'.asg := by
  intro v d
  by_cases hn : t.asg v d = .un
  · by_cases hn' : t'.asg v d = .un
    · rw [hn']; simp
    · obtain ⟨rfl, _, h3⟩ := h.new v d hn hn'
      rcases h3 with ⟨_, _, ⟨rfl, h5⟩ | ⟨h4, h5, h6⟩⟩ | ⟨h4, _, h6, h7, _, _, h8⟩
      · unfold Lit.holds at hl
        cases he : l.eq
        · rw [he] at h5 hl; rw [h5]; simp at hl; simp [hl]
        · rw [he] at h5 hl; rw [h5]; simp at hl; simp [hl]
      · rw [h6]
        unfold Lit.holds at hl
        rw [h4] at hl; simp at hl
        simp; intro h; rw [hl] at h; exact h5 h.symm
      · rw [h7]
        simp only [true_implies, reduceCtorEq, false_implies, and_true]
        apply Classical.byContradiction
        intro hne
        have hdr := (h.base.rng l.var d (by rw [h7]; simp)).2.2
        have hlr := (h.base.rng l.var l.val (by have := h.lt; unfold LT at this; rw [this]; simp)).2.2
        rw [h.dom] at hdr hlr
        have h9 := (h8 (a l.var) (by omega) hne).1
        by_cases hv : a l.var = l.val
        · unfold Lit.holds at hl
          rw [h4] at hl; simp at hl; exact hl hv
        · by_cases hu : t.asg l.var (a l.var) = .un
          · have h10 := (h.new l.var (a l.var) hu (by rw [h9]; simp)).2.2
            rcases h10 with ⟨_, _, ⟨h11, _⟩ | ⟨h11, _⟩⟩ | ⟨_, _, _, h11, _⟩
            · exact hv h11
            · rw [h4] at h11; simp at h11
            · rw [h9] at h11; simp at h11
          · rw [(h.old _ _ hu).1] at h9
            exact (ha l.var (a l.var)).2 h9 rfl
  · rw [(h.old v d hn).1]; exact ha v d

theorem other (h : Ext t l r t') {v : Nat} (hv : v ≠ l.var) (d : Nat) : t'.asg v d = t.asg v d := by
  by_cases hn : t.asg v d = .un
  · by_cases hn' : t'.asg v d = .un
    · rw [hn, hn']
    · exact absurd (h.new v d hn hn').1 hv
  · exact (h.old v d hn).1

theorem varOK_other (h : Ext t l r t') {v : Nat} (hv : v ≠ l.var) (hok : VarOK t.dom t.asg v) :
    VarOK t'.dom t'.asg v := by
  unfold VarOK at *
  simp only [h.other hv, h.dom]
  exact hok

/-- If no conflict was met, the variable is in order again. -/
theorem varOK_self (h : Ext t l r t') (hr : t.Rng l.var l.val) (hok : VarOK t.dom t.asg l.var)
    (h1 : l.eq = true → ∀ i, i < t.dom l.var → t'.asg l.var i ≠ .un)
    (h2 : l.eq = false → ((∀ j, j < t.dom l.var → t'.asg l.var j ≠ .un) ∨
         ∃ d e, d ≠ e ∧ d < t.dom l.var ∧ e < t.dom l.var ∧
           t'.asg l.var d = .un ∧ t'.asg l.var e = .un)) :
    VarOK t'.dom t'.asg l.var := by
  by_cases hone : t.dom l.var = 1
  · right; right; rw [h.dom]; exact hone
  have hlt := h.lt
  unfold LT at hlt
  rw [h.dom.symm] at h1 h2
  cases he : l.eq with
  | true =>
    rw [he] at hlt
    left
    refine ⟨l.val, by rw [h.dom]; exact hr.2.2, hlt, ?_⟩
    intro e hed hne
    have hn := h1 he e hed
    by_cases ho : t.asg l.var e = .un
    · rcases (h.new _ _ ho hn).2.2 with ⟨_, _, ⟨h4, _⟩ | ⟨_, _, h4⟩⟩ | ⟨h4, _⟩
      · exact absurd h4 hne
      · exact h4
      · rw [he] at h4; simp at h4
    · rw [(h.old _ _ ho).1] at hn ⊢
      cases hh : t.asg l.var e with
      | un => exact absurd hh ho
      | eq => exact absurd hh (h.noeq e)
      | ne => rfl
  | false =>
    rcases h2 he with h3 | h3
    · -- some value must have been entailed: at least two were open before
      rcases hok with ⟨x, hx, hxe, _⟩ | ⟨_, d, e, hde, hd, hee, hdu, heu⟩ | hok
      · exact absurd hxe (h.noeq x)
      · have key : ∃ x, t.asg l.var x = .un ∧ x < t.dom l.var ∧ x ≠ l.val := by
          by_cases hdl : d = l.val
          · exact ⟨e, heu, hee, by rintro rfl; exact hde hdl⟩
          · exact ⟨d, hdu, hd, hdl⟩
        obtain ⟨x, hxu, hxd, hxl⟩ := key
        have hn := h3 x (by rw [h.dom]; exact hxd)
        rcases (h.new _ _ hxu hn).2.2 with ⟨_, _, ⟨h4, _⟩ | ⟨h4, _⟩⟩ | ⟨_, _, _, h7, _, _, h8⟩
        · exact absurd h4 hxl
        · rw [he] at h4; simp at h4
        · left
          refine ⟨x, by rw [h.dom]; exact hxd, h7, ?_⟩
          intro j hj hjx
          exact (h8 j (by rw [← h.dom]; exact hj) hjx).1
      · exact absurd hok hone
    · right; left
      refine ⟨?_, h3⟩
      intro x hx hxe
      obtain ⟨d, e, hde, hd, hee, hdu, heu⟩ := h3
      by_cases ho : t.asg l.var x = .un
      · rcases (h.new _ _ ho (by rw [hxe]; simp)).2.2 with ⟨_, _, ⟨h4, h5⟩ | ⟨h4, _⟩⟩ | ⟨_, _, _, h7, _, _, h8⟩
        · rw [he] at h5; rw [hxe] at h5; simp at h5
        · rw [he] at h4; simp at h4
        · have : d ≠ x ∨ e ≠ x := by
            by_cases hdx : d = x
            · right; rintro rfl; exact hde hdx
            · exact Or.inl hdx
          rcases this with hh | hh
          · have := (h8 d (by rw [← h.dom]; exact hd) hh).1
            rw [hdu] at this; simp at this
          · have := (h8 e (by rw [← h.dom]; exact hee) hh).1
            rw [heu] at this; simp at this
      · rw [(h.old _ _ ho).1] at hxe
        exact h.noeq x hxe

end Ext

end Mvl
