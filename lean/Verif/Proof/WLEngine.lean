import Verif.Proof.WLStep

/-!
# Watched literals: propagation and undoing
-/

namespace Mvl

variable {S : Type}

/-- A satisfied clause needs no place in the queue. -/
theorem WOK.of_sat {c : Cls} {g : PA} {p q : Prop} (h : WOK c g p) (hs : CSat g c.lits) (hqp : q → p) : WOK c g q := by
  obtain ⟨x, hx, ht⟩ := hs
  rcases h with ⟨a, h1, h2⟩ | ⟨a, b, h1, h2⟩
  · left
    refine ⟨a, h1, Or.inl ?_⟩
    have hlen := h1.2.2
    have ha := h1.2.1
    match hm : c.lits, hlen with
    | [y], _ =>
      rw [hm] at hx ha
      simp at hx ha
      rw [ha, ← hx]; exact ht
  · right
    refine ⟨a, b, h1, ⟨?_, ?_, fun hq => h2.unit (hqp hq)⟩⟩
    · intro hf
      rcases h2.fst hf with h3 | ⟨h3, hp⟩
      · exact Or.inl h3
      · left
        by_cases hxb : x = b
        · rw [← hxb]; exact ht
        · exact absurd ht ((h2.unit hp).2 h3 x hx hxb).not_LT
    · intro hf
      rcases h2.snd hf with h3 | ⟨h3, hp⟩
      · exact Or.inl h3
      · left
        by_cases hxb : x = a
        · rw [← hxb]; exact ht
        · exact absurd ht ((h2.unit hp).1 h3 x hx hxb).not_LT

/-- A clause without open watched literals needs no place in the queue. -/
theorem WOK.of_closed {c : Cls} {g : PA} {p : Prop} (h : WOK c g p) (hn : ∀ w, Watches c w → ¬ LU g w) (q : Prop) :
    WOK c g q := by
  rcases h with ⟨a, h1, h2⟩ | ⟨a, b, h1, h2⟩
  · left
    refine ⟨a, h1, Or.inl ?_⟩
    rcases h2 with h2 | h2
    · exact h2
    · exact absurd h2.1 (hn a (h1.watches.2 rfl))
  · right
    have na := hn a (h1.watches.2 (Or.inl rfl))
    have nb := hn b (h1.watches.2 (Or.inr rfl))
    refine ⟨a, b, h1, ⟨?_, ?_, fun _ => ⟨fun hu => absurd hu na, fun hu => absurd hu nb⟩⟩⟩
    · intro hf
      rcases h2.fst hf with h3 | h3
      · exact Or.inl h3
      · exact absurd h3.1 nb
    · intro hf
      rcases h2.snd hf with h3 | h3
      · exact Or.inl h3
      · exact absurd h3.1 na

/-- A clause in the queue with an open watched literal is a unit clause. -/
theorem WOK.unit {c : Cls} {g : PA} {p : Prop} (h : WOK c g p) (hp : p) {w : Lit} (hw : Watches c w) (hu : LU g w) :
    w ∈ c.lits ∧ ∀ x ∈ c.lits, x ≠ w → LF g x := by
  rcases h with ⟨a, h1, h2⟩ | ⟨a, b, h1, h2⟩
  · have := h1.watches.1 hw
    subst this
    refine ⟨h1.2.1, ?_⟩
    intro x hx hne
    have hlen := h1.2.2
    have ha := h1.2.1
    match hm : c.lits, hlen with
    | [y], _ =>
      rw [hm] at hx ha
      simp at hx ha
      exact absurd (hx.trans ha.symm) hne
  · rcases h1.watches.1 hw with rfl | rfl
    · exact ⟨h1.2.2.1, (h2.unit hp).1 hu⟩
    · exact ⟨h1.2.2.2.1, (h2.unit hp).2 hu⟩

/-- Invariant of the watched-literal search. -/
structure WInv (ex : Nat → Prop) (s : St S) : Prop where
  base  : s.tr.Base
  lev0  : 0 ≤ s.LEVEL
  core  : WCore ex s
  histV : ∀ k : Int, 0 ≤ k → k < s.LEVEL → ∀ v, 1 ≤ v → v ≤ s.nv → VarOK s.dom (s.tr.asgAt k) v
  vars  : s.conflict = false → ∀ v, 1 ≤ v → v ≤ s.nv → VarOK s.dom s.asg v
  rng   : ∀ id, id < s.ncl → ∀ l ∈ (s.cl id).lits, s.tr.Rng l.var l.val

theorem WInv.stack {ex : Nat → Prop} {s : St S} (h : WInv ex s) : s.tr.Stack s.IsClause := by
  intro k hk0 hk
  refine ⟨h.histV k hk0 hk, ?_⟩
  rintro c ⟨id, hid, rfl⟩
  exact (h.core.hist k hk0 hk id hid).twoOrSat

theorem WInv.twoOrSat {s : St S} (h : WInv (fun _ => False) s) (hc : s.conflict = false)
    (hu : s.units = []) {c : List Lit} (hcl : s.IsClause c) : TwoOrSat s.asg c := by
  obtain ⟨id, hid, rfl⟩ := hcl
  exact ((h.core.cur hc id hid).congr (q := False) (by rw [hu]; simp)).twoOrSat

/-- Changing fields the invariant does not mention. -/
theorem WInv.congr {ex : Nat → Prop} {s s' : St S} (h : WInv ex s) (htr : s'.tr = s.tr)
    (hheap : s'.heap = s.heap) (hptr : s'.ptr = s.ptr) (hncl : s'.ncl = s.ncl) (hnh : s'.nheap = s.nheap)
    (hwl : s'.wlist = s.wlist) (hunits : s'.units = s.units) (hc : s'.conflict = s.conflict)
    (hcg : s'.conflicting = s.conflicting) : WInv ex s' := by
  cases s; cases s'
  simp only [St.tr, Trail.mk.injEq] at htr
  simp only at hheap hptr hncl hnh hwl hunits hc hcg
  obtain ⟨rfl, rfl, rfl, rfl, rfl, rfl, rfl, rfl, rfl⟩ := htr
  subst hheap hptr hncl hnh hwl hunits hc hcg
  exact ⟨h.base, h.lev0, ⟨h.core.inj, h.core.alloc, h.core.shape, h.core.lists, h.core.hist, h.core.cur, h.core.units,
    h.core.conf, h.core.ix⟩, h.histV, h.vars, h.rng⟩

theorem WInv.reduce {ex : Nat → Prop} {s : St S} (h : WInv ex s) (hc : s.conflict = false)
    {l : Lit} (hr : s.tr.Rng l.var l.val) (hu : LU s.asg l) :
    WInv ex (wreduceTheory s l) ∧ Assigned s l (wreduceTheory s l) ∧ (wreduceTheory s l).ub = s.ub := by
  rw [wreduceTheory_G]
  have hg := stepG_wassign1 (S := S)
  obtain ⟨h1, h2, h3⟩ := reduceG_trail hg s l hr.2.2 hu
  have hok := h.vars hc l.var hr.1 hr.2.1
  have hext : Ext s.tr l s.unitClause (reduceG wassign1 s l).tr := h1.ext h.base hr hu hok h.lev0
  have hinv := reduceG_inv' (g := wassign1)
    (I := fun s' : St S => WCore ex s' ∧ SameF s s' ∧ s'.ub = s.ub)
    (by
      rintro s' ds vv u n hd ⟨h1, h2, h3⟩
      exact ⟨h1.frame hd vv u n, ⟨h2.nv, h2.dom, h2.ncl, h2.lits⟩, h3⟩)
    (by
      rintro s' v d a ha ⟨h1, h2, h3⟩ hu'
      obtain ⟨a1, a2, a3⟩ := h1.assign ha hu'
      have htr := hg.tr s' v d a ha
      have hnv : (wassign1 s' v d a).nv = s'.nv := by
        have : (wassign1 s' v d a).tr.nv = s'.nv := by rw [htr]; rfl
        exact this
      have hdm : (wassign1 s' v d a).dom = s'.dom := by
        have : (wassign1 s' v d a).tr.dom = s'.dom := by rw [htr]; rfl
        exact this
      exact ⟨a1, h2.trans ⟨hnv, hdm, (hg.same s' v d a).ncl, a3⟩, a2.trans h3⟩)
    s l hu ⟨h.core, SameF.refl s, rfl⟩
  obtain ⟨hi1, hi3, hi4⟩ := hinv
  have hL : (reduceG wassign1 s l).LEVEL = s.LEVEL := hext.LEVEL
  refine ⟨⟨hext.base, by rw [hL]; exact h.lev0, hi1, ?_, ?_, ?_⟩, ⟨hext, h2, hi3⟩, hi4⟩
  · intro k hk0 hk
    rw [hL] at hk
    rw [hi3.nv, hi3.dom, hext.asgAt hk]
    exact h.histV k hk0 hk
  · intro hc' v hv1 hv2
    obtain ⟨h4, h5, h6⟩ := h3 hc'
    by_cases hvl : v = l.var
    · subst hvl
      exact hext.varOK_self hr hok h5 h6
    · exact hext.varOK_other hvl (h.vars hc v hv1 (by rw [← hi3.nv]; exact hv2))
  · intro id hid x hx
    have hid' : id < s.ncl := by rw [← hi3.ncl]; exact hid
    rw [hi3.lits id hid'] at hx
    have := h.rng id hid' x hx
    exact ⟨this.1, by rw [hext.nv]; exact this.2.1, by rw [hext.dom]; exact this.2.2⟩

/-! ### Propagation -/

/-- The open watched literal the propagation loop assigns, if any. -/
def openWatch (s : St S) (c : Cls) : Option Lit :=
  match c.w0 with
  | none => none
  | some w =>
    if sat s w = 2 then some w
    else if c.lits.length > 1 then
      match c.w1 with
      | none => none
      | some w' => if sat s w' = 2 then some w' else none
    else none

theorem openWatch_some {s : St S} {c : Cls} {w : Lit} (h : openWatch s c = some w) : Watches c w ∧ LU s.asg w := by
  unfold openWatch at h
  split at h
  · simp at h
  · rename_i a ha
    split at h
    · rename_i h2; cases h; exact ⟨Or.inl ha, sat_eq_two.1 h2⟩
    · split at h
      · rename_i hl
        split at h
        · simp at h
        · rename_i b hb
          split at h
          · rename_i h2; cases h; exact ⟨Or.inr ⟨hl, hb⟩, sat_eq_two.1 h2⟩
          · simp at h
      · simp at h

theorem openWatch_none {s : St S} {c : Cls} (hs : WShape c) (h : openWatch s c = none) :
    ∀ w, Watches c w → ¬ LU s.asg w := by
  intro w hw hu
  have h2 := sat_eq_two.2 hu
  unfold openWatch at h
  rcases hs with ⟨a, h1⟩ | ⟨a, b, h1⟩
  · have := h1.watches.1 hw
    subst this
    rw [h1.1] at h
    simp [h2] at h
  · rw [h1.1, h1.2.1] at h
    dsimp only at h
    rw [if_pos h1.2.2.2.2.2] at h
    rcases h1.watches.1 hw with rfl | rfl
    · rw [if_pos h2] at h; simp at h
    · split at h
      · simp at h
      · simp at h

/-- One round of the propagation loop. -/
def wunitStep (s : St S) : St S :=
  match s.units with
  | [] => s
  | id :: rest =>
    let s1 : St S := { s with unitClause := id, units := rest }
    match openWatch s1 (s1.cl id) with
    | some w =>
      let s2 := wreduceTheory s1 w
      { s2 with nUnits := s2.nUnits + 1 }
    | none => s1

theorem wunitProp_succ (cfg : Cfg S) (f : Nat) {s : St S} (h : WInv (fun _ => False) s) (hub : s.ub = false)
    (hc : s.conflict = false) (hu : s.units ≠ []) :
    wunitProp cfg (f + 1) s = wunitProp cfg f (wunitStep s) := by
  conv => lhs; unfold wunitProp
  unfold wunitStep
  rw [if_neg (by rw [hub]; simp), if_neg (by rw [hc]; simp)]
  cases hun : s.units with
  | nil => exact absurd hun hu
  | cons id rest =>
    dsimp only
    have hid : id < s.ncl := h.core.units id (by rw [hun]; simp)
    rw [if_pos hid]
    have hsh := h.core.shape id hid
    have hcl : ({ s with unitClause := (id : Int), units := rest } : St S).cl id = s.cl id := rfl
    rw [hcl]
    unfold openWatch
    rcases hsh with ⟨a, h1⟩ | ⟨a, b, h1⟩
    · rw [h1.1]
      dsimp only
      have hnl : ¬ (s.cl id).lits.length > 1 := by rw [h1.2.2]; omega
      by_cases h2 : sat ({ s with unitClause := (id : Int), units := rest } : St S) a = 2
      · rw [if_pos h2, if_pos h2]
      · rw [if_neg h2, if_neg h2, if_neg hnl, if_neg hnl]
    · rw [h1.1, h1.2.1]
      dsimp only
      have hnl : (s.cl id).lits.length > 1 := h1.2.2.2.2.2
      by_cases h2 : sat ({ s with unitClause := (id : Int), units := rest } : St S) a = 2
      · rw [if_pos h2, if_pos h2]
      · rw [if_neg h2, if_neg h2, if_pos hnl, if_pos hnl]
        by_cases h3 : sat ({ s with unitClause := (id : Int), units := rest } : St S) b = 2
        · rw [if_pos h3, if_pos h3]
        · rw [if_neg h3, if_neg h3]

structure WStepd (s s' : St S) : Prop where
  inv : WInv (fun _ => False) s'
  grown : Grown s s'
  agrees : ∀ a, s.Model a → Agrees a s.asg → Agrees a s'.asg
  meas : unCount s' < unCount s ∨ (unCount s' = unCount s ∧ s'.units.length < s.units.length)
  ub : s'.ub = s.ub
  score : s'.score = s.score
  nDecisions : s'.nDecisions = s.nDecisions
  nBacktracks : s'.nBacktracks = s.nBacktracks
  nRestarts : s'.nRestarts = s.nRestarts
  ticks : s'.ticks = s.ticks
  flowOff : s'.flowOff = s.flowOff
  nheap : s'.nheap = s.nheap
  ptr : s'.ptr = s.ptr

/-- The queue with its first element taken off. -/
theorem WInv.pop {s : St S} (h : WInv (fun _ => False) s) {id : Nat} {rest : List Nat} (hun : s.units = id :: rest)
    (u : Int) : WInv (fun j => j = id) ({ s with unitClause := u, units := rest } : St S) := by
  refine ⟨h.base, h.lev0, ⟨h.core.inj, h.core.alloc, h.core.shape, h.core.lists, h.core.hist, ?_, ?_, h.core.conf, h.core.ix⟩,
    h.histV, h.vars, h.rng⟩
  · intro hc j hj
    refine (h.core.cur hc j hj).congr ?_
    rw [hun]
    simp [or_comm]
  · intro j hj
    exact h.core.units j (by rw [hun]; simp [hj])

theorem wunitStep_spec {s : St S} (h : WInv (fun _ => False) s)
    (hc : s.conflict = false) (hu : s.units ≠ []) : WStepd s (wunitStep s) := by
  unfold wunitStep
  cases hun : s.units with
  | nil => exact absurd hun hu
  | cons id rest =>
    dsimp only
    have hid := h.core.units id (by rw [hun]; simp)
    have hpop := h.pop hun (id : Int)
    have hok := h.core.cur hc id hid
    have hp : id ∈ s.units ∨ False := Or.inl (by rw [hun]; simp)
    cases ho : openWatch ({ s with unitClause := (id : Int), units := rest } : St S)
        (({ s with unitClause := (id : Int), units := rest } : St S).cl id) with
    | some w =>
      dsimp only
      obtain ⟨hw, hlu⟩ := openWatch_some ho
      obtain ⟨hm, hoth⟩ := hok.unit hp hw hlu
      have hr := h.rng id hid w hm
      obtain ⟨hi, ha, hub⟩ := hpop.reduce hc hr hlu
      generalize hs2 : wreduceTheory ({ s with unitClause := (id : Int), units := rest } : St S) w = s2 at *
      have hg : Grown s { s2 with nUnits := s2.nUnits + 1 } := by
        have := ha.grown
        exact ⟨⟨this.sameF.nv, this.sameF.dom, this.sameF.ncl, this.sameF.lits⟩, this.LEVEL, this.asgAt,
          this.old, this.decs⟩
      refine ⟨?_, hg, ?_, Or.inl (ha.unCount_lt hr hlu), hub, ha.same.score, ha.same.nDecisions, ha.same.nBacktracks,
        ha.same.nRestarts, ha.same.ticks, ha.same.flowOff, ha.same.nheap, ha.same.ptr⟩
      · refine ⟨hi.base, hi.lev0, ⟨hi.core.inj, hi.core.alloc, hi.core.shape, hi.core.lists, hi.core.hist, ?_, hi.core.units,
          hi.core.conf, hi.core.ix⟩, hi.histV, hi.vars, hi.rng⟩
        intro hc2 j hj
        have hj2 := hi.core.cur hc2 j hj
        by_cases hji : j = id
        · subst hji
          refine hj2.of_sat ⟨w, ?_, ha.ext.lt⟩ (fun hq => ?_)
          · rw [ha.sameF.lits j hid]; exact hm
          · exact Or.inr rfl
        · refine hj2.congr ?_
          show j ∈ s2.units ∨ j = id ↔ j ∈ s2.units ∨ False
          simp [hji]
      · intro a hmod hag
        apply ha.ext.agrees hag
        · obtain ⟨x, hx, hxh⟩ := hmod.2 id hid
          by_cases hxl : x = w
          · subst hxl; exact hxh
          · exact absurd hxh (hag.of_LF (hoth x hx hxl))
        · exact hmod.1 w.var hr.1 hr.2.1
    | none =>
      dsimp only
      have hcl := openWatch_none (h.core.shape id hid) ho
      refine ⟨?_, ⟨⟨rfl, rfl, rfl, fun _ _ => rfl⟩, rfl, fun _ _ => rfl, fun _ _ _ => ⟨rfl, rfl, rfl, rfl⟩,
        ⟨[], by simp⟩⟩, fun _ _ h => h, Or.inr ⟨rfl, ?_⟩, rfl, rfl, rfl, rfl, rfl, rfl, rfl, rfl, rfl⟩
      · refine ⟨hpop.base, hpop.lev0, ⟨hpop.core.inj, hpop.core.alloc, hpop.core.shape, hpop.core.lists, hpop.core.hist, ?_,
          hpop.core.units, hpop.core.conf, hpop.core.ix⟩, hpop.histV, hpop.vars, hpop.rng⟩
        intro hc2 j hj
        have hj2 := hpop.core.cur hc2 j hj
        by_cases hji : j = id
        · subst hji
          exact hj2.of_closed hcl _
        · refine hj2.congr ?_
          show j ∈ rest ∨ j = id ↔ j ∈ rest ∨ False
          simp [hji]
      · rw [hun]; simp

/-- Outcome of propagation. -/
structure WPropd (s s' : St S) : Prop where
  inv : WInv (fun _ => False) s'
  done : s'.conflict = true ∨ s'.units = []
  grown : Grown s s'
  agrees : ∀ a, s.Model a → Agrees a s.asg → Agrees a s'.asg
  ub : s'.ub = s.ub

theorem WStepd.propd {s s' s'' : St S} (h : WStepd s s') (h' : WPropd s' s'') : WPropd s s'' :=
  ⟨h'.inv, h'.done, h.grown.trans h'.grown,
    fun a hm ha => h'.agrees a (h.grown.sameF.model hm) (h.agrees a hm ha), h'.ub.trans h.ub⟩

theorem WPropd.refl {s : St S} (h : WInv (fun _ => False) s) (hd : s.conflict = true ∨ s.units = []) : WPropd s s :=
  ⟨h, hd, Grown.refl s, fun _ _ h => h, rfl⟩

theorem wunitProp_spec (cfg : Cfg S) : ∀ (f : Nat) {s : St S}, WInv (fun _ => False) s → s.ub = false →
    (wunitProp cfg f s).Sat (WPropd s)
  | 0, _, _, _ => trivial
  | f + 1, s, h, hub => by
    cases hc : s.conflict with
    | true =>
      unfold wunitProp
      rw [if_neg (by rw [hub]; simp), if_pos hc]
      exact WPropd.refl h (Or.inl hc)
    | false =>
      by_cases hu : s.units = []
      · unfold wunitProp
        rw [if_neg (by rw [hub]; simp), if_neg (by simp [hc]), hu]
        exact WPropd.refl h (Or.inr hu)
      · rw [wunitProp_succ cfg f h hub hc hu]
        have hst := wunitStep_spec h hc hu
        exact (wunitProp_spec cfg f hst.inv (hst.ub.trans hub)).mono (fun a ha => hst.propd ha)

theorem wunitProp_term (cfg : Cfg S) : ∀ (n m : Nat) (s : St S), unCount s ≤ n → s.units.length ≤ m →
    WInv (fun _ => False) s → s.ub = false → ∃ s' f0, ∀ f, f0 ≤ f → wunitProp cfg f s = .ok s' := by
  intro n
  induction n using Nat.strongRecOn with
  | ind n ihn =>
    intro m
    induction m with
    | zero =>
      intro s _ hm h hub
      have hu : s.units = [] := List.length_eq_zero_iff.1 (by omega)
      refine ⟨s, 1, ?_⟩
      intro f hf
      obtain ⟨f, rfl⟩ : ∃ k, f = k + 1 := ⟨f - 1, by omega⟩
      unfold wunitProp
      rw [if_neg (by rw [hub]; simp)]
      split
      · rfl
      · rw [hu]
    | succ m ihm =>
      intro s hn hm h hub
      cases hc : s.conflict with
      | true =>
        refine ⟨s, 1, ?_⟩
        intro f hf
        obtain ⟨f, rfl⟩ : ∃ k, f = k + 1 := ⟨f - 1, by omega⟩
        unfold wunitProp
        rw [if_neg (by rw [hub]; simp), if_pos hc]
      | false =>
        by_cases hu : s.units = []
        · refine ⟨s, 1, ?_⟩
          intro f hf
          obtain ⟨f, rfl⟩ : ∃ k, f = k + 1 := ⟨f - 1, by omega⟩
          unfold wunitProp
          rw [if_neg (by rw [hub]; simp), if_neg (by simp [hc]), hu]
        · have hst := wunitStep_spec h hc hu
          have : ∃ s' f0, ∀ f, f0 ≤ f → wunitProp cfg f (wunitStep s) = .ok s' := by
            rcases hst.meas with hlt | ⟨heq, hlt⟩
            · exact ihn (unCount (wunitStep s)) (by omega) _ _ (Nat.le_refl _) (Nat.le_refl _) hst.inv (hst.ub.trans hub)
            · exact ihm _ (by omega) (by omega) hst.inv (hst.ub.trans hub)
          obtain ⟨s', f0, hf0⟩ := this
          refine ⟨s', f0 + 1, ?_⟩
          intro f hf
          obtain ⟨f, rfl⟩ : ∃ k, f = k + 1 := ⟨f - 1, by omega⟩
          rw [wunitProp_succ cfg f h hub hc hu]
          exact hf0 f (by omega)

/-! ### Going back -/

theorem wundoAtom_tr (k : Int) (s : St S) (a : Nat × Nat) : (wundoAtom k s a).tr = Trail.undo1 k s.tr a := by
  unfold wundoAtom Trail.undo1
  by_cases h : s.lvl a.1 a.2 > k
  · rw [if_pos h, if_pos (show s.tr.lvl a.1 a.2 > k from h)]; rfl
  · rw [if_neg h, if_neg (show ¬ s.tr.lvl a.1 a.2 > k from h)]

/-- Only the trail differs. -/
def FrameT (s s' : St S) : Prop :=
  ∃ g l r vv ds, s' = { s with asg := g, lvl := l, rsn := r, vval := vv, decs := ds }

theorem wundoFold (k : Int) : ∀ (as : List (Nat × Nat)) (s : St S),
    (as.foldl (wundoAtom k) s).tr = as.foldl (Trail.undo1 k) s.tr ∧ FrameT s (as.foldl (wundoAtom k) s)
  | [], s => ⟨rfl, _, _, _, _, _, rfl⟩
  | a :: as, s => by
    rw [List.foldl_cons, List.foldl_cons]
    obtain ⟨h1, h2⟩ := wundoFold k as (wundoAtom k s a)
    rw [wundoAtom_tr] at h1
    refine ⟨h1, ?_⟩
    obtain ⟨g, l, r, vv, ds, e⟩ := h2
    rw [e]
    unfold wundoAtom
    split
    · exact ⟨_, _, _, _, _, rfl⟩
    · exact ⟨_, _, _, _, _, rfl⟩

theorem wundoTheory_spec {s : St S} {K k : Int} (hb : (s.tr.level K).Base) (hk : -1 ≤ k) :
    (wundoTheory s k).tr = s.tr.undo k ∧ FrameT s (wundoTheory s k) := by
  obtain ⟨h1, h2⟩ := wundoFold k s.atoms s
  rw [Trail.undo1_all hb (by omega)] at h1
  unfold wundoTheory
  dsimp only
  generalize s.atoms.foldl (wundoAtom k) s = s2 at *
  have hdecs2 : s2.decs = s.decs := by
    have : s2.tr.decs = s.decs := by rw [h1]
    exact this
  have hasg2 : s2.asg = (s.tr.undo k).asg := by
    have : s2.tr.asg = (s.tr.undo k).asg := by rw [h1]
    exact this
  constructor
  · show ({ s2.tr with decs := _ } : Trail) = _
    rw [h1, undoDecs_full, hasg2, hdecs2]
    rfl
  · obtain ⟨g, l, r, vv, ds, e⟩ := h2
    rw [e]; exact ⟨_, _, _, _, _, rfl⟩

theorem Trail.Base.ix {t : Trail} (h : t.Base) (v d : Nat) (hn : t.asg v d ≠ .un) : t.idx v d < t.decs.length := by
  obtain ⟨i, L, h1, h2, _⟩ := h.d1 v d hn
  rw [h1]
  have : i < t.decs.length := by
    rcases Nat.lt_or_ge i t.decs.length with h' | h'
    · exact h'
    · rw [List.getElem?_eq_none h'] at h2; simp at h2
  omega

end Mvl
