import Verif.Proof.DUndo
import Verif.Proof.Engine
import Verif.Proof.Choose

/-!
# Counter mode with shared clause objects: propagation and undoing keep the invariant
-/

namespace Mvl

variable {S : Type}

/-- `c` is the literal list of an entry marked `G`. -/
def St.IsGood (G : Nat → Prop) (s : St S) (c : List Lit) : Prop := ∃ id, id < s.ncl ∧ G id ∧ (s.cl id).lits = c

theorem SameF.isGood {G : Nat → Prop} {s s' : St S} (h : SameF s s') {c : List Lit} (hc : s'.IsGood G c) :
    s.IsGood G c := by
  obtain ⟨id, hid, hg, rfl⟩ := hc
  rw [h.ncl] at hid
  exact ⟨id, hid, hg, (h.lits id hid).symm⟩

/-- Invariant of the counter-mode search. -/
structure DInv (G ex : Nat → Prop) (s : St S) : Prop where
  base  : s.tr.Base
  lev0  : 0 ≤ s.LEVEL
  cnt   : DCnt G ex s
  stack : s.tr.Stack (s.IsGood G)
  vars  : s.conflict = false → ∀ v, 1 ≤ v → v ≤ s.nv → VarOK s.dom s.asg v
  rng   : ∀ id, id < s.ncl → ∀ l ∈ (s.cl id).lits, s.tr.Rng l.var l.val

theorem DInv.twoOrSat {G : Nat → Prop} {s : St S} (h : DInv G (fun _ => False) s) (hc : s.conflict = false)
    (hu : s.units = []) {c : List Lit} (hcl : s.IsGood G c) : TwoOrSat s.asg c := by
  obtain ⟨id, hid, hg, rfl⟩ := hcl
  by_cases hl : (s.cl id).level = -1
  · right
    have h2 := (h.cnt.num id hid hg).open hl
    rcases h.cnt.pend hc id hg (by simp) hid hl with h3 | ⟨_, h3⟩
    · omega
    · rw [hu] at h3; simp at h3
  · exact Or.inl ((h.cnt.mark id hid).sat hl)

/-- Changing fields the invariant does not mention. -/
theorem DInv.congr {G ex : Nat → Prop} {s s' : St S} (h : DInv G ex s) (htr : s'.tr = s.tr)
    (hheap : s'.heap = s.heap) (hptr : s'.ptr = s.ptr) (hncl : s'.ncl = s.ncl) (hnh : s'.nheap = s.nheap)
    (hrecs : s'.recs = s.recs) (hunits : s'.units = s.units) (hc : s'.conflict = s.conflict)
    (hcg : s'.conflicting = s.conflicting) : DInv G ex s' := by
  cases s; cases s'
  simp only [St.tr, Trail.mk.injEq] at htr
  simp only at hheap hptr hncl hnh hrecs hunits hc hcg
  obtain ⟨h1, h2, h3, h4, h5, h6, h7, h8, h9⟩ := htr
  subst hheap hptr hncl hnh hrecs hunits hc hcg h1 h2 h3 h4 h5 h6 h7 h8 h9
  exact ⟨h.base, h.lev0, ⟨⟨h.cnt.store.own, h.cnt.store.recs, h.cnt.store.alloc, h.cnt.store.unit⟩, h.cnt.mark,
    h.cnt.num, h.cnt.unitsOK, h.cnt.pend, h.cnt.conf⟩, h.stack, h.vars, h.rng⟩

/-- Without shared objects the stronger invariant holds for every entry. -/
theorem CInv.toD {ex : Nat → Prop} {s : St S} (h : CInv ex s) : DInv (fun _ => True) ex s := by
  refine ⟨h.base, h.lev0, ⟨⟨fun j _ hj i hi => h.cnt.store.inj i j hi hj, h.cnt.store.recs, h.cnt.store.alloc,
    fun _ _ hg => absurd trivial hg⟩, fun id hid => (h.cnt.exact id hid).mark, fun id hid _ => (h.cnt.exact id hid).num,
    fun id hid => ⟨(h.cnt.unitsOK id hid).1, fun _ => (h.cnt.unitsOK id hid).2⟩,
    fun hc id _ => h.cnt.pend hc id, ?_⟩, ?_, h.vars, h.rng⟩
  · intro hc
    obtain ⟨id, hid, h1, h2, h3⟩ := h.cnt.conf hc
    obtain ⟨h4, h5⟩ := (h.cnt.exact id hid).unsat h2
    exact ⟨id, hid, h1, allFalse_of h4 (by omega)⟩
  · intro k h0 hk
    obtain ⟨h1, h2⟩ := h.stack k h0 hk
    refine ⟨h1, ?_⟩
    rintro c ⟨id, hid, _, rfl⟩
    exact h2 _ ⟨id, hid, rfl⟩

/-- `reduceTheory` keeps the invariant. -/
theorem DInv.reduce (cfg : Cfg S) {G ex : Nat → Prop} {s : St S} (h : DInv G ex s) (hc : s.conflict = false)
    {l : Lit} (hr : s.tr.Rng l.var l.val) (hu : LU s.asg l) :
    DInv G ex (reduceTheory cfg s l) ∧ Assigned s l (reduceTheory cfg s l) := by
  rw [reduceTheory_G]
  have hg := stepG_assign1 cfg
  obtain ⟨h1, h2, h3⟩ := reduceG_trail hg s l hr.2.2 hu
  have hok := h.vars hc l.var hr.1 hr.2.1
  have hext : Ext s.tr l s.unitClause (reduceG (assign1 cfg) s l).tr := h1.ext h.base hr hu hok h.lev0
  have hinv := reduceG_inv (g := assign1 cfg)
    (I := fun s' : St S => (DCnt G ex s' ∧ (∀ v d, s'.asg v d ≠ .un → s'.lvl v d ≤ s'.LEVEL)) ∧
      s'.LEVEL = s.LEVEL ∧ SameF s s')
    (by
      rintro s' ds vv u n ⟨⟨h1, h2⟩, h3, h4⟩
      exact ⟨⟨⟨⟨h1.store.own, h1.store.recs, h1.store.alloc, h1.store.unit⟩, h1.mark, h1.num, h1.unitsOK, h1.pend,
        h1.conf⟩, h2⟩, h3, ⟨h4.nv, h4.dom, h4.ncl, h4.lits⟩⟩)
    (by
      rintro s' v d a ha ⟨⟨h1, h2⟩, h3, h4⟩ hu'
      obtain ⟨e, rfl, he⟩ := assign1_cases cfg s' v d ha
      have htr := hg.tr s' v d (Asg.ofSign e) ha
      have hsm := hg.same s' v d (Asg.ofSign e)
      have hL : (assign1 cfg s' v d (Asg.ofSign e)).LEVEL = s'.LEVEL := by
        have : (assign1 cfg s' v d (Asg.ofSign e)).tr.LEVEL = s'.LEVEL := by rw [htr]; rfl
        exact this
      have hasg : (assign1 cfg s' v d (Asg.ofSign e)).asg = upd2 s'.asg v d (Asg.ofSign e) := by
        have : (assign1 cfg s' v d (Asg.ofSign e)).tr.asg = upd2 s'.asg v d (Asg.ofSign e) := by rw [htr]; rfl
        exact this
      have hlvl : (assign1 cfg s' v d (Asg.ofSign e)).lvl = upd2 s'.lvl v d s'.LEVEL := by
        have : (assign1 cfg s' v d (Asg.ofSign e)).tr.lvl = upd2 s'.lvl v d s'.LEVEL := by rw [htr]; rfl
        exact this
      have hnv : (assign1 cfg s' v d (Asg.ofSign e)).nv = s'.nv := by
        have : (assign1 cfg s' v d (Asg.ofSign e)).tr.nv = s'.nv := by rw [htr]; rfl
        exact this
      have hdm : (assign1 cfg s' v d (Asg.ofSign e)).dom = s'.dom := by
        have : (assign1 cfg s' v d (Asg.ofSign e)).tr.dom = s'.dom := by rw [htr]; rfl
        exact this
      have h0 : 0 ≤ s'.LEVEL := by rw [h3]; exact h.lev0
      refine ⟨⟨?_, ?_⟩, by rw [hL, h3], h4.trans ⟨hnv, hdm, hsm.ncl, ?_⟩⟩
      · rw [he]; exact h1.assignLit cfg h2 h0 (l := ⟨v, d, e⟩) hu'
      · intro v' d' hn
        rw [hL, hlvl]
        rw [hasg] at hn
        by_cases hcc : v' = v ∧ d' = d
        · obtain ⟨rfl, rfl⟩ := hcc; simp
        · rw [Trail.upd2_of_ne _ _ hcc] at hn ⊢; exact h2 v' d' hn
      · intro id hid
        rw [he]; exact assignLit_lits' cfg s' h0 _ id)
    s l hu ⟨⟨h.cnt, h.base.lvlL⟩, rfl, SameF.refl s⟩
  obtain ⟨⟨hi1, _⟩, hi2, hi3⟩ := hinv
  refine ⟨⟨hext.base, by rw [hi2]; exact h.lev0, hi1, ?_, ?_, ?_⟩, ⟨hext, h2, hi3⟩⟩
  · intro k hk0 hk
    have hk' : k < s.tr.LEVEL := by rw [hext.LEVEL] at hk; exact hk
    rw [hext.asgAt hk', hext.nv, hext.dom]
    obtain ⟨h4, h5⟩ := h.stack k hk0 hk'
    exact ⟨h4, fun c hcl => h5 c (hi3.isGood hcl)⟩
  · intro hc' v hv1 hv2
    obtain ⟨h4, h5, h6⟩ := h3 hc'
    by_cases hvl : v = l.var
    · subst hvl
      exact hext.varOK_self hr hok h5 h6
    · exact hext.varOK_other hvl (h.vars hc v hv1 (by rw [← hi3.nv]; exact hv2))
  · intro id hid x hx
    have hid' : id < s.ncl := by rw [← hi3.ncl]; exact hid
    rw [hi3.lits id hid'] at hx
    have := h.rng id hid' x hx
    exact ⟨this.1, by rw [hext.nv]; exact this.2.1, by rw [hext.dom]; exact this.2.2⟩

/-! ### Unit propagation -/

theorem unitProp_succ_D (cfg : Cfg S) (f : Nat) {G : Nat → Prop} {s : St S} (h : DInv G (fun _ => False) s)
    (hc : s.conflict = false) (hu : s.units ≠ []) :
    unitProp cfg (f + 1) s = unitProp cfg f (unitStep cfg s) := by
  conv => lhs; unfold unitProp
  unfold unitStep
  rw [if_neg (by rw [hc]; simp)]
  cases hun : s.units with
  | nil => exact absurd hun hu
  | cons id rest =>
    dsimp only
    have hid : id < s.ncl := (h.cnt.unitsOK id (by rw [hun]; simp)).1
    rw [if_pos hid]
    split
    · split
      · rename_i h1; simp only [h1]
      · rename_i h1; simp only [h1]
    · rfl

/-- The clause at the front of the queue, unsatisfied, with an open literal: the others are false. -/
theorem DInv.front {G : Nat → Prop} {s : St S} (h : DInv G (fun _ => False) s) {id : Nat}
    {rest : List Nat} (hun : s.units = id :: rest) (hl : (s.cl id).level = -1) {l : Lit}
    (hf : (s.cl id).lits.find? (fun l => s.asg l.var l.val = .un) = some l) :
    l ∈ (s.cl id).lits ∧ LU s.asg l ∧ ∀ l' ∈ (s.cl id).lits, l' ≠ l → LF s.asg l' := by
  obtain ⟨hid, hnum⟩ := h.cnt.unitsOK id (by rw [hun]; simp)
  have hm := List.mem_of_find?_eq_some hf
  have hlu : LU s.asg l := by simpa [LU] using List.find?_some hf
  refine ⟨hm, hlu, ?_⟩
  by_cases hg : G id
  · have hnum := hnum hg hl
    have hns := (h.cnt.mark id hid).unsat hl
    have hcnt := (h.cnt.num id hid hg).open hl
    exact others_false hns (by omega) hm hlu
  · obtain ⟨B, hB⟩ := h.cnt.store.unit id hid hg
    rw [hB] at hm ⊢
    intro l' hl' hne
    have h1 : l = B := by simpa using hm
    have h2 : l' = B := by simpa using hl'
    exact absurd (h2.trans h1.symm) hne

/-- ... and an unshared clause does have an open literal. -/
theorem DInv.front_some {G : Nat → Prop} {s : St S} (h : DInv G (fun _ => False) s) (hc : s.conflict = false) {id : Nat}
    {rest : List Nat} (hun : s.units = id :: rest) (hg : G id) (hl : (s.cl id).level = -1) :
    (s.cl id).lits.find? (fun l => s.asg l.var l.val = .un) ≠ none := by
  obtain ⟨hid, hnum⟩ := h.cnt.unitsOK id (by rw [hun]; simp)
  have hcnt := (h.cnt.num id hid hg).open hl
  have h1 : 0 < openCount s.asg (s.cl id).lits := by
    rcases h.cnt.pend hc id hg (by simp) hid hl with h3 | ⟨h3, _⟩ <;> omega
  obtain ⟨x, hx, hxu⟩ := openCount_pos.1 h1
  intro hf
  have := List.find?_eq_none.1 hf x hx
  exact absurd hxu (by simpa [LU] using this)

structure DStepd (G : Nat → Prop) (s s' : St S) : Prop where
  inv : DInv G (fun _ => False) s'
  grown : Grown s s'
  agrees : ∀ a, s.Model a → Agrees a s.asg → Agrees a s'.asg
  nDecisions : s'.nDecisions = s.nDecisions
  nBacktracks : s'.nBacktracks = s.nBacktracks
  nRestarts : s'.nRestarts = s.nRestarts
  ticks : s'.ticks = s.ticks
  flowOff : s'.flowOff = s.flowOff

structure DPropd (G : Nat → Prop) (s s' : St S) : Prop where
  inv : DInv G (fun _ => False) s'
  done : s'.conflict = true ∨ s'.units = []
  grown : Grown s s'
  agrees : ∀ a, s.Model a → Agrees a s.asg → Agrees a s'.asg
  nDecisions : s'.nDecisions = s.nDecisions
  nBacktracks : s'.nBacktracks = s.nBacktracks
  nRestarts : s'.nRestarts = s.nRestarts
  ticks : s'.ticks = s.ticks
  flowOff : s'.flowOff = s.flowOff

theorem unitStep_D (cfg : Cfg S) {G : Nat → Prop} {s : St S} (h : DInv G (fun _ => False) s)
    (hc : s.conflict = false) (hu : s.units ≠ []) : DStepd G s (unitStep cfg s) := by
  unfold unitStep
  cases hun : s.units with
  | nil => exact absurd hun hu
  | cons id rest =>
    dsimp only
    obtain ⟨hid, _⟩ := h.cnt.unitsOK id (by rw [hun]; simp)
    have hpop : ∀ (u : Int) (n : Nat), DInv G (fun j => j = id)
        ({ s with unitClause := u, units := rest, nUnits := n } : St S) := by
      intro u n
      refine ⟨h.base, h.lev0, ⟨⟨h.cnt.store.own, h.cnt.store.recs, h.cnt.store.alloc, h.cnt.store.unit⟩, h.cnt.mark,
        h.cnt.num, ?_, ?_, h.cnt.conf⟩, h.stack, h.vars, h.rng⟩
      · intro j hj
        exact h.cnt.unitsOK j (by rw [hun]; simp [hj])
      · intro _ j hg hj hjn hjl
        rcases h.cnt.pend hc j hg (by simp) hjn hjl with h1 | ⟨h1, h2⟩
        · exact Or.inl h1
        · right
          refine ⟨h1, ?_⟩
          rw [hun] at h2
          rcases List.mem_cons.1 h2 with h2 | h2
          · exact absurd h2 hj
          · exact h2
    have hskip : (G id → (s.cl id).level ≠ -1) →
        DStepd G s ({ s with unitClause := (id : Int), units := rest } : St S) := by
      intro hno
      have hi := hpop id s.nUnits
      refine ⟨?_, ⟨⟨rfl, rfl, rfl, fun _ _ => rfl⟩, rfl, fun _ _ => rfl, fun _ _ _ => ⟨rfl, rfl, rfl, rfl⟩,
        ⟨[], by simp⟩⟩, fun _ _ h => h, rfl, rfl, rfl, rfl, rfl⟩
      refine ⟨hi.base, hi.lev0, ⟨hi.cnt.store, hi.cnt.mark, hi.cnt.num, hi.cnt.unitsOK, ?_, hi.cnt.conf⟩, hi.stack,
        hi.vars, hi.rng⟩
      intro hc2 j hg _ hj hjl
      by_cases hji : j = id
      · subst hji; exact absurd hjl (hno hg)
      · exact hi.cnt.pend hc2 j hg hji hj hjl
    by_cases hl : (s.cl id).level = -1
    · rw [if_pos (by exact hl)]
      cases hf : (s.cl id).lits.find? (fun l => s.asg l.var l.val = .un) with
      | none =>
        have hf' : (({ s with unitClause := (id : Int), units := rest } : St S).cl id).lits.find?
          (fun l => ({ s with unitClause := (id : Int), units := rest } : St S).asg l.var l.val = .un) = none := hf
        simp only [hf']
        exact hskip (fun hg _ => h.front_some hc hun hg hl hf)
      | some l =>
        obtain ⟨hm, hlu, hoth⟩ := h.front hun hl hf
        have hf' : (({ s with unitClause := (id : Int), units := rest } : St S).cl id).lits.find?
          (fun l => ({ s with unitClause := (id : Int), units := rest } : St S).asg l.var l.val = .un) = some l := hf
        simp only [hf']
        have hr := h.rng id hid l hm
        obtain ⟨hi, ha⟩ := (hpop id (s.nUnits + 1)).reduce cfg hc hr hlu
        generalize hs2 : reduceTheory cfg { s with unitClause := (id : Int), units := rest, nUnits := s.nUnits + 1 } l = s2 at *
        have hg : Grown s s2 := by
          have := ha.grown
          exact ⟨⟨this.sameF.nv, this.sameF.dom, this.sameF.ncl, this.sameF.lits⟩, this.LEVEL, this.asgAt,
            this.old, this.decs⟩
        refine ⟨?_, hg, ?_, ha.same.nDecisions, ha.same.nBacktracks, ha.same.nRestarts, ha.same.ticks, ha.same.flowOff⟩
        · refine ⟨hi.base, hi.lev0, ⟨hi.cnt.store, hi.cnt.mark, hi.cnt.num, hi.cnt.unitsOK, ?_, hi.cnt.conf⟩, hi.stack,
            hi.vars, hi.rng⟩
          intro hc2 j hgj _ hj hjl
          by_cases hji : j = id
          · subst hji
            have hsat : CSat s2.asg (s2.cl j).lits := by
              refine ⟨l, ?_, ha.ext.lt⟩
              rw [ha.sameF.lits j hid]; exact hm
            exact absurd hsat ((hi.cnt.mark j hj).unsat hjl)
          · exact hi.cnt.pend hc2 j hgj hji hj hjl
        · intro a hmod hag
          apply ha.ext.agrees hag
          · obtain ⟨x, hx, hxh⟩ := hmod.2 id hid
            by_cases hxl : x = l
            · subst hxl; exact hxh
            · exact absurd hxh (hag.of_LF (hoth x hx hxl))
          · exact hmod.1 l.var hr.1 hr.2.1
    · rw [if_neg (by exact hl)]
      exact hskip (fun _ => hl)

theorem DStepd.propd {G : Nat → Prop} {s s' s'' : St S} (h : DStepd G s s') (h' : DPropd G s' s'') : DPropd G s s'' :=
  ⟨h'.inv, h'.done, h.grown.trans h'.grown,
    fun a hm ha => h'.agrees a (h.grown.sameF.model hm) (h.agrees a hm ha), h'.nDecisions.trans h.nDecisions,
    h'.nBacktracks.trans h.nBacktracks, h'.nRestarts.trans h.nRestarts, h'.ticks.trans h.ticks, h'.flowOff.trans h.flowOff⟩

theorem unitProp_D (cfg : Cfg S) {G : Nat → Prop} : ∀ (f : Nat) {s : St S}, DInv G (fun _ => False) s →
    (unitProp cfg f s).Sat (DPropd G s)
  | 0, _, _ => trivial
  | f + 1, s, h => by
    cases hc : s.conflict with
    | true =>
      unfold unitProp
      rw [if_pos hc]
      exact ⟨h, Or.inl hc, Grown.refl s, fun _ _ h => h, rfl, rfl, rfl, rfl, rfl⟩
    | false =>
      by_cases hu : s.units = []
      · unfold unitProp
        rw [if_neg (by simp [hc]), hu]
        exact ⟨h, Or.inr hu, Grown.refl s, fun _ _ h => h, rfl, rfl, rfl, rfl, rfl⟩
      · rw [unitProp_succ_D cfg f h hc hu]
        have hst := unitStep_D cfg h hc hu
        exact (unitProp_D cfg f hst.inv).mono (fun a ha => hst.propd ha)

/-! ### Going back to an earlier level -/

/-- Undoing to an earlier level restores the invariant, with the clauses `u` pending.  `K` is the level
before the undo; `LEVEL` may have been overwritten already. -/
theorem undo_gen_D (cfg : Cfg S) {G : Nat → Prop} {s : St S} {K : Int} (hb : (s.tr.level K).Base) (hs : DStore G s)
    (hex : ∀ id, id < s.ncl → Mark s.asg s.lvl (s.cl id))
    (hnum : ∀ id, id < s.ncl → G id → Num s.asg (s.cl id))
    (hrng : ∀ id, id < s.ncl → ∀ l ∈ (s.cl id).lits, s.tr.Rng l.var l.val)
    {k : Int} (h0 : 0 ≤ k) {u : List Nat}
    (hv : ∀ j, 0 ≤ j → j ≤ k → ∀ v, 1 ≤ v → v ≤ s.nv → VarOK s.dom (s.tr.asgAt j) v)
    (hcl : ∀ j, 0 ≤ j → j < k → ∀ c, s.IsGood G c → TwoOrSat (s.tr.asgAt j) c)
    (hk : ∀ id, id < s.ncl → G id → TwoOrSat (s.tr.asgAt k) (s.cl id).lits ∨
      (openCount (s.tr.asgAt k) (s.cl id).lits = 1 ∧ id ∈ u))
    (hu : ∀ id ∈ u, id < s.ncl ∧ (G id → openCount (s.tr.asgAt k) (s.cl id).lits ≤ 1)) :
    DInv G (fun _ => False) ({ undoTheory cfg s k with conflict := false, units := u, LEVEL := k } : St S) ∧
    SameF s (undoTheory cfg s k) ∧ (undoTheory cfg s k).tr = s.tr.undo k ∧ FrameU s (undoTheory cfg s k) := by
  have hun := undoTheory_D cfg (k := k) (K := K) (by omega) hb hs hex hnum
  generalize undoTheory cfg s k = s' at *
  have hb := hb.undo h0 (hv k h0 (Int.le_refl _))
  obtain ⟨hp, c, g, lv, r, vv, ds, he⟩ := hun.frame
  have hnv : s'.nv = s.nv := by rw [he]
  have hdom : s'.dom = s.dom := by rw [he]
  have hncl : s'.ncl = s.ncl := by rw [he]
  have hsf : SameF s s' := ⟨hnv, hdom, hncl, hun.lits⟩
  have hasg : s'.asg = s.tr.asgAt k := by
    have : s'.tr.asg = s.tr.asgAt k := by rw [hun.tr]; rfl
    exact this
  refine ⟨⟨?_, h0, ⟨⟨hun.store.own, hun.store.recs, hun.store.alloc, hun.store.unit⟩, ?_, ?_, ?_, ?_, ?_⟩, ?_, ?_, ?_⟩,
    hsf, hun.tr, hun.frame⟩
  · have : ({ s' with conflict := false, units := u, LEVEL := k } : St S).tr = (s.tr.undo k).level k := by
      rw [← hun.tr]; rfl
    rw [this]; exact hb
  · intro id hid
    exact hun.mark id (by rw [← hncl]; exact hid)
  · intro id hid
    exact hun.num id (by rw [← hncl]; exact hid)
  · intro id hid
    obtain ⟨hid', hle⟩ := hu id hid
    refine ⟨by rw [← hncl] at hid'; exact hid', ?_⟩
    intro hg hl
    have h2 := (hun.num id hid' hg).open hl
    rw [hun.lits id hid', hasg] at h2
    have := hle hg
    show (s'.cl id).numUn ≤ 1
    omega
  · intro _ id hg _ hid hl
    have hid' : id < s.ncl := by rw [← hncl]; exact hid
    have h1 := (hun.mark id hid').unsat hl
    have h2 := (hun.num id hid' hg).open hl
    rw [hun.lits id hid', hasg] at h1 h2
    show 2 ≤ (s'.cl id).numUn ∨ _
    rcases hk id hid' hg with (h3 | h3) | ⟨h3, h4⟩
    · exact absurd h3 h1
    · left; omega
    · right
      exact ⟨by show (s'.cl id).numUn = 1; omega, h4⟩
  · intro hc; simp at hc
  · intro j hj0 hj
    have hj' : j < k := hj
    have : ({ s' with conflict := false, units := u, LEVEL := k } : St S).tr.asgAt j = s.tr.asgAt j := by
      have e : ({ s' with conflict := false, units := u, LEVEL := k } : St S).tr.asgAt j = s'.tr.asgAt j := rfl
      rw [e, hun.tr]; exact Trail.asgAt_undo (by omega)
    rw [this]
    refine ⟨?_, fun c hc => hcl j hj0 hj' c (hsf.isGood hc)⟩
    have e1 : ({ s' with conflict := false, units := u, LEVEL := k } : St S).tr.nv = s.nv := hnv
    have e2 : ({ s' with conflict := false, units := u, LEVEL := k } : St S).tr.dom = s.dom := hdom
    rw [e1, e2]; exact hv j hj0 (by omega)
  · intro _ v hv1 hv2
    show VarOK s'.dom s'.asg v
    rw [hdom, hasg]
    exact hv k h0 (Int.le_refl _) v hv1 (by rw [← hnv]; exact hv2)
  · intro id hid l hl
    have hid' : id < s.ncl := by rw [← hncl]; exact hid
    have := hrng id hid' l (by rw [← hun.lits id hid']; exact hl)
    exact ⟨this.1, by show l.var ≤ s'.nv; rw [hnv]; exact this.2.1,
      by show l.val < s'.dom l.var; rw [hdom]; exact this.2.2⟩

/-- When no decision is found every unshared clause is satisfied, and no clause is open. -/
theorem DInv.choose_none {G : Nat → Prop} {s : St S} (h : DInv G (fun _ => False) s) (hc : s.conflict = false)
    (hu : s.units = []) (hn : ∀ id, id < s.ncl → (s.cl id).level = -1 → ∀ l ∈ (s.cl id).lits, ¬ LU s.asg l) :
    ∀ id, id < s.ncl → G id → CSat s.asg (s.cl id).lits := by
  intro id hid hg
  by_cases hl : (s.cl id).level = -1
  · exact csat_of_twoOrSat (h.twoOrSat hc hu ⟨id, hid, hg, rfl⟩) (hn id hid hl)
  · exact (h.cnt.mark id hid).sat hl

/-- Opening a new decision level. -/
theorem DInv.open_level {G : Nat → Prop} {s : St S} (h : DInv G (fun _ => False) s) (hc : s.conflict = false)
    (hu : s.units = []) (u : Int) (n : Nat) :
    DInv G (fun _ => False) ({ s with LEVEL := s.LEVEL + 1, unitClause := u, nDecisions := n } : St S) := by
  refine ⟨?_, ?_, ⟨⟨h.cnt.store.own, h.cnt.store.recs, h.cnt.store.alloc, h.cnt.store.unit⟩, h.cnt.mark, h.cnt.num,
    h.cnt.unitsOK, h.cnt.pend, h.cnt.conf⟩, ?_, h.vars, h.rng⟩
  · have hb := h.base
    exact ⟨hb.rng, hb.un, hb.lvl0, fun v d hn => by
      have : s.lvl v d ≤ s.LEVEL := hb.lvlL v d hn
      show s.lvl v d ≤ s.LEVEL + 1
      omega, hb.vv, hb.d1, hb.d2, hb.d3⟩
  · have := h.lev0
    show 0 ≤ s.LEVEL + 1
    omega
  · intro k hk0 hk
    have hk : k < s.LEVEL + 1 := hk
    by_cases hkL : k < s.LEVEL
    · exact h.stack k hk0 hkL
    · have hkE : k = s.LEVEL := by omega
      subst hkE
      have : ({ s with LEVEL := s.LEVEL + 1, unitClause := u, nDecisions := n } : St S).tr.asgAt s.LEVEL = s.asg :=
        Trail.asgAt_of_le (t := s.tr) h.base (Int.le_refl _)
      rw [this]
      exact ⟨h.vars hc, fun c hcl => h.twoOrSat hc hu hcl⟩

end Mvl
