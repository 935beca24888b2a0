import Verif.Proof.Ext
import Verif.Model.Search

/-!
# Counter mode: propagation and undoing keep the invariant
-/

namespace Mvl

variable {S : Type}

theorem assign1_cases (cfg : Cfg S) (s : St S) (v d : Nat) {a : Asg} (ha : a ≠ .un) :
    ∃ e, a = Asg.ofSign e ∧ assign1 cfg s v d a = assignLit cfg s ⟨v, d, e⟩ := by
  cases a with
  | un => exact absurd rfl ha
  | eq => exact ⟨true, rfl, rfl⟩
  | ne => exact ⟨false, rfl, rfl⟩

theorem FrameE.same {s s' : St S} (h : FrameE s s') : Same s s' := by
  obtain ⟨_, _, _, _, _, rfl⟩ := h
  exact ⟨rfl, rfl, rfl, rfl, rfl, rfl, rfl, rfl, rfl, rfl, rfl⟩

theorem remFold_conf : ∀ (ids : List Nat) (s : St S), s.conflict = true →
    (ids.foldl remOne s).conflict = true
  | [], _, h => h
  | id :: ids, s, h => by
    rw [List.foldl_cons]
    apply remFold_conf
    have := remOne_conf s id
    split at this
    · exact this.1
    · rw [this.1]; exact h

theorem assign1_frame (cfg : Cfg S) (s : St S) (v d : Nat) (a : Asg) :
    FrameE (setAtom cfg s v d a) (assign1 cfg s v d a) :=
  (satisfyClauses_frame cfg _ _).toE.trans (removeLiteral_frame _ _)

theorem stepG_assign1 (cfg : Cfg S) : StepG (assign1 cfg) where
  tr := by
    intro s v d a ha
    rw [(assign1_frame cfg s v d a).tr]; rfl
  unit := by
    intro s v d a
    obtain ⟨_, _, _, _, _, h⟩ := assign1_frame cfg s v d a
    rw [h]; rfl
  ents := by
    intro s v d a
    obtain ⟨_, _, _, _, _, h⟩ := assign1_frame cfg s v d a
    rw [h]; rfl
  same := by
    intro s v d a
    have h := (assign1_frame cfg s v d a).same
    have h0 : Same s (setAtom cfg s v d a) := ⟨rfl, rfl, rfl, rfl, rfl, rfl, rfl, rfl, rfl, rfl, rfl⟩
    exact h0.trans h
  conf := by
    intro s v d a hc
    unfold assign1
    apply remFold_conf
    obtain ⟨_, _, h⟩ := satisfyClauses_frame cfg (setAtom cfg s v d a) ⟨v, d, a = .eq⟩
    rw [h]; exact hc

/-- `c` is the literal list of a clause in the clause list. -/
def St.IsClause (s : St S) (c : List Lit) : Prop := ∃ id, id < s.ncl ∧ (s.cl id).lits = c

/-- An assignment inside the domains that satisfies every clause in the clause list.  A variable with one value may have
a second one here, see `Problem.widen`. -/
def St.Model (s : St S) (a : Assignment) : Prop :=
  (∀ v, 1 ≤ v → v ≤ s.nv → a v < max 2 (s.dom v)) ∧ ∀ id, id < s.ncl → clauseHolds a (s.cl id).lits

/-- Same clauses and variables. -/
structure SameF (s s' : St S) : Prop where
  nv : s'.nv = s.nv
  dom : s'.dom = s.dom
  ncl : s'.ncl = s.ncl
  lits : ∀ id, id < s.ncl → (s'.cl id).lits = (s.cl id).lits

theorem SameF.refl (s : St S) : SameF s s := ⟨rfl, rfl, rfl, fun _ _ => rfl⟩
theorem SameF.trans {s s' s'' : St S} (h1 : SameF s s') (h2 : SameF s' s'') : SameF s s'' :=
  ⟨h2.nv.trans h1.nv, h2.dom.trans h1.dom, h2.ncl.trans h1.ncl, fun id hid =>
    (h2.lits id (by rw [h1.ncl]; exact hid)).trans (h1.lits id hid)⟩
theorem SameF.symm {s s' : St S} (h : SameF s s') : SameF s' s :=
  ⟨h.nv.symm, h.dom.symm, h.ncl.symm, fun id hid => (h.lits id (by rw [← h.ncl]; exact hid)).symm⟩

theorem SameF.model {s s' : St S} (h : SameF s s') {a : Assignment} (hm : s.Model a) : s'.Model a := by
  refine ⟨?_, ?_⟩
  · rw [h.nv, h.dom]; exact hm.1
  · intro id hid
    rw [h.ncl] at hid
    rw [h.lits id hid]; exact hm.2 id hid

theorem SameF.isClause {s s' : St S} (h : SameF s s') {c : List Lit} (hc : s'.IsClause c) : s.IsClause c := by
  obtain ⟨id, hid, rfl⟩ := hc
  rw [h.ncl] at hid
  exact ⟨id, hid, (h.lits id hid).symm⟩

/-- Invariant of the counter-mode search. -/
structure CInv (ex : Nat → Prop) (s : St S) : Prop where
  base  : s.tr.Base
  lev0  : 0 ≤ s.LEVEL
  cnt   : CntInv ex s
  stack : s.tr.Stack s.IsClause
  vars  : s.conflict = false → ∀ v, 1 ≤ v → v ≤ s.nv → VarOK s.dom s.asg v
  rng   : ∀ id, id < s.ncl → ∀ l ∈ (s.cl id).lits, s.tr.Rng l.var l.val

/-- Clauses other than exempt ones that are not satisfied have two open literals when nothing is
pending. -/
theorem CInv.twoOrSat {s : St S} (h : CInv (fun _ => False) s) (hc : s.conflict = false)
    (hu : s.units = []) {c : List Lit} (hcl : s.IsClause c) : TwoOrSat s.asg c := by
  obtain ⟨id, hid, rfl⟩ := hcl
  have hex := h.cnt.exact id hid
  by_cases hl : (s.cl id).level = -1
  · right
    obtain ⟨h1, h2⟩ := hex.unsat hl
    rcases h.cnt.pend hc id (by simp) hid hl with h3 | ⟨_, h3⟩
    · omega
    · rw [hu] at h3; simp at h3
  · exact Or.inl (hex.sat hl)

/-- Changing fields the invariant does not mention. -/
theorem CInv.congr {ex : Nat → Prop} {s s' : St S} (h : CInv ex s) (htr : s'.tr = s.tr)
    (hheap : s'.heap = s.heap) (hptr : s'.ptr = s.ptr) (hncl : s'.ncl = s.ncl) (hnh : s'.nheap = s.nheap)
    (hrecs : s'.recs = s.recs) (hunits : s'.units = s.units) (hc : s'.conflict = s.conflict)
    (hcg : s'.conflicting = s.conflicting) : CInv ex s' := by
  cases s; cases s'
  simp only [St.tr, Trail.mk.injEq] at htr
  simp only at hheap hptr hncl hnh hrecs hunits hc hcg
  obtain ⟨h1, h2, h3, h4, h5, h6, h7, h8, h9⟩ := htr
  subst hheap hptr hncl hnh hrecs hunits hc hcg h1 h2 h3 h4 h5 h6 h7 h8 h9
  exact ⟨h.base, h.lev0, ⟨⟨h.cnt.store.inj, h.cnt.store.recs, h.cnt.store.alloc⟩, h.cnt.exact, h.cnt.unitsOK,
    h.cnt.pend, h.cnt.conf⟩, h.stack, h.vars, h.rng⟩

structure Assigned (s : St S) (l : Lit) (s' : St S) : Prop where
  ext : Ext s.tr l s.unitClause s'.tr
  same : Same s s'
  sameF : SameF s s'

/-- `reduceTheory` keeps the invariant. -/
theorem CInv.reduce (cfg : Cfg S) {ex : Nat → Prop} {s : St S} (h : CInv ex s) (hc : s.conflict = false)
    {l : Lit} (hr : s.tr.Rng l.var l.val) (hu : LU s.asg l) :
    CInv ex (reduceTheory cfg s l) ∧ Assigned s l (reduceTheory cfg s l) := by
  rw [reduceTheory_G]
  have hg := stepG_assign1 cfg
  obtain ⟨h1, h2, h3⟩ := reduceG_trail hg s l hr.2.2 hu
  have hok := h.vars hc l.var hr.1 hr.2.1
  have hext : Ext s.tr l s.unitClause (reduceG (assign1 cfg) s l).tr := h1.ext h.base hr hu hok h.lev0
  have hinv := reduceG_inv (g := assign1 cfg)
    (I := fun s' : St S => (CntInv ex s' ∧ (∀ v d, s'.asg v d ≠ .un → s'.lvl v d ≤ s'.LEVEL)) ∧
      s'.LEVEL = s.LEVEL ∧ SameF s s')
    (by
      rintro s' ds vv u n ⟨⟨h1, h2⟩, h3, h4⟩
      exact ⟨⟨⟨⟨h1.store.inj, h1.store.recs, h1.store.alloc⟩, h1.exact, h1.unitsOK, h1.pend, h1.conf⟩, h2⟩,
        h3, ⟨h4.nv, h4.dom, h4.ncl, h4.lits⟩⟩)
    (by
      rintro s' v d a ha ⟨⟨h1, h2⟩, h3, h4⟩ hu'
      obtain ⟨e, rfl, he⟩ := assign1_cases cfg s' v d ha
      have htr := hg.tr s' v d (Asg.ofSign e) ha
      have hsm := hg.same s' v d (Asg.ofSign e)
      have hL : (assign1 cfg s' v d (Asg.ofSign e)).LEVEL = s'.LEVEL := by
        have : (assign1 cfg s' v d (Asg.ofSign e)).tr.LEVEL = s'.LEVEL := by rw [htr]; rfl
        exact this
      have hasg : (assign1 cfg s' v d (Asg.ofSign e)).asg = upd2 s'.asg v d (Asg.ofSign e) := by
        have : (assign1 cfg s' v d (Asg.ofSign e)).tr.asg = upd2 s'.asg v d (Asg.ofSign e) := by rw [htr]; rfl
        exact this
      have hlvl : (assign1 cfg s' v d (Asg.ofSign e)).lvl = upd2 s'.lvl v d s'.LEVEL := by
        have : (assign1 cfg s' v d (Asg.ofSign e)).tr.lvl = upd2 s'.lvl v d s'.LEVEL := by rw [htr]; rfl
        exact this
      have hnv : (assign1 cfg s' v d (Asg.ofSign e)).nv = s'.nv := by
        have : (assign1 cfg s' v d (Asg.ofSign e)).tr.nv = s'.nv := by rw [htr]; rfl
        exact this
      have hdm : (assign1 cfg s' v d (Asg.ofSign e)).dom = s'.dom := by
        have : (assign1 cfg s' v d (Asg.ofSign e)).tr.dom = s'.dom := by rw [htr]; rfl
        exact this
      have h0 : 0 ≤ s'.LEVEL := by rw [h3]; exact h.lev0
      refine ⟨⟨?_, ?_⟩, by rw [hL, h3], h4.trans ⟨hnv, hdm, hsm.ncl, ?_⟩⟩
      · rw [he]; exact h1.assignLit cfg h2 h0 (l := ⟨v, d, e⟩) hu'
      · intro v' d' hn
        rw [hL, hlvl]
        rw [hasg] at hn
        by_cases hcc : v' = v ∧ d' = d
        · obtain ⟨rfl, rfl⟩ := hcc; simp
        · rw [Trail.upd2_of_ne _ _ hcc] at hn ⊢; exact h2 v' d' hn
      · intro id hid
        rw [he]; exact assignLit_lits cfg h1.store h0 _ hid)
    s l hu ⟨⟨h.cnt, h.base.lvlL⟩, rfl, SameF.refl s⟩
  obtain ⟨⟨hi1, _⟩, hi2, hi3⟩ := hinv
  refine ⟨⟨hext.base, by rw [hi2]; exact h.lev0, hi1, ?_, ?_, ?_⟩, ⟨hext, h2, hi3⟩⟩
  · intro k hk0 hk
    have hk' : k < s.tr.LEVEL := by rw [hext.LEVEL] at hk; exact hk
    rw [hext.asgAt hk', hext.nv, hext.dom]
    obtain ⟨h4, h5⟩ := h.stack k hk0 hk'
    exact ⟨h4, fun c hcl => h5 c (hi3.isClause hcl)⟩
  · intro hc' v hv1 hv2
    obtain ⟨h4, h5, h6⟩ := h3 hc'
    by_cases hvl : v = l.var
    · subst hvl
      exact hext.varOK_self hr hok h5 h6
    · exact hext.varOK_other hvl (h.vars hc v hv1 (by rw [← hi3.nv]; exact hv2))
  · intro id hid x hx
    have hid' : id < s.ncl := by rw [← hi3.ncl]; exact hid
    rw [hi3.lits id hid'] at hx
    have := h.rng id hid' x hx
    exact ⟨this.1, by rw [hext.nv]; exact this.2.1, by rw [hext.dom]; exact this.2.2⟩

/-! ### Unit propagation -/

/-- Satisfied by a result, with undefined behaviour excluded and running out of fuel allowed. -/
def Res.Sat {α : Type} (x : Res α) (p : α → Prop) : Prop :=
  match x with
  | .ok a => p a
  | .ub => False
  | .fuel => True

theorem Res.Sat.mono {α : Type} {x : Res α} {p q : α → Prop} (h : x.Sat p) (hpq : ∀ a, p a → q a) :
    x.Sat q := by
  cases x with
  | ok a => exact hpq a h
  | ub => exact h
  | fuel => trivial

theorem Res.Sat.bind {α β : Type} {x : Res α} {f : α → Res β} {p : α → Prop} {q : β → Prop}
    (h : x.Sat p) (hf : ∀ a, p a → (f a).Sat q) : (x >>= f).Sat q := by
  cases x with
  | ok a => exact hf a h
  | ub => exact h
  | fuel => trivial

/-- What happens to the trail between two points at the same level with nothing undone. -/
structure Grown (s s' : St S) : Prop where
  sameF : SameF s s'
  LEVEL : s'.LEVEL = s.LEVEL
  asgAt : ∀ k, k < s.LEVEL → s'.tr.asgAt k = s.tr.asgAt k
  old : ∀ v d, s.asg v d ≠ .un →
    s'.asg v d = s.asg v d ∧ s'.lvl v d = s.lvl v d ∧ s'.rsn v d = s.rsn v d ∧ s'.idx v d = s.idx v d
  decs : ∃ ds, s'.decs = s.decs ++ ds

theorem Grown.refl (s : St S) : Grown s s :=
  ⟨SameF.refl s, rfl, fun _ _ => rfl, fun _ _ _ => ⟨rfl, rfl, rfl, rfl⟩, ⟨[], by simp⟩⟩

theorem Grown.trans {s s' s'' : St S} (h1 : Grown s s') (h2 : Grown s' s'') : Grown s s'' := by
  refine ⟨h1.sameF.trans h2.sameF, h2.LEVEL.trans h1.LEVEL, ?_, ?_, ?_⟩
  · intro k hk; rw [h2.asgAt k (by rw [h1.LEVEL]; exact hk), h1.asgAt k hk]
  · intro v d hn
    have e1 := h1.old v d hn
    have e2 := h2.old v d (by rw [e1.1]; exact hn)
    exact ⟨e2.1.trans e1.1, e2.2.1.trans e1.2.1, e2.2.2.1.trans e1.2.2.1, e2.2.2.2.trans e1.2.2.2⟩
  · obtain ⟨d1, e1⟩ := h1.decs
    obtain ⟨d2, e2⟩ := h2.decs
    exact ⟨d1 ++ d2, by rw [e2, e1, List.append_assoc]⟩

theorem Assigned.grown {s s' : St S} {l : Lit} (h : Assigned s l s') : Grown s s' := by
  refine ⟨h.sameF, h.ext.LEVEL, fun k hk => h.ext.asgAt hk, h.ext.old, ?_⟩
  obtain ⟨ds, e⟩ := h.ext.decs
  exact ⟨l :: ds, e⟩

/-- Number of open atoms. -/
def unCount (s : St S) : Nat := s.atoms.countP fun a => s.asg a.1 a.2 = .un

theorem atoms_congr {s s' : St S} (h1 : s'.nv = s.nv) (h2 : s'.dom = s.dom) : s'.atoms = s.atoms := by
  unfold St.atoms; rw [h1, h2]

theorem Grown.unCount_le {s s' : St S} (h : Grown s s') : unCount s' ≤ unCount s := by
  unfold unCount
  rw [atoms_congr h.sameF.nv h.sameF.dom]
  apply List.countP_mono_left
  intro a _ ha
  simp only [decide_eq_true_eq] at ha ⊢
  apply Classical.byContradiction
  intro hn
  rw [(h.old a.1 a.2 hn).1] at ha
  exact hn ha

theorem countP_lt {α : Type} {p q : α → Bool} : ∀ {l : List α}, (∀ a ∈ l, p a = true → q a = true) →
    (∃ a ∈ l, p a = false ∧ q a = true) → l.countP p < l.countP q
  | [], _, h => by obtain ⟨a, ha, _⟩ := h; simp at ha
  | x :: xs, hle, h => by
    have hmono : xs.countP p ≤ xs.countP q :=
      List.countP_mono_left (fun a ha => hle a (by simp [ha]))
    rw [List.countP_cons, List.countP_cons]
    obtain ⟨a, ha, hpa, hqa⟩ := h
    rcases List.mem_cons.1 ha with rfl | ha
    · simp [hpa, hqa]; omega
    · have := countP_lt (p := p) (q := q) (fun a ha => hle a (by simp [ha])) ⟨a, ha, hpa, hqa⟩
      have hx := hle x (by simp)
      cases hp : p x
      · simp; omega
      · simp [hx hp]; omega

theorem Assigned.unCount_lt {s s' : St S} {l : Lit} (h : Assigned s l s') (hr : s.tr.Rng l.var l.val)
    (hu : LU s.asg l) : unCount s' < unCount s := by
  unfold unCount
  rw [atoms_congr h.sameF.nv h.sameF.dom]
  apply countP_lt
  · intro a _ ha
    simp only [decide_eq_true_eq] at ha ⊢
    apply Classical.byContradiction
    intro hn
    rw [(h.grown.old a.1 a.2 hn).1] at ha
    exact hn ha
  · refine ⟨(l.var, l.val), mem_atoms.2 hr, ?_, ?_⟩
    · simp only [decide_eq_false_iff_not]
      exact fun h' => h.ext.lt.not_LU h'
    · simp only [decide_eq_true_eq]; exact hu

/-- Outcome of propagation. -/
structure Propd (s s' : St S) : Prop where
  inv : CInv (fun _ => False) s'
  done : s'.conflict = true ∨ s'.units = []
  grown : Grown s s'
  agrees : ∀ a, s.Model a → Agrees a s.asg → Agrees a s'.asg
  nDecisions : s'.nDecisions = s.nDecisions
  nBacktracks : s'.nBacktracks = s.nBacktracks
  nRestarts : s'.nRestarts = s.nRestarts
  ticks : s'.ticks = s.ticks
  flowOff : s'.flowOff = s.flowOff
  nheap : s'.nheap = s.nheap
  ptr : s'.ptr = s.ptr

/-- One round of the propagation loop. -/
def unitStep (cfg : Cfg S) (s : St S) : St S :=
  match s.units with
  | [] => s
  | id :: rest =>
    let s1 : St S := { s with unitClause := id, units := rest }
    if (s1.cl id).level = -1 then
      match (s1.cl id).lits.find? fun l => s1.asg l.var l.val = .un with
      | some l => reduceTheory cfg { s1 with nUnits := s1.nUnits + 1 } l
      | none => s1
    else s1

theorem unitProp_succ (cfg : Cfg S) (f : Nat) {s : St S} (h : CInv (fun _ => False) s)
    (hc : s.conflict = false) (hu : s.units ≠ []) :
    unitProp cfg (f + 1) s = unitProp cfg f (unitStep cfg s) := by
  conv => lhs; unfold unitProp
  unfold unitStep
  rw [if_neg (by rw [hc]; simp)]
  cases hun : s.units with
  | nil => exact absurd hun hu
  | cons id rest =>
    dsimp only
    have hid : id < s.ncl := (h.cnt.unitsOK id (by rw [hun]; simp)).1
    rw [if_pos hid]
    split
    · split
      · rename_i h1; simp only [h1]
      · rename_i h1; simp only [h1]
    · rfl

structure Stepd (s s' : St S) : Prop where
  inv : CInv (fun _ => False) s'
  grown : Grown s s'
  agrees : ∀ a, s.Model a → Agrees a s.asg → Agrees a s'.asg
  meas : unCount s' < unCount s ∨ (unCount s' = unCount s ∧ s'.units.length < s.units.length)
  nDecisions : s'.nDecisions = s.nDecisions
  nBacktracks : s'.nBacktracks = s.nBacktracks
  nRestarts : s'.nRestarts = s.nRestarts
  ticks : s'.ticks = s.ticks
  flowOff : s'.flowOff = s.flowOff
  nheap : s'.nheap = s.nheap
  ptr : s'.ptr = s.ptr

/-- The clause at the front of the queue, unsatisfied, is a unit clause. -/
theorem CInv.front {s : St S} (h : CInv (fun _ => False) s) (hc : s.conflict = false) {id : Nat}
    {rest : List Nat} (hun : s.units = id :: rest) (hl : (s.cl id).level = -1) :
    ∃ l, (s.cl id).lits.find? (fun l => s.asg l.var l.val = .un) = some l ∧ l ∈ (s.cl id).lits ∧
      LU s.asg l ∧ (∀ l' ∈ (s.cl id).lits, l' ≠ l → LF s.asg l') ∧ openCount s.asg (s.cl id).lits = 1 := by
  obtain ⟨hid, hnum⟩ := h.cnt.unitsOK id (by rw [hun]; simp)
  have hnum := hnum hl
  obtain ⟨hns, hcnt⟩ := (h.cnt.exact id hid).unsat hl
  have h1 : openCount s.asg (s.cl id).lits = 1 := by
    rcases h.cnt.pend hc id (by simp) hid hl with h3 | ⟨h3, _⟩ <;> omega
  obtain ⟨x, hx, hxu⟩ := openCount_pos.1 (by omega : 0 < openCount s.asg (s.cl id).lits)
  cases hf : (s.cl id).lits.find? (fun l => s.asg l.var l.val = .un) with
  | none =>
    have := List.find?_eq_none.1 hf x hx
    exact absurd hxu (by simpa [LU] using this)
  | some l =>
    have hm := List.mem_of_find?_eq_some hf
    have hlu : LU s.asg l := by simpa [LU] using List.find?_some hf
    exact ⟨l, rfl, hm, hlu, others_false hns (by omega) hm hlu, h1⟩

theorem unitStep_spec (cfg : Cfg S) {s : St S} (h : CInv (fun _ => False) s)
    (hc : s.conflict = false) (hu : s.units ≠ []) : Stepd s (unitStep cfg s) := by
  unfold unitStep
  cases hun : s.units with
  | nil => exact absurd hun hu
  | cons id rest =>
    dsimp only
    obtain ⟨hid, _⟩ := h.cnt.unitsOK id (by rw [hun]; simp)
    -- the state with the queue popped
    have hpop : ∀ (u : Int) (n : Nat), CInv (fun j => j = id)
        ({ s with unitClause := u, units := rest, nUnits := n } : St S) := by
      intro u n
      refine ⟨h.base, h.lev0, ⟨⟨h.cnt.store.inj, h.cnt.store.recs, h.cnt.store.alloc⟩, h.cnt.exact, ?_, ?_, h.cnt.conf⟩,
        h.stack, h.vars, h.rng⟩
      · intro j hj
        exact h.cnt.unitsOK j (by rw [hun]; simp [hj])
      · intro _ j hj hjn hjl
        rcases h.cnt.pend hc j (by simp) hjn hjl with h1 | ⟨h1, h2⟩
        · exact Or.inl h1
        · right
          refine ⟨h1, ?_⟩
          rw [hun] at h2
          rcases List.mem_cons.1 h2 with h2 | h2
          · exact absurd h2 hj
          · exact h2
    by_cases hl : (s.cl id).level = -1
    · obtain ⟨l, hf, hm, hlu, hoth, _⟩ := h.front hc hun hl
      rw [if_pos (by exact hl)]
      have hf' : (({ s with unitClause := (id : Int), units := rest } : St S).cl id).lits.find?
        (fun l => ({ s with unitClause := (id : Int), units := rest } : St S).asg l.var l.val = .un) = some l := hf
      simp only [hf']
      have hr := h.rng id hid l hm
      obtain ⟨hi, ha⟩ := (hpop id (s.nUnits + 1)).reduce cfg hc hr hlu
      generalize hs2 : reduceTheory cfg { s with unitClause := (id : Int), units := rest, nUnits := s.nUnits + 1 } l = s2 at *
      have hg : Grown s s2 := by
        have := ha.grown
        exact ⟨⟨this.sameF.nv, this.sameF.dom, this.sameF.ncl, this.sameF.lits⟩, this.LEVEL, this.asgAt,
          this.old, this.decs⟩
      refine ⟨?_, hg, ?_, Or.inl (ha.unCount_lt hr hlu), ha.same.nDecisions, ha.same.nBacktracks,
        ha.same.nRestarts, ha.same.ticks, ha.same.flowOff, ha.same.nheap, ha.same.ptr⟩
      · refine ⟨hi.base, hi.lev0, ⟨hi.cnt.store, hi.cnt.exact, hi.cnt.unitsOK, ?_, hi.cnt.conf⟩, hi.stack,
          hi.vars, hi.rng⟩
        intro hc2 j _ hj hjl
        by_cases hji : j = id
        · subst hji
          have hsat : CSat s2.asg (s2.cl j).lits := by
            refine ⟨l, ?_, ha.ext.lt⟩
            rw [ha.sameF.lits j hid]; exact hm
          exact absurd hsat ((hi.cnt.exact j hj).unsat hjl).1
        · exact hi.cnt.pend hc2 j hji hj hjl
      · intro a hmod hag
        apply ha.ext.agrees hag
        · obtain ⟨x, hx, hxh⟩ := hmod.2 id hid
          by_cases hxl : x = l
          · subst hxl; exact hxh
          · exact absurd hxh (hag.of_LF (hoth x hx hxl))
        · exact hmod.1 l.var hr.1 hr.2.1
    · rw [if_neg (by exact hl)]
      have hi := hpop id s.nUnits
      refine ⟨?_, ⟨⟨rfl, rfl, rfl, fun _ _ => rfl⟩, rfl, fun _ _ => rfl, fun _ _ _ => ⟨rfl, rfl, rfl, rfl⟩,
        ⟨[], by simp⟩⟩, fun _ _ h => h, Or.inr ⟨rfl, ?_⟩, rfl, rfl, rfl, rfl, rfl, rfl, rfl⟩
      · refine ⟨hi.base, hi.lev0, ⟨hi.cnt.store, hi.cnt.exact, hi.cnt.unitsOK, ?_, hi.cnt.conf⟩, hi.stack,
          hi.vars, hi.rng⟩
        intro hc2 j _ hj hjl
        by_cases hji : j = id
        · subst hji; exact absurd hjl hl
        · exact hi.cnt.pend hc2 j hji hj hjl
      · rw [hun]; simp

theorem Stepd.propd {s s' s'' : St S} (h : Stepd s s') (h' : Propd s' s'') : Propd s s'' :=
  ⟨h'.inv, h'.done, h.grown.trans h'.grown,
    fun a hm ha => h'.agrees a (h.grown.sameF.model hm) (h.agrees a hm ha),
    h'.nDecisions.trans h.nDecisions, h'.nBacktracks.trans h.nBacktracks, h'.nRestarts.trans h.nRestarts,
    h'.ticks.trans h.ticks, h'.flowOff.trans h.flowOff, h'.nheap.trans h.nheap, h'.ptr.trans h.ptr⟩

theorem Propd.refl {s : St S} (h : CInv (fun _ => False) s) (hd : s.conflict = true ∨ s.units = []) : Propd s s :=
  ⟨h, hd, Grown.refl s, fun _ _ h => h, rfl, rfl, rfl, rfl, rfl, rfl, rfl⟩

theorem unitProp_spec (cfg : Cfg S) : ∀ (f : Nat) {s : St S}, CInv (fun _ => False) s →
    (unitProp cfg f s).Sat (Propd s)
  | 0, _, _ => trivial
  | f + 1, s, h => by
    cases hc : s.conflict with
    | true =>
      unfold unitProp
      rw [if_pos hc]
      exact Propd.refl h (Or.inl hc)
    | false =>
      by_cases hu : s.units = []
      · unfold unitProp
        rw [if_neg (by simp [hc]), hu]
        exact Propd.refl h (Or.inr hu)
      · rw [unitProp_succ cfg f h hc hu]
        have hst := unitStep_spec cfg h hc hu
        exact (unitProp_spec cfg f hst.inv).mono (fun a ha => hst.propd ha)

theorem unitProp_term (cfg : Cfg S) : ∀ (n m : Nat) (s : St S), unCount s ≤ n → s.units.length ≤ m →
    CInv (fun _ => False) s → ∃ s' f0, ∀ f, f0 ≤ f → unitProp cfg f s = .ok s' := by
  intro n
  induction n using Nat.strongRecOn with
  | ind n ihn =>
    intro m
    induction m with
    | zero =>
      intro s _ hm h
      have hu : s.units = [] := List.length_eq_zero_iff.1 (by omega)
      refine ⟨s, 1, ?_⟩
      intro f hf
      obtain ⟨f, rfl⟩ : ∃ k, f = k + 1 := ⟨f - 1, by omega⟩
      unfold unitProp
      split
      · rfl
      · rw [hu]
    | succ m ihm =>
      intro s hn hm h
      cases hc : s.conflict with
      | true =>
        refine ⟨s, 1, ?_⟩
        intro f hf
        obtain ⟨f, rfl⟩ : ∃ k, f = k + 1 := ⟨f - 1, by omega⟩
        unfold unitProp
        rw [if_pos hc]
      | false =>
        by_cases hu : s.units = []
        · refine ⟨s, 1, ?_⟩
          intro f hf
          obtain ⟨f, rfl⟩ : ∃ k, f = k + 1 := ⟨f - 1, by omega⟩
          unfold unitProp
          rw [if_neg (by simp [hc]), hu]
        · have hst := unitStep_spec cfg h hc hu
          have : ∃ s' f0, ∀ f, f0 ≤ f → unitProp cfg f (unitStep cfg s) = .ok s' := by
            rcases hst.meas with hlt | ⟨heq, hlt⟩
            · exact ihn (unCount (unitStep cfg s)) (by omega) _ _ (Nat.le_refl _) (Nat.le_refl _) hst.inv
            · exact ihm _ (by omega) (by omega) hst.inv
          obtain ⟨s', f0, hf0⟩ := this
          refine ⟨s', f0 + 1, ?_⟩
          intro f hf
          obtain ⟨f, rfl⟩ : ∃ k, f = k + 1 := ⟨f - 1, by omega⟩
          rw [unitProp_succ cfg f h hc hu]
          exact hf0 f (by omega)

/-! ### Going back to an earlier level -/

/-- The part of the invariant that survives a conflict. -/
structure CCore (s : St S) : Prop where
  base  : s.tr.Base
  store : Store s
  exact : ∀ id, id < s.ncl → Exact s.asg s.lvl (s.cl id)
  stack : s.tr.Stack s.IsClause
  rng   : ∀ id, id < s.ncl → ∀ l ∈ (s.cl id).lits, s.tr.Rng l.var l.val

theorem CInv.core {ex : Nat → Prop} {s : St S} (h : CInv ex s) : CCore s :=
  ⟨h.base, h.cnt.store, h.cnt.exact, h.stack, h.rng⟩

theorem CCore.congr {s s' : St S} (h : CCore s) (htr : s'.tr = s.tr)
    (hheap : s'.heap = s.heap) (hptr : s'.ptr = s.ptr) (hncl : s'.ncl = s.ncl) (hnh : s'.nheap = s.nheap)
    (hrecs : s'.recs = s.recs) : CCore s' := by
  cases s; cases s'
  simp only [St.tr, Trail.mk.injEq] at htr
  simp only at hheap hptr hncl hnh hrecs
  obtain ⟨rfl, rfl, rfl, rfl, rfl, rfl, rfl, rfl, rfl⟩ := htr
  subst hheap hptr hncl hnh hrecs
  exact ⟨h.base, ⟨h.store.inj, h.store.recs, h.store.alloc⟩, h.exact, h.stack, h.rng⟩

/-- Undoing to an earlier level restores the invariant, with the clauses `u` pending.  `K` is the level
before the undo; `LEVEL` may have been overwritten already. -/
theorem undo_gen (cfg : Cfg S) {s : St S} {K : Int} (hb : (s.tr.level K).Base) (hs : Store s)
    (hex : ∀ id, id < s.ncl → Exact s.asg s.lvl (s.cl id))
    (hrng : ∀ id, id < s.ncl → ∀ l ∈ (s.cl id).lits, s.tr.Rng l.var l.val)
    {k : Int} (h0 : 0 ≤ k) {u : List Nat}
    (hv : ∀ j, 0 ≤ j → j ≤ k → ∀ v, 1 ≤ v → v ≤ s.nv → VarOK s.dom (s.tr.asgAt j) v)
    (hcl : ∀ j, 0 ≤ j → j < k → ∀ c, s.IsClause c → TwoOrSat (s.tr.asgAt j) c)
    (hk : ∀ id, id < s.ncl → TwoOrSat (s.tr.asgAt k) (s.cl id).lits ∨
      (openCount (s.tr.asgAt k) (s.cl id).lits = 1 ∧ id ∈ u))
    (hu : ∀ id ∈ u, id < s.ncl ∧ openCount (s.tr.asgAt k) (s.cl id).lits ≤ 1) :
    CInv (fun _ => False) ({ undoTheory cfg s k with conflict := false, units := u, LEVEL := k } : St S) ∧
    SameF s (undoTheory cfg s k) ∧ (undoTheory cfg s k).tr = s.tr.undo k ∧ FrameU s (undoTheory cfg s k) := by
  have hun := undoTheory_spec cfg (k := k) (K := K) (by omega) hb hs hex
  generalize undoTheory cfg s k = s' at *
  have hb := hb.undo h0 (hv k h0 (Int.le_refl _))
  obtain ⟨hp, c, g, lv, r, vv, ds, he⟩ := hun.frame
  have hnv : s'.nv = s.nv := by rw [he]
  have hdom : s'.dom = s.dom := by rw [he]
  have hncl : s'.ncl = s.ncl := by rw [he]
  have hsf : SameF s s' := ⟨hnv, hdom, hncl, hun.lits⟩
  have hasg : s'.asg = s.tr.asgAt k := by
    have : s'.tr.asg = s.tr.asgAt k := by rw [hun.tr]; rfl
    exact this
  refine ⟨⟨?_, h0, ⟨⟨hun.store.inj, hun.store.recs, hun.store.alloc⟩, ?_, ?_, ?_, ?_⟩, ?_, ?_, ?_⟩, hsf, hun.tr, hun.frame⟩
  · have : ({ s' with conflict := false, units := u, LEVEL := k } : St S).tr = (s.tr.undo k).level k := by
      rw [← hun.tr]; rfl
    rw [this]; exact hb
  · intro id hid
    exact hun.exact id (by rw [← hncl]; exact hid)
  · intro id hid
    obtain ⟨hid', hle⟩ := hu id hid
    refine ⟨by rw [← hncl] at hid'; exact hid', ?_⟩
    intro hl
    obtain ⟨h1, h2⟩ := (hun.exact id hid').unsat hl
    rw [hun.lits id hid', hasg] at h2
    show (s'.cl id).numUn ≤ 1
    omega
  · intro _ id _ hid hl
    have hid' : id < s.ncl := by rw [← hncl]; exact hid
    obtain ⟨h1, h2⟩ := (hun.exact id hid').unsat hl
    rw [hun.lits id hid', hasg] at h1 h2
    show 2 ≤ (s'.cl id).numUn ∨ _
    rcases hk id hid' with (h3 | h3) | ⟨h3, h4⟩
    · exact absurd h3 h1
    · left; omega
    · right
      exact ⟨by show (s'.cl id).numUn = 1; omega, h4⟩
  · intro hc; simp at hc
  · intro j hj0 hj
    have hj' : j < k := hj
    have : ({ s' with conflict := false, units := u, LEVEL := k } : St S).tr.asgAt j = s.tr.asgAt j := by
      have e : ({ s' with conflict := false, units := u, LEVEL := k } : St S).tr.asgAt j = s'.tr.asgAt j := rfl
      rw [e, hun.tr]; exact Trail.asgAt_undo (by omega)
    rw [this]
    refine ⟨?_, fun c hc => hcl j hj0 hj' c (hsf.isClause hc)⟩
    have e1 : ({ s' with conflict := false, units := u, LEVEL := k } : St S).tr.nv = s.nv := hnv
    have e2 : ({ s' with conflict := false, units := u, LEVEL := k } : St S).tr.dom = s.dom := hdom
    rw [e1, e2]; exact hv j hj0 (by omega)
  · intro _ v hv1 hv2
    show VarOK s'.dom s'.asg v
    rw [hdom, hasg]
    exact hv k h0 (Int.le_refl _) v hv1 (by rw [← hnv]; exact hv2)
  · intro id hid l hl
    have hid' : id < s.ncl := by rw [← hncl]; exact hid
    have := hrng id hid' l (by rw [← hun.lits id hid']; exact hl)
    exact ⟨this.1, by show l.var ≤ s'.nv; rw [hnv]; exact this.2.1,
      by show l.val < s'.dom l.var; rw [hdom]; exact this.2.2⟩

/-- Undoing to an earlier decision point restores the invariant, with nothing pending. -/
theorem CCore.undo (cfg : Cfg S) {s : St S} (h : CCore s) {k : Int} (h0 : 0 ≤ k)
    (hk : k < s.LEVEL) :
    CInv (fun _ => False) ({ undoTheory cfg s k with conflict := false, units := [], LEVEL := k } : St S) ∧
    SameF s (undoTheory cfg s k) ∧ (undoTheory cfg s k).tr = s.tr.undo k ∧ FrameU s (undoTheory cfg s k) := by
  have hL : s.tr.LEVEL = s.LEVEL := rfl
  exact undo_gen cfg (K := s.LEVEL) h.base h.store h.exact h.rng h0
    (fun j hj0 hj => (h.stack j hj0 (by omega)).1)
    (fun j hj0 hj => (h.stack j hj0 (by omega)).2)
    (fun id hid => Or.inl ((h.stack k h0 hk).2 _ ⟨id, hid, rfl⟩))
    (by simp)

end Mvl
