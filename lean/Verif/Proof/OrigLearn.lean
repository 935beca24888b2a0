import Verif.Proof.OrigBuild

/-! # The original solver: `NonChronoBacktrackLoop` -/

namespace Mvl.Orig

open Mvl

/-- The number of atoms not assigned at level 0. -/
def nOpen (s : OSt) : Nat := s.atoms.countP fun a => decide (s.asg a.1 a.2 = .un ∨ 0 < s.alvl a.1 a.2)

theorem Ext.nOpen_le {s t : OSt} (h : Ext s t) : nOpen t ≤ nOpen s := by
  have e : t.atoms = s.atoms := by unfold OSt.atoms; rw [h.nv, h.dom]
  unfold nOpen
  rw [e]
  apply List.countP_mono_left
  intro a _ hx
  simp only [decide_eq_true_eq] at hx ⊢
  by_cases y : s.asg a.1 a.2 = .un
  · exact Or.inl y
  · rw [(h.old _ _ y).1, (h.old _ _ y).2] at hx; exact hx

theorem nOpen_zero {s : OSt} (h : Core s) (hL : s.LEVEL ≤ 0) : nOpen s = nFree s := by
  unfold nOpen nFree
  apply List.countP_congr
  intro a _
  simp only [decide_eq_true_eq]
  constructor
  · rintro (b | b)
    · exact b
    · by_cases y : s.asg a.1 a.2 = .un
      · exact y
      · have := (h.las _ _ y).2; omega
  · exact Or.inl

theorem Restr.nOpen_eq {s t : OSt} (hs : Same s t) (r : Restr 0 s t) : nOpen t = nOpen s := by
  have e : t.atoms = s.atoms := by unfold OSt.atoms; rw [hs.nv, hs.dom]
  unfold nOpen
  rw [e]
  apply List.countP_congr
  intro a _
  simp only [decide_eq_true_eq]
  by_cases y : s.asg a.1 a.2 = .un ∨ 0 < s.alvl a.1 a.2
  · simp [r.drop _ _ y, y]
  · have y1 : s.asg a.1 a.2 ≠ .un := fun z => y (Or.inl z)
    have y2 : ¬ 0 < s.alvl a.1 a.2 := fun z => y (Or.inr z)
    rw [(r.keep _ _ y1 (by omega)).1, (r.keep _ _ y1 (by omega)).2]

/-- `σ` agrees with the atoms assigned at level 0. -/
def Agree0 (s : OSt) (σ : Assignment) : Prop :=
  ∀ v d, s.alvl v d ≤ 0 → (s.asg v d = .eq → σ v = d) ∧ (s.asg v d = .ne → σ v ≠ d)

theorem Agree0.all {s : OSt} (h : Core s) (hL : s.LEVEL ≤ 0) {σ : Assignment} (a : Agree0 s σ) : Agree s σ := by
  intro v d
  by_cases y : s.asg v d = .un
  · rw [y]; exact ⟨fun h => (nomatch h), fun h => (nomatch h)⟩
  · exact a v d (by have := (h.las v d y).2; omega)

theorem Ext.agree0 {s t : OSt} (h : Ext s t) (hL : 0 < s.LEVEL) {σ : Assignment} (a : Agree0 s σ) : Agree0 t σ := by
  intro v d hl
  by_cases y : s.asg v d = .un
  · by_cases z : t.asg v d = .un
    · rw [z]; exact ⟨fun h => (nomatch h), fun h => (nomatch h)⟩
    · have := h.new v d y z; omega
  · rw [(h.old v d y).1]
    apply a v d
    rw [← (h.old v d y).2]; exact hl

/-- The invariant of the loop; `s0` is the state before. -/
structure Nc (s0 s : OSt) : Prop where
  inv  : Inv s
  lev  : 0 ≤ s.LEVEL
  nv   : s.nv = s0.nv
  dom  : s.dom = s0.dom
  ncl  : s.ncl = s0.ncl + s.nBacktracks
  lits : ∀ id < s0.ncl, (s.cls id).lits = (s0.cls id).lits
  learned : ∀ id, s0.ncl ≤ id → id < s.ncl → ∃ v d, (s.cls id).lits = [⟨v, d, false⟩]
  nob  : s.noBranch = s0.noBranch
  asgd : ∀ m ∈ s.decs, s.asg m.var m.val ≠ .un
  dec  : 1 ≤ s.LEVEL → ∃ D l ds, s.decs = D ++ l :: ds ∧ l.eq = true ∧ s.asg l.var l.val = .eq ∧
    s.alvl l.var l.val = s.LEVEL ∧ s.cid l.var l.val = -1 ∧ (∀ m ∈ ds, s.cid m.var m.val ≠ -1) ∧
    (∀ m ∈ ds, s.alvl m.var m.val = s.LEVEL) ∧
    (∀ m ∈ D, s.alvl m.var m.val < s.LEVEL) ∧
    (s.LEVEL = 1 → ∀ σ, SolvesAll s σ → l.holds σ → Agree s σ)
  a0   : ∀ σ, SolvesAll s σ → Agree0 s σ
  stat : s.LEVEL + s.nBacktracks ≤ s.nDecisions
  right : s.LEVEL + s.nBacktracks = s.nDecisions → ∀ σ, SolvesAll s0 σ → SolvesAll s σ
  bound : s.nBacktracks + nOpen s ≤ s.atoms.length ∨
    (s.LEVEL = 0 ∧ s.nBacktracks + nOpen s ≤ s.atoms.length + 1 ∧ s.conflict = false ∧ ∃ id ∈ s.units, (s.cls id).sat = false)

theorem Nc.ticks {s0 s : OSt} (h : Nc s0 s) (k : Nat) : Nc s0 { s with ticks := k } :=
  ⟨h.inv.misc s.cnt s.cid s.decs s.unitClause s.nUnits s.nBacktracks s.nDecisions s.nEntails s.ptr k s.noBranch,
    h.lev, h.nv, h.dom, h.ncl, h.lits, h.learned, h.nob, h.asgd, h.dec, h.a0, h.stat, h.right, h.bound⟩

/-- Unit propagation that meets an unsatisfied clause assigns an atom. -/
theorem Propd.progress {s t : OSt} (h : Inv s) (hc : s.conflict = false) (P : Propd s t) {id : Nat} (hid : id ∈ s.units)
    (hs : (s.cls id).sat = false) :
    ∃ v d, (1 ≤ v ∧ v ≤ s.nv ∧ d < s.dom v) ∧ s.asg v d = .un ∧ t.asg v d ≠ .un := by
  by_cases htc : t.conflict = true
  · obtain ⟨i, -, hi, hs', hun⟩ := P.inv.conf htc
    rw [P.ext.ncl] at hi
    have hss : (s.cls i).sat = false := by
      cases z : (s.cls i).sat
      · rfl
      · rw [P.ext.smono i z] at hs'; cases hs'
    rcases h.nz i hi hss with ⟨m, hm, b⟩ | ⟨b, -⟩
    · refine ⟨m.var, m.val, h.rng i hi m hm, b, ?_⟩
      have := (P.inv.cuns i (by rw [P.ext.ncl]; exact hi) hs').2.1
      apply nU_zero.1 (by omega : nU t.asg (t.cls i).lits = 0) m
      rw [P.ext.lits]; exact hm
    · rw [hc] at b; cases b
  · rcases P.fin with b | ⟨-, b⟩
    · exact absurd b htc
    · have hi := (h.uni id hid).1
      obtain ⟨-, l, hl, ht, -⟩ := P.inv.csat id (by rw [P.ext.ncl]; exact hi) (b id hid)
      rw [P.ext.lits] at hl
      refine ⟨l.var, l.val, h.rng id hi l hl, ?_, by rw [ht]; exact Asg.ofSign_ne _⟩
      by_cases y : s.asg l.var l.val = .un
      · exact y
      · rw [(P.ext.old _ _ y).1] at ht
        exact absurd ht ((h.cuns id hi hs).2.2 l hl)

/-- Unit propagation keeps the invariant. -/
theorem Nc.prop {cfg : OCfg} {f : Nat} {s0 s t : OSt} (h : Nc s0 s) (ht : unitProp cfg f s = .ok t) :
    Nc s0 t ∧ t.units = [] ∧ nFree t ≤ nFree s ∧ nOpen t ≤ nOpen s := by
  obtain ⟨P, hu⟩ := unitProp_propd h.inv h.lev ht
  refine ⟨?_, hu, P.ext.nFree_le, P.ext.nOpen_le⟩
  have hso := P.ext.solvesAll
  constructor
  · exact P.inv
  · rw [P.ext.lev]; exact h.lev
  · rw [P.ext.nv]; exact h.nv
  · rw [P.ext.dom]; exact h.dom
  · rw [P.ext.ncl, P.ext.nbt]; exact h.ncl
  · intro id hi; rw [P.ext.lits]; exact h.lits id hi
  · intro id h1 h2; rw [P.ext.ncl] at h2; rw [P.ext.lits]; exact h.learned id h1 h2
  · rw [P.ext.nob]; exact h.nob
  · intro m hm
    obtain ⟨ds, e1, e2⟩ := P.decs
    rw [e1] at hm
    rcases List.mem_append.1 hm with hm | hm
    · have := h.asgd m hm
      rw [(P.ext.old _ _ this).1]; exact this
    · exact (e2 m hm).2.1
  · intro hL
    rw [P.ext.lev] at hL
    obtain ⟨D, l, ds, e1, e2, e3, e4, e5, e6, e66, e7, e8⟩ := h.dec hL
    obtain ⟨ds', f1, f2⟩ := P.decs
    have cidk : ∀ v e, s.asg v e ≠ .un → t.cid v e = s.cid v e := by
      intro v e hv
      rcases P.cid v e with b | ⟨b, -⟩
      · exact b
      · exact absurd b hv
    have nl : s.asg l.var l.val ≠ .un := by rw [e3]; simp
    have nm : ∀ m, m ∈ D ∨ m ∈ ds → s.asg m.var m.val ≠ .un := by
      intro m hm
      apply h.asgd
      rw [e1]
      rcases hm with hm | hm <;> simp [hm]
    refine ⟨D, l, ds ++ ds', by rw [f1, e1]; simp, e2, by rw [(P.ext.old _ _ nl).1]; exact e3,
      by rw [(P.ext.old _ _ nl).2, P.ext.lev]; exact e4, by rw [cidk _ _ nl]; exact e5, ?_, ?_, ?_, ?_⟩
    · intro m hm
      rcases List.mem_append.1 hm with hm | hm
      · rw [cidk _ _ (nm m (Or.inr hm))]; exact e6 m hm
      · exact (f2 m hm).2.2
    · intro m hm
      rcases List.mem_append.1 hm with hm | hm
      · rw [(P.ext.old _ _ (nm m (Or.inr hm))).2, P.ext.lev]; exact e66 m hm
      · rw [P.ext.new _ _ (f2 m hm).1 (f2 m hm).2.1, P.ext.lev]
    · intro m hm
      rw [(P.ext.old _ _ (nm m (Or.inl hm))).2, P.ext.lev]; exact e7 m hm
    · intro h1 σ hσ hl
      rw [P.ext.lev] at h1
      exact P.agree σ ((hso σ).1 hσ) (e8 h1 σ ((hso σ).1 hσ) hl)
  · intro σ hσ
    have hσ' := (hso σ).1 hσ
    by_cases hL : 0 < s.LEVEL
    · exact P.ext.agree0 hL (h.a0 σ hσ')
    · have := P.agree σ hσ' ((h.a0 σ hσ').all h.inv.toCore (by omega))
      exact fun v d _ => this v d
  · rw [P.ext.lev, P.ext.nbt, P.ext.ndec]; exact h.stat
  · intro he σ hσ
    rw [P.ext.lev, P.ext.nbt, P.ext.ndec] at he
    exact (hso σ).2 (h.right he σ hσ)
  · left
    have e : t.atoms = s.atoms := by unfold OSt.atoms; rw [P.ext.nv, P.ext.dom]
    rw [e, P.ext.nbt]
    rcases h.bound with b | ⟨b1, b2, b3, id, b4, b5⟩
    · have := P.ext.nOpen_le; omega
    · obtain ⟨v, d, c1, c2, c3⟩ := P.progress h.inv b3 b4 b5
      have := P.ext.nFree_lt c1.1 c1.2.1 c1.2.2 c2 c3
      have e1 := nOpen_zero h.inv.toCore (by omega : s.LEVEL ≤ 0)
      have e2 := nOpen_zero P.inv.toCore (by rw [P.ext.lev]; omega : t.LEVEL ≤ 0)
      omega

/-- A decision keeps the invariant and assigns an atom. -/
theorem Nc.decide {cfg : OCfg} {s0 s t : OSt} (h : Nc s0 s) (hc : s.conflict = false) (hu : s.units = [])
    (hs : checkSat s ≠ true) (ht : decideStep cfg s = .ok t) :
    Nc s0 t ∧ nFree t < nFree s ∧ nOpen t ≤ nOpen s ∧ t.LEVEL = s.LEVEL + 1 ∧
    ∀ m ∈ s.decs, m ∈ t.decs ∧ t.alvl m.var m.val = s.alvl m.var m.val := by
  unfold decideStep at ht
  cases hch : choose s with
  | none => exact absurd (choose_none h.inv hc hch) hs
  | some l =>
    rw [hch] at ht
    simp only at ht
    obtain ⟨le, lr, lu, lv⟩ := choose_some hch
    have lvv : s.vval l.var = none := h.inv.noval hc lr.2.2 lu
    let s2 : OSt := { s with unitClause := -1, nDecisions := s.nDecisions + 1, LEVEL := s.LEVEL + 1 }
    have hI2 : Inv s2 := (h.inv.up h.lev hc).misc s.cnt s.cid s.decs (-1) s.nUnits s.nBacktracks (s.nDecisions + 1) s.nEntails
      s.ptr s.ticks s.noBranch
    have hlev := h.lev
    have hL2 : 0 ≤ s2.LEVEL := by show 0 ≤ s.LEVEL + 1; omega
    have S := reduce_step (s := s2) hI2 hL2 hc lr lu lvv ht
    have hdecs : t.decs = s.decs ++ [l] := by
      have e : reduce cfg s2 l = .ok (reduceEq s2 l.var l.val) := by unfold reduce; rw [if_pos le]
      have e' : t = reduceEq s2 l.var l.val := by
        have : reduce cfg s2 l = .ok t := ht
        rw [e] at this; cases this; rfl
      rw [e', (reduceEq_step hI2.toCore hL2 lr.1 lr.2.1 lr.2.2 lu).decs]
      show s.decs ++ _ = _
      rw [← le]
    have hlt : nFree t < nFree s2 := S.ext.nFree_lt lr.1 lr.2.1 lr.2.2 lu (by rw [S.val]; exact Asg.ofSign_ne _)
    have hso : ∀ σ, SolvesAll t σ ↔ SolvesAll s σ := S.ext.solvesAll
    have eL : t.LEVEL = s.LEVEL + 1 := S.ext.lev
    have eb : t.nBacktracks = s.nBacktracks := S.ext.nbt
    have ed : t.nDecisions = s.nDecisions + 1 := S.ext.ndec
    refine ⟨?_, hlt, S.ext.nOpen_le, eL, fun m hm => ⟨by rw [hdecs]; simp [hm], (S.ext.old _ _ (h.asgd m hm)).2⟩⟩
    constructor
    · exact S.inv
    · omega
    · exact S.ext.nv.trans h.nv
    · exact S.ext.dom.trans h.dom
    · rw [eb]; exact S.ext.ncl.trans h.ncl
    · intro id hi; rw [S.ext.lits]; exact h.lits id hi
    · intro id h1 h2
      rw [S.ext.ncl] at h2
      rw [S.ext.lits]; exact h.learned id h1 h2
    · exact S.ext.nob.trans h.nob
    · intro m hm
      rw [hdecs] at hm
      rcases List.mem_append.1 hm with hm | hm
      · have := h.asgd m hm
        rw [(S.ext.old _ _ this).1]; exact this
      · simp only [List.mem_singleton] at hm
        rw [hm, S.val]; exact Asg.ofSign_ne _
    · intro _
      refine ⟨s.decs, l, [], hdecs, le, by rw [S.val, le]; rfl, ?_, S.cidl, by simp, by simp, ?_, ?_⟩
      · exact S.ext.new _ _ lu (by rw [S.val]; exact Asg.ofSign_ne _) |>.trans eL.symm
      · intro m hm
        have := h.asgd m hm
        have h1 := (S.ext.old m.var m.val this).2
        have h2 := (h.inv.las _ _ this).2
        have h1' : t.alvl m.var m.val = s.alvl m.var m.val := h1
        omega
      · intro h1 σ hσ hl
        have hσ' := (hso σ).1 hσ
        exact S.agree σ hσ'.1 hl ((h.a0 σ hσ').all h.inv.toCore (by omega))
    · intro σ hσ
      exact S.ext.agree0 (by show 0 < s.LEVEL + 1; omega) (h.a0 σ ((hso σ).1 hσ))
    · have := h.stat
      rw [eL, eb, ed]; omega
    · intro he σ hσ
      rw [eL, eb, ed] at he
      exact (hso σ).2 (h.right (by omega) σ hσ)
    · left
      have e : t.atoms = s.atoms := by unfold OSt.atoms; rw [S.ext.nv, S.ext.dom]
      rw [e, eb]
      rcases h.bound with b | ⟨-, -, -, id, b4, -⟩
      · have h1 : nOpen t ≤ nOpen s2 := S.ext.nOpen_le
        have h2 : nOpen s2 = nOpen s := rfl
        omega
      · rw [hu] at b4; cases b4

/-! ## Conflict analysis -/

theorem walk_neg (s : OSt) (n : Nat) : walk s n (-1) = .ok n := by cases n <;> rfl

theorem walk_succ (s : OSt) (n : Nat) {c : Int} (hc : c ≠ -1) {l : Lit} (hl : s.decs[n]? = some l) :
    walk s (n + 1) c = walk s n (s.cid l.var l.val) := by
  rw [walk]
  · rw [hl]
  · exact hc

theorem walk_spec {s : OSt} {D ds : List Lit} {l : Lit} (e : s.decs = D ++ l :: ds) (hl : s.cid l.var l.val = -1)
    (hds : ∀ m ∈ ds, s.cid m.var m.val ≠ -1) : ∀ (n : Nat) (c : Int), n ≤ ds.length → c ≠ -1 →
    walk s (D.length + 1 + n) c = .ok D.length := by
  intro n
  induction n with
  | zero =>
    intro c _ hc
    rw [Nat.add_zero, walk_succ s D.length hc (l := l) (by rw [e]; simp), hl, walk_neg]
  | succ n ih =>
    intro c hn hc
    have hlt : n < ds.length := by omega
    rw [← Nat.add_assoc, walk_succ s (D.length + 1 + n) hc (l := ds[n]) (by
      rw [e, List.getElem?_append_right (by omega)]
      have : D.length + 1 + n - D.length = n + 1 := by omega
      rw [this]; simp [hlt])]
    exact ih _ (by omega) (hds _ (List.getElem_mem hlt))

/-- The state after `analyze`. -/
def learnt (s : OSt) (l : Lit) : OSt :=
  { s with cls := upd s.cls s.ncl ⟨[l.neg], false, 0, -1⟩
           recs := upd s.recs l.neg (s.ncl :: s.recs l.neg)
           ncl := s.ncl + 1 }

/-- `analyzeConflict` learns the complement of the decision of the current level. -/
theorem analyze_spec {s : OSt} (h : Core s) (hc : s.conflict = true) {D ds : List Lit} {l : Lit}
    (e1 : s.decs = D ++ l :: ds) (e4 : s.alvl l.var l.val = s.LEVEL) (e5 : s.cid l.var l.val = -1)
    (e6 : ∀ m ∈ ds, s.cid m.var m.val ≠ -1) (e7 : ∀ m ∈ D, s.alvl m.var m.val < s.LEVEL) :
    analyze s = if D = [] then .ub else .ok (learnt s l) := by
  obtain ⟨id, hid, -⟩ := h.conf hc
  have hw : walk s s.decs.length s.conflicting = .ok D.length := by
    have := walk_spec e1 e5 e6 ds.length s.conflicting (Nat.le_refl _) (by omega)
    rw [← this, e1]
    congr 1
    simp; omega
  unfold analyze
  rw [hw, Res.ok_bind]
  rcases List.eq_nil_or_concat D with rfl | ⟨D', x, rfl⟩
  · simp
  · rw [if_neg (by simp), List.concat_eq_append] at *
    have hx : ¬ s.alvl x.var x.val = s.LEVEL := by
      have := e7 x (by simp); omega
    have : (D' ++ [x]).length = D'.length + 1 := by simp
    rw [this]
    simp only
    have e : s.decs.drop D'.length = x :: l :: ds := by
      rw [e1]; simp
    rw [e]
    simp [hx, e4, learnt]

theorem learnt_inv {s : OSt} (h : Inv s) (hc : s.conflict = true) {l : Lit} (le : l.eq = true)
    (hl : s.asg l.var l.val = .eq) (hv : s.alvl l.var l.val = s.LEVEL) : Inv (learnt s l) := by
  have hlu : s.asg l.var l.val ≠ .un := by rw [hl]; simp
  have old : ∀ id < s.ncl, (learnt s l).cls id = s.cls id := by
    intro id hid
    exact upd_of_ne _ _ (by omega)
  have new : (learnt s l).cls s.ncl = ⟨[l.neg], false, 0, -1⟩ := upd_same _ _ _
  have cas : ∀ id, id < (learnt s l).ncl → id < s.ncl ∨ id = s.ncl := by
    intro id hid
    have : id < s.ncl + 1 := hid
    omega
  refine ⟨⟨?_, ?_, h.arng, h.lun, h.las, ?_, ?_, ?_, ?_, ?_, ?_⟩,
    ⟨h.vars.vv, h.vars.ve, h.vars.vs, h.vars.vl, h.vars.full, h.vars.two⟩⟩
  · intro m id
    have hn : (s.recs m).count s.ncl = 0 := by rw [h.occ]; simp
    show ((upd s.recs l.neg (s.ncl :: s.recs l.neg)) m).count id =
      if id < s.ncl + 1 then ((learnt s l).cls id).lits.count m else 0
    by_cases hm : m = l.neg
    · subst hm
      rw [upd_same, List.count_cons]
      by_cases hi : id < s.ncl
      · rw [h.occ, if_pos hi, if_pos (show id < s.ncl + 1 by omega), old id hi]
        have : s.ncl ≠ id := by omega
        simp [this]
      · by_cases hi' : id = s.ncl
        · subst hi'
          rw [hn, if_pos (show s.ncl < s.ncl + 1 by omega), new]; simp
        · have : s.ncl ≠ id := fun z => hi' z.symm
          rw [h.occ, if_neg hi, if_neg (show ¬ id < s.ncl + 1 by omega)]; simp [this]
    · rw [upd_of_ne _ _ hm]
      by_cases hi : id < s.ncl
      · rw [h.occ, if_pos hi, if_pos (show id < s.ncl + 1 by omega), old id hi]
      · by_cases hi' : id = s.ncl
        · subst hi'
          have hm' : l.neg ≠ m := fun z => hm z.symm
          rw [hn, if_pos (show s.ncl < s.ncl + 1 by omega), new]; simp [hm']
        · rw [h.occ, if_neg hi, if_neg (show ¬ id < s.ncl + 1 by omega)]
  · intro id hid m hm
    rcases cas id hid with hi | rfl
    · rw [old id hi] at hm; exact h.rng id hi m hm
    · rw [new] at hm
      simp only [List.mem_singleton] at hm
      subst hm
      exact h.arng _ _ hlu
  · intro id hid hs
    rcases cas id hid with hi | rfl
    · rw [old id hi] at hs ⊢; exact h.csat id hi hs
    · rw [new] at hs; cases hs
  · intro id hid hs
    rcases cas id hid with hi | rfl
    · rw [old id hi] at hs ⊢; exact h.cuns id hi hs
    · rw [new]
      refine ⟨rfl, ?_, ?_⟩
      · have : nU s.asg [l.neg] = 0 := nU_zero.2 (by
          intro m hm
          simp only [List.mem_singleton] at hm
          subst hm; exact hlu)
        show (0 : Int) = ((nU s.asg [l.neg] : Nat) : Int)
        rw [this]; rfl
      · intro m hm
        simp only [List.mem_singleton] at hm
        subst hm
        show s.asg l.var l.val ≠ Asg.ofSign (!l.eq)
        rw [hl, le]; simp [Asg.ofSign]
  · intro id hid hs
    rcases cas id hid with hi | rfl
    · rw [old id hi] at hs ⊢; exact h.nz id hi hs
    · rw [new]
      exact Or.inr ⟨hc, l.neg, by simp, hlu, hv⟩
  · intro hc'
    obtain ⟨id, a, b, c, d⟩ := h.conf hc'
    refine ⟨id, a, ?_, ?_, ?_⟩
    · show id < s.ncl + 1; omega
    · rw [old id b]; exact c
    · rw [old id b]; exact d
  · intro id hid
    obtain ⟨a, b⟩ := h.uni id hid
    refine ⟨?_, ?_⟩
    · show id < s.ncl + 1; omega
    · rw [old id a]; exact b
  · intro id hid hs
    rcases cas id hid with hi | rfl
    · rw [old id hi] at hs ⊢; exact h.smin id hi hs
    · rw [new] at hs; cases hs

/-- A conflict above level 0. -/
theorem Nc.conflict {s0 s t : OSt} (h : Nc s0 s) (hc : s.conflict = true) (hL : s.LEVEL ≠ 0)
    (ht : conflictStep s = .ok t) :
    Nc s0 t ∧ t.LEVEL = 0 ∧ t.conflict = false ∧ (∃ id ∈ t.units, (t.cls id).sat = false) ∧ nOpen t = nOpen s ∧
    t.nBacktracks = s.nBacktracks + 1 ∧ (∀ m ∈ s.decs, s.alvl m.var m.val ≤ 0 → m ∈ t.decs ∧ t.alvl m.var m.val = s.alvl m.var m.val) := by
  have hlev := h.lev
  obtain ⟨D, l, ds, e1, e2, e3, e4, e5, e6, e66, e7, e8⟩ := h.dec (by omega)
  unfold conflictStep at ht
  rw [analyze_spec h.inv.toCore hc e1 e4 e5 e6 e7] at ht
  by_cases hD : D = []
  · rw [if_pos hD] at ht; cases ht
  rw [if_neg hD, Res.ok_bind] at ht
  let s1 := learnt s l
  have hI1 : Inv s1 := learnt_inv h.inv hc e2 e3 e4
  let s' : OSt := { s1 with LEVEL := 0, nBacktracks := s1.nBacktracks + 1, conflict := false }
  have ht : t = checkUnit (undo s' 0) := by cases ht; rfl
  have hB : Base s' := ⟨hI1.occ, hI1.arng, hI1.lun, hI1.csat, hI1.cuns⟩
  have U := undo_undone hB (level := 0) (by omega)
  obtain ⟨b1, b2, b3, b4, b5, b6, b7, b8, b9, f⟩ := U.frame
  have eL : (undo s' 0).LEVEL = 0 := by rw [f]
  have ecf : (undo s' 0).conflict = false := by rw [f]
  have encl : (undo s' 0).ncl = s.ncl + 1 := by rw [f]; rfl
  have env : (undo s' 0).nv = s.nv := by rw [f]; rfl
  have edom : (undo s' 0).dom = s.dom := by rw [f]; rfl
  have enob : (undo s' 0).noBranch = s.noBranch := by rw [f]; rfl
  have enb : (undo s' 0).nBacktracks = s.nBacktracks + 1 := by rw [f]; rfl
  have end' : (undo s' 0).nDecisions = s.nDecisions := by rw [f]; rfl
  have hI : Inv t := by
    apply undo_inv hI1 (level := 0) (by omega) (by show 0 < s.LEVEL; omega) (s' := s')
      ⟨0, s1.nBacktracks + 1, rfl⟩
    refine ⟨(List.range (undo s' 0).ncl).filter fun id => ((undo s' 0).cls id).un = 1 ∧ ((undo s' 0).cls id).sat = false, ?_, ?_⟩
    · rw [ht]
      unfold checkUnit
      generalize undo s' 0 = u at eL
      cases u
      simp only at eL
      subst eL
      rfl
    · intro i hi
      simp only [List.mem_filter, List.mem_range, decide_eq_true_eq] at hi
      refine ⟨?_, by omega⟩
      rw [encl] at hi
      exact hi.1
  have lold : ∀ id < s.ncl, (t.cls id).lits = (s.cls id).lits := by
    intro id hi
    rw [ht]
    show ((undo s' 0).cls id).lits = _
    rw [U.lits]
    show ((upd s.cls s.ncl _) id).lits = _
    rw [upd_of_ne _ _ (by omega)]
  have lnew : (t.cls s.ncl).lits = [l.neg] := by
    rw [ht]
    show ((undo s' 0).cls s.ncl).lits = _
    rw [U.lits]
    show ((upd s.cls s.ncl _) s.ncl).lits = _
    rw [upd_same]
  have R : Restr 0 s t := by
    rw [ht]
    constructor
    · intro v d _ hl
      have := U.keep v d (by show ¬ 0 < s.alvl v d; omega)
      exact ⟨this.1, this.2.1⟩
    · intro v d hs
      by_cases z : 0 < s.alvl v d
      · exact (U.drop v d z).1
      · rcases hs with b | b
        · have := (U.keep v d z).1
          show (undo s' 0).asg v d = _
          rw [this]; exact b
        · exact absurd b z
  have tncl : t.ncl = s.ncl + 1 := by rw [ht]; exact encl
  have tnv : t.nv = s.nv := by rw [ht]; exact env
  have tdom : t.dom = s.dom := by rw [ht]; exact edom
  have tL : t.LEVEL = 0 := by rw [ht]; exact eL
  have tc : t.conflict = false := by rw [ht]; exact ecf
  have tb : t.nBacktracks = s.nBacktracks + 1 := by rw [ht]; exact enb
  have td : t.nDecisions = s.nDecisions := by rw [ht]; exact end'
  have tdecs : t.decs = s.decs.filter fun l => t.asg l.var l.val ≠ .un := by
    have := U.decs
    rw [ht]; exact this
  have hso : ∀ σ, SolvesAll t σ → SolvesAll s σ := by
    rintro σ ⟨a, b⟩
    rw [tnv, tdom] at a
    refine ⟨a, fun id hi => ?_⟩
    obtain ⟨m, hm, hσ⟩ := b id (by omega)
    rw [lold id hi] at hm
    exact ⟨m, hm, hσ⟩
  have ag0 : ∀ σ, Agree0 s σ → Agree0 t σ := by
    intro σ a v d _
    by_cases y : s.asg v d = .un ∨ 0 < s.alvl v d
    · rw [R.drop v d y]; exact ⟨fun h => (nomatch h), fun h => (nomatch h)⟩
    · have y1 : s.asg v d ≠ .un := fun z => y (Or.inl z)
      have y2 : ¬ 0 < s.alvl v d := fun z => y (Or.inr z)
      rw [(R.keep v d y1 (by omega)).1]
      exact a v d (by omega)
  have hunit : s.ncl ∈ t.units ∧ (t.cls s.ncl).sat = false := by
    have := U.cdrop s.ncl (by show s.ncl < s.ncl + 1; omega) (by
      intro z
      have z : ((upd s.cls s.ncl _) s.ncl).sat = true := z
      rw [upd_same] at z; cases z)
    have hasg : (undo s' 0).asg l.var l.val = .un := by
      have := R.drop l.var l.val (Or.inr (by omega))
      rw [ht] at this; exact this
    have hlits : ((undo s' 0).cls s.ncl).lits = [l.neg] := by rw [ht] at lnew; exact lnew
    have hun : ((undo s' 0).cls s.ncl).un = 1 := by
      rw [this.2.2, hlits, nU_all]
      · rfl
      · intro m hm
        simp only [List.mem_singleton] at hm
        subst hm; exact hasg
    rw [ht]
    refine ⟨?_, this.1⟩
    show s.ncl ∈ (List.range (undo s' 0).ncl).filter _
    simp only [List.mem_filter, List.mem_range, decide_eq_true_eq]
    exact ⟨by omega, hun, this.1⟩
  have hop : nOpen t = nOpen s := by
    have e : t.atoms = s.atoms := by unfold OSt.atoms; rw [tnv, tdom]
    unfold nOpen
    rw [e]
    apply List.countP_congr
    intro a _
    simp only [decide_eq_true_eq]
    by_cases y : s.asg a.1 a.2 = .un ∨ 0 < s.alvl a.1 a.2
    · simp [R.drop _ _ y, y]
    · have y1 : s.asg a.1 a.2 ≠ .un := fun z => y (Or.inl z)
      have y2 : ¬ 0 < s.alvl a.1 a.2 := fun z => y (Or.inr z)
      rw [(R.keep _ _ y1 (by omega)).1, (R.keep _ _ y1 (by omega)).2]
  refine ⟨?_, tL, tc, ⟨s.ncl, hunit⟩, hop, tb, ?_⟩
  · constructor
    · exact hI
    · omega
    · rw [tnv]; exact h.nv
    · rw [tdom]; exact h.dom
    · have := h.ncl; omega
    · intro id hi
      have := h.ncl
      rw [lold id (by omega)]; exact h.lits id hi
    · intro id h1 h2
      by_cases hi : id < s.ncl
      · rw [lold id hi]; exact h.learned id h1 hi
      · have : id = s.ncl := by omega
        subst this
        rw [lnew]
        exact ⟨l.var, l.val, by simp [Lit.neg, e2]⟩
    · rw [ht]; exact enob.trans h.nob
    · intro m hm
      rw [tdecs, List.mem_filter] at hm
      simpa using hm.2
    · intro z; omega
    · intro σ hσ
      exact ag0 σ (h.a0 σ (hso σ hσ))
    · have := h.stat; omega
    · intro he σ hσ
      have hst := h.stat
      have hL1 : s.LEVEL = 1 := by omega
      have hs := h.right (by omega) σ hσ
      refine ⟨?_, ?_⟩
      · rw [tnv, tdom]; exact hs.1
      · intro id hid
        by_cases hi : id < s.ncl
        · rw [lold id hi]; exact hs.2 id hi
        · have : id = s.ncl := by omega
          subst this
          rw [lnew]
          refine ⟨l.neg, by simp, ?_⟩
          rcases holds_or_neg l σ with hl | hl
          · exact absurd (e8 hL1 σ hs hl) (h.inv.refuted hc hs)
          · exact hl
    · right
      have e : t.atoms = s.atoms := by unfold OSt.atoms; rw [tnv, tdom]
      refine ⟨tL, ?_, tc, s.ncl, hunit⟩
      rcases h.bound with b | ⟨-, -, b, -⟩
      · rw [hop, tb, e]; omega
      · rw [hc] at b; cases b
  · intro m hm hl
    have k := R.keep m.var m.val (h.asgd m hm) hl
    refine ⟨?_, k.2⟩
    rw [tdecs, List.mem_filter]
    refine ⟨hm, ?_⟩
    rw [k.1]
    simpa using h.asgd m hm

/-! ## The loop -/

/-- The clock moves on. -/
def tick (s : OSt) : OSt := { s with ticks := s.ticks + 1 }

theorem learnLoop_eq (cfg : OCfg) (f : Nat) (s : OSt) : learnLoop cfg (f + 1) s =
    if checkSat s then .ok (0, s) else
    if cfg.late s.ticks then .ok (1, tick s) else
    if s.units ≠ [] then
      unitProp cfg f (tick s) >>= fun u =>
        if checkSat u then .ok (0, u) else
        if cfg.late u.ticks then .ok (1, tick u) else learnLoop cfg f (tick u)
    else if s.conflict then
      if s.LEVEL = 0 then .ok (2, tick s) else conflictStep (tick s) >>= learnLoop cfg f
    else decideStep cfg (tick s) >>= learnLoop cfg f := by
  rw [learnLoop]
  by_cases hs : checkSat s = true
  · rw [if_pos hs, if_pos hs]; rfl
  rw [if_neg hs, if_neg hs]
  by_cases hl : cfg.late s.ticks = true
  · exact (if_pos hl).trans (if_pos hl).symm
  exact (if_neg hl).trans (Eq.trans rfl (if_neg hl).symm)

theorem Nc.tick' {s0 s : OSt} (h : Nc s0 s) : Nc s0 (tick s) := h.ticks _

theorem learnLoop_spec {cfg : OCfg} {s0 : OSt} : ∀ (f : Nat) {s t : OSt} {r : Nat}, Nc s0 s →
    learnLoop cfg f s = .ok (r, t) →
    Nc s0 t ∧ r ≤ 2 ∧ (r = 0 → checkSat t = true) ∧ (r = 2 → t.conflict = true ∧ t.LEVEL = 0) := by
  intro f
  induction f with
  | zero => intro s t r _ h; cases h
  | succ f ih =>
    intro s t r h ht
    rw [learnLoop_eq] at ht
    by_cases hs : checkSat s = true
    · rw [if_pos hs] at ht
      cases ht
      exact ⟨h, by omega, fun _ => hs, fun z => by cases z⟩
    rw [if_neg hs] at ht
    by_cases hl : cfg.late s.ticks = true
    · rw [if_pos hl] at ht
      cases ht
      exact ⟨h.tick', by omega, (fun z => by cases z), (fun z => by cases z)⟩
    rw [if_neg hl] at ht
    by_cases hu : s.units ≠ []
    · rw [if_pos hu] at ht
      obtain ⟨u, h1, ht⟩ := Res.bind_eq_ok.1 ht
      obtain ⟨hn, -, -⟩ := h.tick'.prop h1
      by_cases hsu : checkSat u = true
      · rw [if_pos hsu] at ht
        cases ht
        exact ⟨hn, by omega, fun _ => hsu, fun z => by cases z⟩
      rw [if_neg hsu] at ht
      by_cases hlu : cfg.late u.ticks = true
      · rw [if_pos hlu] at ht
        cases ht
        exact ⟨hn.tick', by omega, (fun z => by cases z), (fun z => by cases z)⟩
      rw [if_neg hlu] at ht
      exact ih hn.tick' ht
    rw [if_neg hu] at ht
    have hu : s.units = [] := by simpa using hu
    by_cases hc : s.conflict = true
    · rw [if_pos hc] at ht
      by_cases hL : s.LEVEL = 0
      · rw [if_pos hL] at ht
        cases ht
        exact ⟨h.tick', by omega, (fun z => by cases z), fun _ => ⟨hc, hL⟩⟩
      rw [if_neg hL] at ht
      obtain ⟨u, h1, ht⟩ := Res.bind_eq_ok.1 ht
      exact ih (h.tick'.conflict hc hL h1).1 ht
    · rw [if_neg hc] at ht
      have hc : s.conflict = false := by simpa using hc
      obtain ⟨u, h1, ht⟩ := Res.bind_eq_ok.1 ht
      exact ih (h.tick'.decide hc hu hs h1).1 ht

/-! ## Termination -/

theorem conflictStep_ne_fuel (s : OSt) : conflictStep s ≠ .fuel := by
  have hw : ∀ (n : Nat) (c : Int), walk s n c ≠ .fuel := by
    intro n
    induction n with
    | zero =>
      intro c
      by_cases hc : c = -1
      · subst hc; rw [walk_neg]; simp
      · rw [walk]
        · simp
        · exact hc
    | succ n ih =>
      intro c
      by_cases hc : c = -1
      · subst hc; rw [walk_neg]; simp
      · rw [walk]
        · split
          · simp
          · exact ih _
        · exact hc
  unfold conflictStep
  apply bind_ne_fuel
  · unfold analyze
    apply bind_ne_fuel (hw _ _)
    intro n _
    cases n with
    | zero => simp
    | succ k =>
      simp only
      split
      · simp
      · intro z; cases z
  · intro a _ z; cases z

theorem decideStep_ne_fuel {cfg : OCfg} (s : OSt) : decideStep cfg s ≠ .fuel := by
  unfold decideStep
  split
  · simp
  · exact reduce_ne_fuel _ _ _

theorem Nc.nOpen_unitProp {cfg : OCfg} {f : Nat} {s0 s t : OSt} (h : Nc s0 s) (ht : unitProp cfg f s = .ok t)
    (hL : s.LEVEL = 0) (hc : s.conflict = false) {id : Nat} (hid : id ∈ s.units) (hs : (s.cls id).sat = false) :
    nOpen t < nOpen s := by
  obtain ⟨P, hu⟩ := unitProp_propd h.inv h.lev ht
  obtain ⟨v, d, c1, c2, c3⟩ := P.progress h.inv hc hid hs
  have := P.ext.nFree_lt c1.1 c1.2.1 c1.2.2 c2 c3
  have e1 := nOpen_zero h.inv.toCore (by omega : s.LEVEL ≤ 0)
  have e2 := nOpen_zero P.inv.toCore (by rw [P.ext.lev]; omega : t.LEVEL ≤ 0)
  omega

/-- The loop ends: by the number of atoms not assigned at level 0, then by the number of free atoms. -/
theorem learnLoop_total (cfg : OCfg) (s0 : OSt) : ∀ (n m b : Nat) (s : OSt), Nc s0 s → nOpen s ≤ n → nFree s ≤ m →
    (if s.units = [] then 0 else 1) ≤ b → ∃ f0, ∀ f, f0 ≤ f → learnLoop cfg f s ≠ .fuel := by
  intro n
  induction n using Nat.strongRecOn with
  | ind n ihn =>
  intro m
  induction m using Nat.strongRecOn with
  | ind m ihm =>
  intro b
  induction b using Nat.strongRecOn with
  | ind b ihb =>
    intro s h hn hm hb
    have one : ∀ {g : Nat → Res (Nat × OSt)}, (∃ f0, ∀ f, f0 ≤ f → g f ≠ .fuel) →
        (∀ f, learnLoop cfg (f + 1) s = g f) → ∃ f0, ∀ f, f0 ≤ f → learnLoop cfg f s ≠ .fuel := by
      rintro g ⟨f0, h0⟩ hg
      refine ⟨f0 + 1, fun f hf => ?_⟩
      obtain ⟨f, rfl⟩ : ∃ k, f = k + 1 := ⟨f - 1, by omega⟩
      rw [hg]
      exact h0 f (by omega)
    by_cases hs : checkSat s = true
    · exact one ⟨0, fun f _ => (by simp : (fun _ => Res.ok (0, s)) f ≠ .fuel)⟩ (fun f => by rw [learnLoop_eq, if_pos hs])
    by_cases hl : cfg.late s.ticks = true
    · exact one ⟨0, fun f _ => (by simp : (fun _ => Res.ok (1, tick s)) f ≠ .fuel)⟩
        (fun f => by rw [learnLoop_eq, if_neg hs, if_pos hl])
    by_cases hu : s.units ≠ []
    · apply one _ (fun f => by rw [learnLoop_eq, if_neg hs, if_neg hl, if_pos hu])
      obtain ⟨f1, h1⟩ := unitProp_total cfg h.tick'.inv h.tick'.lev
      cases hx : unitProp cfg f1 (tick s) with
      | fuel => exact absurd hx (h1 f1 (Nat.le_refl _))
      | ub =>
        refine ⟨f1, fun f hf => ?_⟩
        rw [unitProp_mono cfg _ hf (h1 f1 (Nat.le_refl _)), hx]
        intro z; cases z
      | ok u =>
        obtain ⟨a1, a2, a3, a4⟩ := h.tick'.prop hx
        obtain ⟨f2, h2⟩ := ihb 0 (by rw [if_neg hu] at hb; omega) (tick u) a1.tick' (Nat.le_trans a4 hn)
          (Nat.le_trans a3 hm) (by rw [if_pos (show (tick u).units = [] from a2)]; exact Nat.le_refl _)
        refine ⟨max f1 f2, fun f hf => ?_⟩
        rw [unitProp_mono cfg _ (by omega : f1 ≤ f) (h1 f1 (Nat.le_refl _)), hx, Res.ok_bind]
        split
        · simp
        · split
          · simp
          · exact h2 f (by omega)
    have hu' : s.units = [] := by simpa using hu
    by_cases hc : s.conflict = true
    · by_cases hL : s.LEVEL = 0
      · exact one ⟨0, fun f _ => (by simp : (fun _ => Res.ok (2, tick s)) f ≠ .fuel)⟩
          (fun f => by rw [learnLoop_eq, if_neg hs, if_neg hl, if_neg hu, if_pos hc, if_pos hL])
      apply one _ (fun f => by rw [learnLoop_eq, if_neg hs, if_neg hl, if_neg hu, if_pos hc, if_neg hL])
      cases hx : conflictStep (tick s) with
      | fuel => exact absurd hx (conflictStep_ne_fuel _)
      | ub => exact ⟨0, fun f _ z => by cases z⟩
      | ok u =>
        obtain ⟨a1, a2, a3, ⟨id, a4, a5⟩, a6, -⟩ := h.tick'.conflict hc hL hx
        -- one more round of the loop, the unit propagation
        suffices hg : ∃ f0, ∀ f, f0 ≤ f → learnLoop cfg f u ≠ .fuel by
          obtain ⟨f0, h0⟩ := hg
          exact ⟨f0, fun f hf => by rw [Res.ok_bind]; exact h0 f hf⟩
        have huu : u.units ≠ [] := by intro z; rw [z] at a4; cases a4
        obtain ⟨f1, h1⟩ := unitProp_total cfg a1.tick'.inv a1.tick'.lev
        cases hy : unitProp cfg f1 (tick u) with
        | fuel => exact absurd hy (h1 f1 (Nat.le_refl _))
        | ub =>
          refine ⟨f1 + 1, fun f hf => ?_⟩
          obtain ⟨f, rfl⟩ : ∃ k, f = k + 1 := ⟨f - 1, by omega⟩
          rw [learnLoop_eq, if_pos huu]
          split
          · simp
          · split
            · simp
            · rw [unitProp_mono cfg _ (by omega : f1 ≤ f) (h1 f1 (Nat.le_refl _)), hy]
              intro z; cases z
        | ok w =>
          obtain ⟨b1, -, -, -⟩ := a1.tick'.prop hy
          have hlt := a1.tick'.nOpen_unitProp hy a2 a3 a4 a5
          have e1 : nOpen (tick u) = nOpen u := rfl
          have e2 : nOpen (tick s) = nOpen s := rfl
          obtain ⟨f2, h2⟩ := ihn (nOpen w) (by omega) (nFree (tick w)) 1 (tick w) b1.tick' (Nat.le_refl _) (Nat.le_refl _)
            (by split <;> omega)
          refine ⟨max f1 f2 + 1, fun f hf => ?_⟩
          obtain ⟨f, rfl⟩ : ∃ k, f = k + 1 := ⟨f - 1, by omega⟩
          rw [learnLoop_eq, if_pos huu]
          split
          · simp
          · split
            · simp
            · rw [unitProp_mono cfg _ (by omega : f1 ≤ f) (h1 f1 (Nat.le_refl _)), hy, Res.ok_bind]
              split
              · simp
              · split
                · simp
                · exact h2 f (by omega)
    · have hc' : s.conflict = false := by simpa using hc
      apply one _ (fun f => by rw [learnLoop_eq, if_neg hs, if_neg hl, if_neg hu, if_neg hc])
      cases hx : decideStep cfg (tick s) with
      | fuel => exact absurd hx (decideStep_ne_fuel _)
      | ub => exact ⟨0, fun f _ z => by cases z⟩
      | ok u =>
        obtain ⟨a1, a2, a3, -⟩ := h.tick'.decide hc' hu' hs hx
        have e1 : nFree (tick s) = nFree s := rfl
        obtain ⟨f2, h2⟩ := ihm (nFree u) (by omega) 1 u a1 (Nat.le_trans a3 hn) (Nat.le_refl _) (by split <;> omega)
        exact ⟨f2, fun f hf => by rw [Res.ok_bind]; exact h2 f hf⟩

/-! ## No undefined behaviour when something is assigned at level 0 -/

/-- `DECSTACK` has an entry of level 0, or is about to get one. -/
def Ground (s : OSt) : Prop :=
  (∃ m ∈ s.decs, s.alvl m.var m.val ≤ 0) ∨ (s.LEVEL = 0 ∧ s.conflict = false ∧ ∃ id ∈ s.units, (s.cls id).sat = false)

theorem Ground.prop {cfg : OCfg} {f : Nat} {s0 s t : OSt} (g : Ground s) (h : Nc s0 s) (ht : unitProp cfg f s = .ok t) :
    ∃ m ∈ t.decs, t.alvl m.var m.val ≤ 0 := by
  obtain ⟨P, -⟩ := unitProp_propd h.inv h.lev ht
  obtain ⟨ds, e1, e2⟩ := P.decs
  rcases g with ⟨m, hm, hl⟩ | ⟨hL, hc, id, hid, hs⟩
  · refine ⟨m, by rw [e1]; simp [hm], ?_⟩
    rw [(P.ext.old _ _ (h.asgd m hm)).2]; exact hl
  · obtain ⟨v, d, -, c2, c3⟩ := P.progress h.inv hc hid hs
    cases ds with
    | nil =>
      have := P.grow (by rw [e1]; simp)
      rw [this] at c3; exact absurd c2 c3
    | cons m ds =>
      obtain ⟨a, b, -⟩ := e2 m (by simp)
      refine ⟨m, by rw [e1]; simp, ?_⟩
      rw [P.ext.new _ _ a b, hL]; exact Int.le_refl _

theorem learnLoop_ne_ub {cfg : OCfg} (hto : cfg.tolerant = true) {s0 : OSt} : ∀ (f : Nat) {s : OSt}, Nc s0 s → Ground s →
    learnLoop cfg f s ≠ .ub := by
  intro f
  induction f with
  | zero => intro s _ _ z; cases z
  | succ f ih =>
    intro s h g
    rw [learnLoop_eq]
    by_cases hs : checkSat s = true
    · rw [if_pos hs]; simp
    rw [if_neg hs]
    by_cases hl : cfg.late s.ticks = true
    · rw [if_pos hl]; simp
    rw [if_neg hl]
    by_cases hu : s.units ≠ []
    · rw [if_pos hu]
      apply bind_ne_ub (unitProp_ne_ub hto h.tick'.inv h.tick'.lev)
      intro u hx
      split
      · simp
      · split
        · simp
        · exact ih (h.tick'.prop hx).1.tick' (Or.inl (Ground.prop (s := tick s) (t := u) g h.tick' hx))
    rw [if_neg hu]
    have hu' : s.units = [] := by simpa using hu
    have g1 : ∃ m ∈ s.decs, s.alvl m.var m.val ≤ 0 := by
      rcases g with g | ⟨-, -, id, hid, -⟩
      · exact g
      · rw [hu'] at hid; cases hid
    obtain ⟨m, hm, hml⟩ := g1
    by_cases hc : s.conflict = true
    · rw [if_pos hc]
      by_cases hL : s.LEVEL = 0
      · rw [if_pos hL]; simp
      rw [if_neg hL]
      apply bind_ne_ub
      · have hlev := h.lev
        obtain ⟨D, l, ds, e1, e2, e3, e4, e5, e6, e66, e7, -⟩ := h.tick'.dec (by show 1 ≤ s.LEVEL; omega)
        have hD : D ≠ [] := by
          rintro rfl
          -- the decision is the first entry, so no entry has level 0
          have e1 : s.decs = l :: ds := e1
          rw [e1] at hm
          rcases List.mem_cons.1 hm with rfl | hm
          · have : s.alvl m.var m.val = s.LEVEL := e4
            omega
          · have : s.alvl m.var m.val = s.LEVEL := e66 m hm
            omega
        unfold conflictStep
        rw [analyze_spec (s := tick s) h.tick'.inv.toCore hc e1 e4 e5 e6 e7, if_neg hD]
        intro z; cases z
      · intro u hx
        obtain ⟨a1, -, -, -, -, -, a7⟩ := h.tick'.conflict hc hL hx
        obtain ⟨k1, k2⟩ := a7 m hm hml
        exact ih a1 (Or.inl ⟨m, k1, by rw [k2]; exact hml⟩)
    · rw [if_neg hc]
      have hc' : s.conflict = false := by simpa using hc
      apply bind_ne_ub
      · unfold decideStep
        split
        · simp
        · rename_i l _
          obtain ⟨t, ht⟩ := reduce_tolerant hto
            { tick s with unitClause := -1, nDecisions := (tick s).nDecisions + 1, LEVEL := (tick s).LEVEL + 1 } l
          rw [ht]; simp
      · intro u hx
        obtain ⟨a1, -, -, -, a5⟩ := h.tick'.decide hc' hu' hs hx
        obtain ⟨k1, k2⟩ := a5 m hm
        exact ih a1 (Or.inl ⟨m, k1, by rw [k2]; exact hml⟩)

end Mvl.Orig
