import Verif.Proof.LInv
import Verif.Proof.Occ

/-!
# Clause learning with counters: every part keeps the invariant
-/

namespace Mvl

variable {S : Type}

theorem reduce_extra (cfg : Cfg S) (s : St S) (l : Lit) (hu : LU s.asg l) :
    (reduceTheory cfg s l).ub = s.ub ∧ (reduceTheory cfg s l).score = s.score := by
  rw [reduceTheory_G]
  refine reduceG_inv (g := assign1 cfg) (I := fun s' : St S => s'.ub = s.ub ∧ s'.score = s.score) ?_ ?_ s l hu ⟨rfl, rfl⟩
  · rintro s' ds vv u n ⟨h1, h2⟩; exact ⟨h1, h2⟩
  · rintro s' v d a _ ⟨h1, h2⟩ _
    obtain ⟨_, _, _, _, _, e⟩ := assign1_frame cfg s' v d a
    rw [e]; exact ⟨h1, h2⟩

/-- The clause at the front of the queue explains the literal it forces. -/
theorem CInv.cause {s : St S} (h : CInv (fun _ => False) s) (hn : ∀ id, id < s.ncl → (s.cl id).lits.Nodup)
    {id : Nat} (hid : id < s.ncl) {l : Lit} (hm : l ∈ (s.cl id).lits) (hu : LU s.asg l)
    (hoth : ∀ l' ∈ (s.cl id).lits, l' ≠ l → LF s.asg l') : Cause s.tr s.lits? l id := by
  by_cases hL : s.tr.LEVEL = 0
  · exact Or.inl hL
  · right; right
    refine ⟨id, (s.cl id).lits, rfl, by unfold St.lits?; rw [if_pos hid], hm, hoth, ?_⟩
    have h0 : 0 ≤ s.tr.LEVEL := h.lev0
    rcases (h.stack (s.tr.LEVEL - 1) (by omega) (by omega)).2 _ ⟨id, hid, rfl⟩ with ⟨x, hx, ht⟩ | h2
    · have ht' := LT_of_asgAt ht
      by_cases hxl : x = l
      · subst hxl; exact absurd ht' hu.not_LT
      · exact absurd ht' (hoth x hx hxl).not_LT
    · obtain ⟨x, hx, y, hy, hne, h3, h4⟩ := countP_two (hn id hid) h2
      by_cases hxl : x = l
      · have hyl : y ≠ l := fun h => hne (hxl.trans h.symm)
        exact ⟨y, hy, hyl, lvl_of_LU_asgAt h.base rfl (hoth y hy hyl) (by simpa using h4)⟩
      · exact ⟨x, hx, hxl, lvl_of_LU_asgAt h.base rfl (hoth x hx hxl) (by simpa using h3)⟩

/-- One propagation step keeps the reasons, the scores and the error flag. -/
theorem unitStep_extra (cfg : Cfg S) {s : St S} (h : CInv (fun _ => False) s) (hc : s.conflict = false)
    (hn : ∀ id, id < s.ncl → (s.cl id).lits.Nodup) (hrs : Reasons s.tr s.lits?) :
    Reasons (unitStep cfg s).tr s.lits? ∧ (unitStep cfg s).ub = s.ub ∧ (unitStep cfg s).score = s.score := by
  unfold unitStep
  cases hun : s.units with
  | nil => exact ⟨hrs, rfl, rfl⟩
  | cons id rest =>
    dsimp only
    obtain ⟨hid, _⟩ := h.cnt.unitsOK id (by rw [hun]; simp)
    by_cases hl : (s.cl id).level = -1
    · obtain ⟨l, hf, hm, hlu, hoth, _⟩ := h.front hc hun hl
      rw [if_pos (by exact hl)]
      have hf' : (({ s with unitClause := (id : Int), units := rest } : St S).cl id).lits.find?
        (fun l => ({ s with unitClause := (id : Int), units := rest } : St S).asg l.var l.val = .un) = some l := hf
      simp only [hf']
      have hr := h.rng id hid l hm
      -- the trail part of assigning does not care about the queue
      have hx := reduceTheory_G cfg { s with unitClause := (id : Int), units := rest, nUnits := s.nUnits + 1 } l
      obtain ⟨h1, h2, h3⟩ := reduceG_trail (stepG_assign1 cfg)
        ({ s with unitClause := (id : Int), units := rest, nUnits := s.nUnits + 1 } : St S) l hr.2.2 hlu
      have hext := h1.ext h.base hr hlu (h.vars hc l.var hr.1 hr.2.1) h.lev0
      rw [← hx] at hext
      obtain ⟨e1, e2⟩ := reduce_extra cfg
        ({ s with unitClause := (id : Int), units := rest, nUnits := s.nUnits + 1 } : St S) l hlu
      exact ⟨hext.reasons h.base hr hlu hrs (h.cause hn hid hm hlu hoth), e1, e2⟩
    · rw [if_neg (by exact hl)]
      exact ⟨hrs, rfl, rfl⟩

/-- One propagation step keeps the occurrence counts exact. -/
theorem unitStep_occ (cfg : Cfg S) (hbk : cfg.heur = .BK) {s : St S} (h : CInv (fun _ => False) s) (ho : OccOK s) :
    OccOK (unitStep cfg s) := by
  unfold unitStep
  cases hun : s.units with
  | nil => exact ho
  | cons id rest =>
    dsimp only
    split
    · split
      · rename_i l hf
        have hlu : LU s.asg l := by have := List.find?_some hf; unfold LU; simpa using this
        refine reduceTheory_occ cfg hbk ?_ ?_ ?_ (s := { s with unitClause := (id : Int), units := rest, nUnits := s.nUnits + 1 }) ?_
        · exact hlu
        · exact ⟨h.cnt.store.inj, h.cnt.store.recs, h.cnt.store.alloc⟩
        · have := h.lev0; show s.LEVEL ≠ -1; omega
        · exact ho.congr rfl rfl rfl rfl rfl
      · exact ho.congr rfl rfl rfl rfl rfl
    · exact ho.congr rfl rfl rfl rfl rfl

/-- Invariant of `NonChronoBacktrack`. -/
structure NInv (cfg : Cfg S) (P : Problem) (s : St S) (rc : Int) : Prop where
  inv : CInv (fun _ => False) s
  linv : LInv P s
  scores : ∀ pos, cfg.arith.Good pos → ∀ l, pos (s.score l)
  rinv : RInv cfg s rc
  occ : cfg.heur = .BK → OccOK s

theorem NInv.tick {cfg : Cfg S} {P : Problem} {s : St S} {rc : Int} (h : NInv cfg P s rc) :
    NInv cfg P (tick s) rc :=
  ⟨h.inv.congr rfl rfl rfl rfl rfl rfl rfl rfl rfl,
    ⟨h.linv.nv, h.linv.dom, h.linv.nodup, h.linv.keep, h.linv.sound, h.linv.lev0, h.linv.reasons, h.linv.ub⟩,
    h.scores, h.rinv.congr rfl rfl rfl, fun hb => (h.occ hb).congr rfl rfl rfl rfl rfl⟩

theorem NInv.prop {cfg : Cfg S} {P : Problem} {s : St S} {rc : Int} (h : NInv cfg P s rc) (hc : s.conflict = false)
    (hu : s.units ≠ []) : NInv cfg P (unitStep cfg s) rc := by
  have hst := unitStep_spec cfg h.inv hc hu
  obtain ⟨e1, e2, e3⟩ := unitStep_extra cfg h.inv hc h.linv.nodup h.linv.reasons
  refine ⟨hst.inv, h.linv.grow hst.grown.sameF ?_ e1 (e2.trans h.linv.ub), ?_, ?_,
    fun hb => unitStep_occ cfg hb h.inv (h.occ hb)⟩
  · intro a ha
    by_cases hL : s.LEVEL = 0
    · have e : (unitStep cfg s).tr.asgAt 0 = (unitStep cfg s).asg :=
        Trail.asgAt_of_le hst.inv.base (by show (unitStep cfg s).LEVEL ≤ 0; rw [hst.grown.LEVEL]; omega)
      have e0 : s.tr.asgAt 0 = s.asg := Trail.asgAt_of_le h.inv.base (by show s.LEVEL ≤ 0; omega)
      rw [e]
      apply hst.agrees a (h.linv.sound a ha)
      rw [← e0]; exact h.linv.lev0 a ha
    · rw [hst.grown.asgAt 0 (by have := h.inv.lev0; omega)]
      exact h.linv.lev0 a ha
  · intro pos hg; rw [e3]; exact h.scores pos hg
  · exact h.rinv.congr hst.nRestarts hst.nBacktracks hst.flowOff

theorem decideNC_counter {cfg : Cfg S} (hw : cfg.watch = false) {s s' : St S} (h : decideNC cfg s = some s') :
    ∃ l, chooseNC cfg s = some l ∧ s' = reduceTheory cfg
      { s with nDecisions := s.nDecisions + 1, LEVEL := s.LEVEL + 1, unitClause := -1 } l := by
  unfold decideNC at h
  cases hc : chooseNC cfg s with
  | none => rw [hc] at h; simp at h
  | some l =>
    rw [hc] at h
    simp only [hw] at h
    refine ⟨l, rfl, ?_⟩
    obtain ⟨u, he⟩ := chooseEffect_eq cfg s
    rw [he] at h
    simp only [Option.some.injEq] at h
    exact h.symm

theorem scoresOK {cfg : Cfg S} {s : St S} {pos : S → Prop} (hg : cfg.arith.Good pos) (h : ∀ l, pos (s.score l)) :
    ScoresOK cfg.arith s := fun l => hg.2.2.2 _ (h l)

/-- Scores stay above -1. -/
def Cfg.ScoreOK (cfg : Cfg S) : Prop := ∃ pos, cfg.arith.Good pos

theorem chooseNC_some {cfg : Cfg S} (hw : cfg.watch = false) (hs : cfg.ScoreOK) {s : St S}
    (hp : ∀ pos, cfg.arith.Good pos → ∀ l, pos (s.score l)) {l : Lit} (h : chooseNC cfg s = some l) :
    OpenAtom s l.var l.val ∨ lazyChoose s = some l := by
  obtain ⟨pos, hg⟩ := hs
  have hok := scoresOK hg (hp pos hg)
  unfold chooseNC at h
  split at h
  · exact Or.inl ((chooseVSIDS_spec cfg.arith s hok).2 l h)
  · exact Or.inl ((chooseVSIDSPos_spec cfg.arith s hok).2 l h).2
  · rw [if_neg (by rw [hw]; simp)] at h
    exact Or.inl ((chooseBK_spec s).2 l h).2
  · rw [if_neg (by rw [hw]; simp)] at h
    exact Or.inr h

theorem chooseNC_none {cfg : Cfg S} (hw : cfg.watch = false) (hs : cfg.ScoreOK) {s : St S}
    (hp : ∀ pos, cfg.arith.Good pos → ∀ l, pos (s.score l)) (h : chooseNC cfg s = none) :
    (∀ v d, ¬ OpenAtom s v d) ∨ lazyChoose s = none := by
  obtain ⟨pos, hg⟩ := hs
  have hok := scoresOK hg (hp pos hg)
  unfold chooseNC at h
  split at h
  · exact Or.inl ((chooseVSIDS_spec cfg.arith s hok).1 h)
  · exact Or.inl ((chooseVSIDSPos_spec cfg.arith s hok).1 h)
  · rw [if_neg (by rw [hw]; simp)] at h
    exact Or.inl ((chooseBK_spec s).1 h)
  · rw [if_neg (by rw [hw]; simp)] at h
    exact Or.inr h

theorem decideNC_none {cfg : Cfg S} {s : St S} (h : decideNC cfg s = none) : chooseNC cfg s = none := by
  unfold decideNC at h
  cases hc : chooseNC cfg s with
  | none => rfl
  | some l => rw [hc] at h; simp at h

theorem NInv.dec {cfg : Cfg S} (hw : cfg.watch = false) (hs : cfg.ScoreOK) {P : Problem} {s s' : St S} {rc : Int}
    (h : NInv cfg P s rc) (hc : s.conflict = false)
    (hu : s.units = []) (hd : decideNC cfg s = some s') :
    NInv cfg P s' rc ∧ SameF s s' ∧ unCount s' < unCount s := by
  obtain ⟨l, hl, rfl⟩ := decideNC_counter hw hd
  obtain ⟨hr, hlu⟩ := h.inv.choose_some (chooseNC_some hw hs h.scores hl)
  have h1 := h.inv.open_level hc hu (-1) (s.nDecisions + 1)
  obtain ⟨h2, h3⟩ := h1.reduce cfg hc (l := l) hr hlu
  obtain ⟨e1, e2⟩ := reduce_extra cfg
    ({ s with nDecisions := s.nDecisions + 1, LEVEL := s.LEVEL + 1, unitClause := -1 } : St S) l hlu
  have hcause : Cause ({ s with nDecisions := s.nDecisions + 1, LEVEL := s.LEVEL + 1, unitClause := -1 } : St S).tr
      s.lits? l (-1) := by
    right; left
    refine ⟨rfl, ?_⟩
    intro v d hn
    have : s.lvl v d ≤ s.LEVEL := h.inv.base.lvlL v d hn
    show s.lvl v d < s.LEVEL + 1
    omega
  have hrs := h3.ext.reasons h1.base hr hlu (cls := s.lits?) h.linv.reasons hcause
  have h4 := h3.pushed h2 hr hlu
  have h5 : cfg.heur = .BK → OccOK (reduceTheory cfg
      ({ s with nDecisions := s.nDecisions + 1, LEVEL := s.LEVEL + 1, unitClause := -1 } : St S) l) := fun hb =>
    reduceTheory_occ cfg hb (s := { s with nDecisions := s.nDecisions + 1, LEVEL := s.LEVEL + 1, unitClause := -1 })
      hlu h1.cnt.store (by have := h.inv.lev0; show s.LEVEL + 1 ≠ -1; omega) ((h.occ hb).congr rfl rfl rfl rfl rfl)
  generalize reduceTheory cfg
    ({ s with nDecisions := s.nDecisions + 1, LEVEL := s.LEVEL + 1, unitClause := -1 } : St S) l = s2 at *
  have hsf : SameF s s2 := ⟨h3.sameF.nv, h3.sameF.dom, h3.sameF.ncl, h3.sameF.lits⟩
  refine ⟨⟨h2, h.linv.grow hsf ?_ hrs (e1.trans h.linv.ub), ?_, ?_, h5⟩, hsf, h4.meas⟩
  · intro a ha
    rw [h4.asgAt 0 (by have := h.inv.lev0; show 0 < s.LEVEL + 1; omega)]
    exact h.linv.lev0 a ha
  · intro pos hg; rw [e2]; exact h.scores pos hg
  · exact h.rinv.congr h3.same.nRestarts h3.same.nBacktracks h3.same.flowOff

/-! ### Conflicts -/

/-- What handling a conflict does, seen from outside. -/
structure Backjump (cfg : Cfg S) (s : St S) (rc : Int) (s' : St S) (rc' : Int) : Prop where
  confl : ∃ id, id < s.ncl ∧ s.conflicting = (id : Nat) ∧ ∃ c : Cls, Learned cfg s (s.cl id).lits c ∧ AddCl s c.lits s'
  level : 0 ≤ s'.LEVEL ∧ s'.LEVEL < s.LEVEL
  tr : s'.tr = (s.tr.undo s'.LEVEL).level s'.LEVEL
  conflict : s'.conflict = false
  back : s'.nBacktracks = s.nBacktracks + 1
  flow : s'.flowOff = s.flowOff + 1
  ub : s'.ub = s.ub
  ticks : s'.ticks = s.ticks
  nDecisions : s'.nDecisions = s.nDecisions
  restart : ((s.nBacktracks : Int) + 1 = rc ∧ s'.nRestarts = s.nRestarts + 1 ∧
        rc' = ((s.nBacktracks : Int) + 1) + cfg.restarts ∧ s'.LEVEL = 0) ∨
      ((s.nBacktracks : Int) + 1 ≠ rc ∧ s'.nRestarts = s.nRestarts ∧ rc' = rc)
  scores : ∀ pos, cfg.arith.Good pos → (∀ l, pos (s.score l)) → ∀ l, pos (s'.score l)
  target : ∃ b, BackLevel s.tr (s'.cl s.ncl).lits b ∧ s'.LEVEL ≤ b ∧ s'.units = (if s'.LEVEL = b then [s.ncl] else []) ∧
    ((s.nBacktracks : Int) + 1 ≠ rc → s'.LEVEL = b)
  fresh : ∀ id, id < s.ncl → ¬ SetEq (s.cl id).lits (s'.cl s.ncl).lits

/-- The state after storing the clause, before undoing. -/
def stored (s : St S) (c : Cls) (sc : Lit → S) (r : Lit → List Nat) (b : Int) : St S :=
  { s with
      heap := upd s.heap s.nheap { c with numUn := 0 }, nheap := s.nheap + 1, ptr := upd s.ptr s.ncl s.nheap,
      ncl := s.ncl + 1, score := sc, recs := r, flowOff := s.flowOff + 1, LEVEL := b,
      nBacktracks := s.nBacktracks + 1, conflict := false }

theorem stored_cl_old {s : St S} (hs : Store s) (c : Cls) (sc : Lit → S) (r : Lit → List Nat) (b : Int) {id : Nat}
    (hid : id < s.ncl) : (stored s c sc r b).cl id = s.cl id := by
  have h1 : upd s.ptr s.ncl s.nheap id = s.ptr id := upd_of_ne _ _ (by omega)
  show upd s.heap s.nheap _ (upd s.ptr s.ncl s.nheap id) = s.heap (s.ptr id)
  rw [h1, upd_of_ne _ _ (by have := hs.alloc id hid; omega)]

theorem stored_cl_new (s : St S) (c : Cls) (sc : Lit → S) (r : Lit → List Nat) (b : Int) :
    (stored s c sc r b).cl s.ncl = { c with numUn := 0 } := by
  unfold St.cl stored
  dsimp only
  rw [upd_same, upd_same]

theorem stored_addCl {s : St S} (hs : Store s) (c : Cls) (sc : Lit → S) (r : Lit → List Nat) (b : Int) :
    AddCl s c.lits (stored s c sc r b) :=
  ⟨rfl, rfl, rfl, fun id hid => by rw [stored_cl_old hs c sc r b hid], by rw [stored_cl_new]⟩

theorem stored_store {s : St S} (hst : Store s) (c : Cls) (sc : Lit → S) (r : Lit → List Nat) (b : Int)
    (hr : ∀ l, r l = s.recs l ++ List.replicate (c.lits.count l) s.ncl) : Store (stored s c sc r b) := by
  have hold := fun {id : Nat} (hid : id < s.ncl) => stored_cl_old hst c sc r b hid
  have hnew := stored_cl_new s c sc r b
  have hncl : (stored s c sc r b).ncl = s.ncl + 1 := rfl
  have hsplit : ∀ id, id < s.ncl + 1 → id < s.ncl ∨ id = s.ncl := fun id hid => by omega
  refine ⟨?_, ?_, ?_⟩
  · intro i j hi hj
    have hi' := hsplit i hi
    have hj' := hsplit j hj
    have hpo : ∀ i, i < s.ncl → (stored s c sc r b).ptr i = s.ptr i := by
      intro i hi; unfold stored; dsimp only; rw [upd_of_ne _ _ (by omega)]
    have hpn : (stored s c sc r b).ptr s.ncl = s.nheap := by unfold stored; dsimp only; rw [upd_same]
    rcases hi' with hi' | rfl <;> rcases hj' with hj' | rfl
    · rw [hpo i hi', hpo j hj']; exact hst.inj i j hi' hj'
    · rw [hpo i hi', hpn]; have := hst.alloc i hi'; omega
    · rw [hpn, hpo j hj']; have := hst.alloc j hj'; omega
    · simp
  · intro l id
    show (r l).count id = _
    rw [hr l, List.count_append, hst.recs l id, List.count_replicate]
    rw [hncl]
    by_cases hid : id < s.ncl
    · have hb : (s.ncl == id) = false := by simp; omega
      rw [hb, if_pos hid, if_neg (by simp), if_pos (by omega), hold hid]; omega
    · rw [if_neg hid]
      by_cases he : id = s.ncl
      · subst he
        rw [if_pos (by simp), if_pos (by omega), hnew]
        show 0 + c.lits.count l = c.lits.count l
        omega
      · have hb : (s.ncl == id) = false := by simp; omega
        rw [hb, if_neg (by simp), if_neg (by omega)]
  · intro i hi
    show _ < s.nheap + 1
    unfold stored; dsimp only
    rcases hsplit i hi with hi' | rfl
    · rw [upd_of_ne _ _ (by omega)]; have := hst.alloc i hi'; omega
    · rw [upd_same]; omega

theorem stored_exact {cfg : Cfg S} {s : St S} (h : CInv (fun _ => False) s) {c0 : List Lit} {c : Cls}
    (hl : Learned cfg s c0 c) (sc : Lit → S) (r : Lit → List Nat) (b : Int) : ∀ id, id < (stored s c sc r b).ncl →
    Exact (stored s c sc r b).asg (stored s c sc r b).lvl ((stored s c sc r b).cl id) := by
  have hold := fun {id : Nat} (hid : id < s.ncl) => stored_cl_old h.cnt.store c sc r b hid
  have hnew := stored_cl_new s c sc r b
  have hsplit : ∀ id, id < s.ncl + 1 → id < s.ncl ∨ id = s.ncl := fun id hid => by omega
  intro id hid
  rcases hsplit id hid with hi | rfl
  · rw [hold hi]; exact h.cnt.exact id hi
  · rw [hnew]
    left
    refine ⟨hl.fresh, ?_, ?_⟩
    · rintro ⟨x, hx, ht⟩
      exact ht.not_LF (hl.confl.fals x hx)
    · have : openCount s.asg c.lits = 0 := by
        unfold openCount
        rw [List.countP_eq_zero]
        intro x hx
        have : ¬ LU s.asg x := (hl.confl.fals x hx).not_LU
        simpa using this
      show (0 : Int) = (openCount s.asg c.lits : Nat)
      rw [this]; rfl

/-- The learned clause is false, so it adds nothing to the counts of unassigned atoms. -/
theorem stored_occ {cfg : Cfg S} {s : St S} (h : CInv (fun _ => False) s) {c0 : List Lit} {c : Cls}
    (hl : Learned cfg s c0 c) (sc : Lit → S) (r : Lit → List Nat) (b : Int) (ho : OccOK s) :
    OccOK (stored s c sc r b) := by
  intro x
  obtain ⟨h1, h2⟩ := ho x
  refine ⟨?_, h2⟩
  intro hu
  have hu' : LU s.asg x := hu
  have e : Mvl.occ (stored s c sc r b) x = Mvl.occ s x + occ1 ((stored s c sc r b).cl s.ncl) x := by
    show occN (stored s c sc r b).cl x s.ncl + _ = occN s.cl x s.ncl + _
    rw [occN_congr (g := s.cl)]
    intro i hi; rw [stored_cl_old h.cnt.store c sc r b hi]
  have e2 : occ1 ((stored s c sc r b).cl s.ncl) x = 0 := by
    rw [stored_cl_new]
    unfold occ1
    have : x ∉ c.lits := fun hm => hu'.not_LF (hl.confl.fals x hm)
    rw [List.count_eq_zero.2 this]
    split <;> rfl
  rw [e, e2]
  have := h1 hu'
  show s.cnt x = _
  omega

/-- Going back with the learned clause stored. -/
theorem CInv.backjump (cfg : Cfg S) {s : St S} (h : CInv (fun _ => False) s) {c0 : List Lit} {c : Cls}
    (hl : Learned cfg s c0 c) {b : Int} (hb : BackLevel s.tr c.lits b) {k : Int} (hk0 : 0 ≤ k) (hkb : k ≤ b)
    {sc : Lit → S} {r : Lit → List Nat} (hr : ∀ l, r l = s.recs l ++ List.replicate (c.lits.count l) s.ncl) :
    CInv (fun _ => False) ({ undoTheory cfg (stored s c sc r b) k with
      conflict := false, units := (if k = b then [s.ncl] else []), LEVEL := k } : St S) ∧
    SameF (stored s c sc r b) (undoTheory cfg (stored s c sc r b) k) ∧
    (undoTheory cfg (stored s c sc r b) k).tr = (stored s c sc r b).tr.undo k ∧
    FrameU (stored s c sc r b) (undoTheory cfg (stored s c sc r b) k) := by
  have hst := h.cnt.store
  have hold := fun {id : Nat} (hid : id < s.ncl) => stored_cl_old hst c sc r b hid
  have hnew := stored_cl_new s c sc r b
  have hadd := stored_addCl hst c sc r b
  have hncl : (stored s c sc r b).ncl = s.ncl + 1 := rfl
  have hasgAt : ∀ j, (stored s c sc r b).tr.asgAt j = s.tr.asgAt j := fun _ => rfl
  have hkL : k < s.tr.LEVEL := by have := hb.lt; omega
  obtain ⟨hl1, hl2⟩ := learned_levels h.base hl.confl hl.unique hb
  have hsplit : ∀ id, id < s.ncl + 1 → id < s.ncl ∨ id = s.ncl := fun id hid => by omega
  apply undo_gen cfg (K := s.LEVEL) (s := stored s c sc r b) h.base
  · exact stored_store hst c sc r b hr
  · exact stored_exact h hl sc r b
  · -- Rng
    intro id hid l hm
    rcases hsplit id hid with hi | rfl
    · rw [hold hi] at hm; exact h.rng id hi l hm
    · rw [hnew] at hm
      exact h.base.rng _ _ (LF_ne_un (hl.confl.fals l hm))
  · exact hk0
  · intro j hj0 hj
    rw [hasgAt]
    exact (h.stack j hj0 (by omega)).1
  · intro j hj0 hj c' hc'
    rw [hasgAt]
    rcases hadd.isClause.1 hc' with hc' | rfl
    · exact (h.stack j hj0 (by omega)).2 c' hc'
    · exact hl1 j hj0 (by omega)
  · intro id hid
    rw [hasgAt]
    rcases hsplit id hid with hi | rfl
    · left; rw [hold hi]; exact (h.stack k hk0 hkL).2 _ ⟨id, hi, rfl⟩
    · rw [hnew]
      by_cases hkb' : k = b
      · right; rw [if_pos hkb']; subst hkb'; exact ⟨hl2, by simp⟩
      · left; exact hl1 k hk0 (by omega)
  · intro id hid
    by_cases hkb' : k = b
    · rw [if_pos hkb'] at hid
      have : id = s.ncl := by simpa using hid
      subst this
      refine ⟨by rw [hncl]; omega, ?_⟩
      rw [hasgAt, hnew]; subst hkb'
      show openCount _ c.lits ≤ 1
      omega
    · rw [if_neg hkb'] at hid; simp at hid

theorem NInv.conf {cfg : Cfg S} (hw : cfg.watch = false) {P : Problem} {s : St S} {rc : Int}
    (h : NInv cfg P s rc) (hc : s.conflict = true) (hL : s.LEVEL ≠ 0) (f : Nat) :
    (conflictNC cfg f s rc).Sat fun p => NInv cfg P p.1 p.2 ∧ Backjump cfg s rc p.1 p.2 ∧ unused p.1 < unused s := by
  obtain ⟨id, hid, hcid, hlev, hnum⟩ := h.inv.cnt.conf hc
  obtain ⟨h1, h2⟩ := (h.inv.cnt.exact id hid).unsat hlev
  have hfals := allFalse_of h1 (by omega)
  have hL1 : 1 ≤ s.LEVEL := by have := h.inv.lev0; omega
  have hst := (h.inv.stack (s.LEVEL - 1) (by omega) (by show s.LEVEL - 1 < s.LEVEL; omega)).2
  obtain ⟨hcf, hnu⟩ := confl_of_two h.inv.base (h.linv.nodup id hid) hfals (hst _ ⟨id, hid, rfl⟩)
  have han := analyze_spec cfg s h.inv.base h.linv.reasons hL1 f (s.cl id) (some (s.ptr id)) hcf
    (fun hw' => by rw [hw] at hw'; simp at hw') (Or.inr hnu)
  unfold conflictNC
  rw [if_neg (by rw [hcid]; omega)]
  have htn : s.conflicting.toNat = id := by rw [hcid]; simp
  rw [htn]
  apply han.bind
  rintro ⟨s1, c⟩ ⟨he1, hl⟩
  dsimp only at he1 hl ⊢
  obtain ⟨sc, r, he2, hrec, hpos⟩ := learn_counter cfg hw s c
  rw [he2] at he1
  have hb := backtrackLevel_spec s hL1 (c := c.lits)
    (fun x hx => h.inv.base.lvl0 _ _ (LF_ne_un (hl.confl.fals x hx)))
  have hb1 : backtrackLevel s1 c.lits = backtrackLevel s c.lits := by rw [he1]; rfl
  rw [hb1]
  generalize hbe : backtrackLevel s c.lits = b at hb
  have hst2 : ({ s1 with LEVEL := b, nBacktracks := s1.nBacktracks + 1, conflict := false } : St S) = stored s c sc r b := by
    rw [he1]; rfl
  have hadd := stored_addCl h.inv.cnt.store c sc r b
  have hnb : s1.nBacktracks = s.nBacktracks := by rw [he1]
  -- everything about the final state, for either target level
  have main : ∀ (k : Int) (s' : St S) (nr : Nat), 0 ≤ k → k ≤ b →
      s' = { undoTheory cfg (stored s c sc r b) k with
              units := (if k = b then [s.ncl] else []), LEVEL := k, nRestarts := nr } →
      ∀ rc', (((s.nBacktracks : Int) + 1 = rc ∧ nr = s.nRestarts + 1 ∧
          rc' = ((s.nBacktracks : Int) + 1) + cfg.restarts ∧ k = 0) ∨
        ((s.nBacktracks : Int) + 1 ≠ rc ∧ nr = s.nRestarts ∧ rc' = rc ∧ k = b)) →
      NInv cfg P s' rc' ∧ Backjump cfg s rc s' rc' ∧ unused s' < unused s := by
    intro k s' nr hk0 hkb hs' rc' hres
    obtain ⟨m1, m2, m3, m4⟩ := h.inv.backjump cfg hl hb hk0 hkb (sc := sc) hrec
    have m5 : cfg.heur = .BK → OccOK (undoTheory cfg (stored s c sc r b) k) := fun hbk =>
      undoTheory_occ cfg hbk (K := s.LEVEL) (by omega) h.inv.base (stored_store h.inv.cnt.store c sc r b hrec)
        (stored_exact h.inv hl sc r b) (stored_occ h.inv hl sc r b (h.occ hbk))
    generalize undoTheory cfg (stored s c sc r b) k = s3 at *
    obtain ⟨hp, cn, g, lv, rs, vv, ds, e3⟩ := m4
    have hcf' : s'.conflict = false := by rw [hs', e3]; rfl
    have hadd' : AddCl s c.lits s' := by
      apply hadd.sameF
      rw [hs']; exact ⟨m2.nv, m2.dom, m2.ncl, m2.lits⟩
    have htr' : s'.tr = (s.tr.undo k).level k := by
      have : s'.tr = s3.tr.level k := by rw [hs']; rfl
      rw [this, m3]; rfl
    have hLk : s'.LEVEL = k := by rw [hs']
    have hbj : Backjump cfg s rc s' rc' := by
      refine ⟨⟨id, hid, hcid, c, hl, hadd'⟩, ?_, by rw [hLk]; exact htr', hcf', ?_, ?_, ?_, ?_, ?_, ?_, ?_, ?_, ?_⟩
      · rw [hLk]; have := hb.lt; exact ⟨hk0, by show k < s.tr.LEVEL; omega⟩
      · rw [hs', e3]; rfl
      · rw [hs', e3]; rfl
      · rw [hs', e3]; rfl
      · rw [hs', e3]; rfl
      · rw [hs', e3]; rfl
      · have : s'.nRestarts = nr := by rw [hs']
        rw [this, hLk]
        rcases hres with hres | ⟨h1, h2, h3, _⟩
        · exact Or.inl hres
        · exact Or.inr ⟨h1, h2, h3⟩
      · intro pos hg hp
        have : s'.score = sc := by rw [hs', e3]; rfl
        rw [this]; exact hpos pos hg hp
      · refine ⟨b, by rw [hadd'.new]; exact hb, by rw [hLk]; exact hkb, by rw [hs'], ?_⟩
        intro hne
        rcases hres with ⟨h1, _⟩ | ⟨_, _, _, h1⟩
        · exact absurd h1 hne
        · rw [hLk]; exact h1
      · intro j hj
        rw [hadd'.new]
        exact learned_fresh h.inv.base hl.confl hl.unique (h.linv.nodup j hj) (hst _ ⟨j, hj, rfl⟩)
    refine ⟨⟨?_, ?_, ?_, ?_, fun hbk => by rw [hs']; exact (m5 hbk).congr rfl rfl rfl rfl rfl⟩, hbj, ?_⟩
    · refine m1.congr ?_ ?_ ?_ ?_ ?_ ?_ ?_ hcf' ?_ <;> rw [hs'] <;> rfl
    · refine h.linv.learn hadd' hl.confl.nodup ?_ ?_ ?_ (hbj.ub.trans h.linv.ub)
      · intro a hm
        exact hl.entails a hm (hm.2 id hid)
      · rw [htr', Trail.asgAt_level, Trail.asgAt_undo hk0]
      · rw [htr']; exact h.linv.reasons.undo h.inv.base
    · intro pos hg; exact hbj.scores pos hg (h.scores pos hg)
    · refine h.rinv.conf hbj.back hbj.flow ?_
      rcases hbj.restart with ⟨r1, r2, r3, _⟩ | hr
      · exact Or.inl ⟨r1, r2, r3⟩
      · exact Or.inr hr
    · apply unused_learn hadd'
      · intro l hm
        exact h.inv.base.rng _ _ (LF_ne_un (hl.confl.fals l hm))
      · rintro c' ⟨j, hj, rfl⟩
        exact learned_fresh h.inv.base hl.confl hl.unique (h.linv.nodup j hj) (hst _ ⟨j, hj, rfl⟩)
  have hU : ∀ k, 0 ≤ k → k ≤ b → FrameU (stored s c sc r b) (undoTheory cfg (stored s c sc r b) k) := 
    fun k hk0 hkb => (h.inv.backjump cfg hl hb hk0 hkb (sc := sc) hrec).2.2.2
  have hcast : ((s1.nBacktracks + 1 : Nat) : Int) = (s.nBacktracks : Int) + 1 := by rw [hnb]; rfl
  have hcast' : (((stored s c sc r b).nBacktracks : Nat) : Int) = (s.nBacktracks : Int) + 1 := rfl
  have hnn := hb.nonneg
  by_cases hrc : (s.nBacktracks : Int) + 1 = rc
  · rw [if_pos (by rw [← hrc]; exact hcast), hst2]
    obtain ⟨hp, cn, g, lv, rs, vv, ds, e3⟩ := hU 0 (Int.le_refl _) hnn
    refine main 0 _ (s.nRestarts + 1) (Int.le_refl _) hnn ?_ _ (Or.inl ⟨hrc, rfl, ?_, rfl⟩)
    · rw [e3]
      show ({ stored s c sc r b with heap := hp, cnt := cn, asg := g, lvl := lv, rsn := rs, vval := vv, decs := ds, nRestarts := s.nRestarts + 1, units := (if b = 0 then [s.ncl] else []), LEVEL := 0 } : St S) = _
      by_cases hb0 : b = 0
      · rw [if_pos hb0, if_pos hb0.symm]
      · rw [if_neg hb0, if_neg (Ne.symm hb0)]
    · rw [e3]; show (((stored s c sc r b).nBacktracks : Nat) : Int) + _ = _; rw [hcast']
  · rw [if_neg (by rw [hcast]; exact hrc), hst2]
    obtain ⟨hp, cn, g, lv, rs, vv, ds, e3⟩ := hU b hnn (Int.le_refl _)
    refine main b _ s.nRestarts hnn (Int.le_refl _) ?_ _ (Or.inr ⟨hrc, rfl, rfl, rfl⟩)
    show ({ undoTheory cfg (stored s c sc r b) b with units := [(undoTheory cfg (stored s c sc r b) b).ncl - 1] } : St S) = _
    rw [e3, if_pos rfl]; rfl

end Mvl
