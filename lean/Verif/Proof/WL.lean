import Verif.Proof.WLEngine
import Verif.Proof.NCRun

/-!
# Watched literals: every part of the search keeps the invariant
-/

namespace Mvl

variable {S : Type}

/-! ### Decisions -/

theorem lazyWatchedChoose_none {s : St S} (h : lazyWatchedChoose s = none) {id : Nat} (hid : id < s.ncl) {w : Lit}
    (hw : (s.cl id).w0 = some w) : ¬ LU s.asg w := by
  intro hu
  unfold lazyWatchedChoose at h
  have := List.findSome?_eq_none_iff.1 h id (List.mem_range.2 hid)
  rw [hw] at this
  simp [sat_eq_two.2 hu] at this

theorem lazyWatchedChoose_some {s : St S} {l : Lit} (h : lazyWatchedChoose s = some l) :
    ∃ id, id < s.ncl ∧ (s.cl id).w0 = some l ∧ LU s.asg l := by
  unfold lazyWatchedChoose at h
  obtain ⟨id, hid, he⟩ := List.exists_of_findSome?_eq_some h
  refine ⟨id, List.mem_range.1 hid, ?_⟩
  split at he
  · rename_i w hw
    split at he
    · rename_i h2; cases he; exact ⟨hw, sat_eq_two.1 h2⟩
    · simp at he
  · simp at he

theorem WInv.w0_mem {ex : Nat → Prop} {s : St S} (h : WInv ex s) {id : Nat} (hid : id < s.ncl) {w : Lit}
    (hw : (s.cl id).w0 = some w) : w ∈ (s.cl id).lits := by
  rcases h.core.shape id hid with ⟨a, h1⟩ | ⟨a, b, h1⟩
  · have := hw.symm.trans h1.1; cases this; exact h1.2.1
  · have := hw.symm.trans h1.1; cases this; exact h1.2.2.1

/-- When no decision is found every clause is satisfied. -/
theorem WInv.choose_none {s : St S} (h : WInv (fun _ => False) s) (hc : s.conflict = false) (hu : s.units = [])
    (hn : (∀ v d, ¬ OpenAtom s v d) ∨ lazyWatchedChoose s = none) :
    ∀ id, id < s.ncl → CSat s.asg (s.cl id).lits := by
  intro id hid
  have hok := (h.core.cur hc id hid).congr (q := False) (by rw [hu]; simp)
  rcases hn with hn | hn
  · apply csat_of_twoOrSat hok.twoOrSat
    intro l hl
    exact no_open h.base (h.vars hc) hn l (h.rng id hid l hl)
  · rcases hok with ⟨a, h1, h2⟩ | ⟨a, b, h1, h2⟩
    · rcases h2 with h2 | h2
      · exact ⟨a, h1.2.1, h2⟩
      · exact absurd h2.2 (by simp)
    · rcases lit_cases s.asg a with h3 | h3 | h3
      · exact ⟨a, h1.2.2.1, h3⟩
      · rcases h2.fst h3 with h4 | h4
        · exact ⟨b, h1.2.2.2.1, h4⟩
        · exact absurd h4.2 (by simp)
      · exact absurd h3 (lazyWatchedChoose_none hn hid h1.1)

theorem WInv.choose_some {ex : Nat → Prop} {s : St S} (h : WInv ex s) {l : Lit}
    (hl : OpenAtom s l.var l.val ∨ lazyWatchedChoose s = some l) : s.tr.Rng l.var l.val ∧ LU s.asg l := by
  rcases hl with hl | hl
  · exact ⟨hl.1, hl.2.2⟩
  · obtain ⟨id, hid, hw, hu⟩ := lazyWatchedChoose_some hl
    exact ⟨h.rng id hid l (h.w0_mem hid hw), hu⟩

/-- Opening a new decision level. -/
theorem WInv.open_level {s : St S} (h : WInv (fun _ => False) s) (hc : s.conflict = false) (hu : s.units = [])
    (u : Int) (n : Nat) :
    WInv (fun _ => False) ({ s with LEVEL := s.LEVEL + 1, unitClause := u, nDecisions := n } : St S) := by
  have hat : ({ s with LEVEL := s.LEVEL + 1, unitClause := u, nDecisions := n } : St S).tr.asgAt s.LEVEL = s.asg :=
    Trail.asgAt_of_le (t := s.tr) h.base (Int.le_refl _)
  refine ⟨?_, ?_, ⟨h.core.inj, h.core.alloc, h.core.shape, h.core.lists, ?_, h.core.cur, h.core.units, h.core.conf, h.core.ix⟩,
    ?_, h.vars, h.rng⟩
  · have hb := h.base
    exact ⟨hb.rng, hb.un, hb.lvl0, fun v d hn => by
      have : s.lvl v d ≤ s.LEVEL := hb.lvlL v d hn
      show s.lvl v d ≤ s.LEVEL + 1
      omega, hb.vv, hb.d1, hb.d2, hb.d3⟩
  · have := h.lev0
    show 0 ≤ s.LEVEL + 1
    omega
  · intro k hk0 hk id hid
    have hk : k < s.LEVEL + 1 := hk
    by_cases hkL : k < s.LEVEL
    · exact h.core.hist k hk0 hkL id hid
    · have hkE : k = s.LEVEL := by omega
      subst hkE
      rw [hat]
      exact (h.core.cur hc id hid).congr (by rw [hu]; simp)
  · intro k hk0 hk
    have hk : k < s.LEVEL + 1 := hk
    by_cases hkL : k < s.LEVEL
    · exact h.histV k hk0 hkL
    · have hkE : k = s.LEVEL := by omega
      subst hkE
      rw [hat]; exact h.vars hc

theorem WInv.conflict_noModel {ex : Nat → Prop} {s : St S} (h : WInv ex s) (hc : s.conflict = true)
    {a : Assignment} (hm : s.Model a) : ¬ Agrees a s.asg := by
  intro hag
  obtain ⟨id, hid, _, hf, _⟩ := h.core.conf hc
  obtain ⟨x, hx, hxh⟩ := hm.2 id hid
  exact hag.of_LF (hf x hx) hxh

/-- The clause at the front of the queue explains the literal it forces. -/
theorem cause_of_stack {s : St S} (hb : s.tr.Base) (h0 : 0 ≤ s.LEVEL) (hst : s.tr.Stack s.IsClause)
    {id : Nat} (hn : (s.cl id).lits.Nodup)
    (hid : id < s.ncl) {l : Lit} (hm : l ∈ (s.cl id).lits) (hu : LU s.asg l)
    (hoth : ∀ l' ∈ (s.cl id).lits, l' ≠ l → LF s.asg l') : Cause s.tr s.lits? l id := by
  by_cases hL : s.tr.LEVEL = 0
  · exact Or.inl hL
  · right; right
    refine ⟨id, (s.cl id).lits, rfl, by unfold St.lits?; rw [if_pos hid], hm, hoth, ?_⟩
    have h0 : 0 ≤ s.tr.LEVEL := h0
    rcases (hst (s.tr.LEVEL - 1) (by omega) (by omega)).2 _ ⟨id, hid, rfl⟩ with ⟨x, hx, ht⟩ | h2
    · have ht' := LT_of_asgAt ht
      by_cases hxl : x = l
      · subst hxl; exact absurd ht' hu.not_LT
      · exact absurd ht' (hoth x hx hxl).not_LT
    · obtain ⟨x, hx, y, hy, hne, h3, h4⟩ := countP_two hn h2
      by_cases hxl : x = l
      · have hyl : y ≠ l := fun h => hne (hxl.trans h.symm)
        exact ⟨y, hy, hyl, lvl_of_LU_asgAt hb rfl (hoth y hy hyl) (by simpa using h4)⟩
      · exact ⟨x, hx, hxl, lvl_of_LU_asgAt hb rfl (hoth x hx hxl) (by simpa using h3)⟩

/-- One propagation step keeps the reasons. -/
theorem wunitStep_reasons {s : St S} (h : WInv (fun _ => False) s) (hc : s.conflict = false)
    (hn : ∀ id, id < s.ncl → (s.cl id).lits.Nodup) (hrs : Reasons s.tr s.lits?) :
    Reasons (wunitStep s).tr s.lits? := by
  unfold wunitStep
  cases hun : s.units with
  | nil => exact hrs
  | cons id rest =>
    dsimp only
    have hid := h.core.units id (by rw [hun]; simp)
    have hpop := h.pop hun (id : Int)
    have hok := h.core.cur hc id hid
    have hp : id ∈ s.units ∨ False := Or.inl (by rw [hun]; simp)
    cases ho : openWatch ({ s with unitClause := (id : Int), units := rest } : St S)
        (({ s with unitClause := (id : Int), units := rest } : St S).cl id) with
    | some w =>
      dsimp only
      obtain ⟨hw, hlu⟩ := openWatch_some ho
      obtain ⟨hm, hoth⟩ := hok.unit hp hw hlu
      have hr := h.rng id hid w hm
      obtain ⟨hi, ha, hub⟩ := hpop.reduce hc hr hlu
      exact ha.ext.reasons h.base hr hlu hrs (cause_of_stack h.base h.lev0 h.stack (hn id hid) hid hm hlu hoth)
    | none => exact hrs

/-! ### The invariant -/

/-- Invariant of `WatchedLiterals`. -/
structure VInv (cfg : Cfg S) (P : Problem) (s : St S) (rc : Int) : Prop where
  inv : WInv (fun _ => False) s
  linv : LInv P s
  scores : ∀ pos, cfg.arith.Good pos → ∀ l, pos (s.score l)
  rinv : RInv cfg s rc

theorem VInv.tick {cfg : Cfg S} {P : Problem} {s : St S} {rc : Int} (h : VInv cfg P s rc) :
    VInv cfg P (tick s) rc :=
  ⟨h.inv.congr rfl rfl rfl rfl rfl rfl rfl rfl rfl,
    ⟨h.linv.nv, h.linv.dom, h.linv.nodup, h.linv.keep, h.linv.sound, h.linv.lev0, h.linv.reasons, h.linv.ub⟩,
    h.scores, h.rinv.congr rfl rfl rfl⟩

theorem VInv.prop {cfg : Cfg S} {P : Problem} {s : St S} {rc : Int} (h : VInv cfg P s rc) (hc : s.conflict = false)
    (hu : s.units ≠ []) : VInv cfg P (wunitStep s) rc := by
  have hst := wunitStep_spec h.inv hc hu
  have e1 := wunitStep_reasons h.inv hc h.linv.nodup h.linv.reasons
  refine ⟨hst.inv, h.linv.grow hst.grown.sameF ?_ e1 (hst.ub.trans h.linv.ub), ?_, ?_⟩
  · intro a ha
    by_cases hL : s.LEVEL = 0
    · have e : (wunitStep s).tr.asgAt 0 = (wunitStep s).asg :=
        Trail.asgAt_of_le hst.inv.base (by show (wunitStep s).LEVEL ≤ 0; rw [hst.grown.LEVEL]; omega)
      have e0 : s.tr.asgAt 0 = s.asg := Trail.asgAt_of_le h.inv.base (by show s.LEVEL ≤ 0; omega)
      rw [e]
      apply hst.agrees a (h.linv.sound a ha)
      rw [← e0]; exact h.linv.lev0 a ha
    · rw [hst.grown.asgAt 0 (by have := h.inv.lev0; omega)]
      exact h.linv.lev0 a ha
  · intro pos hg; rw [hst.score]; exact h.scores pos hg
  · exact h.rinv.congr hst.nRestarts hst.nBacktracks hst.flowOff

theorem decideNC_watch {cfg : Cfg S} (hw : cfg.watch = true) {s s' : St S} (h : decideNC cfg s = some s') :
    ∃ l, chooseNC cfg s = some l ∧ s' = wreduceTheory
      { s with nDecisions := s.nDecisions + 1, LEVEL := s.LEVEL + 1, unitClause := -1 } l := by
  unfold decideNC at h
  cases hc : chooseNC cfg s with
  | none => rw [hc] at h; simp at h
  | some l =>
    rw [hc] at h
    simp only [hw] at h
    refine ⟨l, rfl, ?_⟩
    obtain ⟨u, he⟩ := chooseEffect_eq cfg s
    rw [he] at h
    simp only [if_true, Option.some.injEq] at h
    exact h.symm

theorem chooseWL_some {cfg : Cfg S} (hw : cfg.watch = true) (hs : cfg.ScoreOK) {s : St S}
    (hp : ∀ pos, cfg.arith.Good pos → ∀ l, pos (s.score l)) {l : Lit} (h : chooseNC cfg s = some l) :
    OpenAtom s l.var l.val ∨ lazyWatchedChoose s = some l := by
  obtain ⟨pos, hg⟩ := hs
  have hok := scoresOK hg (hp pos hg)
  unfold chooseNC at h
  split at h
  · exact Or.inl ((chooseVSIDS_spec cfg.arith s hok).2 l h)
  · exact Or.inl ((chooseVSIDSPos_spec cfg.arith s hok).2 l h).2
  · rw [if_pos hw] at h; simp at h
  · rw [if_pos hw] at h
    exact Or.inr h

theorem chooseWL_none {cfg : Cfg S} (hw : cfg.watch = true) (hbk : cfg.heur ≠ .BK) (hs : cfg.ScoreOK) {s : St S}
    (hp : ∀ pos, cfg.arith.Good pos → ∀ l, pos (s.score l)) (h : chooseNC cfg s = none) :
    (∀ v d, ¬ OpenAtom s v d) ∨ lazyWatchedChoose s = none := by
  obtain ⟨pos, hg⟩ := hs
  have hok := scoresOK hg (hp pos hg)
  unfold chooseNC at h
  split at h
  · exact Or.inl ((chooseVSIDS_spec cfg.arith s hok).1 h)
  · exact Or.inl ((chooseVSIDSPos_spec cfg.arith s hok).1 h)
  · rename_i hb; exact absurd hb hbk
  · rw [if_pos hw] at h
    exact Or.inr h

theorem VInv.dec {cfg : Cfg S} (hw : cfg.watch = true) (hs : cfg.ScoreOK) {P : Problem} {s s' : St S} {rc : Int}
    (h : VInv cfg P s rc) (hc : s.conflict = false)
    (hu : s.units = []) (hd : decideNC cfg s = some s') :
    VInv cfg P s' rc ∧ SameF s s' ∧ unCount s' < unCount s := by
  obtain ⟨l, hl, rfl⟩ := decideNC_watch hw hd
  obtain ⟨hr, hlu⟩ := h.inv.choose_some (chooseWL_some hw hs h.scores hl)
  have h1 := h.inv.open_level hc hu (-1) (s.nDecisions + 1)
  obtain ⟨h2, h3, e1⟩ := h1.reduce hc (l := l) hr hlu
  have hcause : Cause ({ s with nDecisions := s.nDecisions + 1, LEVEL := s.LEVEL + 1, unitClause := -1 } : St S).tr
      s.lits? l (-1) := by
    right; left
    refine ⟨rfl, ?_⟩
    intro v d hn
    have : s.lvl v d ≤ s.LEVEL := h.inv.base.lvlL v d hn
    show s.lvl v d < s.LEVEL + 1
    omega
  have hrs := h3.ext.reasons h1.base hr hlu (cls := s.lits?) h.linv.reasons hcause
  have hlt := h3.unCount_lt hr hlu
  have hat := fun k (hk : k < s.LEVEL + 1) => h3.ext.asgAt (k := k) hk
  generalize wreduceTheory
    ({ s with nDecisions := s.nDecisions + 1, LEVEL := s.LEVEL + 1, unitClause := -1 } : St S) l = s2 at *
  have hsf : SameF s s2 := ⟨h3.sameF.nv, h3.sameF.dom, h3.sameF.ncl, h3.sameF.lits⟩
  refine ⟨⟨h2, h.linv.grow hsf ?_ hrs (e1.trans h.linv.ub), ?_, ?_⟩, hsf, hlt⟩
  · intro a ha
    rw [hat 0 (by have := h.inv.lev0; omega)]
    exact h.linv.lev0 a ha
  · intro pos hg; rw [h3.same.score]; exact h.scores pos hg
  · exact h.rinv.congr h3.same.nRestarts h3.same.nBacktracks h3.same.flowOff

/-! ### Conflicts -/

/-- Above level 0 both watched literals of the conflicting clause were assigned at the current level. -/
theorem WInv.conf_watch {ex : Nat → Prop} {s : St S} (h : WInv ex s) (hc : s.conflict = true) (hL : 1 ≤ s.LEVEL) :
    ∃ id, id < s.ncl ∧ s.conflicting = (id : Nat) ∧ (∀ x ∈ (s.cl id).lits, LF s.asg x) ∧ WatchOK s.tr (s.cl id) := by
  obtain ⟨id, hid, he, hf, a, ham, ha0, hmax⟩ := h.core.conf hc
  refine ⟨id, hid, he, hf, ⟨a, ham, ha0, hmax⟩, ?_⟩
  intro hlen
  have hok := h.core.hist (s.LEVEL - 1) (by omega) (by omega) id hid
  rcases hok with ⟨a', h1, _⟩ | ⟨a', b, h1, h2⟩
  · have := h1.2.2; omega
  · have haa : a' = a := by have := h1.1.symm.trans ha0; cases this; rfl
    subst haa
    refine ⟨a', b, ha0, h1.2.1, h1.2.2.2.1, Ne.symm h1.2.2.2.2.1, ?_⟩
    have hbL : s.tr.lvl b.var b.val = s.tr.LEVEL := by
      have hbf := hf b h1.2.2.2.1
      apply lvl_of_LU_asgAt h.base rfl hbf
      rcases lit_cases (s.tr.asgAt (s.tr.LEVEL - 1)) b with h3 | h3 | h3
      · exact absurd (LT_of_asgAt h3) hbf.not_LT
      · rcases h2.snd h3 with h4 | h4
        · exact absurd (LT_of_asgAt h4) (hf a' ham).not_LT
        · exact h4.2.elim
      · exact h3
    intro x hx _
    rw [hbL]
    exact h.base.lvlL _ _ (LF_ne_un (hf x hx))

/-- The watched literals of a learned clause and the level to go back to. -/
structure LearnedWatch (t : Trail) (c : Cls) (b : Int) : Prop where
  back : BackLevel t c.lits b
  watch : (∃ w, Watch1 c w ∧ b = 0 ∧ t.lvl w.var w.val = t.LEVEL) ∨
    ∃ w w', Watch2 c w w' ∧ t.lvl w.var w.val = t.LEVEL ∧ t.lvl w'.var w'.val = b ∧
      ∀ x ∈ c.lits, x ≠ w → t.lvl x.var x.val ≤ b

theorem learned_watch {cfg : Cfg S} {s s1 : St S} {c0 : List Lit} {c : Cls} (hb : s.tr.Base) (hL : 1 ≤ s.LEVEL)
    (hl : Learned cfg s c0 c) (hw : cfg.watch = true) (h1 : s1.lvl = s.lvl) :
    ∃ b, wlLevel s1 c = .ok b ∧ LearnedWatch s.tr c b := by
  obtain ⟨⟨w, hwm, hw0, hmax⟩, hw1⟩ := hl.watch hw
  obtain ⟨x, hx, hxl, hxu⟩ := hl.unique
  have hwL : s.tr.lvl w.var w.val = s.tr.LEVEL := by
    have h2 := Trail.lvl_le_of_idx hb (LF_ne_un (hl.confl.fals x hx)) (LF_ne_un (hl.confl.fals w hwm)) (hmax x hx)
    have h3 := hb.lvlL _ _ (LF_ne_un (hl.confl.fals w hwm))
    omega
  have hwx : w = x := by
    apply Classical.byContradiction
    intro hne
    exact hxu w hwm hne hwL
  subst hwx
  have hL' : s.tr.LEVEL = s.LEVEL := rfl
  unfold wlLevel
  by_cases hlen : 1 < c.lits.length
  · obtain ⟨w0, w1, e0, e1, hm1, hne, hmx⟩ := hw1 hlen
    have : w0 = w := by have := e0.symm.trans hw0; cases this; rfl
    subst this
    rw [if_pos hlen, e1]
    dsimp only
    rw [h1]
    have hle : ∀ y ∈ c.lits, y ≠ w0 → s.tr.lvl y.var y.val ≤ s.lvl w1.var w1.val := hmx
    have h0 : 0 ≤ s.lvl w1.var w1.val := hb.lvl0 _ _ (LF_ne_un (hl.confl.fals w1 hm1))
    have h2 : s.lvl w1.var w1.val ≤ s.LEVEL := hb.lvlL _ _ (LF_ne_un (hl.confl.fals w1 hm1))
    have h3 : s.lvl w1.var w1.val ≠ s.LEVEL := hxu w1 hm1 hne
    refine ⟨_, rfl, ⟨h0, by omega, ?_, fun _ => ⟨w1, hm1, rfl⟩⟩, Or.inr ⟨w0, w1, ⟨hw0, e1, hwm, hm1, Ne.symm hne, hlen⟩, hwL,
      rfl, hle⟩⟩
    intro y hy hlt
    apply hle y hy
    rintro rfl
    omega
  · rw [if_neg hlen]
    have hone : c.lits.length = 1 := by
      have := List.length_pos_of_mem hwm
      omega
    refine ⟨0, rfl, ⟨Int.le_refl _, by omega, ?_, by omega⟩, Or.inl ⟨w, ⟨hw0, hwm, hone⟩, rfl, hwL⟩⟩
    intro y hy hlt
    have : y = w := by
      match hm : c.lits, hone with
      | [z], _ =>
        rw [hm] at hy hwm
        simp at hy hwm
        rw [hy, hwm]
    subst this; omega

theorem LF_asgAt {t : Trail} {k : Int} {x : Lit} (hf : LF t.asg x) (h : t.lvl x.var x.val ≤ k) : LF (t.asgAt k) x := by
  unfold LF; rw [Trail.asgAt_eq_of_le h]; exact hf

/-- The learned clause is in order at the levels up to the one gone back to. -/
theorem LearnedWatch.wok {t : Trail} {c : Cls} {b : Int} (h : LearnedWatch t c b)
    (hf : ∀ x ∈ c.lits, LF t.asg x) :
    (∀ j, 0 ≤ j → j < b → WOK c (t.asgAt j) False) ∧ WOK c (t.asgAt b) True := by
  have hlt := h.back.lt
  rcases h.watch with ⟨w, h1, h2, h3⟩ | ⟨w, w', h1, h2, h3, h4⟩
  · refine ⟨fun j hj0 hj => by omega, Or.inl ⟨w, h1, Or.inr ⟨LU_asgAt (by omega), trivial⟩⟩⟩
  · constructor
    · intro j hj0 hj
      have u1 : LU (t.asgAt j) w := LU_asgAt (by omega)
      have u2 : LU (t.asgAt j) w' := LU_asgAt (by omega)
      exact Or.inr ⟨w, w', h1, ⟨fun hx => absurd u1 hx.not_LU, fun hx => absurd u2 hx.not_LU, fun hp => hp.elim⟩⟩
    · have u1 : LU (t.asgAt b) w := LU_asgAt (by omega)
      have f2 : LF (t.asgAt b) w' := LF_asgAt (hf _ h1.2.2.2.1) (by omega)
      refine Or.inr ⟨w, w', h1, ⟨fun hx => absurd u1 hx.not_LU, fun _ => Or.inr ⟨u1, trivial⟩, fun _ => ⟨fun _ x hx hne => ?_,
        fun hx => absurd hx f2.not_LU⟩⟩⟩
      exact LF_asgAt (hf x hx) (h4 x hx hne)

/-- The state after storing the clause, before undoing. -/
def storedW (s : St S) (c : Cls) (sc : Lit → S) (r w : Lit → List Nat) (b : Int) : St S :=
  { s with
      heap := upd s.heap s.nheap { c with numUn := 0 }, nheap := s.nheap + 1, ptr := upd s.ptr s.ncl s.nheap,
      ncl := s.ncl + 1, score := sc, recs := r, flowOff := s.flowOff + 1, wlist := w, LEVEL := b,
      nBacktracks := s.nBacktracks + 1, conflict := false }

theorem storedW_cl_old {s : St S} (ha : ∀ i, i < s.ncl → s.ptr i < s.nheap) (c : Cls) (sc : Lit → S) (r w : Lit → List Nat)
    (b : Int) {id : Nat} (hid : id < s.ncl) : (storedW s c sc r w b).cl id = s.cl id := by
  have h1 : upd s.ptr s.ncl s.nheap id = s.ptr id := upd_of_ne _ _ (by omega)
  show upd s.heap s.nheap _ (upd s.ptr s.ncl s.nheap id) = s.heap (s.ptr id)
  rw [h1, upd_of_ne _ _ (by have := ha id hid; omega)]

theorem storedW_cl_new (s : St S) (c : Cls) (sc : Lit → S) (r w : Lit → List Nat) (b : Int) :
    (storedW s c sc r w b).cl s.ncl = { c with numUn := 0 } := by
  unfold St.cl storedW
  dsimp only
  rw [upd_same, upd_same]

theorem Watch1.numUn {c : Cls} {a : Lit} {n : Int} : Watch1 { c with numUn := n } a ↔ Watch1 c a := Iff.rfl

/-- Going back with the learned clause stored. -/
theorem WInv.backjump {s : St S} (h : WInv (fun _ => False) s) {c : Cls} {b : Int} (hlw : LearnedWatch s.tr c b)
    (hf : ∀ x ∈ c.lits, LF s.asg x) {k : Int} (hk0 : 0 ≤ k) (hkb : k ≤ b)
    {sc : Lit → S} {r w : Lit → List Nat}
    (hw : ∀ l id, (w l).count id = (s.wlist l).count id + if id = s.ncl ∧ Watches c l then 1 else 0) :
    WInv (fun _ => False) ({ wundoTheory (storedW s c sc r w b) k with
      units := (if k = b then [s.ncl] else []), LEVEL := k } : St S) ∧
    SameF (storedW s c sc r w b) (wundoTheory (storedW s c sc r w b) k) ∧
    (wundoTheory (storedW s c sc r w b) k).tr = (storedW s c sc r w b).tr.undo k ∧
    FrameT (storedW s c sc r w b) (wundoTheory (storedW s c sc r w b) k) := by
  obtain ⟨u1, u2⟩ := wundoTheory_spec (s := storedW s c sc r w b) (K := s.LEVEL) (k := k) h.base (by omega)
  have hold := fun {id : Nat} (hid : id < s.ncl) => storedW_cl_old h.core.alloc c sc r w b hid
  have hnew := storedW_cl_new s c sc r w b
  have hlt := hlw.back.lt
  have hL : s.tr.LEVEL = s.LEVEL := rfl
  have hsplit : ∀ id, id < s.ncl + 1 → id < s.ncl ∨ id = s.ncl := fun id hid => by omega
  obtain ⟨k1, k2⟩ := hlw.wok hf
  have hpo : ∀ i, i < s.ncl → (storedW s c sc r w b).ptr i = s.ptr i := by
    intro i hi; unfold storedW; dsimp only; rw [upd_of_ne _ _ (by omega)]
  have hpn : (storedW s c sc r w b).ptr s.ncl = s.nheap := by unfold storedW; dsimp only; rw [upd_same]
  generalize wundoTheory (storedW s c sc r w b) k = s2 at *
  obtain ⟨g, lv, rs, vv, ds, e⟩ := u2
  have hcl : ∀ id, ({ s2 with units := (if k = b then [s.ncl] else []), LEVEL := k } : St S).cl id =
      (storedW s c sc r w b).cl id := by intro id; rw [e]; rfl
  have hat : ∀ j, j ≤ k → ({ s2 with units := (if k = b then [s.ncl] else []), LEVEL := k } : St S).tr.asgAt j = s.tr.asgAt j := by
    intro j hj
    have : ({ s2 with units := (if k = b then [s.ncl] else []), LEVEL := k } : St S).tr.asgAt j = s2.tr.asgAt j := rfl
    rw [this, u1, Trail.asgAt_undo hj]; rfl
  have hasg : ({ s2 with units := (if k = b then [s.ncl] else []), LEVEL := k } : St S).asg = s.tr.asgAt k := by
    have : s2.tr.asg = s.tr.asgAt k := by rw [u1]; rfl
    exact this
  have htr : ({ s2 with units := (if k = b then [s.ncl] else []), LEVEL := k } : St S).tr = (s.tr.undo k).level k := by
    have : ({ s2 with units := (if k = b then [s.ncl] else []), LEVEL := k } : St S).tr = s2.tr.level k := rfl
    rw [this, u1]; rfl
  have hbase : ((s.tr.undo k).level k).Base := h.base.undo hk0 (h.histV k hk0 (by omega))
  have hncl : ({ s2 with units := (if k = b then [s.ncl] else []), LEVEL := k } : St S).ncl = s.ncl + 1 := by rw [e]; rfl
  have hnv : ({ s2 with units := (if k = b then [s.ncl] else []), LEVEL := k } : St S).nv = s.nv := by rw [e]; rfl
  have hdom : ({ s2 with units := (if k = b then [s.ncl] else []), LEVEL := k } : St S).dom = s.dom := by rw [e]; rfl
  have hptr : ({ s2 with units := (if k = b then [s.ncl] else []), LEVEL := k } : St S).ptr = (storedW s c sc r w b).ptr := by rw [e]
  have hnh : ({ s2 with units := (if k = b then [s.ncl] else []), LEVEL := k } : St S).nheap = s.nheap + 1 := by rw [e]; rfl
  have hwl : ({ s2 with units := (if k = b then [s.ncl] else []), LEVEL := k } : St S).wlist = w := by rw [e]; rfl
  have hcf : ({ s2 with units := (if k = b then [s.ncl] else []), LEVEL := k } : St S).conflict = false := by rw [e]; rfl
  have hnok : ∀ {g : PA} {p : Prop}, WOK c g p → WOK { c with numUn := 0 } g p := fun hh => hh.of_eq rfl rfl rfl
  refine ⟨⟨?_, hk0, ⟨?_, ?_, ?_, ?_, ?_, ?_, ?_, ?_, ?_⟩, ?_, ?_, ?_⟩, ?_, u1, ⟨g, lv, rs, vv, ds, e⟩⟩
  · rw [htr]; exact hbase
  · intro i j hi hj
    rw [hncl] at hi hj
    rw [hptr]
    rcases hsplit i hi with hi' | rfl <;> rcases hsplit j hj with hj' | rfl
    · rw [hpo i hi', hpo j hj']; exact h.core.inj i j hi' hj'
    · rw [hpo i hi', hpn]; have := h.core.alloc i hi'; omega
    · rw [hpn, hpo j hj']; have := h.core.alloc j hj'; omega
    · simp
  · intro i hi
    rw [hncl] at hi
    rw [hptr, hnh]
    rcases hsplit i hi with hi' | rfl
    · rw [hpo i hi']; have := h.core.alloc i hi'; omega
    · rw [hpn]; omega
  · intro id hid
    rw [hncl] at hid
    rw [hcl]
    rcases hsplit id hid with hi | rfl
    · rw [hold hi]; exact h.core.shape id hi
    · rw [hnew]; exact (hnok k2).shape
  · intro l id
    rw [hwl, hw, h.core.lists l id, hncl, hcl]
    by_cases hi : id < s.ncl
    · have : id ≠ s.ncl := by omega
      rw [hold hi]
      simp [this, hi, show id < s.ncl + 1 by omega]
    · by_cases hi2 : id = s.ncl
      · subst hi2
        rw [hnew]
        have : Watches { c with numUn := 0 } l ↔ Watches c l := Iff.rfl
        simp [this]
      · simp [hi, hi2, show ¬ id < s.ncl + 1 by omega]
  · intro j hj0 hj id hid
    have hj : j < k := hj
    rw [hncl] at hid
    rw [hcl, hat j (by omega)]
    rcases hsplit id hid with hi | rfl
    · rw [hold hi]; exact h.core.hist j hj0 (by omega) id hi
    · rw [hnew]; exact hnok (k1 j hj0 (by omega))
  · intro _ id hid
    rw [hncl] at hid
    rw [hcl, hasg]
    rcases hsplit id hid with hi | rfl
    · rw [hold hi]
      refine (h.core.hist k hk0 (by omega) id hi).congr ?_
      show False ↔ id ∈ (if k = b then [s.ncl] else []) ∨ False
      split
      · simp; omega
      · simp
    · rw [hnew]
      by_cases hkb' : k = b
      · subst hkb'
        refine (hnok k2).congr ?_
        show True ↔ s.ncl ∈ (if k = k then [s.ncl] else []) ∨ False
        simp
      · refine (hnok (k1 k hk0 (by omega))).congr ?_
        show False ↔ s.ncl ∈ (if k = b then [s.ncl] else []) ∨ False
        simp [hkb']
  · intro id hid
    have hid : id ∈ (if k = b then [s.ncl] else []) := hid
    rw [hncl]
    split at hid
    · have : id = s.ncl := by simpa using hid
      omega
    · simp at hid
  · intro hc; rw [hcf] at hc; simp at hc
  · intro v d hn
    have := hbase.ix v d
    rw [← htr] at this
    exact this hn
  · intro j hj0 hj
    have hj : j < k := hj
    rw [hnv, hdom, hat j (by omega)]
    exact h.histV j hj0 (by omega)
  · intro _
    rw [hnv, hdom, hasg]
    exact h.histV k hk0 (by omega)
  · intro id hid l hl
    rw [hncl] at hid
    rw [hcl] at hl
    have : s.tr.Rng l.var l.val := by
      rcases hsplit id hid with hi | rfl
      · rw [hold hi] at hl; exact h.rng id hi l hl
      · rw [hnew] at hl
        exact h.base.rng _ _ (LF_ne_un (hf l hl))
    rw [htr]; exact this
  · exact ⟨hnv, hdom, hncl, fun id _ => by rw [e]; rfl⟩

/-- The clause with which the analysis starts. -/
theorem VInv.confl {cfg : Cfg S} {P : Problem} {s : St S} {rc : Int} (h : VInv cfg P s rc) (hc : s.conflict = true)
    (hL : s.LEVEL ≠ 0) : ∃ id, id < s.ncl ∧ s.conflicting = (id : Nat) ∧ Confl s.tr (s.cl id).lits ∧
      ¬ UniqueAt s.tr (s.cl id).lits ∧ WatchOK s.tr (s.cl id) := by
  have hL1 : 1 ≤ s.LEVEL := by have := h.inv.lev0; omega
  obtain ⟨id, hid, hcid, hfals, hwk⟩ := h.inv.conf_watch hc hL1
  have hst := (h.inv.stack (s.LEVEL - 1) (by omega) (by show s.LEVEL - 1 < s.LEVEL; omega)).2
  obtain ⟨hcf, hnu⟩ := confl_of_two h.inv.base (h.linv.nodup id hid) hfals (hst _ ⟨id, hid, rfl⟩)
  exact ⟨id, hid, hcid, hcf, hnu, hwk⟩

/-- Handling a conflict. -/
theorem VInv.conf {cfg : Cfg S} (hw : cfg.watch = true) {P : Problem} {s : St S} {rc : Int}
    (h : VInv cfg P s rc) (hc : s.conflict = true) (hL : s.LEVEL ≠ 0) (f : Nat) :
    (conflictWL cfg f s rc).Sat fun p => VInv cfg P p.1 p.2 ∧ Backjump cfg s rc p.1 p.2 ∧ unused p.1 < unused s := by
  have hL1 : 1 ≤ s.LEVEL := by have := h.inv.lev0; omega
  obtain ⟨id, hid, hcid, hcf, hnu, hwk⟩ := h.confl hc hL
  have hst := (h.inv.stack (s.LEVEL - 1) (by omega) (by show s.LEVEL - 1 < s.LEVEL; omega)).2
  have han := analyze_spec cfg s h.inv.base h.linv.reasons hL1 f (s.cl id) (some (s.ptr id)) hcf
    (fun _ => hwk) (Or.inr hnu)
  unfold conflictWL
  rw [if_neg (by rw [hcid]; omega)]
  have htn : s.conflicting.toNat = id := by rw [hcid]; simp
  rw [htn]
  apply han.bind
  rintro ⟨s1, c⟩ ⟨he1, hl⟩
  dsimp only at he1 hl ⊢
  obtain ⟨⟨w0, hw0m, hw0, _⟩, hw1⟩ := hl.watch hw
  obtain ⟨sc, r, w, he2, hcnt, hpos⟩ := learn_watch cfg hw s c hw0
    (fun hlen => by obtain ⟨_, w1, _, e, _⟩ := hw1 hlen; exact ⟨w1, e⟩)
  rw [he2] at he1
  have hl1 : s1.lvl = s.lvl := by rw [he1]
  obtain ⟨b, hbe, hlw⟩ := learned_watch h.inv.base hL1 hl hw hl1
  have hb := hlw.back
  have hwc : ∀ l id, (w l).count id = (s.wlist l).count id + if id = s.ncl ∧ Watches c l then 1 else 0 := by
    intro l id
    rw [hcnt l id, Nat.add_assoc]
    congr 1
    by_cases hi : id = s.ncl
    · simp only [hi, true_and]
      rcases hlw.watch with ⟨x, h1, _⟩ | ⟨x, y, h1, _⟩
      · have hx : x = w0 := by have := h1.1.symm.trans hw0; cases this; rfl
        subst hx
        have : ¬ 1 < c.lits.length := by have := h1.2.2; omega
        by_cases hlx : l = x <;> simp [this, h1.watches, hlx]
      · have hx : x = w0 := by have := h1.1.symm.trans hw0; cases this; rfl
        subst hx
        have hlen := h1.2.2.2.2.2
        have hxy := h1.2.2.2.2.1
        rw [h1.2.1]
        by_cases hlx : l = x
        · subst hlx
          have : ¬ y = l := fun e => hxy e.symm
          simp [h1.watches, this]
        · by_cases hly : l = y
          · subst hly; simp [h1.watches, hlx, hlen]
          · simp [h1.watches, hlx, hly, Ne.symm hly]
    · simp [hi]
  rw [hbe]
  simp only [Res.ok_bind]
  have hst2 : ({ s1 with LEVEL := b, nBacktracks := s1.nBacktracks + 1, conflict := false } : St S) = storedW s c sc r w b := by
    rw [he1]; rfl
  have hadd : AddCl s c.lits (storedW s c sc r w b) :=
    ⟨rfl, rfl, rfl, fun id hid => by rw [storedW_cl_old h.inv.core.alloc c sc r w b hid], by rw [storedW_cl_new]⟩
  have hnb : s1.nBacktracks = s.nBacktracks := by rw [he1]
  have main : ∀ (k : Int) (s' : St S) (nr : Nat), 0 ≤ k → k ≤ b →
      s' = { wundoTheory (storedW s c sc r w b) k with
              units := (if k = b then [s.ncl] else []), LEVEL := k, nRestarts := nr } →
      ∀ rc', (((s.nBacktracks : Int) + 1 = rc ∧ nr = s.nRestarts + 1 ∧
          rc' = ((s.nBacktracks : Int) + 1) + cfg.restarts ∧ k = 0) ∨
        ((s.nBacktracks : Int) + 1 ≠ rc ∧ nr = s.nRestarts ∧ rc' = rc ∧ k = b)) →
      VInv cfg P s' rc' ∧ Backjump cfg s rc s' rc' ∧ unused s' < unused s := by
    intro k s' nr hk0 hkb hs' rc' hres
    obtain ⟨m1, m2, m3, m4⟩ := h.inv.backjump hlw hl.confl.fals hk0 hkb (sc := sc) (r := r) hwc
    generalize wundoTheory (storedW s c sc r w b) k = s3 at *
    obtain ⟨g, lv, rs, vv, ds, e3⟩ := m4
    have hcf' : s'.conflict = false := by rw [hs', e3]; rfl
    have hadd' : AddCl s c.lits s' := by
      apply hadd.sameF
      rw [hs']; exact ⟨m2.nv, m2.dom, m2.ncl, m2.lits⟩
    have htr' : s'.tr = (s.tr.undo k).level k := by
      have : s'.tr = s3.tr.level k := by rw [hs']; rfl
      rw [this, m3]; rfl
    have hLk : s'.LEVEL = k := by rw [hs']
    have hbj : Backjump cfg s rc s' rc' := by
      refine ⟨⟨id, hid, hcid, c, hl, hadd'⟩, ?_, by rw [hLk]; exact htr', hcf', ?_, ?_, ?_, ?_, ?_, ?_, ?_, ?_, ?_⟩
      · rw [hLk]; have := hb.lt; exact ⟨hk0, by show k < s.tr.LEVEL; omega⟩
      · rw [hs', e3]; rfl
      · rw [hs', e3]; rfl
      · rw [hs', e3]; rfl
      · rw [hs', e3]; rfl
      · rw [hs', e3]; rfl
      · have : s'.nRestarts = nr := by rw [hs']
        rw [this, hLk]
        rcases hres with hres | ⟨h1, h2, h3, _⟩
        · exact Or.inl hres
        · exact Or.inr ⟨h1, h2, h3⟩
      · intro pos hg hp
        have : s'.score = sc := by rw [hs', e3]; rfl
        rw [this]; exact hpos pos hg hp
      · refine ⟨b, by rw [hadd'.new]; exact hb, by rw [hLk]; exact hkb, by rw [hs'], ?_⟩
        intro hne
        rcases hres with ⟨h1, _⟩ | ⟨_, _, _, h1⟩
        · exact absurd h1 hne
        · rw [hLk]; exact h1
      · intro j hj
        rw [hadd'.new]
        exact learned_fresh h.inv.base hl.confl hl.unique (h.linv.nodup j hj) (hst _ ⟨j, hj, rfl⟩)
    refine ⟨⟨?_, ?_, ?_, ?_⟩, hbj, ?_⟩
    · rw [hs']; exact m1.congr rfl rfl rfl rfl rfl rfl rfl rfl rfl
    · refine h.linv.learn hadd' hl.confl.nodup ?_ ?_ ?_ (hbj.ub.trans h.linv.ub)
      · intro a hm
        exact hl.entails a hm (hm.2 id hid)
      · rw [htr', Trail.asgAt_level, Trail.asgAt_undo hk0]
      · rw [htr']; exact h.linv.reasons.undo h.inv.base
    · intro pos hg; exact hbj.scores pos hg (h.scores pos hg)
    · refine h.rinv.conf hbj.back hbj.flow ?_
      rcases hbj.restart with ⟨r1, r2, r3, _⟩ | hr
      · exact Or.inl ⟨r1, r2, r3⟩
      · exact Or.inr hr
    · apply unused_learn hadd'
      · intro l hm
        exact h.inv.base.rng _ _ (LF_ne_un (hl.confl.fals l hm))
      · rintro c' ⟨j, hj, rfl⟩
        exact learned_fresh h.inv.base hl.confl hl.unique (h.linv.nodup j hj) (hst _ ⟨j, hj, rfl⟩)
  have hU : ∀ k, 0 ≤ k → k ≤ b → FrameT (storedW s c sc r w b) (wundoTheory (storedW s c sc r w b) k) :=
    fun k hk0 hkb => (h.inv.backjump hlw hl.confl.fals hk0 hkb (sc := sc) (r := r) hwc).2.2.2
  have hcast : ((s1.nBacktracks + 1 : Nat) : Int) = (s.nBacktracks : Int) + 1 := by rw [hnb]; rfl
  have hcast' : (((storedW s c sc r w b).nBacktracks : Nat) : Int) = (s.nBacktracks : Int) + 1 := rfl
  have hnn := hb.nonneg
  by_cases hrc : (s.nBacktracks : Int) + 1 = rc
  · rw [if_pos (by rw [← hrc]; exact hcast), hst2]
    obtain ⟨g, lv, rs, vv, ds, e3⟩ := hU 0 (Int.le_refl _) hnn
    refine main 0 _ (s.nRestarts + 1) (Int.le_refl _) hnn ?_ _ (Or.inl ⟨hrc, rfl, ?_, rfl⟩)
    · rw [e3]
      show ({ storedW s c sc r w b with asg := g, lvl := lv, rsn := rs, vval := vv, decs := ds, nRestarts := s.nRestarts + 1, units := (if b = 0 then [s.ncl] else []), LEVEL := 0 } : St S) = _
      by_cases hb0 : b = 0
      · rw [if_pos hb0, if_pos hb0.symm]
      · rw [if_neg hb0, if_neg (Ne.symm hb0)]
    · rw [e3]; show (((storedW s c sc r w b).nBacktracks : Nat) : Int) + _ = _; rw [hcast']
  · rw [if_neg (by rw [hcast]; exact hrc), hst2]
    obtain ⟨g, lv, rs, vv, ds, e3⟩ := hU b hnn (Int.le_refl _)
    refine main b _ s.nRestarts hnn (Int.le_refl _) ?_ _ (Or.inr ⟨hrc, rfl, rfl, rfl⟩)
    show ({ wundoTheory (storedW s c sc r w b) b with units := [(wundoTheory (storedW s c sc r w b) b).ncl - 1] } : St S) = _
    rw [e3, if_pos rfl]; rfl

end Mvl
