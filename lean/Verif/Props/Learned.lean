import Verif.Props.NC
import Verif.Props.WL

/-!
# The learned clause: new and asserting

C62: no clause is ever learned twice.  C63: the clause learned from a conflict has, at the level the solver returns to,
every literal false but one, and that one is free; it is the only clause waiting in the queue.

`NonChronoBacktrack` (Formula.cc 1034-1110), `analyzeConflict` (1115-1196), `backtrackLevel` (1198-1232),
`WatchedLiterals` (763-905), as modelled in `Verif/Model/Learn.lean`.
-/

namespace Mvl

variable {S : Type}

/-- What a conflict leaves behind: clause number `n` waits alone in the queue, exactly one of its literals is free, the
others are false, and it is the lowest level for which this holds of the clause's literals in `s`. -/
structure Asserting (s : St S) (n : Nat) (s' : St S) : Prop where
  queue : s'.units = [n]
  one : ∃ x ∈ (s'.cl n).lits, IsOpen s' x ∧ ∀ y ∈ (s'.cl n).lits, y ≠ x → IsFalse s' y
  lowest : ∀ k, 0 ≤ k → k < s'.LEVEL → ∃ x ∈ (s'.cl n).lits, ∃ y ∈ (s'.cl n).lits, x ≠ y ∧
    k < s.lvl x.var x.val ∧ k < s.lvl y.var y.val

theorem asserting_of {cfg : Cfg S} {s s' : St S} {rc rc' : Int} (hb : Backjump cfg s rc s' rc')
    (hbase : s.tr.Base) (hr : Restored s s'.LEVEL s') (hne : s'.nRestarts = s.nRestarts) : Asserting s s.ncl s' := by
  obtain ⟨b, hbl, _, hq, hlev⟩ := hb.target
  have hnr : (s.nBacktracks : Int) + 1 ≠ rc := by
    rcases hb.restart with ⟨_, h2, _⟩ | ⟨h1, _⟩
    · omega
    · exact h1
  have hL := hlev hnr
  obtain ⟨id, hid, _, c, hl, hadd⟩ := hb.confl
  obtain ⟨x, hx, hxl, hu⟩ := hl.unique
  have hlt := hbl.lt
  have hlvl : ∀ y ∈ c.lits, y ≠ x → s.lvl y.var y.val ≤ b := by
    intro y hy hyx
    refine hbl.le y (by rw [hadd.new]; exact hy) ?_
    have h1 : s.lvl y.var y.val ≤ s.LEVEL := hbase.lvlL _ _ (LF_ne_un (hl.confl.fals y hy))
    have h2 : s.lvl y.var y.val ≠ s.LEVEL := hu y hy hyx
    show s.lvl y.var y.val < s.LEVEL
    omega
  refine ⟨by rw [hq, if_pos hL], ⟨x, by rw [hadd.new]; exact hx, ?_, ?_⟩, ?_⟩
  · refine hr.above _ _ ?_
    have h1 : s.lvl x.var x.val = s.LEVEL := hxl
    have := hb.level.2
    omega
  · intro y hy hyx
    rw [hadd.new] at hy
    unfold IsFalse
    rw [(hr.below y.var y.val (by rw [hL]; exact hlvl y hy hyx)).1]
    exact isFalse_iff.2 (hl.confl.fals y hy)
  · intro k hk0 hk
    obtain ⟨y, hy, hyl⟩ := hbl.hit (by omega)
    refine ⟨x, by rw [hadd.new]; exact hx, y, hy, ?_, ?_, ?_⟩
    · rintro rfl
      have h1 : s.lvl x.var x.val = s.LEVEL := hxl
      have h2 : s.lvl x.var x.val = b := hyl
      have h3 : b < s.LEVEL := hlt
      omega
    · have h1 : s.lvl x.var x.val = s.LEVEL := hxl
      have := hb.level.2
      omega
    · have h2 : s.lvl y.var y.val = b := hyl
      omega

/-- No two clauses have the same literals, clauses of the file compared with each other excepted. -/
def DistinctLearned (P : Problem) (s : St S) : Prop :=
  ∀ i j, i < j → j < s.ncl → P.clauses.length ≤ j → ¬ ∀ x, x ∈ (s.cl i).lits ↔ x ∈ (s.cl j).lits

theorem subs_length {α : Type} : ∀ l : List α, (subs l).length = 2 ^ l.length
  | [] => rfl
  | x :: xs => by
    unfold subs
    rw [List.length_append, List.length_map, subs_length xs, List.length_cons, Nat.pow_succ]
    omega

theorem range'_sum (doms : List Nat) (cs : List (List Lit)) : ∀ (n k : Nat), n + k = doms.length →
    ((List.range' (k + 1) n).map (Problem.dom ⟨doms, cs⟩)).sum = (doms.drop k).sum
  | 0, k, h => by
    rw [List.drop_eq_nil_of_le (by omega)]; rfl
  | n + 1, k, h => by
    rw [List.range'_succ, List.map_cons, List.sum_cons, range'_sum doms cs n (k + 1) (by omega),
      List.drop_eq_getElem_cons (show k < doms.length by omega), List.sum_cons]
    have : Problem.dom ⟨doms, cs⟩ (k + 1) = doms[k] := by
      show doms.getD k 0 = _
      rw [List.getD_eq_getElem?_getD, List.getElem?_eq_getElem (by omega), Option.getD_some]
    rw [this]

theorem univ_length {P : Problem} {s : St S} (h : LInv P s) : s.univ.length = 2 * P.doms.sum := by
  have h1 : ∀ l : List (Nat × Nat), (l.flatMap fun a => [(⟨a.1, a.2, true⟩ : Lit), ⟨a.1, a.2, false⟩]).length =
      2 * l.length := by
    intro l
    induction l with
    | nil => rfl
    | cons a l ih => rw [List.flatMap_cons, List.length_append, ih, List.length_cons, List.length_cons]; simp; omega
  unfold St.univ
  rw [h1]
  congr 1
  unfold St.atoms
  rw [List.length_flatMap]
  simp only [List.length_map, List.length_range]
  rw [h.nv, h.dom]
  exact range'_sum P.doms P.clauses P.doms.length 0 rfl

structure NewInv (P : Problem) (s : St S) : Prop where
  count : s.ncl = P.clauses.length + s.nBacktracks
  bound : s.nBacktracks + unused s ≤ 2 ^ (2 * P.doms.sum)
  distinct : DistinctLearned P s

theorem NewInv.start {cfg : Cfg S} {P : Problem} {s : St S} (h : Read cfg P.doms P.clauses s) (hl : LInv P s) :
    NewInv P s where
  count := by
    have e2 : s.nBacktracks = 0 := by obtain ⟨_, _, _, _, _, _, _, e⟩ := h.frame; rw [e]; rfl
    rw [e2, h.ncl]; rfl
  bound := by
    have e2 : s.nBacktracks = 0 := by obtain ⟨_, _, _, _, _, _, _, e⟩ := h.frame; rw [e]; rfl
    rw [e2, ← univ_length hl, ← subs_length, Nat.zero_add]
    exact List.countP_le_length
  distinct := by
    intro i j _ hj hp
    rw [h.ncl] at hj
    omega

theorem NewInv.same {P : Problem} {s s' : St S} (h : NewInv P s) (hs : SameF s s') (hb : s'.nBacktracks = s.nBacktracks) :
    NewInv P s' where
  count := by rw [hs.ncl, hb]; exact h.count
  bound := by rw [unused_same hs, hb]; exact h.bound
  distinct := by
    intro i j hij hj hp
    rw [hs.ncl] at hj
    rw [hs.lits i (by omega), hs.lits j hj]
    exact h.distinct i j hij hj hp

theorem NewInv.conf {cfg : Cfg S} {P : Problem} {s s' : St S} {rc rc' : Int} (h : NewInv P s)
    (hb : Backjump cfg s rc s' rc') (hu : unused s' < unused s) : NewInv P s' where
  count := by
    obtain ⟨_, _, _, c, _, hadd⟩ := hb.confl
    rw [hadd.ncl, hb.back, h.count]; omega
  bound := by
    have := h.bound
    rw [hb.back]; omega
  distinct := by
    obtain ⟨_, _, _, c, _, hadd⟩ := hb.confl
    intro i j hij hj hp
    rw [hadd.ncl] at hj
    by_cases hjs : j < s.ncl
    · rw [hadd.old i (by omega), hadd.old j hjs]
      exact h.distinct i j hij hjs hp
    · have : j = s.ncl := by omega
      subst this
      rw [hadd.old i hij]
      exact hb.fresh i hij

theorem NReach.newInv {cfg : Cfg S} {P : Problem} (hw : cfg.watch = false) (hs : cfg.ScoreOK)
    (hwf : P.Proper) (hnd : P.NoDupLits) {s : St S} {rc : Int} (h : NReach cfg P s rc) : NewInv P s := by
  induction h with
  | start hb =>
    obtain ⟨s0, h1, h2⟩ := build_read cfg hwf.lits_ok (fun h => by rw [hw] at h; simp at h)
    rw [h1] at hb; cases hb
    exact NewInv.start h2 (h2.ninv hw hwf hnd).linv
  | tick _ ih => exact ih.same ⟨rfl, rfl, rfl, fun _ _ => rfl⟩ rfl
  | prop hr hc hu ih =>
    have hst := unitStep_spec cfg (hr.ninv hw hs hwf hnd).inv hc hu
    exact ih.same hst.grown.sameF hst.nBacktracks
  | @conf _ _ f _ _ hr hc hL he ih =>
    have := (hr.ninv hw hs hwf hnd).conf hw hc hL f
    rw [he] at this
    exact ih.conf this.2.1 this.2.2
  | @dec s rc s' hr hc hu hd ih =>
    have hn := hr.ninv hw hs hwf hnd
    refine ih.same (hn.dec hw hs hc hu hd).2.1 ?_
    obtain ⟨l, hl, rfl⟩ := decideNC_counter hw hd
    obtain ⟨hr, hlu⟩ := hn.inv.choose_some (chooseNC_some hw hs hn.scores hl)
    have h1 := hn.inv.open_level hc hu (-1) (s.nDecisions + 1)
    exact (h1.reduce cfg hc (l := l) hr hlu).2.same.nBacktracks

theorem WReach.newInv {cfg : Cfg S} {P : Problem} (hw : cfg.watch = true) (hs : cfg.ScoreOK)
    (hwf : P.Proper) (hnd : P.NoDupLits) {s : St S} {rc : Int} (h : WReach cfg P s rc) : NewInv P s := by
  induction h with
  | start hb =>
    obtain ⟨s0, h1, h2⟩ := build_read cfg hwf.lits_ok (fun _ c hc => hwf.nonempty c hc)
    rw [h1] at hb; cases hb
    exact NewInv.start h2 (h2.linv hnd)
  | tick _ ih => exact ih.same ⟨rfl, rfl, rfl, fun _ _ => rfl⟩ rfl
  | prop hr hc hu ih =>
    have hst := wunitStep_spec (hr.vinv hw hs hwf hnd).inv hc hu
    exact ih.same hst.grown.sameF hst.nBacktracks
  | @conf _ _ f _ _ hr hc hL he ih =>
    have := (hr.vinv hw hs hwf hnd).conf hw hc hL f
    rw [he] at this
    exact ih.conf this.2.1 this.2.2
  | @dec s rc s' hr hc hu hd ih =>
    have hn := hr.vinv hw hs hwf hnd
    refine ih.same (hn.dec hw hs hc hu hd).2.1 ?_
    obtain ⟨l, hl, rfl⟩ := decideNC_watch hw hd
    obtain ⟨hr, hlu⟩ := hn.inv.choose_some (chooseWL_some hw hs hn.scores hl)
    have h1 := hn.inv.open_level hc hu (-1) (s.nDecisions + 1)
    exact (h1.reduce hc (l := l) hr hlu).2.1.same.nBacktracks

/-! ## Counters -/

/-- **C62**, `-solvenc`: the clause a conflict adds differs, as a set of literals, from every clause already stored. -/
theorem C62_learn_new {cfg : Cfg S} (hw : cfg.watch = false) (hs : cfg.ScoreOK)
    {P : Problem} (hwf : P.Proper) (hnd : P.NoDupLits) {s s' : St S} {rc rc' : Int} {f : Nat} (h : NReach cfg P s rc)
    (hc : s.conflict = true) (hL : s.LEVEL ≠ 0) (hrun : conflictNC cfg f s rc = .ok (s', rc')) :
    s'.ncl = s.ncl + 1 ∧ ∀ id, id < s.ncl → ¬ ∀ x, x ∈ (s'.cl id).lits ↔ x ∈ (s'.cl s.ncl).lits := by
  have := (h.ninv hw hs hwf hnd).conf hw hc hL f
  rw [hrun] at this
  obtain ⟨_, hb, _⟩ := this
  obtain ⟨_, _, _, c, _, hadd⟩ := hb.confl
  refine ⟨hadd.ncl, fun id hid he => hb.fresh id hid ?_⟩
  rw [← hadd.old id hid]
  exact he

example : ∃ (s s' : St (Option (Nat × Nat))) (rc rc' : Int), NReach (exCfg .BK false) exSat3 s rc ∧ s.conflict = true ∧
    s.LEVEL ≠ 0 ∧ conflictNC (exCfg .BK false) 50 s rc = .ok (s', rc') := by
  obtain ⟨s, rc, q, h⟩ := exConflict
  exact ⟨s, q.1, rc, q.2, h⟩

/-- **C62**, `-solvenc`: in every reachable state no learned clause has the literals of another clause, learned or of
the file. -/
theorem C62_learn_distinct {cfg : Cfg S} (hw : cfg.watch = false) (hs : cfg.ScoreOK) {P : Problem} (hwf : P.Proper)
    (hnd : P.NoDupLits) {s : St S} {rc : Int} (h : NReach cfg P s rc) : DistinctLearned P s :=
  (h.newInv hw hs hwf hnd).distinct

/-- **C62**, `-solvenc`, what it means for the output: the number of backtracks printed is bounded by the number of sets
of literals, and the clauses printed are those of the file and one for each backtrack. -/
theorem C62_learn_bound {cfg : Cfg S} (hw : cfg.watch = false) (hs : cfg.ScoreOK) {P : Problem} (hwf : P.Proper)
    (hnd : P.NoDupLits) {fuel : Nat} {r : Report} (h : solve cfg .learn fuel P = .ok r) :
    r.clauses = P.clauses.length + r.backtracks ∧ r.backtracks ≤ 2 ^ (2 * P.doms.sum) := by
  unfold solve at h
  cases hr : run cfg .learn fuel P with
  | ub => rw [hr] at h; cases h
  | fuel => rw [hr] at h; cases h
  | ok p =>
    rw [hr] at h
    cases h
    obtain ⟨s1, rc, h1, u, n, e⟩ := run_learn_reach hw hs hwf (r := p.1) (s := p.2) hr
    have hi := h1.newInv hw hs hwf hnd
    have hb := hi.bound
    show p.2.ncl = _ + p.2.nBacktracks ∧ p.2.nBacktracks ≤ _
    rw [e]
    exact ⟨hi.count, Nat.le_trans (Nat.le_add_right _ _) hb⟩

example : exPigeon.WellFormed ∧ exPigeon.NoDupLits ∧ (solve (exCfg .BK false) .learn 100 exPigeon).passes
    (fun r => decide (1 < r.backtracks)) = true := ⟨by decide, by decide, by decide +kernel⟩

/-- **C63**, `-solvenc`: unless the conflict triggers a restart, the clause learned is asserting. -/
theorem C63_learn_asserting {cfg : Cfg S} (hw : cfg.watch = false) (hs : cfg.ScoreOK)
    {P : Problem} (hwf : P.Proper) (hnd : P.NoDupLits) {s s' : St S} {rc rc' : Int} {f : Nat} (h : NReach cfg P s rc)
    (hc : s.conflict = true) (hL : s.LEVEL ≠ 0) (hrun : conflictNC cfg f s rc = .ok (s', rc'))
    (hre : s'.nRestarts = s.nRestarts) : Asserting s s.ncl s' := by
  have hn := h.ninv hw hs hwf hnd
  have := hn.conf hw hc hL f
  rw [hrun] at this
  obtain ⟨hn', hb, _⟩ := this
  have ht := hb.tr
  refine asserting_of hb hn.inv.base ?_ hre
  exact restored_of hn.inv.base hn.inv.stack (Int.le_trans (by omega) hb.level.1) (congrArg Trail.asg ht)
    (congrArg Trail.lvl ht) (congrArg Trail.rsn ht) (congrArg Trail.idx ht) (congrArg Trail.vval ht)
    (congrArg Trail.decs ht)

/-- A reachable conflict above level 1, no restart: the solver returns to a level above 0. -/
theorem exAsserting : ∃ (s s' : St (Option (Nat × Nat))) (rc rc' : Int), NReach (exCfg .BK false) exPigeon s rc ∧
    s.conflict = true ∧ s.LEVEL ≠ 0 ∧ conflictNC (exCfg .BK false) 50 s rc = .ok (s', rc') ∧
    s'.nRestarts = s.nRestarts ∧ 0 < s'.LEVEL ∧ 2 ≤ (s'.cl s.ncl).lits.length := by
  have : (List.range 30).any (fun n => (ncState (exCfg .BK false) exPigeon n).passes (fun p => p.1.conflict &&
    decide (p.1.LEVEL ≠ 0) && (conflictNC (exCfg .BK false) 50 p.1 p.2).passes fun q =>
      decide (q.1.nRestarts = p.1.nRestarts) && decide (0 < q.1.LEVEL) &&
      decide (2 ≤ (q.1.cl p.1.ncl).lits.length))) = true := by decide +kernel
  obtain ⟨n, _, hn⟩ := List.any_eq_true.1 this
  obtain ⟨p, h1, h2⟩ := Res.of_passes hn
  simp only [Bool.and_eq_true, decide_eq_true_eq] at h2
  obtain ⟨q, h3, h4⟩ := Res.of_passes h2.2
  simp only [Bool.and_eq_true, decide_eq_true_eq] at h4
  exact ⟨p.1, q.1, p.2, q.2, ncState_reach h1, h2.1.1, h2.1.2, h3, h4.1.1, h4.1.2, h4.2⟩

/-! ## Watched literals -/

/-- **C62**, `-solvenc -wl`. -/
theorem C62_watch_new {cfg : Cfg S} (hw : cfg.watch = true) (hs : cfg.ScoreOK)
    {P : Problem} (hwf : P.Proper) (hnd : P.NoDupLits) {s s' : St S} {rc rc' : Int} {f : Nat} (h : WReach cfg P s rc)
    (hc : s.conflict = true) (hL : s.LEVEL ≠ 0) (hrun : conflictWL cfg f s rc = .ok (s', rc')) :
    s'.ncl = s.ncl + 1 ∧ ∀ id, id < s.ncl → ¬ ∀ x, x ∈ (s'.cl id).lits ↔ x ∈ (s'.cl s.ncl).lits := by
  have := (h.vinv hw hs hwf hnd).conf hw hc hL f
  rw [hrun] at this
  obtain ⟨_, hb, _⟩ := this
  obtain ⟨_, _, _, c, _, hadd⟩ := hb.confl
  refine ⟨hadd.ncl, fun id hid he => hb.fresh id hid ?_⟩
  rw [← hadd.old id hid]
  exact he

example : ∃ (s s' : St (Option (Nat × Nat))) (rc rc' : Int), WReach (exCfg .lazy true) exPigeon s rc ∧ s.conflict = true ∧
    s.LEVEL ≠ 0 ∧ conflictWL (exCfg .lazy true) 50 s rc = .ok (s', rc') := by
  obtain ⟨s, rc, q, h⟩ := exConflictW
  exact ⟨s, q.1, rc, q.2, h⟩

/-- **C62**, `-solvenc -wl`: in every reachable state no learned clause has the literals of another clause. -/
theorem C62_watch_distinct {cfg : Cfg S} (hw : cfg.watch = true) (hs : cfg.ScoreOK) {P : Problem} (hwf : P.Proper)
    (hnd : P.NoDupLits) {s : St S} {rc : Int} (h : WReach cfg P s rc) : DistinctLearned P s :=
  (h.newInv hw hs hwf hnd).distinct

/-- **C62**, `-solvenc -wl`, the printed numbers. -/
theorem C62_watch_bound {cfg : Cfg S} (hw : cfg.watch = true) (hs : cfg.ScoreOK) {P : Problem} (hwf : P.Proper)
    (hnd : P.NoDupLits) {fuel : Nat} {r : Report} (h : solve cfg .learn fuel P = .ok r) :
    r.clauses = P.clauses.length + r.backtracks ∧ r.backtracks ≤ 2 ^ (2 * P.doms.sum) := by
  unfold solve at h
  cases hr : run cfg .learn fuel P with
  | ub => rw [hr] at h; cases h
  | fuel => rw [hr] at h; cases h
  | ok p =>
    rw [hr] at h
    cases h
    obtain ⟨s1, rc, h1, u, n, e⟩ := run_watch_reach_nodup hw hs hwf hnd (r := p.1) (s := p.2) hr
    have hi := h1.newInv hw hs hwf hnd
    have hb := hi.bound
    show p.2.ncl = _ + p.2.nBacktracks ∧ p.2.nBacktracks ≤ _
    rw [e]
    exact ⟨hi.count, Nat.le_trans (Nat.le_add_right _ _) hb⟩

example : exPigeon.WellFormed ∧ exPigeon.NoDupLits ∧ (solve (exCfg .VSIDS true) .learn 100 exPigeon).passes
    (fun r => decide (1 < r.backtracks)) = true := ⟨by decide, by decide, by decide +kernel⟩

/-- **C63**, `-solvenc -wl`. -/
theorem C63_watch_asserting {cfg : Cfg S} (hw : cfg.watch = true) (hs : cfg.ScoreOK)
    {P : Problem} (hwf : P.Proper) (hnd : P.NoDupLits) {s s' : St S} {rc rc' : Int} {f : Nat} (h : WReach cfg P s rc)
    (hc : s.conflict = true) (hL : s.LEVEL ≠ 0) (hrun : conflictWL cfg f s rc = .ok (s', rc'))
    (hre : s'.nRestarts = s.nRestarts) : Asserting s s.ncl s' := by
  have hn := h.vinv hw hs hwf hnd
  have := hn.conf hw hc hL f
  rw [hrun] at this
  obtain ⟨hn', hb, _⟩ := this
  have ht := hb.tr
  refine asserting_of hb hn.inv.base ?_ hre
  exact restored_of hn.inv.base hn.inv.stack (Int.le_trans (by omega) hb.level.1) (congrArg Trail.asg ht)
    (congrArg Trail.lvl ht) (congrArg Trail.rsn ht) (congrArg Trail.idx ht) (congrArg Trail.vval ht)
    (congrArg Trail.decs ht)

theorem exAssertingW : ∃ (s s' : St (Option (Nat × Nat))) (rc rc' : Int), WReach (exCfg .lazy true) exPigeon s rc ∧
    s.conflict = true ∧ s.LEVEL ≠ 0 ∧ conflictWL (exCfg .lazy true) 50 s rc = .ok (s', rc') ∧
    s'.nRestarts = s.nRestarts ∧ 0 < s'.LEVEL ∧ 2 ≤ (s'.cl s.ncl).lits.length := by
  have : (List.range 30).any (fun n => (wlState (exCfg .lazy true) exPigeon n).passes (fun p => p.1.conflict &&
    decide (p.1.LEVEL ≠ 0) && (conflictWL (exCfg .lazy true) 50 p.1 p.2).passes fun q =>
      decide (q.1.nRestarts = p.1.nRestarts) && decide (0 < q.1.LEVEL) &&
      decide (2 ≤ (q.1.cl p.1.ncl).lits.length))) = true := by decide +kernel
  obtain ⟨n, _, hn⟩ := List.any_eq_true.1 this
  obtain ⟨p, h1, h2⟩ := Res.of_passes hn
  simp only [Bool.and_eq_true, decide_eq_true_eq] at h2
  obtain ⟨q, h3, h4⟩ := Res.of_passes h2.2
  simp only [Bool.and_eq_true, decide_eq_true_eq] at h4
  exact ⟨p.1, q.1, p.2, q.2, wlState_reach h1, h2.1.1, h2.1.2, h3, h4.1.1, h4.1.2, h4.2⟩

end Mvl
