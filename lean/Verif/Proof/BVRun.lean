import Verif.Proof.BVChoose
import Verif.Proof.LInv

/-!
# Bit-vector variant: the search loop
-/

namespace Mvl.BV

variable {S : Type}

/-! ## Scores stay good -/

theorem bump_pos {A : ScoreArith S} {pos : S → Prop} (hg : A.Good pos) : ∀ (ls : List BLit) {s : BSt S},
    (∀ v j, pos (s.score v j)) → ∀ v j, pos ((ls.foldl (bbump A) s).score v j)
  | [], _, h => h
  | l :: ls, s, h => by
    rw [List.foldl_cons]
    refine bump_pos hg ls ?_
    intro v j
    show pos (if _ then A.inc (s.score v j) else s.score v j)
    split
    · exact hg.2.1 _ (h v j)
    · exact h v j

theorem halve_pos {A : ScoreArith S} {pos : S → Prop} (hg : A.Good pos) {s : BSt S} (h : ∀ v j, pos (s.score v j)) :
    ∀ v j, pos ((bhalve A s).score v j) := by
  intro v j
  show pos (if _ then A.half (s.score v j) else s.score v j)
  split
  · exact hg.2.2.1 _ (h v j)
  · exact h v j

theorem learn_pos {A : ScoreArith S} {pos : S → Prop} (hg : A.Good pos) {s s1 : BSt S} (h : ∀ v j, pos (s.score v j)) {c : BCls}
    (hl : blearn A s c none = .ok s1) : ∀ v j, pos (s1.score v j) := by
  unfold blearn at hl
  dsimp only at hl
  cases h0 : c.w0 with
  | none => rw [h0] at hl; cases hl
  | some w =>
    rw [h0] at hl
    dsimp only at hl
    split at hl
    · cases h1 : c.w1 with
      | none => rw [h1] at hl; cases hl
      | some w' =>
        rw [h1] at hl
        cases hl
        exact halve_pos hg (bump_pos hg _ h)
    · cases hl
      exact halve_pos hg (bump_pos hg _ h)

/-! ## What the stored clauses mean -/

structure SemInv (P : Problem) (s : BSt S) : Prop where
  nv : s.nv = P.numVars
  size : ∀ v, s.IsVar v → s.size v = P.dom v
  ent : ∀ x, P.Solves x → ∀ id, id < s.ncl → CHolds x (s.cl id).lits
  keep : ∀ c ∈ P.clauses, ∃ id, id < s.ncl ∧ ∀ x, P.InDom x → CHolds x (s.cl id).lits → clauseHolds x c
  count : s.ncl = P.clauses.length + s.nBacktracks
  norestart : s.nRestarts = 0

theorem SemInv.ext {P : Problem} {s s' : BSt S} (h : SemInv P s) (he : Ext s s') : SemInv P s' where
  nv := he.nv.trans h.nv
  size v hv := by
    rw [he.size]
    unfold BSt.IsVar at hv
    rw [he.nv] at hv
    exact h.size v hv
  ent x hx id hid := by
    rw [he.ncl] at hid
    rw [he.lits]; exact h.ent x hx id hid
  keep c hc := by
    obtain ⟨id, h1, h2⟩ := h.keep c hc
    exact ⟨id, by rw [he.ncl]; exact h1, by rw [he.lits]; exact h2⟩
  count := by rw [he.ncl, he.nBacktracks]; exact h.count
  norestart := by rw [he.nRestarts]; exact h.norestart

theorem SemInv.back {P : Problem} {s t : BSt S} (h : SemInv P s) {c : BCls} {k : Int} (hb : Back s t c k)
    (hc : ∀ x, P.Solves x → CHolds x c.lits) (h1 : t.nBacktracks = s.nBacktracks + 1) (h2 : t.nRestarts = s.nRestarts) :
    SemInv P t where
  nv := hb.nv.trans h.nv
  size v hv := by rw [hb.size]; exact h.size v (hb.isVar.1 hv)
  ent x hx id hid := by
    rcases hb.cl_cases hid with ⟨h3, e⟩ | ⟨_, e⟩ <;> rw [e]
    · exact h.ent x hx id h3
    · exact hc x hx
  keep c' hc' := by
    obtain ⟨id, h3, h4⟩ := h.keep c' hc'
    exact ⟨id, by rw [hb.ncl]; omega, by rw [hb.old id h3]; exact h4⟩
  count := by rw [hb.ncl, h1, h.count]; omega
  norestart := by rw [h2]; exact h.norestart

/-- A value removed at level 0 occurs in no solution. -/
theorem removed0 {P : Problem} {s : BSt S} (h : BInv s) (hm : SemInv P s) {x : Assignment} (hx : P.Solves x) :
    ∀ (i : Nat) {v : Nat} {n : Node}, n ∈ s.nodes v → n.index.toNat ≤ i → n.level = 0 → n.values.getLsbD (x v) = false
  | i, v, n, hn, hi, hl => by
    cases hxv : n.values.getLsbD (x v) with
    | false => rfl
    | true =>
      exfalso
      have hr : n.reason ≠ -1 := by
        intro e
        have := (h.reason.dec v n hn e).1
        omega
      have hrg := h.reason.range v n hn
      obtain ⟨id, hid⟩ : ∃ id : Nat, n.reason = id := ⟨n.reason.toNat, by omega⟩
      obtain ⟨h1, ⟨r, hr1, hr2, hr3⟩, h3⟩ := h.reason.cls v n hn id hid
      obtain ⟨l, hl1, hl2⟩ := hm.ent x hx id h1
      by_cases hv : l.var = v
      · have e := (h.store.distinct id h1).eq hl1 hr1 (hv.trans hr2.symm)
        subst e
        rw [hv] at hl2
        rw [hr3 _ hxv] at hl2; cases hl2
      · obtain ⟨m, hm1, hm2, hm3⟩ := h3 l hl1 hv _ hl2
        have hp := (h.trail.pos _ m hm1).1
        have hml := h.trail.lev _ _ m hm1 n hn hm2
        have hm0 := (h.trail.pos _ m hm1).2.1
        cases i with
        | zero => omega
        | succ i =>
          have := removed0 h hm hx i hm1 (by omega) (by omega)
          rw [hm3] at this; cases this

/-- A conflict at level 0 means there is no solution. -/
theorem conflict0 {P : Problem} {s : BSt S} (h : BInv s) (hm : SemInv P s) (hc : s.conflict = true) (hL : s.LEVEL = 0) :
    ¬ P.Satisfiable := by
  rintro ⟨x, hx⟩
  obtain ⟨id, hid, _, hf, _⟩ := h.watch.confl hc
  obtain ⟨l, hl, hlx⟩ := hm.ent x hx id hid
  have hok := h.store.lok id hid l hl
  obtain ⟨n, hn, hnx⟩ := h.trail.removed hok.isVar (hok.sub _ hlx) (hf l hl _ hlx)
  have hp := h.trail.pos _ n hn
  have := removed0 h hm hx _ hn (Nat.le_refl _) (by omega)
  rw [hnx] at this; cases this

/-- The domains left after SAT. -/
theorem sat_models {P : Problem} {s : BSt S} (h : BInv s) (hm : SemInv P s)
    (ht : ∀ id, id < s.ncl → ∃ l ∈ (s.cl id).lits, TrueNow s l) {x : Assignment}
    (hx : ∀ v, s.IsVar v → (s.cur v).getLsbD (x v) = true) : P.Solves x := by
  have hd : P.InDom x := by
    intro v h1 h2
    have hv : s.IsVar v := ⟨h1, by rw [hm.nv]; exact h2⟩
    rw [← hm.size v hv]
    exact ((h.trail.cur_iff v hv _).1 (hx v hv)).1
  refine ⟨hd, ?_⟩
  intro c hc
  obtain ⟨id, h1, h2⟩ := hm.keep c hc
  obtain ⟨l, hl, htl⟩ := ht id h1
  exact h2 x hd ⟨l, hl, htl _ (hx _ (h.store.lok id h1 l hl).isVar)⟩

/-! ## The measure -/

/-- All pairs variable-value. -/
def pairs (s : BSt S) : List (Nat × Nat) := (List.range' 1 s.nv).flatMap fun v => (List.range (s.size v)).map fun j => (v, j)

theorem mem_pairs {s : BSt S} {v j : Nat} : (v, j) ∈ pairs s ↔ s.IsVar v ∧ j < s.size v := by
  unfold pairs BSt.IsVar
  rw [List.mem_flatMap]
  constructor
  · rintro ⟨w, hw, hj⟩
    obtain ⟨i, hi, e⟩ := List.mem_map.1 hj
    cases e
    have := List.mem_range'_1.1 hw
    exact ⟨by omega, List.mem_range.1 hi⟩
  · rintro ⟨⟨h1, h2⟩, h3⟩
    exact ⟨v, List.mem_range'_1.2 (by omega), List.mem_map.2 ⟨j, List.mem_range.2 h3, rfl⟩⟩

open Classical in
/-- Number of sets of pairs that are not the meaning of a stored clause. -/
noncomputable def unusedB (s : BSt S) : Nat :=
  (subs (pairs s)).countP fun X => decide (¬ ∃ id, id < s.ncl ∧ ∀ v j, (v, j) ∈ X ↔ ClHas (s.cl id).lits v j)

theorem unusedB_ext {s s' : BSt S} (h : Ext s s') : unusedB s' = unusedB s := by
  unfold unusedB pairs
  rw [h.nv, h.size, h.ncl]
  congr 1
  funext X
  congr 1
  apply propext
  constructor <;> (rintro hn ⟨id, h1, h2⟩; exact hn ⟨id, h1, fun v j => by rw [h2 v j, h.lits]⟩)

theorem unusedB_back {s t : BSt S} {c : BCls} {k : Int} (hb : Back s t c k) (hok : ∀ l ∈ c.lits, LOK s l)
    (hnew : ∀ id, id < s.ncl → ¬ SameCl (s.cl id).lits c.lits) : unusedB t < unusedB s := by
  have hp : pairs t = pairs s := by unfold pairs; rw [hb.nv, hb.size]
  unfold unusedB
  rw [hp]
  classical
  have hmem : ∀ v j, (v, j) ∈ (pairs s).filter (fun p => decide (ClHas c.lits p.1 p.2)) ↔ ClHas c.lits v j := by
    intro v j
    rw [List.mem_filter, decide_eq_true_eq]
    refine ⟨fun h => h.2, fun h => ⟨?_, h⟩⟩
    obtain ⟨l, hl, rfl, hj⟩ := h
    exact mem_pairs.2 ⟨(hok l hl).isVar, (hok l hl).sub j hj⟩
  apply countP_lt
  · intro X _ hX
    simp only [decide_eq_true_eq] at hX ⊢
    rintro ⟨id, h1, h2⟩
    exact hX ⟨id, by rw [hb.ncl]; omega, by rw [hb.old id h1]; exact h2⟩
  · refine ⟨(pairs s).filter fun p => decide (ClHas c.lits p.1 p.2), filter_mem_subs _ _, ?_, ?_⟩
    · simp only [decide_eq_false_iff_not]
      intro hn
      exact hn ⟨s.ncl, by rw [hb.ncl]; omega, by rw [hb.new]; exact hmem⟩
    · simp only [decide_eq_true_eq]
      rintro ⟨id, h1, h2⟩
      exact hnew id h1 fun v j => by rw [← h2 v j, hmem]

/-! ## One turn of the loop -/

/-- One turn: the result, or the state for the next turn. -/
def bstep (cfg : BCfg S) (f : Nat) (s : BSt S) (rc : Int) : Res ((Nat × BSt S) ⊕ (BSt S × Int)) :=
  let s1 : BSt S := { s with ticks := s.ticks + 1 }
  if cfg.late s.ticks then .ok (.inl (1, s1)) else
  if s.conflict ∧ s.LEVEL = 0 then .ok (.inl (2, s1)) else
  (if s.conflict then bconflict cfg f s1 rc else .ok (s1, rc)) >>= fun p =>
  (if p.1.units = [] then .ok p.1 else bunitProp f p.1) >>= fun s2 =>
  if s2.conflict then .ok (.inr (s2, p.2))
  else bdecide cfg s2 >>= fun o => match o with
    | none => .ok (.inl (0, s2))
    | some s3 => .ok (.inr (s3, p.2))

theorem bloop_eq (cfg : BCfg S) (f : Nat) (s : BSt S) (rc : Int) :
    bloop cfg (f + 1) s rc = (bstep cfg f s rc >>= fun r => match r with
      | .inl x => .ok x
      | .inr p => bloop cfg f p.1 p.2) := by
  rw [bloop]
  unfold bstep
  dsimp only
  by_cases h1 : cfg.late s.ticks = true
  · rw [if_pos h1, if_pos h1]; rfl
  rw [if_neg h1, if_neg h1]
  by_cases h2 : s.conflict = true ∧ s.LEVEL = 0
  · rw [if_pos h2, if_pos h2]; rfl
  rw [if_neg h2, if_neg h2]
  have last : ∀ (s3 : BSt S) (rc2 : Int), (if s3.conflict = true then bloop cfg f s3 rc2
      else bdecide cfg s3 >>= fun o => match o with
        | none => pure (0, s3)
        | some s => bloop cfg f s rc2) =
      ((if s3.conflict then (.ok (.inr (s3, rc2)) : Res ((Nat × BSt S) ⊕ (BSt S × Int)))
        else bdecide cfg s3 >>= fun o => match o with
          | none => .ok (.inl (0, s3))
          | some s4 => .ok (.inr (s4, rc2))) >>= fun r => match r with
      | .inl x => .ok x
      | .inr p => bloop cfg f p.1 p.2) := by
    intro s3 rc2
    by_cases h3 : s3.conflict = true
    · rw [if_pos h3, if_pos h3]; rfl
    · rw [if_neg h3, if_neg h3]
      cases bdecide cfg s3 with
      | ub => rfl
      | fuel => rfl
      | ok o => cases o <;> rfl
  have mid : ∀ (x : Res (BSt S × Int)),
      (x >>= fun p => if p.1.units = [] then (pure p.1 >>= fun s => if s.conflict = true then bloop cfg f s p.2
          else bdecide cfg s >>= fun o => match o with
            | none => pure (0, s)
            | some s => bloop cfg f s p.2)
        else bunitProp f p.1 >>= fun s => if s.conflict = true then bloop cfg f s p.2
          else bdecide cfg s >>= fun o => match o with
            | none => pure (0, s)
            | some s => bloop cfg f s p.2) =
      ((x >>= fun p => (if p.1.units = [] then .ok p.1 else bunitProp f p.1) >>= fun s2 =>
        if s2.conflict then (.ok (.inr (s2, p.2)) : Res ((Nat × BSt S) ⊕ (BSt S × Int)))
        else bdecide cfg s2 >>= fun o => match o with
          | none => .ok (.inl (0, s2))
          | some s3 => .ok (.inr (s3, p.2))) >>= fun r => match r with
      | .inl x => .ok x
      | .inr p => bloop cfg f p.1 p.2) := by
    intro x
    cases x with
    | ub => rfl
    | fuel => rfl
    | ok p =>
      by_cases hu : p.1.units = []
      · show (if p.1.units = [] then _ else _) = (((if p.1.units = [] then _ else _) >>= _) >>= _)
        rw [if_pos hu, if_pos hu]
        exact last p.1 p.2
      · show (if p.1.units = [] then _ else _) = (((if p.1.units = [] then _ else _) >>= _) >>= _)
        rw [if_neg hu, if_neg hu]
        cases bunitProp f p.1 with
        | ub => rfl
        | fuel => rfl
        | ok s3 => exact last s3 p.2
  by_cases hc : s.conflict = true
  · rw [if_pos hc, if_pos hc]; exact mid _
  · rw [if_neg hc, if_neg hc]; exact mid _

/-! ## The loop invariant -/

structure LoopInv (U : Prop) (P : Problem) (pos : S → Prop) (s : BSt S) : Prop where
  inv : BInv s
  sem : SemInv P s
  head : s.conflict = false → HeadOK U s
  score : ∀ v j, pos (s.score v j)

/-- What a result of the search means. -/
def Final (cfg : BCfg S) (P : Problem) (n : Nat) (s : BSt S) : Prop :=
  BInv s ∧ SemInv P s ∧
    ((n = 0 ∧ ∀ id, id < s.ncl → ∃ l ∈ (s.cl id).lits, TrueNow s l) ∨ (n = 1 ∧ ∃ k, cfg.late k = true) ∨
      (n = 2 ∧ ¬ P.Satisfiable))

/-- Progress. -/
def Less (s' s : BSt S) : Prop :=
  unusedB s' < unusedB s ∨ (unusedB s' = unusedB s ∧ s.conflict = false ∧
    (openVals s' < openVals s ∨ (openVals s' ≤ openVals s ∧ s'.conflict = true)))

theorem BInv.tick {s : BSt S} (h : BInv s) : BInv ({ s with ticks := s.ticks + 1 } : BSt S) :=
  h.stats s.score s.unitClause s.nUnits s.nBacktracks s.nDecisions s.nRestarts (s.ticks + 1)

theorem SemInv.stats {P : Problem} {s : BSt S} (h : SemInv P s) (n1 n2 : Nat) (L : Int) :
    SemInv P ({ s with ticks := n1, nDecisions := n2, LEVEL := L } : BSt S) :=
  ⟨h.1, h.2, h.3, h.4, h.5, h.6⟩

theorem bconflict_spec (cfg : BCfg S) {P : Problem} {pos : S → Prop} (hg : cfg.arith.Good pos) {s : BSt S} (h : BInv s)
    (hm : SemInv P s) (hp : ∀ v j, pos (s.score v j)) (hc : s.conflict = true) (hL : s.LEVEL ≠ 0) {rc : Int} (hrc : rc ≤ 0)
    (f : Nat) : SatU False (bconflict cfg f s rc) fun p => p.2 = rc ∧ BInv p.1 ∧ SemInv P p.1 ∧ HeadOK False p.1 ∧
      (∀ v j, pos (p.1.score v j)) ∧ unusedB p.1 < unusedB s := by
  obtain ⟨id, hid, hcf, hcc⟩ := h.cc hc hL
  rw [bconflict_eq cfg f s rc hid hcf hrc]
  have key := banalyze_confl cfg.arith h hcc (some (s.ptr id)) f
  generalize banalyze cfg.arith f s (s.cl id) (some (s.ptr id)) = x at key ⊢
  cases x with
  | fuel => trivial
  | ub => exact key.elim
  | ok r =>
    obtain ⟨s1, c⟩ := r
    obtain ⟨hac, hpt, hln, hent⟩ := key
    dsimp only at hac hpt hln hent
    show SatU False (bbackLevel s1 c >>= fun lv => .ok (backState s1 lv (s1.ncl - 1), rc)) _
    have hnode : s1.node = s.node := by
      obtain ⟨sc, rs, e, _⟩ := blearn_eq cfg.arith hac
      have hln : blearn cfg.arith s c none = .ok s1 := hln
      rw [hln] at e
      cases e
      rfl
    obtain ⟨k, hk, hbl⟩ := bbackLevel_spec (s' := s1) hac hnode
    rw [hk]
    obtain ⟨hb, _, _⟩ := back_of_learn cfg.arith h hac hpt hL hbl hln
    refine ⟨rfl, hb.inv h hac hpt hL hbl, ?_, hb.head h hac hpt hL hbl, ?_, ?_⟩
    · have hst : s1.nBacktracks = s.nBacktracks ∧ s1.nRestarts = s.nRestarts := by
        obtain ⟨sc, rs, e, _⟩ := blearn_eq cfg.arith hac
        have hln : blearn cfg.arith s c none = .ok s1 := hln
        rw [hln] at e
        cases e
        exact ⟨rfl, rfl⟩
      refine hm.back hb ?_ ?_ ?_
      · intro x hx
        exact hent x (fun i hi => hm.ent x hx i hi) (hm.ent x hx id hid)
      · show s1.nBacktracks + 1 = _
        rw [hst.1]
      · show s1.nRestarts = _
        exact hst.2
    · intro v j
      exact learn_pos hg hp hln v j
    · exact unusedB_back hb (fun l hl => (hac.ok l hl).1) fun i hi => learned_new h hac hpt hL hbl hi

theorem SatU.weaken {α : Type} {U V : Prop} {x : Res α} {p : α → Prop} (h : SatU U x p) (hu : U → V) : SatU V x p := by
  cases x with
  | ok a => exact h
  | ub => exact hu h
  | fuel => trivial

theorem bstep_spec (cfg : BCfg S) {U : Prop} {P : Problem} {pos : S → Prop} (hg : cfg.arith.Good pos) {s : BSt S}
    (h : LoopInv U P pos s) {rc : Int} (hrc : rc ≤ 0) (f : Nat) :
    SatU U (bstep cfg f s rc) fun r => match r with
      | .inl x => Final cfg P x.1 x.2
      | .inr p => p.2 = rc ∧ LoopInv U P pos p.1 ∧ Less p.1 s := by
  unfold bstep
  dsimp only
  have ht := h.inv.tick
  have hm := h.sem.stats (s.ticks + 1) s.nDecisions s.LEVEL
  by_cases h1 : cfg.late s.ticks = true
  · rw [if_pos h1]
    exact ⟨ht, hm, Or.inr (Or.inl ⟨rfl, _, h1⟩)⟩
  rw [if_neg h1]
  by_cases h2 : s.conflict = true ∧ s.LEVEL = 0
  · rw [if_pos h2]
    exact ⟨ht, hm, Or.inr (Or.inr ⟨rfl, conflict0 h.inv h.sem h2.1 h2.2⟩)⟩
  rw [if_neg h2]
  -- the rest of the turn
  have rest : ∀ (s1 : BSt S), BInv s1 → SemInv P s1 → (HeadOK U s1) → (∀ v j, pos (s1.score v j)) →
      (unusedB s1 < unusedB s ∨ (unusedB s1 = unusedB s ∧ s.conflict = false ∧ openVals s1 ≤ openVals s)) → s1.conflict = false →
      SatU U ((if s1.units = [] then .ok s1 else bunitProp f s1 : Res (BSt S)) >>= fun s2 =>
        if s2.conflict then (.ok (.inr (s2, rc)) : Res ((Nat × BSt S) ⊕ (BSt S × Int)))
        else bdecide cfg s2 >>= fun o => match o with
          | none => .ok (.inl (0, s2))
          | some s3 => .ok (.inr (s3, rc))) fun r => match r with
      | .inl x => Final cfg P x.1 x.2
      | .inr p => p.2 = rc ∧ LoopInv U P pos p.1 ∧ Less p.1 s := by
    intro s1 hb1 hm1 hh1 hp1 hless hc1
    have hprop : SatU U (if s1.units = [] then .ok s1 else bunitProp f s1 : Res (BSt S)) fun s2 =>
        BInv s2 ∧ Ext s1 s2 ∧ s2.units = [] := by
      by_cases hu : s1.units = []
      · rw [if_pos hu]; exact ⟨hb1, Ext.refl s1, hu⟩
      · rw [if_neg hu]; exact bunitProp_spec f hb1 hh1
    refine hprop.bind ?_
    rintro s2 ⟨hb2, he2, hu2⟩
    have hm2 := hm1.ext he2
    have hp2 : ∀ v j, pos (s2.score v j) := by rw [he2.score]; exact hp1
    have hun := unusedB_ext he2
    have hop := he2.openVals_le
    by_cases hc2 : s2.conflict = true
    · rw [if_pos hc2]
      refine ⟨rfl, ⟨hb2, hm2, fun e => (by rw [hc2] at e; cases e), hp2⟩, ?_⟩
      rcases hless with h3 | ⟨h3, h4, h5⟩
      · exact Or.inl (by rw [hun]; exact h3)
      · exact Or.inr ⟨by rw [hun]; exact h3, h4, Or.inr ⟨by show openVals s2 ≤ _; omega, hc2⟩⟩
    · rw [if_neg hc2]
      have hc2' : s2.conflict = false := by simpa using hc2
      refine ((bdecide_spec cfg hg hb2 hp2 hc2' hu2).weaken False.elim).bind ?_
      intro o ho
      cases o with
      | none =>
        exact ⟨hb2, hm2, Or.inl ⟨rfl, fun id hid => settled_true hb2 hc2' hu2 ho hid⟩⟩
      | some s3 =>
        obtain ⟨hb3, he3, ho3, hh3⟩ := ho
        have hm3 := (hm2.stats s2.ticks (s2.nDecisions + 1) (s2.LEVEL + 1)).ext he3
        have hun3 := unusedB_ext he3
        have hun3' : unusedB ({ s2 with LEVEL := s2.LEVEL + 1, nDecisions := s2.nDecisions + 1 } : BSt S) = unusedB s2 := rfl
        refine ⟨rfl, ⟨hb3, hm3, fun e => ?_, by rw [he3.score]; exact hp2⟩, ?_⟩
        · rcases hh3 e with h3 | h3
          · exact h3.elim
          · exact Or.inr h3
        · rcases hless with h3 | ⟨h3, h4, h5⟩
          · exact Or.inl (by rw [hun3, hun3', hun]; exact h3)
          · exact Or.inr ⟨by rw [hun3, hun3', hun]; exact h3, h4, Or.inl (by show openVals s3 < _; omega)⟩
  by_cases hc : s.conflict = true
  · rw [if_pos hc]
    have hL : s.LEVEL ≠ 0 := fun e => h2 ⟨hc, e⟩
    have hb := bconflict_spec cfg hg ht hm h.score hc hL hrc f
    have hcf : SatU True (bconflict cfg f ({ s with ticks := s.ticks + 1 } : BSt S) rc) fun p => p.1.conflict = false := by
      obtain ⟨id, hid, hcf, _⟩ := ht.cc hc hL
      rw [bconflict_eq cfg f _ rc hid hcf hrc]
      generalize banalyze cfg.arith f ({ s with ticks := s.ticks + 1 } : BSt S) _ _ = x
      cases x with
      | fuel => trivial
      | ub => trivial
      | ok r =>
        show SatU True (bbackLevel r.1 r.2 >>= fun lv => .ok (backState r.1 lv (r.1.ncl - 1), rc)) _
        cases bbackLevel r.1 r.2 with
        | fuel => trivial
        | ub => trivial
        | ok lv => exact rfl
    refine ((hb.weaken (V := U) False.elim).and (q := fun p => p.1.conflict = false) ?_).bind ?_
    · generalize bconflict cfg f ({ s with ticks := s.ticks + 1 } : BSt S) rc = x at hb hcf
      cases x with
      | fuel => trivial
      | ub => exact hb.elim
      | ok p => exact hcf
    rintro ⟨s1, rc1⟩ ⟨⟨h3, h4, h5, h6, h7, h8⟩, h9⟩
    dsimp only at h3
    subst h3
    exact rest s1 h4 h5 (h6.elim False.elim Or.inr) h7 (Or.inl h8) h9
  · rw [if_neg hc]
    have hc' : s.conflict = false := by simpa using hc
    exact rest _ ht hm (h.head hc') h.score (Or.inr ⟨rfl, hc', Nat.le_refl _⟩) hc'

/-! ## The loop -/

theorem bloop_spec (cfg : BCfg S) {U : Prop} {P : Problem} {pos : S → Prop} (hg : cfg.arith.Good pos) {rc : Int} (hrc : rc ≤ 0) :
    ∀ (f : Nat) {s : BSt S}, LoopInv U P pos s → SatU U (bloop cfg f s rc) fun r => Final cfg P r.1 r.2
  | 0, _, _ => trivial
  | f + 1, s, h => by
    rw [bloop_eq]
    refine (bstep_spec cfg hg h hrc f).bind ?_
    intro r hr
    cases r with
    | inl x => exact hr
    | inr p =>
      obtain ⟨s', rc'⟩ := p
      obtain ⟨h1, h2, _⟩ := hr
      dsimp only at h1 h2
      subst h1
      exact bloop_spec cfg hg hrc f h2

/-! ## It stops -/

theorem bconflict_mono (cfg : BCfg S) (f : Nat) (s : BSt S) (rc : Int) (h : bconflict cfg f s rc ≠ .fuel) :
    bconflict cfg (f + 1) s rc = bconflict cfg f s rc := by
  unfold bconflict at h ⊢
  by_cases h1 : s.conflicting < 0 ∨ s.conflicting.toNat ≥ s.ncl
  · rw [if_pos h1, if_pos h1]
  · rw [if_neg h1] at h; rw [if_neg h1, if_neg h1]
    dsimp only at h ⊢
    exact bind_mono (fun hx => banalyze_mono cfg.arith f s _ _ hx) (fun _ _ => rfl) h

theorem bstep_mono (cfg : BCfg S) (f : Nat) (s : BSt S) (rc : Int) (h : bstep cfg f s rc ≠ .fuel) :
    bstep cfg (f + 1) s rc = bstep cfg f s rc := by
  unfold bstep at h ⊢
  dsimp only at h ⊢
  by_cases h1 : cfg.late s.ticks = true
  · rw [if_pos h1, if_pos h1]
  rw [if_neg h1] at h; rw [if_neg h1, if_neg h1]
  by_cases h2 : s.conflict = true ∧ s.LEVEL = 0
  · rw [if_pos h2, if_pos h2]
  rw [if_neg h2] at h; rw [if_neg h2, if_neg h2]
  refine bind_mono ?_ ?_ h
  · intro hx
    by_cases hc : s.conflict = true
    · rw [if_pos hc] at hx; rw [if_pos hc, if_pos hc]
      exact bconflict_mono cfg f _ rc hx
    · rw [if_neg hc, if_neg hc]
  · intro p hp
    refine bind_mono ?_ (fun _ _ => rfl) hp
    intro hx
    by_cases hu : p.1.units = []
    · rw [if_pos hu, if_pos hu]
    · rw [if_neg hu] at hx; rw [if_neg hu, if_neg hu]
      exact bunitProp_mono f _ hx

theorem bloop_mono (cfg : BCfg S) : ∀ (f : Nat) (s : BSt S) (rc : Int), bloop cfg f s rc ≠ .fuel →
    bloop cfg (f + 1) s rc = bloop cfg f s rc
  | 0, _, _, h => absurd rfl h
  | f + 1, s, rc, h => by
    rw [bloop_eq] at h
    rw [bloop_eq cfg (f + 1), bloop_eq cfg f]
    refine bind_mono (fun hx => bstep_mono cfg f s rc hx) ?_ h
    intro r hr
    cases r with
    | inl x => rfl
    | inr p => exact bloop_mono cfg f p.1 p.2 hr

theorem blazyLoop_ne_fuel (s : BSt S) : ∀ ids, blazyLoop s ids ≠ .fuel
  | [] => ok_ne _
  | id :: ids => by
    unfold blazyLoop
    exact bind_ne (satW_ne_fuel _ _) fun x => ite_ne (pure_ne _) (blazyLoop_ne_fuel s ids)

theorem bdecide_ne_fuel (cfg : BCfg S) (s : BSt S) : bdecide cfg s ≠ .fuel := by
  unfold bdecide
  refine bind_ne ?_ fun o => ?_
  · unfold bchoose; exact ite_ne (ok_ne _) (blazyLoop_ne_fuel _ _)
  · cases o with
    | none => exact pure_ne _
    | some l => exact bind_ne (breduce_ne_fuel _ _) fun _ => pure_ne _

theorem bconflict_stops (cfg : BCfg S) {s : BSt S} (h : BInv s) (hc : s.conflict = true) (hL : s.LEVEL ≠ 0) {rc : Int}
    (hrc : rc ≤ 0) : ∃ f, bconflict cfg f s rc ≠ .fuel := by
  obtain ⟨id, hid, hcf, hcc⟩ := h.cc hc hL
  obtain ⟨f, hf⟩ := banalyze_stops cfg.arith h hcc (some (s.ptr id))
  refine ⟨f, ?_⟩
  rw [bconflict_eq cfg f s rc hid hcf hrc]
  refine bind_ne hf fun r => bind_ne ?_ fun _ => ok_ne _
  unfold bbackLevel
  refine ite_ne ?_ (ok_ne _)
  split
  · exact ok_ne _
  · exact ub_ne

theorem bstep_stops (cfg : BCfg S) {U : Prop} {P : Problem} {pos : S → Prop} (hg : cfg.arith.Good pos) {s : BSt S}
    (h : LoopInv U P pos s) {rc : Int} (hrc : rc ≤ 0) : ∃ f, bstep cfg f s rc ≠ .fuel := by
  by_cases h1 : cfg.late s.ticks = true
  · exact ⟨0, by unfold bstep; dsimp only; rw [if_pos h1]; exact ok_ne _⟩
  by_cases h2 : s.conflict = true ∧ s.LEVEL = 0
  · exact ⟨0, by unfold bstep; dsimp only; rw [if_neg h1, if_pos h2]; exact ok_ne _⟩
  have ht := h.inv.tick
  have rest : ∀ (s1 : BSt S) (rc1 : Int), BInv s1 → ∃ f0, ∀ f, f0 ≤ f →
      ((if s1.units = [] then .ok s1 else bunitProp f s1 : Res (BSt S)) >>= fun s2 =>
        if s2.conflict then (.ok (.inr (s2, rc1)) : Res ((Nat × BSt S) ⊕ (BSt S × Int)))
        else bdecide cfg s2 >>= fun o => match o with
          | none => .ok (.inl (0, s2))
          | some s3 => .ok (.inr (s3, rc1))) ≠ .fuel := by
    intro s1 rc1 hb1
    obtain ⟨f0, hf0⟩ := bunitProp_stops _ _ hb1 (Nat.le_refl _) (Nat.le_refl _)
    refine ⟨f0, fun f hf => ?_⟩
    refine bind_ne ?_ fun s2 => ite_ne (ok_ne _) (bind_ne (bdecide_ne_fuel _ _) fun o => ?_)
    · refine ite_ne (ok_ne _) ?_
      rw [mono_le (g := fun f => bunitProp f s1) (fun f => bunitProp_mono f s1) hf hf0]
      exact hf0
    · cases o <;> exact ok_ne _
  by_cases hc : s.conflict = true
  · have hL : s.LEVEL ≠ 0 := fun e => h2 ⟨hc, e⟩
    obtain ⟨f1, hf1⟩ := bconflict_stops cfg ht hc hL hrc
    have hb := bconflict_spec cfg hg ht (h.sem.stats (s.ticks + 1) s.nDecisions s.LEVEL) h.score hc hL hrc f1
    cases hx : bconflict cfg f1 ({ s with ticks := s.ticks + 1 } : BSt S) rc with
    | fuel => exact absurd hx hf1
    | ub => rw [hx] at hb; exact hb.elim
    | ok p =>
      rw [hx] at hb
      obtain ⟨f0, hf0⟩ := rest p.1 p.2 hb.2.1
      refine ⟨max f0 f1, ?_⟩
      unfold bstep
      dsimp only
      rw [if_neg h1, if_neg h2, if_pos hc,
        mono_le (g := fun f => bconflict cfg f ({ s with ticks := s.ticks + 1 } : BSt S) rc)
          (fun f => bconflict_mono cfg f _ rc) (Nat.le_max_right f0 f1) hf1, hx]
      exact hf0 _ (Nat.le_max_left _ _)
  · obtain ⟨f0, hf0⟩ := rest ({ s with ticks := s.ticks + 1 } : BSt S) rc ht
    refine ⟨f0, ?_⟩
    unfold bstep
    dsimp only
    rw [if_neg h1, if_neg h2, if_neg hc]
    exact hf0 f0 (Nat.le_refl _)

/-- If every possible next state stops, so does this one. -/
theorem bloop_next (cfg : BCfg S) {U : Prop} {P : Problem} {pos : S → Prop} (hg : cfg.arith.Good pos) {s : BSt S}
    (h : LoopInv U P pos s) {rc : Int} (hrc : rc ≤ 0)
    (hn : ∀ s', LoopInv U P pos s' → Less s' s → ∃ f, bloop cfg f s' rc ≠ .fuel) : ∃ f, bloop cfg f s rc ≠ .fuel := by
  obtain ⟨f1, hf1⟩ := bstep_stops cfg hg h hrc
  have hs := bstep_spec cfg hg h hrc f1
  cases hx : bstep cfg f1 s rc with
  | fuel => exact absurd hx hf1
  | ub => exact ⟨f1 + 1, by rw [bloop_eq, hx]; exact ub_ne⟩
  | ok r =>
    cases r with
    | inl x => exact ⟨f1 + 1, by rw [bloop_eq, hx]; exact ok_ne _⟩
    | inr p =>
      rw [hx] at hs
      obtain ⟨s', rc'⟩ := p
      obtain ⟨h1, h2, h3⟩ := hs
      dsimp only at h1 h2 h3
      subst h1
      obtain ⟨f0, hf0⟩ := hn s' h2 h3
      refine ⟨max f0 f1 + 1, ?_⟩
      rw [bloop_eq, mono_le (g := fun f => bstep cfg f s rc') (fun f => bstep_mono cfg f s rc') (Nat.le_max_right f0 f1) hf1, hx]
      show bloop cfg (max f0 f1) s' rc' ≠ .fuel
      rw [mono_le (g := fun f => bloop cfg f s' rc') (fun f => bloop_mono cfg f s' rc') (Nat.le_max_left f0 f1) hf0]
      exact hf0

theorem bloop_stops (cfg : BCfg S) {U : Prop} {P : Problem} {pos : S → Prop} (hg : cfg.arith.Good pos) {rc : Int} (hrc : rc ≤ 0) :
    ∀ (n m : Nat) {s : BSt S}, LoopInv U P pos s → unusedB s = n → openVals s = m → ∃ f, bloop cfg f s rc ≠ .fuel := by
  intro n
  induction n using Nat.strongRecOn with
  | ind n ihn =>
  -- with a conflict pending
  have hconf : ∀ {s : BSt S}, LoopInv U P pos s → unusedB s = n → s.conflict = true → ∃ f, bloop cfg f s rc ≠ .fuel := by
    intro s h hu hc
    refine bloop_next cfg hg h hrc ?_
    intro s' h' hl
    rcases hl with hl | ⟨_, hl, _⟩
    · exact ihn _ (by omega) _ h' rfl rfl
    · rw [hc] at hl; cases hl
  intro m
  induction m using Nat.strongRecOn with
  | ind m ihm =>
    intro s h hu ho
    refine bloop_next cfg hg h hrc ?_
    intro s' h' hl
    rcases hl with hl | ⟨hl, _, hl' | ⟨_, hl'⟩⟩
    · exact ihn _ (by omega) _ h' rfl rfl
    · exact ihm _ (by omega) h' (by omega) rfl
    · exact hconf h' (by omega) hl'

end Mvl.BV
