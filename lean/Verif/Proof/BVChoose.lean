import Verif.Proof.BVConflict
import Verif.Proof.Build

/-!
# Bit-vector variant: decisions
-/

namespace Mvl.BV

variable {S : Type}

/-! ## Counting bits -/

theorem bcount_two {b : Bits} (h : bcount b > 1) (j : Nat) : ∃ j', j' ≠ j ∧ b.getLsbD j' = true := by
  apply Classical.byContradiction
  intro hn
  have hsub : ∀ x ∈ (List.range 64).filter (fun j => b.getLsbD j), x ∈ [j] := by
    intro x hx
    rw [List.mem_filter] at hx
    rw [List.mem_singleton]
    apply Classical.byContradiction
    intro hne
    exact hn ⟨x, hne, hx.2⟩
  have := length_le_of_subset _ [j] (List.nodup_range.filter _) hsub
  unfold bcount at h
  simp at this
  omega

theorem bcount_one {b : Bits} (h : ¬ bcount b > 1) {j j' : Nat} (hj : b.getLsbD j = true) (hj' : b.getLsbD j' = true) :
    j = j' := by
  apply Classical.byContradiction
  intro hne
  apply h
  have := length_le_of_subset [j, j'] ((List.range 64).filter fun j => b.getLsbD j) (by simp [hne]) (by
    intro x hx
    have hx' : x = j ∨ x = j' := by simpa using hx
    rw [List.mem_filter, List.mem_range]
    rcases hx' with rfl | rfl
    · exact ⟨lt_of_bit hj, hj⟩
    · exact ⟨lt_of_bit hj', hj'⟩)
  unfold bcount
  exact this

/-! ## VSIDS -/

/-- The inner loop. -/
def vsInner (A : ScoreArith S) (s : BSt S) (v : Nat) (best : S × Option BLit) (j : Nat) : S × Option BLit :=
  if (s.cur v).getLsbD j then
    if A.lt best.1 (s.score v j) then (s.score v j, some ⟨v, bit j⟩) else best
  else best

def vsOuter (A : ScoreArith S) (s : BSt S) (best : S × Option BLit) (v : Nat) : S × Option BLit :=
  if bcount (s.cur v) > 1 then (List.range (s.size v)).foldl (vsInner A s v) best else best

theorem bchooseVSIDS_eq (A : ScoreArith S) (s : BSt S) :
    bchooseVSIDS A s = ((List.range (s.nv + 1)).foldl (vsOuter A s) (A.negOne, none)).2 := rfl

/-- A literal that VSIDS may choose. -/
def Cand (s : BSt S) (l : BLit) : Prop :=
  ∃ v j, l = ⟨v, bit j⟩ ∧ v ≤ s.nv ∧ j < s.size v ∧ (s.cur v).getLsbD j = true ∧ bcount (s.cur v) > 1

theorem vsInner_cand (A : ScoreArith S) (s : BSt S) {v : Nat} (hv : v ≤ s.nv) (hc : bcount (s.cur v) > 1) : ∀ (js : List Nat)
    (best : S × Option BLit), (∀ j ∈ js, j < s.size v) → (∀ l, best.2 = some l → Cand s l) →
    ∀ l, (js.foldl (vsInner A s v) best).2 = some l → Cand s l
  | [], _, _, h => h
  | j :: js, best, hjs, h => by
    rw [List.foldl_cons]
    refine vsInner_cand A s hv hc js _ (fun x hx => hjs x (List.mem_cons_of_mem _ hx)) ?_
    intro l
    unfold vsInner
    by_cases h1 : (s.cur v).getLsbD j = true
    · rw [if_pos h1]
      by_cases h2 : A.lt best.1 (s.score v j) = true
      · rw [if_pos h2]
        intro e
        cases e
        exact ⟨v, j, rfl, hv, hjs j List.mem_cons_self, h1, hc⟩
      · rw [if_neg h2]; exact h l
    · rw [if_neg h1]; exact h l

theorem vsOuter_cand (A : ScoreArith S) (s : BSt S) : ∀ (vs : List Nat) (best : S × Option BLit), (∀ v ∈ vs, v ≤ s.nv) →
    (∀ l, best.2 = some l → Cand s l) → ∀ l, (vs.foldl (vsOuter A s) best).2 = some l → Cand s l
  | [], _, _, h => h
  | v :: vs, best, hvs, h => by
    rw [List.foldl_cons]
    refine vsOuter_cand A s vs _ (fun x hx => hvs x (List.mem_cons_of_mem _ hx)) ?_
    unfold vsOuter
    by_cases h1 : bcount (s.cur v) > 1
    · rw [if_pos h1]
      exact vsInner_cand A s (hvs v List.mem_cons_self) h1 _ _ (fun j hj => List.mem_range.1 hj) h
    · rw [if_neg h1]; exact h

theorem vsInner_some (A : ScoreArith S) (s : BSt S) (v : Nat) : ∀ (js : List Nat) (best : S × Option BLit),
    best.2 ≠ none → (js.foldl (vsInner A s v) best).2 ≠ none
  | [], _, h => h
  | j :: js, best, h => by
    rw [List.foldl_cons]
    refine vsInner_some A s v js _ ?_
    unfold vsInner
    by_cases h1 : (s.cur v).getLsbD j = true
    · rw [if_pos h1]
      by_cases h2 : A.lt best.1 (s.score v j) = true
      · rw [if_pos h2]; simp
      · rw [if_neg h2]; exact h
    · rw [if_neg h1]; exact h

theorem vsOuter_some (A : ScoreArith S) (s : BSt S) : ∀ (vs : List Nat) (best : S × Option BLit),
    best.2 ≠ none → (vs.foldl (vsOuter A s) best).2 ≠ none
  | [], _, h => h
  | v :: vs, best, h => by
    rw [List.foldl_cons]
    refine vsOuter_some A s vs _ ?_
    unfold vsOuter
    split
    · exact vsInner_some A s v _ _ h
    · exact h

theorem vsInner_none {A : ScoreArith S} {pos : S → Prop} (hg : A.Good pos) {s : BSt S} (hp : ∀ v j, pos (s.score v j)) (v : Nat) :
    ∀ (js : List Nat), (js.foldl (vsInner A s v) (A.negOne, none)).2 = none →
      js.foldl (vsInner A s v) (A.negOne, none) = (A.negOne, none) ∧ ∀ j ∈ js, (s.cur v).getLsbD j = false
  | [], _ => ⟨rfl, by simp⟩
  | j :: js, h => by
    rw [List.foldl_cons] at h ⊢
    by_cases h1 : (s.cur v).getLsbD j = true
    · exfalso
      refine vsInner_some A s v js _ ?_ h
      unfold vsInner
      rw [if_pos h1, if_pos (hg.2.2.2 _ (hp v j))]
      simp
    · have e : vsInner A s v (A.negOne, none) j = (A.negOne, none) := by unfold vsInner; rw [if_neg h1]
      rw [e] at h ⊢
      obtain ⟨h2, h3⟩ := vsInner_none hg hp v js h
      refine ⟨h2, ?_⟩
      intro x hx
      rcases List.mem_cons.1 hx with rfl | hx
      · simpa using h1
      · exact h3 x hx

theorem vsOuter_none {A : ScoreArith S} {pos : S → Prop} (hg : A.Good pos) {s : BSt S} (hp : ∀ v j, pos (s.score v j)) :
    ∀ (vs : List Nat), (vs.foldl (vsOuter A s) (A.negOne, none)).2 = none →
      ∀ v ∈ vs, bcount (s.cur v) > 1 → ∀ j, j < s.size v → (s.cur v).getLsbD j = false
  | [], _ => by simp
  | v :: vs, h => by
    rw [List.foldl_cons] at h
    have h1 : (vsOuter A s (A.negOne, none) v).2 = none := by
      apply Classical.byContradiction
      intro hne
      exact vsOuter_some A s vs _ hne h
    have h2 : vsOuter A s (A.negOne, none) v = (A.negOne, none) ∧
        (bcount (s.cur v) > 1 → ∀ j, j < s.size v → (s.cur v).getLsbD j = false) := by
      unfold vsOuter at h1 ⊢
      by_cases hb : bcount (s.cur v) > 1
      · rw [if_pos hb] at h1 ⊢
        obtain ⟨h3, h4⟩ := vsInner_none hg hp v _ h1
        exact ⟨h3, fun _ j hj => h4 j (List.mem_range.2 hj)⟩
      · rw [if_neg hb]
        exact ⟨rfl, fun h => absurd h hb⟩
    rw [h2.1] at h
    intro x hx
    rcases List.mem_cons.1 hx with rfl | hx
    · exact h2.2
    · exact vsOuter_none hg hp vs h x hx

/-! ## Both heuristics -/

/-- No first watch is undecided. -/
def Settled (s : BSt S) : Prop := ∀ id, id < s.ncl → ∀ a, (s.cl id).w0 = some a → TrueNow s a ∨ FalseNow s a

/-- A literal that may be decided. -/
def Open (s : BSt S) (l : BLit) : Prop := LOK s l ∧ ¬ FalseNow s l ∧ ¬ TrueNow s l

theorem cand_open {s : BSt S} (ht : TrailInv s) {l : BLit} (h : Cand s l) : Open s l := by
  obtain ⟨v, j, rfl, hv, hj, hc, hb⟩ := h
  have hvar : s.IsVar v := by
    apply Classical.byContradiction
    intro hn
    rw [ht.out_cur v hn] at hc
    simp at hc
  have h64 : j < 64 := lt_of_bit hc
  refine ⟨⟨hvar, ?_, ⟨j, ?_⟩⟩, ?_, ?_⟩
  · intro i hi
    dsimp only at hi ⊢
    rw [bit_bit h64, decide_eq_true_eq] at hi
    rw [hi]; exact hj
  · dsimp only
    rw [bit_bit h64]; simp
  · intro hf
    have := hf j (by dsimp only; rw [bit_bit h64]; simp)
    dsimp only at this
    rw [hc] at this; cases this
  · intro htr
    obtain ⟨j', hne, hj'⟩ := bcount_two hb j
    have := htr j' hj'
    dsimp only at this
    rw [bit_bit h64, decide_eq_true_eq] at this
    exact hne this

theorem blazyLoop_spec {s : BSt S} (hst : StoreInv s) : ∀ (ids : List Nat), (∀ id ∈ ids, id < s.ncl) →
    ∃ o, blazyLoop s ids = .ok o ∧ match o with
      | some l => Open s l
      | none => ∀ id ∈ ids, ∀ a, (s.cl id).w0 = some a → TrueNow s a ∨ FalseNow s a
  | [], _ => ⟨none, rfl, by simp⟩
  | id :: ids, h => by
    have hid := h id List.mem_cons_self
    obtain ⟨a, ha⟩ : ∃ a, (s.cl id).w0 = some a := by
      rcases hst.wok id hid with ⟨a, _, h1, _⟩ | ⟨_, a, _, h1, _⟩ <;> exact ⟨a, h1⟩
    have hla := hst.lok id hid a ((hst.wok id hid).mem (Or.inl ha))
    unfold blazyLoop
    rw [ha, satW_some hla.isVar]
    show ∃ o, (if bsat s a = 2 then pure (some a) else blazyLoop s ids : Res (Option BLit)) = .ok o ∧ _
    by_cases h2 : bsat s a = 2
    · rw [if_pos h2]
      obtain ⟨h3, h4⟩ := bsat_two.1 h2
      exact ⟨some a, rfl, hla, h4, h3⟩
    · rw [if_neg h2]
      obtain ⟨o, ho, hs⟩ := blazyLoop_spec hst ids (fun x hx => h x (List.mem_cons_of_mem _ hx))
      refine ⟨o, ho, ?_⟩
      cases o with
      | some l => exact hs
      | none =>
        intro x hx b hb
        rcases List.mem_cons.1 hx with rfl | hx
        · rw [ha] at hb; cases hb
          by_cases h3 : TrueNow s a
          · exact Or.inl h3
          · exact Or.inr (Classical.byContradiction fun h4 => h2 (bsat_two.2 ⟨h3, h4⟩))
        · exact hs x hx b hb

/-- What `bchoose` returns; scores matter for VSIDS only. -/
theorem bchoose_spec (cfg : BCfg S) {pos : S → Prop} (hg : cfg.arith.Good pos) {s : BSt S} (h : BInv s)
    (hp : ∀ v j, pos (s.score v j)) :
    ∃ o, bchoose cfg s = .ok o ∧ match o with
      | some l => Open s l
      | none => Settled s := by
  unfold bchoose
  by_cases hv : cfg.vsids = true
  · rw [if_pos hv]
    refine ⟨_, rfl, ?_⟩
    rw [bchooseVSIDS_eq]
    cases ho : ((List.range (s.nv + 1)).foldl (vsOuter cfg.arith s) (cfg.arith.negOne, none)).2 with
    | some l =>
      exact cand_open h.trail (vsOuter_cand cfg.arith s _ _ (fun v hv => by have := List.mem_range.1 hv; omega) (by simp) l ho)
    | none =>
      have h1 := vsOuter_none hg hp _ ho
      intro id hid a ha
      have hla := h.store.lok id hid a ((h.store.wok id hid).mem (Or.inl ha))
      have hb : ¬ bcount (s.cur a.var) > 1 := by
        intro hb
        obtain ⟨j, hj⟩ := h.trail.live _ hla.isVar
        have := h1 a.var (List.mem_range.2 (by have := hla.isVar.2; omega)) hb j ((h.trail.cur_iff _ hla.isVar j).1 hj).1
        rw [hj] at this; cases this
      obtain ⟨j, hj⟩ := h.trail.live _ hla.isVar
      cases hx : a.vals.getLsbD j
      · right
        intro i hi
        cases hc : (s.cur a.var).getLsbD i
        · rfl
        · have := bcount_one hb hj hc
          subst this
          rw [hx] at hi; cases hi
      · left
        intro i hi
        have := bcount_one hb hj hi
        subst this
        exact hx
  · rw [if_neg hv]
    obtain ⟨o, ho, hs⟩ := blazyLoop_spec h.store (List.range s.ncl) (fun id hid => List.mem_range.1 hid)
    refine ⟨o, ho, ?_⟩
    cases o with
    | some l => exact hs
    | none => exact fun id hid => hs id (List.mem_range.2 hid)

/-- Nothing left to propagate or decide: every clause has a true literal. -/
theorem settled_true {s : BSt S} (h : BInv s) (hc : s.conflict = false) (hu : s.units = []) (hs : Settled s) {id : Nat}
    (hid : id < s.ncl) : ∃ l ∈ (s.cl id).lits, TrueNow s l := by
  rcases h.store.wok id hid with ⟨a, h1, h2, _⟩ | ⟨_, a, b, h1, h2, h3, h4, h5⟩
  · have hm : a ∈ (s.cl id).lits := by rw [h1]; simp
    exact ⟨a, hm, h.trail.trueNow_of_trueL (h.store.lok id hid a hm).isVar (h.one hu (Or.inl hc) hid h1)⟩
  · rcases hs id hid a h1 with h6 | h6
    · exact ⟨a, h3, h6⟩
    · rcases h.watch.top hc id hid a b (Or.inl h1) (Or.inr h2) (fun e => h5 (by rw [e])) h6 with ⟨_, h7⟩ | h7 | ⟨h7, _⟩
      · cases h7
      · exact ⟨b, h4, h7⟩
      · rw [hu] at h7; cases h7

/-! ## A new level -/

theorem levelUp {s : BSt S} (h : BInv s) (hc : s.conflict = false) (hu : s.units = []) :
    BInv ({ s with LEVEL := s.LEVEL + 1 } : BSt S) where
  trail := by
    have ht := h.trail
    refine ⟨ht.size_le, ht.out, ht.out_cur, ht.cur_iff, ht.live, ht.sorted, ht.disj, ht.sub, ?_, ht.lev, ht.inj, ht.down,
      ht.count, ?_⟩
    · intro v n hn
      obtain ⟨h1, h2, h3⟩ := ht.pos v n hn
      refine ⟨h1, h2, ?_⟩
      show n.level ≤ s.LEVEL + 1
      omega
    · show 0 ≤ s.LEVEL + 1
      have := ht.level0
      omega
  reason := h.reason.congr rfl rfl fun _ => rfl
  store := ⟨h.store.ptr_lt, h.store.ptr_inj, h.store.distinct,
    fun i hi l hl => ⟨(h.store.lok i hi l hl).1, (h.store.lok i hi l hl).2, (h.store.lok i hi l hl).3⟩,
    h.store.wok, h.store.recs, h.store.nodup⟩
  watch := by
    refine ⟨?_, h.watch.top, h.watch.both, h.watch.old, h.watch.units, ?_, ?_⟩
    · intro id hid w w' hw hw' hne k hk hf
      have hk : k < s.LEVEL + 1 := hk
      have hw : IsW (s.cl id) w := hw
      have hw' : IsW (s.cl id) w' := hw'
      by_cases h1 : k < s.LEVEL
      · exact h.watch.low id hid w w' hw hw' hne k h1 hf
      · have e : k = s.LEVEL := by omega
        subst e
        rcases h.watch.top hc id hid w w' hw hw' hne (h.trail.falseNow_of_falseL hf) with ⟨_, h2⟩ | h2 | ⟨h2, _⟩
        · cases h2
        · exact h.trail.trueL_of_trueNow (h.store.lok id hid w' ((h.store.wok id hid).mem hw')).isVar h2
        · rw [hu] at h2; cases h2
    · right
      intro id hid a ha
      exact Or.inl (h.one hu (Or.inl hc) hid ha)
    · intro h1
      have h1 : s.conflict = true := h1
      rw [hc] at h1; cases h1

theorem bdecide_spec (cfg : BCfg S) {pos : S → Prop} (hg : cfg.arith.Good pos) {s : BSt S} (h : BInv s)
    (hp : ∀ v j, pos (s.score v j)) (hc : s.conflict = false) (hu : s.units = []) :
    SatU False (bdecide cfg s) fun o => match o with
      | none => Settled s
      | some s' => BInv s' ∧ Ext ({ s with LEVEL := s.LEVEL + 1, nDecisions := s.nDecisions + 1 } : BSt S) s' ∧
          openVals s' < openVals s ∧ (s'.conflict = false → HeadOK False s') := by
  obtain ⟨o, ho, hs⟩ := bchoose_spec cfg hg h hp
  unfold bdecide
  rw [ho]
  cases o with
  | none => exact hs
  | some l =>
    obtain ⟨hl, hnf, hnt⟩ := hs
    have hb := (levelUp h hc hu).stats s.score s.unitClause s.nUnits s.nBacktracks (s.nDecisions + 1) s.nRestarts s.ticks
    have hone : ∀ i, i < s.ncl → ∀ a, (s.cl i).lits = [a] →
        TrueNow (addNode ({ s with nDecisions := s.nDecisions + 1, LEVEL := s.LEVEL + 1, units := [], unitClause := -1 } : BSt S) l) a := by
      intro i hi a ha
      refine trueNow_addNode (s := { s with nDecisions := s.nDecisions + 1, LEVEL := s.LEVEL + 1, units := [], unitClause := -1 }) ?_
      exact h.trail.trueNow_of_trueL (h.store.lok i hi a (by
        have ha : (s.cl i).lits = [a] := ha
        rw [ha]; simp)).isVar (h.one hu (Or.inl hc) hi ha)
    have key := breduce_spec (U := False) (u := []) (x := -1) hb hc (l := l) ⟨hl.1, hl.2, hl.3⟩ hnf hnt (by simp)
      (by intro i hi; have hi : i ∈ s.units := hi; rw [hu] at hi; cases hi)
      (Or.inl ⟨rfl, by show 1 ≤ s.LEVEL + 1; have := h.trail.level0; omega, by
        intro v n hn
        have := (h.trail.pos v n hn).2.2
        show n.level < s.LEVEL + 1
        omega⟩) (Or.inr fun i hi a ha _ => hone i hi a ha)
    have e : ({ s with nDecisions := s.nDecisions + 1, LEVEL := s.LEVEL + 1, unitClause := -1 } : BSt S) =
        { s with nDecisions := s.nDecisions + 1, LEVEL := s.LEVEL + 1, units := [], unitClause := -1 } := by rw [← hu]
    show SatU False (breduce { s with nDecisions := s.nDecisions + 1, LEVEL := s.LEVEL + 1, unitClause := -1 } l >>= fun s => pure (some s)) _
    rw [e]
    refine key.bind ?_
    rintro s' ⟨h1, h2, h3, h4, h5⟩
    refine ⟨h1, h2, h3, ?_⟩
    intro _
    refine Or.inr (Or.inl fun i hi a ha => Or.inl ?_)
    rw [TrueNow.congr h5.cur]
    exact hone i (h5.ncl ▸ hi) a (by rw [h5.lits] at ha; exact ha)

end Mvl.BV
