import Verif.Proof.BVNode

/-!
# Bit-vector variant: unit propagation
-/

namespace Mvl.BV

variable {S : Type}

theorem BInv.stats {s : BSt S} (h : BInv s) (sc : Nat → Nat → S) (uc : Int) (n1 n2 n3 n4 n5 : Nat) :
    BInv ({ s with score := sc, unitClause := uc, nUnits := n1, nBacktracks := n2, nDecisions := n3, nRestarts := n4,
                   ticks := n5 } : BSt S) where
  trail := h.trail.congr rfl rfl rfl rfl rfl rfl
  reason := h.reason.congr rfl rfl fun _ => rfl
  store := ⟨h.store.ptr_lt, h.store.ptr_inj, h.store.distinct,
    fun i hi l hl => ⟨(h.store.lok i hi l hl).1, (h.store.lok i hi l hl).2, (h.store.lok i hi l hl).3⟩,
    h.store.wok, h.store.recs, h.store.nodup⟩
  watch := ⟨h.watch.low, h.watch.top, h.watch.both, h.watch.old, h.watch.units, h.watch.single, h.watch.confl⟩

/-- Dropping the queue, when that loses nothing. -/
theorem BInv.setUnits {s : BSt S} (h : BInv s) (u : List Nat) (hsub : ∀ id ∈ u, id ∈ s.units)
    (hpop : s.conflict = false → ∀ id ∈ s.units, id ∈ u ∨
      ((∀ w w', IsW (s.cl id) w → IsW (s.cl id) w' → w ≠ w' → FalseNow s w → TrueNow s w') ∧
        ∀ a, (s.cl id).lits = [a] → TrueNow s a)) : BInv ({ s with units := u } : BSt S) where
  trail := h.trail.congr rfl rfl rfl rfl rfl rfl
  reason := h.reason.congr rfl rfl fun _ => rfl
  store := ⟨h.store.ptr_lt, h.store.ptr_inj, h.store.distinct,
    fun i hi l hl => ⟨(h.store.lok i hi l hl).1, (h.store.lok i hi l hl).2, (h.store.lok i hi l hl).3⟩,
    h.store.wok, h.store.recs, h.store.nodup⟩
  watch := by
    refine ⟨h.watch.low, ?_, h.watch.both, h.watch.old, fun id hid => h.watch.units id (hsub id hid), ?_, h.watch.confl⟩
    · intro hc id hid w w' h1 h2 hne hf
      rcases h.watch.top hc id hid w w' h1 h2 hne hf with h3 | h3 | ⟨h3, h4⟩
      · exact Or.inl h3
      · exact Or.inr (Or.inl h3)
      · rcases hpop hc id h3 with h5 | ⟨h5, _⟩
        · exact Or.inr (Or.inr ⟨h5, h4⟩)
        · exact Or.inr (Or.inl (h5 w w' h1 h2 hne hf))
    · have hcc : s.conflict = true ∨ s.conflict = false := by cases s.conflict <;> simp
      rcases hcc with hc | hc
      · by_cases hL : s.LEVEL = 0
        · exact Or.inl ⟨hc, hL⟩
        · rcases h.watch.single with h1 | h1
          · exact Or.inl h1
          · right
            intro id hid a ha
            rcases h1 id hid a ha with h2 | ⟨_, h2, _⟩ | ⟨_, h2, _⟩
            · exact Or.inl h2
            · cases h2
            · exact absurd h2 hL
      · rcases h.watch.single with h1 | h1
        · rw [hc] at h1; cases h1.1
        · right
          intro id hid a ha
          have ha : (s.cl id).lits = [a] := ha
          rcases h1 id hid a ha with h2 | ⟨_, h2, _⟩ | ⟨h2, h3, h4⟩
          · exact Or.inl h2
          · cases h2
          · rcases hpop hc id h2 with h5 | ⟨_, h5⟩
            · exact Or.inr (Or.inr ⟨h5, h3, h4⟩)
            · left
              have hv := (h.store.lok id hid a (by rw [ha]; simp)).isVar
              have := h.trail.trueL_of_trueNow hv (h5 a ha)
              rw [h3] at this
              exact this

/-- `x` takes its values from the domains and makes every clause true. -/
def Point (s : BSt S) (x : Assignment) : Prop :=
  (∀ v, s.IsVar v → (s.cur v).getLsbD (x v) = true) ∧
  ∀ id, id < s.ncl → ∃ l ∈ (s.cl id).lits, l.vals.getLsbD (x l.var) = true

/-- At most one value other than that of `x` is left for variable `v`. -/
def Pair (s : BSt S) (x : Assignment) (v : Nat) : Prop :=
  ∀ j j', (s.cur v).getLsbD j = true → (s.cur v).getLsbD j' = true → j ≠ x v → j' ≠ x v → j = j'

/-- One-literal clauses are true, except possibly the next one in the queue; or there is a solution, and those that are not
true are about variables with at most two values. -/
def HeadOK (U : Prop) (s : BSt S) : Prop :=
  U ∨ (∀ id, id < s.ncl → ∀ a, (s.cl id).lits = [a] → TrueNow s a ∨ s.units.head? = some id) ∨
  ∃ x, Point s x ∧ ∀ id, id < s.ncl → ∀ a, (s.cl id).lits = [a] → TrueNow s a ∨ Pair s x a.var

/-- Propagating with a clause whose other literals are false keeps the solution, and makes one-literal clauses about the
variable true. -/
theorem Point.addNode {s : BSt S} (h : BInv s) {x : Assignment} (hx : Point s x) {id : Nat} (hid : id < s.ncl) {l : BLit}
    (hl : l ∈ (s.cl id).lits) (hoth : ∀ l' ∈ (s.cl id).lits, l' ≠ l → FalseNow s l') (hnt : ¬ TrueNow s l)
    (u : List Nat) (y : Int) :
    Point (addNode ({ s with units := u, unitClause := y } : BSt S) l) x ∧
    ∀ i, i < s.ncl → ∀ a, (s.cl i).lits = [a] → TrueNow s a ∨ Pair s x a.var →
      (a.var = l.var → TrueNow (addNode ({ s with units := u, unitClause := y } : BSt S) l) a) ∧
      (TrueNow (addNode ({ s with units := u, unitClause := y } : BSt S) l) a ∨
        Pair (addNode ({ s with units := u, unitClause := y } : BSt S) l) x a.var) := by
  have hxl : l.vals.getLsbD (x l.var) = true := by
    obtain ⟨l', h1, h2⟩ := hx.2 id hid
    by_cases e : l' = l
    · rw [← e]; exact h2
    · have h3 := hoth l' h1 e (x l'.var) h2
      rw [hx.1 _ (h.store.lok id hid l' h1).isVar] at h3; cases h3
  refine ⟨⟨?_, hx.2⟩, ?_⟩
  · intro v hv
    refine cur_addNode.2 ⟨hx.1 v hv, ?_⟩
    intro e; subst e; exact hxl
  · intro i hi a ha hor
    have hself : a.var = l.var → TrueNow (BV.addNode ({ s with units := u, unitClause := y } : BSt S) l) a := by
      intro e
      rcases hor with h1 | h1
      · exact trueNow_addNode (s := { s with units := u, unitClause := y }) h1
      · intro k hk
        rw [e] at hk
        obtain ⟨h2, h3⟩ := cur_addNode.1 hk
        have h2 : (s.cur l.var).getLsbD k = true := h2
        by_cases hkx : k = x l.var
        · obtain ⟨a', h4, h5⟩ := hx.2 i hi
          rw [ha, List.mem_singleton] at h4
          subst h4
          rw [hkx, ← e]; exact h5
        · exfalso
          apply hnt
          intro j hj
          cases hlj : l.vals.getLsbD j with
          | true => rfl
          | false =>
            have hjx : j ≠ x l.var := by intro e'; rw [e', hxl] at hlj; cases hlj
            rw [e] at h1
            have := h1 j k hj h2 hjx hkx
            rw [this, h3 rfl] at hlj; cases hlj
    refine ⟨hself, ?_⟩
    by_cases e : a.var = l.var
    · exact Or.inl (hself e)
    · rcases hor with h1 | h1
      · exact Or.inl (trueNow_addNode (s := { s with units := u, unitClause := y }) h1)
      · right
        intro j j' h2 h3
        exact h1 j j' (cur_addNode.1 h2).1 (cur_addNode.1 h3).1

/-- Nothing pending: one-literal clauses are true. -/
theorem BInv.one {s : BSt S} (h : BInv s) (hu : s.units = []) (hc : s.conflict = false ∨ s.LEVEL ≠ 0) {id : Nat}
    (hid : id < s.ncl) {a : BLit} (ha : (s.cl id).lits = [a]) : TrueL s 0 a := by
  rcases h.watch.single with ⟨h1, h2⟩ | h1
  · rcases hc with hc | hc
    · rw [hc] at h1; cases h1
    · exact absurd h2 hc
  · rcases h1 id hid a ha with h2 | ⟨_, h2, _⟩ | ⟨h2, _⟩
    · exact h2
    · cases h2
    · rw [hu] at h2; cases h2

theorem bunitProp_conflict {s : BSt S} (hc : s.conflict = true) (f : Nat) :
    bunitProp (f + 1) s = .ok { s with units := [] } := by
  unfold bunitProp; rw [if_pos hc]

theorem bunitProp_nil {s : BSt S} (hc : s.conflict = false) (hu : s.units = []) (f : Nat) :
    bunitProp (f + 1) s = .ok s := by
  unfold bunitProp
  rw [if_neg (by rw [hc]; simp), hu]

theorem bunitProp_cons {s : BSt S} (hc : s.conflict = false) {id : Nat} {rest : List Nat} (hu : s.units = id :: rest)
    (hid : id < s.ncl) {w : BLit} (hw : (s.cl id).w0 = some w) (hv : s.IsVar w.var) (f : Nat) :
    bunitProp (f + 1) s =
      if bsat s w = 2 then
        breduce { s with unitClause := id, units := rest } w >>= fun s2 => bunitProp f { s2 with nUnits := s2.nUnits + 1 }
      else if (s.cl id).lits.length > 1 then
        match (s.cl id).w1 with
        | none => .ub
        | some w' =>
          satW s (some w') >>= fun x =>
            if x = 2 then breduce { s with unitClause := id, units := rest } w' >>= fun s2 =>
              bunitProp f { s2 with nUnits := s2.nUnits + 1 }
            else bunitProp f { s with unitClause := id, units := rest }
      else bunitProp f { s with unitClause := id, units := rest } := by
  rw [bunitProp, if_neg (by rw [hc]; simp), hu]
  dsimp only
  rw [if_pos hid]
  have hcl : ∀ (x : Int) (u : List Nat), ({ s with unitClause := x, units := u } : BSt S).cl id = s.cl id := fun _ _ => rfl
  rw [hcl, hw]
  dsimp only
  have : ∀ (x : Int) (u : List Nat) (o : Option BLit), satW ({ s with unitClause := x, units := u } : BSt S) o = satW s o := fun _ _ _ => rfl
  rw [this, satW_some hv]
  rfl

/-- What is done with the first clause of the queue. -/
theorem bunitProp_step {U : Prop} {s : BSt S} (h : BInv s) (hc : s.conflict = false) (hU : HeadOK U s) {id : Nat}
    {rest : List Nat} (hu : s.units = id :: rest) :
    (∃ l, LOK s l ∧ l ∈ (s.cl id).lits ∧ ¬ TrueNow s l ∧ ¬ FalseNow s l ∧ (∀ l' ∈ (s.cl id).lits, l' ≠ l → FalseNow s l') ∧
      (∀ f, bunitProp (f + 1) s = (breduce { s with unitClause := id, units := rest } l >>= fun s2 =>
          bunitProp f { s2 with nUnits := s2.nUnits + 1 })) ∧
      SatU U (breduce { s with unitClause := id, units := rest } l) fun s2 =>
        BInv s2 ∧ Ext s s2 ∧ openVals s2 < openVals s ∧ HeadOK U s2) ∨
    ((∃ l ∈ (s.cl id).lits, TrueNow s l) ∧
      (∀ f, bunitProp (f + 1) s = bunitProp f { s with unitClause := id, units := rest }) ∧
      BInv ({ s with unitClause := id, units := rest } : BSt S) ∧
      HeadOK U ({ s with unitClause := id, units := rest } : BSt S)) := by
  obtain ⟨hid, l0, hl0, hoth⟩ := h.watch.units id (by rw [hu]; simp)
  have hw := h.store.wok id hid
  have hpop : ∀ l, l ∈ (s.cl id).lits → ∀ i ∈ s.units, i ∈ rest ∨ l ∈ (s.cl i).lits := by
    intro l hl i hi
    rw [hu] at hi
    rcases List.mem_cons.1 hi with rfl | hi
    · exact Or.inr hl
    · exact Or.inl hi
  -- propagating a literal
  have red : ∀ l, l ∈ (s.cl id).lits → bsat s l = 2 → LOK s l ∧ ¬ TrueNow s l ∧ ¬ FalseNow s l ∧
      (∀ l' ∈ (s.cl id).lits, l' ≠ l → FalseNow s l') ∧
      SatU U (breduce { s with unitClause := id, units := rest } l) fun s2 =>
        BInv s2 ∧ Ext s s2 ∧ openVals s2 < openVals s ∧ HeadOK U s2 := by
    intro l hl h2
    obtain ⟨hnt, hnf⟩ := bsat_two.1 h2
    have e : l = l0 := by
      apply Classical.byContradiction
      intro hne
      exact hnf (hoth l hl hne)
    subst e
    have hlok := h.store.lok id hid l hl
    refine ⟨hlok, hnt, hnf, hoth, ?_⟩
    have hone : OneOK U (addNode ({ s with units := rest, unitClause := (id : Int) } : BSt S) l) l.var ∧
        ∀ s2, Frame (addNode ({ s with units := rest, unitClause := (id : Int) } : BSt S) l) s2 → HeadOK U s2 := by
      rcases hU with hU | hU | ⟨x, hx, hU⟩
      · exact ⟨Or.inl hU, fun _ _ => Or.inl hU⟩
      · suffices hall : ∀ i, i < s.ncl → ∀ a, (s.cl i).lits = [a] →
            TrueNow (addNode ({ s with units := rest, unitClause := (id : Int) } : BSt S) l) a from
          ⟨Or.inr fun i hi a ha _ => hall i hi a ha, fun s2 hf => Or.inr (Or.inl fun i hi a ha => Or.inl (by
            rw [TrueNow.congr hf.cur]
            exact hall i (hf.ncl ▸ hi) a (by rw [hf.lits] at ha; exact ha)))⟩
        intro i hi a ha
        rcases hU i hi a ha with h3 | h3
        · exact trueNow_addNode (s := { s with units := rest, unitClause := (id : Int) }) h3
        · rw [hu] at h3
          cases h3
          have ha' : (s.cl id).lits = [a] := ha
          rw [ha', List.mem_singleton] at hl
          subst hl
          exact trueNow_self
      · obtain ⟨hp, hq⟩ := hx.addNode h hid hl hoth hnt rest (id : Int)
        refine ⟨Or.inr fun i hi a ha hv => (hq i hi a ha (hU i hi a ha)).1 hv, ?_⟩
        intro s2 hf
        refine Or.inr (Or.inr ⟨x, ⟨?_, ?_⟩, ?_⟩)
        · intro v hv
          rw [hf.cur]; exact hp.1 v (by have := hf.nv; unfold BSt.IsVar at hv ⊢; rw [this] at hv; exact hv)
        · intro i hi
          rw [hf.lits]; exact hp.2 i (hf.ncl ▸ hi)
        · intro i hi a ha
          rw [TrueNow.congr hf.cur]
          rw [hf.lits] at ha
          rcases (hq i (hf.ncl ▸ hi) a ha (hU i (hf.ncl ▸ hi) a ha)).2 with h3 | h3
          · exact Or.inl h3
          · right
            unfold Pair
            rw [hf.cur]; exact h3
    refine (breduce_spec h hc hlok hnf hnt (u := rest) (x := id) (fun i hi => by rw [hu]; exact List.mem_cons_of_mem _ hi)
      (hpop l hl) (Or.inr ⟨id, rfl, hid, hl, hoth⟩) hone.1).mono ?_
    rintro s2 ⟨h3, h4, h5, _, h6⟩
    exact ⟨h3, h4, h5, hone.2 s2 h6⟩
  -- skipping the clause
  have skip : (∃ l ∈ (s.cl id).lits, TrueNow s l) →
      (∀ w w', IsW (s.cl id) w → IsW (s.cl id) w' → w ≠ w' → FalseNow s w → TrueNow s w') →
      (∀ a, (s.cl id).lits = [a] → TrueNow s a) →
      BInv ({ s with unitClause := id, units := rest } : BSt S) ∧
      HeadOK U ({ s with unitClause := id, units := rest } : BSt S) := by
    intro _ h1 h2
    constructor
    · have := h.setUnits rest (fun i hi => by rw [hu]; exact List.mem_cons_of_mem _ hi) (by
        intro _ i hi
        rw [hu] at hi
        rcases List.mem_cons.1 hi with rfl | hi
        · exact Or.inr ⟨h1, h2⟩
        · exact Or.inl hi)
      exact this.stats s.score id s.nUnits s.nBacktracks s.nDecisions s.nRestarts s.ticks
    · rcases hU with hU | hU | hU
      · exact Or.inl hU
      · right; left
        intro i hi a ha
        rcases hU i hi a ha with h3 | h3
        · exact Or.inl h3
        · rw [hu] at h3; cases h3
          exact Or.inl (h2 a ha)
      · exact Or.inr (Or.inr hU)
  rcases hwc : hw with ⟨a, hl, ha, hb⟩ | ⟨hlen, a, b, ha, hb, hma, hmb, hab⟩
  · have hma : a ∈ (s.cl id).lits := by rw [hl]; simp
    have hla := h.store.lok id hid a hma
    by_cases h2 : bsat s a = 2
    · left
      obtain ⟨r1, r2, r3, r4, r5⟩ := red a hma h2
      refine ⟨a, r1, hma, r2, r3, r4, ?_, r5⟩
      intro f
      rw [bunitProp_cons hc hu hid ha hla.isVar, if_pos h2]
    · right
      have hta : TrueNow s a := by
        rcases h.watch.single with h1 | h1
        · rw [hc] at h1; cases h1.1
        · rcases h1 id hid a hl with h3 | ⟨_, h3, _⟩ | ⟨_, _, h4⟩
          · exact h.trail.trueNow_of_trueL hla.isVar h3
          · cases h3
          · apply Classical.byContradiction
            intro hnt
            exact h2 (bsat_two.2 ⟨hnt, h4⟩)
      refine ⟨⟨a, hma, hta⟩, ?_, ?_⟩
      · intro f
        rw [bunitProp_cons hc hu hid ha hla.isVar, if_neg h2, if_neg (by rw [hl]; simp)]
      · refine skip ⟨a, hma, hta⟩ ?_ ?_
        · intro w w' hw1 hw2 hne
          have := hw.len hw1 hw2 hne
          rw [hl] at this; simp at this
        · intro x hx; rw [hl] at hx; cases hx; exact hta
  · have hla := h.store.lok id hid a hma
    have hlb := h.store.lok id hid b hmb
    have hisw : ∀ w, IsW (s.cl id) w → w = a ∨ w = b := by
      intro w hw'
      rcases hw' with h1 | h1
      · rw [ha] at h1; cases h1; exact Or.inl rfl
      · rw [hb] at h1; cases h1; exact Or.inr rfl
    by_cases h2 : bsat s a = 2
    · left
      obtain ⟨r1, r2, r3, r4, r5⟩ := red a hma h2
      refine ⟨a, r1, hma, r2, r3, r4, ?_, r5⟩
      intro f
      rw [bunitProp_cons hc hu hid ha hla.isVar, if_pos h2]
    · by_cases h3 : bsat s b = 2
      · left
        obtain ⟨r1, r2, r3, r4, r5⟩ := red b hmb h3
        refine ⟨b, r1, hmb, r2, r3, r4, ?_, r5⟩
        intro f
        rw [bunitProp_cons hc hu hid ha hla.isVar, if_neg h2, if_pos hlen, hb]
        dsimp only
        rw [satW_some hlb.isVar]
        show (if bsat s b = 2 then _ else _ : Res (BSt S)) = _
        rw [if_pos h3]
      · right
        have hne : a ≠ b := fun e => hab (e ▸ rfl)
        have key : ∀ w w', IsW (s.cl id) w → IsW (s.cl id) w' → w ≠ w' → FalseNow s w → TrueNow s w' := by
          intro w w' hw1 hw2 hne' hf
          have hnf : ¬ FalseNow s w' := by
            intro hf'
            exact absurd (h.watch.both hc id hid w w' hw1 hw2 hne' hf hf') (by simp)
          apply Classical.byContradiction
          intro hnt
          have := bsat_two.2 ⟨hnt, hnf⟩
          rcases hisw w' hw2 with rfl | rfl
          · exact h2 this
          · exact h3 this
        have hsome : ∃ l ∈ (s.cl id).lits, TrueNow s l := by
          by_cases hta : TrueNow s a
          · exact ⟨a, hma, hta⟩
          · have hfa : FalseNow s a := Classical.byContradiction fun hnf => h2 (bsat_two.2 ⟨hta, hnf⟩)
            exact ⟨b, hmb, key a b (Or.inl ha) (Or.inr hb) hne hfa⟩
        refine ⟨hsome, ?_, skip hsome key ?_⟩
        · intro f
          rw [bunitProp_cons hc hu hid ha hla.isVar, if_neg h2, if_pos hlen, hb]
          dsimp only
          rw [satW_some hlb.isVar]
          show (if bsat s b = 2 then _ else _ : Res (BSt S)) = _
          rw [if_neg h3]
        · intro x hx; rw [hx] at hlen; simp at hlen

theorem Ext.stats {s s' : BSt S} (h : Ext s s') (n : Nat) (uc : Int) (u : List Nat) :
    Ext s ({ s' with nUnits := n, unitClause := uc, units := u } : BSt S) :=
  ⟨h.1, h.2, h.3, h.4, h.5, h.6, h.7, h.8, h.9, h.10, h.11, h.12, h.13, h.14⟩

theorem bunitProp_spec {U : Prop} : ∀ (f : Nat) {s : BSt S}, BInv s → HeadOK U s →
    SatU U (bunitProp f s) fun s' => BInv s' ∧ Ext s s' ∧ s'.units = []
  | 0, _, _, _ => trivial
  | f + 1, s, h, hU => by
    cases hc : s.conflict with
    | true =>
      rw [bunitProp_conflict hc]
      refine ⟨h.setUnits [] (by simp) (by rw [hc]; intro h1; cases h1), (Ext.refl s).stats _ _ _, rfl⟩
    | false =>
      cases hu : s.units with
      | nil =>
        rw [bunitProp_nil hc hu]
        exact ⟨h, Ext.refl s, hu⟩
      | cons id rest =>
        rcases bunitProp_step h hc hU hu with ⟨l, _, _, _, _, _, e, hs⟩ | ⟨_, e, h1, h2⟩
        · rw [e]
          refine hs.bind ?_
          rintro s2 ⟨h1, h2, h3, h4⟩
          have h1' := h1.stats s2.score s2.unitClause (s2.nUnits + 1) s2.nBacktracks s2.nDecisions s2.nRestarts s2.ticks
          refine (bunitProp_spec f h1' h4).mono ?_
          rintro s3 ⟨h5, h6, h7⟩
          exact ⟨h5, (h2.stats _ _ _).trans h6, h7⟩
        · rw [e]
          refine (bunitProp_spec f h1 h2).mono ?_
          rintro s3 ⟨h5, h6, h7⟩
          exact ⟨h5, ((Ext.refl s).stats _ _ _).trans h6, h7⟩

/-! ## It stops -/

theorem bind_ne_fuel {α β : Type} {x : Res α} {g : α → Res β} (hx : x ≠ .fuel) (hg : ∀ a, x = .ok a → g a ≠ .fuel) :
    (x >>= g) ≠ .fuel := by
  cases x with
  | ok a => exact hg a rfl
  | ub => intro h; cases h
  | fuel => exact absurd rfl hx

theorem bind_mono {α β : Type} {x x' : Res α} {g g' : α → Res β} (hx : x ≠ .fuel → x' = x)
    (hg : ∀ a, g a ≠ .fuel → g' a = g a) (h : (x >>= g) ≠ .fuel) : (x' >>= g') = (x >>= g) := by
  cases x with
  | ok a => rw [hx (by simp)]; exact hg a h
  | ub => rw [hx (by simp)]; rfl
  | fuel => exact absurd rfl h

theorem satW_ne_fuel (s : BSt S) (o : Option BLit) : satW s o ≠ .fuel := by
  unfold satW; split
  · simp
  · split <;> simp

theorem bind_ne {α β : Type} {x : Res α} {g : α → Res β} (hx : x ≠ .fuel) (hg : ∀ a, g a ≠ .fuel) : (x >>= g) ≠ .fuel :=
  bind_ne_fuel hx fun a _ => hg a

theorem ite_ne {α : Type} {c : Prop} [Decidable c] {x y : Res α} (hx : x ≠ .fuel) (hy : y ≠ .fuel) :
    (if c then x else y) ≠ .fuel := by split <;> assumption

theorem removeRec_ne_fuel (s : BSt S) (v home id : Nat) : removeRec s v home id ≠ .fuel := by
  unfold removeRec; exact ite_ne (by simp) (by simp)

theorem ok_ne {α : Type} (a : α) : (Res.ok a) ≠ Res.fuel := by intro h; cases h

theorem pure_ne {α : Type} (a : α) : (pure a : Res α) ≠ Res.fuel := by intro h; cases h

theorem ub_ne {α : Type} : (Res.ub : Res α) ≠ Res.fuel := by intro h; cases h

theorem swapPointer_ne_fuel (s : BSt S) (v id : Nat) : swapPointer s v id ≠ .fuel := by
  unfold swapPointer
  dsimp only
  split
  · refine bind_ne (satW_ne_fuel _ _) fun x => ite_ne ?_ (pure_ne _)
    split
    · exact bind_ne (removeRec_ne_fuel _ _ _ _) fun _ => pure_ne _
    · exact pure_ne _
  · exact ub_ne

theorem updateOne_ne_fuel (v : Nat) (s : BSt S) (id : Nat) : updateOne v s id ≠ .fuel := by
  unfold updateOne
  refine ite_ne (ok_ne _) (ite_ne ?_ ub_ne)
  refine bind_ne (satW_ne_fuel _ _) fun x => ite_ne (pure_ne _) ?_
  refine bind_ne (satW_ne_fuel _ _) fun y => ite_ne (pure_ne _) ?_
  exact bind_ne (satW_ne_fuel _ _) fun z => ite_ne (swapPointer_ne_fuel _ _ _) (pure_ne _)

theorem updateList_ne_fuel (v : Nat) : ∀ (ids : List Nat) (s : BSt S), updateList v ids s ≠ .fuel
  | [], _ => ok_ne _
  | id :: ids, s => by
    unfold updateList
    exact bind_ne (updateOne_ne_fuel v s id) fun s => updateList_ne_fuel v ids s

theorem breduce_ne_fuel (s : BSt S) (l : BLit) : breduce s l ≠ .fuel := by
  rw [breduce_eq]; exact ite_ne (ok_ne _) (updateList_ne_fuel _ _ _)

theorem bunitProp_mono : ∀ (f : Nat) (s : BSt S), bunitProp f s ≠ .fuel → bunitProp (f + 1) s = bunitProp f s
  | 0, _, h => absurd rfl h
  | f + 1, s, h => by
    unfold bunitProp at h ⊢
    by_cases hc : s.conflict = true
    · rw [if_pos hc, if_pos hc]
    · rw [if_neg hc] at h; rw [if_neg hc, if_neg hc]
      cases hu : s.units with
      | nil => rfl
      | cons id rest =>
        rw [hu] at h
        dsimp only at h ⊢
        by_cases hid : id < s.ncl
        · rw [if_pos hid] at h; rw [if_pos hid, if_pos hid]
          cases hw : (({ s with unitClause := (id : Int), units := rest } : BSt S).cl id).w0 with
          | none => rfl
          | some w =>
            rw [hw] at h
            dsimp only at h ⊢
            refine bind_mono (fun _ => rfl) ?_ h
            intro x hx
            by_cases h2 : x = 2
            · rw [if_pos h2] at hx; rw [if_pos h2, if_pos h2]
              exact bind_mono (fun _ => rfl) (fun a ha => bunitProp_mono f _ ha) hx
            · rw [if_neg h2] at hx; rw [if_neg h2, if_neg h2]
              by_cases h3 : (({ s with unitClause := (id : Int), units := rest } : BSt S).cl id).lits.length > 1
              · rw [if_pos h3] at hx; rw [if_pos h3, if_pos h3]
                cases hw1 : (({ s with unitClause := (id : Int), units := rest } : BSt S).cl id).w1 with
                | none => rfl
                | some w' =>
                  rw [hw1] at hx
                  dsimp only at hx ⊢
                  refine bind_mono (fun _ => rfl) ?_ hx
                  intro y hy
                  by_cases h4 : y = 2
                  · rw [if_pos h4] at hy; rw [if_pos h4, if_pos h4]
                    exact bind_mono (fun _ => rfl) (fun a ha => bunitProp_mono f _ ha) hy
                  · rw [if_neg h4] at hy; rw [if_neg h4, if_neg h4]
                    exact bunitProp_mono f _ hy
              · rw [if_neg h3] at hx; rw [if_neg h3, if_neg h3]
                exact bunitProp_mono f _ hx
        · rw [if_neg hid, if_neg hid]

theorem mono_le {α : Type} {g : Nat → Res α} (h : ∀ f, g f ≠ .fuel → g (f + 1) = g f) {f f' : Nat} (hf : f ≤ f')
    (hne : g f ≠ .fuel) : g f' = g f := by
  induction hf with
  | refl => rfl
  | step _ ih => rw [h _ (by rw [ih]; exact hne), ih]

theorem bunitProp_stops : ∀ (n m : Nat) {s : BSt S}, BInv s → openVals s ≤ n → s.units.length ≤ m →
    ∃ f, bunitProp f s ≠ .fuel := by
  intro n
  induction n using Nat.strongRecOn with
  | ind n ihn =>
  intro m
  induction m with
  | zero =>
    intro s h _ hm
    refine ⟨1, ?_⟩
    cases hc : s.conflict with
    | true => rw [bunitProp_conflict hc]; exact ok_ne _
    | false => rw [bunitProp_nil hc (List.length_eq_zero_iff.1 (by omega))]; exact ok_ne _
  | succ m ihm =>
    intro s h hn hm
    cases hc : s.conflict with
    | true => exact ⟨1, by rw [bunitProp_conflict hc]; exact ok_ne _⟩
    | false =>
      cases hu : s.units with
      | nil => exact ⟨1, by rw [bunitProp_nil hc hu]; exact ok_ne _⟩
      | cons id rest =>
        rcases bunitProp_step (U := True) h hc (Or.inl trivial) hu with ⟨l, _, _, _, _, _, e, hs⟩ | ⟨_, e, h1, h2⟩
        · cases hr : breduce { s with unitClause := (id : Int), units := rest } l with
          | fuel => exact absurd hr (breduce_ne_fuel _ _)
          | ub => exact ⟨1, by rw [e, hr]; exact ub_ne⟩
          | ok s2 =>
            rw [hr] at hs
            obtain ⟨h1, h2, h3, h4⟩ := hs
            have h1' := h1.stats s2.score s2.unitClause (s2.nUnits + 1) s2.nBacktracks s2.nDecisions s2.nRestarts s2.ticks
            obtain ⟨f, hf⟩ := ihn (openVals s2) (by omega) s2.units.length h1' (Nat.le_refl _) (Nat.le_refl _)
            exact ⟨f + 1, by rw [e, hr]; exact hf⟩
        · rw [hu] at hm
          obtain ⟨f, hf⟩ := ihm h1 hn (by simpa using hm)
          exact ⟨f + 1, by rw [e]; exact hf⟩

end Mvl.BV
