import Verif.Proof.Engine

/-!
# Recorded reasons and conflict analysis

Shared by the counter-mode and watched-literal searches.
-/

namespace Mvl

variable {S : Type}

/-- The literals of clause number `id`. -/
def St.lits? (s : St S) (id : Nat) : Option (List Lit) := if id < s.ncl then some (s.cl id).lits else none

/-- The reason recorded for an assigned atom explains it. -/
def ReasonOK (t : Trail) (cls : Nat → Option (List Lit)) (v d : Nat) : Prop :=
  (t.rsn v d = -1 ∧ ∀ v' d', t.asg v' d' ≠ .un → t.lvl v' d' = t.lvl v d → t.idx v d ≤ t.idx v' d') ∨
  (t.rsn v d = -2 ∧ t.asg v d = .eq ∧
    (∀ e, e < t.dom v → e ≠ d → t.asg v e = .ne ∧ t.idx v e < t.idx v d) ∧
    ∃ e, e < t.dom v ∧ e ≠ d ∧ t.lvl v e = t.lvl v d) ∨
  (∃ (id : Nat) (c : List Lit) (L : Lit), t.rsn v d = id ∧ cls id = some c ∧
    t.decs[(t.idx v d).toNat]? = some L ∧ L ∈ c ∧
    (∀ x ∈ c, x ≠ L → LF t.asg x ∧ t.idx x.var x.val < t.idx v d) ∧
    ∃ x ∈ c, x ≠ L ∧ t.lvl x.var x.val = t.lvl v d)

/-- All recorded reasons above level 0 are right. -/
def Reasons (t : Trail) (cls : Nat → Option (List Lit)) : Prop :=
  ∀ v d, t.asg v d ≠ .un → 1 ≤ t.lvl v d → ReasonOK t cls v d

theorem LF_ne_un {g : PA} {l : Lit} (h : LF g l) : g l.var l.val ≠ .un := fun h' => h.not_LU h'

theorem LT_ne_un {g : PA} {l : Lit} (h : LT g l) : g l.var l.val ≠ .un := fun h' => h.not_LU h'

/-- The literal assigned by `Ext` is either a decision, or forced by a clause. -/
def Cause (t : Trail) (cls : Nat → Option (List Lit)) (l : Lit) (r : Int) : Prop :=
  t.LEVEL = 0 ∨
  (r = -1 ∧ ∀ v d, t.asg v d ≠ .un → t.lvl v d < t.LEVEL) ∨
  (∃ (id : Nat) (c : List Lit), r = id ∧ cls id = some c ∧ l ∈ c ∧ (∀ x ∈ c, x ≠ l → LF t.asg x) ∧
    ∃ x ∈ c, x ≠ l ∧ t.lvl x.var x.val = t.LEVEL)

theorem Ext.reasons {t t' : Trail} {l : Lit} {r : Int} {cls : Nat → Option (List Lit)} (h : Ext t l r t') (hb : t.Base)
    (hr : t.Rng l.var l.val) (hu : LU t.asg l) (hrs : Reasons t cls) (hc : Cause t cls l r) : Reasons t' cls := by
  obtain ⟨ds, hds⟩ := h.decs
  have hpre : ∀ (i : Nat) (L : Lit), t.decs[i]? = some L → t'.decs[i]? = some L := by
    intro i L hL
    obtain ⟨hlt, _⟩ := List.getElem?_eq_some_iff.1 hL
    rw [hds, List.getElem?_append_left hlt]; exact hL
  have hlen : t'.decs[t.decs.length]? = some l := by rw [hds]; simp
  -- every new atom comes after every old one
  have hord : ∀ v d v' d', t.asg v d ≠ .un → t'.asg v' d' ≠ .un → t.asg v' d' = .un → t'.idx v d < t'.idx v' d' := by
    intro v d v' d' h1 h2 h3
    have := (hb.idx_lt h1).2
    rw [(h.old v d h1).2.2.2]
    rcases (h.new v' d' h3 h2).2.2 with ⟨_, h5, _⟩ | ⟨_, _, _, _, h5, _⟩ <;> omega
  have hnewle : ∀ v' d', t'.asg v' d' ≠ .un → t.asg v' d' = .un → (t.decs.length : Int) ≤ t'.idx v' d' := by
    intro v' d' h2 h3
    rcases (h.new v' d' h3 h2).2.2 with ⟨_, h5, _⟩ | ⟨_, _, _, _, h5, _⟩ <;> omega
  have hLF : ∀ x, LF t.asg x → LF t'.asg x := by
    intro x hx
    unfold LF at *
    rw [(h.old _ _ (LF_ne_un hx)).1]; exact hx
  intro v d hn hl
  by_cases hold : t.asg v d = .un
  · obtain ⟨hv, hlv, hcase⟩ := h.new v d hold hn
    rcases hcase with ⟨hrs1, hix, hval⟩ | ⟨hle, hrs2, hdl, heq, hix, hdd, hothers⟩
    · rcases hc with hc | ⟨hr1, hlow⟩ | ⟨id, c, hrid, hcid, hlc, hfalse, x, hx, hxl, hxlv⟩
      · omega
      · left
        refine ⟨by rw [hrs1, hr1], ?_⟩
        intro v' d' hn' hl'
        by_cases ho' : t.asg v' d' = .un
        · have := hnewle v' d' hn' ho'; omega
        · have := hlow v' d' ho'
          rw [(h.old v' d' ho').2.1] at hl'; omega
      · right; right
        refine ⟨id, c, l, by rw [hrs1, hrid], hcid, ?_, hlc, ?_, x, hx, hxl, ?_⟩
        · rw [hix]; simpa using hlen
        · intro y hy hyl
          have hyf := hfalse y hy hyl
          refine ⟨hLF y hyf, ?_⟩
          have := (hb.idx_lt (LF_ne_un hyf)).2
          rw [(h.old _ _ (LF_ne_un hyf)).2.2.2]; omega
        · rw [(h.old _ _ (LF_ne_un (hfalse x hx hxl))).2.1, hxlv, hlv]
    · right; left
      refine ⟨hrs2, heq, ?_, l.val, ?_, ?_, ?_⟩
      · intro e he hed
        rw [h.dom] at he
        obtain ⟨h1, h2⟩ := hothers e he hed
        exact ⟨h1, by omega⟩
      · rw [h.dom, hv]; exact hr.2.2
      · exact fun h => hdl h.symm
      · have hlu : t.asg v l.val = .un := by rw [hv]; exact hu
        have hln : t'.asg v l.val ≠ .un := by rw [hv]; exact LT_ne_un h.lt
        rw [hlv, (h.new v l.val hlu hln).2.1]
  · obtain ⟨o1, o2, o3, o4⟩ := h.old v d hold
    have hlt := hb.idx_lt hold
    rcases hrs v d hold (by omega) with ⟨h1, h2⟩ | ⟨h1, h2, h3, e, h4, h5, h6⟩ | ⟨id, c, L, h1, h2, h3, h4, h5, x, h6, h7, h8⟩
    · left
      refine ⟨by rw [o3, h1], ?_⟩
      intro v' d' hn' hl'
      by_cases ho' : t.asg v' d' = .un
      · have := hord v d v' d' hold hn' ho'; omega
      · obtain ⟨p1, p2, p3, p4⟩ := h.old v' d' ho'
        have := h2 v' d' ho' (by omega)
        omega
    · right; left
      refine ⟨by rw [o3, h1], by rw [o1, h2], ?_, e, by rw [h.dom]; exact h4, h5, ?_⟩
      · intro e' he' hed'
        rw [h.dom] at he'
        obtain ⟨q1, q2⟩ := h3 e' he' hed'
        obtain ⟨p1, p2, p3, p4⟩ := h.old v e' (by rw [q1]; simp)
        exact ⟨by rw [p1, q1], by omega⟩
      · obtain ⟨p1, p2, p3, p4⟩ := h.old v e (by rw [(h3 e h4 h5).1]; simp)
        omega
    · right; right
      refine ⟨id, c, L, by rw [o3, h1], h2, ?_, h4, ?_, x, h6, h7, ?_⟩
      · rw [o4]; exact hpre _ _ h3
      · intro y hy hyl
        obtain ⟨q1, q2⟩ := h5 y hy hyl
        refine ⟨hLF y q1, ?_⟩
        rw [(h.old _ _ (LF_ne_un q1)).2.2.2]; omega
      · rw [(h.old _ _ (LF_ne_un (h5 x h6 h7).1)).2.1]; omega

theorem Reasons.undo {t : Trail} {cls : Nat → Option (List Lit)} (hb : t.Base) (hrs : Reasons t cls) {k : Int} :
    Reasons ((t.undo k).level k) cls := by
  have hne : ∀ v d, ((t.undo k).level k).asg v d ≠ .un → t.asg v d ≠ .un ∧ t.lvl v d ≤ k ∧
      ((t.undo k).level k).asg v d = t.asg v d ∧ ((t.undo k).level k).lvl v d = t.lvl v d ∧
      ((t.undo k).level k).rsn v d = t.rsn v d := by
    intro v d hx
    obtain ⟨h1, h2, h3⟩ := Trail.asgAt_ne_un hx
    refine ⟨h1, h2, h3, ?_, ?_⟩ <;> simp only [Trail.undo, Trail.level] <;> rw [if_neg (by omega)]
  have hkeep : ∀ v d, t.asg v d ≠ .un → t.lvl v d ≤ k → ((t.undo k).level k).asg v d = t.asg v d ∧
      ((t.undo k).level k).lvl v d = t.lvl v d := by
    intro v d h1 h2
    have : ((t.undo k).level k).asg v d = t.asg v d := Trail.asgAt_eq_of_le h2
    exact ⟨this, (hne v d (by rw [this]; exact h1)).2.2.2.1⟩
  have hdecs : ∀ (i : Nat) (L : Lit), t.decs[i]? = some L → t.lvl L.var L.val ≤ k →
      ((t.undo k).level k).decs[i]? = some L := by
    intro i L hL hk
    have hdown : ∀ (i j : Nat) (x y : Lit), i ≤ j → t.decs[i]? = some x → t.decs[j]? = some y →
      (decide (t.asgAt k y.var y.val ≠ .un)) = true → (decide (t.asgAt k x.var x.val ≠ .un)) = true := by
      intro i j x y hij hx hy hp
      simp only [decide_eq_true_eq] at hp ⊢
      obtain ⟨_, h2, _⟩ := Trail.asgAt_ne_un hp
      have h3 := hb.d3 i j x y hij hx hy
      rw [Trail.asgAt_eq_of_le (by omega)]
      exact fun h' => (hb.d2 i x hx).1.not_LU h'
    have := (Trail.filter_getElem? hdown i L).2 ⟨hL, by
      simp only [decide_eq_true_eq]
      rw [Trail.asgAt_eq_of_le hk]
      exact LT_ne_un (hb.d2 i L hL).1⟩
    exact this
  have hidx : ∀ v d, ((t.undo k).level k).idx v d = t.idx v d := fun _ _ => rfl
  intro v d hn hl
  obtain ⟨h1, h2, h3, h4, h5⟩ := hne v d hn
  rcases hrs v d h1 (by omega) with ⟨r1, r2⟩ | ⟨r1, r2, r3, e, r4, r5, r6⟩ | ⟨id, c, L, r1, r2, r3, r4, r5, x, r6, r7, r8⟩
  · left
    refine ⟨by rw [h5, r1], ?_⟩
    intro v' d' hn' hl'
    obtain ⟨p1, p2, p3, p4, p5⟩ := hne v' d' hn'
    rw [hidx, hidx]
    exact r2 v' d' p1 (by omega)
  · right; left
    have hk : ∀ e, e < t.dom v → e ≠ d → ((t.undo k).level k).asg v e = t.asg v e ∧
      ((t.undo k).level k).lvl v e = t.lvl v e := by
      intro e he hed
      obtain ⟨q1, q2⟩ := r3 e he hed
      have := Trail.lvl_le_of_idx hb (by rw [q1]; simp) h1 (Int.le_of_lt q2)
      exact hkeep v e (by rw [q1]; simp) (by omega)
    refine ⟨by rw [h5, r1], by rw [h3, r2], ?_, e, r4, r5, ?_⟩
    · intro e' he' hed'
      obtain ⟨q1, q2⟩ := r3 e' he' hed'
      rw [(hk e' he' hed').1, hidx, hidx]
      exact ⟨q1, q2⟩
    · rw [(hk e r4 r5).2, h4, r6]
  · right; right
    have hk : ∀ y ∈ c, y ≠ L → ((t.undo k).level k).asg y.var y.val = t.asg y.var y.val ∧
      ((t.undo k).level k).lvl y.var y.val = t.lvl y.var y.val := by
      intro y hy hyl
      obtain ⟨q1, q2⟩ := r5 y hy hyl
      have := Trail.lvl_le_of_idx hb (LF_ne_un q1) h1 (Int.le_of_lt q2)
      exact hkeep _ _ (LF_ne_un q1) (by omega)
    refine ⟨id, c, L, by rw [h5, r1], r2, ?_, r4, ?_, x, r6, r7, ?_⟩
    · rw [hidx]
      apply hdecs _ _ r3
      obtain ⟨i, M, m1, m2, m3, m4, _⟩ := hb.d1 v d h1
      rw [m1] at r3
      have : t.decs[i]? = some L := by simpa using r3
      rw [m2] at this; cases this
      rw [m3, m4]; exact h2
    · intro y hy hyl
      obtain ⟨q1, q2⟩ := r5 y hy hyl
      refine ⟨?_, by rw [hidx, hidx]; exact q2⟩
      unfold LF at *
      rw [(hk y hy hyl).1]; exact q1
    · rw [(hk x r6 r7).2, h4, r8]

theorem Reasons.mono {t : Trail} {cls cls' : Nat → Option (List Lit)} (h : Reasons t cls)
    (hc : ∀ id c, cls id = some c → cls' id = some c) : Reasons t cls' := by
  intro v d hn hl
  rcases h v d hn hl with h | h | ⟨id, c, L, h1, h2, h3⟩
  · exact Or.inl h
  · exact Or.inr (Or.inl h)
  · exact Or.inr (Or.inr ⟨id, c, L, h1, hc id c h2, h3⟩)

/-! ### Resolution -/

theorem falsifies_iff {x y : Lit} : falsifies x y = true ↔
    x.var = y.var ∧ ((x.val = y.val ∧ x.eq ≠ y.eq) ∨ (x.val ≠ y.val ∧ x.eq = true ∧ y.eq = true)) := by
  unfold falsifies
  by_cases h1 : x.var = y.var
  · rw [if_neg (by simpa using h1)]
    by_cases h2 : x.val = y.val
    · rw [if_neg (by simp [h2])]
      by_cases h3 : x.eq = y.eq
      · simp [h2, h3]
      · simp [h1, h2, h3]
    · cases hx : x.eq <;> cases hy : y.eq <;> simp [h1, h2]
  · rw [if_pos h1]; simp [h1]

theorem falsifies_holds {x y : Lit} (h : falsifies x y = true) {a : Assignment} (hx : x.holds a) : ¬ y.holds a := by
  obtain ⟨h1, h2⟩ := falsifies_iff.1 h
  unfold Lit.holds at *
  rcases h2 with ⟨h2, h3⟩ | ⟨h2, h3, h4⟩
  · cases hxe : x.eq <;> cases hye : y.eq <;> rw [hxe, hye] at h3 <;> simp_all
  · rw [h3] at hx
    rw [h4, ← h1]
    simp only [if_true] at hx ⊢
    rw [hx]; exact h2

theorem hasAtom_iff {c : List Lit} {a : Lit} : hasAtom c a = true ↔ a ∈ c := by
  unfold hasAtom
  rw [List.any_eq_true]
  constructor
  · rintro ⟨x, hx, he⟩
    rw [beq_iff_eq] at he; rw [he]; exact hx
  · intro h; exact ⟨a, h, by simp⟩

theorem resFold_mem (l : Lit) : ∀ (r acc : List Lit) (x : Lit),
    x ∈ r.foldl (fun acc r => if ¬ falsifies r l ∧ ¬ hasAtom acc r then acc ++ [r] else acc) acc ↔
      x ∈ acc ∨ (x ∈ r ∧ ¬ falsifies x l = true)
  | [], acc, x => by simp
  | y :: r, acc, x => by
    rw [List.foldl_cons, resFold_mem l r]
    by_cases hf : falsifies y l = true
    · rw [if_neg (by simp [hf])]
      constructor
      · rintro (h | ⟨h, h'⟩)
        · exact Or.inl h
        · exact Or.inr ⟨by simp [h], h'⟩
      · rintro (h | ⟨h, h'⟩)
        · exact Or.inl h
        · rcases List.mem_cons.1 h with rfl | h
          · exact absurd hf h'
          · exact Or.inr ⟨h, h'⟩
    · by_cases ha : hasAtom acc y = true
      · rw [if_neg (by simp [ha])]
        constructor
        · rintro (h | ⟨h, h'⟩)
          · exact Or.inl h
          · exact Or.inr ⟨by simp [h], h'⟩
        · rintro (h | ⟨h, h'⟩)
          · exact Or.inl h
          · rcases List.mem_cons.1 h with rfl | h
            · exact Or.inl (hasAtom_iff.1 ha)
            · exact Or.inr ⟨h, h'⟩
      · rw [if_pos ⟨hf, ha⟩]
        constructor
        · rintro (h | ⟨h, h'⟩)
          · rcases List.mem_append.1 h with h | h
            · exact Or.inl h
            · simp at h; subst h; exact Or.inr ⟨by simp, hf⟩
          · exact Or.inr ⟨by simp [h], h'⟩
        · rintro (h | ⟨h, h'⟩)
          · exact Or.inl (by simp [h])
          · rcases List.mem_cons.1 h with rfl | h
            · exact Or.inl (by simp)
            · exact Or.inr ⟨h, h'⟩

theorem mem_resolve {c r : List Lit} {l x : Lit} : x ∈ resolve c l r ↔
    (x ∈ c ∧ ¬ falsifies x l.neg = true) ∨ (x ∈ r ∧ ¬ falsifies x l = true) := by
  unfold resolve
  rw [resFold_mem]
  simp

theorem resFold_nodup (l : Lit) : ∀ (r acc : List Lit), acc.Nodup →
    (r.foldl (fun acc r => if ¬ falsifies r l ∧ ¬ hasAtom acc r then acc ++ [r] else acc) acc).Nodup
  | [], acc, h => h
  | y :: r, acc, h => by
    rw [List.foldl_cons]
    apply resFold_nodup l r
    split
    · rename_i hc
      rw [List.nodup_append]
      refine ⟨h, by simp, ?_⟩
      intro a ha b hb
      simp at hb; subst hb
      rintro rfl
      exact hc.2 (hasAtom_iff.2 ha)
    · exact h

theorem resolve_nodup {c r : List Lit} {l : Lit} (h : c.Nodup) : (resolve c l r).Nodup :=
  resFold_nodup l r _ (h.filter _)

theorem Lit.neg_holds {l : Lit} {a : Assignment} : l.neg.holds a ↔ ¬ l.holds a := by
  unfold Lit.neg Lit.holds
  cases l.eq <;> simp

theorem Lit.neg_neg (l : Lit) : l.neg.neg = l := by
  unfold Lit.neg; simp

/-- Resolution is sound. -/
theorem resolve_sound {c r : List Lit} (l : Lit) {a : Assignment} (hc : clauseHolds a c) (hr : clauseHolds a r) :
    clauseHolds a (resolve c l r) := by
  obtain ⟨x, hx, hxa⟩ := hc
  by_cases hf : falsifies x l.neg = true
  · have hl : l.holds a := by
      have := falsifies_holds hf hxa
      rw [Lit.neg_holds] at this
      exact Classical.byContradiction this
    obtain ⟨y, hy, hya⟩ := hr
    refine ⟨y, mem_resolve.2 (Or.inr ⟨hy, ?_⟩), hya⟩
    intro hfy
    exact falsifies_holds hfy hya hl
  · exact ⟨x, mem_resolve.2 (Or.inl ⟨hx, hf⟩), hxa⟩

/-! ### One resolution step -/

/-- Weight of the literals assigned at stack position `m`. -/
def weight (t : Trail) (m : Int) (c : List Lit) : Nat :=
  (c.map fun x => if t.idx x.var x.val = m then (if x.eq then 2 else 1) else 0).sum

/-- The clause is false now and involves the current level. -/
structure Confl (t : Trail) (c : List Lit) : Prop where
  fals : ∀ x ∈ c, LF t.asg x
  nodup : c.Nodup
  atL : ∃ x ∈ c, t.lvl x.var x.val = t.LEVEL

/-- Weights are monotone under inclusion of duplicate-free clauses, with a strict drop if something of positive
weight is lost. -/
theorem weight_le_of_subset {t : Trail} {m : Int} : ∀ {c' c : List Lit}, c'.Nodup →
    (∀ x ∈ c', t.idx x.var x.val = m → x ∈ c) → weight t m c' ≤ weight t m c
  | [], c, _, _ => by simp [weight]
  | x :: c', c, hn, hs => by
    have hn' := List.nodup_cons.1 hn
    have e : weight t m (x :: c') = (if t.idx x.var x.val = m then (if x.eq then 2 else 1) else 0) + weight t m c' := by
      simp [weight]
    rw [e]
    by_cases hx : t.idx x.var x.val = m
    · have hxc := hs x (by simp) hx
      have hperm := List.perm_cons_erase hxc
      have e2 : weight t m c = (if t.idx x.var x.val = m then (if x.eq then 2 else 1) else 0) + weight t m (c.erase x) := by
        unfold weight
        rw [(hperm.map _).sum_nat]; simp
      rw [e2]
      have := weight_le_of_subset (c' := c') (c := c.erase x) hn'.2 (by
        intro y hy hym
        have hyx : y ≠ x := by rintro rfl; exact hn'.1 hy
        exact (List.mem_erase_of_ne hyx).2 (hs y (by simp [hy]) hym))
      omega
    · rw [if_neg hx]
      have := weight_le_of_subset (c' := c') (c := c) hn'.2 (fun y hy => hs y (by simp [hy]))
      omega

theorem weight_erase {t : Trail} {m : Int} {c : List Lit} {x : Lit} (hx : x ∈ c) (hm : t.idx x.var x.val = m) :
    weight t m c = (if x.eq then 2 else 1) + weight t m (c.erase x) := by
  have hperm := List.perm_cons_erase hx
  unfold weight
  rw [(hperm.map _).sum_nat]; simp [hm]

theorem weight_zero {t : Trail} {m : Int} {c : List Lit} (h : ∀ x ∈ c, t.idx x.var x.val ≠ m) : weight t m c = 0 := by
  unfold weight
  induction c with
  | nil => rfl
  | cons x c ih =>
    rw [List.map_cons, List.sum_cons, if_neg (h x (by simp)), ih (fun y hy => h y (by simp [hy]))]

end Mvl
