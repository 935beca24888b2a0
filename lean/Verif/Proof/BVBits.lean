import Verif.Model.BitVec

/-!
# Bit sets, clauses as sets of values, and resolution in the bit-vector variant
-/

namespace Mvl.BV

theorem eq_zero_iff (b : Bits) : b = 0#64 ↔ ∀ j, b.getLsbD j = false := by
  constructor
  · intro h j; rw [h]; simp
  · intro h
    apply BitVec.eq_of_getLsbD_eq
    intro i _
    rw [h i]; simp

theorem ne_zero_iff (b : Bits) : b ≠ 0#64 ↔ ∃ j, b.getLsbD j = true := by
  rw [ne_eq, eq_zero_iff]
  constructor
  · intro h
    apply Classical.byContradiction
    intro hn
    exact h fun j => by
      cases hj : b.getLsbD j
      · rfl
      · exact absurd ⟨j, hj⟩ hn
  · rintro ⟨j, hj⟩ h
    rw [h j] at hj; cases hj

theorem lt_of_bit {b : Bits} {j : Nat} (h : b.getLsbD j = true) : j < 64 := by
  apply Classical.byContradiction
  intro hn
  rw [BitVec.getLsbD_of_ge b j (by omega)] at h
  cases h

theorem full_bit {d : Nat} (hd : d ≤ 64) (j : Nat) : (full d).getLsbD j = decide (j < d) := by
  unfold full
  rw [BitVec.getLsbD_ushiftRight, BitVec.getLsbD_allOnes]
  by_cases h : j < d
  · rw [decide_eq_true h, decide_eq_true (by omega)]
  · rw [decide_eq_false h, decide_eq_false (by omega)]

theorem bit_bit {k : Nat} (hk : k < 64) (j : Nat) : (bit k).getLsbD j = decide (j = k) := by
  unfold bit
  rw [BitVec.getLsbD_twoPow]
  by_cases h : j = k
  · subst h; simp [hk]
  · simp [h]; intro _ h'; exact absurd h'.symm h

theorem and_bit (a b : Bits) (j : Nat) : (a &&& b).getLsbD j = true ↔ a.getLsbD j = true ∧ b.getLsbD j = true := by
  rw [BitVec.getLsbD_and, Bool.and_eq_true]

theorem or_bit (a b : Bits) (j : Nat) : (a ||| b).getLsbD j = true ↔ a.getLsbD j = true ∨ b.getLsbD j = true := by
  rw [BitVec.getLsbD_or, Bool.or_eq_true]

theorem andnot_bit (a b : Bits) (j : Nat) : (a &&& ~~~ b).getLsbD j = true ↔ a.getLsbD j = true ∧ b.getLsbD j = false := by
  rw [and_bit, BitVec.getLsbD_not, Bool.and_eq_true, Bool.not_eq_true']
  constructor
  · rintro ⟨h1, _, h2⟩
    exact ⟨h1, h2⟩
  · rintro ⟨h1, h2⟩
    exact ⟨h1, decide_eq_true (lt_of_bit h1), h2⟩

theorem isSuperset_iff (l : BLit) (b : Bits) :
    l.isSuperset b = true ↔ ∀ j, b.getLsbD j = true → l.vals.getLsbD j = true := by
  unfold BLit.isSuperset
  rw [beq_iff_eq, BitVec.and_comm, eq_zero_iff]
  constructor
  · intro h j hj
    cases hl : l.vals.getLsbD j
    · have := (andnot_bit b l.vals j).2 ⟨hj, hl⟩
      rw [h j] at this; cases this
    · rfl
  · intro h j
    cases hx : (b &&& ~~~ l.vals).getLsbD j
    · rfl
    · obtain ⟨h1, h2⟩ := (andnot_bit _ _ _).1 hx
      rw [h j h1] at h2; cases h2

theorem falsifies_iff (l : BLit) (b : Bits) :
    l.falsifies b = true ↔ ∀ j, l.vals.getLsbD j = true → b.getLsbD j = false := by
  unfold BLit.falsifies
  rw [beq_iff_eq, eq_zero_iff]
  constructor
  · intro h j hj
    cases hb : b.getLsbD j
    · rfl
    · have := (and_bit l.vals b j).2 ⟨hj, hb⟩
      rw [h j] at this; cases this
  · intro h j
    cases hx : (l.vals &&& b).getLsbD j
    · rfl
    · obtain ⟨h1, h2⟩ := (and_bit _ _ _).1 hx
      rw [h j h1] at h2; cases h2

/-! ## Clauses -/

/-- The clause allows variable `v` to have value `j`. -/
def ClHas (ls : List BLit) (v j : Nat) : Prop := ∃ l ∈ ls, l.var = v ∧ l.vals.getLsbD j = true

/-- One literal per variable. -/
def Distinct (ls : List BLit) : Prop := (ls.map BLit.var).Nodup

/-- An assignment satisfies the clause. -/
def CHolds (a : Assignment) (ls : List BLit) : Prop := ∃ l ∈ ls, l.vals.getLsbD (a l.var) = true

theorem cholds_iff (a : Assignment) (ls : List BLit) : CHolds a ls ↔ ∃ v, ClHas ls v (a v) := by
  constructor
  · rintro ⟨l, hl, h⟩; exact ⟨l.var, l, hl, rfl, h⟩
  · rintro ⟨v, l, hl, rfl, h⟩; exact ⟨l, hl, h⟩

theorem Distinct.eq {ls : List BLit} (h : Distinct ls) {l l' : BLit} (hl : l ∈ ls) (hl' : l' ∈ ls)
    (hv : l.var = l'.var) : l = l' := by
  induction ls with
  | nil => cases hl
  | cons x xs ih =>
    unfold Distinct at h
    rw [List.map_cons, List.nodup_cons] at h
    rcases List.mem_cons.1 hl with rfl | hl1 <;> rcases List.mem_cons.1 hl' with rfl | hl2
    · rfl
    · exact absurd (hv ▸ List.mem_map_of_mem hl2) h.1
    · exact absurd (hv ▸ List.mem_map_of_mem hl1) h.1
    · exact ih h.2 hl1 hl2

theorem Distinct.has {ls : List BLit} (h : Distinct ls) {l : BLit} (hl : l ∈ ls) (j : Nat) :
    ClHas ls l.var j ↔ l.vals.getLsbD j = true := by
  constructor
  · rintro ⟨l', hl', hv, hj⟩
    rw [h.eq hl hl' hv.symm]; exact hj
  · intro hj; exact ⟨l, hl, rfl, hj⟩

theorem addAtom_vars (ls : List BLit) (a : BLit) :
    (addAtom ls a).map BLit.var = if a.var ∈ ls.map BLit.var then ls.map BLit.var else ls.map BLit.var ++ [a.var] := by
  induction ls with
  | nil => simp [addAtom]
  | cons l ls ih =>
    unfold addAtom
    by_cases h : l.var = a.var
    · simp [h]
    · rw [if_neg h, List.map_cons, ih, List.map_cons]
      by_cases h2 : a.var ∈ ls.map BLit.var
      · rw [if_pos h2, if_pos (List.mem_cons_of_mem _ h2)]
      · rw [if_neg h2, if_neg (by rw [List.mem_cons]; rintro (h3 | h3); exact h h3.symm; exact h2 h3)]; rfl

theorem addAtom_distinct {ls : List BLit} (h : Distinct ls) (a : BLit) : Distinct (addAtom ls a) := by
  unfold Distinct
  rw [addAtom_vars]
  split
  · exact h
  · rename_i hn
    rw [List.nodup_append]
    refine ⟨h, by simp, ?_⟩
    intro x hx y hy
    rw [List.mem_singleton] at hy
    subst hy
    exact fun he => hn (he ▸ hx)

theorem addAtom_has (ls : List BLit) (a : BLit) (v j : Nat) :
    ClHas (addAtom ls a) v j ↔ ClHas ls v j ∨ (a.var = v ∧ a.vals.getLsbD j = true) := by
  induction ls with
  | nil => simp [addAtom, ClHas]
  | cons l ls ih =>
    have hc : ∀ (x : BLit) (xs : List BLit), ClHas (x :: xs) v j ↔ (x.var = v ∧ x.vals.getLsbD j = true) ∨ ClHas xs v j := by
      intro x xs; simp [ClHas]
    unfold addAtom
    by_cases h : l.var = a.var
    · rw [if_pos h, hc, hc, or_bit]
      constructor
      · rintro (⟨h1, h2 | h2⟩ | h1)
        · exact Or.inl (Or.inl ⟨h1, h2⟩)
        · exact Or.inr ⟨h ▸ h1, h2⟩
        · exact Or.inl (Or.inr h1)
      · rintro ((⟨h1, h2⟩ | h1) | ⟨h1, h2⟩)
        · exact Or.inl ⟨h1, Or.inl h2⟩
        · exact Or.inr h1
        · exact Or.inl ⟨h.trans h1, Or.inr h2⟩
    · rw [if_neg h, hc, hc, ih, or_assoc]

theorem addAtom_mem_var {ls : List BLit} {a : BLit} {v : Nat} :
    v ∈ (addAtom ls a).map BLit.var ↔ v ∈ ls.map BLit.var ∨ v = a.var := by
  rw [addAtom_vars]
  split
  · rename_i h
    constructor
    · exact Or.inl
    · rintro (h1 | rfl)
      · exact h1
      · exact h
  · simp

/-- Every literal has a value. -/
def AllVals (ls : List BLit) : Prop := ∀ l ∈ ls, ∃ j, l.vals.getLsbD j = true

theorem allVals_iff {ls : List BLit} (hd : Distinct ls) : AllVals ls ↔ ∀ v ∈ ls.map BLit.var, ∃ j, ClHas ls v j := by
  constructor
  · intro h v hv
    obtain ⟨l, hl, rfl⟩ := List.mem_map.1 hv
    obtain ⟨j, hj⟩ := h l hl
    exact ⟨j, l, hl, rfl, hj⟩
  · intro h l hl
    obtain ⟨j, hj⟩ := h l.var (List.mem_map_of_mem hl)
    exact ⟨j, (hd.has hl j).1 hj⟩

theorem addAtom_allVals {ls : List BLit} {a : BLit} (hd : Distinct ls) (h : AllVals ls)
    (ha : ∃ j, a.vals.getLsbD j = true) : AllVals (addAtom ls a) := by
  rw [allVals_iff (addAtom_distinct hd a)]
  rw [allVals_iff hd] at h
  intro v hv
  rcases addAtom_mem_var.1 hv with hv | rfl
  · obtain ⟨j, hj⟩ := h v hv
    exact ⟨j, (addAtom_has ls a v j).2 (Or.inl hj)⟩
  · obtain ⟨j, hj⟩ := ha
    exact ⟨j, (addAtom_has ls a _ j).2 (Or.inr ⟨rfl, hj⟩)⟩

/-- Everything about adding the literals of a list. -/
theorem foldl_addAtom (ls : List BLit) : ∀ (acc : List BLit), Distinct acc →
    Distinct (ls.foldl addAtom acc) ∧
    (∀ v j, ClHas (ls.foldl addAtom acc) v j ↔ ClHas acc v j ∨ ClHas ls v j) ∧
    (∀ v, v ∈ (ls.foldl addAtom acc).map BLit.var ↔ v ∈ acc.map BLit.var ∨ v ∈ ls.map BLit.var) ∧
    (AllVals acc → AllVals ls → AllVals (ls.foldl addAtom acc)) := by
  induction ls with
  | nil => intro acc h; refine ⟨h, ?_, ?_, fun h1 _ => h1⟩ <;> simp [ClHas]
  | cons l ls ih =>
    intro acc h
    obtain ⟨h1, h2, h3, h4⟩ := ih (addAtom acc l) (addAtom_distinct h l)
    refine ⟨h1, ?_, ?_, ?_⟩
    · intro v j
      rw [List.foldl_cons, h2, addAtom_has, or_assoc]
      have : ClHas (l :: ls) v j ↔ (l.var = v ∧ l.vals.getLsbD j = true) ∨ ClHas ls v j := by simp [ClHas]
      rw [this]
    · intro v
      rw [List.foldl_cons, h3, addAtom_mem_var, List.map_cons, List.mem_cons, or_assoc]
    · intro ha hl
      exact h4 (addAtom_allVals h ha (hl l List.mem_cons_self)) (fun x hx => hl x (List.mem_cons_of_mem _ hx))

/-- The literal a reason contributes, as a list. -/
def reasonPart (l r : BLit) : List BLit :=
  if r.var ≠ l.var then [r] else if (l.vals &&& r.vals) ≠ 0#64 then [⟨l.var, l.vals &&& r.vals⟩] else []

theorem bresolve_eq (c : List BLit) (l : BLit) (r : List BLit) :
    bresolve c l r = ((c.filter fun x => x.var ≠ l.var) ++ r.flatMap (reasonPart l)).foldl addAtom [] := by
  rw [List.foldl_append]
  unfold bresolve
  generalize (c.filter fun x => x.var ≠ l.var).foldl addAtom [] = acc
  induction r generalizing acc with
  | nil => rfl
  | cons x xs ih =>
    rw [List.foldl_cons, List.flatMap_cons, List.foldl_append, ih]
    congr 1
    unfold reasonPart
    by_cases h1 : x.var ≠ l.var
    · simp only [if_pos h1]; rfl
    · simp only [if_neg h1]
      by_cases h2 : (l.vals &&& x.vals) ≠ 0#64
      · simp only [if_pos h2]; rfl
      · simp only [if_neg h2]; rfl

theorem reasonPart_has (l r : BLit) (v j : Nat) : ClHas (reasonPart l r) v j ↔
    r.var = v ∧ r.vals.getLsbD j = true ∧ (v = l.var → l.vals.getLsbD j = true) := by
  unfold reasonPart
  by_cases h1 : r.var ≠ l.var
  · rw [if_pos h1]
    simp only [ClHas, List.mem_singleton, exists_eq_left]
    constructor
    · rintro ⟨h2, h3⟩; exact ⟨h2, h3, fun h4 => absurd (h2.trans h4) h1⟩
    · rintro ⟨h2, h3, _⟩; exact ⟨h2, h3⟩
  · rw [if_neg h1]
    have h1' : r.var = l.var := Classical.byContradiction h1
    by_cases h2 : (l.vals &&& r.vals) ≠ 0#64
    · rw [if_pos h2]
      simp only [ClHas, List.mem_singleton, exists_eq_left, and_bit]
      constructor
      · rintro ⟨h3, h4, h5⟩; exact ⟨h1'.trans h3, h5, fun _ => h4⟩
      · rintro ⟨h3, h4, h5⟩; exact ⟨h1' ▸ h3, h5 (h3 ▸ h1'), h4⟩
    · rw [if_neg h2]
      simp only [ClHas, List.not_mem_nil, false_and, exists_const, false_iff]
      rintro ⟨h3, h4, h5⟩
      exact h2 ((ne_zero_iff _).2 ⟨j, (and_bit _ _ _).2 ⟨h5 (h3 ▸ h1'), h4⟩⟩)

theorem reasonPart_vals {l r : BLit} (hr : ∃ j, r.vals.getLsbD j = true) : AllVals (reasonPart l r) := by
  intro x hx
  unfold reasonPart at hx
  split at hx
  · rw [List.mem_singleton] at hx; subst hx; exact hr
  · split at hx
    · rename_i h
      rw [List.mem_singleton] at hx; subst hx; exact (ne_zero_iff _).1 h
    · cases hx

/-- What resolution produces. -/
theorem bresolve_spec (c : List BLit) (l : BLit) (r : List BLit) :
    Distinct (bresolve c l r) ∧
    (∀ v j, ClHas (bresolve c l r) v j ↔ (v ≠ l.var ∧ ClHas c v j) ∨ (ClHas r v j ∧ (v = l.var → l.vals.getLsbD j = true))) ∧
    (AllVals c → AllVals r → AllVals (bresolve c l r)) ∧
    (∀ v, v ≠ l.var → v ∈ c.map BLit.var → v ∈ (bresolve c l r).map BLit.var) := by
  rw [bresolve_eq]
  obtain ⟨h1, h2, h3, h4⟩ := foldl_addAtom ((c.filter fun x => x.var ≠ l.var) ++ r.flatMap (reasonPart l)) [] (by simp [Distinct])
  refine ⟨h1, ?_, ?_, ?_⟩
  · intro v j
    rw [h2]
    constructor
    · rintro (⟨x, hx, _⟩ | ⟨x, hx, hv, hj⟩)
      · cases hx
      · rcases List.mem_append.1 hx with hx | hx
        · rw [List.mem_filter] at hx
          refine Or.inl ⟨?_, x, hx.1, hv, hj⟩
          rw [← hv]; simpa using hx.2
        · obtain ⟨y, hy, hxy⟩ := List.mem_flatMap.1 hx
          obtain ⟨h5, h6, h7⟩ := (reasonPart_has l y v j).1 ⟨x, hxy, hv, hj⟩
          exact Or.inr ⟨⟨y, hy, h5, h6⟩, h7⟩
    · rintro (⟨hne, x, hx, hv, hj⟩ | ⟨⟨y, hy, h5, h6⟩, h7⟩)
      · exact Or.inr ⟨x, List.mem_append_left _ (List.mem_filter.2 ⟨hx, by rw [hv]; simpa using hne⟩), hv, hj⟩
      · obtain ⟨x, hx, hv, hj⟩ := (reasonPart_has l y v j).2 ⟨h5, h6, h7⟩
        exact Or.inr ⟨x, List.mem_append_right _ (List.mem_flatMap.2 ⟨y, hy, hx⟩), hv, hj⟩
  · intro hc hr
    apply h4 (by intro x hx; cases hx)
    intro x hx
    rcases List.mem_append.1 hx with hx | hx
    · exact hc x (List.mem_filter.1 hx).1
    · obtain ⟨y, hy, hxy⟩ := List.mem_flatMap.1 hx
      exact reasonPart_vals (hr y hy) x hxy
  · intro v hne hv
    rw [h3]
    obtain ⟨x, hx, hxv⟩ := List.mem_map.1 hv
    exact Or.inr (List.mem_map.2 ⟨x, List.mem_append_left _ (List.mem_filter.2 ⟨hx, by rw [hxv]; simpa using hne⟩), hxv⟩)

/-- Resolution on the literal of the clause for its variable is sound. -/
theorem bresolve_sound {c r : List BLit} {l : BLit} (hd : Distinct c) (hl : l ∈ c) {a : Assignment} (hc : CHolds a c)
    (hr : CHolds a r) : CHolds a (bresolve c l r) := by
  rw [cholds_iff] at hc hr ⊢
  obtain ⟨_, h2, _⟩ := bresolve_spec c l r
  obtain ⟨v, hv⟩ := hc
  by_cases h : v = l.var
  · subst h
    obtain ⟨w, hw⟩ := hr
    exact ⟨w, (h2 w _).2 (Or.inr ⟨hw, fun he => by subst he; exact (hd.has hl _).1 hv⟩)⟩
  · exact ⟨v, (h2 v _).2 (Or.inl ⟨h, hv⟩)⟩

end Mvl.BV
