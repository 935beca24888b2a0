import Verif.Model.Orig

/-! # The original solver: what assigning does to the clauses -/

namespace Mvl.Orig

open Mvl

/-- Number of unassigned literal occurrences. -/
def nU (asg : Nat → Nat → Asg) (ls : List Lit) : Nat := ls.countP fun l => asg l.var l.val = .un

theorem filter_length {α : Type} (p : α → Bool) (l : List α) : (l.filter p).length = l.countP p := by
  rw [List.countP_eq_length_filter]

theorem satisfyFold (ids : List Nat) : ∀ s : OSt,
    (∃ cls cnt, ids.foldl satisfyOne s = { s with cls := cls, cnt := cnt }) ∧
    ∀ id, (ids.foldl satisfyOne s).cls id =
      if id ∈ ids ∧ (s.cls id).sat = false then
        { s.cls id with sat := true, lvl := s.LEVEL, un := (s.cls id).un - nU s.asg (s.cls id).lits }
      else s.cls id := by
  induction ids with
  | nil => intro s; exact ⟨⟨s.cls, s.cnt, rfl⟩, by intro id; simp⟩
  | cons i ids ih =>
    intro s
    rw [List.foldl_cons]
    by_cases hc : (s.cls i).sat = true
    · have h1 : satisfyOne s i = s := by simp [satisfyOne, hc]
      rw [h1]
      refine ⟨(ih s).1, ?_⟩
      intro id
      rw [(ih s).2 id]
      by_cases e : id = i
      · subst e; simp [hc]
      · simp [e]
    · have hc' : (s.cls i).sat = false := by simpa using hc
      obtain ⟨⟨cls, cnt, h⟩, h2⟩ := ih (satisfyOne s i)
      refine ⟨⟨cls, cnt, by rw [h]; simp [satisfyOne, hc']⟩, ?_⟩
      intro id
      rw [h2 id]
      have e1 : (satisfyOne s i).cls =
          upd s.cls i { s.cls i with sat := true, lvl := s.LEVEL,
                                     un := (s.cls i).un - nU s.asg (s.cls i).lits } := by
        simp [satisfyOne, hc', nU, filter_length]
      have e2 : (satisfyOne s i).LEVEL = s.LEVEL := by simp [satisfyOne, hc']
      have e3 : (satisfyOne s i).asg = s.asg := by simp [satisfyOne, hc']
      rw [e1, e2, e3]
      by_cases e : id = i
      · subst e; simp [hc']
      · simp [upd_of_ne _ _ e, e]

theorem removeFold (l : Lit) (ids : List Nat) : ∀ s : OSt,
    (∃ cls cnt units conflict conflicting, ids.foldl (removeOne l) s =
        { s with cls := cls, cnt := cnt, units := units, conflict := conflict, conflicting := conflicting }) ∧
    (∀ id, (ids.foldl (removeOne l) s).cls id =
      if (s.cls id).sat then s.cls id else { s.cls id with un := (s.cls id).un - ids.count id }) ∧
    (s.conflict = true → (ids.foldl (removeOne l) s).conflict = true) ∧
    ((ids.foldl (removeOne l) s).conflict = true →
      (s.conflict = true ∧ (ids.foldl (removeOne l) s).conflicting = s.conflicting) ∨
      ∃ id ∈ ids, (ids.foldl (removeOne l) s).conflicting = (id : Int) ∧ (s.cls id).sat = false ∧
        1 ≤ (s.cls id).un ∧ (s.cls id).un ≤ ids.count id) ∧
    (∀ id, (s.cls id).sat = false → 1 ≤ (s.cls id).un → (s.cls id).un ≤ ids.count id →
      (ids.foldl (removeOne l) s).conflict = true) ∧
    (∀ i ∈ (ids.foldl (removeOne l) s).units, i ∈ s.units ∨
      (i ∈ ids ∧ (s.cls i).sat = false ∧ (s.cls i).un ≤ ids.count i + 1)) ∧
    (∀ i ∈ s.units, i ∈ (ids.foldl (removeOne l) s).units) := by
  induction ids with
  | nil =>
    intro s
    refine ⟨⟨s.cls, s.cnt, s.units, s.conflict, s.conflicting, rfl⟩, ?_, ?_, ?_, ?_, ?_, ?_⟩
    · intro id; simp
    · simp
    · intro h; exact Or.inl ⟨h, rfl⟩
    · intro id _ h1 h2; simp at h2; omega
    · intro i hi; exact Or.inl hi
    · intro i hi; exact hi
  | cons i ids ih =>
    intro s
    rw [List.foldl_cons]
    by_cases hc : (s.cls i).sat = true
    · have h1 : removeOne l s i = s := by simp [removeOne, hc]
      rw [h1]
      obtain ⟨a1, a2, a3, a4, a5, a6, a7⟩ := ih s
      refine ⟨a1, ?_, a3, ?_, ?_, ?_, a7⟩
      · intro id
        rw [a2 id]
        by_cases e : id = i
        · subst e; simp [hc]
        · have : (i :: ids).count id = ids.count id := by
            rw [List.count_cons_of_ne]; exact fun h => e h.symm
          rw [this]
      · intro h
        rcases a4 h with h | ⟨id, m, b1, b2, b3, b4⟩
        · exact Or.inl h
        · exact Or.inr ⟨id, List.mem_cons_of_mem _ m, b1, b2, b3, by
            have := List.count_le_count_cons (a := id) (b := i) (l := ids); omega⟩
      · intro id h1 h2 h3
        have : id ≠ i := by intro e; rw [e, hc] at h1; cases h1
        rw [List.count_cons_of_ne (fun h => this h.symm)] at h3
        exact a5 id h1 h2 h3
      · intro j hj
        rcases a6 j hj with h | ⟨h, h', h''⟩
        · exact Or.inl h
        · refine Or.inr ⟨List.mem_cons_of_mem _ h, h', ?_⟩
          have := List.count_le_count_cons (a := j) (b := i) (l := ids); omega
    · have hc' : (s.cls i).sat = false := by simpa using hc
      obtain ⟨⟨cls, cnt, units, cf, cg, h⟩, a2, a3, a4, a5, a6, a7⟩ := ih (removeOne l s i)
      have e1 : (removeOne l s i).cls = upd s.cls i { s.cls i with un := (s.cls i).un - 1 } := by
        simp [removeOne, hc']
      have e2 : (removeOne l s i).conflict = (if (s.cls i).un - 1 = 0 then true else s.conflict) := by
        simp [removeOne, hc']
      have e3 : (removeOne l s i).conflicting = (if (s.cls i).un - 1 = 0 then (i : Int) else s.conflicting) := by
        simp [removeOne, hc']
      have e4 : (removeOne l s i).units = (if (s.cls i).un - 1 = 1 then i :: s.units else s.units) := by
        simp [removeOne, hc']
      refine ⟨⟨cls, cnt, units, cf, cg, by rw [h]; simp [removeOne, hc']⟩, ?_, ?_, ?_, ?_, ?_, ?_⟩
      · intro id
        rw [a2 id, e1]
        by_cases e : id = i
        · subst e; simp [hc']; omega
        · have : (i :: ids).count id = ids.count id := by
            rw [List.count_cons_of_ne]; exact fun h => e h.symm
          rw [upd_of_ne _ _ e, this]
      · intro hs
        apply a3
        rw [e2]; split
        · rfl
        · exact hs
      · intro hh
        rcases a4 hh with ⟨b1, b2⟩ | ⟨id, m, b1, b2, b3, b4⟩
        · rw [e2] at b1
          rw [e3] at b2
          by_cases z : (s.cls i).un - 1 = 0
          · rw [if_pos z] at b2
            refine Or.inr ⟨i, List.mem_cons_self, b2, hc', by omega, ?_⟩
            have : 1 ≤ (i :: ids).count i := by simp
            omega
          · rw [if_neg z] at b1 b2
            exact Or.inl ⟨b1, b2⟩
        · rw [e1] at b2 b3 b4
          refine Or.inr ⟨id, List.mem_cons_of_mem _ m, b1, ?_⟩
          by_cases e : id = i
          · subst e
            rw [upd_same] at b2 b3 b4
            simp only at b2 b3 b4
            refine ⟨b2, by omega, ?_⟩
            rw [List.count_cons_self]; omega
          · rw [upd_of_ne _ _ e] at b2 b3 b4
            rw [List.count_cons_of_ne (fun h => e h.symm)]
            exact ⟨b2, b3, b4⟩
      · intro id h1 h2 h3
        by_cases e : id = i
        · subst e
          by_cases z : (s.cls id).un = 1
          · apply a3; rw [e2, if_pos (by omega)]
          · apply a5 id
            · rw [e1, upd_same]; exact h1
            · rw [e1, upd_same]; simp only; omega
            · rw [e1, upd_same]; simp only; rw [List.count_cons_self] at h3; omega
        · rw [List.count_cons_of_ne (fun h => e h.symm)] at h3
          apply a5 id
          · rw [e1, upd_of_ne _ _ e]; exact h1
          · rw [e1, upd_of_ne _ _ e]; exact h2
          · rw [e1, upd_of_ne _ _ e]; exact h3
      · intro j hj
        rcases a6 j hj with h' | ⟨h', h'', h'''⟩
        · rw [e4] at h'
          split at h'
          · rename_i z
            rcases List.mem_cons.1 h' with rfl | h'
            · refine Or.inr ⟨List.mem_cons_self, hc', ?_⟩
              rw [List.count_cons_self]; omega
            · exact Or.inl h'
          · exact Or.inl h'
        · refine Or.inr ⟨List.mem_cons_of_mem _ h', ?_⟩
          rw [e1] at h'' h'''
          by_cases e : j = i
          · subst e
            rw [upd_same] at h'' h'''
            simp only at h'' h'''
            rw [List.count_cons_self]
            exact ⟨h'', by omega⟩
          · rw [upd_of_ne _ _ e] at h'' h'''
            rw [List.count_cons_of_ne (fun h => e h.symm)]
            exact ⟨h'', h'''⟩
      · intro j hj
        apply a7
        rw [e4]; split
        · exact List.mem_cons_of_mem _ hj
        · exact hj

/-! ## Counting -/

theorem countP_split {α : Type} (p q : α → Bool) (l : List α) :
    l.countP p = (l.countP fun x => p x && !q x) + l.countP fun x => p x && q x := by
  induction l with
  | nil => rfl
  | cons a l ih =>
    simp only [List.countP_cons]
    cases p a <;> cases q a <;> simp <;> omega

theorem countP_pos_iff {α : Type} (p : α → Bool) (l : List α) : 0 < l.countP p ↔ ∃ a ∈ l, p a = true :=
  List.countP_pos_iff

theorem nU_pos {asg : Nat → Nat → Asg} {ls : List Lit} :
    0 < nU asg ls ↔ ∃ l ∈ ls, asg l.var l.val = .un := by
  unfold nU; rw [List.countP_pos_iff]; simp

theorem nU_zero {asg : Nat → Nat → Asg} {ls : List Lit} :
    nU asg ls = 0 ↔ ∀ l ∈ ls, asg l.var l.val ≠ .un := by
  unfold nU; rw [List.countP_eq_zero]; simp

theorem Lit.neg_ne (l : Lit) : l.neg ≠ l := by
  intro h
  have := congrArg Lit.eq h
  simp [Lit.neg] at this

theorem lit_cases (l m : Lit) (h1 : m.var = l.var) (h2 : m.val = l.val) : m = l ∨ m = l.neg := by
  obtain ⟨v, d, e⟩ := l
  obtain ⟨v', d', e'⟩ := m
  simp only at h1 h2
  subst h1 h2
  cases e <;> cases e' <;> simp [Lit.neg]

theorem nU_cons (asg : Nat → Nat → Asg) (m : Lit) (ls : List Lit) :
    nU asg (m :: ls) = nU asg ls + if asg m.var m.val = .un then 1 else 0 := by
  simp [nU, List.countP_cons]

/-- Assigning an unassigned atom: the number of unassigned literals of a clause without `l` goes down by the
number of occurrences of the complement of `l`. -/
theorem nU_assign {asg : Nat → Nat → Asg} {l : Lit} {a : Asg} (ha : a ≠ .un)
    (hu : asg l.var l.val = .un) {ls : List Lit} (hl : l ∉ ls) :
    nU asg ls = nU (upd2 asg l.var l.val a) ls + ls.count l.neg := by
  induction ls with
  | nil => rfl
  | cons m ls ih =>
    have hm : m ≠ l := fun e => hl (by rw [e]; exact List.mem_cons_self)
    have := ih (fun h => hl (List.mem_cons_of_mem _ h))
    rw [nU_cons, nU_cons, List.count_cons]
    by_cases e : m = l.neg
    · subst e
      have h1 : asg l.neg.var l.neg.val = .un := hu
      have h2 : upd2 asg l.var l.val a l.neg.var l.neg.val ≠ .un := by
        simp only [Lit.neg, upd2_same]; exact ha
      rw [if_pos h1, if_neg h2]; simp; omega
    · have h0 : ¬ (m.var = l.var ∧ m.val = l.val) := fun h => by
        rcases lit_cases l m h.1 h.2 with h | h
        · exact hm h
        · exact e h
      have h1 : upd2 asg l.var l.val a m.var m.val = asg m.var m.val := by simp only [upd2, h0, if_false]
      have e' : (m == l.neg) = false := by simpa using e
      rw [h1, e']; simp; omega

end Mvl.Orig
