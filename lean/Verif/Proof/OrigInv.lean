import Verif.Proof.OrigBase

/-! # The original solver: the invariant and `reduceTheory` -/

namespace Mvl.Orig

open Mvl

/-- Clauses, records, counters and the assignment agree. -/
structure Core (s : OSt) : Prop where
  occ  : ∀ l id, (s.recs l).count id = if id < s.ncl then (s.cls id).lits.count l else 0
  rng  : ∀ id < s.ncl, ∀ l ∈ (s.cls id).lits, 1 ≤ l.var ∧ l.var ≤ s.nv ∧ l.val < s.dom l.var
  arng : ∀ v d, s.asg v d ≠ .un → 1 ≤ v ∧ v ≤ s.nv ∧ d < s.dom v
  lun  : ∀ v d, s.asg v d = .un → s.alvl v d = -1
  las  : ∀ v d, s.asg v d ≠ .un → 0 ≤ s.alvl v d ∧ s.alvl v d ≤ s.LEVEL
  csat : ∀ id < s.ncl, (s.cls id).sat = true → (s.cls id).un = 0 ∧
    ∃ l ∈ (s.cls id).lits, s.asg l.var l.val = Asg.ofSign l.eq ∧ s.alvl l.var l.val = (s.cls id).lvl
  cuns : ∀ id < s.ncl, (s.cls id).sat = false → (s.cls id).lvl = -1 ∧
    (s.cls id).un = nU s.asg (s.cls id).lits ∧ ∀ l ∈ (s.cls id).lits, s.asg l.var l.val ≠ Asg.ofSign l.eq
  nz   : ∀ id < s.ncl, (s.cls id).sat = false → (∃ l ∈ (s.cls id).lits, s.asg l.var l.val = .un) ∨
    (s.conflict = true ∧ ∃ l ∈ (s.cls id).lits, s.asg l.var l.val ≠ .un ∧ s.alvl l.var l.val = s.LEVEL)
  conf : s.conflict = true → ∃ id, s.conflicting = ((id : Nat) : Int) ∧ id < s.ncl ∧
    (s.cls id).sat = false ∧ (s.cls id).un = 0
  uni  : ∀ id ∈ s.units, id < s.ncl ∧ ((s.cls id).sat = true ∨ (s.cls id).un ≤ 1)
  smin : ∀ id < s.ncl, (s.cls id).sat = true → ∀ l ∈ (s.cls id).lits, s.asg l.var l.val = Asg.ofSign l.eq →
    (s.cls id).lvl ≤ s.alvl l.var l.val

theorem Asg.ofSign_ne (e : Bool) : Asg.ofSign e ≠ .un := by cases e <;> simp [Asg.ofSign]

theorem Core.mem_recs {s : OSt} (h : Core s) (l : Lit) (id : Nat) :
    id ∈ s.recs l ↔ id < s.ncl ∧ l ∈ (s.cls id).lits := by
  rw [← List.count_pos_iff, h.occ]
  split
  · rename_i hi; rw [List.count_pos_iff]; simp [hi]
  · rename_i hi; simp [hi]

/-- What `assign` changes. -/
theorem assign_frame (s : OSt) (l : Lit) : ∃ cls cnt units conflict conflicting,
    assign s l = { s with cls := cls, cnt := cnt, units := units, conflict := conflict, conflicting := conflicting,
                          asg := upd2 s.asg l.var l.val (Asg.ofSign l.eq),
                          alvl := upd2 s.alvl l.var l.val s.LEVEL,
                          cid := upd2 s.cid l.var l.val s.unitClause } := by
  unfold assign
  obtain ⟨⟨c1, n1, h1⟩, -⟩ := satisfyFold (s.recs l) s
  have h1' : satisfy s l = { s with cls := c1, cnt := n1 } := h1
  obtain ⟨⟨c2, n2, u, cf, cg, h2⟩, -⟩ := removeFold l.neg ((satisfy s l).recs l.neg) (satisfy s l)
  have h2' : remove (satisfy s l) l.neg = _ := h2
  refine ⟨c2, n2, u, cf, cg, ?_⟩
  simp only [h2']
  simp only [h1']

section
variable (s : OSt) (l : Lit)

@[simp] theorem assign_nv : (assign s l).nv = s.nv := by obtain ⟨_, _, _, _, _, h⟩ := assign_frame s l; rw [h]
@[simp] theorem assign_dom : (assign s l).dom = s.dom := by obtain ⟨_, _, _, _, _, h⟩ := assign_frame s l; rw [h]
@[simp] theorem assign_asg : (assign s l).asg = upd2 s.asg l.var l.val (Asg.ofSign l.eq) := by
  obtain ⟨_, _, _, _, _, h⟩ := assign_frame s l; rw [h]
@[simp] theorem assign_alvl : (assign s l).alvl = upd2 s.alvl l.var l.val s.LEVEL := by
  obtain ⟨_, _, _, _, _, h⟩ := assign_frame s l; rw [h]
@[simp] theorem assign_cid : (assign s l).cid = upd2 s.cid l.var l.val s.unitClause := by
  obtain ⟨_, _, _, _, _, h⟩ := assign_frame s l; rw [h]
@[simp] theorem assign_vval : (assign s l).vval = s.vval := by obtain ⟨_, _, _, _, _, h⟩ := assign_frame s l; rw [h]
@[simp] theorem assign_vsat : (assign s l).vsat = s.vsat := by obtain ⟨_, _, _, _, _, h⟩ := assign_frame s l; rw [h]
@[simp] theorem assign_vlvl : (assign s l).vlvl = s.vlvl := by obtain ⟨_, _, _, _, _, h⟩ := assign_frame s l; rw [h]
@[simp] theorem assign_recs : (assign s l).recs = s.recs := by obtain ⟨_, _, _, _, _, h⟩ := assign_frame s l; rw [h]
@[simp] theorem assign_ncl : (assign s l).ncl = s.ncl := by obtain ⟨_, _, _, _, _, h⟩ := assign_frame s l; rw [h]
@[simp] theorem assign_decs : (assign s l).decs = s.decs := by obtain ⟨_, _, _, _, _, h⟩ := assign_frame s l; rw [h]
@[simp] theorem assign_LEVEL : (assign s l).LEVEL = s.LEVEL := by obtain ⟨_, _, _, _, _, h⟩ := assign_frame s l; rw [h]
@[simp] theorem assign_unitClause : (assign s l).unitClause = s.unitClause := by
  obtain ⟨_, _, _, _, _, h⟩ := assign_frame s l; rw [h]
@[simp] theorem assign_nUnits : (assign s l).nUnits = s.nUnits := by obtain ⟨_, _, _, _, _, h⟩ := assign_frame s l; rw [h]
@[simp] theorem assign_nBacktracks : (assign s l).nBacktracks = s.nBacktracks := by
  obtain ⟨_, _, _, _, _, h⟩ := assign_frame s l; rw [h]
@[simp] theorem assign_nDecisions : (assign s l).nDecisions = s.nDecisions := by
  obtain ⟨_, _, _, _, _, h⟩ := assign_frame s l; rw [h]
@[simp] theorem assign_nEntails : (assign s l).nEntails = s.nEntails := by
  obtain ⟨_, _, _, _, _, h⟩ := assign_frame s l; rw [h]
@[simp] theorem assign_ptr : (assign s l).ptr = s.ptr := by obtain ⟨_, _, _, _, _, h⟩ := assign_frame s l; rw [h]
@[simp] theorem assign_ticks : (assign s l).ticks = s.ticks := by obtain ⟨_, _, _, _, _, h⟩ := assign_frame s l; rw [h]
@[simp] theorem assign_noBranch : (assign s l).noBranch = s.noBranch := by
  obtain ⟨_, _, _, _, _, h⟩ := assign_frame s l; rw [h]

end

/-- The clauses after `assign`. -/
theorem assign_cls {s : OSt} (h : Core s) (l : Lit) (id : Nat) :
    (assign s l).cls id =
      if (s.cls id).sat then s.cls id
      else if id < s.ncl then
        if l ∈ (s.cls id).lits then
          { s.cls id with sat := true, lvl := s.LEVEL, un := (s.cls id).un - nU s.asg (s.cls id).lits }
        else { s.cls id with un := (s.cls id).un - (s.cls id).lits.count l.neg }
      else s.cls id := by
  obtain ⟨⟨c1, n1, h1⟩, h1c⟩ := satisfyFold (s.recs l) s
  have h1' : satisfy s l = { s with cls := c1, cnt := n1 } := h1
  have h1c' : ∀ id, (satisfy s l).cls id = _ := h1c
  have hr : (satisfy s l).recs = s.recs := by rw [h1']
  obtain ⟨-, h2c, -⟩ := removeFold l.neg ((satisfy s l).recs l.neg) (satisfy s l)
  have e : (assign s l).cls id = (remove (satisfy s l) l.neg).cls id := rfl
  rw [e]
  have h2c' : (remove (satisfy s l) l.neg).cls id = _ := h2c id
  rw [h2c', h1c' id, hr, h.occ]
  simp only [h.mem_recs]
  by_cases a : (s.cls id).sat = true
  · simp [a]
  · have a' : (s.cls id).sat = false := by simpa using a
    by_cases b : id < s.ncl
    · by_cases c : l ∈ (s.cls id).lits
      · simp [a', b, c]
      · simp [a', b, c]
    · simp [a', b]
      rw [← a']

theorem assign_lits {s : OSt} (h : Core s) (l : Lit) (id : Nat) :
    ((assign s l).cls id).lits = (s.cls id).lits := by
  rw [assign_cls h]; split <;> (try rfl); split <;> (try rfl); split <;> rfl

/-- `assign` keeps satisfied clauses satisfied. -/
theorem assign_sat_mono {s : OSt} (h : Core s) (l : Lit) {id : Nat} (hs : (s.cls id).sat = true) :
    (assign s l).cls id = s.cls id := by
  rw [assign_cls h, if_pos hs]

/-- `assign` satisfies the clauses with the literal. -/
theorem assign_sat_lit {s : OSt} (h : Core s) {l : Lit} {id : Nat} (hi : id < s.ncl)
    (hl : l ∈ (s.cls id).lits) : ((assign s l).cls id).sat = true := by
  rw [assign_cls h]
  by_cases a : (s.cls id).sat = true
  · rw [if_pos a]; exact a
  · rw [if_neg a, if_pos hi, if_pos hl]

theorem assign_conflict_mono (s : OSt) (l : Lit) (hc : s.conflict = true) : (assign s l).conflict = true := by
  obtain ⟨⟨c1, n1, h1⟩, -⟩ := satisfyFold (s.recs l) s
  have h1' : satisfy s l = { s with cls := c1, cnt := n1 } := h1
  obtain ⟨-, -, h3, -⟩ := removeFold l.neg ((satisfy s l).recs l.neg) (satisfy s l)
  exact h3 (by rw [h1']; exact hc)

theorem assign_units_mono (s : OSt) (l : Lit) : ∀ i ∈ s.units, i ∈ (assign s l).units := by
  obtain ⟨⟨c1, n1, h1⟩, -⟩ := satisfyFold (s.recs l) s
  have h1' : satisfy s l = { s with cls := c1, cnt := n1 } := h1
  obtain ⟨-, -, -, -, -, -, h3⟩ := removeFold l.neg ((satisfy s l).recs l.neg) (satisfy s l)
  intro i hi
  exact h3 i (by rw [h1']; exact hi)

/-- The conflict flag after `assign`. -/
theorem assign_conflict {s : OSt} (h : Core s) (l : Lit) (hu : s.asg l.var l.val = .un)
    (hc : (assign s l).conflict = true) :
    (s.conflict = true ∧ (assign s l).conflicting = s.conflicting) ∨
    ∃ id < s.ncl, (assign s l).conflicting = ((id : Nat) : Int) ∧ (s.cls id).sat = false ∧ l ∉ (s.cls id).lits ∧
      (s.cls id).un = (s.cls id).lits.count l.neg := by
  obtain ⟨⟨c1, n1, h1⟩, h1c⟩ := satisfyFold (s.recs l) s
  have h1' : satisfy s l = { s with cls := c1, cnt := n1 } := h1
  have h1c' : ∀ id, (satisfy s l).cls id = _ := h1c
  have hr : (satisfy s l).recs = s.recs := by rw [h1']
  obtain ⟨-, -, -, h4, -⟩ := removeFold l.neg ((satisfy s l).recs l.neg) (satisfy s l)
  rcases h4 hc with ⟨a, b⟩ | ⟨id, m, b1, b2, b3, b4⟩
  · left
    refine ⟨by rw [h1'] at a; exact a, ?_⟩
    have : (assign s l).conflicting = (satisfy s l).conflicting := b
    rw [this, h1']
  · right
    rw [hr, h.mem_recs] at m
    rw [hr, h.occ, if_pos m.1] at b4
    rw [h1c'] at b2 b3 b4
    simp only [h.mem_recs] at b2 b3 b4
    have hs : (s.cls id).sat = false := by
      by_cases z : (s.cls id).sat = true
      · simp [z] at b2
      · simpa using z
    have hl : l ∉ (s.cls id).lits := by
      intro hl; simp [m.1, hl, hs] at b2
    simp only [hl, and_false, false_and, if_false] at b3 b4
    refine ⟨id, m.1, b1, hs, hl, ?_⟩
    have := nU_assign (a := Asg.ofSign l.eq) (Asg.ofSign_ne _) hu hl
    have := (h.cuns id m.1 hs).2.1
    omega

theorem assign_conflict_of {s : OSt} (h : Core s) (l : Lit) {id : Nat} (hi : id < s.ncl)
    (hs : (s.cls id).sat = false) (hl : l ∉ (s.cls id).lits) (h1 : 1 ≤ (s.cls id).un)
    (h2 : (s.cls id).un ≤ (s.cls id).lits.count l.neg) : (assign s l).conflict = true := by
  obtain ⟨⟨c1, n1, h1'⟩, h1c⟩ := satisfyFold (s.recs l) s
  have h1' : satisfy s l = { s with cls := c1, cnt := n1 } := h1'
  have h1c' : ∀ id, (satisfy s l).cls id = _ := h1c
  have hr : (satisfy s l).recs = s.recs := by rw [h1']
  obtain ⟨-, -, -, -, h5, -⟩ := removeFold l.neg ((satisfy s l).recs l.neg) (satisfy s l)
  have e : (satisfy s l).cls id = s.cls id := by
    rw [h1c', if_neg]; exact fun h' => hl ((h.mem_recs l id).1 h'.1).2
  exact h5 id (by rw [e]; exact hs) (by rw [e]; exact h1) (by rw [e, hr, h.occ, if_pos hi]; exact h2)

theorem assign_units {s : OSt} (h : Core s) (l : Lit) : ∀ i ∈ (assign s l).units,
    i < s.ncl ∧ (((assign s l).cls i).sat = true ∨ ((assign s l).cls i).un ≤ 1) := by
  obtain ⟨⟨c1, n1, h1⟩, h1c⟩ := satisfyFold (s.recs l) s
  have h1' : satisfy s l = { s with cls := c1, cnt := n1 } := h1
  have h1c' : ∀ id, (satisfy s l).cls id = _ := h1c
  have hr : (satisfy s l).recs = s.recs := by rw [h1']
  obtain ⟨-, -, -, -, -, h6, -⟩ := removeFold l.neg ((satisfy s l).recs l.neg) (satisfy s l)
  intro i hi
  rcases h6 i hi with h' | ⟨h', h2, h3⟩
  · rw [h1'] at h'
    obtain ⟨a, b⟩ := h.uni i h'
    refine ⟨a, ?_⟩
    rw [assign_cls h]
    by_cases c : (s.cls i).sat = true
    · rw [if_pos c]; exact Or.inl c
    · rw [if_neg c, if_pos a]
      split
      · exact Or.inl rfl
      · right
        rcases b with b | b
        · exact absurd b c
        · simp only; omega
  · rw [hr, h.mem_recs] at h'
    refine ⟨h'.1, ?_⟩
    rw [h1c'] at h2 h3
    simp only [h.mem_recs] at h2 h3
    have hs : (s.cls i).sat = false := by
      by_cases z : (s.cls i).sat = true
      · simp [z] at h2
      · simpa using z
    have hl : l ∉ (s.cls i).lits := by
      intro hl; simp [h'.1, hl, hs] at h2
    simp only [hl, and_false, false_and, if_false, hr] at h3
    rw [h.occ, if_pos h'.1] at h3
    rw [assign_cls h, if_neg (by simp [hs]), if_pos h'.1, if_neg hl]
    right
    simp only; omega

/-- `assign` on an unassigned atom keeps the clause part of the invariant. -/
theorem assign_core {s : OSt} (h : Core s) {l : Lit} (hl : 1 ≤ l.var ∧ l.var ≤ s.nv ∧ l.val < s.dom l.var)
    (hu : s.asg l.var l.val = .un) (hL : 0 ≤ s.LEVEL) : Core (assign s l) := by
  have asg_old : ∀ v d, s.asg v d ≠ .un → upd2 s.asg l.var l.val (Asg.ofSign l.eq) v d = s.asg v d := by
    intro v d hv
    simp only [upd2]
    rw [if_neg]; rintro ⟨rfl, rfl⟩; exact hv hu
  have alvl_old : ∀ v d, s.asg v d ≠ .un → upd2 s.alvl l.var l.val s.LEVEL v d = s.alvl v d := by
    intro v d hv
    simp only [upd2]
    rw [if_neg]; rintro ⟨rfl, rfl⟩; exact hv hu
  constructor
  · intro m id
    rw [assign_recs, assign_ncl, assign_lits h]
    exact h.occ m id
  · intro id hi m hm
    rw [assign_lits h] at hm
    rw [assign_nv, assign_dom]
    exact h.rng id (by simpa using hi) m hm
  · intro v d hv
    rw [assign_nv, assign_dom]
    rw [assign_asg] at hv
    by_cases e : v = l.var ∧ d = l.val
    · obtain ⟨rfl, rfl⟩ := e; exact hl
    · simp only [upd2, e, if_false] at hv; exact h.arng v d hv
  · intro v d hv
    rw [assign_asg] at hv
    rw [assign_alvl]
    by_cases e : v = l.var ∧ d = l.val
    · simp only [upd2, e, and_self, if_true] at hv; exact absurd hv (Asg.ofSign_ne _)
    · simp only [upd2, e, if_false] at hv ⊢; exact h.lun v d hv
  · intro v d hv
    rw [assign_asg] at hv
    rw [assign_alvl, assign_LEVEL]
    by_cases e : v = l.var ∧ d = l.val
    · simp only [upd2, e, and_self, if_true]; exact ⟨hL, Int.le_refl _⟩
    · simp only [upd2, e, if_false] at hv ⊢; exact h.las v d hv
  · intro id hi hs
    rw [assign_ncl] at hi
    rw [assign_lits h, assign_asg, assign_alvl]
    by_cases a : (s.cls id).sat = true
    · rw [assign_sat_mono h l a]
      obtain ⟨b, m, hm, h1, h2⟩ := h.csat id hi a
      have : s.asg m.var m.val ≠ .un := by rw [h1]; exact Asg.ofSign_ne _
      exact ⟨b, m, hm, by rw [asg_old _ _ this]; exact h1, by rw [alvl_old _ _ this]; exact h2⟩
    · have a' : (s.cls id).sat = false := by simpa using a
      rw [assign_cls h, if_neg a, if_pos hi] at hs
      rw [assign_cls h, if_neg a, if_pos hi]
      by_cases c : l ∈ (s.cls id).lits
      · rw [if_pos c]
        refine ⟨?_, l, c, by simp, by simp⟩
        have := (h.cuns id hi a').2.1
        simp only; omega
      · rw [if_neg c] at hs; simp [a'] at hs
  · intro id hi hs
    rw [assign_ncl] at hi
    rw [assign_lits h, assign_asg]
    have a : ¬ (s.cls id).sat = true := fun a => by rw [assign_sat_mono h l a, a] at hs; cases hs
    have a' : (s.cls id).sat = false := by simpa using a
    have c : l ∉ (s.cls id).lits := fun c => by rw [assign_sat_lit h hi c] at hs; cases hs
    rw [assign_cls h, if_neg a, if_pos hi, if_neg c]
    obtain ⟨b1, b2, b3⟩ := h.cuns id hi a'
    refine ⟨b1, ?_, ?_⟩
    · have := nU_assign (a := Asg.ofSign l.eq) (Asg.ofSign_ne _) hu c
      simp only; omega
    · intro m hm
      by_cases e : m.var = l.var ∧ m.val = l.val
      · rcases lit_cases l m e.1 e.2 with rfl | rfl
        · exact absurd hm c
        · simp [Lit.neg, Asg.ofSign]; cases l.eq <;> simp
      · simp only [upd2, e, if_false]; exact b3 m hm
  · intro id hi hs
    rw [assign_ncl] at hi
    rw [assign_lits h, assign_asg, assign_alvl, assign_LEVEL]
    have a : ¬ (s.cls id).sat = true := fun a => by rw [assign_sat_mono h l a, a] at hs; cases hs
    have a' : (s.cls id).sat = false := by simpa using a
    have c : l ∉ (s.cls id).lits := fun c => by rw [assign_sat_lit h hi c] at hs; cases hs
    by_cases z : ∃ m ∈ (s.cls id).lits, upd2 s.asg l.var l.val (Asg.ofSign l.eq) m.var m.val = .un
    · exact Or.inl z
    · right
      have z' : nU (upd2 s.asg l.var l.val (Asg.ofSign l.eq)) (s.cls id).lits = 0 :=
        nU_zero.2 fun m hm e => z ⟨m, hm, e⟩
      have e1 := nU_assign (a := Asg.ofSign l.eq) (Asg.ofSign_ne _) hu c
      have e2 := (h.cuns id hi a').2.1
      rcases h.nz id hi a' with ⟨m, hm, hmu⟩ | ⟨hc, m, hm, hmu, hml⟩
      · have p1 : 0 < nU s.asg (s.cls id).lits := nU_pos.2 ⟨m, hm, hmu⟩
        refine ⟨assign_conflict_of h l hi a' c (by omega) (by omega), ?_⟩
        have : 0 < (s.cls id).lits.count l.neg := by omega
        have hm' := List.count_pos_iff.1 this
        refine ⟨l.neg, hm', ?_, ?_⟩
        · simp only [Lit.neg, upd2_same]; exact Asg.ofSign_ne _
        · simp [Lit.neg]
      · exact ⟨assign_conflict_mono s l hc, m, hm, by rw [asg_old _ _ hmu]; exact hmu,
          by rw [alvl_old _ _ hmu]; exact hml⟩
  · intro hc
    rw [assign_ncl]
    rcases assign_conflict h l hu hc with ⟨h1, h2⟩ | ⟨id, hi, h2, hs, hl', hn⟩
    · obtain ⟨id, c1, hi, hs, hn⟩ := h.conf h1
      refine ⟨id, by rw [h2, c1], hi, ?_⟩
      have e2 := (h.cuns id hi hs).2.1
      have z : nU s.asg (s.cls id).lits = 0 := by omega
      have z' := nU_zero.1 z
      have r : ∀ m ∈ (s.cls id).lits, ¬ (m.var = l.var ∧ m.val = l.val) := by
        intro m hm e; apply z' m hm; rw [e.1, e.2]; exact hu
      have c : l ∉ (s.cls id).lits := fun c => r l c ⟨rfl, rfl⟩
      have c2 : (s.cls id).lits.count l.neg = 0 := List.count_eq_zero.2 fun c => r _ c ⟨rfl, rfl⟩
      rw [assign_cls h, if_neg (by simp [hs]), if_pos hi, if_neg c]
      simp only [c2]
      exact ⟨hs, by omega⟩
    · refine ⟨id, h2, hi, ?_⟩
      rw [assign_cls h, if_neg (by simp [hs]), if_pos hi, if_neg hl']
      simp only
      exact ⟨hs, by omega⟩
  · intro i hi
    rw [assign_ncl]; exact assign_units h l i hi
  · intro id hi hs m hm hv
    rw [assign_ncl] at hi
    rw [assign_lits h] at hm
    rw [assign_asg] at hv
    rw [assign_alvl]
    by_cases a : (s.cls id).sat = true
    · rw [assign_sat_mono h l a]
      by_cases e : m.var = l.var ∧ m.val = l.val
      · simp only [upd2, e, and_self, if_true]
        obtain ⟨-, k, -, h1, h2⟩ := h.csat id hi a
        have := (h.las k.var k.val (by rw [h1]; exact Asg.ofSign_ne _)).2
        omega
      · simp only [upd2, e, if_false] at hv ⊢
        exact h.smin id hi a m hm hv
    · have a' : (s.cls id).sat = false := by simpa using a
      rw [assign_cls h, if_neg a, if_pos hi] at hs
      rw [assign_cls h, if_neg a, if_pos hi]
      by_cases c : l ∈ (s.cls id).lits
      · rw [if_pos c]
        by_cases e : m.var = l.var ∧ m.val = l.val
        · simp only [upd2, e, and_self, if_true]; exact Int.le_refl _
        · simp only [upd2, e, if_false] at hv
          exact absurd hv ((h.cuns id hi a').2.2 m hm)
      · rw [if_neg c] at hs; simp [a'] at hs

end Mvl.Orig
