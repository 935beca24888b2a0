import Verif.Proof.Trail

/-!
# Counter mode: clause counters are what the assignment dictates
-/

namespace Mvl

variable {S : Type}

/-- Only counters, occurrence counts, pending units and conflict flags differ. -/
def FrameE (s s' : St S) : Prop :=
  ∃ h c u b k, s' = { s with heap := h, cnt := c, units := u, conflict := b, conflicting := k }

theorem FrameE.refl (s : St S) : FrameE s s := ⟨s.heap, s.cnt, s.units, s.conflict, s.conflicting, rfl⟩

theorem FrameE.trans {s s' s'' : St S} (h1 : FrameE s s') (h2 : FrameE s' s'') : FrameE s s'' := by
  obtain ⟨_, _, _, _, _, rfl⟩ := h1
  obtain ⟨h, c, u, b, k, rfl⟩ := h2
  exact ⟨h, c, u, b, k, rfl⟩

theorem FrameE.foldl {α : Type} {f : St S → α → St S} (hf : ∀ s a, FrameE s (f s a)) :
    ∀ (l : List α) (s : St S), FrameE s (l.foldl f s)
  | [], s => FrameE.refl s
  | a :: l, s => (hf s a).trans (FrameE.foldl hf l (f s a))

theorem FrameE.tr {s s' : St S} (h : FrameE s s') : s'.tr = s.tr := by
  obtain ⟨_, _, _, _, _, rfl⟩ := h; rfl

/-- Only clause objects and occurrence counts differ. -/
def FrameH (s s' : St S) : Prop := ∃ h c, s' = { s with heap := h, cnt := c }

theorem FrameH.refl (s : St S) : FrameH s s := ⟨s.heap, s.cnt, rfl⟩

theorem FrameH.trans {s s' s'' : St S} (h1 : FrameH s s') (h2 : FrameH s' s'') : FrameH s s'' := by
  obtain ⟨_, _, rfl⟩ := h1
  obtain ⟨h, c, rfl⟩ := h2
  exact ⟨h, c, rfl⟩

theorem FrameH.foldl {α : Type} {f : St S → α → St S} (hf : ∀ s a, FrameH s (f s a)) :
    ∀ (l : List α) (s : St S), FrameH s (l.foldl f s)
  | [], s => FrameH.refl s
  | a :: l, s => (hf s a).trans (FrameH.foldl hf l (f s a))

theorem FrameH.toE {s s' : St S} (h : FrameH s s') : FrameE s s' := by
  obtain ⟨h, c, rfl⟩ := h
  exact ⟨h, c, s.units, s.conflict, s.conflicting, rfl⟩

/-- Only occurrence counts differ. -/
def FrameC (s s' : St S) : Prop := ∃ c, s' = { s with cnt := c }

theorem FrameC.refl (s : St S) : FrameC s s := ⟨s.cnt, rfl⟩
theorem FrameC.trans {s s' s'' : St S} (h1 : FrameC s s') (h2 : FrameC s' s'') : FrameC s s'' := by
  obtain ⟨_, rfl⟩ := h1
  obtain ⟨c, rfl⟩ := h2
  exact ⟨c, rfl⟩
theorem FrameC.foldl {α : Type} {f : St S → α → St S} (hf : ∀ s a, FrameC s (f s a)) :
    ∀ (l : List α) (s : St S), FrameC s (l.foldl f s)
  | [], s => FrameC.refl s
  | a :: l, s => (hf s a).trans (FrameC.foldl hf l (f s a))

/-- The occurrence records mirror the clauses, and no two entries of CLAUSELIST share an object. -/
structure Store (s : St S) : Prop where
  inj  : ∀ i j, i < s.ncl → j < s.ncl → s.ptr i = s.ptr j → i = j
  recs : ∀ l id, (s.recs l).count id = if id < s.ncl then (s.cl id).lits.count l else 0
  alloc : ∀ i, i < s.ncl → s.ptr i < s.nheap

theorem Store.mem_lt {s : St S} (h : Store s) {l : Lit} {id : Nat} (hm : id ∈ s.recs l) :
    id < s.ncl := by
  have h1 := h.recs l id
  have h2 := List.count_pos_iff.2 hm
  by_cases hlt : id < s.ncl
  · exact hlt
  · rw [if_neg hlt] at h1; omega

theorem cl_setCl {s : St S} (h : ∀ i j, i < s.ncl → j < s.ncl → s.ptr i = s.ptr j → i = j)
    {i j : Nat} (hi : i < s.ncl) (hj : j < s.ncl) (c : Cls) :
    (s.setCl i c).cl j = if j = i then c else s.cl j := by
  unfold St.setCl St.cl
  by_cases hji : j = i
  · subst hji; simp
  · rw [if_neg hji]
    exact upd_of_ne _ _ (fun hp => hji (h j i hj hi hp))

/-! ### satisfyClauses -/

theorem satOne_inner_frame (s1 : St S) (lits : List Lit) :
    FrameC s1 (lits.foldl (fun s l =>
      if s.asg l.var l.val = .un then { s with cnt := upd s.cnt l (s.cnt l - 1) } else s) s1) :=
  FrameC.foldl (fun s l => by
    split
    · exact ⟨_, rfl⟩
    · exact FrameC.refl s) lits s1

theorem satOne_eq (cfg : Cfg S) (s : St S) (id : Nat) :
    ∃ c, satOne cfg s id = if (s.cl id).level = -1 then
      { s.setCl id { s.cl id with level := s.LEVEL, numUn := 0 } with cnt := c } else s := by
  unfold satOne
  split
  · dsimp only
    split
    · obtain ⟨c, hc⟩ := satOne_inner_frame
        (s.setCl id { s.cl id with level := s.LEVEL, numUn := 0 }) (s.cl id).lits
      exact ⟨c, hc⟩
    · exact ⟨s.cnt, rfl⟩
  · exact ⟨s.cnt, rfl⟩

theorem satOne_frame (cfg : Cfg S) (s : St S) (id : Nat) : FrameH s (satOne cfg s id) := by
  obtain ⟨c, h⟩ := satOne_eq cfg s id
  rw [h]
  split
  · exact ⟨_, _, rfl⟩
  · exact FrameH.refl s

theorem satOne_cl (cfg : Cfg S) {s : St S} (h : ∀ i j, i < s.ncl → j < s.ncl → s.ptr i = s.ptr j → i = j)
    {id j : Nat} (hi : id < s.ncl) (hj : j < s.ncl) :
    (satOne cfg s id).cl j =
      if j = id ∧ (s.cl j).level = -1 then { s.cl j with level := s.LEVEL, numUn := 0 }
      else s.cl j := by
  obtain ⟨c, hc⟩ := satOne_eq cfg s id
  rw [hc]
  by_cases hl : (s.cl id).level = -1
  · rw [if_pos hl]
    have : ({ s.setCl id { s.cl id with level := s.LEVEL, numUn := 0 } with cnt := c } : St S).cl j
        = (s.setCl id { s.cl id with level := s.LEVEL, numUn := 0 }).cl j := rfl
    rw [this, cl_setCl h hi hj]
    by_cases hji : j = id
    · subst hji; simp [hl]
    · simp [hji]
  · rw [if_neg hl]
    by_cases hji : j = id
    · subst hji; simp [hl]
    · simp [hji]

theorem satFold_frame (cfg : Cfg S) (ids : List Nat) (s : St S) :
    FrameH s (ids.foldl (satOne cfg) s) := FrameH.foldl (satOne_frame cfg) ids s

theorem satFold_cl (cfg : Cfg S) : ∀ (ids : List Nat) (s : St S),
    (∀ i j, i < s.ncl → j < s.ncl → s.ptr i = s.ptr j → i = j) →
    (∀ i ∈ ids, i < s.ncl) → ∀ j, j < s.ncl →
    (ids.foldl (satOne cfg) s).cl j =
      if j ∈ ids ∧ (s.cl j).level = -1 then { s.cl j with level := s.LEVEL, numUn := 0 }
      else s.cl j
  | [], s, _, _, j, _ => by simp
  | id :: ids, s, hinj, hids, j, hj => by
    rw [List.foldl_cons]
    have hid := hids id (by simp)
    have h1 := satOne_cl cfg hinj hid hj
    obtain ⟨hh, hc, he⟩ := satOne_frame cfg s id
    have hncl : (satOne cfg s id).ncl = s.ncl := by rw [he]
    have hptr : (satOne cfg s id).ptr = s.ptr := by rw [he]
    have hL : (satOne cfg s id).LEVEL = s.LEVEL := by rw [he]
    rw [satFold_cl cfg ids (satOne cfg s id) (by rw [hncl, hptr]; exact hinj)
      (by rw [hncl]; intro i hi; exact hids i (by simp [hi])) j (by rw [hncl]; exact hj)]
    rw [h1, hL]
    by_cases hji : j = id
    · subst hji
      by_cases hl : (s.cl j).level = -1
      · simp only [hl, and_self, if_true, List.mem_cons, true_or, ite_self]
      · simp [hl]
    · simp [hji]

theorem satisfyClauses_frame (cfg : Cfg S) (s : St S) (l : Lit) :
    FrameH s (satisfyClauses cfg s l) := satFold_frame cfg _ s

/-! ### removeLiteral -/

theorem remOne_frame (s : St S) (id : Nat) : FrameE s (remOne s id) := by
  unfold remOne
  split
  · dsimp only
    split <;> split <;> exact ⟨_, _, _, _, _, rfl⟩
  · exact FrameE.refl s

theorem remOne_cl {s : St S} (h : ∀ i j, i < s.ncl → j < s.ncl → s.ptr i = s.ptr j → i = j)
    {id j : Nat} (hi : id < s.ncl) (hj : j < s.ncl) :
    (remOne s id).cl j =
      if j = id ∧ (s.cl j).level = -1 then { s.cl j with numUn := (s.cl j).numUn - 1 }
      else s.cl j := by
  unfold remOne
  by_cases hl : (s.cl id).level = -1
  · rw [if_pos hl]
    have key : ∀ s' : St S, s'.heap = (s.setCl id { s.cl id with numUn := (s.cl id).numUn - 1 }).heap →
        s'.ptr = s.ptr → s'.cl j =
        (s.setCl id { s.cl id with numUn := (s.cl id).numUn - 1 }).cl j := by
      intro s' h1 h2
      unfold St.cl; rw [h1, h2]; rfl
    dsimp only
    have : ∀ x : Cls, (if j = id then { s.cl id with numUn := (s.cl id).numUn - 1 } else s.cl j) =
      if j = id ∧ (s.cl j).level = -1 then { s.cl j with numUn := (s.cl j).numUn - 1 } else s.cl j := by
      intro _
      by_cases hji : j = id
      · subst hji; simp [hl]
      · simp [hji]
    rw [← this default]
    split <;> split <;> exact (key _ rfl rfl).trans (cl_setCl h hi hj _)
  · rw [if_neg hl]
    by_cases hji : j = id
    · subst hji; simp [hl]
    · simp [hji]

theorem remOne_units (s : St S) (id i : Nat) :
    i ∈ (remOne s id).units ↔
      i ∈ s.units ∨ (i = id ∧ (s.cl i).level = -1 ∧ (s.cl i).numUn = 2) := by
  unfold remOne
  by_cases hl : (s.cl id).level = -1
  · rw [if_pos hl]
    dsimp only
    by_cases h1 : (s.cl id).numUn - 1 = 1
    · rw [if_pos h1, if_neg (by omega)]
      show i ∈ id :: s.units ↔ _
      rw [List.mem_cons]
      constructor
      · rintro (rfl | h)
        · right; exact ⟨rfl, hl, by omega⟩
        · exact Or.inl h
      · rintro (h | ⟨rfl, _⟩)
        · exact Or.inr h
        · exact Or.inl rfl
    · rw [if_neg h1]
      have : ∀ s' : St S, s'.units = s.units → (i ∈ s'.units ↔
          i ∈ s.units ∨ (i = id ∧ (s.cl i).level = -1 ∧ (s.cl i).numUn = 2)) := by
        intro s' hs'
        rw [hs']
        constructor
        · exact Or.inl
        · rintro (h | ⟨rfl, _, h2⟩)
          · exact h
          · omega
      split <;> exact this _ rfl
  · rw [if_neg hl]
    constructor
    · exact Or.inl
    · rintro (h | ⟨rfl, h2, _⟩)
      · exact h
      · exact absurd h2 hl

theorem remOne_conf (s : St S) (id : Nat) :
    if (s.cl id).level = -1 ∧ (s.cl id).numUn = 1 then
      (remOne s id).conflict = true ∧ (remOne s id).conflicting = id
    else (remOne s id).conflict = s.conflict ∧ (remOne s id).conflicting = s.conflicting := by
  unfold remOne
  by_cases hl : (s.cl id).level = -1
  · rw [if_pos hl]
    dsimp only
    by_cases h1 : (s.cl id).numUn = 1
    · rw [if_pos ⟨hl, h1⟩, if_pos (show (s.cl id).numUn - 1 = 0 by omega)]
      exact ⟨rfl, rfl⟩
    · rw [if_neg (by simp [h1]), if_neg (show ¬ (s.cl id).numUn - 1 = 0 by omega)]
      split <;> exact ⟨rfl, rfl⟩
  · rw [if_neg hl, if_neg (by simp [hl])]
    exact ⟨rfl, rfl⟩

/-- Clause `i` reaches zero open literals when the records `ids` are processed. -/
def Hit (s : St S) (ids : List Nat) (i : Nat) : Prop :=
  (s.cl i).level = -1 ∧ 1 ≤ (s.cl i).numUn ∧ (s.cl i).numUn ≤ ids.count i

theorem remFold : ∀ (ids : List Nat) (s : St S),
    (∀ i j, i < s.ncl → j < s.ncl → s.ptr i = s.ptr j → i = j) →
    (∀ i ∈ ids, i < s.ncl) →
    (∀ j, j < s.ncl → (ids.foldl remOne s).cl j =
      if (s.cl j).level = -1 then { s.cl j with numUn := (s.cl j).numUn - ids.count j }
      else s.cl j) ∧
    (∀ i, i < s.ncl → (i ∈ (ids.foldl remOne s).units ↔ i ∈ s.units ∨
      ((s.cl i).level = -1 ∧ 2 ≤ (s.cl i).numUn ∧ (s.cl i).numUn - ids.count i ≤ 1))) ∧
    (∀ i, ¬ i < s.ncl → (i ∈ (ids.foldl remOne s).units ↔ i ∈ s.units)) ∧
    (((ids.foldl remOne s).conflict = s.conflict ∧ (ids.foldl remOne s).conflicting = s.conflicting ∧
        ∀ i ∈ ids, ¬ Hit s ids i) ∨
     ((ids.foldl remOne s).conflict = true ∧
        ∃ i ∈ ids, Hit s ids i ∧ (ids.foldl remOne s).conflicting = i))
  | [], s, _, _ => by
    refine ⟨fun j _ => ?_, fun i _ => ?_, fun i _ => Iff.rfl, Or.inl ⟨rfl, rfl, by simp⟩⟩
    · split <;> simp
    · simp; intro h1 h2 h3; omega
  | id :: ids, s, hinj, hids => by
    have hid := hids id (by simp)
    obtain ⟨_, _, _, _, _, he⟩ := remOne_frame s id
    have hncl : (remOne s id).ncl = s.ncl := by rw [he]
    have hptr : (remOne s id).ptr = s.ptr := by rw [he]
    obtain ⟨A, B, B', C⟩ := remFold ids (remOne s id) (by rw [hncl, hptr]; exact hinj)
      (by rw [hncl]; intro i hi; exact hids i (by simp [hi]))
    rw [hncl] at A B B'
    have hcl : ∀ j, j < s.ncl → _ := fun j hj => remOne_cl hinj hid hj
    simp only [List.foldl_cons]
    have hlev : ∀ j, j < s.ncl → ((remOne s id).cl j).level = (s.cl j).level := by
      intro j hj; rw [hcl j hj]; split <;> rfl
    have hnum : ∀ j, j < s.ncl → (s.cl j).level = -1 →
        ((remOne s id).cl j).numUn = (s.cl j).numUn - (if j = id then 1 else 0) := by
      intro j hj hl; rw [hcl j hj]
      by_cases hji : j = id
      · rw [if_pos ⟨hji, hl⟩, if_pos hji]
      · rw [if_neg (by simp [hji]), if_neg hji]; simp
    have hcount : ∀ j, ((id :: ids).count j : Int) = ids.count j + (if j = id then 1 else 0) := by
      intro j
      rw [List.count_cons]
      by_cases hji : j = id
      · subst hji; simp
      · have : (id == j) = false := by simp [Ne.symm hji]
        simp [this, hji]
    have hhit : ∀ i, i < s.ncl → (Hit s (id :: ids) i ↔ Hit (remOne s id) ids i ∨
        (i = id ∧ (s.cl i).level = -1 ∧ (s.cl i).numUn = 1)) := by
      intro i hi
      unfold Hit
      rw [hlev i hi]
      constructor
      · rintro ⟨h1, h2, h3⟩
        have h4 := hcount i
        have h5 := hnum i hi h1
        by_cases hii : i = id
        · rw [if_pos hii] at h4 h5
          by_cases hn : (s.cl i).numUn = 1
          · exact Or.inr ⟨hii, h1, hn⟩
          · left; refine ⟨h1, ?_, ?_⟩ <;> omega
        · rw [if_neg hii] at h4 h5
          left; refine ⟨h1, ?_, ?_⟩ <;> omega
      · rintro (⟨h1, h2, h3⟩ | ⟨hii, h1, hn⟩)
        · have h4 := hcount i
          have h5 := hnum i hi h1
          by_cases hii : i = id
          · rw [if_pos hii] at h4 h5
            refine ⟨h1, ?_, ?_⟩ <;> omega
          · rw [if_neg hii] at h4 h5
            refine ⟨h1, ?_, ?_⟩ <;> omega
        · have h4 := hcount i
          rw [if_pos hii] at h4
          refine ⟨h1, ?_, ?_⟩ <;> omega
    refine ⟨?_, ?_, ?_, ?_⟩
    · intro j hj
      rw [A j hj, hlev j hj]
      by_cases hl : (s.cl j).level = -1
      · rw [if_pos hl, if_pos hl, hnum j hj hl, hcount j, hcl j hj]
        have : ∀ c : Cls, (if j = id ∧ (s.cl j).level = -1 then
            { s.cl j with numUn := (s.cl j).numUn - 1 } else s.cl j) =
            { s.cl j with numUn := (if j = id ∧ (s.cl j).level = -1 then
            { s.cl j with numUn := (s.cl j).numUn - 1 } else s.cl j).numUn } := by
          intro _; split <;> rfl
        rw [this default]
        simp only [Cls.mk.injEq, and_true, true_and]
        omega
      · rw [if_neg hl, if_neg hl, hcl j hj, if_neg (by simp [hl])]
    · intro i hi
      rw [B i hi, remOne_units, hlev i hi]
      have h4 := hcount i
      constructor
      · rintro ((h | ⟨h1, h2, h3⟩) | ⟨h1, h2, h3⟩)
        · exact Or.inl h
        · right; rw [if_pos h1] at h4; refine ⟨h2, by omega, by omega⟩
        · right
          have h5 := hnum i hi h1
          by_cases hii : i = id
          · rw [if_pos hii] at h4 h5
            refine ⟨h1, ?_, ?_⟩ <;> omega
          · rw [if_neg hii] at h4 h5
            refine ⟨h1, ?_, ?_⟩ <;> omega
      · rintro (h | ⟨h1, h2, h3⟩)
        · exact Or.inl (Or.inl h)
        · have h5 := hnum i hi h1
          by_cases hii : i = id
          · rw [if_pos hii] at h4 h5
            by_cases hn : (s.cl i).numUn = 2
            · exact Or.inl (Or.inr ⟨hii, h1, hn⟩)
            · right; refine ⟨h1, by omega, by omega⟩
          · rw [if_neg hii] at h4 h5
            right; refine ⟨h1, by omega, by omega⟩
    · intro i hi
      rw [B' i hi, remOne_units]
      constructor
      · rintro (h | ⟨rfl, _⟩)
        · exact h
        · exact absurd hid hi
      · exact Or.inl
    · have hc := remOne_conf s id
      rcases C with ⟨c1, c2, c3⟩ | ⟨c1, i, hi, hhi, c2⟩
      · split at hc
        · rename_i hone
          right
          refine ⟨by rw [c1]; exact hc.1, id, by simp, ?_, by rw [c2]; exact hc.2⟩
          rw [hhit id hid]; right; exact ⟨rfl, hone⟩
        · rename_i hone
          left
          refine ⟨by rw [c1]; exact hc.1, by rw [c2]; exact hc.2, ?_⟩
          intro i hi hh
          rw [hhit i (hids i hi)] at hh
          rcases hh with hh | ⟨rfl, h2⟩
          · rcases List.mem_cons.1 hi with rfl | hi'
            · by_cases hmem : i ∈ ids
              · exact c3 i hmem hh
              · unfold Hit at hh
                rw [List.count_eq_zero_of_not_mem hmem] at hh
                omega
            · exact c3 i hi' hh
          · exact hone h2
      · right
        refine ⟨c1, i, by simp [hi], ?_, c2⟩
        rw [hhit i (hids i (by simp [hi]))]; exact Or.inl hhi

theorem removeLiteral_frame (s : St S) (l : Lit) : FrameE s (removeLiteral s l) :=
  FrameE.foldl remOne_frame _ s

/-! ### Effect of assigning one atom on literals -/

/-- The assignment after making literal `l` true. -/
def setLit (g : PA) (l : Lit) : PA := upd2 g l.var l.val (Asg.ofSign l.eq)

theorem neg_neg (l : Lit) : l.neg.neg = l := by cases l; simp [Lit.neg]
theorem neg_ne (l : Lit) : l.neg ≠ l := by cases l; simp [Lit.neg]

theorem atom_eq_iff {l x : Lit} : (x.var = l.var ∧ x.val = l.val) ↔ (x = l ∨ x = l.neg) := by
  obtain ⟨v, d, e⟩ := l; obtain ⟨v', d', e'⟩ := x
  simp only [Lit.neg, Lit.mk.injEq]
  cases e <;> cases e' <;> simp

theorem LT_setLit {g : PA} {l x : Lit} (hu : LU g l) : LT (setLit g l) x ↔ (x = l ∨ LT g x) := by
  unfold LT setLit upd2
  by_cases h : x.var = l.var ∧ x.val = l.val
  · rw [if_pos h]
    have hx : g x.var x.val = .un := by rw [h.1, h.2]; exact hu
    rcases atom_eq_iff.1 h with rfl | rfl
    · simp
    · rw [ofSign_inj, hx]
      have h1 : l.neg ≠ l := neg_ne l
      simp [h1]; simp [Lit.neg]
  · rw [if_neg h]
    have : x ≠ l := fun he => h (atom_eq_iff.2 (Or.inl he))
    simp [this]

theorem LF_setLit {g : PA} {l x : Lit} (hu : LU g l) : LF (setLit g l) x ↔ (x = l.neg ∨ LF g x) := by
  have := LT_setLit (x := x.neg) hu
  have h1 : LT (setLit g l) x.neg ↔ LF (setLit g l) x := Iff.rfl
  have h2 : LT g x.neg ↔ LF g x := Iff.rfl
  rw [h1, h2] at this
  rw [this]
  constructor
  · rintro (h | h)
    · left; rw [← h, neg_neg]
    · exact Or.inr h
  · rintro (h | h)
    · left; rw [h, neg_neg]
    · exact Or.inr h

theorem LU_setLit {g : PA} {l x : Lit} : LU (setLit g l) x ↔ (LU g x ∧ x ≠ l ∧ x ≠ l.neg) := by
  unfold LU setLit upd2
  by_cases h : x.var = l.var ∧ x.val = l.val
  · rw [if_pos h]
    have := atom_eq_iff.1 h
    simp only [ofSign_ne_un, false_iff]
    rintro ⟨_, h1, h2⟩
    rcases this with h' | h'
    · exact h1 h'
    · exact h2 h'
  · rw [if_neg h]
    constructor
    · intro hx
      exact ⟨hx, fun he => h (atom_eq_iff.2 (Or.inl he)), fun he => h (atom_eq_iff.2 (Or.inr he))⟩
    · exact fun hx => hx.1

theorem openCount_setLit {g : PA} {l : Lit} (hu : LU g l) (c : List Lit) :
    openCount g c = openCount (setLit g l) c + c.count l + c.count l.neg := by
  have hun : LU g l.neg := hu
  induction c with
  | nil => simp [openCount]
  | cons x xs ih =>
    unfold openCount at *
    rw [List.countP_cons, List.countP_cons, List.count_cons, List.count_cons, ih]
    by_cases h1 : x = l
    · subst h1
      have : ¬ LU (setLit g x) x := by rw [LU_setLit]; simp
      have h2 : (x == x.neg) = false := by simp [Ne.symm (neg_ne x)]
      simp [this, hu, h2]; omega
    · by_cases h2 : x = l.neg
      · subst h2
        have : ¬ LU (setLit g l) l.neg := by rw [LU_setLit]; simp
        have h3 : (l.neg == l) = false := by simp [neg_ne]
        simp [this, hun, h3]; omega
      · have h3 : (x == l) = false := by simp [h1]
        have h4 : (x == l.neg) = false := by simp [h2]
        have h5 : LU (setLit g l) x ↔ LU g x := by rw [LU_setLit]; simp [h1, h2]
        simp [h3, h4, h5]; omega

/-! ### Exact counters -/

/-- The clause's mark and counter are what the assignment dictates: not satisfied, mark -1 and counter
the number of open occurrences; or satisfied, counter 0 and mark the lowest level of a true literal. -/
def Exact (g : PA) (lvl : Nat → Nat → Int) (c : Cls) : Prop :=
  (c.level = -1 ∧ ¬ CSat g c.lits ∧ c.numUn = openCount g c.lits) ∨
  (0 ≤ c.level ∧ c.numUn = 0 ∧ (∃ l ∈ c.lits, LT g l ∧ lvl l.var l.val = c.level) ∧
    ∀ l ∈ c.lits, LT g l → c.level ≤ lvl l.var l.val)

theorem Exact.unsat {g : PA} {lvl : Nat → Nat → Int} {c : Cls} (h : Exact g lvl c) (hl : c.level = -1) :
    ¬ CSat g c.lits ∧ c.numUn = openCount g c.lits := by
  rcases h with ⟨_, h1, h2⟩ | ⟨h1, _⟩
  · exact ⟨h1, h2⟩
  · omega

theorem Exact.sat {g : PA} {lvl : Nat → Nat → Int} {c : Cls} (h : Exact g lvl c) (hl : c.level ≠ -1) :
    CSat g c.lits := by
  rcases h with ⟨h1, _⟩ | ⟨_, _, ⟨l, hm, ht, _⟩, _⟩
  · exact absurd h1 hl
  · exact ⟨l, hm, ht⟩

theorem Exact.level_iff {g : PA} {lvl : Nat → Nat → Int} {c : Cls} (h : Exact g lvl c) :
    c.level = -1 ↔ ¬ CSat g c.lits := by
  constructor
  · exact fun hl => (h.unsat hl).1
  · intro hn
    apply Classical.byContradiction
    exact fun hl => hn (h.sat hl)

/-- The counter-mode invariant; `ex` lists clauses exempt from being queued (one that was just taken
from the queue). -/
structure CntInv (ex : Nat → Prop) (s : St S) : Prop where
  store : Store s
  exact : ∀ id, id < s.ncl → Exact s.asg s.lvl (s.cl id)
  unitsOK : ∀ id ∈ s.units, id < s.ncl ∧ ((s.cl id).level = -1 → (s.cl id).numUn ≤ 1)
  pend : s.conflict = false → ∀ id, ¬ ex id → id < s.ncl → (s.cl id).level = -1 →
    2 ≤ (s.cl id).numUn ∨ ((s.cl id).numUn = 1 ∧ id ∈ s.units)
  conf : s.conflict = true → ∃ id, id < s.ncl ∧ s.conflicting = (id : Nat) ∧
    (s.cl id).level = -1 ∧ (s.cl id).numUn = 0

theorem setAtom_asg (cfg : Cfg S) (s : St S) (l : Lit) :
    (setAtom cfg s l.var l.val (Asg.ofSign l.eq)).asg = setLit s.asg l := rfl

/-- `assign1` written with the literal made true. -/
def assignLit (cfg : Cfg S) (s : St S) (l : Lit) : St S :=
  removeLiteral (satisfyClauses cfg (setAtom cfg s l.var l.val (Asg.ofSign l.eq)) l) l.neg

theorem assign1_eq (cfg : Cfg S) (s : St S) (v d : Nat) :
    assign1 cfg s v d .eq = assignLit cfg s ⟨v, d, true⟩ := rfl
theorem assign1_ne (cfg : Cfg S) (s : St S) (v d : Nat) :
    assign1 cfg s v d .ne = assignLit cfg s ⟨v, d, false⟩ := rfl

theorem assignLit_frame (cfg : Cfg S) (s : St S) (l : Lit) :
    FrameE (setAtom cfg s l.var l.val (Asg.ofSign l.eq)) (assignLit cfg s l) :=
  (satisfyClauses_frame cfg _ l).toE.trans (removeLiteral_frame _ _)

theorem assignLit_tr (cfg : Cfg S) (s : St S) (l : Lit) :
    (assignLit cfg s l).tr = s.tr.set l.var l.val (Asg.ofSign l.eq) s.unitClause := by
  rw [(assignLit_frame cfg s l).tr]; rfl

theorem assignLit_cl (cfg : Cfg S) {s : St S} (hs : Store s) (hL : 0 ≤ s.LEVEL) (l : Lit) {j : Nat}
    (hj : j < s.ncl) :
    (assignLit cfg s l).cl j =
      if (s.cl j).level = -1 then
        if l ∈ (s.cl j).lits then { s.cl j with level := s.LEVEL, numUn := 0 }
        else { s.cl j with numUn := (s.cl j).numUn - (s.cl j).lits.count l.neg }
      else s.cl j := by
  have hmem : ∀ l', j ∈ s.recs l' ↔ l' ∈ (s.cl j).lits := by
    intro l'
    rw [← List.count_pos_iff, hs.recs l' j, if_pos hj, List.count_pos_iff]
  have hcount : ∀ l', (s.recs l').count j = (s.cl j).lits.count l' := by
    intro l'; rw [hs.recs l' j, if_pos hj]
  have hsat := satFold_cl cfg (s.recs l) (setAtom cfg s l.var l.val (Asg.ofSign l.eq)) hs.inj
    (fun i hi => hs.mem_lt hi) j hj
  have hcl0 : (setAtom cfg s l.var l.val (Asg.ofSign l.eq)).cl j = s.cl j := rfl
  rw [hcl0] at hsat
  obtain ⟨_, _, hfr⟩ := satisfyClauses_frame cfg (setAtom cfg s l.var l.val (Asg.ofSign l.eq)) l
  have hrem := (remFold (s.recs l.neg) (satisfyClauses cfg (setAtom cfg s l.var l.val (Asg.ofSign l.eq)) l)
    (by rw [hfr]; exact hs.inj) (by rw [hfr]; exact fun i hi => hs.mem_lt hi)).1 j (by rw [hfr]; exact hj)
  have hrecs : (satisfyClauses cfg (setAtom cfg s l.var l.val (Asg.ofSign l.eq)) l).recs = s.recs := by
    rw [hfr]; rfl
  have hL0 : (setAtom cfg s l.var l.val (Asg.ofSign l.eq)).LEVEL = s.LEVEL := rfl
  rw [hL0] at hsat
  unfold assignLit removeLiteral
  rw [hrecs, hrem]
  unfold satisfyClauses
  have hrecs0 : (setAtom cfg s l.var l.val (Asg.ofSign l.eq)).recs l = s.recs l := rfl
  rw [hrecs0, hsat]
  simp only [hmem]
  by_cases hl : (s.cl j).level = -1
  · by_cases hm : l ∈ (s.cl j).lits
    · simp only [hl, hm, and_self, if_true]
      rw [if_neg (by omega)]
    · simp only [hl, hm, false_and, if_false, if_true]
      rw [hcount]
  · simp [hl]

theorem assignLit_lits (cfg : Cfg S) {s : St S} (hs : Store s) (hL : 0 ≤ s.LEVEL) (l : Lit) {j : Nat}
    (hj : j < s.ncl) : ((assignLit cfg s l).cl j).lits = (s.cl j).lits := by
  rw [assignLit_cl cfg hs hL l hj]
  split
  · split <;> rfl
  · rfl

/-- The state after the array writes and `satisfyClauses`. -/
theorem CntInv.assignLit (cfg : Cfg S) {ex : Nat → Prop} {s : St S} (h : CntInv ex s)
    (hb : ∀ v d, s.asg v d ≠ .un → s.lvl v d ≤ s.LEVEL) (hL : 0 ≤ s.LEVEL)
    {l : Lit} (hu : LU s.asg l) : CntInv ex (assignLit cfg s l) := by
  have hs := h.store
  have hfr := assignLit_frame cfg s l
  have hcl := fun j (hj : j < s.ncl) => assignLit_cl cfg hs hL l hj
  have hlits := fun j (hj : j < s.ncl) => assignLit_lits cfg hs hL l hj
  obtain ⟨hp, cn, un, cf, cg, he⟩ := hfr
  have hncl : (Mvl.assignLit cfg s l).ncl = s.ncl := by rw [he]; rfl
  have hptr : (Mvl.assignLit cfg s l).ptr = s.ptr := by rw [he]; rfl
  have hnh : (Mvl.assignLit cfg s l).nheap = s.nheap := by rw [he]; rfl
  have hrecs : (Mvl.assignLit cfg s l).recs = s.recs := by rw [he]; rfl
  have hasg : (Mvl.assignLit cfg s l).asg = setLit s.asg l := by rw [he]; rfl
  have hlvl : (Mvl.assignLit cfg s l).lvl = upd2 s.lvl l.var l.val s.LEVEL := by rw [he]; rfl
  have hexact : ∀ id, id < s.ncl →
      Exact (setLit s.asg l) (upd2 s.lvl l.var l.val s.LEVEL) ((Mvl.assignLit cfg s l).cl id) := by
    intro j hj
    rw [hcl j hj]
    have hold : ∀ x, LT s.asg x → upd2 s.lvl l.var l.val s.LEVEL x.var x.val = s.lvl x.var x.val := by
      intro x hx
      apply Trail.upd2_of_ne
      rintro ⟨h1, h2⟩
      apply hx.not_LU
      unfold LU at *; rw [h1, h2]; exact hu
    have hnew : upd2 s.lvl l.var l.val s.LEVEL l.var l.val = s.LEVEL := by simp
    by_cases hlv : (s.cl j).level = -1
    · rw [if_pos hlv]
      obtain ⟨hns, hnum⟩ := (h.exact j hj).unsat hlv
      by_cases hm : l ∈ (s.cl j).lits
      · rw [if_pos hm]
        right
        refine ⟨hL, rfl, ⟨l, hm, (LT_setLit hu).2 (Or.inl rfl), hnew⟩, ?_⟩
        intro x hx hxt
        rcases (LT_setLit hu).1 hxt with rfl | hxt
        · rw [hnew]; exact Int.le_refl _
        · exact absurd ⟨x, hx, hxt⟩ hns
      · rw [if_neg hm]
        left
        refine ⟨hlv, ?_, ?_⟩
        · rintro ⟨x, hx, hxt⟩
          rcases (LT_setLit hu).1 hxt with rfl | hxt
          · exact hm hx
          · exact hns ⟨x, hx, hxt⟩
        · dsimp only
          have := openCount_setLit hu (s.cl j).lits
          rw [List.count_eq_zero_of_not_mem hm] at this
          omega
    · rw [if_neg hlv]
      rcases h.exact j hj with ⟨h1, _⟩ | ⟨h1, h2, ⟨x, hx, hxt, hxl⟩, h4⟩
      · exact absurd h1 hlv
      · right
        refine ⟨h1, h2, ⟨x, hx, (LT_setLit hu).2 (Or.inr hxt), by rw [hold x hxt]; exact hxl⟩, ?_⟩
        intro y hy hyt
        rcases (LT_setLit hu).1 hyt with rfl | hyt
        · rw [hnew, ← hxl]
          exact hb x.var x.val (fun hn => hxt.not_LU hn)
        · rw [hold y hyt]; exact h4 y hy hyt
  -- the state just before removeLiteral
  obtain ⟨_, _, hfr1⟩ := satisfyClauses_frame cfg (setAtom cfg s l.var l.val (Asg.ofSign l.eq)) l
  have hsat := fun j (hj : j < s.ncl) => satFold_cl cfg (s.recs l)
    (setAtom cfg s l.var l.val (Asg.ofSign l.eq)) hs.inj (fun i hi => hs.mem_lt hi) j hj
  have hs1ncl : (satisfyClauses cfg (setAtom cfg s l.var l.val (Asg.ofSign l.eq)) l).ncl = s.ncl := by
    rw [hfr1]; rfl
  obtain ⟨_, RB, RB', RC⟩ := remFold (s.recs l.neg)
    (satisfyClauses cfg (setAtom cfg s l.var l.val (Asg.ofSign l.eq)) l)
    (by rw [hfr1]; exact hs.inj) (by rw [hfr1]; exact fun i hi => hs.mem_lt hi)
  have hfold : (s.recs l.neg).foldl remOne
      (satisfyClauses cfg (setAtom cfg s l.var l.val (Asg.ofSign l.eq)) l) = Mvl.assignLit cfg s l := by
    have : (satisfyClauses cfg (setAtom cfg s l.var l.val (Asg.ofSign l.eq)) l).recs = s.recs := by
      rw [hfr1]; rfl
    unfold Mvl.assignLit removeLiteral; rw [this]
  rw [hfold] at RB RB' RC
  rw [hs1ncl] at RB RB'
  have hu1 : (satisfyClauses cfg (setAtom cfg s l.var l.val (Asg.ofSign l.eq)) l).units = s.units := by
    rw [hfr1]; rfl
  have hc1 : (satisfyClauses cfg (setAtom cfg s l.var l.val (Asg.ofSign l.eq)) l).conflict = s.conflict := by
    rw [hfr1]; rfl
  have hg1 : (satisfyClauses cfg (setAtom cfg s l.var l.val (Asg.ofSign l.eq)) l).conflicting = s.conflicting := by
    rw [hfr1]; rfl
  -- clause j there
  have hcl1 : ∀ j, j < s.ncl →
      (satisfyClauses cfg (setAtom cfg s l.var l.val (Asg.ofSign l.eq)) l).cl j =
      if l ∈ (s.cl j).lits ∧ (s.cl j).level = -1 then { s.cl j with level := s.LEVEL, numUn := 0 }
      else s.cl j := by
    intro j hj
    have h1 := hsat j hj
    have h2 : (j ∈ s.recs l) ↔ l ∈ (s.cl j).lits := by
      rw [← List.count_pos_iff, hs.recs l j, if_pos hj, List.count_pos_iff]
    unfold satisfyClauses
    have : (setAtom cfg s l.var l.val (Asg.ofSign l.eq)).recs l = s.recs l := rfl
    rw [this, h1]
    have : (setAtom cfg s l.var l.val (Asg.ofSign l.eq)).cl j = s.cl j := rfl
    rw [this]
    simp only [h2]
    rfl
  have hun1 : ∀ j, j < s.ncl →
      ((satisfyClauses cfg (setAtom cfg s l.var l.val (Asg.ofSign l.eq)) l).cl j).level = -1 →
      (s.cl j).level = -1 ∧ l ∉ (s.cl j).lits ∧
      (satisfyClauses cfg (setAtom cfg s l.var l.val (Asg.ofSign l.eq)) l).cl j = s.cl j := by
    intro j hj hl
    rw [hcl1 j hj] at hl ⊢
    split at hl
    · simp at hl; omega
    · rename_i hn
      rw [if_neg hn]
      exact ⟨hl, fun hm => hn ⟨hm, hl⟩, rfl⟩
  have hcnt : ∀ j, j < s.ncl → (s.recs l.neg).count j = (s.cl j).lits.count l.neg := by
    intro j hj; rw [hs.recs l.neg j, if_pos hj]
  refine ⟨⟨?_, ?_, ?_⟩, ?_, ?_, ?_, ?_⟩
  · rw [hncl, hptr]; exact hs.inj
  · intro l' id
    rw [hrecs, hncl, hs.recs l' id]
    split
    · rename_i hid; rw [hlits id hid]
    · rfl
  · rw [hncl, hptr, hnh]; exact hs.alloc
  · intro id hid
    rw [hncl] at hid
    rw [hasg, hlvl]; exact hexact id hid
  · intro id hid
    rw [hncl]
    by_cases hlt : id < s.ncl
    · refine ⟨hlt, ?_⟩
      intro hl'
      have hcj := hcl id hlt
      rw [RB id hlt, hu1] at hid
      rcases hid with hid | ⟨h1, h2, h3⟩
      · have := (h.unitsOK id hid).2
        rw [hcj] at hl' ⊢
        split
        · rename_i hl
          rw [if_pos hl] at hl'
          split
          · simp
          · have := this hl
            dsimp only
            omega
        · rename_i hl; rw [if_neg hl] at hl'; exact absurd hl' hl
      · obtain ⟨e1, e2, e3⟩ := hun1 id hlt h1
        rw [e3, hcnt id hlt] at h3
        rw [hcj, if_pos e1, if_neg e2]
        exact h3
    · rw [RB' id hlt, hu1] at hid
      exact absurd (h.unitsOK id hid).1 hlt
  · intro hcf id hnex hid hlid
    rw [hncl] at hid
    have hcj := hcl id hid
    rw [hcj] at hlid
    -- no conflict: no hits
    rcases RC with ⟨c1, c2, c3⟩ | ⟨c1, _⟩
    · rw [hcf] at c1
      rw [hc1] at c1
      have hlold : (s.cl id).level = -1 := by
        by_cases hl : (s.cl id).level = -1
        · exact hl
        · rw [if_neg hl] at hlid; exact hlid
      rw [if_pos hlold] at hlid
      have hnm : l ∉ (s.cl id).lits := by
        intro hm; rw [if_pos hm] at hlid; simp at hlid; omega
      rw [hcj, if_pos hlold, if_neg hnm]
      have hcl1' := hcl1 id hid
      rw [if_neg (by simp [hnm])] at hcl1'
      have hp := h.pend c1.symm id hnex hid hlold
      have hb' := RB id hid
      rw [hcl1', hcnt id hid, hu1] at hb'
      dsimp only
      have hnohit : 1 ≤ (s.cl id).numUn - ((s.cl id).lits.count l.neg : Int) := by
        apply Classical.byContradiction
        intro hcon
        have hnp : 1 ≤ (s.cl id).numUn := by omega
        by_cases hmem : id ∈ s.recs l.neg
        · apply c3 id hmem
          unfold Hit
          rw [hcl1', hcnt id hid]
          exact ⟨hlold, hnp, by omega⟩
        · have := hcnt id hid
          rw [List.count_eq_zero_of_not_mem hmem] at this
          omega
      by_cases h2 : 2 ≤ (s.cl id).numUn - ((s.cl id).lits.count l.neg : Int)
      · exact Or.inl h2
      · right
        refine ⟨by omega, ?_⟩
        rw [hb']
        rcases hp with hp | ⟨hp, hin⟩
        · right; exact ⟨hlold, hp, by omega⟩
        · exact Or.inl hin
    · rw [hcf] at c1; simp at c1
  · intro hcf
    rcases RC with ⟨c1, c2, c3⟩ | ⟨c1, i, hi, hhit, c2⟩
    · rw [hcf, hc1] at c1
      obtain ⟨id, hid, h1, h2, h3⟩ := h.conf c1.symm
      refine ⟨id, by rw [hncl]; exact hid, by rw [c2, hg1]; exact h1, ?_⟩
      obtain ⟨hns, hnum⟩ := (h.exact id hid).unsat h2
      rw [hcl id hid, if_pos h2]
      have hz : openCount s.asg (s.cl id).lits = 0 := by omega
      have hall := allFalse_of hns hz
      have hnl : l ∉ (s.cl id).lits := fun hm => (hall l hm).not_LU hu
      have hnl' : l.neg ∉ (s.cl id).lits := fun hm => (hall l.neg hm).not_LU hu
      rw [if_neg hnl, List.count_eq_zero_of_not_mem hnl']
      refine ⟨h2, ?_⟩
      dsimp only; omega
    · have hilt : i < s.ncl := hs.mem_lt hi
      obtain ⟨e0, e1, e2⟩ := hhit
      obtain ⟨f1, f2, f3⟩ := hun1 i hilt e0
      rw [f3, hcnt i hilt] at e2
      refine ⟨i, by rw [hncl]; exact hilt, c2, ?_⟩
      obtain ⟨hns, hnum⟩ := (h.exact i hilt).unsat f1
      have hoc := openCount_setLit hu (s.cl i).lits
      rw [hcl i hilt, if_pos f1, if_neg f2]
      refine ⟨f1, ?_⟩
      dsimp only; omega

end Mvl
