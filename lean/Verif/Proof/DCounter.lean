import Verif.Proof.Undo

/-!
# Counter mode on files with repeated literals: clause objects that may be shared

When a file repeats a literal inside a clause, `analyzeConflict` can return the conflicting clause
itself and `learnClause` then appends the same object to CLAUSELIST a second time.  Entries of
CLAUSELIST and objects are no longer the same thing, so the lemmas below are about objects.
-/

namespace Mvl

variable {S : Type}

theorem heap_setCl (s : St S) (i : Nat) (c : Cls) (p : Nat) :
    (s.setCl i c).heap p = if p = s.ptr i then c else s.heap p := by
  unfold St.setCl
  by_cases h : p = s.ptr i
  · subst h; simp
  · rw [if_neg h]; exact upd_of_ne _ _ h

/-! ### satisfyClauses -/

theorem satOne_heap (cfg : Cfg S) (s : St S) (id p : Nat) :
    (satOne cfg s id).heap p =
      if p = s.ptr id ∧ (s.heap p).level = -1 then { s.heap p with level := s.LEVEL, numUn := 0 }
      else s.heap p := by
  obtain ⟨c, hc⟩ := satOne_eq cfg s id
  rw [hc]
  have hcl : s.cl id = s.heap (s.ptr id) := rfl
  by_cases hl : (s.cl id).level = -1
  · rw [if_pos hl]
    show (s.setCl id _).heap p = _
    rw [heap_setCl]
    by_cases hp : p = s.ptr id
    · subst hp; rw [hcl] at hl; simp [hl, hcl]
    · simp [hp]
  · rw [if_neg hl]
    by_cases hp : p = s.ptr id
    · subst hp; rw [hcl] at hl; simp [hl]
    · simp [hp]

theorem satFold_heap (cfg : Cfg S) : ∀ (ids : List Nat) (s : St S) (p : Nat),
    (ids.foldl (satOne cfg) s).heap p =
      if p ∈ ids.map s.ptr ∧ (s.heap p).level = -1 then { s.heap p with level := s.LEVEL, numUn := 0 }
      else s.heap p
  | [], s, p => by simp
  | id :: ids, s, p => by
    rw [List.foldl_cons, satFold_heap cfg ids, satOne_heap]
    obtain ⟨hh, hc, he⟩ := satOne_frame cfg s id
    have hptr : (satOne cfg s id).ptr = s.ptr := by rw [he]
    have hL : (satOne cfg s id).LEVEL = s.LEVEL := by rw [he]
    rw [hptr, hL]
    by_cases hp : p = s.ptr id
    · subst hp
      by_cases hl : (s.heap (s.ptr id)).level = -1
      · simp only [hl, and_self, if_true, List.map_cons, List.mem_cons, true_or, ite_self]
      · simp [hl]
    · simp [hp]

/-! ### removeLiteral -/

theorem remOne_heap (s : St S) (id p : Nat) :
    (remOne s id).heap p =
      if p = s.ptr id ∧ (s.heap p).level = -1 then { s.heap p with numUn := (s.heap p).numUn - 1 }
      else s.heap p := by
  unfold remOne
  have hcl : s.cl id = s.heap (s.ptr id) := rfl
  by_cases hl : (s.cl id).level = -1
  · rw [if_pos hl]
    dsimp only
    have key : (s.setCl id { s.cl id with numUn := (s.cl id).numUn - 1 }).heap p =
        if p = s.ptr id ∧ (s.heap p).level = -1 then { s.heap p with numUn := (s.heap p).numUn - 1 }
        else s.heap p := by
      rw [heap_setCl]
      by_cases hp : p = s.ptr id
      · subst hp; rw [hcl] at hl; simp [hl, hcl]
      · simp [hp]
    split <;> split <;> exact key
  · rw [if_neg hl]
    by_cases hp : p = s.ptr id
    · subst hp; rw [hcl] at hl; simp [hl]
    · simp [hp]

theorem remFold_heap : ∀ (ids : List Nat) (s : St S) (p : Nat),
    (ids.foldl remOne s).heap p =
      if (s.heap p).level = -1 then { s.heap p with numUn := (s.heap p).numUn - (ids.map s.ptr).count p }
      else s.heap p
  | [], s, p => by split <;> simp
  | id :: ids, s, p => by
    rw [List.foldl_cons, remFold_heap ids, remOne_heap]
    obtain ⟨_, _, _, _, _, he⟩ := remOne_frame s id
    have hptr : (remOne s id).ptr = s.ptr := by rw [he]
    rw [hptr]
    by_cases hp : p = s.ptr id
    · subst hp
      by_cases hl : (s.heap (s.ptr id)).level = -1
      · simp only [hl, and_self, if_true, List.map_cons, List.count_cons_self, Cls.mk.injEq, and_true, true_and]
        omega
      · simp [hl]
    · have : (List.map s.ptr (id :: ids)).count p = (ids.map s.ptr).count p := by
        rw [List.map_cons, List.count_cons]; simp [Ne.symm hp]
      simp only [hp, false_and, if_false, this]

/-- The entry `j` of CLAUSELIST does not share its object. -/
def Own (s : St S) (j : Nat) : Prop := ∀ i, i < s.ncl → s.ptr i = s.ptr j → i = j

theorem Own.count {s : St S} {j : Nat} (h : Own s j) : ∀ (ids : List Nat), (∀ i ∈ ids, i < s.ncl) →
    (ids.map s.ptr).count (s.ptr j) = ids.count j
  | [], _ => rfl
  | id :: ids, hids => by
    rw [List.map_cons, List.count_cons, List.count_cons, Own.count h ids (fun i hi => hids i (by simp [hi]))]
    have : (s.ptr id == s.ptr j) = (id == j) := by
      rw [Bool.eq_iff_iff]; simp only [beq_iff_eq]
      exact ⟨h id (hids id (by simp)), fun e => by rw [e]⟩
    rw [this]

theorem remFold_own : ∀ (ids : List Nat) (s : St S), (∀ i ∈ ids, i < s.ncl) →
    (∀ i, Own s i → (i ∈ (ids.foldl remOne s).units ↔ i ∈ s.units ∨
      ((s.cl i).level = -1 ∧ 2 ≤ (s.cl i).numUn ∧ (s.cl i).numUn - ids.count i ≤ 1))) ∧
    (∀ i ∈ (ids.foldl remOne s).units, i ∈ s.units ∨ i ∈ ids) ∧
    (((ids.foldl remOne s).conflict = s.conflict ∧ (ids.foldl remOne s).conflicting = s.conflicting ∧
        ∀ i ∈ ids, Own s i → ¬ Hit s ids i) ∨
     ((ids.foldl remOne s).conflict = true ∧
        ∃ i ∈ ids, (Own s i → Hit s ids i) ∧ (ids.foldl remOne s).conflicting = i))
  | [], s, _ => by
    refine ⟨fun i _ => ?_, fun i hi => Or.inl hi, Or.inl ⟨rfl, rfl, by simp⟩⟩
    simp; intro h1 h2 h3; omega
  | id :: ids, s, hids => by
    have hid := hids id (by simp)
    obtain ⟨_, _, _, _, _, he⟩ := remOne_frame s id
    have hncl : (remOne s id).ncl = s.ncl := by rw [he]
    have hptr : (remOne s id).ptr = s.ptr := by rw [he]
    have hown : ∀ i, Own (remOne s id) i ↔ Own s i := by intro i; unfold Own; rw [hncl, hptr]
    obtain ⟨B, B', C⟩ := remFold_own ids (remOne s id) (by rw [hncl]; intro i hi; exact hids i (by simp [hi]))
    have hcl : ∀ j, (remOne s id).cl j =
        if s.ptr j = s.ptr id ∧ (s.cl j).level = -1 then { s.cl j with numUn := (s.cl j).numUn - 1 }
        else s.cl j := fun j => by
      show (remOne s id).heap ((remOne s id).ptr j) = _
      rw [hptr]; exact remOne_heap s id (s.ptr j)
    simp only [List.foldl_cons]
    have hlev : ∀ j, ((remOne s id).cl j).level = (s.cl j).level := by
      intro j; rw [hcl j]; split <;> rfl
    have hnum : ∀ j, Own s j → (s.cl j).level = -1 →
        ((remOne s id).cl j).numUn = (s.cl j).numUn - (if j = id then 1 else 0) := by
      intro j hj hl; rw [hcl j]
      by_cases hji : j = id
      · rw [if_pos ⟨by rw [hji], hl⟩, if_pos hji]
      · rw [if_neg (by intro h; exact hji (hj id hid h.1.symm).symm), if_neg hji]; simp
    have hcount : ∀ j, ((id :: ids).count j : Int) = ids.count j + (if j = id then 1 else 0) := by
      intro j
      rw [List.count_cons]
      by_cases hji : j = id
      · subst hji; simp
      · have : (id == j) = false := by simp [Ne.symm hji]
        simp [this, hji]
    have hhit : ∀ i, Own s i → (Hit s (id :: ids) i ↔ Hit (remOne s id) ids i ∨
        (i = id ∧ (s.cl i).level = -1 ∧ (s.cl i).numUn = 1)) := by
      intro i hi
      unfold Hit
      rw [hlev i]
      constructor
      · rintro ⟨h1, h2, h3⟩
        have h4 := hcount i
        have h5 := hnum i hi h1
        by_cases hii : i = id
        · rw [if_pos hii] at h4 h5
          by_cases hn : (s.cl i).numUn = 1
          · exact Or.inr ⟨hii, h1, hn⟩
          · left; refine ⟨h1, ?_, ?_⟩ <;> omega
        · rw [if_neg hii] at h4 h5
          left; refine ⟨h1, ?_, ?_⟩ <;> omega
      · rintro (⟨h1, h2, h3⟩ | ⟨hii, h1, hn⟩)
        · have h4 := hcount i
          have h5 := hnum i hi h1
          by_cases hii : i = id
          · rw [if_pos hii] at h4 h5
            refine ⟨h1, ?_, ?_⟩ <;> omega
          · rw [if_neg hii] at h4 h5
            refine ⟨h1, ?_, ?_⟩ <;> omega
        · have h4 := hcount i
          rw [if_pos hii] at h4
          refine ⟨h1, ?_, ?_⟩ <;> omega
    refine ⟨?_, ?_, ?_⟩
    · intro i hi
      rw [B i ((hown i).2 hi), remOne_units, hlev i]
      have h4 := hcount i
      constructor
      · rintro ((h | ⟨h1, h2, h3⟩) | ⟨h1, h2, h3⟩)
        · exact Or.inl h
        · right; rw [if_pos h1] at h4; refine ⟨h2, by omega, by omega⟩
        · right
          have h5 := hnum i hi h1
          by_cases hii : i = id
          · rw [if_pos hii] at h4 h5
            refine ⟨h1, ?_, ?_⟩ <;> omega
          · rw [if_neg hii] at h4 h5
            refine ⟨h1, ?_, ?_⟩ <;> omega
      · rintro (h | ⟨h1, h2, h3⟩)
        · exact Or.inl (Or.inl h)
        · have h5 := hnum i hi h1
          by_cases hii : i = id
          · rw [if_pos hii] at h4 h5
            by_cases hn : (s.cl i).numUn = 2
            · exact Or.inl (Or.inr ⟨hii, h1, hn⟩)
            · right; refine ⟨h1, by omega, by omega⟩
          · rw [if_neg hii] at h4 h5
            right; refine ⟨h1, by omega, by omega⟩
    · intro i hi
      rcases B' i hi with h | h
      · rw [remOne_units] at h
        rcases h with h | ⟨rfl, _⟩
        · exact Or.inl h
        · right; simp
      · right; simp [h]
    · have hc := remOne_conf s id
      rcases C with ⟨c1, c2, c3⟩ | ⟨c1, i, hi, hhi, c2⟩
      · split at hc
        · rename_i hone
          right
          refine ⟨by rw [c1]; exact hc.1, id, by simp, ?_, by rw [c2]; exact hc.2⟩
          intro ho
          rw [hhit id ho]; right; exact ⟨rfl, hone⟩
        · rename_i hone
          left
          refine ⟨by rw [c1]; exact hc.1, by rw [c2]; exact hc.2, ?_⟩
          intro i hi ho hh
          rw [hhit i ho] at hh
          rcases hh with hh | ⟨rfl, h2⟩
          · by_cases hmem : i ∈ ids
            · exact c3 i hmem ((hown i).2 ho) hh
            · unfold Hit at hh
              rw [List.count_eq_zero_of_not_mem hmem] at hh
              omega
          · exact hone h2
      · right
        refine ⟨c1, i, by simp [hi], ?_, c2⟩
        intro ho
        rw [hhit i ho]; exact Or.inl (hhi ((hown i).2 ho))

/-! ### The store -/

/-- The occurrence records mirror the clauses; entries marked `G` own their object, the others have a
single literal. -/
structure DStore (G : Nat → Prop) (s : St S) : Prop where
  own  : ∀ j, G j → j < s.ncl → Own s j
  recs : ∀ l id, (s.recs l).count id = if id < s.ncl then (s.cl id).lits.count l else 0
  alloc : ∀ i, i < s.ncl → s.ptr i < s.nheap
  unit : ∀ id, id < s.ncl → ¬ G id → ∃ B, (s.cl id).lits = [B]

theorem DStore.mem_lt {G : Nat → Prop} {s : St S} (h : DStore G s) {l : Lit} {id : Nat} (hm : id ∈ s.recs l) :
    id < s.ncl := by
  have h1 := h.recs l id
  have h2 := List.count_pos_iff.2 hm
  by_cases hlt : id < s.ncl
  · exact hlt
  · rw [if_neg hlt] at h1; omega

theorem DStore.mem {G : Nat → Prop} {s : St S} (h : DStore G s) {l : Lit} {j : Nat} (hj : j < s.ncl) :
    j ∈ s.recs l ↔ l ∈ (s.cl j).lits := by
  rw [← List.count_pos_iff, h.recs l j, if_pos hj, List.count_pos_iff]

theorem DStore.mem_ptr {G : Nat → Prop} {s : St S} (h : DStore G s) {l : Lit} {j : Nat} (hj : j < s.ncl) :
    s.ptr j ∈ (s.recs l).map s.ptr ↔ l ∈ (s.cl j).lits := by
  rw [List.mem_map]
  constructor
  · rintro ⟨i, hi, he⟩
    have h1 := (h.mem (h.mem_lt hi)).1 hi
    unfold St.cl at *
    rw [he] at h1; exact h1
  · intro hm
    exact ⟨j, (h.mem hj).2 hm, rfl⟩

theorem DStore.count {G : Nat → Prop} {s : St S} (h : DStore G s) {l : Lit} {j : Nat} (hj : j < s.ncl)
    (hg : G j) : ((s.recs l).map s.ptr).count (s.ptr j) = (s.cl j).lits.count l := by
  rw [(h.own j hg hj).count _ (fun i hi => h.mem_lt hi), h.recs l j, if_pos hj]

/-- Frames that keep the literals of every clause keep the store. -/
theorem DStore.frame {G : Nat → Prop} {s s' : St S} (h : DStore G s) (hn : s'.ncl = s.ncl) (hp : s'.ptr = s.ptr)
    (hh : s'.nheap = s.nheap) (hr : s'.recs = s.recs)
    (hl : ∀ j, j < s.ncl → (s'.cl j).lits = (s.cl j).lits) : DStore G s' := by
  refine ⟨?_, ?_, ?_, ?_⟩
  · unfold Own; rw [hn, hp]; exact h.own
  · intro l id
    rw [hr, hn, h.recs l id]
    split
    · rename_i hid; rw [hl id hid]
    · rfl
  · rw [hn, hp, hh]; exact h.alloc
  · rw [hn]; intro id hid hg; rw [hl id hid]; exact h.unit id hid hg

/-! ### Marks and counters -/

/-- The clause's mark is what the assignment dictates. -/
def Mark (g : PA) (lvl : Nat → Nat → Int) (c : Cls) : Prop :=
  (c.level = -1 ∧ ¬ CSat g c.lits) ∨
  (0 ≤ c.level ∧ (∃ l ∈ c.lits, LT g l ∧ lvl l.var l.val = c.level) ∧
    ∀ l ∈ c.lits, LT g l → c.level ≤ lvl l.var l.val)

/-- The clause's counter is what its mark and the assignment dictate. -/
def Num (g : PA) (c : Cls) : Prop := c.numUn = if c.level = -1 then (openCount g c.lits : Int) else 0

theorem Mark.unsat {g : PA} {lvl : Nat → Nat → Int} {c : Cls} (h : Mark g lvl c) (hl : c.level = -1) :
    ¬ CSat g c.lits := by
  rcases h with ⟨_, h1⟩ | ⟨h1, _⟩
  · exact h1
  · omega

theorem Mark.sat {g : PA} {lvl : Nat → Nat → Int} {c : Cls} (h : Mark g lvl c) (hl : c.level ≠ -1) :
    CSat g c.lits := by
  rcases h with ⟨h1, _⟩ | ⟨_, ⟨l, hm, ht, _⟩, _⟩
  · exact absurd h1 hl
  · exact ⟨l, hm, ht⟩

theorem Num.open {g : PA} {c : Cls} (h : Num g c) (hl : c.level = -1) : c.numUn = openCount g c.lits := by
  unfold Num at h; rw [if_pos hl] at h; exact h

theorem Num.zero {g : PA} {c : Cls} (h : Num g c) (hl : c.level ≠ -1) : c.numUn = 0 := by
  unfold Num at h; rw [if_neg hl] at h; exact h

theorem Exact.mark {g : PA} {lvl : Nat → Nat → Int} {c : Cls} (h : Exact g lvl c) : Mark g lvl c := by
  rcases h with ⟨h1, h2, _⟩ | ⟨h1, _, h3, h4⟩
  · exact Or.inl ⟨h1, h2⟩
  · exact Or.inr ⟨h1, h3, h4⟩

theorem Exact.num {g : PA} {lvl : Nat → Nat → Int} {c : Cls} (h : Exact g lvl c) : Num g c := by
  unfold Num
  rcases h with ⟨h1, _, h2⟩ | ⟨h1, h2, _⟩
  · rw [if_pos h1]; exact h2
  · rw [if_neg (by omega)]; exact h2

/-- The counter-mode invariant with shared objects; `ex` lists clauses exempt from being queued. -/
structure DCnt (G ex : Nat → Prop) (s : St S) : Prop where
  store : DStore G s
  mark : ∀ id, id < s.ncl → Mark s.asg s.lvl (s.cl id)
  num : ∀ id, id < s.ncl → G id → Num s.asg (s.cl id)
  unitsOK : ∀ id ∈ s.units, id < s.ncl ∧ (G id → (s.cl id).level = -1 → (s.cl id).numUn ≤ 1)
  pend : s.conflict = false → ∀ id, G id → ¬ ex id → id < s.ncl → (s.cl id).level = -1 →
    2 ≤ (s.cl id).numUn ∨ ((s.cl id).numUn = 1 ∧ id ∈ s.units)
  conf : s.conflict = true → ∃ id, id < s.ncl ∧ s.conflicting = (id : Nat) ∧
    ∀ x ∈ (s.cl id).lits, LF s.asg x

theorem assignLit_heap (cfg : Cfg S) (s : St S) (hL : 0 ≤ s.LEVEL) (l : Lit) (p : Nat) :
    (assignLit cfg s l).heap p =
      if (s.heap p).level = -1 then
        if p ∈ (s.recs l).map s.ptr then { s.heap p with level := s.LEVEL, numUn := 0 }
        else { s.heap p with numUn := (s.heap p).numUn - ((s.recs l.neg).map s.ptr).count p }
      else s.heap p := by
  have hsat := satFold_heap cfg (s.recs l) (setAtom cfg s l.var l.val (Asg.ofSign l.eq)) p
  obtain ⟨_, _, hfr⟩ := satisfyClauses_frame cfg (setAtom cfg s l.var l.val (Asg.ofSign l.eq)) l
  have hrem := remFold_heap (s.recs l.neg) (satisfyClauses cfg (setAtom cfg s l.var l.val (Asg.ofSign l.eq)) l) p
  have hrecs : (satisfyClauses cfg (setAtom cfg s l.var l.val (Asg.ofSign l.eq)) l).recs = s.recs := by
    rw [hfr]; rfl
  have hptr : (satisfyClauses cfg (setAtom cfg s l.var l.val (Asg.ofSign l.eq)) l).ptr = s.ptr := by
    rw [hfr]; rfl
  have hL0 : (setAtom cfg s l.var l.val (Asg.ofSign l.eq)).LEVEL = s.LEVEL := rfl
  have hp0 : (setAtom cfg s l.var l.val (Asg.ofSign l.eq)).ptr = s.ptr := rfl
  have hh0 : (setAtom cfg s l.var l.val (Asg.ofSign l.eq)).heap = s.heap := rfl
  rw [hL0, hp0, hh0] at hsat
  unfold assignLit removeLiteral
  rw [hrecs, hrem, hptr]
  unfold satisfyClauses
  have hrecs0 : (setAtom cfg s l.var l.val (Asg.ofSign l.eq)).recs l = s.recs l := rfl
  rw [hrecs0, hsat]
  by_cases hl : (s.heap p).level = -1
  · by_cases hm : p ∈ (s.recs l).map s.ptr
    · simp only [hl, hm, and_self, if_true]
      rw [if_neg (by omega)]
    · simp only [hl, hm, false_and, if_false, if_true]
  · simp [hl]

theorem assignLit_lits' (cfg : Cfg S) (s : St S) (hL : 0 ≤ s.LEVEL) (l : Lit) (j : Nat) :
    ((assignLit cfg s l).cl j).lits = (s.cl j).lits := by
  obtain ⟨_, _, _, _, _, he⟩ := assignLit_frame cfg s l
  have hptr : (assignLit cfg s l).ptr = s.ptr := by rw [he]; rfl
  unfold St.cl
  rw [hptr, assignLit_heap cfg s hL l]
  split
  · split <;> rfl
  · rfl

theorem DCnt.assignLit (cfg : Cfg S) {G ex : Nat → Prop} {s : St S} (h : DCnt G ex s)
    (hb : ∀ v d, s.asg v d ≠ .un → s.lvl v d ≤ s.LEVEL) (hL : 0 ≤ s.LEVEL)
    {l : Lit} (hu : LU s.asg l) : DCnt G ex (assignLit cfg s l) := by
  have hs := h.store
  have hfr := assignLit_frame cfg s l
  have hlits := assignLit_lits' cfg s hL l
  obtain ⟨hp, cn, un, cf, cg, he⟩ := hfr
  have hncl : (Mvl.assignLit cfg s l).ncl = s.ncl := by rw [he]; rfl
  have hptr : (Mvl.assignLit cfg s l).ptr = s.ptr := by rw [he]; rfl
  have hnh : (Mvl.assignLit cfg s l).nheap = s.nheap := by rw [he]; rfl
  have hrecs : (Mvl.assignLit cfg s l).recs = s.recs := by rw [he]; rfl
  have hasg : (Mvl.assignLit cfg s l).asg = setLit s.asg l := by rw [he]; rfl
  have hlvl : (Mvl.assignLit cfg s l).lvl = upd2 s.lvl l.var l.val s.LEVEL := by rw [he]; rfl
  have hcl : ∀ j, j < s.ncl → (Mvl.assignLit cfg s l).cl j =
      if (s.cl j).level = -1 then
        if l ∈ (s.cl j).lits then { s.cl j with level := s.LEVEL, numUn := 0 }
        else { s.cl j with numUn := (s.cl j).numUn - ((s.recs l.neg).map s.ptr).count (s.ptr j) }
      else s.cl j := by
    intro j hj
    show (Mvl.assignLit cfg s l).heap ((Mvl.assignLit cfg s l).ptr j) = _
    rw [hptr, assignLit_heap cfg s hL l]
    simp only [hs.mem_ptr hj]
    rfl
  have hold : ∀ x, LT s.asg x → upd2 s.lvl l.var l.val s.LEVEL x.var x.val = s.lvl x.var x.val := by
    intro x hx
    apply Trail.upd2_of_ne
    rintro ⟨h1, h2⟩
    apply hx.not_LU
    unfold LU at *; rw [h1, h2]; exact hu
  have hnew : upd2 s.lvl l.var l.val s.LEVEL l.var l.val = s.LEVEL := by simp
  -- the state just before removeLiteral
  obtain ⟨_, _, hfr1⟩ := satisfyClauses_frame cfg (setAtom cfg s l.var l.val (Asg.ofSign l.eq)) l
  have hs1ncl : (satisfyClauses cfg (setAtom cfg s l.var l.val (Asg.ofSign l.eq)) l).ncl = s.ncl := by
    rw [hfr1]; rfl
  have hs1ptr : (satisfyClauses cfg (setAtom cfg s l.var l.val (Asg.ofSign l.eq)) l).ptr = s.ptr := by
    rw [hfr1]; rfl
  obtain ⟨RB, RB', RC⟩ := remFold_own (s.recs l.neg)
    (satisfyClauses cfg (setAtom cfg s l.var l.val (Asg.ofSign l.eq)) l)
    (by rw [hs1ncl]; exact fun i hi => hs.mem_lt hi)
  have hown1 : ∀ i, Own (satisfyClauses cfg (setAtom cfg s l.var l.val (Asg.ofSign l.eq)) l) i ↔ Own s i := by
    intro i; unfold Own; rw [hs1ncl, hs1ptr]
  have hfold : (s.recs l.neg).foldl remOne
      (satisfyClauses cfg (setAtom cfg s l.var l.val (Asg.ofSign l.eq)) l) = Mvl.assignLit cfg s l := by
    have : (satisfyClauses cfg (setAtom cfg s l.var l.val (Asg.ofSign l.eq)) l).recs = s.recs := by
      rw [hfr1]; rfl
    unfold Mvl.assignLit removeLiteral; rw [this]
  rw [hfold] at RB RB' RC
  have hu1 : (satisfyClauses cfg (setAtom cfg s l.var l.val (Asg.ofSign l.eq)) l).units = s.units := by
    rw [hfr1]; rfl
  have hc1 : (satisfyClauses cfg (setAtom cfg s l.var l.val (Asg.ofSign l.eq)) l).conflict = s.conflict := by
    rw [hfr1]; rfl
  have hg1 : (satisfyClauses cfg (setAtom cfg s l.var l.val (Asg.ofSign l.eq)) l).conflicting = s.conflicting := by
    rw [hfr1]; rfl
  have hcl1 : ∀ j, j < s.ncl →
      (satisfyClauses cfg (setAtom cfg s l.var l.val (Asg.ofSign l.eq)) l).cl j =
      if l ∈ (s.cl j).lits ∧ (s.cl j).level = -1 then { s.cl j with level := s.LEVEL, numUn := 0 }
      else s.cl j := by
    intro j hj
    have h1 := satFold_heap cfg (s.recs l) (setAtom cfg s l.var l.val (Asg.ofSign l.eq)) (s.ptr j)
    show (satisfyClauses cfg (setAtom cfg s l.var l.val (Asg.ofSign l.eq)) l).heap
      ((satisfyClauses cfg (setAtom cfg s l.var l.val (Asg.ofSign l.eq)) l).ptr j) = _
    rw [hs1ptr]
    unfold satisfyClauses
    have : (setAtom cfg s l.var l.val (Asg.ofSign l.eq)).recs l = s.recs l := rfl
    rw [this, h1]
    have : (setAtom cfg s l.var l.val (Asg.ofSign l.eq)).ptr = s.ptr := rfl
    rw [this]
    simp only [hs.mem_ptr hj]
    rfl
  have hun1 : ∀ j, j < s.ncl →
      ((satisfyClauses cfg (setAtom cfg s l.var l.val (Asg.ofSign l.eq)) l).cl j).level = -1 →
      (s.cl j).level = -1 ∧ l ∉ (s.cl j).lits ∧
      (satisfyClauses cfg (setAtom cfg s l.var l.val (Asg.ofSign l.eq)) l).cl j = s.cl j := by
    intro j hj hl
    rw [hcl1 j hj] at hl ⊢
    split at hl
    · simp at hl; omega
    · rename_i hn
      rw [if_neg hn]
      exact ⟨hl, fun hm => hn ⟨hm, hl⟩, rfl⟩
  have hcnt : ∀ j, j < s.ncl → (s.recs l.neg).count j = (s.cl j).lits.count l.neg := by
    intro j hj; rw [hs.recs l.neg j, if_pos hj]
  refine ⟨hs.frame hncl hptr hnh hrecs (fun j _ => hlits j), ?_, ?_, ?_, ?_, ?_⟩
  · -- marks
    intro j hj
    rw [hncl] at hj
    rw [hasg, hlvl, hcl j hj]
    by_cases hlv : (s.cl j).level = -1
    · rw [if_pos hlv]
      have hns := (h.mark j hj).unsat hlv
      by_cases hm : l ∈ (s.cl j).lits
      · rw [if_pos hm]
        right
        refine ⟨hL, ⟨l, hm, (LT_setLit hu).2 (Or.inl rfl), hnew⟩, ?_⟩
        intro x hx hxt
        rcases (LT_setLit hu).1 hxt with rfl | hxt
        · rw [hnew]; exact Int.le_refl _
        · exact absurd ⟨x, hx, hxt⟩ hns
      · rw [if_neg hm]
        left
        refine ⟨hlv, ?_⟩
        rintro ⟨x, hx, hxt⟩
        rcases (LT_setLit hu).1 hxt with rfl | hxt
        · exact hm hx
        · exact hns ⟨x, hx, hxt⟩
    · rw [if_neg hlv]
      rcases h.mark j hj with ⟨h1, _⟩ | ⟨h1, ⟨x, hx, hxt, hxl⟩, h4⟩
      · exact absurd h1 hlv
      · right
        refine ⟨h1, ⟨x, hx, (LT_setLit hu).2 (Or.inr hxt), by rw [hold x hxt]; exact hxl⟩, ?_⟩
        intro y hy hyt
        rcases (LT_setLit hu).1 hyt with rfl | hyt
        · rw [hnew, ← hxl]
          exact hb x.var x.val (fun hn => hxt.not_LU hn)
        · rw [hold y hyt]; exact h4 y hy hyt
  · -- counters
    intro j hj hg
    rw [hncl] at hj
    rw [hasg, hcl j hj]
    by_cases hlv : (s.cl j).level = -1
    · rw [if_pos hlv]
      have hnum := (h.num j hj hg).open hlv
      by_cases hm : l ∈ (s.cl j).lits
      · rw [if_pos hm]
        unfold Num; dsimp only; rw [if_neg (by omega)]
      · rw [if_neg hm, hs.count hj hg]
        unfold Num; dsimp only; rw [if_pos hlv]
        have := openCount_setLit hu (s.cl j).lits
        rw [List.count_eq_zero_of_not_mem hm] at this
        omega
    · rw [if_neg hlv]
      have := (h.num j hj hg).zero hlv
      unfold Num; rw [if_neg hlv]; exact this
  · intro id hid
    have hlt : id < s.ncl := by
      rcases RB' id hid with h' | h'
      · rw [hu1] at h'; exact (h.unitsOK id h').1
      · exact hs.mem_lt h'
    rw [hncl]
    refine ⟨hlt, ?_⟩
    intro hg hl'
    have hcj := hcl id hlt
    rw [RB id ((hown1 id).2 (hs.own id hg hlt)), hu1] at hid
    rcases hid with hid | ⟨h1, h2, h3⟩
    · have := (h.unitsOK id hid).2 hg
      rw [hcj] at hl' ⊢
      split
      · rename_i hl
        rw [if_pos hl] at hl'
        split
        · simp
        · have := this hl
          dsimp only
          omega
      · rename_i hl; rw [if_neg hl] at hl'; exact absurd hl' hl
    · obtain ⟨e1, e2, e3⟩ := hun1 id hlt h1
      rw [e3, hcnt id hlt] at h3
      rw [hcj, if_pos e1, if_neg e2, hs.count hlt hg]
      exact h3
  · intro hcf id hg hnex hid hlid
    rw [hncl] at hid
    have hcj := hcl id hid
    rw [hcj] at hlid
    rcases RC with ⟨c1, c2, c3⟩ | ⟨c1, _⟩
    · rw [hcf] at c1
      rw [hc1] at c1
      have hlold : (s.cl id).level = -1 := by
        by_cases hl : (s.cl id).level = -1
        · exact hl
        · rw [if_neg hl] at hlid; exact hlid
      rw [if_pos hlold] at hlid
      have hnm : l ∉ (s.cl id).lits := by
        intro hm; rw [if_pos hm] at hlid; simp at hlid; omega
      rw [hcj, if_pos hlold, if_neg hnm, hs.count hid hg]
      have hcl1' := hcl1 id hid
      rw [if_neg (by simp [hnm])] at hcl1'
      have hp := h.pend c1.symm id hg hnex hid hlold
      have hb' := RB id ((hown1 id).2 (hs.own id hg hid))
      rw [hcl1', hcnt id hid, hu1] at hb'
      dsimp only
      have hnohit : 1 ≤ (s.cl id).numUn - ((s.cl id).lits.count l.neg : Int) := by
        apply Classical.byContradiction
        intro hcon
        have hnp : 1 ≤ (s.cl id).numUn := by omega
        by_cases hmem : id ∈ s.recs l.neg
        · apply c3 id hmem ((hown1 id).2 (hs.own id hg hid))
          unfold Hit
          rw [hcl1', hcnt id hid]
          exact ⟨hlold, hnp, by omega⟩
        · have := hcnt id hid
          rw [List.count_eq_zero_of_not_mem hmem] at this
          omega
      by_cases h2 : 2 ≤ (s.cl id).numUn - ((s.cl id).lits.count l.neg : Int)
      · exact Or.inl h2
      · right
        refine ⟨by omega, ?_⟩
        rw [hb']
        rcases hp with hp | ⟨hp, hin⟩
        · right; exact ⟨hlold, hp, by omega⟩
        · exact Or.inl hin
    · rw [hcf] at c1; simp at c1
  · intro hcf
    rcases RC with ⟨c1, c2, c3⟩ | ⟨c1, i, hi, hhit, c2⟩
    · rw [hcf, hc1] at c1
      obtain ⟨id, hid, h1, h2⟩ := h.conf c1.symm
      refine ⟨id, by rw [hncl]; exact hid, by rw [c2, hg1]; exact h1, ?_⟩
      rw [hlits, hasg]
      intro x hx
      exact (LF_setLit hu).2 (Or.inr (h2 x hx))
    · have hilt : i < s.ncl := hs.mem_lt hi
      refine ⟨i, by rw [hncl]; exact hilt, c2, ?_⟩
      rw [hlits, hasg]
      by_cases hg : G i
      · obtain ⟨e0, e1, e2⟩ := hhit ((hown1 i).2 (hs.own i hg hilt))
        obtain ⟨f1, f2, f3⟩ := hun1 i hilt e0
        rw [f3, hcnt i hilt] at e2
        have hns := (h.mark i hilt).unsat f1
        have hnum := (h.num i hilt hg).open f1
        have hoc := openCount_setLit hu (s.cl i).lits
        apply allFalse_of
        · rintro ⟨x, hx, hxt⟩
          rcases (LT_setLit hu).1 hxt with rfl | hxt
          · exact f2 hx
          · exact hns ⟨x, hx, hxt⟩
        · omega
      · obtain ⟨B, hB⟩ := hs.unit i hilt hg
        have hm := (hs.mem hilt).1 hi
        rw [hB] at hm ⊢
        have : l.neg = B := by simpa using hm
        subst this
        intro x hx
        have : x = l.neg := by simpa using hx
        subst this
        exact (LF_setLit hu).2 (Or.inl rfl)

end Mvl
