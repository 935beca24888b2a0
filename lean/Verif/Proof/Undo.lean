import Verif.Proof.Counter

/-!
# Undoing assignments restores the counters
-/

namespace Mvl

variable {S : Type}

/-! ### The atoms loop -/

theorem mem_atoms {s : St S} {v d : Nat} : (v, d) ∈ s.atoms ↔ (1 ≤ v ∧ v ≤ s.nv ∧ d < s.dom v) := by
  unfold St.atoms
  simp only [List.mem_flatMap, List.mem_range'_1, List.mem_map, List.mem_range, Prod.mk.injEq]
  constructor
  · rintro ⟨v', ⟨h1, h2⟩, d', h3, rfl, rfl⟩
    exact ⟨h1, by omega, h3⟩
  · rintro ⟨h1, h2, h3⟩
    exact ⟨v, ⟨h1, by omega⟩, d, h3, rfl, rfl⟩

theorem nodup_atoms (s : St S) : s.atoms.Nodup := by
  unfold St.atoms List.Nodup
  rw [List.pairwise_flatMap]
  constructor
  · intro v _
    rw [List.pairwise_map]
    exact List.Pairwise.imp (fun h => by simp [h]) (List.nodup_range (n := s.dom v))
  · refine List.Pairwise.imp ?_ (List.nodup_range' (s := 1) (n := s.nv) (step := 1))
    intro a b hab x hx y hy
    simp only [List.mem_map] at hx hy
    obtain ⟨_, _, rfl⟩ := hx
    obtain ⟨_, _, rfl⟩ := hy
    simp [hab]

/-- One step of the undo loops, on the trail. -/
def Trail.undo1 (k : Int) (t : Trail) (a : Nat × Nat) : Trail :=
  if t.lvl a.1 a.2 > k then
    { t with
      lvl := upd2 t.lvl a.1 a.2 (-10)
      asg := upd2 t.asg a.1 a.2 .un
      rsn := upd2 t.rsn a.1 a.2 (-10)
      vval := upd t.vval a.1 none }
  else t

theorem Trail.undo1_fold (k : Int) (hk : -10 ≤ k) : ∀ (as : List (Nat × Nat)) (t : Trail),
    as.foldl (Trail.undo1 k) t =
      { t with
        asg := fun v d => if (v, d) ∈ as ∧ t.lvl v d > k then .un else t.asg v d
        lvl := fun v d => if (v, d) ∈ as ∧ t.lvl v d > k then -10 else t.lvl v d
        rsn := fun v d => if (v, d) ∈ as ∧ t.lvl v d > k then -10 else t.rsn v d
        vval := fun v => if ∃ a ∈ as, a.1 = v ∧ t.lvl a.1 a.2 > k then none else t.vval v }
  | [], t => by simp
  | a :: as, t => by
    rw [List.foldl_cons, Trail.undo1_fold k hk as]
    obtain ⟨v0, d0⟩ := a
    by_cases hl : t.lvl v0 d0 > k
    · have h1 : Trail.undo1 k t (v0, d0) = { t with
          lvl := upd2 t.lvl v0 d0 (-10)
          asg := upd2 t.asg v0 d0 .un
          rsn := upd2 t.rsn v0 d0 (-10)
          vval := upd t.vval v0 none } := by unfold Trail.undo1; rw [if_pos hl]
      rw [h1]
      simp only [Trail.mk.injEq, true_and, and_true]
      refine ⟨?_, ?_, ?_, ?_⟩
      · funext v
        by_cases hv : v = v0
        · subst hv
          have : ∃ a ∈ (v, d0) :: as, a.1 = v ∧ t.lvl a.1 a.2 > k := ⟨(v, d0), by simp, rfl, hl⟩
          rw [if_pos this]; simp
        · have : (∃ a ∈ (v0, d0) :: as, a.1 = v ∧ t.lvl a.1 a.2 > k) ↔
              ∃ a ∈ as, a.1 = v ∧ upd2 t.lvl v0 d0 (-10) a.1 a.2 > k := by
            constructor
            · rintro ⟨a, ha, rfl, h2⟩
              rcases List.mem_cons.1 ha with rfl | ha
              · exact absurd rfl hv
              · exact ⟨a, ha, rfl, by rw [Trail.upd2_of_ne _ _ (by simp [hv])]; exact h2⟩
            · rintro ⟨a, ha, rfl, h2⟩
              rw [Trail.upd2_of_ne _ _ (by simp [hv])] at h2
              exact ⟨a, by simp [ha], rfl, h2⟩
          simp only [this, upd_of_ne _ _ hv]
      all_goals
        funext v d
        simp only [Trail.upd2_apply]
        by_cases hc : v = v0 ∧ d = d0
        · obtain ⟨rfl, rfl⟩ := hc
          simp [hl]
        · simp [hc]
    · have h1 : Trail.undo1 k t (v0, d0) = t := by unfold Trail.undo1; rw [if_neg hl]
      rw [h1]
      simp only [Trail.mk.injEq, true_and, and_true]
      refine ⟨?_, ?_, ?_, ?_⟩
      · funext v
        have : (∃ a ∈ (v0, d0) :: as, a.1 = v ∧ t.lvl a.1 a.2 > k) ↔
            ∃ a ∈ as, a.1 = v ∧ t.lvl a.1 a.2 > k := by
          constructor
          · rintro ⟨a, ha, rfl, h2⟩
            rcases List.mem_cons.1 ha with rfl | ha
            · exact absurd h2 hl
            · exact ⟨a, ha, rfl, h2⟩
          · rintro ⟨a, ha, rfl, h2⟩
            exact ⟨a, by simp [ha], rfl, h2⟩
        simp only [this]
      all_goals
        funext v d
        by_cases hc : v = v0 ∧ d = d0
        · obtain ⟨rfl, rfl⟩ := hc
          simp [hl]
        · have : ((v, d) ∈ (v0, d0) :: as) ↔ (v, d) ∈ as := by
            simp only [List.mem_cons, Prod.mk.injEq, hc, false_or]
          simp only [this]

/-- The undo loop over all atoms, apart from the decision stack. -/
theorem Trail.undo1_all {s : St S} {K : Int} (h : (s.tr.level K).Base) {k : Int} (hk : -10 ≤ k) :
    s.atoms.foldl (Trail.undo1 k) s.tr = { s.tr.undo k with decs := s.decs } := by
  rw [Trail.undo1_fold k hk]
  have hin : ∀ v d, s.tr.lvl v d > k → (v, d) ∈ s.atoms := by
    intro v d hl
    have : s.tr.asg v d ≠ .un := by
      intro hu
      have : s.tr.lvl v d = -10 := h.un v d hu
      omega
    exact mem_atoms.2 (h.rng v d this)
  simp only [Trail.undo, Trail.mk.injEq, true_and, and_true]
  refine ⟨?_, ?_, ?_, ?_, rfl⟩
  · funext v
    have : (∃ a ∈ s.atoms, a.1 = v ∧ s.tr.lvl a.1 a.2 > k) ↔
        (1 ≤ v ∧ v ≤ s.tr.nv ∧ ∃ d < s.tr.dom v, s.tr.lvl v d > k) := by
      constructor
      · rintro ⟨⟨v', d'⟩, ha, rfl, h2⟩
        obtain ⟨h3, h4, h5⟩ := mem_atoms.1 ha
        exact ⟨h3, h4, d', h5, h2⟩
      · rintro ⟨h3, h4, d', h5, h2⟩
        exact ⟨(v, d'), mem_atoms.2 ⟨h3, h4, h5⟩, rfl, h2⟩
    simp only [this]
  all_goals
    funext v d
    by_cases hl : s.tr.lvl v d > k
    · simp [hl, hin v d hl, Trail.asgAt]
    · simp [hl, Trail.asgAt]

/-! ### addLiteral -/

theorem addOne_eq (cfg : Cfg S) (l : Lit) (s : St S) (id : Nat) :
    ∃ c, addOne cfg l s id = if (s.cl id).level = -1 then
      { s.setCl id { s.cl id with numUn := (s.cl id).numUn + 1 } with cnt := c } else s := by
  unfold addOne
  split
  · dsimp only
    split
    · exact ⟨_, rfl⟩
    · exact ⟨s.cnt, rfl⟩
  · exact ⟨s.cnt, rfl⟩

theorem addOne_frame (cfg : Cfg S) (l : Lit) (s : St S) (id : Nat) : FrameH s (addOne cfg l s id) := by
  obtain ⟨c, h⟩ := addOne_eq cfg l s id
  rw [h]
  split
  · exact ⟨_, _, rfl⟩
  · exact FrameH.refl s

theorem addOne_cl (cfg : Cfg S) (l : Lit) {s : St S}
    (h : ∀ i j, i < s.ncl → j < s.ncl → s.ptr i = s.ptr j → i = j)
    {id j : Nat} (hi : id < s.ncl) (hj : j < s.ncl) :
    (addOne cfg l s id).cl j =
      if j = id ∧ (s.cl j).level = -1 then { s.cl j with numUn := (s.cl j).numUn + 1 }
      else s.cl j := by
  obtain ⟨c, hc⟩ := addOne_eq cfg l s id
  rw [hc]
  by_cases hl : (s.cl id).level = -1
  · rw [if_pos hl]
    have : ({ s.setCl id { s.cl id with numUn := (s.cl id).numUn + 1 } with cnt := c } : St S).cl j
        = (s.setCl id { s.cl id with numUn := (s.cl id).numUn + 1 }).cl j := rfl
    rw [this, cl_setCl h hi hj]
    by_cases hji : j = id
    · subst hji; simp [hl]
    · simp [hji]
  · rw [if_neg hl]
    by_cases hji : j = id
    · subst hji; simp [hl]
    · simp [hji]

theorem addFold_cl (cfg : Cfg S) (l : Lit) : ∀ (ids : List Nat) (s : St S),
    (∀ i j, i < s.ncl → j < s.ncl → s.ptr i = s.ptr j → i = j) →
    (∀ i ∈ ids, i < s.ncl) → ∀ j, j < s.ncl →
    (ids.foldl (addOne cfg l) s).cl j =
      if (s.cl j).level = -1 then { s.cl j with numUn := (s.cl j).numUn + ids.count j }
      else s.cl j
  | [], s, _, _, j, _ => by split <;> simp
  | id :: ids, s, hinj, hids, j, hj => by
    rw [List.foldl_cons]
    have hid := hids id (by simp)
    have h1 := addOne_cl cfg l hinj hid hj
    obtain ⟨hh, hc, he⟩ := addOne_frame cfg l s id
    have hncl : (addOne cfg l s id).ncl = s.ncl := by rw [he]
    have hptr : (addOne cfg l s id).ptr = s.ptr := by rw [he]
    rw [addFold_cl cfg l ids (addOne cfg l s id) (by rw [hncl, hptr]; exact hinj)
      (by rw [hncl]; intro i hi; exact hids i (by simp [hi])) j (by rw [hncl]; exact hj)]
    rw [h1]
    by_cases hji : j = id
    · subst hji
      by_cases hl : (s.cl j).level = -1
      · simp only [hl, and_self, if_true, List.count_cons_self, Cls.mk.injEq, and_true, true_and]
        omega
      · simp [hl]
    · have : ((id :: ids).count j) = ids.count j := by
        rw [List.count_cons]; simp [Ne.symm hji]
      simp only [hji, false_and, if_false, this]

theorem addLiteral_frame (cfg : Cfg S) (s : St S) (l : Lit) : FrameH s (addLiteral cfg s l) :=
  FrameH.foldl (addOne_frame cfg l) _ s

theorem addLiteral_cl (cfg : Cfg S) {s : St S} (hs : Store s) (l : Lit) {j : Nat} (hj : j < s.ncl) :
    (addLiteral cfg s l).cl j =
      if (s.cl j).level = -1 then { s.cl j with numUn := (s.cl j).numUn + (s.cl j).lits.count l }
      else s.cl j := by
  unfold addLiteral
  rw [addFold_cl cfg l (s.recs l) s hs.inj (fun i hi => hs.mem_lt hi) j hj, hs.recs l j, if_pos hj]

/-- Frames over clause objects keep the store as long as the literals do not change. -/
theorem Store.frameH {s s' : St S} (h : Store s) (hf : FrameH s s')
    (hl : ∀ j, j < s.ncl → (s'.cl j).lits = (s.cl j).lits) : Store s' := by
  obtain ⟨hp, c, rfl⟩ := hf
  refine ⟨h.inj, ?_, h.alloc⟩
  intro l id
  rw [show (({ s with heap := hp, cnt := c } : St S).recs l).count id = (s.recs l).count id from rfl,
    h.recs l id]
  by_cases hid : id < s.ncl
  · rw [if_pos hid, if_pos (show id < ({ s with heap := hp, cnt := c } : St S).ncl from hid), hl id hid]
  · rw [if_neg hid, if_neg (show ¬ id < ({ s with heap := hp, cnt := c } : St S).ncl from hid)]

/-! ### First loop of undoTheory -/

/-- The literal on an assigned atom that is false. -/
def falseLit (g : PA) (a : Nat × Nat) : Lit := ⟨a.1, a.2, g a.1 a.2 = .ne⟩
/-- The literal on an assigned atom that is true. -/
def trueLit (g : PA) (a : Nat × Nat) : Lit := ⟨a.1, a.2, g a.1 a.2 ≠ .ne⟩

theorem undoAdd_eq (cfg : Cfg S) (k : Int) (s : St S) (a : Nat × Nat) :
    undoAdd cfg k s a = if s.lvl a.1 a.2 > k then addLiteral cfg s (falseLit s.asg a) else s := by
  unfold undoAdd falseLit
  by_cases h : s.asg a.1 a.2 = .ne <;> simp [h]

theorem undoAdd_frame (cfg : Cfg S) (k : Int) (s : St S) (a : Nat × Nat) :
    FrameH s (undoAdd cfg k s a) := by
  rw [undoAdd_eq]
  split
  · exact addLiteral_frame cfg s _
  · exact FrameH.refl s

/-- Occurrences in `c` of literals made false above level `k` on the atoms `as`. -/
def addSum (g : PA) (lvl : Nat → Nat → Int) (k : Int) (c : List Lit) : List (Nat × Nat) → Nat
  | [] => 0
  | a :: as => (if lvl a.1 a.2 > k then c.count (falseLit g a) else 0) + addSum g lvl k c as

theorem undoAdd_fold (cfg : Cfg S) (k : Int) : ∀ (as : List (Nat × Nat)) (s : St S), Store s →
    Store (as.foldl (undoAdd cfg k) s) ∧ FrameH s (as.foldl (undoAdd cfg k) s) ∧
    ∀ j, j < s.ncl → (as.foldl (undoAdd cfg k) s).cl j =
      if (s.cl j).level = -1 then
        { s.cl j with numUn := (s.cl j).numUn + addSum s.asg s.lvl k (s.cl j).lits as }
      else s.cl j
  | [], s, hs => ⟨hs, FrameH.refl s, fun j _ => by split <;> simp [addSum]⟩
  | a :: as, s, hs => by
    rw [List.foldl_cons]
    have hfr := undoAdd_frame cfg k s a
    have hcl : ∀ j, j < s.ncl → (undoAdd cfg k s a).cl j =
        if (s.cl j).level = -1 then { s.cl j with numUn := (s.cl j).numUn +
          (if s.lvl a.1 a.2 > k then (s.cl j).lits.count (falseLit s.asg a) else 0 : Nat) }
        else s.cl j := by
      intro j hj
      rw [undoAdd_eq]
      by_cases hl : s.lvl a.1 a.2 > k
      · simp only [hl, if_true]
        exact addLiteral_cl cfg hs _ hj
      · simp only [hl, if_false]
        split <;> simp
    have hlits : ∀ j, j < s.ncl → ((undoAdd cfg k s a).cl j).lits = (s.cl j).lits := by
      intro j hj; rw [hcl j hj]; split <;> rfl
    have hs1 := hs.frameH hfr hlits
    obtain ⟨h1, h2, h3⟩ := undoAdd_fold cfg k as (undoAdd cfg k s a) hs1
    refine ⟨h1, hfr.trans h2, ?_⟩
    intro j hj
    obtain ⟨_, _, he⟩ := hfr
    have hncl : (undoAdd cfg k s a).ncl = s.ncl := by rw [he]
    have hasg : (undoAdd cfg k s a).asg = s.asg := by rw [he]
    have hlvl : (undoAdd cfg k s a).lvl = s.lvl := by rw [he]
    rw [h3 j (by rw [hncl]; exact hj), hasg, hlvl, hlits j hj, hcl j hj]
    by_cases hl : (s.cl j).level = -1
    · simp only [hl, if_true, addSum, Cls.mk.injEq, and_true, true_and]
      omega
    · simp only [hl, if_false]

theorem addSum_spec {g : PA} {lvl : Nat → Nat → Int} {k : Int} {as : List (Nat × Nat)}
    (hnd : as.Nodup) (hun : ∀ v d, g v d = .un → lvl v d ≤ k)
    (hin : ∀ v d, lvl v d > k → (v, d) ∈ as) {c : List Lit} (hc : ∀ l ∈ c, ¬ LT g l) :
    openCount (fun v d => if lvl v d > k then .un else g v d) c = openCount g c + addSum g lvl k c as := by
  -- one literal
  have key : ∀ (as : List (Nat × Nat)) (x : Lit) (xs : List Lit),
      addSum g lvl k (x :: xs) as = addSum g lvl k xs as +
        as.countP (fun a => lvl a.1 a.2 > k ∧ falseLit g a = x) := by
    intro as x xs
    induction as with
    | nil => simp [addSum]
    | cons a as ih =>
      simp only [addSum]
      rw [ih, List.countP_cons]
      by_cases hl : lvl a.1 a.2 > k
      · simp only [hl, if_true, true_and]
        rw [List.count_cons]
        by_cases hx : falseLit g a = x
        · subst hx; simp; omega
        · have : (x == falseLit g a) = false := by simp [Ne.symm hx]
          simp [this, hx]; omega
      · simp [hl]
  have one : ∀ x : Lit, ¬ LT g x → as.countP (fun a => lvl a.1 a.2 > k ∧ falseLit g a = x) =
      if lvl x.var x.val > k then 1 else 0 := by
    intro x hx
    by_cases hl : lvl x.var x.val > k
    · rw [if_pos hl]
      have hnu : ¬ LU g x := by intro hu; have := hun _ _ hu; omega
      have hf : LF g x := LF_of_not hx hnu
      have hfl : falseLit g (x.var, x.val) = x := by
        obtain ⟨v, d, e⟩ := x
        unfold LF at hf
        unfold falseLit
        simp only at hf ⊢
        rw [hf]; cases e <;> simp [Asg.ofSign]
      have : ∀ a : Nat × Nat, (lvl a.1 a.2 > k ∧ falseLit g a = x) ↔ a = (x.var, x.val) := by
        intro a
        constructor
        · rintro ⟨_, h⟩
          rw [← h]; rfl
        · rintro rfl; exact ⟨hl, hfl⟩
      have h2 : as.countP (fun a => decide (lvl a.1 a.2 > k ∧ falseLit g a = x)) =
          as.count (x.var, x.val) := by
        unfold List.count
        apply List.countP_congr
        intro a _
        simp [this a]
      rw [h2]
      have hm := hin _ _ hl
      have h3 := List.count_pos_iff.2 hm
      have h4 := List.nodup_iff_count.1 hnd (x.var, x.val)
      omega
    · rw [if_neg hl]
      rw [List.countP_eq_zero]
      intro a _
      simp only [decide_eq_true_eq, not_and]
      rintro h1 rfl
      exact hl h1
  induction c with
  | nil =>
    have : ∀ as : List (Nat × Nat), addSum g lvl k [] as = 0 := by
      intro as
      induction as with
      | nil => rfl
      | cons a as ih => simp [addSum, ih]
    simp [openCount, this]
  | cons x xs ih =>
    have hx := hc x (by simp)
    have ih := ih (fun l hl => hc l (by simp [hl]))
    rw [key, one x hx]
    unfold openCount at *
    rw [List.countP_cons, List.countP_cons, ih]
    by_cases hl : lvl x.var x.val > k
    · have h1 : ¬ LU g x := by intro hu; have := hun _ _ hu; omega
      have h2 : LU (fun v d => if lvl v d > k then .un else g v d) x := by unfold LU; simp [hl]
      simp [hl, h1, h2]; omega
    · have h2 : LU (fun v d => if lvl v d > k then .un else g v d) x ↔ LU g x := by
        unfold LU; simp [hl]
      simp [hl, h2]; omega

/-! ### unsatisfyClauses -/

theorem unsatLit_eq (cfg : Cfg S) (k : Int) (id : Nat) (s : St S) (l : Lit) :
    ∃ c, unsatLit cfg k id s l = if s.lvl l.var l.val > k ∨ s.asg l.var l.val = .un then
      { s.setCl id { s.cl id with numUn := (s.cl id).numUn + 1 } with cnt := c } else s := by
  unfold unsatLit
  split
  · dsimp only
    split
    · exact ⟨_, rfl⟩
    · exact ⟨s.cnt, rfl⟩
  · exact ⟨s.cnt, rfl⟩

/-- Literals open once everything above level `k` is undone. -/
def opens (g : PA) (lvl : Nat → Nat → Int) (k : Int) (c : List Lit) : Nat :=
  c.countP fun l => lvl l.var l.val > k ∨ g l.var l.val = .un

theorem unsatLit_fold (cfg : Cfg S) (k : Int) (id : Nat) : ∀ (ls : List Lit) (s : St S),
    (∀ i j, i < s.ncl → j < s.ncl → s.ptr i = s.ptr j → i = j) → id < s.ncl →
    FrameH s (ls.foldl (unsatLit cfg k id) s) ∧
    ∀ j, j < s.ncl → (ls.foldl (unsatLit cfg k id) s).cl j =
      if j = id then { s.cl j with numUn := (s.cl j).numUn + opens s.asg s.lvl k ls } else s.cl j
  | [], s, _, _ => ⟨FrameH.refl s, fun j _ => by split <;> simp [opens]⟩
  | l :: ls, s, hinj, hid => by
    rw [List.foldl_cons]
    obtain ⟨c, hc⟩ := unsatLit_eq cfg k id s l
    have hfr : FrameH s (unsatLit cfg k id s l) := by
      rw [hc]; split
      · exact ⟨_, _, rfl⟩
      · exact FrameH.refl s
    have hcl : ∀ j, j < s.ncl → (unsatLit cfg k id s l).cl j =
        if j = id then { s.cl j with numUn := (s.cl j).numUn +
          (if s.lvl l.var l.val > k ∨ s.asg l.var l.val = .un then 1 else 0 : Nat) } else s.cl j := by
      intro j hj
      rw [hc]
      by_cases hl : s.lvl l.var l.val > k ∨ s.asg l.var l.val = .un
      · rw [if_pos hl]
        have : ({ s.setCl id { s.cl id with numUn := (s.cl id).numUn + 1 } with cnt := c } : St S).cl j
          = (s.setCl id { s.cl id with numUn := (s.cl id).numUn + 1 }).cl j := rfl
        rw [this, cl_setCl hinj hid hj]
        by_cases hji : j = id
        · subst hji; simp [hl]
        · simp [hji]
      · rw [if_neg hl]
        by_cases hji : j = id
        · subst hji; simp [hl]
        · simp [hji]
    have hfr' := hfr
    obtain ⟨_, _, he⟩ := hfr'
    have hncl : (unsatLit cfg k id s l).ncl = s.ncl := by rw [he]
    have hptr : (unsatLit cfg k id s l).ptr = s.ptr := by rw [he]
    have hasg : (unsatLit cfg k id s l).asg = s.asg := by rw [he]
    have hlvl : (unsatLit cfg k id s l).lvl = s.lvl := by rw [he]
    obtain ⟨h1, h2⟩ := unsatLit_fold cfg k id ls (unsatLit cfg k id s l)
      (by rw [hncl, hptr]; exact hinj) (by rw [hncl]; exact hid)
    refine ⟨hfr.trans h1, ?_⟩
    intro j hj
    rw [h2 j (by rw [hncl]; exact hj), hcl j hj, hasg, hlvl]
    by_cases hji : j = id
    · simp only [hji, if_true, opens, List.countP_cons, Cls.mk.injEq, and_true, true_and,
        decide_eq_true_eq]
      omega
    · simp only [hji, if_false]

theorem unsatOne_cl (cfg : Cfg S) (k : Int) {s : St S}
    (hinj : ∀ i j, i < s.ncl → j < s.ncl → s.ptr i = s.ptr j → i = j) {id : Nat} (hid : id < s.ncl) :
    FrameH s (unsatOne cfg k s id) ∧
    ∀ j, j < s.ncl → (unsatOne cfg k s id).cl j =
      if j = id ∧ (s.cl j).level > k then
        { s.cl j with numUn := (s.cl j).numUn + opens s.asg s.lvl k (s.cl j).lits, level := -1 }
      else s.cl j := by
  unfold unsatOne
  by_cases hl : (s.cl id).level > k
  · rw [if_pos hl]
    obtain ⟨h1, h2⟩ := unsatLit_fold cfg k id (s.cl id).lits s hinj hid
    dsimp only
    refine ⟨h1.trans ⟨_, _, rfl⟩, ?_⟩
    intro j hj
    have h1' := h1
    obtain ⟨_, _, he⟩ := h1'
    have hncl : ((s.cl id).lits.foldl (unsatLit cfg k id) s).ncl = s.ncl := by rw [he]
    have hptr : ((s.cl id).lits.foldl (unsatLit cfg k id) s).ptr = s.ptr := by rw [he]
    rw [cl_setCl (by rw [hncl, hptr]; exact hinj) (by rw [hncl]; exact hid) (by rw [hncl]; exact hj),
      h2 id hid, h2 j hj]
    by_cases hji : j = id
    · subst hji; simp [hl]
    · simp [hji]
  · rw [if_neg hl]
    refine ⟨FrameH.refl s, ?_⟩
    intro j _
    by_cases hji : j = id
    · subst hji; simp [hl]
    · simp [hji]

theorem unsatFold_cl (cfg : Cfg S) {k : Int} (hk : -1 ≤ k) : ∀ (ids : List Nat) (s : St S),
    (∀ i j, i < s.ncl → j < s.ncl → s.ptr i = s.ptr j → i = j) →
    (∀ i ∈ ids, i < s.ncl) →
    FrameH s (ids.foldl (unsatOne cfg k) s) ∧
    ∀ j, j < s.ncl → (ids.foldl (unsatOne cfg k) s).cl j =
      if j ∈ ids ∧ (s.cl j).level > k then
        { s.cl j with numUn := (s.cl j).numUn + opens s.asg s.lvl k (s.cl j).lits, level := -1 }
      else s.cl j
  | [], s, _, _ => ⟨FrameH.refl s, fun j _ => by simp⟩
  | id :: ids, s, hinj, hids => by
    rw [List.foldl_cons]
    have hid := hids id (by simp)
    obtain ⟨hfr, hcl⟩ := unsatOne_cl cfg k hinj hid
    have hfr' := hfr
    obtain ⟨_, _, he⟩ := hfr'
    have hncl : (unsatOne cfg k s id).ncl = s.ncl := by rw [he]
    have hptr : (unsatOne cfg k s id).ptr = s.ptr := by rw [he]
    have hasg : (unsatOne cfg k s id).asg = s.asg := by rw [he]
    have hlvl : (unsatOne cfg k s id).lvl = s.lvl := by rw [he]
    obtain ⟨h1, h2⟩ := unsatFold_cl cfg hk ids (unsatOne cfg k s id)
      (by rw [hncl, hptr]; exact hinj) (by rw [hncl]; intro i hi; exact hids i (by simp [hi]))
    refine ⟨hfr.trans h1, ?_⟩
    intro j hj
    rw [h2 j (by rw [hncl]; exact hj), hcl j hj, hasg, hlvl]
    by_cases hji : j = id
    · subst hji
      by_cases hl : (s.cl j).level > k
      · simp only [hl, and_self, if_true, List.mem_cons, true_or]
        rw [if_neg]
        simp; intro _; omega
      · simp [hl]
    · simp [hji]

/-! ### Second loop of undoTheory -/

/-- Fields other than counters and trail are untouched by undoing. -/
def FrameU (s s' : St S) : Prop :=
  ∃ h c g l r vv ds, s' = { s with heap := h, cnt := c, asg := g, lvl := l, rsn := r, vval := vv, decs := ds }

theorem FrameU.refl (s : St S) : FrameU s s := ⟨_, _, _, _, _, _, _, rfl⟩
theorem FrameU.trans {s s' s'' : St S} (h1 : FrameU s s') (h2 : FrameU s' s'') : FrameU s s'' := by
  obtain ⟨_, _, _, _, _, _, _, rfl⟩ := h1
  obtain ⟨h, c, g, l, r, vv, ds, rfl⟩ := h2
  exact ⟨h, c, g, l, r, vv, ds, rfl⟩
theorem FrameH.toU {s s' : St S} (h : FrameH s s') : FrameU s s' := by
  obtain ⟨h, c, rfl⟩ := h; exact ⟨h, c, _, _, _, _, _, rfl⟩

theorem undoUnsat_eq (cfg : Cfg S) (k : Int) (s : St S) (a : Nat × Nat) :
    undoUnsat cfg k s a = if s.lvl a.1 a.2 > k then
      let s1 := unsatisfyClauses cfg s (trueLit s.asg a) k
      { s1 with
        lvl := upd2 s1.lvl a.1 a.2 (-10)
        asg := upd2 s1.asg a.1 a.2 .un
        rsn := upd2 s1.rsn a.1 a.2 (-10)
        vval := upd s1.vval a.1 none }
      else s := by
  unfold undoUnsat trueLit
  by_cases h : s.asg a.1 a.2 = .ne <;> simp [h]

theorem Store.frameU {s s' : St S} (h : Store s) (hf : FrameU s s')
    (hl : ∀ j, j < s.ncl → (s'.cl j).lits = (s.cl j).lits) : Store s' := by
  obtain ⟨hp, c, g, lv, r, vv, ds, rfl⟩ := hf
  refine ⟨h.inj, ?_, h.alloc⟩
  intro l id
  have := h.recs l id
  by_cases hid : id < s.ncl
  · rw [if_pos hid] at this
    show (s.recs l).count id = if id < s.ncl then _ else _
    rw [if_pos hid, this, hl id hid]
  · rw [if_neg hid] at this
    show (s.recs l).count id = if id < s.ncl then _ else _
    rw [if_neg hid, this]

theorem undoUnsat_step (cfg : Cfg S) {k : Int} (hk : -1 ≤ k) {s : St S} (hs : Store s) (a : Nat × Nat) :
    FrameU s (undoUnsat cfg k s a) ∧ (undoUnsat cfg k s a).tr = Trail.undo1 k s.tr a ∧
    ∀ j, j < s.ncl → (undoUnsat cfg k s a).cl j =
      if (s.lvl a.1 a.2 > k ∧ trueLit s.asg a ∈ (s.cl j).lits) ∧ (s.cl j).level > k then
        { s.cl j with numUn := (s.cl j).numUn + opens s.asg s.lvl k (s.cl j).lits, level := -1 }
      else s.cl j := by
  rw [undoUnsat_eq]
  by_cases hl : s.lvl a.1 a.2 > k
  · rw [if_pos hl]
    obtain ⟨h1, h2⟩ := unsatFold_cl cfg hk (s.recs (trueLit s.asg a)) s hs.inj (fun i hi => hs.mem_lt hi)
    dsimp only
    have htr : Trail.undo1 k s.tr a = { s.tr with
      lvl := upd2 s.lvl a.1 a.2 (-10)
      asg := upd2 s.asg a.1 a.2 .un
      rsn := upd2 s.rsn a.1 a.2 (-10)
      vval := upd s.vval a.1 none } := by unfold Trail.undo1; rw [if_pos (show s.tr.lvl a.1 a.2 > k from hl)]; rfl
    refine ⟨h1.toU.trans ⟨_, _, _, _, _, _, _, rfl⟩, ?_, ?_⟩
    · rw [htr]
      obtain ⟨hp, c, he⟩ := h1
      unfold unsatisfyClauses
      rw [he]; rfl
    · intro j hj
      have hm : j ∈ s.recs (trueLit s.asg a) ↔ trueLit s.asg a ∈ (s.cl j).lits := by
        rw [← List.count_pos_iff, hs.recs _ j, if_pos hj, List.count_pos_iff]
      have := h2 j hj
      simp only [hm] at this
      simp only [hl, true_and]
      exact this
  · rw [if_neg hl]
    refine ⟨FrameU.refl s, ?_, ?_⟩
    · unfold Trail.undo1; rw [if_neg]; exact hl
    · intro j _; simp [hl]

theorem undoUnsat_fold (cfg : Cfg S) {k : Int} (hk : -1 ≤ k) : ∀ (as : List (Nat × Nat)) (s : St S),
    as.Nodup → Store s →
    FrameU s (as.foldl (undoUnsat cfg k) s) ∧
    (as.foldl (undoUnsat cfg k) s).tr = as.foldl (Trail.undo1 k) s.tr ∧
    ∀ j, j < s.ncl → (as.foldl (undoUnsat cfg k) s).cl j =
      if (∃ a ∈ as, s.lvl a.1 a.2 > k ∧ trueLit s.asg a ∈ (s.cl j).lits) ∧ (s.cl j).level > k then
        { s.cl j with numUn := (s.cl j).numUn + opens s.asg s.lvl k (s.cl j).lits, level := -1 }
      else s.cl j
  | [], s, _, _ => ⟨FrameU.refl s, rfl, fun j _ => by simp⟩
  | a :: as, s, hnd, hs => by
    rw [List.foldl_cons, List.foldl_cons]
    obtain ⟨ha, hnd⟩ := List.nodup_cons.1 hnd
    obtain ⟨hfr, htr, hcl⟩ := undoUnsat_step cfg hk hs a
    have hlits : ∀ j, j < s.ncl → ((undoUnsat cfg k s a).cl j).lits = (s.cl j).lits := by
      intro j hj; rw [hcl j hj]; split <;> rfl
    have hs1 := hs.frameU hfr hlits
    obtain ⟨h1, h2, h3⟩ := undoUnsat_fold cfg hk as (undoUnsat cfg k s a) hnd hs1
    refine ⟨hfr.trans h1, by rw [h2, htr], ?_⟩
    intro j hj
    obtain ⟨_, _, _, _, _, _, _, he⟩ := hfr
    have hncl : (undoUnsat cfg k s a).ncl = s.ncl := by rw [he]
    have hasg' : (undoUnsat cfg k s a).asg = (Trail.undo1 k s.tr a).asg := by rw [← htr]; rfl
    have hlvl' : (undoUnsat cfg k s a).lvl = (Trail.undo1 k s.tr a).lvl := by rw [← htr]; rfl
    have hasg : ∀ v d, (v, d) ≠ a → (undoUnsat cfg k s a).asg v d = s.asg v d := by
      intro v d hne
      rw [hasg']; unfold Trail.undo1
      split
      · exact Trail.upd2_of_ne _ _ (fun h => hne (by rw [h.1, h.2]))
      · rfl
    have hlvl : ∀ v d, (v, d) ≠ a → (undoUnsat cfg k s a).lvl v d = s.lvl v d := by
      intro v d hne
      rw [hlvl']; unfold Trail.undo1
      split
      · exact Trail.upd2_of_ne _ _ (fun h => hne (by rw [h.1, h.2]))
      · rfl
    have hop : ∀ c, opens (undoUnsat cfg k s a).asg (undoUnsat cfg k s a).lvl k c =
        opens s.asg s.lvl k c := by
      intro c
      unfold opens
      apply List.countP_congr
      intro l _
      simp only [decide_eq_true_eq]
      by_cases hla : (l.var, l.val) = a
      · subst hla
        rw [hasg', hlvl']
        unfold Trail.undo1
        split
        · rename_i hgt; simp; left; exact hgt
        · exact Iff.rfl
      · rw [hasg _ _ hla, hlvl _ _ hla]
    have hex : (∃ b ∈ as, (undoUnsat cfg k s a).lvl b.1 b.2 > k ∧
        trueLit (undoUnsat cfg k s a).asg b ∈ (s.cl j).lits) ↔
        ∃ b ∈ as, s.lvl b.1 b.2 > k ∧ trueLit s.asg b ∈ (s.cl j).lits := by
      constructor
      · rintro ⟨b, hb, h4, h5⟩
        have hba : (b.1, b.2) ≠ a := by rintro rfl; exact ha hb
        rw [hlvl _ _ hba] at h4
        unfold trueLit at *
        rw [hasg _ _ hba] at h5
        exact ⟨b, hb, h4, h5⟩
      · rintro ⟨b, hb, h4, h5⟩
        have hba : (b.1, b.2) ≠ a := by rintro rfl; exact ha hb
        refine ⟨b, hb, by rw [hlvl _ _ hba]; exact h4, ?_⟩
        unfold trueLit at *
        rw [hasg _ _ hba]; exact h5
    rw [h3 j (by rw [hncl]; exact hj), hlits j hj]
    simp only [hex, hop]
    rw [hcl j hj]
    by_cases hc : (s.lvl a.1 a.2 > k ∧ trueLit s.asg a ∈ (s.cl j).lits) ∧ (s.cl j).level > k
    · rw [if_pos hc, if_neg (by intro h; have := h.2; dsimp only at this; omega), if_pos ⟨⟨a, by simp, hc.1⟩, hc.2⟩]
    · rw [if_neg hc]
      by_cases hl : (s.cl j).level > k
      · have hc' : ¬ (s.lvl a.1 a.2 > k ∧ trueLit s.asg a ∈ (s.cl j).lits) := fun h => hc ⟨h, hl⟩
        simp only [hl, and_true, List.mem_cons, exists_eq_or_imp, hc', false_or]
      · simp [hl]

/-! ### undoTheory -/

/-- What `undoTheory` does: the trail is cut back, the counters are exact for it, nothing else
changes. -/
structure Undone (s : St S) (k : Int) (s' : St S) : Prop where
  frame : FrameU s s'
  tr    : s'.tr = s.tr.undo k
  lits  : ∀ j, j < s.ncl → (s'.cl j).lits = (s.cl j).lits
  exact : ∀ j, j < s.ncl → Exact s'.asg s'.lvl (s'.cl j)
  store : Store s'

theorem undoTheory_spec (cfg : Cfg S) {s : St S} {k K : Int} (hk : -1 ≤ k) (hb : (s.tr.level K).Base)
    (hs : Store s) (hex : ∀ j, j < s.ncl → Exact s.asg s.lvl (s.cl j)) :
    Undone s k (undoTheory cfg s k) := by
  obtain ⟨a1, a2, a3⟩ := undoAdd_fold cfg k s.atoms s hs
  have a2' := a2
  obtain ⟨hp, cc, he⟩ := a2'
  have hatoms : (s.atoms.foldl (undoAdd cfg k) s).atoms = s.atoms := by rw [he]; rfl
  have hasg1 : (s.atoms.foldl (undoAdd cfg k) s).asg = s.asg := by rw [he]
  have hlvl1 : (s.atoms.foldl (undoAdd cfg k) s).lvl = s.lvl := by rw [he]
  have hncl1 : (s.atoms.foldl (undoAdd cfg k) s).ncl = s.ncl := by rw [he]
  have htr1 : (s.atoms.foldl (undoAdd cfg k) s).tr = s.tr := by rw [he]; rfl
  obtain ⟨b1, b2, b3⟩ := undoUnsat_fold cfg hk s.atoms (s.atoms.foldl (undoAdd cfg k) s)
    (nodup_atoms s) a1
  rw [htr1, Trail.undo1_all hb (by omega)] at b2
  rw [hasg1, hlvl1, hncl1] at b3
  -- names
  have hun : undoTheory cfg s k =
      { s.atoms.foldl (undoUnsat cfg k) (s.atoms.foldl (undoAdd cfg k) s) with
        decs := undoDecs (s.atoms.foldl (undoUnsat cfg k) (s.atoms.foldl (undoAdd cfg k) s))
          (s.atoms.foldl (undoUnsat cfg k) (s.atoms.foldl (undoAdd cfg k) s)).decs.length
          (s.atoms.foldl (undoUnsat cfg k) (s.atoms.foldl (undoAdd cfg k) s)).decs } := by
    unfold undoTheory
    dsimp only
    rw [hatoms]
  generalize hs2 : s.atoms.foldl (undoUnsat cfg k) (s.atoms.foldl (undoAdd cfg k) s) = s2 at *
  have hdecs2 : s2.decs = s.decs := by
    have : s2.tr.decs = s.decs := by rw [b2]
    exact this
  have hasg2 : s2.asg = (s.tr.undo k).asg := by
    have : s2.tr.asg = (s.tr.undo k).asg := by rw [b2]
    exact this
  have hlvl2 : s2.lvl = (s.tr.undo k).lvl := by
    have : s2.tr.lvl = (s.tr.undo k).lvl := by rw [b2]
    exact this
  have hfr : FrameU s (undoTheory cfg s k) := by
    rw [hun]; exact (a2.toU.trans b1).trans ⟨_, _, _, _, _, _, _, rfl⟩
  have htr : (undoTheory cfg s k).tr = s.tr.undo k := by
    rw [hun]
    show ({ s2.tr with decs := _ } : Trail) = _
    rw [b2, undoDecs_full, hasg2, hdecs2]
    rfl
  have hcl : ∀ j, j < s.ncl → (undoTheory cfg s k).cl j = s2.cl j := by
    intro j _; rw [hun]; rfl
  have hcl2 : ∀ j, j < s.ncl → s2.cl j =
      if (s.cl j).level = -1 then
        { s.cl j with numUn := (s.cl j).numUn + addSum s.asg s.lvl k (s.cl j).lits s.atoms }
      else if (s.cl j).level > k then
        { s.cl j with numUn := (s.cl j).numUn + opens s.asg s.lvl k (s.cl j).lits, level := -1 }
      else s.cl j := by
    intro j hj
    rw [b3 j hj, a3 j hj]
    by_cases hl : (s.cl j).level = -1
    · simp only [hl, if_true]
      rw [if_neg (by intro h; have := h.2; omega)]
    · simp only [hl, if_false]
      by_cases hl2 : (s.cl j).level > k
      · rw [if_pos hl2, if_pos]
        refine ⟨?_, hl2⟩
        rcases hex j hj with ⟨h1, _⟩ | ⟨_, _, ⟨l, hm, ht, hll⟩, _⟩
        · exact absurd h1 hl
        · refine ⟨(l.var, l.val), ?_, ?_, ?_⟩
          · exact mem_atoms.2 (hb.rng _ _ (fun h => ht.not_LU h))
          · simp only; omega
          · have : trueLit s.asg (l.var, l.val) = l := by
              obtain ⟨v, d, e⟩ := l
              unfold LT at ht
              unfold trueLit
              simp only at ht ⊢
              rw [ht]; cases e <;> simp [Asg.ofSign]
            rw [this]; exact hm
      · rw [if_neg hl2, if_neg (by simp [hl2])]
  have hlits : ∀ j, j < s.ncl → ((undoTheory cfg s k).cl j).lits = (s.cl j).lits := by
    intro j hj
    rw [hcl j hj, hcl2 j hj]
    split
    · rfl
    · split <;> rfl
  refine ⟨hfr, htr, hlits, ?_, hs.frameU hfr hlits⟩
  intro j hj
  have hA : (undoTheory cfg s k).asg = s.tr.asgAt k := by
    have : (undoTheory cfg s k).tr.asg = s.tr.asgAt k := by rw [htr]; rfl
    exact this
  have hLv : (undoTheory cfg s k).lvl = (s.tr.undo k).lvl := by
    have : (undoTheory cfg s k).tr.lvl = (s.tr.undo k).lvl := by rw [htr]
    exact this
  have hLT : ∀ l, LT (s.tr.asgAt k) l → LT s.asg l ∧ s.lvl l.var l.val ≤ k := by
    intro l hl
    unfold LT at hl
    obtain ⟨h1, h2, h3⟩ := Trail.asgAt_ne_un (t := s.tr) (k := k) (v := l.var) (d := l.val) (by rw [hl]; simp)
    rw [h3] at hl
    exact ⟨hl, h2⟩
  have hLT' : ∀ l, LT s.asg l → s.lvl l.var l.val ≤ k → LT (s.tr.asgAt k) l := by
    intro l hl h2
    unfold LT; rw [Trail.asgAt_eq_of_le (t := s.tr) h2]; exact hl
  have hlv : ∀ v d, s.lvl v d ≤ k → (s.tr.undo k).lvl v d = s.lvl v d := by
    intro v d hle
    have : (s.tr.undo k).lvl v d = if s.lvl v d > k then -10 else s.lvl v d := rfl
    rw [this, if_neg (by omega)]
  rw [hcl j hj, hA, hLv, hcl2 j hj]
  have hul : ∀ v d, s.asg v d = .un → s.lvl v d ≤ k := by
    intro v d hu; have := hb.un v d hu
    have h' : s.lvl v d = -10 := this
    omega
  rcases hex j hj with ⟨h1, h2, h3⟩ | ⟨h1, h2, ⟨l, hm, ht, hll⟩, h4⟩
  · rw [if_pos h1]
    left
    refine ⟨h1, ?_, ?_⟩
    · rintro ⟨l, hm, hl⟩
      exact h2 ⟨l, hm, (hLT l hl).1⟩
    · have := addSum_spec (g := s.asg) (lvl := s.lvl) (k := k) (nodup_atoms s) hul
        (fun v d hl => mem_atoms.2 (hb.rng v d (fun hu => by have := hul v d hu; omega)))
        (c := (s.cl j).lits) (fun l hm hl => h2 ⟨l, hm, hl⟩)
      dsimp only
      have e : openCount (s.tr.asgAt k) (s.cl j).lits =
        openCount (fun v d => if s.lvl v d > k then Asg.un else s.asg v d) (s.cl j).lits := rfl
      omega
  · rw [if_neg (by omega)]
    by_cases hl2 : (s.cl j).level > k
    · rw [if_pos hl2]
      left
      refine ⟨rfl, ?_, ?_⟩
      · rintro ⟨l, hm, hl⟩
        obtain ⟨h5, h6⟩ := hLT l hl
        have := h4 l hm h5
        omega
      · dsimp only
        rw [h2]
        have : opens s.asg s.lvl k (s.cl j).lits = openCount (s.tr.asgAt k) (s.cl j).lits := by
          unfold opens openCount
          apply List.countP_congr
          intro l _
          simp only [decide_eq_true_eq]
          unfold LU Trail.asgAt
          show _ ↔ (if s.lvl l.var l.val > k then Asg.un else s.asg l.var l.val) = .un
          by_cases hh : s.lvl l.var l.val > k <;> simp [hh]
        omega
    · rw [if_neg hl2]
      right
      refine ⟨h1, h2, ⟨l, hm, hLT' l ht (by omega), by rw [hlv _ _ (by omega)]; exact hll⟩, ?_⟩
      intro l' hm' ht'
      obtain ⟨h5, h6⟩ := hLT l' ht'
      rw [hlv _ _ h6]
      exact h4 l' hm' h5

end Mvl
