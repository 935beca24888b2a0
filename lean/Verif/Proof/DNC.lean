import Verif.Proof.DReason

/-!
# Clause learning with counters on files that may repeat a literal in a clause

Conflict analysis may return the conflicting clause object itself (a single-literal clause); `learnClause` then enters
the same object a second time.  The entries that are not shared (`G`) contain all clauses of the file and all
learned clauses with at least two literals, and for these the counters stay exact.
-/

namespace Mvl

variable {S : Type}

/-- The state after storing the clause at address `a`, before undoing. -/
def dstored (s : St S) (c : Cls) (a nh : Nat) (sc : Lit → S) (r : Lit → List Nat) (b : Int) : St S :=
  { s with
      heap := upd s.heap a { c with numUn := 0 }, nheap := nh, ptr := upd s.ptr s.ncl a,
      ncl := s.ncl + 1, score := sc, recs := r, flowOff := s.flowOff + 1, LEVEL := b,
      nBacktracks := s.nBacktracks + 1, conflict := false }

theorem learnClause_at (cfg : Cfg S) (hw : cfg.watch = false) (s : St S) (c : Cls) (p : Option Nat) :
    ∃ sc r, learnClause cfg s c p =
      { s with
          heap := upd s.heap (p.getD s.nheap) { c with numUn := 0 },
          nheap := (if p = none then s.nheap + 1 else s.nheap), ptr := upd s.ptr s.ncl (p.getD s.nheap),
          ncl := s.ncl + 1, score := sc, recs := r, flowOff := s.flowOff + 1 } ∧
      (∀ l, r l = s.recs l ++ List.replicate (c.lits.count l) s.ncl) ∧
      (∀ pos, cfg.arith.Good pos → (∀ l, pos (s.score l)) → ∀ l, pos (sc l)) := by
  have key : ∀ (a nh : Nat), ∃ sc r,
      (let s4 := halveScores cfg (c.lits.foldl (learnLit cfg s.ncl)
        { s with
            heap := upd s.heap a { c with numUn := 0 }, nheap := nh, ptr := upd s.ptr s.ncl a,
            ncl := s.ncl + 1 })
      ({ s4 with flowOff := s4.flowOff + 1 } : St S)) =
      { s with
          heap := upd s.heap a { c with numUn := 0 }, nheap := nh, ptr := upd s.ptr s.ncl a,
          ncl := s.ncl + 1, score := sc, recs := r, flowOff := s.flowOff + 1 } ∧
      (∀ l, r l = s.recs l ++ List.replicate (c.lits.count l) s.ncl) ∧
      (∀ pos, cfg.arith.Good pos → (∀ l, pos (s.score l)) → ∀ l, pos (sc l)) := by
    intro a nh
    obtain ⟨sc, r, he, hr, hp⟩ := learnLits cfg s.ncl c.lits
      { s with
          heap := upd s.heap a { c with numUn := 0 }, nheap := nh, ptr := upd s.ptr s.ncl a,
          ncl := s.ncl + 1 }
    rw [he]
    obtain ⟨sc', he', hp'⟩ := halve_frame cfg
      { s with
          heap := upd s.heap a { c with numUn := 0 }, nheap := nh, ptr := upd s.ptr s.ncl a,
          ncl := s.ncl + 1, score := sc, recs := r }
    refine ⟨sc', r, ?_, hr hw, fun pos hg h => hp' pos hg (hp pos hg h)⟩
    rw [he']
  unfold learnClause
  dsimp only
  rw [if_neg (by rw [hw]; simp)]
  cases p with
  | none => exact key s.nheap (s.nheap + 1)
  | some a =>
    obtain ⟨sc, r, h⟩ := key a s.nheap
    exact ⟨sc, r, h⟩

/-- Where the clause is stored: in a fresh object, or in the object of a shared single-literal clause it is equal
to. -/
def Place (G : Nat → Prop) (s : St S) (c : Cls) (a nh : Nat) : Prop :=
  (a = s.nheap ∧ nh = s.nheap + 1 ∧ c.level = -1) ∨
  (nh = s.nheap ∧ ∃ id, id < s.ncl ∧ ¬ G id ∧ a = s.ptr id ∧ c = s.cl id)

/-- The entries with an object of their own afterwards. -/
def goodAfter (G : Nat → Prop) (s : St S) (c : Cls) (j : Nat) : Prop :=
  (j ≠ s.ncl ∧ G j) ∨ (j = s.ncl ∧ 1 < c.lits.length)

section stored

variable {G : Nat → Prop} {s : St S} {c : Cls} {a nh : Nat}

theorem Place.ne (h : Place G s c a nh) (hs : DStore G s) {i : Nat} (hi : i < s.ncl) (hg : G i) : s.ptr i ≠ a := by
  rcases h with ⟨rfl, _, _⟩ | ⟨_, id, h1, h2, rfl, _⟩
  · have := hs.alloc i hi; omega
  · intro he
    have := hs.own i hg hi id h1 he.symm
    subst this
    exact h2 hg

theorem Place.fresh (h : Place G s c a nh) (hs : DStore G s) (hl : 1 < c.lits.length) : a = s.nheap ∧ nh = s.nheap + 1 ∧ c.level = -1 := by
  rcases h with h | ⟨_, id, h1, h2, _, rfl⟩
  · exact h
  · obtain ⟨B, hB⟩ := hs.unit id h1 h2
    rw [hB] at hl; simp at hl

theorem dstored_cl_old (c : Cls) (a nh : Nat) (sc : Lit → S) (r : Lit → List Nat) (b : Int) {id : Nat}
    (hid : id < s.ncl) : (dstored s c a nh sc r b).cl id = if s.ptr id = a then { c with numUn := 0 } else s.cl id := by
  have h1 : upd s.ptr s.ncl a id = s.ptr id := upd_of_ne _ _ (by omega)
  show upd s.heap a _ (upd s.ptr s.ncl a id) = _
  rw [h1]
  by_cases h : s.ptr id = a
  · rw [if_pos h, h, upd_same]
  · rw [if_neg h, upd_of_ne _ _ h]; rfl

theorem dstored_cl_new (s : St S) (c : Cls) (a nh : Nat) (sc : Lit → S) (r : Lit → List Nat) (b : Int) :
    (dstored s c a nh sc r b).cl s.ncl = { c with numUn := 0 } := by
  unfold St.cl dstored
  dsimp only
  rw [upd_same, upd_same]

/-- Apart from the counter, old entries are as before. -/
theorem Place.old (h : Place G s c a nh) (hs : DStore G s) (sc : Lit → S) (r : Lit → List Nat) (b : Int) {id : Nat}
    (hid : id < s.ncl) : ((dstored s c a nh sc r b).cl id).lits = (s.cl id).lits ∧
      ((dstored s c a nh sc r b).cl id).level = (s.cl id).level ∧
      (G id → (dstored s c a nh sc r b).cl id = s.cl id) := by
  rw [dstored_cl_old c a nh sc r b hid]
  by_cases hp : s.ptr id = a
  · rw [if_pos hp]
    rcases h with ⟨rfl, _, _⟩ | ⟨_, j, h1, h2, rfl, rfl⟩
    · have := hs.alloc id hid; omega
    · have : s.cl j = s.cl id := by unfold St.cl; rw [hp]
      rw [this]
      refine ⟨rfl, rfl, ?_⟩
      intro hg
      have := hs.own id hg hid j h1 hp.symm
      subst this
      exact absurd hg h2
  · rw [if_neg hp]; exact ⟨rfl, rfl, fun _ => rfl⟩

theorem Place.addCl (h : Place G s c a nh) (hs : DStore G s) (sc : Lit → S) (r : Lit → List Nat) (b : Int) :
    AddCl s c.lits (dstored s c a nh sc r b) :=
  ⟨rfl, rfl, rfl, fun id hid => (h.old hs sc r b hid).1, by rw [dstored_cl_new]⟩

theorem Place.store (h : Place G s c a nh) (hs : DStore G s) (hc : c.lits ≠ []) (sc : Lit → S) {r : Lit → List Nat} (b : Int)
    (hr : ∀ l, r l = s.recs l ++ List.replicate (c.lits.count l) s.ncl) :
    DStore (goodAfter G s c) (dstored s c a nh sc r b) := by
  have hold := fun {id : Nat} (hid : id < s.ncl) => h.old hs sc r b hid
  have hnew := dstored_cl_new s c a nh sc r b
  have hncl : (dstored s c a nh sc r b).ncl = s.ncl + 1 := rfl
  have hsplit : ∀ id, id < s.ncl + 1 → id < s.ncl ∨ id = s.ncl := fun id hid => by omega
  have hpo : ∀ i, i < s.ncl → (dstored s c a nh sc r b).ptr i = s.ptr i := by
    intro i hi; unfold dstored; dsimp only; rw [upd_of_ne _ _ (by omega)]
  have hpn : (dstored s c a nh sc r b).ptr s.ncl = a := by unfold dstored; dsimp only; rw [upd_same]
  refine ⟨?_, ?_, ?_, ?_⟩
  · intro j hg hj i hi hp
    rcases hsplit j hj with hj' | rfl
    · have hg' : G j := by
        rcases hg with hg | hg
        · exact hg.2
        · omega
      rcases hsplit i hi with hi' | rfl
      · rw [hpo i hi', hpo j hj'] at hp
        exact hs.own j hg' hj' i hi' hp
      · rw [hpn, hpo j hj'] at hp
        exact absurd hp.symm (h.ne hs hj' hg')
    · rcases hsplit i hi with hi' | rfl
      · have hl : 1 < c.lits.length := by
          rcases hg with hg | hg
          · exact absurd rfl hg.1
          · exact hg.2
        obtain ⟨ha, _, _⟩ := h.fresh hs hl
        rw [hpo i hi', hpn, ha] at hp
        have := hs.alloc i hi'; omega
      · rfl
  · intro l id
    show (r l).count id = _
    rw [hr l, List.count_append, hs.recs l id, List.count_replicate]
    rw [hncl]
    by_cases hid : id < s.ncl
    · have hb : (s.ncl == id) = false := by simp; omega
      rw [hb, if_pos hid, if_neg (by simp), if_pos (by omega), (hold hid).1]; omega
    · rw [if_neg hid]
      by_cases he : id = s.ncl
      · subst he
        rw [if_pos (by simp), if_pos (by omega), hnew]
        show 0 + c.lits.count l = c.lits.count l
        omega
      · have hb : (s.ncl == id) = false := by simp; omega
        rw [hb, if_neg (by simp), if_neg (by omega)]
  · intro i hi
    show _ < nh
    rcases hsplit i hi with hi' | rfl
    · rw [hpo i hi']
      have := hs.alloc i hi'
      rcases h with ⟨_, h, _⟩ | ⟨h, _⟩ <;> omega
    · rw [hpn]
      rcases h with ⟨h1, h, _⟩ | ⟨h, id, h1, _, h2, _⟩
      · omega
      · have := hs.alloc id h1; omega
  · intro id hid hg
    rcases hsplit id hid with hi | rfl
    · rw [(hold hi).1]
      exact hs.unit id hi (fun hg' => hg (Or.inl ⟨by omega, hg'⟩))
    · rw [hnew]
      have : ¬ 1 < c.lits.length := fun h => hg (Or.inr ⟨rfl, h⟩)
      show ∃ B, c.lits = [B]
      match hm : c.lits with
      | [] => exact absurd hm hc
      | [B] => exact ⟨B, rfl⟩
      | _ :: _ :: _ => rw [hm] at this; simp at this

theorem not_csat_of_false {g : PA} {c : List Lit} (h : ∀ x ∈ c, LF g x) : ¬ CSat g c := by
  rintro ⟨x, hx, ht⟩
  exact ht.not_LF (h x hx)

theorem openCount_zero_of {g : PA} {c : List Lit} (h : ∀ x ∈ c, LF g x) : openCount g c = 0 := by
  unfold openCount
  rw [List.countP_eq_zero]
  intro x hx
  have : ¬ LU g x := (h x hx).not_LU
  simpa using this

theorem Place.mark (h : Place G s c a nh) (hd : DCnt G (fun _ => False) s) (hf : ∀ x ∈ c.lits, LF s.asg x)
    (sc : Lit → S) (r : Lit → List Nat) (b : Int) : ∀ id, id < (dstored s c a nh sc r b).ncl →
    Mark (dstored s c a nh sc r b).asg (dstored s c a nh sc r b).lvl ((dstored s c a nh sc r b).cl id) := by
  have hsplit : ∀ id, id < s.ncl + 1 → id < s.ncl ∨ id = s.ncl := fun id hid => by omega
  intro id hid
  show Mark s.asg s.lvl _
  rcases hsplit id hid with hi | rfl
  · obtain ⟨h1, h2, _⟩ := h.old hd.store sc r b hi
    have := hd.mark id hi
    unfold Mark at *
    rw [h1, h2]; exact this
  · rw [dstored_cl_new]
    left
    refine ⟨?_, not_csat_of_false hf⟩
    show c.level = -1
    rcases h with ⟨_, _, h⟩ | ⟨_, j, hj, _, _, rfl⟩
    · exact h
    · apply Classical.byContradiction
      intro hl
      exact not_csat_of_false hf ((hd.mark j hj).sat hl)

theorem Place.num (h : Place G s c a nh) (hd : DCnt G (fun _ => False) s) (hf : ∀ x ∈ c.lits, LF s.asg x)
    (sc : Lit → S) (r : Lit → List Nat) (b : Int) : ∀ id, id < (dstored s c a nh sc r b).ncl → goodAfter G s c id →
    Num (dstored s c a nh sc r b).asg ((dstored s c a nh sc r b).cl id) := by
  have hsplit : ∀ id, id < s.ncl + 1 → id < s.ncl ∨ id = s.ncl := fun id hid => by omega
  intro id hid hg
  show Num s.asg _
  rcases hsplit id hid with hi | rfl
  · have hg' : G id := by
      rcases hg with hg | hg
      · exact hg.2
      · omega
    rw [(h.old hd.store sc r b hi).2.2 hg']
    exact hd.num id hi hg'
  · rw [dstored_cl_new]
    have : openCount s.asg c.lits = 0 := openCount_zero_of hf
    unfold Num
    show (0 : Int) = if c.level = -1 then (openCount s.asg c.lits : Int) else 0
    rw [this]; split <;> rfl

end stored

/-- How a clause with one occurrence at the current level looks at the levels up to the one gone back to. -/
theorem wlearned_levels {s : St S} (hbs : s.tr.Base) {c : List Lit} (hf : ∀ x ∈ c, LF s.asg x)
    (hu : countAtLevel s c = 1) {b : Int} (hb : BackLevel s.tr c b) :
    (∀ j, 0 ≤ j → j < b → TwoOrSat (s.tr.asgAt j) c) ∧ openCount (s.tr.asgAt b) c = 1 := by
  have hlt : b < s.LEVEL := hb.lt
  constructor
  · intro j hj0 hj
    obtain ⟨y, hyc, hyl⟩ := hb.hit (by omega)
    have hyl : s.lvl y.var y.val = b := hyl
    obtain ⟨x, hx, hxl⟩ := List.countP_pos_iff.1 (by unfold countAtLevel at hu; omega :
      0 < c.countP fun l => decide (s.lvl l.var l.val = s.LEVEL))
    have hxl : s.lvl x.var x.val = s.LEVEL := of_decide_eq_true hxl
    right
    refine openCount_two_of hx hyc ?_ (LU_asgAt ?_) (LU_asgAt ?_)
    · rintro rfl; omega
    · show j < s.lvl x.var x.val; omega
    · show j < s.lvl y.var y.val; omega
  · rw [← hu]
    unfold openCount countAtLevel
    apply List.countP_congr
    intro x hx
    have hne := LF_ne_un (hf x hx)
    have h1 : s.lvl x.var x.val ≤ s.LEVEL := hbs.lvlL _ _ hne
    simp only [decide_eq_true_eq]
    constructor
    · intro hlu
      apply Classical.byContradiction
      intro hl
      have h2 : s.lvl x.var x.val ≤ b := hb.le x hx (by show s.lvl x.var x.val < s.LEVEL; omega)
      exact not_LU_asgAt (t := s.tr) hne h2 hlu
    · intro hl
      exact LU_asgAt (t := s.tr) (by show b < s.lvl x.var x.val; omega)

/-- Going back with the learned clause stored. -/
theorem DInv.backjump (cfg : Cfg S) {G : Nat → Prop} {s : St S} (h : DInv G (fun _ => False) s) {c : Cls} {a nh : Nat}
    (hp : Place G s c a nh) (hf : ∀ x ∈ c.lits, LF s.asg x)
    (hpot : c.lits.length = 1 ∨ (1 < c.lits.length ∧ countAtLevel s c.lits = 1))
    {b : Int} (hb : BackLevel s.tr c.lits b) {k : Int} (hk0 : 0 ≤ k) (hkb : k ≤ b)
    {sc : Lit → S} {r : Lit → List Nat} (hr : ∀ l, r l = s.recs l ++ List.replicate (c.lits.count l) s.ncl) :
    DInv (goodAfter G s c) (fun _ => False) ({ undoTheory cfg (dstored s c a nh sc r b) k with
      conflict := false, units := (if k = b then [s.ncl] else []), LEVEL := k } : St S) ∧
    SameF (dstored s c a nh sc r b) (undoTheory cfg (dstored s c a nh sc r b) k) ∧
    (undoTheory cfg (dstored s c a nh sc r b) k).tr = (dstored s c a nh sc r b).tr.undo k ∧
    FrameU (dstored s c a nh sc r b) (undoTheory cfg (dstored s c a nh sc r b) k) := by
  have hst := h.cnt.store
  have hne : c.lits ≠ [] := by
    intro he
    rw [he] at hpot; simp at hpot
  have hnew := dstored_cl_new s c a nh sc r b
  have hncl : (dstored s c a nh sc r b).ncl = s.ncl + 1 := rfl
  have hasgAt : ∀ j, (dstored s c a nh sc r b).tr.asgAt j = s.tr.asgAt j := fun _ => rfl
  have hkL : k < s.LEVEL := by have : b < s.LEVEL := hb.lt; omega
  have hsplit : ∀ id, id < s.ncl + 1 → id < s.ncl ∨ id = s.ncl := fun id hid => by omega
  have hG : ∀ id, id < s.ncl → goodAfter G s c id → G id := by
    intro id hid hg
    rcases hg with hg | hg
    · exact hg.2
    · omega
  have hlen : goodAfter G s c s.ncl → 1 < c.lits.length := by
    rintro (hg | hg)
    · exact absurd rfl hg.1
    · exact hg.2
  have hlev : goodAfter G s c s.ncl →
      (∀ j, 0 ≤ j → j < b → TwoOrSat (s.tr.asgAt j) c.lits) ∧ openCount (s.tr.asgAt b) c.lits = 1 := by
    intro hg
    have := hlen hg
    rcases hpot with hp1 | ⟨_, hp2⟩
    · omega
    · exact wlearned_levels h.base hf hp2 hb
  apply undo_gen_D cfg (K := s.LEVEL) (s := dstored s c a nh sc r b) h.base
  · exact hp.store hst hne sc b hr
  · exact hp.mark h.cnt hf sc r b
  · exact hp.num h.cnt hf sc r b
  · intro id hid l hm
    rcases hsplit id hid with hi | rfl
    · rw [(hp.old hst sc r b hi).1] at hm; exact h.rng id hi l hm
    · rw [hnew] at hm
      exact h.base.rng _ _ (LF_ne_un (hf l hm))
  · exact hk0
  · intro j hj0 hj
    rw [hasgAt]
    exact (h.stack j hj0 (by show j < s.LEVEL; omega)).1
  · rintro j hj0 hj c' ⟨id, hid, hg, rfl⟩
    rw [hasgAt]
    rcases hsplit id hid with hi | rfl
    · rw [(hp.old hst sc r b hi).1]
      exact (h.stack j hj0 (by show j < s.LEVEL; omega)).2 _ ⟨id, hi, hG id hi hg, rfl⟩
    · rw [hnew]
      exact (hlev hg).1 j hj0 (by omega)
  · intro id hid hg
    rw [hasgAt]
    rcases hsplit id hid with hi | rfl
    · left; rw [(hp.old hst sc r b hi).1]; exact (h.stack k hk0 hkL).2 _ ⟨id, hi, hG id hi hg, rfl⟩
    · rw [hnew]
      by_cases hkb' : k = b
      · right; rw [if_pos hkb']; subst hkb'; exact ⟨(hlev hg).2, by simp⟩
      · left; exact (hlev hg).1 k hk0 (by omega)
  · intro id hid
    by_cases hkb' : k = b
    · rw [if_pos hkb'] at hid
      have : id = s.ncl := by simpa using hid
      subst this
      refine ⟨by rw [hncl]; omega, ?_⟩
      intro hg
      rw [hasgAt, hnew]; subst hkb'
      have := (hlev hg).2
      show openCount _ c.lits ≤ 1
      omega
    · rw [if_neg hkb'] at hid; simp at hid

/-! ### The invariant of the search -/

/-- What the search on `P` keeps true of clauses and assignment. -/
structure DLInv (P : Problem) (G : Nat → Prop) (s : St S) : Prop where
  nv : s.nv = P.numVars
  dom : s.dom = P.dom
  keep : ∀ (i : Nat) (c : List Lit), P.clauses[i]? = some c → i < s.ncl ∧ G i ∧ (s.cl i).lits = c
  sound : ∀ a, P.widen.Solves a → s.Model a
  lev0 : ∀ a, P.widen.Solves a → Agrees a (s.tr.asgAt 0)
  reasons : WReasons s.tr s.lits?
  ub : s.ub = false

theorem DLInv.grow {P : Problem} {G : Nat → Prop} {s s' : St S} (h : DLInv P G s) (hsf : SameF s s')
    (h0 : ∀ a, P.widen.Solves a → Agrees a (s'.tr.asgAt 0)) (hr : WReasons s'.tr s.lits?) (hub : s'.ub = false) :
    DLInv P G s' where
  nv := hsf.nv.trans h.nv
  dom := hsf.dom.trans h.dom
  keep := by
    intro i c hc
    obtain ⟨h1, h2, h3⟩ := h.keep i c hc
    exact ⟨by rw [hsf.ncl]; exact h1, h2, by rw [hsf.lits i h1]; exact h3⟩
  sound := fun a ha => hsf.model (h.sound a ha)
  lev0 := h0
  reasons := by rw [hsf.lits?]; exact hr
  ub := hub

theorem DLInv.learn {P : Problem} {G : Nat → Prop} {s s' : St S} (h : DLInv P G s) {c : Cls} (ha : AddCl s c.lits s')
    (he : ∀ a, s.Model a → clauseHolds a c.lits)
    (h0 : s'.tr.asgAt 0 = s.tr.asgAt 0) (hr : WReasons s'.tr s.lits?) (hub : s'.ub = false) :
    DLInv P (goodAfter G s c) s' where
  nv := ha.nv.trans h.nv
  dom := ha.dom.trans h.dom
  keep := by
    intro i c hc
    obtain ⟨h1, h2, h3⟩ := h.keep i c hc
    exact ⟨by rw [ha.ncl]; omega, Or.inl ⟨by omega, h2⟩, by rw [ha.old i h1]; exact h3⟩
  sound := by
    intro a hs
    have hm := h.sound a hs
    refine ⟨by rw [ha.nv, ha.dom]; exact hm.1, ?_⟩
    intro id hid
    rw [ha.ncl] at hid
    by_cases hi : id < s.ncl
    · rw [ha.old id hi]; exact hm.2 id hi
    · have : id = s.ncl := by omega
      subst this; rw [ha.new]; exact he a hm
  lev0 := by intro a hs; rw [h0]; exact h.lev0 a hs
  reasons := hr.mono (fun _ _ hc => ha.lits? hc)
  ub := hub

/-- Invariant of `NonChronoBacktrack`, repeated literals allowed. -/
structure DNInv (cfg : Cfg S) (P : Problem) (G : Nat → Prop) (s : St S) (rc : Int) : Prop where
  inv : DInv G (fun _ => False) s
  linv : DLInv P G s
  scores : ∀ pos, cfg.arith.Good pos → ∀ l, pos (s.score l)
  rinv : RInv cfg s rc

theorem DNInv.tick {cfg : Cfg S} {P : Problem} {G : Nat → Prop} {s : St S} {rc : Int} (h : DNInv cfg P G s rc) :
    DNInv cfg P G (tick s) rc :=
  ⟨h.inv.congr rfl rfl rfl rfl rfl rfl rfl rfl rfl,
    ⟨h.linv.nv, h.linv.dom, h.linv.keep, h.linv.sound, h.linv.lev0, h.linv.reasons, h.linv.ub⟩,
    h.scores, h.rinv.congr rfl rfl rfl⟩

theorem unitStep_extra_D (cfg : Cfg S) {G : Nat → Prop} {s : St S} (h : DInv G (fun _ => False) s)
    (hc : s.conflict = false) (hrs : WReasons s.tr s.lits?) :
    WReasons (unitStep cfg s).tr s.lits? ∧ (unitStep cfg s).ub = s.ub ∧ (unitStep cfg s).score = s.score := by
  unfold unitStep
  cases hun : s.units with
  | nil => exact ⟨hrs, rfl, rfl⟩
  | cons id rest =>
    dsimp only
    obtain ⟨hid, _⟩ := h.cnt.unitsOK id (by rw [hun]; simp)
    by_cases hl : (s.cl id).level = -1
    · rw [if_pos (by exact hl)]
      cases hf : (s.cl id).lits.find? (fun l => s.asg l.var l.val = .un) with
      | none =>
        have hf' : (({ s with unitClause := (id : Int), units := rest } : St S).cl id).lits.find?
          (fun l => ({ s with unitClause := (id : Int), units := rest } : St S).asg l.var l.val = .un) = none := hf
        simp only [hf']
        exact ⟨hrs, trivial, trivial⟩
      | some l =>
        obtain ⟨hm, hlu, hoth⟩ := h.front hun hl hf
        have hf' : (({ s with unitClause := (id : Int), units := rest } : St S).cl id).lits.find?
          (fun l => ({ s with unitClause := (id : Int), units := rest } : St S).asg l.var l.val = .un) = some l := hf
        simp only [hf']
        have hr := h.rng id hid l hm
        have hx := reduceTheory_G cfg { s with unitClause := (id : Int), units := rest, nUnits := s.nUnits + 1 } l
        obtain ⟨h1, h2, h3⟩ := reduceG_trail (stepG_assign1 cfg)
          ({ s with unitClause := (id : Int), units := rest, nUnits := s.nUnits + 1 } : St S) l hr.2.2 hlu
        have hext := h1.ext h.base hr hlu (h.vars hc l.var hr.1 hr.2.1) h.lev0
        rw [← hx] at hext
        obtain ⟨e1, e2⟩ := reduce_extra cfg
          ({ s with unitClause := (id : Int), units := rest, nUnits := s.nUnits + 1 } : St S) l hlu
        refine ⟨hext.wreasons h.base hr hrs (Or.inr ⟨id, (s.cl id).lits, rfl, ?_, hm, hoth⟩), e1, e2⟩
        unfold St.lits?
        rw [if_pos hid]
    · rw [if_neg (by exact hl)]
      exact ⟨hrs, rfl, rfl⟩

theorem DNInv.prop {cfg : Cfg S} {P : Problem} {G : Nat → Prop} {s : St S} {rc : Int} (h : DNInv cfg P G s rc)
    (hc : s.conflict = false) (hu : s.units ≠ []) : DNInv cfg P G (unitStep cfg s) rc := by
  have hst := unitStep_D cfg h.inv hc hu
  obtain ⟨e1, e2, e3⟩ := unitStep_extra_D cfg h.inv hc h.linv.reasons
  refine ⟨hst.inv, h.linv.grow hst.grown.sameF ?_ e1 (e2.trans h.linv.ub), ?_, ?_⟩
  · intro a ha
    by_cases hL : s.LEVEL = 0
    · have e : (unitStep cfg s).tr.asgAt 0 = (unitStep cfg s).asg :=
        Trail.asgAt_of_le hst.inv.base (by show (unitStep cfg s).LEVEL ≤ 0; rw [hst.grown.LEVEL]; omega)
      have e0 : s.tr.asgAt 0 = s.asg := Trail.asgAt_of_le h.inv.base (by show s.LEVEL ≤ 0; omega)
      rw [e]
      apply hst.agrees a (h.linv.sound a ha)
      rw [← e0]; exact h.linv.lev0 a ha
    · rw [hst.grown.asgAt 0 (by have := h.inv.lev0; omega)]
      exact h.linv.lev0 a ha
  · intro pos hg; rw [e3]; exact h.scores pos hg
  · exact h.rinv.congr hst.nRestarts hst.nBacktracks hst.flowOff

theorem DInv.choose_some {G ex : Nat → Prop} {s : St S} (h : DInv G ex s) {l : Lit}
    (hl : OpenAtom s l.var l.val ∨ lazyChoose s = some l) : s.tr.Rng l.var l.val ∧ LU s.asg l := by
  rcases hl with hl | hl
  · exact ⟨hl.1, hl.2.2⟩
  · obtain ⟨h1, id, hid, _, hm⟩ := (lazyChoose_spec s).2 l hl
    exact ⟨h.rng id hid l hm, h1⟩

theorem DNInv.dec {cfg : Cfg S} (hw : cfg.watch = false) (hs : cfg.ScoreOK) {P : Problem} {G : Nat → Prop} {s s' : St S}
    {rc : Int} (h : DNInv cfg P G s rc) (hc : s.conflict = false)
    (hu : s.units = []) (hd : decideNC cfg s = some s') : DNInv cfg P G s' rc ∧ SameF s s' ∧ unCount s' < unCount s := by
  obtain ⟨l, hl, rfl⟩ := decideNC_counter hw hd
  obtain ⟨hr, hlu⟩ := h.inv.choose_some (chooseNC_some hw hs h.scores hl)
  have h1 := h.inv.open_level hc hu (-1) (s.nDecisions + 1)
  obtain ⟨h2, h3⟩ := h1.reduce cfg hc (l := l) hr hlu
  obtain ⟨e1, e2⟩ := reduce_extra cfg
    ({ s with nDecisions := s.nDecisions + 1, LEVEL := s.LEVEL + 1, unitClause := -1 } : St S) l hlu
  have hrs := h3.ext.wreasons h1.base hr (cls := s.lits?) h.linv.reasons (Or.inl rfl)
  have h0 : (reduceTheory cfg ({ s with nDecisions := s.nDecisions + 1, LEVEL := s.LEVEL + 1, unitClause := -1 } : St S) l).tr.asgAt 0
      = s.tr.asgAt 0 := by
    rw [h3.ext.asgAt (k := 0) (by have := h.inv.lev0; show 0 < s.LEVEL + 1; omega)]; rfl
  have hm := h3.unCount_lt hr hlu
  generalize reduceTheory cfg
    ({ s with nDecisions := s.nDecisions + 1, LEVEL := s.LEVEL + 1, unitClause := -1 } : St S) l = s2 at *
  have hsf : SameF s s2 := ⟨h3.sameF.nv, h3.sameF.dom, h3.sameF.ncl, h3.sameF.lits⟩
  refine ⟨⟨h2, h.linv.grow hsf ?_ hrs (e1.trans h.linv.ub), ?_, ?_⟩, hsf, hm⟩
  · intro a ha
    rw [h0]
    exact h.linv.lev0 a ha
  · intro pos hg; rw [e2]; exact h.scores pos hg
  · exact h.rinv.congr h3.same.nRestarts h3.same.nBacktracks h3.same.flowOff

/-! ### Conflicts -/

/-- What handling a conflict does, seen from outside. -/
structure DBackjump (cfg : Cfg S) (s : St S) (rc : Int) (s' : St S) (rc' : Int) : Prop where
  confl : ∃ id, id < s.ncl ∧ s.conflicting = (id : Nat) ∧ ∃ (c : Cls) (p : Option Nat),
    WLearned s (s.cl id) (some (s.ptr id)) c p ∧ AddCl s c.lits s'
  level : 0 ≤ s'.LEVEL ∧ s'.LEVEL < s.LEVEL
  tr : s'.tr = (s.tr.undo s'.LEVEL).level s'.LEVEL
  conflict : s'.conflict = false
  back : s'.nBacktracks = s.nBacktracks + 1
  flow : s'.flowOff = s.flowOff + 1
  ub : s'.ub = s.ub
  ticks : s'.ticks = s.ticks
  nDecisions : s'.nDecisions = s.nDecisions
  restart : ((s.nBacktracks : Int) + 1 = rc ∧ s'.nRestarts = s.nRestarts + 1 ∧
        rc' = ((s.nBacktracks : Int) + 1) + cfg.restarts ∧ s'.LEVEL = 0) ∨
      ((s.nBacktracks : Int) + 1 ≠ rc ∧ s'.nRestarts = s.nRestarts ∧ rc' = rc)
  scores : ∀ pos, cfg.arith.Good pos → (∀ l, pos (s.score l)) → ∀ l, pos (s'.score l)
  shape : ∃ (id : Nat) (c : Cls) (p : Option Nat) (sc : Lit → S) (r : Lit → List Nat) (b : Int), id < s.ncl ∧
    s.conflicting = (id : Nat) ∧ WLearned s (s.cl id) (some (s.ptr id)) c p ∧ BackLevel s.tr c.lits b ∧
    b = backtrackLevel s c.lits ∧ (∀ l, r l = s.recs l ++ List.replicate (c.lits.count l) s.ncl) ∧ s'.LEVEL ≤ b ∧
    s' = { undoTheory cfg (dstored s c (p.getD s.nheap) (if p = none then s.nheap + 1 else s.nheap) sc r b) s'.LEVEL with
            units := (if s'.LEVEL = b then [s.ncl] else []), LEVEL := s'.LEVEL, nRestarts := s'.nRestarts }

/-- Where the learned clause is stored: in a fresh object, unless it is the conflicting clause. -/
theorem DInv.place {G : Nat → Prop} {s : St S} (h : DInv G (fun _ => False) s) (hL1 : 1 ≤ s.LEVEL) {id : Nat}
    (hid : id < s.ncl) (hfals : ∀ x ∈ (s.cl id).lits, LF s.asg x) {c : Cls} {p : Option Nat}
    (hl : WLearned s (s.cl id) (some (s.ptr id)) c p) :
    Place G s c (p.getD s.nheap) (if p = none then s.nheap + 1 else s.nheap) := by
  rcases hl.origin with ⟨rfl, hc0⟩ | ⟨rfl, hlev⟩
  · right
    refine ⟨by simp, id, hid, ?_, rfl, hc0⟩
    intro hg
    have h2 := (h.stack (s.LEVEL - 1) (by omega) (by show s.LEVEL - 1 < s.LEVEL; omega)).2 _ ⟨id, hid, hg, rfl⟩
    rcases h2 with h2 | h2
    · obtain ⟨x, hx, ht⟩ := h2
      exact (LT_of_asgAt ht).not_LF (hfals x hx)
    · have hle : openCount (s.tr.asgAt (s.LEVEL - 1)) (s.cl id).lits ≤ countAtLevel s (s.cl id).lits := by
        unfold openCount countAtLevel
        apply List.countP_mono_left
        intro x hx hlu
        simp only [decide_eq_true_eq] at hlu ⊢
        exact lvl_of_LU_asgAt (t := s.tr) h.base rfl (hfals x hx) hlu
      have hlen : countAtLevel s (s.cl id).lits ≤ (s.cl id).lits.length := List.countP_le_length
      have hpot := hl.potent
      rw [hc0] at hpot
      rcases hpot with h3 | h3 <;> omega
  · left; exact ⟨rfl, by simp, hlev⟩

theorem DNInv.conf {cfg : Cfg S} (hw : cfg.watch = false) {P : Problem} {G : Nat → Prop} {s : St S} {rc : Int}
    (h : DNInv cfg P G s rc) (hc : s.conflict = true) (hL : s.LEVEL ≠ 0) (f : Nat) :
    (conflictNC cfg f s rc).Safe fun p => (∃ G', DNInv cfg P G' p.1 p.2) ∧ DBackjump cfg s rc p.1 p.2 := by
  obtain ⟨id, hid, hcid, hfals⟩ := h.inv.cnt.conf hc
  have hL1 : 1 ≤ s.LEVEL := by have := h.inv.lev0; omega
  have han := analyze_safe cfg hw s h.inv.base h.linv.reasons f (s.cl id) (some (s.ptr id)) hfals
  unfold conflictNC
  rw [if_neg (by rw [hcid]; omega)]
  have htn : s.conflicting.toNat = id := by rw [hcid]; simp
  rw [htn]
  refine Res.Safe.bind han ?_
  rintro ⟨s1, c⟩ ⟨p, he1, hl⟩
  dsimp only at he1 hl ⊢
  obtain ⟨sc, r, he2, hrec, hpos⟩ := learnClause_at cfg hw s c p
  rw [he2] at he1
  have hb := backtrackLevel_spec s hL1 (c := c.lits)
    (fun x hx => h.inv.base.lvl0 _ _ (LF_ne_un (hl.fals x hx)))
  have hb1 : backtrackLevel s1 c.lits = backtrackLevel s c.lits := by rw [he1]; rfl
  rw [hb1]
  generalize hbe : backtrackLevel s c.lits = b at hb
  -- the clause goes to a fresh object, unless it is the conflicting single-literal clause
  have hplace := h.inv.place hL1 hid hfals hl
  generalize hae : p.getD s.nheap = a at *
  generalize hne : (if p = none then s.nheap + 1 else s.nheap) = nh at *
  have hst2 : ({ s1 with LEVEL := b, nBacktracks := s1.nBacktracks + 1, conflict := false } : St S) = dstored s c a nh sc r b := by
    rw [he1]; rfl
  have hadd := hplace.addCl h.inv.cnt.store sc r b
  have hnb : s1.nBacktracks = s.nBacktracks := by rw [he1]
  -- everything about the final state, for either target level
  have main : ∀ (k : Int) (s' : St S) (nr : Nat), 0 ≤ k → k ≤ b →
      s' = { undoTheory cfg (dstored s c a nh sc r b) k with
              units := (if k = b then [s.ncl] else []), LEVEL := k, nRestarts := nr } →
      ∀ rc', (((s.nBacktracks : Int) + 1 = rc ∧ nr = s.nRestarts + 1 ∧
          rc' = ((s.nBacktracks : Int) + 1) + cfg.restarts ∧ k = 0) ∨
        ((s.nBacktracks : Int) + 1 ≠ rc ∧ nr = s.nRestarts ∧ rc' = rc)) →
      (∃ G', DNInv cfg P G' s' rc') ∧ DBackjump cfg s rc s' rc' := by
    intro k s' nr hk0 hkb hs' rc' hres
    obtain ⟨m1, m2, m3, m4⟩ := h.inv.backjump cfg hplace hl.fals hl.potent hb hk0 hkb (sc := sc) hrec
    generalize he3 : undoTheory cfg (dstored s c a nh sc r b) k = s3 at *
    obtain ⟨hp, cn, g, lv, rs, vv, ds, e3⟩ := m4
    have hcf' : s'.conflict = false := by rw [hs', e3]; rfl
    have hadd' : AddCl s c.lits s' := by
      apply hadd.sameF
      rw [hs']; exact ⟨m2.nv, m2.dom, m2.ncl, m2.lits⟩
    have htr' : s'.tr = (s.tr.undo k).level k := by
      have : s'.tr = s3.tr.level k := by rw [hs']; rfl
      rw [this, m3]; rfl
    have hLk : s'.LEVEL = k := by rw [hs']
    have hbj : DBackjump cfg s rc s' rc' := by
      refine ⟨⟨id, hid, hcid, c, p, hl, hadd'⟩, ?_, by rw [hLk]; exact htr', hcf', ?_, ?_, ?_, ?_, ?_, ?_, ?_, ?_⟩
      · rw [hLk]; have : b < s.LEVEL := hb.lt; exact ⟨hk0, by omega⟩
      · rw [hs', e3]; rfl
      · rw [hs', e3]; rfl
      · rw [hs', e3]; rfl
      · rw [hs', e3]; rfl
      · rw [hs', e3]; rfl
      · have : s'.nRestarts = nr := by rw [hs']
        rw [this, hLk]; exact hres
      · intro pos hg hp
        have : s'.score = sc := by rw [hs', e3]; rfl
        rw [this]; exact hpos pos hg hp
      · refine ⟨id, c, p, sc, r, b, hid, hcid, hl, hb, hbe.symm, hrec, by rw [hLk]; exact hkb, ?_⟩
        rw [hae, hne, hLk]
        have hnr : s'.nRestarts = nr := by rw [hs']
        rw [hnr, he3]; exact hs'
    refine ⟨⟨goodAfter G s c, ?_, ?_, ?_, ?_⟩, hbj⟩
    · refine m1.congr ?_ ?_ ?_ ?_ ?_ ?_ ?_ hcf' ?_ <;> rw [hs'] <;> rfl
    · refine h.linv.learn hadd' ?_ ?_ ?_ (hbj.ub.trans h.linv.ub)
      · intro a hm
        exact hl.entails a hm (hm.2 id hid)
      · rw [htr', Trail.asgAt_level, Trail.asgAt_undo hk0]
      · rw [htr']; exact h.linv.reasons.undo h.inv.base
    · intro pos hg; exact hbj.scores pos hg (h.scores pos hg)
    · refine h.rinv.conf hbj.back hbj.flow ?_
      rcases hbj.restart with ⟨r1, r2, r3, _⟩ | hr
      · exact Or.inl ⟨r1, r2, r3⟩
      · exact Or.inr hr
  have hU : ∀ k, 0 ≤ k → k ≤ b → FrameU (dstored s c a nh sc r b) (undoTheory cfg (dstored s c a nh sc r b) k) :=
    fun k hk0 hkb => (h.inv.backjump cfg hplace hl.fals hl.potent hb hk0 hkb (sc := sc) hrec).2.2.2
  have hcast : ((s1.nBacktracks + 1 : Nat) : Int) = (s.nBacktracks : Int) + 1 := by rw [hnb]; rfl
  have hcast' : (((dstored s c a nh sc r b).nBacktracks : Nat) : Int) = (s.nBacktracks : Int) + 1 := rfl
  have hnn := hb.nonneg
  by_cases hrc : (s.nBacktracks : Int) + 1 = rc
  · rw [if_pos (by rw [← hrc]; exact hcast), hst2]
    obtain ⟨hp, cn, g, lv, rs, vv, ds, e3⟩ := hU 0 (Int.le_refl _) hnn
    refine Res.safe_ok (main 0 _ (s.nRestarts + 1) (Int.le_refl _) hnn ?_ _ (Or.inl ⟨hrc, rfl, ?_, rfl⟩))
    · rw [e3]
      show ({ dstored s c a nh sc r b with heap := hp, cnt := cn, asg := g, lvl := lv, rsn := rs, vval := vv, decs := ds, nRestarts := s.nRestarts + 1, units := (if b = 0 then [s.ncl] else []), LEVEL := 0 } : St S) = _
      by_cases hb0 : b = 0
      · rw [if_pos hb0, if_pos hb0.symm]
      · rw [if_neg hb0, if_neg (Ne.symm hb0)]
    · rw [e3]; show (((dstored s c a nh sc r b).nBacktracks : Nat) : Int) + _ = _; rw [hcast']
  · rw [if_neg (by rw [hcast]; exact hrc), hst2]
    obtain ⟨hp, cn, g, lv, rs, vv, ds, e3⟩ := hU b hnn (Int.le_refl _)
    refine Res.safe_ok (main b _ s.nRestarts hnn (Int.le_refl _) ?_ _ (Or.inr ⟨hrc, rfl, rfl⟩))
    show ({ undoTheory cfg (dstored s c a nh sc r b) b with units := [(undoTheory cfg (dstored s c a nh sc r b) b).ncl - 1] } : St S) = _
    rw [e3, if_pos rfl]; rfl

/-! ### Reachable states and the loop -/

theorem Read.dninv {cfg : Cfg S} {P : Problem} {s : St S} (h : Read cfg P.doms P.clauses s) (hw : cfg.watch = false)
    (hwf : P.Proper) : DNInv cfg P (fun _ => True) s cfg.restarts := by
  refine ⟨(h.cinv hw hwf).toD, ⟨h.nv, h.dom, ?_, ?_, ?_, ?_, ?_⟩, h.pos, ?_⟩
  · intro i c hc
    have hlt : i < P.clauses.length := by
      rcases Nat.lt_or_ge i P.clauses.length with h' | h'
      · exact h'
      · rw [List.getElem?_eq_none h'] at hc; simp at hc
    exact ⟨by rw [h.ncl]; exact hlt, trivial, by rw [h.cl hc, mkCls_lits]⟩
  · intro a ha; exact (h.model a).2 ha
  · intro a _ v d
    have hu : s.tr.asgAt 0 v d = .un := by
      unfold Trail.asgAt
      have : s.tr.asg v d = .un := by show s.asg v d = .un; rw [h.asg]
      rw [this]; split <;> rfl
    rw [hu]; simp
  · intro v d hn
    have : s.tr.asg v d = .un := by show s.asg v d = .un; rw [h.asg]
    exact absurd this hn
  · obtain ⟨_, _, _, _, _, _, _, e⟩ := h.frame; rw [e]; rfl
  · have e1 : s.nRestarts = 0 := by obtain ⟨_, _, _, _, _, _, _, e⟩ := h.frame; rw [e]; rfl
    have e2 : s.nBacktracks = 0 := by obtain ⟨_, _, _, _, _, _, _, e⟩ := h.frame; rw [e]; rfl
    have e3 : s.flowOff = 0 := by obtain ⟨_, _, _, _, _, _, _, e⟩ := h.frame; rw [e]; rfl
    refine ⟨?_, ?_, by rw [e2, e3]⟩
    · intro hp
      rw [e1, e2]
      refine ⟨by simp, by simp, by simpa using hp⟩
    · intro hz; exact ⟨e1, hz⟩

/-- The invariant holds in every reachable state, also on files that repeat literals. -/
theorem NReach.dninv {cfg : Cfg S} {P : Problem} (hw : cfg.watch = false) (hs : cfg.ScoreOK)
    (hwf : P.Proper) {s : St S} {rc : Int} (h : NReach cfg P s rc) : ∃ G, DNInv cfg P G s rc := by
  induction h with
  | start hb =>
    obtain ⟨s0, h1, h2⟩ := build_read cfg hwf.lits_ok (fun h => by rw [hw] at h; simp at h)
    rw [h1] at hb; cases hb; exact ⟨_, h2.dninv hw hwf⟩
  | tick _ ih => obtain ⟨G, ih⟩ := ih; exact ⟨G, ih.tick⟩
  | prop _ hc hu ih => obtain ⟨G, ih⟩ := ih; exact ⟨G, ih.prop hc hu⟩
  | conf _ hc hL he ih =>
    obtain ⟨G, ih⟩ := ih
    exact (ih.conf hw hc hL _ _ he).1
  | dec _ hc hu hd ih => obtain ⟨G, ih⟩ := ih; exact ⟨G, (ih.dec hw hs hc hu hd).1⟩

theorem unitProp_reach_D {cfg : Cfg S} {P : Problem} (hw : cfg.watch = false) (hs : cfg.ScoreOK)
    (hwf : P.Proper) : ∀ (f : Nat) (s : St S) (rc : Int), NReach cfg P s rc →
    (unitProp cfg f s).Sat fun s' => NReach cfg P s' rc
  | 0, _, _, _ => trivial
  | f + 1, s, rc, h => by
    cases hc : s.conflict with
    | true =>
      unfold unitProp
      rw [if_pos hc]; exact h
    | false =>
      by_cases hu : s.units = []
      · unfold unitProp
        rw [if_neg (by simp [hc]), hu]; exact h
      · obtain ⟨G, hn⟩ := h.dninv hw hs hwf
        rw [unitProp_succ_D cfg f hn.inv hc hu]
        exact unitProp_reach_D hw hs hwf f _ rc (h.prop hc hu)

/-- `learnLoop_spec` for results that were returned, with weaker requirements. -/
theorem learnLoop_safe {cfg : Cfg S} {I : St S → Int → Prop}
    (tick : ∀ s rc, I s rc → I (tick s) rc)
    (conf : ∀ f s rc, I s rc → s.conflict = true → s.LEVEL ≠ 0 →
      (confIf cfg f s rc).Safe fun p => I p.1 p.2 ∧ p.1.conflict = false)
    (prop : ∀ f s rc, I s rc → s.conflict = false →
      (propIfL cfg f s).Safe fun s' => I s' rc ∧ (s'.conflict = true ∨ s'.units = []))
    (dec : ∀ s rc s', I s rc → s.conflict = false → s.units = [] → decideNC cfg s = some s' → I s' rc) :
    ∀ (f : Nat) (s : St S) (rc : Int), I s rc → (learnLoop cfg f s rc).Safe (LPost cfg I)
  | 0, _, _, _ => Res.safe_fuel
  | f + 1, s, rc, hi => by
    rw [learnLoop_succ]
    by_cases h0 : s.ub = true
    · rw [if_pos h0]; exact Res.safe_ub
    rw [if_neg h0]
    by_cases h1 : cfg.late s.ticks = true
    · rw [if_pos h1]; exact Res.safe_ok (.timeout s rc hi h1)
    rw [if_neg h1]
    by_cases h2 : s.conflict = true ∧ s.LEVEL = 0
    · rw [if_pos h2]; exact Res.safe_ok (.unsat s rc hi h2.1 h2.2)
    rw [if_neg h2]
    have hconf : (confIf cfg f (Mvl.tick s) rc).Safe fun p => I p.1 p.2 ∧ p.1.conflict = false := by
      by_cases hc : s.conflict = true
      · exact conf f _ _ (tick s rc hi) hc (fun hl => h2 ⟨hc, hl⟩)
      · unfold confIf
        rw [if_neg (show ¬ (Mvl.tick s).conflict = true from hc)]
        exact Res.safe_ok ⟨tick s rc hi, Bool.eq_false_iff.2 hc⟩
    refine Res.Safe.bind hconf ?_
    rintro ⟨s1, rc1⟩ ⟨hi1, hc1⟩
    refine Res.Safe.bind (prop f s1 rc1 hi1 hc1) ?_
    rintro s2 ⟨hi2, hd2⟩
    unfold learnAfter
    by_cases hub : s2.ub = true
    · rw [if_pos hub]; exact Res.safe_ub
    rw [if_neg hub]
    by_cases hc2 : s2.conflict = true
    · rw [if_pos hc2]; exact learnLoop_safe tick conf prop dec f s2 rc1 hi2
    rw [if_neg hc2]
    have hc2' : s2.conflict = false := by simpa using hc2
    have hu2 : s2.units = [] := by
      rcases hd2 with h' | h'
      · exact absurd h' hc2
      · exact h'
    cases hdec : decideNC cfg s2 with
    | none => exact Res.safe_ok (.sat s2 rc1 hi2 hc2' hu2 hdec)
    | some s3 => exact learnLoop_safe tick conf prop dec f s3 rc1 (dec s2 rc1 s3 hi2 hc2' hu2 hdec)

/-- What a clause-learning run that returns gives, repeated literals allowed. -/
theorem run_learn_safe {cfg : Cfg S} (hw : cfg.watch = false) (hs : cfg.ScoreOK) {P : Problem} (hwf : P.Proper)
    (fuel : Nat) : (run cfg .learn fuel P).Safe (LPost cfg (NReach cfg P)) := by
  obtain ⟨s0, h1, _⟩ := build_read (P := P) cfg hwf.lits_ok (fun h => by rw [hw] at h; simp at h)
  have : run cfg .learn fuel P = learnLoop cfg fuel s0 cfg.restarts := by unfold run; rw [h1]; rfl
  rw [this]
  refine learnLoop_safe (fun s rc h => h.tick) ?_ ?_ (fun s rc s' h hc hu hd => h.dec hc hu hd) fuel s0 _ (.start h1)
  · intro f s rc h hc hL
    unfold confIf
    rw [if_pos hc, if_neg (by rw [hw]; simp)]
    intro p hp
    obtain ⟨G, hn⟩ := h.dninv hw hs hwf
    exact ⟨h.conf hc hL hp, (hn.conf hw hc hL f p hp).2.conflict⟩
  · intro f s rc h hc
    unfold propIfL
    by_cases hu : s.units = []
    · rw [if_pos hu]; exact Res.safe_ok ⟨h, Or.inr hu⟩
    · rw [if_neg hu, if_neg (by rw [hw]; simp)]
      intro s' hs'
      obtain ⟨G, hn⟩ := h.dninv hw hs hwf
      have h1 := unitProp_reach_D hw hs hwf f s rc h
      have h2 := unitProp_D cfg f hn.inv
      rw [hs'] at h1 h2
      exact ⟨h1, h2.done⟩

end Mvl
