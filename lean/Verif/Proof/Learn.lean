import Verif.Proof.Analyze
import Verif.Proof.Build

/-!
# Storing the learned clause, the level to go back to, and the measure for termination
-/

namespace Mvl

variable {S : Type}

/-! ### learnClause -/

theorem learnLits (cfg : Cfg S) (cid : Nat) : ∀ (ls : List Lit) (s : St S),
    ∃ sc r, ls.foldl (learnLit cfg cid) s = { s with score := sc, recs := r } ∧
      (cfg.watch = false → ∀ l, r l = s.recs l ++ List.replicate (ls.count l) cid) ∧
      (∀ pos, cfg.arith.Good pos → (∀ l, pos (s.score l)) → ∀ l, pos (sc l))
  | [], s => ⟨s.score, s.recs, rfl, by simp, fun _ _ h => h⟩
  | x :: xs, s => by
    rw [List.foldl_cons]
    have h1 : ∃ sc r, learnLit cfg cid s x = { s with score := sc, recs := r } ∧
        (cfg.watch = false → r = upd s.recs x (s.recs x ++ [cid])) ∧
        (∀ pos, cfg.arith.Good pos → (∀ l, pos (s.score l)) → ∀ l, pos (sc l)) := by
      unfold learnLit
      dsimp only
      split
      · rename_i hw
        obtain ⟨sc, he⟩ := bump_frame cfg s x
        refine ⟨sc, s.recs, he, by rw [hw]; simp, ?_⟩
        intro pos hg hp
        have := bump_pos cfg hg s x hp
        rw [he] at this; exact this
      · obtain ⟨sc, he⟩ := bump_frame cfg { s with recs := upd s.recs x (s.recs x ++ [cid]) } x
        refine ⟨sc, upd s.recs x (s.recs x ++ [cid]), he, fun _ => rfl, ?_⟩
        intro pos hg hp
        have := bump_pos cfg hg { s with recs := upd s.recs x (s.recs x ++ [cid]) } x hp
        rw [he] at this; exact this
    obtain ⟨sc, r, he, hr, hp⟩ := h1
    rw [he]
    obtain ⟨sc', r', he', hr', hp'⟩ := learnLits cfg cid xs { s with score := sc, recs := r }
    refine ⟨sc', r', he', ?_, fun pos hg h => hp' pos hg (hp pos hg h)⟩
    intro hw l
    rw [hr' hw l]
    show r l ++ _ = _
    rw [hr hw]
    by_cases hl : l = x
    · subst hl
      rw [upd_same, List.count_cons_self, List.append_assoc, Nat.add_comm, ← List.replicate_append_replicate]
      rfl
    · rw [upd_of_ne _ _ hl, List.count_cons_of_ne (fun h => hl h.symm)]

theorem halve_frame (cfg : Cfg S) (s : St S) : ∃ sc, halveScores cfg s = { s with score := sc } ∧
    (∀ pos, cfg.arith.Good pos → (∀ l, pos (s.score l)) → ∀ l, pos (sc l)) := by
  unfold halveScores
  split
  · refine ⟨_, rfl, ?_⟩
    intro pos hg h l
    split
    · exact hg.2.2.1 _ (h l)
    · exact h l
  · refine ⟨_, rfl, ?_⟩
    intro pos hg h l
    split
    · exact hg.2.2.1 _ (h l)
    · exact h l
  · exact ⟨_, rfl, fun _ _ h => h⟩

/-- Counter mode: what `learnClause` does with a fresh clause. -/
theorem learn_counter (cfg : Cfg S) (hw : cfg.watch = false) (s : St S) (c : Cls) :
    ∃ sc r, learnClause cfg s c none =
      { s with
          heap := upd s.heap s.nheap { c with numUn := 0 }, nheap := s.nheap + 1, ptr := upd s.ptr s.ncl s.nheap,
          ncl := s.ncl + 1, score := sc, recs := r, flowOff := s.flowOff + 1 } ∧
      (∀ l, r l = s.recs l ++ List.replicate (c.lits.count l) s.ncl) ∧
      (∀ pos, cfg.arith.Good pos → (∀ l, pos (s.score l)) → ∀ l, pos (sc l)) := by
  unfold learnClause
  dsimp only
  rw [if_neg (by rw [hw]; simp)]
  obtain ⟨sc, r, he, hr, hp⟩ := learnLits cfg s.ncl c.lits
    { s with
        heap := upd s.heap s.nheap { c with numUn := 0 }, nheap := s.nheap + 1, ptr := upd s.ptr s.ncl s.nheap,
        ncl := s.ncl + 1 }
  rw [he]
  obtain ⟨sc', he', hp'⟩ := halve_frame cfg
    { s with
        heap := upd s.heap s.nheap { c with numUn := 0 }, nheap := s.nheap + 1, ptr := upd s.ptr s.ncl s.nheap,
        ncl := s.ncl + 1, score := sc, recs := r }
  refine ⟨sc', r, ?_, hr hw, fun pos hg h => hp' pos hg (hp pos hg h)⟩
  rw [he']

/-- Watched mode: what `learnClause` does with a fresh clause whose watches are set. -/
theorem learn_watch (cfg : Cfg S) (hw : cfg.watch = true) (s : St S) (c : Cls) {w0 : Lit} (h0 : c.w0 = some w0)
    (h1 : 1 < c.lits.length → ∃ w1, c.w1 = some w1) :
    ∃ sc r w, learnClause cfg s c none =
      { s with
          heap := upd s.heap s.nheap { c with numUn := 0 }, nheap := s.nheap + 1, ptr := upd s.ptr s.ncl s.nheap,
          ncl := s.ncl + 1, score := sc, recs := r, flowOff := s.flowOff + 1, wlist := w } ∧
      (∀ l id, (w l).count id = (s.wlist l).count id + (if id = s.ncl ∧ l = w0 then 1 else 0) +
        (if id = s.ncl ∧ 1 < c.lits.length ∧ c.w1 = some l then 1 else 0)) ∧
      (∀ pos, cfg.arith.Good pos → (∀ l, pos (s.score l)) → ∀ l, pos (sc l)) := by
  have hcnt : ∀ (w : Lit → List Nat) (x l : Lit) (id : Nat), ((upd w x (s.ncl :: w x)) l).count id =
      (w l).count id + (if id = s.ncl ∧ l = x then 1 else 0) := by
    intro w x l id
    by_cases hl : l = x
    · subst hl
      rw [upd_same, List.count_cons]
      by_cases hi : id = s.ncl
      · subst hi; simp
      · simp [hi, Ne.symm hi]
    · rw [upd_of_ne _ _ hl]; simp [hl]
  have hsp : ∀ (w : Lit → List Nat),
      ∃ sc r,
        (let s4 := halveScores cfg (c.lits.foldl (learnLit cfg s.ncl)
          { s with
              heap := upd s.heap s.nheap { c with numUn := 0 }, nheap := s.nheap + 1, ptr := upd s.ptr s.ncl s.nheap,
              ncl := s.ncl + 1, wlist := w })
        ({ s4 with flowOff := s4.flowOff + 1 } : St S)) =
        { s with
            heap := upd s.heap s.nheap { c with numUn := 0 }, nheap := s.nheap + 1, ptr := upd s.ptr s.ncl s.nheap,
            ncl := s.ncl + 1, score := sc, recs := r, flowOff := s.flowOff + 1, wlist := w } ∧
        (∀ pos, cfg.arith.Good pos → (∀ l, pos (s.score l)) → ∀ l, pos (sc l)) := by
    intro w
    obtain ⟨sc, r, he, hr, hp⟩ := learnLits cfg s.ncl c.lits
      { s with
          heap := upd s.heap s.nheap { c with numUn := 0 }, nheap := s.nheap + 1, ptr := upd s.ptr s.ncl s.nheap,
          ncl := s.ncl + 1, wlist := w }
    rw [he]
    obtain ⟨sc', he', hp'⟩ := halve_frame cfg
      { s with
          heap := upd s.heap s.nheap { c with numUn := 0 }, nheap := s.nheap + 1, ptr := upd s.ptr s.ncl s.nheap,
          ncl := s.ncl + 1, score := sc, recs := r, wlist := w }
    refine ⟨sc', r, ?_, fun pos hg h => hp' pos hg (hp pos hg h)⟩
    rw [he']
  obtain ⟨lits, numUn, level, cw0, cw1⟩ := c
  simp only at h0 h1 hsp
  subst h0
  unfold learnClause
  dsimp only
  rw [if_pos hw]
  by_cases hl : 1 < lits.length
  · obtain ⟨w1, hw1⟩ := h1 hl
    subst hw1
    rw [if_pos hl]
    obtain ⟨sc, r, he, hp⟩ := hsp (upd (upd s.wlist w0 (s.ncl :: s.wlist w0)) w1
      (s.ncl :: upd s.wlist w0 (s.ncl :: s.wlist w0) w1))
    refine ⟨sc, r, _, he, ?_, hp⟩
    intro l id
    rw [hcnt, hcnt]
    by_cases hl1 : l = w1
    · subst hl1; simp [hl]
    · have : ¬ some w1 = some l := by simp [Ne.symm hl1]
      simp [hl1, this]
  · rw [if_neg hl]
    obtain ⟨sc, r, he, hp⟩ := hsp (upd s.wlist w0 (s.ncl :: s.wlist w0))
    refine ⟨sc, r, _, he, ?_, hp⟩
    intro l id
    rw [hcnt]
    simp [hl]

/-! ### backtrackLevel -/

theorem btFold (s : St S) : ∀ (c : List Lit) (m : Int),
    let r := c.foldl (fun m l =>
      if s.LEVEL > s.lvl l.var l.val ∧ m < s.lvl l.var l.val then s.lvl l.var l.val else m) m
    m ≤ r ∧ (∀ x ∈ c, s.lvl x.var x.val < s.LEVEL → s.lvl x.var x.val ≤ r) ∧
      (r = m ∨ ∃ x ∈ c, s.lvl x.var x.val = r ∧ r < s.LEVEL)
  | [], m => by simp
  | y :: c, m => by
    dsimp only
    rw [List.foldl_cons]
    have ih := btFold s c (if s.LEVEL > s.lvl y.var y.val ∧ m < s.lvl y.var y.val then s.lvl y.var y.val else m)
    dsimp only at ih
    generalize List.foldl (fun m l =>
      if s.LEVEL > s.lvl l.var l.val ∧ m < s.lvl l.var l.val then s.lvl l.var l.val else m)
      (if s.LEVEL > s.lvl y.var y.val ∧ m < s.lvl y.var y.val then s.lvl y.var y.val else m) c = r at ih
    obtain ⟨h1, h2, h3⟩ := ih
    by_cases hy : s.LEVEL > s.lvl y.var y.val ∧ m < s.lvl y.var y.val
    · rw [if_pos hy] at h1 h3
      refine ⟨by omega, ?_, ?_⟩
      · intro x hx hlt
        rcases List.mem_cons.1 hx with rfl | hx
        · exact h1
        · exact h2 x hx hlt
      · rcases h3 with h3 | ⟨x, hx, h3⟩
        · right; exact ⟨y, by simp, h3.symm, by omega⟩
        · right; exact ⟨x, by simp [hx], h3⟩
    · rw [if_neg hy] at h1 h3
      refine ⟨h1, ?_, ?_⟩
      · intro x hx hlt
        rcases List.mem_cons.1 hx with rfl | hx
        · omega
        · exact h2 x hx hlt
      · rcases h3 with h3 | ⟨x, hx, h3⟩
        · exact Or.inl h3
        · right; exact ⟨x, by simp [hx], h3⟩

/-- The level `backtrackLevel` picks for a false clause. -/
structure BackLevel (t : Trail) (c : List Lit) (b : Int) : Prop where
  nonneg : 0 ≤ b
  lt : b < t.LEVEL
  le : ∀ x ∈ c, t.lvl x.var x.val < t.LEVEL → t.lvl x.var x.val ≤ b
  hit : 0 < b → ∃ x ∈ c, t.lvl x.var x.val = b

theorem backtrackLevel_spec (s : St S) (hL : 1 ≤ s.LEVEL) {c : List Lit}
    (hc : ∀ x ∈ c, 0 ≤ s.lvl x.var x.val) : BackLevel s.tr c (backtrackLevel s c) := by
  unfold backtrackLevel
  have h := btFold s c (-1)
  dsimp only at h ⊢
  generalize List.foldl (fun m l =>
      if s.LEVEL > s.lvl l.var l.val ∧ m < s.lvl l.var l.val then s.lvl l.var l.val else m) (-1) c = r at h ⊢
  obtain ⟨h1, h2, h3⟩ := h
  have hTL : s.tr.LEVEL = s.LEVEL := rfl
  have hTl : ∀ v d, s.tr.lvl v d = s.lvl v d := fun _ _ => rfl
  by_cases hr : r = -1
  · rw [if_neg (by simpa using hr)]
    refine ⟨Int.le_refl _, by omega, ?_, by omega⟩
    intro x hx hlt
    have := h2 x hx hlt
    rw [hTl]; omega
  · rw [if_pos hr]
    rcases h3 with h3 | ⟨x, hx, h3, h4⟩
    · exact absurd h3 hr
    · refine ⟨by omega, by omega, h2, fun _ => ⟨x, hx, h3⟩⟩

/-! ### A new clause that is false with exactly one literal at the current level -/

theorem countP_two {α : Type} [DecidableEq α] {p : α → Bool} : ∀ {c : List α}, c.Nodup → 2 ≤ c.countP p →
    ∃ x ∈ c, ∃ y ∈ c, x ≠ y ∧ p x = true ∧ p y = true
  | [], _, h => by simp at h
  | x :: c, hn, h => by
    rw [List.countP_cons] at h
    have hn' := List.nodup_cons.1 hn
    by_cases hp : p x = true
    · rw [if_pos hp] at h
      obtain ⟨y, hy, hpy⟩ := List.countP_pos_iff.1 (by omega : 0 < c.countP p)
      exact ⟨x, by simp, y, by simp [hy], by rintro rfl; exact hn'.1 hy, hp, hpy⟩
    · rw [if_neg hp] at h
      obtain ⟨a, ha, b, hb, h1⟩ := countP_two hn'.2 (by omega : 2 ≤ c.countP p)
      exact ⟨a, by simp [ha], b, by simp [hb], h1⟩

theorem countP_two_of {α : Type} [DecidableEq α] {p : α → Bool} {c : List α} {x y : α} (hx : x ∈ c) (hy : y ∈ c)
    (hne : x ≠ y) (hpx : p x = true) (hpy : p y = true) : 2 ≤ c.countP p := by
  have hperm := List.perm_cons_erase hx
  rw [hperm.countP_eq, List.countP_cons, if_pos hpx]
  have : y ∈ c.erase x := (List.mem_erase_of_ne (Ne.symm hne)).2 hy
  have : 0 < (c.erase x).countP p := List.countP_pos_iff.2 ⟨y, this, hpy⟩
  omega

theorem openCount_two_of {g : PA} {c : List Lit} {x y : Lit} (hx : x ∈ c) (hy : y ∈ c) (hne : x ≠ y)
    (h1 : LU g x) (h2 : LU g y) : 2 ≤ openCount g c :=
  countP_two_of hx hy hne (by simpa using h1) (by simpa using h2)

theorem openCount_one_of {g : PA} {c : List Lit} {x : Lit} (hn : c.Nodup) (hx : x ∈ c)
    (h1 : LU g x) (h2 : ∀ y ∈ c, y ≠ x → ¬ LU g y) : openCount g c = 1 := by
  unfold openCount
  have hperm := List.perm_cons_erase hx
  rw [hperm.countP_eq, List.countP_cons, if_pos (by simpa using h1)]
  have : (c.erase x).countP (fun l => decide (LU g l)) = 0 := by
    rw [List.countP_eq_zero]
    intro y hy
    have hyx : y ≠ x := by
      rintro rfl
      exact (List.Nodup.not_mem_erase hn) hy
    simpa using h2 y (List.mem_of_mem_erase hy) hyx
  omega

theorem LU_asgAt {t : Trail} {k : Int} {x : Lit} (h : k < t.lvl x.var x.val) : LU (t.asgAt k) x := by
  unfold LU Trail.asgAt; rw [if_pos h]

theorem not_LU_asgAt {t : Trail} {k : Int} {x : Lit} (hn : t.asg x.var x.val ≠ .un) (h : t.lvl x.var x.val ≤ k) :
    ¬ LU (t.asgAt k) x := by
  unfold LU; rw [Trail.asgAt_eq_of_le h]; exact hn

theorem lvl_of_LU_asgAt {t : Trail} (hb : t.Base) {k : Int} (hk : k = t.LEVEL - 1) {x : Lit} (hx : LF t.asg x)
    (h : LU (t.asgAt k) x) : t.lvl x.var x.val = t.LEVEL := by
  have h1 := hb.lvlL _ _ (LF_ne_un hx)
  have h2 : ¬ t.lvl x.var x.val ≤ k := fun h' => not_LU_asgAt (LF_ne_un hx) h' h
  omega

theorem LT_of_asgAt {t : Trail} {k : Int} {x : Lit} (h : LT (t.asgAt k) x) : LT t.asg x := by
  unfold LT at *
  rw [← h, (Trail.asgAt_ne_un (by rw [h]; simp)).2.2]

/-- In a false clause two literals of the current level can be found, when its predecessors left two
open. -/
theorem two_at_level {t : Trail} (hb : t.Base) {c : List Lit} (hn : c.Nodup) (hf : ∀ x ∈ c, LF t.asg x)
    (h2 : TwoOrSat (t.asgAt (t.LEVEL - 1)) c) :
    ∃ x ∈ c, ∃ y ∈ c, x ≠ y ∧ t.lvl x.var x.val = t.LEVEL ∧ t.lvl y.var y.val = t.LEVEL := by
  rcases h2 with ⟨x, hx, ht⟩ | h2
  · exact absurd (LT_of_asgAt ht) (hf x hx).not_LT
  · obtain ⟨x, hx, y, hy, hne, h3, h4⟩ := countP_two hn h2
    exact ⟨x, hx, y, hy, hne, lvl_of_LU_asgAt hb rfl (hf x hx) (by simpa using h3),
      lvl_of_LU_asgAt hb rfl (hf y hy) (by simpa using h4)⟩

theorem confl_of_two {t : Trail} (hb : t.Base) {c : List Lit} (hn : c.Nodup) (hf : ∀ x ∈ c, LF t.asg x)
    (h2 : TwoOrSat (t.asgAt (t.LEVEL - 1)) c) : Confl t c ∧ ¬ UniqueAt t c := by
  obtain ⟨x, hx, y, hy, hne, h3, h4⟩ := two_at_level hb hn hf h2
  refine ⟨⟨hf, hn, x, hx, h3⟩, ?_⟩
  rintro ⟨z, hz, _, hu⟩
  by_cases hxz : x = z
  · subst hxz
    exact hu y hy (Ne.symm hne) h4
  · exact hu x hx hxz h3

/-- How the learned clause looks at the levels up to the one gone back to. -/
theorem learned_levels {t : Trail} (hbs : t.Base) {c : List Lit} (hc : Confl t c) (hu : UniqueAt t c) {b : Int}
    (hb : BackLevel t c b) :
    (∀ j, 0 ≤ j → j < b → TwoOrSat (t.asgAt j) c) ∧ openCount (t.asgAt b) c = 1 := by
  obtain ⟨x, hx, hxl, hy⟩ := hu
  constructor
  · intro j hj0 hj
    obtain ⟨y, hyc, hyl⟩ := hb.hit (by omega)
    right
    refine openCount_two_of hx hyc ?_ (LU_asgAt ?_) (LU_asgAt ?_)
    · rintro rfl
      have := hb.lt; omega
    · have := hb.lt; omega
    · omega
  · apply openCount_one_of hc.nodup hx (LU_asgAt (by have := hb.lt; omega))
    intro y hyc hyx
    apply not_LU_asgAt (LF_ne_un (hc.fals y hyc))
    apply hb.le y hyc
    have h1 := hbs.lvlL _ _ (LF_ne_un (hc.fals y hyc))
    have h2 := hy y hyc hyx
    omega

end Mvl
