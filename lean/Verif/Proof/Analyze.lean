import Verif.Proof.Reason

/-!
# Conflict analysis: one resolution step and its termination
-/

namespace Mvl

variable {S : Type}

theorem Lit.ext' {x y : Lit} (h1 : x.var = y.var) (h2 : x.val = y.val) (h3 : x.eq = y.eq) : x = y := by
  cases x; cases y; simp_all

/-- The stack entry that made a literal false. -/
theorem lf_idx {t : Trail} (hb : t.Base) {x : Lit} (hx : LF t.asg x) :
    ∃ (i : Nat) (L : Lit), t.idx x.var x.val = i ∧ t.decs[i]? = some L ∧ t.lvl L.var L.val = t.lvl x.var x.val ∧
      (x = L.neg ∨ (L.eq = true ∧ x.eq = true ∧ x.var = L.var ∧ x.val ≠ L.val)) := by
  obtain ⟨i, L, h1, h2, h3, h4, h5⟩ := hb.d1 _ _ (LF_ne_un hx)
  refine ⟨i, L, h1, h2, by rw [h3]; exact h4, ?_⟩
  unfold LF at hx
  rcases h5 with ⟨h5, h6⟩ | ⟨h5, h6, h7⟩
  · left
    rw [h6, ofSign_inj] at hx
    refine Lit.ext' (y := L.neg) h3.symm h5.symm ?_
    show x.eq = !L.eq
    rw [hx]; simp
  · right
    refine ⟨h5, ?_, h3.symm, fun h => h6 h.symm⟩
    rw [h7] at hx
    cases hxe : x.eq
    · rw [hxe] at hx; simp at hx
    · rfl

theorem falsifies_of_idx {x L : Lit}
    (h : x = L.neg ∨ (L.eq = true ∧ x.eq = true ∧ x.var = L.var ∧ x.val ≠ L.val)) : falsifies x L = true := by
  rw [falsifies_iff]
  rcases h with rfl | ⟨h1, h2, h3, h4⟩
  · exact ⟨rfl, Or.inl ⟨rfl, by simp [Lit.neg]⟩⟩
  · exact ⟨h3, Or.inr ⟨h4, h2, h1⟩⟩

/-- Only `l` itself falsifies the negation of a positive literal. -/
theorem falsifies_neg_pos {x l : Lit} (hl : l.eq = true) : falsifies x l.neg = true ↔ x = l := by
  rw [falsifies_iff]
  constructor
  · rintro ⟨h1, ⟨h2, h3⟩ | ⟨_, _, h4⟩⟩
    · refine Lit.ext' (y := l) h1 h2 ?_
      simp [Lit.neg, hl] at h3
      rw [h3, hl]
    · simp [Lit.neg, hl] at h4
  · rintro rfl
    exact ⟨rfl, Or.inl ⟨rfl, by simp [Lit.neg]⟩⟩

/-- Only the negation of `l` falsifies a negative literal `l`. -/
theorem falsifies_negative {x l : Lit} (hl : l.eq = false) : falsifies x l = true ↔ x = l.neg := by
  rw [falsifies_iff]
  constructor
  · rintro ⟨h1, ⟨h2, h3⟩ | ⟨_, _, h4⟩⟩
    · refine Lit.ext' (y := l.neg) h1 h2 ?_
      simp [Lit.neg, hl] at h3 ⊢
      exact h3
    · rw [hl] at h4; simp at h4
  · rintro rfl
    exact ⟨rfl, Or.inl ⟨rfl, by simp [Lit.neg]⟩⟩

/-- What a resolution step achieves. -/
structure StepOK (t : Trail) (c : List Lit) (m : Int) (r : List Lit) : Prop where
  confl : Confl t r
  bound : ∀ x ∈ r, t.idx x.var x.val ≤ m
  drop : weight t m r < weight t m c

theorem weight_pos {t : Trail} {m : Int} {c : List Lit} {x : Lit} (hx : x ∈ c) (hm : t.idx x.var x.val = m) :
    0 < weight t m c := by
  rw [weight_erase hx hm]
  split <;> omega

/-- A step whose resolvent has nothing left at the position of the resolved literal. -/
theorem StepOK.of_lt {t : Trail} {c reason : List Lit} {l : Lit} (hc : Confl t c) (hl : l ∈ c)
    (hmax : ∀ x ∈ c, t.idx x.var x.val ≤ t.idx l.var l.val)
    (h1 : ∀ x ∈ c, t.idx x.var x.val = t.idx l.var l.val → falsifies x l.neg = true)
    (h2 : ∀ x ∈ reason, ¬ falsifies x l = true → LF t.asg x ∧ t.idx x.var x.val < t.idx l.var l.val)
    (h3 : ∃ x ∈ resolve c l reason, t.lvl x.var x.val = t.LEVEL) :
    StepOK t c (t.idx l.var l.val) (resolve c l reason) := by
  have hlt : ∀ x ∈ resolve c l reason, t.idx x.var x.val < t.idx l.var l.val := by
    intro x hx
    rcases mem_resolve.1 hx with ⟨hx, hf⟩ | ⟨hx, hf⟩
    · have := hmax x hx
      have : t.idx x.var x.val ≠ t.idx l.var l.val := fun h => hf (h1 x hx h)
      omega
    · exact (h2 x hx hf).2
  refine ⟨⟨?_, resolve_nodup hc.nodup, h3⟩, ?_, ?_⟩
  · intro x hx
    rcases mem_resolve.1 hx with ⟨hx, hf⟩ | ⟨hx, hf⟩
    · exact hc.fals x hx
    · exact (h2 x hx hf).1
  · intro x hx
    have := hlt x hx; omega
  · rw [weight_zero (c := resolve c l reason) (fun x hx => by have := hlt x hx; omega)]
    exact weight_pos hl rfl

/-- The clause used as reason for a literal. -/
def ReasonFor (t : Trail) (cls : Nat → Option (List Lit)) (l : Lit) (r : List Lit) : Prop :=
  (t.rsn l.var l.val = -1 ∧ ∃ L, t.decs[(t.idx l.var l.val).toNat]? = some L ∧
      r = [⟨L.var, L.val, true⟩, ⟨L.var, L.val, false⟩]) ∨
  (t.rsn l.var l.val = -2 ∧ r = (List.range (t.dom l.var)).map fun i => (⟨l.var, i, true⟩ : Lit)) ∨
  (∃ id : Nat, t.rsn l.var l.val = id ∧ cls id = some r)

/-- Resolving the latest false literal with its reason makes progress, as long as another literal of
the current level is in the clause. -/
theorem resolve_step {t : Trail} {cls : Nat → Option (List Lit)} (hb : t.Base) (hrs : Reasons t cls)
    (hL : 1 ≤ t.LEVEL) {c : List Lit} (hc : Confl t c) {l : Lit} (hl : l ∈ c)
    (hmax : ∀ x ∈ c, t.idx x.var x.val ≤ t.idx l.var l.val)
    (hnp : ∃ y ∈ c, y ≠ l ∧ t.lvl y.var y.val = t.LEVEL) :
    ∃ r, ReasonFor t cls l r ∧ StepOK t c (t.idx l.var l.val) (resolve c l r) := by
  have hlf := hc.fals l hl
  have hun := LF_ne_un hlf
  obtain ⟨y, hyc, hyl, hylv⟩ := hnp
  have hyf := hc.fals y hyc
  have hlvl : t.lvl l.var l.val = t.LEVEL := by
    have h1 := Trail.lvl_le_of_idx hb (LF_ne_un hyf) hun (hmax y hyc)
    have h2 := hb.lvlL _ _ hun
    omega
  obtain ⟨i, L, hi, hLi, hLl, hLc⟩ := lf_idx hb hlf
  -- literals of `c` at the same position come from the same stack entry
  have hsame : ∀ x ∈ c, t.idx x.var x.val = t.idx l.var l.val →
      x = L.neg ∨ (L.eq = true ∧ x.eq = true ∧ x.var = L.var ∧ x.val ≠ L.val) := by
    intro x hx hxi
    obtain ⟨j, M, hj, hM, _, hMc⟩ := lf_idx hb (hc.fals x hx)
    have hij : j = i := by omega
    subst hij
    rw [hLi] at hM
    cases hM
    exact hMc
  have hLL := hb.d2 i L hLi
  have hLneg : LF t.asg L.neg := by
    have := hLL.1
    unfold LT at this; unfold LF Lit.neg
    simpa using this
  -- with `L = l.neg` everything at this position is dropped
  have hdropP : l = L.neg → ∀ x ∈ c, t.idx x.var x.val = t.idx l.var l.val → falsifies x l.neg = true := by
    rintro he x hx hxi
    rw [he, Lit.neg_neg]
    exact falsifies_of_idx (hsame x hx hxi)
  have htoNat : (t.idx l.var l.val).toNat = i := by omega
  rcases hrs l.var l.val hun (by omega) with ⟨h1, h2⟩ | ⟨h1, h2, h3, e, he1, he2, he3⟩ | ⟨id, c', M, h1, h2, h3, h4, h5, z, h6, h7, h8⟩
  · -- decision
    have hyi : t.idx y.var y.val = t.idx l.var l.val := by
      have := h2 y.var y.val (LF_ne_un hyf) (by omega)
      have := hmax y hyc
      omega
    have hys := hsame y hyc hyi
    refine ⟨[⟨L.var, L.val, true⟩, ⟨L.var, L.val, false⟩], Or.inl ⟨h1, L, by rw [htoNat]; exact hLi, rfl⟩, ?_⟩
    -- `L` is positive
    have hLe : L.eq = true := by
      rcases hLc with h | h
      · rcases hys with h' | h'
        · exact absurd (h'.trans h.symm) hyl
        · exact h'.1
      · exact h.1
    have hLneg' : L.neg = ⟨L.var, L.val, false⟩ := by
      refine Lit.ext' ?_ ?_ ?_ <;> (try rfl)
      simp [Lit.neg, hLe]
    have hLpos : (⟨L.var, L.val, true⟩ : Lit) = L := by
      refine Lit.ext' ?_ ?_ ?_ <;> (try rfl)
      exact hLe.symm
    rw [← hLneg', hLpos]
    -- the resolvent
    have hmem : ∀ x, x ∈ resolve c l [L, L.neg] → (x ∈ c ∧ ¬ falsifies x l.neg = true) ∨ x = L.neg := by
      intro x hx
      rcases mem_resolve.1 hx with h | ⟨h, hf⟩
      · exact Or.inl h
      · simp only [List.mem_cons, List.not_mem_nil, or_false] at h
        rcases h with rfl | rfl
        · exfalso
          apply hf
          rw [falsifies_iff]
          rcases hLc with h | ⟨_, h, h', h''⟩
          · rw [h]; exact ⟨rfl, Or.inl ⟨rfl, by simp [Lit.neg]⟩⟩
          · exact ⟨h'.symm, Or.inr ⟨fun h => h'' h.symm, hLe, h⟩⟩
        · exact Or.inr rfl
    have hnegmem : L.neg ∈ resolve c l [L, L.neg] := by
      apply mem_resolve.2
      right
      refine ⟨by simp, ?_⟩
      rw [falsifies_iff]
      rcases hLc with h | ⟨_, h, h', h''⟩
      · rw [h]; simp
      · rintro ⟨_, ⟨h5, _⟩ | ⟨_, h5, _⟩⟩
        · exact h'' h5.symm
        · simp [Lit.neg, hLe] at h5
    have hnegidx : t.idx L.neg.var L.neg.val = t.idx l.var l.val := by
      rw [hi]; exact hLL.2
    refine ⟨⟨?_, resolve_nodup hc.nodup, L.neg, hnegmem, ?_⟩, ?_, ?_⟩
    · intro x hx
      rcases hmem x hx with h | rfl
      · exact hc.fals x h.1
      · exact hLneg
    · show t.lvl L.var L.val = _
      rw [hLl]; exact hlvl
    · intro x hx
      rcases hmem x hx with h | rfl
      · exact hmax x h.1
      · omega
    · have hcl : weight t (t.idx l.var l.val) c = (if l.eq then 2 else 1) + weight t (t.idx l.var l.val) (c.erase l) :=
        weight_erase hl rfl
      have hrl : weight t (t.idx l.var l.val) (resolve c l [L, L.neg]) =
          1 + weight t (t.idx l.var l.val) ((resolve c l [L, L.neg]).erase L.neg) := by
        rw [weight_erase hnegmem hnegidx, if_neg (by simp [Lit.neg, hLe])]
      rcases hLc with h | ⟨_, h, h', h''⟩
      · -- `l` is the negated decision
        have hz : weight t (t.idx l.var l.val) ((resolve c l [L, L.neg]).erase L.neg) = 0 := by
          apply weight_zero
          intro x hx hxi
          have hx' := List.mem_of_mem_erase hx
          rcases hmem x hx' with ⟨hxc, hf⟩ | rfl
          · exact hf (hdropP h x hxc hxi)
          · have : (resolve c l [L, L.neg]).Nodup := resolve_nodup hc.nodup
            exact (List.Nodup.not_mem_erase this) hx
        have hy' : y ∈ c.erase l := (List.mem_erase_of_ne hyl).2 hyc
        have := weight_erase hy' hyi
        have := weight_pos hy' hyi
        have hle : l.eq = false := by rw [h]; simp [Lit.neg, hLe]
        rw [hle] at hcl
        simp only [Bool.false_eq_true, if_false] at hcl
        omega
      · rw [h, if_pos rfl] at hcl
        have := weight_le_of_subset (t := t) (m := t.idx l.var l.val)
          (c' := (resolve c l [L, L.neg]).erase L.neg) (c := c.erase l)
          ((resolve_nodup hc.nodup).erase _) (by
            intro x hx hxi
            have hx' := List.mem_of_mem_erase hx
            rcases hmem x hx' with ⟨hxc, hf⟩ | rfl
            · refine (List.mem_erase_of_ne ?_).2 hxc
              rintro rfl
              exact hf ((falsifies_neg_pos h).2 rfl)
            · have : (resolve c l [L, L.neg]).Nodup := resolve_nodup hc.nodup
              exact absurd hx (List.Nodup.not_mem_erase this))
        omega
  · -- entailed value
    have hle : l.eq = false := by
      unfold LF at hlf
      rw [h2] at hlf
      cases hx : l.eq
      · rfl
      · rw [hx] at hlf; simp at hlf
    have hLeq : l = L.neg := by
      rcases hLc with h | ⟨_, h, _⟩
      · exact h
      · rw [hle] at h; simp at h
    refine ⟨_, Or.inr (Or.inl ⟨h1, rfl⟩), StepOK.of_lt hc hl hmax (hdropP hLeq) ?_ ?_⟩
    · intro x hx hf
      rw [List.mem_map] at hx
      obtain ⟨k, hk, rfl⟩ := hx
      have hk := List.mem_range.1 hk
      have hkl : k ≠ l.val := by
        rintro rfl
        apply hf
        rw [falsifies_negative hle]
        refine Lit.ext' ?_ ?_ ?_ <;> (try rfl)
        simp [Lit.neg, hle]
      obtain ⟨q1, q2⟩ := h3 k hk hkl
      exact ⟨by unfold LF; simpa using q1, q2⟩
    · refine ⟨⟨l.var, e, true⟩, mem_resolve.2 (Or.inr ⟨List.mem_map.2 ⟨e, List.mem_range.2 he1, rfl⟩, ?_⟩), ?_⟩
      · rw [falsifies_negative hle]
        intro h
        exact he2 (congrArg Lit.val h)
      · show t.lvl l.var e = _
        omega
  · -- recorded clause
    have hML : M = L := by
      rw [htoNat, hLi] at h3; cases h3; rfl
    subst hML
    have hfM : falsifies M l = true := by
      rw [falsifies_iff]
      rcases hLc with h | ⟨ha, h, h', h''⟩
      · rw [h]; exact ⟨rfl, Or.inl ⟨rfl, by simp [Lit.neg]⟩⟩
      · exact ⟨h'.symm, Or.inr ⟨fun h => h'' h.symm, ha, h⟩⟩
    have hR : ∀ x ∈ c', ¬ falsifies x l = true → LF t.asg x ∧ t.idx x.var x.val < t.idx l.var l.val := by
      intro x hx hf
      apply h5 x hx
      rintro rfl
      exact hf hfM
    refine ⟨c', Or.inr (Or.inr ⟨id, h1, h2⟩), ?_⟩
    rcases hLc with h | ⟨ha, h, h', h''⟩
    · apply StepOK.of_lt hc hl hmax (hdropP h) hR
      cases hle : l.eq
      · refine ⟨z, mem_resolve.2 (Or.inr ⟨h6, ?_⟩), by omega⟩
        rw [falsifies_negative hle, h, Lit.neg_neg]
        exact h7
      · refine ⟨y, mem_resolve.2 (Or.inl ⟨hyc, ?_⟩), hylv⟩
        rw [falsifies_neg_pos hle]
        exact hyl
    · refine ⟨⟨?_, resolve_nodup hc.nodup, y, ?_, hylv⟩, ?_, ?_⟩
      · intro x hx
        rcases mem_resolve.1 hx with ⟨hx, hf⟩ | ⟨hx, hf⟩
        · exact hc.fals x hx
        · exact (hR x hx hf).1
      · refine mem_resolve.2 (Or.inl ⟨hyc, ?_⟩)
        rw [falsifies_neg_pos h]
        exact hyl
      · intro x hx
        rcases mem_resolve.1 hx with ⟨hx, hf⟩ | ⟨hx, hf⟩
        · exact hmax x hx
        · have := (hR x hx hf).2; omega
      · have hcl : weight t (t.idx l.var l.val) c = (if l.eq then 2 else 1) + weight t (t.idx l.var l.val) (c.erase l) :=
          weight_erase hl rfl
        rw [h, if_pos rfl] at hcl
        have := weight_le_of_subset (t := t) (m := t.idx l.var l.val)
          (c' := resolve c l c') (c := c.erase l) (resolve_nodup hc.nodup) (by
            intro x hx hxi
            rcases mem_resolve.1 hx with ⟨hxc, hf⟩ | ⟨hx, hf⟩
            · refine (List.mem_erase_of_ne ?_).2 hxc
              rintro rfl
              exact hf ((falsifies_neg_pos h).2 rfl)
            · have := (hR x hx hf).2; omega)
        omega

/-! ### The loop -/

/-- Exactly one literal of the clause is at the current level. -/
def UniqueAt (t : Trail) (c : List Lit) : Prop :=
  ∃ x ∈ c, t.lvl x.var x.val = t.LEVEL ∧ ∀ y ∈ c, y ≠ x → t.lvl y.var y.val ≠ t.LEVEL

/-- The watched literals of a false clause: the latest one, and one of the highest level among the
others. -/
structure WatchOK (t : Trail) (c : Cls) : Prop where
  w0 : ∃ w ∈ c.lits, c.w0 = some w ∧ ∀ x ∈ c.lits, t.idx x.var x.val ≤ t.idx w.var w.val
  w1 : 1 < c.lits.length → ∃ w0 w1, c.w0 = some w0 ∧ c.w1 = some w1 ∧ w1 ∈ c.lits ∧ w1 ≠ w0 ∧
    ∀ x ∈ c.lits, x ≠ w0 → t.lvl x.var x.val ≤ t.lvl w1.var w1.val

theorem maxLitLoop_spec (s : St S) (all : List Lit) : ∀ (ls pre : List Lit) (best : Nat) (m : Int), all = pre ++ ls →
    best < all.length → (∀ l, all[best]? = some l → m ≤ s.idx l.var l.val) → (∀ x ∈ pre, s.idx x.var x.val ≤ m) →
    ∃ l, all[maxLitLoop s ls pre.length best m]? = some l ∧ m ≤ s.idx l.var l.val ∧
      ∀ x ∈ all, s.idx x.var x.val ≤ s.idx l.var l.val
  | [], pre, best, m, he, hb, hm, hp => by
    rw [maxLitLoop, List.getElem?_eq_getElem hb]
    have := hm _ (List.getElem?_eq_getElem hb)
    refine ⟨_, rfl, this, ?_⟩
    intro x hx
    rw [he, List.append_nil] at hx
    have := hp x hx
    omega
  | y :: ls, pre, best, m, he, hb, hm, hp => by
    have hy : all[pre.length]? = some y := by rw [he]; simp
    have hlt : pre.length < all.length := (List.getElem?_eq_some_iff.1 hy).1
    have e : (pre ++ [y]).length = pre.length + 1 := by simp
    rw [maxLitLoop, ← e]
    split
    · rename_i hc
      obtain ⟨l, h1, h2, h3⟩ := maxLitLoop_spec s all ls (pre ++ [y]) pre.length (s.idx y.var y.val) (by simp [he]) hlt
        (by intro l hl; rw [hy] at hl; cases hl; exact Int.le_refl _) (by
          intro x hx
          rcases List.mem_append.1 hx with hx | hx
          · have := hp x hx; omega
          · simp at hx; subst hx; exact Int.le_refl _)
      exact ⟨l, h1, by omega, h3⟩
    · rename_i hc
      exact maxLitLoop_spec s all ls (pre ++ [y]) best m (by simp [he]) hb hm (by
          intro x hx
          rcases List.mem_append.1 hx with hx | hx
          · exact hp x hx
          · simp at hx; subst hx; omega)

theorem maxLit_spec (s : St S) {c : List Lit} (hne : c ≠ []) (h0 : ∀ x ∈ c, 0 ≤ s.idx x.var x.val) :
    ∃ l, c[maxLit s c]? = some l ∧ l ∈ c ∧ ∀ x ∈ c, s.idx x.var x.val ≤ s.idx l.var l.val := by
  obtain ⟨l, h1, _, h3⟩ := maxLitLoop_spec s c c [] 0 0 rfl (List.length_pos_iff.2 hne) (by
    intro l hl
    exact h0 l (List.mem_of_getElem? hl)) (by simp)
  exact ⟨l, h1, List.mem_of_getElem? h1, h3⟩

/-- State of the loop of `assignWatched`. -/
structure AW (s : St S) (pre : List Lit) (w1 w2 : Option Lit) (m1 m2 : Int) : Prop where
  le : m2 ≤ m1
  emp : w1 = none → pre = [] ∧ m1 = -1
  fst : ∀ w, w1 = some w → w ∈ pre ∧ s.idx w.var w.val = m1 ∧ ∀ x ∈ pre, s.idx x.var x.val ≤ m1
  emp2 : w2 = none → m2 = -1 ∧ ∀ x ∈ pre, w1 = some x
  snd : ∀ w, w2 = some w → w ∈ pre ∧ w1 ≠ some w ∧ s.idx w.var w.val = m2 ∧
    ∀ x ∈ pre, w1 ≠ some x → s.idx x.var x.val ≤ m2

theorem assignWatchedLoop_spec (s : St S) : ∀ (ls pre : List Lit) (w1 w2 : Option Lit) (m1 m2 : Int),
    (pre ++ ls).Nodup → (∀ x ∈ pre ++ ls, 0 ≤ s.idx x.var x.val) → AW s pre w1 w2 m1 m2 →
    ∃ m1' m2', AW s (pre ++ ls) (assignWatchedLoop s ls w1 w2 m1 m2).1 (assignWatchedLoop s ls w1 w2 m1 m2).2 m1' m2'
  | [], pre, w1, w2, m1, m2, _, _, h => by
    rw [List.append_nil]; exact ⟨m1, m2, h⟩
  | y :: ls, pre, w1, w2, m1, m2, hn, h0, h => by
    have e : pre ++ y :: ls = (pre ++ [y]) ++ ls := by simp
    rw [e] at hn h0 ⊢
    have hy0 : 0 ≤ s.idx y.var y.val := h0 y (by simp)
    have hny : y ∉ pre := by
      have := (List.nodup_append.1 hn).1
      have := (List.nodup_append.1 this).2.2
      intro hy
      exact this y hy y (by simp) rfl
    rw [assignWatchedLoop]
    by_cases c1 : m1 < s.idx y.var y.val
    · rw [if_pos c1]
      apply assignWatchedLoop_spec s ls (pre ++ [y]) _ _ _ _ hn h0
      refine ⟨by omega, by simp, ?_, ?_, ?_⟩
      · rintro w ⟨⟩
        refine ⟨by simp, rfl, ?_⟩
        intro x hx
        rcases List.mem_append.1 hx with hx | hx
        · cases hw : w1 with
          | none => rw [(h.emp hw).1] at hx; simp at hx
          | some w => have := (h.fst w hw).2.2 x hx; omega
        · simp at hx; subst hx; exact Int.le_refl _
      · intro hw
        obtain ⟨h1, h2⟩ := h.emp hw
        refine ⟨h2, ?_⟩
        rw [h1]; simp
      · intro w hw
        obtain ⟨h1, h2, h3⟩ := h.fst w hw
        refine ⟨by simp [h1], ?_, h2, ?_⟩
        · intro he
          cases he
          exact hny h1
        · intro x hx hxy
          rcases List.mem_append.1 hx with hx | hx
          · exact h3 x hx
          · simp at hx; subst hx; exact absurd rfl hxy
    · rw [if_neg c1]
      have hw1 : ∃ w, w1 = some w := by
        cases hw : w1 with
        | none => have := (h.emp hw).2; omega
        | some w => exact ⟨w, rfl⟩
      obtain ⟨w, hw⟩ := hw1
      obtain ⟨f1, f2, f3⟩ := h.fst w hw
      have hwy : w1 ≠ some y := by
        rw [hw]; intro he; cases he; exact hny f1
      by_cases c2 : m2 < s.idx y.var y.val
      · rw [if_pos c2]
        apply assignWatchedLoop_spec s ls (pre ++ [y]) _ _ _ _ hn h0
        refine ⟨by omega, by rw [hw]; simp, ?_, by simp, ?_⟩
        · rintro w' hw'
          rw [hw] at hw'; cases hw'
          refine ⟨by simp [f1], f2, ?_⟩
          intro x hx
          rcases List.mem_append.1 hx with hx | hx
          · exact f3 x hx
          · simp at hx; subst hx; omega
        · rintro w' ⟨⟩
          refine ⟨by simp, hwy, rfl, ?_⟩
          intro x hx hxw
          rcases List.mem_append.1 hx with hx | hx
          · cases h2 : w2 with
            | none => exact absurd ((h.emp2 h2).2 x hx) hxw
            | some w2' => have := (h.snd w2' h2).2.2.2 x hx hxw; omega
          · simp at hx; subst hx; exact Int.le_refl _
      · rw [if_neg c2]
        apply assignWatchedLoop_spec s ls (pre ++ [y]) _ _ _ _ hn h0
        have hw2 : ∃ w', w2 = some w' := by
          cases h2 : w2 with
          | none => have := (h.emp2 h2).1; omega
          | some w => exact ⟨w, rfl⟩
        obtain ⟨w', hw'⟩ := hw2
        refine ⟨h.le, by rw [hw]; simp, ?_, by rw [hw']; simp, ?_⟩
        · rintro w' hw'
          rw [hw] at hw'; cases hw'
          refine ⟨by simp [f1], f2, ?_⟩
          intro x hx
          rcases List.mem_append.1 hx with hx | hx
          · exact f3 x hx
          · simp at hx; subst hx; omega
        · rintro w'' hw''
          obtain ⟨g1, g2, g3, g4⟩ := h.snd w'' hw''
          refine ⟨by simp [g1], g2, g3, ?_⟩
          intro x hx hxw
          rcases List.mem_append.1 hx with hx | hx
          · exact g4 x hx hxw
          · simp at hx; subst hx; omega

theorem idx_nonneg {t : Trail} (hb : t.Base) {x : Lit} (hx : LF t.asg x) : 0 ≤ t.idx x.var x.val := by
  obtain ⟨i, _, hi, _⟩ := lf_idx hb hx
  omega

theorem assignWatched_ok (s : St S) (hb : s.tr.Base) {c : Cls} (hc : Confl s.tr c.lits) :
    WatchOK s.tr (assignWatched s c) := by
  have h0 : ∀ x ∈ c.lits, 0 ≤ s.idx x.var x.val := fun x hx => idx_nonneg hb (hc.fals x hx)
  obtain ⟨m1, m2, h⟩ := assignWatchedLoop_spec s c.lits [] none none (-1) (-1) (by simpa using hc.nodup)
    (by simpa using h0) ⟨by omega, by simp, by simp, by simp, by simp⟩
  rw [List.nil_append] at h
  have hne : c.lits ≠ [] := by
    obtain ⟨x, hx, _⟩ := hc.atL
    exact List.ne_nil_of_mem hx
  unfold assignWatched
  cases hw : (assignWatchedLoop s c.lits none none (-1) (-1)).1 with
  | none => exact absurd (h.emp hw).1 hne
  | some w =>
    obtain ⟨f1, f2, f3⟩ := h.fst w hw
    refine ⟨⟨w, f1, hw, ?_⟩, ?_⟩
    · intro x hx
      have := f3 x hx
      show s.idx _ _ ≤ s.idx _ _
      omega
    · intro hlen
      have hlen : 1 < c.lits.length := hlen
      cases hw2 : (assignWatchedLoop s c.lits none none (-1) (-1)).2 with
      | none =>
        exfalso
        have h2 := (h.emp2 hw2).2
        rw [hw] at h2
        have hn := hc.nodup
        match hcl : c.lits, hlen with
        | x :: y :: ls, _ =>
          rw [hcl] at h2 hn
          have e1 := h2 x (by simp)
          have e2 := h2 y (by simp)
          rw [e1] at e2; cases e2
          simp at hn
        | [], hl => simp at hl
        | [x], hl => simp at hl
      | some w' =>
        obtain ⟨g1, g2, g3, g4⟩ := h.snd w' hw2
        rw [hw] at g2 g4
        refine ⟨w, w', hw, hw2, g1, fun he => g2 (by rw [he]), ?_⟩
        intro x hx hxw
        have hx1 : x ∈ c.lits := hx
        have := g4 x hx1 (fun he => hxw (by cases he; rfl))
        apply Trail.lvl_le_of_idx hb (LF_ne_un (hc.fals x hx1)) (LF_ne_un (hc.fals w' g1))
        show s.idx _ _ ≤ s.idx _ _
        omega

/-- `potent` decides whether exactly one literal is at the current level. -/
theorem potent_spec (cfg : Cfg S) (s : St S) (hb : s.tr.Base) {c : Cls} (hc : Confl s.tr c.lits)
    (hw : cfg.watch = true → WatchOK s.tr c) :
    ∃ b, potent cfg s c = .ok b ∧ (b = true ↔ UniqueAt s.tr c.lits) := by
  unfold potent
  by_cases h1 : c.lits.length = 1
  · rw [if_pos h1]
    refine ⟨true, rfl, fun _ => ?_, fun _ => rfl⟩
    obtain ⟨x, hx, hxl⟩ := hc.atL
    refine ⟨x, hx, hxl, ?_⟩
    intro y hy hyx
    obtain ⟨z, hz⟩ := List.length_eq_one_iff.1 h1
    rw [hz] at hx hy
    simp at hx hy
    exact absurd (hy.trans hx.symm) hyx
  · rw [if_neg h1]
    have hlen : 1 < c.lits.length := by
      obtain ⟨x, hx, _⟩ := hc.atL
      have := List.length_pos_of_mem hx
      omega
    cases hcw : cfg.watch
    · rw [if_neg (by simp)]
      refine ⟨_, rfl, ?_⟩
      rw [decide_eq_true_iff]
      unfold countAtLevel
      constructor
      · intro hcnt
        obtain ⟨x, hx, hxl⟩ := hc.atL
        refine ⟨x, hx, hxl, ?_⟩
        intro y hy hyx hyl
        have hperm := List.perm_cons_erase hx
        rw [hperm.countP_eq, List.countP_cons, if_pos (decide_eq_true (show s.lvl x.var x.val = s.LEVEL from hxl))] at hcnt
        have : y ∈ c.lits.erase x := (List.mem_erase_of_ne hyx).2 hy
        have : 0 < (c.lits.erase x).countP fun l => s.lvl l.var l.val = s.LEVEL :=
          List.countP_pos_iff.2 ⟨y, this, decide_eq_true (show s.lvl y.var y.val = s.LEVEL from hyl)⟩
        omega
      · rintro ⟨x, hx, hxl, hy⟩
        have hperm := List.perm_cons_erase hx
        rw [hperm.countP_eq, List.countP_cons, if_pos (decide_eq_true (show s.lvl x.var x.val = s.LEVEL from hxl))]
        have : (c.lits.erase x).countP (fun l => s.lvl l.var l.val = s.LEVEL) = 0 := by
          rw [List.countP_eq_zero]
          intro y hy'
          have hyx : y ≠ x := by
            rintro rfl
            exact (List.Nodup.not_mem_erase hc.nodup) hy'
          rw [decide_eq_true_iff]
          exact hy y (List.mem_of_mem_erase hy') hyx
        omega
    · rw [if_pos rfl]
      obtain ⟨w0, w1, e0, e1, m1, hne, hmax⟩ := (hw hcw).w1 hlen
      obtain ⟨w0', m0, e0', hmax0⟩ := (hw hcw).w0
      rw [e0] at e0'; cases e0'
      rw [e1]
      refine ⟨_, rfl, ?_⟩
      rw [decide_eq_true_iff]
      have h0L : s.tr.lvl w0.var w0.val = s.tr.LEVEL := by
        obtain ⟨x, hx, hxl⟩ := hc.atL
        have := Trail.lvl_le_of_idx hb (LF_ne_un (hc.fals x hx)) (LF_ne_un (hc.fals w0 m0)) (hmax0 x hx)
        have := hb.lvlL _ _ (LF_ne_un (hc.fals w0 m0))
        omega
      constructor
      · intro hlt
        refine ⟨w0, m0, h0L, ?_⟩
        intro y hy hyw
        have := hmax y hy hyw
        have hlt : s.tr.lvl w1.var w1.val < s.tr.LEVEL := hlt
        omega
      · rintro ⟨x, hx, hxl, hy⟩
        have hxw : x = w0 := by
          apply Classical.byContradiction
          intro h
          exact hy w0 m0 (fun he => h he.symm) h0L
        subst hxw
        have h1 := hy w1 m1 hne
        have h2 := hb.lvlL _ _ (LF_ne_un (hc.fals w1 m1))
        show s.tr.lvl _ _ < s.tr.LEVEL
        omega

/-- `lastFalse` returns the latest falsified literal. -/
theorem lastFalse_spec (cfg : Cfg S) (s : St S) (hb : s.tr.Base) {c : Cls} (hc : Confl s.tr c.lits)
    (hw : cfg.watch = true → WatchOK s.tr c) :
    ∃ l ∈ c.lits, lastFalse cfg s c = .ok l ∧ ∀ x ∈ c.lits, s.tr.idx x.var x.val ≤ s.tr.idx l.var l.val := by
  unfold lastFalse
  cases hcw : cfg.watch
  · rw [if_neg (by simp)]
    have hne : c.lits ≠ [] := by
      obtain ⟨x, hx, _⟩ := hc.atL
      exact List.ne_nil_of_mem hx
    obtain ⟨l, h1, h2, h3⟩ := maxLit_spec s hne (fun x hx => idx_nonneg hb (hc.fals x hx))
    rw [h1]
    exact ⟨l, h2, rfl, h3⟩
  · rw [if_pos rfl]
    obtain ⟨w, h1, h2, h3⟩ := (hw hcw).w0
    rw [h2]
    exact ⟨w, h1, rfl, h3⟩

theorem reasonOf_spec (s : St S) (hb : s.tr.Base) {l : Lit} (hl : LF s.asg l) {r : List Lit}
    (h : ReasonFor s.tr s.lits? l r) : reasonOf s l = .ok r := by
  have hi := idx_nonneg hb hl
  unfold reasonOf
  rcases h with ⟨h1, L, h2, rfl⟩ | ⟨h1, rfl⟩ | ⟨id, h1, h2⟩
  · have h1 : s.rsn l.var l.val = -1 := h1
    have h2 : s.decs[(s.idx l.var l.val).toNat]? = some L := h2
    have hi : 0 ≤ s.idx l.var l.val := hi
    simp only [h1, if_true, h2]
    rw [if_neg (by omega)]
  · have h1 : s.rsn l.var l.val = -2 := h1
    simp only [h1]
    rfl
  · have h1 : s.rsn l.var l.val = id := h1
    unfold St.lits? at h2
    split at h2
    · rename_i hid
      cases h2
      simp only [h1]
      rw [if_neg (by omega), if_neg (by omega), if_neg (by omega), if_pos (by simpa using hid)]
      rfl
    · simp at h2

theorem reason_holds {s : St S} (hb : s.tr.Base) {l : Lit} (hl : LF s.asg l) {r : List Lit}
    (h : ReasonFor s.tr s.lits? l r) (hd : s.rsn l.var l.val = -2 → 2 ≤ s.dom l.var) {a : Assignment}
    (ha : s.Model a) : clauseHolds a r := by
  rcases h with ⟨_, L, _, rfl⟩ | ⟨h0, rfl⟩ | ⟨id, _, h2⟩
  · by_cases h : a L.var = L.val
    · exact ⟨⟨L.var, L.val, true⟩, by simp, by simpa [Lit.holds] using h⟩
    · exact ⟨⟨L.var, L.val, false⟩, by simp, by simpa [Lit.holds] using h⟩
  · obtain ⟨h1, h2, _⟩ := hb.rng _ _ (LF_ne_un hl)
    refine ⟨⟨l.var, a l.var, true⟩, List.mem_map.2 ⟨a l.var, List.mem_range.2 ?_, rfl⟩, by simp [Lit.holds]⟩
    have := ha.1 l.var h1 h2
    have := hd h0
    show a l.var < s.dom l.var
    omega
  · unfold St.lits? at h2
    split at h2
    · rename_i hid
      cases h2
      exact ha.2 id hid
    · simp at h2

/-- What the learned clause satisfies, given the clause that was false. -/
structure Learned (cfg : Cfg S) (s : St S) (c0 : List Lit) (c : Cls) : Prop where
  confl : Confl s.tr c.lits
  unique : UniqueAt s.tr c.lits
  fresh : c.level = -1
  entails : ∀ a, s.Model a → clauseHolds a c0 → clauseHolds a c.lits
  watch : cfg.watch = true → WatchOK s.tr c

/-- One round of `analyze`. -/
theorem analyze_step (cfg : Cfg S) (s : St S) (hb : s.tr.Base) (hrs : Reasons s.tr s.lits?) (hL : 1 ≤ s.LEVEL)
    {c : Cls} (hc : Confl s.tr c.lits) (hw : cfg.watch = true → WatchOK s.tr c) {p : Option Nat} {m : Int}
    (hm : ∀ x ∈ c.lits, s.tr.idx x.var x.val ≤ m) :
    (UniqueAt s.tr c.lits ∧ ∀ f, analyze cfg (f + 1) s c p = .ok (learnClause cfg s c p, c)) ∨
    (¬ UniqueAt s.tr c.lits ∧ ∃ c', (∀ f, analyze cfg (f + 1) s c p = analyze cfg f s c' none) ∧
      Confl s.tr c'.lits ∧ c'.level = -1 ∧ (cfg.watch = true → WatchOK s.tr c') ∧
      (∀ a, s.Model a → clauseHolds a c.lits → clauseHolds a c'.lits) ∧
      (∀ x ∈ c'.lits, s.tr.idx x.var x.val ≤ m) ∧
      ((∃ x ∈ c.lits, s.tr.idx x.var x.val = m) → weight s.tr m c'.lits < weight s.tr m c.lits)) := by
  obtain ⟨b, hb1, hb2⟩ := potent_spec cfg s hb hc hw
  obtain ⟨l, hl, hlast, hmax⟩ := lastFalse_spec cfg s hb hc hw
  by_cases hu : UniqueAt s.tr c.lits
  · left
    refine ⟨hu, fun f => ?_⟩
    have : b = true := hb2.2 hu
    subst this
    rw [analyze, hb1]
    rfl
  · right
    refine ⟨hu, ?_⟩
    have hbf : b = false := by
      cases b
      · rfl
      · exact absurd (hb2.1 rfl) hu
    subst hbf
    have hnp : ∃ y ∈ c.lits, y ≠ l ∧ s.tr.lvl y.var y.val = s.tr.LEVEL := by
      apply Classical.byContradiction
      intro hno
      apply hu
      obtain ⟨x, hx, hxl⟩ := hc.atL
      have : x = l := by
        apply Classical.byContradiction
        intro hxl'
        exact hno ⟨x, hx, hxl', hxl⟩
      subst this
      exact ⟨x, hx, hxl, fun y hy hyx hyl => hno ⟨y, hy, hyx, hyl⟩⟩
    obtain ⟨r, hr, hst⟩ := resolve_step hb hrs hL hc hl hmax hnp
    have hrr := reasonOf_spec s hb (hc.fals l hl) hr
    have hlits : ((if cfg.watch then assignWatched s (Cls.ofLits (resolve c.lits l r))
        else Cls.ofLits (resolve c.lits l r)) : Cls).lits = resolve c.lits l r := by
      split <;> rfl
    refine ⟨if cfg.watch then assignWatched s (Cls.ofLits (resolve c.lits l r)) else Cls.ofLits (resolve c.lits l r),
      fun f => ?_, ?_, ?_, ?_, ?_, ?_, ?_⟩
    · rw [analyze, hb1]
      show (do let l ← lastFalse cfg s c; _) = _
      rw [hlast]
      show (do let reason ← reasonOf s l; _) = _
      rw [hrr]
      rfl
    · rw [hlits]; exact hst.confl
    · split <;> rfl
    · intro hcw
      rw [if_pos hcw]
      exact assignWatched_ok s hb hst.confl
    · intro a ha hca
      rw [hlits]
      refine resolve_sound l hca (reason_holds hb (hc.fals l hl) hr (fun h0 => ?_) ha)
      have hun := LF_ne_un (hc.fals l hl)
      obtain ⟨y, hy, hyl⟩ := hc.atL
      have h1 := Trail.lvl_le_of_idx hb (LF_ne_un (hc.fals y hy)) hun (hmax y hy)
      have h2 : s.tr.lvl y.var y.val = s.LEVEL := hyl
      obtain ⟨_, _, h3⟩ := hb.rng _ _ hun
      have h3 : l.val < s.dom l.var := h3
      have h0 : s.tr.rsn l.var l.val = -2 := h0
      rcases hrs l.var l.val hun (by omega) with ⟨q, _⟩ | ⟨_, _, _, e, he, hel, _⟩ | ⟨id, _, _, q, _⟩
      · omega
      · have he : e < s.dom l.var := he
        omega
      · omega
    · intro x hx
      rw [hlits] at hx
      have := hst.bound x hx
      have := hm l hl
      omega
    · rintro ⟨x, hx, hxm⟩
      have h1 := hmax x hx
      have h2 := hm l hl
      have : s.tr.idx l.var l.val = m := by omega
      rw [hlits, ← this]
      exact hst.drop

/-- `analyze` returns a learned clause when it returns. -/
theorem analyze_spec (cfg : Cfg S) (s : St S) (hb : s.tr.Base) (hrs : Reasons s.tr s.lits?) (hL : 1 ≤ s.LEVEL)
    (f : Nat) : ∀ (c : Cls) (p : Option Nat), Confl s.tr c.lits → (cfg.watch = true → WatchOK s.tr c) →
    ((p = none ∧ c.level = -1) ∨ ¬ UniqueAt s.tr c.lits) →
    (analyze cfg f s c p).Sat fun r => r.1 = learnClause cfg s r.2 none ∧ Learned cfg s c.lits r.2 := by
  induction f with
  | zero => intro c p _ _ _; trivial
  | succ f ih =>
    intro c p hc hw hp
    have hm : ∃ m, ∀ x ∈ c.lits, s.tr.idx x.var x.val ≤ m := by
      obtain ⟨l, _, _, h⟩ := lastFalse_spec cfg s hb hc hw
      exact ⟨_, h⟩
    obtain ⟨m, hm⟩ := hm
    rcases analyze_step cfg s hb hrs hL hc hw (p := p) hm with ⟨hu, he⟩ | ⟨hu, c', he, h1, h2, h3, h4, _, _⟩
    · rw [he f]
      rcases hp with ⟨rfl, hlev⟩ | hp
      · exact ⟨rfl, hc, hu, hlev, fun a _ h => h, hw⟩
      · exact absurd hu hp
    · rw [he f]
      refine Res.Sat.mono (ih c' none h1 h3 (Or.inl ⟨rfl, h2⟩)) ?_
      rintro r ⟨hr1, hr2⟩
      exact ⟨hr1, hr2.confl, hr2.unique, hr2.fresh, fun a ha hca => hr2.entails a ha (h4 a ha hca), hr2.watch⟩

/-- `analyze` terminates. -/
theorem analyze_term (cfg : Cfg S) (s : St S) (hb : s.tr.Base) (hrs : Reasons s.tr s.lits?) (hL : 1 ≤ s.LEVEL) :
    ∀ (m w : Nat) (c : Cls) (p : Option Nat), Confl s.tr c.lits → (cfg.watch = true → WatchOK s.tr c) →
    (∀ x ∈ c.lits, s.tr.idx x.var x.val ≤ m) → weight s.tr m c.lits ≤ w →
    ∃ f0, ∀ f, f0 ≤ f → analyze cfg f s c p ≠ .fuel := by
  intro m
  induction m with
  | zero =>
    intro w
    induction w with
    | zero =>
      intro c p hc hw hm hwt
      exfalso
      obtain ⟨x, hx, _⟩ := hc.atL
      have h1 := idx_nonneg hb (hc.fals x hx)
      have h2 := hm x hx
      have := weight_pos (t := s.tr) (m := ((0 : Nat) : Int)) hx (by omega)
      omega
    | succ w ih =>
      intro c p hc hw hm hwt
      rcases analyze_step cfg s hb hrs hL hc hw (p := p) hm with ⟨hu, he⟩ | ⟨hu, c', he, h1, h2, h3, h4, h5, h6⟩
      · refine ⟨1, fun f hf => ?_⟩
        obtain ⟨f, rfl⟩ : ∃ k, f = k + 1 := ⟨f - 1, by omega⟩
        rw [he f]; simp
      · have hx : ∃ x ∈ c.lits, s.tr.idx x.var x.val = ((0 : Nat) : Int) := by
          obtain ⟨x, hx, _⟩ := hc.atL
          have h1 := idx_nonneg hb (hc.fals x hx)
          have h2 := hm x hx
          exact ⟨x, hx, by omega⟩
        have := h6 hx
        obtain ⟨f0, hf0⟩ := ih c' none h1 h3 h5 (by omega)
        refine ⟨f0 + 1, fun f hf => ?_⟩
        obtain ⟨f, rfl⟩ : ∃ k, f = k + 1 := ⟨f - 1, by omega⟩
        rw [he f]; exact hf0 f (by omega)
  | succ m ihm =>
    intro w
    induction w with
    | zero =>
      intro c p hc hw hm hwt
      refine ihm _ c p hc hw ?_ (Nat.le_refl _)
      intro x hx
      have h2 := hm x hx
      have : s.tr.idx x.var x.val ≠ ((m + 1 : Nat) : Int) := by
        intro h
        have := weight_pos hx h
        omega
      omega
    | succ w ih =>
      intro c p hc hw hm hwt
      by_cases hx : ∃ x ∈ c.lits, s.tr.idx x.var x.val = ((m + 1 : Nat) : Int)
      · rcases analyze_step cfg s hb hrs hL hc hw (p := p) hm with ⟨hu, he⟩ | ⟨hu, c', he, h1, h2, h3, h4, h5, h6⟩
        · refine ⟨1, fun f hf => ?_⟩
          obtain ⟨f, rfl⟩ : ∃ k, f = k + 1 := ⟨f - 1, by omega⟩
          rw [he f]; simp
        · have := h6 hx
          obtain ⟨f0, hf0⟩ := ih c' none h1 h3 h5 (by omega)
          refine ⟨f0 + 1, fun f hf => ?_⟩
          obtain ⟨f, rfl⟩ : ∃ k, f = k + 1 := ⟨f - 1, by omega⟩
          rw [he f]; exact hf0 f (by omega)
      · refine ihm _ c p hc hw ?_ (Nat.le_refl _)
        intro x hx'
        have h2 := hm x hx'
        have : s.tr.idx x.var x.val ≠ ((m + 1 : Nat) : Int) := fun h => hx ⟨x, hx', h⟩
        omega

theorem analyze_total (cfg : Cfg S) (s : St S) (hb : s.tr.Base) (hrs : Reasons s.tr s.lits?) (hL : 1 ≤ s.LEVEL)
    (c : Cls) (p : Option Nat) (hc : Confl s.tr c.lits) (hw : cfg.watch = true → WatchOK s.tr c) :
    ∃ f0, ∀ f, f0 ≤ f → analyze cfg f s c p ≠ .fuel := by
  obtain ⟨l, hl, _, h⟩ := lastFalse_spec cfg s hb hc hw
  have := idx_nonneg hb (hc.fals l hl)
  exact analyze_term cfg s hb hrs hL (s.tr.idx l.var l.val).toNat _ c p hc hw
    (fun x hx => by have := h x hx; omega) (Nat.le_refl _)

end Mvl
