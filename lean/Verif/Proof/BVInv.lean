import Verif.Proof.BVBits
import Verif.Proof.Engine

/-!
# Bit-vector variant: the invariants

`TrailInv`: the nodes of the variables and the domains agree, and levels grow with the indices.
`ReasonInv`: a node is a decision or comes from a clause whose other literals were false before.
`StoreInv`: clauses and watch lists agree.
`WatchInv`: a false watch means that the other watch is true, or that the clause is pending.
-/

namespace Mvl.BV

variable {S : Type}

/-- Satisfied by a result; `ub` is allowed if `U` holds. -/
def SatU {α : Type} (U : Prop) (x : Res α) (p : α → Prop) : Prop :=
  match x with
  | .ok a => p a
  | .ub => U
  | .fuel => True

theorem SatU.mono {α : Type} {U : Prop} {x : Res α} {p q : α → Prop} (h : SatU U x p) (hpq : ∀ a, p a → q a) :
    SatU U x q := by
  cases x with
  | ok a => exact hpq a h
  | ub => exact h
  | fuel => trivial

theorem SatU.bind {α β : Type} {U : Prop} {x : Res α} {f : α → Res β} {p : α → Prop} {q : β → Prop}
    (h : SatU U x p) (hf : ∀ a, p a → SatU U (f a) q) : SatU U (x >>= f) q := by
  cases x with
  | ok a => exact hf a h
  | ub => exact h
  | fuel => trivial

theorem SatU.and {α : Type} {U : Prop} {x : Res α} {p q : α → Prop} (h : SatU U x p) (h' : SatU U x q) :
    SatU U x fun a => p a ∧ q a := by
  cases x with
  | ok a => exact ⟨h, h'⟩
  | ub => exact h
  | fuel => trivial

/-! ## Truth of literals -/

/-- No value of the literal is left. -/
def FalseNow (s : BSt S) (l : BLit) : Prop := ∀ j, l.vals.getLsbD j = true → (s.cur l.var).getLsbD j = false

/-- Every value left is one of the literal's. -/
def TrueNow (s : BSt S) (l : BLit) : Prop := ∀ j, (s.cur l.var).getLsbD j = true → l.vals.getLsbD j = true

theorem bsat_one {s : BSt S} {l : BLit} : bsat s l = 1 ↔ TrueNow s l := by
  unfold bsat TrueNow
  rw [← isSuperset_iff]
  cases l.isSuperset (s.cur l.var) <;> cases l.falsifies (s.cur l.var) <;> simp

theorem bsat_zero {s : BSt S} {l : BLit} : bsat s l = 0 ↔ ¬ TrueNow s l ∧ FalseNow s l := by
  unfold bsat TrueNow FalseNow
  rw [← isSuperset_iff, ← falsifies_iff]
  cases l.isSuperset (s.cur l.var) <;> cases l.falsifies (s.cur l.var) <;> simp

theorem bsat_two {s : BSt S} {l : BLit} : bsat s l = 2 ↔ ¬ TrueNow s l ∧ ¬ FalseNow s l := by
  unfold bsat TrueNow FalseNow
  rw [← isSuperset_iff, ← falsifies_iff]
  cases l.isSuperset (s.cur l.var) <;> cases l.falsifies (s.cur l.var) <;> simp

/-- The value was removed at level `k` or below. -/
def RmL (s : BSt S) (k : Int) (v j : Nat) : Prop := ∃ n ∈ s.nodes v, n.level ≤ k ∧ n.values.getLsbD j = true

/-- False because of what happened up to level `k`. -/
def FalseL (s : BSt S) (k : Int) (l : BLit) : Prop := ∀ j, l.vals.getLsbD j = true → RmL s k l.var j

/-- True because of what happened up to level `k`. -/
def TrueL (s : BSt S) (k : Int) (l : BLit) : Prop :=
  ∀ j, j < s.size l.var → l.vals.getLsbD j = false → RmL s k l.var j

/-! ## The trail -/

/-- Variables `1..nv` exist. -/
def BSt.IsVar (s : BSt S) (v : Nat) : Prop := 1 ≤ v ∧ v ≤ s.nv

/-- All nodes. -/
def BSt.allNodes (s : BSt S) : List Node := (List.range' 1 s.nv).flatMap s.nodes

structure TrailInv (s : BSt S) : Prop where
  size_le : ∀ v, s.IsVar v → s.size v ≤ 64
  out : ∀ v, ¬ s.IsVar v → s.nodes v = []
  out_cur : ∀ v, ¬ s.IsVar v → s.cur v = 0#64
  cur_iff : ∀ v, s.IsVar v → ∀ j, (s.cur v).getLsbD j = true ↔
    j < s.size v ∧ ∀ n ∈ s.nodes v, n.values.getLsbD j = false
  live : ∀ v, s.IsVar v → ∃ j, (s.cur v).getLsbD j = true
  sorted : ∀ v, (s.nodes v).Pairwise fun n m => m.index < n.index
  disj : ∀ v, (s.nodes v).Pairwise fun n m => ∀ j, n.values.getLsbD j = true → m.values.getLsbD j = false
  sub : ∀ v, ∀ n ∈ s.nodes v, ∀ j, n.values.getLsbD j = true → j < s.size v
  pos : ∀ v, ∀ n ∈ s.nodes v, 1 ≤ n.index ∧ 0 ≤ n.level ∧ n.level ≤ s.LEVEL
  lev : ∀ v w, ∀ n ∈ s.nodes v, ∀ m ∈ s.nodes w, n.index < m.index → n.level ≤ m.level
  inj : ∀ v w, ∀ n ∈ s.nodes v, ∀ m ∈ s.nodes w, n.index = m.index → v = w
  down : ∀ v, ∀ n ∈ s.nodes v, ∀ i, 1 ≤ i → i < n.index → ∃ w, ∃ m ∈ s.nodes w, m.index = i
  count : s.atomIndex = s.allNodes.length
  level0 : 0 ≤ s.LEVEL

theorem mem_allNodes {s : BSt S} (h : TrailInv s) {v : Nat} {n : Node} (hn : n ∈ s.nodes v) : n ∈ s.allNodes := by
  by_cases hv : s.IsVar v
  · exact List.mem_flatMap.2 ⟨v, List.mem_range'_1.2 ⟨hv.1, by have := hv.2; omega⟩, hn⟩
  · rw [h.out v hv] at hn; cases hn

theorem length_le_of_subset {α : Type} [DecidableEq α] : ∀ (l l' : List α), l.Nodup → (∀ x ∈ l, x ∈ l') →
    l.length ≤ l'.length
  | [], _, _, _ => Nat.zero_le _
  | a :: t, l', hd, hs => by
    rw [List.nodup_cons] at hd
    have ha := hs a List.mem_cons_self
    have ih := length_le_of_subset t (l'.erase a) hd.2 (fun x hx => by
      have hxa : x ≠ a := fun h => hd.1 (h ▸ hx)
      exact (List.mem_erase_of_ne hxa).2 (hs x (List.mem_cons_of_mem _ hx)))
    have := List.length_erase_of_mem ha
    have hpos := List.length_pos_of_mem ha
    rw [List.length_cons]; omega

theorem TrailInv.index_le {s : BSt S} (h : TrailInv s) {v : Nat} {n : Node} (hn : n ∈ s.nodes v) :
    n.index ≤ s.atomIndex := by
  rw [h.count]
  have h1 := (h.pos v n hn).1
  have key : (List.range' 1 n.index.toNat).length ≤ (s.allNodes.map fun m => m.index.toNat).length := by
    apply length_le_of_subset _ _ List.nodup_range'
    intro i hi
    rw [List.mem_range'_1] at hi
    rw [List.mem_map]
    by_cases he : (i : Int) = n.index
    · exact ⟨n, mem_allNodes h hn, by omega⟩
    · obtain ⟨w, m, hm, e⟩ := h.down v n hn i (by omega) (by omega)
      exact ⟨m, mem_allNodes h hm, by omega⟩
  rw [List.length_range', List.length_map] at key
  omega

theorem TrailInv.mem_eq {s : BSt S} (h : TrailInv s) {v w : Nat} {n m : Node} (hn : n ∈ s.nodes v) (hm : m ∈ s.nodes w)
    (he : n.index = m.index) : n = m := by
  have hvw := h.inj v w n hn m hm he
  subst hvw
  have hs := h.sorted v
  revert hn hm hs
  induction s.nodes v with
  | nil => intro hn; cases hn
  | cons x xs ih =>
    intro hn hm hs
    rw [List.pairwise_cons] at hs
    rcases List.mem_cons.1 hn with rfl | hn1 <;> rcases List.mem_cons.1 hm with rfl | hm1
    · rfl
    · have := hs.1 m hm1; omega
    · have := hs.1 n hn1; omega
    · exact ih hn1 hm1 hs.2

/-- A value belongs to at most one node. -/
theorem TrailInv.node_unique {s : BSt S} (h : TrailInv s) {v : Nat} {n m : Node} (hn : n ∈ s.nodes v) (hm : m ∈ s.nodes v)
    {j : Nat} (h1 : n.values.getLsbD j = true) (h2 : m.values.getLsbD j = true) : n = m := by
  have hs := h.disj v
  revert hn hm hs
  induction s.nodes v with
  | nil => intro hn; cases hn
  | cons x xs ih =>
    intro hn hm hs
    rw [List.pairwise_cons] at hs
    rcases List.mem_cons.1 hn with rfl | hn1 <;> rcases List.mem_cons.1 hm with rfl | hm1
    · rfl
    · have := hs.1 m hm1 j h1; rw [h2] at this; cases this
    · have := hs.1 n hn1 j h2; rw [h1] at this; cases this
    · exact ih hn1 hm1 hs.2

/-- The literal is in range: the variable exists and the values are values of it, at least one. -/
structure LOK (s : BSt S) (l : BLit) : Prop where
  isVar : s.IsVar l.var
  sub : ∀ j, l.vals.getLsbD j = true → j < s.size l.var
  some : ∃ j, l.vals.getLsbD j = true

theorem TrailInv.removed {s : BSt S} (h : TrailInv s) {v : Nat} (hv : s.IsVar v) {j : Nat} (hj : j < s.size v)
    (hc : (s.cur v).getLsbD j = false) : ∃ n ∈ s.nodes v, n.values.getLsbD j = true := by
  apply Classical.byContradiction
  intro hn
  have := (h.cur_iff v hv j).2 ⟨hj, fun n hnn => by
    cases hx : n.values.getLsbD j
    · rfl
    · exact absurd ⟨n, hnn, hx⟩ hn⟩
  rw [hc] at this; cases this

theorem TrailInv.notCur {s : BSt S} (h : TrailInv s) {v : Nat} {n : Node} (hn : n ∈ s.nodes v) {j : Nat}
    (hj : n.values.getLsbD j = true) : (s.cur v).getLsbD j = false := by
  have hv : s.IsVar v := Classical.byContradiction fun hv => by rw [h.out v hv] at hn; cases hn
  cases hc : (s.cur v).getLsbD j
  · rfl
  · have := ((h.cur_iff v hv j).1 hc).2 n hn
    rw [hj] at this; cases this

theorem TrailInv.falseL_iff {s : BSt S} (h : TrailInv s) {l : BLit} (hl : LOK s l) :
    FalseNow s l ↔ FalseL s s.LEVEL l := by
  constructor
  · intro hf j hj
    obtain ⟨n, hn, hnj⟩ := h.removed hl.isVar (hl.sub j hj) (hf j hj)
    exact ⟨n, hn, (h.pos _ n hn).2.2, hnj⟩
  · intro hf j hj
    obtain ⟨n, hn, _, hnj⟩ := hf j hj
    exact h.notCur hn hnj

theorem TrailInv.falseNow_of_falseL {s : BSt S} (h : TrailInv s) {k : Int} {l : BLit} (hf : FalseL s k l) :
    FalseNow s l := by
  intro j hj
  obtain ⟨n, hn, _, hnj⟩ := hf j hj
  exact h.notCur hn hnj

theorem TrailInv.trueNow_of_trueL {s : BSt S} (h : TrailInv s) {k : Int} {l : BLit} (hv : s.IsVar l.var)
    (ht : TrueL s k l) : TrueNow s l := by
  intro j hj
  cases hx : l.vals.getLsbD j
  · obtain ⟨n, hn, _, hnj⟩ := ht j ((h.cur_iff _ hv j).1 hj).1 hx
    rw [h.notCur hn hnj] at hj; cases hj
  · rfl

theorem TrailInv.trueL_of_trueNow {s : BSt S} (h : TrailInv s) {l : BLit} (hv : s.IsVar l.var) (ht : TrueNow s l) :
    TrueL s s.LEVEL l := by
  intro j hj hx
  have hc : (s.cur l.var).getLsbD j = false := by
    cases hc : (s.cur l.var).getLsbD j
    · rfl
    · rw [ht j hc] at hx; cases hx
  obtain ⟨n, hn, hnj⟩ := h.removed hv hj hc
  exact ⟨n, hn, (h.pos _ n hn).2.2, hnj⟩

theorem TrailInv.not_both {s : BSt S} (h : TrailInv s) {l : BLit} (hv : s.IsVar l.var) (ht : TrueNow s l)
    (hf : FalseNow s l) : False := by
  obtain ⟨j, hj⟩ := h.live _ hv
  have := hf j (ht j hj)
  rw [hj] at this; cases this

/-- The node of a false literal: the last of those that took values from it. -/
theorem TrailInv.node_spec {s : BSt S} (h : TrailInv s) {l : BLit} (hl : LOK s l) (hf : FalseNow s l) :
    s.node l ∈ s.nodes l.var ∧ (∃ j, l.vals.getLsbD j = true ∧ (s.node l).values.getLsbD j = true) ∧
    ∀ n ∈ s.nodes l.var, ∀ j, l.vals.getLsbD j = true → n.values.getLsbD j = true → n.index ≤ (s.node l).index := by
  obtain ⟨j0, hj0⟩ := hl.some
  obtain ⟨n0, hn0, hnj0⟩ := h.removed hl.isVar (hl.sub j0 hj0) (hf j0 hj0)
  unfold BSt.node getNode
  have hs := h.sorted l.var
  cases hfind : (s.nodes l.var).find? fun n => decide ((n.values &&& l.vals) ≠ 0#64) with
  | none =>
    rw [List.find?_eq_none] at hfind
    exact absurd (decide_eq_true ((ne_zero_iff _).2 ⟨j0, (and_bit _ _ _).2 ⟨hnj0, hj0⟩⟩)) (hfind n0 hn0)
  | some m =>
    have hm := List.find?_some hfind
    obtain ⟨j, hj⟩ := (ne_zero_iff _).1 (of_decide_eq_true hm)
    obtain ⟨hj1, hj2⟩ := (and_bit _ _ _).1 hj
    refine ⟨List.mem_of_find?_eq_some hfind, ⟨j, hj2, hj1⟩, ?_⟩
    intro n hn i hi1 hi2
    rw [List.find?_eq_some_iff_append] at hfind
    obtain ⟨_, as, bs, e, hnot⟩ := hfind
    show n.index ≤ m.index
    rw [e] at hn hs
    rcases List.mem_append.1 hn with hn | hn
    · have := hnot n hn
      simp only [Bool.not_eq_true', decide_eq_false_iff_not, ne_eq, Decidable.not_not] at this
      exact absurd this ((ne_zero_iff _).2 ⟨i, (and_bit _ _ _).2 ⟨hi2, hi1⟩⟩)
    · rcases List.mem_cons.1 hn with rfl | hn
      · exact Int.le_refl _
      · rw [List.pairwise_append, List.pairwise_cons] at hs
        exact Int.le_of_lt (hs.2.1.1 n hn)

theorem TrailInv.falseL_node {s : BSt S} (h : TrailInv s) {l : BLit} (hl : LOK s l) (hf : FalseNow s l) :
    FalseL s (s.node l).level l := by
  obtain ⟨hn, _, hmax⟩ := h.node_spec hl hf
  intro j hj
  obtain ⟨m, hm, hmj⟩ := h.removed hl.isVar (hl.sub j hj) (hf j hj)
  refine ⟨m, hm, ?_, hmj⟩
  have hle := hmax m hm j hj hmj
  by_cases he : m.index = (s.node l).index
  · rw [h.mem_eq hm hn he]; exact Int.le_refl _
  · exact h.lev _ _ m hm _ hn (by omega)

theorem TrailInv.level_le_of_falseL {s : BSt S} (h : TrailInv s) {l : BLit} (hl : LOK s l) {k : Int}
    (hf : FalseL s k l) : (s.node l).level ≤ k := by
  obtain ⟨hn, ⟨j, hj1, hj2⟩, _⟩ := h.node_spec hl (h.falseNow_of_falseL hf)
  obtain ⟨m, hm, hmk, hmj⟩ := hf j hj1
  rw [h.node_unique hn hm hj2 hmj]; exact hmk

/-! ## Clauses and watch lists -/

/-- `w` is one of the two watched literals. -/
def IsW (c : BCls) (w : BLit) : Prop := c.w0 = some w ∨ c.w1 = some w

/-- Watched literals are set up properly. -/
def WOK (c : BCls) : Prop :=
  (∃ a, c.lits = [a] ∧ c.w0 = some a ∧ c.w1 = none) ∨
  (1 < c.lits.length ∧ ∃ a b, c.w0 = some a ∧ c.w1 = some b ∧ a ∈ c.lits ∧ b ∈ c.lits ∧ a.var ≠ b.var)

structure StoreInv (s : BSt S) : Prop where
  ptr_lt : ∀ id, id < s.ncl → s.ptr id < s.nheap
  ptr_inj : ∀ i j, i < s.ncl → j < s.ncl → s.ptr i = s.ptr j → i = j
  distinct : ∀ id, id < s.ncl → Distinct (s.cl id).lits
  lok : ∀ id, id < s.ncl → ∀ l ∈ (s.cl id).lits, LOK s l
  wok : ∀ id, id < s.ncl → WOK (s.cl id)
  recs : ∀ v id, id ∈ s.recs v ↔ id < s.ncl ∧ ∃ w, IsW (s.cl id) w ∧ w.var = v
  nodup : ∀ v, (s.recs v).Nodup

theorem WOK.mem {c : BCls} (h : WOK c) {w : BLit} (hw : IsW c w) : w ∈ c.lits := by
  rcases h with ⟨a, h1, h2, h3⟩ | ⟨_, a, b, h1, h2, h3, h4, _⟩
  · rcases hw with hw | hw
    · rw [h2] at hw; cases hw; rw [h1]; simp
    · rw [h3] at hw; cases hw
  · rcases hw with hw | hw
    · rw [h1] at hw; cases hw; exact h3
    · rw [h2] at hw; cases hw; exact h4

theorem WOK.var_ne {c : BCls} (h : WOK c) {w w' : BLit} (hw : IsW c w) (hw' : IsW c w') (hne : w ≠ w') :
    w.var ≠ w'.var := by
  rcases h with ⟨a, h1, h2, h3⟩ | ⟨_, a, b, h1, h2, h3, h4, h5⟩
  · rcases hw with hw | hw <;> rcases hw' with hw' | hw'
    · rw [h2] at hw hw'; cases hw; cases hw'; exact absurd rfl hne
    · rw [h3] at hw'; cases hw'
    · rw [h3] at hw; cases hw
    · rw [h3] at hw; cases hw
  · rcases hw with hw | hw <;> rcases hw' with hw' | hw'
    · rw [h1] at hw hw'; cases hw; cases hw'; exact absurd rfl hne
    · rw [h1] at hw; rw [h2] at hw'; cases hw; cases hw'; exact h5
    · rw [h2] at hw; rw [h1] at hw'; cases hw; cases hw'; exact h5.symm
    · rw [h2] at hw hw'; cases hw; cases hw'; exact absurd rfl hne

theorem WOK.len {c : BCls} (h : WOK c) {w w' : BLit} (hw : IsW c w) (hw' : IsW c w') (hne : w ≠ w') :
    1 < c.lits.length := by
  rcases h with ⟨a, h1, h2, h3⟩ | ⟨h1, _⟩
  · rcases hw with hw | hw <;> rcases hw' with hw' | hw'
    · rw [h2] at hw hw'; cases hw; cases hw'; exact absurd rfl hne
    · rw [h3] at hw'; cases hw'
    · rw [h3] at hw; cases hw
    · rw [h3] at hw; cases hw
  · exact h1

/-- Exchanging the two watches of a clause with two. -/
theorem WOK.swap {c : BCls} (h : WOK c) (h1 : c.w1 ≠ none) : WOK { c with w0 := c.w1, w1 := c.w0 } := by
  rcases h with ⟨a, _, _, h4⟩ | ⟨h2, a, b, h3, h4, h5, h6, h7⟩
  · exact absurd h4 h1
  · exact Or.inr ⟨h2, b, a, h4, h3, h6, h5, h7.symm⟩

theorem isW_swap {c : BCls} {w : BLit} : IsW { c with w0 := c.w1, w1 := c.w0 } w ↔ IsW c w := by
  unfold IsW; exact Or.comm

/-! ## Reasons -/

structure ReasonInv (s : BSt S) : Prop where
  range : ∀ v, ∀ n ∈ s.nodes v, -1 ≤ n.reason
  dec : ∀ v, ∀ n ∈ s.nodes v, n.reason = -1 → 1 ≤ n.level ∧
    ∀ w, ∀ m ∈ s.nodes w, m.level = n.level → n.index ≤ m.index
  cls : ∀ v, ∀ n ∈ s.nodes v, ∀ id : Nat, n.reason = id → id < s.ncl ∧
    (∃ l ∈ (s.cl id).lits, l.var = v ∧ ∀ j, n.values.getLsbD j = true → l.vals.getLsbD j = false) ∧
    ∀ l ∈ (s.cl id).lits, l.var ≠ v → ∀ j, l.vals.getLsbD j = true →
      ∃ m ∈ s.nodes l.var, m.index < n.index ∧ m.values.getLsbD j = true

/-! ## Watches -/

/-- The invariant while the records `rem` of variable `v` still have to be visited. -/
structure WatchInv (s : BSt S) (v : Nat) (rem : List Nat) : Prop where
  low : ∀ id, id < s.ncl → ∀ w w', IsW (s.cl id) w → IsW (s.cl id) w' → w ≠ w' →
    ∀ k, k < s.LEVEL → FalseL s k w → TrueL s k w'
  top : s.conflict = false → ∀ id, id < s.ncl → ∀ w w', IsW (s.cl id) w → IsW (s.cl id) w' → w ≠ w' → FalseNow s w →
    (w.var = v ∧ id ∈ rem) ∨ TrueNow s w' ∨ (id ∈ s.units ∧ ∀ l ∈ (s.cl id).lits, l ≠ w' → FalseNow s l)
  both : s.conflict = false → ∀ id, id < s.ncl → ∀ w w', IsW (s.cl id) w → IsW (s.cl id) w' → w ≠ w' → FalseNow s w →
    FalseNow s w' → id ∈ rem
  old : s.conflict = false → ∀ id ∈ rem, ∀ w w', id < s.ncl → IsW (s.cl id) w → IsW (s.cl id) w' → w ≠ w' → w.var = v →
    FalseNow s w → FalseNow s w' → (s.node w).index = s.atomIndex
  units : ∀ id ∈ s.units, id < s.ncl ∧ ∃ l0 ∈ (s.cl id).lits, ∀ l ∈ (s.cl id).lits, l ≠ l0 → FalseNow s l
  single : (s.conflict = true ∧ s.LEVEL = 0) ∨ ∀ id, id < s.ncl → ∀ a, (s.cl id).lits = [a] →
    TrueL s 0 a ∨ (a.var = v ∧ id ∈ rem ∧ s.LEVEL = 0) ∨ (id ∈ s.units ∧ s.LEVEL = 0 ∧ ¬ FalseNow s a)
  confl : s.conflict = true → ∃ id : Nat, id < s.ncl ∧ s.conflicting = id ∧ (∀ l ∈ (s.cl id).lits, FalseNow s l) ∧
    ∃ a b, (s.cl id).w0 = some a ∧ (s.cl id).w1 = some b ∧ (s.node a).index = s.atomIndex ∧
      (0 < s.LEVEL → ¬ FalseL s (s.LEVEL - 1) b)

/-- Clauses of one literal about variable `v` are true; otherwise `U`. -/
def OneOK (U : Prop) (s : BSt S) (v : Nat) : Prop :=
  U ∨ ∀ id, id < s.ncl → ∀ a, (s.cl id).lits = [a] → a.var = v → TrueNow s a

end Mvl.BV
