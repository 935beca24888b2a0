import Verif.Proof.BVReduce

/-!
# Bit-vector variant: a new node (`watchedReduceTheory`)
-/

namespace Mvl.BV

variable {S : Type}

/-- The state after the first part of `watchedReduceTheory`. -/
def addNode (s : BSt S) (l : BLit) : BSt S :=
  { s with
    atomIndex := s.atomIndex + 1
    nodes := upd s.nodes l.var (⟨s.atomIndex + 1, s.LEVEL, s.unitClause, s.cur l.var &&& ~~~ l.vals⟩ :: s.nodes l.var)
    cur := upd s.cur l.var (s.cur l.var &&& l.vals) }

theorem breduce_eq (s : BSt S) (l : BLit) :
    breduce s l = if s.cur l.var &&& ~~~ l.vals = 0#64 then .ok s else updateVar (addNode s l) l.var := rfl

theorem change_iff {s : BSt S} {l : BLit} : s.cur l.var &&& ~~~ l.vals = 0#64 ↔ TrueNow s l := by
  rw [eq_zero_iff]
  unfold TrueNow
  constructor
  · intro h j hj
    cases hl : l.vals.getLsbD j
    · have := (andnot_bit (s.cur l.var) l.vals j).2 ⟨hj, hl⟩
      rw [h j] at this; cases this
    · rfl
  · intro h j
    cases hx : (s.cur l.var &&& ~~~ l.vals).getLsbD j
    · rfl
    · obtain ⟨h1, h2⟩ := (andnot_bit _ _ _).1 hx
      rw [h j h1] at h2; cases h2

theorem nodup_indices {s : BSt S} (h : TrailInv s) : (s.allNodes.map fun n => n.index.toNat).Nodup := by
  unfold BSt.allNodes
  have key : ∀ L : List Nat, L.Nodup → ((L.flatMap s.nodes).map fun n => n.index.toNat).Nodup := by
    intro L hL
    induction L with
    | nil => simp
    | cons v L ih =>
      rw [List.nodup_cons] at hL
      rw [List.flatMap_cons, List.map_append, List.nodup_append]
      refine ⟨?_, ih hL.2, ?_⟩
      · rw [List.Nodup, List.pairwise_map]
        refine (h.sorted v).imp_of_mem ?_
        intro a b ha hb hab he
        have := (h.pos v a ha).1
        have := (h.pos v b hb).1
        omega
      · intro a ha b hb e
        subst e
        obtain ⟨n, hn, hne⟩ := List.mem_map.1 ha
        obtain ⟨m, hm, hme⟩ := List.mem_map.1 hb
        obtain ⟨w, hw, hm⟩ := List.mem_flatMap.1 hm
        have := (h.pos v n hn).1
        have := (h.pos w m hm).1
        have := h.inj v w n hn m hm (by omega)
        exact hL.1 (this ▸ hw)
  exact key _ List.nodup_range'

/-- Every index in use is taken. -/
theorem TrailInv.surj {s : BSt S} (h : TrailInv s) {i : Int} (h1 : 1 ≤ i) (h2 : i ≤ s.atomIndex) :
    ∃ w, ∃ m ∈ s.nodes w, m.index = i := by
  apply Classical.byContradiction
  intro hn
  have hc := h.count
  have key : (s.allNodes.map fun n => n.index.toNat).length ≤ ((List.range' 1 s.atomIndex.toNat).erase i.toNat).length := by
    apply length_le_of_subset _ _ (nodup_indices h)
    intro x hx
    obtain ⟨n, hn', rfl⟩ := List.mem_map.1 hx
    obtain ⟨w, _, hw⟩ := List.mem_flatMap.1 hn'
    have hp := (h.pos w n hw).1
    have hle := h.index_le hw
    have hne : n.index.toNat ≠ i.toNat := by
      intro e
      exact hn ⟨w, n, hw, by omega⟩
    rw [List.mem_erase_of_ne hne, List.mem_range'_1]
    omega
  rw [List.length_map, List.length_erase_of_mem (by rw [List.mem_range'_1]; omega), List.length_range'] at key
  omega

theorem length_flatMap_upd {f : Nat → List Node} {v : Nat} {x : Node} : ∀ (L : List Nat), L.Nodup →
    (L.flatMap (upd f v (x :: f v))).length = (L.flatMap f).length + if v ∈ L then 1 else 0
  | [], _ => by simp
  | w :: L, h => by
    rw [List.nodup_cons] at h
    rw [List.flatMap_cons, List.flatMap_cons, List.length_append, List.length_append, length_flatMap_upd L h.2]
    by_cases e : w = v
    · subst e
      rw [if_neg h.1, if_pos List.mem_cons_self, upd, if_pos rfl, List.length_cons]
      omega
    · rw [upd, if_neg e]
      have : v ∈ w :: L ↔ v ∈ L := by
        rw [List.mem_cons]
        constructor
        · rintro (h1 | h1)
          · exact absurd h1.symm e
          · exact h1
        · exact Or.inr
      by_cases hv : v ∈ L
      · rw [if_pos hv, if_pos (this.2 hv)]; omega
      · rw [if_neg hv, if_neg (fun h' => hv (this.1 h'))]; omega

theorem mem_addNode {s : BSt S} {l : BLit} {v : Nat} {n : Node} : n ∈ (addNode s l).nodes v ↔
    n ∈ s.nodes v ∨ (v = l.var ∧ n = ⟨s.atomIndex + 1, s.LEVEL, s.unitClause, s.cur l.var &&& ~~~ l.vals⟩) := by
  unfold addNode upd
  dsimp only
  by_cases h : v = l.var
  · subst h
    rw [if_pos rfl, List.mem_cons]
    constructor
    · rintro (h1 | h1)
      · exact Or.inr ⟨rfl, h1⟩
      · exact Or.inl h1
    · rintro (h1 | ⟨_, h1⟩)
      · exact Or.inr h1
      · exact Or.inl h1
  · rw [if_neg h]
    constructor
    · exact Or.inl
    · rintro (h1 | ⟨h1, _⟩)
      · exact h1
      · exact absurd h1 h

theorem cur_addNode {s : BSt S} {l : BLit} {v j : Nat} : ((addNode s l).cur v).getLsbD j = true ↔
    (s.cur v).getLsbD j = true ∧ (v = l.var → l.vals.getLsbD j = true) := by
  unfold addNode upd
  dsimp only
  by_cases h : v = l.var
  · subst h
    rw [if_pos rfl, and_bit]
    constructor
    · rintro ⟨h1, h2⟩; exact ⟨h1, fun _ => h2⟩
    · rintro ⟨h1, h2⟩; exact ⟨h1, h2 rfl⟩
  · rw [if_neg h]
    constructor
    · intro h1; exact ⟨h1, fun h2 => absurd h2 h⟩
    · exact fun h1 => h1.1

theorem addNode_trail {s : BSt S} (h : TrailInv s) {l : BLit} (hv : s.IsVar l.var) (hnf : ¬ FalseNow s l) :
    TrailInv (addNode s l) where
  size_le := h.size_le
  out := by
    intro v hv'
    show upd s.nodes l.var _ v = []
    rw [upd, if_neg (fun e => hv' (by rw [e]; exact hv))]
    exact h.out v hv'
  out_cur := by
    intro v hv'
    show upd s.cur l.var _ v = 0#64
    rw [upd, if_neg (fun e => hv' (by rw [e]; exact hv))]
    exact h.out_cur v hv'
  cur_iff := by
    intro v hv' j
    rw [cur_addNode, h.cur_iff v hv']
    constructor
    · rintro ⟨⟨h1, h2⟩, h3⟩
      refine ⟨h1, ?_⟩
      intro n hn
      rcases mem_addNode.1 hn with hn | ⟨rfl, rfl⟩
      · exact h2 n hn
      · dsimp only
        cases hx : (s.cur l.var &&& ~~~ l.vals).getLsbD j
        · rfl
        · obtain ⟨_, h5⟩ := (andnot_bit _ _ _).1 hx
          rw [h3 rfl] at h5; cases h5
    · rintro ⟨h1, h2⟩
      have h3 : ∀ n ∈ s.nodes v, n.values.getLsbD j = false := fun n hn => h2 n (mem_addNode.2 (Or.inl hn))
      refine ⟨⟨h1, h3⟩, ?_⟩
      rintro rfl
      have h4 := h2 _ (mem_addNode.2 (Or.inr ⟨rfl, rfl⟩))
      dsimp only at h4
      cases hx : l.vals.getLsbD j
      · rw [(andnot_bit _ _ _).2 ⟨(h.cur_iff _ hv' j).2 ⟨h1, h3⟩, hx⟩] at h4; cases h4
      · rfl
  live := by
    intro v hv'
    by_cases e : v = l.var
    · subst e
      apply Classical.byContradiction
      intro hn
      apply hnf
      intro j hj
      cases hx : (s.cur l.var).getLsbD j
      · rfl
      · exact absurd ⟨j, cur_addNode.2 ⟨hx, fun _ => hj⟩⟩ hn
    · obtain ⟨j, hj⟩ := h.live v hv'
      exact ⟨j, cur_addNode.2 ⟨hj, fun e' => absurd e' e⟩⟩
  sorted := by
    intro v
    show (upd s.nodes l.var _ v).Pairwise _
    unfold upd
    split
    · rename_i e
      rw [List.pairwise_cons]
      refine ⟨?_, h.sorted _⟩
      intro m hm
      have := h.index_le hm
      show m.index < s.atomIndex + 1
      omega
    · exact h.sorted v
  disj := by
    intro v
    show (upd s.nodes l.var _ v).Pairwise _
    unfold upd
    split
    · rename_i e
      rw [List.pairwise_cons]
      refine ⟨?_, h.disj _⟩
      intro m hm j hj
      cases hx : m.values.getLsbD j
      · rfl
      · have h1 := ((andnot_bit _ _ _).1 hj).1
        rw [h.notCur hm hx] at h1; cases h1
    · exact h.disj v
  sub := by
    intro v n hn j hj
    rcases mem_addNode.1 hn with hn | ⟨rfl, rfl⟩
    · exact h.sub v n hn j hj
    · have h1 := ((andnot_bit _ _ _).1 hj).1
      exact ((h.cur_iff _ hv j).1 h1).1
  pos := by
    intro v n hn
    rcases mem_addNode.1 hn with hn | ⟨rfl, rfl⟩
    · exact h.pos v n hn
    · refine ⟨?_, h.level0, Int.le_refl _⟩
      have := h.count
      show 1 ≤ s.atomIndex + 1
      omega
  lev := by
    intro v w n hn m hm hlt
    rcases mem_addNode.1 hn with hn | ⟨rfl, rfl⟩
    · rcases mem_addNode.1 hm with hm | ⟨rfl, rfl⟩
      · exact h.lev v w n hn m hm hlt
      · exact (h.pos v n hn).2.2
    · rcases mem_addNode.1 hm with hm | ⟨rfl, rfl⟩
      · have := h.index_le hm
        dsimp only at hlt
        omega
      · exact Int.le_refl _
  inj := by
    intro v w n hn m hm he
    rcases mem_addNode.1 hn with hn | ⟨rfl, rfl⟩
    · rcases mem_addNode.1 hm with hm | ⟨rfl, rfl⟩
      · exact h.inj v w n hn m hm he
      · have := h.index_le hn
        dsimp only at he
        omega
    · rcases mem_addNode.1 hm with hm | ⟨rfl, rfl⟩
      · have := h.index_le hm
        dsimp only at he
        omega
      · rfl
  down := by
    intro v n hn i h1 h2
    rcases mem_addNode.1 hn with hn | ⟨rfl, rfl⟩
    · obtain ⟨w, m, hm, e⟩ := h.down v n hn i h1 h2
      exact ⟨w, m, mem_addNode.2 (Or.inl hm), e⟩
    · dsimp only at h2
      obtain ⟨w, m, hm, e⟩ := h.surj h1 (by omega)
      exact ⟨w, m, mem_addNode.2 (Or.inl hm), e⟩
  count := by
    show s.atomIndex + 1 = ((List.range' 1 s.nv).flatMap (upd s.nodes l.var (_ :: s.nodes l.var))).length
    rw [length_flatMap_upd _ List.nodup_range', if_pos (List.mem_range'_1.2 ⟨hv.1, by have := hv.2; omega⟩), h.count]
    unfold BSt.allNodes
    omega
  level0 := h.level0

/-- Where the node comes from. -/
def ReasonOK (s : BSt S) (l : BLit) : Prop :=
  (s.unitClause = -1 ∧ 1 ≤ s.LEVEL ∧ ∀ v, ∀ n ∈ s.nodes v, n.level < s.LEVEL) ∨
  ∃ id : Nat, s.unitClause = id ∧ id < s.ncl ∧ l ∈ (s.cl id).lits ∧ ∀ l' ∈ (s.cl id).lits, l' ≠ l → FalseNow s l'

theorem addNode_reason {s : BSt S} (ht : TrailInv s) (hst : StoreInv s) (h : ReasonInv s) {l : BLit}
    (hr : ReasonOK s l) : ReasonInv (addNode s l) where
  range := by
    intro v n hn
    rcases mem_addNode.1 hn with hn | ⟨rfl, rfl⟩
    · exact h.range v n hn
    · dsimp only
      rcases hr with ⟨e, _⟩ | ⟨id, e, _⟩ <;> rw [e] <;> omega
  dec := by
    intro v n hn hrs
    rcases mem_addNode.1 hn with hn | ⟨rfl, rfl⟩
    · obtain ⟨h1, h2⟩ := h.dec v n hn hrs
      refine ⟨h1, ?_⟩
      intro w m hm hl
      rcases mem_addNode.1 hm with hm | ⟨rfl, rfl⟩
      · exact h2 w m hm hl
      · have := ht.index_le hn
        dsimp only
        omega
    · dsimp only at hrs ⊢
      rcases hr with ⟨e, h1, h2⟩ | ⟨id, e, _⟩
      · refine ⟨h1, ?_⟩
        intro w m hm hl
        rcases mem_addNode.1 hm with hm | ⟨rfl, rfl⟩
        · have := h2 w m hm; omega
        · exact Int.le_refl _
      · rw [e] at hrs; omega
  cls := by
    intro v n hn id hrs
    rcases mem_addNode.1 hn with hn | ⟨rfl, rfl⟩
    · obtain ⟨h1, h2, h3⟩ := h.cls v n hn id hrs
      refine ⟨h1, h2, ?_⟩
      intro x hx hxv j hj
      obtain ⟨m, hm, h4⟩ := h3 x hx hxv j hj
      exact ⟨m, mem_addNode.2 (Or.inl hm), h4⟩
    · dsimp only at hrs ⊢
      rcases hr with ⟨e, _⟩ | ⟨i, e, h1, h2, h3⟩
      · rw [e] at hrs; omega
      · have hii : i = id := by rw [e] at hrs; omega
        subst hii
        refine ⟨h1, ⟨l, h2, rfl, fun j hj => ((andnot_bit _ _ _).1 hj).2⟩, ?_⟩
        intro x hx hxv j hj
        have hl := hst.lok i h1 x hx
        obtain ⟨m, hm, hmj⟩ := ht.removed hl.isVar (hl.sub j hj) (h3 x hx (fun e' => hxv (by rw [e'])) j hj)
        refine ⟨m, mem_addNode.2 (Or.inl hm), ?_, hmj⟩
        have := ht.index_le hm
        omega

theorem falseNow_addNode {s : BSt S} {l w : BLit} (h : FalseNow s w) : FalseNow (addNode s l) w := by
  intro j hj
  cases hx : ((addNode s l).cur w.var).getLsbD j
  · rfl
  · have := (cur_addNode.1 hx).1
    rw [h j hj] at this; cases this

theorem trueNow_addNode {s : BSt S} {l w : BLit} (h : TrueNow s w) : TrueNow (addNode s l) w :=
  fun j hj => h j (cur_addNode.1 hj).1

theorem trueNow_self {s : BSt S} {l : BLit} : TrueNow (addNode s l) l := fun _ hj => (cur_addNode.1 hj).2 rfl

theorem falseNow_addNode_ne {s : BSt S} {l w : BLit} (hne : w.var ≠ l.var) (h : FalseNow (addNode s l) w) :
    FalseNow s w := by
  intro j hj
  cases hx : (s.cur w.var).getLsbD j
  · rfl
  · have := h j hj
    rw [cur_addNode.2 ⟨hx, fun e => absurd e hne⟩] at this; cases this

theorem rmL_addNode {s : BSt S} {l : BLit} {k : Int} {v j : Nat} (h : RmL s k v j) : RmL (addNode s l) k v j := by
  obtain ⟨n, hn, h1⟩ := h
  exact ⟨n, mem_addNode.2 (Or.inl hn), h1⟩

theorem rmL_addNode_low {s : BSt S} {l : BLit} {k : Int} (hk : k < s.LEVEL) {v j : Nat} :
    RmL (addNode s l) k v j ↔ RmL s k v j := by
  constructor
  · rintro ⟨n, hn, h1, h2⟩
    rcases mem_addNode.1 hn with hn | ⟨rfl, rfl⟩
    · exact ⟨n, hn, h1, h2⟩
    · dsimp only at h1; omega
  · exact rmL_addNode

theorem trueL_addNode {s : BSt S} {l w : BLit} {k : Int} (h : TrueL s k w) : TrueL (addNode s l) k w :=
  fun j hj hx => rmL_addNode (h j hj hx)

theorem store_addNode {s : BSt S} {l : BLit} (h : StoreInv s) : StoreInv (addNode s l) :=
  ⟨h.ptr_lt, h.ptr_inj, h.distinct, fun i hi l hl => ⟨(h.lok i hi l hl).1, (h.lok i hi l hl).2, (h.lok i hi l hl).3⟩,
    h.wok, h.recs, h.nodup⟩

/-- The watch invariant just after the new node, with all records of the variable still to visit.  `s.units` may contain
a clause that was taken from the queue and is made true by the node. -/
theorem addNode_watch {s : BSt S} {v0 : Nat} (ht : TrailInv s) (hst : StoreInv s) (h : WatchInv s v0 [])
    (hc : s.conflict = false) {l : BLit} (hl : LOK s l) (hnf : ¬ FalseNow s l) {u : List Nat} {x : Int}
    (hsub : ∀ id ∈ u, id ∈ s.units)
    (hpop : ∀ id ∈ s.units, id ∈ u ∨ l ∈ (s.cl id).lits) :
    WatchInv (addNode ({ s with units := u, unitClause := x } : BSt S) l) l.var (s.recs l.var) := by
  generalize hs1 : addNode ({ s with units := u, unitClause := x } : BSt S) l = s1
  have hcl : ∀ i, s1.cl i = s.cl i := by intro i; subst hs1; rfl
  have hncl : s1.ncl = s.ncl := by subst hs1; rfl
  have hL : s1.LEVEL = s.LEVEL := by subst hs1; rfl
  have hun : s1.units = u := by subst hs1; rfl
  have hsz : s1.size = s.size := by subst hs1; rfl
  have hfm : ∀ w, FalseNow s w → FalseNow s1 w := by
    intro w hw
    subst hs1
    exact falseNow_addNode (s := { s with units := u, unitClause := x }) hw
  have hfne : ∀ w : BLit, w.var ≠ l.var → FalseNow s1 w → FalseNow s w := by
    intro w hne hw
    subst hs1
    exact falseNow_addNode_ne (s := { s with units := u, unitClause := x }) hne hw
  have htm : ∀ w, TrueNow s w → TrueNow s1 w := by
    intro w hw
    subst hs1
    exact trueNow_addNode (s := { s with units := u, unitClause := x }) hw
  have htl : TrueNow s1 l := by subst hs1; exact trueNow_self
  have hrl : ∀ k, k < s.LEVEL → ∀ v j, RmL s1 k v j ↔ RmL s k v j := by
    intro k hk v j
    subst hs1
    exact rmL_addNode_low (s := { s with units := u, unitClause := x }) hk
  have hrm : ∀ k v j, RmL s k v j → RmL s1 k v j := by
    intro k v j hr
    subst hs1
    exact rmL_addNode (s := { s with units := u, unitClause := x }) hr
  have ht1 : TrailInv s1 := by
    subst hs1
    exact addNode_trail (s := { s with units := u, unitClause := x }) (ht.congr rfl rfl rfl rfl rfl rfl) hl.isVar hnf
  have hnode : ∀ w : BLit, w.var = l.var → FalseNow s1 w → ¬ FalseNow s w → (s1.node w).index = s1.atomIndex := by
    intro w hwv h1 h2
    have : ∃ j, w.vals.getLsbD j = true ∧ (s.cur w.var).getLsbD j = true := by
      apply Classical.byContradiction
      intro hn
      apply h2
      intro j hj
      cases hx : (s.cur w.var).getLsbD j
      · rfl
      · exact absurd ⟨j, hj, hx⟩ hn
    obtain ⟨j, hj, hcj⟩ := this
    have hch : (s.cur l.var &&& ~~~ l.vals).getLsbD j = true := by
      rw [andnot_bit]
      rw [hwv] at hcj
      refine ⟨hcj, ?_⟩
      cases hx : l.vals.getLsbD j
      · rfl
      · have h3 := h1 j hj
        subst hs1
        rw [hwv, cur_addNode (s := { s with units := u, unitClause := x }) |>.2 ⟨hcj, fun _ => hx⟩] at h3
        cases h3
    subst hs1
    unfold BSt.node getNode
    rw [hwv]
    show ((upd s.nodes l.var (_ :: s.nodes l.var) l.var).find? _ |>.getD _).index = s.atomIndex + 1
    rw [upd, if_pos rfl, List.find?_cons_of_pos]
    · rfl
    · exact decide_eq_true ((ne_zero_iff _).2 ⟨j, (and_bit _ _ _).2 ⟨hch, hj⟩⟩)
  have hrec : ∀ id, id < s.ncl → ∀ w, IsW (s.cl id) w → w.var = l.var → id ∈ s.recs l.var :=
    fun id hid w hw hv => (hst.recs l.var id).2 ⟨hid, w, hw, hv⟩
  have hcf : s1.conflict = false := by subst hs1; exact hc
  clear hs1
  refine ⟨?_, ?_, ?_, ?_, ?_, ?_, ?_⟩
  · intro id hid w w' h1 h2 hne k hk hf
    rw [hcl] at h1 h2
    rw [hncl] at hid
    rw [hL] at hk
    have := h.low id hid w w' h1 h2 hne k hk (fun j hj => (hrl k hk _ _).1 (hf j hj))
    intro j hj hx
    rw [hsz] at hj
    exact (hrl k hk _ _).2 (this j hj hx)
  · intro _ id hid w w' h1 h2 hne hf
    rw [hcl] at h1 h2
    rw [hncl] at hid
    rw [hcl, hun]
    by_cases hwv : w.var = l.var
    · exact Or.inl ⟨hwv, hrec id hid w h1 hwv⟩
    · right
      rcases h.top hc id hid w w' h1 h2 hne (hfne w hwv hf) with ⟨_, h3⟩ | h3 | ⟨h3, h4⟩
      · cases h3
      · exact Or.inl (htm w' h3)
      · rcases hpop id h3 with h5 | h5
        · exact Or.inr ⟨h5, fun y hy hne' => hfm y (h4 y hy hne')⟩
        · left
          have : l = w' := by
            apply Classical.byContradiction
            intro hne'
            exact hnf (h4 l h5 hne')
          rw [← this]; exact htl
  · intro _ id hid w w' h1 h2 hne hf hf'
    rw [hcl] at h1 h2
    rw [hncl] at hid
    by_cases hwv : w.var = l.var
    · exact hrec id hid w h1 hwv
    · by_cases hwv' : w'.var = l.var
      · exact hrec id hid w' h2 hwv'
      · exact absurd (h.both hc id hid w w' h1 h2 hne (hfne w hwv hf) (hfne w' hwv' hf')) (by simp)
  · intro _ id _ w w' hlt h1 h2 hne hwv hf hf'
    rw [hcl] at h1 h2
    rw [hncl] at hlt
    have hwv' : w'.var ≠ l.var := fun e => (hst.wok id hlt).var_ne h1 h2 hne (hwv.trans e.symm)
    have hnw : ¬ FalseNow s w := by
      intro hfw
      exact absurd (h.both hc id hlt w w' h1 h2 hne hfw (hfne w' hwv' hf')) (by simp)
    exact hnode w hwv hf hnw
  · intro id hid
    rw [hun] at hid
    obtain ⟨h1, l0, h2, h3⟩ := h.units id (hsub id hid)
    rw [hncl, hcl]
    exact ⟨h1, l0, h2, fun y hy hne => hfm y (h3 y hy hne)⟩
  · rcases h.single with h1 | h1
    · rw [hc] at h1; cases h1.1
    · right
      intro id hid a ha
      rw [hncl] at hid
      rw [hcl] at ha
      rw [hun, hL]
      have hwa : IsW (s.cl id) a := by
        rcases hst.wok id hid with ⟨y, h2, h3, _⟩ | ⟨h2, _⟩
        · rw [ha] at h2; cases h2; exact Or.inl h3
        · rw [ha] at h2; simp at h2
      rcases h1 id hid a ha with h2 | ⟨_, h2, _⟩ | ⟨h2, h3, h4⟩
      · left
        intro j hj hx
        rw [hsz] at hj
        exact hrm _ _ _ (h2 j hj hx)
      · cases h2
      · by_cases hav : a.var = l.var
        · exact Or.inr (Or.inl ⟨hav, hrec id hid a hwa hav, h3⟩)
        · rcases hpop id h2 with h5 | h5
          · exact Or.inr (Or.inr ⟨h5, h3, fun hf => h4 (hfne a hav hf)⟩)
          · rw [ha, List.mem_singleton] at h5
            exact absurd (h5 ▸ rfl) hav
  · intro h1; rw [hcf] at h1; cases h1

/-! ## The invariants together -/

/-- What holds between the steps of the search. -/
structure BInv (s : BSt S) : Prop where
  trail : TrailInv s
  reason : ReasonInv s
  store : StoreInv s
  watch : WatchInv s 0 []

theorem WatchInv.any {s : BSt S} {v : Nat} (h : WatchInv s v []) (v' : Nat) : WatchInv s v' [] where
  low := h.low
  top := by
    intro hc id hid w w' h1 h2 hne hf
    rcases h.top hc id hid w w' h1 h2 hne hf with ⟨_, h3⟩ | h3
    · cases h3
    · exact Or.inr h3
  both := h.both
  old := by intro _ id hid; cases hid
  units := h.units
  single := by
    rcases h.single with h1 | h1
    · exact Or.inl h1
    · right
      intro id hid a ha
      rcases h1 id hid a ha with h2 | ⟨_, h2, _⟩ | h2
      · exact Or.inl h2
      · cases h2
      · exact Or.inr (Or.inr h2)
  confl := h.confl

/-- The same clauses and variables; nodes only added, none below the level. -/
structure Ext (s s' : BSt S) : Prop where
  nv : s'.nv = s.nv
  size : s'.size = s.size
  score : s'.score = s.score
  nheap : s'.nheap = s.nheap
  ptr : s'.ptr = s.ptr
  ncl : s'.ncl = s.ncl
  LEVEL : s'.LEVEL = s.LEVEL
  nBacktracks : s'.nBacktracks = s.nBacktracks
  nDecisions : s'.nDecisions = s.nDecisions
  nRestarts : s'.nRestarts = s.nRestarts
  ticks : s'.ticks = s.ticks
  lits : ∀ id, (s'.cl id).lits = (s.cl id).lits
  nodes : ∀ v, ∃ ns, s'.nodes v = ns ++ s.nodes v ∧ ∀ n ∈ ns, n.level = s.LEVEL
  cur : ∀ v j, (s'.cur v).getLsbD j = true → (s.cur v).getLsbD j = true

theorem Ext.refl (s : BSt S) : Ext s s :=
  ⟨rfl, rfl, rfl, rfl, rfl, rfl, rfl, rfl, rfl, rfl, rfl, fun _ => rfl, fun _ => ⟨[], rfl, by simp⟩, fun _ _ h => h⟩

theorem Ext.trans {s s' s'' : BSt S} (h : Ext s s') (h' : Ext s' s'') : Ext s s'' where
  nv := h'.nv.trans h.nv
  size := h'.size.trans h.size
  score := h'.score.trans h.score
  nheap := h'.nheap.trans h.nheap
  ptr := h'.ptr.trans h.ptr
  ncl := h'.ncl.trans h.ncl
  LEVEL := h'.LEVEL.trans h.LEVEL
  nBacktracks := h'.nBacktracks.trans h.nBacktracks
  nDecisions := h'.nDecisions.trans h.nDecisions
  nRestarts := h'.nRestarts.trans h.nRestarts
  ticks := h'.ticks.trans h.ticks
  lits := fun id => (h'.lits id).trans (h.lits id)
  nodes := by
    intro v
    obtain ⟨ns, e, h1⟩ := h.nodes v
    obtain ⟨ns', e', h2⟩ := h'.nodes v
    refine ⟨ns' ++ ns, by rw [e', e, List.append_assoc], ?_⟩
    intro n hn
    rcases List.mem_append.1 hn with hn | hn
    · rw [h2 n hn, h.LEVEL]
    · exact h1 n hn
  cur := fun v j hj => h.cur v j (h'.cur v j hj)

theorem Frame.ext {s s' : BSt S} (h : Frame s s') : Ext s s' where
  nv := h.nv
  size := h.size
  score := h.score
  nheap := h.nheap
  ptr := h.ptr
  ncl := h.ncl
  LEVEL := h.LEVEL
  nBacktracks := h.nBacktracks
  nDecisions := h.nDecisions
  nRestarts := h.nRestarts
  ticks := h.ticks
  lits := h.lits
  nodes := fun v => ⟨[], by rw [h.nodes]; rfl, by simp⟩
  cur := fun v j hj => by rw [h.cur] at hj; exact hj

theorem addNode_ext (s : BSt S) (l : BLit) : Ext s (addNode s l) where
  nv := rfl
  size := rfl
  score := rfl
  nheap := rfl
  ptr := rfl
  ncl := rfl
  LEVEL := rfl
  nBacktracks := rfl
  nDecisions := rfl
  nRestarts := rfl
  ticks := rfl
  lits := fun _ => rfl
  nodes := by
    intro v
    show ∃ ns, upd s.nodes l.var _ v = _ ∧ _
    unfold upd
    split
    · rename_i e
      subst e
      exact ⟨[_], rfl, by simp⟩
    · exact ⟨[], rfl, by simp⟩
  cur := fun _ _ hj => (cur_addNode.1 hj).1

/-- Number of values left. -/
def openVals (s : BSt S) : Nat :=
  ((List.range' 1 s.nv).flatMap fun v => (List.range 64).filter fun j => (s.cur v).getLsbD j).length

theorem filter_length_le {α : Type} {p q : α → Bool} : ∀ (L : List α), (∀ x ∈ L, p x = true → q x = true) →
    (L.filter p).length ≤ (L.filter q).length
  | [], _ => Nat.le_refl _
  | a :: L, h => by
    have ih := filter_length_le L fun x hx => h x (List.mem_cons_of_mem _ hx)
    have ha := h a List.mem_cons_self
    rw [List.filter_cons, List.filter_cons]
    cases hp : p a
    · cases hq : q a <;> simp <;> omega
    · rw [ha hp]; simp; omega

theorem filter_length_lt {α : Type} {p q : α → Bool} : ∀ (L : List α), (∀ x ∈ L, p x = true → q x = true) →
    (∃ x ∈ L, q x = true ∧ p x = false) → (L.filter p).length < (L.filter q).length
  | [], _, ⟨_, hx, _⟩ => by cases hx
  | a :: L, h, ⟨x, hx, h1, h2⟩ => by
    have ha := h a List.mem_cons_self
    have hle := filter_length_le L fun x hx => h x (List.mem_cons_of_mem _ hx)
    rw [List.filter_cons, List.filter_cons]
    rcases List.mem_cons.1 hx with rfl | hx
    · rw [h1, h2]; simp; omega
    · have ih := filter_length_lt L (fun x hx => h x (List.mem_cons_of_mem _ hx)) ⟨x, hx, h1, h2⟩
      cases hp : p a
      · cases hq : q a <;> simp <;> omega
      · rw [ha hp]; simp; omega

theorem flatMap_length_le {α : Type} {f g : Nat → List α} : ∀ (L : List Nat), (∀ v ∈ L, (f v).length ≤ (g v).length) →
    (L.flatMap f).length ≤ (L.flatMap g).length
  | [], _ => Nat.le_refl _
  | a :: L, h => by
    have ih := flatMap_length_le L fun x hx => h x (List.mem_cons_of_mem _ hx)
    have := h a List.mem_cons_self
    rw [List.flatMap_cons, List.flatMap_cons, List.length_append, List.length_append]
    omega

theorem flatMap_length_lt {α : Type} {f g : Nat → List α} : ∀ (L : List Nat), (∀ v ∈ L, (f v).length ≤ (g v).length) →
    (∃ v ∈ L, (f v).length < (g v).length) → (L.flatMap f).length < (L.flatMap g).length
  | [], _, ⟨_, hv, _⟩ => by cases hv
  | a :: L, h, ⟨v, hv, h1⟩ => by
    have ha := h a List.mem_cons_self
    have hle := flatMap_length_le L fun x hx => h x (List.mem_cons_of_mem _ hx)
    rw [List.flatMap_cons, List.flatMap_cons, List.length_append, List.length_append]
    rcases List.mem_cons.1 hv with rfl | hv
    · omega
    · have := flatMap_length_lt L (fun x hx => h x (List.mem_cons_of_mem _ hx)) ⟨v, hv, h1⟩
      omega

theorem Ext.openVals_le {s s' : BSt S} (h : Ext s s') : openVals s' ≤ openVals s := by
  unfold openVals
  rw [h.nv]
  exact flatMap_length_le _ fun v _ => filter_length_le _ fun j _ hj => h.cur v j hj

theorem addNode_openVals {s : BSt S} {l : BLit} (hv : s.IsVar l.var) (hnt : ¬ TrueNow s l) :
    openVals (addNode s l) < openVals s := by
  have hmem : l.var ∈ List.range' 1 s.nv := List.mem_range'_1.2 ⟨hv.1, by have := hv.2; omega⟩
  have : ∃ j, (s.cur l.var).getLsbD j = true ∧ l.vals.getLsbD j = false := by
    apply Classical.byContradiction
    intro hn
    apply hnt
    intro j hj
    cases hx : l.vals.getLsbD j
    · exact absurd ⟨j, hj, hx⟩ hn
    · rfl
  obtain ⟨j, h1, h2⟩ := this
  refine flatMap_length_lt _ (fun v _ => filter_length_le _ fun j _ hj => (cur_addNode.1 hj).1) ⟨l.var, hmem, ?_⟩
  refine filter_length_lt _ (fun j _ hj => (cur_addNode.1 hj).1) ⟨j, List.mem_range.2 (lt_of_bit h1), h1, ?_⟩
  cases hx : ((addNode s l).cur l.var).getLsbD j
  · rfl
  · have := (cur_addNode.1 hx).2 rfl
    rw [h2] at this; cases this

/-- `watchedReduceTheory`. -/
theorem breduce_spec {U : Prop} {s : BSt S} (h : BInv s) (hc : s.conflict = false) {l : BLit} (hl : LOK s l)
    (hnf : ¬ FalseNow s l) (hnt : ¬ TrueNow s l) {u : List Nat} {x : Int} (hsub : ∀ id ∈ u, id ∈ s.units)
    (hpop : ∀ id ∈ s.units, id ∈ u ∨ l ∈ (s.cl id).lits)
    (hr : ReasonOK ({ s with units := u, unitClause := x } : BSt S) l)
    (hU : OneOK U (addNode ({ s with units := u, unitClause := x } : BSt S) l) l.var) :
    SatU U (breduce ({ s with units := u, unitClause := x } : BSt S) l) fun s' =>
      BInv s' ∧ Ext s s' ∧ openVals s' < openVals s ∧ TrueNow s' l ∧ Frame (addNode ({ s with units := u, unitClause := x } : BSt S) l) s' := by
  have ht' : TrailInv ({ s with units := u, unitClause := x } : BSt S) := h.trail.congr rfl rfl rfl rfl rfl rfl
  have hst' : StoreInv ({ s with units := u, unitClause := x } : BSt S) :=
    ⟨h.store.ptr_lt, h.store.ptr_inj, h.store.distinct,
      fun i hi l hl => ⟨(h.store.lok i hi l hl).1, (h.store.lok i hi l hl).2, (h.store.lok i hi l hl).3⟩,
      h.store.wok, h.store.recs, h.store.nodup⟩
  have hrs' : ReasonInv ({ s with units := u, unitClause := x } : BSt S) := h.reason.congr rfl rfl fun _ => rfl
  have hw := addNode_watch h.trail h.store h.watch hc hl hnf (x := x) hsub hpop
  have ht := addNode_trail ht' hl.isVar hnf
  have hrs := addNode_reason ht' hst' hrs' hr
  rw [breduce_eq, if_neg (fun e => hnt (change_iff.1 e))]
  have hopen := addNode_openVals (s := ({ s with units := u, unitClause := x } : BSt S)) hl.isVar hnt
  refine (updateList_spec (s.recs l.var) ⟨ht, store_addNode hst', hw, h.store.nodup _, fun id hid => hid⟩ hU).mono ?_
  rintro s' ⟨hu, hf⟩
  have he : Ext s (addNode ({ s with units := u, unitClause := x } : BSt S) l) := by
    have := addNode_ext ({ s with units := u, unitClause := x } : BSt S) l
    exact ⟨this.1, this.2, this.3, this.4, this.5, this.6, this.7, this.8, this.9, this.10, this.11, this.12, this.13, this.14⟩
  refine ⟨⟨hu.trail, hf.reason hrs, hu.store, hu.watch.any 0⟩, he.trans hf.ext, ?_, ?_, hf⟩
  · have h1 := hf.ext.openVals_le
    have h2 : openVals ({ s with units := u, unitClause := x } : BSt S) = openVals s := rfl
    omega
  · rw [TrueNow.congr hf.cur]; exact trueNow_self

end Mvl.BV
