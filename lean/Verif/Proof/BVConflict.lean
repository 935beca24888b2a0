import Verif.Proof.BVAnalyze

/-!
# Bit-vector variant: the state after a conflict
-/

namespace Mvl.BV

variable {S : Type}

/-- `t` is `s` with the clause `c` learned and everything above level `k` undone. -/
structure Back (s t : BSt S) (c : BCls) (k : Int) : Prop where
  nv : t.nv = s.nv
  size : t.size = s.size
  nodes : ∀ v, t.nodes v = (s.nodes v).filter fun n => n.level ≤ k
  LEVEL : t.LEVEL = k
  ncl : t.ncl = s.ncl + 1
  nheap : t.nheap = s.nheap + 1
  ptr : t.ptr = upd s.ptr s.ncl s.nheap
  old : ∀ id, id < s.ncl → t.cl id = s.cl id
  new : t.cl s.ncl = c
  conflict : t.conflict = false
  units : t.units = [s.ncl]
  recs : ∀ v, t.recs v = s.recs v ∧ (¬ ∃ w, IsW c w ∧ w.var = v) ∨ t.recs v = s.ncl :: s.recs v ∧ ∃ w, IsW c w ∧ w.var = v
  trail : TrailInv t

theorem Back.mem {s t : BSt S} {c : BCls} {k : Int} (h : Back s t c k) {v : Nat} {n : Node} :
    n ∈ t.nodes v ↔ n ∈ s.nodes v ∧ n.level ≤ k := by
  rw [h.nodes v, List.mem_filter, decide_eq_true_eq]

theorem Back.rm {s t : BSt S} {c : BCls} {k : Int} (h : Back s t c k) {k' : Int} (hk : k' ≤ k) {v j : Nat} :
    RmL t k' v j ↔ RmL s k' v j := by
  constructor
  · rintro ⟨n, hn, h1, h2⟩
    exact ⟨n, (h.mem.1 hn).1, h1, h2⟩
  · rintro ⟨n, hn, h1, h2⟩
    exact ⟨n, h.mem.2 ⟨hn, by omega⟩, h1, h2⟩

theorem Back.falseL {s t : BSt S} {c : BCls} {k : Int} (h : Back s t c k) {k' : Int} (hk : k' ≤ k) {l : BLit} :
    FalseL t k' l ↔ FalseL s k' l :=
  ⟨fun h1 j hj => (h.rm hk).1 (h1 j hj), fun h1 j hj => (h.rm hk).2 (h1 j hj)⟩

theorem Back.trueL {s t : BSt S} {c : BCls} {k : Int} (h : Back s t c k) {k' : Int} (hk : k' ≤ k) {l : BLit} :
    TrueL t k' l ↔ TrueL s k' l := by
  unfold TrueL
  rw [h.size]
  exact ⟨fun h1 j hj hx => (h.rm hk).1 (h1 j hj hx), fun h1 j hj hx => (h.rm hk).2 (h1 j hj hx)⟩

theorem Back.isVar {s t : BSt S} {c : BCls} {k : Int} (h : Back s t c k) {v : Nat} : t.IsVar v ↔ s.IsVar v := by
  unfold BSt.IsVar; rw [h.nv]

theorem Back.lok {s t : BSt S} {c : BCls} {k : Int} (h : Back s t c k) {l : BLit} (hl : LOK s l) : LOK t l :=
  ⟨h.isVar.2 hl.1, by rw [h.size]; exact hl.2, hl.3⟩

theorem Back.falseNow {s t : BSt S} {c : BCls} {k : Int} (h : Back s t c k) {l : BLit} (hl : LOK s l) :
    FalseNow t l ↔ FalseL s k l := by
  rw [h.trail.falseL_iff (h.lok hl), h.LEVEL, h.falseL (Int.le_refl _)]

theorem Back.trueNow {s t : BSt S} {c : BCls} {k : Int} (h : Back s t c k) {l : BLit} (hl : LOK s l)
    (ht : TrueL s k l) : TrueNow t l :=
  h.trail.trueNow_of_trueL (h.lok hl).isVar ((h.trueL (Int.le_refl _)).2 ht)

theorem AC.wok {s : BSt S} {c : BCls} (h : AC s c) : WOK c := by
  rcases h.shape with h1 | ⟨h1, a, b, h2, h3, h4, h5, h6, _⟩
  · exact Or.inl h1
  · exact Or.inr ⟨h1, a, b, h2, h3, h4, h5, h6⟩

/-- The level the search returns to. -/
def BackLevel (s : BSt S) (c : BCls) (k : Int) : Prop :=
  (c.lits.length = 1 ∧ k = 0) ∨ (1 < c.lits.length ∧ ∃ b, c.w1 = some b ∧ k = (s.node b).level)

theorem BackLevel.range {s : BSt S} (ht : TrailInv s) {c : BCls} (hc : AC s c) (hp : Potent s c) (hL : s.LEVEL ≠ 0) {k : Int}
    (h : BackLevel s c k) : 0 ≤ k ∧ k < s.LEVEL := by
  have h0 := ht.level0
  rcases h with ⟨_, rfl⟩ | ⟨hlen, b, hb, rfl⟩
  · omega
  · rcases hp with h1 | ⟨b', hb', h1⟩
    · omega
    · rw [hb] at hb'; cases hb'
      obtain ⟨h2, h3⟩ := hc.ok b (hc.wok.mem (Or.inr hb))
      exact ⟨(ht.pos _ _ (ht.node_spec h2 h3).1).2.1, h1⟩

/-- The first watch is not false at the level returned to; the others are. -/
theorem BackLevel.w0 {s : BSt S} (ht : TrailInv s) {c : BCls} (hc : AC s c) (hp : Potent s c) (hL : s.LEVEL ≠ 0) {k : Int}
    (h : BackLevel s c k) : ∃ a, c.w0 = some a ∧ a ∈ c.lits ∧ (∀ k', k' ≤ k → ¬ FalseL s k' a) ∧
      ∀ l ∈ c.lits, l ≠ a → FalseL s k l := by
  obtain ⟨a, ha, hma, hlev, _⟩ := hc.w0 ht
  have hk := h.range ht hc hp hL
  refine ⟨a, ha, hma, ?_, ?_⟩
  · intro k' hk' hf
    have := ht.level_le_of_falseL (hc.ok a hma).1 hf
    omega
  · intro l hl hne
    rcases hc.shape with ⟨x, h1, h2, _⟩ | ⟨hlen, x, b, h1, h2, h3, h4, h5, h6, h7⟩
    · rw [ha] at h2; cases h2
      rw [h1, List.mem_singleton] at hl
      exact absurd hl hne
    · rw [ha] at h1; cases h1
      rcases h with ⟨h8, _⟩ | ⟨_, b', hb', rfl⟩
      · omega
      rw [h2] at hb'; cases hb'
      obtain ⟨h8, h9⟩ := hc.ok l hl
      obtain ⟨h10, h11⟩ := hc.ok b h4
      have h12 := ht.falseL_node h8 h9
      have hn := (ht.node_spec h8 h9).1
      have hnb := (ht.node_spec h10 h11).1
      have h13 : (s.node l).level ≤ (s.node b).level := by
        have h14 := h7 l hl hne
        by_cases h15 : (s.node l).index = (s.node b).index
        · rw [ht.mem_eq hn hnb h15]; exact Int.le_refl _
        · exact ht.lev _ _ _ hn _ hnb (by omega)
      intro j hj
      obtain ⟨n, hn, h14, h15⟩ := h12 j hj
      exact ⟨n, hn, by omega, h15⟩

/-- The second watch becomes false exactly at level `k`. -/
theorem BackLevel.w1 {s : BSt S} (ht : TrailInv s) {c : BCls} (hc : AC s c) {k : Int} (h : BackLevel s c k) {b : BLit}
    (hb : c.w1 = some b) {k' : Int} (hk : k' < k) : ¬ FalseL s k' b := by
  intro hf
  have := ht.level_le_of_falseL (hc.ok b (hc.wok.mem (Or.inr hb))).1 hf
  rcases h with ⟨h1, _⟩ | ⟨_, b', hb', rfl⟩
  · rcases hc.shape with ⟨x, _, _, h3⟩ | ⟨h2, _⟩
    · rw [h3] at hb; cases hb
    · omega
  · rw [hb] at hb'; cases hb'
    omega

theorem Back.cl_cases {s t : BSt S} {c : BCls} {k : Int} (h : Back s t c k) {id : Nat} (hid : id < t.ncl) :
    (id < s.ncl ∧ t.cl id = s.cl id) ∨ (id = s.ncl ∧ t.cl id = c) := by
  rw [h.ncl] at hid
  by_cases h1 : id < s.ncl
  · exact Or.inl ⟨h1, h.old id h1⟩
  · have : id = s.ncl := by omega
    subst this
    exact Or.inr ⟨rfl, h.new⟩

theorem Back.reason {s t : BSt S} (hs : BInv s) {c : BCls} {k : Int} (h : Back s t c k) : ReasonInv t where
  range v n hn := hs.reason.range v n (h.mem.1 hn).1
  dec v n hn hr := by
    obtain ⟨h1, h2⟩ := hs.reason.dec v n (h.mem.1 hn).1 hr
    exact ⟨h1, fun w m hm => h2 w m (h.mem.1 hm).1⟩
  cls v n hn id hr := by
    obtain ⟨hn1, hnk⟩ := h.mem.1 hn
    obtain ⟨h1, h2, h3⟩ := hs.reason.cls v n hn1 id hr
    refine ⟨by rw [h.ncl]; omega, by rw [h.old id h1]; exact h2, ?_⟩
    rw [h.old id h1]
    intro l hl hne j hj
    obtain ⟨m, hm, h4, h5⟩ := h3 l hl hne j hj
    have := hs.trail.lev _ _ m hm n hn1 h4
    exact ⟨m, h.mem.2 ⟨hm, by omega⟩, h4, h5⟩

theorem Back.store {s t : BSt S} (hs : BInv s) {c : BCls} {k : Int} (h : Back s t c k) (hc : AC s c) : StoreInv t where
  ptr_lt id hid := by
    rw [h.ptr, h.nheap]
    unfold upd
    rw [h.ncl] at hid
    by_cases e : id = s.ncl
    · rw [if_pos e]; omega
    · rw [if_neg e]; have := hs.store.ptr_lt id (by omega); omega
  ptr_inj i j hi hj he := by
    rw [h.ptr] at he
    unfold upd at he
    rw [h.ncl] at hi hj
    by_cases e1 : i = s.ncl <;> by_cases e2 : j = s.ncl
    · omega
    · rw [if_pos e1, if_neg e2] at he
      have := hs.store.ptr_lt j (by omega); omega
    · rw [if_neg e1, if_pos e2] at he
      have := hs.store.ptr_lt i (by omega); omega
    · rw [if_neg e1, if_neg e2] at he
      exact hs.store.ptr_inj i j (by omega) (by omega) he
  distinct id hid := by
    rcases h.cl_cases hid with ⟨h1, e⟩ | ⟨_, e⟩ <;> rw [e]
    · exact hs.store.distinct id h1
    · exact hc.distinct
  lok id hid l hl := by
    rcases h.cl_cases hid with ⟨h1, e⟩ | ⟨_, e⟩ <;> rw [e] at hl
    · exact h.lok (hs.store.lok id h1 l hl)
    · exact h.lok (hc.ok l hl).1
  wok id hid := by
    rcases h.cl_cases hid with ⟨h1, e⟩ | ⟨_, e⟩ <;> rw [e]
    · exact hs.store.wok id h1
    · exact hc.wok
  recs v id := by
    have hlt : ∀ i, i ∈ s.recs v → i < s.ncl := fun i hi => ((hs.store.recs v i).1 hi).1
    constructor
    · intro hm
      have hm' : id ∈ s.recs v ∨ (id = s.ncl ∧ ∃ w, IsW c w ∧ w.var = v) := by
        rcases h.recs v with ⟨e, _⟩ | ⟨e, hw⟩ <;> rw [e] at hm
        · exact Or.inl hm
        · rcases List.mem_cons.1 hm with h1 | h1
          · exact Or.inr ⟨h1, hw⟩
          · exact Or.inl h1
      rcases hm' with hm' | ⟨e, hw⟩
      · have h1 := hlt id hm'
        refine ⟨by rw [h.ncl]; omega, ?_⟩
        rw [h.old id h1]
        exact ((hs.store.recs v id).1 hm').2
      · rw [e, h.ncl, h.new]
        exact ⟨by omega, hw⟩
    · rintro ⟨hid, hw⟩
      rcases h.cl_cases hid with ⟨h1, e⟩ | ⟨h1, e⟩ <;> rw [e] at hw
      · have := (hs.store.recs v id).2 ⟨h1, hw⟩
        rcases h.recs v with ⟨e', _⟩ | ⟨e', _⟩ <;> rw [e']
        · exact this
        · exact List.mem_cons_of_mem _ this
      · rcases h.recs v with ⟨e', h2⟩ | ⟨e', _⟩
        · exact absurd hw h2
        · rw [e', h1]; exact List.mem_cons_self
  nodup v := by
    rcases h.recs v with ⟨e, _⟩ | ⟨e, _⟩ <;> rw [e]
    · exact hs.store.nodup v
    · rw [List.nodup_cons]
      refine ⟨fun hm => ?_, hs.store.nodup v⟩
      have := ((hs.store.recs v _).1 hm).1
      omega

theorem isW_pair {c : BCls} {a : BLit} (ha : c.w0 = some a) {w w' : BLit} (hw : IsW c w) (hw' : IsW c w') (hne : w ≠ w') :
    (w = a ∧ c.w1 = some w') ∨ (w' = a ∧ c.w1 = some w) := by
  rcases hw with hw | hw <;> rcases hw' with hw' | hw'
  · rw [hw] at hw'; cases hw'; exact absurd rfl hne
  · rw [ha] at hw; cases hw; exact Or.inl ⟨rfl, hw'⟩
  · rw [ha] at hw'; cases hw'; exact Or.inr ⟨rfl, hw⟩
  · rw [hw] at hw'; cases hw'; exact absurd rfl hne

theorem Back.watch {s t : BSt S} (hs : BInv s) {c : BCls} {k : Int} (h : Back s t c k) (hc : AC s c) (hp : Potent s c)
    (hL : s.LEVEL ≠ 0) (hk : BackLevel s c k) : WatchInv t 0 [] := by
  obtain ⟨a, ha, hma, hna, hoth⟩ := hk.w0 hs.trail hc hp hL
  obtain ⟨hk0, hkL⟩ := hk.range hs.trail hc hp hL
  have hlok : ∀ id, id < s.ncl → ∀ w, IsW (s.cl id) w → LOK s w := fun id hid w hw =>
    hs.store.lok id hid w ((hs.store.wok id hid).mem hw)
  have hclok : ∀ w, IsW c w → LOK s w := fun w hw => (hc.ok w (hc.wok.mem hw)).1
  refine ⟨?_, ?_, ?_, ?_, ?_, ?_, ?_⟩
  · intro id hid w w' hw hw' hne k' hk' hf
    rw [h.LEVEL] at hk'
    rw [h.falseL (by omega)] at hf
    rw [h.trueL (by omega)]
    rcases h.cl_cases hid with ⟨h1, e⟩ | ⟨_, e⟩ <;> rw [e] at hw hw'
    · exact hs.watch.low id h1 w w' hw hw' hne k' (by omega) hf
    · rcases isW_pair ha hw hw' hne with ⟨e1, e2⟩ | ⟨e1, e2⟩
      · rw [e1] at hf; exact absurd hf (hna k' (by omega))
      · exact absurd hf (hk.w1 hs.trail hc e2 hk')
  · intro _ id hid w w' hw hw' hne hf
    rcases h.cl_cases hid with ⟨h1, e⟩ | ⟨h1, e⟩ <;> rw [e] at hw hw'
    · rw [h.falseNow (hlok id h1 w hw)] at hf
      exact Or.inr (Or.inl (h.trueNow (hlok id h1 w' hw') (hs.watch.low id h1 w w' hw hw' hne k hkL hf)))
    · rw [h.falseNow (hclok w hw)] at hf
      rcases isW_pair ha hw hw' hne with ⟨e1, e2⟩ | ⟨e1, e2⟩
      · rw [e1] at hf; exact absurd hf (hna k (Int.le_refl _))
      · refine Or.inr (Or.inr ⟨by rw [h.units, h1]; simp, ?_⟩)
        rw [e]
        intro l hl hne'
        rw [e1] at hne'
        exact (h.falseNow (hc.ok l hl).1).2 (hoth l hl hne')
  · intro _ id hid w w' hw hw' hne hf hf'
    exfalso
    rcases h.cl_cases hid with ⟨h1, e⟩ | ⟨h1, e⟩ <;> rw [e] at hw hw'
    · rw [h.falseNow (hlok id h1 w hw)] at hf
      exact h.trail.not_both (h.lok (hlok id h1 w' hw')).isVar
        (h.trueNow (hlok id h1 w' hw') (hs.watch.low id h1 w w' hw hw' hne k hkL hf)) hf'
    · rw [h.falseNow (hclok w hw)] at hf
      rw [h.falseNow (hclok w' hw')] at hf'
      rcases isW_pair ha hw hw' hne with ⟨e1, _⟩ | ⟨e1, _⟩
      · rw [e1] at hf; exact hna k (Int.le_refl _) hf
      · rw [e1] at hf'; exact hna k (Int.le_refl _) hf'
  · intro _ id hid; cases hid
  · intro id hid
    rw [h.units, List.mem_singleton] at hid
    subst hid
    refine ⟨by rw [h.ncl]; omega, a, by rw [h.new]; exact hma, ?_⟩
    rw [h.new]
    intro l hl hne
    exact (h.falseNow (hc.ok l hl).1).2 (hoth l hl hne)
  · right
    intro id hid x hx
    rcases h.cl_cases hid with ⟨h1, e⟩ | ⟨h1, e⟩ <;> rw [e] at hx
    · rcases hs.watch.single with ⟨_, h2⟩ | h2
      · exact absurd h2 hL
      · rcases h2 id h1 x hx with h3 | ⟨_, h3, _⟩ | ⟨_, h3, _⟩
        · exact Or.inl ((h.trueL hk0).2 h3)
        · cases h3
        · exact absurd h3 hL
    · refine Or.inr (Or.inr ⟨by rw [h.units, h1]; simp, ?_, ?_⟩)
      · rw [h.LEVEL]
        rcases hk with ⟨_, h2⟩ | ⟨h2, _⟩
        · exact h2
        · rw [hx] at h2; simp at h2
      · rw [hx, List.mem_singleton] at hma
        subst hma
        rw [h.falseNow (hc.ok a (by rw [hx]; simp)).1]
        exact hna k (Int.le_refl _)
  · intro h1; rw [h.conflict] at h1; cases h1

theorem Back.inv {s t : BSt S} (hs : BInv s) {c : BCls} {k : Int} (h : Back s t c k) (hc : AC s c) (hp : Potent s c)
    (hL : s.LEVEL ≠ 0) (hk : BackLevel s c k) : BInv t :=
  ⟨h.trail, h.reason hs, h.store hs hc, h.watch hs hc hp hL hk⟩

theorem Back.head {s t : BSt S} (hs : BInv s) {c : BCls} {k : Int} (h : Back s t c k) (hc : AC s c) (hp : Potent s c)
    (hL : s.LEVEL ≠ 0) (hk : BackLevel s c k) : HeadOK False t := by
  right; left
  intro id hid x hx
  obtain ⟨hk0, _⟩ := hk.range hs.trail hc hp hL
  rcases h.cl_cases hid with ⟨h1, e⟩ | ⟨h1, e⟩
  · rw [e] at hx
    rcases hs.watch.single with ⟨_, h2⟩ | h2
    · exact absurd h2 hL
    · rcases h2 id h1 x hx with h3 | ⟨_, h3, _⟩ | ⟨_, h3, _⟩
      · left
        have hl := h.lok (hs.store.lok id h1 x (by rw [hx]; simp))
        exact h.trail.trueNow_of_trueL hl.isVar ((h.trueL hk0).2 h3)
      · cases h3
      · exact absurd h3 hL
  · right
    rw [h.units, h1]; rfl

/-- The same set of pairs variable-value. -/
def SameCl (c c' : List BLit) : Prop := ∀ v j, ClHas c v j ↔ ClHas c' v j

theorem SameCl.symm {c c' : List BLit} (h : SameCl c c') : SameCl c' c := fun v j => (h v j).symm

/-- The literal in the other clause. -/
theorem SameCl.lit {c c' : List BLit} (h : SameCl c c') (hd : Distinct c) (hd' : Distinct c') (hv : ∀ l ∈ c, ∃ j, l.vals.getLsbD j = true)
    {l : BLit} (hl : l ∈ c) : ∃ l' ∈ c', l'.var = l.var ∧ ∀ j, l'.vals.getLsbD j = l.vals.getLsbD j := by
  obtain ⟨j, hj⟩ := hv l hl
  obtain ⟨l', hl', hv', _⟩ := (h l.var j).1 ⟨l, hl, rfl, hj⟩
  refine ⟨l', hl', hv', fun j => ?_⟩
  have h1 := hd.has hl j
  have h2 := hd'.has hl' j
  rw [hv'] at h2
  have h3 := h l.var j
  rw [h1, h2] at h3
  cases e1 : l'.vals.getLsbD j <;> cases e2 : l.vals.getLsbD j <;> rw [e1, e2] at h3 <;> simp at h3 <;> rfl

/-- The learned clause is a new one. -/
theorem learned_new {s : BSt S} (hs : BInv s) {c : BCls} {k : Int} (hc : AC s c) (hp : Potent s c)
    (hL : s.LEVEL ≠ 0) (hk : BackLevel s c k) {id : Nat} (hid : id < s.ncl) : ¬ SameCl (s.cl id).lits c.lits := by
  intro he
  obtain ⟨a, ha, hma, hna, hoth⟩ := hk.w0 hs.trail hc hp hL
  obtain ⟨hk0, hkL⟩ := hk.range hs.trail hc hp hL
  have hd := hs.store.distinct id hid
  have hlok := hs.store.lok id hid
  have hlit : ∀ l ∈ (s.cl id).lits, ∃ l' ∈ c.lits, l'.var = l.var ∧ ∀ j, l'.vals.getLsbD j = l.vals.getLsbD j :=
    fun l hl => he.lit hd hc.distinct (fun x hx => (hlok x hx).some) hl
  have hfalse : ∀ l ∈ (s.cl id).lits, FalseNow s l := by
    intro l hl
    obtain ⟨l', hl', hv, hb⟩ := hlit l hl
    intro j hj
    rw [← hv]
    exact (hc.ok l' hl').2 j (by rw [hb]; exact hj)
  rcases hs.store.wok id hid with ⟨x, hx, _, _⟩ | ⟨hlen, x, y, hx, hy, hmx, hmy, hxy⟩
  · rcases hs.watch.single with ⟨_, h2⟩ | h2
    · exact hL h2
    · have hmx : x ∈ (s.cl id).lits := by rw [hx]; simp
      rcases h2 id hid x hx with h3 | ⟨_, h3, _⟩ | ⟨_, h3, _⟩
      · exact hs.trail.not_both (hlok x hmx).isVar (hs.trail.trueNow_of_trueL (hlok x hmx).isVar h3) (hfalse x hmx)
      · cases h3
      · exact hL h3
  · have key : ∀ w w', IsW (s.cl id) w → IsW (s.cl id) w' → w ≠ w' → w.var ≠ a.var → False := by
      intro w w' hw hw' hne hva
      have hmw := (hs.store.wok id hid).mem hw
      have hmw' := (hs.store.wok id hid).mem hw'
      obtain ⟨l', hl', hv, hb⟩ := hlit w hmw
      have hf : FalseL s k w := by
        intro j hj
        rw [← hv]
        exact hoth l' hl' (fun e => hva (by rw [← hv, e])) j (by rw [hb]; exact hj)
      have ht := hs.watch.low id hid w w' hw hw' hne k hkL hf
      exact hs.trail.not_both (hlok w' hmw').isVar (hs.trail.trueNow_of_trueL (hlok w' hmw').isVar ht) (hfalse w' hmw')
    have hne : x ≠ y := fun e => hxy (by rw [e])
    by_cases h1 : x.var = a.var
    · exact key y x (Or.inr hy) (Or.inl hx) hne.symm (fun e => hxy (h1.trans e.symm))
    · exact key x y (Or.inl hx) (Or.inr hy) hne h1

/-! ## The conflict part of the loop -/

theorem bbackLevel_spec {s s' : BSt S} {c : BCls} (hc : AC s c) (hn : s'.node = s.node) :
    ∃ k, bbackLevel s' c = .ok k ∧ BackLevel s c k := by
  unfold bbackLevel
  rcases hc.shape with ⟨a, h1, h2, h3⟩ | ⟨hlen, a, b, h1, h2, h3, h4, _⟩
  · rw [if_neg (by rw [h1]; simp)]
    exact ⟨0, rfl, Or.inl ⟨by rw [h1]; rfl, rfl⟩⟩
  · rw [if_pos hlen, h2]
    exact ⟨_, rfl, Or.inr ⟨hlen, b, h2, by rw [hn]⟩⟩

/-- The state after a conflict without restart. -/
def backState (s : BSt S) (k : Int) (ncl : Nat) : BSt S :=
  { bundo ({ s with LEVEL := k, nBacktracks := s.nBacktracks + 1, conflict := false } : BSt S) k with units := [ncl] }

theorem bconflict_eq (cfg : BCfg S) (f : Nat) (s : BSt S) (rc : Int) {id : Nat} (hid : id < s.ncl) (hcf : s.conflicting = id)
    (hrc : rc ≤ 0) : bconflict cfg f s rc = (banalyze cfg.arith f s (s.cl id) (some (s.ptr id)) >>= fun r =>
      bbackLevel r.1 r.2 >>= fun lv => .ok (backState r.1 lv (r.1.ncl - 1), rc)) := by
  unfold bconflict
  rw [hcf, if_neg (by omega)]
  show (banalyze cfg.arith f s (s.cl id) (some (s.ptr id)) >>= _) = _
  congr 1
  funext r
  show (bbackLevel r.1 r.2 >>= _) = _
  congr 1
  funext lv
  dsimp only
  rw [if_neg (by omega)]
  rfl

theorem back_of_learn (A : ScoreArith S) {s : BSt S} (hs : BInv s) {c : BCls} {k : Int} (hc : AC s c) (hp : Potent s c)
    (hL : s.LEVEL ≠ 0) (hk : BackLevel s c k) {s1 : BSt S} (hl : blearn A s c none = .ok s1) :
    Back s (backState s1 k (s1.ncl - 1)) c k ∧ s1.node = s.node ∧ ∃ sc, (backState s1 k (s1.ncl - 1)).score = sc := by
  obtain ⟨sc, rs, e, hrs⟩ := blearn_eq A hc
  rw [hl] at e
  cases e
  obtain ⟨hk0, hkL⟩ := hk.range hs.trail hc hp hL
  have hout : ∀ v, ¬ s.IsVar v → s.nodes v = [] := hs.trail.out
  refine ⟨⟨rfl, rfl, ?_, rfl, rfl, rfl, rfl, ?_, ?_, rfl, ?_, hrs, ?_⟩, rfl, _, rfl⟩
  · intro v
    exact bundo_nodes (s := { withClause s c sc rs with LEVEL := k, nBacktracks := s.nBacktracks + 1, conflict := false })
      hs.trail.levels hout k v
  · intro id hid
    show upd s.heap s.nheap c (upd s.ptr s.ncl s.nheap id) = s.heap (s.ptr id)
    have := hs.store.ptr_lt id hid
    unfold upd
    rw [if_neg (show ¬ id = s.ncl by omega), if_neg (by omega)]
  · show upd s.heap s.nheap c (upd s.ptr s.ncl s.nheap s.ncl) = c
    unfold upd
    rw [if_pos rfl, if_pos rfl]
  · show [s.ncl + 1 - 1] = [s.ncl]
    rfl
  · have ht : TrailInv ({ withClause s c sc rs with LEVEL := s.LEVEL, nBacktracks := s.nBacktracks + 1, conflict := false } : BSt S) :=
      hs.trail.congr rfl rfl rfl rfl rfl rfl
    have := bundo_trail (s := { withClause s c sc rs with LEVEL := k, nBacktracks := s.nBacktracks + 1, conflict := false })
      (L := s.LEVEL) ht hk0 k
    exact this.congr rfl rfl rfl rfl rfl rfl

end Mvl.BV
