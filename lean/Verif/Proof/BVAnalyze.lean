import Verif.Proof.BVUndo

/-!
# Bit-vector variant: conflict analysis
-/

namespace Mvl.BV

variable {S : Type}

/-! ## One resolution step -/

theorem node_index_ne {s : BSt S} (ht : TrailInv s) {l l' : BLit} (hl : LOK s l) (hl' : LOK s l') (hf : FalseNow s l)
    (hf' : FalseNow s l') (hv : l.var ≠ l'.var) : (s.node l).index ≠ (s.node l').index := by
  intro e
  obtain ⟨h1, _⟩ := ht.node_spec hl hf
  obtain ⟨h2, _⟩ := ht.node_spec hl' hf'
  exact hv (ht.inj _ _ _ h1 _ h2 e)

theorem resolve_step {s : BSt S} (ht : TrailInv s) (hr : ReasonInv s) (hst : StoreInv s) {ls : List BLit}
    (hd : Distinct ls) (hok : ∀ l ∈ ls, LOK s l ∧ FalseNow s l) {a b : BLit} (ha : a ∈ ls) (hb : b ∈ ls)
    (hab : a.var ≠ b.var) (hmax : ∀ l ∈ ls, (s.node l).index ≤ (s.node a).index) (hlev : (s.node b).level = s.LEVEL) :
    ∃ id : Nat, (s.node a).reason = id ∧ id < s.ncl ∧
      Distinct (bresolve ls a (s.cl id).lits) ∧
      (∀ l ∈ bresolve ls a (s.cl id).lits, LOK s l ∧ FalseNow s l ∧ (s.node l).index < (s.node a).index) ∧
      (∃ l ∈ bresolve ls a (s.cl id).lits, (s.node l).level = s.LEVEL) ∧
      ∀ x : Assignment, (∀ i, i < s.ncl → CHolds x (s.cl i).lits) → CHolds x ls →
        CHolds x (bresolve ls a (s.cl id).lits) := by
  obtain ⟨hla, hfa⟩ := hok a ha
  obtain ⟨hlb, hfb⟩ := hok b hb
  obtain ⟨hna, ⟨ja, hja, hja'⟩, hamax⟩ := ht.node_spec hla hfa
  obtain ⟨hnb, ⟨jb, hjb, hjb'⟩, _⟩ := ht.node_spec hlb hfb
  have hidx : (s.node b).index < (s.node a).index := by
    have h1 := hmax b hb
    have h2 := node_index_ne ht hla hlb hfa hfb hab
    omega
  -- not a decision
  have hrs : (s.node a).reason ≠ -1 := by
    intro e
    obtain ⟨_, h2⟩ := hr.dec _ _ hna e
    have h3 := ht.lev _ _ _ hnb _ hna hidx
    have h4 := (ht.pos _ _ hna).2.2
    have h5 := h2 _ _ hnb (by omega)
    omega
  have hrg := hr.range _ _ hna
  obtain ⟨id, hid⟩ : ∃ id : Nat, (s.node a).reason = id := ⟨(s.node a).reason.toNat, by omega⟩
  obtain ⟨hlt, ⟨r, hrm, hrv, hrd⟩, hoth⟩ := hr.cls _ _ hna id hid
  refine ⟨id, hid, hlt, ?_⟩
  obtain ⟨h1, h2, h3, h4⟩ := bresolve_spec ls a (s.cl id).lits
  have hdr := hst.distinct id hlt
  -- every value of the resolvent was removed before
  have hrem : ∀ v j, ClHas (bresolve ls a (s.cl id).lits) v j → s.IsVar v ∧ j < s.size v ∧
      ∃ m ∈ s.nodes v, m.index < (s.node a).index ∧ m.values.getLsbD j = true := by
    intro v j hj
    rcases (h2 v j).1 hj with ⟨hne, l, hl, rfl, hlj⟩ | ⟨⟨l, hl, hlv, hlj⟩, himp⟩
    · obtain ⟨hll, hfl⟩ := hok l hl
      refine ⟨hll.isVar, hll.sub j hlj, ?_⟩
      obtain ⟨m, hm, hmj⟩ := ht.removed hll.isVar (hll.sub j hlj) (hfl j hlj)
      obtain ⟨hnl, _, hlmax⟩ := ht.node_spec hll hfl
      refine ⟨m, hm, ?_, hmj⟩
      have h5 := hlmax m hm j hlj hmj
      have h6 := hmax l hl
      have h7 := node_index_ne ht hla hll hfa hfl (fun e => hne e.symm)
      omega
    · have hll := hst.lok id hlt l hl
      subst hlv
      refine ⟨hll.isVar, hll.sub j hlj, ?_⟩
      by_cases hv : l.var = a.var
      · have e : l = r := hdr.eq hl hrm (hv.trans hrv.symm)
        subst e
        have haj := himp hv
        obtain ⟨m, hm, hmj⟩ := ht.removed hla.isVar (hla.sub j haj) (hfa j haj)
        rw [hv]
        refine ⟨m, hm, ?_, hmj⟩
        have h5 := hamax m hm j haj hmj
        by_cases h6 : m.index = (s.node a).index
        · have := ht.mem_eq hm hna h6
          subst this
          have h7 := hrd j hmj
          rw [hlj] at h7; cases h7
        · omega
      · obtain ⟨m, hm, h5, h6⟩ := hoth l hl hv j hlj
        exact ⟨m, hm, h5, h6⟩
  have hres : ∀ l ∈ bresolve ls a (s.cl id).lits, LOK s l ∧ FalseNow s l ∧ (s.node l).index < (s.node a).index := by
    intro l hl
    have hv : AllVals (bresolve ls a (s.cl id).lits) := by
      apply h3
      · intro x hx; exact (hok x hx).1.some
      · intro x hx; exact (hst.lok id hlt x hx).some
    have hlok : LOK s l := by
      obtain ⟨j, hj⟩ := hv l hl
      obtain ⟨h5, _⟩ := hrem l.var j ⟨l, hl, rfl, hj⟩
      exact ⟨h5, fun j hj => (hrem l.var j ⟨l, hl, rfl, hj⟩).2.1, ⟨j, hj⟩⟩
    have hlf : FalseNow s l := by
      intro j hj
      obtain ⟨_, _, m, hm, _, hmj⟩ := hrem l.var j ⟨l, hl, rfl, hj⟩
      exact ht.notCur hm hmj
    refine ⟨hlok, hlf, ?_⟩
    obtain ⟨hn, ⟨j, hj1, hj2⟩, _⟩ := ht.node_spec hlok hlf
    obtain ⟨_, _, m, hm, h5, hmj⟩ := hrem l.var j ⟨l, hl, rfl, hj1⟩
    rw [ht.node_unique hn hm hj2 hmj]
    exact h5
  refine ⟨h1, hres, ?_, ?_⟩
  · have hbv := h4 b.var (fun e => hab e.symm) (List.mem_map_of_mem hb)
    obtain ⟨l, hl, hlv⟩ := List.mem_map.1 hbv
    refine ⟨l, hl, ?_⟩
    obtain ⟨hlok, hlf, _⟩ := hres l hl
    obtain ⟨hn, _, hlmax⟩ := ht.node_spec hlok hlf
    have hlj : l.vals.getLsbD jb = true := by
      have : ClHas (bresolve ls a (s.cl id).lits) l.var jb :=
        (h2 _ _).2 (Or.inl ⟨fun e => hab (hlv.symm.trans e).symm, b, hb, hlv.symm, hjb⟩)
      exact (h1.has hl jb).1 this
    have h5 := hlmax _ (by rw [hlv]; exact hnb) jb hlj hjb'
    have h6 := (ht.pos _ _ hn).2.2
    by_cases h7 : (s.node b).index = (s.node l).index
    · rw [← ht.mem_eq hnb hn h7]; exact hlev
    · have := ht.lev _ _ _ hnb _ hn (by omega)
      omega
  · intro x hx hc
    exact bresolve_sound hd ha hc (hx id hlt)

/-! ## Choosing the watches of a new clause -/

/-- The two literals with the newest nodes. -/
def TwoBest (s : BSt S) (p : List BLit) (st : Int × Int × Option BLit × Option BLit) : Prop :=
  (p = [] ∧ st = (-1, -1, none, none)) ∨
  (∃ a, p = [a] ∧ st = ((s.node a).index, -1, some a, none)) ∨
  (∃ a b, a ∈ p ∧ b ∈ p ∧ a ≠ b ∧ 1 < p.length ∧ (s.node b).index < (s.node a).index ∧
    (∀ l ∈ p, l ≠ a → (s.node l).index ≤ (s.node b).index) ∧
    st = ((s.node a).index, (s.node b).index, some a, some b))

theorem twoBest_step {s : BSt S} {p : List BLit} {st : Int × Int × Option BLit × Option BLit} (h : TwoBest s p st)
    {l : BLit} (hl : 1 ≤ (s.node l).index) (hp : ∀ x ∈ p, x ≠ l ∧ 1 ≤ (s.node x).index ∧ (s.node x).index ≠ (s.node l).index) :
    TwoBest s (p ++ [l]) (watchStep s st l) := by
  rcases h with ⟨rfl, rfl⟩ | ⟨a, rfl, rfl⟩ | ⟨a, b, ha, hb, hab, hlen, hlt, hmax, rfl⟩
  · right; left
    refine ⟨l, rfl, ?_⟩
    unfold watchStep
    dsimp only
    rw [if_pos (by omega)]
  · right; right
    obtain ⟨h1, h2, h3⟩ := hp a (by simp)
    unfold watchStep
    dsimp only
    by_cases h : (s.node a).index < (s.node l).index
    · rw [if_pos h]
      refine ⟨l, a, by simp, by simp, h1.symm, by simp, h, ?_, rfl⟩
      intro x hx hne
      simp only [List.mem_append, List.mem_singleton] at hx
      rcases hx with rfl | rfl
      · exact Int.le_refl _
      · exact absurd rfl hne
    · rw [if_neg h, if_pos (by omega)]
      refine ⟨a, l, by simp, by simp, h1, by simp, by omega, ?_, rfl⟩
      intro x hx hne
      simp only [List.mem_append, List.mem_singleton] at hx
      rcases hx with rfl | rfl
      · exact absurd rfl hne
      · exact Int.le_refl _
  · right; right
    obtain ⟨h1, h2, h3⟩ := hp a ha
    obtain ⟨h4, h5, h6⟩ := hp b hb
    unfold watchStep
    dsimp only
    by_cases h : (s.node a).index < (s.node l).index
    · rw [if_pos h]
      refine ⟨l, a, by simp, by simp [ha], h1.symm, by simp; omega, h, ?_, rfl⟩
      intro x hx hne
      rcases List.mem_append.1 hx with hx | hx
      · by_cases hxa : x = a
        · rw [hxa]; exact Int.le_refl _
        · have := hmax x hx hxa; omega
      · exact absurd (List.mem_singleton.1 hx) hne
    · rw [if_neg h]
      by_cases h' : (s.node b).index < (s.node l).index
      · rw [if_pos h']
        refine ⟨a, l, by simp [ha], by simp, h1, by simp; omega, by omega, ?_, rfl⟩
        intro x hx hne
        rcases List.mem_append.1 hx with hx | hx
        · have := hmax x hx hne; omega
        · rw [List.mem_singleton.1 hx]; exact Int.le_refl _
      · rw [if_neg h']
        refine ⟨a, b, by simp [ha], by simp [hb], hab, by simp; omega, hlt, ?_, rfl⟩
        intro x hx hne
        rcases List.mem_append.1 hx with hx | hx
        · exact hmax x hx hne
        · rw [List.mem_singleton.1 hx]; omega

theorem twoBest_foldl {s : BSt S} : ∀ (q p : List BLit) (st : Int × Int × Option BLit × Option BLit), TwoBest s p st →
    Distinct (p ++ q) → (∀ l ∈ p ++ q, 1 ≤ (s.node l).index) →
    (∀ l ∈ p ++ q, ∀ l' ∈ p ++ q, l.var ≠ l'.var → (s.node l).index ≠ (s.node l').index) →
    TwoBest s (p ++ q) (q.foldl (watchStep s) st)
  | [], p, st, h, _, _, _ => by simpa using h
  | l :: q, p, st, h, hd, hpos, hinj => by
    have e : p ++ l :: q = (p ++ [l]) ++ q := by simp
    have hvar : ∀ x ∈ p, x.var ≠ l.var := by
      intro x hx hv
      unfold Distinct at hd
      rw [List.map_append, List.nodup_append] at hd
      exact hd.2.2 _ (List.mem_map_of_mem hx) l.var (by simp) hv
    rw [e] at hd hpos hinj ⊢
    rw [List.foldl_cons]
    refine twoBest_foldl q (p ++ [l]) _ (twoBest_step h (hpos l (by simp)) ?_) hd hpos hinj
    intro x hx
    exact ⟨fun e => hvar x hx (e ▸ rfl), hpos x (by simp [hx]), hinj x (by simp [hx]) l (by simp) (hvar x hx)⟩

/-- A clause in the middle of the analysis, after its watches were chosen. -/
structure AC (s : BSt S) (c : BCls) : Prop where
  distinct : Distinct c.lits
  ok : ∀ l ∈ c.lits, LOK s l ∧ FalseNow s l
  lev : ∃ l ∈ c.lits, (s.node l).level = s.LEVEL
  shape : (∃ a, c.lits = [a] ∧ c.w0 = some a ∧ c.w1 = none) ∨
    (1 < c.lits.length ∧ ∃ a b, c.w0 = some a ∧ c.w1 = some b ∧ a ∈ c.lits ∧ b ∈ c.lits ∧ a.var ≠ b.var ∧
      (s.node b).index < (s.node a).index ∧ ∀ l ∈ c.lits, l ≠ a → (s.node l).index ≤ (s.node b).index)

theorem assignWatched_spec {s : BSt S} (ht : TrailInv s) {ls : List BLit} (hd : Distinct ls)
    (hok : ∀ l ∈ ls, LOK s l ∧ FalseNow s l) (hlev : ∃ l ∈ ls, (s.node l).level = s.LEVEL) :
    AC s (assignWatched s ls) := by
  have h := twoBest_foldl ls [] (-1, -1, none, none) (s := s) (Or.inl ⟨rfl, rfl⟩) hd
    (by
      intro l hl
      obtain ⟨h1, h2⟩ := hok l hl
      exact (ht.pos _ _ (ht.node_spec h1 h2).1).1)
    (by
      intro l hl l' hl' hv
      exact node_index_ne ht (hok l hl).1 (hok l' hl').1 (hok l hl).2 (hok l' hl').2 hv)
  rw [List.nil_append] at h
  have hlits : (assignWatched s ls).lits = ls := rfl
  refine ⟨hd, hok, hlev, ?_⟩
  rw [hlits]
  rcases h with ⟨rfl, _⟩ | ⟨a, rfl, e⟩ | ⟨a, b, ha, hb, hab, hlen, hlt, hmax, e⟩
  · obtain ⟨l, hl, _⟩ := hlev; cases hl
  · left
    refine ⟨a, rfl, ?_, ?_⟩
    · show (List.foldl (watchStep s) _ [a]).2.2.1 = _
      rw [e]
    · show (List.foldl (watchStep s) _ [a]).2.2.2 = _
      rw [e]
  · right
    refine ⟨hlen, a, b, ?_, ?_, ha, hb, fun hv => hab (hd.eq ha hb hv), hlt, hmax⟩
    · show (List.foldl (watchStep s) _ ls).2.2.1 = _
      rw [e]
    · show (List.foldl (watchStep s) _ ls).2.2.2 = _
      rw [e]

/-- The first watch has the newest node, at the current level. -/
theorem AC.w0 {s : BSt S} (ht : TrailInv s) {c : BCls} (h : AC s c) : ∃ a, c.w0 = some a ∧ a ∈ c.lits ∧
    (s.node a).level = s.LEVEL ∧ ∀ l ∈ c.lits, (s.node l).index ≤ (s.node a).index := by
  have key : ∀ a ∈ c.lits, (∀ l ∈ c.lits, (s.node l).index ≤ (s.node a).index) → (s.node a).level = s.LEVEL := by
    intro a ha hmax
    obtain ⟨l, hl, hlv⟩ := h.lev
    obtain ⟨h1, h2⟩ := h.ok a ha
    obtain ⟨h3, h4⟩ := h.ok l hl
    have hna := (ht.node_spec h1 h2).1
    have hnl := (ht.node_spec h3 h4).1
    have h5 := (ht.pos _ _ hna).2.2
    by_cases h6 : (s.node l).index = (s.node a).index
    · rw [← ht.mem_eq hnl hna h6]; exact hlv
    · have := ht.lev _ _ _ hnl _ hna (by have := hmax l hl; omega)
      omega
  rcases h.shape with ⟨a, h1, h2, h3⟩ | ⟨_, a, b, h1, h2, h3, h4, h5, h6, h7⟩
  · have hmax : ∀ l ∈ c.lits, (s.node l).index ≤ (s.node a).index := by
      intro l hl; rw [h1, List.mem_singleton] at hl; rw [hl]; exact Int.le_refl _
    exact ⟨a, h2, by rw [h1]; simp, key a (by rw [h1]; simp) hmax, hmax⟩
  · have hmax : ∀ l ∈ c.lits, (s.node l).index ≤ (s.node a).index := by
      intro l hl
      by_cases e : l = a
      · rw [e]; exact Int.le_refl _
      · have := h7 l hl e; omega
    exact ⟨a, h1, h3, key a h3 hmax, hmax⟩

/-- The clause that ends the analysis. -/
def Potent (s : BSt S) (c : BCls) : Prop :=
  c.lits.length = 1 ∨ ∃ b, c.w1 = some b ∧ (s.node b).level < s.LEVEL

theorem bpotent_AC {s : BSt S} {c : BCls} (h : AC s c) : ∃ p, bpotent s c = .ok p ∧ (p = true ↔ Potent s c) := by
  unfold bpotent
  rcases h.shape with ⟨a, h1, h2, h3⟩ | ⟨hlen, a, b, h1, h2, _⟩
  · rw [if_pos (by rw [h1]; rfl)]
    exact ⟨true, rfl, fun _ => Or.inl (by rw [h1]; rfl), fun _ => rfl⟩
  · rw [if_neg (by omega), h2]
    refine ⟨_, rfl, ?_⟩
    unfold Potent
    rw [decide_eq_true_eq, h2]
    constructor
    · intro h; exact Or.inr ⟨b, rfl, h⟩
    · rintro (h | ⟨x, hx, h⟩)
      · omega
      · cases hx; exact h

/-! ## Learning -/

/-- The state after learning `c`, up to scores. -/
def withClause (s : BSt S) (c : BCls) (sc : Nat → Nat → S) (rs : Nat → List Nat) : BSt S :=
  { s with heap := upd s.heap s.nheap c, nheap := s.nheap + 1, ptr := upd s.ptr s.ncl s.nheap, ncl := s.ncl + 1,
           recs := rs, score := sc }

theorem foldl_bump (A : ScoreArith S) : ∀ (ls : List BLit) (s : BSt S),
    ∃ sc, ls.foldl (bbump A) s = { s with score := sc }
  | [], s => ⟨s.score, rfl⟩
  | l :: ls, s => by
    obtain ⟨sc, h⟩ := foldl_bump A ls (bbump A s l)
    exact ⟨sc, by rw [List.foldl_cons, h]; rfl⟩

/-- The state with the clause stored, before it is watched. -/
abbrev stored (s : BSt S) (c : BCls) : BSt S := withClause s c s.score s.recs

theorem halve_bump (A : ScoreArith S) (ls : List BLit) (s : BSt S) :
    ∃ sc, bhalve A (ls.foldl (bbump A) s) = { s with score := sc } := by
  obtain ⟨sc, h⟩ := foldl_bump A ls s
  rw [h]
  exact ⟨_, rfl⟩

theorem blearn_eq (A : ScoreArith S) {s : BSt S} {c : BCls} (h : AC s c) :
    ∃ sc rs, blearn A s c none = .ok (withClause s c sc rs) ∧
      ∀ v, rs v = s.recs v ∧ (¬ ∃ w, IsW c w ∧ w.var = v) ∨ rs v = s.ncl :: s.recs v ∧ ∃ w, IsW c w ∧ w.var = v := by
  unfold blearn
  dsimp only
  rcases h.shape with ⟨a, h1, h2, h3⟩ | ⟨hlen, a, b, h1, h2, h3, h4, h5, _⟩
  · rw [h2]
    dsimp only
    rw [if_neg (by rw [h1]; simp)]
    obtain ⟨sc, e⟩ := halve_bump A c.lits (addRec (stored s c) a.var s.ncl)
    refine ⟨_, _, congrArg Res.ok e, ?_⟩
    intro v
    show upd s.recs a.var (s.ncl :: s.recs a.var) v = s.recs v ∧ _ ∨ upd s.recs a.var (s.ncl :: s.recs a.var) v = _ ∧ _
    unfold upd
    by_cases hv : v = a.var
    · rw [if_pos hv, hv]
      exact Or.inr ⟨rfl, a, Or.inl h2, rfl⟩
    · rw [if_neg hv]
      refine Or.inl ⟨rfl, ?_⟩
      rintro ⟨w, hw, hwv⟩
      rcases hw with hw | hw
      · rw [h2] at hw; cases hw; exact hv hwv.symm
      · rw [h3] at hw; cases hw
  · rw [h1]
    dsimp only
    rw [if_pos hlen, h2]
    dsimp only
    obtain ⟨sc, e⟩ := halve_bump A c.lits (addRec (addRec (stored s c) a.var s.ncl) b.var s.ncl)
    refine ⟨_, _, congrArg Res.ok e, ?_⟩
    intro v
    have hR : (addRec (addRec (stored s c) a.var s.ncl) b.var s.ncl).recs v =
      if v = b.var then s.ncl :: s.recs v else if v = a.var then s.ncl :: s.recs v else s.recs v := by
      show upd (upd s.recs a.var (s.ncl :: s.recs a.var)) b.var (s.ncl :: upd s.recs a.var (s.ncl :: s.recs a.var) b.var) v = _
      unfold upd
      by_cases hv : v = b.var
      · rw [if_pos hv, if_pos hv, if_neg (fun e => h5 e.symm), hv]
      · rw [if_neg hv, if_neg hv]
        by_cases hv' : v = a.var
        · rw [if_pos hv', if_pos hv', hv']
        · rw [if_neg hv', if_neg hv']
    show (addRec (addRec (stored s c) a.var s.ncl) b.var s.ncl).recs v = _ ∧ _ ∨ _ = _ ∧ _
    rw [hR]
    by_cases hv : v = b.var
    · rw [if_pos hv]
      exact Or.inr ⟨rfl, b, Or.inr h2, hv.symm⟩
    · rw [if_neg hv]
      by_cases hv' : v = a.var
      · rw [if_pos hv']
        exact Or.inr ⟨rfl, a, Or.inl h1, hv'.symm⟩
      · rw [if_neg hv']
        refine Or.inl ⟨rfl, ?_⟩
        rintro ⟨w, hw, hwv⟩
        rcases hw with hw | hw
        · rw [h1] at hw; cases hw; exact hv' hwv.symm
        · rw [h2] at hw; cases hw; exact hv hwv.symm

/-! ## The analysis -/

/-- Result of the analysis of clause `ls`. -/
structure Learned (A : ScoreArith S) (s : BSt S) (ls : List BLit) (r : BSt S × BCls) : Prop where
  ac : AC s r.2
  potent : Potent s r.2
  learn : blearn A s r.2 none = .ok r.1
  ent : ∀ x : Assignment, (∀ i, i < s.ncl → CHolds x (s.cl i).lits) → CHolds x ls → CHolds x r.2.lits

theorem banalyze_resolve (A : ScoreArith S) {s : BSt S} {c : BCls} {p : Option Nat} {a : BLit} {id : Nat}
    (hp : bpotent s c = .ok false) (ha : c.w0 = some a) (hr : (s.node a).reason = (id : Int)) (hid : id < s.ncl) (f : Nat) :
    banalyze A (f + 1) s c p = banalyze A f s (assignWatched s (bresolve c.lits a (s.cl id).lits)) none := by
  rw [banalyze, hp]
  show (match c.w0 with
    | none => Res.ub
    | some l => if (s.node l).reason < 0 ∨ (s.node l).reason.toNat ≥ s.ncl then Res.ub
        else banalyze A f s (assignWatched s (bresolve c.lits l (s.cl (s.node l).reason.toNat).lits)) none) = _
  rw [ha]
  dsimp only
  rw [hr, if_neg (by omega)]
  rfl

theorem banalyze_potent (A : ScoreArith S) {s : BSt S} {c : BCls} {p : Option Nat} (hp : bpotent s c = .ok true)
    (f : Nat) : banalyze A (f + 1) s c p = (blearn A s c p >>= fun s' => .ok (s', c)) := by
  rw [banalyze, hp]
  rfl

theorem banalyze_spec (A : ScoreArith S) {s : BSt S} (h : BInv s) : ∀ (f : Nat) {c : BCls}, AC s c →
    Res.Sat (banalyze A f s c none) (Learned A s c.lits)
  | 0, _, _ => trivial
  | f + 1, c, hc => by
    obtain ⟨p, hp, hpp⟩ := bpotent_AC hc
    cases p with
    | true =>
      rw [banalyze_potent A hp]
      obtain ⟨sc, rs, e, _⟩ := blearn_eq A hc
      rw [e]
      exact ⟨hc, hpp.1 rfl, e, fun x _ hx => hx⟩
    | false =>
      have hnp : ¬ Potent s c := fun hx => by have := hpp.2 hx; cases this
      rcases hc.shape with ⟨a, h1, _⟩ | ⟨hlen, a, b, h1, h2, h3, h4, h5, h6, h7⟩
      · exact absurd (Or.inl (by rw [h1]; rfl)) hnp
      · have hlb : (s.node b).level = s.LEVEL := by
          obtain ⟨h8, h9⟩ := hc.ok b h4
          have h10 := (h.trail.pos _ _ (h.trail.node_spec h8 h9).1).2.2
          apply Classical.byContradiction
          intro hne
          exact hnp (Or.inr ⟨b, h2, by omega⟩)
        have hmax : ∀ l ∈ c.lits, (s.node l).index ≤ (s.node a).index := by
          intro l hl
          by_cases e : l = a
          · rw [e]; exact Int.le_refl _
          · have := h7 l hl e; omega
        obtain ⟨id, r1, r2, r3, r4, r5, r6⟩ := resolve_step h.trail h.reason h.store hc.distinct hc.ok h3 h4 h5 hmax hlb
        rw [banalyze_resolve A hp h1 r1 r2]
        refine (banalyze_spec A h f (assignWatched_spec h.trail r3 (fun l hl => ⟨(r4 l hl).1, (r4 l hl).2.1⟩) r5)).mono ?_
        rintro ⟨s', c'⟩ hr
        exact ⟨hr.ac, hr.potent, hr.learn, fun x hx hxc => hr.ent x hx (r6 x hx hxc)⟩

/-- The clause in conflict: its first watch has the newest node, the second one is at the current level too. -/
structure CC (s : BSt S) (c : BCls) : Prop where
  distinct : Distinct c.lits
  ok : ∀ l ∈ c.lits, LOK s l ∧ FalseNow s l
  len : 1 < c.lits.length
  watch : ∃ a b, c.w0 = some a ∧ c.w1 = some b ∧ a ∈ c.lits ∧ b ∈ c.lits ∧ a.var ≠ b.var ∧
    (∀ l ∈ c.lits, (s.node l).index ≤ (s.node a).index) ∧ (s.node b).level = s.LEVEL

theorem BInv.cc {s : BSt S} (h : BInv s) (hc : s.conflict = true) (hL : s.LEVEL ≠ 0) : ∃ id : Nat, id < s.ncl ∧
    s.conflicting = id ∧ CC s (s.cl id) := by
  obtain ⟨id, hid, e, hf, a, b, ha, hb, hidx, hlev⟩ := h.watch.confl hc
  refine ⟨id, hid, e, h.store.distinct id hid, fun l hl => ⟨h.store.lok id hid l hl, hf l hl⟩, ?_, a, b, ha, hb, ?_⟩
  · rcases h.store.wok id hid with ⟨x, _, _, h3⟩ | ⟨h1, _⟩
    · rw [h3] at hb; cases hb
    · exact h1
  · have hma := (h.store.wok id hid).mem (Or.inl ha)
    have hmb := (h.store.wok id hid).mem (Or.inr hb)
    have hab : a.var ≠ b.var := by
      rcases h.store.wok id hid with ⟨x, _, _, h3⟩ | ⟨_, x, y, h1, h2, _, _, h5⟩
      · rw [h3] at hb; cases hb
      · rw [ha] at h1; rw [hb] at h2; cases h1; cases h2; exact h5
    refine ⟨hma, hmb, hab, ?_, ?_⟩
    · intro l hl
      rw [hidx]
      exact h.trail.index_le (h.trail.node_spec (h.store.lok id hid l hl) (hf l hl)).1
    · have hlb := h.store.lok id hid b hmb
      have hfb := hf b hmb
      have h1 := (h.trail.pos _ _ (h.trail.node_spec hlb hfb).1).2.2
      have h0 := h.trail.level0
      apply Classical.byContradiction
      intro hne
      refine hlev (by omega) ?_
      intro j hj
      obtain ⟨n, hn, h2, h3⟩ := h.trail.falseL_node hlb hfb j hj
      exact ⟨n, hn, by omega, h3⟩

/-- Analysis of the clause in conflict: at least one resolution, then as above. -/
theorem banalyze_confl (A : ScoreArith S) {s : BSt S} (h : BInv s) {c : BCls} (hc : CC s c) (p : Option Nat) (f : Nat) :
    Res.Sat (banalyze A f s c p) (Learned A s c.lits) := by
  cases f with
  | zero => trivial
  | succ f =>
    obtain ⟨a, b, ha, hb, hma, hmb, hab, hmax, hlev⟩ := hc.watch
    have hp : bpotent s c = .ok false := by
      unfold bpotent
      rw [if_neg (by have := hc.len; omega), hb]
      dsimp only
      rw [hlev, decide_eq_false (by omega)]
    obtain ⟨id, r1, r2, r3, r4, r5, r6⟩ := resolve_step h.trail h.reason h.store hc.distinct hc.ok hma hmb hab hmax hlev
    rw [banalyze_resolve A hp ha r1 r2]
    refine (banalyze_spec A h f (assignWatched_spec h.trail r3 (fun l hl => ⟨(r4 l hl).1, (r4 l hl).2.1⟩) r5)).mono ?_
    rintro ⟨s', c'⟩ hr
    exact ⟨hr.ac, hr.potent, hr.learn, fun x hx hxc => hr.ent x hx (r6 x hx hxc)⟩

/-! ## It stops -/

theorem banalyze_stops_AC (A : ScoreArith S) {s : BSt S} (h : BInv s) : ∀ (n : Nat) {c : BCls} {a : BLit}, AC s c →
    c.w0 = some a → (s.node a).index.toNat ≤ n → ∃ f, banalyze A f s c none ≠ .fuel
  | n, c, a, hc, ha, hn => by
    obtain ⟨p, hp, hpp⟩ := bpotent_AC hc
    cases p with
    | true =>
      obtain ⟨sc, rs, e, _⟩ := blearn_eq A hc
      exact ⟨1, by rw [banalyze_potent A hp, e]; exact ok_ne _⟩
    | false =>
      have hnp : ¬ Potent s c := fun hx => by have := hpp.2 hx; cases this
      rcases hc.shape with ⟨x, h1, _⟩ | ⟨hlen, x, b, h1, h2, h3, h4, h5, h6, h7⟩
      · exact absurd (Or.inl (by rw [h1]; rfl)) hnp
      · rw [ha] at h1; cases h1
        have hlb : (s.node b).level = s.LEVEL := by
          obtain ⟨h8, h9⟩ := hc.ok b h4
          have h10 := (h.trail.pos _ _ (h.trail.node_spec h8 h9).1).2.2
          apply Classical.byContradiction
          intro hne
          exact hnp (Or.inr ⟨b, h2, by omega⟩)
        have hmax : ∀ l ∈ c.lits, (s.node l).index ≤ (s.node a).index := by
          intro l hl
          by_cases e : l = a
          · rw [e]; exact Int.le_refl _
          · have := h7 l hl e; omega
        obtain ⟨id, r1, r2, r3, r4, r5, r6⟩ := resolve_step h.trail h.reason h.store hc.distinct hc.ok h3 h4 h5 hmax hlb
        have hac := assignWatched_spec h.trail r3 (fun l hl => ⟨(r4 l hl).1, (r4 l hl).2.1⟩) r5
        obtain ⟨a', ha', hma', _⟩ := hac.w0 h.trail
        have hlt := (r4 a' hma').2.2
        have hpos := (h.trail.pos _ _ (h.trail.node_spec (r4 a' hma').1 (r4 a' hma').2.1).1).1
        cases n with
        | zero => omega
        | succ n =>
          obtain ⟨f, hf⟩ := banalyze_stops_AC A h n hac ha' (by omega)
          exact ⟨f + 1, by rw [banalyze_resolve A hp ha r1 r2]; exact hf⟩

theorem banalyze_stops (A : ScoreArith S) {s : BSt S} (h : BInv s) {c : BCls} (hc : CC s c) (p : Option Nat) :
    ∃ f, banalyze A f s c p ≠ .fuel := by
  obtain ⟨a, b, ha, hb, hma, hmb, hab, hmax, hlev⟩ := hc.watch
  have hp : bpotent s c = .ok false := by
    unfold bpotent
    rw [if_neg (by have := hc.len; omega), hb]
    dsimp only
    rw [hlev, decide_eq_false (by omega)]
  obtain ⟨id, r1, r2, r3, r4, r5, r6⟩ := resolve_step h.trail h.reason h.store hc.distinct hc.ok hma hmb hab hmax hlev
  have hac := assignWatched_spec h.trail r3 (fun l hl => ⟨(r4 l hl).1, (r4 l hl).2.1⟩) r5
  obtain ⟨a', ha', _⟩ := hac.w0 h.trail
  obtain ⟨f, hf⟩ := banalyze_stops_AC A h _ hac ha' (Nat.le_refl _)
  exact ⟨f + 1, by rw [banalyze_resolve A hp ha r1 r2]; exact hf⟩

theorem banalyze_mono (A : ScoreArith S) : ∀ (f : Nat) (s : BSt S) (c : BCls) (p : Option Nat),
    banalyze A f s c p ≠ .fuel → banalyze A (f + 1) s c p = banalyze A f s c p
  | 0, _, _, _, h => absurd rfl h
  | f + 1, s, c, p, h => by
    unfold banalyze at h ⊢
    refine bind_mono (fun _ => rfl) ?_ h
    intro x hx
    cases x with
    | true => rfl
    | false =>
      simp only [Bool.false_eq_true, if_false] at hx ⊢
      cases hw : c.w0 with
      | none => rfl
      | some l =>
        rw [hw] at hx
        dsimp only at hx ⊢
        by_cases h1 : (s.node l).reason < 0 ∨ (s.node l).reason.toNat ≥ s.ncl
        · rw [if_pos h1, if_pos h1]
        · rw [if_neg h1] at hx; rw [if_neg h1, if_neg h1]
          exact banalyze_mono A f _ _ _ hx

end Mvl.BV
