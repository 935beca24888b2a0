import Verif.Proof.BVInv

/-!
# Bit-vector variant: walking the watch list of a variable
-/

namespace Mvl.BV

variable {S : Type}

/-- The same except for watches, watch lists, the queue and the conflict. -/
structure Frame (s s' : BSt S) : Prop where
  nv : s'.nv = s.nv
  size : s'.size = s.size
  cur : s'.cur = s.cur
  nodes : s'.nodes = s.nodes
  score : s'.score = s.score
  nheap : s'.nheap = s.nheap
  ptr : s'.ptr = s.ptr
  ncl : s'.ncl = s.ncl
  LEVEL : s'.LEVEL = s.LEVEL
  unitClause : s'.unitClause = s.unitClause
  atomIndex : s'.atomIndex = s.atomIndex
  nUnits : s'.nUnits = s.nUnits
  nBacktracks : s'.nBacktracks = s.nBacktracks
  nDecisions : s'.nDecisions = s.nDecisions
  nRestarts : s'.nRestarts = s.nRestarts
  ticks : s'.ticks = s.ticks
  lits : ∀ id, (s'.cl id).lits = (s.cl id).lits

theorem Frame.refl (s : BSt S) : Frame s s :=
  ⟨rfl, rfl, rfl, rfl, rfl, rfl, rfl, rfl, rfl, rfl, rfl, rfl, rfl, rfl, rfl, rfl, fun _ => rfl⟩

theorem Frame.trans {s s' s'' : BSt S} (h : Frame s s') (h' : Frame s' s'') : Frame s s'' :=
  ⟨h'.1.trans h.1, h'.2.trans h.2, h'.3.trans h.3, h'.4.trans h.4, h'.5.trans h.5, h'.6.trans h.6, h'.7.trans h.7,
    h'.8.trans h.8, h'.9.trans h.9, h'.10.trans h.10, h'.11.trans h.11, h'.12.trans h.12, h'.13.trans h.13,
    h'.14.trans h.14, h'.15.trans h.15, h'.16.trans h.16, fun id => (h'.17 id).trans (h.17 id)⟩

/-! ## Only some parts of the state matter -/

theorem IsVar.congr {s s' : BSt S} (h : s'.nv = s.nv) {v : Nat} : s'.IsVar v ↔ s.IsVar v := by
  unfold BSt.IsVar; rw [h]

theorem FalseNow.congr {s s' : BSt S} (h : s'.cur = s.cur) {l : BLit} : FalseNow s' l ↔ FalseNow s l := by
  unfold FalseNow; rw [h]

theorem TrueNow.congr {s s' : BSt S} (h : s'.cur = s.cur) {l : BLit} : TrueNow s' l ↔ TrueNow s l := by
  unfold TrueNow; rw [h]

theorem FalseL.congr {s s' : BSt S} (h : s'.nodes = s.nodes) {k : Int} {l : BLit} : FalseL s' k l ↔ FalseL s k l := by
  unfold FalseL RmL; rw [h]

theorem TrueL.congr {s s' : BSt S} (h : s'.nodes = s.nodes) (h' : s'.size = s.size) {k : Int} {l : BLit} :
    TrueL s' k l ↔ TrueL s k l := by
  unfold TrueL RmL; rw [h, h']

theorem LOK.congr {s s' : BSt S} (h : s'.nv = s.nv) (h' : s'.size = s.size) {l : BLit} (hl : LOK s l) : LOK s' l :=
  ⟨(IsVar.congr h).2 hl.1, by rw [h']; exact hl.2, hl.3⟩

theorem TrailInv.congr {s s' : BSt S} (h : TrailInv s) (h1 : s'.nv = s.nv) (h2 : s'.size = s.size) (h3 : s'.cur = s.cur)
    (h4 : s'.nodes = s.nodes) (h5 : s'.LEVEL = s.LEVEL) (h6 : s'.atomIndex = s.atomIndex) : TrailInv s' where
  size_le := fun v hv => by rw [h2]; exact h.size_le v ((IsVar.congr h1).1 hv)
  out := fun v hv => by rw [h4]; exact h.out v fun hv' => hv ((IsVar.congr h1).2 hv')
  out_cur := fun v hv => by rw [h3]; exact h.out_cur v fun hv' => hv ((IsVar.congr h1).2 hv')
  cur_iff := fun v hv => by rw [h2, h3, h4]; exact h.cur_iff v ((IsVar.congr h1).1 hv)
  live := fun v hv => by rw [h3]; exact h.live v ((IsVar.congr h1).1 hv)
  sorted := by rw [h4]; exact h.sorted
  disj := by rw [h4]; exact h.disj
  sub := by rw [h4, h2]; exact h.sub
  pos := by rw [h4, h5]; exact h.pos
  lev := by rw [h4]; exact h.lev
  inj := by rw [h4]; exact h.inj
  down := by rw [h4]; exact h.down
  count := by unfold BSt.allNodes; rw [h6, h1, h4]; exact h.count
  level0 := by rw [h5]; exact h.level0

theorem Frame.trail {s s' : BSt S} (h : Frame s s') (ht : TrailInv s) : TrailInv s' :=
  ht.congr h.nv h.size h.cur h.nodes h.LEVEL h.atomIndex

theorem ReasonInv.congr {s s' : BSt S} (h : ReasonInv s) (h1 : s'.nodes = s.nodes) (h2 : s'.ncl = s.ncl)
    (h3 : ∀ id, (s'.cl id).lits = (s.cl id).lits) : ReasonInv s' where
  range := by rw [h1]; exact h.range
  dec := by rw [h1]; exact h.dec
  cls := by
    intro v n hn id hr
    rw [h1] at hn
    rw [h1, h2, h3]
    exact h.cls v n hn id hr

theorem Frame.reason {s s' : BSt S} (h : Frame s s') (ht : ReasonInv s) : ReasonInv s' := ht.congr h.nodes h.ncl h.lits

/-! ## Changing one clause object -/

theorem cl_setCl {s : BSt S} (h : StoreInv s) {id : Nat} (hid : id < s.ncl) (c : BCls) {i : Nat} (hi : i < s.ncl) :
    (s.setCl id c).cl i = if i = id then c else s.cl i := by
  unfold BSt.cl BSt.setCl
  dsimp only
  unfold upd
  by_cases he : i = id
  · subst he; simp
  · rw [if_neg he, if_neg]
    exact fun e => he (h.ptr_inj i id hi hid e)

theorem lits_setCl {s : BSt S} {id : Nat} {c : BCls} (hc : c.lits = (s.cl id).lits) (i : Nat) :
    ((s.setCl id c).cl i).lits = (s.cl i).lits := by
  unfold BSt.cl BSt.setCl at *
  dsimp only
  unfold upd
  split
  · rename_i h; rw [hc, h]
  · rfl

theorem setCl_frame {s : BSt S} {id : Nat} {c : BCls} (hc : c.lits = (s.cl id).lits) : Frame s (s.setCl id c) :=
  ⟨rfl, rfl, rfl, rfl, rfl, rfl, rfl, rfl, rfl, rfl, rfl, rfl, rfl, rfl, rfl, rfl, lits_setCl hc⟩

/-- Exchanging the watches of a clause changes nothing that matters. -/
theorem swap_store {s : BSt S} (h : StoreInv s) {id : Nat} (hid : id < s.ncl) (h1 : (s.cl id).w1 ≠ none) :
    StoreInv (s.setCl id { s.cl id with w0 := (s.cl id).w1, w1 := (s.cl id).w0 }) := by
  have hcl := fun i (hi : i < s.ncl) => cl_setCl h hid { s.cl id with w0 := (s.cl id).w1, w1 := (s.cl id).w0 } hi
  have hf : Frame s (s.setCl id { s.cl id with w0 := (s.cl id).w1, w1 := (s.cl id).w0 }) := setCl_frame rfl
  refine ⟨h.ptr_lt, h.ptr_inj, ?_, ?_, ?_, ?_, h.nodup⟩
  · intro i hi; rw [hf.lits]; exact h.distinct i hi
  · intro i hi; rw [hf.lits]; exact fun l hl => (h.lok i hi l hl).congr hf.nv hf.size
  · intro i hi
    rw [hcl i hi]
    split
    · exact (h.wok id hid).swap h1
    · exact h.wok i hi
  · intro v i
    rw [show (s.setCl id { s.cl id with w0 := (s.cl id).w1, w1 := (s.cl id).w0 }).recs v = s.recs v from rfl, h.recs v i]
    constructor
    · rintro ⟨hi, w, hw⟩
      refine ⟨hi, w, ?_⟩
      rw [hcl i hi]
      split
      · rename_i e; subst e; exact ⟨isW_swap.2 hw.1, hw.2⟩
      · exact hw
    · rintro ⟨hi, w, hw⟩
      refine ⟨hi, w, ?_⟩
      rw [hcl i hi] at hw
      split at hw
      · rename_i e; subst e; exact ⟨isW_swap.1 hw.1, hw.2⟩
      · exact hw

/-- The watch invariant depends on the watches only through `IsW` (no conflict). -/
theorem WatchInv.frame {s s' : BSt S} {v : Nat} {rem : List Nat} (h : WatchInv s v rem) (hf : Frame s s')
    (hw : ∀ id, id < s.ncl → ∀ w, IsW (s'.cl id) w ↔ IsW (s.cl id) w) (hu : s'.units = s.units)
    (hc : s.conflict = false) (hc' : s'.conflict = false) : WatchInv s' v rem where
  low := by
    intro id hid w w' h1 h2 hne k hk hfa
    rw [hf.ncl] at hid
    rw [hf.LEVEL] at hk
    rw [FalseL.congr hf.nodes] at hfa
    rw [TrueL.congr hf.nodes hf.size]
    exact h.low id hid w w' ((hw id hid w).1 h1) ((hw id hid w').1 h2) hne k hk hfa
  top := by
    intro _ id hid w w' h1 h2 hne hfa
    rw [hf.ncl] at hid
    rw [FalseNow.congr hf.cur] at hfa
    rw [TrueNow.congr hf.cur, hu, hf.lits]
    simp only [FalseNow.congr hf.cur]
    exact h.top hc id hid w w' ((hw id hid w).1 h1) ((hw id hid w').1 h2) hne hfa
  both := by
    intro _ id hid w w' h1 h2 hne hfa hfa'
    rw [hf.ncl] at hid
    rw [FalseNow.congr hf.cur] at hfa hfa'
    exact h.both hc id hid w w' ((hw id hid w).1 h1) ((hw id hid w').1 h2) hne hfa hfa'
  old := by
    intro _ id hid w w' hlt h1 h2 hne hv hfa hfa'
    rw [hf.ncl] at hlt
    rw [FalseNow.congr hf.cur] at hfa hfa'
    have hn : s'.node w = s.node w := by unfold BSt.node; rw [hf.nodes]
    rw [hn, hf.atomIndex]
    exact h.old hc id hid w w' hlt ((hw id hlt w).1 h1) ((hw id hlt w').1 h2) hne hv hfa hfa'
  units := by
    intro id hid
    rw [hu] at hid
    rw [hf.ncl, hf.lits]
    simp only [FalseNow.congr hf.cur]
    exact h.units id hid
  single := by
    rcases h.single with h1 | h1
    · rw [hc] at h1; cases h1.1
    · right
      intro id hid a ha
      rw [hf.ncl] at hid
      rw [hf.lits] at ha
      rw [TrueL.congr hf.nodes hf.size, hu, hf.LEVEL, FalseNow.congr hf.cur]
      exact h1 id hid a ha
  confl := by intro h1; rw [hc'] at h1; cases h1

theorem swap_isW {s : BSt S} (h : StoreInv s) {id : Nat} (hid : id < s.ncl) {i : Nat} (hi : i < s.ncl) (w : BLit) :
    IsW ((s.setCl id { s.cl id with w0 := (s.cl id).w1, w1 := (s.cl id).w0 }).cl i) w ↔ IsW (s.cl i) w := by
  rw [cl_setCl h hid _ hi]
  split
  · rename_i e; subst e; exact isW_swap
  · exact Iff.rfl

/-! ## One record -/

/-- What the loop over the records keeps. -/
structure UpdInv (s : BSt S) (v : Nat) (rem : List Nat) : Prop where
  trail : TrailInv s
  store : StoreInv s
  watch : WatchInv s v rem
  nodup : rem.Nodup
  rem : ∀ id ∈ rem, id ∈ s.recs v

theorem UpdInv.drop_conflict {s : BSt S} {v id : Nat} {ids : List Nat} (h : UpdInv s v (id :: ids))
    (hc : s.conflict = true) : UpdInv s v ids := by
  refine ⟨h.trail, h.store, ⟨h.watch.low, ?_, ?_, ?_, h.watch.units, ?_, h.watch.confl⟩, (List.nodup_cons.1 h.nodup).2,
    fun i hi => h.rem i (List.mem_cons_of_mem _ hi)⟩
  · intro h1; rw [hc] at h1; cases h1
  · intro h1; rw [hc] at h1; cases h1
  · intro h1; rw [hc] at h1; cases h1
  · rcases h.watch.single with h1 | h1
    · exact Or.inl h1
    · by_cases hL : s.LEVEL = 0
      · exact Or.inl ⟨hc, hL⟩
      · right
        intro i hi a ha
        rcases h1 i hi a ha with h2 | ⟨_, _, h2⟩ | ⟨_, h2, _⟩
        · exact Or.inl h2
        · exact absurd h2 hL
        · exact absurd h2 hL

/-- Dropping a record whose clause is in order. -/
theorem UpdInv.drop {s : BSt S} {v id : Nat} {ids : List Nat} (h : UpdInv s v (id :: ids)) (hc : s.conflict = false)
    (htop : ∀ w w', IsW (s.cl id) w → IsW (s.cl id) w' → w ≠ w' → FalseNow s w → w.var = v →
      TrueNow s w' ∨ (id ∈ s.units ∧ ∀ l ∈ (s.cl id).lits, l ≠ w' → FalseNow s l))
    (hboth : ∀ w w', IsW (s.cl id) w → IsW (s.cl id) w' → w ≠ w' → FalseNow s w → ¬ FalseNow s w')
    (hone : ∀ a, (s.cl id).lits = [a] → TrueNow s a) : UpdInv s v ids := by
  refine ⟨h.trail, h.store, ⟨h.watch.low, ?_, ?_, ?_, h.watch.units, ?_, h.watch.confl⟩, (List.nodup_cons.1 h.nodup).2,
    fun i hi => h.rem i (List.mem_cons_of_mem _ hi)⟩
  · intro _ i hi w w' h1 h2 hne hf
    rcases h.watch.top hc i hi w w' h1 h2 hne hf with ⟨h3, h4⟩ | h3
    · rcases List.mem_cons.1 h4 with rfl | h4
      · exact Or.inr (htop w w' h1 h2 hne hf h3)
      · exact Or.inl ⟨h3, h4⟩
    · exact Or.inr h3
  · intro _ i hi w w' h1 h2 hne hf hf'
    rcases List.mem_cons.1 (h.watch.both hc i hi w w' h1 h2 hne hf hf') with rfl | h4
    · exact absurd hf' (hboth w w' h1 h2 hne hf)
    · exact h4
  · intro _ i hi
    exact h.watch.old hc i (List.mem_cons_of_mem _ hi)
  · rcases h.watch.single with h1 | h1
    · exact Or.inl h1
    · right
      intro i hi a ha
      rcases h1 i hi a ha with h2 | ⟨h2, h3, h4⟩ | h2
      · exact Or.inl h2
      · rcases List.mem_cons.1 h3 with rfl | h3
        · left
          have hv : s.IsVar a.var := (h.store.lok i hi a (by rw [ha]; simp)).isVar
          rw [← h4]
          exact h.trail.trueL_of_trueNow hv (hone a ha)
        · exact Or.inr (Or.inl ⟨h2, h3, h4⟩)
      · exact Or.inr (Or.inr h2)

theorem satW_some {s : BSt S} {l : BLit} (h : s.IsVar l.var) : satW s (some l) = .ok (bsat s l) := by
  exact if_pos h.2

theorem WOK.w1_of_len {c : BCls} (h : WOK c) (hl : 1 < c.lits.length) :
    ∃ a b, c.w0 = some a ∧ c.w1 = some b ∧ a ∈ c.lits ∧ b ∈ c.lits ∧ a.var ≠ b.var := by
  rcases h with ⟨a, h1, _⟩ | ⟨_, h1⟩
  · rw [h1] at hl; simp at hl
  · exact h1

theorem OneOK.congr {U : Prop} {s s' : BSt S} {v : Nat} (h : OneOK U s v) (hf : Frame s s') : OneOK U s' v := by
  rcases h with h | h
  · exact Or.inl h
  · right
    intro id hid a ha hv
    rw [TrueNow.congr hf.cur]
    exact h id (hf.ncl ▸ hid) a (by rw [← hf.lits]; exact ha) hv

theorem swapPointer_eq {s : BSt S} {v id : Nat} {a b : BLit} (ha : (s.cl id).w0 = some a) (hb : (s.cl id).w1 = some b)
    (hv : s.IsVar b.var) : swapPointer s v id =
      if bsat s b = 2 then
        match (s.cl id).lits.find? fun l => bsat s l ≠ 0 ∧ l.var ≠ b.var with
        | some l => removeRec s a.var v id >>= fun s1 =>
            .ok ((addRec s1 l.var id).setCl id ⟨(s.cl id).lits, some l, some b⟩)
        | none => .ok { s with units := id :: s.units }
      else .ok { s with conflict := true, conflicting := id } := by
  unfold swapPointer
  simp only [ha, hb, satW_some hv]
  rfl

/-- `SwapPointer` on a clause whose first watch is false and on `v`, and whose second is not true. -/
theorem swapPointer_spec {s : BSt S} {v id : Nat} {ids : List Nat} (h : UpdInv s v (id :: ids))
    (hc : s.conflict = false) (hid : id < s.ncl) {a b : BLit} (ha : (s.cl id).w0 = some a) (hb : (s.cl id).w1 = some b)
    (hav : a.var = v) (hfa : FalseNow s a) (hnb : ¬ TrueNow s b) :
    ∃ s', swapPointer s v id = .ok s' ∧ UpdInv s' v ids ∧ Frame s s' := by
  have hwa : IsW (s.cl id) a := Or.inl ha
  have hwb : IsW (s.cl id) b := Or.inr hb
  have hw := h.store.wok id hid
  have hma := hw.mem hwa
  have hmb := hw.mem hwb
  have hd := h.store.distinct id hid
  have hla := h.store.lok id hid a hma
  have hlb := h.store.lok id hid b hmb
  have hlen : 1 < (s.cl id).lits.length := by
    rcases hw with ⟨x, _, _, h3⟩ | ⟨h1, _⟩
    · rw [h3] at hb; cases hb
    · exact h1
  have hab : a.var ≠ b.var := by
    obtain ⟨x, y, h1, h2, _, _, h5⟩ := hw.w1_of_len hlen
    rw [ha] at h1; rw [hb] at h2; cases h1; cases h2; exact h5
  have hne : a ≠ b := fun e => hab (e ▸ rfl)
  have hisw : ∀ w, IsW (s.cl id) w → w = a ∨ w = b := by
    intro w hw'
    rcases hw' with h1 | h1
    · rw [ha] at h1; cases h1; exact Or.inl rfl
    · rw [hb] at h1; cases h1; exact Or.inr rfl
  have hnodup := List.nodup_cons.1 h.nodup
  have hnta : ¬ TrueNow s a := fun ht => h.trail.not_both hla.isVar ht hfa
  have hnsing : ∀ x, (s.cl id).lits ≠ [x] := by intro x hx; rw [hx] at hlen; simp at hlen
  rw [swapPointer_eq ha hb hlb.isVar]
  by_cases hb2 : bsat s b = 2
  · rw [if_pos hb2]
    have hnfb := (bsat_two.1 hb2).2
    cases hfind : (s.cl id).lits.find? fun l => bsat s l ≠ 0 ∧ l.var ≠ b.var with
    | none =>
      refine ⟨{ s with units := id :: s.units }, rfl, ?_,
        ⟨rfl, rfl, rfl, rfl, rfl, rfl, rfl, rfl, rfl, rfl, rfl, rfl, rfl, rfl, rfl, rfl, fun _ => rfl⟩⟩
      have hall : ∀ l ∈ (s.cl id).lits, l ≠ b → FalseNow s l := by
        intro l hl hlb'
        have := List.find?_eq_none.1 hfind l hl
        simp only [decide_eq_true_eq, not_and, Classical.not_not] at this
        apply Classical.byContradiction
        intro hf
        apply hlb'
        apply hd.eq hl hmb
        apply this
        intro h0
        exact hf (bsat_zero.1 h0).2
      have hw' : WatchInv ({ s with units := id :: s.units } : BSt S) v (id :: ids) := by
        refine ⟨h.watch.low, ?_, h.watch.both, h.watch.old, ?_, ?_, fun h1 => h.watch.confl h1⟩
        · intro h0 i hi w w' h1 h2 hne' hf
          rcases h.watch.top h0 i hi w w' h1 h2 hne' hf with h3 | h3 | ⟨h3, h4⟩
          · exact Or.inl h3
          · exact Or.inr (Or.inl h3)
          · exact Or.inr (Or.inr ⟨List.mem_cons_of_mem _ h3, h4⟩)
        · intro i hi
          rcases List.mem_cons.1 hi with rfl | hi
          · exact ⟨hid, b, hmb, hall⟩
          · exact h.watch.units i hi
        · rcases h.watch.single with h1 | h1
          · exact Or.inl h1
          · right
            intro i hi x hx
            rcases h1 i hi x hx with h2 | h2 | ⟨h2, h3⟩
            · exact Or.inl h2
            · exact Or.inr (Or.inl h2)
            · exact Or.inr (Or.inr ⟨List.mem_cons_of_mem _ h2, h3⟩)
      have hst : StoreInv ({ s with units := id :: s.units } : BSt S) :=
        ⟨h.store.ptr_lt, h.store.ptr_inj, h.store.distinct, fun i hi l hl => ⟨(h.store.lok i hi l hl).1, (h.store.lok i hi l hl).2, (h.store.lok i hi l hl).3⟩,
          h.store.wok, h.store.recs, h.store.nodup⟩
      refine UpdInv.drop (id := id) ⟨h.trail.congr rfl rfl rfl rfl rfl rfl, hst, hw', h.nodup, h.rem⟩ hc ?_ ?_ ?_
      · intro w w' h1 h2 hne' hf hv
        right
        refine ⟨List.mem_cons_self, ?_⟩
        rcases hisw w' h2 with rfl | rfl
        · rcases hisw w h1 with rfl | rfl
          · exact absurd rfl hne'
          · exact absurd hf hnfb
        · exact hall
      · intro w w' h1 h2 hne' hf hf'
        rcases hisw w h1 with e1 | e1 <;> rcases hisw w' h2 with e2 | e2 <;> subst e1 <;> subst e2
        · exact hne' rfl
        · exact hnfb hf'
        · exact hnfb hf
        · exact hne' rfl
      · intro x hx; exact absurd hx (hnsing x)
    | some l =>
      have hml := List.mem_of_find?_eq_some hfind
      have hpl := List.find?_some hfind
      simp only [decide_eq_true_eq] at hpl
      have hll := h.store.lok id hid l hml
      have hnfl : ¬ FalseNow s l := by
        intro hf
        exact hpl.1 (bsat_zero.2 ⟨fun ht => h.trail.not_both hll.isVar ht hf, hf⟩)
      have hla' : l.var ≠ a.var := by
        intro e
        have := hd.eq hml hma e
        subst this
        exact hnfl hfa
      have hrec : id ∈ s.recs a.var := (h.store.recs a.var id).2 ⟨hid, a, hwa, rfl⟩
      have hnrec : id ∉ s.recs l.var := by
        intro hx
        obtain ⟨_, w, hw1, hw2⟩ := (h.store.recs l.var id).1 hx
        rcases hisw w hw1 with rfl | rfl
        · exact hla' hw2.symm
        · exact hpl.2 hw2.symm
      dsimp only
      unfold removeRec
      rw [if_pos ⟨hav, hrec⟩]
      refine ⟨_, rfl, ?_⟩
      generalize hs' : (addRec ({ s with recs := upd s.recs a.var ((s.recs a.var).erase id) } : BSt S) l.var id).setCl id
        ⟨(s.cl id).lits, some l, some b⟩ = s'
      have hF : Frame s s' := by
        subst hs'
        exact ⟨rfl, rfl, rfl, rfl, rfl, rfl, rfl, rfl, rfl, rfl, rfl, rfl, rfl, rfl, rfl, rfl, fun i => lits_setCl (s := s) (id := id) (c := ⟨(s.cl id).lits, some l, some b⟩) rfl i⟩
      have hcl : ∀ i, i < s.ncl → s'.cl i = if i = id then ⟨(s.cl id).lits, some l, some b⟩ else s.cl i := by
        intro i hi
        subst hs'
        exact cl_setCl (s := s) h.store hid _ hi
      have hrecs : ∀ x, s'.recs x = if x = l.var then id :: s.recs l.var else if x = a.var then (s.recs a.var).erase id else s.recs x := by
        intro x
        subst hs'
        show upd (upd s.recs a.var ((s.recs a.var).erase id)) l.var (id :: upd s.recs a.var ((s.recs a.var).erase id) l.var) x = _
        unfold upd
        rw [if_neg hla']
      have hun : s'.units = s.units := by subst hs'; rfl
      have hcf : s'.conflict = false := by subst hs'; exact hc
      clear hs'
      refine ⟨?_, hF⟩
      have hisw' : ∀ w, IsW (s'.cl id) w ↔ w = l ∨ w = b := by
        intro w
        rw [hcl id hid, if_pos rfl]
        unfold IsW
        simp only [Option.some.injEq]
        constructor
        · rintro (h1 | h1)
          · exact Or.inl h1.symm
          · exact Or.inr h1.symm
        · rintro (h1 | h1)
          · exact Or.inl h1.symm
          · exact Or.inr h1.symm
      have hoth : ∀ i, i < s.ncl → i ≠ id → s'.cl i = s.cl i := by
        intro i hi hne'; rw [hcl i hi, if_neg hne']
      have hst : StoreInv s' := by
        refine ⟨?_, ?_, ?_, ?_, ?_, ?_, ?_⟩
        · rw [hF.ncl, hF.ptr, hF.nheap]; exact h.store.ptr_lt
        · rw [hF.ncl, hF.ptr]; exact h.store.ptr_inj
        · rw [hF.ncl]; intro i hi; rw [hF.lits]; exact h.store.distinct i hi
        · rw [hF.ncl]; intro i hi; rw [hF.lits]; exact fun x hx => (h.store.lok i hi x hx).congr hF.nv hF.size
        · rw [hF.ncl]
          intro i hi
          by_cases he : i = id
          · subst he
            rw [hcl i hi, if_pos rfl]
            exact Or.inr ⟨hlen, l, b, rfl, rfl, hml, hmb, hpl.2⟩
          · rw [hoth i hi he]; exact h.store.wok i hi
        · intro x i
          rw [hF.ncl, hrecs]
          by_cases he : i = id
          · subst he
            simp only [hisw']
            by_cases hx : x = l.var
            · rw [if_pos hx]
              constructor
              · intro _; exact ⟨hid, l, Or.inl rfl, hx.symm⟩
              · intro _; exact List.mem_cons_self
            · rw [if_neg hx]
              by_cases hx' : x = a.var
              · rw [if_pos hx']
                constructor
                · intro hm
                  exact absurd hm (List.Nodup.not_mem_erase (h.store.nodup a.var))
                · rintro ⟨_, w, h1 | h1, h2⟩
                  · exact absurd (h1 ▸ h2).symm hx
                  · exact absurd (h1 ▸ h2 |>.trans hx').symm hab
              · rw [if_neg hx', h.store.recs]
                constructor
                · rintro ⟨_, w, h1, h2⟩
                  rcases hisw w h1 with h3 | h3
                  · exact absurd (h3 ▸ h2).symm hx'
                  · exact ⟨hid, w, Or.inr h3, h2⟩
                · rintro ⟨_, w, h1 | h1, h2⟩
                  · exact absurd (h1 ▸ h2).symm hx
                  · exact ⟨hid, w, h1 ▸ hwb, h2⟩
          · have key : i ∈ (if x = l.var then id :: s.recs l.var else if x = a.var then (s.recs a.var).erase id else s.recs x) ↔ i ∈ s.recs x := by
              by_cases hx : x = l.var
              · rw [if_pos hx, hx]
                constructor
                · intro hm; rcases List.mem_cons.1 hm with h1 | h1
                  · exact absurd h1 he
                  · exact h1
                · exact List.mem_cons_of_mem _
              · rw [if_neg hx]
                by_cases hx' : x = a.var
                · rw [if_pos hx', hx', List.mem_erase_of_ne he]
                · rw [if_neg hx']
            rw [key, h.store.recs]
            constructor
            · rintro ⟨hi, hw'⟩; exact ⟨hi, by rw [hoth i hi he]; exact hw'⟩
            · rintro ⟨hi, hw'⟩; exact ⟨hi, by rw [hoth i hi he] at hw'; exact hw'⟩
        · intro x
          rw [hrecs]
          by_cases hx : x = l.var
          · rw [if_pos hx, List.nodup_cons]
            exact ⟨hnrec, h.store.nodup _⟩
          · rw [if_neg hx]
            by_cases hx' : x = a.var
            · rw [if_pos hx']; exact (h.store.nodup _).erase _
            · rw [if_neg hx']; exact h.store.nodup _
      refine ⟨hF.trail h.trail, hst, ?_, hnodup.2, ?_⟩
      · refine ⟨?_, ?_, ?_, ?_, ?_, ?_, ?_⟩
        · intro i hi w w' h1 h2 hne' k hk hf
          rw [hF.ncl] at hi
          rw [hF.LEVEL] at hk
          rw [FalseL.congr hF.nodes] at hf
          by_cases he : i = id
          · subst he
            have := h.trail.falseNow_of_falseL hf
            rcases (hisw' w).1 h1 with rfl | rfl
            · exact absurd this hnfl
            · exact absurd this hnfb
          · rw [hoth i hi he] at h1 h2
            rw [TrueL.congr hF.nodes hF.size]
            exact h.watch.low i hi w w' h1 h2 hne' k hk hf
        · intro _ i hi w w' h1 h2 hne' hf
          rw [hF.ncl] at hi
          rw [FalseNow.congr hF.cur] at hf
          by_cases he : i = id
          · subst he
            rcases (hisw' w).1 h1 with rfl | rfl
            · exact absurd hf hnfl
            · exact absurd hf hnfb
          · rw [hoth i hi he] at h1 h2 ⊢
            rw [TrueNow.congr hF.cur, hun]
            simp only [FalseNow.congr hF.cur]
            rcases h.watch.top hc i hi w w' h1 h2 hne' hf with ⟨h3, h4⟩ | h3
            · rcases List.mem_cons.1 h4 with h4 | h4
              · exact absurd h4 he
              · exact Or.inl ⟨h3, h4⟩
            · exact Or.inr h3
        · intro _ i hi w w' h1 h2 hne' hf hf'
          rw [hF.ncl] at hi
          rw [FalseNow.congr hF.cur] at hf hf'
          by_cases he : i = id
          · subst he
            rcases (hisw' w).1 h1 with rfl | rfl
            · exact absurd hf hnfl
            · exact absurd hf hnfb
          · rw [hoth i hi he] at h1 h2
            rcases List.mem_cons.1 (h.watch.both hc i hi w w' h1 h2 hne' hf hf') with h4 | h4
            · exact absurd h4 he
            · exact h4
        · intro _ i hi w w' hlt h1 h2 hne' hv hf hf'
          rw [hF.ncl] at hlt
          rw [FalseNow.congr hF.cur] at hf hf'
          have he : i ≠ id := fun e => hnodup.1 (e ▸ hi)
          rw [hoth i hlt he] at h1 h2
          have hn : s'.node w = s.node w := by unfold BSt.node; rw [hF.nodes]
          rw [hn, hF.atomIndex]
          exact h.watch.old hc i (List.mem_cons_of_mem _ hi) w w' hlt h1 h2 hne' hv hf hf'
        · intro i hi
          rw [hun] at hi
          rw [hF.ncl, hF.lits]
          simp only [FalseNow.congr hF.cur]
          exact h.watch.units i hi
        · rcases h.watch.single with h1 | h1
          · rw [hc] at h1; cases h1.1
          · right
            intro i hi x hx
            rw [hF.ncl] at hi
            rw [hF.lits] at hx
            rw [TrueL.congr hF.nodes hF.size, hun, hF.LEVEL, FalseNow.congr hF.cur]
            rcases h1 i hi x hx with h2 | ⟨h2, h3, h4⟩ | h2
            · exact Or.inl h2
            · rcases List.mem_cons.1 h3 with rfl | h3
              · exact absurd hx (hnsing x)
              · exact Or.inr (Or.inl ⟨h2, h3, h4⟩)
            · exact Or.inr (Or.inr h2)
        · intro h1; rw [hcf] at h1; cases h1
      · intro i hi
        have he : i ≠ id := fun e => hnodup.1 (e ▸ hi)
        rw [hrecs]
        have hi' := h.rem i (List.mem_cons_of_mem _ hi)
        by_cases hx : v = l.var
        · rw [if_pos hx, ← hx]; exact List.mem_cons_of_mem _ hi'
        · rw [if_neg hx, if_pos hav.symm, List.mem_erase_of_ne he, hav]; exact hi'
  · rw [if_neg hb2]
    have hfb : FalseNow s b := by
      apply Classical.byContradiction
      intro hn
      exact hb2 (bsat_two.2 ⟨hnb, hn⟩)
    refine ⟨{ s with conflict := true, conflicting := id }, rfl, ?_,
      ⟨rfl, rfl, rfl, rfl, rfl, rfl, rfl, rfl, rfl, rfl, rfl, rfl, rfl, rfl, rfl, rfl, fun _ => rfl⟩⟩
    have hst : StoreInv ({ s with conflict := true, conflicting := id } : BSt S) :=
      ⟨h.store.ptr_lt, h.store.ptr_inj, h.store.distinct, fun i hi l hl => ⟨(h.store.lok i hi l hl).1, (h.store.lok i hi l hl).2, (h.store.lok i hi l hl).3⟩,
        h.store.wok, h.store.recs, h.store.nodup⟩
    refine UpdInv.drop_conflict (id := id) ⟨h.trail.congr rfl rfl rfl rfl rfl rfl, hst, ?_, h.nodup, h.rem⟩ rfl
    refine ⟨h.watch.low, ?_, ?_, ?_, h.watch.units, ?_, ?_⟩
    · intro h1; cases h1
    · intro h1; cases h1
    · intro h1; cases h1
    · rcases h.watch.single with h1 | h1
      · rw [hc] at h1; cases h1.1
      · exact Or.inr h1
    · intro _
      refine ⟨id, hid, rfl, ?_, a, b, ha, hb, ?_, ?_⟩
      · intro l hl
        rcases h.watch.top hc id hid b a hwb hwa hne.symm hfb with ⟨h3, _⟩ | h3 | ⟨_, h3⟩
        · exact absurd (hav.trans h3.symm) hab
        · exact absurd h3 hnta
        · by_cases hla' : l = a
          · rw [hla']; exact hfa
          · exact h3 l hl hla'
      · exact h.watch.old hc id List.mem_cons_self a b hid hwa hwb hne hav hfa hfb
      · intro hL hf
        have := h.watch.low id hid b a hwb hwa hne.symm (s.LEVEL - 1) (by omega) hf
        exact hnta (h.trail.trueNow_of_trueL hla.isVar this)

end Mvl.BV
