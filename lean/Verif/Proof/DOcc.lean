import Verif.Proof.DNC

/-!
# The occurrence counts of the default heuristic when clause objects are shared

A shared object is a single-literal clause `[B]`.  It is created by a conflict with `B` false at the current level, so
the search goes back to level 0 and propagates `B` there: `B` is true at level 0 for good before any decision is made.
Hence the counts stay exact although satisfying and releasing clauses works on objects.
-/

namespace Mvl

variable {S : Type}

theorem DStore.shared_unit {G : Nat → Prop} {s : St S} (h : DStore G s) {id : Nat} (hid : id < s.ncl) (hn : ¬ Own s id) :
    ∃ B, (s.cl id).lits = [B] := h.unit id hid (fun hg => hn (h.own id hg hid))

/-! ### Assigning -/

theorem satOne_cl_D (cfg : Cfg S) (s : St S) (id j : Nat) :
    (satOne cfg s id).cl j =
      if s.ptr j = s.ptr id ∧ (s.cl j).level = -1 then { s.cl j with level := s.LEVEL, numUn := 0 } else s.cl j := by
  obtain ⟨_, _, he⟩ := satOne_frame cfg s id
  have hptr : (satOne cfg s id).ptr = s.ptr := by rw [he]
  show (satOne cfg s id).heap ((satOne cfg s id).ptr j) = _
  rw [hptr]; exact satOne_heap cfg s id (s.ptr j)

theorem satOne_occ_D (cfg : Cfg S) (hbk : cfg.heur = .BK) {s : St S} (hL : s.LEVEL ≠ -1) {id : Nat}
    (hid : id < s.ncl) (hown : Own s id ∨ ∀ x ∈ (s.cl id).lits, ¬ LU s.asg x) (h : OccOK s) :
    OccOK (satOne cfg s id) := by
  obtain ⟨hp, c, he⟩ := satOne_frame cfg s id
  have hasg : (satOne cfg s id).asg = s.asg := by rw [he]
  have hncl : (satOne cfg s id).ncl = s.ncl := by rw [he]
  have hcl := satOne_cl_D cfg s id
  intro x
  rw [hasg, satOne_cnt cfg hbk]
  obtain ⟨h1, h2⟩ := h x
  refine ⟨?_, ?_⟩
  · intro hu
    have hocc : occ (satOne cfg s id) x = occ s x - occ1 (s.cl id) x := by
      rcases hown with hown | hno
      · unfold occ
        rw [hncl, occN_upd (f := s.cl) hid]
        · have e := hcl id
          by_cases hl : (s.cl id).level = -1
          · rw [if_pos ⟨rfl, hl⟩] at e
            have : occ1 ((satOne cfg s id).cl id) x = 0 := by rw [e]; unfold occ1; exact if_neg hL
            rw [this]; omega
          · rw [if_neg (by simp [hl])] at e
            rw [e]
            have : occ1 (s.cl id) x = 0 := by unfold occ1; exact if_neg hl
            rw [this]; omega
        · intro i hi hne
          rw [hcl i, if_neg (fun h => hne (hown i hi h.1))]
      · have hx0 : ∀ j, s.ptr j = s.ptr id → (s.cl j).lits.count x = 0 := by
          intro j hj
          have : s.cl j = s.cl id := by unfold St.cl; rw [hj]
          rw [this]; exact List.count_eq_zero.2 (fun hm => hno x hm hu)
        have h0 : occ1 (s.cl id) x = 0 := by
          unfold occ1; rw [hx0 id rfl]; split <;> rfl
        rw [h0]
        unfold occ
        rw [hncl, occN_congr (g := s.cl)]
        · omega
        intro i hi
        rw [hcl i]
        split
        · rename_i hc
          unfold occ1
          dsimp only
          rw [hx0 i hc.1]; split <;> split <;> rfl
        · rfl
    rw [hocc, h1 hu]
    unfold occ1
    by_cases hl : (s.cl id).level = -1
    · rw [if_pos ⟨hl, hu⟩, if_pos hl]
    · rw [if_neg (by simp [hl]), if_neg hl]; omega
  · intro hu
    rw [if_neg (by simp [hu])]; exact h2 hu

/-- What the folds below keep. -/
structure OccFold (G : Nat → Prop) (s : St S) : Prop where
  store : DStore G s
  level : s.LEVEL ≠ -1
  occ : OccOK s

theorem satFold_occ_D (cfg : Cfg S) (hbk : cfg.heur = .BK) {G : Nat → Prop} {l : Lit} : ∀ (ids : List Nat) (s : St S),
    OccFold G s → ¬ LU s.asg l → (∀ i ∈ ids, i ∈ s.recs l) → OccFold G (ids.foldl (satOne cfg) s)
  | [], s, h, _, _ => h
  | id :: ids, s, h, hl, hids => by
    rw [List.foldl_cons]
    have hrec := hids id (by simp)
    have hid := h.store.mem_lt hrec
    have hcl := satOne_cl_D cfg s id
    obtain ⟨hp, c, he⟩ := satOne_frame cfg s id
    have hown : Own s id ∨ ∀ x ∈ (s.cl id).lits, ¬ LU s.asg x := by
      by_cases ho : Own s id
      · exact Or.inl ho
      · right
        obtain ⟨B, hB⟩ := h.store.shared_unit hid ho
        have hm := (h.store.mem hid).1 hrec
        rw [hB] at hm ⊢
        intro x hx
        have h1 : l = B := by simpa using hm
        have h2 : x = B := by simpa using hx
        rw [h2, ← h1]; exact hl
    have h1 : OccFold G (satOne cfg s id) := by
      refine ⟨?_, ?_, satOne_occ_D cfg hbk h.level hid hown h.occ⟩
      · refine h.store.frame (by rw [he]) (by rw [he]) (by rw [he]) (by rw [he]) ?_
        intro j _; rw [hcl j]; split <;> rfl
      · have : (satOne cfg s id).LEVEL = s.LEVEL := by rw [he]
        rw [this]; exact h.level
    refine satFold_occ_D (l := l) cfg hbk ids _ h1 ?_ ?_
    · have : (satOne cfg s id).asg = s.asg := by rw [he]
      rw [this]; exact hl
    · have : (satOne cfg s id).recs = s.recs := by rw [he]
      rw [this]; intro i hi; exact hids i (by simp [hi])

theorem remFold_occ_D {G : Nat → Prop} : ∀ (ids : List Nat) (s : St S), OccFold G s → OccFold G (ids.foldl remOne s)
  | [], _, h => h
  | id :: ids, s, h => by
    rw [List.foldl_cons]
    obtain ⟨hp, c, u, b, k, he⟩ := remOne_frame s id
    have hptr : (remOne s id).ptr = s.ptr := by rw [he]
    have hcl : ∀ j, ((remOne s id).cl j).lits = (s.cl j).lits ∧ ((remOne s id).cl j).level = (s.cl j).level := by
      intro j
      have : (remOne s id).cl j = (remOne s id).heap (s.ptr j) := by unfold St.cl; rw [hptr]
      rw [this, remOne_heap]
      split <;> exact ⟨rfl, rfl⟩
    have hncl : (remOne s id).ncl = s.ncl := by rw [he]
    have hasg : (remOne s id).asg = s.asg := by rw [he]
    refine remFold_occ_D ids _ ⟨?_, ?_, ?_⟩
    · exact h.store.frame (by rw [he]) (by rw [he]) (by rw [he]) (by rw [he]) (fun j _ => (hcl j).1)
    · have : (remOne s id).LEVEL = s.LEVEL := by rw [he]
      rw [this]; exact h.level
    · exact CntOn.congr h.occ (fun l => by rw [hasg]) (remOne_cnt s id) (occ_congr hncl (fun j _ => hcl j))

theorem assign1_occ_D (cfg : Cfg S) (hbk : cfg.heur = .BK) {G : Nat → Prop} {s : St S} {v d : Nat} {a : Asg} (ha : a ≠ .un)
    (h : OccFold G s) : OccFold G (assign1 cfg s v d a) := by
  have h1 : OccFold G (setAtom cfg s v d a) :=
    ⟨⟨h.store.own, h.store.recs, h.store.alloc, h.store.unit⟩, h.level, setAtom_occ cfg hbk ha h.occ⟩
  have hl : ¬ LU (setAtom cfg s v d a).asg ⟨v, d, a = .eq⟩ := by
    intro hu
    have : upd2 s.asg v d a v d = .un := hu
    rw [upd2_same] at this
    exact ha this
  unfold assign1
  generalize setAtom cfg s v d a = t at *
  exact remFold_occ_D _ _ (satFold_occ_D cfg hbk (t.recs ⟨v, d, a = .eq⟩) t h1 hl (fun i hi => hi))

theorem reduceTheory_occ_D (cfg : Cfg S) (hbk : cfg.heur = .BK) {G : Nat → Prop} {s : St S} {l : Lit} (hu : LU s.asg l)
    (h : OccFold G s) : OccOK (reduceTheory cfg s l) := by
  rw [reduceTheory_G]
  exact (reduceG_inv (g := assign1 cfg) (I := fun s' : St S => OccFold G s')
    (fun s' ds vv u n a => ⟨⟨a.store.own, a.store.recs, a.store.alloc, a.store.unit⟩, a.level, a.occ.congr rfl rfl rfl rfl rfl⟩)
    (fun s' v d a ha h' _ => assign1_occ_D cfg hbk ha h') s l hu h).occ

/-! ### Undoing -/

theorem addFold_cnt_D (cfg : Cfg S) (hbk : cfg.heur = .BK) (l : Lit) : ∀ (ids : List Nat) (s : St S) (x : Lit),
    (ids.foldl (addOne cfg l) s).cnt x =
      s.cnt x + if x = l then ((ids.countP fun i => (s.cl i).level = -1 : Nat) : Int) else 0
  | [], s, x => by simp
  | id :: ids, s, x => by
    rw [List.foldl_cons]
    obtain ⟨hh, hc, he⟩ := addOne_frame cfg l s id
    have hptr : (addOne cfg l s id).ptr = s.ptr := by rw [he]
    rw [addFold_cnt_D cfg hbk l ids (addOne cfg l s id) x, addOne_cnt cfg hbk]
    have hcp : (ids.countP fun i => ((addOne cfg l s id).cl i).level = -1) = ids.countP fun i => (s.cl i).level = -1 := by
      apply List.countP_congr
      intro i hi
      have : (addOne cfg l s id).cl i = (addOne cfg l s id).heap (s.ptr i) := by unfold St.cl; rw [hptr]
      rw [this, addOne_heap]
      have e : s.cl i = s.heap (s.ptr i) := rfl
      rw [e]
      split <;> simp
    rw [hcp, List.countP_cons]
    by_cases hx : x = l
    · simp only [hx, true_and, if_true]
      by_cases hl : (s.cl id).level = -1 <;> simp [hl] <;> omega
    · simp [hx]

theorem addLiteral_cnt_D (cfg : Cfg S) (hbk : cfg.heur = .BK) {G : Nat → Prop} {s : St S} (hs : DStore G s) (l x : Lit) :
    (addLiteral cfg s l).cnt x = s.cnt x + if x = l then occ s l else 0 := by
  unfold addLiteral
  rw [addFold_cnt_D cfg hbk l (s.recs l) s x]
  rw [countP_recs (f := s.cl) (n := s.ncl) (l := l) (fun i hi => by rw [hs.recs l i, if_pos hi]) (fun i hi => hs.mem_lt hi)]
  rfl

theorem undoAdd_cl_D (cfg : Cfg S) (k : Int) (s : St S) (a : Nat × Nat) (j : Nat) :
    ((undoAdd cfg k s a).cl j).lits = (s.cl j).lits ∧ ((undoAdd cfg k s a).cl j).level = (s.cl j).level := by
  obtain ⟨h1, h2⟩ := undoAdd_fold_heap cfg k [a] s
  have h1' : FrameH s (undoAdd cfg k s a) := h1
  obtain ⟨_, _, he⟩ := h1'
  have hptr : (undoAdd cfg k s a).ptr = s.ptr := by rw [he]
  have e : (undoAdd cfg k s a).cl j = (undoAdd cfg k s a).heap (s.ptr j) := by unfold St.cl; rw [hptr]
  have h3 : (undoAdd cfg k s a).heap (s.ptr j) = _ := h2 (s.ptr j)
  rw [e, h3]
  split <;> exact ⟨rfl, rfl⟩

theorem undoAdd_cnt_D (cfg : Cfg S) (hbk : cfg.heur = .BK) (k : Int) {G : Nat → Prop} : ∀ (as : List (Nat × Nat)) (s : St S),
    as.Nodup → DStore G s → ∀ x : Lit, (as.foldl (undoAdd cfg k) s).cnt x =
      s.cnt x + if (x.var, x.val) ∈ as ∧ s.lvl x.var x.val > k ∧ falseLit s.asg (x.var, x.val) = x then occ s x else 0
  | [], s, _, _, x => by simp
  | a :: as, s, hnd, hs, x => by
    rw [List.foldl_cons]
    obtain ⟨hna, hnd⟩ := List.nodup_cons.1 hnd
    have hcl := undoAdd_cl_D cfg k s a
    obtain ⟨_, _, he⟩ := undoAdd_frame cfg k s a
    have hncl : (undoAdd cfg k s a).ncl = s.ncl := by rw [he]
    have hs1 : DStore G (undoAdd cfg k s a) :=
      hs.frame hncl (by rw [he]) (by rw [he]) (by rw [he]) (fun j _ => (hcl j).1)
    have hasg : (undoAdd cfg k s a).asg = s.asg := by rw [he]
    have hlvl : (undoAdd cfg k s a).lvl = s.lvl := by rw [he]
    rw [undoAdd_cnt_D cfg hbk k as _ hnd hs1, hasg, hlvl, occ_congr hncl (fun j _ => hcl j)]
    have h1 : (undoAdd cfg k s a).cnt x =
        s.cnt x + if s.lvl a.1 a.2 > k ∧ x = falseLit s.asg a then occ s x else 0 := by
      rw [undoAdd_eq]
      by_cases hl : s.lvl a.1 a.2 > k
      · rw [if_pos hl, addLiteral_cnt_D cfg hbk hs]
        by_cases hx : x = falseLit s.asg a
        · rw [if_pos hx, if_pos ⟨hl, hx⟩, ← hx]
        · rw [if_neg hx, if_neg (by simp [hx])]
      · rw [if_neg hl, if_neg (by simp [hl])]; omega
    rw [h1]
    by_cases hxa : (x.var, x.val) = a
    · subst hxa
      rw [if_neg (c := (x.var, x.val) ∈ as ∧ _) (by simp [hna])]
      by_cases hc : s.lvl x.var x.val > k ∧ x = falseLit s.asg (x.var, x.val)
      · rw [if_pos hc, if_pos ⟨by simp, hc.1, hc.2.symm⟩]; omega
      · rw [if_neg hc, if_neg (by rintro ⟨_, h2, h3⟩; exact hc ⟨h2, h3.symm⟩)]; omega
    · have hne : x ≠ falseLit s.asg a := by
        rintro rfl; exact hxa rfl
      rw [if_neg (c := s.lvl a.1 a.2 > k ∧ _) (by simp [hne])]
      simp only [List.mem_cons, hxa, false_or]
      omega

/-- What the loops that release clauses keep: entries sharing an object are not released. -/
structure UnsatFold (G : Nat → Prop) (k : Int) (s : St S) : Prop where
  store : DStore G s
  low : ∀ id, id < s.ncl → ¬ Own s id → (s.cl id).level ≤ k
  occ : CntOn (OpenAt k s) s

theorem unsatOne_cl_D (cfg : Cfg S) (k : Int) (s : St S) (id j : Nat) :
    (unsatOne cfg k s id).cl j = if s.ptr j = s.ptr id ∧ (s.cl j).level > k then
        { s.cl j with numUn := (s.cl j).numUn + opens s.asg s.lvl k (s.cl j).lits, level := -1 } else s.cl j := by
  obtain ⟨⟨_, _, he⟩, h2⟩ := unsatOne_heap cfg k s id
  have hptr : (unsatOne cfg k s id).ptr = s.ptr := by rw [he]
  show (unsatOne cfg k s id).heap ((unsatOne cfg k s id).ptr j) = _
  rw [hptr]; exact h2 (s.ptr j)

theorem unsatOne_occ_D (cfg : Cfg S) (hbk : cfg.heur = .BK) {k : Int} (hk : -1 ≤ k) {G : Nat → Prop} {s : St S} {id : Nat}
    (hid : id < s.ncl) (h : UnsatFold G k s) : UnsatFold G k (unsatOne cfg k s id) := by
  obtain ⟨hf, _⟩ := unsatOne_heap cfg k s id
  have hcl := unsatOne_cl_D cfg k s id
  obtain ⟨_, _, he⟩ := hf
  have hncl : (unsatOne cfg k s id).ncl = s.ncl := by rw [he]
  have hptr : (unsatOne cfg k s id).ptr = s.ptr := by rw [he]
  refine ⟨?_, ?_, ?_⟩
  · refine h.store.frame hncl hptr (by rw [he]) (by rw [he]) (fun j _ => ?_)
    rw [hcl j]; split <;> rfl
  · intro j hj hn
    rw [hncl] at hj
    have : ¬ Own s j := by
      intro ho; apply hn; unfold Own; rw [hncl, hptr]; exact ho
    rw [hcl j]
    split
    · exact hk
    · exact h.low j hj this
  · have hop : ∀ x, OpenAt k (unsatOne cfg k s id) x ↔ OpenAt k s x := by intro x; unfold OpenAt; rw [he]
    have hcnt : ∀ x, (unsatOne cfg k s id).cnt x =
        s.cnt x + if (s.cl id).level > k ∧ OpenAt k s x then (((s.cl id).lits.count x : Nat) : Int) else 0 := by
      intro x
      unfold unsatOne
      by_cases hl : (s.cl id).level > k
      · rw [if_pos hl]
        show ((s.cl id).lits.foldl (unsatLit cfg k id) s).cnt x = _
        rw [unsatLit_cnt cfg hbk]
        simp only [hl, true_and]
      · rw [if_neg hl, if_neg (fun h => hl h.1)]; omega
    intro x
    rw [hop x, hcnt x]
    have hocc : occ (unsatOne cfg k s id) x = occ s x + if (s.cl id).level > k then (((s.cl id).lits.count x : Nat) : Int) else 0 := by
      unfold occ
      rw [hncl]
      by_cases hl : (s.cl id).level > k
      · have hown : Own s id := by
          apply Classical.byContradiction
          intro hn
          have := h.low id hid hn
          omega
        rw [occN_upd (f := s.cl) hid]
        · have e := hcl id
          rw [if_pos ⟨rfl, hl⟩] at e
          have h1 : occ1 ((unsatOne cfg k s id).cl id) x = (((s.cl id).lits.count x : Nat) : Int) := by
            rw [e]; unfold occ1; exact if_pos rfl
          have h2 : occ1 (s.cl id) x = 0 := by unfold occ1; exact if_neg (by omega)
          rw [h1, h2, if_pos hl]; omega
        · intro i hi hne
          rw [hcl i, if_neg (fun h => hne (hown i hi h.1))]
      · rw [if_neg hl, occN_congr (g := s.cl)]
        · omega
        intro i hi
        rw [hcl i, if_neg]
        rintro ⟨h1, h2⟩
        have : s.cl i = s.cl id := by unfold St.cl; rw [h1]
        rw [this] at h2; exact hl h2
    rw [hocc]
    obtain ⟨h1, h2⟩ := h.occ x
    constructor
    · intro ho
      rw [h1 ho]
      by_cases hl : (s.cl id).level > k
      · rw [if_pos ⟨hl, ho⟩, if_pos hl]
      · rw [if_neg (fun h => hl h.1), if_neg hl]
    · intro ho
      rw [h2 ho, if_neg (fun h => ho h.2)]; rfl

theorem unsatFold_occ_D (cfg : Cfg S) (hbk : cfg.heur = .BK) {k : Int} (hk : -1 ≤ k) {G : Nat → Prop} :
    ∀ (ids : List Nat) (s : St S), (∀ i ∈ ids, i < s.ncl) → UnsatFold G k s → UnsatFold G k (ids.foldl (unsatOne cfg k) s)
  | [], _, _, h => h
  | id :: ids, s, hids, h => by
    rw [List.foldl_cons]
    have hid := hids id (by simp)
    obtain ⟨⟨_, _, he⟩, _⟩ := unsatOne_heap cfg k s id
    have hncl : (unsatOne cfg k s id).ncl = s.ncl := by rw [he]
    exact unsatFold_occ_D cfg hbk hk ids _ (by rw [hncl]; intro i hi; exact hids i (by simp [hi]))
      (unsatOne_occ_D cfg hbk hk hid h)

theorem undoUnsat_occ_D (cfg : Cfg S) (hbk : cfg.heur = .BK) {k : Int} (hk : -1 ≤ k) {G : Nat → Prop} :
    ∀ (as : List (Nat × Nat)) (s : St S), UnsatFold G k s → UnsatFold G k (as.foldl (undoUnsat cfg k) s)
  | [], _, h => h
  | a :: as, s, h => by
    rw [List.foldl_cons]
    refine undoUnsat_occ_D cfg hbk hk as _ ?_
    rw [undoUnsat_eq]
    by_cases hl : s.lvl a.1 a.2 > k
    · rw [if_pos hl]
      dsimp only
      have h1 : UnsatFold G k (unsatisfyClauses cfg s (trueLit s.asg a) k) :=
        unsatFold_occ_D cfg hbk hk (s.recs (trueLit s.asg a)) s (fun i hi => h.store.mem_lt hi) h
      have hfr : FrameH s (unsatisfyClauses cfg s (trueLit s.asg a) k) :=
        (unsatFold_heap cfg hk (s.recs (trueLit s.asg a)) s).1
      obtain ⟨hp, c, he⟩ := hfr
      have hlv : (unsatisfyClauses cfg s (trueLit s.asg a) k).lvl a.1 a.2 > k := by rw [he]; exact hl
      generalize unsatisfyClauses cfg s (trueLit s.asg a) k = t at *
      refine ⟨⟨h1.store.own, h1.store.recs, h1.store.alloc, h1.store.unit⟩, h1.low, ?_⟩
      refine CntOn.congr h1.occ ?_ rfl (fun l => occ_congr rfl (fun i _ => ⟨rfl, rfl⟩) l)
      intro l
      unfold OpenAt
      dsimp only
      by_cases hla : l.var = a.1 ∧ l.val = a.2
      · rw [hla.1, hla.2, upd2_same, upd2_same]
        constructor
        · intro _; exact Or.inl hlv
        · intro _; exact Or.inr rfl
      · rw [Trail.upd2_of_ne _ _ hla, Trail.upd2_of_ne _ _ hla]
    · rw [if_neg hl]; exact h

/-- Undoing keeps the counts exact. -/
theorem undoTheory_occ_D (cfg : Cfg S) (hbk : cfg.heur = .BK) {G : Nat → Prop} {s : St S} {k K : Int} (hk : -1 ≤ k)
    (hb : (s.tr.level K).Base) (hs : DStore G s) (hex : ∀ j, j < s.ncl → Mark s.asg s.lvl (s.cl j))
    (hnum : ∀ j, j < s.ncl → G j → Num s.asg (s.cl j))
    (hlow : ∀ id, id < s.ncl → ¬ Own s id → (s.cl id).level ≤ k) (h : OccOK s) : OccOK (undoTheory cfg s k) := by
  have hu := undoTheory_D cfg hk hb hs hex hnum
  obtain ⟨a2, a3⟩ := undoAdd_fold_heap cfg k s.atoms s
  have a4 := undoAdd_cnt_D cfg hbk k s.atoms s (nodup_atoms s) hs
  obtain ⟨hp, cc, he⟩ := a2
  have hptr : (s.atoms.foldl (undoAdd cfg k) s).ptr = s.ptr := by rw [he]
  have hcl : ∀ j, ((s.atoms.foldl (undoAdd cfg k) s).cl j).lits = (s.cl j).lits ∧
      ((s.atoms.foldl (undoAdd cfg k) s).cl j).level = (s.cl j).level := by
    intro j
    have : (s.atoms.foldl (undoAdd cfg k) s).cl j = (s.atoms.foldl (undoAdd cfg k) s).heap (s.ptr j) := by
      unfold St.cl; rw [hptr]
    rw [this, a3 (s.ptr j)]
    split <;> exact ⟨rfl, rfl⟩
  have hncl : (s.atoms.foldl (undoAdd cfg k) s).ncl = s.ncl := by rw [he]
  have hasg : (s.atoms.foldl (undoAdd cfg k) s).asg = s.asg := by rw [he]
  have hlvl : (s.atoms.foldl (undoAdd cfg k) s).lvl = s.lvl := by rw [he]
  have hs1 : DStore G (s.atoms.foldl (undoAdd cfg k) s) :=
    hs.frame hncl hptr (by rw [he]) (by rw [he]) (fun j _ => (hcl j).1)
  have hlow1 : ∀ id, id < (s.atoms.foldl (undoAdd cfg k) s).ncl → ¬ Own (s.atoms.foldl (undoAdd cfg k) s) id →
      ((s.atoms.foldl (undoAdd cfg k) s).cl id).level ≤ k := by
    intro id hid hn
    rw [(hcl id).2]
    refine hlow id (by rw [← hncl]; exact hid) ?_
    intro ho; apply hn; unfold Own; rw [hncl, hptr]; exact ho
  have h1 : CntOn (OpenAt k (s.atoms.foldl (undoAdd cfg k) s)) (s.atoms.foldl (undoAdd cfg k) s) := by
    intro x
    rw [a4 x, occ_congr hncl (fun j _ => hcl j) x]
    have hop : OpenAt k (s.atoms.foldl (undoAdd cfg k) s) x ↔ OpenAt k s x := by unfold OpenAt; rw [hasg, hlvl]
    rw [hop]
    obtain ⟨o1, o2⟩ := h x
    have hgt_un : s.lvl x.var x.val > k → ¬ LU s.asg x := by
      intro hgt hun
      have : s.lvl x.var x.val = -10 := hb.un x.var x.val hun
      omega
    constructor
    · rintro (hgt | hun)
      · have hnu := hgt_un hgt
        have hin : (x.var, x.val) ∈ s.atoms := mem_atoms.2 (hb.rng x.var x.val hnu)
        rw [o2 hnu]
        by_cases hfl : falseLit s.asg (x.var, x.val) = x
        · rw [if_pos ⟨hin, hgt, hfl⟩]; omega
        · rw [if_neg (fun h => hfl h.2.2)]
          have hlt : LT s.asg x := by
            rcases lit_cases s.asg x with h' | h' | h'
            · exact h'
            · exfalso
              apply hfl
              obtain ⟨xv, xd, xe⟩ := x
              unfold LF at h'
              unfold falseLit
              dsimp only at h' ⊢
              rw [h']; cases xe <;> rfl
            · exact absurd h' hnu
          have hz : occ s x = 0 := by
            apply occN_zero
            intro i hi hm hl
            exact (hex i hi).unsat hl ⟨x, hm, hlt⟩
          omega
      · have hlu : LU s.asg x := hun
        rw [o1 hlu, if_neg (fun h => hgt_un h.2.1 hlu)]; omega
    · intro ho
      have hnu : ¬ LU s.asg x := fun h => ho (Or.inr h)
      rw [o2 hnu, if_neg (fun h => ho (Or.inl h.2.1))]; rfl
  have h2 := (undoUnsat_occ_D cfg hbk hk (s.atoms.foldl (undoAdd cfg k) s).atoms (s.atoms.foldl (undoAdd cfg k) s)
    ⟨hs1, hlow1, h1⟩).occ
  have hut := hu.tr
  unfold undoTheory at hut ⊢
  dsimp only at hut ⊢
  generalize (s.atoms.foldl (undoAdd cfg k) s).atoms.foldl (undoUnsat cfg k) (s.atoms.foldl (undoAdd cfg k) s) = t at *
  refine CntOn.congr h2 ?_ rfl (fun l => occ_congr rfl (fun i _ => ⟨rfl, rfl⟩) l)
  intro l
  have e1 : t.asg l.var l.val = if s.lvl l.var l.val > k then .un else s.asg l.var l.val :=
    congrFun (congrFun (congrArg Trail.asg hut) l.var) l.val
  have e2 : t.lvl l.var l.val = if s.lvl l.var l.val > k then -10 else s.lvl l.var l.val :=
    congrFun (congrFun (congrArg Trail.lvl hut) l.var) l.val
  unfold OpenAt LU
  dsimp only
  rw [e1, e2]
  by_cases hgt : s.lvl l.var l.val > k
  · rw [if_pos hgt, if_pos hgt]; simp
  · rw [if_neg hgt, if_neg hgt]; simp [hgt]

/-! ### Which literal is at the current level, and where shared objects stand -/

/-- A conflict was reached at the current level. -/
def ConfNow (s : St S) : Prop := s.conflict = true → ∃ id : Nat, s.conflicting = (id : Nat) ∧
  ∃ x ∈ (s.cl id).lits, s.asg x.var x.val ≠ .un ∧ s.lvl x.var x.val = s.LEVEL

theorem assign1_confNow (cfg : Cfg S) {G : Nat → Prop} {s : St S} (hs : DStore G s) (hL : 0 ≤ s.LEVEL) {v d : Nat} {a : Asg}
    (ha : a ≠ .un) (hu : s.asg v d = .un) (h : ConfNow s) : ConfNow (assign1 cfg s v d a) := by
  obtain ⟨e, rfl, he⟩ := assign1_cases cfg s v d ha
  have hlits := assignLit_lits' cfg s hL ⟨v, d, e⟩
  rw [← he] at hlits
  intro hc
  obtain ⟨hp, cn, un, cf, cg, hfr⟩ := assign1_frame cfg s v d (Asg.ofSign e)
  have hasg : (assign1 cfg s v d (Asg.ofSign e)).asg = upd2 s.asg v d (Asg.ofSign e) := by rw [hfr]; rfl
  have hlvl : (assign1 cfg s v d (Asg.ofSign e)).lvl = upd2 s.lvl v d s.LEVEL := by rw [hfr]; rfl
  have hLE : (assign1 cfg s v d (Asg.ofSign e)).LEVEL = s.LEVEL := by rw [hfr]; rfl
  rw [hasg, hlvl, hLE]
  have hsame : (satisfyClauses cfg (setAtom cfg s v d (Asg.ofSign e)) ⟨v, d, Asg.ofSign e = .eq⟩).conflict = s.conflict ∧
      (satisfyClauses cfg (setAtom cfg s v d (Asg.ofSign e)) ⟨v, d, Asg.ofSign e = .eq⟩).conflicting = s.conflicting ∧
      (satisfyClauses cfg (setAtom cfg s v d (Asg.ofSign e)) ⟨v, d, Asg.ofSign e = .eq⟩).ncl = s.ncl ∧
      (satisfyClauses cfg (setAtom cfg s v d (Asg.ofSign e)) ⟨v, d, Asg.ofSign e = .eq⟩).recs = s.recs := by
    obtain ⟨_, _, hf⟩ := satisfyClauses_frame cfg (setAtom cfg s v d (Asg.ofSign e)) ⟨v, d, Asg.ofSign e = .eq⟩
    rw [hf]; exact ⟨rfl, rfl, rfl, rfl⟩
  obtain ⟨k1, k2, k3, k4⟩ := hsame
  have hrem : assign1 cfg s v d (Asg.ofSign e) = (s.recs ⟨v, d, Asg.ofSign e ≠ .eq⟩).foldl remOne
      (satisfyClauses cfg (setAtom cfg s v d (Asg.ofSign e)) ⟨v, d, Asg.ofSign e = .eq⟩) := by
    unfold assign1 removeLiteral; rw [k4]
  obtain ⟨_, _, hC⟩ := remFold_own (s.recs ⟨v, d, Asg.ofSign e ≠ .eq⟩)
    (satisfyClauses cfg (setAtom cfg s v d (Asg.ofSign e)) ⟨v, d, Asg.ofSign e = .eq⟩)
    (by rw [k3]; exact fun i hi => hs.mem_lt hi)
  rw [← hrem] at hC
  rcases hC with ⟨c1, c2, _⟩ | ⟨_, i, hi, _, c2⟩
  · obtain ⟨id, hid, x, hx, hxu, hxl⟩ := h (by rw [← k1, ← c1]; exact hc)
    refine ⟨id, by rw [c2, k2]; exact hid, x, by rw [hlits id]; exact hx, ?_⟩
    have hne : ¬ (x.var = v ∧ x.val = d) := by
      rintro ⟨h1, h2⟩; apply hxu; rw [h1, h2]; exact hu
    rw [Trail.upd2_of_ne _ _ hne, Trail.upd2_of_ne _ _ hne]
    exact ⟨hxu, hxl⟩
  · refine ⟨i, c2, ⟨v, d, Asg.ofSign e ≠ .eq⟩, ?_, ?_, ?_⟩
    · rw [hlits i]; exact (hs.mem (hs.mem_lt hi)).1 hi
    · dsimp only; rw [upd2_same]; exact ha
    · dsimp only; rw [upd2_same]

theorem reduceTheory_confNow (cfg : Cfg S) {G : Nat → Prop} {s : St S} (hs : DStore G s) (hL : 0 ≤ s.LEVEL) {l : Lit}
    (hu : LU s.asg l) (hc : s.conflict = false) :
    ConfNow (reduceTheory cfg s l) ∧ (reduceTheory cfg s l).ptr = s.ptr ∧ (reduceTheory cfg s l).ncl = s.ncl := by
  rw [reduceTheory_G]
  have := reduceG_inv (g := assign1 cfg)
    (I := fun s' : St S => (DStore G s' ∧ 0 ≤ s'.LEVEL ∧ ConfNow s') ∧ s'.ptr = s.ptr ∧ s'.ncl = s.ncl)
    (fun s' ds vv u n a => ⟨⟨⟨a.1.1.own, a.1.1.recs, a.1.1.alloc, a.1.1.unit⟩, a.1.2.1, a.1.2.2⟩, a.2⟩)
    (by
      rintro s' v d a ha ⟨⟨h1, h2, h3⟩, h4, h5⟩ hu'
      have hcn := assign1_confNow cfg h1 h2 ha hu' h3
      obtain ⟨e, rfl, he⟩ := assign1_cases cfg s' v d ha
      have hlits := assignLit_lits' cfg s' h2 ⟨v, d, e⟩
      rw [← he] at hlits
      obtain ⟨hp, cn, un, cf, cg, hfr⟩ := assign1_frame cfg s' v d (Asg.ofSign e)
      have e1 : (assign1 cfg s' v d (Asg.ofSign e)).ptr = s'.ptr := by rw [hfr]; rfl
      have e2 : (assign1 cfg s' v d (Asg.ofSign e)).ncl = s'.ncl := by rw [hfr]; rfl
      have e3 : (assign1 cfg s' v d (Asg.ofSign e)).LEVEL = s'.LEVEL := by rw [hfr]; rfl
      refine ⟨⟨h1.frame e2 e1 (by rw [hfr]; rfl) (by rw [hfr]; rfl) (fun j _ => hlits j), by rw [e3]; exact h2, hcn⟩,
        e1.trans h4, e2.trans h5⟩)
    s l hu ⟨⟨hs, hL, fun h => by rw [hc] at h; simp at h⟩, rfl, rfl⟩
  exact ⟨this.1.2.2, this.2⟩

/-- A shared object is a single-literal clause whose literal is true at level 0, or is about to be made so. -/
def SharedOK (s : St S) : Prop := ∀ id, id < s.ncl → ¬ Own s id → ∃ B, (s.cl id).lits = [B] ∧
  ((LT s.asg B ∧ s.lvl B.var B.val = 0) ∨
   (s.LEVEL = 0 ∧ LU s.asg B ∧ s.conflict = false ∧ ∃ id' rest, s.units = id' :: rest ∧ (s.cl id').lits = [B]))

structure DOInv (cfg : Cfg S) (s : St S) : Prop where
  now : ConfNow s
  shared : SharedOK s
  occ : cfg.heur = .BK → OccOK s

theorem own_congr {s s' : St S} (hn : s'.ncl = s.ncl) (hp : s'.ptr = s.ptr) (i : Nat) : Own s' i ↔ Own s i := by
  unfold Own; rw [hn, hp]

theorem LT.old {s s' : St S} (h : Grown s s') {B : Lit} (hB : LT s.asg B) :
    LT s'.asg B ∧ s'.lvl B.var B.val = s.lvl B.var B.val := by
  have hne : s.asg B.var B.val ≠ .un := by
    intro hu; exact hB.not_LU hu
  obtain ⟨h1, h2, _⟩ := h.old _ _ hne
  unfold LT at *
  rw [h1]; exact ⟨hB, h2⟩

theorem DOInv.prop {cfg : Cfg S} {G : Nat → Prop} {s : St S} (hi : DInv G (fun _ => False) s)
    (hc : s.conflict = false) (hu : s.units ≠ []) (h : DOInv cfg s) : DOInv cfg (unitStep cfg s) := by
  have hst := unitStep_D cfg hi hc hu
  have hgr := hst.grown
  revert hgr
  clear hst
  unfold unitStep
  cases hun : s.units with
  | nil => exact absurd hun hu
  | cons id rest =>
    dsimp only
    obtain ⟨hid, _⟩ := hi.cnt.unitsOK id (by rw [hun]; simp)
    -- skipping keeps everything, unless a shared object is pending
    have hskip : (∀ B, (s.cl id).lits = [B] → ¬ LU s.asg B) →
        DOInv cfg ({ s with unitClause := (id : Int), units := rest } : St S) := by
      intro hno
      refine ⟨fun hcc => h.now hcc, ?_, fun hb => (h.occ hb).congr rfl rfl rfl rfl rfl⟩
      intro j hj hn
      obtain ⟨B, hB, h1 | ⟨_, h2, _, id', rest', h3, h4⟩⟩ := h.shared j hj hn
      · exact ⟨B, hB, Or.inl h1⟩
      · rw [hun] at h3
        cases h3
        exact absurd h2 (hno B h4)
    by_cases hl : (s.cl id).level = -1
    · rw [if_pos (by exact hl)]
      cases hf : (s.cl id).lits.find? (fun l => s.asg l.var l.val = .un) with
      | none =>
        have hf' : (({ s with unitClause := (id : Int), units := rest } : St S).cl id).lits.find?
          (fun l => ({ s with unitClause := (id : Int), units := rest } : St S).asg l.var l.val = .un) = none := hf
        simp only [hf']
        intro _
        apply hskip
        intro B hB hlu
        have := List.find?_eq_none.1 hf B (by rw [hB]; simp)
        exact absurd hlu (by simpa [LU] using this)
      | some l =>
        obtain ⟨hm, hlu, hoth⟩ := hi.front hun hl hf
        have hf' : (({ s with unitClause := (id : Int), units := rest } : St S).cl id).lits.find?
          (fun l => ({ s with unitClause := (id : Int), units := rest } : St S).asg l.var l.val = .un) = some l := hf
        simp only [hf']
        intro hgr
        have hr := hi.rng id hid l hm
        have hs0 : DStore G ({ s with unitClause := (id : Int), units := rest, nUnits := s.nUnits + 1 } : St S) :=
          ⟨hi.cnt.store.own, hi.cnt.store.recs, hi.cnt.store.alloc, hi.cnt.store.unit⟩
        have hx := reduceTheory_G cfg { s with unitClause := (id : Int), units := rest, nUnits := s.nUnits + 1 } l
        obtain ⟨hx1, hx2, hx3⟩ := reduceG_trail (stepG_assign1 cfg)
          ({ s with unitClause := (id : Int), units := rest, nUnits := s.nUnits + 1 } : St S) l hr.2.2 hlu
        have hext := hx1.ext hi.base hr hlu (hi.vars hc l.var hr.1 hr.2.1) hi.lev0
        rw [← hx] at hext
        obtain ⟨k1, k2, k3⟩ := reduceTheory_confNow cfg (l := l) hs0 hi.lev0 hlu hc
        refine ⟨k1, ?_, fun hb => reduceTheory_occ_D cfg hb hlu ⟨hs0, ?_, (h.occ hb).congr rfl rfl rfl rfl rfl⟩⟩
        · intro j hj hn
          have hj' : j < s.ncl := by rw [← hgr.sameF.ncl]; exact hj
          have hn' : ¬ Own s j := fun ho => hn ((own_congr k3 k2 j).2 ho)
          obtain ⟨B, hB, h1 | ⟨h2, h3, _, id', rest', h4, h5⟩⟩ := h.shared j hj' hn'
          · refine ⟨B, by rw [hgr.sameF.lits j hj']; exact hB, Or.inl ?_⟩
            obtain ⟨g1, g2⟩ := h1.1.old hgr
            exact ⟨g1, g2.trans h1.2⟩
          · rw [hun] at h4
            cases h4
            have hlB : l = B := by rw [h5] at hm; simpa using hm
            subst hlB
            refine ⟨l, by rw [hgr.sameF.lits j hj']; exact hB, Or.inl ⟨hext.lt, ?_⟩⟩
            have := (hext.new l.var l.val hlu (fun hun => hext.lt.not_LU hun)).2.1
            rw [show (reduceTheory cfg ({ s with unitClause := (id : Int), units := rest, nUnits := s.nUnits + 1 } : St S) l).lvl l.var l.val
              = s.LEVEL from this, h2]
        · have := hi.lev0
          show s.LEVEL ≠ -1
          omega
    · rw [if_neg (by exact hl)]
      intro _
      apply hskip
      intro B hB hlu
      obtain ⟨x, hx, ht⟩ := (hi.cnt.mark id hid).sat hl
      rw [hB] at hx
      have : x = B := by simpa using hx
      subst this
      exact ht.not_LU hlu

theorem DOInv.dec {cfg : Cfg S} (hw : cfg.watch = false) (hs : cfg.ScoreOK) {P : Problem} {G : Nat → Prop} {s s' : St S}
    {rc : Int} (hn : DNInv cfg P G s rc) (hc : s.conflict = false) (hu : s.units = [])
    (hd : decideNC cfg s = some s') (h : DOInv cfg s) : DOInv cfg s' := by
  obtain ⟨l, hl, rfl⟩ := decideNC_counter hw hd
  obtain ⟨hr, hlu⟩ := hn.inv.choose_some (chooseNC_some hw hs hn.scores hl)
  have h1 := hn.inv.open_level hc hu (-1) (s.nDecisions + 1)
  obtain ⟨_, h3⟩ := h1.reduce cfg hc (l := l) hr hlu
  have hg := h3.grown
  obtain ⟨k1, k2, k3⟩ := reduceTheory_confNow cfg (l := l) h1.cnt.store h1.lev0 hlu hc
  refine ⟨k1, ?_, fun hb => reduceTheory_occ_D cfg hb hlu ⟨h1.cnt.store, ?_, (h.occ hb).congr rfl rfl rfl rfl rfl⟩⟩
  · intro j hj hno
    have hj' : j < s.ncl := by rw [k3] at hj; exact hj
    have hn' : ¬ Own s j := fun ho => hno ((own_congr k3 k2 j).2 ho)
    obtain ⟨B, hB, h4 | ⟨_, _, _, id', rest', h4, _⟩⟩ := h.shared j hj' hn'
    · refine ⟨B, by rw [hg.sameF.lits j hj']; exact hB, Or.inl ?_⟩
      obtain ⟨g1, g2⟩ := LT.old hg h4.1
      exact ⟨g1, g2.trans h4.2⟩
    · rw [hu] at h4; simp at h4
  · have := hn.inv.lev0
    show s.LEVEL + 1 ≠ -1
    omega

theorem DOInv.conf {cfg : Cfg S} (hw : cfg.watch = false) {P : Problem} {G : Nat → Prop} {s s' : St S} {rc rc' : Int}
    (hn : DNInv cfg P G s rc) (hc : s.conflict = true) (hL : s.LEVEL ≠ 0) {f : Nat}
    (he : conflictNC cfg f s rc = .ok (s', rc')) (h : DOInv cfg s) : DOInv cfg s' := by
  have hbj : DBackjump cfg s rc s' rc' := (hn.conf hw hc hL f (s', rc') he).2
  obtain ⟨id, c, p, sc, r, b, hid, hcid, hl, hb, hbe, hrec, hkb, hs'⟩ := hbj.shape
  obtain ⟨hk0, hkL⟩ := hbj.level
  have hL1 : 1 ≤ s.LEVEL := by have := hn.inv.lev0; omega
  have hfals : ∀ x ∈ (s.cl id).lits, LF s.asg x := by
    obtain ⟨id', _, hcid', hf⟩ := hn.inv.cnt.conf hc
    rw [hcid] at hcid'
    have : id = id' := by omega
    subst this; exact hf
  have hplace := hn.inv.place hL1 hid hfals hl
  have hsome : p ≠ none → p.getD s.nheap = s.ptr id ∧ c = s.cl id ∧ ∃ B, (s.cl id).lits = [B] := by
    intro hp
    rcases hl.origin with ⟨rfl, rfl⟩ | ⟨h1, _⟩
    · refine ⟨rfl, rfl, ?_⟩
      rcases hplace with ⟨h1, _, _⟩ | ⟨_, j, hj, hg, _, hcj⟩
      · have h2 : s.ptr id = s.nheap := h1
        have := hn.inv.cnt.store.alloc id hid
        omega
      · rw [hcj]; exact hn.inv.cnt.store.unit j hj hg
    · exact absurd h1 hp
  have hfresh : p = none → p.getD s.nheap = s.nheap := by rintro rfl; rfl
  generalize hae : p.getD s.nheap = a at *
  generalize hne : (if p = none then s.nheap + 1 else s.nheap) = nh at *
  obtain ⟨m1, m2, m3, m4⟩ := hn.inv.backjump cfg hplace hl.fals hl.potent hb hk0 hkb (sc := sc) hrec
  generalize hk : s'.LEVEL = k at *
  have hold := fun {j : Nat} (hj : j < s.ncl) => hplace.old hn.inv.cnt.store sc r b hj
  have hnew := dstored_cl_new s c a nh sc r b
  have hmark := hplace.mark hn.inv.cnt hl.fals sc r b
  have hnum := hplace.num hn.inv.cnt hl.fals sc r b
  have hstore := hplace.store hn.inv.cnt.store (by
    intro he0; have := hl.potent; rw [he0] at this; simp at this) sc b hrec
  -- an entry sharing its object afterwards shared it before, or has the literals of the new clause
  have hshare : ∀ j, j < s.ncl + 1 → ¬ Own (dstored s c a nh sc r b) j →
      (j < s.ncl ∧ ¬ Own s j) ∨ (p ≠ none ∧ ((dstored s c a nh sc r b).cl j).lits = c.lits ∧
        (dstored s c a nh sc r b).cl j = (dstored s c a nh sc r b).cl s.ncl) := by
    intro j hj hno
    have hpn : (dstored s c a nh sc r b).ptr s.ncl = a := by unfold dstored; dsimp only; rw [upd_same]
    have hpo : ∀ i, i < s.ncl → (dstored s c a nh sc r b).ptr i = s.ptr i := by
      intro i hi; unfold dstored; dsimp only; rw [upd_of_ne _ _ (by omega)]
    have hpsome : ∀ i, i < s.ncl → s.ptr i = a → p ≠ none := by
      intro i hi hp hp0
      have h1 := hfresh hp0
      have h2 := hn.inv.cnt.store.alloc i hi
      omega
    by_cases hjn : j < s.ncl
    · by_cases ho : Own s j
      · right
        have hpj : s.ptr j = a := by
          apply Classical.byContradiction
          intro hne'
          apply hno
          intro i hi hp
          have hi : i < s.ncl + 1 := hi
          by_cases hin : i < s.ncl
          · rw [hpo i hin, hpo j hjn] at hp
            exact ho i hin hp
          · have : i = s.ncl := by omega
            subst this
            rw [hpn, hpo j hjn] at hp
            exact absurd hp.symm hne'
        have e : (dstored s c a nh sc r b).cl j = (dstored s c a nh sc r b).cl s.ncl := by
          unfold St.cl; rw [hpn, hpo j hjn, hpj]
        exact ⟨hpsome j hjn hpj, by rw [e, hnew], e⟩
      · exact Or.inl ⟨hjn, ho⟩
    · have : j = s.ncl := by omega
      subst this
      right
      refine ⟨?_, by rw [hnew], rfl⟩
      intro hp0
      apply hno
      intro i hi hp
      have hi : i < s.ncl + 1 := hi
      by_cases hin : i < s.ncl
      · rw [hpo i hin, hpn] at hp
        exact absurd hp0 (hpsome i hin hp)
      · omega
  obtain ⟨hp3, cn3, g3, lv3, rs3, vv3, ds3, e3⟩ := m4
  have hptr' : s'.ptr = (dstored s c a nh sc r b).ptr := by rw [hs', e3]
  have hncl' : s'.ncl = s.ncl + 1 := by rw [hs', e3]; rfl
  have hlits' : ∀ j, j < s.ncl + 1 → (s'.cl j).lits = ((dstored s c a nh sc r b).cl j).lits := by
    intro j hj
    have : s'.cl j = (undoTheory cfg (dstored s c a nh sc r b) k).cl j := by rw [hs']; rfl
    rw [this]; exact m2.lits j hj
  have hasg' : s'.asg = s.tr.asgAt k := by
    have : s'.asg = (undoTheory cfg (dstored s c a nh sc r b) k).tr.asg := by rw [hs']; rfl
    rw [this, m3]; rfl
  have hlvl' : ∀ v d, s'.lvl v d = if s.lvl v d > k then -10 else s.lvl v d := by
    intro v d
    have : s'.lvl v d = (undoTheory cfg (dstored s c a nh sc r b) k).tr.lvl v d := by rw [hs']; rfl
    rw [this, m3]; rfl
  have hshO : ∀ j, j < s.ncl → ¬ Own s j → ∃ B, (s.cl j).lits = [B] ∧ LT s.asg B ∧ s.lvl B.var B.val = 0 := by
    intro j hj hno
    obtain ⟨B, hB, h1 | ⟨h1, _⟩⟩ := h.shared j hj hno
    · exact ⟨B, hB, h1⟩
    · exact absurd h1 hL
  refine ⟨fun hcc => by rw [hbj.conflict] at hcc; simp at hcc, ?_, ?_⟩
  · intro j hj hno
    rw [hncl'] at hj
    have hno' : ¬ Own (dstored s c a nh sc r b) j := fun ho => hno ((own_congr (by rw [hncl']; rfl) hptr' j).2 ho)
    rcases hshare j hj hno' with ⟨hjn, hns⟩ | ⟨hp, hlc, _⟩
    · obtain ⟨B, hB, hlt, hlv⟩ := hshO j hjn hns
      refine ⟨B, by rw [hlits' j hj, (hold hjn).1]; exact hB, Or.inl ⟨?_, ?_⟩⟩
      · rw [hasg']
        unfold LT at *
        unfold Trail.asgAt
        rw [if_neg (by show ¬ s.lvl B.var B.val > k; omega)]; exact hlt
      · rw [hlvl', if_neg (by omega)]; exact hlv
    · obtain ⟨_, hcc, B, hB⟩ := hsome hp
      obtain ⟨id2, hid2, x, hx, hxu, hxl⟩ := h.now hc
      have hidd : id2 = id := by rw [hcid] at hid2; omega
      subst hidd
      rw [hB] at hx
      have hxB : x = B := by simpa using hx
      subst hxB
      have hcl : c.lits = [x] := by rw [hcc]; exact hB
      have hb0 : b = 0 := by
        apply Classical.byContradiction
        intro hb0
        have hnn := hb.nonneg
        obtain ⟨y, hy, hyl⟩ := hb.hit (by omega)
        rw [hcl] at hy
        have : y = x := by simpa using hy
        subst this
        have h1 : s.lvl y.var y.val = b := hyl
        have h2 : b < s.LEVEL := hb.lt
        omega
      have hk00 : k = 0 := by omega
      refine ⟨x, by rw [hlits' j hj, hlc, hcl], Or.inr ⟨hk00 ▸ hk, ?_, hbj.conflict, ?_⟩⟩
      · rw [hasg']
        exact LU_asgAt (t := s.tr) (by show k < s.lvl x.var x.val; omega)
      · refine ⟨s.ncl, [], ?_, ?_⟩
        · rw [hs']; dsimp only; rw [if_pos (by omega)]
        · rw [hlits' s.ncl (by omega), hnew]; exact hcl
  · intro hbk
    have ho := h.occ hbk
    have ho2 : OccOK (dstored s c a nh sc r b) := by
      intro x
      obtain ⟨o1, o2⟩ := ho x
      have hcnt : (dstored s c a nh sc r b).cnt x = s.cnt x := rfl
      have hasg : (dstored s c a nh sc r b).asg = s.asg := rfl
      rw [hcnt, hasg]
      refine ⟨fun hu => ?_, o2⟩
      rw [o1 hu]
      have : Mvl.occ (dstored s c a nh sc r b) x =
          occN (dstored s c a nh sc r b).cl x s.ncl + occ1 ((dstored s c a nh sc r b).cl s.ncl) x := rfl
      rw [this, occN_congr (g := s.cl)]
      · have hz : occ1 ((dstored s c a nh sc r b).cl s.ncl) x = 0 := by
          rw [hnew]
          unfold occ1
          dsimp only
          rw [List.count_eq_zero.2 (fun hm => (hl.fals x hm).not_LU hu)]
          split <;> rfl
        rw [hz]; show occN s.cl x s.ncl = _; omega
      · intro i hi
        unfold occ1
        rw [(hold hi).1, (hold hi).2.1]
    have hlow : ∀ j, j < (dstored s c a nh sc r b).ncl → ¬ Own (dstored s c a nh sc r b) j →
        ((dstored s c a nh sc r b).cl j).level ≤ k := by
      intro j hj hno
      rcases hshare j hj hno with ⟨hjn, hns⟩ | ⟨hp, hlc, hce⟩
      · obtain ⟨B, hB, hlt, hlv⟩ := hshO j hjn hns
        rw [(hold hjn).2.1]
        rcases hn.inv.cnt.mark j hjn with ⟨h1, _⟩ | ⟨_, ⟨y, hy, _, hyl⟩, _⟩
        · omega
        · rw [hB] at hy
          have : y = B := by simpa using hy
          subst this
          omega
      · have hm := hmark j hj
        rcases hm with ⟨h1, _⟩ | ⟨_, ⟨y, hy, hyt, _⟩, _⟩
        · omega
        · rw [hlc] at hy
          exact absurd (hl.fals y hy) hyt.not_LF
    have hu := undoTheory_occ_D cfg hbk (s := dstored s c a nh sc r b) (k := k) (K := s.LEVEL) (by omega) hn.inv.base hstore hmark hnum hlow ho2
    refine hu.congr ?_ ?_ ?_ ?_ ?_ <;> rw [hs']

/-- The counts of the default heuristic are exact in every reachable state, also on files that repeat literals. -/
theorem NReach.doinv {cfg : Cfg S} {P : Problem} (hw : cfg.watch = false) (hs : cfg.ScoreOK)
    (hwf : P.Proper) {s : St S} {rc : Int} (h : NReach cfg P s rc) : DOInv cfg s := by
  induction h with
  | start hb =>
    obtain ⟨s0, h1, h2⟩ := build_read cfg hwf.lits_ok (fun h => by rw [hw] at h; simp at h)
    rw [h1] at hb; cases hb
    have hi := h2.cinv hw hwf
    refine ⟨?_, ?_, fun hb => h2.occ hb⟩
    · intro hc
      obtain ⟨_, _, _, _, _, _, _, e⟩ := h2.frame
      rw [e] at hc; exact absurd hc (by simp [initSt])
    · intro id hid hno
      exact absurd (fun i hi' hp => hi.cnt.store.inj i id hi' hid hp) hno
  | tick _ ih => exact ⟨ih.now, ih.shared, fun hb => (ih.occ hb).congr rfl rfl rfl rfl rfl⟩
  | prop hr hc hu ih =>
    obtain ⟨G, hn⟩ := hr.dninv hw hs hwf
    exact ih.prop hn.inv hc hu
  | conf hr hc hL he ih =>
    obtain ⟨G, hn⟩ := hr.dninv hw hs hwf
    exact ih.conf hw hn hc hL he
  | dec hr hc hu hd ih =>
    obtain ⟨G, hn⟩ := hr.dninv hw hs hwf
    exact ih.dec hw hs hn hc hu hd

end Mvl
