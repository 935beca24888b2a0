import Verif.Proof.Engine

/-!
# The occurrence counts of the default heuristic

`ATOMCNTPOS`/`ATOMCNTNEG` of an unassigned atom count the occurrences of the literal in unsatisfied clauses; the counts of
assigned atoms are 0.
-/

namespace Mvl

variable {S : Type}

/-- Contribution of one clause object to the count of a literal. -/
def occ1 (c : Cls) (l : Lit) : Int := if c.level = -1 then (c.lits.count l : Nat) else 0

/-- Occurrences of a literal in clauses not marked satisfied. -/
def occN (f : Nat → Cls) (l : Lit) : Nat → Int
  | 0 => 0
  | n + 1 => occN f l n + occ1 (f n) l

def occ (s : St S) (l : Lit) : Int := occN s.cl l s.ncl

theorem occN_congr {f g : Nat → Cls} {l : Lit} : ∀ {n : Nat}, (∀ i, i < n → occ1 (f i) l = occ1 (g i) l) →
    occN f l n = occN g l n
  | 0, _ => rfl
  | n + 1, h => by
    unfold occN
    rw [occN_congr (fun i hi => h i (by omega)), h n (by omega)]

/-- Changing one clause. -/
theorem occN_upd {f g : Nat → Cls} {l : Lit} {id : Nat} : ∀ {n : Nat}, id < n →
    (∀ i, i < n → i ≠ id → occ1 (g i) l = occ1 (f i) l) →
    occN g l n = occN f l n - occ1 (f id) l + occ1 (g id) l
  | 0, h, _ => by omega
  | n + 1, h, hne => by
    unfold occN
    by_cases hid : id = n
    · subst hid
      rw [occN_congr (f := g) (g := f) (fun i hi => hne i (by omega) (by omega))]
      omega
    · rw [occN_upd (f := f) (by omega) (fun i hi hi' => hne i (by omega) hi'), hne n (by omega) (Ne.symm hid)]
      omega

theorem occN_nonneg (f : Nat → Cls) (l : Lit) : ∀ n, 0 ≤ occN f l n
  | 0 => by unfold occN; omega
  | n + 1 => by
    have := occN_nonneg f l n
    unfold occN occ1
    split <;> omega

/-- A literal that is in satisfied clauses only. -/
theorem occN_zero {f : Nat → Cls} {l : Lit} : ∀ {n : Nat}, (∀ i, i < n → l ∈ (f i).lits → (f i).level ≠ -1) →
    occN f l n = 0
  | 0, _ => rfl
  | n + 1, h => by
    unfold occN
    rw [occN_zero (fun i hi => h i (by omega))]
    unfold occ1
    split
    · rename_i hl
      have : l ∉ (f n).lits := fun hm => h n (by omega) hm hl
      rw [List.count_eq_zero.2 this]; rfl
    · rfl

theorem occ_congr {s s' : St S} (hn : s'.ncl = s.ncl)
    (h : ∀ i, i < s.ncl → (s'.cl i).lits = (s.cl i).lits ∧ (s'.cl i).level = (s.cl i).level) (l : Lit) : occ s' l = occ s l := by
  unfold occ
  rw [hn]
  apply occN_congr
  intro i hi
  unfold occ1
  rw [(h i hi).1, (h i hi).2]

/-- Occurrences in a list of fresh clauses. -/
theorem occN_list {l : Lit} {f : Nat → Cls} {cs : List (List Lit)} : ∀ {n : Nat}, n ≤ cs.length →
    (∀ (i : Nat) (c : List Lit), cs[i]? = some c → (f i).lits = c ∧ (f i).level = -1) →
    occN f l n = (((cs.take n).map fun c => c.count l).sum : Nat)
  | 0, _, _ => by simp [occN]
  | n + 1, hn, h => by
    have hc : cs[n]? = some cs[n] := List.getElem?_eq_getElem (by omega)
    unfold occN
    rw [occN_list (by omega) h, List.take_add_one, hc]
    simp only [List.map_append, List.sum_append, Option.toList_some, List.map_cons, List.map_nil, List.sum_cons, List.sum_nil]
    unfold occ1
    rw [if_pos (h n _ hc).2, (h n _ hc).1]
    push_cast; omega

/-- The counts are what the clauses dictate on the literals in `p`, and 0 elsewhere. -/
def CntOn (p : Lit → Prop) (s : St S) : Prop := ∀ l, (p l → s.cnt l = occ s l) ∧ (¬ p l → s.cnt l = 0)

/-- The counts are exact. -/
def OccOK (s : St S) : Prop := CntOn (LU s.asg) s

theorem CntOn.congr {p q : Lit → Prop} {s s' : St S} (h : CntOn p s) (hpq : ∀ l, q l ↔ p l) (hc : s'.cnt = s.cnt)
    (ho : ∀ l, occ s' l = occ s l) : CntOn q s' := by
  intro l
  rw [hpq l, hc, ho l]; exact h l

theorem OccOK.congr {s s' : St S} (h : OccOK s) (ha : s'.asg = s.asg) (hc : s'.cnt = s.cnt)
    (hh : s'.heap = s.heap) (hp : s'.ptr = s.ptr) (hn : s'.ncl = s.ncl) : OccOK s' := by
  refine CntOn.congr h (fun l => by rw [ha]) hc (fun l => occ_congr hn (fun i _ => ?_) l)
  have : s'.cl i = s.cl i := by unfold St.cl; rw [hh, hp]
  rw [this]; exact ⟨rfl, rfl⟩

/-! ### Assigning -/

theorem satInner_cnt (ls : List Lit) : ∀ (s : St S) (x : Lit),
    (ls.foldl (fun s l =>
      if s.asg l.var l.val = .un then { s with cnt := upd s.cnt l (s.cnt l - 1) } else s) s).cnt x =
      if LU s.asg x then s.cnt x - (ls.count x : Nat) else s.cnt x := by
  induction ls with
  | nil => intro s x; simp
  | cons l ls ih =>
    intro s x
    rw [List.foldl_cons, ih]
    by_cases hl : s.asg l.var l.val = .un
    · rw [if_pos hl]
      dsimp only
      by_cases hx : x = l
      · subst hx
        have hl' : LU s.asg x := hl
        rw [if_pos hl', if_pos hl', upd_same, List.count_cons_self]; omega
      · rw [upd_of_ne _ _ hx, List.count_cons_of_ne (Ne.symm hx)]
    · rw [if_neg hl]
      by_cases hx : x = l
      · subst hx
        have hl' : ¬ LU s.asg x := hl
        rw [if_neg hl', if_neg hl']
      · rw [List.count_cons_of_ne (Ne.symm hx)]

theorem satOne_cnt (cfg : Cfg S) (hbk : cfg.heur = .BK) (s : St S) (id : Nat) (x : Lit) :
    (satOne cfg s id).cnt x =
      if (s.cl id).level = -1 ∧ LU s.asg x then s.cnt x - ((s.cl id).lits.count x : Nat) else s.cnt x := by
  unfold satOne
  by_cases hl : (s.cl id).level = -1
  · rw [if_pos hl]
    dsimp only
    rw [if_pos hbk, satInner_cnt]
    simp only [hl, true_and]
    rfl
  · rw [if_neg hl, if_neg (by simp [hl])]

theorem satOne_occ (cfg : Cfg S) (hbk : cfg.heur = .BK) {s : St S} (hs : Store s) (hL : s.LEVEL ≠ -1) {id : Nat}
    (hid : id < s.ncl) (h : OccOK s) : OccOK (satOne cfg s id) := by
  obtain ⟨hp, c, he⟩ := satOne_frame cfg s id
  have hasg : (satOne cfg s id).asg = s.asg := by rw [he]
  have hncl : (satOne cfg s id).ncl = s.ncl := by rw [he]
  have hcl := fun {j : Nat} (hj : j < s.ncl) => satOne_cl cfg hs.inj hid hj
  intro x
  rw [hasg, satOne_cnt cfg hbk]
  have hocc : occ (satOne cfg s id) x = occ s x - occ1 (s.cl id) x := by
    unfold occ
    rw [hncl, occN_upd (f := s.cl) hid]
    · by_cases hl : (s.cl id).level = -1
      · have e := hcl hid
        rw [if_pos ⟨rfl, hl⟩] at e
        have : occ1 ((satOne cfg s id).cl id) x = 0 := by rw [e]; unfold occ1; exact if_neg hL
        rw [this]; omega
      · have e := hcl hid
        rw [if_neg (by simp [hl])] at e
        rw [e]
        have : occ1 (s.cl id) x = 0 := by unfold occ1; exact if_neg hl
        rw [this]; omega
    · intro i hi hne
      rw [hcl hi, if_neg (by simp [hne])]
  rw [hocc]
  obtain ⟨h1, h2⟩ := h x
  refine ⟨?_, ?_⟩
  · intro hu
    rw [h1 hu]
    unfold occ1
    by_cases hl : (s.cl id).level = -1
    · rw [if_pos ⟨hl, hu⟩, if_pos hl]
    · rw [if_neg (by simp [hl]), if_neg hl]; omega
  · intro hu
    rw [if_neg (by simp [hu])]; exact h2 hu

/-- Frames that keep the literals of clauses keep the store. -/
theorem Store.frameE {s s' : St S} (h : Store s) (hf : FrameE s s')
    (hl : ∀ j, j < s.ncl → (s'.cl j).lits = (s.cl j).lits) : Store s' := by
  obtain ⟨hp, c, u, b, k, rfl⟩ := hf
  refine ⟨h.inj, ?_, h.alloc⟩
  intro l id
  have := h.recs l id
  by_cases hid : id < s.ncl
  · rw [if_pos hid] at this
    show (s.recs l).count id = if id < s.ncl then _ else _
    rw [if_pos hid, this, hl id hid]
  · rw [if_neg hid] at this
    show (s.recs l).count id = if id < s.ncl then _ else _
    rw [if_neg hid, this]

theorem satFold_occ (cfg : Cfg S) (hbk : cfg.heur = .BK) : ∀ (ids : List Nat) (s : St S), Store s → s.LEVEL ≠ -1 →
    (∀ i ∈ ids, i < s.ncl) → OccOK s → OccOK (ids.foldl (satOne cfg) s) ∧ Store (ids.foldl (satOne cfg) s)
  | [], s, hs, _, _, h => ⟨h, hs⟩
  | id :: ids, s, hs, hL, hids, h => by
    rw [List.foldl_cons]
    have hid := hids id (by simp)
    have hf := satOne_frame cfg s id
    have hs1 := hs.frameH hf (fun j hj => by rw [satOne_cl cfg hs.inj hid hj]; split <;> rfl)
    obtain ⟨hp, c, he⟩ := hf
    have hncl : (satOne cfg s id).ncl = s.ncl := by rw [he]
    have hLE : (satOne cfg s id).LEVEL = s.LEVEL := by rw [he]
    exact satFold_occ cfg hbk ids _ hs1 (by rw [hLE]; exact hL) (by rw [hncl]; intro i hi; exact hids i (by simp [hi]))
      (satOne_occ cfg hbk hs hL hid h)

theorem remOne_cnt (s : St S) (id : Nat) : (remOne s id).cnt = s.cnt := by
  unfold remOne
  split
  · dsimp only
    split <;> split <;> rfl
  · rfl

theorem remFold_occ : ∀ (ids : List Nat) (s : St S), Store s → (∀ i ∈ ids, i < s.ncl) → OccOK s →
    OccOK (ids.foldl remOne s) ∧ Store (ids.foldl remOne s)
  | [], s, hs, _, h => ⟨h, hs⟩
  | id :: ids, s, hs, hids, h => by
    rw [List.foldl_cons]
    have hid := hids id (by simp)
    have hf := remOne_frame s id
    have hcl : ∀ j, j < s.ncl → ((remOne s id).cl j).lits = (s.cl j).lits ∧ ((remOne s id).cl j).level = (s.cl j).level := by
      intro j hj; rw [remOne_cl hs.inj hid hj]; split <;> exact ⟨rfl, rfl⟩
    have hs1 := hs.frameE hf (fun j hj => (hcl j hj).1)
    obtain ⟨hp, c, u, b, k, he⟩ := hf
    have hncl : (remOne s id).ncl = s.ncl := by rw [he]
    have hasg : (remOne s id).asg = s.asg := by rw [he]
    refine remFold_occ ids _ hs1 (by rw [hncl]; intro i hi; exact hids i (by simp [hi])) ?_
    exact CntOn.congr h (fun l => by rw [hasg]) (remOne_cnt s id) (occ_congr hncl hcl)

theorem setAtom_occ (cfg : Cfg S) (hbk : cfg.heur = .BK) {s : St S} {v d : Nat} {a : Asg} (ha : a ≠ .un) (h : OccOK s) :
    OccOK (setAtom cfg s v d a) := by
  intro x
  have hcnt : (setAtom cfg s v d a).cnt = upd (upd s.cnt ⟨v, d, true⟩ 0) ⟨v, d, false⟩ 0 := by
    unfold setAtom; dsimp only; rw [if_pos hbk]
  have hocc : occ (setAtom cfg s v d a) x = occ s x := occ_congr rfl (fun _ _ => ⟨rfl, rfl⟩) x
  rw [hcnt, hocc]
  have hasg : (setAtom cfg s v d a).asg = upd2 s.asg v d a := rfl
  rw [hasg]
  obtain ⟨h1, h2⟩ := h x
  by_cases hx : x.var = v ∧ x.val = d
  · have hz : upd (upd s.cnt ⟨v, d, true⟩ 0) ⟨v, d, false⟩ 0 x = 0 := by
      obtain ⟨xv, xd, xe⟩ := x
      obtain ⟨rfl, rfl⟩ := hx
      cases xe
      · rw [upd_same]
      · rw [upd_of_ne _ _ (by simp), upd_same]
    refine ⟨?_, fun _ => hz⟩
    intro hu
    unfold LU at hu
    rw [hx.1, hx.2, upd2_same] at hu
    exact absurd hu ha
  · have hne : ∀ e, x ≠ ⟨v, d, e⟩ := by rintro e rfl; exact hx ⟨rfl, rfl⟩
    rw [upd_of_ne _ _ (hne _), upd_of_ne _ _ (hne _)]
    have : LU (upd2 s.asg v d a) x ↔ LU s.asg x := by
      unfold LU; rw [Trail.upd2_of_ne _ _ hx]
    rw [this]; exact ⟨h1, h2⟩

theorem assign1_occ (cfg : Cfg S) (hbk : cfg.heur = .BK) {s : St S} {v d : Nat} {a : Asg} (ha : a ≠ .un)
    (hs : Store s) (hL : s.LEVEL ≠ -1) (h : OccOK s) :
    OccOK (assign1 cfg s v d a) ∧ Store (assign1 cfg s v d a) ∧ (assign1 cfg s v d a).LEVEL ≠ -1 := by
  have h1 := setAtom_occ cfg hbk (v := v) (d := d) ha h
  have hs1 : Store (setAtom cfg s v d a) := ⟨hs.inj, hs.recs, hs.alloc⟩
  have hL1 : (setAtom cfg s v d a).LEVEL ≠ -1 := hL
  unfold assign1
  generalize setAtom cfg s v d a = t at *
  obtain ⟨h2, hs2⟩ := satFold_occ cfg hbk (t.recs ⟨v, d, a = .eq⟩) t hs1 hL1 (fun i hi => hs1.mem_lt hi) h1
  have hf := satisfyClauses_frame cfg t ⟨v, d, a = .eq⟩
  have hL2 : (satisfyClauses cfg t ⟨v, d, a = .eq⟩).LEVEL ≠ -1 := by
    obtain ⟨_, _, e⟩ := hf; rw [e]; exact hL1
  have h2' : OccOK (satisfyClauses cfg t ⟨v, d, a = .eq⟩) := h2
  have hs2' : Store (satisfyClauses cfg t ⟨v, d, a = .eq⟩) := hs2
  generalize satisfyClauses cfg t ⟨v, d, a = .eq⟩ = t2 at *
  obtain ⟨h3, hs3⟩ := remFold_occ (t2.recs ⟨v, d, a ≠ .eq⟩) t2 hs2' (fun i hi => hs2'.mem_lt hi) h2'
  refine ⟨h3, hs3, ?_⟩
  have hf3 : FrameE t2 (removeLiteral t2 ⟨v, d, a ≠ .eq⟩) := FrameE.foldl remOne_frame _ t2
  obtain ⟨_, _, _, _, _, e⟩ := hf3
  rw [e]; exact hL2

theorem reduceTheory_occ (cfg : Cfg S) (hbk : cfg.heur = .BK) {s : St S} {l : Lit} (hu : LU s.asg l)
    (hs : Store s) (hL : s.LEVEL ≠ -1) (h : OccOK s) : OccOK (reduceTheory cfg s l) := by
  rw [reduceTheory_G]
  have := reduceG_inv (g := assign1 cfg) (I := fun s' : St S => OccOK s' ∧ Store s' ∧ s'.LEVEL ≠ -1)
    (fun s' ds vv u n ⟨a1, a2, a3⟩ => ⟨a1.congr rfl rfl rfl rfl rfl, ⟨a2.inj, a2.recs, a2.alloc⟩, a3⟩)
    (fun s' v d a ha ⟨a1, a2, a3⟩ _ => assign1_occ cfg hbk ha a2 a3 a1) s l hu ⟨h, hs, hL⟩
  exact this.1

/-! ### Undoing -/

theorem addOne_cnt (cfg : Cfg S) (hbk : cfg.heur = .BK) (l : Lit) (s : St S) (id : Nat) (x : Lit) :
    (addOne cfg l s id).cnt x = s.cnt x + if x = l ∧ (s.cl id).level = -1 then 1 else 0 := by
  unfold addOne
  by_cases hl : (s.cl id).level = -1
  · rw [if_pos hl]
    dsimp only
    rw [if_pos hbk]
    show upd s.cnt l (s.cnt l + 1) x = _
    by_cases hx : x = l
    · subst hx; rw [upd_same, if_pos ⟨rfl, hl⟩]
    · rw [upd_of_ne _ _ hx, if_neg (by simp [hx])]; omega
  · rw [if_neg hl, if_neg (by simp [hl])]; omega

theorem addFold_cnt (cfg : Cfg S) (hbk : cfg.heur = .BK) (l : Lit) : ∀ (ids : List Nat) (s : St S),
    (∀ i j, i < s.ncl → j < s.ncl → s.ptr i = s.ptr j → i = j) → (∀ i ∈ ids, i < s.ncl) → ∀ x,
    (ids.foldl (addOne cfg l) s).cnt x =
      s.cnt x + if x = l then ((ids.countP fun i => (s.cl i).level = -1 : Nat) : Int) else 0
  | [], s, _, _, x => by simp
  | id :: ids, s, hinj, hids, x => by
    rw [List.foldl_cons]
    have hid := hids id (by simp)
    obtain ⟨hh, hc, he⟩ := addOne_frame cfg l s id
    have hncl : (addOne cfg l s id).ncl = s.ncl := by rw [he]
    have hptr : (addOne cfg l s id).ptr = s.ptr := by rw [he]
    rw [addFold_cnt cfg hbk l ids (addOne cfg l s id) (by rw [hncl, hptr]; exact hinj)
      (by rw [hncl]; intro i hi; exact hids i (by simp [hi])) x, addOne_cnt cfg hbk]
    have hcp : (ids.countP fun i => ((addOne cfg l s id).cl i).level = -1) = ids.countP fun i => (s.cl i).level = -1 := by
      apply List.countP_congr
      intro i hi
      rw [addOne_cl cfg l hinj hid (hids i (by simp [hi]))]
      split <;> simp
    rw [hcp, List.countP_cons]
    by_cases hx : x = l
    · simp only [hx, true_and, if_true]
      by_cases hl : (s.cl id).level = -1 <;> simp [hl] <;> omega
    · simp [hx]

/-- Counting records by clause. -/
theorem countP_recs {f : Nat → Cls} {n : Nat} {l : Lit} {ids : List Nat}
    (h : ∀ i, i < n → ids.count i = (f i).lits.count l) (hlt : ∀ i ∈ ids, i < n) :
    ((ids.countP fun i => (f i).level = -1 : Nat) : Int) = occN f l n := by
  induction n generalizing ids with
  | zero =>
    cases ids with
    | nil => rfl
    | cons a _ => exact absurd (hlt a (by simp)) (by omega)
  | succ n ih =>
    have hsplit : ids.countP (fun i => (f i).level = -1) =
        (ids.filter (· ≠ n)).countP (fun i => (f i).level = -1) + (if (f n).level = -1 then ids.count n else 0) := by
      clear ih h hlt
      induction ids with
      | nil => simp
      | cons a as ih =>
        rw [List.countP_cons, ih]
        by_cases ha : a = n
        · subst ha
          by_cases hl : (f a).level = -1 <;> simp [hl] <;> omega
        · by_cases hl : (f n).level = -1 <;> by_cases hl' : (f a).level = -1 <;>
            simp [hl, hl', ha] <;> omega
    rw [hsplit]
    unfold occN
    rw [← ih (ids := ids.filter (· ≠ n))]
    · unfold occ1
      rw [h n (by omega)]
      split <;> simp
    · intro i hi
      rw [List.count_filter (by simp; omega)]
      exact h i (by omega)
    · intro i hi
      have := List.mem_filter.1 hi
      have h1 := hlt i this.1
      have h2 : i ≠ n := by simpa using this.2
      omega

theorem addLiteral_cnt (cfg : Cfg S) (hbk : cfg.heur = .BK) {s : St S} (hs : Store s) (l x : Lit) :
    (addLiteral cfg s l).cnt x = s.cnt x + if x = l then occ s l else 0 := by
  unfold addLiteral
  rw [addFold_cnt cfg hbk l (s.recs l) s hs.inj (fun i hi => hs.mem_lt hi) x]
  rw [countP_recs (f := s.cl) (n := s.ncl) (l := l) (fun i hi => by rw [hs.recs l i, if_pos hi]) (fun i hi => hs.mem_lt hi)]
  rfl

theorem undoAdd_cnt (cfg : Cfg S) (hbk : cfg.heur = .BK) (k : Int) : ∀ (as : List (Nat × Nat)) (s : St S), as.Nodup →
    Store s → ∀ x : Lit, (as.foldl (undoAdd cfg k) s).cnt x =
      s.cnt x + if (x.var, x.val) ∈ as ∧ s.lvl x.var x.val > k ∧ falseLit s.asg (x.var, x.val) = x then occ s x else 0
  | [], s, _, _, x => by simp
  | a :: as, s, hnd, hs, x => by
    rw [List.foldl_cons]
    obtain ⟨hna, hnd⟩ := List.nodup_cons.1 hnd
    have hfr := undoAdd_frame cfg k s a
    have hcl : ∀ j, j < s.ncl → ((undoAdd cfg k s a).cl j).lits = (s.cl j).lits ∧
        ((undoAdd cfg k s a).cl j).level = (s.cl j).level := by
      intro j hj
      rw [undoAdd_eq]
      split
      · rw [addLiteral_cl cfg hs _ hj]; split <;> exact ⟨rfl, rfl⟩
      · exact ⟨rfl, rfl⟩
    have hs1 := hs.frameH hfr (fun j hj => (hcl j hj).1)
    obtain ⟨_, _, he⟩ := hfr
    have hncl : (undoAdd cfg k s a).ncl = s.ncl := by rw [he]
    have hasg : (undoAdd cfg k s a).asg = s.asg := by rw [he]
    have hlvl : (undoAdd cfg k s a).lvl = s.lvl := by rw [he]
    rw [undoAdd_cnt cfg hbk k as _ hnd hs1, hasg, hlvl, occ_congr hncl hcl]
    have h1 : (undoAdd cfg k s a).cnt x =
        s.cnt x + if s.lvl a.1 a.2 > k ∧ x = falseLit s.asg a then occ s x else 0 := by
      rw [undoAdd_eq]
      by_cases hl : s.lvl a.1 a.2 > k
      · rw [if_pos hl, addLiteral_cnt cfg hbk hs]
        by_cases hx : x = falseLit s.asg a
        · rw [if_pos hx, if_pos ⟨hl, hx⟩, ← hx]
        · rw [if_neg hx, if_neg (by simp [hx])]
      · rw [if_neg hl, if_neg (by simp [hl])]; omega
    rw [h1]
    by_cases hxa : (x.var, x.val) = a
    · subst hxa
      rw [if_neg (c := (x.var, x.val) ∈ as ∧ _) (by simp [hna])]
      by_cases hc : s.lvl x.var x.val > k ∧ x = falseLit s.asg (x.var, x.val)
      · rw [if_pos hc, if_pos ⟨by simp, hc.1, hc.2.symm⟩]; omega
      · rw [if_neg hc, if_neg (by rintro ⟨_, h2, h3⟩; exact hc ⟨h2, h3.symm⟩)]; omega
    · have hne : x ≠ falseLit s.asg a := by
        rintro rfl; exact hxa rfl
      rw [if_neg (c := s.lvl a.1 a.2 > k ∧ _) (by simp [hne])]
      simp only [List.mem_cons, hxa, false_or]
      omega

/-- Literals that are open once everything above level `k` is undone. -/
def OpenAt (k : Int) (s : St S) (l : Lit) : Prop := s.lvl l.var l.val > k ∨ s.asg l.var l.val = .un

instance (k : Int) (s : St S) (l : Lit) : Decidable (OpenAt k s l) := by unfold OpenAt; infer_instance

theorem unsatLit_cnt (cfg : Cfg S) (hbk : cfg.heur = .BK) (k : Int) (id : Nat) : ∀ (ls : List Lit) (s : St S) (x : Lit),
    (ls.foldl (unsatLit cfg k id) s).cnt x = s.cnt x + if OpenAt k s x then ((ls.count x : Nat) : Int) else 0
  | [], s, x => by simp
  | l :: ls, s, x => by
    rw [List.foldl_cons, unsatLit_cnt cfg hbk k id ls]
    have hop : OpenAt k (unsatLit cfg k id s l) x ↔ OpenAt k s x := by
      obtain ⟨c, hc⟩ := unsatLit_eq cfg k id s l
      unfold OpenAt
      rw [hc]
      split <;> rfl
    have h1 : (unsatLit cfg k id s l).cnt x = s.cnt x + if OpenAt k s l ∧ x = l then 1 else 0 := by
      unfold unsatLit
      by_cases hl : s.lvl l.var l.val > k ∨ s.asg l.var l.val = .un
      · rw [if_pos hl]
        dsimp only
        rw [if_pos hbk]
        show upd s.cnt l (s.cnt l + 1) x = _
        by_cases hx : x = l
        · subst hx; rw [upd_same, if_pos ⟨hl, rfl⟩]
        · rw [upd_of_ne _ _ hx, if_neg (by simp [hx])]; omega
      · rw [if_neg hl, if_neg (fun h => hl h.1)]; omega
    rw [h1]
    by_cases hx : x = l
    · subst hx
      by_cases ho : OpenAt k s x
      · rw [if_pos ⟨ho, rfl⟩, if_pos (hop.2 ho), if_pos ho, List.count_cons_self]; omega
      · rw [if_neg (fun h => ho h.1), if_neg (fun h => ho (hop.1 h)), if_neg ho]; omega
    · rw [if_neg (fun h => hx h.2), List.count_cons_of_ne (Ne.symm hx)]
      by_cases ho : OpenAt k s x
      · rw [if_pos (hop.2 ho), if_pos ho]; omega
      · rw [if_neg (fun h => ho (hop.1 h)), if_neg ho]; omega

theorem unsatOne_occ (cfg : Cfg S) (hbk : cfg.heur = .BK) {k : Int} (hk : -1 ≤ k) {s : St S} (hs : Store s) {id : Nat}
    (hid : id < s.ncl) (h : CntOn (OpenAt k s) s) : CntOn (OpenAt k (unsatOne cfg k s id)) (unsatOne cfg k s id) := by
  obtain ⟨hf, hcl⟩ := unsatOne_cl cfg k hs.inj hid
  obtain ⟨_, _, he⟩ := hf
  have hncl : (unsatOne cfg k s id).ncl = s.ncl := by rw [he]
  have hop : ∀ x, OpenAt k (unsatOne cfg k s id) x ↔ OpenAt k s x := by intro x; unfold OpenAt; rw [he]
  have hcnt : ∀ x, (unsatOne cfg k s id).cnt x =
      s.cnt x + if (s.cl id).level > k ∧ OpenAt k s x then (((s.cl id).lits.count x : Nat) : Int) else 0 := by
    intro x
    unfold unsatOne
    by_cases hl : (s.cl id).level > k
    · rw [if_pos hl]
      show ((s.cl id).lits.foldl (unsatLit cfg k id) s).cnt x = _
      rw [unsatLit_cnt cfg hbk]
      simp only [hl, true_and]
    · rw [if_neg hl, if_neg (fun h => hl h.1)]; omega
  intro x
  rw [hop x, hcnt x]
  have hocc : occ (unsatOne cfg k s id) x = occ s x + if (s.cl id).level > k then (((s.cl id).lits.count x : Nat) : Int) else 0 := by
    unfold occ
    rw [hncl, occN_upd (f := s.cl) hid]
    · have e := hcl id hid
      by_cases hl : (s.cl id).level > k
      · rw [if_pos ⟨rfl, hl⟩] at e
        have h1 : occ1 ((unsatOne cfg k s id).cl id) x = (((s.cl id).lits.count x : Nat) : Int) := by
          rw [e]; unfold occ1; exact if_pos rfl
        have h2 : occ1 (s.cl id) x = 0 := by unfold occ1; exact if_neg (by omega)
        rw [h1, h2, if_pos hl]; omega
      · rw [if_neg (fun h => hl h.2)] at e
        rw [e, if_neg hl]; omega
    · intro i hi hne
      rw [hcl i hi, if_neg (by simp [hne])]
  rw [hocc]
  obtain ⟨h1, h2⟩ := h x
  constructor
  · intro ho
    rw [h1 ho]
    by_cases hl : (s.cl id).level > k
    · rw [if_pos ⟨hl, ho⟩, if_pos hl]
    · rw [if_neg (fun h => hl h.1), if_neg hl]
  · intro ho
    rw [h2 ho, if_neg (fun h => ho h.2)]; rfl

theorem unsatFold_occ (cfg : Cfg S) (hbk : cfg.heur = .BK) {k : Int} (hk : -1 ≤ k) : ∀ (ids : List Nat) (s : St S), Store s →
    (∀ i ∈ ids, i < s.ncl) → CntOn (OpenAt k s) s →
    CntOn (OpenAt k (ids.foldl (unsatOne cfg k) s)) (ids.foldl (unsatOne cfg k) s)
  | [], _, _, _, h => h
  | id :: ids, s, hs, hids, h => by
    rw [List.foldl_cons]
    have hid := hids id (by simp)
    obtain ⟨hf, hcl⟩ := unsatOne_cl cfg k hs.inj hid
    have hs1 := hs.frameH hf (fun j hj => by rw [hcl j hj]; split <;> rfl)
    have h1 := unsatOne_occ cfg hbk hk hs hid h
    obtain ⟨_, _, he⟩ := hf
    have hncl : (unsatOne cfg k s id).ncl = s.ncl := by rw [he]
    exact unsatFold_occ cfg hbk hk ids _ hs1 (by rw [hncl]; intro i hi; exact hids i (by simp [hi])) h1

theorem undoUnsat_occ (cfg : Cfg S) (hbk : cfg.heur = .BK) {k : Int} (hk : -1 ≤ k) : ∀ (as : List (Nat × Nat)) (s : St S),
    Store s → CntOn (OpenAt k s) s → CntOn (OpenAt k (as.foldl (undoUnsat cfg k) s)) (as.foldl (undoUnsat cfg k) s)
  | [], _, _, h => h
  | a :: as, s, hs, h => by
    rw [List.foldl_cons]
    obtain ⟨hf, _, hcl⟩ := undoUnsat_step cfg hk hs a
    have hs1 := hs.frameU hf (fun j hj => by rw [hcl j hj]; split <;> rfl)
    refine undoUnsat_occ cfg hbk hk as _ hs1 ?_
    rw [undoUnsat_eq]
    by_cases hl : s.lvl a.1 a.2 > k
    · rw [if_pos hl]
      dsimp only
      have h1 := unsatFold_occ cfg hbk hk (s.recs (trueLit s.asg a)) s hs (fun i hi => hs.mem_lt hi) h
      have hfr : FrameH s (unsatisfyClauses cfg s (trueLit s.asg a) k) :=
        (unsatFold_cl cfg hk (s.recs (trueLit s.asg a)) s hs.inj (fun i hi => hs.mem_lt hi)).1
      have h1' : CntOn (OpenAt k (unsatisfyClauses cfg s (trueLit s.asg a) k)) (unsatisfyClauses cfg s (trueLit s.asg a) k) := h1
      obtain ⟨hp, c, he⟩ := hfr
      have hlv : (unsatisfyClauses cfg s (trueLit s.asg a) k).lvl a.1 a.2 > k := by rw [he]; exact hl
      generalize unsatisfyClauses cfg s (trueLit s.asg a) k = t at *
      refine CntOn.congr h1' ?_ rfl (fun l => occ_congr rfl (fun i _ => ⟨rfl, rfl⟩) l)
      intro l
      unfold OpenAt
      dsimp only
      by_cases hla : l.var = a.1 ∧ l.val = a.2
      · rw [hla.1, hla.2, upd2_same, upd2_same]
        constructor
        · intro _; exact Or.inl hlv
        · intro _; exact Or.inr rfl
      · rw [Trail.upd2_of_ne _ _ hla, Trail.upd2_of_ne _ _ hla]
    · rw [if_neg hl]; exact h

/-- Undoing keeps the counts exact. -/
theorem undoTheory_occ (cfg : Cfg S) (hbk : cfg.heur = .BK) {s : St S} {k K : Int} (hk : -1 ≤ k) (hb : (s.tr.level K).Base)
    (hs : Store s) (hex : ∀ j, j < s.ncl → Exact s.asg s.lvl (s.cl j)) (h : OccOK s) : OccOK (undoTheory cfg s k) := by
  have hu := undoTheory_spec cfg hk hb hs hex
  obtain ⟨a1, a2, a3⟩ := undoAdd_fold cfg k s.atoms s hs
  have hcl : ∀ j, j < s.ncl → ((s.atoms.foldl (undoAdd cfg k) s).cl j).lits = (s.cl j).lits ∧
      ((s.atoms.foldl (undoAdd cfg k) s).cl j).level = (s.cl j).level := by
    intro j hj; rw [a3 j hj]; split <;> exact ⟨rfl, rfl⟩
  have a4 := undoAdd_cnt cfg hbk k s.atoms s (nodup_atoms s) hs
  obtain ⟨hp, cc, he⟩ := a2
  have hncl : (s.atoms.foldl (undoAdd cfg k) s).ncl = s.ncl := by rw [he]
  have hasg : (s.atoms.foldl (undoAdd cfg k) s).asg = s.asg := by rw [he]
  have hlvl : (s.atoms.foldl (undoAdd cfg k) s).lvl = s.lvl := by rw [he]
  have h1 : CntOn (OpenAt k (s.atoms.foldl (undoAdd cfg k) s)) (s.atoms.foldl (undoAdd cfg k) s) := by
    intro x
    rw [a4 x, occ_congr hncl hcl x]
    have hop : OpenAt k (s.atoms.foldl (undoAdd cfg k) s) x ↔ OpenAt k s x := by unfold OpenAt; rw [hasg, hlvl]
    rw [hop]
    obtain ⟨o1, o2⟩ := h x
    have hgt_un : s.lvl x.var x.val > k → ¬ LU s.asg x := by
      intro hgt hun
      have : s.lvl x.var x.val = -10 := hb.un x.var x.val hun
      omega
    constructor
    · rintro (hgt | hun)
      · have hnu := hgt_un hgt
        have hin : (x.var, x.val) ∈ s.atoms := mem_atoms.2 (hb.rng x.var x.val hnu)
        rw [o2 hnu]
        by_cases hfl : falseLit s.asg (x.var, x.val) = x
        · rw [if_pos ⟨hin, hgt, hfl⟩]; omega
        · rw [if_neg (fun h => hfl h.2.2)]
          have hlt : LT s.asg x := by
            rcases lit_cases s.asg x with h' | h' | h'
            · exact h'
            · exfalso
              apply hfl
              obtain ⟨xv, xd, xe⟩ := x
              unfold LF at h'
              unfold falseLit
              dsimp only at h' ⊢
              rw [h']; cases xe <;> rfl
            · exact absurd h' hnu
          have hz : occ s x = 0 := by
            apply occN_zero
            intro i hi hm hl
            exact ((hex i hi).unsat hl).1 ⟨x, hm, hlt⟩
          omega
      · have hlu : LU s.asg x := hun
        rw [o1 hlu, if_neg (fun h => hgt_un h.2.1 hlu)]; omega
    · intro ho
      have hnu : ¬ LU s.asg x := fun h => ho (Or.inr h)
      rw [o2 hnu, if_neg (fun h => ho (Or.inl h.2.1))]; rfl
  have h2 := undoUnsat_occ cfg hbk hk (s.atoms.foldl (undoAdd cfg k) s).atoms (s.atoms.foldl (undoAdd cfg k) s) a1 h1
  have hut := hu.tr
  unfold undoTheory at hut ⊢
  dsimp only at hut ⊢
  generalize (s.atoms.foldl (undoAdd cfg k) s).atoms.foldl (undoUnsat cfg k) (s.atoms.foldl (undoAdd cfg k) s) = t at *
  refine CntOn.congr h2 ?_ rfl (fun l => occ_congr rfl (fun i _ => ⟨rfl, rfl⟩) l)
  intro l
  have e1 : t.asg l.var l.val = if s.lvl l.var l.val > k then .un else s.asg l.var l.val :=
    congrFun (congrFun (congrArg Trail.asg hut) l.var) l.val
  have e2 : t.lvl l.var l.val = if s.lvl l.var l.val > k then -10 else s.lvl l.var l.val :=
    congrFun (congrFun (congrArg Trail.lvl hut) l.var) l.val
  unfold OpenAt LU
  dsimp only
  rw [e1, e2]
  by_cases hgt : s.lvl l.var l.val > k
  · rw [if_pos hgt, if_pos hgt]; simp
  · rw [if_neg hgt, if_neg hgt]; simp [hgt]

end Mvl
