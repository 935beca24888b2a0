import Verif.Proof.BVRun

/-!
# Bit-vector variant: reading the formula
-/

namespace Mvl

/-- All literals are about the same variable. -/
def oneVar (c : List Lit) : Prop := ∀ l ∈ c, ∀ l' ∈ c, l.var = l'.var

instance (c : List Lit) : Decidable (oneVar c) := by unfold oneVar; infer_instance

end Mvl

namespace Mvl.BV

variable {S : Type}

/-! ## The variables -/

/-- The state after the domain lines `ds`. -/
structure DomInv (A : ScoreArith S) (ds : List Nat) (s : BSt S) : Prop where
  nv : s.nv = ds.length
  size : ∀ v, s.IsVar v → s.size v = ds.getD (v - 1) 0
  cur : ∀ v, s.IsVar v → s.cur v = full (s.size v)
  out : ∀ v, ¬ s.IsVar v → s.cur v = 0#64
  nodes : s.nodes = fun _ => []
  recs : s.recs = fun _ => []
  ncl : s.ncl = 0
  nheap : s.nheap = 0
  units : s.units = []
  LEVEL : s.LEVEL = 0
  conflict : s.conflict = false
  atomIndex : s.atomIndex = 0
  nBacktracks : s.nBacktracks = 0
  nRestarts : s.nRestarts = 0
  score : s.score = fun _ _ => A.zero

theorem domInv_init (A : ScoreArith S) : DomInv A [] (binit A) := by
  refine ⟨rfl, ?_, ?_, fun _ _ => rfl, rfl, rfl, rfl, rfl, rfl, rfl, rfl, rfl, rfl, rfl, rfl⟩
  all_goals
    rintro v ⟨h1, h2⟩
    have : v ≤ 0 := h2
    omega

theorem DomInv.add {A : ScoreArith S} {ds : List Nat} {s : BSt S} (h : DomInv A ds s) {d : Nat} (hd : d ≤ 64) :
    ∃ s', baddVar s d = .ok s' ∧ DomInv A (ds ++ [d]) s' := by
  unfold baddVar
  rw [if_pos hd]
  refine ⟨_, rfl, ?_⟩
  have hv : ∀ v, ({ s with nv := s.nv + 1, size := upd s.size (s.nv + 1) d, cur := upd s.cur (s.nv + 1) (full d) } : BSt S).IsVar v ↔
      s.IsVar v ∨ v = s.nv + 1 := by
    intro v
    unfold BSt.IsVar
    dsimp only
    omega
  refine ⟨?_, ?_, ?_, ?_, h.nodes, h.recs, h.ncl, h.nheap, h.units, h.LEVEL, h.conflict, h.atomIndex, h.nBacktracks, h.nRestarts, h.score⟩
  · show s.nv + 1 = _
    rw [h.nv]; simp
  · intro v hv'
    show upd s.size (s.nv + 1) d v = _
    unfold upd
    rcases (hv v).1 hv' with h1 | h1
    · have h2 := h1.2
      have h3 := h1.1
      rw [if_neg (by omega), h.size v h1, List.getD_eq_getElem?_getD, List.getD_eq_getElem?_getD,
        List.getElem?_append_left (by rw [h.nv] at h2; omega)]
    · rw [if_pos h1, h1, h.nv, List.getD_eq_getElem?_getD]
      simp
  · intro v hv'
    show upd s.cur (s.nv + 1) (full d) v = full (upd s.size (s.nv + 1) d v)
    unfold upd
    by_cases h1 : v = s.nv + 1
    · rw [if_pos h1, if_pos h1]
    · rw [if_neg h1, if_neg h1]
      rcases (hv v).1 hv' with h2 | h2
      · exact h.cur v h2
      · exact absurd h2 h1
  · intro v hv'
    show upd s.cur (s.nv + 1) (full d) v = 0#64
    unfold upd
    rw [if_neg (fun e => hv' ((hv v).2 (Or.inr e)))]
    exact h.out v fun e => hv' ((hv v).2 (Or.inl e))

theorem DomInv.all {A : ScoreArith S} : ∀ (es : List Nat) {ds : List Nat} {s : BSt S} (rest : List Item), DomInv A ds s →
    (∀ d ∈ es, d ≤ 64) → ∃ s', DomInv A (ds ++ es) s' ∧ bbuildItems A (es.map .dom ++ rest) s = bbuildItems A rest s'
  | [], ds, s, rest, h, _ => ⟨s, by rw [List.append_nil]; exact h, rfl⟩
  | e :: es, ds, s, rest, h, he => by
    obtain ⟨s1, h1, h2⟩ := h.add (he e List.mem_cons_self)
    obtain ⟨s2, h3, h4⟩ := DomInv.all es rest h2 (fun d hd => he d (List.mem_cons_of_mem _ hd))
    refine ⟨s2, by rw [List.append_assoc] at h3; exact h3, ?_⟩
    rw [List.map_cons, List.cons_append, bbuildItems, h1]
    exact h4

/-! ## Literals -/

/-- The set of values of a literal of the file. -/
def toB (s : BSt S) (l : Lit) : BLit := ⟨l.var, if l.eq then bit l.val else s.cur l.var &&& ~~~ (bit l.val)⟩

theorem readLits_eq {s : BSt S} : ∀ (ls : List Lit) (acc : List BLit), (∀ l ∈ ls, l.val < 64 ∧ l.var ≤ s.nv) →
    readLits s acc ls = .ok ((ls.map (toB s)).foldl addAtom acc)
  | [], _, _ => rfl
  | l :: ls, acc, h => by
    obtain ⟨h1, h2⟩ := h l List.mem_cons_self
    have e : readLit s l = .ok (toB s l) := by
      unfold readLit toB
      rw [if_pos h1]
      cases l.eq with
      | true => rfl
      | false => simp only [Bool.false_eq_true, if_false]; rw [if_pos h2]
    rw [readLits, e]
    show readLits s (addAtom acc (toB s l)) ls = _
    rw [readLits_eq ls _ (fun x hx => h x (List.mem_cons_of_mem _ hx))]
    rfl

/-! ## The clauses -/

/-- The stored form `b` of a clause `c` of the file. -/
structure ClOf (P : Problem) (s : BSt S) (c : List Lit) (b : List BLit) : Prop where
  distinct : Distinct b
  lok : ∀ l ∈ b, LOK s l
  ne : b ≠ []
  one : ∀ a, b = [a] → oneVar c ∧ ∃ l ∈ c, l.var = a.var
  iff : ∀ x, P.InDom x → (CHolds x b ↔ clauseHolds x c)

theorem clOf_congr {P : Problem} {s s' : BSt S} (h1 : s'.nv = s.nv) (h2 : s'.size = s.size) {c : List Lit} {b : List BLit}
    (h : ClOf P s c b) : ClOf P s' c b :=
  ⟨h.distinct, fun l hl => ⟨by unfold BSt.IsVar; rw [h1]; exact (h.lok l hl).1, by rw [h2]; exact (h.lok l hl).2, (h.lok l hl).3⟩,
    h.ne, h.one, h.iff⟩

/-- The part of the state that does not change while clauses are read, and the clauses read so far. -/
structure ReadInv (P : Problem) (pos : S → Prop) (Q : List (List Lit)) (s : BSt S) : Prop where
  nv : s.nv = P.numVars
  size : ∀ v, s.IsVar v → s.size v = P.dom v
  size_le : ∀ v, s.IsVar v → s.size v ≤ 64
  size_pos : ∀ v, s.IsVar v → 1 ≤ s.size v
  cur : ∀ v, s.IsVar v → s.cur v = full (s.size v)
  out : ∀ v, ¬ s.IsVar v → s.cur v = 0#64
  nodes : s.nodes = fun _ => []
  LEVEL : s.LEVEL = 0
  conflict : s.conflict = false
  atomIndex : s.atomIndex = 0
  nBacktracks : s.nBacktracks = 0
  nRestarts : s.nRestarts = 0
  ncl : s.ncl = Q.length
  ptr : ∀ id, id < s.ncl → s.ptr id = id
  nheap : s.nheap = s.ncl
  lits : ∀ id (h : id < Q.length), ClOf P s Q[id] (s.cl id).lits
  wok : ∀ id, id < s.ncl → WOK (s.cl id)
  recs : ∀ v id, id ∈ s.recs v ↔ id < s.ncl ∧ ∃ w, IsW (s.cl id) w ∧ w.var = v
  nodup : ∀ v, (s.recs v).Nodup
  units : ∀ id, id ∈ s.units ↔ id < s.ncl ∧ (s.cl id).lits.length = 1
  sorted : s.units.Pairwise (· < ·)
  score : ∀ v j, pos (s.score v j)

theorem ReadInv.start {A : ScoreArith S} {P : Problem} {pos : S → Prop} (hg : A.Good pos) (hwf : P.Regular)
    (h64 : ∀ d ∈ P.doms, d ≤ 64) {s : BSt S} (h : DomInv A P.doms s) : ReadInv P pos [] s := by
  have hsz : ∀ v, s.IsVar v → s.size v = P.dom v ∧ s.size v ∈ P.doms := by
    rintro v ⟨h1, h2⟩
    obtain ⟨w, rfl⟩ : ∃ w, v = w + 1 := ⟨v - 1, by omega⟩
    rw [h.size _ ⟨h1, h2⟩]
    refine ⟨rfl, ?_⟩
    rw [h.nv] at h2
    rw [List.getD_eq_getElem?_getD, Nat.add_sub_cancel, List.getElem?_eq_getElem (by omega)]
    exact List.getElem_mem _
  refine ⟨h.nv, fun v hv => (hsz v hv).1, fun v hv => h64 _ (hsz v hv).2, fun v hv => hwf.dom_one _ (hsz v hv).2, h.cur, h.out,
    h.nodes, h.LEVEL, h.conflict, h.atomIndex, h.nBacktracks, h.nRestarts, h.ncl, ?_, ?_, ?_, ?_, ?_, ?_, ?_, ?_, ?_⟩
  · intro id hid; rw [h.ncl] at hid; omega
  · rw [h.nheap, h.ncl]
  · intro id hid; simp at hid
  · intro id hid; rw [h.ncl] at hid; omega
  · intro v id; rw [h.recs, h.ncl]; simp
  · intro v; rw [h.recs]; simp
  · intro id; rw [h.units, h.ncl]; simp
  · rw [h.units]; simp
  · intro v j; rw [h.score]; exact hg.1

theorem ReadInv.toB_bit {P : Problem} {pos : S → Prop} {Q : List (List Lit)} {s : BSt S} (h : ReadInv P pos Q s) {l : Lit}
    (hl : P.LitOk l) (j : Nat) : (toB s l).vals.getLsbD j = true ↔ j < s.size l.var ∧ (if l.eq then j = l.val else j ≠ l.val) := by
  have hv : s.IsVar l.var := ⟨hl.1, by rw [h.nv]; exact hl.2.1⟩
  have hval : l.val < s.size l.var := by rw [h.size _ hv]; exact hl.2.2
  have h64 := h.size_le _ hv
  unfold toB
  dsimp only
  cases l.eq with
  | true =>
    simp only [if_true]
    rw [bit_bit (by omega), decide_eq_true_eq]
    constructor
    · intro e; exact ⟨by omega, e⟩
    · exact fun e => e.2
  | false =>
    simp only [Bool.false_eq_true, if_false]
    rw [andnot_bit, h.cur _ hv, full_bit h64, bit_bit (by omega), decide_eq_true_eq, decide_eq_false_iff_not]

theorem ReadInv.clOf {P : Problem} {pos : S → Prop} {Q : List (List Lit)} {s : BSt S} (h : ReadInv P pos Q s) {c : List Lit}
    (hne : c ≠ []) (hok : ∀ l ∈ c, P.LitOk l)
    (hpos : ∀ l ∈ c, P.dom l.var = 1 → l.eq = true) : ClOf P s c ((c.map (toB s)).foldl addAtom []) := by
  obtain ⟨h1, h2, h3, h4⟩ := foldl_addAtom (c.map (toB s)) [] (by simp [Distinct])
  have hv : ∀ l ∈ c, s.IsVar l.var := fun l hl => ⟨(hok l hl).1, by rw [h.nv]; exact (hok l hl).2.1⟩
  have hhas : ∀ v j, ClHas ((c.map (toB s)).foldl addAtom []) v j ↔
      ∃ l ∈ c, l.var = v ∧ j < s.size v ∧ (if l.eq then j = l.val else j ≠ l.val) := by
    intro v j
    rw [h2]
    constructor
    · rintro (⟨x, hx, _⟩ | ⟨x, hx, hxv, hxj⟩)
      · cases hx
      · obtain ⟨l, hl, rfl⟩ := List.mem_map.1 hx
        have hxv : l.var = v := hxv
        obtain ⟨h5, h6⟩ := (h.toB_bit (hok l hl) j).1 hxj
        exact ⟨l, hl, hxv, by rw [← hxv]; exact h5, h6⟩
    · rintro ⟨l, hl, rfl, h5, h6⟩
      exact Or.inr ⟨toB s l, List.mem_map_of_mem hl, rfl, (h.toB_bit (hok l hl) j).2 ⟨h5, h6⟩⟩
  refine ⟨h1, ?_, ?_, ?_, ?_⟩
  · intro b hb
    have hbv : b.var ∈ ((c.map (toB s)).foldl addAtom []).map BLit.var := List.mem_map_of_mem hb
    rw [h3] at hbv
    have hbv' : ∃ l ∈ c, l.var = b.var := by
      rcases hbv with hbv | hbv
      · simp at hbv
      · obtain ⟨x, hx, hxv⟩ := List.mem_map.1 hbv
        obtain ⟨l, hl, rfl⟩ := List.mem_map.1 hx
        exact ⟨l, hl, hxv⟩
    obtain ⟨l, hl, hlv⟩ := hbv'
    have hbits : ∀ j, b.vals.getLsbD j = true ↔ ClHas ((c.map (toB s)).foldl addAtom []) b.var j := fun j => (h1.has hb j).symm
    refine ⟨hlv ▸ hv l hl, ?_, ?_⟩
    · intro j hj
      obtain ⟨_, _, _, h5, _⟩ := (hhas _ _).1 ((hbits j).1 hj)
      exact h5
    · have hsz := h.size_pos _ (hv l hl)
      have hval : l.val < s.size l.var := by rw [h.size _ (hv l hl)]; exact (hok l hl).2.2
      cases he : l.eq with
      | true =>
        exact ⟨l.val, (hbits _).2 ((hhas _ _).2 ⟨l, hl, hlv, by rw [← hlv]; exact hval, by rw [he]; simp⟩)⟩
      | false =>
        have hsz2 : s.size l.var ≠ 1 := by
          rw [h.size _ (hv l hl)]
          intro h1
          rw [hpos l hl h1] at he
          cases he
        by_cases h0 : l.val = 0
        · exact ⟨1, (hbits _).2 ((hhas _ _).2 ⟨l, hl, hlv, by rw [← hlv]; omega, by rw [he, h0]; simp⟩)⟩
        · exact ⟨0, (hbits _).2 ((hhas _ _).2 ⟨l, hl, hlv, by rw [← hlv]; omega, by
            rw [he]; simp only [Bool.false_eq_true, if_false]; omega⟩)⟩
  · intro e
    obtain ⟨l, hl⟩ := List.exists_mem_of_ne_nil _ hne
    have := (h3 l.var).2 (Or.inr (List.mem_map.2 ⟨toB s l, List.mem_map_of_mem hl, rfl⟩))
    rw [e] at this; simp at this
  · intro a ha
    have hmem : ∀ x ∈ c, x.var = a.var := by
      intro x hx
      have := (h3 x.var).2 (Or.inr (List.mem_map.2 ⟨toB s x, List.mem_map_of_mem hx, rfl⟩))
      rw [ha] at this; simpa using this
    obtain ⟨l0, hl0⟩ := List.exists_mem_of_ne_nil _ hne
    exact ⟨fun l hl l' hl' => by rw [hmem l hl, hmem l' hl'], l0, hl0, hmem l0 hl0⟩
  · intro x hx
    rw [cholds_iff]
    constructor
    · rintro ⟨v, hv'⟩
      obtain ⟨l, hl, rfl, _, h6⟩ := (hhas _ _).1 hv'
      exact ⟨l, hl, h6⟩
    · rintro ⟨l, hl, hlx⟩
      refine ⟨l.var, (hhas _ _).2 ⟨l, hl, rfl, ?_, hlx⟩⟩
      rw [h.size _ (hv l hl)]
      exact hx _ (hok l hl).1 (hok l hl).2.1

/-- Putting a clause with its watches into the state. -/
theorem ReadInv.put {P : Problem} {pos : S → Prop} {Q : List (List Lit)} {s : BSt S} (h : ReadInv P pos Q s) {c : List Lit}
    {b : BCls} (hb : ClOf P s c b.lits) (hw : WOK b) {sc : Nat → Nat → S} (hsc : ∀ v j, pos (sc v j)) {rs : Nat → List Nat}
    (hrs : ∀ v, rs v = s.recs v ∧ (¬ ∃ w, IsW b w ∧ w.var = v) ∨ rs v = s.ncl :: s.recs v ∧ ∃ w, IsW b w ∧ w.var = v)
    {us : List Nat} (hus : (us = s.units ∧ b.lits.length ≠ 1) ∨ (us = s.units ++ [s.ncl] ∧ b.lits.length = 1)) :
    ReadInv P pos (Q ++ [c]) ({ withClause s b sc rs with units := us } : BSt S) := by
  have hold : ∀ id, id < s.ncl → ({ withClause s b sc rs with units := us } : BSt S).cl id = s.cl id := by
    intro id hid
    show upd s.heap s.nheap b (upd s.ptr s.ncl s.nheap id) = s.heap (s.ptr id)
    have h1 := h.ptr id hid
    have h2 := h.nheap
    unfold upd
    rw [if_neg (show ¬ id = s.ncl by omega), if_neg (by omega)]
  have hnew : ({ withClause s b sc rs with units := us } : BSt S).cl s.ncl = b := by
    show upd s.heap s.nheap b (upd s.ptr s.ncl s.nheap s.ncl) = b
    unfold upd
    rw [if_pos rfl, if_pos rfl]
  have hcases : ∀ id, id < s.ncl + 1 → (id < s.ncl ∧ ({ withClause s b sc rs with units := us } : BSt S).cl id = s.cl id) ∨
      (id = s.ncl ∧ ({ withClause s b sc rs with units := us } : BSt S).cl id = b) := by
    intro id hid
    by_cases h1 : id < s.ncl
    · exact Or.inl ⟨h1, hold id h1⟩
    · have : id = s.ncl := by omega
      exact Or.inr ⟨this, by rw [this]; exact hnew⟩
  refine ⟨h.nv, h.size, h.size_le, h.size_pos, h.cur, h.out, h.nodes, h.LEVEL, h.conflict, h.atomIndex, h.nBacktracks,
    h.nRestarts, ?_, ?_, ?_, ?_, ?_, ?_, ?_, ?_, ?_, hsc⟩
  · show s.ncl + 1 = _
    rw [h.ncl]; simp
  · intro id hid
    have hid : id < s.ncl + 1 := hid
    show upd s.ptr s.ncl s.nheap id = id
    unfold upd
    by_cases h1 : id = s.ncl
    · rw [if_pos h1, h.nheap, h1]
    · rw [if_neg h1]; exact h.ptr id (by omega)
  · show s.nheap + 1 = s.ncl + 1
    rw [h.nheap]
  · intro id hid
    rw [List.length_append, List.length_singleton] at hid
    by_cases h1 : id < Q.length
    · rw [hold id (by rw [h.ncl]; exact h1), List.getElem_append_left h1]
      refine clOf_congr (s := s) ?_ ?_ (h.lits id h1)
      · rfl
      · rfl
    · have e : id = s.ncl := by rw [h.ncl]; omega
      subst e
      rw [hnew]
      have : (Q ++ [c])[s.ncl]'(by rw [h.ncl]; simp) = c := by
        rw [List.getElem_append_right (by rw [h.ncl]; exact Nat.le_refl _)]; simp
      rw [this]
      refine clOf_congr (s := s) ?_ ?_ hb
      · rfl
      · rfl
  · intro id hid
    rcases hcases id hid with ⟨h1, e⟩ | ⟨_, e⟩ <;> rw [e]
    · exact h.wok id h1
    · exact hw
  · intro v id
    show id ∈ rs v ↔ id < s.ncl + 1 ∧ _
    constructor
    · intro hm
      have hm' : id ∈ s.recs v ∨ (id = s.ncl ∧ ∃ w, IsW b w ∧ w.var = v) := by
        rcases hrs v with ⟨e, _⟩ | ⟨e, hw'⟩ <;> rw [e] at hm
        · exact Or.inl hm
        · rcases List.mem_cons.1 hm with h1 | h1
          · exact Or.inr ⟨h1, hw'⟩
          · exact Or.inl h1
      rcases hm' with hm' | ⟨e, hw'⟩
      · obtain ⟨h1, h2⟩ := (h.recs v id).1 hm'
        refine ⟨by omega, ?_⟩
        rw [hold id h1]; exact h2
      · rw [e, hnew]
        exact ⟨by omega, hw'⟩
    · rintro ⟨hid, hw'⟩
      rcases hcases id hid with ⟨h1, e⟩ | ⟨h1, e⟩ <;> rw [e] at hw'
      · have := (h.recs v id).2 ⟨h1, hw'⟩
        rcases hrs v with ⟨e', _⟩ | ⟨e', _⟩ <;> rw [e']
        · exact this
        · exact List.mem_cons_of_mem _ this
      · rcases hrs v with ⟨e', h2⟩ | ⟨e', _⟩
        · exact absurd hw' h2
        · rw [e', h1]; exact List.mem_cons_self
  · intro v
    show (rs v).Nodup
    rcases hrs v with ⟨e, _⟩ | ⟨e, _⟩ <;> rw [e]
    · exact h.nodup v
    · rw [List.nodup_cons]
      refine ⟨fun hm => ?_, h.nodup v⟩
      have := ((h.recs v _).1 hm).1
      omega
  · intro id
    show id ∈ us ↔ id < s.ncl + 1 ∧ _
    constructor
    · intro hm
      have hm' : id ∈ s.units ∨ (id = s.ncl ∧ b.lits.length = 1) := by
        rcases hus with ⟨e, _⟩ | ⟨e, h1⟩ <;> rw [e] at hm
        · exact Or.inl hm
        · rcases List.mem_append.1 hm with h2 | h2
          · exact Or.inl h2
          · exact Or.inr ⟨List.mem_singleton.1 h2, h1⟩
      rcases hm' with hm' | ⟨e, h1⟩
      · obtain ⟨h1, h2⟩ := (h.units id).1 hm'
        exact ⟨by omega, by rw [hold id h1]; exact h2⟩
      · rw [e, hnew]; exact ⟨by omega, h1⟩
    · rintro ⟨hid, hl⟩
      rcases hcases id hid with ⟨h1, e⟩ | ⟨h1, e⟩ <;> rw [e] at hl
      · have := (h.units id).2 ⟨h1, hl⟩
        rcases hus with ⟨e, _⟩ | ⟨e, _⟩ <;> rw [e]
        · exact this
        · exact List.mem_append_left _ this
      · rcases hus with ⟨_, h2⟩ | ⟨e', _⟩
        · exact absurd hl h2
        · rw [e', h1]; simp
  · show us.Pairwise (· < ·)
    rcases hus with ⟨e, _⟩ | ⟨e, _⟩ <;> rw [e]
    · exact h.sorted
    · rw [List.pairwise_append]
      refine ⟨h.sorted, by simp, ?_⟩
      intro x hx y hy
      rw [List.mem_singleton.1 hy]
      exact ((h.units x).1 hx).1

theorem ReadInv.addClause {A : ScoreArith S} {P : Problem} {pos : S → Prop} (hg : A.Good pos) {Q : List (List Lit)} {s : BSt S}
    (h : ReadInv P pos Q s) {c : List Lit} (hne : c ≠ []) (hok : ∀ l ∈ c, P.LitOk l)
    (hpos : ∀ l ∈ c, P.dom l.var = 1 → l.eq = true) : ∃ s', baddClause A s c = .ok s' ∧ ReadInv P pos (Q ++ [c]) s' := by
  have hcl := h.clOf hne hok hpos
  have hrd : readLits s [] c = .ok ((c.map (toB s)).foldl addAtom []) := by
    refine readLits_eq c [] ?_
    intro l hl
    obtain ⟨h1, h2, h3⟩ := hok l hl
    have hv : s.IsVar l.var := ⟨h1, by rw [h.nv]; exact h2⟩
    have := h.size_le _ hv
    rw [h.size _ hv] at this
    exact ⟨by omega, hv.2⟩
  unfold baddClause
  rw [hrd]
  generalize (c.map (toB s)).foldl addAtom [] = b at hcl
  have hall : (b.all fun l => l.var ≤ s.nv) = true := by
    rw [List.all_eq_true]
    intro l hl
    exact decide_eq_true (hcl.lok l hl).isVar.2
  show ∃ s', (if (b.all fun l => l.var ≤ s.nv) = true then _ else _ : Res (BSt S)) = .ok s' ∧ _
  rw [if_pos hall]
  match b, hcl with
  | [], hcl => exact absurd rfl hcl.ne
  | [a], hcl =>
    obtain ⟨sc, e⟩ := foldl_bump A [a] (withClause s ⟨[a], some a, none⟩ s.score s.recs)
    have hsc := bump_pos hg [a] (s := withClause s ⟨[a], some a, none⟩ s.score s.recs) h.score
    rw [e] at hsc
    refine ⟨({ withClause s ⟨[a], some a, none⟩ sc (upd s.recs a.var (s.ncl :: s.recs a.var)) with units := s.units ++ [s.ncl] } : BSt S), ?_, ?_⟩
    · show Res.ok (addRec ({ [a].foldl (bbump A) (withClause s ⟨[a], some a, none⟩ s.score s.recs) with
        units := ([a].foldl (bbump A) (withClause s ⟨[a], some a, none⟩ s.score s.recs)).units ++ [s.ncl] } : BSt S) a.var s.ncl) = _
      rw [e]; rfl
    · refine h.put (b := ⟨[a], some a, none⟩) hcl (Or.inl ⟨a, rfl, rfl, rfl⟩) hsc ?_ (Or.inr ⟨rfl, rfl⟩)
      intro v
      unfold upd
      by_cases hv : v = a.var
      · rw [if_pos hv, hv]; exact Or.inr ⟨rfl, a, Or.inl rfl, rfl⟩
      · rw [if_neg hv]
        refine Or.inl ⟨rfl, ?_⟩
        rintro ⟨w, hw, hwv⟩
        rcases hw with hw | hw
        · cases hw; exact hv hwv.symm
        · cases hw
  | a :: a' :: rest, hcl =>
    have hab : a.var ≠ a'.var := by
      have hd := hcl.distinct
      unfold Distinct at hd
      rw [List.map_cons, List.nodup_cons] at hd
      intro e
      exact hd.1 (by rw [e]; simp)
    obtain ⟨sc, e⟩ := foldl_bump A (a :: a' :: rest) (withClause s ⟨a :: a' :: rest, some a, some a'⟩ s.score s.recs)
    have hsc := bump_pos hg (a :: a' :: rest) (s := withClause s ⟨a :: a' :: rest, some a, some a'⟩ s.score s.recs) h.score
    rw [e] at hsc
    refine ⟨({ withClause s ⟨a :: a' :: rest, some a, some a'⟩ sc (upd (upd s.recs a.var (s.ncl :: s.recs a.var)) a'.var
        (s.ncl :: upd s.recs a.var (s.ncl :: s.recs a.var) a'.var)) with units := s.units } : BSt S), ?_, ?_⟩
    · show Res.ok (addRec (addRec ((a :: a' :: rest).foldl (bbump A) (withClause s ⟨a :: a' :: rest, some a, some a'⟩ s.score s.recs))
        a.var s.ncl) a'.var s.ncl) = _
      rw [e]; rfl
    · refine h.put (b := ⟨a :: a' :: rest, some a, some a'⟩) hcl (Or.inr ⟨by simp, a, a', rfl, rfl, by simp, by simp, hab⟩) hsc ?_
        (Or.inl ⟨rfl, by simp⟩)
      intro v
      unfold upd
      by_cases hv : v = a'.var
      · rw [if_pos hv, if_neg (fun e => hab e.symm), hv]
        exact Or.inr ⟨rfl, a', Or.inr rfl, rfl⟩
      · rw [if_neg hv]
        by_cases hv' : v = a.var
        · rw [if_pos hv', hv']; exact Or.inr ⟨rfl, a, Or.inl rfl, rfl⟩
        · rw [if_neg hv']
          refine Or.inl ⟨rfl, ?_⟩
          rintro ⟨w, hw, hwv⟩
          rcases hw with hw | hw
          · cases hw; exact hv' hwv.symm
          · cases hw; exact hv hwv.symm

theorem ReadInv.all {A : ScoreArith S} {P : Problem} {pos : S → Prop} (hg : A.Good pos) : ∀ (R : List (List Lit))
    {Q : List (List Lit)} {s : BSt S}, ReadInv P pos Q s → (∀ c ∈ R, c ≠ [] ∧ (∀ l ∈ c, P.LitOk l) ∧ ∀ l ∈ c, P.dom l.var = 1 → l.eq = true) →
    ∃ s', bbuildItems A (R.map .clause) s = .ok s' ∧ ReadInv P pos (Q ++ R) s'
  | [], Q, s, h, _ => ⟨s, rfl, by rw [List.append_nil]; exact h⟩
  | c :: R, Q, s, h, hR => by
    obtain ⟨h1, h2, h2p⟩ := hR c List.mem_cons_self
    obtain ⟨s1, h3, h4⟩ := h.addClause hg h1 h2 h2p
    obtain ⟨s2, h5, h6⟩ := ReadInv.all hg R h4 (fun x hx => hR x (List.mem_cons_of_mem _ hx))
    refine ⟨s2, ?_, by rw [List.append_assoc] at h6; exact h6⟩
    rw [List.map_cons, bbuildItems, h3]
    exact h5

theorem bbuild_read {A : ScoreArith S} {P : Problem} {pos : S → Prop} (hg : A.Good pos) (hwf : P.Regular)
    (h64 : ∀ d ∈ P.doms, d ≤ 64) : ∃ s, bbuild A P = .ok s ∧ ReadInv P pos P.clauses s := by
  obtain ⟨s1, h1, h2⟩ := DomInv.all P.doms (P.clauses.map .clause) (domInv_init A) h64
  obtain ⟨s2, h3, h4⟩ := (ReadInv.start hg hwf h64 (by simpa using h1)).all hg P.clauses
    (fun c hc => ⟨hwf.nonempty c hc, hwf.lits_ok c hc, hwf.pos c hc⟩)
  refine ⟨s2, ?_, by simpa using h4⟩
  unfold bbuild Problem.items
  rw [h2]; exact h3

/-! ## The first state of the search -/

/-- At most one clause of the file is about a single variable. -/
def FewOneVar (P : Problem) : Prop :=
  ∀ i j, (hi : i < P.clauses.length) → (hj : j < P.clauses.length) → oneVar P.clauses[i] → oneVar P.clauses[j] → i = j

/-- At most one clause of the file is about a single variable; or the file is satisfiable, and the variables of such clauses
have at most two values. -/
def OneVarOK (P : Problem) : Prop :=
  FewOneVar P ∨ (P.Satisfiable ∧ ∀ c ∈ P.clauses, oneVar c → ∀ l ∈ c, P.dom l.var ≤ 2)

theorem ReadInv.cur_bit {P : Problem} {pos : S → Prop} {Q : List (List Lit)} {s : BSt S} (h : ReadInv P pos Q s) {v : Nat}
    (hv : s.IsVar v) (j : Nat) : (s.cur v).getLsbD j = true ↔ j < s.size v := by
  rw [h.cur v hv, full_bit (h.size_le v hv), decide_eq_true_eq]

theorem ReadInv.loopInv {P : Problem} {pos : S → Prop} {s : BSt S} (h : ReadInv P pos P.clauses s) :
    LoopInv (¬ OneVarOK P) P pos s := by
  have hlok : ∀ id, id < s.ncl → ∀ l ∈ (s.cl id).lits, LOK s l := fun id hid => (h.lits id (by rw [← h.ncl]; exact hid)).lok
  have hnf : ∀ id, id < s.ncl → ∀ l ∈ (s.cl id).lits, ¬ FalseNow s l := by
    intro id hid l hl hf
    have := hlok id hid l hl
    obtain ⟨j, hj⟩ := this.some
    have h1 := hf j hj
    have h2 := (h.cur_bit this.isVar j).2 (this.sub j hj)
    rw [h1] at h2; cases h2
  have hnl : ∀ id, id < s.ncl → ∀ l ∈ (s.cl id).lits, ∀ k, ¬ FalseL s k l := by
    intro id hid l hl k hf
    obtain ⟨j, hj⟩ := (hlok id hid l hl).some
    obtain ⟨n, hn, _⟩ := hf j hj
    rw [h.nodes] at hn; cases hn
  have htrail : TrailInv s := by
    refine ⟨h.size_le, ?_, h.out, ?_, ?_, ?_, ?_, ?_, ?_, ?_, ?_, ?_, ?_, ?_⟩
    · intro v _; rw [h.nodes]
    · intro v hv j
      rw [h.cur_bit hv, h.nodes]; simp
    · intro v hv
      exact ⟨0, (h.cur_bit hv 0).2 (by have := h.size_pos v hv; omega)⟩
    · intro v; rw [h.nodes]; simp
    · intro v; rw [h.nodes]; simp
    · intro v n hn; rw [h.nodes] at hn; cases hn
    · intro v n hn; rw [h.nodes] at hn; cases hn
    · intro v w n hn; rw [h.nodes] at hn; cases hn
    · intro v w n hn; rw [h.nodes] at hn; cases hn
    · intro v n hn; rw [h.nodes] at hn; cases hn
    · rw [h.atomIndex]
      have : s.allNodes = [] := by
        unfold BSt.allNodes
        rw [h.nodes]; simp
      rw [this]; rfl
    · rw [h.LEVEL]; exact Int.le_refl _
  refine ⟨⟨htrail, ?_, ?_, ?_⟩, ?_, ?_, h.score⟩
  · refine ⟨?_, ?_, ?_⟩ <;> (intro v n hn; rw [h.nodes] at hn; cases hn)
  · refine ⟨?_, ?_, fun id hid => (h.lits id (by rw [← h.ncl]; exact hid)).distinct, hlok, h.wok, h.recs, h.nodup⟩
    · intro id hid; rw [h.ptr id hid, h.nheap]; exact hid
    · intro i j hi hj e; rw [h.ptr i hi, h.ptr j hj] at e; exact e
  · have hmw : ∀ id, id < s.ncl → ∀ w, IsW (s.cl id) w → w ∈ (s.cl id).lits := fun id hid w hw => (h.wok id hid).mem hw
    refine ⟨?_, ?_, ?_, ?_, ?_, ?_, ?_⟩
    · intro id hid w w' hw _ _ k _ hf
      exact absurd hf (hnl id hid w (hmw id hid w hw) k)
    · intro _ id hid w w' hw _ _ hf
      exact absurd hf (hnf id hid w (hmw id hid w hw))
    · intro _ id hid w w' hw _ _ hf
      exact absurd hf (hnf id hid w (hmw id hid w hw))
    · intro _ id hid; cases hid
    · intro id hid
      obtain ⟨h1, h2⟩ := (h.units id).1 hid
      obtain ⟨a, ha⟩ := List.length_eq_one_iff.1 h2
      refine ⟨h1, a, by rw [ha]; simp, ?_⟩
      intro l hl hne
      rw [ha, List.mem_singleton] at hl
      exact absurd hl hne
    · right
      intro id hid a ha
      exact Or.inr (Or.inr ⟨(h.units id).2 ⟨hid, by rw [ha]; rfl⟩, h.LEVEL, hnf id hid a (by rw [ha]; simp)⟩)
    · intro hc; rw [h.conflict] at hc; cases hc
  · refine ⟨h.nv, h.size, ?_, ?_, ?_, h.nRestarts⟩
    · intro x hx id hid
      have hid' : id < P.clauses.length := by rw [← h.ncl]; exact hid
      exact ((h.lits id hid').iff x hx.1).2 (hx.2 _ (List.getElem_mem hid'))
    · intro c hc
      obtain ⟨i, hi, rfl⟩ := List.getElem_of_mem hc
      exact ⟨i, by rw [h.ncl]; exact hi, fun x hx => ((h.lits i hi).iff x hx).1⟩
    · rw [h.ncl, h.nBacktracks]; rfl
  · intro _
    rcases Classical.em (¬ OneVarOK P) with hf | hf
    · exact Or.inl hf
    rcases Classical.not_not.1 hf with hf | ⟨⟨x, hx⟩, hf⟩
    · right; left
      intro id hid a ha
      right
      have hid' : id < P.clauses.length := by rw [← h.ncl]; exact hid
      have h1 := ((h.lits id hid').one a ha).1
      have hm := (h.units id).2 ⟨hid, by rw [ha]; rfl⟩
      cases hu : s.units with
      | nil => rw [hu] at hm; cases hm
      | cons x xs =>
        have hx := (h.units x).1 (by rw [hu]; exact List.mem_cons_self)
        have hx' : x < P.clauses.length := by rw [← h.ncl]; exact hx.1
        obtain ⟨b, hb⟩ := List.length_eq_one_iff.1 hx.2
        have h2 := ((h.lits x hx').one b hb).1
        have := hf x id hx' hid' h2 h1
        rw [this]; rfl
    · right; right
      refine ⟨x, ⟨?_, ?_⟩, ?_⟩
      · intro v hv
        rw [h.cur_bit hv, h.size v hv]
        exact hx.1 v hv.1 (by rw [← h.nv]; exact hv.2)
      · intro id hid
        have hid' : id < P.clauses.length := by rw [← h.ncl]; exact hid
        exact ((h.lits id hid').iff x hx.1).2 (hx.2 _ (List.getElem_mem hid'))
      · intro id hid a ha
        right
        have hid' : id < P.clauses.length := by rw [← h.ncl]; exact hid
        obtain ⟨h1, l, hl, hv⟩ := (h.lits id hid').one a ha
        have hd := hf _ (List.getElem_mem hid') h1 l hl
        have hav := (hlok id hid a (by rw [ha]; simp)).isVar
        have hxv := hx.1 a.var hav.1 (by rw [← h.nv]; exact hav.2)
        rw [hv] at hd
        intro j j' h2 h3 h4 h5
        rw [h.cur_bit hav, h.size _ hav] at h2 h3
        omega

end Mvl.BV
