import Verif.Model.WatchMem
import Verif.Proof.WatchList
import Verif.Proof.WLRun

/-!
# The search on linked records does what the search on lists does
-/

namespace Mvl

variable {S : Type}

/-- The state without watch lists. -/
def St.noW (s : St S) : St S := { s with wlist := fun _ => [] }

/-- `new` returns an address that is not in use, as long as there is one behind all addresses in use. -/
def Alloc (new : WMem → Nat) : Prop := ∀ (h : WMem) (n : Nat), (∀ p, n ≤ p → h.mem p = none) → h.mem (new h) = none

/-- The memory holds the lists `L`, with the clause numbers `f`. -/
structure RepL (h : WMem) (L : Lit → List (Nat × Nat)) (f : Lit → List Nat) : Prop where
  rep : Rep h L
  nums : ∀ l, (L l).map Prod.snd = f l
  fin : ∃ n, ∀ l, ∀ x ∈ L l, x.1 < n

/-- The memory holds lists with the clause numbers `f`. -/
def RepOf (h : WMem) (f : Lit → List Nat) : Prop := ∃ L, RepL h L f

theorem RepOf.empty : RepOf WMem.empty fun _ => [] := ⟨fun _ => [], Rep.empty, fun _ => rfl, 0, by simp⟩

theorem RepL.new {h : WMem} {L : Lit → List (Nat × Nat)} {f : Lit → List Nat} (hr : RepL h L f) {new : WMem → Nat}
    (hn : Alloc new) : h.mem (new h) = none := by
  obtain ⟨n, hfin⟩ := hr.fin
  refine hn h n fun p hp => ?_
  cases hm : h.mem p with
  | none => rfl
  | some r =>
    obtain ⟨l, hl⟩ := hr.rep.noleak p (by rw [hm]; simp)
    obtain ⟨x, hx, rfl⟩ := List.mem_map.1 hl
    have := hfin l x hx
    omega

theorem RepL.add {h : WMem} {L : Lit → List (Nat × Nat)} {f : Lit → List Nat} (hr : RepL h L f) {new : WMem → Nat}
    (hn : Alloc new) (c : Nat) (l : Lit) : ∃ h', h.addRecord c l (new h) = .ok h' ∧
      RepL h' (upd L l ((new h, c) :: L l)) (upd f l (c :: f l)) := by
  obtain ⟨h', e, hr'⟩ := hr.rep.add c l (hr.new hn)
  refine ⟨h', e, hr', ?_, ?_⟩
  · intro x
    unfold upd
    split
    · rename_i e; rw [List.map_cons, hr.nums]
    · exact hr.nums x
  · obtain ⟨n, hfin⟩ := hr.fin
    refine ⟨max n (new h + 1), ?_⟩
    intro x y hy
    unfold upd at hy
    split at hy
    · rcases List.mem_cons.1 hy with rfl | hy
      · simp only; omega
      · have := hfin _ y hy; omega
    · have := hfin _ y hy; omega

theorem RepOf.add {h : WMem} {f : Lit → List Nat} (hr : RepOf h f) {new : WMem → Nat}
    (hn : Alloc new) (c : Nat) (l : Lit) : ∃ h', h.addRecord c l (new h) = .ok h' ∧ RepOf h' (upd f l (c :: f l)) := by
  obtain ⟨L, hr⟩ := hr
  obtain ⟨h', e, hr'⟩ := hr.add hn c l
  exact ⟨h', e, _, hr'⟩

theorem erase_split {as bs : List Nat} {i : Nat} (h : (as ++ i :: bs).Nodup) : (as ++ i :: bs).erase i = as ++ bs := by
  have hn : i ∉ as := by
    intro hi
    rw [List.nodup_append] at h
    exact h.2.2 i hi i (by simp) rfl
  rw [List.erase_append_right _ hn, List.erase_cons_head]

theorem RepL.remove {h : WMem} {L : Lit → List (Nat × Nat)} {f : Lit → List Nat} (hr : RepL h L f) {l : Lit}
    {as bs : List (Nat × Nat)} {p : Nat × Nat} (hL : L l = as ++ p :: bs) (hnd : (f l).Nodup) :
    ∃ h', h.removeRecord p.1 l = .ok h' ∧ RepL h' (upd L l (as ++ bs)) (upd f l ((f l).erase p.2)) := by
  obtain ⟨h', e, _, hr'⟩ := hr.rep.remove hL
  refine ⟨h', e, hr', ?_, ?_⟩
  · have hf : f l = as.map Prod.snd ++ p.2 :: bs.map Prod.snd := by rw [← hr.nums, hL]; simp
    intro x
    unfold upd
    split
    · rw [List.map_append, hf, erase_split (by rw [← hf]; exact hnd)]
    · exact hr.nums x
  · obtain ⟨n, hfin⟩ := hr.fin
    refine ⟨n, ?_⟩
    intro x y hy
    unfold upd at hy
    split at hy
    · refine hfin l y ?_
      rw [hL]
      simp only [List.mem_append, List.mem_cons] at hy ⊢
      rcases hy with hy | hy
      · exact .inl hy
      · exact .inr (.inr hy)
    · exact hfin _ y hy

/-- The record in the middle of a list. -/
theorem Rep.at {h : WMem} {L : Lit → List (Nat × Nat)} (hr : Rep h L) {l : Lit} {as bs : List (Nat × Nat)} {p : Nat × Nat}
    (hL : L l = as ++ p :: bs) : ∃ pv, h.mem p.1 = some ⟨p.2, bs.head?.map Prod.fst, pv⟩ := by
  obtain ⟨last, hl⟩ := hr.linked l
  rw [hL] at hl
  obtain ⟨m, c, _, h2⟩ := Linked.append.1 hl
  obtain ⟨_, nx, h3, h4⟩ := h2
  refine ⟨m, ?_⟩
  rw [h3]
  cases bs with
  | nil => rw [h4.2]; rfl
  | cons b bs => rw [h4.1]; rfl

theorem Rep.head {h : WMem} {L : Lit → List (Nat × Nat)} (hr : Rep h L) (l : Lit) :
    h.head l = (L l).head?.map Prod.fst := by
  obtain ⟨last, hl⟩ := hr.linked l
  cases hL : L l with
  | nil => rw [hL] at hl; exact hl.2
  | cons b bs => rw [hL] at hl; exact hl.1

/-! ## One record -/

/-- `SwapPointer` on a record of the list of the false literal `l`. -/
theorem pswapPointer_sim {new : WMem → Nat} (hn : Alloc new) {s : St S} {h : WMem} {L : Lit → List (Nat × Nat)} {l : Lit}
    {rec id : Nat} {as bs : List (Nat × Nat)} (hr : RepL h L s.wlist) (hL : L l = as ++ (rec, id) :: bs)
    (hnd : (s.wlist l).Nodup) (hl : sat s l = 0) (hub : (swapPointer s id l).ub = false) :
    ∃ h' L' as', pswapPointer new (s.noW, h) rec id = .ok ((swapPointer s id l).noW, h') ∧
      RepL h' L' (swapPointer s id l).wlist ∧ L' l = as' ++ bs := by
  have hL1 : L l = (as ++ [(rec, id)]) ++ bs := by rw [hL]; simp
  unfold swapPointer at hub ⊢
  unfold pswapPointer
  dsimp only at hub ⊢
  have hcl : s.noW.cl id = s.cl id := rfl
  have hsat : ∀ x, sat s.noW x = sat s x := fun _ => rfl
  rw [hcl]
  simp only [hsat]
  by_cases h1 : (s.cl id).lits.length > 1
  · rw [if_pos h1] at hub ⊢
    rw [if_pos h1]
    cases hw1 : (s.cl id).w1 with
    | none => rw [hw1] at hub; simp at hub
    | some w2 =>
      rw [hw1] at hub
      dsimp only at hub ⊢
      by_cases h2 : sat s w2 = 2
      · rw [if_pos h2] at hub ⊢
        rw [if_pos h2]
        cases hfd : (s.cl id).lits.find? (fun x => sat s x ≠ 0 ∧ x ≠ w2) with
        | none => exact ⟨h, L, _, rfl, hr, hL1⟩
        | some x =>
          rw [hfd] at hub
          dsimp only at hub ⊢
          by_cases h3 : (s.cl id).w0 = some l
          · rw [if_pos h3, h3]
            dsimp only
            have hx := List.find?_some hfd
            simp only [decide_eq_true_eq] at hx
            have hxl : l ≠ x := fun e => hx.1 (e ▸ hl)
            obtain ⟨h1', e1, hr1⟩ := hr.remove hL hnd
            obtain ⟨h2', e2, hr2⟩ := hr1.add hn id x
            rw [e1, Res.ok_bind, e2, Res.ok_bind]
            refine ⟨h2', _, as, rfl, hr2, ?_⟩
            rw [upd_of_ne _ _ hxl, upd_same]
          · rw [if_neg h3] at hub; simp at hub
      · rw [if_neg h2] at hub ⊢
        rw [if_neg h2]
        exact ⟨h, L, _, rfl, hr, hL1⟩
  · rw [if_neg h1] at hub ⊢
    rw [if_neg h1]
    exact ⟨h, L, _, rfl, hr, hL1⟩

/-- One record of the walk. -/
theorem pfalsifyOne_sim {new : WMem → Nat} (hn : Alloc new) {s : St S} {h : WMem} {L : Lit → List (Nat × Nat)} {l : Lit}
    {rec id : Nat} {as bs : List (Nat × Nat)} (hr : RepL h L s.wlist) (hL : L l = as ++ (rec, id) :: bs)
    (hnd : (s.wlist l).Nodup) (hl : sat s l = 0) (hc : s.conflict = false) (hub : (falsifyOne l s id).ub = false) :
    ∃ h' L' as', pfalsifyOne new l (s.noW, h) rec id = .ok ((falsifyOne l s id).noW, h') ∧
      RepL h' L' (falsifyOne l s id).wlist ∧ L' l = as' ++ bs := by
  have hL1 : L l = (as ++ [(rec, id)]) ++ bs := by rw [hL]; simp
  unfold falsifyOne at hub ⊢
  unfold pfalsifyOne
  rw [if_neg (by rw [hc]; simp)] at hub ⊢
  dsimp only at hub ⊢
  have hcl : s.noW.cl id = s.cl id := rfl
  have hsat : ∀ x, sat s.noW x = sat s x := fun _ => rfl
  have hsat' : sat s.noW = sat s := rfl
  rw [hcl]
  cases hw0 : (s.cl id).w0 with
  | none => rw [hw0] at hub; simp at hub
  | some w =>
    rw [hw0] at hub
    dsimp only at hub ⊢
    rw [hsat, hsat']
    by_cases h1 : sat s w ≠ 1
    · rw [if_pos h1] at hub ⊢
      rw [if_pos h1]
      by_cases h2 : (s.cl id).lits.length > 1 ∧ (s.cl id).w1 = none
      · rw [if_pos h2] at hub; simp at hub
      · rw [if_neg h2] at hub ⊢
        rw [if_neg h2]
        by_cases h3 : (s.cl id).lits.length > 1 ∧ (s.cl id).w1.map (sat s) = some 1
        · rw [if_pos h3] at hub ⊢
          rw [if_pos h3]
          exact ⟨h, L, _, rfl, hr, hL1⟩
        · rw [if_neg h3] at hub ⊢
          rw [if_neg h3]
          by_cases h4 : (s.cl id).w1 = some l
          · rw [if_pos h4] at hub ⊢
            rw [if_pos h4]
            exact pswapPointer_sim hn (s := s.setCl id { s.cl id with w0 := (s.cl id).w1, w1 := some w }) hr hL hnd hl hub
          · rw [if_neg h4] at hub ⊢
            rw [if_neg h4]
            exact pswapPointer_sim hn hr hL hnd hl hub
    · rw [if_neg h1] at hub ⊢
      rw [if_neg h1]
      exact ⟨h, L, _, rfl, hr, hL1⟩

theorem WMid.wnodup {ex : Nat → Prop} {l : Lit} {g : PA} {rem : List Nat} {s : St S} (h : WMid ex l g rem s) (x : Lit) :
    (s.wlist x).Nodup := by
  rw [List.nodup_iff_count]
  intro id
  rw [h.lists x id]
  split <;> simp

/-! ## The walk -/

/-- `F g` ends, for `g` large enough, in the state `s'` with its lists in memory. -/
def Runs (F : Nat → Res (PSt S)) (s' : St S) : Prop :=
  ∃ h', RepOf h' s'.wlist ∧ ∃ g0, ∀ g, g0 ≤ g → F g = .ok (s'.noW, h')

theorem Runs.bind {F : Nat → Res (PSt S)} {K : Nat → PSt S → Res (PSt S)} {s1 s2 : St S} (h : Runs F s1)
    (hk : ∀ h1, RepOf h1 s1.wlist → Runs (fun g => K g (s1.noW, h1)) s2) : Runs (fun g => F g >>= K g) s2 := by
  obtain ⟨h1, hr1, g1, e1⟩ := h
  obtain ⟨h2, hr2, g2, e2⟩ := hk h1 hr1
  refine ⟨h2, hr2, g1 + g2, fun g hg => ?_⟩
  dsimp only
  rw [e1 g (by omega), Res.ok_bind]
  exact e2 g (by omega)

theorem Runs.ok {s : St S} {h : WMem} (hr : RepOf h s.wlist) : Runs (fun _ => .ok (s.noW, h)) s :=
  ⟨h, hr, 0, fun _ _ => rfl⟩

theorem pwalk_sim {new : WMem → Nat} (hn : Alloc new) {ex : Nat → Prop} {l : Lit} {g0 : PA} :
    ∀ (bs as : List (Nat × Nat)) (s : St S) (h : WMem) (L : Lit → List (Nat × Nat)), WMid ex l g0 (bs.map Prod.snd) s →
    s.ub = false → RepL h L s.wlist → L l = as ++ bs →
    Runs (fun g => pwalk new l g (s.noW, h) (bs.head?.map Prod.fst)) ((bs.map Prod.snd).foldl (falsifyOne l) s)
  | [], _, s, h, L, _, _, hr, _ => by
    refine ⟨h, ⟨L, hr⟩, 1, fun g hg => ?_⟩
    obtain ⟨g, rfl⟩ : ∃ k, g = k + 1 := ⟨g - 1, by omega⟩
    rfl
  | (rec, id) :: bs, as, s, h, L, hm, hub, hr, hL => by
    cases hc : s.conflict with
    | true =>
      rw [falsifyFold_conf l _ s hc]
      refine ⟨h, ⟨L, hr⟩, 1, fun g hg => ?_⟩
      obtain ⟨g, rfl⟩ : ∃ k, g = k + 1 := ⟨g - 1, by omega⟩
      show pwalk new l (g + 1) (s.noW, h) (some rec) = _
      unfold pwalk
      rw [if_pos (show s.noW.conflict = true from hc)]
    | false =>
      rw [List.map_cons] at hm
      have hub' : (falsifyOne l s id).ub = false := (hm.keep).1.trans hub
      obtain ⟨h1, L1, as1, e1, hr1, hL1⟩ := pfalsifyOne_sim hn hr hL (hm.wnodup l) (sat_eq_zero.2 hm.fals.fals) hc hub'
      obtain ⟨pv, hp⟩ := hr.rep.at hL
      obtain ⟨h2, hr2, g2, e2⟩ := pwalk_sim hn bs as1 _ h1 L1 hm.step hub' hr1 hL1
      refine ⟨h2, hr2, g2 + 1, fun g hg => ?_⟩
      obtain ⟨g, rfl⟩ : ∃ k, g = k + 1 := ⟨g - 1, by omega⟩
      show pwalk new l (g + 1) (s.noW, h) (some rec) = _
      unfold pwalk
      rw [if_neg (by show ¬ s.noW.conflict = true; rw [show s.noW.conflict = s.conflict from rfl, hc]; simp)]
      rw [read_ok hp, Res.ok_bind]
      dsimp only
      rw [e1, Res.ok_bind]
      exact e2 g (by omega)

theorem pwassign1_sim {new : WMem → Nat} (hn : Alloc new) {ex : Nat → Prop} {s : St S} (hw : WCore ex s) {v d : Nat} {a : Asg}
    (ha : a ≠ .un) (hu : s.asg v d = .un) (hub : s.ub = false) {h : WMem} (hr : RepOf h s.wlist) :
    Runs (fun g => pwassign1 new g (s.noW, h) v d a) (wassign1 s v d a) := by
  obtain ⟨L, hr⟩ := hr
  have hm := hw.mid ha hu
  have e : s.wlist ⟨v, d, decide (a ≠ .eq)⟩ = (L ⟨v, d, decide (a ≠ .eq)⟩).map Prod.snd := (hr.nums _).symm
  have := pwalk_sim hn (L ⟨v, d, decide (a ≠ .eq)⟩) [] (wsetAtom s v d a) h L (by rw [← e]; exact hm) hub hr rfl
  rw [← e, ← hr.rep.head] at this
  exact this

/-! ## Assignments -/

theorem pwexclude_sim {new : WMem → Nat} (hn : Alloc new) {ex : Nat → Prop} (v : Nat) : ∀ (is : List Nat) {s : St S} {h : WMem},
    WCore ex s → s.ub = false → RepOf h s.wlist →
    Runs (fun g => pwexclude new g v is (s.noW, h)) (is.foldl (wexcludeOne v) s)
  | [], _, _, _, _, hr => Runs.ok hr
  | i :: is, s, h, hw, hub, hr => by
    rw [List.foldl_cons]
    unfold wexcludeOne pwexclude
    have e1 : s.noW.conflict = s.conflict := rfl
    have e2 : s.noW.asg v i = s.asg v i := rfl
    dsimp only
    rw [e1, e2]
    by_cases hc : s.conflict = true
    · rw [if_pos hc]
      simp only [if_pos hc]
      exact pwexclude_sim hn v is hw hub hr
    · rw [if_neg hc]
      simp only [if_neg hc]
      by_cases hu : s.asg v i = .un
      · rw [if_pos hu]
        simp only [if_pos hu]
        obtain ⟨a1, a2, _⟩ := hw.assign (a := .ne) (by simp) hu
        exact (pwassign1_sim hn hw (a := .ne) (by simp) hu hub hr).bind fun h1 hr1 =>
          pwexclude_sim hn v is a1 (a2.trans hub) hr1
      · rw [if_neg hu]
        simp only [if_neg hu]
        exact pwexclude_sim hn v is hw hub hr

theorem wexclude_core {ex : Nat → Prop} (v : Nat) : ∀ (is : List Nat) {s : St S}, WCore ex s →
    WCore ex (is.foldl (wexcludeOne v) s) ∧ (is.foldl (wexcludeOne v) s).ub = s.ub
  | [], _, h => ⟨h, rfl⟩
  | i :: is, s, h => by
    rw [List.foldl_cons]
    have h1 : WCore ex (wexcludeOne v s i) ∧ (wexcludeOne v s i).ub = s.ub := by
      unfold wexcludeOne
      split
      · exact ⟨h, rfl⟩
      · split
        · rename_i hu
          obtain ⟨a1, a2, _⟩ := h.assign (a := .ne) (by simp) hu
          exact ⟨a1, a2⟩
        · exact ⟨h, rfl⟩
    obtain ⟨h2, h3⟩ := wexclude_core v is h1.1
    exact ⟨h2, h3.trans h1.2⟩

theorem pwreduceEq_sim {new : WMem → Nat} (hn : Alloc new) {ex : Nat → Prop} {s : St S} (hw : WCore ex s) {v d : Nat}
    (hu : s.asg v d = .un) (hub : s.ub = false) {h : WMem} (hr : RepOf h s.wlist) :
    Runs (fun g => pwreduceEq new g (s.noW, h) v d) (wreduceEq s v d) := by
  unfold pwreduceEq wreduceEq
  dsimp only
  have hw1 : WCore ex { s with decs := s.decs ++ [⟨v, d, true⟩], vval := upd s.vval v (some d) } :=
    hw.frame (by simp) _ s.unitClause s.nEntails
  obtain ⟨hw2, hub2, _⟩ := hw1.assign (a := .eq) (by simp) hu
  obtain ⟨hw3, hub3⟩ := wexclude_core v (List.range d) hw2
  exact (pwassign1_sim hn hw1 (a := .eq) (by simp) hu hub hr).bind fun h1 hr1 =>
    (pwexclude_sim hn v (List.range d) hw2 (hub2.trans hub) hr1).bind fun h2 hr2 =>
      pwexclude_sim hn v _ hw3 (hub3.trans (hub2.trans hub)) hr2

theorem checkEntailLoop_noW (s : St S) (v : Nat) : ∀ (js : List Nat) (x : Option Nat),
    checkEntailLoop s.noW v js x = checkEntailLoop s v js x
  | [], _ => rfl
  | j :: js, x => by
    unfold checkEntailLoop
    rw [show s.noW.asg = s.asg from rfl]
    cases x with
    | none => simp only [checkEntailLoop_noW s v js]
    | some y => simp only [checkEntailLoop_noW s v js]

theorem checkEntail_noW (s : St S) (v : Nat) : checkEntail s.noW v = checkEntail s v := checkEntailLoop_noW s v _ _

theorem checkEntailLoop_un {s : St S} {v e : Nat} : ∀ {js : List Nat} {x : Option Nat}, checkEntailLoop s v js x = some e →
    s.asg v e = .un ∨ x = some e
  | [], x, h => .inr h
  | j :: js, x, h => by
    unfold checkEntailLoop at h
    by_cases hj : s.asg v j = .un
    · rw [if_pos hj] at h
      cases x with
      | none =>
        rcases checkEntailLoop_un (js := js) h with h1 | h1
        · exact .inl h1
        · cases h1; exact .inl hj
      | some y => cases h
    · rw [if_neg hj] at h
      exact checkEntailLoop_un (js := js) h

theorem checkEntail_un {s : St S} {v e : Nat} (h : checkEntail s v = some e) : s.asg v e = .un := by
  rcases checkEntailLoop_un h with h1 | h1
  · exact h1
  · cases h1

theorem pwreduceTheory_sim {new : WMem → Nat} (hn : Alloc new) {ex : Nat → Prop} {s : St S} (hw : WCore ex s) {l : Lit}
    (hu : s.asg l.var l.val = .un) (hub : s.ub = false) {h : WMem} (hr : RepOf h s.wlist) :
    Runs (fun g => pwreduceTheory new g (s.noW, h) l) (wreduceTheory s l) := by
  unfold pwreduceTheory wreduceTheory
  by_cases he : l.eq = true
  · simp only [if_pos he]
    exact pwreduceEq_sim hn hw hu hub hr
  · simp only [if_neg he]
    have hw1 : WCore ex { s with decs := s.decs ++ [⟨l.var, l.val, false⟩] } :=
      hw.frame (by simp) s.vval s.unitClause s.nEntails
    obtain ⟨hw2, hub2, _⟩ := hw1.assign (a := .ne) (by simp) hu
    refine (pwassign1_sim hn hw1 (a := .ne) (by simp) hu hub hr).bind fun h1 hr1 => ?_
    dsimp only
    rw [checkEntail_noW]
    generalize wassign1 { s with decs := s.decs ++ [⟨l.var, l.val, false⟩] } l.var l.val .ne = t at hw2 hub2 hr1 ⊢
    cases hce : checkEntail t l.var with
    | none => exact Runs.ok hr1
    | some e =>
      have hun : t.asg l.var e = .un := checkEntail_un hce
      exact pwreduceEq_sim hn (s := { t with nEntails := t.nEntails + 1, unitClause := -2 })
        (hw2.frame (Nat.le_refl _) t.vval (-2) _) hun (hub2.trans hub) hr1

end Mvl
