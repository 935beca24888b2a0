import Verif.Model.WatchList

/-!
# Doubly linked lists

The memory holds, for each literal, a doubly linked list; `addRecord` and `removeRecord` keep this.
-/

namespace Mvl

open WMem

/-- The records `ps` (address and clause number) are linked in both directions: the first is `cur` and its `prev` is
`before`; the last one (or `before`) is `last`, and the `next` behind it is `after`. -/
def Linked (mem : Nat → Option VarRecord) : Option Nat → Option Nat → List (Nat × Nat) → Option Nat → Option Nat → Prop
  | before, cur, [], last, after => last = before ∧ cur = after
  | before, cur, p :: ps, last, after =>
    cur = some p.1 ∧ ∃ nx, mem p.1 = some ⟨p.2, nx, before⟩ ∧ Linked mem (some p.1) nx ps last after

theorem Linked.append {mem : Nat → Option VarRecord} {qs : List (Nat × Nat)} {last after : Option Nat} :
    ∀ {ps : List (Nat × Nat)} {before cur : Option Nat},
    Linked mem before cur (ps ++ qs) last after ↔
      ∃ m c, Linked mem before cur ps m c ∧ Linked mem m c qs last after
  | [], before, cur => by
    constructor
    · intro h
      exact ⟨before, cur, ⟨rfl, rfl⟩, h⟩
    · rintro ⟨m, c, ⟨rfl, rfl⟩, h⟩
      exact h
  | p :: ps, before, cur => by
    constructor
    · rintro ⟨h1, nx, h2, h3⟩
      obtain ⟨m, c, h4, h5⟩ := Linked.append.1 h3
      exact ⟨m, c, ⟨h1, nx, h2, h4⟩, h5⟩
    · rintro ⟨m, c, ⟨h1, nx, h2, h4⟩, h5⟩
      exact ⟨h1, nx, h2, Linked.append.2 ⟨m, c, h4, h5⟩⟩

/-- Records elsewhere do not matter. -/
theorem Linked.frame {mem mem' : Nat → Option VarRecord} {last after : Option Nat} :
    ∀ {ps : List (Nat × Nat)} {before cur : Option Nat}, (∀ p ∈ ps.map Prod.fst, mem' p = mem p) →
    Linked mem before cur ps last after → Linked mem' before cur ps last after
  | [], _, _, _, h => h
  | p :: ps, before, cur, hm, h => by
    obtain ⟨h1, nx, h2, h3⟩ := h
    refine ⟨h1, nx, (hm p.1 (by simp)).trans h2, Linked.frame (fun q hq => hm q ?_) h3⟩
    simp only [List.map_cons, List.mem_cons]
    exact .inr hq

/-- The state of memory: the list of each literal, `L`; no record in two places, no record outside the lists. -/
structure Rep (h : WMem) (L : Lit → List (Nat × Nat)) : Prop where
  linked : ∀ l, ∃ last, Linked h.mem none (h.head l) (L l) last none
  nodup  : ∀ l, ((L l).map Prod.fst).Nodup
  owner  : ∀ l l' p, p ∈ (L l).map Prod.fst → p ∈ (L l').map Prod.fst → l = l'
  noleak : ∀ p, h.mem p ≠ none → ∃ l, p ∈ (L l).map Prod.fst

theorem Rep.empty : Rep WMem.empty fun _ => [] where
  linked := fun _ => ⟨none, rfl, rfl⟩
  nodup := fun _ => List.nodup_nil
  owner := fun l l' p h => by simp at h
  noleak := fun p h => (h rfl).elim

theorem Linked.alloc {mem : Nat → Option VarRecord} {last after : Option Nat} :
    ∀ {ps : List (Nat × Nat)} {before cur : Option Nat}, Linked mem before cur ps last after →
    ∀ p ∈ ps.map Prod.fst, mem p ≠ none
  | [], _, _, _ => by simp
  | q :: ps, before, cur, h => by
    obtain ⟨_, nx, h2, h3⟩ := h
    intro p hp
    simp only [List.map_cons, List.mem_cons] at hp
    rcases hp with rfl | hp
    · rw [h2]; simp
    · exact Linked.alloc h3 p hp

theorem modify_ok {h : WMem} {p : Nat} {r : VarRecord} (hr : h.mem p = some r) (f : VarRecord → VarRecord) :
    h.modify p f = .ok { h with mem := upd h.mem p (some (f r)) } := by
  unfold WMem.modify
  rw [hr]

/-- Setting `prev` of the first record. -/
theorem Linked.setPrev {mem : Nat → Option VarRecord} {q : Nat × Nat} {qs : List (Nat × Nat)}
    {before cur last after : Option Nat} (b : Option Nat) (hn : ((q :: qs).map Prod.fst).Nodup)
    (h : Linked mem before cur (q :: qs) last after) :
    ∃ r, mem q.1 = some r ∧ Linked (upd mem q.1 (some { r with prev := b })) b cur (q :: qs) last after := by
  obtain ⟨h1, nx, h2, h3⟩ := h
  refine ⟨_, h2, h1, nx, by rw [upd_same], ?_⟩
  refine h3.frame fun p hp => upd_of_ne _ _ ?_
  rintro rfl
  rw [List.map_cons, List.nodup_cons] at hn
  exact hn.1 hp

/-- Setting `next` of the last record. -/
theorem Linked.setNext {mem : Nat → Option VarRecord} {q : Nat × Nat} {qs : List (Nat × Nat)}
    {before cur last after : Option Nat} (a : Option Nat) (hn : ((qs ++ [q]).map Prod.fst).Nodup)
    (h : Linked mem before cur (qs ++ [q]) last after) :
    last = some q.1 ∧ ∃ r, mem q.1 = some r ∧ r.next = after ∧
      Linked (upd mem q.1 (some { r with next := a })) before cur (qs ++ [q]) last a := by
  obtain ⟨m, c, h1, h2, nx, h3, h4, h5⟩ := Linked.append.1 h
  refine ⟨h4, _, h3, h5, Linked.append.2 ⟨m, c, ?_, h2, a, by rw [upd_same], h4, rfl⟩⟩
  refine h1.frame fun p hp => upd_of_ne _ _ ?_
  rintro rfl
  rw [List.map_append, List.nodup_append] at hn
  exact hn.2.2 _ hp _ (by simp) rfl

theorem Rep.add {h : WMem} {L : Lit → List (Nat × Nat)} (hr : Rep h L) (c : Nat) (l : Lit) {p : Nat}
    (hp : h.mem p = none) : ∃ h', h.addRecord c l p = .ok h' ∧ Rep h' (upd L l ((p, c) :: L l)) := by
  have hout : ∀ l', p ∉ (L l').map Prod.fst := fun l' hm => by
    obtain ⟨last, hl⟩ := hr.linked l'
    exact hl.alloc p hm hp
  have hnd : ∀ l', (((upd L l ((p, c) :: L l)) l').map Prod.fst).Nodup := by
    intro l'
    by_cases e : l' = l
    · subst e
      rw [upd_same, List.map_cons, List.nodup_cons]
      exact ⟨hout l', hr.nodup l'⟩
    · rw [upd_of_ne _ _ e]
      exact hr.nodup l'
  have hmem : ∀ l' x, x ∈ ((upd L l ((p, c) :: L l)) l').map Prod.fst → (l' = l ∧ x = p) ∨ x ∈ (L l').map Prod.fst := by
    intro l' x hx
    by_cases e : l' = l
    · subst e
      rw [upd_same, List.map_cons, List.mem_cons] at hx
      rcases hx with hx | hx
      · exact .inl ⟨rfl, hx⟩
      · exact .inr hx
    · rw [upd_of_ne _ _ e] at hx
      exact .inr hx
  have hmem' : ∀ l' x, x ∈ (L l').map Prod.fst → x ∈ ((upd L l ((p, c) :: L l)) l').map Prod.fst := by
    intro l' x hx
    by_cases e : l' = l
    · subst e
      rw [upd_same, List.map_cons, List.mem_cons]
      exact .inr hx
    · rw [upd_of_ne _ _ e]
      exact hx
  have hown : ∀ l1 l2 x, x ∈ ((upd L l ((p, c) :: L l)) l1).map Prod.fst →
      x ∈ ((upd L l ((p, c) :: L l)) l2).map Prod.fst → l1 = l2 := by
    intro l1 l2 x h1 h2
    rcases hmem l1 x h1 with ⟨e1, rfl⟩ | h1
    · rcases hmem l2 x h2 with ⟨e2, -⟩ | h2
      · rw [e1, e2]
      · exact (hout _ h2).elim
    · rcases hmem l2 x h2 with ⟨-, e2⟩ | h2
      · rw [e2] at h1
        exact (hout _ h1).elim
      · exact hr.owner l1 l2 x h1 h2
  have hleak : ∀ x, x = p ∨ h.mem x ≠ none → ∃ l', x ∈ ((upd L l ((p, c) :: L l)) l').map Prod.fst := by
    rintro x (rfl | hx)
    · exact ⟨l, by rw [upd_same]; simp⟩
    · obtain ⟨l', hl'⟩ := hr.noleak x hx
      exact ⟨l', hmem' l' x hl'⟩
  obtain ⟨last, hl⟩ := hr.linked l
  unfold addRecord
  dsimp only
  cases hL : L l with
  | nil =>
    rw [hL] at hl
    rw [hl.2]
    refine ⟨_, rfl, ?_, hL ▸ hnd, hL ▸ hown, ?_⟩
    · intro l'
      by_cases e : l' = l
      · subst e
        refine ⟨some p, ?_⟩
        simp only [upd_same]
        exact ⟨rfl, none, by rw [upd_same], rfl, rfl⟩
      · obtain ⟨last', hl'⟩ := hr.linked l'
        refine ⟨last', ?_⟩
        simp only [upd_of_ne _ _ e]
        refine hl'.frame fun x hx => upd_of_ne _ _ ?_
        rintro rfl
        exact hout l' hx
    · intro x hx
      rw [← hL]
      refine hleak x ?_
      by_cases e : x = p
      · exact .inl e
      · simp only [upd_of_ne _ _ e] at hx
        exact .inr hx
  | cons q qs =>
    have hne : q.1 ≠ p := by
      rintro rfl
      exact hout l (by rw [hL]; simp)
    have hln := hr.nodup l
    rw [hL] at hl hln
    have h1 := hl.1
    rw [h1]
    dsimp only
    -- the memory with the new record
    have hl2 : Linked (upd h.mem p (some ⟨c, some q.1, none⟩)) none (some q.1) (q :: qs) last none := by
      rw [h1] at hl
      refine hl.frame fun x hx => upd_of_ne _ _ ?_
      rintro rfl
      exact hout l (by rw [hL]; exact hx)
    obtain ⟨r, hrq, hl3⟩ := hl2.setPrev (some p) hln
    rw [modify_ok (h := ⟨_, _⟩) hrq]
    refine ⟨_, rfl, ?_, hL ▸ hnd, hL ▸ hown, ?_⟩
    · intro l'
      by_cases e : l' = l
      · subst e
        refine ⟨last, ?_⟩
        simp only [upd_same]
        refine ⟨rfl, some q.1, ?_, hl3⟩
        rw [upd_of_ne _ _ (fun e => hne e.symm), upd_same]
      · obtain ⟨last', hl'⟩ := hr.linked l'
        refine ⟨last', ?_⟩
        simp only [upd_of_ne _ _ e]
        refine hl'.frame fun x hx => ?_
        rw [upd_of_ne, upd_of_ne]
        · rintro rfl
          exact hout l' hx
        · rintro rfl
          exact e (hr.owner l' l _ hx (by rw [hL]; simp))
    · intro x hx
      rw [← hL]
      refine hleak x ?_
      by_cases e : x = p
      · exact .inl e
      · by_cases e' : x = q.1
        · subst e'
          exact .inr (Linked.alloc hl _ (by simp))
        · simp only [upd_of_ne _ _ e, upd_of_ne _ _ e'] at hx
          exact .inr hx

theorem read_ok {h : WMem} {p : Nat} {r : VarRecord} (hr : h.mem p = some r) : h.read p = .ok r := by
  unfold WMem.read
  rw [hr]

theorem free_ok {h : WMem} {p : Nat} {r : VarRecord} (hr : h.mem p = some r) :
    h.free p = .ok { h with mem := upd h.mem p none } := by
  unfold WMem.free
  rw [hr]

/-- Unlinking a record of the list: the memory afterwards, record still allocated. -/
theorem unlink {h : WMem} {l : Lit} {as bs : List (Nat × Nat)} {p : Nat × Nat} {last : Option Nat}
    (hl : Linked h.mem none (h.head l) (as ++ p :: bs) last none) (hn : ((as ++ p :: bs).map Prod.fst).Nodup) :
    ∃ h1 h2, h.unlinkPrev p.1 l = .ok h1 ∧ h1.unlinkNext p.1 = .ok h2 ∧
      (∃ last', Linked h2.mem none (h2.head l) (as ++ bs) last' none) ∧
      (∃ r, h2.mem p.1 = some r) ∧ (∀ x, x ∉ (as ++ bs).map Prod.fst → h2.mem x = h.mem x) ∧
      (∀ x, h2.mem x = none ↔ h.mem x = none) ∧ (∀ l', l' ≠ l → h2.head l' = h.head l') := by
  have hpa : p.1 ∉ as.map Prod.fst := by
    intro hm
    rw [List.map_append, List.nodup_append] at hn
    exact hn.2.2 _ hm _ (by simp) rfl
  have hpb : p.1 ∉ bs.map Prod.fst := by
    intro hm
    rw [List.map_append, List.nodup_append, List.map_cons, List.nodup_cons] at hn
    exact hn.2.1.1 hm
  have hab : ∀ x ∈ as.map Prod.fst, x ∉ bs.map Prod.fst := by
    intro x hx hm
    rw [List.map_append, List.nodup_append] at hn
    exact hn.2.2 _ hx _ (by rw [List.map_cons]; exact List.mem_cons_of_mem _ hm) rfl
  have hna : (as.map Prod.fst).Nodup := by
    rw [List.map_append, List.nodup_append] at hn
    exact hn.1
  have hnb : (bs.map Prod.fst).Nodup := by
    rw [List.map_append, List.nodup_append, List.map_cons, List.nodup_cons] at hn
    exact hn.2.1.2
  obtain ⟨m, cur, hA, rfl, nx, hP, hB⟩ := Linked.append.1 hl
  -- the first step
  have step1 : ∃ h1, h.unlinkPrev p.1 l = .ok h1 ∧ Linked h1.mem none (h1.head l) as m nx ∧
      h1.mem p.1 = some ⟨p.2, nx, m⟩ ∧ (∀ x, x ∉ as.map Prod.fst → h1.mem x = h.mem x) ∧
      (∀ x, h1.mem x = none ↔ h.mem x = none) ∧ (∀ l', l' ≠ l → h1.head l' = h.head l') := by
    unfold unlinkPrev
    rw [read_ok hP]
    rcases List.eq_nil_or_concat as with rfl | ⟨qs, q, rfl⟩
    · obtain ⟨rfl, e⟩ := hA
      refine ⟨_, rfl, ?_, hP, fun _ _ => rfl, fun _ => Iff.rfl, fun l' e => upd_of_ne _ _ e⟩
      simp only [upd_same]
      exact ⟨rfl, rfl⟩
    · rw [List.concat_eq_append] at hA hpa hna ⊢
      obtain ⟨rfl, r, hr, -, hA'⟩ := hA.setNext nx hna
      refine ⟨_, modify_ok hr _, hA', ?_, ?_, ?_, fun _ _ => rfl⟩
      · show upd _ _ _ _ = _
        rw [upd_of_ne _ _ (fun e => hpa (by rw [e]; simp))]
        exact hP
      · intro x hx
        refine upd_of_ne _ _ ?_
        rintro rfl
        exact hx (by simp)
      · intro x
        show upd _ _ _ _ = _ ↔ _
        by_cases e : x = q.1
        · subst e
          rw [upd_same, hr]
          simp
        · rw [upd_of_ne _ _ e]
  obtain ⟨h1, e1, hA1, hP1, hm1, hz1, hh1⟩ := step1
  have hB1 : Linked h1.mem (some p.1) nx bs last none := hB.frame fun x hx => hm1 x fun hx' => hab x hx' hx
  refine ⟨h1, ?_⟩
  unfold unlinkNext
  rw [read_ok hP1]
  cases bs with
  | nil =>
    obtain ⟨-, rfl⟩ := hB1
    refine ⟨h1, e1, rfl, ⟨m, by simpa using hA1⟩, ⟨_, hP1⟩, ?_, hz1, hh1⟩
    intro x hx
    exact hm1 x (by simpa using hx)
  | cons b bs =>
    obtain ⟨r, hr, hB2⟩ := hB1.setPrev m hnb
    have : nx = some b.1 := hB1.1
    subst this
    refine ⟨_, e1, modify_ok hr _, ⟨last, Linked.append.2 ⟨m, _, ?_, hB2⟩⟩, ?_, ?_, ?_, hh1⟩
    · refine hA1.frame fun x hx => upd_of_ne _ _ ?_
      rintro rfl
      exact hab _ hx (by simp)
    · refine ⟨⟨p.2, some b.1, m⟩, ?_⟩
      show upd _ _ _ _ = _
      rw [upd_of_ne _ _ (fun e => hpb (by rw [e]; simp))]
      exact hP1
    · intro x hx
      show upd _ _ _ _ = _
      rw [upd_of_ne]
      · exact hm1 x fun hx' => hx (by rw [List.map_append]; exact List.mem_append_left _ hx')
      · rintro rfl
        exact hx (by simp)
    · intro x
      show upd _ _ _ _ = _ ↔ _
      by_cases e : x = b.1
      · subst e
        rw [upd_same, ← hz1, hr]
        simp
      · rw [upd_of_ne _ _ e, hz1]

theorem Rep.remove {h : WMem} {L : Lit → List (Nat × Nat)} (hr : Rep h L) {l : Lit} {as bs : List (Nat × Nat)}
    {p : Nat × Nat} (hL : L l = as ++ p :: bs) :
    ∃ h', h.removeRecord p.1 l = .ok h' ∧ h'.mem p.1 = none ∧ Rep h' (upd L l (as ++ bs)) := by
  obtain ⟨last, hl⟩ := hr.linked l
  have hn := hr.nodup l
  rw [hL] at hl hn
  obtain ⟨h1, h2, e1, e2, ⟨last', hl2⟩, ⟨r, hp⟩, hm, hz, hh⟩ := unlink hl hn
  have hpn : p.1 ∉ (as ++ bs).map Prod.fst := by
    rw [List.map_append, List.map_cons, List.nodup_append, List.nodup_cons] at hn
    rw [List.map_append, List.mem_append]
    rintro (h | h)
    · exact hn.2.2 _ h _ (by simp) rfl
    · exact hn.2.1.1 h
  have hsub : ∀ x, x ∈ (as ++ bs).map Prod.fst → x ∈ (L l).map Prod.fst := by
    intro x hx
    rw [hL]
    simp only [List.map_append, List.mem_append, List.map_cons, List.mem_cons] at hx ⊢
    rcases hx with hx | hx
    · exact .inl hx
    · exact .inr (.inr hx)
  unfold removeRecord
  rw [e1, Res.ok_bind, e2, Res.ok_bind, free_ok hp]
  refine ⟨_, rfl, upd_same _ _ _, ?_, ?_, ?_, ?_⟩
  · intro l'
    by_cases e : l' = l
    · subst e
      refine ⟨last', ?_⟩
      rw [upd_same]
      refine hl2.frame fun x hx => upd_of_ne _ _ ?_
      rintro rfl
      exact hpn hx
    · obtain ⟨last'', hl'⟩ := hr.linked l'
      refine ⟨last'', ?_⟩
      rw [upd_of_ne _ _ e]
      show Linked _ _ (h2.head l') _ _ _
      rw [hh l' e]
      refine hl'.frame fun x hx => ?_
      show upd _ _ _ _ = _
      have hxl : x ∉ (L l).map Prod.fst := fun hx' => e (hr.owner l' l x hx hx')
      rw [upd_of_ne]
      · exact hm x fun hx' => hxl (hsub x hx')
      · rintro rfl
        exact hxl (by rw [hL]; simp)
  · intro l'
    by_cases e : l' = l
    · subst e
      rw [upd_same]
      rw [List.map_append, List.map_cons] at hn
      rw [List.map_append]
      exact hn.sublist (List.Sublist.append (List.Sublist.refl _) (List.sublist_cons_self _ _))
    · rw [upd_of_ne _ _ e]
      exact hr.nodup l'
  · intro l1 l2 x hx1 hx2
    refine hr.owner l1 l2 x ?_ ?_
    · by_cases e : l1 = l
      · subst e
        rw [upd_same] at hx1
        exact hsub x hx1
      · rw [upd_of_ne _ _ e] at hx1
        exact hx1
    · by_cases e : l2 = l
      · subst e
        rw [upd_same] at hx2
        exact hsub x hx2
      · rw [upd_of_ne _ _ e] at hx2
        exact hx2
  · intro x hx
    have hx' : x ≠ p.1 ∧ h.mem x ≠ none := by
      by_cases e : x = p.1
      · subst e
        exact (hx (upd_same _ _ _)).elim
      · refine ⟨e, fun h0 => hx ?_⟩
        show upd _ _ _ _ = _
        rw [upd_of_ne _ _ e]
        exact (hz x).2 h0
    obtain ⟨l', hl'⟩ := hr.noleak x hx'.2
    refine ⟨l', ?_⟩
    by_cases e : l' = l
    · subst e
      rw [upd_same]
      rw [hL] at hl'
      simp only [List.map_append, List.mem_append, List.map_cons, List.mem_cons] at hl' ⊢
      rcases hl' with h | h | h
      · exact .inl h
      · exact (hx'.1 h).elim
      · exact .inr h
    · rw [upd_of_ne _ _ e]
      exact hl'

end Mvl
