import Verif.Proof.WatchList
import Verif.Model.Core

/-!
# Properties of the watch lists

C34 (watch lists behave as lists) and C47 (the destructor).
-/

namespace Mvl

/-! ## What it means to be a list -/

/-- Following `next` from `cur` to the end reads the clause numbers `cs`. -/
inductive Reads (h : WMem) : Option Nat → List Nat → Prop where
  | nil : Reads h none []
  | cons {p : Nat} {r : VarRecord} {cs : List Nat} (hp : h.mem p = some r) (hn : Reads h r.next cs) :
      Reads h (some p) (r.c_num :: cs)

/-- The pointer reached from `cur` by following `next` `i` times. -/
def follow (h : WMem) : Nat → Option Nat → Option Nat
  | 0, cur => cur
  | i + 1, cur => cur.bind fun p => (h.mem p).bind fun r => follow h i r.next

/-- Every pointer leads to a record, and the two directions agree. -/
structure NoDangling (h : WMem) : Prop where
  head : ∀ l p, h.head l = some p → ∃ r, h.mem p = some r ∧ r.prev = none
  next : ∀ p r q, h.mem p = some r → r.next = some q → ∃ r', h.mem q = some r' ∧ r'.prev = some p
  prev : ∀ p r q, h.mem p = some r → r.prev = some q → ∃ r', h.mem q = some r' ∧ r'.next = some p

/-- The memories reached by additions (at any address not in use) and removals of records, together with the clause
numbers each list should hold: additions in front, removal of the entry of the record. -/
inductive Exec : WMem → (Lit → List Nat) → Prop where
  | start : Exec WMem.empty fun _ => []
  | add {h h' : WMem} {f : Lit → List Nat} {c : Nat} {l : Lit} {p : Nat} (he : Exec h f) (hp : h.mem p = none)
      (ho : h.addRecord c l p = .ok h') : Exec h' (upd f l (c :: f l))
  | remove {h h' : WMem} {f : Lit → List Nat} {l : Lit} {i p : Nat} (he : Exec h f) (hi : i < (f l).length)
      (hp : follow h i (h.head l) = some p) (ho : h.removeRecord p l = .ok h') :
      Exec h' (upd f l ((f l).eraseIdx i))

/-! ## Proofs -/

theorem Linked.reads {h : WMem} {last : Option Nat} : ∀ {ps : List (Nat × Nat)} {before cur : Option Nat},
    Linked h.mem before cur ps last none → Reads h cur (ps.map Prod.snd)
  | [], _, _, hl => by
    rw [hl.2]
    exact .nil
  | p :: ps, _, _, ⟨h1, nx, h2, h3⟩ => by
    rw [h1]
    exact .cons (r := ⟨p.2, nx, _⟩) h2 (Linked.reads h3)

theorem Linked.follow {h : WMem} {last after : Option Nat} : ∀ {ps : List (Nat × Nat)} {before cur : Option Nat} {i : Nat},
    Linked h.mem before cur ps last after → i < ps.length → Mvl.follow h i cur = (ps[i]?).map Prod.fst
  | [], _, _, i, _, hi => by simp at hi
  | p :: ps, _, _, 0, ⟨h1, nx, h2, h3⟩, _ => by
    rw [h1]
    rfl
  | p :: ps, _, _, i + 1, ⟨h1, nx, h2, h3⟩, hi => by
    rw [h1]
    show ((h.mem p.1).bind fun r => Mvl.follow h i r.next) = _
    rw [h2]
    show Mvl.follow h i nx = _
    rw [Linked.follow h3 (by simpa using hi)]
    simp

theorem split_at {α : Type} : ∀ {ps : List α} {i : Nat}, i < ps.length →
    ∃ as p bs, ps = as ++ p :: bs ∧ as.length = i
  | [], i, h => by simp at h
  | p :: ps, 0, _ => ⟨[], p, ps, rfl, rfl⟩
  | p :: ps, i + 1, h => by
    obtain ⟨as, q, bs, e1, e2⟩ := split_at (ps := ps) (i := i) (by simpa using h)
    exact ⟨p :: as, q, bs, by rw [e1]; rfl, by rw [List.length_cons, e2]⟩

theorem eraseIdx_split {α : Type} (as : List α) (p : α) (bs : List α) : (as ++ p :: bs).eraseIdx as.length = as ++ bs := by
  induction as with
  | nil => rfl
  | cons a as ih => rw [List.cons_append, List.length_cons, List.eraseIdx_cons_succ, ih]; rfl

theorem map_upd {α β : Type} {L : Lit → List α} {f : Lit → List β} {g : α → β} (h : ∀ l, (L l).map g = f l) (l : Lit)
    (x : List α) (l' : Lit) : ((upd L l x) l').map g = upd f l (x.map g) l' := by
  unfold upd
  split
  · rfl
  · exact h l'

/-- The records behind a reachable memory. -/
theorem Exec.rep {h : WMem} {f : Lit → List Nat} (he : Exec h f) : ∃ L, Rep h L ∧ ∀ l, (L l).map Prod.snd = f l := by
  induction he with
  | start => exact ⟨fun _ => [], Rep.empty, fun _ => rfl⟩
  | @add h h' f c l p he hp ho ih =>
    obtain ⟨L, hr, hf⟩ := ih
    obtain ⟨h1, e1, hr1⟩ := hr.add c l hp
    cases ho.symm.trans e1
    refine ⟨_, hr1, fun l' => ?_⟩
    rw [map_upd hf, List.map_cons, hf]
  | @remove h h' f l i p he hi hp ho ih =>
    obtain ⟨L, hr, hf⟩ := ih
    have hlen : i < (L l).length := by
      rw [← List.length_map (f := Prod.snd), hf]
      exact hi
    obtain ⟨as, q, bs, e1, e2⟩ := split_at hlen
    obtain ⟨last, hl⟩ := hr.linked l
    rw [hl.follow hlen, e1, ← e2] at hp
    simp only [List.getElem?_append_right (Nat.le_refl _), Nat.sub_self, List.getElem?_cons_zero, Option.map_some,
      Option.some.injEq] at hp
    subst hp
    obtain ⟨h1, e3, -, hr1⟩ := hr.remove e1
    cases ho.symm.trans e3
    refine ⟨_, hr1, fun l' => ?_⟩
    rw [map_upd hf, ← hf l, e1, List.map_append, List.map_append, List.map_cons, ← e2,
      show as.length = (as.map Prod.snd).length by rw [List.length_map], eraseIdx_split]

/-- Neighbours in a linked list. -/
theorem Linked.neighbours {mem : Nat → Option VarRecord} {ps : List (Nat × Nat)} {before cur last after : Option Nat}
    (hl : Linked mem before cur ps last after) {p : Nat} (hp : p ∈ ps.map Prod.fst) {r : VarRecord} (hr : mem p = some r) :
      (r.next = after ∨ ∃ q r', r.next = some q ∧ mem q = some r' ∧ r'.prev = some p) ∧
      (r.prev = before ∨ ∃ q r', r.prev = some q ∧ mem q = some r' ∧ r'.next = some p) := by
  obtain ⟨x, hx, rfl⟩ := List.mem_map.1 hp
  obtain ⟨as, bs, rfl⟩ := List.append_of_mem hx
  obtain ⟨m, c, hA, rfl, nx, h2, hB⟩ := Linked.append.1 hl
  rw [h2] at hr
  cases hr
  refine ⟨?_, ?_⟩
  · cases bs with
    | nil => exact .inl hB.2
    | cons y ys =>
      obtain ⟨e1, nx', e2, -⟩ := hB
      exact .inr ⟨y.1, _, e1, e2, rfl⟩
  · rcases List.eq_nil_or_concat as with rfl | ⟨qs, q, rfl⟩
    · exact .inl hA.1
    · rw [List.concat_eq_append] at hA
      obtain ⟨m', c', -, -, nx', h3, h4, h5⟩ := Linked.append.1 hA
      exact .inr ⟨q.1, _, h4, h3, h5⟩

theorem Rep.noDangling {h : WMem} {L : Lit → List (Nat × Nat)} (hr : Rep h L) : NoDangling h := by
  have key : ∀ p r, h.mem p = some r →
      (r.next = none ∨ ∃ q r', r.next = some q ∧ h.mem q = some r' ∧ r'.prev = some p) ∧
      (r.prev = none ∨ ∃ q r', r.prev = some q ∧ h.mem q = some r' ∧ r'.next = some p) := by
    intro p r hp
    obtain ⟨l, hm⟩ := hr.noleak p (by rw [hp]; simp)
    obtain ⟨last, hl⟩ := hr.linked l
    exact hl.neighbours hm hp
  refine ⟨?_, ?_, ?_⟩
  · intro l p hp
    obtain ⟨last, hl⟩ := hr.linked l
    cases hL : L l with
    | nil =>
      rw [hL] at hl
      cases hp.symm.trans hl.2
    | cons q qs =>
      rw [hL] at hl
      obtain ⟨h1, nx, h2, -⟩ := hl
      cases hp.symm.trans h1
      exact ⟨_, h2, rfl⟩
  · intro p r q hp hq
    rcases (key p r hp).1 with e | ⟨q', r', e1, e2, e3⟩
    · cases hq.symm.trans e
    · cases hq.symm.trans e1
      exact ⟨r', e2, e3⟩
  · intro p r q hp hq
    rcases (key p r hp).2 with e | ⟨q', r', e1, e2, e3⟩
    · cases hq.symm.trans e
    · cases hq.symm.trans e1
      exact ⟨r', e2, e3⟩

/-! ## C34 -/

/-- C34: after any additions and removals each list reads as it should, no pointer dangles, every record is in a list;
and any further addition or removal is possible, the removed record being freed. -/
theorem C34_lists {h : WMem} {f : Lit → List Nat} (he : Exec h f) :
    (∀ l, Reads h (h.head l) (f l)) ∧ NoDangling h ∧
    (∀ p, h.mem p ≠ none → ∃ l i, i < (f l).length ∧ follow h i (h.head l) = some p) ∧
    (∀ c l p, h.mem p = none → ∃ h', h.addRecord c l p = .ok h') ∧
    (∀ l i, i < (f l).length → ∃ p h', follow h i (h.head l) = some p ∧ h.removeRecord p l = .ok h' ∧ h'.mem p = none) := by
  obtain ⟨L, hr, hf⟩ := he.rep
  have hlen : ∀ l, (L l).length = (f l).length := fun l => by rw [← hf l, List.length_map]
  refine ⟨fun l => ?_, hr.noDangling, ?_, ?_, ?_⟩
  · obtain ⟨last, hl⟩ := hr.linked l
    rw [← hf l]
    exact hl.reads
  · intro p hp
    obtain ⟨l, hm⟩ := hr.noleak p hp
    obtain ⟨last, hl⟩ := hr.linked l
    obtain ⟨i, hi⟩ := List.mem_iff_getElem?.1 hm
    have hi' : i < (L l).length := by
      have := (List.getElem?_eq_some_iff.1 hi).1
      rwa [List.length_map] at this
    refine ⟨l, i, by rw [← hlen]; exact hi', ?_⟩
    rw [hl.follow hi', ← List.getElem?_map, hi]
  · intro c l p hp
    obtain ⟨h', e, -⟩ := hr.add c l hp
    exact ⟨h', e⟩
  · intro l i hi
    rw [← hlen] at hi
    obtain ⟨as, q, bs, e1, e2⟩ := split_at hi
    obtain ⟨last, hl⟩ := hr.linked l
    obtain ⟨h', e3, e4, -⟩ := hr.remove e1
    refine ⟨q.1, h', ?_, e3, e4⟩
    rw [hl.follow hi, e1, ← e2]
    simp

/-- C34: removing the first record of a clause removes the first occurrence of its number. -/
theorem C34_first {h h' : WMem} {f : Lit → List Nat} (he : Exec h f) {l : Lit} {c i p : Nat}
    (hi : (f l).idxOf? c = some i) (hp : follow h i (h.head l) = some p) (ho : h.removeRecord p l = .ok h') :
    ∀ l', Reads h' (h'.head l') (if l' = l then (f l).erase c else f l') := by
  have hlt : i < (f l).length := by
    have := List.idxOf?_eq_some_iff.1 hi
    exact this.1
  have := (C34_lists (he.remove hlt hp ho)).1
  intro l'
  have e := this l'
  rw [List.erase_eq_eraseIdx, hi]
  exact e

/-- The loop of `watchedFalsifyLiteral` reads `next` before the record may move to another list
(/repo/src/Formula.cc:932-934, 1245-1246): from there it still reads the rest of the list it started on. -/
theorem C34_loop {h h1 h2 : WMem} {f : Lit → List Nat} (he : Exec h f) {l l' : Lit} (hne : l' ≠ l) {c i p q : Nat}
    {r : VarRecord} (hi : i < (f l).length) (hp : follow h i (h.head l) = some p) (hr : h.mem p = some r)
    (h1e : h.removeRecord p l = .ok h1) (hq : h1.mem q = none) (h2e : h1.addRecord c l' q = .ok h2) :
    Reads h2 r.next ((f l).drop (i + 1)) := by
  obtain ⟨L, hrep, hf⟩ := he.rep
  have hlen : i < (L l).length := by
    rw [← List.length_map (f := Prod.snd), hf]
    exact hi
  obtain ⟨as, x, bs, e1, e2⟩ := split_at hlen
  obtain ⟨last, hl⟩ := hrep.linked l
  have hp' := hp
  rw [hl.follow hlen, e1, ← e2] at hp'
  simp only [List.getElem?_append_right (Nat.le_refl _), Nat.sub_self, List.getElem?_cons_zero, Option.map_some,
    Option.some.injEq] at hp'
  subst hp'
  -- the pointer behind the record
  have hnext : r.next = bs.head?.map Prod.fst := by
    rw [e1] at hl
    obtain ⟨m, cur, -, -, nx, hx, hB⟩ := Linked.append.1 hl
    cases hx.symm.trans hr
    cases bs with
    | nil => exact hB.2
    | cons b bs => exact hB.1
  obtain ⟨h1', a1, -, hrep1⟩ := hrep.remove e1
  cases h1e.symm.trans a1
  obtain ⟨h2', a2, hrep2⟩ := hrep1.add c l' hq
  cases h2e.symm.trans a2
  obtain ⟨last2, hl2⟩ := hrep2.linked l
  rw [upd_of_ne _ _ hne.symm, upd_same] at hl2
  obtain ⟨m, cur, -, hB⟩ := Linked.append.1 hl2
  have hcur : cur = bs.head?.map Prod.fst := by
    cases bs with
    | nil => exact hB.2
    | cons b bs => exact hB.1
  rw [hnext, ← hcur, ← hf l, e1, ← e2, List.map_append, List.map_cons,
    show as.length = (as.map Prod.snd).length by rw [List.length_map], List.drop_append]
  simp only [List.drop_succ_cons, List.drop_zero, Nat.add_sub_cancel_left, List.drop_eq_nil_of_le (Nat.le_succ _),
    List.nil_append]
  exact hB.reads

/-- The lists of `Model/Core.lean` say the same: moving a watch there is moving the first record of the clause here. -/
theorem C34_refines {S : Type} {h h1 h2 : WMem} {s : St S} (he : Exec h s.wlist) {l l' : Lit} {c i p q : Nat}
    (hi : (s.wlist l).idxOf? c = some i) (hp : follow h i (h.head l) = some p)
    (h1e : h.removeRecord p l = .ok h1) (hq : h1.mem q = none) (h2e : h1.addRecord c l' q = .ok h2) :
    Exec h2 (addWatch (removeWatch s l c) l' c).wlist := by
  have hlt : i < (s.wlist l).length := (List.idxOf?_eq_some_iff.1 hi).1
  have e := (he.remove hlt hp h1e).add hq h2e
  unfold addWatch removeWatch
  dsimp only
  rw [List.erase_eq_eraseIdx, hi]
  exact e

/-- Three additions and the removal of the record in the middle. -/
def exWatch : Res WMem := do
  let h1 ← WMem.empty.addRecord 7 ⟨1, 0, true⟩ 100
  let h2 ← h1.addRecord 8 ⟨1, 0, true⟩ 50
  let h3 ← h2.addRecord 9 ⟨1, 0, true⟩ 60
  h3.removeRecord 50 ⟨1, 0, true⟩

/-- The memory afterwards. -/
example : ∃ h, exWatch = .ok h ∧ Exec h (upd (fun _ => []) ⟨1, 0, true⟩ [9, 7]) ∧
    h.mem 60 = some ⟨9, some 100, none⟩ ∧ h.mem 100 = some ⟨7, none, some 60⟩ ∧ h.mem 50 = none := by
  refine ⟨_, rfl, ?_, rfl, rfl, rfl⟩
  have e0 := Exec.start
  have e1 := e0.add (c := 7) (l := ⟨1, 0, true⟩) (p := 100) rfl rfl
  have e2 := e1.add (c := 8) (l := ⟨1, 0, true⟩) (p := 50) rfl rfl
  have e3 := e2.add (c := 9) (l := ⟨1, 0, true⟩) (p := 60) rfl rfl
  have e4 := e3.remove (l := ⟨1, 0, true⟩) (i := 1) (p := 50) (by decide) rfl rfl
  refine cast ?_ e4
  congr 1
  funext l
  unfold upd
  split
  · rfl
  · rfl

/-- The situation of `C34_loop` and `C34_refines`: the second of three records moves to another literal. -/
example : ∃ h1 h2, (do let h1 ← WMem.empty.addRecord 7 ⟨1, 0, true⟩ 100
                       let h2 ← h1.addRecord 8 ⟨1, 0, true⟩ 50
                       h2.addRecord 9 ⟨1, 0, true⟩ 60) = .ok h1 ∧
    follow h1 1 (h1.head ⟨1, 0, true⟩) = some 50 ∧ [9, 8, 7].idxOf? 8 = some 1 ∧
    (do let h ← h1.removeRecord 50 ⟨1, 0, true⟩; h.addRecord 8 ⟨2, 1, false⟩ 50) = .ok h2 ∧
    h2.mem 50 = some ⟨8, none, none⟩ := ⟨_, _, rfl, rfl, rfl, rfl, rfl⟩

/-! ## C47 -/

theorem freeAll_head : ∀ {fuel : Nat} {h h' : WMem} {cur : Option Nat}, h.freeAll fuel cur = .ok h' →
    h'.head = h.head ∧ (∀ x, h.mem x = none → h'.mem x = none) ∧ (∀ p, cur = some p → h'.mem p = none)
  | fuel, h, h', none, e => by
    cases fuel <;> cases e <;> exact ⟨rfl, fun _ h => h, fun _ h => nomatch h⟩
  | 0, h, h', some p, e => nomatch e
  | fuel + 1, h, h', some p, e => by
    unfold WMem.freeAll at e
    obtain ⟨r, e1, e⟩ := Res.bind_eq_ok.1 e
    obtain ⟨h1, e2, e⟩ := Res.bind_eq_ok.1 e
    obtain ⟨a, b, -⟩ := freeAll_head e
    unfold WMem.free at e2
    split at e2
    · cases e2
      refine ⟨a, fun x hx => b x ?_, fun q hq => ?_⟩
      · show upd _ _ _ _ = _
        unfold upd
        split
        · rfl
        · exact hx
      · cases hq
        exact b p (upd_same _ _ _)
    · cases e2

/-- C47 fails for every list that is not empty: the head record is freed a second time, whatever happened before. -/
theorem C47_fails {h h' : WMem} {l : Lit} {p : Nat} (hp : h.head l = some p) (fuel : Nat) : h.destroy fuel l ≠ .ok h' := by
  intro e
  unfold WMem.destroy at e
  obtain ⟨h1, e1, e⟩ := Res.bind_eq_ok.1 e
  obtain ⟨a, -, b⟩ := freeAll_head e1
  rw [a, hp] at e
  dsimp only at e
  unfold WMem.free at e
  rw [b p hp] at e
  cases e

/-- Freeing a list with two records goes wrong. -/
example : (do let h1 ← WMem.empty.addRecord 7 ⟨1, 0, true⟩ 100
              let h2 ← h1.addRecord 8 ⟨1, 0, true⟩ 50
              h2.destroy 5 ⟨1, 0, true⟩) = .ub := rfl

/-- C47: what holds is the case of an empty list, where there is nothing to free. -/
theorem C47_empty_partial {h : WMem} {f : Lit → List Nat} (he : Exec h f) {l : Lit} (hl : f l = []) (fuel : Nat) :
    h.destroy fuel l = .ok h := by
  have := (C34_lists he).1 l
  rw [hl] at this
  have hd : h.head l = none := by
    cases hh : h.head l with
    | none => rfl
    | some p =>
      rw [hh] at this
      cases this
  unfold WMem.destroy
  rw [hd]
  cases fuel <;> (unfold WMem.freeAll; rw [Res.ok_bind, hd])

end Mvl
