import Verif.Proof.Chrono

/-!
# The state built from a formula
-/

namespace Mvl

variable {S : Type}

/-- Score arithmetics in which every score that can arise is above `-1`. -/
def ScoreArith.Good (A : ScoreArith S) (pos : S → Prop) : Prop :=
  pos A.zero ∧ (∀ x, pos x → pos (A.inc x)) ∧ (∀ x, pos x → pos (A.half x)) ∧
    ∀ x, pos x → A.lt A.negOne x = true

theorem ScoreArith.dyadic_good : ScoreArith.dyadic.Good (fun x => x.isSome = true) := by
  refine ⟨rfl, ?_, ?_, ?_⟩ <;> intro x hx <;> cases x <;> simp_all [ScoreArith.dyadic]

/-- The score part of a state changes only. -/
def FrameS (s s' : St S) : Prop := ∃ sc, s' = { s with score := sc }

theorem bump_frame (cfg : Cfg S) (s : St S) (l : Lit) : FrameS s (bump cfg s l) := by
  unfold bump
  split
  · exact ⟨_, rfl⟩
  · split
    · exact ⟨_, rfl⟩
    · generalize List.range (s.dom l.var) = js
      have : ∀ (js : List Nat) (t : St S), FrameS s t → FrameS s (js.foldl (fun s j =>
          if j ≠ l.val then
            { s with score := upd s.score ⟨l.var, j, true⟩ (cfg.arith.inc (s.score ⟨l.var, j, true⟩)) }
          else s) t) := by
        intro js
        induction js with
        | nil => intro t h; exact h
        | cons j js ih =>
          intro t h
          rw [List.foldl_cons]
          apply ih
          obtain ⟨sc, rfl⟩ := h
          split
          · exact ⟨_, rfl⟩
          · exact ⟨_, rfl⟩
      exact this js s ⟨_, rfl⟩
  · exact ⟨_, rfl⟩

theorem upd_all {ι α : Type} [DecidableEq ι] {f : ι → α} {i : ι} {x : α} {p : α → Prop}
    (h : ∀ j, p (f j)) (hx : p x) : ∀ j, p (upd f i x j) := by
  intro j; unfold upd; split
  · exact hx
  · exact h j

theorem bump_pos (cfg : Cfg S) {pos : S → Prop} (hg : cfg.arith.Good pos) (s : St S) (l : Lit)
    (h : ∀ l, pos (s.score l)) : ∀ l', pos ((bump cfg s l).score l') := by
  unfold bump
  split
  · exact upd_all h (hg.2.1 _ (h _))
  · split
    · exact upd_all h (hg.2.1 _ (h _))
    · generalize List.range (s.dom l.var) = js
      have : ∀ (js : List Nat) (t : St S), (∀ l', pos (t.score l')) → ∀ l', pos ((js.foldl (fun s j =>
          if j ≠ l.val then
            { s with score := upd s.score ⟨l.var, j, true⟩ (cfg.arith.inc (s.score ⟨l.var, j, true⟩)) }
          else s) t).score l') := by
        intro js
        induction js with
        | nil => intro t h; exact h
        | cons j js ih =>
          intro t h
          rw [List.foldl_cons]
          apply ih
          split
          · exact upd_all h (hg.2.1 _ (h _))
          · exact h
      exact this js s h
  · exact h

/-- Only occurrence counts, scores and occurrence records change. -/
def FrameL (s s' : St S) : Prop := ∃ c sc r, s' = { s with cnt := c, score := sc, recs := r }

/-- Counts and scores for one literal. -/
def addLit1 (cfg : Cfg S) (s : St S) (l : Lit) : St S :=
  match cfg.heur with
    | .BK => { s with cnt := upd s.cnt l (s.cnt l + 1) }
    | _ => bump cfg s l

theorem addLit_eq (cfg : Cfg S) (s : St S) (l : Lit) : addLit cfg s l =
    if cfg.watch then addLit1 cfg s l
    else { addLit1 cfg s l with recs := upd (addLit1 cfg s l).recs l ((addLit1 cfg s l).recs l ++ [(addLit1 cfg s l).ncl]) } := by
  unfold addLit addLit1
  cases cfg.heur <;> rfl

theorem addLit1_frame (cfg : Cfg S) (s : St S) (l : Lit) :
    ∃ c sc, addLit1 cfg s l = { s with cnt := c, score := sc } := by
  unfold addLit1
  split
  · exact ⟨_, _, rfl⟩
  · obtain ⟨sc, h⟩ := bump_frame cfg s l
    rw [h]; exact ⟨_, _, rfl⟩

theorem addLit_frame (cfg : Cfg S) (s : St S) (l : Lit) : FrameL s (addLit cfg s l) := by
  rw [addLit_eq]
  obtain ⟨c, sc, h⟩ := addLit1_frame cfg s l
  rw [h]
  split
  · exact ⟨_, _, _, rfl⟩
  · exact ⟨_, _, _, rfl⟩

theorem addLit_recs (cfg : Cfg S) (hw : cfg.watch = false) (s : St S) (l : Lit) :
    (addLit cfg s l).recs = upd s.recs l (s.recs l ++ [s.ncl]) := by
  rw [addLit_eq]
  obtain ⟨c, sc, h⟩ := addLit1_frame cfg s l
  rw [h, if_neg (by rw [hw]; simp)]

theorem addLit_cnt (cfg : Cfg S) (s : St S) (l : Lit) :
    (addLit cfg s l).cnt = if cfg.heur = .BK then upd s.cnt l (s.cnt l + 1) else s.cnt := by
  unfold addLit
  cases hh : cfg.heur <;> dsimp only <;>
    first
    | (split <;> rfl)
    | (obtain ⟨sc, h⟩ := bump_frame cfg s l
       rw [h]; dsimp only; split <;> rfl)

theorem addLit_pos (cfg : Cfg S) {pos : S → Prop} (hg : cfg.arith.Good pos) (s : St S) (l : Lit)
    (h : ∀ l, pos (s.score l)) : ∀ l', pos ((addLit cfg s l).score l') := by
  have key : (addLit cfg s l).score = s.score ∨ (addLit cfg s l).score = (bump cfg s l).score := by
    unfold addLit
    cases hh : cfg.heur <;> dsimp only <;> (split <;> first | exact Or.inl rfl | exact Or.inr rfl)
  rcases key with h' | h' <;> rw [h']
  · exact h
  · exact bump_pos cfg hg s l h

/-- Registering all literals of a clause. -/
theorem addLits (cfg : Cfg S) : ∀ (ls : List Lit) (s : St S),
    FrameL s (ls.foldl (addLit cfg) s) ∧
    (cfg.watch = false → ∀ l, (ls.foldl (addLit cfg) s).recs l = s.recs l ++ List.replicate (ls.count l) s.ncl) ∧
    (cfg.heur = .BK → ∀ l, (ls.foldl (addLit cfg) s).cnt l = s.cnt l + (ls.count l : Nat)) ∧
    (∀ pos, cfg.arith.Good pos → (∀ l, pos (s.score l)) → ∀ l, pos ((ls.foldl (addLit cfg) s).score l))
  | [], s => ⟨⟨_, _, _, rfl⟩, by simp, by simp, fun _ _ h => h⟩
  | x :: xs, s => by
    rw [List.foldl_cons]
    obtain ⟨h1, h2, h3, h4⟩ := addLits cfg xs (addLit cfg s x)
    have hf := addLit_frame cfg s x
    refine ⟨?_, ?_, ?_, ?_⟩
    · obtain ⟨c, sc, r, e⟩ := hf
      obtain ⟨c', sc', r', e'⟩ := h1
      rw [e', e]; exact ⟨_, _, _, rfl⟩
    · intro hw l
      rw [h2 hw l, addLit_recs cfg hw]
      have hn : (addLit cfg s x).ncl = s.ncl := by obtain ⟨c, sc, r, e⟩ := hf; rw [e]
      rw [hn]
      by_cases hl : l = x
      · subst hl
        rw [upd_same, List.count_cons_self, List.append_assoc, Nat.add_comm, ← List.replicate_append_replicate]
        rfl
      · rw [upd_of_ne _ _ hl, List.count_cons_of_ne (fun h => hl h.symm)]
    · intro hb l
      rw [h3 hb l, addLit_cnt, if_pos hb]
      by_cases hl : l = x
      · subst hl
        rw [upd_same, List.count_cons_self]; omega
      · rw [upd_of_ne _ _ hl, List.count_cons_of_ne (fun h => hl h.symm)]
    · intro pos hg hp
      exact h4 pos hg (addLit_pos cfg hg s x hp)

/-- The clause object built from a clause line. -/
def mkCls (cfg : Cfg S) (c : List Lit) : Cls :=
  if cfg.watch then { Cls.ofLits c with w0 := c[0]?, w1 := c[1]? } else Cls.ofLits c

theorem mkCls_lits (cfg : Cfg S) (c : List Lit) : (mkCls cfg c).lits = c := by
  unfold mkCls; split <;> rfl

/-- What has been read so far: the domains `ds` and the clauses `cs`. -/
structure Read (cfg : Cfg S) (ds : List Nat) (cs : List (List Lit)) (s : St S) : Prop where
  frame : ∃ c sc r w h u p, s =
    { initSt cfg with
        nv := ds.length, dom := Problem.dom ⟨ds, []⟩, cnt := c, score := sc, recs := r, wlist := w, heap := h,
        nheap := cs.length, ptr := p, ncl := cs.length, units := u }
  ptr : ∀ id, id < cs.length → s.ptr id = id
  heap : ∀ (id : Nat) (c : List Lit), cs[id]? = some c → s.heap id = mkCls cfg c
  units : ∀ id, id ∈ s.units ↔ ∃ c : List Lit, cs[id]? = some c ∧ c.length = 1
  recs : cfg.watch = false → ∀ l id, (s.recs l).count id = ((cs[id]?).getD []).count l
  wlist : cfg.watch = true → ∀ l id, (s.wlist l).count id =
    (if ((cs[id]?).getD [])[0]? = some l then 1 else 0) + (if ((cs[id]?).getD [])[1]? = some l then 1 else 0)
  cnt : cfg.heur = .BK → ∀ l, s.cnt l = ((cs.map fun c => c.count l).sum : Nat)
  pos : ∀ pos, cfg.arith.Good pos → ∀ l, pos (s.score l)

theorem Read.init (cfg : Cfg S) : Read cfg [] [] (initSt cfg) where
  frame := by
    have hd : Problem.dom ⟨[], []⟩ = fun _ => 0 := by funext v; cases v <;> rfl
    rw [hd]
    exact ⟨(initSt cfg).cnt, (initSt cfg).score, (initSt cfg).recs, (initSt cfg).wlist, (initSt cfg).heap,
      (initSt cfg).units, (initSt cfg).ptr, rfl⟩
  ptr := by simp
  heap := by simp
  units := by simp [initSt]
  recs := by simp [initSt]
  wlist := by simp [initSt]
  cnt := by simp [initSt]
  pos := fun pos hg l => hg.1

theorem Read.addVar {cfg : Cfg S} {ds : List Nat} {s : St S} (h : Read cfg ds [] s) (d : Nat) :
    Read cfg (ds ++ [d]) [] (addVar s d) where
  frame := by
    obtain ⟨c, sc, r, w, hp, u, p, rfl⟩ := h.frame
    refine ⟨c, sc, r, w, hp, u, p, ?_⟩
    unfold Mvl.addVar
    dsimp only
    congr 1
    · simp
    · funext v
      unfold upd
      cases v with
      | zero => simp [Problem.dom]
      | succ v =>
        simp only [Problem.dom, List.getD_eq_getElem?_getD]
        by_cases hv : v = ds.length
        · subst hv; simp
        · rw [if_neg (by omega)]
          by_cases hv2 : v < ds.length
          · rw [List.getElem?_append_left hv2]
          · rw [List.getElem?_eq_none (by omega), List.getElem?_eq_none (by simp; omega)]
  ptr := by simp
  heap := by simp
  units := h.units
  recs := h.recs
  wlist := h.wlist
  cnt := h.cnt
  pos := h.pos

theorem getElem?_snoc {α : Type} (cs : List α) (c : α) (id : Nat) :
    (cs ++ [c])[id]? = if id = cs.length then some c else cs[id]? := by
  by_cases h : id = cs.length
  · subst h; simp
  · rw [if_neg h]
    by_cases h2 : id < cs.length
    · rw [List.getElem?_append_left h2]
    · rw [List.getElem?_eq_none (l := cs) (by omega), List.getElem?_eq_none (by simp; omega)]

/-- The state after storing the clause object. -/
def storeCls (cfg : Cfg S) (s1 : St S) (ls : List Lit) : St S :=
  let s2 := { s1 with heap := upd s1.heap s1.nheap (mkCls cfg ls), nheap := s1.nheap + 1,
                      ptr := upd s1.ptr s1.ncl s1.nheap, ncl := s1.ncl + 1 }
  if ls.length = 1 then { s2 with units := s2.units ++ [s1.ncl] } else s2

/-- Watching the first two literals. -/
def watchCls (cfg : Cfg S) (s : St S) (ls : List Lit) (id : Nat) : St S :=
  if cfg.watch then
    match ls with
    | [] => s
    | [a] => addWatch s a id
    | a :: b :: _ => addWatch (addWatch s a id) b id
  else s

theorem addClause_eq (cfg : Cfg S) (s : St S) (ls : List Lit) (hr : ls.all (litInRange s) = true)
    (hne : cfg.watch = true → ls ≠ []) :
    addClause cfg s ls = .ok (watchCls cfg (storeCls cfg (ls.foldl (addLit cfg) s) ls) ls
      (ls.foldl (addLit cfg) s).ncl) := by
  unfold addClause
  rw [if_pos hr]
  unfold watchCls storeCls mkCls
  dsimp only
  by_cases hw : cfg.watch = true
  · have := hne hw
    simp only [hw, if_true]
    cases ls with
    | nil => exact absurd rfl this
    | cons a ls => cases ls <;> rfl
  · simp only [hw]; rfl

theorem storeCls_units (cfg : Cfg S) (s1 : St S) (ls : List Lit) : (storeCls cfg s1 ls).units =
    if ls.length = 1 then s1.units ++ [s1.ncl] else s1.units := by
  unfold storeCls; dsimp only; split <;> rfl

theorem storeCls_frame (cfg : Cfg S) (s1 : St S) (ls : List Lit) : ∃ u, storeCls cfg s1 ls =
    { s1 with
        heap := upd s1.heap s1.nheap (mkCls cfg ls), nheap := s1.nheap + 1,
        ptr := upd s1.ptr s1.ncl s1.nheap, ncl := s1.ncl + 1, units := u } := by
  unfold storeCls; dsimp only; split
  · exact ⟨_, rfl⟩
  · exact ⟨_, rfl⟩

theorem watchCls_frame (cfg : Cfg S) (s : St S) (ls : List Lit) (id : Nat) :
    ∃ w, watchCls cfg s ls id = { s with wlist := w } := by
  unfold watchCls
  split
  · match ls with
    | [] => exact ⟨_, rfl⟩
    | [a] => exact ⟨_, rfl⟩
    | a :: b :: _ => exact ⟨_, rfl⟩
  · exact ⟨_, rfl⟩

theorem watchCls_count (cfg : Cfg S) (hw : cfg.watch = true) (s : St S) (ls : List Lit) (id : Nat) (l : Lit) (j : Nat) :
    ((watchCls cfg s ls id).wlist l).count j = (s.wlist l).count j +
      if j = id then (if ls[0]? = some l then 1 else 0) + (if ls[1]? = some l then 1 else 0) else 0 := by
  unfold watchCls
  rw [if_pos hw]
  have aux : ∀ (s : St S) (a : Lit), ((addWatch s a id).wlist l).count j =
      (s.wlist l).count j + if j = id then (if a = l then 1 else 0) else 0 := by
    intro s a
    unfold addWatch
    dsimp only
    by_cases hl : l = a
    · subst hl
      rw [upd_same]
      by_cases hj : j = id
      · subst hj; simp
      · rw [List.count_cons_of_ne (fun h => hj h.symm)]; simp [hj]
    · rw [upd_of_ne _ _ hl]
      have : a ≠ l := fun h => hl h.symm
      simp [this]
  match ls with
  | [] => simp
  | [a] =>
    dsimp only
    rw [aux]; simp
  | a :: b :: _ =>
    dsimp only
    rw [aux, aux]
    by_cases hj : j = id
    · simp [hj]; omega
    · simp [hj]

theorem Read.addClause {cfg : Cfg S} {ds : List Nat} {cs : List (List Lit)} {s : St S} (h : Read cfg ds cs s)
    (c : List Lit) (hr : ∀ l ∈ c, l.var ≤ ds.length ∧ l.val < Problem.dom ⟨ds, []⟩ l.var)
    (hne : cfg.watch = true → c ≠ []) :
    ∃ s', addClause cfg s c = .ok s' ∧ Read cfg ds (cs ++ [c]) s' := by
  obtain ⟨l1, l2, l3, l4⟩ := addLits cfg c s
  have hr' : c.all (litInRange s) = true := by
    rw [List.all_eq_true]
    intro l hl
    obtain ⟨cc, sc, r, w, hp, u, p, rfl⟩ := h.frame
    simp only [litInRange]
    exact decide_eq_true (hr l hl)
  refine ⟨_, addClause_eq cfg s c hr' hne, ?_⟩
  generalize c.foldl (addLit cfg) s = s1 at *
  obtain ⟨c1, sc1, r1, e1⟩ := l1
  obtain ⟨u2, e2⟩ := storeCls_frame cfg s1 c
  have eu := storeCls_units cfg s1 c
  obtain ⟨w3, e3⟩ := watchCls_frame cfg (storeCls cfg s1 c) c s1.ncl
  have hcnt := fun hw => watchCls_count cfg hw (storeCls cfg s1 c) c s1.ncl
  obtain ⟨cc, sc, r, w, hp, u, p, e0⟩ := h.frame
  have hn : s1.ncl = cs.length := by rw [e1, e0]
  have hnh : s1.nheap = cs.length := by rw [e1, e0]
  have hptr1 : s1.ptr = s.ptr := by rw [e1]
  have hheap1 : s1.heap = s.heap := by rw [e1]
  have hw1 : (storeCls cfg s1 c).wlist = s.wlist := by rw [e2, e1]
  have hu1 : s1.units = s.units := by rw [e1]
  generalize hs3 : watchCls cfg (storeCls cfg s1 c) c s1.ncl = s3 at *
  generalize storeCls cfg s1 c = s2 at *
  have hptr : s3.ptr = upd s.ptr cs.length cs.length := by rw [e3, e2, ← hptr1, hn, hnh]
  have hheap : s3.heap = upd s.heap cs.length (mkCls cfg c) := by rw [e3, e2, ← hheap1, hnh]
  have hunits : s3.units = if c.length = 1 then s.units ++ [cs.length] else s.units := by
    rw [e3]; show s2.units = _; rw [eu, hu1, hn]
  have hrecs : s3.recs = s1.recs := by rw [e3, e2]
  have hcnts : s3.cnt = s1.cnt := by rw [e3, e2]
  have hscore : s3.score = s1.score := by rw [e3, e2]
  refine ⟨?_, ?_, ?_, ?_, ?_, ?_, ?_, ?_⟩
  · refine ⟨s3.cnt, s3.score, s3.recs, s3.wlist, s3.heap, s3.units, s3.ptr, ?_⟩
    rw [e3, e2, e1, e0]
    simp
  · intro id hid
    rw [hptr]; unfold upd
    simp at hid
    split
    · rename_i h1; exact h1.symm
    · exact h.ptr id (by omega)
  · intro id c' hc'
    rw [getElem?_snoc] at hc'
    rw [hheap]; unfold upd
    split at hc'
    · rename_i h1; rw [if_pos h1]; cases hc'; rfl
    · rename_i h1; rw [if_neg h1]; exact h.heap id c' hc'
  · intro id
    rw [hunits, getElem?_snoc]
    by_cases h1 : id = cs.length
    · have hnot : id ∉ s.units := by
        intro hm
        obtain ⟨c', h2, _⟩ := (h.units id).1 hm
        rw [List.getElem?_eq_none (by omega)] at h2; simp at h2
      rw [if_pos h1]
      constructor
      · intro hm
        split at hm
        · rename_i h2; exact ⟨c, rfl, h2⟩
        · exact absurd hm hnot
      · rintro ⟨c', h2, h3⟩
        cases h2
        rw [if_pos h3, h1]; simp
    · rw [if_neg h1, ← h.units id]
      split
      · simp [h1]
      · rfl
  · intro hw l id
    rw [hrecs, l2 hw l, List.count_append, h.recs hw, getElem?_snoc]
    have hsn : s.ncl = cs.length := by rw [e0]
    rw [hsn]
    by_cases h1 : id = cs.length
    · rw [if_pos h1, List.getElem?_eq_none (l := cs) (by omega)]
      simp [h1, List.count_replicate]
    · rw [if_neg h1]
      have : ¬ cs.length = id := fun h => h1 h.symm
      simp [List.count_replicate, this]
  · intro hw l id
    rw [hcnt hw, hw1, h.wlist hw, getElem?_snoc, hn]
    by_cases h1 : id = cs.length
    · rw [if_pos h1, if_pos h1, List.getElem?_eq_none (l := cs) (by omega)]; simp
    · rw [if_neg h1, if_neg h1]; simp
  · intro hb l
    rw [hcnts, l3 hb l, h.cnt hb l]
    simp
  · intro pos hg l
    rw [hscore]
    exact l4 pos hg (h.pos pos hg) l

theorem buildItems_append (cfg : Cfg S) : ∀ (as bs : List Item) (s : St S),
    buildItems cfg (as ++ bs) s = buildItems cfg as s >>= buildItems cfg bs
  | [], bs, s => rfl
  | .dom d :: as, bs, s => by
    rw [List.cons_append]; unfold buildItems; exact buildItems_append cfg as bs _
  | .clause ls :: as, bs, s => by
    rw [List.cons_append]; unfold buildItems
    cases addClause cfg s ls with
    | ok s => exact buildItems_append cfg as bs _
    | ub => rfl
    | fuel => rfl

theorem Read.doms {cfg : Cfg S} : ∀ (ds' ds : List Nat) (s : St S), Read cfg ds [] s →
    ∃ s', buildItems cfg (ds'.map .dom) s = .ok s' ∧ Read cfg (ds ++ ds') [] s'
  | [], ds, s, h => ⟨s, rfl, by simpa using h⟩
  | d :: ds', ds, s, h => by
    obtain ⟨s', h1, h2⟩ := Read.doms ds' (ds ++ [d]) _ (h.addVar d)
    exact ⟨s', h1, by simpa using h2⟩

theorem Read.clauses {cfg : Cfg S} {ds : List Nat} : ∀ (cs' cs : List (List Lit)) (s : St S), Read cfg ds cs s →
    (∀ c ∈ cs', ∀ l ∈ c, l.var ≤ ds.length ∧ l.val < Problem.dom ⟨ds, []⟩ l.var) →
    (cfg.watch = true → ∀ c ∈ cs', c ≠ []) →
    ∃ s', buildItems cfg (cs'.map .clause) s = .ok s' ∧ Read cfg ds (cs ++ cs') s'
  | [], cs, s, h, _, _ => ⟨s, rfl, by simpa using h⟩
  | c :: cs', cs, s, h, hr, hne => by
    obtain ⟨s1, h1, h2⟩ := h.addClause c (hr c (by simp)) (fun hw => hne hw c (by simp))
    obtain ⟨s', h3, h4⟩ := Read.clauses cs' (cs ++ [c]) s1 h2 (fun c hc => hr c (by simp [hc]))
      (fun hw c hc => hne hw c (by simp [hc]))
    refine ⟨s', ?_, by simpa using h4⟩
    rw [List.map_cons]
    unfold buildItems
    rw [h1]; exact h3

theorem Problem.dom_eq (P : Problem) : Problem.dom ⟨P.doms, []⟩ = P.dom := by
  funext v; cases v <;> rfl

theorem build_read (cfg : Cfg S) {P : Problem} (hok : ∀ c ∈ P.clauses, ∀ l ∈ c, P.LitOk l)
    (hne : cfg.watch = true → ∀ c ∈ P.clauses, c ≠ []) :
    ∃ s, build cfg P = .ok s ∧ Read cfg P.doms P.clauses s := by
  obtain ⟨s1, h1, h2⟩ := Read.doms P.doms [] _ (Read.init cfg)
  obtain ⟨s2, h3, h4⟩ := Read.clauses P.clauses [] s1 h2
    (fun c hc l hl => by
      have := hok c hc l hl
      rw [List.nil_append, P.dom_eq]; exact ⟨this.2.1, this.2.2⟩) hne
  refine ⟨s2, ?_, by simpa using h4⟩
  unfold build Problem.items
  rw [buildItems_append, h1]
  exact h3

section
variable {cfg : Cfg S} {P : Problem} {s : St S}

theorem Read.nv (h : Read cfg P.doms P.clauses s) : s.nv = P.numVars := by
  obtain ⟨_, _, _, _, _, _, _, e⟩ := h.frame; rw [e]; rfl
theorem Read.dom (h : Read cfg P.doms P.clauses s) : s.dom = P.dom := by
  obtain ⟨_, _, _, _, _, _, _, e⟩ := h.frame; rw [e]; exact P.dom_eq
theorem Read.ncl (h : Read cfg P.doms P.clauses s) : s.ncl = P.clauses.length := by
  obtain ⟨_, _, _, _, _, _, _, e⟩ := h.frame; rw [e]
theorem Read.asg (h : Read cfg P.doms P.clauses s) : s.asg = fun _ _ => .un := by
  obtain ⟨_, _, _, _, _, _, _, e⟩ := h.frame; rw [e]; rfl
theorem Read.conflict (h : Read cfg P.doms P.clauses s) : s.conflict = false := by
  obtain ⟨_, _, _, _, _, _, _, e⟩ := h.frame; rw [e]; rfl
theorem Read.LEVEL (h : Read cfg P.doms P.clauses s) : s.LEVEL = 0 := by
  obtain ⟨_, _, _, _, _, _, _, e⟩ := h.frame; rw [e]; rfl
theorem Read.ticks (h : Read cfg P.doms P.clauses s) : s.ticks = 0 := by
  obtain ⟨_, _, _, _, _, _, _, e⟩ := h.frame; rw [e]; rfl

theorem Read.cl (h : Read cfg P.doms P.clauses s) {id : Nat} {c : List Lit} (hc : P.clauses[id]? = some c) :
    s.cl id = mkCls cfg c := by
  unfold St.cl
  have : id < P.clauses.length := by
    rcases Nat.lt_or_ge id P.clauses.length with h | h
    · exact h
    · rw [List.getElem?_eq_none h] at hc; simp at hc
  rw [h.ptr id this]
  exact h.heap id c hc

theorem Read.cl_of_lt (h : Read cfg P.doms P.clauses s) {id : Nat} (hid : id < s.ncl) :
    ∃ c, P.clauses[id]? = some c ∧ c ∈ P.clauses ∧ s.cl id = mkCls cfg c := by
  rw [h.ncl] at hid
  refine ⟨P.clauses[id], List.getElem?_eq_getElem hid, List.getElem_mem hid, h.cl (List.getElem?_eq_getElem hid)⟩

theorem Read.model (h : Read cfg P.doms P.clauses s) (a : Assignment) : s.Model a ↔ P.widen.Solves a := by
  unfold St.Model Problem.Solves Problem.InDom
  rw [h.nv, h.dom, P.widen_numVars]
  refine and_congr ⟨fun h v h1 h2 => ?_, fun h v h1 h2 => ?_⟩ ?_
  · rw [P.widen_dom h1 h2]; exact h v h1 h2
  · rw [← P.widen_dom h1 h2]; exact h v h1 h2
  show _ ↔ ∀ c ∈ P.clauses, clauseHolds a c
  constructor
  · intro hm c hc
    obtain ⟨id, hid, he⟩ := List.getElem_of_mem hc
    have hg : P.clauses[id]? = some c := by rw [List.getElem?_eq_getElem hid, he]
    have := hm id (by rw [h.ncl]; exact hid)
    rw [h.cl hg, mkCls_lits] at this
    exact this
  · intro hm id hid
    obtain ⟨c, _, hc, he⟩ := h.cl_of_lt hid
    rw [he, mkCls_lits]; exact hm c hc

theorem openCount_un (c : List Lit) : openCount (fun _ _ => .un) c = c.length := by
  unfold openCount
  rw [List.countP_eq_length]
  intro l _
  simp [LU]

theorem not_CSat_un (c : List Lit) : ¬ CSat (fun _ _ => .un) c := by
  rintro ⟨l, _, h⟩
  unfold LT at h
  cases he : l.eq <;> rw [he] at h <;> simp [Asg.ofSign] at h

theorem dom_one_of (hwf : P.Proper) {v : Nat} (h1 : 1 ≤ v) (h2 : v ≤ P.numVars) : 1 ≤ P.dom v := by
  obtain ⟨w, rfl⟩ : ∃ w, v = w + 1 := ⟨v - 1, by omega⟩
  have hw : w < P.doms.length := by unfold Problem.numVars at h2; omega
  show 1 ≤ P.doms.getD w 0
  rw [List.getD_eq_getElem?_getD, List.getElem?_eq_getElem hw]
  exact hwf.dom_one _ (List.getElem_mem hw)

theorem Read.base (h : Read cfg P.doms P.clauses s) : s.tr.Base := by
  obtain ⟨_, _, _, _, _, _, _, e⟩ := h.frame
  rw [e]
  refine ⟨?_, ?_, ?_, ?_, ?_, ?_, ?_, ?_⟩
  · intro v d hn; exact absurd rfl hn
  · intro v d _; rfl
  · intro v d hn; exact absurd rfl hn
  · intro v d hn; exact absurd rfl hn
  · intro v d h1 _
    constructor
    · intro h2
      have : (if v = 0 then some 0 else none : Option Nat) = some d := h2
      rw [if_neg (by omega)] at this; simp at this
    · intro h2
      have : Asg.un = Asg.eq := h2
      simp at this
  · intro v d hn; exact absurd rfl hn
  · intro i L hL
    have : ([] : List Lit)[i]? = some L := hL
    simp at this
  · intro i j L M _ hL _
    have : ([] : List Lit)[i]? = some L := hL
    simp at this

theorem Read.varOK (h : Read cfg P.doms P.clauses s) (hwf : P.Proper) {v : Nat} (h1 : 1 ≤ v) (h2 : v ≤ s.nv) :
    VarOK s.dom s.asg v := by
  right
  rw [h.asg, h.dom]
  rw [h.nv] at h2
  have := dom_one_of hwf h1 h2
  by_cases hone : P.dom v = 1
  · right; exact hone
  · left; exact ⟨by simp, 0, 1, by omega, by omega, by omega, rfl, rfl⟩

theorem Read.rng (h : Read cfg P.doms P.clauses s) (hwf : P.Proper) :
    ∀ id, id < s.ncl → ∀ l ∈ (s.cl id).lits, s.tr.Rng l.var l.val := by
  intro id hid l hl
  obtain ⟨c, _, hc, he⟩ := h.cl_of_lt hid
  rw [he, mkCls_lits] at hl
  have := hwf.lits_ok c hc l hl
  refine ⟨this.1, ?_, ?_⟩
  · show l.var ≤ s.nv
    rw [h.nv]; exact this.2.1
  · show l.val < s.dom l.var
    rw [h.dom]; exact this.2.2

theorem Read.cinv (h : Read cfg P.doms P.clauses s) (hw : cfg.watch = false) (hwf : P.Proper) :
    CInv (fun _ => False) s := by
  have hcl : ∀ id, id < s.ncl → ∃ c, P.clauses[id]? = some c ∧ c ∈ P.clauses ∧ s.cl id = Cls.ofLits c := by
    intro id hid
    obtain ⟨c, h1, h2, h3⟩ := h.cl_of_lt hid
    refine ⟨c, h1, h2, ?_⟩
    rw [h3]; unfold mkCls; rw [if_neg (by rw [hw]; simp)]
  refine ⟨h.base, by rw [h.LEVEL]; omega, ⟨⟨?_, ?_, ?_⟩, ?_, ?_, ?_, ?_⟩, ?_, fun _ v h1 h2 => h.varOK hwf h1 h2, h.rng hwf⟩
  · intro i j hi hj he
    rw [h.ncl] at hi hj
    rw [h.ptr i hi, h.ptr j hj] at he; exact he
  · intro l id
    rw [h.recs hw]
    by_cases hid : id < s.ncl
    · rw [if_pos hid]
      obtain ⟨c, h1, h2, h3⟩ := hcl id hid
      rw [h1, h3]; rfl
    · rw [if_neg hid, List.getElem?_eq_none (by rw [← h.ncl]; omega)]; simp
  · intro i hi
    have hnh : s.nheap = P.clauses.length := by obtain ⟨_, _, _, _, _, _, _, e⟩ := h.frame; rw [e]
    rw [h.ncl] at hi
    rw [h.ptr i hi, hnh]; exact hi
  · intro id hid
    obtain ⟨c, h1, h2, h3⟩ := hcl id hid
    rw [h3, h.asg]
    left
    refine ⟨rfl, not_CSat_un _, ?_⟩
    rw [openCount_un]; rfl
  · intro id hid
    obtain ⟨c, h1, h2⟩ := (h.units id).1 hid
    have hid' : id < s.ncl := by
      rw [h.ncl]
      rcases Nat.lt_or_ge id P.clauses.length with h | h
      · exact h
      · rw [List.getElem?_eq_none h] at h1; simp at h1
    refine ⟨hid', ?_⟩
    obtain ⟨c', h1', _, h3⟩ := hcl id hid'
    rw [h1] at h1'; cases h1'
    intro _
    rw [h3]
    show (c.length : Int) ≤ 1
    omega
  · intro _ id _ hid _
    obtain ⟨c, h1, h2, h3⟩ := hcl id hid
    rw [h3]
    show 2 ≤ (c.length : Int) ∨ (c.length : Int) = 1 ∧ _
    have hne : c.length ≠ 0 := by
      intro h0
      exact hwf.nonempty c h2 (List.length_eq_zero_iff.1 h0)
    by_cases h1l : c.length = 1
    · right; exact ⟨by omega, (h.units id).2 ⟨c, h1, h1l⟩⟩
    · left; omega
  · intro hc; rw [h.conflict] at hc; simp at hc
  · intro k h0 hk
    have : s.tr.LEVEL = 0 := h.LEVEL
    omega

theorem Read.agrees (h : Read cfg P.doms P.clauses s) (a : Assignment) : Agrees a s.asg := by
  rw [h.asg]; intro v d; simp

end

end Mvl
