import Verif.Proof.OrigChrono

/-! # The original solver: building the state -/

namespace Mvl.Orig

open Mvl

/-- The state after the domains `ds` and the clauses `cs` have been read. -/
structure Built (cfg : OCfg) (ds : List Nat) (cs : List (List Lit)) (s : OSt) : Prop where
  frame : ∃ nv dom cnt recs cls ncl, s = { init cfg with nv := nv, dom := dom, cnt := cnt, recs := recs, cls := cls, ncl := ncl }
  nv   : s.nv = ds.length
  dom  : ∀ v, s.dom v = (Problem.mk ds cs).dom v
  ncl  : s.ncl = cs.length
  cls  : ∀ id c, cs[id]? = some c → s.cls id = ⟨c, false, c.length, -1⟩
  occ  : ∀ l id, (s.recs l).count id = if id < s.ncl then (s.cls id).lits.count l else 0

theorem built_init (cfg : OCfg) : Built cfg [] [] (init cfg) where
  frame := ⟨_, _, _, _, _, _, rfl⟩
  nv := rfl
  dom := fun v => by cases v <;> simp [init, Problem.dom]
  ncl := rfl
  cls := fun id c h => by simp at h
  occ := fun l id => by simp [init]

theorem built_var {cfg : OCfg} {ds : List Nat} {s : OSt} (h : Built cfg ds [] s) (d : Nat) :
    Built cfg (ds ++ [d]) [] (addVar s d) where
  frame := by
    obtain ⟨_, _, _, _, _, _, f⟩ := h.frame
    subst f
    exact ⟨_, _, _, _, _, _, rfl⟩
  nv := by simp [addVar, h.nv]
  dom := fun v => by
    show upd s.dom (s.nv + 1) d v = _
    rw [h.nv]
    cases v with
    | zero => rw [upd_of_ne _ _ (by omega), h.dom]; rfl
    | succ v =>
      by_cases e : v = ds.length
      · subst e; simp [Problem.dom]
      · rw [upd_of_ne _ _ (by omega), h.dom]
        simp only [Problem.dom, List.getD_eq_getElem?_getD]
        by_cases z : v < ds.length
        · rw [List.getElem?_append_left z]
        · rw [List.getElem?_eq_none (by omega), List.getElem?_eq_none (by simp; omega)]
  ncl := h.ncl
  cls := h.cls
  occ := h.occ

theorem addLit_fold (ls : List Lit) : ∀ s : OSt,
    (∃ cnt recs, ls.foldl addLit s = { s with cnt := cnt, recs := recs }) ∧
    ∀ l id, ((ls.foldl addLit s).recs l).count id = (s.recs l).count id + if id = s.ncl then ls.count l else 0 := by
  induction ls with
  | nil => intro s; exact ⟨⟨_, _, rfl⟩, by simp⟩
  | cons m ls ih =>
    intro s
    rw [List.foldl_cons]
    obtain ⟨⟨c, r, f⟩, g⟩ := ih (addLit s m)
    refine ⟨⟨c, r, by rw [f]; rfl⟩, ?_⟩
    intro l id
    rw [g]
    have e1 : (addLit s m).recs = upd s.recs m (s.ncl :: s.recs m) := rfl
    have e2 : (addLit s m).ncl = s.ncl := rfl
    rw [e1, e2]
    by_cases e : l = m
    · subst e
      rw [upd_same]
      by_cases z : id = s.ncl
      · subst z; rw [List.count_cons_self]; simp; omega
      · rw [List.count_cons_of_ne (fun h => z h.symm)]; simp [z]
    · rw [upd_of_ne _ _ e, List.count_cons_of_ne (fun h => e h.symm)]

theorem built_clause {cfg : OCfg} {ds : List Nat} {cs : List (List Lit)} {s : OSt} (h : Built cfg ds cs s)
    {c : List Lit} (hc : ∀ l ∈ c, (Problem.mk ds cs).LitOk l) :
    ∃ t, addClause s c = .ok t ∧ Built cfg ds (cs ++ [c]) t := by
  have hall : c.all (litInRange s) = true := by
    rw [List.all_eq_true]
    intro l hl
    obtain ⟨-, a, b⟩ := hc l hl
    simp only [litInRange, decide_eq_true_eq]
    rw [h.nv, h.dom]; exact ⟨a, b⟩
  unfold addClause
  rw [if_pos hall]
  obtain ⟨⟨n, r, f⟩, g⟩ := addLit_fold c s
  refine ⟨_, rfl, ?_⟩
  have e1 : (c.foldl addLit s).cls = s.cls := by rw [f]
  have e2 : (c.foldl addLit s).ncl = s.ncl := by rw [f]
  constructor
  · obtain ⟨_, _, _, _, _, _, fr⟩ := h.frame
    refine ⟨s.nv, s.dom, n, r, upd s.cls s.ncl ⟨c, false, c.length, -1⟩, s.ncl + 1, ?_⟩
    simp only [f]
    rw [fr]
  · show (c.foldl addLit s).nv = _
    rw [f]; exact h.nv
  · intro v
    show (c.foldl addLit s).dom v = _
    rw [f]
    show s.dom v = _
    rw [h.dom]; cases v <;> rfl
  · show (c.foldl addLit s).ncl + 1 = _
    rw [e2, h.ncl]; simp
  · intro id c' hid
    show upd (c.foldl addLit s).cls (c.foldl addLit s).ncl _ id = _
    rw [e1, e2, h.ncl]
    by_cases z : id = cs.length
    · subst z
      rw [upd_same]
      simp at hid
      rw [hid]
    · rw [upd_of_ne _ _ z]
      apply h.cls
      by_cases y : id < cs.length
      · rw [List.getElem?_append_left y] at hid; exact hid
      · rw [List.getElem?_eq_none (by simp; omega)] at hid; cases hid
  · intro l id
    show ((c.foldl addLit s).recs l).count id = if id < (c.foldl addLit s).ncl + 1 then
      (upd (c.foldl addLit s).cls (c.foldl addLit s).ncl _ id).lits.count l else 0
    rw [g, e1, e2, h.occ]
    by_cases z : id = s.ncl
    · subst z; simp
    · rw [upd_of_ne _ _ z]
      by_cases y : id < s.ncl
      · have y' : id < s.ncl + 1 := by omega
        simp only [y, y', z, if_true, if_false]; omega
      · have y' : ¬ id < s.ncl + 1 := by omega
        simp only [y, y', z, if_false]

theorem built_doms (cfg : OCfg) (is : List Item) : ∀ (ds' ds : List Nat) (s : OSt), Built cfg ds [] s →
    ∃ t, Built cfg (ds ++ ds') [] t ∧ buildItems (ds'.map .dom ++ is) s = buildItems is t := by
  intro ds'
  induction ds' with
  | nil => intro ds s h; exact ⟨s, by simpa using h, rfl⟩
  | cons d ds' ih =>
    intro ds s h
    obtain ⟨t, h1, h2⟩ := ih (ds ++ [d]) (addVar s d) (built_var h d)
    refine ⟨t, by simpa using h1, ?_⟩
    rw [← h2]; rfl

theorem built_clauses (cfg : OCfg) (ds : List Nat) : ∀ (cs' cs : List (List Lit)) (s : OSt), Built cfg ds cs s →
    (∀ c ∈ cs', ∀ l ∈ c, (Problem.mk ds cs).LitOk l) →
    ∃ t, Built cfg ds (cs ++ cs') t ∧ buildItems (cs'.map .clause) s = .ok t := by
  intro cs'
  induction cs' with
  | nil => intro cs s h _; exact ⟨s, by simpa using h, rfl⟩
  | cons c cs' ih =>
    intro cs s h hc
    obtain ⟨t1, h1, h2⟩ := built_clause h (hc c List.mem_cons_self)
    obtain ⟨t, h3, h4⟩ := ih (cs ++ [c]) t1 h2 (by
      intro c' hc' l hl
      obtain ⟨a, b, e⟩ := hc c' (List.mem_cons_of_mem _ hc') l hl
      exact ⟨a, b, by cases hv : l.var <;> rw [hv] at e <;> exact e⟩)
    refine ⟨t, by simpa using h3, ?_⟩
    show (addClause s c >>= _) = _
    rw [h1, Res.ok_bind]; exact h4

theorem build_built (cfg : OCfg) {P : Problem} (h : P.WellFormed) :
    ∃ s, build cfg P = .ok s ∧ Built cfg P.doms P.clauses s := by
  obtain ⟨t, h1, h2⟩ := built_doms cfg (P.clauses.map .clause) P.doms [] _ (built_init cfg)
  obtain ⟨t', h3, h4⟩ := built_clauses cfg P.doms P.clauses [] t (by simpa using h1) (by
    intro c hc l hl
    obtain ⟨a, b, e⟩ := h.lits_ok c hc l hl
    exact ⟨a, b, by cases hv : l.var <;> rw [hv] at e <;> exact e⟩)
  exact ⟨t', by unfold build Problem.items; rw [h2, h4], by simpa using h3⟩

theorem nU_all {asg : Nat → Nat → Asg} {ls : List Lit} (h : ∀ l ∈ ls, asg l.var l.val = .un) :
    nU asg ls = ls.length := by
  unfold nU
  rw [List.countP_eq_length]
  intro l hl
  simpa using h l hl

/-- The first state of the search. -/
theorem built_inv {cfg : OCfg} {P : Problem} (h : P.WellFormed) {s : OSt} (hb : Built cfg P.doms P.clauses s) :
    Inv (checkUnit s) := by
  obtain ⟨nv, dom, cnt, recs, cls, ncl, f⟩ := hb.frame
  have fasg : ∀ v d, s.asg v d = .un := by intro v d; rw [f]; rfl
  have falvl : ∀ v d, s.alvl v d = -1 := by intro v d; rw [f]; rfl
  have fvval : ∀ v, s.vval v = none := by intro v; rw [f]; rfl
  have fvlvl : ∀ v, s.vlvl v = -1 := by intro v; rw [f]; rfl
  have fvsat : ∀ v, s.vsat v = decide (v = 0) := by intro v; rw [f]; rfl
  have fconf : s.conflict = false := by rw [f]; rfl
  have get : ∀ id < s.ncl, ∃ c ∈ P.clauses, s.cls id = ⟨c, false, c.length, -1⟩ := by
    intro id hi
    rw [hb.ncl] at hi
    have e := List.getElem?_eq_getElem hi
    exact ⟨P.clauses[id], List.getElem_mem hi, hb.cls id _ e⟩
  constructor
  · constructor
    · exact hb.occ
    · intro id hi l hl
      obtain ⟨c, hc, e⟩ := get id hi
      have hl' : l ∈ (s.cls id).lits := hl
      rw [e] at hl'
      have := h.lits_ok c hc l hl'
      show 1 ≤ l.var ∧ l.var ≤ s.nv ∧ l.val < s.dom l.var
      rw [hb.nv, hb.dom]; exact this
    · intro v d hv; exact absurd (fasg v d) hv
    · intro v d _; exact falvl v d
    · intro v d hv; exact absurd (fasg v d) hv
    · intro id hi hs
      obtain ⟨c, hc, e⟩ := get id hi
      have hs' : (s.cls id).sat = true := hs
      rw [e] at hs'; cases hs'
    · intro id hi hs
      obtain ⟨c, hc, e⟩ := get id hi
      show (s.cls id).lvl = -1 ∧ (s.cls id).un = nU s.asg (s.cls id).lits ∧
        ∀ l ∈ (s.cls id).lits, s.asg l.var l.val ≠ Asg.ofSign l.eq
      rw [e]
      refine ⟨rfl, ?_, ?_⟩
      · rw [nU_all (fun l _ => fasg _ _)]
      · intro l _; rw [fasg]; exact (Asg.ofSign_ne _).symm
    · intro id hi hs
      obtain ⟨c, hc, e⟩ := get id hi
      left
      show ∃ l ∈ (s.cls id).lits, s.asg l.var l.val = .un
      rw [e]
      obtain ⟨l, hl⟩ := List.exists_mem_of_ne_nil c (h.nonempty c hc)
      exact ⟨l, hl, fasg _ _⟩
    · intro hc
      have : s.conflict = true := hc
      rw [fconf] at this; cases this
    · intro i hi
      simp only [checkUnit, List.mem_filter, List.mem_range, decide_eq_true_eq] at hi
      exact ⟨hi.1, Or.inr (by show (s.cls i).un ≤ 1; omega)⟩
    · intro id hi hs
      obtain ⟨c, hc, e⟩ := get id hi
      have hs' : (s.cls id).sat = true := hs
      rw [e] at hs'; cases hs'
  · constructor
    · intro v d hv
      have : s.vval v = some d := hv
      rw [fvval] at this; cases this
    · intro v d hv
      have : s.asg v d = .eq := hv
      rw [fasg] at this; cases this
    · intro v
      show s.vsat v = (decide (v = 0) || (s.vval v).isSome)
      rw [fvsat, fvval]; simp
    · intro v _; exact fvlvl v
    · intro v d e hv
      have : s.vval v = some d := hv
      rw [fvval] at this; cases this
    · intro v k h1 h2 _ _ _
      have h2' : v ≤ s.nv := h2
      rw [hb.nv] at h2'
      have h3 : 2 ≤ s.dom v := by
        rw [hb.dom]
        obtain ⟨w, rfl⟩ : ∃ w, v = w + 1 := ⟨v - 1, by omega⟩
        simp only [Problem.dom]
        rw [List.getD_eq_getElem?_getD, List.getElem?_eq_getElem (by omega)]
        exact h.dom_two _ (List.getElem_mem _)
      exact ⟨0, 1, by omega, by show 0 < s.dom v; omega, by show 1 < s.dom v; omega, Or.inl (fasg _ _), Or.inl (fasg _ _)⟩

theorem built_solves {cfg : OCfg} {P : Problem} {s : OSt} (hb : Built cfg P.doms P.clauses s) (σ : Assignment) :
    SolvesAll s σ ↔ P.Solves σ := by
  have hd : ∀ v, s.dom v = P.dom v := hb.dom
  have hn : s.nv = P.numVars := hb.nv
  unfold SolvesAll Problem.Solves Problem.InDom
  constructor
  · rintro ⟨a, b⟩
    refine ⟨fun v h1 h2 => by rw [← hd]; exact a v h1 (by rw [hn]; exact h2), ?_⟩
    intro c hc
    obtain ⟨id, hi, rfl⟩ := List.mem_iff_getElem.1 hc
    obtain ⟨l, hl, hs⟩ := b id (by rw [hb.ncl]; exact hi)
    rw [hb.cls id _ (List.getElem?_eq_getElem hi)] at hl
    exact ⟨l, hl, hs⟩
  · rintro ⟨a, b⟩
    refine ⟨fun v h1 h2 => by rw [hd]; exact a v h1 (by rw [← hn]; exact h2), ?_⟩
    intro id hi
    rw [hb.ncl] at hi
    obtain ⟨l, hl, hs⟩ := b _ (List.getElem_mem hi)
    exact ⟨l, by rw [hb.cls id _ (List.getElem?_eq_getElem hi)]; exact hl, hs⟩

theorem built_agree {cfg : OCfg} {ds : List Nat} {cs : List (List Lit)} {s : OSt} (hb : Built cfg ds cs s) (σ : Assignment) :
    Agree s σ := by
  obtain ⟨nv, dom, cnt, recs, cls, ncl, f⟩ := hb.frame
  intro v d
  have : s.asg v d = .un := by rw [f]; rfl
  rw [this]; exact ⟨fun h => (nomatch h), fun h => (nomatch h)⟩

/-! ## A satisfied state -/

/-- The assignment of the variables; a variable without value takes one that is not excluded. -/
def model (s : OSt) (v : Nat) : Nat :=
  match s.vval v with
  | some d => d
  | none => ((List.range (s.dom v)).find? fun d => s.asg v d = .un).getD 0

theorem checkSat_conflict {s : OSt} (h : Core s) (hs : checkSat s = true) : s.conflict = false := by
  cases hc : s.conflict
  · rfl
  · obtain ⟨id, -, hi, b, -⟩ := h.conf hc
    unfold checkSat at hs
    rw [List.all_eq_true] at hs
    rw [hs id (by simpa using hi)] at b; cases b

/-- The assignment agrees with the state. -/
theorem model_agree {s : OSt} (h : Inv s) (hL : -1 ≤ s.LEVEL) (hc : s.conflict = false) :
    (∀ v, 1 ≤ v → v ≤ s.nv → model s v < s.dom v) ∧ Agree s (model s) := by
  have val : ∀ v d, s.asg v d = .eq → model s v = d := by
    intro v d hv
    simp only [model, h.vars.ve v d hv]
  have free : ∀ v, 1 ≤ v → v ≤ s.nv → s.vval v = none → model s v < s.dom v ∧ s.asg v (model s v) = .un := by
    intro v h1 h2 hv
    obtain ⟨d, e, -, a2, -, a4, -⟩ := h.vars.two v s.LEVEL h1 h2 hL (Or.inr ⟨Int.le_refl _, hc, by omega⟩) (Or.inl hv)
    have un : s.asg v d = .un := by
      rcases a4 with b | b
      · exact b
      · by_cases y : s.asg v d = .un
        · exact y
        · have := (h.las v d y).2; omega
    simp only [model, hv]
    cases hf : (List.range (s.dom v)).find? fun d => s.asg v d = .un with
    | none =>
      rw [List.find?_eq_none] at hf
      exact absurd (by simpa using un) (hf d (by simpa using a2))
    | some x =>
      have m := List.mem_of_find?_eq_some hf
      have q := List.find?_some hf
      exact ⟨by simpa using m, by simpa using q⟩
  have two : ∀ v, 1 ≤ v → v ≤ s.nv → model s v < s.dom v := by
    intro v h1 h2
    cases hv : s.vval v with
    | none => exact (free v h1 h2 hv).1
    | some d =>
      have := (h.vars.vv v d hv).1
      rw [val v d this]
      exact (h.arng v d (by rw [this]; simp)).2.2
  refine ⟨two, fun v d => ⟨val v d, ?_⟩⟩
  intro hne hd
  have hr := h.arng v d (by rw [hne]; simp)
  cases hv : s.vval v with
  | none =>
    have := (free v hr.1 hr.2.1 hv).2
    rw [hd, hne] at this; cases this
  | some e =>
    have := (h.vars.vv v e hv).1
    rw [val v e this] at hd
    rw [hd, hne] at this; cases this

/-- All clauses satisfied: the assignment is a solution. -/
theorem sat_model {s : OSt} (h : Inv s) (hL : -1 ≤ s.LEVEL) (hs : checkSat s = true) : SolvesAll s (model s) := by
  obtain ⟨a, b⟩ := model_agree h hL (checkSat_conflict h.toCore hs)
  refine ⟨a, fun id hi => ?_⟩
  unfold checkSat at hs
  rw [List.all_eq_true] at hs
  obtain ⟨-, l, hl, ht, -⟩ := h.csat id hi (hs id (by simpa using hi))
  refine ⟨l, hl, ?_⟩
  cases he : l.eq
  · rw [he] at ht
    have := (b l.var l.val).2 ht
    simp only [Lit.holds, he]; simpa using this
  · rw [he] at ht
    have := (b l.var l.val).1 ht
    simp only [Lit.holds, he]; simpa using this

/-- All clauses satisfied: the self check finds no mistake. -/
theorem sat_verify {s : OSt} (h : Inv s) (hs : checkSat s = true) : verify s = true := by
  unfold checkSat at hs
  rw [List.all_eq_true] at hs
  unfold verify
  rw [List.all_eq_true]
  intro id hid
  have hi : id < s.ncl := by simpa using hid
  obtain ⟨-, l, hl, ht, -⟩ := h.csat id hi (hs id hid)
  rw [decide_eq_true_eq, List.mem_flatMap]
  have hr := h.arng l.var l.val (by rw [ht]; exact Asg.ofSign_ne _)
  refine ⟨(l.var, l.val), (mem_atoms _ _ _).2 hr, ?_⟩
  have hrec : id ∈ s.recs l := (h.mem_recs l id).2 ⟨hi, hl⟩
  obtain ⟨v, d, e⟩ := l
  simp only at ht hr hrec ⊢
  cases e
  · have ht' : s.asg v d = .ne := ht
    cases hv : s.vval v with
    | none => simp only [marks, hv, ht', if_true]; exact hrec
    | some x =>
      have hx := (h.vars.vv v x hv).1
      have : d ≠ x := by intro z; rw [← z, ht'] at hx; cases hx
      simp only [marks, hv, this, decide_false]; exact hrec
  · have ht' : s.asg v d = .eq := ht
    have hv := h.vars.ve v d ht'
    simp only [marks, hv, decide_true]; exact hrec

end Mvl.Orig
