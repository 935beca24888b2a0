import Verif.Proof.OrigReduce

/-! # The original solver: `undoTheory` -/

namespace Mvl.Orig

open Mvl

/-- The part of `Core` that does not depend on the current level and the conflict flag. -/
structure Base (s : OSt) : Prop where
  occ  : ∀ l id, (s.recs l).count id = if id < s.ncl then (s.cls id).lits.count l else 0
  arng : ∀ v d, s.asg v d ≠ .un → 1 ≤ v ∧ v ≤ s.nv ∧ d < s.dom v
  lun  : ∀ v d, s.asg v d = .un → s.alvl v d = -1
  csat : ∀ id < s.ncl, (s.cls id).sat = true → (s.cls id).un = 0 ∧
    ∃ l ∈ (s.cls id).lits, s.asg l.var l.val = Asg.ofSign l.eq ∧ s.alvl l.var l.val = (s.cls id).lvl
  cuns : ∀ id < s.ncl, (s.cls id).sat = false → (s.cls id).lvl = -1 ∧
    (s.cls id).un = nU s.asg (s.cls id).lits ∧ ∀ l ∈ (s.cls id).lits, s.asg l.var l.val ≠ Asg.ofSign l.eq

theorem Core.base {s : OSt} (h : Core s) : Base s := ⟨h.occ, h.arng, h.lun, h.csat, h.cuns⟩

/-! ## First pass -/

theorem addFold (l : Lit) (ids : List Nat) : ∀ s : OSt,
    (∃ cls cnt, ids.foldl (addOne l) s = { s with cls := cls, cnt := cnt }) ∧
    ∀ id, (ids.foldl (addOne l) s).cls id =
      if (s.cls id).sat then s.cls id else { s.cls id with un := (s.cls id).un + ids.count id } := by
  induction ids with
  | nil => intro s; exact ⟨⟨s.cls, s.cnt, rfl⟩, by intro id; simp⟩
  | cons i ids ih =>
    intro s
    rw [List.foldl_cons]
    by_cases hc : (s.cls i).sat = true
    · have h1 : addOne l s i = s := by simp [addOne, hc]
      rw [h1]
      refine ⟨(ih s).1, ?_⟩
      intro id
      rw [(ih s).2 id]
      by_cases e : id = i
      · subst e; simp [hc]
      · rw [List.count_cons_of_ne (fun h => e h.symm)]
    · have hc' : (s.cls i).sat = false := by simpa using hc
      obtain ⟨⟨cls, cnt, h⟩, h2⟩ := ih (addOne l s i)
      refine ⟨⟨cls, cnt, by rw [h]; simp [addOne, hc']⟩, ?_⟩
      intro id
      rw [h2 id]
      have e1 : (addOne l s i).cls = upd s.cls i { s.cls i with un := (s.cls i).un + 1 } := by
        simp [addOne, hc']
      rw [e1]
      by_cases e : id = i
      · subst e; simp [hc']; omega
      · rw [upd_of_ne _ _ e, List.count_cons_of_ne (fun h => e h.symm)]

/-- Literals of a clause among the given atoms that are undone. -/
def nUndo (level : Int) (alvl : Nat → Nat → Int) (as : List (Nat × Nat)) (ls : List Lit) : Nat :=
  ls.countP fun l => decide ((l.var, l.val) ∈ as ∧ level < alvl l.var l.val)

theorem nUndo_cons {level : Int} {alvl : Nat → Nat → Int} {a : Nat × Nat} {as : List (Nat × Nat)} (ha : a ∉ as)
    (ls : List Lit) : nUndo level alvl (a :: as) ls = nUndo level alvl as ls +
      if level < alvl a.1 a.2 then (ls.countP fun l => decide ((l.var, l.val) = a)) else 0 := by
  induction ls with
  | nil => simp [nUndo]
  | cons m ls ih =>
    unfold nUndo at ih ⊢
    rw [List.countP_cons, List.countP_cons, List.countP_cons, ih]
    by_cases e : (m.var, m.val) = a
    · subst e
      by_cases h : level < alvl m.var m.val
      · simp [h, ha]; omega
      · simp [h]
    · by_cases h : level < alvl a.1 a.2
      · simp [h, e]; omega
      · simp [h, e]

/-- What the second pass starts from. -/
theorem addBackFold {level : Int} (hl : -1 ≤ level) (as : List (Nat × Nat)) : ∀ s : OSt,
    (∀ l id, (s.recs l).count id = if id < s.ncl then (s.cls id).lits.count l else 0) →
    (∀ v d, s.asg v d = .un → s.alvl v d = -1) →
    (∀ id < s.ncl, (s.cls id).sat = false → ∀ l ∈ (s.cls id).lits, s.asg l.var l.val ≠ Asg.ofSign l.eq) →
    as.Nodup →
    (∃ cls cnt, as.foldl (addBack level) s = { s with cls := cls, cnt := cnt }) ∧
    (∀ id, ((as.foldl (addBack level) s).cls id).lits = (s.cls id).lits) ∧
    (∀ id < s.ncl, (as.foldl (addBack level) s).cls id =
      if (s.cls id).sat then s.cls id
      else { s.cls id with un := (s.cls id).un + nUndo level s.alvl as (s.cls id).lits }) := by
  induction as with
  | nil =>
    intro s _ _ _ _
    refine ⟨⟨s.cls, s.cnt, rfl⟩, fun _ => rfl, ?_⟩
    intro id _
    simp [nUndo]
  | cons a as ih =>
    intro s h1 h2 h3 hnd
    rw [List.foldl_cons]
    have hna := (List.nodup_cons.1 hnd).1
    have hnd' := (List.nodup_cons.1 hnd).2
    by_cases hc : s.alvl a.1 a.2 > level
    · obtain ⟨⟨c, n, hf⟩, hcl⟩ := addFold ⟨a.1, a.2, s.asg a.1 a.2 = .ne⟩ (s.recs ⟨a.1, a.2, s.asg a.1 a.2 = .ne⟩) s
      have e : addBack level s a = (s.recs ⟨a.1, a.2, s.asg a.1 a.2 = .ne⟩).foldl
          (addOne ⟨a.1, a.2, s.asg a.1 a.2 = .ne⟩) s := by simp only [addBack, hc, if_true]
      rw [← e] at hf hcl
      have hlits : ∀ id, ((addBack level s a).cls id).lits = (s.cls id).lits := by
        intro id; rw [hcl]; split <;> rfl
      have hsat : ∀ id, ((addBack level s a).cls id).sat = (s.cls id).sat := by
        intro id; rw [hcl]; split <;> rfl
      have hasg : (addBack level s a).asg = s.asg := by rw [hf]
      have halvl : (addBack level s a).alvl = s.alvl := by rw [hf]
      have hncl : (addBack level s a).ncl = s.ncl := by rw [hf]
      have hrecs : (addBack level s a).recs = s.recs := by rw [hf]
      obtain ⟨⟨c', n', hf'⟩, hl', hcl'⟩ := ih (addBack level s a)
        (by intro l id; rw [hrecs, hncl, hlits]; exact h1 l id)
        (by rw [hasg, halvl]; exact h2)
        (by intro id hi hs l hl; rw [hncl] at hi; rw [hsat] at hs; rw [hlits] at hl; rw [hasg]; exact h3 id hi hs l hl)
        hnd'
      refine ⟨⟨c', n', by rw [hf', hf]⟩, fun id => (hl' id).trans (hlits id), ?_⟩
      intro id hi
      rw [hcl' id (by rw [hncl]; exact hi), hsat, hlits, halvl]
      by_cases hs : (s.cls id).sat = true
      · rw [if_pos hs, if_pos hs, hcl, if_pos hs]
      · rw [if_neg hs, if_neg hs, hcl, if_neg hs, nUndo_cons hna, if_pos hc, h1, if_pos hi]
        have hs' : (s.cls id).sat = false := by simpa using hs
        have hu : s.asg a.1 a.2 ≠ .un := fun z => by have := h2 _ _ z; omega
        have : (s.cls id).lits.count ⟨a.1, a.2, s.asg a.1 a.2 = .ne⟩ =
            (s.cls id).lits.countP fun l => decide ((l.var, l.val) = a) := by
          rw [List.count]
          apply List.countP_congr
          intro m hm
          have := h3 id hi hs' m hm
          obtain ⟨mv, md, me⟩ := m
          obtain ⟨av, ad⟩ := a
          simp only at this hu
          simp only [beq_iff_eq, decide_eq_true_eq, Lit.mk.injEq, Prod.mk.injEq]
          constructor
          · rintro ⟨a1, a2, -⟩; exact ⟨a1, a2⟩
          · rintro ⟨rfl, rfl⟩
            refine ⟨rfl, rfl, ?_⟩
            cases hx : s.asg mv md
            · exact absurd hx hu
            · cases me
              · simp
              · rw [hx] at this; simp [Asg.ofSign] at this
            · cases me
              · rw [hx] at this; simp [Asg.ofSign] at this
              · simp
        rw [this]
        simp only [OCls.mk.injEq, true_and, and_true]
        omega
    · have e : addBack level s a = s := by simp only [addBack, hc, if_false]
      rw [e]
      obtain ⟨f, g, k⟩ := ih s h1 h2 h3 hnd'
      refine ⟨f, g, ?_⟩
      intro id hi
      rw [k id hi, nUndo_cons hna, if_neg hc]
      simp

/-! ## Second pass -/

theorem unsatisfyFold {level : Int} (hl : -1 ≤ level) (e : Bool) (ids : List Nat) : ∀ s : OSt,
    (∃ cls cnt, ids.foldl (unsatisfyOne level e) s = { s with cls := cls, cnt := cnt }) ∧
    ∀ id, (ids.foldl (unsatisfyOne level e) s).cls id =
      if id ∈ ids ∧ (s.cls id).lvl > level then
        { s.cls id with
          un := (s.cls id).un +
            ((s.cls id).lits.countP fun l => decide (s.alvl l.var l.val > level ∨ s.asg l.var l.val = .un)),
          lvl := -1, sat := false }
      else s.cls id := by
  induction ids with
  | nil => intro s; exact ⟨⟨s.cls, s.cnt, rfl⟩, by intro id; simp⟩
  | cons i ids ih =>
    intro s
    rw [List.foldl_cons]
    by_cases hc : (s.cls i).lvl > level
    · obtain ⟨⟨cls, cnt, h⟩, h2⟩ := ih (unsatisfyOne level e s i)
      refine ⟨⟨cls, cnt, by rw [h]; simp only [unsatisfyOne, hc, if_true]⟩, ?_⟩
      intro id
      have e1 : (unsatisfyOne level e s i).cls = upd s.cls i { s.cls i with
          un := (s.cls i).un +
            ((s.cls i).lits.countP fun l => decide (s.alvl l.var l.val > level ∨ s.asg l.var l.val = .un)),
          lvl := -1, sat := false } := by
        simp only [unsatisfyOne, hc, if_true, filter_length]
      have e2 : (unsatisfyOne level e s i).alvl = s.alvl := by simp only [unsatisfyOne, hc, if_true]
      have e3 : (unsatisfyOne level e s i).asg = s.asg := by simp only [unsatisfyOne, hc, if_true]
      rw [h2 id, e1, e2, e3]
      by_cases z : id = i
      · subst z
        rw [upd_same, if_neg (by simp only [gt_iff_lt, not_and, Int.not_lt]; exact fun _ => hl),
          if_pos ⟨List.mem_cons_self, hc⟩]
      · rw [upd_of_ne _ _ z]
        simp [z]
    · have e1 : unsatisfyOne level e s i = s := by simp only [unsatisfyOne, hc, if_false]
      rw [e1]
      refine ⟨(ih s).1, ?_⟩
      intro id
      rw [(ih s).2 id]
      by_cases z : id = i
      · subst z; simp [hc]
      · simp [z]

/-- The state in the middle of the second pass: the atoms in `D` and the variables in `V` are done. -/
structure Mid (level : Int) (s t : OSt) (D : Nat → Nat → Prop) (V : Nat → Prop) : Prop where
  frame : ∃ asg alvl cid vval vsat vlvl cls cnt,
    t = { s with asg := asg, alvl := alvl, cid := cid, vval := vval, vsat := vsat, vlvl := vlvl, cls := cls, cnt := cnt }
  done : ∀ v d, D v d → level < s.alvl v d → t.asg v d = .un ∧ t.alvl v d = -1 ∧ t.cid v d = -1
  keep : ∀ v d, ¬ (D v d ∧ level < s.alvl v d) → t.asg v d = s.asg v d ∧ t.alvl v d = s.alvl v d ∧ t.cid v d = s.cid v d
  lits : ∀ id, (t.cls id).lits = (s.cls id).lits
  cdone : ∀ id < s.ncl, level < (s.cls id).lvl → ∀ l ∈ (s.cls id).lits, D l.var l.val →
    level < s.alvl l.var l.val → s.asg l.var l.val = Asg.ofSign l.eq →
    (t.cls id).sat = false ∧ (t.cls id).lvl = -1 ∧ (t.cls id).un = (s.cls id).un +
      ((s.cls id).lits.countP fun l => decide (s.alvl l.var l.val > level ∨ s.asg l.var l.val = .un))
  ckeep : ∀ id < s.ncl, ¬ (level < (s.cls id).lvl ∧ ∃ l ∈ (s.cls id).lits, D l.var l.val ∧
    level < s.alvl l.var l.val ∧ s.asg l.var l.val = Asg.ofSign l.eq) → t.cls id = s.cls id
  vdone : ∀ v, V v → level < s.vlvl v → t.vval v = none ∧ t.vsat v = false ∧ t.vlvl v = -1
  vkeep : ∀ v, ¬ (V v ∧ level < s.vlvl v) → t.vval v = s.vval v ∧ t.vsat v = s.vsat v ∧ t.vlvl v = s.vlvl v

theorem Mid.init (level : Int) (s : OSt) : Mid level s s (fun _ _ => False) (fun _ => False) where
  frame := ⟨s.asg, s.alvl, s.cid, s.vval, s.vsat, s.vlvl, s.cls, s.cnt, rfl⟩
  done := fun _ _ h => h.elim
  keep := fun _ _ _ => ⟨rfl, rfl, rfl⟩
  lits := fun _ => rfl
  cdone := fun _ _ _ _ _ h => h.elim
  ckeep := fun _ _ _ => rfl
  vdone := fun _ h => h.elim
  vkeep := fun _ _ => ⟨rfl, rfl, rfl⟩

theorem Mid.congr {level : Int} {s t : OSt} {D D' : Nat → Nat → Prop} {V V' : Nat → Prop}
    (h : Mid level s t D V) (hD : ∀ v d, D v d ↔ D' v d) (hV : ∀ v, V v ↔ V' v) : Mid level s t D' V' := by
  have e1 : D = D' := by funext v d; exact propext (hD v d)
  have e2 : V = V' := by funext v; exact propext (hV v)
  rw [← e1, ← e2]; exact h

theorem Mid.atom {level : Int} {s t : OSt} {D : Nat → Nat → Prop} {V : Nat → Prop} (hl : -1 ≤ level)
    (hocc : ∀ l id, (s.recs l).count id = if id < s.ncl then (s.cls id).lits.count l else 0)
    (hlun : ∀ v d, s.asg v d = .un → s.alvl v d = -1)
    (h : Mid level s t D V) (v d : Nat) :
    Mid level s (undoAtom level v t d) (fun v' d' => D v' d' ∨ (v' = v ∧ d' = d)) V := by
  by_cases hc : t.alvl v d > level
  · -- the atom is not done yet
    have hk : ¬ (D v d ∧ level < s.alvl v d) := fun z => by
      have := (h.done v d z.1 z.2).2.1; omega
    obtain ⟨k1, k2, -⟩ := h.keep v d hk
    have ha : level < s.alvl v d := by rw [← k2]; exact hc
    have hu : s.asg v d ≠ .un := fun z => by have := hlun _ _ z; omega
    have hrecs : t.recs = s.recs := by obtain ⟨_, _, _, _, _, _, _, _, f⟩ := h.frame; rw [f]
    have hmem : ∀ l id, id ∈ s.recs l ↔ id < s.ncl ∧ l ∈ (s.cls id).lits := by
      intro l id
      rw [← List.count_pos_iff, hocc]
      split
      · rename_i hi; rw [List.count_pos_iff]; simp [hi]
      · rename_i hi; simp [hi]
    obtain ⟨⟨c, n, hf⟩, hcl⟩ := unsatisfyFold hl (decide (t.asg v d ≠ .ne)) (t.recs ⟨v, d, decide (t.asg v d ≠ .ne)⟩) t
    have e : undoAtom level v t d =
        { (t.recs ⟨v, d, decide (t.asg v d ≠ .ne)⟩).foldl (unsatisfyOne level (decide (t.asg v d ≠ .ne))) t with
          alvl := upd2 t.alvl v d (-1), asg := upd2 t.asg v d .un, cid := upd2 t.cid v d (-1) } := by
      simp only [undoAtom, hc, if_true]
      rw [hf]
    have eT : Asg.ofSign (decide (t.asg v d ≠ .ne)) = s.asg v d := by
      rw [k1]
      cases hx : s.asg v d
      · exact absurd hx hu
      · simp [Asg.ofSign]
      · simp [Asg.ofSign]
    have cnt_eq : ∀ id, ((t.cls id).lits.countP fun l => decide (t.alvl l.var l.val > level ∨ t.asg l.var l.val = .un)) =
        ((s.cls id).lits.countP fun l => decide (s.alvl l.var l.val > level ∨ s.asg l.var l.val = .un)) := by
      intro id
      rw [h.lits]
      apply List.countP_congr
      intro m _
      simp only [decide_eq_true_eq]
      by_cases z : D m.var m.val ∧ level < s.alvl m.var m.val
      · obtain ⟨z1, -, -⟩ := h.done _ _ z.1 z.2
        rw [z1]; simp [z.2]
      · obtain ⟨z1, z2, -⟩ := h.keep _ _ z
        rw [z1, z2]
    have hcls : ∀ id, (undoAtom level v t d).cls id = if id ∈ t.recs ⟨v, d, decide (t.asg v d ≠ .ne)⟩ ∧ (t.cls id).lvl > level then
        { t.cls id with
          un := (t.cls id).un +
            ((t.cls id).lits.countP fun l => decide (t.alvl l.var l.val > level ∨ t.asg l.var l.val = .un)),
          lvl := -1, sat := false }
      else t.cls id := by
      intro id; rw [e]; exact hcl id
    refine ⟨?_, ?_, ?_, ?_, ?_, ?_, ?_, ?_⟩
    · obtain ⟨b1, b2, b3, b4, b5, b6, b7, b8, f⟩ := h.frame
      refine ⟨upd2 t.asg v d .un, upd2 t.alvl v d (-1), upd2 t.cid v d (-1), b4, b5, b6, c, n, ?_⟩
      rw [e, hf, f]
    · intro v' d' hD hlt
      rw [e]
      by_cases z : v' = v ∧ d' = d
      · simp only [upd2, z, and_self, if_true]
      · simp only [upd2, z, if_false]
        rcases hD with hD | hD
        · exact h.done v' d' hD hlt
        · exact absurd hD z
    · intro v' d' hn
      rw [e]
      have z : ¬ (v' = v ∧ d' = d) := by rintro ⟨rfl, rfl⟩; exact hn ⟨Or.inr ⟨rfl, rfl⟩, ha⟩
      simp only [upd2, z, if_false]
      exact h.keep v' d' fun y => hn ⟨Or.inl y.1, y.2⟩
    · intro id
      rw [hcls]; split <;> exact h.lits id
    · intro id hi hlv m hm hD hlt htrue
      by_cases z : level < (s.cls id).lvl ∧ ∃ l ∈ (s.cls id).lits, D l.var l.val ∧
          level < s.alvl l.var l.val ∧ s.asg l.var l.val = Asg.ofSign l.eq
      · obtain ⟨-, l', y1, y2, y3, y4⟩ := z
        have := h.cdone id hi hlv l' y1 y2 y3 y4
        rw [hcls, if_neg (fun x => by have := x.2; omega)]
        exact this
      · have hk' := h.ckeep id hi z
        rw [hcls, if_pos]
        · rw [cnt_eq]
          simp only [hk', true_and]
        · rw [hk']
          refine ⟨?_, hlv⟩
          rw [hrecs, hmem]
          refine ⟨hi, ?_⟩
          have hmv : m.var = v ∧ m.val = d := by
            rcases hD with hD | hD
            · exact absurd ⟨hlv, m, hm, hD, hlt, htrue⟩ z
            · exact hD
          have : m = ⟨v, d, decide (t.asg v d ≠ .ne)⟩ := by
            obtain ⟨mv, md, me⟩ := m
            simp only at hmv htrue
            obtain ⟨rfl, rfl⟩ := hmv
            rw [Lit.mk.injEq]
            refine ⟨rfl, rfl, ?_⟩
            rw [k1, htrue]
            cases me <;> simp [Asg.ofSign]
          rw [← this]; exact hm
    · intro id hi hn
      have z : ¬ (level < (s.cls id).lvl ∧ ∃ l ∈ (s.cls id).lits, D l.var l.val ∧
          level < s.alvl l.var l.val ∧ s.asg l.var l.val = Asg.ofSign l.eq) := by
        rintro ⟨y0, l', y1, y2, y3, y4⟩
        exact hn ⟨y0, l', y1, Or.inl y2, y3, y4⟩
      have hk' := h.ckeep id hi z
      rw [hcls, if_neg, hk']
      rintro ⟨x1, x2⟩
      rw [hk'] at x2
      rw [hrecs, hmem] at x1
      exact hn ⟨x2, _, x1.2, Or.inr ⟨rfl, rfl⟩, ha, eT.symm⟩
    · intro v' hV hlt
      rw [e, hf]; exact h.vdone v' hV hlt
    · intro v' hn
      rw [e, hf]; exact h.vkeep v' hn
  · have e : undoAtom level v t d = t := by simp only [undoAtom, hc, if_false]
    rw [e]
    have hk : ¬ (level < s.alvl v d) ∨ D v d := by
      by_cases z : D v d ∧ level < s.alvl v d
      · exact Or.inr z.1
      · left; rw [← (h.keep v d z).2.1]; exact hc
    refine ⟨h.frame, ?_, ?_, h.lits, ?_, ?_, h.vdone, h.vkeep⟩
    · intro v' d' hD hlt
      rcases hD with hD | ⟨rfl, rfl⟩
      · exact h.done v' d' hD hlt
      · rcases hk with hk | hk
        · exact absurd hlt hk
        · exact h.done v' d' hk hlt
    · intro v' d' hn
      exact h.keep v' d' fun y => hn ⟨Or.inl y.1, y.2⟩
    · intro id hi hlv m hm hD hlt htrue
      rcases hD with hD | ⟨z1, z2⟩
      · exact h.cdone id hi hlv m hm hD hlt htrue
      · rcases hk with hk | hk
        · rw [z1, z2] at hlt; exact absurd hlt hk
        · exact h.cdone id hi hlv m hm (by rw [z1, z2]; exact hk) hlt htrue
    · intro id hi hn
      apply h.ckeep id hi
      rintro ⟨y0, l', y1, y2, y3, y4⟩
      exact hn ⟨y0, l', y1, Or.inl y2, y3, y4⟩

theorem Mid.values {level : Int} {s : OSt} {V : Nat → Prop} (hl : -1 ≤ level)
    (hocc : ∀ l id, (s.recs l).count id = if id < s.ncl then (s.cls id).lits.count l else 0)
    (hlun : ∀ v d, s.asg v d = .un → s.alvl v d = -1) (v : Nat) (L : List Nat) :
    ∀ (t : OSt) (D : Nat → Nat → Prop), Mid level s t D V →
    Mid level s (L.foldl (undoAtom level v) t) (fun v' d' => D v' d' ∨ (v' = v ∧ d' ∈ L)) V := by
  induction L with
  | nil => intro t D h; exact h.congr (by simp) (by simp)
  | cons d L ih =>
    intro t D h
    rw [List.foldl_cons]
    exact (ih _ _ (h.atom hl hocc hlun v d)).congr (by
      intro v' d'
      simp only [List.mem_cons]
      constructor
      · rintro ((h | ⟨h1, h2⟩) | ⟨h1, h2⟩)
        · exact Or.inl h
        · exact Or.inr ⟨h1, Or.inl h2⟩
        · exact Or.inr ⟨h1, Or.inr h2⟩
      · rintro (h | ⟨h1, h2 | h2⟩)
        · exact Or.inl (Or.inl h)
        · exact Or.inl (Or.inr ⟨h1, h2⟩)
        · exact Or.inr ⟨h1, h2⟩) (by simp)

theorem Mid.var {level : Int} {s t : OSt} {D : Nat → Nat → Prop} {V : Nat → Prop} (hl : -1 ≤ level)
    (hocc : ∀ l id, (s.recs l).count id = if id < s.ncl then (s.cls id).lits.count l else 0)
    (hlun : ∀ v d, s.asg v d = .un → s.alvl v d = -1) (h : Mid level s t D V) (v : Nat) :
    Mid level s (undoVar level t v) (fun v' d' => D v' d' ∨ (v' = v ∧ d' < s.dom v)) (fun v' => V v' ∨ v' = v) := by
  have hdom : t.dom = s.dom := by obtain ⟨_, _, _, _, _, _, _, _, f⟩ := h.frame; rw [f]
  have h1 := (h.values hl hocc hlun v (List.range (t.dom v))).congr
    (D' := fun v' d' => D v' d' ∨ (v' = v ∧ d' < s.dom v)) (by intro v' d'; rw [hdom]; simp) (V' := V) (by simp)
  let u := (List.range (t.dom v)).foldl (undoAtom level v) t
  have h1 : Mid level s u (fun v' d' => D v' d' ∨ (v' = v ∧ d' < s.dom v)) V := h1
  by_cases hc : u.vlvl v > level
  · have e : undoVar level t v =
        { u with vlvl := upd u.vlvl v (-1), vsat := upd u.vsat v false, vval := upd u.vval v none } := by
      show (if u.vlvl v > level then _ else u) = _
      rw [if_pos hc]
    rw [e]
    refine ⟨?_, h1.done, h1.keep, h1.lits, h1.cdone, h1.ckeep, ?_, ?_⟩
    · obtain ⟨b1, b2, b3, b4, b5, b6, b7, b8, f⟩ := h1.frame
      refine ⟨b1, b2, b3, upd b4 v none, upd b5 v false, upd b6 v (-1), b7, b8, ?_⟩
      rw [f]
    · intro v' hV hlt
      by_cases z : v' = v
      · simp only [upd, z, if_true, and_self]
      · simp only [upd, z, if_false]
        rcases hV with hV | hV
        · exact h1.vdone v' hV hlt
        · exact absurd hV z
    · intro v' hn
      have hlt : level < s.vlvl v := by
        by_cases y : V v ∧ level < s.vlvl v
        · exact y.2
        · have := (h1.vkeep v y).2.2
          omega
      have z : v' ≠ v := by rintro rfl; exact hn ⟨Or.inr rfl, hlt⟩
      simp only [upd, z, if_false]
      exact h1.vkeep v' fun y => hn ⟨Or.inl y.1, y.2⟩
  · have e : undoVar level t v = u := by
      show (if u.vlvl v > level then _ else u) = _
      rw [if_neg hc]
    rw [e]
    refine ⟨h1.frame, h1.done, h1.keep, h1.lits, h1.cdone, h1.ckeep, ?_, ?_⟩
    · intro v' hV hlt
      rcases hV with hV | rfl
      · exact h1.vdone v' hV hlt
      · by_cases y : V v' ∧ level < s.vlvl v'
        · exact h1.vdone v' y.1 hlt
        · have := (h1.vkeep v' y).2.2
          omega
    · intro v' hn
      exact h1.vkeep v' fun y => hn ⟨Or.inl y.1, y.2⟩

theorem Mid.vars {level : Int} {s : OSt} (hl : -1 ≤ level)
    (hocc : ∀ l id, (s.recs l).count id = if id < s.ncl then (s.cls id).lits.count l else 0)
    (hlun : ∀ v d, s.asg v d = .un → s.alvl v d = -1) (L : List Nat) :
    ∀ (t : OSt) (D : Nat → Nat → Prop) (V : Nat → Prop), Mid level s t D V →
    Mid level s (L.foldl (undoVar level) t) (fun v' d' => D v' d' ∨ (v' ∈ L ∧ d' < s.dom v')) (fun v' => V v' ∨ v' ∈ L) := by
  induction L with
  | nil => intro t D V h; exact h.congr (by simp) (by simp)
  | cons v L ih =>
    intro t D V h
    rw [List.foldl_cons]
    exact (ih _ _ _ (h.var hl hocc hlun v)).congr (by
      intro v' d'
      simp only [List.mem_cons]
      constructor
      · rintro ((h | ⟨rfl, h2⟩) | ⟨h1, h2⟩)
        · exact Or.inl h
        · exact Or.inr ⟨Or.inl rfl, h2⟩
        · exact Or.inr ⟨Or.inr h1, h2⟩
      · rintro (h | ⟨rfl | h1, h2⟩)
        · exact Or.inl (Or.inl h)
        · exact Or.inl (Or.inr ⟨rfl, h2⟩)
        · exact Or.inr ⟨h1, h2⟩) (by
      intro v'
      simp only [List.mem_cons]
      exact or_assoc)

/-! ## The whole function -/

/-- What `undoTheory(level)` does. -/
structure Undone (s : OSt) (level : Int) (t : OSt) : Prop where
  frame : ∃ asg alvl cid vval vsat vlvl cls cnt decs,
    t = { s with asg := asg, alvl := alvl, cid := cid, vval := vval, vsat := vsat, vlvl := vlvl, cls := cls, cnt := cnt,
                 decs := decs }
  drop : ∀ v d, level < s.alvl v d → t.asg v d = .un ∧ t.alvl v d = -1 ∧ t.cid v d = -1
  keep : ∀ v d, ¬ level < s.alvl v d → t.asg v d = s.asg v d ∧ t.alvl v d = s.alvl v d ∧ t.cid v d = s.cid v d
  lits : ∀ id, (t.cls id).lits = (s.cls id).lits
  ckeep : ∀ id < s.ncl, (s.cls id).sat = true → ¬ level < (s.cls id).lvl → t.cls id = s.cls id
  cdrop : ∀ id < s.ncl, ((s.cls id).sat = true → level < (s.cls id).lvl) →
    (t.cls id).sat = false ∧ (t.cls id).lvl = -1 ∧ (t.cls id).un = nU t.asg (t.cls id).lits
  vdrop : ∀ v, 1 ≤ v → v ≤ s.nv → level < s.vlvl v → t.vval v = none ∧ t.vsat v = false ∧ t.vlvl v = -1
  vkeep : ∀ v, ¬ (1 ≤ v ∧ v ≤ s.nv ∧ level < s.vlvl v) →
    t.vval v = s.vval v ∧ t.vsat v = s.vsat v ∧ t.vlvl v = s.vlvl v
  decs : t.decs = s.decs.filter fun l => t.asg l.var l.val ≠ .un

theorem atoms_nodup (s : OSt) : s.atoms.Nodup := by
  unfold OSt.atoms List.Nodup
  rw [List.pairwise_flatMap]
  constructor
  · intro v _
    rw [List.pairwise_map]
    apply List.Pairwise.imp _ List.nodup_range
    intro a b hab h
    exact hab (by simpa using h)
  · apply List.Pairwise.imp _ (List.nodup_range' (s := 1) (n := s.nv) (step := 1))
    intro a b hab x hx y hy hxy
    simp only [List.mem_map] at hx hy
    obtain ⟨_, _, rfl⟩ := hx
    obtain ⟨_, _, rfl⟩ := hy
    simp at hxy
    exact hab hxy.1

theorem mem_atoms (s : OSt) (v d : Nat) : (v, d) ∈ s.atoms ↔ 1 ≤ v ∧ v ≤ s.nv ∧ d < s.dom v := by
  unfold OSt.atoms
  simp only [List.mem_flatMap, List.mem_map, List.mem_range, List.mem_range'_1, Prod.mk.injEq]
  constructor
  · rintro ⟨v', h1, d', h2, rfl, rfl⟩; omega
  · rintro ⟨h1, h2, h3⟩; exact ⟨v, by omega, d, h3, rfl, rfl⟩

theorem undo_undone {s : OSt} (h : Base s) {level : Int} (hl : -1 ≤ level) : Undone s level (undo s level) := by
  obtain ⟨⟨c, n, hf⟩, hlits, hcls⟩ := addBackFold hl s.atoms s h.occ h.lun (fun id hi hs => (h.cuns id hi hs).2.2) (atoms_nodup s)
  let a := s.atoms.foldl (addBack level) s
  have hf : a = { s with cls := c, cnt := n } := hf
  have hlits : ∀ id, (a.cls id).lits = (s.cls id).lits := hlits
  have hcls : ∀ id < s.ncl, a.cls id = _ := hcls
  have arecs : a.recs = s.recs := by rw [hf]
  have ancl : a.ncl = s.ncl := by rw [hf]
  have aasg : a.asg = s.asg := by rw [hf]
  have aalvl : a.alvl = s.alvl := by rw [hf]
  have acid : a.cid = s.cid := by rw [hf]
  have anv : a.nv = s.nv := by rw [hf]
  have adom : a.dom = s.dom := by rw [hf]
  have avval : a.vval = s.vval := by rw [hf]
  have avsat : a.vsat = s.vsat := by rw [hf]
  have avlvl : a.vlvl = s.vlvl := by rw [hf]
  have adecs : a.decs = s.decs := by rw [hf]
  have M := Mid.vars (s := a) hl (by intro l id; rw [arecs, ancl, hlits]; exact h.occ l id)
    (by rw [aasg, aalvl]; exact h.lun) (List.range' 1 a.nv) a _ _ (Mid.init level a)
  let b := (List.range' 1 a.nv).foldl (undoVar level) a
  have M : Mid level a b (fun v d => False ∨ (v ∈ List.range' 1 a.nv ∧ d < a.dom v)) (fun v => False ∨ v ∈ List.range' 1 a.nv) := M
  have M := M.congr (D' := fun v d => 1 ≤ v ∧ v ≤ s.nv ∧ d < s.dom v) (V' := fun v => 1 ≤ v ∧ v ≤ s.nv)
    (by intro v d; rw [anv, adom]; simp only [List.mem_range'_1, false_or]; omega)
    (by intro v; rw [anv]; simp only [List.mem_range'_1, false_or]; omega)
  have e : undo s level = { b with decs := b.decs.filter fun l => b.asg l.var l.val ≠ .un } := rfl
  have hin : ∀ v d, level < s.alvl v d → 1 ≤ v ∧ v ≤ s.nv ∧ d < s.dom v := by
    intro v d hlt
    apply h.arng
    intro z
    have := h.lun v d z; omega
  have drop : ∀ v d, level < s.alvl v d → b.asg v d = .un ∧ b.alvl v d = -1 ∧ b.cid v d = -1 := by
    intro v d hlt
    exact M.done v d (hin v d hlt) (by rw [aalvl]; exact hlt)
  have keep : ∀ v d, ¬ level < s.alvl v d → b.asg v d = s.asg v d ∧ b.alvl v d = s.alvl v d ∧ b.cid v d = s.cid v d := by
    intro v d hn
    have := M.keep v d (fun y => hn (by rw [← aalvl]; exact y.2))
    rwa [aasg, aalvl, acid] at this
  have asg_un : ∀ v d, b.asg v d = .un ↔ (s.alvl v d > level ∨ s.asg v d = .un) := by
    intro v d
    by_cases z : level < s.alvl v d
    · simp [(drop v d z).1, z]
    · simp [(keep v d z).1, z]
  have blits : ∀ id, (b.cls id).lits = (s.cls id).lits := fun id => (M.lits id).trans (hlits id)
  rw [e]
  refine ⟨?_, drop, keep, blits, ?_, ?_, ?_, ?_, ?_⟩
  · obtain ⟨b1, b2, b3, b4, b5, b6, b7, b8, f⟩ := M.frame
    refine ⟨b1, b2, b3, b4, b5, b6, b7, b8, b.decs.filter fun l => b.asg l.var l.val ≠ .un, ?_⟩
    generalize b.decs.filter (fun l => decide (b.asg l.var l.val ≠ .un)) = ds
    rw [f, hf]
  · intro id hi hs hn
    have ha : a.cls id = s.cls id := by rw [hcls id hi, if_pos hs]
    have := M.ckeep id (by rw [ancl]; exact hi) (by rw [ha]; exact fun z => hn z.1)
    show b.cls id = _
    rw [this, ha]
  · intro id hi hlv
    show (b.cls id).sat = false ∧ (b.cls id).lvl = -1 ∧ (b.cls id).un = nU b.asg (b.cls id).lits
    rw [blits]
    by_cases hs : (s.cls id).sat = true
    · have ha : a.cls id = s.cls id := by rw [hcls id hi, if_pos hs]
      obtain ⟨z, m, hm, h1, h2⟩ := h.csat id hi hs
      have hlt := hlv hs
      have hmlt : level < s.alvl m.var m.val := by rw [h2]; exact hlt
      obtain ⟨r1, r2, r3⟩ := M.cdone id (by rw [ancl]; exact hi) (by rw [ha]; exact hlt) m (by rw [ha]; exact hm)
        (hin _ _ hmlt) (by rw [aalvl]; exact hmlt) (by rw [aasg]; exact h1)
      refine ⟨r1, r2, ?_⟩
      rw [r3, ha, z, aalvl, aasg]
      simp only [nU]
      have : ((s.cls id).lits.countP fun l => decide (s.alvl l.var l.val > level ∨ s.asg l.var l.val = .un)) =
          ((s.cls id).lits.countP fun l => decide (b.asg l.var l.val = .un)) := by
        apply List.countP_congr
        intro m _
        simp only [decide_eq_true_eq]
        exact (asg_un _ _).symm
      rw [this]; omega
    · have hs' : (s.cls id).sat = false := by simpa using hs
      obtain ⟨z1, z2, z3⟩ := h.cuns id hi hs'
      have ha : a.cls id = _ := hcls id hi
      rw [if_neg hs] at ha
      have := M.ckeep id (by rw [ancl]; exact hi) (by rw [ha]; rintro ⟨y, -⟩; simp only at y; omega)
      rw [this, ha]
      refine ⟨hs', z1, ?_⟩
      simp only
      rw [z2]
      have : nU b.asg (s.cls id).lits = nU s.asg (s.cls id).lits + nUndo level s.alvl s.atoms (s.cls id).lits := by
        unfold nU nUndo
        rw [countP_split (fun l : Lit => decide (b.asg l.var l.val = .un)) (fun l => decide (level < s.alvl l.var l.val))]
        congr 1
        · apply List.countP_congr
          intro m _
          simp only [Bool.and_eq_true, decide_eq_true_eq, Bool.not_eq_true', decide_eq_false_iff_not]
          rw [asg_un]
          constructor
          · rintro ⟨x | x, y⟩
            · exact absurd x y
            · exact x
          · intro x
            refine ⟨Or.inr x, ?_⟩
            have := h.lun _ _ x; omega
        · apply List.countP_congr
          intro m _
          simp only [Bool.and_eq_true, decide_eq_true_eq]
          rw [asg_un, mem_atoms]
          constructor
          · rintro ⟨-, y⟩; exact ⟨hin _ _ y, y⟩
          · rintro ⟨-, y⟩; exact ⟨Or.inl y, y⟩
      rw [this]; omega
  · intro v h1 h2 hlt
    exact M.vdone v ⟨h1, h2⟩ (by rw [avlvl]; exact hlt)
  · intro v hn
    have := M.vkeep v (fun y => hn ⟨y.1.1, y.1.2, by rw [← avlvl]; exact y.2⟩)
    rwa [avval, avsat, avlvl] at this
  · have : b.decs = s.decs := by
      obtain ⟨b1, b2, b3, b4, b5, b6, b7, b8, f⟩ := M.frame
      rw [f, hf]
    show b.decs.filter _ = _
    rw [this]

/-- After a conflict, undoing to a lower level gives back the invariant. -/
theorem undo_inv {s : OSt} (h : Inv s) {level : Int} (h1 : -1 ≤ level) (h2 : level < s.LEVEL) {s' t : OSt}
    (hs' : ∃ L n, s' = { s with LEVEL := L, nBacktracks := n, conflict := false })
    (ht : ∃ us, t = { undo s' level with LEVEL := level, units := us } ∧
      ∀ i ∈ us, i < s.ncl ∧ ((undo s' level).cls i).un ≤ 1) : Inv t := by
  obtain ⟨L, n, hs'⟩ := hs'
  obtain ⟨us, ht, hus⟩ := ht
  have hB : Base s' := by rw [hs']; exact ⟨h.occ, h.arng, h.lun, h.csat, h.cuns⟩
  have U := undo_undone hB h1
  obtain ⟨b1, b2, b3, b4, b5, b6, b7, b8, b9, f⟩ := U.frame
  have e_asg : s'.asg = s.asg := by rw [hs']
  have e_alvl : s'.alvl = s.alvl := by rw [hs']
  have e_cls : s'.cls = s.cls := by rw [hs']
  have e_ncl : s'.ncl = s.ncl := by rw [hs']
  have e_vval : s'.vval = s.vval := by rw [hs']
  have e_vsat : s'.vsat = s.vsat := by rw [hs']
  have e_vlvl : s'.vlvl = s.vlvl := by rw [hs']
  have e_nv : s'.nv = s.nv := by rw [hs']
  have t_asg : t.asg = (undo s' level).asg := by rw [ht]
  have t_alvl : t.alvl = (undo s' level).alvl := by rw [ht]
  have t_cls : t.cls = (undo s' level).cls := by rw [ht]
  have t_vval : t.vval = (undo s' level).vval := by rw [ht]
  have t_vsat : t.vsat = (undo s' level).vsat := by rw [ht]
  have t_vlvl : t.vlvl = (undo s' level).vlvl := by rw [ht]
  have t_nv : t.nv = s.nv := by rw [ht, f, hs']
  have t_dom : t.dom = s.dom := by rw [ht, f, hs']
  have t_ncl : t.ncl = s.ncl := by rw [ht, f, hs']
  have t_recs : t.recs = s.recs := by rw [ht, f, hs']
  have t_conf : t.conflict = false := by rw [ht, f, hs']
  have t_lev : t.LEVEL = level := by rw [ht]
  have t_lits : ∀ id, (t.cls id).lits = (s.cls id).lits := by
    intro id; rw [t_cls, U.lits, e_cls]
  have drop : ∀ v d, level < s.alvl v d → t.asg v d = .un ∧ t.alvl v d = -1 := by
    intro v d hlt
    rw [t_asg, t_alvl]
    exact ⟨(U.drop v d (by rw [e_alvl]; exact hlt)).1, (U.drop v d (by rw [e_alvl]; exact hlt)).2.1⟩
  have keep : ∀ v d, ¬ level < s.alvl v d → t.asg v d = s.asg v d ∧ t.alvl v d = s.alvl v d := by
    intro v d hn
    have := U.keep v d (by rw [e_alvl]; exact hn)
    rw [t_asg, t_alvl]
    rw [e_asg, e_alvl] at this
    exact ⟨this.1, this.2.1⟩
  have nun : ∀ v d, t.asg v d ≠ .un → ¬ level < s.alvl v d := fun v d hv z => hv (drop v d z).1
  have cls_cases : ∀ id < s.ncl, ((s.cls id).sat = true ∧ ¬ level < (s.cls id).lvl ∧ t.cls id = s.cls id) ∨
      (((s.cls id).sat = true → level < (s.cls id).lvl) ∧ (t.cls id).sat = false ∧ (t.cls id).lvl = -1 ∧
        (t.cls id).un = nU t.asg (t.cls id).lits) := by
    intro id hi
    by_cases z : (s.cls id).sat = true ∧ ¬ level < (s.cls id).lvl
    · left
      refine ⟨z.1, z.2, ?_⟩
      rw [t_cls, U.ckeep id (by rw [e_ncl]; exact hi) (by rw [e_cls]; exact z.1) (by rw [e_cls]; exact z.2), e_cls]
    · right
      have z' : (s.cls id).sat = true → level < (s.cls id).lvl := fun y => Classical.byContradiction fun x => z ⟨y, x⟩
      refine ⟨z', ?_⟩
      rw [t_cls, t_asg]
      exact U.cdrop id (by rw [e_ncl]; exact hi) (by rw [e_cls]; exact z')
  have vcases : ∀ v, (1 ≤ v ∧ v ≤ s.nv ∧ level < s.vlvl v ∧ t.vval v = none ∧ t.vsat v = false ∧ t.vlvl v = -1) ∨
      (¬ (1 ≤ v ∧ v ≤ s.nv ∧ level < s.vlvl v) ∧ t.vval v = s.vval v ∧ t.vsat v = s.vsat v ∧ t.vlvl v = s.vlvl v) := by
    intro v
    rw [t_vval, t_vsat, t_vlvl]
    by_cases z : 1 ≤ v ∧ v ≤ s.nv ∧ level < s.vlvl v
    · left
      exact ⟨z.1, z.2.1, z.2.2, U.vdrop v z.1 (by rw [e_nv]; exact z.2.1) (by rw [e_vlvl]; exact z.2.2)⟩
    · right
      refine ⟨z, ?_⟩
      have := U.vkeep v (by rw [e_nv, e_vlvl]; exact z)
      rwa [e_vval, e_vsat, e_vlvl] at this
  -- a variable whose value has been set above `level` is in range
  have vin : ∀ v d, s.vval v = some d → 1 ≤ v ∧ v ≤ s.nv := by
    intro v d hv
    have := (h.vars.vv v d hv).1
    have := h.arng v d (by rw [this]; simp)
    exact ⟨this.1, this.2.1⟩
  have vkept : ∀ v d, t.vval v = some d → s.vval v = some d ∧ ¬ level < s.vlvl v ∧ t.vlvl v = s.vlvl v := by
    intro v d hv
    rcases vcases v with ⟨-, -, -, z, -⟩ | ⟨z, z1, -, z2⟩
    · rw [z] at hv; cases hv
    · rw [z1] at hv
      have := vin v d hv
      exact ⟨hv, fun y => z ⟨this.1, this.2, y⟩, z2⟩
  have C : Core t := by
    constructor
    · intro l id
      rw [t_recs, t_ncl, t_lits]; exact h.occ l id
    · intro id hi l hl
      rw [t_ncl] at hi; rw [t_lits] at hl; rw [t_nv, t_dom]
      exact h.rng id hi l hl
    · intro v d hv
      rw [t_nv, t_dom]
      rw [(keep v d (nun v d hv)).1] at hv
      exact h.arng v d hv
    · intro v d hv
      by_cases z : level < s.alvl v d
      · exact (drop v d z).2
      · rw [(keep v d z).1] at hv
        rw [(keep v d z).2]; exact h.lun v d hv
    · intro v d hv
      have z := nun v d hv
      rw [(keep v d z).1] at hv
      rw [(keep v d z).2, t_lev]
      exact ⟨(h.las v d hv).1, by omega⟩
    · intro id hi hs
      rw [t_ncl] at hi
      rcases cls_cases id hi with ⟨z1, z2, z3⟩ | ⟨-, z, -⟩
      · rw [z3]
        obtain ⟨y, m, hm, y1, y2⟩ := h.csat id hi z1
        refine ⟨y, m, hm, ?_⟩
        have : ¬ level < s.alvl m.var m.val := by rw [y2]; exact z2
        rw [(keep _ _ this).1, (keep _ _ this).2]
        exact ⟨y1, y2⟩
      · rw [z] at hs; cases hs
    · intro id hi hs
      rw [t_ncl] at hi
      rcases cls_cases id hi with ⟨z1, z2, z3⟩ | ⟨z0, z1, z2, z3⟩
      · rw [z3, z1] at hs; cases hs
      · refine ⟨z2, z3, ?_⟩
        intro l hl ht'
        rw [t_lits] at hl
        have hu : t.asg l.var l.val ≠ .un := by rw [ht']; exact Asg.ofSign_ne _
        have z := nun _ _ hu
        rw [(keep _ _ z).1] at ht'
        -- the clause would still be satisfied
        by_cases hs0 : (s.cls id).sat = true
        · have := h.smin id hi hs0 l hl ht'
          have := z0 hs0
          omega
        · exact (h.cuns id hi (by simpa using hs0)).2.2 l hl ht'
    · intro id hi hs
      rw [t_ncl] at hi
      rcases cls_cases id hi with ⟨z1, z2, z3⟩ | ⟨z0, z1, z2, z3⟩
      · rw [z3, z1] at hs; cases hs
      · left
        rw [t_lits]
        by_cases hs0 : (s.cls id).sat = true
        · obtain ⟨-, m, hm, y1, y2⟩ := h.csat id hi hs0
          exact ⟨m, hm, (drop _ _ (by rw [y2]; exact z0 hs0)).1⟩
        · have hs0' : (s.cls id).sat = false := by simpa using hs0
          rcases h.nz id hi hs0' with ⟨m, hm, y⟩ | ⟨-, m, hm, y1, y2⟩
          · refine ⟨m, hm, ?_⟩
            have := h.lun _ _ y
            rw [(keep _ _ (by omega)).1]; exact y
          · exact ⟨m, hm, (drop _ _ (by omega)).1⟩
    · intro hc; rw [t_conf] at hc; cases hc
    · intro i hi
      rw [t_ncl, t_cls]
      have := hus i (by rw [ht] at hi; exact hi)
      exact ⟨this.1, Or.inr this.2⟩
    · intro id hi hs l hl hv
      rw [t_ncl] at hi
      rcases cls_cases id hi with ⟨z1, z2, z3⟩ | ⟨-, z, -⟩
      · rw [z3] at hl ⊢
        have hu : t.asg l.var l.val ≠ .un := by rw [hv]; exact Asg.ofSign_ne _
        have z := nun _ _ hu
        rw [(keep _ _ z).1] at hv
        rw [(keep _ _ z).2]
        exact h.smin id hi z1 l hl hv
      · rw [z] at hs; cases hs
  refine ⟨C, ?_, ?_, ?_, ?_, ?_, ?_⟩
  · intro v d hv
    obtain ⟨y1, y2, y3⟩ := vkept v d hv
    obtain ⟨x1, x2⟩ := h.vars.vv v d y1
    have z : ¬ level < s.alvl v d := by omega
    rw [(keep v d z).1, (keep v d z).2, y3]
    exact ⟨x1, x2⟩
  · intro v d hv
    have z := nun v d (by rw [hv]; simp)
    rw [(keep v d z).1] at hv
    have x := h.vars.ve v d hv
    have x2 := (h.vars.vv v d x).2
    rcases vcases v with ⟨-, -, y, -⟩ | ⟨-, y, -⟩
    · omega
    · rw [y]; exact x
  · intro v
    rcases vcases v with ⟨y0, -, -, y1, y2, -⟩ | ⟨-, y1, y2, -⟩
    · rw [y1, y2]; simp; omega
    · rw [y1, y2]; exact h.vars.vs v
  · intro v hv
    rcases vcases v with ⟨-, -, -, -, -, y⟩ | ⟨-, y1, -, y2⟩
    · exact y
    · rw [y2]; rw [y1] at hv; exact h.vars.vl v hv
  · intro v d e hv he
    rw [t_dom] at he
    obtain ⟨y1, y2, y3⟩ := vkept v d hv
    left
    rcases h.vars.full v d e y1 he with ⟨x1, x2⟩ | ⟨-, x⟩
    · have z : ¬ level < s.alvl v e := by omega
      rw [(keep v e z).1, (keep v e z).2, y3]
      exact ⟨x1, x2⟩
    · omega
  · intro v k h1' h2' hk hlev hnone
    rw [t_nv] at h2'
    rw [t_lev] at hlev
    rw [t_dom]
    have hk' : k ≤ level := by rcases hlev with b | ⟨b, -⟩ <;> omega
    have hn : s.vval v = none ∨ k < s.vlvl v := by
      rcases vcases v with ⟨-, -, y, -⟩ | ⟨-, y1, -, y2⟩
      · right; omega
      · rw [y1, y2] at hnone; exact hnone
    obtain ⟨d, e, x1, x2, x3, x4, x5⟩ := h.vars.two v k h1' h2' hk (Or.inl (by omega)) hn
    have free : ∀ e, (s.asg v e = .un ∨ k < s.alvl v e) → (t.asg v e = .un ∨ k < t.alvl v e) := by
      intro e he
      by_cases z : level < s.alvl v e
      · exact Or.inl (drop v e z).1
      · rw [(keep v e z).1, (keep v e z).2]; exact he
    exact ⟨d, e, x1, x2, x3, free d x4, free e x5⟩

end Mvl.Orig
