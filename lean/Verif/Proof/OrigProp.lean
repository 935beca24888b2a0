import Verif.Proof.OrigUndo

/-! # The original solver: unit propagation and the choice of a literal -/

namespace Mvl.Orig

open Mvl

/-- `σ` takes values in the domains and satisfies every clause of `CLAUSELIST`. -/
def SolvesAll (s : OSt) (σ : Assignment) : Prop :=
  (∀ v, 1 ≤ v → v ≤ s.nv → σ v < s.dom v) ∧ ∀ id < s.ncl, ∃ l ∈ (s.cls id).lits, l.holds σ

/-- Changes of counters and the like do not touch the invariant. -/
theorem Inv.misc {s : OSt} (h : Inv s) (cnt : Lit → Int) (cid : Nat → Nat → Int) (decs : List Lit) (uc : Int)
    (a b c d : Nat) (p : Ptr) (t : Nat) (nb : Bool) :
    Inv { s with cnt := cnt, cid := cid, decs := decs, unitClause := uc, nUnits := a, nBacktracks := b,
                 nDecisions := c, nEntails := d, ptr := p, ticks := t, noBranch := nb } :=
  ⟨⟨h.occ, h.rng, h.arng, h.lun, h.las, h.csat, h.cuns, h.nz, h.conf, h.uni, h.smin⟩,
    ⟨h.vars.vv, h.vars.ve, h.vars.vs, h.vars.vl, h.vars.full, h.vars.two⟩⟩

theorem Inv.units {s : OSt} (h : Inv s) (us : List Nat) (hu : ∀ i ∈ us, i ∈ s.units) : Inv { s with units := us } :=
  ⟨⟨h.occ, h.rng, h.arng, h.lun, h.las, h.csat, h.cuns, h.nz, h.conf, fun i hi => h.uni i (hu i hi), h.smin⟩,
    ⟨h.vars.vv, h.vars.ve, h.vars.vs, h.vars.vl, h.vars.full, h.vars.two⟩⟩

/-- The next level begins. -/
theorem Inv.up {s : OSt} (h : Inv s) (hL : 0 ≤ s.LEVEL) (hc : s.conflict = false) :
    Inv { s with LEVEL := s.LEVEL + 1 } := by
  refine ⟨⟨h.occ, h.rng, h.arng, h.lun, ?_, h.csat, h.cuns, ?_, h.conf, h.uni, h.smin⟩,
    ⟨h.vars.vv, h.vars.ve, h.vars.vs, h.vars.vl, ?_, ?_⟩⟩
  · intro v d hv
    have := h.las v d hv
    exact ⟨this.1, by show s.alvl v d ≤ s.LEVEL + 1; omega⟩
  · intro id hi hs
    rcases h.nz id hi hs with b | ⟨b, -⟩
    · exact Or.inl b
    · rw [hc] at b; cases b
  · intro v d e hv he
    rcases h.vars.full v d e hv he with b | ⟨b, -⟩
    · exact Or.inl b
    · rw [hc] at b; cases b
  · intro v k h1 h2 hk hlev hn
    simp only at h2 hlev hn ⊢
    have vle : s.vlvl v ≤ s.LEVEL := by
      cases hv : s.vval v with
      | none => have := h.vars.vl v hv; omega
      | some d =>
        obtain ⟨a, b⟩ := h.vars.vv v d hv
        have := (h.las v d (by rw [a]; simp)).2
        omega
    by_cases z : k ≤ s.LEVEL
    · exact h.vars.two v k h1 h2 hk (Or.inr ⟨z, hc, by omega⟩) hn
    · have hn' : s.vval v = none := by
        rcases hn with b | b
        · exact b
        · omega
      obtain ⟨d, e, a1, a2, a3, a4, a5⟩ := h.vars.two v s.LEVEL h1 h2 (by omega) (Or.inr ⟨Int.le_refl _, hc, by omega⟩)
        (Or.inl hn')
      have un : ∀ e, (s.asg v e = .un ∨ s.LEVEL < s.alvl v e) → s.asg v e = .un := by
        intro e he
        rcases he with b | b
        · exact b
        · by_cases y : s.asg v e = .un
          · exact y
          · have := (h.las v e y).2; omega
      exact ⟨d, e, a1, a2, a3, Or.inl (un d a4), Or.inl (un e a5)⟩

theorem Ext.of_misc {s t : OSt} (cnt : Lit → Int) (cid : Nat → Nat → Int) (decs : List Lit) (uc : Int) (us : List Nat)
    (a d : Nat) (p : Ptr) (tk : Nat)
    (ht : t = { s with cnt := cnt, cid := cid, decs := decs, unitClause := uc, units := us, nUnits := a,
                       nEntails := d, ptr := p, ticks := tk }) : Ext s t := by
  subst ht
  exact ⟨rfl, rfl, rfl, rfl, fun _ => rfl, rfl, rfl, rfl, rfl, fun _ _ _ => ⟨rfl, rfl⟩, fun _ _ h h' => absurd h h',
    id, fun _ => id⟩

theorem Ext.solvesAll {s t : OSt} (h : Ext s t) (σ : Assignment) : SolvesAll t σ ↔ SolvesAll s σ := by
  unfold SolvesAll
  rw [h.nv, h.dom, h.ncl]
  simp only [h.lits]

/-- An unassigned atom belongs to a variable without a value, unless there is a conflict. -/
theorem Inv.noval {s : OSt} (h : Inv s) (hc : s.conflict = false) {v d : Nat} (hd : d < s.dom v)
    (hu : s.asg v d = .un) : s.vval v = none := by
  cases hv : s.vval v with
  | none => rfl
  | some e =>
    rcases h.vars.full v e d hv hd with ⟨b, -⟩ | ⟨b, -⟩
    · exact absurd hu b
    · rw [hc] at b; cases b

/-- In a clause with at most one unassigned literal, not satisfied, an agreeing solution makes that literal true. -/
theorem Inv.unit_holds {s : OSt} (h : Inv s) {id : Nat} (hi : id < s.ncl) (hs : (s.cls id).sat = false)
    (hun : (s.cls id).un ≤ 1) {l : Lit} (hl : l ∈ (s.cls id).lits) (hu : s.asg l.var l.val = .un) {σ : Assignment}
    (hσ : SolvesAll s σ) (ha : Agree s σ) : l.holds σ := by
  obtain ⟨m, hm, hmσ⟩ := hσ.2 id hi
  obtain ⟨-, c1, c2⟩ := h.cuns id hi hs
  have mu : s.asg m.var m.val = .un := by
    cases hx : s.asg m.var m.val
    · rfl
    · exfalso
      have := c2 m hm
      have hd := (ha m.var m.val).1 hx
      rw [hx] at this
      cases he : m.eq
      · rw [Lit.holds, he] at hmσ; simp at hmσ; exact hmσ hd
      · rw [he] at this; simp [Asg.ofSign] at this
    · exfalso
      have := c2 m hm
      have hd := (ha m.var m.val).2 hx
      rw [hx] at this
      cases he : m.eq
      · rw [he] at this; simp [Asg.ofSign] at this
      · rw [Lit.holds, he] at hmσ; simp at hmσ; exact hd hmσ
  by_cases e : m = l
  · rw [← e]; exact hmσ
  · exfalso
    have : 2 ≤ nU s.asg (s.cls id).lits := by
      unfold nU
      obtain ⟨p, q, hpq⟩ := List.append_of_mem hl
      rw [hpq] at hm ⊢
      rw [List.countP_append, List.countP_cons_of_pos (by simpa using hu)]
      rcases List.mem_append.1 hm with b | b
      · have := List.countP_pos_iff (p := fun l : Lit => decide (s.asg l.var l.val = .un)) |>.2 ⟨m, b, by simpa using mu⟩
        omega
      · rcases List.mem_cons.1 b with b | b
        · exact absurd b e
        · have := List.countP_pos_iff (p := fun l : Lit => decide (s.asg l.var l.val = .un)) |>.2 ⟨m, b, by simpa using mu⟩
          omega
    omega

/-- What unit propagation does. -/
structure Propd (s t : OSt) : Prop where
  inv  : Inv t
  ext  : Ext s t
  agree : ∀ σ : Assignment, SolvesAll s σ → Agree s σ → Agree t σ
  fin  : t.conflict = true ∨ (t.units = [] ∧ ∀ id ∈ s.units, (t.cls id).sat = true)
  decs : ∃ ds, t.decs = s.decs ++ ds ∧ ∀ m ∈ ds, s.asg m.var m.val = .un ∧ t.asg m.var m.val ≠ .un ∧
    t.cid m.var m.val ≠ -1
  grow : t.decs = s.decs → t.asg = s.asg
  cid  : ∀ v e, t.cid v e = s.cid v e ∨ (s.asg v e = .un ∧ t.asg v e ≠ .un ∧ t.cid v e ≠ -1)

theorem unitLoop_propd {cfg : OCfg} : ∀ (f : Nat) {s t : OSt}, Inv s → 0 ≤ s.LEVEL → unitLoop cfg f s = .ok t →
    Propd s t := by
  intro f
  induction f with
  | zero => intro s t _ _ h; cases h
  | succ f ih =>
    intro s t h hL ht
    rw [unitLoop] at ht
    by_cases hc : s.conflict = true
    · rw [if_pos hc] at ht
      cases ht
      exact ⟨h, Ext.refl s, fun _ _ => id, Or.inl hc, ⟨[], by simp, by simp⟩, fun _ => rfl, fun _ _ => Or.inl rfl⟩
    rw [if_neg hc] at ht
    have hc' : s.conflict = false := by simpa using hc
    cases hus : s.units with
    | nil =>
      simp only [hus] at ht
      cases ht
      exact ⟨h, Ext.refl s, fun _ _ => id, Or.inr ⟨hus, by simp [hus]⟩, ⟨[], by simp, by simp⟩, fun _ => rfl, fun _ _ => Or.inl rfl⟩
    | cons id rest =>
      simp only [hus] at ht
      let s1 : OSt := { s with nUnits := s.nUnits + 1, unitClause := id, units := rest }
      have hI : Inv s1 := ((h.units rest (by rw [hus]; exact fun i hi => List.mem_cons_of_mem _ hi)).misc s.cnt s.cid s.decs
        id (s.nUnits + 1) s.nBacktracks s.nDecisions s.nEntails s.ptr s.ticks s.noBranch)
      have hE : Ext s s1 := Ext.of_misc s.cnt s.cid s.decs id rest (s.nUnits + 1) s.nEntails s.ptr s.ticks rfl
      obtain ⟨hi, hsm⟩ := h.uni id (by rw [hus]; exact List.mem_cons_self)
      rw [if_pos hi] at ht
      by_cases hs : (s.cls id).sat = true
      · rw [if_pos hs] at ht
        have P := ih (s := s1) hI hL ht
        refine ⟨P.inv, hE.trans P.ext, P.agree, ?_, P.decs, P.grow, P.cid⟩
        rcases P.fin with b | ⟨b1, b2⟩
        · exact Or.inl b
        · refine Or.inr ⟨b1, ?_⟩
          intro i hi
          rw [hus] at hi
          rcases List.mem_cons.1 hi with rfl | hi
          · exact P.ext.smono i hs
          · exact b2 i hi
      · rw [if_neg hs] at ht
        have hs' : (s.cls id).sat = false := by simpa using hs
        have hun : (s.cls id).un ≤ 1 := by
          rcases hsm with b | b
          · exact absurd b hs
          · exact b
        cases hf : (s.cls id).lits.find? fun l => s.asg l.var l.val = .un with
        | none =>
          exfalso
          rw [List.find?_eq_none] at hf
          rcases h.nz id hi hs' with ⟨m, hm, b⟩ | ⟨b, -⟩
          · exact hf m hm (by simpa using b)
          · exact hc b
        | some l =>
          rw [hf] at ht
          simp only at ht
          obtain ⟨s2, h2, ht⟩ := Res.bind_eq_ok.1 ht
          have hl := List.mem_of_find?_eq_some hf
          have hu : s.asg l.var l.val = .un := by simpa using List.find?_some hf
          have hr := h.rng id hi l hl
          have S := reduce_step (s := s1) hI hL hc' hr hu (h.noval hc' hr.2.2 hu) h2
          have P := ih S.inv (by rw [S.ext.lev]; exact hL) ht
          have E := (hE.trans S.ext).trans P.ext
          refine ⟨P.inv, E, ?_, ?_, ?_, ?_, ?_⟩
          · intro σ hσ ha
            apply P.agree σ (((hE.trans S.ext).solvesAll σ).2 hσ)
            exact S.agree σ hσ.1 (h.unit_holds hi hs' hun hl hu hσ ha) ha
          · rcases P.fin with b | ⟨b1, b2⟩
            · exact Or.inl b
            · refine Or.inr ⟨b1, ?_⟩
              intro i hi'
              rw [hus] at hi'
              rcases List.mem_cons.1 hi' with rfl | hi'
              · exact P.ext.smono i (S.sats i hi hl)
              · exact b2 i (S.units i hi')
          · obtain ⟨ds, e1, e2⟩ := S.decs
            obtain ⟨ds', e1', e2'⟩ := P.decs
            refine ⟨l :: ds ++ ds', by rw [e1', e1]; simp [s1], ?_⟩
            have key : ∀ m : Lit, s.asg m.var m.val = .un → s2.asg m.var m.val ≠ .un → s2.cid m.var m.val = id →
                s.asg m.var m.val = .un ∧ t.asg m.var m.val ≠ .un ∧ t.cid m.var m.val ≠ -1 := by
              intro m m1 m2 m3
              refine ⟨m1, by rw [(P.ext.old _ _ m2).1]; exact m2, ?_⟩
              rcases P.cid m.var m.val with b | ⟨-, -, b⟩
              · rw [b, m3]; omega
              · exact b
            intro m hm
            rcases List.mem_append.1 hm with hm | hm
            · rcases List.mem_cons.1 hm with rfl | hm
              · exact key m hu (by rw [S.val]; exact Asg.ofSign_ne _) S.cidl
              · obtain ⟨-, m1, m2, m3⟩ := e2 m hm
                exact key m m1 m2 m3
            · obtain ⟨m1, m2, m3⟩ := e2' m hm
              refine ⟨?_, m2, m3⟩
              by_cases y : s.asg m.var m.val = .un
              · exact y
              · rw [((hE.trans S.ext).old _ _ y).1] at m1; exact absurd m1 y
          · intro z
            exfalso
            obtain ⟨ds, e1, -⟩ := S.decs
            obtain ⟨ds', e1', -⟩ := P.decs
            rw [e1', e1] at z
            have := congrArg List.length z
            simp [s1] at this
          · intro v e
            rcases P.cid v e with b | ⟨b1, b2, b3⟩
            · rcases S.cid v e with c | ⟨c1, c2, c3⟩
              · left; rw [b, c]
              · right
                refine ⟨c1, by rw [(P.ext.old _ _ c2).1]; exact c2, ?_⟩
                rw [b, c3]; show ((id : Nat) : Int) ≠ -1; omega
            · right
              refine ⟨?_, b2, b3⟩
              by_cases y : s.asg v e = .un
              · exact y
              · rw [((hE.trans S.ext).old _ _ y).1] at b1; exact absurd b1 y

/-- `unitPropagation`: afterwards there are no unit clauses left. -/
theorem unitProp_propd {cfg : OCfg} {f : Nat} {s t : OSt} (h : Inv s) (hL : 0 ≤ s.LEVEL)
    (ht : unitProp cfg f s = .ok t) : Propd s t ∧ t.units = [] := by
  unfold unitProp at ht
  obtain ⟨s1, h1, ht⟩ := Res.bind_eq_ok.1 ht
  have P := unitLoop_propd f h hL h1
  by_cases hc : s1.conflict = true
  · rw [if_pos hc] at ht
    have ht' : t = { s1 with units := [] } := by cases ht; rfl
    subst ht'
    refine ⟨⟨P.inv.units [] (by simp), P.ext.trans
      (Ext.of_misc s1.cnt s1.cid s1.decs s1.unitClause [] s1.nUnits s1.nEntails s1.ptr s1.ticks rfl),
      P.agree, Or.inl hc, P.decs, P.grow, P.cid⟩, rfl⟩
  · rw [if_neg hc] at ht
    have ht' : t = s1 := by cases ht; rfl
    subst ht'
    refine ⟨P, ?_⟩
    rcases P.fin with b | b
    · exact absurd b hc
    · exact b.1

/-! ## Steps suffice -/

/-- The number of unassigned atoms. -/
def nFree (s : OSt) : Nat := s.atoms.countP fun a => s.asg a.1 a.2 = .un

theorem countP_lt {α : Type} (p q : α → Bool) (l : List α) (h : ∀ a ∈ l, q a = true → p a = true)
    (a : α) (ha : a ∈ l) (hp : p a = true) (hq : q a = false) : l.countP q < l.countP p := by
  induction l with
  | nil => cases ha
  | cons b l ih =>
    have mono : l.countP q ≤ l.countP p := List.countP_mono_left fun x hx => h x (List.mem_cons_of_mem _ hx)
    rw [List.countP_cons, List.countP_cons]
    rcases List.mem_cons.1 ha with rfl | ha
    · rw [hp, hq]; simp; omega
    · have := ih (fun x hx => h x (List.mem_cons_of_mem _ hx)) ha
      have hb := h b List.mem_cons_self
      cases hq' : q b
      · simp; omega
      · rw [hb hq']; simp; omega

theorem Ext.nFree_le {s t : OSt} (h : Ext s t) : nFree t ≤ nFree s := by
  have e : t.atoms = s.atoms := by unfold OSt.atoms; rw [h.nv, h.dom]
  unfold nFree
  rw [e]
  apply List.countP_mono_left
  intro a _ hx
  simp only [decide_eq_true_eq] at hx ⊢
  by_cases y : s.asg a.1 a.2 = .un
  · exact y
  · rw [(h.old _ _ y).1] at hx; exact hx

theorem Ext.nFree_lt {s t : OSt} (h : Ext s t) {v d : Nat} (h1 : 1 ≤ v) (h2 : v ≤ s.nv) (hd : d < s.dom v)
    (hs : s.asg v d = .un) (ht : t.asg v d ≠ .un) : nFree t < nFree s := by
  have e : t.atoms = s.atoms := by unfold OSt.atoms; rw [h.nv, h.dom]
  unfold nFree
  rw [e]
  apply countP_lt _ _ _ _ (v, d) ((mem_atoms s v d).2 ⟨h1, h2, hd⟩) (by simpa using hs) (by simpa using ht)
  intro a _ hx
  simp only [decide_eq_true_eq] at hx ⊢
  by_cases y : s.asg a.1 a.2 = .un
  · exact y
  · rw [(h.old _ _ y).1] at hx; exact hx

theorem unitLoop_total (cfg : OCfg) : ∀ (n k : Nat) (s : OSt), Inv s → 0 ≤ s.LEVEL → nFree s ≤ n → s.units.length ≤ k →
    ∃ f0, ∀ f, f0 ≤ f → unitLoop cfg f s ≠ .fuel := by
  intro n
  induction n using Nat.strongRecOn with
  | ind n ihn =>
    intro k
    induction k with
    | zero =>
      intro s _ _ _ hk
      refine ⟨1, fun f hf => ?_⟩
      obtain ⟨f, rfl⟩ : ∃ g, f = g + 1 := ⟨f - 1, by omega⟩
      have : s.units = [] := List.eq_nil_of_length_eq_zero (by omega)
      rw [unitLoop]
      split
      · simp
      · simp [this]
    | succ k ihk =>
      intro s h hL hn hk
      by_cases hc : s.conflict = true
      · refine ⟨1, fun f hf => ?_⟩
        obtain ⟨f, rfl⟩ : ∃ g, f = g + 1 := ⟨f - 1, by omega⟩
        rw [unitLoop, if_pos hc]; simp
      have hc' : s.conflict = false := by simpa using hc
      cases hus : s.units with
      | nil =>
        refine ⟨1, fun f hf => ?_⟩
        obtain ⟨f, rfl⟩ : ∃ g, f = g + 1 := ⟨f - 1, by omega⟩
        rw [unitLoop, if_neg hc]; simp [hus]
      | cons id rest =>
        let s1 : OSt := { s with nUnits := s.nUnits + 1, unitClause := id, units := rest }
        have hI : Inv s1 := ((h.units rest (by rw [hus]; exact fun i hi => List.mem_cons_of_mem _ hi)).misc s.cnt s.cid s.decs
          id (s.nUnits + 1) s.nBacktracks s.nDecisions s.nEntails s.ptr s.ticks s.noBranch)
        have hlen : rest.length ≤ k := by rw [hus] at hk; simp at hk; omega
        obtain ⟨f1, h1⟩ := ihk s1 hI hL hn hlen
        by_cases hi : id < s.ncl
        · by_cases hs : (s.cls id).sat = true
          · refine ⟨f1 + 1, fun f hf => ?_⟩
            obtain ⟨f, rfl⟩ : ∃ g, f = g + 1 := ⟨f - 1, by omega⟩
            rw [unitLoop, if_neg hc]
            simp only [hus]
            rw [if_pos hi, if_pos hs]
            exact h1 f (by omega)
          · cases hf : (s.cls id).lits.find? fun l => s.asg l.var l.val = .un with
            | none =>
              refine ⟨f1 + 1, fun f hf' => ?_⟩
              obtain ⟨f, rfl⟩ : ∃ g, f = g + 1 := ⟨f - 1, by omega⟩
              rw [unitLoop, if_neg hc]
              simp only [hus]
              rw [if_pos hi, if_neg hs]
              simp only [hf]
              exact h1 f (by omega)
            | some l =>
              have hl := List.mem_of_find?_eq_some hf
              have hu : s.asg l.var l.val = .un := by simpa using List.find?_some hf
              have hr := h.rng id hi l hl
              cases hred : reduce cfg s1 l with
              | ub =>
                refine ⟨1, fun f hf' => ?_⟩
                obtain ⟨f, rfl⟩ : ∃ g, f = g + 1 := ⟨f - 1, by omega⟩
                rw [unitLoop, if_neg hc]
                simp only [hus]
                rw [if_pos hi, if_neg hs]
                simp only [hf]
                show (reduce cfg s1 l >>= _) ≠ _
                rw [hred]; intro z; cases z
              | fuel => exact absurd hred (reduce_ne_fuel _ _ _)
              | ok s2 =>
                have S := reduce_step (s := s1) hI hL hc' hr hu (h.noval hc' hr.2.2 hu) hred
                have hlt : nFree s2 < nFree s1 := S.ext.nFree_lt hr.1 hr.2.1 hr.2.2 hu (by rw [S.val]; exact Asg.ofSign_ne _)
                have hn1 : nFree s1 ≤ n := hn
                obtain ⟨f2, h2⟩ := ihn (nFree s2) (by omega) s2.units.length s2 S.inv (by rw [S.ext.lev]; exact hL)
                  (Nat.le_refl _) (Nat.le_refl _)
                refine ⟨f2 + 1, fun f hf' => ?_⟩
                obtain ⟨f, rfl⟩ : ∃ g, f = g + 1 := ⟨f - 1, by omega⟩
                rw [unitLoop, if_neg hc]
                simp only [hus]
                rw [if_pos hi, if_neg hs]
                simp only [hf]
                show (reduce cfg s1 l >>= _) ≠ _
                rw [hred, Res.ok_bind]
                exact h2 f (by omega)
        · refine ⟨1, fun f hf' => ?_⟩
          obtain ⟨f, rfl⟩ : ∃ g, f = g + 1 := ⟨f - 1, by omega⟩
          rw [unitLoop, if_neg hc]
          simp only [hus]
          rw [if_neg hi]; simp

theorem bind_congr_ne_fuel {α β : Type} {x : Res α} {g h : α → Res β} (hx : (x >>= g) ≠ .fuel)
    (hg : ∀ a, x = .ok a → g a ≠ .fuel → h a = g a) : (x >>= h) = (x >>= g) := by
  cases x with
  | ok a => rw [Res.ok_bind, Res.ok_bind] at *; exact hg a rfl hx
  | ub => rfl
  | fuel => rfl

theorem unitLoop_mono (cfg : OCfg) : ∀ (f g : Nat) (s : OSt), f ≤ g → unitLoop cfg f s ≠ .fuel →
    unitLoop cfg g s = unitLoop cfg f s := by
  intro f
  induction f with
  | zero => intro g s _ h; exact absurd rfl h
  | succ f ih =>
    intro g s hg h
    obtain ⟨g, rfl⟩ : ∃ k, g = k + 1 := ⟨g - 1, by omega⟩
    rw [unitLoop] at h ⊢
    rw [unitLoop]
    split
    · rfl
    · rename_i hc
      rw [if_neg hc] at h
      cases hus : s.units with
      | nil => rfl
      | cons id rest =>
        simp only [hus] at h ⊢
        split
        · rename_i hi
          rw [if_pos hi] at h
          split
          · rename_i hs
            rw [if_pos hs] at h
            exact ih g _ (by omega) h
          · rename_i hs
            rw [if_neg hs] at h
            split
            · rename_i l hl
              rw [hl] at h
              simp only at h
              exact bind_congr_ne_fuel h fun a _ ha => ih g a (by omega) ha
            · rename_i hl
              rw [hl] at h
              exact ih g _ (by omega) h
        · rfl

theorem unitProp_mono (cfg : OCfg) {f g : Nat} (s : OSt) (hg : f ≤ g) (h : unitProp cfg f s ≠ .fuel) :
    unitProp cfg g s = unitProp cfg f s := by
  unfold unitProp at h ⊢
  rw [unitLoop_mono cfg f g s hg]
  intro z; rw [z] at h; exact h rfl

theorem unitProp_total (cfg : OCfg) {s : OSt} (h : Inv s) (hL : 0 ≤ s.LEVEL) :
    ∃ f0, ∀ f, f0 ≤ f → unitProp cfg f s ≠ .fuel := by
  obtain ⟨f0, h0⟩ := unitLoop_total cfg (nFree s) s.units.length s h hL (Nat.le_refl _) (Nat.le_refl _)
  refine ⟨f0, fun f hf => ?_⟩
  have := h0 f hf
  unfold unitProp
  cases hx : unitLoop cfg f s with
  | ok a => rw [Res.ok_bind]; intro z; cases z
  | ub => intro z; cases z
  | fuel => exact absurd hx this

theorem unitLoop_ne_ub {cfg : OCfg} (ht : cfg.tolerant = true) : ∀ (f : Nat) {s : OSt}, Inv s → 0 ≤ s.LEVEL →
    unitLoop cfg f s ≠ .ub := by
  intro f
  induction f with
  | zero => intro s _ _ h; cases h
  | succ f ih =>
    intro s h hL
    rw [unitLoop]
    by_cases hc : s.conflict = true
    · rw [if_pos hc]; simp
    rw [if_neg hc]
    have hc' : s.conflict = false := by simpa using hc
    cases hus : s.units with
    | nil => simp
    | cons id rest =>
      simp only
      let s1 : OSt := { s with nUnits := s.nUnits + 1, unitClause := id, units := rest }
      have hI : Inv s1 := ((h.units rest (by rw [hus]; exact fun i hi => List.mem_cons_of_mem _ hi)).misc s.cnt s.cid s.decs
        id (s.nUnits + 1) s.nBacktracks s.nDecisions s.nEntails s.ptr s.ticks s.noBranch)
      obtain ⟨hi, hsm⟩ := h.uni id (by rw [hus]; exact List.mem_cons_self)
      rw [if_pos hi]
      split
      · exact ih (s := s1) hI hL
      · split
        · rename_i l hf
          have hl := List.mem_of_find?_eq_some hf
          have hu : s.asg l.var l.val = .un := by simpa using List.find?_some hf
          have hr := h.rng id hi l hl
          obtain ⟨s2, h2⟩ := reduce_tolerant ht s1 l
          have S := reduce_step (s := s1) hI hL hc' hr hu (h.noval hc' hr.2.2 hu) h2
          show (reduce cfg s1 l >>= _) ≠ _
          rw [h2, Res.ok_bind]
          exact ih S.inv (by rw [S.ext.lev]; exact hL)
        · exact ih (s := s1) hI hL

theorem unitProp_ne_ub {cfg : OCfg} (ht : cfg.tolerant = true) {f : Nat} {s : OSt} (h : Inv s) (hL : 0 ≤ s.LEVEL) :
    unitProp cfg f s ≠ .ub := by
  have := unitLoop_ne_ub ht f h hL
  unfold unitProp
  cases hx : unitLoop cfg f s with
  | ok a => rw [Res.ok_bind]; intro z; cases z
  | ub => exact absurd hx this
  | fuel => intro z; cases z

/-! ## Choosing -/

theorem choose_fold (s : OSt) : ∀ (as : List (Nat × Nat)) (b : Option (Int × Lit)),
    (∀ p, as.foldl (fun (best : Option (Int × Lit)) (a : Nat × Nat) =>
      if s.vsat a.1 = false ∧ s.asg a.1 a.2 = .un then
        let t := s.cnt ⟨a.1, a.2, true⟩ - s.cnt ⟨a.1, a.2, false⟩
        match best with
        | none => some (t, ⟨a.1, a.2, true⟩)
        | some (m, l) => if m < t then some (t, ⟨a.1, a.2, true⟩) else some (m, l)
      else best) b = some p → b = some p ∨
        ∃ a ∈ as, p.2 = ⟨a.1, a.2, true⟩ ∧ s.vsat a.1 = false ∧ s.asg a.1 a.2 = .un) ∧
    (as.foldl (fun (best : Option (Int × Lit)) (a : Nat × Nat) =>
      if s.vsat a.1 = false ∧ s.asg a.1 a.2 = .un then
        let t := s.cnt ⟨a.1, a.2, true⟩ - s.cnt ⟨a.1, a.2, false⟩
        match best with
        | none => some (t, ⟨a.1, a.2, true⟩)
        | some (m, l) => if m < t then some (t, ⟨a.1, a.2, true⟩) else some (m, l)
      else best) b = none → b = none ∧ ∀ a ∈ as, ¬ (s.vsat a.1 = false ∧ s.asg a.1 a.2 = .un)) := by
  intro as
  induction as with
  | nil => intro b; exact ⟨fun p h => Or.inl h, fun h => ⟨h, by simp⟩⟩
  | cons a as ih =>
    intro b
    rw [List.foldl_cons]
    obtain ⟨i1, i2⟩ := ih (if s.vsat a.1 = false ∧ s.asg a.1 a.2 = .un then
        let t := s.cnt ⟨a.1, a.2, true⟩ - s.cnt ⟨a.1, a.2, false⟩
        match b with
        | none => some (t, ⟨a.1, a.2, true⟩)
        | some (m, l) => if m < t then some (t, ⟨a.1, a.2, true⟩) else some (m, l)
      else b)
    constructor
    · intro p hp
      rcases i1 p hp with h | ⟨a', h1, h2⟩
      · by_cases c : s.vsat a.1 = false ∧ s.asg a.1 a.2 = .un
        · rw [if_pos c] at h
          have new : ∀ t : Int, some (t, (⟨a.1, a.2, true⟩ : Lit)) = some p → _ := fun t h =>
            (Or.inr ⟨a, List.mem_cons_self, by cases h; rfl, c⟩ : b = some p ∨
              ∃ a' ∈ a :: as, p.2 = ⟨a'.1, a'.2, true⟩ ∧ s.vsat a'.1 = false ∧ s.asg a'.1 a'.2 = .un)
          cases b with
          | none => exact new _ h
          | some q =>
            obtain ⟨m, l⟩ := q
            simp only at h
            split at h
            · exact new _ h
            · exact Or.inl h
        · rw [if_neg c] at h; exact Or.inl h
      · exact Or.inr ⟨a', List.mem_cons_of_mem _ h1, h2⟩
    · intro hp
      obtain ⟨h1, h2⟩ := i2 hp
      by_cases c : s.vsat a.1 = false ∧ s.asg a.1 a.2 = .un
      · exfalso
        rw [if_pos c] at h1
        cases b with
        | none => cases h1
        | some q =>
          obtain ⟨m, l⟩ := q
          simp only at h1
          split at h1 <;> cases h1
      · rw [if_neg c] at h1
        refine ⟨h1, ?_⟩
        intro a' ha'
        rcases List.mem_cons.1 ha' with rfl | ha'
        · exact c
        · exact h2 a' ha'

/-- The chosen literal is an unassigned equation of a variable without value. -/
theorem choose_some {s : OSt} {l : Lit} (h : choose s = some l) :
    l.eq = true ∧ (1 ≤ l.var ∧ l.var ≤ s.nv ∧ l.val < s.dom l.var) ∧ s.asg l.var l.val = .un ∧ s.vsat l.var = false := by
  unfold choose at h
  rw [Option.map_eq_some_iff] at h
  obtain ⟨p, h, rfl⟩ := h
  rcases (choose_fold s s.atoms none).1 p h with h | ⟨⟨v, d⟩, ha, h1, h2, h3⟩
  · cases h
  · rw [h1]
    exact ⟨rfl, (mem_atoms s v d).1 ha, h3, h2⟩

/-- When no literal can be chosen, every clause is satisfied. -/
theorem choose_none {s : OSt} (h : Inv s) (hc : s.conflict = false) (hn : choose s = none) :
    checkSat s = true := by
  unfold choose at hn
  rw [Option.map_eq_none_iff] at hn
  have h1 := ((choose_fold s s.atoms none).2 hn).2
  have hasg : ∀ v d, 1 ≤ v → v ≤ s.nv → d < s.dom v → s.asg v d ≠ .un := by
    intro v d a b c hu
    have hv := h.noval hc c hu
    have := h1 (v, d) ((mem_atoms s v d).2 ⟨a, b, c⟩)
    apply this
    refine ⟨?_, hu⟩
    simp only
    rw [h.vars.vs, hv]; simp; omega
  unfold checkSat
  rw [List.all_eq_true]
  intro id hid
  have hi : id < s.ncl := by simpa using hid
  cases hs : (s.cls id).sat
  · exfalso
    rcases h.nz id hi hs with ⟨m, hm, b⟩ | ⟨b, -⟩
    · have := h.rng id hi m hm
      exact hasg _ _ this.1 this.2.1 this.2.2 b
    · rw [hc] at b; cases b
  · rfl

end Mvl.Orig
