import Verif.Proof.OrigProp

/-! # The original solver: `ChronoBacktrack` -/

namespace Mvl.Orig

open Mvl

/-- The formula is the same, and the message "No Branch Atom selected" has not been printed in between. -/
structure Same (s t : OSt) : Prop where
  nv   : t.nv = s.nv
  dom  : t.dom = s.dom
  ncl  : t.ncl = s.ncl
  recs : t.recs = s.recs
  lits : ∀ id, (t.cls id).lits = (s.cls id).lits
  nob  : t.noBranch = s.noBranch

theorem Same.refl (s : OSt) : Same s s := ⟨rfl, rfl, rfl, rfl, fun _ => rfl, rfl⟩

theorem Same.trans {s t u : OSt} (h : Same s t) (k : Same t u) : Same s u :=
  ⟨k.nv.trans h.nv, k.dom.trans h.dom, k.ncl.trans h.ncl, k.recs.trans h.recs,
    fun id => (k.lits id).trans (h.lits id), k.nob.trans h.nob⟩

theorem Ext.same {s t : OSt} (h : Ext s t) : Same s t := ⟨h.nv, h.dom, h.ncl, h.recs, h.lits, h.nob⟩

theorem Same.solvesAll {s t : OSt} (h : Same s t) (σ : Assignment) : SolvesAll t σ ↔ SolvesAll s σ := by
  unfold SolvesAll
  rw [h.nv, h.dom, h.ncl]
  simp only [h.lits]

/-- `t` has the assignment of `s` up to level `k`. -/
structure Restr (k : Int) (s t : OSt) : Prop where
  keep : ∀ v d, s.asg v d ≠ .un → s.alvl v d ≤ k → t.asg v d = s.asg v d ∧ t.alvl v d = s.alvl v d
  drop : ∀ v d, (s.asg v d = .un ∨ k < s.alvl v d) → t.asg v d = .un

theorem Restr.of_ext {k : Int} {s t u : OSt} (hk : k < s.LEVEL) (h : Ext s t) (r : Restr k t u) : Restr k s u where
  keep := fun v d hs hl => by
    obtain ⟨a, b⟩ := h.old v d hs
    obtain ⟨c, e⟩ := r.keep v d (by rw [a]; exact hs) (by rw [b]; exact hl)
    exact ⟨c.trans a, e.trans b⟩
  drop := fun v d hs => by
    apply r.drop
    by_cases y : s.asg v d = .un
    · by_cases z : t.asg v d = .un
      · exact Or.inl z
      · right; rw [h.new v d y z]; exact hk
    · right
      rw [(h.old v d y).2]
      rcases hs with b | b
      · exact absurd b y
      · exact b

theorem Restr.trans {k k' : Int} {s t u : OSt} (hk : k' ≤ k) (a : Restr k s t) (b : Restr k' t u) : Restr k' s u where
  keep := fun v d hs hl => by
    obtain ⟨a1, a2⟩ := a.keep v d hs (by omega)
    obtain ⟨b1, b2⟩ := b.keep v d (by rw [a1]; exact hs) (by rw [a2]; exact hl)
    exact ⟨b1.trans a1, b2.trans a2⟩
  drop := fun v d hs => by
    apply b.drop
    by_cases y : s.asg v d = .un ∨ k < s.alvl v d
    · exact Or.inl (a.drop v d y)
    · have y1 : s.asg v d ≠ .un := fun z => y (Or.inl z)
      have y2 : s.alvl v d ≤ k := by
        have : ¬ k < s.alvl v d := fun z => y (Or.inr z)
        omega
      right
      rw [(a.keep v d y1 y2).2]
      rcases hs with b | b
      · exact absurd b y1
      · exact b

/-- Going back to the current level changes nothing. -/
theorem Restr.self {s t : OSt} (h : Core s) (r : Restr s.LEVEL s t) (v d : Nat) : t.asg v d = s.asg v d := by
  by_cases y : s.asg v d = .un
  · rw [r.drop v d (Or.inl y), y]
  · exact (r.keep v d y (h.las v d y).2).1

/-- A conflict: no solution agrees with the assignment. -/
theorem Inv.refuted {s : OSt} (h : Inv s) (hc : s.conflict = true) {σ : Assignment} (hσ : SolvesAll s σ) :
    ¬ Agree s σ := by
  intro ha
  obtain ⟨id, -, hi, hs, hun⟩ := h.conf hc
  obtain ⟨m, hm, hmσ⟩ := hσ.2 id hi
  obtain ⟨-, c1, c2⟩ := h.cuns id hi hs
  have mu := nU_zero.1 (show nU s.asg (s.cls id).lits = 0 by omega) m hm
  have := c2 m hm
  cases hx : s.asg m.var m.val
  · exact mu hx
  · have hd := (ha m.var m.val).1 hx
    rw [hx] at this
    cases he : m.eq
    · rw [Lit.holds, he] at hmσ; simp at hmσ; exact hmσ hd
    · rw [he] at this; simp [Asg.ofSign] at this
  · have hd := (ha m.var m.val).2 hx
    rw [hx] at this
    cases he : m.eq
    · rw [he] at this; simp [Asg.ofSign] at this
    · rw [Lit.holds, he] at hmσ; simp at hmσ; exact hd hmσ

/-- One level back, Formula.cc:877-886. -/
def backOne (s : OSt) : OSt :=
  let s : OSt := { s with nBacktracks := s.nBacktracks + 1, conflict := false }
  let s := undo s (s.LEVEL - 1)
  { s with LEVEL := s.LEVEL - 1 }

theorem backOne_spec {s : OSt} (h : Inv s) (hL : 0 ≤ s.LEVEL) (hu : s.units = []) :
    Inv (backOne s) ∧ Same s (backOne s) ∧ Restr (s.LEVEL - 1) s (backOne s) ∧ (backOne s).LEVEL = s.LEVEL - 1 ∧
    (backOne s).units = [] ∧ (backOne s).conflict = false ∧ (backOne s).nDecisions = s.nDecisions ∧
    (backOne s).nBacktracks = s.nBacktracks + 1 ∧ (backOne s).ptr = s.ptr := by
  let s' : OSt := { s with nBacktracks := s.nBacktracks + 1, conflict := false }
  have hB : Base s' := ⟨h.occ, h.arng, h.lun, h.csat, h.cuns⟩
  have U := undo_undone hB (level := s.LEVEL - 1) (by omega)
  obtain ⟨b1, b2, b3, b4, b5, b6, b7, b8, b9, f⟩ := U.frame
  have eL : (undo s' (s.LEVEL - 1)).LEVEL = s.LEVEL := by rw [f]
  have e : backOne s = { undo s' (s.LEVEL - 1) with LEVEL := s.LEVEL - 1 } := by
    show ({ undo s' (s.LEVEL - 1) with LEVEL := (undo s' (s.LEVEL - 1)).LEVEL - 1 } : OSt) = _
    rw [eL]
  have eu : (undo s' (s.LEVEL - 1)).units = [] := by rw [f]; exact hu
  refine ⟨?_, ?_, ?_, ?_, ?_, ?_, ?_, ?_, ?_⟩
  · apply undo_inv h (level := s.LEVEL - 1) (by omega) (by omega) (s' := s')
      ⟨s.LEVEL, s.nBacktracks + 1, rfl⟩
    refine ⟨[], ?_, by simp⟩
    rw [e, ← eu]
  · rw [e]
    refine ⟨?_, ?_, ?_, ?_, U.lits, ?_⟩
    · show (undo s' (s.LEVEL - 1)).nv = _; rw [f]
    · show (undo s' (s.LEVEL - 1)).dom = _; rw [f]
    · show (undo s' (s.LEVEL - 1)).ncl = _; rw [f]
    · show (undo s' (s.LEVEL - 1)).recs = _; rw [f]
    · show (undo s' (s.LEVEL - 1)).noBranch = _; rw [f]
  · rw [e]
    constructor
    · intro v d _ hl
      have := U.keep v d (by show ¬ s.LEVEL - 1 < s.alvl v d; omega)
      exact ⟨this.1, this.2.1⟩
    · intro v d hs
      by_cases z : s.LEVEL - 1 < s.alvl v d
      · exact (U.drop v d z).1
      · rcases hs with b | b
        · have := (U.keep v d z).1
          show (undo s' (s.LEVEL - 1)).asg v d = _
          rw [this]; exact b
        · exact absurd b z
  · rw [e]
  · rw [e]; exact eu
  · rw [e]; show (undo s' (s.LEVEL - 1)).conflict = _; rw [f]
  · rw [e]; show (undo s' (s.LEVEL - 1)).nDecisions = _; rw [f]
  · rw [e]; show (undo s' (s.LEVEL - 1)).nBacktracks = _; rw [f]
  · rw [e]; show (undo s' (s.LEVEL - 1)).ptr = _; rw [f]

/-- The part of `ChronoBacktrack` after the first test and unit propagation, Formula.cc:866-920. -/
def chronoTail (cfg : OCfg) (f : Nat) (s : OSt) : Res (Nat × OSt) :=
  if checkSat s then .ok (0, s) else
  if cfg.late s.ticks then .ok (1, { s with ticks := s.ticks + 1 }) else
  if s.conflict then .ok (2, backOne { s with ticks := s.ticks + 1 })
  else
    match choose { s with ticks := s.ticks + 1 } with
    | none => .ok (0, { s with ticks := s.ticks + 1, unitClause := -1, noBranch := true })
    | some l => do
      let s ← reduce cfg { s with ticks := s.ticks + 1, unitClause := -1, nDecisions := s.nDecisions + 1, LEVEL := s.LEVEL + 1 } l
      let p ← chrono cfg f s s.LEVEL
      if p.1 = 0 then .ok (0, p.2)
      else if p.1 = 1 then .ok (1, p.2)
      else if p.1 = 2 ∧ p.2.LEVEL ≠ 0 then do
        let s ← reduce cfg p.2 l.neg
        chrono cfg f s s.LEVEL
      else .ok (2, p.2)

theorem chrono_eq (cfg : OCfg) (f : Nat) (s : OSt) : chrono cfg (f + 1) s s.LEVEL =
    if checkSat s then .ok (0, s) else
    if cfg.late s.ticks then .ok (1, { s with ticks := s.ticks + 1 }) else
    (if s.units = [] then .ok { s with ticks := s.ticks + 1 } else unitProp cfg f { s with ticks := s.ticks + 1 }) >>=
      chronoTail cfg f := by
  rw [chrono]
  by_cases hs : checkSat s = true
  · rw [if_pos hs, if_pos hs]; rfl
  rw [if_neg hs, if_neg hs]
  by_cases hl : cfg.late s.ticks = true
  · exact (if_pos hl).trans (if_pos hl).symm
  refine (if_neg hl).trans (Eq.trans ?_ (if_neg hl).symm)
  by_cases hu : s.units = []
  · rw [if_pos hu, if_pos hu]; rfl
  · rw [if_neg hu, if_neg hu]; rfl

/-- What `ChronoBacktrack(LEVEL)` does. -/
structure ChRes (s : OSt) (r : Nat) (t : OSt) : Prop where
  code : r ≤ 2
  inv  : Inv t
  same : Same s t
  stat : t.LEVEL - ((t.nDecisions : Int) - t.nBacktracks) = s.LEVEL - ((s.nDecisions : Int) - s.nBacktracks)
  dmono : s.nDecisions ≤ t.nDecisions
  sat  : r = 0 → checkSat t = true
  uns  : r = 2 → 1 ≤ s.LEVEL → t.LEVEL = s.LEVEL - 1 ∧ Restr (s.LEVEL - 1) s t ∧ t.units = [] ∧ t.conflict = false ∧
    ∀ σ, SolvesAll s σ → ¬ Agree s σ
  uns0 : r = 2 → s.LEVEL = 0 →
    (t.nDecisions = s.nDecisions ∧ t.nBacktracks = s.nBacktracks + 1 ∧ ∀ σ, SolvesAll s σ → ¬ Agree s σ) ∨
    (s.nDecisions < t.nDecisions ∧ ∃ l : Lit, l.eq = true ∧ (1 ≤ l.var ∧ l.var ≤ s.nv ∧ l.val < s.dom l.var) ∧
      ∀ σ, SolvesAll s σ → Agree s σ → ¬ l.holds σ)

theorem holds_or_neg (l : Lit) (σ : Assignment) : l.holds σ ∨ l.neg.holds σ := by
  cases he : l.eq <;> simp [Lit.holds, Lit.neg, he] <;> omega

/-- What the result after unit propagation says about the state before. -/
theorem ChRes.of_prop {s u t : OSt} {r : Nat} (hE : Ext s u)
    (hA : ∀ σ : Assignment, SolvesAll s σ → Agree s σ → Agree u σ) (h : ChRes u r t) : ChRes s r t where
  code := h.code
  inv := h.inv
  same := hE.same.trans h.same
  stat := by have := h.stat; rw [hE.lev, hE.ndec, hE.nbt] at this; exact this
  dmono := by have := h.dmono; rw [hE.ndec] at this; exact this
  sat := h.sat
  uns := fun hr hl => by
    obtain ⟨a, b, c, d, e⟩ := h.uns hr (by rw [hE.lev]; exact hl)
    rw [hE.lev] at a b
    exact ⟨a, b.of_ext (by omega) hE, c, d, fun σ hσ ha => e σ ((hE.solvesAll σ).2 hσ) (hA σ hσ ha)⟩
  uns0 := fun hr hl => by
    rcases h.uns0 hr (by rw [hE.lev]; exact hl) with ⟨a, a', b⟩ | ⟨a, l, b1, b2, b3⟩
    · left
      rw [hE.ndec] at a; rw [hE.nbt] at a'
      exact ⟨a, a', fun σ hσ ha => b σ ((hE.solvesAll σ).2 hσ) (hA σ hσ ha)⟩
    · right
      rw [hE.ndec] at a; rw [hE.nv, hE.dom] at b2
      exact ⟨a, l, b1, b2, fun σ hσ ha => b3 σ ((hE.solvesAll σ).2 hσ) (hA σ hσ ha)⟩

/-- The state after a decision has failed: the other sign can be assigned. -/
theorem retry {s u : OSt} {l : Lit} (h : Inv s) (hc : s.conflict = false) (hI : Inv u)
    (hsame : Same s u) (R : Restr s.LEVEL s u) (hr : 1 ≤ l.var ∧ l.var ≤ s.nv ∧ l.val < s.dom l.var)
    (hu : s.asg l.var l.val = .un) :
    (1 ≤ l.var ∧ l.var ≤ u.nv ∧ l.val < u.dom l.var) ∧ u.asg l.var l.val = .un ∧ u.vval l.var = none := by
  refine ⟨by rw [hsame.nv, hsame.dom]; exact hr, by rw [R.self h.toCore]; exact hu, ?_⟩
  cases hv : u.vval l.var with
  | none => rfl
  | some d =>
    have := (hI.vars.vv _ _ hv).1
    rw [R.self h.toCore] at this
    have := h.vars.ve _ _ this
    rw [h.noval hc hr.2.2 hu] at this; cases this

theorem chronoTail_spec {cfg : OCfg} {f : Nat}
    (ih : ∀ {s t : OSt} {r : Nat}, Inv s → 0 ≤ s.LEVEL → chrono cfg f s s.LEVEL = .ok (r, t) → ChRes s r t)
    {s t : OSt} {r : Nat} (h : Inv s) (hL : 0 ≤ s.LEVEL) (hu : s.units = [])
    (ht : chronoTail cfg f s = .ok (r, t)) : ChRes s r t := by
  unfold chronoTail at ht
  by_cases hs : checkSat s = true
  · rw [if_pos hs] at ht
    cases ht
    exact ⟨by omega, h, Same.refl s, rfl, Nat.le_refl _, fun _ => hs, fun z => (by cases z), fun z => (by cases z)⟩
  rw [if_neg hs] at ht
  have hI1 : Inv { s with ticks := s.ticks + 1 } := h.misc s.cnt s.cid s.decs s.unitClause s.nUnits s.nBacktracks
    s.nDecisions s.nEntails s.ptr (s.ticks + 1) s.noBranch
  by_cases hl : cfg.late s.ticks = true
  · rw [if_pos hl] at ht
    cases ht
    exact ⟨by omega, hI1, ⟨rfl, rfl, rfl, rfl, fun _ => rfl, rfl⟩, rfl, Nat.le_refl _, fun z => (by cases z),
      fun z => (by cases z), fun z => (by cases z)⟩
  rw [if_neg hl] at ht
  by_cases hc : s.conflict = true
  · rw [if_pos hc] at ht
    have ht1 : r = 2 := by cases ht; rfl
    have ht2 : t = backOne { s with ticks := s.ticks + 1 } := by cases ht; rfl
    obtain ⟨b1, b2, b3, b4, b5, b6, b7, b8, -⟩ := backOne_spec hI1 hL hu
    rw [← ht2] at b1 b2 b3 b4 b5 b6 b7 b8
    have ref : ∀ σ, SolvesAll s σ → ¬ Agree s σ := fun σ hσ => h.refuted hc hσ
    refine ⟨by omega, b1, ⟨b2.nv, b2.dom, b2.ncl, b2.recs, b2.lits, b2.nob⟩, ?_, ?_, fun z => by omega, ?_, ?_⟩
    · rw [b4, b7, b8]; simp only; omega
    · rw [b7]; exact Nat.le_refl _
    · intro _ _
      exact ⟨b4, ⟨b3.keep, b3.drop⟩, b5, b6, ref⟩
    · intro _ _
      exact Or.inl ⟨b7, b8, ref⟩
  rw [if_neg hc] at ht
  have hc' : s.conflict = false := by simpa using hc
  cases hch : choose { s with ticks := s.ticks + 1 } with
  | none =>
    exact absurd (choose_none hI1 hc' hch) hs
  | some l =>
    rw [hch] at ht
    simp only at ht
    obtain ⟨le, lr, lu, lv⟩ := choose_some hch
    simp only at lr lu lv
    have lvv : s.vval l.var = none := h.noval hc' lr.2.2 lu
    let s2 : OSt := { s with ticks := s.ticks + 1, unitClause := -1, nDecisions := s.nDecisions + 1, LEVEL := s.LEVEL + 1 }
    have hI2 : Inv s2 := (h.up hL hc').misc s.cnt s.cid s.decs (-1) s.nUnits s.nBacktracks (s.nDecisions + 1) s.nEntails s.ptr
      (s.ticks + 1) s.noBranch
    have hL2 : 0 ≤ s2.LEVEL := by show 0 ≤ s.LEVEL + 1; omega
    obtain ⟨s3, h3, ht⟩ := Res.bind_eq_ok.1 ht
    have S := reduce_step (s := s2) hI2 hL2 hc' lr lu lvv h3
    obtain ⟨⟨r4, s4⟩, h4, ht⟩ := Res.bind_eq_ok.1 ht
    have C := ih S.inv (by rw [S.ext.lev]; exact hL2) h4
    have e3L : s3.LEVEL = s.LEVEL + 1 := S.ext.lev
    have e3d : s3.nDecisions = s.nDecisions + 1 := S.ext.ndec
    have e3b : s3.nBacktracks = s.nBacktracks := S.ext.nbt
    have same23 : Same s s3 := ⟨S.ext.nv, S.ext.dom, S.ext.ncl, S.ext.recs, S.ext.lits, S.ext.nob⟩
    have same4 := same23.trans C.same
    have stat4 := C.stat
    rw [e3L, e3d, e3b] at stat4
    have dm4 := C.dmono
    rw [e3d] at dm4
    simp only at ht
    by_cases z0 : r4 = 0
    · rw [if_pos z0] at ht
      cases ht
      exact ⟨by omega, C.inv, same4, by omega, by omega, fun _ => C.sat z0, fun z => (by cases z), fun z => (by cases z)⟩
    rw [if_neg z0] at ht
    by_cases z1 : r4 = 1
    · rw [if_pos z1] at ht
      cases ht
      exact ⟨by omega, C.inv, same4, by omega, by omega, fun z => (by cases z), fun z => (by cases z), fun z => (by cases z)⟩
    rw [if_neg z1] at ht
    have z2 : r4 = 2 := by have := C.code; omega
    obtain ⟨u1, u2, u3, u4, u5⟩ := C.uns z2 (by omega)
    have u1' : s4.LEVEL = s.LEVEL := by omega
    have R4 : Restr s.LEVEL s s4 := by
      have : Restr s.LEVEL s2 s4 := by
        apply Restr.of_ext (t := s3) (by show s.LEVEL < s.LEVEL + 1; omega) S.ext
        rw [e3L] at u2
        have e : s.LEVEL + 1 - 1 = s.LEVEL := by omega
        rw [e] at u2; exact u2
      exact ⟨this.keep, this.drop⟩
    have notl : ∀ σ, SolvesAll s σ → Agree s σ → ¬ l.holds σ := by
      intro σ hσ ha hlσ
      exact u5 σ ((same23.solvesAll σ).2 hσ) (S.agree σ hσ.1 hlσ ha)
    by_cases zL : s4.LEVEL ≠ 0
    · rw [if_pos ⟨z2, zL⟩] at ht
      obtain ⟨s5, h5, ht⟩ := Res.bind_eq_ok.1 ht
      obtain ⟨k1, k2, k3⟩ := retry h hc' C.inv same4 R4 lr lu
      have S5 := reduce_step (l := l.neg) C.inv (by omega) u4 k1 k2 k3 h5
      have e5L : s5.LEVEL = s.LEVEL := S5.ext.lev.trans u1'
      have C5 := ih S5.inv (by omega) ht
      have same5 := same4.trans S5.ext.same
      refine ⟨C5.code, C5.inv, same5.trans C5.same, ?_, ?_, C5.sat, ?_, ?_⟩
      · have := C5.stat
        rw [e5L, S5.ext.ndec, S5.ext.nbt] at this
        omega
      · have := C5.dmono
        rw [S5.ext.ndec] at this
        omega
      · intro hr2 hl1
        obtain ⟨w1, w2, w3, w4, w5⟩ := C5.uns hr2 (by omega)
        rw [e5L] at w1 w2
        refine ⟨w1, ?_, w3, w4, ?_⟩
        · exact Restr.trans (by omega) R4 (Restr.of_ext (by omega) S5.ext w2)
        · intro σ hσ ha
          have ha4 : Agree s4 σ := fun v d => by rw [R4.self h.toCore]; exact ha v d
          apply w5 σ ((same5.solvesAll σ).2 hσ)
          refine S5.agree σ ((same4.solvesAll σ).2 hσ).1 ?_ ha4
          rcases holds_or_neg l σ with b | b
          · exact absurd b (notl σ hσ ha)
          · exact b
      · intro _ hl0
        omega
    · rw [if_neg (fun z => zL z.2)] at ht
      have zL' : s4.LEVEL = 0 := Classical.not_not.1 zL
      cases ht
      refine ⟨by omega, C.inv, same4, by omega, by omega, fun z => (by cases z), fun _ hl1 => by omega, ?_⟩
      intro _ _
      exact Or.inr ⟨by omega, l, le, lr, notl⟩

theorem chrono_spec {cfg : OCfg} : ∀ (f : Nat) {s t : OSt} {r : Nat}, Inv s → 0 ≤ s.LEVEL →
    chrono cfg f s s.LEVEL = .ok (r, t) → ChRes s r t := by
  intro f
  induction f with
  | zero => intro s t r _ _ h; cases h
  | succ f ih =>
    intro s t r h hL ht
    rw [chrono_eq] at ht
    by_cases hs : checkSat s = true
    · rw [if_pos hs] at ht
      cases ht
      exact ⟨by omega, h, Same.refl s, rfl, Nat.le_refl _, fun _ => hs, fun z => (by cases z), fun z => (by cases z)⟩
    rw [if_neg hs] at ht
    have hI1 : Inv { s with ticks := s.ticks + 1 } := h.misc s.cnt s.cid s.decs s.unitClause s.nUnits s.nBacktracks
      s.nDecisions s.nEntails s.ptr (s.ticks + 1) s.noBranch
    have hE1 : Ext s { s with ticks := s.ticks + 1 } :=
      Ext.of_misc s.cnt s.cid s.decs s.unitClause s.units s.nUnits s.nEntails s.ptr (s.ticks + 1) rfl
    by_cases hl : cfg.late s.ticks = true
    · rw [if_pos hl] at ht
      cases ht
      exact ⟨by omega, hI1, hE1.same, rfl, Nat.le_refl _, fun z => (by cases z), fun z => (by cases z), fun z => (by cases z)⟩
    rw [if_neg hl] at ht
    obtain ⟨u, hu, ht⟩ := Res.bind_eq_ok.1 ht
    by_cases hus : s.units = []
    · rw [if_pos hus] at hu
      have hu' : u = { s with ticks := s.ticks + 1 } := by cases hu; rfl
      rw [hu'] at ht
      have C := chronoTail_spec (fun {s t r} => ih) hI1 hL hus ht
      exact C.of_prop hE1 fun _ _ => id
    · rw [if_neg hus] at hu
      obtain ⟨P, hu0⟩ := unitProp_propd hI1 hL hu
      have C := chronoTail_spec (fun {s t r} => ih) P.inv (by rw [P.ext.lev]; exact hL) hu0 ht
      exact C.of_prop (hE1.trans P.ext) fun σ hσ ha => P.agree σ hσ ha

/-! ## Steps suffice, and what is undefined -/

theorem bind_ne_fuel {α β : Type} {x : Res α} {g : α → Res β} (hx : x ≠ .fuel) (hg : ∀ a, x = .ok a → g a ≠ .fuel) :
    (x >>= g) ≠ .fuel := by
  cases x with
  | ok a => rw [Res.ok_bind]; exact hg a rfl
  | ub => intro z; cases z
  | fuel => exact absurd rfl hx

theorem bind_ne_ub {α β : Type} {x : Res α} {g : α → Res β} (hx : x ≠ .ub) (hg : ∀ a, x = .ok a → g a ≠ .ub) :
    (x >>= g) ≠ .ub := by
  cases x with
  | ok a => rw [Res.ok_bind]; exact hg a rfl
  | fuel => intro z; cases z
  | ub => exact absurd rfl hx

theorem chrono_mono (cfg : OCfg) : ∀ (f g : Nat) (s : OSt), f ≤ g → chrono cfg f s s.LEVEL ≠ .fuel →
    chrono cfg g s s.LEVEL = chrono cfg f s s.LEVEL := by
  intro f
  induction f with
  | zero => intro g s _ h; exact absurd rfl h
  | succ f ih =>
    intro g s hg h
    obtain ⟨g, rfl⟩ : ∃ k, g = k + 1 := ⟨g - 1, by omega⟩
    have hg' : f ≤ g := by omega
    rw [chrono_eq] at h ⊢
    rw [chrono_eq]
    split
    · rfl
    · rename_i hs
      rw [if_neg hs] at h
      split
      · rfl
      · rename_i hl
        rw [if_neg hl] at h
        have tail : ∀ u, chronoTail cfg f u ≠ .fuel → chronoTail cfg g u = chronoTail cfg f u := by
          intro u hu
          unfold chronoTail at hu ⊢
          split
          · rfl
          · rename_i hs
            rw [if_neg hs] at hu
            split
            · rfl
            · rename_i hl
              rw [if_neg hl] at hu
              split
              · rfl
              · rename_i hc
                rw [if_neg hc] at hu
                split
                · rfl
                · rename_i l hch
                  rw [hch] at hu
                  simp only at hu
                  apply bind_congr_ne_fuel hu
                  intro a _ ha
                  have hne : chrono cfg f a a.LEVEL ≠ .fuel := by
                    intro z; rw [z] at ha; exact ha rfl
                  rw [ih g a hg' hne]
                  apply bind_congr_ne_fuel ha
                  intro p _ hp
                  split
                  · rfl
                  · rename_i z0
                    rw [if_neg z0] at hp
                    split
                    · rfl
                    · rename_i z1
                      rw [if_neg z1] at hp
                      split
                      · rename_i z2
                        rw [if_pos z2] at hp
                        apply bind_congr_ne_fuel hp
                        intro b _ hb
                        exact ih g b hg' hb
                      · rfl
        by_cases hus : s.units = []
        · rw [if_pos hus] at h ⊢
          rw [Res.ok_bind] at h ⊢
          rw [if_pos hus, Res.ok_bind]
          exact tail _ h
        · rw [if_neg hus] at h ⊢
          rw [if_neg hus]
          have hne : unitProp cfg f { s with ticks := s.ticks + 1 } ≠ .fuel := by
            intro z; rw [z] at h; exact h rfl
          rw [unitProp_mono cfg _ hg' hne]
          exact bind_congr_ne_fuel h fun a _ ha => tail a ha

theorem Restr.nFree_le {k : Int} {s t : OSt} (h : Core s) (hs : Same s t) (r : Restr k s t) (hk : s.LEVEL ≤ k) :
    nFree t = nFree s := by
  have e : t.atoms = s.atoms := by unfold OSt.atoms; rw [hs.nv, hs.dom]
  unfold nFree
  rw [e]
  apply List.countP_congr
  intro a _
  simp only [decide_eq_true_eq]
  by_cases y : s.asg a.1 a.2 = .un
  · rw [r.drop _ _ (Or.inl y), y]
  · rw [(r.keep _ _ y (by have := (h.las _ _ y).2; omega)).1]

theorem chronoTail_total (cfg : OCfg) {n : Nat}
    (ih : ∀ m < n, ∀ s : OSt, Inv s → 0 ≤ s.LEVEL → nFree s = m → ∃ f0, ∀ f, f0 ≤ f → chrono cfg f s s.LEVEL ≠ .fuel)
    {s : OSt} (h : Inv s) (hL : 0 ≤ s.LEVEL) (hn : nFree s ≤ n) :
    ∃ f0, ∀ f, f0 ≤ f → chronoTail cfg f s ≠ .fuel := by
  by_cases hs : checkSat s = true
  · exact ⟨0, fun f _ => by unfold chronoTail; rw [if_pos hs]; simp⟩
  by_cases hl : cfg.late s.ticks = true
  · exact ⟨0, fun f _ => by unfold chronoTail; rw [if_neg hs, if_pos hl]; simp⟩
  by_cases hc : s.conflict = true
  · exact ⟨0, fun f _ => by unfold chronoTail; rw [if_neg hs, if_neg hl, if_pos hc]; simp⟩
  have hc' : s.conflict = false := by simpa using hc
  cases hch : choose { s with ticks := s.ticks + 1 } with
  | none => exact ⟨0, fun f _ => by unfold chronoTail; rw [if_neg hs, if_neg hl, if_neg hc, hch]; simp⟩
  | some l =>
    obtain ⟨le, lr, lu, lv⟩ := choose_some hch
    simp only at lr lu lv
    have lvv : s.vval l.var = none := h.noval hc' lr.2.2 lu
    let s2 : OSt := { s with ticks := s.ticks + 1, unitClause := -1, nDecisions := s.nDecisions + 1, LEVEL := s.LEVEL + 1 }
    have hI2 : Inv s2 := (h.up hL hc').misc s.cnt s.cid s.decs (-1) s.nUnits s.nBacktracks (s.nDecisions + 1) s.nEntails s.ptr
      (s.ticks + 1) s.noBranch
    have hL2 : 0 ≤ s2.LEVEL := by show 0 ≤ s.LEVEL + 1; omega
    have e : ∀ f, chronoTail cfg f s = (reduce cfg s2 l >>= fun s => chrono cfg f s s.LEVEL >>= fun p =>
        if p.1 = 0 then .ok (0, p.2)
        else if p.1 = 1 then .ok (1, p.2)
        else if p.1 = 2 ∧ p.2.LEVEL ≠ 0 then (reduce cfg p.2 l.neg >>= fun s => chrono cfg f s s.LEVEL)
        else .ok (2, p.2)) := by
      intro f
      unfold chronoTail
      rw [if_neg hs, if_neg hl, if_neg hc, hch]
    cases h3 : reduce cfg s2 l with
    | fuel => exact absurd h3 (reduce_ne_fuel _ _ _)
    | ub => exact ⟨0, fun f _ => by rw [e, h3]; intro z; cases z⟩
    | ok s3 =>
      have S := reduce_step (s := s2) hI2 hL2 hc' lr lu lvv h3
      have hlt : nFree s3 < nFree s2 := S.ext.nFree_lt lr.1 lr.2.1 lr.2.2 lu (by rw [S.val]; exact Asg.ofSign_ne _)
      have e2 : nFree s2 = nFree s := rfl
      have hL3 : 0 ≤ s3.LEVEL := by rw [S.ext.lev]; exact hL2
      obtain ⟨f1, h1⟩ := ih (nFree s3) (by omega) s3 S.inv hL3 rfl
      cases h4 : chrono cfg f1 s3 s3.LEVEL with
      | fuel => exact absurd h4 (h1 f1 (Nat.le_refl _))
      | ub =>
        refine ⟨f1, fun f hf => ?_⟩
        rw [e, h3, Res.ok_bind, chrono_mono cfg f1 f s3 hf (h1 f1 (Nat.le_refl _)), h4]
        intro z; cases z
      | ok p =>
        obtain ⟨r4, s4⟩ := p
        have C := chrono_spec f1 S.inv hL3 h4
        by_cases zz : r4 = 2 ∧ s4.LEVEL ≠ 0
        · have e3L : s3.LEVEL = s.LEVEL + 1 := S.ext.lev
          have same23 : Same s s3 := ⟨S.ext.nv, S.ext.dom, S.ext.ncl, S.ext.recs, S.ext.lits, S.ext.nob⟩
          have same4 := same23.trans C.same
          obtain ⟨u1, u2, u3, u4, u5⟩ := C.uns zz.1 (by omega)
          have u1' : s4.LEVEL = s.LEVEL := by omega
          have R4 : Restr s.LEVEL s s4 := by
            have : Restr s.LEVEL s2 s4 := by
              apply Restr.of_ext (t := s3) (by show s.LEVEL < s.LEVEL + 1; omega) S.ext
              rw [e3L] at u2
              have e : s.LEVEL + 1 - 1 = s.LEVEL := by omega
              rw [e] at u2; exact u2
            exact ⟨this.keep, this.drop⟩
          obtain ⟨k1, k2, k3⟩ := retry h hc' C.inv same4 R4 lr lu
          have nf4 := R4.nFree_le h.toCore same4 (Int.le_refl _)
          cases h5 : reduce cfg s4 l.neg with
          | fuel => exact absurd h5 (reduce_ne_fuel _ _ _)
          | ub =>
            refine ⟨f1, fun f hf => ?_⟩
            rw [e, h3, Res.ok_bind, chrono_mono cfg f1 f s3 hf (h1 f1 (Nat.le_refl _)), h4, Res.ok_bind]
            simp only
            rw [if_neg (by omega), if_neg (by omega), if_pos zz, h5]
            intro z; cases z
          | ok s5 =>
            have S5 := reduce_step (l := l.neg) C.inv (by omega) u4 k1 k2 k3 h5
            have hlt5 : nFree s5 < nFree s4 := S5.ext.nFree_lt k1.1 k1.2.1 k1.2.2 k2
              (by have := S5.val; rw [show s5.asg l.var l.val = Asg.ofSign l.neg.eq from this]; exact Asg.ofSign_ne _)
            have hL5 : 0 ≤ s5.LEVEL := by rw [S5.ext.lev]; omega
            obtain ⟨f2, h2⟩ := ih (nFree s5) (by omega) s5 S5.inv hL5 rfl
            refine ⟨max f1 f2, fun f hf => ?_⟩
            rw [e, h3, Res.ok_bind, chrono_mono cfg f1 f s3 (by omega) (h1 f1 (Nat.le_refl _)), h4, Res.ok_bind]
            simp only
            rw [if_neg (by omega), if_neg (by omega), if_pos zz, h5, Res.ok_bind]
            exact h2 f (by omega)
        · refine ⟨f1, fun f hf => ?_⟩
          rw [e, h3, Res.ok_bind, chrono_mono cfg f1 f s3 hf (h1 f1 (Nat.le_refl _)), h4, Res.ok_bind]
          simp only
          rw [if_neg zz]
          split
          · simp
          · split <;> simp

/-- The recursion ends. -/
theorem chrono_total (cfg : OCfg) : ∀ (n : Nat) (s : OSt), Inv s → 0 ≤ s.LEVEL → nFree s = n →
    ∃ f0, ∀ f, f0 ≤ f → chrono cfg f s s.LEVEL ≠ .fuel := by
  intro n
  induction n using Nat.strongRecOn with
  | ind n ih =>
    intro s h hL hn
    by_cases hs : checkSat s = true
    · refine ⟨1, fun f hf => ?_⟩
      obtain ⟨f, rfl⟩ : ∃ g, f = g + 1 := ⟨f - 1, by omega⟩
      rw [chrono_eq, if_pos hs]; simp
    by_cases hl : cfg.late s.ticks = true
    · refine ⟨1, fun f hf => ?_⟩
      obtain ⟨f, rfl⟩ : ∃ g, f = g + 1 := ⟨f - 1, by omega⟩
      rw [chrono_eq, if_neg hs, if_pos hl]; simp
    have hI1 : Inv { s with ticks := s.ticks + 1 } := h.misc s.cnt s.cid s.decs s.unitClause s.nUnits s.nBacktracks
      s.nDecisions s.nEntails s.ptr (s.ticks + 1) s.noBranch
    by_cases hus : s.units = []
    · obtain ⟨f0, h0⟩ := chronoTail_total cfg ih hI1 hL (by show nFree s ≤ n; omega)
      refine ⟨f0 + 1, fun f hf => ?_⟩
      obtain ⟨f, rfl⟩ : ∃ g, f = g + 1 := ⟨f - 1, by omega⟩
      rw [chrono_eq, if_neg hs, if_neg hl, if_pos hus, Res.ok_bind]
      exact h0 f (by omega)
    · obtain ⟨f1, h1⟩ := unitProp_total cfg hI1 hL
      cases hu : unitProp cfg f1 { s with ticks := s.ticks + 1 } with
      | fuel => exact absurd hu (h1 f1 (Nat.le_refl _))
      | ub =>
        refine ⟨f1 + 1, fun f hf => ?_⟩
        obtain ⟨f, rfl⟩ : ∃ g, f = g + 1 := ⟨f - 1, by omega⟩
        rw [chrono_eq, if_neg hs, if_neg hl, if_neg hus, unitProp_mono cfg _ (by omega : f1 ≤ f) (h1 f1 (Nat.le_refl _)), hu]
        intro z; cases z
      | ok u =>
        obtain ⟨P, hu0⟩ := unitProp_propd hI1 hL hu
        have hle : nFree u ≤ nFree s := P.ext.nFree_le
        obtain ⟨f0, h0⟩ := chronoTail_total cfg ih P.inv (by rw [P.ext.lev]; exact hL) (by omega)
        refine ⟨max f0 f1 + 1, fun f hf => ?_⟩
        obtain ⟨f, rfl⟩ : ∃ g, f = g + 1 := ⟨f - 1, by omega⟩
        rw [chrono_eq, if_neg hs, if_neg hl, if_neg hus, unitProp_mono cfg _ (by omega : f1 ≤ f) (h1 f1 (Nat.le_refl _)), hu,
          Res.ok_bind]
        exact h0 f (by omega)

/-- The only undefined behaviour is the pointer. -/
theorem chrono_ne_ub {cfg : OCfg} (hto : cfg.tolerant = true) : ∀ (f : Nat) {s : OSt}, Inv s → 0 ≤ s.LEVEL →
    chrono cfg f s s.LEVEL ≠ .ub := by
  intro f
  induction f with
  | zero => intro s _ _ h; cases h
  | succ f ih =>
    intro s h hL
    rw [chrono_eq]
    split
    · simp
    split
    · simp
    have hI1 : Inv { s with ticks := s.ticks + 1 } := h.misc s.cnt s.cid s.decs s.unitClause s.nUnits s.nBacktracks
      s.nDecisions s.nEntails s.ptr (s.ticks + 1) s.noBranch
    have tail : ∀ u : OSt, Inv u → 0 ≤ u.LEVEL → chronoTail cfg f u ≠ .ub := by
      intro s h hL
      unfold chronoTail
      split
      · simp
      split
      · simp
      split
      · simp
      rename_i hc
      have hc' : s.conflict = false := by simpa using hc
      split
      · simp
      rename_i l hch
      obtain ⟨le, lr, lu, lv⟩ := choose_some hch
      simp only at lr lu lv
      have lvv : s.vval l.var = none := h.noval hc' lr.2.2 lu
      let s2 : OSt := { s with ticks := s.ticks + 1, unitClause := -1, nDecisions := s.nDecisions + 1, LEVEL := s.LEVEL + 1 }
      have hI2 : Inv s2 := (h.up hL hc').misc s.cnt s.cid s.decs (-1) s.nUnits s.nBacktracks (s.nDecisions + 1) s.nEntails s.ptr
        (s.ticks + 1) s.noBranch
      have hL2 : 0 ≤ s2.LEVEL := by show 0 ≤ s.LEVEL + 1; omega
      apply bind_ne_ub
      · obtain ⟨x, hx⟩ := reduce_tolerant hto s2 l
        show reduce cfg s2 l ≠ _
        rw [hx]; simp
      intro s3 h3
      have S := reduce_step (s := s2) hI2 hL2 hc' lr lu lvv h3
      have hL3 : 0 ≤ s3.LEVEL := by rw [S.ext.lev]; exact hL2
      apply bind_ne_ub (ih S.inv hL3)
      rintro ⟨r4, s4⟩ h4
      have C := chrono_spec f S.inv hL3 h4
      simp only
      split
      · simp
      split
      · simp
      split
      · rename_i zz
        have e3L : s3.LEVEL = s.LEVEL + 1 := S.ext.lev
        have same23 : Same s s3 := ⟨S.ext.nv, S.ext.dom, S.ext.ncl, S.ext.recs, S.ext.lits, S.ext.nob⟩
        have same4 := same23.trans C.same
        obtain ⟨u1, u2, u3, u4, u5⟩ := C.uns zz.1 (by omega)
        have R4 : Restr s.LEVEL s s4 := by
          have : Restr s.LEVEL s2 s4 := by
            apply Restr.of_ext (t := s3) (by show s.LEVEL < s.LEVEL + 1; omega) S.ext
            rw [e3L] at u2
            have e : s.LEVEL + 1 - 1 = s.LEVEL := by omega
            rw [e] at u2; exact u2
          exact ⟨this.keep, this.drop⟩
        obtain ⟨k1, k2, k3⟩ := retry h hc' C.inv same4 R4 lr lu
        apply bind_ne_ub
        · obtain ⟨x, hx⟩ := reduce_tolerant hto s4 l.neg
          rw [hx]; simp
        intro s5 h5
        have S5 := reduce_step (l := l.neg) C.inv (by omega) u4 k1 k2 k3 h5
        exact ih S5.inv (by rw [S5.ext.lev]; omega)
      · simp
    split
    · rw [Res.ok_bind]; exact tail _ hI1 hL
    · apply bind_ne_ub (unitProp_ne_ub hto hI1 hL)
      intro u hu
      obtain ⟨P, -⟩ := unitProp_propd hI1 hL hu
      exact tail u P.inv (by rw [P.ext.lev]; exact hL)

end Mvl.Orig
