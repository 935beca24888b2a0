import Verif.Proof.Choose

/-!
# Chronological backtracking: partial correctness and termination
-/

namespace Mvl

variable {S : Type}

/-- One clock reading. -/
def tick (s : St S) : St S := { s with ticks := s.ticks + 1 }

/-- Leaving a level after a conflict. -/
def popC (cfg : Cfg S) (s : St S) : St S :=
  let s1 : St S := { s with nBacktracks := s.nBacktracks + 1, conflict := false }
  let s2 := undoTheory cfg s1 (s1.LEVEL - 1)
  { s2 with units := [], LEVEL := s2.LEVEL - 1 }

/-- Opening a level with a decision. -/
def pushC (cfg : Cfg S) (s : St S) (l : Lit) : St S :=
  let s1 := chooseEffect cfg s
  reduceTheory cfg { s1 with nDecisions := s1.nDecisions + 1, LEVEL := s1.LEVEL + 1 } l

/-- The part of `chrono` after unit propagation. -/
def chronoAfter (cfg : Cfg S) (rec : St S → Int → Res (Nat × St S)) (s : St S) : Res (Nat × St S) :=
  if cfg.late s.ticks then .ok (1, tick s)
  else if (tick s).conflict then .ok (2, popC cfg (tick s))
  else match chooseChrono cfg (tick s) with
    | none => .ok (0, chooseEffect cfg (tick s))
    | some l => rec (pushC cfg (tick s) l) (pushC cfg (tick s) l).LEVEL >>= fun p =>
        if p.1 = 0 then .ok (0, p.2)
        else if p.1 = 1 then .ok (1, p.2)
        else if p.1 = 2 ∧ p.2.LEVEL ≥ 0 then
          rec (reduceTheory cfg p.2 l.neg) (reduceTheory cfg p.2 l.neg).LEVEL
        else .ok (2, p.2)

/-- Unit propagation as called by `chrono`. -/
def propIf (cfg : Cfg S) (f : Nat) (s : St S) : Res (St S) :=
  if s.units = [] then .ok s else unitProp cfg f s

theorem chrono_succ (cfg : Cfg S) (f : Nat) (s : St S) (level : Int) :
    chrono cfg (f + 1) s level =
      if cfg.late s.ticks then .ok (1, tick { s with LEVEL := level })
      else propIf cfg f (tick { s with LEVEL := level }) >>= chronoAfter cfg (chrono cfg f) := by
  conv => lhs; unfold chrono
  by_cases h1 : cfg.late s.ticks = true
  · simp only [readClock, h1]; rfl
  · rw [if_neg h1]
    unfold propIf
    by_cases h2 : s.units = []
    · rw [if_pos (show (tick { s with LEVEL := level } : St S).units = [] from h2)]
      simp only [readClock, h1, h2]; rfl
    · rw [if_neg (show ¬ (tick { s with LEVEL := level } : St S).units = [] from h2)]
      simp only [readClock, h1, h2]; rfl

/-- The heuristics `-solvech` knows. -/
def Cfg.ChronoOK (cfg : Cfg S) : Prop := cfg.heur = .BK ∨ cfg.heur = .lazy

theorem chooseChrono_none {cfg : Cfg S} (hh : cfg.ChronoOK) {s : St S} (h : chooseChrono cfg s = none) :
    (∀ v d, ¬ OpenAtom s v d) ∨ lazyChoose s = none := by
  unfold chooseChrono at h
  rcases hh with hh | hh <;> rw [hh] at h
  · exact Or.inl ((chooseBK_spec s).1 h)
  · exact Or.inr h

theorem chooseChrono_some {cfg : Cfg S} {s : St S} {l : Lit} (h : chooseChrono cfg s = some l) :
    OpenAtom s l.var l.val ∨ lazyChoose s = some l := by
  unfold chooseChrono at h
  split at h
  · exact Or.inl ((chooseBK_spec s).2 l h).2
  · exact Or.inr h
  · simp at h

theorem chooseEffect_eq (cfg : Cfg S) (s : St S) : ∃ u, chooseEffect cfg s = { s with unitClause := u } := by
  unfold chooseEffect
  split
  · exact ⟨s.unitClause, rfl⟩
  · exact ⟨-1, rfl⟩

theorem Agrees_congr {a : Assignment} {g g' : PA} (h : g = g') : Agrees a g ↔ Agrees a g' := by rw [h]

/-- A flagged conflict rules out every model that agrees with the assignment. -/
theorem CInv.conflict_noModel {ex : Nat → Prop} {s : St S} (h : CInv ex s) (hc : s.conflict = true)
    {a : Assignment} (hm : s.Model a) : ¬ Agrees a s.asg := by
  intro hag
  obtain ⟨id, hid, _, hl, hn⟩ := h.cnt.conf hc
  obtain ⟨h1, h2⟩ := (h.cnt.exact id hid).unsat hl
  obtain ⟨x, hx, hxh⟩ := hm.2 id hid
  exact hag.of_LF (allFalse_of h1 (by omega) x hx) hxh

/-- What a call of `chrono` guarantees. -/
structure CPost (cfg : Cfg S) (s : St S) (p : Nat × St S) : Prop where
  sameF : SameF s p.2
  code : p.1 = 0 ∨ p.1 = 1 ∨ p.1 = 2
  ticks : s.ticks ≤ p.2.ticks
  sat : p.1 = 0 → CInv (fun _ => False) p.2 ∧ p.2.conflict = false ∧ p.2.units = [] ∧
    ∀ id, id < p.2.ncl → CSat p.2.asg (p.2.cl id).lits
  nolate : p.1 = 1 → ∃ k, s.ticks ≤ k ∧ k < p.2.ticks ∧ cfg.late k = true
  unsat : p.1 = 2 → ∀ a, s.Model a → ¬ Agrees a s.asg
  back : p.1 = 2 → 1 ≤ s.LEVEL → CInv (fun _ => False) p.2 ∧ p.2.conflict = false ∧ p.2.units = [] ∧
    p.2.LEVEL = s.LEVEL - 1 ∧ ∀ k, k < s.LEVEL → p.2.tr.asgAt k = s.tr.asgAt k

/-- The effect of assigning a literal, as far as the search needs it. -/
structure Pushed (s : St S) (l : Lit) (L : Int) (s' : St S) : Prop where
  inv : CInv (fun _ => False) s'
  LEVEL : s'.LEVEL = L
  sameF : SameF s s'
  agrees : ∀ a, s.Model a → Agrees a s.asg → l.holds a → Agrees a s'.asg
  asgAt : ∀ k, k < L → s'.tr.asgAt k = s.tr.asgAt k
  ticks : s'.ticks = s.ticks
  meas : unCount s' < unCount s

theorem Assigned.pushed {s s' : St S} {l : Lit} (h : CInv (fun _ => False) s') (ha : Assigned s l s')
    (hr : s.tr.Rng l.var l.val) (hu : LU s.asg l) : Pushed s l s.LEVEL s' :=
  ⟨h, ha.ext.LEVEL, ha.sameF, fun a hm hag hl => ha.ext.agrees hag hl (hm.1 _ hr.1 hr.2.1),
    fun _ hk => ha.ext.asgAt hk, ha.same.ticks, ha.unCount_lt hr hu⟩

theorem CInv.push (cfg : Cfg S) {s : St S} (h : CInv (fun _ => False) s) (hc : s.conflict = false)
    (hun : s.units = []) {l : Lit} (hr : s.tr.Rng l.var l.val) (hu : LU s.asg l) :
    Pushed s l (s.LEVEL + 1) (pushC cfg s l) := by
  unfold pushC
  obtain ⟨u, he⟩ := chooseEffect_eq cfg s
  rw [he]
  have h1 := h.open_level hc hun u (s.nDecisions + 1)
  obtain ⟨h2, h3⟩ := h1.reduce cfg hc (l := l) hr hu
  have h4 := h3.pushed h2 hr hu
  exact ⟨h4.inv, h4.LEVEL, ⟨h4.sameF.nv, h4.sameF.dom, h4.sameF.ncl, h4.sameF.lits⟩, h4.agrees, h4.asgAt, h4.ticks, h4.meas⟩

theorem CInv.pushNeg (cfg : Cfg S) {s : St S} (h : CInv (fun _ => False) s) (hc : s.conflict = false)
    {l : Lit} (hr : s.tr.Rng l.var l.val) (hu : LU s.asg l) :
    Pushed s l s.LEVEL (reduceTheory cfg s l) := by
  obtain ⟨h2, h3⟩ := h.reduce cfg hc (l := l) hr hu
  exact h3.pushed h2 hr hu

theorem CInv.pop (cfg : Cfg S) {s : St S} (h : CInv (fun _ => False) s) :
    SameF s (popC cfg s) ∧ (popC cfg s).ticks = s.ticks ∧
    (1 ≤ s.LEVEL → CInv (fun _ => False) (popC cfg s) ∧ (popC cfg s).conflict = false ∧
      (popC cfg s).units = [] ∧ (popC cfg s).LEVEL = s.LEVEL - 1 ∧
      ∀ k, k < s.LEVEL → (popC cfg s).tr.asgAt k = s.tr.asgAt k) := by
  unfold popC
  dsimp only
  generalize hs1 : ({ s with nBacktracks := s.nBacktracks + 1, conflict := false } : St S) = s1
  have hcore : CCore s1 := h.core.congr (by rw [← hs1]; rfl) (by rw [← hs1]) (by rw [← hs1]) (by rw [← hs1])
    (by rw [← hs1]) (by rw [← hs1])
  have htr : s1.tr = s.tr := by rw [← hs1]; rfl
  have hL : s1.LEVEL = s.LEVEL := by rw [← hs1]
  have hsf : SameF s s1 := by rw [← hs1]; exact ⟨rfl, rfl, rfl, fun _ _ => rfl⟩
  have htk : s1.ticks = s.ticks := by rw [← hs1]
  have hcf : s1.conflict = false := by rw [← hs1]
  have h0 := h.lev0
  have hu := undoTheory_spec cfg (s := s1) (k := s.LEVEL - 1) (K := s1.LEVEL) (by omega) hcore.base hcore.store hcore.exact
  have hcu := hcore.undo cfg (k := s.LEVEL - 1)
  generalize undoTheory cfg s1 (s.LEVEL - 1) = s2 at *
  obtain ⟨hp, c, g, lv, r, vv, ds, he⟩ := hu.frame
  have e1 : s2.LEVEL = s1.LEVEL := by rw [he]
  have e2 : s2.ticks = s1.ticks := by rw [he]
  have e3 : s2.conflict = false := by rw [he]; exact hcf
  have hsf2 : SameF s1 s2 := ⟨by rw [he], by rw [he], by rw [he], hu.lits⟩
  have hsf3 := hsf.trans hsf2
  refine ⟨⟨hsf3.nv, hsf3.dom, hsf3.ncl, hsf3.lits⟩, e2.trans htk, ?_⟩
  intro hL1
  obtain ⟨c1, -, -, -⟩ := hcu (by omega) (by omega)
  refine ⟨?_, e3, rfl, by show s2.LEVEL - 1 = _; omega, ?_⟩
  · refine c1.congr ?_ rfl rfl rfl rfl rfl rfl e3 rfl
    show ({ s2.tr with LEVEL := s2.LEVEL - 1 } : Trail) = { s2.tr with LEVEL := s.LEVEL - 1 }
    rw [e1, hL]
  · intro k hk
    show s2.tr.asgAt k = _
    rw [hu.tr, Trail.asgAt_undo (by omega), htr]

theorem chronoAfter_spec (cfg : Cfg S) (hh : cfg.ChronoOK) (rec : St S → Int → Res (Nat × St S)) {s : St S}
    (h : CInv (fun _ => False) s) (hd : s.conflict = true ∨ s.units = [])
    (hrec : ∀ s', CInv (fun _ => False) s' → unCount s' < unCount s → (rec s' s'.LEVEL).Sat (CPost cfg s')) :
    (chronoAfter cfg rec s).Sat (CPost cfg s) := by
  unfold chronoAfter
  by_cases hl : cfg.late s.ticks = true
  · rw [if_pos hl]
    exact ⟨⟨rfl, rfl, rfl, fun _ _ => rfl⟩, by simp, Nat.le_succ _, by simp,
      fun _ => ⟨s.ticks, Nat.le_refl _, Nat.lt_succ_self _, hl⟩, by simp, by simp⟩
  rw [if_neg hl]
  have ht : CInv (fun _ => False) (tick s) := h.congr rfl rfl rfl rfl rfl rfl rfl rfl rfl
  have hsft : SameF s (tick s) := ⟨rfl, rfl, rfl, fun _ _ => rfl⟩
  by_cases hc : (tick s).conflict = true
  · rw [if_pos hc]
    obtain ⟨p1, p2, p3⟩ := ht.pop cfg
    refine ⟨hsft.trans p1, by simp, by rw [p2]; exact Nat.le_succ _, by simp, by simp, ?_, ?_⟩
    · intro _ a hm
      exact h.conflict_noModel hc hm
    · intro _ hL
      exact p3 hL
  rw [if_neg hc]
  have hc : (tick s).conflict = false := by simpa using hc
  have hun : (tick s).units = [] := by
    rcases hd with hd | hd
    · have : (tick s).conflict = true := hd
      rw [hc] at this; simp at this
    · exact hd
  cases hch : chooseChrono cfg (tick s) with
  | none =>
    obtain ⟨u, he⟩ := chooseEffect_eq cfg (tick s)
    dsimp only
    rw [he]
    refine ⟨⟨rfl, rfl, rfl, fun _ _ => rfl⟩, by simp, Nat.le_succ _, ?_, by simp, by simp, by simp⟩
    intro _
    exact ⟨ht.congr rfl rfl rfl rfl rfl rfl rfl rfl rfl, hc, hun,
      ht.choose_none hc hun (chooseChrono_none hh hch)⟩
  | some l =>
    dsimp only
    obtain ⟨hr, hu⟩ := ht.choose_some (chooseChrono_some hch)
    have hp := ht.push cfg hc hun hr hu
    generalize pushC cfg (tick s) l = s3 at hp ⊢
    refine (hrec s3 hp.inv hp.meas).bind ?_
    rintro ⟨r, s4⟩ h4
    dsimp only
    have h34 := h4.ticks
    have h0 := h.lev0
    have htl : (tick s).LEVEL = s.LEVEL := rfl
    have htt : (tick s).ticks = s.ticks + 1 := rfl
    have h3L := hp.LEVEL
    have h3t := hp.ticks
    have hsf := hsft.trans (hp.sameF.trans h4.sameF)
    rcases h4.code with hr0 | hr0 | hr0
    · rw [if_pos hr0]
      have := h4.sat hr0
      exact ⟨hsf, by simp, by simp only at *; omega, fun _ => this, by simp, by simp, by simp⟩
    · rw [if_neg (by simp only at hr0; omega), if_pos hr0]
      obtain ⟨k, k1, k2, k3⟩ := h4.nolate hr0
      exact ⟨hsf, by simp, by simp only at *; omega, by simp,
        fun _ => ⟨k, by omega, k2, k3⟩, by simp, by simp⟩
    · obtain ⟨b1, b2, b3, b4, b5⟩ := h4.back hr0 (by omega)
      simp only at hr0 b1 b2 b3 b4 b5
      rw [if_neg (by omega), if_neg (by omega), if_pos ⟨hr0, by omega⟩]
      -- the assignment is back to what it was at the decision
      have hasg : s4.asg = s.asg := by
        have e1 : s4.tr.asgAt s.LEVEL = s4.asg := Trail.asgAt_of_le (t := s4.tr) b1.base
          (by show s4.LEVEL ≤ _; omega)
        have e2 : s.tr.asgAt s.LEVEL = s.asg := Trail.asgAt_of_le (t := s.tr) h.base (Int.le_refl _)
        rw [← e1, ← e2, b5 _ (by omega), hp.asgAt _ (by omega)]; rfl
      have hun4 : unCount s4 = unCount s := by
        unfold unCount
        rw [atoms_congr hsf.nv hsf.dom, hasg]
      have hr4 : s4.tr.Rng l.neg.var l.neg.val := by
        have e1 : s4.nv = s.nv := hsf.nv
        have e2 : s4.dom = s.dom := hsf.dom
        exact ⟨hr.1, by show l.var ≤ s4.nv; rw [e1]; exact hr.2.1,
          by show l.val < s4.dom l.var; rw [e2]; exact hr.2.2⟩
      have hu4 : LU s4.asg l.neg := by rw [hasg]; exact hu
      have hp5 := b1.pushNeg cfg b2 hr4 hu4
      generalize reduceTheory cfg s4 l.neg = s5 at hp5 ⊢
      refine (hrec s5 hp5.inv (by have := hp5.meas; omega)).mono ?_
      intro p h6
      have h5t := hp5.ticks
      have h5L := hp5.LEVEL
      have h6t := h6.ticks
      refine ⟨hsf.trans (hp5.sameF.trans h6.sameF), h6.code, by simp only at *; omega, h6.sat, ?_, ?_, ?_⟩
      · intro hr1
        obtain ⟨k, k1, k2, k3⟩ := h6.nolate hr1
        exact ⟨k, by simp only at *; omega, k2, k3⟩
      · intro hr2 a hm hag
        by_cases hla : l.holds a
        · exact h4.unsat hr0 a (hp.sameF.model (hsft.model hm)) (hp.agrees a (hsft.model hm) hag hla)
        · have hna : l.neg.holds a := by
            unfold Lit.holds Lit.neg at *
            cases he : l.eq <;> simp [he] at hla ⊢ <;> exact hla
          have hm4 := hsf.model hm
          exact h6.unsat hr2 a (hp5.sameF.model hm4) (hp5.agrees a hm4 (by rw [hasg]; exact hag) hna)
      · intro hr2 hL
        obtain ⟨c1, c2, c3, c4, c5⟩ := h6.back hr2 (by omega)
        refine ⟨c1, c2, c3, by omega, ?_⟩
        intro k hk
        rw [c5 k (by omega), hp5.asgAt k (by omega), b5 k (by omega), hp.asgAt k (by omega)]
        rfl

theorem CPost.of_prop {cfg : Cfg S} {s s' : St S} {p : Nat × St S} (h : Propd s s') (hp : CPost cfg s' p) :
    CPost cfg s p := by
  have ht := h.ticks
  have hL := h.grown.LEVEL
  refine ⟨h.grown.sameF.trans hp.sameF, hp.code, by have := hp.ticks; omega, hp.sat, ?_, ?_, ?_⟩
  · intro h1
    obtain ⟨k, k1, k2, k3⟩ := hp.nolate h1
    exact ⟨k, by omega, k2, k3⟩
  · intro h2 a hm hag
    exact hp.unsat h2 a (h.grown.sameF.model hm) (h.agrees a hm hag)
  · intro h2 hl
    obtain ⟨b1, b2, b3, b4, b5⟩ := hp.back h2 (by omega)
    exact ⟨b1, b2, b3, by omega, fun k hk => (b5 k (by omega)).trans (h.grown.asgAt k hk)⟩

theorem propIf_spec (cfg : Cfg S) (f : Nat) {s : St S} (h : CInv (fun _ => False) s) :
    (propIf cfg f s).Sat (Propd s) := by
  unfold propIf
  split
  · rename_i hu; exact Propd.refl h (Or.inr hu)
  · exact unitProp_spec cfg f h

theorem CPost.of_tick {cfg : Cfg S} {s : St S} {p : Nat × St S} (hp : CPost cfg (tick s) p) : CPost cfg s p := by
  have e : (tick s).ticks = s.ticks + 1 := rfl
  refine ⟨⟨hp.sameF.nv, hp.sameF.dom, hp.sameF.ncl, hp.sameF.lits⟩, hp.code, by have := hp.ticks; omega, hp.sat, ?_,
    hp.unsat, hp.back⟩
  intro h1
  obtain ⟨k, k1, k2, k3⟩ := hp.nolate h1
  exact ⟨k, by omega, k2, k3⟩

/-- Partial correctness of the chronological search, for every budget: it never reads out of range and
its answer is right. -/
theorem chrono_spec (cfg : Cfg S) (hh : cfg.ChronoOK) : ∀ (f : Nat) {s : St S}, CInv (fun _ => False) s →
    (chrono cfg f s s.LEVEL).Sat (CPost cfg s)
  | 0, _, _ => trivial
  | f + 1, s, h => by
    rw [chrono_succ]
    have e : ({ s with LEVEL := s.LEVEL } : St S) = s := rfl
    rw [e]
    by_cases hl : cfg.late s.ticks = true
    · rw [if_pos hl]
      exact ⟨⟨rfl, rfl, rfl, fun _ _ => rfl⟩, by simp, Nat.le_succ _, by simp,
        fun _ => ⟨s.ticks, Nat.le_refl _, Nat.lt_succ_self _, hl⟩, by simp, by simp⟩
    · rw [if_neg hl]
      have ht : CInv (fun _ => False) (tick s) := h.congr rfl rfl rfl rfl rfl rfl rfl rfl rfl
      refine (propIf_spec cfg f ht).bind ?_
      intro s2 h2
      refine (chronoAfter_spec cfg hh _ h2.inv h2.done ?_).mono ?_
      · intro s' h' _; exact chrono_spec cfg hh f h'
      · intro p hp; exact (CPost.of_prop h2 hp).of_tick

theorem propIf_term (cfg : Cfg S) {s : St S} (h : CInv (fun _ => False) s) :
    ∃ s' f0, Propd s s' ∧ ∀ f, f0 ≤ f → propIf cfg f s = .ok s' := by
  obtain ⟨s', f0, h1⟩ : ∃ s' f0, ∀ f, f0 ≤ f → propIf cfg f s = .ok s' := by
    by_cases hu : s.units = []
    · exact ⟨s, 0, fun f _ => by unfold propIf; rw [if_pos hu]⟩
    · obtain ⟨s', f0, h1⟩ := unitProp_term cfg _ _ s (Nat.le_refl _) (Nat.le_refl _) h
      exact ⟨s', f0, fun f hf => by unfold propIf; rw [if_neg hu]; exact h1 f hf⟩
  refine ⟨s', f0, ?_, h1⟩
  have := propIf_spec cfg f0 h
  rw [h1 f0 (Nat.le_refl _)] at this
  exact this

/-- The chronological search always stops. -/
theorem chrono_term (cfg : Cfg S) (hh : cfg.ChronoOK) : ∀ (n : Nat) (s : St S), unCount s ≤ n →
    CInv (fun _ => False) s → ∃ p f0, ∀ f, f0 ≤ f → chrono cfg f s s.LEVEL = .ok p := by
  intro n
  induction n using Nat.strongRecOn with
  | ind n ih =>
    intro s hn h
    have e : ({ s with LEVEL := s.LEVEL } : St S) = s := rfl
    by_cases hl : cfg.late s.ticks = true
    · refine ⟨(1, tick s), 1, ?_⟩
      intro f hf
      obtain ⟨f, rfl⟩ : ∃ g, f = g + 1 := ⟨f - 1, by omega⟩
      rw [chrono_succ, e, if_pos hl]
    have ht : CInv (fun _ => False) (tick s) := h.congr rfl rfl rfl rfl rfl rfl rfl rfl rfl
    obtain ⟨s2, f1, hp2, hf1⟩ := propIf_term cfg ht
    have hn2 : unCount s2 ≤ n := Nat.le_trans hp2.grown.unCount_le hn
    -- it remains to run the part after propagation
    suffices hs : ∃ p f0, ∀ f, f0 ≤ f → chronoAfter cfg (chrono cfg f) s2 = .ok p by
      obtain ⟨p, f0, hp⟩ := hs
      refine ⟨p, max f0 f1 + 1, ?_⟩
      intro f hf
      obtain ⟨f, rfl⟩ : ∃ g, f = g + 1 := ⟨f - 1, by omega⟩
      rw [chrono_succ, e, if_neg hl, hf1 f (by omega)]
      exact hp f (by omega)
    generalize hs1 : tick s = s1 at *
    have h2 := hp2.inv
    have hd := hp2.done
    unfold chronoAfter
    by_cases hl2 : cfg.late s2.ticks = true
    · simp only [if_pos hl2]; exact ⟨_, 0, fun _ _ => rfl⟩
    simp only [if_neg hl2]
    have ht2 : CInv (fun _ => False) (tick s2) := h2.congr rfl rfl rfl rfl rfl rfl rfl rfl rfl
    by_cases hc : (tick s2).conflict = true
    · simp only [if_pos hc]; exact ⟨_, 0, fun _ _ => rfl⟩
    simp only [if_neg hc]
    have hc : (tick s2).conflict = false := by simpa using hc
    have hun : (tick s2).units = [] := by
      rcases hd with hd | hd
      · have : (tick s2).conflict = true := hd
        rw [hc] at this; simp at this
      · exact hd
    cases hch : chooseChrono cfg (tick s2) with
    | none => exact ⟨_, 0, fun _ _ => rfl⟩
    | some l =>
      dsimp only
      obtain ⟨hr, hu⟩ := ht2.choose_some (chooseChrono_some hch)
      have hp := ht2.push cfg hc hun hr hu
      have hunt : unCount (tick s2) = unCount s2 := rfl
      generalize pushC cfg (tick s2) l = s3 at hp ⊢
      obtain ⟨p3, f3, hf3⟩ := ih (unCount s3) (by have := hp.meas; omega) s3 (Nat.le_refl _) hp.inv
      have h4 : CPost cfg s3 p3 := by
        have := chrono_spec cfg hh f3 hp.inv
        rw [hf3 f3 (Nat.le_refl _)] at this
        exact this
      have step : ∀ f, f3 ≤ f → ∀ k : Nat × St S → Res (Nat × St S),
          (chrono cfg f s3 s3.LEVEL >>= k) = k p3 := by
        intro f hf k; rw [hf3 f hf]; rfl
      obtain ⟨r, s4⟩ := p3
      by_cases hr0 : r = 0
      · refine ⟨(0, s4), f3, fun f hf => ?_⟩
        rw [step f hf]; dsimp only; rw [if_pos hr0]
      by_cases hr1 : r = 1
      · refine ⟨(1, s4), f3, fun f hf => ?_⟩
        rw [step f hf]; dsimp only; rw [if_neg hr0, if_pos hr1]
      have h0 := h2.lev0
      have h3L := hp.LEVEL
      have htl : (tick s2).LEVEL = s2.LEVEL := rfl
      have hr2 : r = 2 := by rcases h4.code with h | h | h <;> simp only at h <;> omega
      obtain ⟨b1, b2, b3, b4, b5⟩ := h4.back hr2 (by omega)
      simp only at b1 b2 b3 b4 b5
      have hsf : SameF s2 s4 := by
        have := hp.sameF.trans h4.sameF
        exact ⟨this.nv, this.dom, this.ncl, this.lits⟩
      have hasg : s4.asg = s2.asg := by
        have e1 : s4.tr.asgAt s2.LEVEL = s4.asg := Trail.asgAt_of_le (t := s4.tr) b1.base
          (by show s4.LEVEL ≤ _; omega)
        have e2 : s2.tr.asgAt s2.LEVEL = s2.asg := Trail.asgAt_of_le (t := s2.tr) h2.base (Int.le_refl _)
        rw [← e1, ← e2, b5 _ (by omega), hp.asgAt _ (by omega)]; rfl
      have hun4 : unCount s4 = unCount s2 := by
        unfold unCount
        rw [atoms_congr hsf.nv hsf.dom, hasg]
      have hr4 : s4.tr.Rng l.neg.var l.neg.val := by
        have e1 : s4.nv = s2.nv := hsf.nv
        have e2 : s4.dom = s2.dom := hsf.dom
        exact ⟨hr.1, by show l.var ≤ s4.nv; rw [e1]; exact hr.2.1,
          by show l.val < s4.dom l.var; rw [e2]; exact hr.2.2⟩
      have hu4 : LU s4.asg l.neg := by rw [hasg]; exact hu
      have hp5 := b1.pushNeg cfg b2 hr4 hu4
      obtain ⟨p5, f5, hf5⟩ := ih (unCount (reduceTheory cfg s4 l.neg)) (by have := hp5.meas; omega) _ (Nat.le_refl _) hp5.inv
      refine ⟨p5, max f3 f5, fun f hf => ?_⟩
      rw [step f (by omega)]; dsimp only
      rw [if_neg hr0, if_neg hr1, if_pos ⟨hr2, by omega⟩]
      exact hf5 f (by omega)

end Mvl
