import Verif.Proof.Build
import Verif.Proof.NCRun

/-!
# The states of the chronological search

`ChronoBacktrack` is recursive; here its states are described by steps, with the stack of decisions that are
still open.
-/

namespace Mvl

variable {S : Type}

/-- The states the chronological search goes through, with the open decisions, newest first. -/
inductive CReach (cfg : Cfg S) (P : Problem) : St S → List Lit → Prop
  | start {s} : build cfg P = .ok s → CReach cfg P s []
  | tick {s st} : CReach cfg P s st → CReach cfg P (tick s) st
  | prop {s st} : CReach cfg P s st → s.conflict = false → s.units ≠ [] → CReach cfg P (unitStep cfg s) st
  | dec {s st l} : CReach cfg P s st → s.conflict = false → s.units = [] → chooseChrono cfg s = some l →
      CReach cfg P (pushC cfg s l) (l :: st)
  | back {s st l} : CReach cfg P s (l :: st) → s.conflict = true →
      CReach cfg P (reduceTheory cfg (popC cfg s) l.neg) st

/-- The open decisions were open atoms at the end of the level below. -/
def DecOK (t : Trail) : List Lit → Prop
  | [] => True
  | l :: st => t.Rng l.var l.val ∧ LU (t.asgAt st.length) l ∧ DecOK t st

theorem DecOK.congr {t t' : Trail} (hn : t'.nv = t.nv) (hd : t'.dom = t.dom) : ∀ {st : List Lit}, DecOK t st →
    (∀ k : Int, k < st.length → t'.asgAt k = t.asgAt k) → DecOK t' st
  | [], _, _ => trivial
  | l :: st, ⟨h1, h2, h3⟩, ha => by
    refine ⟨⟨h1.1, by rw [hn]; exact h1.2.1, by rw [hd]; exact h1.2.2⟩, ?_, ?_⟩
    · rw [ha _ (by simp only [List.length_cons]; omega)]; exact h2
    · exact DecOK.congr hn hd h3 (fun k hk => ha k (by simp only [List.length_cons]; omega))

/-- Invariant of the chronological search. -/
structure CRInv (P : Problem) (s : St S) (st : List Lit) : Prop where
  inv : CInv (fun _ => False) s
  nv : s.nv = P.numVars
  dom : s.dom = P.dom
  ncl : s.ncl = P.clauses.length
  lits : ∀ (i : Nat) (c : List Lit), P.clauses[i]? = some c → (s.cl i).lits = c
  lev : s.LEVEL = st.length
  decs : DecOK s.tr st

theorem CRInv.of_sameF {P : Problem} {s s' : St S} {st st' : List Lit} (h : CRInv P s st) (hi : CInv (fun _ => False) s')
    (hf : SameF s s') (hl : s'.LEVEL = st'.length) (hd : DecOK s'.tr st') : CRInv P s' st' := by
  refine ⟨hi, hf.nv.trans h.nv, hf.dom.trans h.dom, hf.ncl.trans h.ncl, ?_, hl, hd⟩
  intro i c hc
  have hid : i < s.ncl := by rw [h.ncl]; exact (List.getElem?_eq_some_iff.1 hc).1
  rw [hf.lits i hid]; exact h.lits i c hc

theorem CRInv.tick {P : Problem} {s : St S} {st : List Lit} (h : CRInv P s st) : CRInv P (tick s) st :=
  h.of_sameF (h.inv.congr rfl rfl rfl rfl rfl rfl rfl rfl rfl) ⟨rfl, rfl, rfl, fun _ _ => rfl⟩ h.lev h.decs

theorem CRInv.prop (cfg : Cfg S) {P : Problem} {s : St S} {st : List Lit} (h : CRInv P s st) (hc : s.conflict = false)
    (hu : s.units ≠ []) : CRInv P (unitStep cfg s) st := by
  have hs := unitStep_spec cfg h.inv hc hu
  refine h.of_sameF hs.inv hs.grown.sameF (hs.grown.LEVEL.trans h.lev) (h.decs.congr hs.grown.sameF.nv hs.grown.sameF.dom ?_)
  intro k hk
  exact hs.grown.asgAt k (by rw [h.lev]; exact hk)

theorem CRInv.dec (cfg : Cfg S) {P : Problem} {s : St S} {st : List Lit} {l : Lit} (h : CRInv P s st)
    (hc : s.conflict = false) (hu : s.units = []) (hch : chooseChrono cfg s = some l) :
    CRInv P (pushC cfg s l) (l :: st) := by
  obtain ⟨hr, hlu⟩ := h.inv.choose_some (chooseChrono_some hch)
  have hp := h.inv.push cfg hc hu hr hlu
  have hl := h.lev
  refine h.of_sameF hp.inv hp.sameF (by rw [hp.LEVEL, hl]; simp) ⟨?_, ?_, h.decs.congr hp.sameF.nv hp.sameF.dom ?_⟩
  · exact ⟨hr.1, by show _ ≤ (pushC cfg s l).nv; rw [hp.sameF.nv]; exact hr.2.1,
      by show _ < (pushC cfg s l).dom _; rw [hp.sameF.dom]; exact hr.2.2⟩
  · rw [hp.asgAt _ (by omega), Trail.asgAt_of_le h.inv.base (by show s.LEVEL ≤ _; omega)]; exact hlu
  · intro k hk; exact hp.asgAt k (by omega)

theorem CRInv.pop (cfg : Cfg S) {P : Problem} {s : St S} {st : List Lit} {l : Lit} (h : CRInv P s (l :: st)) :
    CRInv P (popC cfg s) st ∧ (popC cfg s).conflict = false ∧ (popC cfg s).units = [] ∧
    (popC cfg s).tr.Rng l.var l.val ∧ LU (popC cfg s).asg l := by
  have hl := h.lev
  simp only [List.length_cons] at hl
  obtain ⟨p1, _, p3⟩ := h.inv.pop cfg
  obtain ⟨q1, q2, q3, q4, q5⟩ := p3 (by omega)
  obtain ⟨d1, d2, d3⟩ := h.decs
  have hL : (popC cfg s).LEVEL = st.length := by rw [q4, hl]; push_cast; omega
  refine ⟨h.of_sameF q1 p1 hL (d3.congr p1.nv p1.dom ?_), q2, q3, ?_, ?_⟩
  · intro k hk; exact q5 k (by omega)
  · exact ⟨d1.1, by show _ ≤ (popC cfg s).nv; rw [p1.nv]; exact d1.2.1,
      by show _ < (popC cfg s).dom _; rw [p1.dom]; exact d1.2.2⟩
  · have e : (popC cfg s).tr.asgAt st.length = (popC cfg s).asg := Trail.asgAt_of_le q1.base
      (by show (popC cfg s).LEVEL ≤ _; omega)
    rw [← e, q5 _ (by omega)]; exact d2

theorem CRInv.back (cfg : Cfg S) {P : Problem} {s : St S} {st : List Lit} {l : Lit} (h : CRInv P s (l :: st)) :
    CRInv P (reduceTheory cfg (popC cfg s) l.neg) st := by
  obtain ⟨h1, h2, _, h4, h5⟩ := h.pop cfg
  have hp := h1.inv.pushNeg cfg h2 (l := l.neg) h4 h5
  refine h1.of_sameF hp.inv hp.sameF (hp.LEVEL.trans h1.lev) (h1.decs.congr hp.sameF.nv hp.sameF.dom ?_)
  intro k hk; exact hp.asgAt k (by rw [h1.lev]; exact hk)

theorem Read.crinv {cfg : Cfg S} {P : Problem} {s : St S} (h : Read cfg P.doms P.clauses s) (hw : cfg.watch = false)
    (hwf : P.Proper) : CRInv P s [] := by
  refine ⟨h.cinv hw hwf, h.nv, h.dom, h.ncl, ?_, h.LEVEL, trivial⟩
  intro i c hc
  rw [h.cl hc, mkCls_lits]

theorem build_crinv {cfg : Cfg S} (hw : cfg.watch = false) {P : Problem} (hwf : P.Proper) {s : St S}
    (hb : build cfg P = .ok s) : CRInv P s [] := by
  obtain ⟨s0, h1, h2⟩ := build_read cfg hwf.lits_ok (fun h => by rw [hw] at h; simp at h)
  have h1' : build cfg P = .ok s0 := h1
  rw [hb] at h1'
  cases h1'
  exact h2.crinv hw hwf

theorem CReach.crinv {cfg : Cfg S} (hw : cfg.watch = false) {P : Problem} (hwf : P.Proper) {s : St S}
    {st : List Lit} (h : CReach cfg P s st) : CRInv P s st := by
  induction h with
  | start hb => exact build_crinv hw hwf hb
  | tick _ ih => exact ih.tick
  | prop _ hc hu ih => exact ih.prop cfg hc hu
  | dec _ hc hu hch ih => exact ih.dec cfg hc hu hch
  | back _ _ ih => exact ih.back cfg

/-- The occurrence counts are exact all along. -/
theorem CReach.occ {cfg : Cfg S} (hw : cfg.watch = false) {P : Problem} (hwf : P.Proper) (hbk : cfg.heur = .BK)
    {s : St S} {st : List Lit} (h : CReach cfg P s st) : OccOK s := by
  induction h with
  | start hb =>
    obtain ⟨s0, h1, h2⟩ := build_read cfg hwf.lits_ok (fun h => by rw [hw] at h; simp at h)
    have h1' : build cfg P = .ok s0 := h1
    rw [hb] at h1'
    cases h1'
    exact h2.occ hbk
  | tick _ ih => exact ih.congr rfl rfl rfl rfl rfl
  | prop h _ _ ih => exact unitStep_occ cfg hbk (h.crinv hw hwf).inv ih
  | @dec s st l h hc hu hch ih =>
    have hi := (h.crinv hw hwf).inv
    obtain ⟨hr, hlu⟩ := hi.choose_some (chooseChrono_some hch)
    unfold pushC
    dsimp only
    obtain ⟨u, he⟩ := chooseEffect_eq cfg s
    rw [he]
    refine reduceTheory_occ cfg hbk (s := { s with unitClause := u, nDecisions := s.nDecisions + 1, LEVEL := s.LEVEL + 1 })
      hlu ⟨hi.cnt.store.inj, hi.cnt.store.recs, hi.cnt.store.alloc⟩ ?_ (ih.congr rfl rfl rfl rfl rfl)
    have := hi.lev0
    show s.LEVEL + 1 ≠ -1
    omega
  | @back s st l h hc ih =>
    have hr := h.crinv hw hwf
    obtain ⟨h1, _, _, _, h5⟩ := hr.pop cfg
    refine reduceTheory_occ cfg hbk h5 h1.inv.cnt.store (by have := h1.inv.lev0; omega) ?_
    have hi := hr.inv
    have hL := hi.lev0
    unfold popC
    dsimp only
    have := undoTheory_occ cfg hbk (s := { s with nBacktracks := s.nBacktracks + 1, conflict := false }) (k := s.LEVEL - 1)
      (K := s.LEVEL) (by omega) hi.base ⟨hi.cnt.store.inj, hi.cnt.store.recs, hi.cnt.store.alloc⟩ hi.cnt.exact
      (ih.congr rfl rfl rfl rfl rfl)
    exact this.congr rfl rfl rfl rfl rfl

/-! ## Runs go through these states only -/

/-- How a call of `chrono` ends. -/
inductive CEnd (cfg : Cfg S) (P : Problem) (st : List Lit) : Nat × St S → Prop
  | sat {s st'} : CReach cfg P s st' → s.conflict = false → s.units = [] → chooseChrono cfg s = none →
      CEnd cfg P st (0, chooseEffect cfg s)
  | timeout {s st'} : CReach cfg P s st' → CEnd cfg P st (1, s)
  | unsat {s} : CReach cfg P s st → s.conflict = true → CEnd cfg P st (2, popC cfg s)

theorem unitProp_creach {cfg : Cfg S} (hw : cfg.watch = false) {P : Problem} (hwf : P.Proper) :
    ∀ (f : Nat) {s : St S} {st : List Lit}, CReach cfg P s st →
    (unitProp cfg f s).Sat fun s' => CReach cfg P s' st ∧ (s'.conflict = true ∨ s'.units = [])
  | 0, _, _, _ => trivial
  | f + 1, s, st, h => by
    by_cases hc : s.conflict = true
    · have e : unitProp cfg (f + 1) s = .ok s := by unfold unitProp; rw [if_pos hc]
      rw [e]; exact ⟨h, .inl hc⟩
    by_cases hu : s.units = []
    · have e : unitProp cfg (f + 1) s = .ok s := by unfold unitProp; rw [if_neg hc, hu]
      rw [e]; exact ⟨h, .inr hu⟩
    have hc' := Bool.eq_false_iff.2 hc
    rw [unitProp_succ cfg f (h.crinv hw hwf).inv hc' hu]
    exact unitProp_creach hw hwf f (.prop h hc' hu)

theorem chronoAfter_creach {cfg : Cfg S} (hw : cfg.watch = false) {P : Problem} (hwf : P.Proper)
    (rec : St S → Int → Res (Nat × St S))
    (hrec : ∀ s st, CReach cfg P s st → (rec s s.LEVEL).Sat (CEnd cfg P st)) {s : St S} {st : List Lit}
    (h : CReach cfg P s st) (hd : s.conflict = true ∨ s.units = []) :
    (chronoAfter cfg rec s).Sat (CEnd cfg P st) := by
  unfold chronoAfter
  split
  · exact .timeout h.tick
  · split
    · rename_i hc; exact .unsat h.tick hc
    · rename_i hc
      have hc' : (Mvl.tick s).conflict = false := Bool.eq_false_iff.2 hc
      have hu : (Mvl.tick s).units = [] := by
        rcases hd with hd | hd
        · exact absurd hd hc
        · exact hd
      split
      · rename_i hch; exact .sat h.tick hc' hu hch
      · rename_i l hch
        refine (hrec _ _ (.dec h.tick hc' hu hch)).bind ?_
        intro p hp
        cases hp with
        | sat h1 h2 h3 h4 => rw [if_pos rfl]; exact .sat h1 h2 h3 h4
        | timeout h1 => rw [if_neg (by simp), if_pos rfl]; exact .timeout h1
        | @unsat s1 h1 h2 =>
          have hpop := ((h1.crinv hw hwf).pop cfg).1
          have hlev := hpop.lev
          rw [if_neg (by simp), if_neg (by simp)]
          dsimp only
          rw [if_pos ⟨rfl, by omega⟩]
          exact hrec _ _ (.back h1 h2)

theorem chrono_creach {cfg : Cfg S} (hw : cfg.watch = false) {P : Problem} (hwf : P.Proper) :
    ∀ (f : Nat) (s : St S) (st : List Lit), CReach cfg P s st → (chrono cfg f s s.LEVEL).Sat (CEnd cfg P st)
  | 0, _, _, _ => trivial
  | f + 1, s, st, h => by
    rw [chrono_succ]
    have e : ({ s with LEVEL := s.LEVEL } : St S) = s := rfl
    rw [e]
    split
    · exact .timeout h.tick
    · have hprop : (propIf cfg f (Mvl.tick s)).Sat fun s' => CReach cfg P s' st ∧ (s'.conflict = true ∨ s'.units = []) := by
        unfold propIf
        split
        · rename_i hu; exact ⟨h.tick, .inr hu⟩
        · exact unitProp_creach hw hwf f h.tick
      refine hprop.bind ?_
      rintro s2 ⟨h2, hd⟩
      exact chronoAfter_creach hw hwf _ (chrono_creach hw hwf f) h2 hd

/-- Every state of a run is reachable in the sense of `CReach`; in particular the last one, up to leaving the level. -/
theorem run_creach {cfg : Cfg S} (hw : cfg.watch = false) {P : Problem} (hwf : P.Proper) (fuel : Nat) :
    (run cfg .chrono fuel P).Sat (CEnd cfg P []) := by
  obtain ⟨s0, h1, h2⟩ := build_read cfg hwf.lits_ok (fun h => by rw [hw] at h; simp at h)
  have h3 : run cfg .chrono fuel P = chrono cfg fuel s0 s0.LEVEL := by
    unfold run; rw [h1, h2.LEVEL]; rfl
  rw [h3]
  exact chrono_creach hw hwf fuel s0 [] (.start h1)

end Mvl
