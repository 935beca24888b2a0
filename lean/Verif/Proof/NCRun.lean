import Verif.Proof.NC

/-!
# Clause learning with counters: reachable states, partial correctness and termination
-/

namespace Mvl

variable {S : Type}

theorem analyze_mono (cfg : Cfg S) : ∀ (f : Nat) (s : St S) (c : Cls) (p : Option Nat) (r : St S × Cls),
    analyze cfg f s c p = .ok r → analyze cfg (f + 1) s c p = .ok r
  | 0, _, _, _, _, h => by simp [analyze] at h
  | f + 1, s, c, p, r, h => by
    unfold analyze at h ⊢
    cases hp : potent cfg s c with
    | ub => rw [hp] at h; simp at h
    | fuel => rw [hp] at h; simp at h
    | ok b =>
      rw [hp] at h
      cases b with
      | true => exact h
      | false =>
        simp only [Res.ok_bind] at h ⊢
        cases hl : lastFalse cfg s c with
        | ub => rw [hl] at h; simp at h
        | fuel => rw [hl] at h; simp at h
        | ok l =>
          rw [hl] at h
          simp only [Res.ok_bind] at h ⊢
          cases hr : reasonOf s l with
          | ub => rw [hr] at h; simp at h
          | fuel => rw [hr] at h; simp at h
          | ok q =>
            rw [hr] at h
            simp only [Res.ok_bind] at h ⊢
            exact analyze_mono cfg f s _ none r h

theorem analyze_mono_le (cfg : Cfg S) {f f' : Nat} (hf : f ≤ f') {s : St S} {c : Cls} {p : Option Nat} {r : St S × Cls}
    (h : analyze cfg f s c p = .ok r) : analyze cfg f' s c p = .ok r := by
  induction hf with
  | refl => exact h
  | step _ ih => exact analyze_mono cfg _ s c p r ih

/-- States the clause-learning search with counters passes through. -/
inductive NReach (cfg : Cfg S) (P : Problem) : St S → Int → Prop
  | start {s} : build cfg P = .ok s → NReach cfg P s cfg.restarts
  | tick {s rc} : NReach cfg P s rc → NReach cfg P (tick s) rc
  | prop {s rc} : NReach cfg P s rc → s.conflict = false → s.units ≠ [] → NReach cfg P (unitStep cfg s) rc
  | conf {s rc f s' rc'} : NReach cfg P s rc → s.conflict = true → s.LEVEL ≠ 0 →
      conflictNC cfg f s rc = .ok (s', rc') → NReach cfg P s' rc'
  | dec {s rc s'} : NReach cfg P s rc → s.conflict = false → s.units = [] → decideNC cfg s = some s' →
      NReach cfg P s' rc

theorem Read.occ {cfg : Cfg S} {P : Problem} {s : St S} (h : Read cfg P.doms P.clauses s) (hb : cfg.heur = .BK) :
    OccOK s := by
  intro l
  have hu : LU s.asg l := by unfold LU; rw [h.asg]
  refine ⟨fun _ => ?_, fun hn => absurd hu hn⟩
  rw [h.cnt hb]
  unfold Mvl.occ
  rw [h.ncl, occN_list (cs := P.clauses) (Nat.le_refl _), List.take_length]
  intro i c hc
  rw [h.cl hc, mkCls_lits]
  refine ⟨rfl, ?_⟩
  unfold mkCls; split <;> rfl

/-- The state after reading the file. -/
theorem Read.ninv {cfg : Cfg S} {P : Problem} {s : St S} (h : Read cfg P.doms P.clauses s) (hw : cfg.watch = false)
    (hwf : P.Proper) (hnd : P.NoDupLits) : NInv cfg P s cfg.restarts := by
  refine ⟨h.cinv hw hwf, ⟨h.nv, h.dom, ?_, ?_, ?_, ?_, ?_, ?_⟩, h.pos, ?_, h.occ⟩
  · intro id hid
    obtain ⟨c, _, hc, he⟩ := h.cl_of_lt hid
    rw [he, mkCls_lits]; exact hnd c hc
  · intro i c hc
    have hlt : i < P.clauses.length := by
      rcases Nat.lt_or_ge i P.clauses.length with h' | h'
      · exact h'
      · rw [List.getElem?_eq_none h'] at hc; simp at hc
    exact ⟨by rw [h.ncl]; exact hlt, by rw [h.cl hc, mkCls_lits]⟩
  · intro a ha; exact (h.model a).2 ha
  · intro a _ v d
    have hu : s.tr.asgAt 0 v d = .un := by
      unfold Trail.asgAt
      have : s.tr.asg v d = .un := by show s.asg v d = .un; rw [h.asg]
      rw [this]; split <;> rfl
    rw [hu]; simp
  · intro v d hn
    have : s.tr.asg v d = .un := by show s.asg v d = .un; rw [h.asg]
    exact absurd this hn
  · obtain ⟨_, _, _, _, _, _, _, e⟩ := h.frame; rw [e]; rfl
  · have e1 : s.nRestarts = 0 := by obtain ⟨_, _, _, _, _, _, _, e⟩ := h.frame; rw [e]; rfl
    have e2 : s.nBacktracks = 0 := by obtain ⟨_, _, _, _, _, _, _, e⟩ := h.frame; rw [e]; rfl
    have e3 : s.flowOff = 0 := by obtain ⟨_, _, _, _, _, _, _, e⟩ := h.frame; rw [e]; rfl
    refine ⟨?_, ?_, by rw [e2, e3]⟩
    · intro hp
      rw [e1, e2]
      refine ⟨by simp, by simp, by simpa using hp⟩
    · intro hz; exact ⟨e1, hz⟩

theorem build_ninv {cfg : Cfg S} {P : Problem} (hw : cfg.watch = false)
    (hwf : P.Proper) (hnd : P.NoDupLits) : ∃ s, build cfg P = .ok s ∧ NInv cfg P s cfg.restarts := by
  obtain ⟨s0, h1, h2⟩ := build_read cfg hwf.lits_ok (fun h => by rw [hw] at h; simp at h)
  exact ⟨s0, h1, h2.ninv hw hwf hnd⟩

theorem NReach.ninv {cfg : Cfg S} {P : Problem} (hw : cfg.watch = false) (hs : cfg.ScoreOK)
    (hwf : P.Proper) (hnd : P.NoDupLits) {s : St S} {rc : Int} (h : NReach cfg P s rc) : NInv cfg P s rc := by
  induction h with
  | start hb =>
    obtain ⟨s0, h1, h2⟩ := build_ninv (cfg := cfg) hw hwf hnd
    rw [h1] at hb; cases hb; exact h2
  | tick _ ih => exact ih.tick
  | prop _ hc hu ih => exact ih.prop hc hu
  | conf _ hc hL he ih =>
    rename_i f s' rc' _
    have := ih.conf hw hc hL f
    rw [he] at this; exact this.1
  | dec _ hc hu hd ih => exact (ih.dec hw hs hc hu hd).1

theorem unitProp_reach {cfg : Cfg S} {P : Problem} (hw : cfg.watch = false) (hs : cfg.ScoreOK)
    (hwf : P.Proper) (hnd : P.NoDupLits) : ∀ (f : Nat) (s : St S) (rc : Int), NReach cfg P s rc →
    (unitProp cfg f s).Sat fun s' => NReach cfg P s' rc
  | 0, _, _, _ => trivial
  | f + 1, s, rc, h => by
    cases hc : s.conflict with
    | true =>
      unfold unitProp
      rw [if_pos hc]; exact h
    | false =>
      by_cases hu : s.units = []
      · unfold unitProp
        rw [if_neg (by simp [hc]), hu]; exact h
      · rw [unitProp_succ cfg f (h.ninv hw hs hwf hnd).inv hc hu]
        exact unitProp_reach hw hs hwf hnd f _ rc (h.prop hc hu)

theorem NReach.loopInv {cfg : Cfg S} {P : Problem} (hw : cfg.watch = false) (hs : cfg.ScoreOK)
    (hwf : P.Proper) (hnd : P.NoDupLits) : LoopInv cfg (NReach cfg P) where
  ub := fun s rc h => (h.ninv hw hs hwf hnd).linv.ub
  tick := fun s rc h => h.tick
  conf := by
    intro f s rc h hc hL
    unfold confIf
    rw [if_pos hc, if_neg (by rw [hw]; simp)]
    have := (h.ninv hw hs hwf hnd).conf hw hc hL f
    cases he : conflictNC cfg f s rc with
    | ok p =>
      rw [he] at this
      exact ⟨h.conf hc hL he, this.2.1.conflict⟩
    | ub => rw [he] at this; exact this
    | fuel => trivial
  prop := by
    intro f s rc h hc
    unfold propIfL
    by_cases hu : s.units = []
    · rw [if_pos hu]; exact ⟨h, Or.inr hu⟩
    · rw [if_neg hu, if_neg (by rw [hw]; simp)]
      have h1 := unitProp_reach hw hs hwf hnd f s rc h
      have h2 := unitProp_spec cfg f (h.ninv hw hs hwf hnd).inv
      cases he : unitProp cfg f s with
      | ok s' => rw [he] at h1 h2; exact ⟨h1, h2.done⟩
      | ub => rw [he] at h1; exact h1
      | fuel => trivial
  dec := fun s rc s' h hc hu hd => h.dec hc hu hd

theorem NReach.loopTerm {cfg : Cfg S} {P : Problem} (hw : cfg.watch = false) (hs : cfg.ScoreOK)
    (hwf : P.Proper) (hnd : P.NoDupLits) : LoopTerm cfg (NReach cfg P) unused where
  tick := fun s => unused_same ⟨rfl, rfl, rfl, fun _ _ => rfl⟩
  conf := by
    intro s rc h hc hL
    have hn := h.ninv hw hs hwf hnd
    -- the analysis stops
    obtain ⟨id, hid, hcid, hlev, hnum⟩ := hn.inv.cnt.conf hc
    obtain ⟨h1, h2⟩ := (hn.inv.cnt.exact id hid).unsat hlev
    have hfals := allFalse_of h1 (by omega)
    have hL1 : 1 ≤ s.LEVEL := by have := hn.inv.lev0; omega
    have hst := (hn.inv.stack (s.LEVEL - 1) (by omega) (by show s.LEVEL - 1 < s.LEVEL; omega)).2
    obtain ⟨hcf, hnu⟩ := confl_of_two hn.inv.base (hn.linv.nodup id hid) hfals (hst _ ⟨id, hid, rfl⟩)
    have hwok : cfg.watch = true → WatchOK s.tr (s.cl id) := fun hw' => by rw [hw] at hw'; simp at hw'
    obtain ⟨f0, hf0⟩ := analyze_total cfg s hn.inv.base hn.linv.reasons hL1 (s.cl id) (some (s.ptr id)) hcf hwok
    have hsp := analyze_spec cfg s hn.inv.base hn.linv.reasons hL1 f0 (s.cl id) (some (s.ptr id)) hcf hwok (Or.inr hnu)
    have htn : s.conflicting.toNat = id := by rw [hcid]; simp
    have hconf : ∀ f, f0 ≤ f → conflictNC cfg f s rc = conflictNC cfg f0 s rc := by
      intro f hf
      unfold conflictNC
      rw [if_neg (by rw [hcid]; omega), if_neg (by rw [hcid]; omega), htn]
      dsimp only
      cases he : analyze cfg f0 s (s.cl id) (some (s.ptr id)) with
      | ok r => rw [analyze_mono_le cfg hf he]
      | ub => rw [he] at hsp; exact absurd hsp (by simp [Res.Sat])
      | fuel => exact absurd he (hf0 f0 (Nat.le_refl _))
    have hne : ∃ p, conflictNC cfg f0 s rc = .ok p := by
      unfold conflictNC
      rw [if_neg (by rw [hcid]; omega), htn]
      dsimp only
      cases he : analyze cfg f0 s (s.cl id) (some (s.ptr id)) with
      | ok r =>
        simp only [Res.ok_bind]
        split
        · exact ⟨_, rfl⟩
        · exact ⟨_, rfl⟩
      | ub => rw [he] at hsp; exact absurd hsp (by simp [Res.Sat])
      | fuel => exact absurd he (hf0 f0 (Nat.le_refl _))
    obtain ⟨p, hp⟩ := hne
    have hm := hn.conf hw hc hL f0
    rw [hp] at hm
    refine ⟨p, f0, hm.2.2, ?_⟩
    intro f hf
    unfold confIf
    rw [if_pos hc, if_neg (by rw [hw]; simp), hconf f hf, hp]
  prop := by
    intro s rc h hc
    have hn := h.ninv hw hs hwf hnd
    unfold propIfL
    by_cases hu : s.units = []
    · exact ⟨s, 0, Nat.le_refl _, Nat.le_refl _, fun f _ => by rw [if_pos hu]⟩
    · obtain ⟨s', f0, hf⟩ := unitProp_term cfg _ _ s (Nat.le_refl _) (Nat.le_refl _) hn.inv
      have hsp := unitProp_spec cfg f0 hn.inv
      rw [hf f0 (Nat.le_refl _)] at hsp
      refine ⟨s', f0, Nat.le_of_eq (unused_same hsp.grown.sameF), hsp.grown.unCount_le, ?_⟩
      intro f hff
      rw [if_neg hu, if_neg (by rw [hw]; simp), hf f hff]
  dec := by
    intro s rc s' h hc hu hd
    obtain ⟨_, h2, h3⟩ := (h.ninv hw hs hwf hnd).dec hw hs hc hu hd
    exact ⟨Nat.le_of_eq (unused_same h2), h3⟩

end Mvl
