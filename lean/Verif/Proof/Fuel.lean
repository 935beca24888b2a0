import Verif.Proof.NCRun

/-!
# More fuel changes nothing, and neither does a clock that is not late

For every formula, well-formed or not, every configuration and both searches.
-/

namespace Mvl

variable {S : Type}

theorem Res.bind_mono {α β : Type} {x x' : Res α} {g g' : α → Res β} (hx : x ≠ .fuel → x' = x)
    (hg : ∀ a, g a ≠ .fuel → g' a = g a) (h : (x >>= g) ≠ .fuel) : (x' >>= g') = (x >>= g) := by
  cases x with
  | ok a => rw [hx (by simp)]; exact hg a h
  | ub => rw [hx (by simp)]; rfl
  | fuel => exact absurd rfl h

theorem Res.le_mono {α : Type} {g : Nat → Res α} (hm : ∀ f, g f ≠ .fuel → g (f + 1) = g f) {f f' : Nat} (hle : f ≤ f')
    (h : g f ≠ .fuel) : g f' = g f := by
  induction hle with
  | refl => rfl
  | step _ ih => rw [hm _ (by rw [ih]; exact h), ih]

theorem unitProp_mono (cfg : Cfg S) : ∀ (f : Nat) (s : St S), unitProp cfg f s ≠ .fuel →
    unitProp cfg (f + 1) s = unitProp cfg f s
  | 0, _, h => absurd rfl h
  | f + 1, s, h => by
    unfold unitProp at h ⊢
    by_cases hc : s.conflict = true
    · rw [if_pos hc, if_pos hc]
    · rw [if_neg hc] at h; rw [if_neg hc, if_neg hc]
      cases hu : s.units with
      | nil => rfl
      | cons id rest =>
        rw [hu] at h
        dsimp only at h ⊢
        by_cases h1 : id < s.ncl
        · rw [if_pos h1] at h; rw [if_pos h1, if_pos h1]
          by_cases h2 : (({ s with unitClause := (id : Int), units := rest } : St S).cl id).level = -1
          · rw [if_pos h2] at h; rw [if_pos h2, if_pos h2]
            split at h
            · exact unitProp_mono cfg f _ h
            · exact unitProp_mono cfg f _ h
          · rw [if_neg h2] at h; rw [if_neg h2, if_neg h2]
            exact unitProp_mono cfg f _ h
        · rw [if_neg h1, if_neg h1]

theorem wunitProp_mono (cfg : Cfg S) : ∀ (f : Nat) (s : St S), wunitProp cfg f s ≠ .fuel →
    wunitProp cfg (f + 1) s = wunitProp cfg f s
  | 0, _, h => absurd rfl h
  | f + 1, s, h => by
    unfold wunitProp at h ⊢
    by_cases hub : s.ub = true
    · rw [if_pos hub, if_pos hub]
    rw [if_neg hub] at h; rw [if_neg hub, if_neg hub]
    by_cases hc : s.conflict = true
    · rw [if_pos hc, if_pos hc]
    · rw [if_neg hc] at h; rw [if_neg hc, if_neg hc]
      cases hu : s.units with
      | nil => rfl
      | cons id rest =>
        rw [hu] at h
        dsimp only at h ⊢
        by_cases h1 : id < s.ncl
        · rw [if_pos h1] at h; rw [if_pos h1, if_pos h1]
          cases hw : (({ s with unitClause := (id : Int), units := rest } : St S).cl id).w0 with
          | none => rfl
          | some w =>
            rw [hw] at h
            dsimp only at h ⊢
            by_cases h2 : sat ({ s with unitClause := (id : Int), units := rest } : St S) w = 2
            · rw [if_pos h2] at h; rw [if_pos h2, if_pos h2]
              exact wunitProp_mono cfg f _ h
            · rw [if_neg h2] at h; rw [if_neg h2, if_neg h2]
              by_cases h3 : (({ s with unitClause := (id : Int), units := rest } : St S).cl id).lits.length > 1
              · rw [if_pos h3] at h; rw [if_pos h3, if_pos h3]
                cases hw1 : (({ s with unitClause := (id : Int), units := rest } : St S).cl id).w1 with
                | none => rfl
                | some w' =>
                  rw [hw1] at h
                  dsimp only at h ⊢
                  by_cases h4 : sat ({ s with unitClause := (id : Int), units := rest } : St S) w' = 2
                  · rw [if_pos h4] at h; rw [if_pos h4, if_pos h4]
                    exact wunitProp_mono cfg f _ h
                  · rw [if_neg h4] at h; rw [if_neg h4, if_neg h4]
                    exact wunitProp_mono cfg f _ h
              · rw [if_neg h3] at h; rw [if_neg h3, if_neg h3]
                exact wunitProp_mono cfg f _ h
        · rw [if_neg h1, if_neg h1]

theorem ite_mono {α : Type} {c : Prop} [Decidable c] {x x' y y' : Res α} (hx : x ≠ .fuel → x' = x) (hy : y ≠ .fuel → y' = y)
    (h : (if c then x else y) ≠ .fuel) : (if c then x' else y') = (if c then x else y) := by
  by_cases hc : c
  · rw [if_pos hc] at h; rw [if_pos hc, if_pos hc]; exact hx h
  · rw [if_neg hc] at h; rw [if_neg hc, if_neg hc]; exact hy h

theorem propIf_mono (cfg : Cfg S) (f : Nat) (s : St S) (h : propIf cfg f s ≠ .fuel) : propIf cfg (f + 1) s = propIf cfg f s :=
  ite_mono (fun _ => rfl) (fun h => unitProp_mono cfg f _ h) h

theorem chrono_mono (cfg : Cfg S) : ∀ (f : Nat) (s : St S) (lv : Int), chrono cfg f s lv ≠ .fuel →
    chrono cfg (f + 1) s lv = chrono cfg f s lv
  | 0, _, _, h => absurd rfl h
  | f + 1, s, lv, h => by
    rw [chrono_succ] at h
    rw [chrono_succ, chrono_succ]
    refine ite_mono (fun _ => rfl) (fun h => ?_) h
    refine Res.bind_mono (fun h => propIf_mono cfg f _ h) (fun a h => ?_) h
    unfold chronoAfter at h ⊢
    refine ite_mono (fun _ => rfl) (fun h => ?_) h
    refine ite_mono (fun _ => rfl) (fun h => ?_) h
    cases hch : chooseChrono cfg (tick a) with
    | none => rfl
    | some l =>
      rw [hch] at h
      dsimp only at h ⊢
      refine Res.bind_mono (fun h => chrono_mono cfg f _ _ h) (fun p h => ?_) h
      refine ite_mono (fun _ => rfl) (fun h => ?_) h
      refine ite_mono (fun _ => rfl) (fun h => ?_) h
      exact ite_mono (fun h => chrono_mono cfg f _ _ h) (fun _ => rfl) h

theorem analyze_mono' (cfg : Cfg S) : ∀ (f : Nat) (s : St S) (c : Cls) (p : Option Nat), analyze cfg f s c p ≠ .fuel →
    analyze cfg (f + 1) s c p = analyze cfg f s c p
  | 0, _, _, _, h => absurd rfl h
  | f + 1, s, c, p, h => by
    rw [analyze] at h
    rw [analyze, analyze]
    refine Res.bind_mono (fun _ => rfl) (fun b h => ?_) h
    refine ite_mono (fun _ => rfl) (fun h => ?_) h
    refine Res.bind_mono (fun _ => rfl) (fun l h => ?_) h
    exact Res.bind_mono (fun _ => rfl) (fun r h => analyze_mono' cfg f _ _ _ h) h

theorem conflictNC_mono (cfg : Cfg S) (f : Nat) (s : St S) (rc : Int) (h : conflictNC cfg f s rc ≠ .fuel) :
    conflictNC cfg (f + 1) s rc = conflictNC cfg f s rc := by
  unfold conflictNC at h ⊢
  refine ite_mono (fun _ => rfl) (fun h => ?_) h
  exact Res.bind_mono (fun h => analyze_mono' cfg f _ _ _ h) (fun _ _ => rfl) h

theorem conflictWL_mono (cfg : Cfg S) (f : Nat) (s : St S) (rc : Int) (h : conflictWL cfg f s rc ≠ .fuel) :
    conflictWL cfg (f + 1) s rc = conflictWL cfg f s rc := by
  unfold conflictWL at h ⊢
  refine ite_mono (fun _ => rfl) (fun h => ?_) h
  exact Res.bind_mono (fun h => analyze_mono' cfg f _ _ _ h) (fun _ _ => rfl) h

theorem learnLoop_mono (cfg : Cfg S) : ∀ (f : Nat) (s : St S) (rc : Int), learnLoop cfg f s rc ≠ .fuel →
    learnLoop cfg (f + 1) s rc = learnLoop cfg f s rc
  | 0, _, _, h => absurd rfl h
  | f + 1, s, rc, h => by
    rw [learnLoop_succ] at h
    rw [learnLoop_succ, learnLoop_succ]
    refine ite_mono (fun _ => rfl) (fun h => ?_) h
    refine ite_mono (fun _ => rfl) (fun h => ?_) h
    refine ite_mono (fun _ => rfl) (fun h => ?_) h
    refine Res.bind_mono (fun h => ite_mono (fun h => ite_mono (fun h => conflictWL_mono cfg f _ _ h)
      (fun h => conflictNC_mono cfg f _ _ h) h) (fun _ => rfl) h) (fun p h => ?_) h
    refine Res.bind_mono (fun h => ite_mono (fun _ => rfl) (fun h => ite_mono (fun h => wunitProp_mono cfg f _ h)
      (fun h => unitProp_mono cfg f _ h) h) h) (fun a h => ?_) h
    unfold learnAfter at h ⊢
    refine ite_mono (fun _ => rfl) (fun h => ?_) h
    refine ite_mono (fun h => learnLoop_mono cfg f _ _ h) (fun h => ?_) h
    cases hd : decideNC cfg a with
    | none => rfl
    | some s => rw [hd] at h; exact learnLoop_mono cfg f _ _ h

theorem search_mono (cfg : Cfg S) (algo : Algo) (s : St S) (f : Nat) (h : search cfg algo f s ≠ .fuel) :
    search cfg algo (f + 1) s = search cfg algo f s := by
  cases algo with
  | chrono => exact chrono_mono cfg f _ _ h
  | learn => exact learnLoop_mono cfg f _ _ h

theorem run_mono (cfg : Cfg S) (algo : Algo) (P : Problem) (f : Nat) (h : run cfg algo f P ≠ .fuel) :
    run cfg algo (f + 1) P = run cfg algo f P :=
  Res.bind_mono (fun _ => rfl) (fun s h => search_mono cfg algo s f h) h

/-- Two runs that end, end in the same way. -/
theorem run_unique {cfg : Cfg S} {algo : Algo} {P : Problem} {f f' : Nat} (h : run cfg algo f P ≠ .fuel)
    (h' : run cfg algo f' P ≠ .fuel) : run cfg algo f P = run cfg algo f' P := by
  rcases Nat.le_total f f' with hl | hl
  · exact (Res.le_mono (g := fun f => run cfg algo f P) (fun f => run_mono cfg algo P f) hl h).symm
  · exact Res.le_mono (g := fun f => run cfg algo f P) (fun f => run_mono cfg algo P f) hl h'

/-! ## The clock -/

/-- The same configuration with another clock. -/
def Cfg.clock (cfg : Cfg S) (late : Nat → Bool) : Cfg S := { cfg with late := late }

theorem unitProp_clock (cfg : Cfg S) (t : Nat → Bool) (f : Nat) (s : St S) : unitProp (cfg.clock t) f s = unitProp cfg f s := by
  induction f generalizing s with
  | zero => rfl
  | succ f ih => unfold unitProp; simp only [ih]; rfl

theorem wunitProp_clock (cfg : Cfg S) (t : Nat → Bool) (f : Nat) (s : St S) : wunitProp (cfg.clock t) f s = wunitProp cfg f s := by
  induction f generalizing s with
  | zero => rfl
  | succ f ih => unfold wunitProp; simp only [ih]

theorem analyze_clock (cfg : Cfg S) (t : Nat → Bool) (f : Nat) (s : St S) (c : Cls) (p : Option Nat) :
    analyze (cfg.clock t) f s c p = analyze cfg f s c p := by
  induction f generalizing s c p with
  | zero => rfl
  | succ f ih => unfold analyze; simp only [ih]; rfl

theorem propIf_clock (cfg : Cfg S) (t : Nat → Bool) (f : Nat) (s : St S) : propIf (cfg.clock t) f s = propIf cfg f s := by
  unfold propIf; rw [unitProp_clock]

theorem propIfL_clock (cfg : Cfg S) (t : Nat → Bool) (f : Nat) (s : St S) : propIfL (cfg.clock t) f s = propIfL cfg f s := by
  unfold propIfL; rw [unitProp_clock, wunitProp_clock]; rfl

theorem confIf_clock (cfg : Cfg S) (t : Nat → Bool) (f : Nat) (s : St S) (rc : Int) :
    confIf (cfg.clock t) f s rc = confIf cfg f s rc := by
  unfold confIf conflictNC conflictWL; simp only [analyze_clock]; rfl

theorem build_clock (cfg : Cfg S) (t : Nat → Bool) (P : Problem) : build (cfg.clock t) P = build cfg P := by
  unfold build
  generalize P.items = is
  have h0 : initSt (cfg.clock t) = initSt cfg := rfl
  rw [h0]
  generalize initSt cfg = s
  induction is generalizing s with
  | nil => rfl
  | cons i is ih =>
    cases i with
    | dom d => exact ih _
    | clause ls =>
      show (addClause cfg s ls >>= buildItems (cfg.clock t) is) = (addClause cfg s ls >>= buildItems cfg is)
      cases addClause cfg s ls with
      | ok s1 => exact ih s1
      | ub => rfl
      | fuel => rfl

theorem decideNC_clock (cfg : Cfg S) (t : Nat → Bool) (s : St S) : decideNC (cfg.clock t) s = decideNC cfg s := rfl

/-- Results that are not TIMEOUT. -/
def Res.Done (x : Res (Nat × St S)) : Prop := ∃ r s, x = .ok (r, s) ∧ r ≠ 1

theorem Res.Done.bind {α : Type} {x x' : Res α} {g g' : α → Res (Nat × St S)} (hx : x' = x)
    (hg : ∀ a, (g a).Done → g' a = g a) (h : (x >>= g).Done) : (x' >>= g') = (x >>= g) := by
  subst hx
  cases x' with
  | ok a => exact hg a h
  | ub => rfl
  | fuel => rfl

theorem Res.Done.ite {c : Prop} [Decidable c] {x x' y y' : Res (Nat × St S)} (hx : x.Done → x' = x) (hy : y.Done → y' = y)
    (h : (if c then x else y).Done) : (if c then x' else y') = (if c then x else y) := by
  by_cases hc : c
  · rw [if_pos hc] at h; rw [if_pos hc, if_pos hc]; exact hx h
  · rw [if_neg hc] at h; rw [if_neg hc, if_neg hc]; exact hy h

/-- At a clock reading: if the first clock is late the run is a timeout. -/
theorem Res.Done.read {b b' : Bool} (hb : b' = true → b = true) {s : St S} {y y' : Res (Nat × St S)} (hy : y.Done → y' = y)
    (h : (if b = true then Res.ok (1, s) else y).Done) :
    (if b' = true then Res.ok (1, s) else y') = (if b = true then Res.ok (1, s) else y) := by
  cases b with
  | true => obtain ⟨r, s', h1, h2⟩ := h; cases h1; exact absurd rfl h2
  | false =>
    cases b' with
    | true => cases hb rfl
    | false => exact hy h

theorem chrono_clock {cfg : Cfg S} {t : Nat → Bool} (ht : ∀ k, t k = true → cfg.late k = true) : ∀ (f : Nat) (s : St S) (lv : Int),
    (chrono cfg f s lv).Done → chrono (cfg.clock t) f s lv = chrono cfg f s lv
  | 0, _, _, h => rfl
  | f + 1, s, lv, h => by
    rw [chrono_succ] at h
    rw [chrono_succ, chrono_succ]
    refine Res.Done.read (ht _) (fun h => ?_) h
    refine Res.Done.bind (propIf_clock ..) (fun a h => ?_) h
    unfold chronoAfter at h ⊢
    refine Res.Done.read (ht _) (fun h => ?_) h
    refine Res.Done.ite (fun _ => rfl) (fun h => ?_) h
    have hcc : chooseChrono (cfg.clock t) (tick a) = chooseChrono cfg (tick a) := rfl
    rw [hcc]
    cases hch : chooseChrono cfg (tick a) with
    | none => rfl
    | some l =>
      rw [hch] at h
      dsimp only at h ⊢
      have key : ∀ {x x' : Res (Nat × St S)} {g g' : Nat × St S → Res (Nat × St S)}, (x.Done → x' = x) →
          (∀ s, g (1, s) = Res.ok (1, s)) → (∀ s, g' (1, s) = Res.ok (1, s)) →
          (∀ a, (g a).Done → g' a = g a) → (x >>= g).Done → (x' >>= g') = (x >>= g) := by
        intro x x' g g' hx h1 h2 hg hd
        cases x with
        | ok a =>
          by_cases ha : a.1 = 1
          · obtain ⟨r, s⟩ := a
            dsimp only at ha
            subst ha
            obtain ⟨r', s', h3, h4⟩ := hd
            have h3 : g (1, s) = .ok (r', s') := h3
            rw [h1] at h3
            cases h3
            exact absurd rfl h4
          · rw [hx ⟨a.1, a.2, rfl, ha⟩]; exact hg a hd
        | ub => obtain ⟨_, _, h3, _⟩ := hd; cases h3
        | fuel => obtain ⟨_, _, h3, _⟩ := hd; cases h3
      refine key (fun h => chrono_clock ht f _ _ h) (fun _ => rfl) (fun _ => rfl) (fun p h => ?_) h
      refine Res.Done.ite (fun _ => rfl) (fun h => ?_) h
      refine Res.Done.ite (fun _ => rfl) (fun h => ?_) h
      exact Res.Done.ite (fun h => chrono_clock ht f _ _ h) (fun _ => rfl) h

theorem learnLoop_clock {cfg : Cfg S} {t : Nat → Bool} (ht : ∀ k, t k = true → cfg.late k = true) : ∀ (f : Nat) (s : St S) (rc : Int),
    (learnLoop cfg f s rc).Done → learnLoop (cfg.clock t) f s rc = learnLoop cfg f s rc
  | 0, _, _, h => rfl
  | f + 1, s, rc, h => by
    rw [learnLoop_succ] at h
    rw [learnLoop_succ, learnLoop_succ]
    refine Res.Done.ite (fun _ => rfl) (fun h => ?_) h
    refine Res.Done.read (ht _) (fun h => ?_) h
    refine Res.Done.ite (fun _ => rfl) (fun h => ?_) h
    refine Res.Done.bind (confIf_clock ..) (fun p h => ?_) h
    refine Res.Done.bind (propIfL_clock ..) (fun a h => ?_) h
    unfold learnAfter at h ⊢
    refine Res.Done.ite (fun _ => rfl) (fun h => ?_) h
    refine Res.Done.ite (fun h => learnLoop_clock ht f _ _ h) (fun h => ?_) h
    rw [decideNC_clock]
    cases hd : decideNC cfg a with
    | none => rfl
    | some s => rw [hd] at h; exact learnLoop_clock ht f _ _ h

theorem run_clock {cfg : Cfg S} {t : Nat → Bool} (ht : ∀ k, t k = true → cfg.late k = true) {algo : Algo} {f : Nat} {P : Problem}
    (h : (run cfg algo f P).Done) : run (cfg.clock t) algo f P = run cfg algo f P := by
  refine Res.Done.bind (build_clock ..) (fun s h => ?_) h
  cases algo with
  | chrono => exact chrono_clock ht f _ _ h
  | learn => exact learnLoop_clock ht f _ _ h

end Mvl
