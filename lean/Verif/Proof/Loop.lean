import Verif.Proof.Chrono

/-!
# The clause-learning loop, for both ways of propagating

What `learnLoop` returns and that it stops, given an invariant of its parts.
-/

namespace Mvl

variable {S : Type}

/-- Conflict handling as called by `learnLoop`. -/
def confIf (cfg : Cfg S) (f : Nat) (s : St S) (rc : Int) : Res (St S × Int) :=
  if s.conflict then (if cfg.watch then conflictWL cfg f s rc else conflictNC cfg f s rc) else .ok (s, rc)

/-- Propagation as called by `learnLoop`. -/
def propIfL (cfg : Cfg S) (f : Nat) (s : St S) : Res (St S) :=
  if s.units = [] then .ok s else if cfg.watch then wunitProp cfg f s else unitProp cfg f s

/-- The part of `learnLoop` after propagation. -/
def learnAfter (cfg : Cfg S) (rec : St S → Int → Res (Nat × St S)) (rc : Int) (s : St S) : Res (Nat × St S) :=
  if s.ub then .ub
  else if s.conflict then rec s rc
  else match decideNC cfg s with
    | none => .ok (0, chooseEffect cfg s)
    | some s' => rec s' rc

theorem learnLoop_succ (cfg : Cfg S) (f : Nat) (s : St S) (rc : Int) :
    learnLoop cfg (f + 1) s rc =
      if s.ub then .ub
      else if cfg.late s.ticks then .ok (1, tick s)
      else if s.conflict ∧ s.LEVEL = 0 then .ok (2, tick s)
      else confIf cfg f (tick s) rc >>= fun p => propIfL cfg f p.1 >>= learnAfter cfg (learnLoop cfg f) p.2 := by
  have key : ∀ (s : St S) (rc : Int), (do
      let s ← if s.units = [] then pure s
        else if cfg.watch then wunitProp cfg f s else unitProp cfg f s
      if s.ub then .ub else
      if s.conflict then learnLoop cfg f s rc
      else match decideNC cfg s with
        | none => pure (0, chooseEffect cfg s)
        | some s => learnLoop cfg f s rc) = (propIfL cfg f s >>= learnAfter cfg (learnLoop cfg f) rc) := by
    intro s rc
    unfold propIfL
    by_cases h1 : s.units = []
    · simp only [h1]; rfl
    · cases hw : cfg.watch <;> simp only [h1] <;> rfl
  conv => lhs; unfold learnLoop
  by_cases h1 : s.ub = true
  · rw [if_pos h1, if_pos h1]
  rw [if_neg h1, if_neg h1]
  dsimp only [readClock]
  by_cases h2 : cfg.late s.ticks = true
  · rw [if_pos h2, if_pos h2]; rfl
  rw [if_neg h2, if_neg h2]
  by_cases h3 : s.conflict = true ∧ s.LEVEL = 0
  · rw [if_pos h3, if_pos h3]; rfl
  rw [if_neg h3, if_neg h3]
  unfold confIf
  by_cases h4 : s.conflict = true
  · rw [if_pos h4, if_pos (show (tick s).conflict = true from h4)]
    cases hw : cfg.watch
    · rw [if_neg (by simp), if_neg (by simp)]
      exact congrArg (fun k => conflictNC cfg f (tick s) rc >>= k) (funext fun p => by
        rw [← key p.1 p.2, hw]; rfl)
    · rw [if_pos rfl, if_pos rfl]
      exact congrArg (fun k => conflictWL cfg f (tick s) rc >>= k) (funext fun p => by
        rw [← key p.1 p.2, hw]; rfl)
  · rw [if_neg h4, if_neg (show ¬ (tick s).conflict = true from h4)]
    exact key (tick s) rc

/-- An invariant of the loop. -/
structure LoopInv (cfg : Cfg S) (I : St S → Int → Prop) : Prop where
  ub : ∀ s rc, I s rc → s.ub = false
  tick : ∀ s rc, I s rc → I (tick s) rc
  conf : ∀ f s rc, I s rc → s.conflict = true → s.LEVEL ≠ 0 →
    (confIf cfg f s rc).Sat fun p => I p.1 p.2 ∧ p.1.conflict = false
  prop : ∀ f s rc, I s rc → s.conflict = false →
    (propIfL cfg f s).Sat fun s' => I s' rc ∧ (s'.conflict = true ∨ s'.units = [])
  dec : ∀ s rc s', I s rc → s.conflict = false → s.units = [] → decideNC cfg s = some s' → I s' rc

/-- What the loop returns. -/
inductive LPost (cfg : Cfg S) (I : St S → Int → Prop) : Nat × St S → Prop
  | sat (s : St S) (rc : Int) : I s rc → s.conflict = false → s.units = [] → decideNC cfg s = none →
      LPost cfg I (0, chooseEffect cfg s)
  | timeout (s : St S) (rc : Int) : I s rc → cfg.late s.ticks = true → LPost cfg I (1, tick s)
  | unsat (s : St S) (rc : Int) : I s rc → s.conflict = true → s.LEVEL = 0 → LPost cfg I (2, tick s)

theorem learnLoop_spec {cfg : Cfg S} {I : St S → Int → Prop} (h : LoopInv cfg I) : ∀ (f : Nat) (s : St S) (rc : Int),
    I s rc → (learnLoop cfg f s rc).Sat (LPost cfg I)
  | 0, _, _, _ => trivial
  | f + 1, s, rc, hi => by
    rw [learnLoop_succ, if_neg (by rw [h.ub s rc hi]; simp)]
    by_cases h1 : cfg.late s.ticks = true
    · rw [if_pos h1]; exact .timeout s rc hi h1
    rw [if_neg h1]
    by_cases h2 : s.conflict = true ∧ s.LEVEL = 0
    · rw [if_pos h2]; exact .unsat s rc hi h2.1 h2.2
    rw [if_neg h2]
    have hconf : (confIf cfg f (Mvl.tick s) rc).Sat fun p => I p.1 p.2 ∧ p.1.conflict = false := by
      by_cases hc : s.conflict = true
      · exact h.conf f _ _ (h.tick s rc hi) hc (fun hl => h2 ⟨hc, hl⟩)
      · unfold confIf
        rw [if_neg (show ¬ (Mvl.tick s).conflict = true from hc)]
        exact ⟨h.tick s rc hi, Bool.eq_false_iff.2 hc⟩
    apply hconf.bind
    rintro ⟨s1, rc1⟩ ⟨hi1, hc1⟩
    apply (h.prop f s1 rc1 hi1 hc1).bind
    rintro s2 ⟨hi2, hd2⟩
    unfold learnAfter
    rw [if_neg (by rw [h.ub s2 rc1 hi2]; simp)]
    by_cases hc2 : s2.conflict = true
    · rw [if_pos hc2]; exact learnLoop_spec h f s2 rc1 hi2
    rw [if_neg hc2]
    have hc2' : s2.conflict = false := by simpa using hc2
    have hu2 : s2.units = [] := by
      rcases hd2 with h' | h'
      · exact absurd h' hc2
      · exact h'
    cases hdec : decideNC cfg s2 with
    | none => exact .sat s2 rc1 hi2 hc2' hu2 hdec
    | some s3 => exact learnLoop_spec h f s3 rc1 (h.dec s2 rc1 s3 hi2 hc2' hu2 hdec)

/-- A measure for termination. -/
structure LoopTerm (cfg : Cfg S) (I : St S → Int → Prop) (meas : St S → Nat) : Prop where
  tick : ∀ s, meas (tick s) = meas s
  conf : ∀ s rc, I s rc → s.conflict = true → s.LEVEL ≠ 0 →
    ∃ p f0, meas p.1 < meas s ∧ ∀ f, f0 ≤ f → confIf cfg f s rc = .ok p
  prop : ∀ s rc, I s rc → s.conflict = false →
    ∃ s' f0, meas s' ≤ meas s ∧ unCount s' ≤ unCount s ∧ ∀ f, f0 ≤ f → propIfL cfg f s = .ok s'
  dec : ∀ s rc s', I s rc → s.conflict = false → s.units = [] → decideNC cfg s = some s' →
    meas s' ≤ meas s ∧ unCount s' < unCount s

/-- The loop stops from `s`. -/
def Stops (cfg : Cfg S) (s : St S) (rc : Int) : Prop :=
  ∃ r f0, ∀ f, f0 ≤ f → learnLoop cfg f s rc = .ok r

/-- One round, given that the rest stops. -/
theorem stops_round {cfg : Cfg S} {I : St S → Int → Prop} {meas : St S → Nat} (h : LoopInv cfg I)
    (ht : LoopTerm cfg I meas) {s : St S} {rc : Int} (hi : I s rc)
    (hconf : s.conflict = true → s.LEVEL ≠ 0 → ∀ s' rc', I s' rc' → meas s' < meas s → Stops cfg s' rc')
    (hno : s.conflict = false → ∀ s' rc', I s' rc' → meas s' ≤ meas s →
      (s'.conflict = true ∨ unCount s' < unCount s) → Stops cfg s' rc') : Stops cfg s rc := by
  have hub := h.ub s rc hi
  by_cases h1 : cfg.late s.ticks = true
  · refine ⟨(1, Mvl.tick s), 1, ?_⟩
    intro f hf
    obtain ⟨f, rfl⟩ : ∃ k, f = k + 1 := ⟨f - 1, by omega⟩
    rw [learnLoop_succ, if_neg (by rw [hub]; simp), if_pos h1]
  by_cases h2 : s.conflict = true ∧ s.LEVEL = 0
  · refine ⟨(2, Mvl.tick s), 1, ?_⟩
    intro f hf
    obtain ⟨f, rfl⟩ : ∃ k, f = k + 1 := ⟨f - 1, by omega⟩
    rw [learnLoop_succ, if_neg (by rw [hub]; simp), if_neg h1, if_pos h2]
  have hit := h.tick s rc hi
  -- conflict handling
  have hA : ∃ p f0, (∀ f, f0 ≤ f → confIf cfg f (Mvl.tick s) rc = .ok p) ∧
      ((s.conflict = true ∧ meas p.1 < meas s) ∨ (s.conflict = false ∧ p = (Mvl.tick s, rc))) := by
    by_cases hc : s.conflict = true
    · obtain ⟨p, f0, hm, hf⟩ := ht.conf _ _ hit hc (fun hl => h2 ⟨hc, hl⟩)
      rw [ht.tick] at hm
      exact ⟨p, f0, hf, Or.inl ⟨hc, hm⟩⟩
    · refine ⟨(Mvl.tick s, rc), 0, ?_, Or.inr ⟨by simpa using hc, rfl⟩⟩
      intro f _
      unfold confIf
      rw [if_neg (show ¬ (Mvl.tick s).conflict = true from hc)]
  obtain ⟨p, fA, hfA, hAm⟩ := hA
  have hip : I p.1 p.2 ∧ p.1.conflict = false := by
    rcases hAm with ⟨hc, _⟩ | ⟨hc, rfl⟩
    · have := h.conf fA _ _ hit hc (fun hl => h2 ⟨hc, hl⟩)
      rw [hfA fA (Nat.le_refl _)] at this; exact this
    · exact ⟨hit, hc⟩
  obtain ⟨s2, fB, hm2, hun2, hfB⟩ := ht.prop _ _ hip.1 hip.2
  have hi2 : I s2 p.2 ∧ (s2.conflict = true ∨ s2.units = []) := by
    have := h.prop fB _ _ hip.1 hip.2
    rw [hfB fB (Nat.le_refl _)] at this; exact this
  have hstep : ∀ f, fA ≤ f → fB ≤ f →
      learnLoop cfg (f + 1) s rc = learnAfter cfg (learnLoop cfg f) p.2 s2 := by
    intro f hf1 hf2
    rw [learnLoop_succ, if_neg (by rw [hub]; simp), if_neg h1, if_neg h2, hfA f hf1]
    show (propIfL cfg f p.1 >>= learnAfter cfg (learnLoop cfg f) p.2) = _
    rw [hfB f hf2]; rfl
  have hub2 := h.ub s2 p.2 hi2.1
  -- what the rest of the round needs
  have hgo : ∀ s3, I s3 p.2 → meas s3 ≤ meas s2 → (s3.conflict = true ∨ unCount s3 < unCount s2) →
      Stops cfg s3 p.2 := by
    intro s3 hi3 hm3 hor
    rcases hAm with ⟨hc, hlt⟩ | ⟨hc, rfl⟩
    · exact hconf hc (fun hl => h2 ⟨hc, hl⟩) s3 p.2 hi3 (by omega)
    · have e1 : meas (Mvl.tick s) = meas s := ht.tick s
      have e2 : unCount (Mvl.tick s) = unCount s := rfl
      simp only at hm2 hun2
      exact hno hc s3 rc hi3 (by omega) (by
        rcases hor with h' | h'
        · exact Or.inl h'
        · exact Or.inr (by omega))
  by_cases hc2 : s2.conflict = true
  · obtain ⟨r, f0, hr⟩ := hgo s2 hi2.1 (Nat.le_refl _) (Or.inl hc2)
    refine ⟨r, f0 + fA + fB + 1, ?_⟩
    intro f hf
    obtain ⟨f, rfl⟩ : ∃ k, f = k + 1 := ⟨f - 1, by omega⟩
    rw [hstep f (by omega) (by omega)]
    unfold learnAfter
    rw [if_neg (by rw [hub2]; simp), if_pos hc2]
    exact hr f (by omega)
  · have hc2' : s2.conflict = false := by simpa using hc2
    have hu2 : s2.units = [] := by
      rcases hi2.2 with h' | h'
      · exact absurd h' hc2
      · exact h'
    cases hdec : decideNC cfg s2 with
    | none =>
      refine ⟨(0, chooseEffect cfg s2), fA + fB + 1, ?_⟩
      intro f hf
      obtain ⟨f, rfl⟩ : ∃ k, f = k + 1 := ⟨f - 1, by omega⟩
      rw [hstep f (by omega) (by omega)]
      unfold learnAfter
      rw [if_neg (by rw [hub2]; simp), if_neg hc2, hdec]
    | some s3 =>
      have hi3 := h.dec s2 p.2 s3 hi2.1 hc2' hu2 hdec
      obtain ⟨d1, d2⟩ := ht.dec s2 p.2 s3 hi2.1 hc2' hu2 hdec
      obtain ⟨r, f0, hr⟩ := hgo s3 hi3 d1 (Or.inr d2)
      refine ⟨r, f0 + fA + fB + 1, ?_⟩
      intro f hf
      obtain ⟨f, rfl⟩ : ∃ k, f = k + 1 := ⟨f - 1, by omega⟩
      rw [hstep f (by omega) (by omega)]
      unfold learnAfter
      rw [if_neg (by rw [hub2]; simp), if_neg hc2, hdec]
      exact hr f (by omega)

theorem learnLoop_term {cfg : Cfg S} {I : St S → Int → Prop} {meas : St S → Nat} (h : LoopInv cfg I)
    (ht : LoopTerm cfg I meas) : ∀ (n : Nat) (s : St S) (rc : Int), meas s ≤ n → I s rc → Stops cfg s rc := by
  intro n
  induction n using Nat.strongRecOn with
  | ind n ih =>
    have hlow : ∀ s' rc', I s' rc' → meas s' < n → Stops cfg s' rc' := fun s' rc' hi' hm' =>
      ih (meas s') hm' s' rc' (Nat.le_refl _) hi'
    have hc : ∀ s rc, I s rc → meas s ≤ n → s.conflict = true → Stops cfg s rc := by
      intro s rc hi hm hc
      exact stops_round h ht hi (fun _ _ s' rc' hi' hm' => hlow s' rc' hi' (by omega))
        (fun hn => by rw [hc] at hn; simp at hn)
    have hn : ∀ (u : Nat) s rc, I s rc → meas s ≤ n → unCount s ≤ u → Stops cfg s rc := by
      intro u
      induction u with
      | zero =>
        intro s rc hi hm hu
        apply stops_round h ht hi (fun _ _ s' rc' hi' hm' => hlow s' rc' hi' (by omega))
        intro _ s' rc' hi' hm' hor
        rcases hor with h' | h'
        · exact hc s' rc' hi' (by omega) h'
        · omega
      | succ u ihu =>
        intro s rc hi hm hu
        apply stops_round h ht hi (fun _ _ s' rc' hi' hm' => hlow s' rc' hi' (by omega))
        intro _ s' rc' hi' hm' hor
        rcases hor with h' | h'
        · exact hc s' rc' hi' (by omega) h'
        · exact ihu s' rc' hi' (by omega) (by omega)
    intro s rc hm hi
    exact hn _ s rc hi hm (Nat.le_refl _)

end Mvl
