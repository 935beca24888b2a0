import Verif.Proof.BVAny

/-!
# Bit-vector variant: a conflict analysis that goes round in circles

How to show that a run does not end whatever the fuel: some turns of the search lead to a conflict on which the analysis
comes back to a clause it has already seen.
-/

namespace Mvl.BV

variable {S : Type}

/-- Some turns of the search. -/
def bsteps (cfg : BCfg S) (f : Nat) : Nat → BSt S → Int → Res (BSt S × Int)
  | 0, s, rc => .ok (s, rc)
  | n + 1, s, rc => bstep cfg f s rc >>= fun r => match r with
    | .inl _ => .ub
    | .inr p => bsteps cfg f n p.1 p.2

/-- One resolution of the conflict analysis, if it does not end here. -/
def astep (s : BSt S) (c : BCls) : Option BCls :=
  match bpotent s c, c.w0 with
  | .ok false, some l =>
    if (s.node l).reason < 0 ∨ (s.node l).reason.toNat ≥ s.ncl then none
    else some (assignWatched s (bresolve c.lits l (s.cl (s.node l).reason.toNat).lits))
  | _, _ => none

/-- Several resolutions. -/
def aiter (s : BSt S) : Nat → BCls → Option BCls
  | 0, c => some c
  | n + 1, c => match astep s c with
    | some c' => aiter s n c'
    | none => none

theorem aiter_add (s : BSt S) : ∀ (n m : Nat) (c : BCls), aiter s (n + m) c = (aiter s n c).bind (aiter s m)
  | 0, m, c => by rw [Nat.zero_add]; rfl
  | n + 1, m, c => by
    rw [Nat.succ_add]
    show (match astep s c with | some c' => aiter s (n + m) c' | none => none) =
      (match astep s c with | some c' => aiter s n c' | none => none : Option BCls).bind (aiter s m)
    cases astep s c with
    | none => rfl
    | some c' => exact aiter_add s n m c'

theorem aiter_cycle {s : BSt S} {k : Nat} {c : BCls} (h : aiter s (k + 1) c = some c) : ∀ n, aiter s n c ≠ none
  | n => by
    have big : ∀ n, ∃ m, n ≤ m ∧ aiter s m c = some c := by
      intro n
      induction n with
      | zero => exact ⟨0, Nat.le_refl _, rfl⟩
      | succ n ih =>
        obtain ⟨m, h1, h2⟩ := ih
        refine ⟨m + (k + 1), by omega, ?_⟩
        rw [aiter_add, h2]
        exact h
    obtain ⟨m, h1, h2⟩ := big n
    intro hn
    have : m = n + (m - n) := by omega
    rw [this, aiter_add, hn] at h2
    cases h2

theorem banalyze_step (A : ScoreArith S) {s : BSt S} {c c' : BCls} (h : astep s c = some c') (p : Option Nat) (f : Nat) :
    banalyze A (f + 1) s c p = banalyze A f s c' none := by
  unfold astep at h
  split at h
  · rename_i l h1 h2
    split at h
    · cases h
    · rename_i hr
      cases h
      rw [banalyze, h1]
      simp only [h2, if_neg hr]
      rfl
  · cases h

/-- As long as there is a next resolution, the fuel runs out. -/
theorem banalyze_fuel (A : ScoreArith S) {s : BSt S} : ∀ (f : Nat) {c : BCls} (p : Option Nat), aiter s f c ≠ none →
    banalyze A f s c p = .fuel
  | 0, _, _, _ => rfl
  | f + 1, c, p, h => by
    cases hs : astep s c with
    | none =>
      exfalso
      apply h
      show (match astep s c with | some c' => aiter s f c' | none => none) = none
      rw [hs]
    | some c' =>
      rw [banalyze_step A hs]
      apply banalyze_fuel
      intro hn
      apply h
      show (match astep s c with | some c' => aiter s f c' | none => none) = none
      rw [hs]; exact hn

theorem aiter_reach {s : BSt S} {j k : Nat} {c d : BCls} (h1 : aiter s j c = some d) (h2 : aiter s (k + 1) d = some d) (n : Nat) :
    aiter s n c ≠ none := by
  intro hn
  have h3 : aiter s (j + n) c ≠ none := by
    rw [aiter_add, h1]
    exact aiter_cycle h2 n
  rw [Nat.add_comm, aiter_add, hn] at h3
  exact h3 rfl

theorem bloop_steps (cfg : BCfg S) {f : Nat} : ∀ (n : Nat) {s s' : BSt S} {rc rc' : Int}, bsteps cfg f n s rc = .ok (s', rc') →
    ∀ F, f ≤ F → bloop cfg (F + n) s rc = bloop cfg F s' rc'
  | 0, s, s', rc, rc', h, F, _ => by cases h; rfl
  | n + 1, s, s', rc, rc', h, F, hF => by
    show bloop cfg (F + n + 1) s rc = _
    have hs : bsteps cfg f (n + 1) s rc = (bstep cfg f s rc >>= fun r => match r with
      | .inl _ => .ub
      | .inr p => bsteps cfg f n p.1 p.2) := rfl
    rw [hs] at h
    rw [bloop_eq]
    cases hx : bstep cfg f s rc with
    | fuel => rw [hx] at h; cases h
    | ub => rw [hx] at h; cases h
    | ok r =>
      rw [hx] at h
      rw [mono_le (g := fun f => bstep cfg f s rc) (fun f => bstep_mono cfg f s rc) (f := f) (f' := F + n) (by omega)
        (by rw [hx]; exact ok_ne _)]
      rw [hx]
      cases r with
      | inl x => cases h
      | inr p => exact bloop_steps cfg n h F hF

/-- The test: after `n` turns the next turn analyses a conflict, and the analysis is in a cycle of length `k + 1` after `j`
resolutions. -/
def stuck (cfg : BCfg S) (j k : Nat) (s : BSt S) : Bool :=
  !cfg.late s.ticks && s.conflict && decide (s.LEVEL ≠ 0) && decide (0 ≤ s.conflicting) &&
    decide (s.conflicting.toNat < s.ncl) && match aiter s j (s.cl s.conflicting.toNat) with
      | some d => decide (aiter s (k + 1) d = some d)
      | none => false

theorem stuck_fuel {cfg : BCfg S} {j k : Nat} {s : BSt S} (h : stuck cfg j k s = true) (rc : Int) (F : Nat) :
    bloop cfg F s rc = .fuel := by
  unfold stuck at h
  simp only [Bool.and_eq_true, Bool.not_eq_true', decide_eq_true_eq] at h
  obtain ⟨⟨⟨⟨⟨h1, h2⟩, h3⟩, h4⟩, h5⟩, h6⟩ := h
  cases F with
  | zero => rfl
  | succ F =>
    cases ha : aiter s j (s.cl s.conflicting.toNat) with
    | none => rw [ha] at h6; cases h6
    | some d =>
      rw [ha] at h6
      have hc := of_decide_eq_true h6
      rw [bloop_eq]
      unfold bstep
      dsimp only
      rw [h1, if_neg (by decide), if_neg (fun e => h3 e.2), if_pos h2]
      unfold bconflict
      dsimp only
      rw [if_neg (by omega)]
      have key : banalyze cfg.arith F ({ s with ticks := s.ticks + 1 } : BSt S) (s.cl s.conflicting.toNat)
          (some (s.ptr s.conflicting.toNat)) = .fuel := by
        apply banalyze_fuel
        have e : ∀ n c, aiter ({ s with ticks := s.ticks + 1 } : BSt S) n c = aiter s n c := by
          intro n
          induction n with
          | zero => intro c; rfl
          | succ n ih =>
            intro c
            show (match astep s c with | some c' => aiter ({ s with ticks := s.ticks + 1 } : BSt S) n c' | none => none) =
              (match astep s c with | some c' => aiter s n c' | none => none)
            cases astep s c with
            | none => rfl
            | some c' => exact ih c'
        rw [e]
        exact aiter_reach ha hc F
      show ((banalyze cfg.arith F ({ s with ticks := s.ticks + 1 } : BSt S) (s.cl s.conflicting.toNat)
          (some (s.ptr s.conflicting.toNat)) >>= _) >>= _) >>= _ = _
      rw [key]
      rfl

/-- A run that comes to such a conflict ends for no fuel. -/
theorem bsolve_stuck {cfg : BCfg S} {P : Problem} {f n j k : Nat}
    (h : ∃ p, (bbuild cfg.arith P >>= fun s => bsteps cfg f n s cfg.restarts) = .ok p ∧ stuck cfg j k p.1 = true)
    (fuel : Nat) : bsolve cfg fuel P = .fuel := by
  obtain ⟨p, h, hst⟩ := h
  cases hb : bbuild cfg.arith P with
  | fuel => rw [hb] at h; cases h
  | ub => rw [hb] at h; cases h
  | ok s =>
    rw [hb] at h
    have hs : bsteps cfg f n s cfg.restarts = .ok p := h
    have key : bloop cfg fuel s cfg.restarts = .fuel := by
      apply Classical.byContradiction
      intro hne
      have h1 := mono_le (g := fun f => bloop cfg f s cfg.restarts) (fun f => bloop_mono cfg f s cfg.restarts)
        (f := fuel) (f' := max f fuel + n) (by omega) hne
      have h2 := bloop_steps cfg n hs (max f fuel) (by omega)
      have h3 := stuck_fuel (rc := p.2) hst (max f fuel)
      rw [h2, h3] at h1
      exact hne h1.symm
    unfold bsolve brun
    rw [hb]
    show (bloop cfg fuel s cfg.restarts >>= _) = _
    rw [key]
    rfl

end Mvl.BV
