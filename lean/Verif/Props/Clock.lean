import Verif.Proof.Fuel
import Verif.Props.Counts
import Verif.Props.BitVec

/-!
# The time limit decides only whether there is an answer

C61, for both programs, every formula, well-formed or not, every configuration and every search.
-/

namespace Mvl

variable {S : Type}

/-- **C61**, one clock not earlier than the other: an answer other than TIMEOUT is given again, with the same model and
the same statistics, by every clock that is late only when the first one is. -/
theorem C61_more_time {cfg : Cfg S} {late : Nat → Bool} (ht : ∀ k, late k = true → cfg.late k = true) {algo : Algo} {fuel : Nat}
    {P : Problem} {rep : Report} (hrun : solve cfg algo fuel P = .ok rep) (hans : rep.answer ≠ .TIMEOUT) :
    solve { cfg with late := late } algo fuel P = .ok rep := by
  obtain ⟨r, s, h1, rfl⟩ := solve_eq_ok.1 hrun
  refine solve_eq_ok.2 ⟨r, s, ?_, rfl⟩
  rw [← h1]
  refine run_clock (cfg := cfg) (t := late) ht ⟨r, s, h1, ?_⟩
  rintro rfl
  exact hans rfl

/-- **C61**: two runs of one search on one formula that differ in what the clock shows, and in how long they are watched, and
neither of which ends in TIMEOUT, print the same answer, the same model and the same statistics. -/
theorem C61_same_report {cfg : Cfg S} {late late' : Nat → Bool} {algo : Algo} {fuel fuel' : Nat} {P : Problem}
    {rep rep' : Report} (h : solve { cfg with late := late } algo fuel P = .ok rep)
    (h' : solve { cfg with late := late' } algo fuel' P = .ok rep') (ha : rep.answer ≠ .TIMEOUT) (ha' : rep'.answer ≠ .TIMEOUT) :
    rep = rep' := by
  have h := C61_more_time (late := fun _ => false) (fun _ h => by cases h) h ha
  have h' := C61_more_time (late := fun _ => false) (fun _ h => by cases h) h' ha'
  obtain ⟨r, s, h1, rfl⟩ := solve_eq_ok.1 h
  obtain ⟨r', s', h2, rfl⟩ := solve_eq_ok.1 h'
  have e := run_unique (cfg := { cfg with late := fun _ => false }) (algo := algo) (P := P) (f := fuel) (f' := fuel')
    (by dsimp only at h1 ⊢; rw [h1]; nofun) (by dsimp only at h2 ⊢; rw [h2]; nofun)
  have e : Res.ok (r, s) = Res.ok (r', s') := by rw [← h1, ← h2]; exact e
  cases e
  rfl

/-- Three clocks on one formula: the first too early for an answer. -/
example : (solve { exCfg .VSIDS true with late := fun k => decide (2 ≤ k) } .learn 60 exPigeon).passes
      (fun rep => rep.answer == .TIMEOUT) = true ∧
    (solve { exCfg .VSIDS true with late := fun k => decide (40 ≤ k) } .learn 60 exPigeon).passes
      (fun rep => rep.answer == .UNSAT) = true ∧
    (solve { exCfg .VSIDS true with late := fun k => decide (50 ≤ k) } .learn 80 exPigeon).passes
      (fun rep => rep.answer == .UNSAT) = true := by decide +kernel

namespace BV

def BDone (x : Res (Nat × BSt S)) : Prop := ∃ r s, x = .ok (r, s) ∧ r ≠ 1

theorem bloop_clock {cfg : BCfg S} {t : Nat → Bool} (ht : ∀ k, t k = true → cfg.late k = true) : ∀ (f : Nat) (s : BSt S) (rc : Int),
    BDone (bloop cfg f s rc) → bloop { cfg with late := t } f s rc = bloop cfg f s rc
  | 0, _, _, h => rfl
  | f + 1, s, rc, h => by
    rw [bloop_eq] at h
    rw [bloop_eq, bloop_eq]
    have key : ¬ cfg.late s.ticks = true := by
      intro hl
      unfold bstep at h
      dsimp only at h
      rw [if_pos hl] at h
      obtain ⟨r, s', h1, h2⟩ := h
      cases h1
      exact h2 rfl
    have key' : ¬ t s.ticks = true := fun h => key (ht _ h)
    have e : bstep { cfg with late := t } f s rc = bstep cfg f s rc := by
      unfold bstep
      dsimp only
      rw [if_neg key, if_neg key']
      rfl
    rw [e]
    cases hx : bstep cfg f s rc with
    | fuel => rfl
    | ub => rfl
    | ok r =>
      rw [hx] at h
      cases r with
      | inl x => rfl
      | inr p => exact bloop_clock ht f _ _ h

theorem C61_bitvec_more_time {cfg : BCfg S} {late : Nat → Bool} (ht : ∀ k, late k = true → cfg.late k = true) {fuel : Nat}
    {P : Problem} {rep : BReport} (hrun : bsolve cfg fuel P = .ok rep) (hans : rep.answer ≠ .TIMEOUT) :
    bsolve { cfg with late := late } fuel P = .ok rep := by
  obtain ⟨r, s, h1, rfl⟩ := bsolve_eq_ok.1 hrun
  refine bsolve_eq_ok.2 ⟨r, s, ?_, rfl⟩
  unfold brun at h1 ⊢
  cases hb : bbuild cfg.arith P with
  | fuel => rw [hb] at h1; cases h1
  | ub => rw [hb] at h1; cases h1
  | ok s0 =>
    rw [hb] at h1
    have h1 : bloop cfg fuel s0 cfg.restarts = .ok (r, s) := h1
    show bloop { cfg with late := late } fuel s0 cfg.restarts = .ok (r, s)
    rw [bloop_clock ht fuel s0 _ ⟨r, s, h1, ?_⟩, h1]
    rintro rfl
    exact hans rfl

/-- **C61** for the bit-vector program. -/
theorem C61_bitvec_same_report {cfg : BCfg S} {late late' : Nat → Bool} {fuel fuel' : Nat} {P : Problem}
    {rep rep' : BReport} (h : bsolve { cfg with late := late } fuel P = .ok rep)
    (h' : bsolve { cfg with late := late' } fuel' P = .ok rep') (ha : rep.answer ≠ .TIMEOUT) (ha' : rep'.answer ≠ .TIMEOUT) :
    rep = rep' := by
  have h := C61_bitvec_more_time (late := fun _ => false) (fun _ h => by cases h) h ha
  have h' := C61_bitvec_more_time (late := fun _ => false) (fun _ h => by cases h) h' ha'
  obtain ⟨r, s, h1, rfl⟩ := bsolve_eq_ok.1 h
  obtain ⟨r', s', h2, rfl⟩ := bsolve_eq_ok.1 h'
  have mono : ∀ f, brun { cfg with late := fun _ => false } f P ≠ .fuel →
      brun { cfg with late := fun _ => false } (f + 1) P = brun { cfg with late := fun _ => false } f P := fun f hf =>
    bind_mono (fun _ => rfl) (fun s hs => bloop_mono _ f s _ hs) hf
  have e : brun { cfg with late := fun _ => false } fuel P = brun { cfg with late := fun _ => false } fuel' P := by
    rcases Nat.le_total fuel fuel' with hl | hl
    · exact (mono_le (g := fun f => brun { cfg with late := fun _ => false } f P) mono hl (by dsimp only at h1 ⊢; rw [h1]; nofun)).symm
    · exact mono_le (g := fun f => brun { cfg with late := fun _ => false } f P) mono hl (by dsimp only at h2 ⊢; rw [h2]; nofun)
  have e : Res.ok (r, s) = Res.ok (r', s') := by rw [← h1, ← h2]; exact e
  cases e
  rfl

example : (bsolve { exB false 2 with late := fun k => decide (3 ≤ k) } 60 exUns).passes (fun rep => rep.answer == .TIMEOUT) = true ∧
    (bsolve { exB false 2 with late := fun k => decide (60 ≤ k) } 60 exUns).passes (fun rep => rep.answer == .UNSAT) = true ∧
    (bsolve { exB false 2 with late := fun k => decide (70 ≤ k) } 70 exUns).passes (fun rep => rep.answer == .UNSAT) = true := by
  decide +kernel

end BV

end Mvl
