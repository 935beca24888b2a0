import Verif.Proof.BVBuild
import Verif.Proof.BVLoop
import Verif.Proof.BVVsids
import Verif.Props.Agree
import Verif.Props.Files

/-!
# Properties of the bit-vector variant, /repo/bitvec

C36, C37, C38 and C54 to C60.  C36, C58 and C59 hold for every setting of `-restart`, C54 and C57 do so with `-vsids`; the
other search theorems are about runs without restarts (`-restart` absent or not positive, which is the default), and fail
with restarts where this is shown.
-/

namespace Mvl.BV

variable {S : Type}

/-- The score arithmetic keeps all scores above the starting value of the comparison. -/
def BCfg.ScoreOK (cfg : BCfg S) : Prop := ∃ pos, cfg.arith.Good pos

/-- No domain has more values than a `bitset<64>` has bits. -/
def Fits (P : Problem) : Prop := ∀ d ∈ P.doms, d ≤ 64

instance (P : Problem) : Decidable (Fits P) := by unfold Fits; infer_instance

/-- States of the bit-vector search at the head of its loop, with the next restart. -/
inductive BReach (cfg : BCfg S) (P : Problem) : BSt S → Int → Prop
  | start {s : BSt S} : bbuild cfg.arith P = .ok s → BReach cfg P s cfg.restarts
  | step {s s' : BSt S} {rc rc' : Int} {f : Nat} : BReach cfg P s rc → bstep cfg f s rc = .ok (.inr (s', rc')) →
      BReach cfg P s' rc'

theorem BReach.inv {cfg : BCfg S} {pos : S → Prop} (hg : cfg.arith.Good pos) (hrs : cfg.restarts ≤ 0) {P : Problem}
    (hwf : P.Regular) (h64 : Fits P) {s : BSt S} {rc : Int} (h : BReach cfg P s rc) :
    LoopInv (¬ OneVarOK P) P pos s ∧ rc = cfg.restarts := by
  induction h with
  | start hb =>
    obtain ⟨s0, h1, h2⟩ := bbuild_read hg hwf h64
    rw [h1] at hb
    cases hb
    exact ⟨h2.loopInv, rfl⟩
  | @step s s' rc rc' f _ hs ih =>
    obtain ⟨h1, rfl⟩ := ih
    have := bstep_spec cfg hg h1 hrs f
    rw [hs] at this
    exact ⟨this.2.1, this.1⟩

theorem BReach.steps {cfg : BCfg S} {P : Problem} {f : Nat} : ∀ (n : Nat) {s s' : BSt S} {rc rc' : Int}, BReach cfg P s rc →
    bsteps cfg f n s rc = .ok (s', rc') → BReach cfg P s' rc'
  | 0, _, _, _, _, h, hb => by cases hb; exact h
  | n + 1, s, s', rc, rc', h, hb => by
    have hs : bsteps cfg f (n + 1) s rc = (bstep cfg f s rc >>= fun r => match r with
      | .inl _ => .ub
      | .inr p => bsteps cfg f n p.1 p.2) := rfl
    rw [hs] at hb
    cases hx : bstep cfg f s rc with
    | fuel => rw [hx] at hb; cases hb
    | ub => rw [hx] at hb; cases hb
    | ok r =>
      rw [hx] at hb
      cases r with
      | inl x => cases hb
      | inr p => exact BReach.steps n (.step h hx) hb

/-- What a run without restarts gives. -/
theorem brun_final {cfg : BCfg S} (hs : cfg.ScoreOK) (hrs : cfg.restarts ≤ 0) {P : Problem} (hwf : P.Regular)
    (h64 : Fits P) (fuel : Nat) :
    SatU (¬ OneVarOK P) (brun cfg fuel P) fun r => Final cfg P r.1 r.2 := by
  obtain ⟨pos, hg⟩ := hs
  obtain ⟨s0, h1, h2⟩ := bbuild_read hg hwf h64
  unfold brun
  rw [h1]
  exact bloop_spec cfg hg hrs fuel h2.loopInv

theorem brun_stops {cfg : BCfg S} (hs : cfg.ScoreOK) (hrs : cfg.restarts ≤ 0) {P : Problem} (hwf : P.Regular)
    (h64 : Fits P) : ∃ f0, brun cfg f0 P ≠ .fuel ∧ ∀ fuel, f0 ≤ fuel → brun cfg fuel P = brun cfg f0 P := by
  obtain ⟨pos, hg⟩ := hs
  obtain ⟨s0, h1, h2⟩ := bbuild_read hg hwf h64
  obtain ⟨f0, hf⟩ := bloop_stops cfg hg hrs _ _ h2.loopInv rfl rfl
  have e : ∀ fuel, brun cfg fuel P = bloop cfg fuel s0 cfg.restarts := fun fuel => by unfold brun; rw [h1]; rfl
  refine ⟨f0, by rw [e]; exact hf, ?_⟩
  intro fuel hle
  rw [e, e]
  exact mono_le (g := fun f => bloop cfg f s0 cfg.restarts) (fun f => bloop_mono cfg f s0 cfg.restarts) hle hf

theorem bsolve_eq_ok {cfg : BCfg S} {fuel : Nat} {P : Problem} {rep : BReport} :
    bsolve cfg fuel P = .ok rep ↔ ∃ r s, brun cfg fuel P = .ok (r, s) ∧ rep = breport r s := by
  unfold bsolve
  cases brun cfg fuel P with
  | ok p =>
    obtain ⟨r, s⟩ := p
    constructor
    · intro h; cases h; exact ⟨r, s, rfl, rfl⟩
    · rintro ⟨_, _, h, rfl⟩; cases h; rfl
  | ub => exact ⟨nofun, nofun⟩
  | fuel => exact ⟨nofun, nofun⟩

/-- `bsolve` unfolded together with what is known about the run. -/
theorem bsolve_final {cfg : BCfg S} (hs : cfg.ScoreOK) (hrs : cfg.restarts ≤ 0) {P : Problem} (hwf : P.Regular)
    (h64 : Fits P) {fuel : Nat} {rep : BReport} (hrun : bsolve cfg fuel P = .ok rep) :
    ∃ r s, brun cfg fuel P = .ok (r, s) ∧ rep = breport r s ∧ Final cfg P r s := by
  obtain ⟨r, s, h1, h2⟩ := bsolve_eq_ok.1 hrun
  have := brun_final hs hrs hwf h64 fuel
  rw [h1] at this
  exact ⟨r, s, h1, h2, this⟩

/-- What holds at the head of the loop whatever the restarts do. -/
theorem start_any {cfg : BCfg S} {pos : S → Prop} (hg : cfg.arith.Good pos) {P : Problem} (hwf : P.Regular)
    (h64 : Fits P) : ∃ s, bbuild cfg.arith P = .ok s ∧ AnyInv cfg P s cfg.restarts := by
  obtain ⟨s, h1, h2⟩ := bbuild_read hg hwf h64
  have h3 := h2.loopInv
  refine ⟨s, h1, AInv.of_inv h3.inv h3.sem, h3.sem.count, fun _ => ⟨rfl, h3.sem.norestart⟩, fun hr => ?_⟩
  rw [h3.sem.norestart, h2.nBacktracks]
  refine ⟨?_, ?_, hr⟩ <;> simp

theorem BReach.any {cfg : BCfg S} (hs : cfg.ScoreOK) {P : Problem} (hwf : P.Regular) (h64 : Fits P) {s : BSt S} {rc : Int}
    (h : BReach cfg P s rc) : AnyInv cfg P s rc := by
  obtain ⟨pos, hg⟩ := hs
  induction h with
  | start hb =>
    obtain ⟨s0, h1, h2⟩ := start_any hg hwf h64
    rw [h1] at hb
    cases hb
    exact h2
  | @step s s' rc rc' f _ hs ih =>
    have := bstep_any cfg ih f
    rw [hs] at this
    exact this

theorem bsolve_any {cfg : BCfg S} (hs : cfg.ScoreOK) {P : Problem} (hwf : P.Regular) (h64 : Fits P) {fuel : Nat}
    {rep : BReport} (hrun : bsolve cfg fuel P = .ok rep) :
    ∃ r s rc, rep = breport r s ∧ AnyInv cfg P s rc := by
  obtain ⟨pos, hg⟩ := hs
  obtain ⟨r, s, h1, h2⟩ := bsolve_eq_ok.1 hrun
  obtain ⟨s0, h3, h4⟩ := start_any hg hwf h64
  have := bloop_any cfg fuel h4
  unfold brun at h1
  rw [h3] at h1
  have h1 : bloop cfg fuel s0 cfg.restarts = .ok (r, s) := h1
  rw [h1] at this
  obtain ⟨rc, h5⟩ := this
  exact ⟨r, s, rc, h2, h5⟩

/-! ## Examples used below -/

def natScores : ScoreArith Nat where
  zero := 1
  negOne := 0
  inc := Nat.succ
  half := id
  lt := fun a b => decide (a < b)

def exB (vsids : Bool) (r : Int) : BCfg (Option (Nat × Nat)) := ⟨vsids, ScoreArith.dyadic, r, fun _ => false⟩

theorem exB_score (h : Bool) (r : Int) : (exB h r).ScoreOK := ⟨_, ScoreArith.dyadic_good⟩

/-- Satisfiable, but a search with `-restart 2` answers UNSAT. -/
def exUns : Problem := ⟨[2, 3, 3, 4, 3, 3, 3, 2], [[⟨8,1,true⟩],
 [⟨7,1,true⟩,⟨1,1,true⟩,⟨3,0,false⟩,⟨8,0,true⟩], [⟨3,0,false⟩,⟨7,0,true⟩,⟨8,0,true⟩], [⟨5,0,false⟩,⟨7,0,false⟩,⟨8,0,true⟩],
 [⟨1,0,true⟩,⟨2,0,true⟩,⟨8,0,true⟩], [⟨5,1,false⟩,⟨3,2,true⟩,⟨8,0,true⟩], [⟨4,1,true⟩,⟨6,1,false⟩,⟨8,0,true⟩],
 [⟨6,0,true⟩,⟨5,1,false⟩,⟨8,0,true⟩], [⟨6,1,true⟩,⟨4,1,false⟩,⟨8,0,true⟩], [⟨6,2,false⟩,⟨2,1,true⟩,⟨8,0,true⟩],
 [⟨7,2,true⟩,⟨3,0,true⟩,⟨5,0,true⟩,⟨8,0,true⟩], [⟨1,0,false⟩,⟨6,0,false⟩,⟨8,0,true⟩], [⟨2,1,true⟩,⟨5,0,false⟩,⟨8,0,true⟩],
 [⟨2,0,true⟩,⟨6,2,false⟩,⟨8,0,true⟩], [⟨6,0,false⟩,⟨1,0,true⟩,⟨7,2,false⟩,⟨8,0,true⟩], [⟨1,0,false⟩,⟨7,1,false⟩,⟨8,0,true⟩],
 [⟨5,2,false⟩,⟨4,2,true⟩,⟨8,0,true⟩], [⟨4,3,true⟩,⟨1,0,false⟩,⟨8,0,true⟩]]⟩

/-- Satisfiable, but a search with `-vsids -restart 3` answers UNSAT. -/
def exUnsV : Problem := ⟨[3, 3, 3, 4, 3, 2, 3, 2, 4, 4, 4, 2, 4, 4, 2],
 [[⟨15,1,true⟩], [⟨13,2,false⟩,⟨8,1,false⟩,⟨15,0,true⟩], [⟨11,2,false⟩,⟨2,0,false⟩,⟨15,0,true⟩],
 [⟨6,1,false⟩,⟨8,0,false⟩,⟨15,0,true⟩], [⟨10,2,false⟩,⟨14,1,true⟩,⟨15,0,true⟩], [⟨10,2,false⟩,⟨14,1,true⟩,⟨15,0,true⟩],
 [⟨11,3,false⟩,⟨1,2,false⟩,⟨15,0,true⟩], [⟨10,1,false⟩,⟨11,2,false⟩,⟨15,0,true⟩],
 [⟨8,0,true⟩,⟨12,1,false⟩,⟨5,1,true⟩,⟨15,0,true⟩], [⟨14,1,true⟩,⟨10,1,false⟩,⟨15,0,true⟩],
 [⟨11,3,true⟩,⟨3,2,true⟩,⟨15,0,true⟩], [⟨12,1,true⟩,⟨8,0,true⟩,⟨15,0,true⟩],
 [⟨14,3,true⟩,⟨5,2,true⟩,⟨2,1,false⟩,⟨15,0,true⟩], [⟨13,2,true⟩,⟨9,1,false⟩,⟨12,1,false⟩,⟨15,0,true⟩],
 [⟨12,1,false⟩,⟨1,1,false⟩,⟨15,0,true⟩], [⟨2,2,false⟩,⟨10,3,false⟩,⟨15,0,true⟩], [⟨14,3,false⟩,⟨10,2,false⟩,⟨15,0,true⟩],
 [⟨1,2,false⟩,⟨4,1,false⟩,⟨11,1,false⟩,⟨15,0,true⟩], [⟨8,0,false⟩,⟨4,1,true⟩,⟨15,0,true⟩],
 [⟨2,2,false⟩,⟨11,3,true⟩,⟨15,0,true⟩], [⟨2,1,true⟩,⟨10,1,false⟩,⟨15,0,true⟩], [⟨1,0,false⟩,⟨5,1,true⟩,⟨15,0,true⟩],
 [⟨8,0,false⟩,⟨1,1,false⟩,⟨15,0,true⟩], [⟨14,3,true⟩,⟨6,0,false⟩,⟨11,1,true⟩,⟨15,0,true⟩],
 [⟨9,1,true⟩,⟨14,2,true⟩,⟨15,0,true⟩], [⟨14,0,false⟩,⟨6,0,true⟩,⟨15,0,true⟩], [⟨14,3,false⟩,⟨9,0,true⟩,⟨15,0,true⟩],
 [⟨2,1,true⟩,⟨7,1,false⟩,⟨15,0,true⟩], [⟨4,0,true⟩,⟨2,0,false⟩,⟨15,0,true⟩]]⟩

/-- A formula on which a search with `-restart 3` analyses a conflict forever. -/
def exLoop : Problem := ⟨[3, 3, 2, 2, 4, 3, 2, 4, 2, 4], [[⟨4,0,false⟩,⟨2,1,false⟩], [⟨1,0,true⟩,⟨2,0,false⟩], [⟨8,1,true⟩,⟨2,1,false⟩],
 [⟨9,0,false⟩,⟨3,1,false⟩,⟨10,1,true⟩], [⟨5,3,false⟩,⟨7,0,true⟩], [⟨9,0,false⟩,⟨5,1,false⟩], [⟨6,1,true⟩,⟨7,0,false⟩], [⟨1,0,false⟩,⟨9,0,true⟩],
 [⟨5,0,false⟩,⟨2,0,true⟩], [⟨9,0,true⟩,⟨8,3,true⟩,⟨5,1,true⟩], [⟨2,0,false⟩,⟨10,1,true⟩], [⟨5,0,true⟩,⟨9,0,false⟩,⟨3,0,false⟩],
 [⟨6,1,false⟩,⟨10,1,false⟩,⟨8,3,true⟩,⟨7,0,false⟩], [⟨5,2,false⟩,⟨7,1,false⟩], [⟨7,1,false⟩,⟨5,0,false⟩]]⟩

/-- A satisfiable formula on which a search with `-restart 4` stops at SAT with a clause that is not satisfied: the last one. -/
def exHidden : Problem := ⟨[2, 2, 2, 2, 2, 2, 2, 2, 2, 2, 2, 4, 2, 2, 2, 2, 2, 2, 2, 2, 2, 2],
 [[⟨1,0,true⟩,⟨4,0,true⟩], [⟨1,0,false⟩,⟨7,0,true⟩], [⟨1,0,false⟩,⟨7,0,false⟩], [⟨2,0,true⟩,⟨5,0,true⟩],
 [⟨2,0,false⟩,⟨7,0,true⟩], [⟨2,0,false⟩,⟨7,0,false⟩], [⟨3,0,true⟩,⟨6,0,true⟩], [⟨3,0,false⟩,⟨7,0,true⟩],
 [⟨3,0,false⟩,⟨7,0,false⟩], [⟨8,0,true⟩,⟨9,0,true⟩], [⟨10,1,true⟩,⟨11,0,true⟩], [⟨12,0,false⟩,⟨13,0,true⟩],
 [⟨14,0,true⟩,⟨15,0,true⟩], [⟨16,0,true⟩,⟨17,0,true⟩], [⟨16,0,false⟩,⟨10,1,false⟩,⟨18,0,true⟩],
 [⟨16,0,false⟩,⟨10,1,false⟩,⟨18,0,false⟩], [⟨19,0,true⟩,⟨16,0,false⟩], [⟨19,0,true⟩,⟨11,0,true⟩],
 [⟨19,0,false⟩,⟨8,0,false⟩,⟨20,0,true⟩], [⟨19,0,false⟩,⟨8,0,false⟩,⟨20,0,false⟩], [⟨21,0,true⟩,⟨22,0,true⟩],
 [⟨21,0,false⟩,⟨12,1,false⟩], [⟨21,0,false⟩,⟨12,1,true⟩,⟨8,0,false⟩], [⟨10,1,true⟩,⟨12,0,true⟩]]⟩

/-! ## C36 -/

/-- **C36**, first part: in the bit-vector solver an assignment that satisfies two clauses satisfies their resolvent.
A clause has one literal per variable and the resolved literal is in it (see `C36_used`
for the clauses of the search and `C36_resolve_distinct` for resolvents). -/
theorem C36_resolve_sound {c r : List BLit} {l : BLit} (hd : (c.map BLit.var).Nodup) (hl : l ∈ c) {a : Assignment}
    (hc : ∃ x ∈ c, x.vals.getLsbD (a x.var) = true) (hr : ∃ x ∈ r, x.vals.getLsbD (a x.var) = true) :
    ∃ x ∈ bresolve c l r, x.vals.getLsbD (a x.var) = true :=
  bresolve_sound hd hl hc hr

/-- **C36**, second part: the resolvent has at most one literal for each variable, whatever the clauses are. -/
theorem C36_resolve_distinct (c r : List BLit) (l : BLit) : ((bresolve c l r).map BLit.var).Nodup :=
  (bresolve_spec c l r).1

/-- **C36**, exactly: the values the resolvent allows. -/
theorem C36_resolve_values (c r : List BLit) (l : BLit) (v j : Nat) :
    (∃ x ∈ bresolve c l r, x.var = v ∧ x.vals.getLsbD j = true) ↔
      (v ≠ l.var ∧ ∃ x ∈ c, x.var = v ∧ x.vals.getLsbD j = true) ∨
      ((∃ x ∈ r, x.var = v ∧ x.vals.getLsbD j = true) ∧ (v = l.var → l.vals.getLsbD j = true)) :=
  (bresolve_spec c l r).2.1 v j

/-- The hypotheses of `C36_resolve_sound` hold for every clause in the list of a state of the search: one literal per
variable, and the first watched literal is in the clause. -/
theorem C36_used {cfg : BCfg S} (hs : cfg.ScoreOK) {P : Problem} (hwf : P.Regular)
    (h64 : Fits P) {s : BSt S} {rc : Int} (h : BReach cfg P s rc) {id : Nat} (hid : id < s.ncl) :
    ((s.cl id).lits.map BLit.var).Nodup ∧ ∃ w, (s.cl id).w0 = some w ∧ w ∈ (s.cl id).lits := by
  have hc := (h.any hs hwf h64).inv.cls id hid
  obtain ⟨w, hw⟩ := hc.2
  exact ⟨hc.1, w, hw, hc.3 w (.inl hw)⟩

example : bresolve [⟨1, 1#64⟩, ⟨2, 2#64⟩] ⟨2, 2#64⟩ [⟨2, 1#64⟩, ⟨3, 4#64⟩] = [⟨1, 1#64⟩, ⟨3, 4#64⟩] ∧
    bresolve [⟨1, 1#64⟩, ⟨2, 6#64⟩] ⟨2, 6#64⟩ [⟨2, 5#64⟩, ⟨1, 4#64⟩] = [⟨1, 5#64⟩, ⟨2, 4#64⟩] := by decide

/-- Resolving on a literal that is not in the clause is not sound: the hypothesis is needed. -/
theorem C36_needs_member : ∃ (c r : List BLit) (l : BLit) (a : Assignment), (c.map BLit.var).Nodup ∧
    (∃ x ∈ c, x.vals.getLsbD (a x.var) = true) ∧ (∃ x ∈ r, x.vals.getLsbD (a x.var) = true) ∧
    ¬ ∃ x ∈ bresolve c l r, x.vals.getLsbD (a x.var) = true :=
  ⟨[⟨1, 1#64⟩], [⟨1, 1#64⟩], ⟨1, 2#64⟩, fun _ => 0, by decide, ⟨_, List.mem_singleton.2 rfl, by decide⟩,
    ⟨_, List.mem_singleton.2 rfl, by decide⟩, by decide⟩

/-! ## C37 -/

/-- A formula on which the first conflict of a search with `-restart 1` goes back to level 1. -/
def exRestart : Problem :=
  ⟨[2, 2, 2, 2], [[⟨2, 0, false⟩, ⟨4, 1, true⟩, ⟨3, 0, false⟩], [⟨1, 0, true⟩, ⟨2, 1, false⟩, ⟨4, 0, true⟩],
    [⟨4, 0, false⟩, ⟨3, 1, false⟩], [⟨2, 1, false⟩, ⟨4, 0, true⟩, ⟨1, 0, true⟩]]⟩

/-- **C37 fails**: the argument is ignored.  Asked to undo to level 0 with `LEVEL` at 1, the function leaves an assignment
of level 1 in place; and a search with `-restart 1` on `exRestart`, stopped by the clock, has an assignment of level 2
left while the search is at level 1 after a restart. -/
theorem C37_fails :
    (∃ (s : BSt Nat) (v : Nat) (n : Node), n ∈ (bundo s 0).nodes v ∧ 0 < n.level) ∧
    exRestart.WellFormed ∧ Fits exRestart ∧
    (brun (⟨true, ScoreArith.dyadic, 1, fun k => 5 ≤ k⟩ : BCfg (Option (Nat × Nat))) 60 exRestart).passes (fun r =>
      decide (0 < r.2.nRestarts) && decide (r.2.LEVEL = 1) &&
        (List.range' 1 4).any fun v => (r.2.nodes v).any fun n => decide (n.level = 2)) = true := by
  refine ⟨⟨{ binit natScores with
    nv := 1, LEVEL := 1, nodes := fun _ => [⟨1, 1, -1, 1#64⟩] }, 1, ⟨1, 1, -1, 1#64⟩, ?_, by decide⟩,
    by decide, by decide, by decide +kernel⟩
  decide

/-- **C37**, for calls whose argument is the current value of `LEVEL`: exactly the assignments made above that level are
undone, and exactly the values they removed come back.  (The full claim is for every argument; the only other call is the
one at a restart.)  `hl` says that the assignments of a variable are stacked by level; see `C37_search_partial`. -/
theorem C37_undo_partial {s : BSt S} (hl : ∀ v, (s.nodes v).Pairwise fun n m => m.level ≤ n.level)
    (hout : ∀ v, ¬ (1 ≤ v ∧ v ≤ s.nv) → s.nodes v = []) :
    (∀ v n, n ∈ (bundo s s.LEVEL).nodes v ↔ n ∈ s.nodes v ∧ n.level ≤ s.LEVEL) ∧
    (∀ v j, 1 ≤ v → v ≤ s.nv → (((bundo s s.LEVEL).cur v).getLsbD j = true ↔
      (s.cur v).getLsbD j = true ∨ ∃ n ∈ s.nodes v, s.LEVEL < n.level ∧ n.values.getLsbD j = true)) := by
  refine ⟨?_, ?_⟩
  · intro v n
    rw [bundo_nodes hl hout, List.mem_filter, decide_eq_true_eq]
  · intro v j h1 h2
    exact bundo_cur hl s.LEVEL ⟨h1, h2⟩ j

example : let s : BSt Nat := { binit natScores with
      nv := 1, LEVEL := 1, nodes := fun v => if v = 1 then [⟨2, 2, -1, 2#64⟩, ⟨1, 1, -1, 1#64⟩] else [],
      cur := fun v => if v = 1 then 4#64 else 0#64 }
    (s.nodes 1).Pairwise (fun n m => m.level ≤ n.level) ∧ (bundo s s.LEVEL).nodes 1 = [⟨1, 1, -1, 1#64⟩] ∧
      (bundo s s.LEVEL).cur 1 = 6#64 := by decide

/-- **C37**, in runs without restarts: after a conflict has been dealt with, the assignments left are those made at or
below the level returned to, and the domains are what these assignments leave. -/
theorem C37_search_partial {cfg : BCfg S} (hs : cfg.ScoreOK) (hrs : cfg.restarts ≤ 0) {P : Problem} (hwf : P.Regular)
    (h64 : Fits P) {s : BSt S} {rc : Int} (h : BReach cfg P s rc) (hc : s.conflict = true) (hL : s.LEVEL ≠ 0)
    {f : Nat} {s' : BSt S} {rc' : Int} (hr : bconflict cfg f s rc = .ok (s', rc')) :
    s'.LEVEL < s.LEVEL ∧
    (∀ v n, n ∈ s'.nodes v ↔ n ∈ s.nodes v ∧ n.level ≤ s'.LEVEL) ∧
    (∀ v j, 1 ≤ v → v ≤ P.numVars → ((s'.cur v).getLsbD j = true ↔
      j < P.dom v ∧ ∀ n ∈ s.nodes v, n.level ≤ s'.LEVEL → n.values.getLsbD j = false)) := by
  obtain ⟨pos, hg⟩ := hs
  obtain ⟨hi, rfl⟩ := h.inv hg hrs hwf h64
  obtain ⟨id, hid, hcf, hcc⟩ := hi.inv.cc hc hL
  rw [bconflict_eq cfg f s _ hid hcf hrs] at hr
  have key := banalyze_confl cfg.arith hi.inv hcc (some (s.ptr id)) f
  generalize banalyze cfg.arith f s (s.cl id) (some (s.ptr id)) = x at key hr
  cases x with
  | fuel => cases hr
  | ub => cases hr
  | ok r =>
    obtain ⟨s1, c⟩ := r
    obtain ⟨hac, hpt, hln, _⟩ := key
    dsimp only at hac hpt hln hr
    have hnode : s1.node = s.node := by
      obtain ⟨sc, rs, e, _⟩ := blearn_eq cfg.arith hac
      have hln : blearn cfg.arith s c none = .ok s1 := hln
      rw [hln] at e
      cases e
      rfl
    obtain ⟨k, hk, hbl⟩ := bbackLevel_spec (s' := s1) hac hnode
    obtain ⟨hb, _, _⟩ := back_of_learn cfg.arith hi.inv hac hpt hL hbl hln
    have hr : (bbackLevel s1 c >>= fun lv => (.ok (backState s1 lv (s1.ncl - 1), cfg.restarts) : Res (BSt S × Int))) = .ok (s', rc') := hr
    rw [hk] at hr
    cases hr
    have hmem : ∀ v n, n ∈ (backState s1 k (s1.ncl - 1)).nodes v ↔ n ∈ s.nodes v ∧ n.level ≤ k := fun v n => hb.mem
    refine ⟨(hbl.range hi.inv.trail hac hpt hL).2, fun v n => hmem v n, ?_⟩
    intro v j h1 h2
    have hv : (backState s1 k (s1.ncl - 1)).IsVar v := ⟨h1, by rw [hb.nv, hi.sem.nv]; exact h2⟩
    rw [hb.trail.cur_iff v hv j, hb.size, hi.sem.size v ⟨h1, by rw [hi.sem.nv]; exact h2⟩]
    constructor
    · rintro ⟨h3, h4⟩
      exact ⟨h3, fun n hn hle => h4 n ((hmem v n).2 ⟨hn, hle⟩)⟩
    · rintro ⟨h3, h4⟩
      exact ⟨h3, fun n hn => h4 n ((hmem v n).1 hn).1 ((hmem v n).1 hn).2⟩

/-! ## C38 -/

/-- Two clauses that each mention only variable 1, both false after the value 3 is chosen. -/
def exOneVar : Problem := ⟨[4], [[⟨1, 0, true⟩, ⟨1, 1, true⟩], [⟨1, 1, true⟩, ⟨1, 2, true⟩]]⟩

/-- **C38 fails**: on a well-formed file with two clauses about one variable the search reads the second watch of a clause
that has none. -/
theorem C38_fails : exOneVar.WellFormed ∧ Fits exOneVar ∧ exOneVar.Satisfiable ∧
    bsolve (exB true 0) 20 exOneVar = .ub ∧ bsolve (exB false 0) 20 exOneVar = .ub :=
  ⟨by decide, by decide, ⟨fun _ => 1, by decide⟩, by decide +kernel, by decide +kernel⟩

/-- A formula on which `-restart 1` makes two decisions at the same level. -/
def exTwoDecisions : Problem :=
  ⟨[2, 2, 2], [[⟨2, 1, false⟩, ⟨3, 0, true⟩], [⟨1, 0, false⟩, ⟨3, 0, true⟩],
    [⟨2, 0, false⟩, ⟨3, 1, false⟩, ⟨1, 0, true⟩], [⟨3, 1, true⟩, ⟨1, 1, false⟩, ⟨2, 1, true⟩]]⟩

/-- **C38 fails** also without clauses about one variable, after a restart: the restart leaves the decision of level 1 in
place (C37), the next decision is at level 1 again, and the conflict analysis then asks for the reason of a decision,
`CLAUSELIST[-1]`. -/
theorem C38_restart_fails : exTwoDecisions.WellFormed ∧ Fits exTwoDecisions ∧
    (∀ c ∈ exTwoDecisions.clauses, ∃ l ∈ c, ∃ l' ∈ c, l.var ≠ l'.var) ∧
    bsolve (exB false 1) 20 exTwoDecisions = .ub ∧
    (bsolve (exB false 0) 20 exTwoDecisions).passes (fun rep => rep.answer == .SAT) = true :=
  ⟨by decide, by decide, by decide, by decide +kernel, by decide +kernel⟩

/-- **C38**, when at most one clause of the file is about a single variable, and without restarts: no execution of any
length performs an access that does not exist.  (The full claim is for all well-formed files.) -/
theorem C38_no_ub_partial {cfg : BCfg S} (hs : cfg.ScoreOK) (hrs : cfg.restarts ≤ 0) {P : Problem} (hwf : P.Regular)
    (h64 : Fits P)
    (hone : ∀ i j, (hi : i < P.clauses.length) → (hj : j < P.clauses.length) →
      (∀ l ∈ P.clauses[i], ∀ l' ∈ P.clauses[i], l.var = l'.var) →
      (∀ l ∈ P.clauses[j], ∀ l' ∈ P.clauses[j], l.var = l'.var) → i = j) (fuel : Nat) :
    bsolve cfg fuel P ≠ .ub := by
  have := brun_final hs hrs hwf h64 fuel
  unfold bsolve
  cases hr : brun cfg fuel P with
  | ok p => nofun
  | ub => rw [hr] at this; exact absurd (Or.inl fun i j hi hj => hone i j hi hj) this
  | fuel => nofun

/-- **C38**, any number of clauses about a single variable, if the file is satisfiable and these variables have at most two
values, without restarts: no execution of any length performs an access that does not exist.  (Without "satisfiable" this is
false, `C38_two_valued_fails`; with three values too, `C38_fails`.) -/
theorem C38_two_valued_partial {cfg : BCfg S} (hs : cfg.ScoreOK) (hrs : cfg.restarts ≤ 0) {P : Problem} (hwf : P.Regular)
    (h64 : Fits P) (hsat : P.Satisfiable)
    (htwo : ∀ c ∈ P.clauses, (∀ l ∈ c, ∀ l' ∈ c, l.var = l'.var) → ∀ l ∈ c, P.dom l.var ≤ 2) (fuel : Nat) :
    bsolve cfg fuel P ≠ .ub := by
  have := brun_final hs hrs hwf h64 fuel
  unfold bsolve
  cases hr : brun cfg fuel P with
  | ok p => nofun
  | ub => rw [hr] at this; exact absurd (Or.inr ⟨hsat, htwo⟩) this
  | fuel => nofun

/-- Four clauses about a single variable, over five two-valued variables and one with four values. -/
def exUnits : Problem := ⟨[2, 2, 2, 2, 2, 4], [[⟨1, 0, true⟩], [⟨2, 1, true⟩], [⟨3, 0, false⟩], [⟨3, 1, true⟩],
  [⟨1, 1, true⟩, ⟨2, 0, true⟩, ⟨4, 1, true⟩], [⟨1, 1, true⟩, ⟨3, 1, true⟩, ⟨5, 0, true⟩],
  [⟨4, 0, true⟩, ⟨5, 0, true⟩, ⟨6, 2, true⟩], [⟨5, 1, true⟩, ⟨6, 2, false⟩], [⟨5, 1, true⟩, ⟨6, 3, false⟩],
  [⟨5, 1, true⟩, ⟨6, 0, true⟩, ⟨6, 2, true⟩, ⟨6, 3, true⟩], [⟨5, 0, true⟩, ⟨6, 0, false⟩]]⟩

example : exUnits.WellFormed ∧ Fits exUnits ∧
    (∀ c ∈ exUnits.clauses, (∀ l ∈ c, ∀ l' ∈ c, l.var = l'.var) → ∀ l ∈ c, exUnits.dom l.var ≤ 2) ∧
    ∀ b, (bsolve (exB b 0) 60 exUnits).passes (fun rep => rep.answer == .SAT) = true := by
  refine ⟨by decide, by decide, by decide, by decide +kernel⟩

/-- Two contradicting clauses of one literal are enough for the access that does not exist. -/
theorem C38_two_valued_fails : (⟨[2], [[⟨1, 0, true⟩], [⟨1, 1, true⟩]]⟩ : Problem).WellFormed ∧
    ∀ b, bsolve (exB b 0) 20 ⟨[2], [[⟨1, 0, true⟩], [⟨1, 1, true⟩]]⟩ = .ub :=
  ⟨by decide, by decide +kernel⟩

example : exRestart.WellFormed ∧ Fits exRestart ∧ (bsolve (exB true 0) 60 exRestart).passes
    (fun rep => rep.answer == .SAT && decide (0 < rep.backtracks)) = true := by decide +kernel

/-! ## C54 to C60 -/

/-- **C54**, without restarts: after SAT the program prints a set of remaining values for each variable.  None is empty, all
are inside the domain, and every assignment that takes its values from these sets satisfies the file. -/
theorem C54_bitvec_sat_partial {cfg : BCfg S} (hs : cfg.ScoreOK) (hrs : cfg.restarts ≤ 0) {P : Problem} (hwf : P.Regular)
    (h64 : Fits P) {fuel : Nat} {rep : BReport} (hrun : bsolve cfg fuel P = .ok rep) (hans : rep.answer = .SAT) :
    (∀ v, 1 ≤ v → v ≤ P.numVars → ∃ b j, rep.model[v]? = some b ∧ b.getLsbD j = true) ∧
    (∀ a : Assignment, (∀ v, 1 ≤ v → v ≤ P.numVars → ∃ b, rep.model[v]? = some b ∧ b.getLsbD (a v) = true) → P.Solves a) := by
  obtain ⟨r, s, _, rfl, hi, hm, hcase⟩ := bsolve_final hs hrs hwf h64 hrun
  have hr : r = 0 := by
    apply Classical.byContradiction
    intro h0
    unfold breport at hans
    dsimp only at hans
    rw [if_neg h0] at hans
    split at hans <;> cases hans
  subst hr
  have hmod : ∀ v, v ≤ P.numVars → (breport 0 s).model[v]? = some (s.cur v) := by
    intro v hv
    show ((List.range (s.nv + 1)).map s.cur)[v]? = _
    rw [List.getElem?_map, List.getElem?_range (by rw [hm.nv]; omega)]
    rfl
  refine ⟨?_, ?_⟩
  · intro v h1 h2
    obtain ⟨j, hj⟩ := hi.trail.live v ⟨h1, by rw [hm.nv]; exact h2⟩
    exact ⟨_, j, hmod v h2, hj⟩
  · intro a ha
    rcases hcase with ⟨_, ht⟩ | ⟨h, _⟩ | ⟨h, _⟩
    · apply sat_models hi hm ht
      intro v hv
      have h2 : v ≤ P.numVars := by rw [← hm.nv]; exact hv.2
      obtain ⟨b, h3, h4⟩ := ha v hv.1 h2
      rw [hmod v h2] at h3
      cases h3
      exact h4
    · omega
    · omega

/-- **C54**, with any number of restarts, when the self-check after SAT printed CORRECT: no set printed is empty, and every
assignment that takes its values from the sets satisfies the file.  (Without restarts, or with `-vsids`,
the check always succeeds, see `C57_bitvec_check_partial` and `C57_bitvec_vsids_partial`; otherwise it can fail, see
`C57_restart_fails`.) -/
theorem C54_bitvec_checked {cfg : BCfg S} (hs : cfg.ScoreOK) {P : Problem} (hwf : P.Regular) (h64 : Fits P) {fuel : Nat}
    {rep : BReport} (hrun : bsolve cfg fuel P = .ok rep) (hver : rep.verified = some true) :
    (∀ v, 1 ≤ v → v ≤ P.numVars → ∃ b j, rep.model[v]? = some b ∧ b.getLsbD j = true) ∧
    (∀ a : Assignment, (∀ v, 1 ≤ v → v ≤ P.numVars → ∃ b, rep.model[v]? = some b ∧ b.getLsbD (a v) = true) → P.Solves a) := by
  obtain ⟨r, s, rc, rfl, hi, _⟩ := bsolve_any hs hwf h64 hrun
  have hr : r = 0 := by
    apply Classical.byContradiction
    intro h0
    unfold breport at hver
    dsimp only at hver
    rw [if_neg h0] at hver
    cases hver
  subst hr
  have hver : some (bverify s) = some true := hver
  have hver : bverify s = true := Option.some.inj hver
  unfold bverify at hver
  rw [List.all_eq_true] at hver
  have hmod : ∀ v, v ≤ P.numVars → (breport 0 s).model[v]? = some (s.cur v) := by
    intro v hv
    show ((List.range (s.nv + 1)).map s.cur)[v]? = _
    rw [List.getElem?_map, List.getElem?_range (by rw [hi.nv]; omega)]
    rfl
  refine ⟨?_, ?_⟩
  · intro v h1 h2
    obtain ⟨j, hj⟩ := hi.live v ⟨h1, by rw [hi.nv]; exact h2⟩
    exact ⟨_, j, hmod v h2, hj⟩
  · intro a ha
    have hcur : ∀ v, s.IsVar v → (s.cur v).getLsbD (a v) = true := by
      intro v hv
      have h2 : v ≤ P.numVars := by rw [← hi.nv]; exact hv.2
      obtain ⟨b, h3, h4⟩ := ha v hv.1 h2
      rw [hmod v h2] at h3
      cases h3
      exact h4
    have hd : P.InDom a := by
      intro v h1 h2
      have hv : s.IsVar v := ⟨h1, by rw [hi.nv]; exact h2⟩
      rw [← hi.size v hv]
      exact hi.sub v hv _ (hcur v hv)
    refine ⟨hd, ?_⟩
    intro c hc
    obtain ⟨id, h1, h2, h3⟩ := hi.keep c hc
    have h4 := hver id (List.mem_range.2 h1)
    rw [List.any_eq_true] at h4
    obtain ⟨l, hl, h5⟩ := h4
    exact h3 a hd ⟨l, hl, (isSuperset_iff ..).1 h5 _ (hcur _ (h2 l hl))⟩

/-- A run with restarts that ends in SAT and CORRECT. -/
example : (bsolve (exB true 1) 100 exRestart).passes (fun rep => rep.verified == some true && decide (0 < rep.restarts)) = true := by
  decide +kernel

/-- If no set is empty and every choice from the sets satisfies the file, the file is satisfiable. -/
theorem satisfiable_of_sets {P : Problem} {rep : BReport}
    (h : (∀ v, 1 ≤ v → v ≤ P.numVars → ∃ b j, rep.model[v]? = some b ∧ b.getLsbD j = true) ∧
      (∀ a : Assignment, (∀ v, 1 ≤ v → v ≤ P.numVars → ∃ b, rep.model[v]? = some b ∧ b.getLsbD (a v) = true) → P.Solves a)) :
    P.Satisfiable := by
  obtain ⟨h1, h2⟩ := h
  have pick : ∀ v, ∃ j, 1 ≤ v → v ≤ P.numVars → ∃ b, rep.model[v]? = some b ∧ b.getLsbD j = true := by
    intro v
    by_cases hv : 1 ≤ v ∧ v ≤ P.numVars
    · obtain ⟨b, j, h3, h4⟩ := h1 v hv.1 hv.2
      exact ⟨j, fun _ _ => ⟨b, h3, h4⟩⟩
    · exact ⟨0, fun h h' => absurd ⟨h, h'⟩ hv⟩
  exact ⟨fun v => Classical.choose (pick v), h2 _ fun v => Classical.choose_spec (pick v)⟩

/-- Consequence: SAT is only printed for satisfiable files. -/
theorem C54_bitvec_satisfiable_partial {cfg : BCfg S} (hs : cfg.ScoreOK) (hrs : cfg.restarts ≤ 0) {P : Problem}
    (hwf : P.Regular) (h64 : Fits P) {fuel : Nat} {rep : BReport} (hrun : bsolve cfg fuel P = .ok rep)
    (hans : rep.answer = .SAT) : P.Satisfiable :=
  satisfiable_of_sets (C54_bitvec_sat_partial hs hrs hwf h64 hrun hans)

example : (bsolve (exB true 0) 60 exSat3).passes (fun rep => rep.answer == .SAT && decide (0 < rep.backtracks)) = true ∧
    exSat3.WellFormed ∧ Fits exSat3 := by decide +kernel

/-- **C55**, without restarts: when the bit-vector solver prints UNSAT, the file has no satisfying assignment. -/
theorem C55_bitvec_unsat_partial {cfg : BCfg S} (hs : cfg.ScoreOK) (hrs : cfg.restarts ≤ 0) {P : Problem} (hwf : P.Regular)
    (h64 : Fits P) {fuel : Nat} {rep : BReport} (hrun : bsolve cfg fuel P = .ok rep) (hans : rep.answer = .UNSAT) :
    ¬ P.Satisfiable := by
  obtain ⟨r, s, _, rfl, _, _, hcase⟩ := bsolve_final hs hrs hwf h64 hrun
  rcases hcase with ⟨rfl, _⟩ | ⟨rfl, _⟩ | ⟨rfl, h⟩
  · cases hans
  · cases hans
  · exact h

example : (bsolve (exB false 0) 200 exPigeon).passes (fun rep => rep.answer == .UNSAT && decide (0 < rep.backtracks)) = true ∧
    exPigeon.WellFormed ∧ Fits exPigeon := by decide +kernel

/-- **C55 fails** with restarts: on a satisfiable file with at most one clause about a single variable the answer is UNSAT. -/
theorem C55_restart_fails : exUns.WellFormed ∧ Fits exUns ∧ exUns.NoDupLits ∧ exUns.Satisfiable ∧
    (bsolve (exB false 2) 60 exUns).passes (fun rep => rep.answer == .UNSAT) = true ∧
    (bsolve (exB false 0) 60 exUns).passes (fun rep => rep.answer == .SAT) = true :=
  ⟨by decide, by decide, by decide, ⟨fun v => [0, 1, 0, 0, 2, 2, 0, 0, 1].getD v 0, by decide⟩, by decide +kernel, by decide +kernel⟩

/-- **C55 fails** with restarts and `-vsids` too. -/
theorem C55_vsids_restart_fails : exUnsV.WellFormed ∧ Fits exUnsV ∧ exUnsV.NoDupLits ∧ exUnsV.Satisfiable ∧
    (bsolve (exB true 3) 100 exUnsV).passes (fun rep => rep.answer == .UNSAT) = true ∧
    (bsolve (exB true 0) 100 exUnsV).passes (fun rep => rep.answer == .SAT) = true :=
  ⟨by decide, by decide, by decide, ⟨fun v => [0, 0, 0, 0, 0, 1, 1, 0, 1, 0, 0, 3, 1, 0, 2, 1].getD v 0, by decide +kernel⟩,
    by decide +kernel, by decide +kernel⟩

/-- **C56**, without restarts and with at most one clause about a single variable: with a clock that is never late the
bit-vector solver stops, and answers SAT exactly on satisfiable files and UNSAT exactly on unsatisfiable ones. -/
theorem C56_bitvec_decides_partial {cfg : BCfg S} (hs : cfg.ScoreOK) (hrs : cfg.restarts ≤ 0)
    (hclock : ∀ k, cfg.late k = false) {P : Problem} (hwf : P.Regular) (h64 : Fits P)
    (hone : ∀ i j, (hi : i < P.clauses.length) → (hj : j < P.clauses.length) →
      (∀ l ∈ P.clauses[i], ∀ l' ∈ P.clauses[i], l.var = l'.var) →
      (∀ l ∈ P.clauses[j], ∀ l' ∈ P.clauses[j], l.var = l'.var) → i = j) :
    ∃ rep f0, (∀ fuel, f0 ≤ fuel → bsolve cfg fuel P = .ok rep) ∧
      (rep.answer = .SAT ↔ P.Satisfiable) ∧ (rep.answer = .UNSAT ↔ ¬ P.Satisfiable) := by
  obtain ⟨f0, h1, h2⟩ := brun_stops hs hrs hwf h64
  have hf := brun_final hs hrs hwf h64 f0
  cases hr : brun cfg f0 P with
  | fuel => exact absurd hr h1
  | ub => rw [hr] at hf; exact absurd (Or.inl fun i j hi hj => hone i j hi hj) hf
  | ok p =>
    rw [hr] at hf
    obtain ⟨r, s⟩ := p
    have hall : ∀ fuel, f0 ≤ fuel → bsolve cfg fuel P = .ok (breport r s) := by
      intro fuel hle
      unfold bsolve
      rw [h2 fuel hle, hr]
      rfl
    have hS := C54_bitvec_satisfiable_partial hs hrs hwf h64 (hall f0 (Nat.le_refl _))
    have hU := C55_bitvec_unsat_partial hs hrs hwf h64 (hall f0 (Nat.le_refl _))
    refine ⟨_, f0, hall, ?_, ?_⟩
    · refine ⟨hS, ?_⟩
      intro hsat
      rcases hf.2.2 with ⟨h, _⟩ | ⟨_, k, hk⟩ | ⟨_, h⟩
      · dsimp only at h; subst h; rfl
      · rw [hclock k] at hk; cases hk
      · exact absurd hsat h
    · refine ⟨hU, ?_⟩
      intro hns
      rcases hf.2.2 with ⟨h, _⟩ | ⟨_, k, hk⟩ | ⟨h, _⟩
      · dsimp only at h; subst h; exact absurd (hS rfl) hns
      · rw [hclock k] at hk; cases hk
      · dsimp only at h; subst h; rfl

/-- The first of the two formulas of the examples above has no clause about a single variable. -/
example : ∀ i j, (hi : i < exRestart.clauses.length) → (hj : j < exRestart.clauses.length) →
      (∀ l ∈ exRestart.clauses[i], ∀ l' ∈ exRestart.clauses[i], l.var = l'.var) →
      (∀ l ∈ exRestart.clauses[j], ∀ l' ∈ exRestart.clauses[j], l.var = l'.var) → i = j := by
  intro i j hi hj h _
  have key : ∀ c ∈ exRestart.clauses, ¬ ∀ l ∈ c, ∀ l' ∈ c, l.var = l'.var := by decide
  exact absurd h (key _ (List.getElem_mem hi))

/-- **C56 fails** with restarts: on a satisfiable file without clauses about a single variable the search analyses a conflict
forever, each resolution giving a clause seen before; the clock is not read there. -/
theorem C56_restart_fails : exLoop.WellFormed ∧ Fits exLoop ∧ exLoop.NoDupLits ∧
    (∀ c ∈ exLoop.clauses, ∃ l ∈ c, ∃ l' ∈ c, l.var ≠ l'.var) ∧
    (bsolve (exB false 0) 100 exLoop).passes (fun rep => rep.answer == .SAT) = true ∧
    ∀ fuel, bsolve (exB false 3) fuel exLoop = .fuel := by
  refine ⟨by decide, by decide, by decide, by decide, by decide +kernel, ?_⟩
  have h : (bbuild ScoreArith.dyadic exLoop >>= fun s => bsteps (exB false 3) 50 14 s 3).passes
    (fun p => stuck (exB false 3) 3 1 p.1) = true := by decide +kernel
  obtain ⟨p, h1, h2⟩ := Res.of_passes h
  exact bsolve_stuck ⟨p, h1, h2⟩

/-- The same with `-vsids -restart 2`. -/
def exLoopV : Problem := ⟨[2, 4, 3, 3, 2, 2, 4, 2, 4, 4, 3, 2], [[⟨5,1,false⟩,⟨12,1,false⟩], [⟨11,2,true⟩,⟨3,0,true⟩], [⟨11,0,true⟩,⟨8,1,true⟩], [⟨5,1,true⟩,⟨8,0,true⟩],
 [⟨7,0,true⟩,⟨2,0,false⟩], [⟨12,0,false⟩,⟨8,0,false⟩,⟨11,0,false⟩], [⟨7,3,true⟩,⟨1,1,true⟩,⟨8,1,false⟩],
 [⟨7,1,false⟩,⟨11,1,false⟩], [⟨7,3,false⟩,⟨2,2,false⟩,⟨9,3,false⟩], [⟨11,2,false⟩,⟨1,1,false⟩,⟨2,2,true⟩],
 [⟨3,0,false⟩,⟨2,0,false⟩], [⟨2,1,false⟩,⟨11,1,false⟩], [⟨7,2,false⟩,⟨10,0,false⟩], [⟨9,0,false⟩,⟨11,0,false⟩],
 [⟨12,0,false⟩,⟨3,0,false⟩,⟨1,1,false⟩], [⟨9,1,false⟩,⟨3,0,false⟩], [⟨12,1,false⟩,⟨9,2,true⟩], [⟨5,0,false⟩,⟨9,0,false⟩],
 [⟨3,1,false⟩,⟨7,3,false⟩], [⟨9,3,false⟩,⟨12,0,false⟩], [⟨12,0,true⟩,⟨2,0,true⟩,⟨8,1,true⟩], [⟨2,2,false⟩,⟨5,0,false⟩],
 [⟨5,1,true⟩,⟨7,1,true⟩]]⟩

/-- **C56 fails** with restarts and `-vsids` too. -/
theorem C56_vsids_restart_fails : exLoopV.WellFormed ∧ Fits exLoopV ∧ exLoopV.NoDupLits ∧
    (∀ c ∈ exLoopV.clauses, ∃ l ∈ c, ∃ l' ∈ c, l.var ≠ l'.var) ∧
    (bsolve (exB true 0) 100 exLoopV).passes (fun rep => rep.answer == .SAT) = true ∧
    ∀ fuel, bsolve (exB true 2) fuel exLoopV = .fuel := by
  refine ⟨by decide, by decide, by decide, by decide, by decide +kernel, ?_⟩
  have h : (bbuild ScoreArith.dyadic exLoopV >>= fun s => bsteps (exB true 2) 50 10 s 2).passes
    (fun p => stuck (exB true 2) 7 5 p.1) = true := by decide +kernel
  obtain ⟨p, h1, h2⟩ := Res.of_passes h
  exact bsolve_stuck ⟨p, h1, h2⟩

/-- **C57**, without restarts: the self-check after SAT never prints INCORRECT, and is made after SAT only. -/
theorem C57_bitvec_check_partial {cfg : BCfg S} (hs : cfg.ScoreOK) (hrs : cfg.restarts ≤ 0) {P : Problem} (hwf : P.Regular)
    (h64 : Fits P) {fuel : Nat} {rep : BReport} (hrun : bsolve cfg fuel P = .ok rep) :
    rep.verified = if rep.answer = .SAT then some true else none := by
  obtain ⟨r, s, _, rfl, _, _, hcase⟩ := bsolve_final hs hrs hwf h64 hrun
  rcases hcase with ⟨rfl, ht⟩ | ⟨rfl, _⟩ | ⟨rfl, _⟩
  · show some (bverify s) = some true
    congr 1
    unfold bverify
    rw [List.all_eq_true]
    intro id hid
    obtain ⟨l, hl, htl⟩ := ht id (List.mem_range.1 hid)
    rw [List.any_eq_true]
    exact ⟨l, hl, (isSuperset_iff ..).2 htl⟩
  · rfl
  · rfl

/-- **C56** on satisfiable files whose clauses about a single variable are about variables with at most two values, without
restarts: the bit-vector solver stops and answers SAT. -/
theorem C56_two_valued_partial {cfg : BCfg S} (hs : cfg.ScoreOK) (hrs : cfg.restarts ≤ 0)
    (hclock : ∀ k, cfg.late k = false) {P : Problem} (hwf : P.Regular) (h64 : Fits P) (hsat : P.Satisfiable)
    (htwo : ∀ c ∈ P.clauses, (∀ l ∈ c, ∀ l' ∈ c, l.var = l'.var) → ∀ l ∈ c, P.dom l.var ≤ 2) :
    ∃ rep f0, (∀ fuel, f0 ≤ fuel → bsolve cfg fuel P = .ok rep) ∧ rep.answer = .SAT ∧ rep.verified = some true := by
  obtain ⟨f0, h1, h2⟩ := brun_stops hs hrs hwf h64
  have hf := brun_final hs hrs hwf h64 f0
  cases hr : brun cfg f0 P with
  | fuel => exact absurd hr h1
  | ub => rw [hr] at hf; exact absurd (Or.inr ⟨hsat, htwo⟩) hf
  | ok p =>
    rw [hr] at hf
    obtain ⟨r, s⟩ := p
    have hall : ∀ fuel, f0 ≤ fuel → bsolve cfg fuel P = .ok (breport r s) := by
      intro fuel hle
      unfold bsolve
      rw [h2 fuel hle, hr]
      rfl
    have hS : (breport r s).answer = .SAT := by
      rcases hf.2.2 with ⟨h, _⟩ | ⟨_, k, hk⟩ | ⟨_, h⟩
      · dsimp only at h; subst h; rfl
      · rw [hclock k] at hk; cases hk
      · exact absurd hsat h
    exact ⟨_, f0, hall, hS, by
      rw [C57_bitvec_check_partial hs hrs hwf h64 (hall f0 (Nat.le_refl _)), if_pos hS]⟩

/-- **C57**, with `-vsids` and any number of restarts: the self-check after SAT never prints INCORRECT, and is made after SAT
only. -/
theorem C57_bitvec_vsids_partial {cfg : BCfg S} (hs : cfg.ScoreOK) (hvs : cfg.vsids = true) {P : Problem} (hwf : P.Regular)
    (h64 : Fits P) {fuel : Nat} {rep : BReport} (hrun : bsolve cfg fuel P = .ok rep) :
    rep.verified = if rep.answer = .SAT then some true else none := by
  obtain ⟨pos, hg⟩ := hs
  obtain ⟨r, s, h1, rfl⟩ := bsolve_eq_ok.1 hrun
  by_cases hr : r = 0
  · subst hr
    obtain ⟨s0, h2, h3⟩ := bbuild_read hg hwf h64
    have hl := h3.loopInv
    have hA : AnyInv cfg P s0 cfg.restarts := by
      obtain ⟨s1, h4, h5⟩ := start_any hg hwf h64
      rw [h2] at h4
      cases h4
      exact h5
    unfold brun at h1
    rw [h2] at h1
    have h1 : bloop cfg fuel s0 cfg.restarts = .ok (0, s) := h1
    have h6 := (bloop_any cfg fuel hA).and (bloop_vs hg fuel hA h3.mi)
    rw [h1] at h6
    obtain ⟨⟨rc, h7⟩, h8⟩ := h6
    obtain ⟨h9, h10, h11⟩ := h8 rfl
    have ht := vsids_true hg hvs h7.inv (fun c hc => by
      obtain ⟨id, e1, e2⟩ := hl.sem.keep c hc
      exact ⟨id, by rw [← h3.ncl]; exact e1, e2⟩) h9 h10 h11
    show some (bverify s) = some true
    congr 1
    unfold bverify
    rw [List.all_eq_true]
    intro id hid
    obtain ⟨l, hl, htl⟩ := ht id (List.mem_range.1 hid)
    rw [List.any_eq_true]
    exact ⟨l, hl, (isSuperset_iff ..).2 htl⟩
  · unfold breport
    dsimp only
    rw [if_neg hr]
    by_cases h2 : r = 1
    · rw [if_pos h2, if_neg hr]; rfl
    · rw [if_neg h2, if_neg hr]; rfl

/-- **C54**, with `-vsids` and any number of restarts: when the bit-vector solver prints SAT, no set of values printed is
empty and every assignment that takes its values from the sets satisfies the file. -/
theorem C54_bitvec_vsids_partial {cfg : BCfg S} (hs : cfg.ScoreOK) (hvs : cfg.vsids = true) {P : Problem} (hwf : P.Regular)
    (h64 : Fits P) {fuel : Nat} {rep : BReport} (hrun : bsolve cfg fuel P = .ok rep) (hans : rep.answer = .SAT) :
    (∀ v, 1 ≤ v → v ≤ P.numVars → ∃ b j, rep.model[v]? = some b ∧ b.getLsbD j = true) ∧
    (∀ a : Assignment, (∀ v, 1 ≤ v → v ≤ P.numVars → ∃ b, rep.model[v]? = some b ∧ b.getLsbD (a v) = true) → P.Solves a) := by
  refine C54_bitvec_checked hs hwf h64 hrun ?_
  rw [C57_bitvec_vsids_partial hs hvs hwf h64 hrun, if_pos hans]

/-- Consequence: with `-vsids`, restarts or not, SAT is only printed for satisfiable files. -/
theorem C54_bitvec_vsids_satisfiable {cfg : BCfg S} (hs : cfg.ScoreOK) (hvs : cfg.vsids = true) {P : Problem}
    (hwf : P.Regular) (h64 : Fits P) {fuel : Nat} {rep : BReport} (hrun : bsolve cfg fuel P = .ok rep)
    (hans : rep.answer = .SAT) : P.Satisfiable :=
  satisfiable_of_sets (C54_bitvec_vsids_partial hs hvs hwf h64 hrun hans)

/-- A run with `-vsids` and restarts that ends in SAT. -/
example : exRestart.WellFormed ∧ Fits exRestart ∧ (exB true 1).vsids = true ∧
    (bsolve (exB true 1) 100 exRestart).passes (fun rep => rep.answer == .SAT && decide (0 < rep.restarts)) = true := by
  decide +kernel

/-- **C54 and C57 fail** with restarts and the default choice of literals: the program prints SAT, then INCORRECT, and the sets
of values it prints contain an assignment that falsifies the file.  Without restarts it prints SAT and CORRECT. -/
theorem C57_restart_fails : exHidden.WellFormed ∧ Fits exHidden ∧ exHidden.NoDupLits ∧
    (bsolve (exB false 4) 100 exHidden).passes (fun rep => rep.answer == .SAT && rep.verified == some false) = true ∧
    (bsolve (exB false 0) 100 exHidden).passes (fun rep => rep.answer == .SAT && rep.verified == some true) = true :=
  ⟨by decide, by decide, by decide, by decide +kernel, by decide +kernel⟩

/-- The assignment for `C54_restart_fails`. -/
def exHiddenVals : List Nat := [0, 1, 1, 1, 0, 0, 0, 0, 0, 0, 0, 0, 1, 0, 0, 0, 1, 0, 0, 1, 0, 1, 0]

theorem C54_restart_fails : ∃ rep, bsolve (exB false 4) 100 exHidden = .ok rep ∧ rep.answer = .SAT ∧
    ∃ a : Assignment, (∀ v, 1 ≤ v → v ≤ exHidden.numVars → ∃ b, rep.model[v]? = some b ∧ b.getLsbD (a v) = true) ∧
      ¬ exHidden.Solves a := by
  have h : (bsolve (exB false 4) 100 exHidden).passes (fun rep => rep.answer == .SAT &&
      (List.range 23).all fun v => v == 0 || (rep.model[v]?.getD 0#64).getLsbD (exHiddenVals.getD v 0)) = true := by
    decide +kernel
  obtain ⟨rep, h1, h2⟩ := Res.of_passes h
  rw [Bool.and_eq_true, List.all_eq_true] at h2
  obtain ⟨h3, h4⟩ := h2
  refine ⟨rep, h1, eq_of_beq h3, fun v => exHiddenVals.getD v 0, ?_, by decide +kernel⟩
  intro v h5 h6
  have h6 : v ≤ 22 := h6
  have h7 := h4 v (List.mem_range.2 (by omega))
  have h8 : (v == 0) = false := by rw [beq_eq_false_iff_ne]; omega
  rw [h8, Bool.false_or] at h7
  cases h9 : rep.model[v]? with
  | none => rw [h9] at h7; exact absurd h7 (by simp)
  | some b => rw [h9] at h7; exact ⟨b, rfl, h7⟩

example : (bsolve (exB false 0) 60 exSat3).passes (fun rep => rep.answer == .SAT && rep.verified == some true) = true := by
  decide +kernel

/-- **C58**: the numbers printed are the variables of the file, the clauses of the file and one clause for each conflict,
and one restart for each `-restart` conflicts. -/
theorem C58_bitvec_counts {cfg : BCfg S} (hs : cfg.ScoreOK) {P : Problem} (hwf : P.Regular) (h64 : Fits P) {fuel : Nat}
    {rep : BReport} (hrun : bsolve cfg fuel P = .ok rep) :
    rep.variables = P.numVars ∧ rep.clauses = P.clauses.length + rep.backtracks ∧
    (rep.restarts : Int) = if cfg.restarts ≤ 0 then 0 else (rep.backtracks : Int) / cfg.restarts := by
  obtain ⟨r, s, rc, rfl, h⟩ := bsolve_any hs hwf h64 hrun
  exact ⟨h.inv.nv, h.cnt.count, h.cnt.restarts⟩

/-- **C59**: every clause in the list of a state of the search, learned or not, is satisfied by every
satisfying assignment of the file. -/
theorem C59_bitvec_entailed {cfg : BCfg S} (hs : cfg.ScoreOK) {P : Problem} (hwf : P.Regular)
    (h64 : Fits P) {s : BSt S} {rc : Int} (h : BReach cfg P s rc) {id : Nat} (hid : id < s.ncl) {a : Assignment}
    (ha : P.Solves a) : ∃ l ∈ (s.cl id).lits, l.vals.getLsbD (a l.var) = true :=
  ((h.any hs hwf h64).inv.cls id hid).4 a ha

example : (bsolve (exB false 2) 60 exUns).passes (fun rep => decide (rep.backtracks = 4 ∧ rep.restarts = 2 ∧ rep.clauses = 22 ∧
    rep.variables = 8)) = true := by decide +kernel

/-- A state of a search with restarts, after a restart, with a learned clause that is not one of the file's. -/
example : ∃ s rc, BReach (exB false 2) exUns s rc ∧ 0 < s.nRestarts ∧ 18 < s.ncl := by
  have h : (bbuild ScoreArith.dyadic exUns >>= fun s => bsteps (exB false 2) 60 10 s 2).passes
    (fun p => decide (0 < p.1.nRestarts ∧ 18 < p.1.ncl)) = true := by decide +kernel
  obtain ⟨p, h1, h2⟩ := Res.of_passes h
  cases hb : bbuild ScoreArith.dyadic exUns with
  | fuel => rw [hb] at h1; cases h1
  | ub => rw [hb] at h1; cases h1
  | ok s0 =>
    rw [hb] at h1
    exact ⟨p.1, p.2, .steps 10 (.start (cfg := exB false 2) hb) h1, of_decide_eq_true h2⟩

/-- **C60**, without restarts: the bit-vector solver and the other solver, in any of its variants, never give opposite
answers; if the other solver uses watched literals, on duplicate-free files. -/
theorem C60_bitvec_agrees_partial {S' : Type} {cfg : BCfg S} {cfg' : Cfg S'} {algo : Algo} (hs : cfg.ScoreOK)
    (hrs : cfg.restarts ≤ 0) (hv : Selectable cfg' algo) (hs' : cfg'.ScoreOK) {P : Problem} (hwf : P.Regular)
    (hnd : cfg'.watch = true → P.NoDupLits) (h64 : Fits P) {fuel fuel' : Nat} {rep : BReport} {rep' : Report}
    (h : bsolve cfg fuel P = .ok rep) (h' : solve cfg' algo fuel' P = .ok rep') :
    ¬ (rep.answer = .SAT ∧ rep'.answer = .UNSAT) ∧ ¬ (rep.answer = .UNSAT ∧ rep'.answer = .SAT) := by
  refine ⟨?_, ?_⟩
  · rintro ⟨h1, h2⟩
    exact (answer_regular hv hs' hwf hnd h').2 h2 (C54_bitvec_satisfiable_partial hs hrs hwf h64 h h1)
  · rintro ⟨h1, h2⟩
    exact C55_bitvec_unsat_partial hs hrs hwf h64 h h1 ((answer_regular hv hs' hwf hnd h').1 h2)

/-- **C60**, half of it with `-vsids` and any number of restarts: what the bit-vector solver answers SAT, the other solver
does not answer UNSAT.  (The other half fails with restarts, see `C60_restart_fails`.) -/
theorem C60_bitvec_vsids_partial {S' : Type} {cfg : BCfg S} {cfg' : Cfg S'} {algo : Algo} (hs : cfg.ScoreOK)
    (hvs : cfg.vsids = true) (hv : Selectable cfg' algo) (hs' : cfg'.ScoreOK) {P : Problem} (hwf : P.Regular)
    (hnd : cfg'.watch = true → P.NoDupLits) (h64 : Fits P) {fuel fuel' : Nat} {rep : BReport} {rep' : Report}
    (h : bsolve cfg fuel P = .ok rep) (h' : solve cfg' algo fuel' P = .ok rep') :
    ¬ (rep.answer = .SAT ∧ rep'.answer = .UNSAT) := by
  rintro ⟨h1, h2⟩
  exact (answer_regular hv hs' hwf hnd h').2 h2 (C54_bitvec_vsids_satisfiable hs hvs hwf h64 h h1)

example : (bsolve (exB true 0) 200 exPigeon).passes (fun rep => rep.answer == .UNSAT) = true ∧
    (solve (exCfg .BK false) .chrono 200 exPigeon).passes (fun rep => rep.answer == .UNSAT) = true ∧
    exPigeon.NoDupLits := by decide +kernel

/-- **C60 fails** with restarts: on the same file the bit-vector solver answers UNSAT and the other solver, in both its
variants, SAT. -/
theorem C60_restart_fails : exUns.WellFormed ∧ Fits exUns ∧ exUns.NoDupLits ∧
    (bsolve (exB false 2) 60 exUns).passes (fun rep => rep.answer == .UNSAT) = true ∧
    (solve (exCfg .VSIDS false) .learn 200 exUns).passes (fun rep => rep.answer == .SAT) = true ∧
    (solve (exCfg .BK false) .chrono 200 exUns).passes (fun rep => rep.answer == .SAT) = true :=
  ⟨by decide, by decide, by decide, by decide +kernel, by decide +kernel, by decide +kernel⟩

/-- The bit-vector program on the characters of a file in the documented format does what `bsolve` does on the formula. -/
theorem bsolveFile_describes (cfg : BCfg S) (fuel : Nat) {ls : List FileLine} {P : Problem} (h : Describes ls P) :
    bsolveFile cfg fuel (fileText ls) = bsolve cfg fuel P := by
  unfold bsolveFile bsolve brun bbuild
  rw [readFile_describes h]
  show (bbuildItems cfg.arith P.items (binit cfg.arith) >>= _) = _
  cases bbuildItems cfg.arith P.items (binit cfg.arith) <;> rfl

end Mvl.BV
