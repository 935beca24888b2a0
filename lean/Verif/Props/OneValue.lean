import Verif.Props.Pipeline
import Verif.Props.BitVec

/-!
# One-value domains

C19 and C81: what the solvers answer for files in which some variables have a single value.
-/

namespace Mvl

variable {S : Type}

/-- **C19**, what the solvers do: on a file whose domains have at least one value, every variant stops (without a timeout)
and answers for the file in which the one-value domains have two values.  Missing for `_partial`: the claim is about the
file itself, and is false (`C19_fails`). -/
theorem C19_exact_partial {cfg : Cfg S} {algo : Algo} (hv : Selectable cfg algo) (hs : cfg.ScoreOK)
    (hclock : ∀ k, cfg.late k = false) {P : Problem} (hwf : P.Proper) (hnd : P.NoDupLits) :
    ∃ rep f0, (∀ fuel, f0 ≤ fuel → solve cfg algo fuel P = .ok rep) ∧
      (rep.answer = .SAT ↔ P.widen.Satisfiable) ∧ (rep.answer = .UNSAT ↔ ¬ P.widen.Satisfiable) := by
  cases algo with
  | chrono => exact C03_chrono_decides_proper hv.1 hv.2 hclock hwf
  | learn =>
    cases hw : cfg.watch with
    | false => exact C06_learn_decides_proper hw hs hclock hwf hnd
    | true => exact C48_watch_decides_proper hw (fun hb => hv ⟨hw, hb⟩) hs hclock hwf hnd

/-- **C19**, UNSAT: with one-value domains UNSAT is never wrong.  (With `-wl`, on duplicate-free files.) -/
theorem C19_unsat {cfg : Cfg S} {algo : Algo} (hv : Selectable cfg algo) (hs : cfg.ScoreOK) {P : Problem}
    (hwf : P.Proper) (hnd : cfg.watch = true → P.NoDupLits) {fuel : Nat} {rep : Report}
    (hrun : solve cfg algo fuel P = .ok rep) (ha : rep.answer = .UNSAT) : ¬ P.Satisfiable :=
  fun ⟨a, h⟩ => (answer_proper hv hs hwf hnd hrun).2 ha ⟨a, h.widen⟩

/-- **C19**, SAT, if no clause excludes the only value of a one-value variable (if one does it is false, `C19_fails`):
SAT is right.  (With `-wl`, on duplicate-free files.) -/
theorem C19_sat_partial {cfg : Cfg S} {algo : Algo} (hv : Selectable cfg algo) (hs : cfg.ScoreOK) {P : Problem}
    (hwf : P.Regular) (hnd : cfg.watch = true → P.NoDupLits) {fuel : Nat} {rep : Report}
    (hrun : solve cfg algo fuel P = .ok rep) (ha : rep.answer = .SAT) : P.Satisfiable :=
  (answer_regular hv hs hwf hnd hrun).1 ha

/-- **C19** fails exactly where the raised domain makes the difference: SAT is printed for an unsatisfiable file if and only
if the file is unsatisfiable and becomes satisfiable with two values in the one-value domains. -/
theorem C19_wrong_iff {cfg : Cfg S} {algo : Algo} (hv : Selectable cfg algo) (hs : cfg.ScoreOK)
    (hclock : ∀ k, cfg.late k = false) {P : Problem} (hwf : P.Proper) (hnd : P.NoDupLits) :
    (∃ fuel rep, solve cfg algo fuel P = .ok rep ∧ rep.answer = .SAT ∧ ¬ P.Satisfiable) ↔
      ¬ P.Satisfiable ∧ P.widen.Satisfiable := by
  constructor
  · rintro ⟨fuel, rep, h1, h2, h3⟩
    exact ⟨h3, (answer_proper hv hs hwf (fun _ => hnd) h1).1 h2⟩
  · rintro ⟨h1, h2⟩
    obtain ⟨rep, f0, h3, h4, _⟩ := C19_exact_partial hv hs hclock hwf hnd
    exact ⟨f0, rep, h3 f0 (Nat.le_refl _), h4.2 h2, h1⟩

/-- x1 ∈ {0}, x2 ∈ {0,1,2}: the first clause holds whatever x2 is, the others leave x2 = 2. -/
def exOne : Problem :=
  ⟨[1, 3], [[⟨1, 0, true⟩, ⟨2, 0, true⟩], [⟨2, 0, false⟩, ⟨1, 0, true⟩], [⟨2, 1, false⟩], [⟨2, 0, false⟩]]⟩

/-- The same with x2 = 2 excluded too. -/
def exOneNo : Problem := ⟨exOne.doms, exOne.clauses ++ [[⟨2, 2, false⟩]]⟩

example : exOne.Proper ∧ ¬ exOne.WellFormed ∧ exOne.NoDupLits ∧
    exOne.Regular ∧
    allModes.all (fun m => (solve (exCfg m.2.1 m.2.2) m.1 40 exOne).passes fun rep => rep.answer == .SAT) = true ∧
    exOneNo.Proper ∧ exOneNo.NoDupLits ∧
    allModes.all (fun m => (solve (exCfg m.2.1 m.2.2) m.1 40 exOneNo).passes fun rep => rep.answer == .UNSAT) = true := by
  decide +kernel

example : (exCfg .VSIDS true).ScoreOK ∧ Selectable (exCfg .VSIDS true) .learn ∧ (∀ k, (exCfg .VSIDS true).late k = false) :=
  ⟨exCfg_score _ _, (fun h => by cases h.2), fun _ => rfl⟩

end Mvl

namespace Mvl.BV

variable {S : Type}

/-! ## C81: the bit-vector solver -/

/-- x1 has one value; the file is satisfiable only with x2 = 2 and x3 = 1, or x2 = 0 and x3 = 1. -/
def exOneB : Problem := ⟨[1, 3, 2], [[⟨1, 0, true⟩, ⟨2, 0, true⟩], [⟨2, 0, false⟩, ⟨1, 0, true⟩, ⟨3, 0, true⟩],
  [⟨2, 0, false⟩, ⟨3, 0, false⟩], [⟨2, 1, false⟩, ⟨3, 1, true⟩], [⟨2, 1, false⟩, ⟨3, 0, true⟩], [⟨2, 2, false⟩, ⟨3, 0, false⟩]]⟩

/-- With these two clauses it is unsatisfiable. -/
def exOneBNo : Problem := ⟨exOneB.doms, exOneB.clauses ++ [[⟨2, 2, false⟩, ⟨3, 0, true⟩], [⟨2, 0, false⟩, ⟨3, 0, true⟩]]⟩

/-- **C81**, if no clause excludes the only value of a one-value variable, without restarts: SAT and UNSAT are right, and
after SAT the sets printed are not empty and every choice from them solves the file.  Missing for `_partial`: the claim is
for every file with domains of at least one value, and is false (`C81_fails`). -/
theorem C81_bitvec_one_partial {cfg : BCfg S} (hs : cfg.ScoreOK) (hrs : cfg.restarts ≤ 0) {P : Problem} (hwf : P.Proper)
    (hpos : ∀ c ∈ P.clauses, ∀ l ∈ c, P.dom l.var = 1 → l.eq = true) (h64 : Fits P) {fuel : Nat} {rep : BReport}
    (h : bsolve cfg fuel P = .ok rep) :
    (rep.answer = .SAT → P.Satisfiable ∧
      (∀ v, 1 ≤ v → v ≤ P.numVars → ∃ b j, rep.model[v]? = some b ∧ b.getLsbD j = true) ∧
      ∀ a : Assignment, (∀ v, 1 ≤ v → v ≤ P.numVars → ∃ b, rep.model[v]? = some b ∧ b.getLsbD (a v) = true) → P.Solves a) ∧
    (rep.answer = .UNSAT → ¬ P.Satisfiable) :=
  ⟨fun ha => ⟨C54_bitvec_satisfiable_partial hs hrs ⟨hwf, hpos⟩ h64 h ha, C54_bitvec_sat_partial hs hrs ⟨hwf, hpos⟩ h64 h ha⟩,
    C55_bitvec_unsat_partial hs hrs ⟨hwf, hpos⟩ h64 h⟩

example : exOneB.Proper ∧ ¬ exOneB.WellFormed ∧ (∀ c ∈ exOneB.clauses, ∀ l ∈ c, exOneB.dom l.var = 1 → l.eq = true) ∧
    Fits exOneB ∧ (∀ b, (bsolve (exB b 0) 60 exOneB).passes (fun rep => rep.answer == .SAT) = true) ∧
    exOneBNo.Proper ∧ (∀ c ∈ exOneBNo.clauses, ∀ l ∈ c, exOneBNo.dom l.var = 1 → l.eq = true) ∧
    ∀ b, (bsolve (exB b 0) 60 exOneBNo).passes (fun rep => rep.answer == .UNSAT && rep.backtracks == 2) = true := by
  refine ⟨by decide, by decide, by decide, by decide, by decide +kernel, by decide, by decide, by decide +kernel⟩

/-- **C81 fails** if a clause excludes the only value: without `-vsids`, the bit-vector solver answers SAT for this
unsatisfiable file, and its own check then prints INCORRECT; with `-vsids` it reads a literal that does not exist.  A clause
that is nothing but the excluded value is enough for the wrong SAT with both. -/
theorem C81_fails :
    let P : Problem := ⟨[1, 2], [[⟨1, 0, false⟩, ⟨2, 0, true⟩], [⟨1, 0, false⟩, ⟨2, 1, true⟩]]⟩
    let Q : Problem := ⟨[1], [[⟨1, 0, false⟩]]⟩
    P.Proper ∧ Fits P ∧ ¬ P.Satisfiable ∧
    (bsolve (exB false 0) 60 P).passes (fun rep => rep.answer == .SAT && rep.verified == some false) = true ∧
    bsolve (exB true 0) 60 P = .ub ∧
    Q.Proper ∧ ¬ Q.Satisfiable ∧
    ∀ b, (bsolve (exB b 0) 60 Q).passes (fun rep => rep.answer == .SAT && rep.verified == some false) = true := by
  intro P Q
  refine ⟨by decide, by decide, ?_, by decide +kernel, by decide +kernel, by decide, ?_, by decide +kernel⟩
  · rintro ⟨a, h1, h2⟩
    have h3 := h1 1 (by decide) (by decide)
    have h4 := h1 2 (by decide) (by decide)
    have e3 : P.dom 1 = 1 := rfl
    have e4 : P.dom 2 = 2 := rfl
    rw [e3] at h3
    rw [e4] at h4
    have h5 : clauseHolds a [⟨1, 0, false⟩, ⟨2, 0, true⟩] := h2 _ (by decide)
    have h6 : clauseHolds a [⟨1, 0, false⟩, ⟨2, 1, true⟩] := h2 _ (by decide)
    simp [clauseHolds, Lit.holds] at h5 h6
    omega
  · rintro ⟨a, h1, h2⟩
    have h3 := h1 1 (by decide) (by decide)
    have e3 : Q.dom 1 = 1 := rfl
    rw [e3] at h3
    have h5 : clauseHolds a [⟨1, 0, false⟩] := h2 _ (by decide)
    simp [clauseHolds, Lit.holds] at h5
    omega

end Mvl.BV
