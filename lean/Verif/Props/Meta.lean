import Verif.Props.OneValue
import Verif.Props.Orig

/-!
# Answers do not depend on how the problem is written down

C82: the original solver and the other two never contradict each other.
C83: leaving out or weakening clauses never turns SAT into UNSAT; the order and repetition of clauses, and the order of the
literals in a clause, do not change the answer.
C84: renumbering the variables and the values does not change the answer.
-/

namespace Mvl

variable {S S' : Type}

/-! ## C83 -/

/-- Every clause of `P` has all the literals of some clause of `Q`, over the same variables: `P` comes from `Q` by leaving
out clauses, by adding literals to clauses, by repeating clauses and literals, and by changing their order. -/
def Weaker (P Q : Problem) : Prop := P.doms = Q.doms ∧ ∀ c ∈ P.clauses, ∃ c' ∈ Q.clauses, ∀ l ∈ c', l ∈ c

instance (P Q : Problem) : Decidable (Weaker P Q) := by unfold Weaker; infer_instance

theorem Weaker.solves {P Q : Problem} (h : Weaker P Q) {a : Assignment} (ha : Q.Solves a) : P.Solves a := by
  refine ⟨?_, ?_⟩
  · intro v h1 h2
    have e : P.dom v = Q.dom v := by cases v with
      | zero => rfl
      | succ w => show P.doms.getD w 0 = _; rw [h.1]; rfl
    rw [e]
    exact ha.1 v h1 (by unfold Problem.numVars at h2 ⊢; rw [← h.1]; exact h2)
  · intro c hc
    obtain ⟨c', h1, h2⟩ := h.2 c hc
    obtain ⟨l, h3, h4⟩ := ha.2 c' h1
    exact ⟨l, h2 l h3, h4⟩

theorem Weaker.satisfiable {P Q : Problem} (h : Weaker P Q) (hs : Q.Satisfiable) : P.Satisfiable :=
  ⟨_, h.solves hs.choose_spec⟩

/-- **C83**, leaving out or weakening clauses: if some variant answers SAT on a file, no variant answers UNSAT on a weaker
one.  (With `-wl`, on duplicate-free files.) -/
theorem C83_weaker {cfg : Cfg S} {cfg' : Cfg S'} {algo algo' : Algo} (hv : Selectable cfg algo) (hv' : Selectable cfg' algo')
    (hs : cfg.ScoreOK) (hs' : cfg'.ScoreOK) {P Q : Problem} (hP : P.Regular) (hQ : Q.Regular) (hw : Weaker P Q)
    (hnd : cfg.watch = true → Q.NoDupLits) (hnd' : cfg'.watch = true → P.NoDupLits) {fuel fuel' : Nat} {rep rep' : Report}
    (h : solve cfg algo fuel Q = .ok rep) (h' : solve cfg' algo' fuel' P = .ok rep') :
    ¬ (rep.answer = .SAT ∧ rep'.answer = .UNSAT) := by
  rintro ⟨h1, h2⟩
  exact (answer_regular hv' hs' hP hnd' h').2 h2 (hw.satisfiable ((answer_regular hv hs hQ hnd h).1 h1))

/-- Both variants stop on both files, with the same answer. -/
theorem same_answer {cfg : Cfg S} {cfg' : Cfg S'} {algo algo' : Algo} (hv : Selectable cfg algo) (hv' : Selectable cfg' algo')
    (hs : cfg.ScoreOK) (hs' : cfg'.ScoreOK) (hclock : ∀ k, cfg.late k = false) (hclock' : ∀ k, cfg'.late k = false)
    {P Q : Problem} (hP : P.Regular) (hQ : Q.Regular) (hdP : P.NoDupLits) (hdQ : Q.NoDupLits)
    (hiff : P.Satisfiable ↔ Q.Satisfiable) :
    ∃ rep rep' f0, (∀ fuel, f0 ≤ fuel → solve cfg algo fuel P = .ok rep ∧ solve cfg' algo' fuel Q = .ok rep') ∧
      rep.answer = rep'.answer ∧ (rep.answer = .SAT ∨ rep.answer = .UNSAT) := by
  obtain ⟨rep, f1, h1, h2, h3⟩ := C19_exact_partial hv hs hclock hP.toProper hdP
  obtain ⟨rep', f2, h4, h5, h6⟩ := C19_exact_partial hv' hs' hclock' hQ.toProper hdQ
  refine ⟨rep, rep', max f1 f2, fun fuel hf => ⟨h1 fuel (by omega), h4 fuel (by omega)⟩, ?_⟩
  have e : ∀ {R : Problem}, R.Regular → (R.widen.Satisfiable ↔ R.Satisfiable) := fun {R} hR =>
    ⟨fun h => Problem.satisfiable_of_widen hR.dom_one hR.pos h hR.lits_ok, fun ⟨a, h⟩ => ⟨a, h.widen⟩⟩
  by_cases hsat : P.Satisfiable
  · have a1 := h2.2 ((e hP).2 hsat)
    have a2 := h5.2 ((e hQ).2 (hiff.1 hsat))
    exact ⟨a1.trans a2.symm, .inl a1⟩
  · have a1 := h3.2 (fun h => hsat ((e hP).1 h))
    have a2 := h6.2 (fun h => hsat (hiff.2 ((e hQ).1 h)))
    exact ⟨a1.trans a2.symm, .inr a1⟩

/-- **C83**, order and repetition: two files with the same clauses as sets of sets of literals get the same answer, SAT or
UNSAT, from any two variants without a time limit. -/
theorem C83_order {cfg : Cfg S} {cfg' : Cfg S'} {algo algo' : Algo} (hv : Selectable cfg algo) (hv' : Selectable cfg' algo')
    (hs : cfg.ScoreOK) (hs' : cfg'.ScoreOK) (hclock : ∀ k, cfg.late k = false) (hclock' : ∀ k, cfg'.late k = false)
    {P Q : Problem} (hP : P.Regular) (hQ : Q.Regular) (hdP : P.NoDupLits) (hdQ : Q.NoDupLits) (h1 : Weaker P Q)
    (h2 : Weaker Q P) :
    ∃ rep rep' f0, (∀ fuel, f0 ≤ fuel → solve cfg algo fuel P = .ok rep ∧ solve cfg' algo' fuel Q = .ok rep') ∧
      rep.answer = rep'.answer ∧ (rep.answer = .SAT ∨ rep.answer = .UNSAT) :=
  same_answer hv hv' hs hs' hclock hclock' hP hQ hdP hdQ ⟨h2.satisfiable, h1.satisfiable⟩

/-- The clauses and their literals in reverse order, and one clause once more. -/
def Problem.shuffled (P : Problem) : Problem :=
  ⟨P.doms, P.clauses.reverse.map List.reverse ++ P.clauses.take 1⟩

example : Weaker exPigeon exPigeon.shuffled ∧ Weaker exPigeon.shuffled exPigeon ∧ exPigeon.Regular ∧
    exPigeon.shuffled.Regular ∧ exPigeon.NoDupLits ∧ exPigeon.shuffled.NoDupLits ∧ exPigeon ≠ exPigeon.shuffled ∧
    Weaker ⟨exPigeon.doms, exPigeon.clauses.drop 1⟩ exPigeon := by decide +kernel

/-! ## C84 -/

/-- The literal with another number for the variable and another number for the value. -/
def Lit.rename (π : Nat → Nat) (ρ : Nat → Nat → Nat) (l : Lit) : Lit := ⟨π l.var, ρ l.var l.val, l.eq⟩

/-- `Q` is `P` with variable `v` called `π v` and value `k` of `v` called `ρ v k`; `ρ'` is the way back for the values. -/
structure Renamed (π : Nat → Nat) (ρ ρ' : Nat → Nat → Nat) (P Q : Problem) : Prop where
  num : Q.numVars = P.numVars
  var : ∀ v, 1 ≤ v → v ≤ P.numVars → 1 ≤ π v ∧ π v ≤ P.numVars
  inj : ∀ v w, 1 ≤ v → v ≤ P.numVars → 1 ≤ w → w ≤ P.numVars → π v = π w → v = w
  dom : ∀ v, 1 ≤ v → v ≤ P.numVars → Q.dom (π v) = P.dom v
  val : ∀ v k, k < P.dom v → ρ v k < P.dom v ∧ ρ' v k < P.dom v ∧ ρ' v (ρ v k) = k ∧ ρ v (ρ' v k) = k
  clauses : Q.clauses = P.clauses.map (·.map (Lit.rename π ρ))

theorem Renamed.satisfiable {π : Nat → Nat} {ρ ρ' : Nat → Nat → Nat} {P Q : Problem} (h : Renamed π ρ ρ' P Q)
    (hok : ∀ c ∈ P.clauses, ∀ l ∈ c, P.LitOk l) (hd : ∀ d ∈ Q.doms, 1 ≤ d) : P.Satisfiable ↔ Q.Satisfiable := by
  have hQ : ∀ w, 1 ≤ w → w ≤ Q.numVars → 1 ≤ Q.dom w := by
    intro w h1 h2
    obtain ⟨u, rfl⟩ : ∃ u, w = u + 1 := ⟨w - 1, by omega⟩
    have hu : u < Q.doms.length := h2
    show 1 ≤ Q.doms.getD u 0
    rw [List.getD_eq_getElem?_getD, List.getElem?_eq_getElem hu]
    exact hd _ (List.getElem_mem hu)
  constructor
  · rintro ⟨a, h1, h2⟩
    have hb : ∃ b : Assignment, ∀ w, (∀ v, 1 ≤ v → v ≤ P.numVars → π v = w → b w = ρ v (a v)) ∧
        ((¬ ∃ v, 1 ≤ v ∧ v ≤ P.numVars ∧ π v = w) → b w = 0) := by
      refine Classical.skolem (p := fun w y => (∀ v, 1 ≤ v → v ≤ P.numVars → π v = w → y = ρ v (a v)) ∧
        ((¬ ∃ v, 1 ≤ v ∧ v ≤ P.numVars ∧ π v = w) → y = 0)) |>.1 ?_
      intro w
      by_cases hw : ∃ v, 1 ≤ v ∧ v ≤ P.numVars ∧ π v = w
      · obtain ⟨v, v1, v2, v3⟩ := hw
        refine ⟨ρ v (a v), ?_, fun hn => absurd ⟨v, v1, v2, v3⟩ hn⟩
        intro v' w1 w2 w3
        rw [h.inj v v' v1 v2 w1 w2 (v3.trans w3.symm)]
      · exact ⟨0, fun v v1 v2 v3 => absurd ⟨v, v1, v2, v3⟩ hw, fun _ => rfl⟩
    obtain ⟨b, hb⟩ := hb
    refine ⟨b, ?_, ?_⟩
    · intro w w1 w2
      by_cases hw : ∃ v, 1 ≤ v ∧ v ≤ P.numVars ∧ π v = w
      · obtain ⟨v, v1, v2, rfl⟩ := hw
        rw [(hb _).1 v v1 v2 rfl, h.dom v v1 v2]
        exact (h.val v _ (h1 v v1 v2)).1
      · rw [(hb _).2 hw]
        exact hQ w w1 w2
    · intro c hc
      rw [h.clauses] at hc
      obtain ⟨c0, h3, rfl⟩ := List.mem_map.1 hc
      obtain ⟨l, h4, h5⟩ := h2 c0 h3
      obtain ⟨o1, o2, o3⟩ := hok c0 h3 l h4
      refine ⟨l.rename π ρ, List.mem_map_of_mem h4, ?_⟩
      have e : b (π l.var) = ρ l.var (a l.var) := (hb _).1 l.var o1 o2 rfl
      have e1 := (h.val l.var _ (h1 l.var o1 o2)).2.2.1
      have e2 := (h.val l.var _ o3).2.2.1
      unfold Lit.holds at h5 ⊢
      show if l.eq then b (π l.var) = ρ l.var l.val else b (π l.var) ≠ ρ l.var l.val
      rw [e]
      cases he : l.eq with
      | true => rw [he] at h5; simp only [if_true] at h5 ⊢; rw [h5]
      | false =>
        rw [he] at h5; simp only [Bool.false_eq_true, if_false] at h5 ⊢
        intro e3
        rw [e3, e2] at e1
        exact h5 e1.symm
  · rintro ⟨b, h1, h2⟩
    have hin : ∀ v, 1 ≤ v → v ≤ P.numVars → b (π v) < P.dom v := by
      intro v v1 v2
      have := h1 (π v) (h.var v v1 v2).1 (by rw [h.num]; exact (h.var v v1 v2).2)
      rw [h.dom v v1 v2] at this
      exact this
    refine ⟨fun v => ρ' v (b (π v)), ?_, ?_⟩
    · intro v v1 v2
      exact (h.val v _ (hin v v1 v2)).2.1
    · intro c hc
      obtain ⟨l', h3, h4⟩ := h2 _ (by rw [h.clauses]; exact List.mem_map_of_mem hc)
      obtain ⟨l, h5, rfl⟩ := List.mem_map.1 h3
      obtain ⟨o1, o2, o3⟩ := hok c hc l h5
      refine ⟨l, h5, ?_⟩
      have e1 := (h.val l.var _ (hin l.var o1 o2)).2.2.2
      have e2 := (h.val l.var _ o3).2.2.1
      have h4 : if l.eq then b (π l.var) = ρ l.var l.val else b (π l.var) ≠ ρ l.var l.val := h4
      unfold Lit.holds
      dsimp only
      cases he : l.eq with
      | true => rw [he] at h4; simp only [if_true] at h4 ⊢; rw [h4, e2]
      | false =>
        rw [he] at h4; simp only [Bool.false_eq_true, if_false] at h4 ⊢
        intro e3
        rw [e3] at e1
        exact h4 e1.symm

/-- **C84.** A problem and the problem with other numbers for variables and values get the same answer, SAT or UNSAT, from
any two variants without a time limit. -/
theorem C84_renamed {cfg : Cfg S} {cfg' : Cfg S'} {algo algo' : Algo} (hv : Selectable cfg algo) (hv' : Selectable cfg' algo')
    (hs : cfg.ScoreOK) (hs' : cfg'.ScoreOK) (hclock : ∀ k, cfg.late k = false) (hclock' : ∀ k, cfg'.late k = false)
    {π : Nat → Nat} {ρ ρ' : Nat → Nat → Nat} {P Q : Problem} (hP : P.Regular) (hQ : Q.Regular) (hdP : P.NoDupLits)
    (hdQ : Q.NoDupLits) (h : Renamed π ρ ρ' P Q) :
    ∃ rep rep' f0, (∀ fuel, f0 ≤ fuel → solve cfg algo fuel P = .ok rep ∧ solve cfg' algo' fuel Q = .ok rep') ∧
      rep.answer = rep'.answer ∧ (rep.answer = .SAT ∨ rep.answer = .UNSAT) :=
  same_answer hv hv' hs hs' hclock hclock' hP hQ hdP hdQ (h.satisfiable hP.lits_ok hQ.dom_one)

/-- `exSat3` with its variables in reverse order and, for variable 1, the values counted from the other end. -/
def exSat3' : Problem := ⟨[3, 3, 3, 3], exSat3.clauses.map (·.map (Lit.rename (fun v => 5 - v) fun v k => if v = 1 then 2 - k else k))⟩

example : exSat3.Regular ∧ exSat3'.Regular ∧ exSat3.NoDupLits ∧ exSat3'.NoDupLits ∧
    exSat3 ≠ exSat3' := by decide +kernel

example : Renamed (fun v => 5 - v) (fun v k => if v = 1 then 2 - k else k) (fun v k => if v = 1 then 2 - k else k)
    exSat3 exSat3' where
  num := rfl
  var := by intro v h1 h2; have h2 : v ≤ 4 := h2; show 1 ≤ 5 - v ∧ 5 - v ≤ 4; omega
  inj := by intro v w h1 h2 h3 h4 h5; have h2 : v ≤ 4 := h2; have h4 : w ≤ 4 := h4; have h5 : 5 - v = 5 - w := h5; omega
  dom := by
    intro v h1 h2
    have h2 : v ≤ 4 := h2
    obtain rfl | rfl | rfl | rfl : v = 1 ∨ v = 2 ∨ v = 3 ∨ v = 4 := by omega
    all_goals rfl
  val := by
    intro v k hk
    by_cases h1 : v = 1
    · subst h1
      have hk' : k < 3 := hk
      have e : exSat3.dom 1 = 3 := rfl
      rw [e]
      simp only [if_true]
      omega
    · simp only [if_neg h1]
      exact ⟨hk, hk, trivial, trivial⟩
  clauses := rfl

end Mvl

namespace Mvl.BV

variable {S S' : Type}

/-- **C83** for the bit-vector solver without restarts: SAT on a file and UNSAT on a weaker one do not happen. -/
theorem C83_bitvec_weaker {cfg : BCfg S} {cfg' : BCfg S'} (hs : cfg.ScoreOK) (hs' : cfg'.ScoreOK) (hrs : cfg.restarts ≤ 0)
    (hrs' : cfg'.restarts ≤ 0) {P Q : Problem} (hP : P.Regular) (hQ : Q.Regular) (hfP : Fits P) (hfQ : Fits Q)
    (hw : Weaker P Q) {fuel fuel' : Nat} {rep rep' : BReport} (h : bsolve cfg fuel Q = .ok rep)
    (h' : bsolve cfg' fuel' P = .ok rep') : ¬ (rep.answer = .SAT ∧ rep'.answer = .UNSAT) := by
  rintro ⟨h1, h2⟩
  exact C55_bitvec_unsat_partial hs' hrs' hP hfP h' h2
    (hw.satisfiable (C54_bitvec_satisfiable_partial hs hrs hQ hfQ h h1))

/-- **C84** for the bit-vector solver without restarts: opposite answers do not happen. -/
theorem C84_bitvec_renamed {cfg : BCfg S} {cfg' : BCfg S'} (hs : cfg.ScoreOK) (hs' : cfg'.ScoreOK) (hrs : cfg.restarts ≤ 0)
    (hrs' : cfg'.restarts ≤ 0) {π : Nat → Nat} {ρ ρ' : Nat → Nat → Nat} {P Q : Problem} (hP : P.Regular) (hQ : Q.Regular)
    (hfP : Fits P) (hfQ : Fits Q) (h : Renamed π ρ ρ' P Q) {fuel fuel' : Nat} {rep rep' : BReport}
    (h1 : bsolve cfg fuel P = .ok rep) (h2 : bsolve cfg' fuel' Q = .ok rep') :
    ¬ (rep.answer = .SAT ∧ rep'.answer = .UNSAT) ∧ ¬ (rep.answer = .UNSAT ∧ rep'.answer = .SAT) := by
  have hiff := h.satisfiable hP.lits_ok hQ.dom_one
  refine ⟨?_, ?_⟩
  · rintro ⟨a, b⟩
    exact C55_bitvec_unsat_partial hs' hrs' hQ hfQ h2 b (hiff.1 (C54_bitvec_satisfiable_partial hs hrs hP hfP h1 a))
  · rintro ⟨a, b⟩
    exact C55_bitvec_unsat_partial hs hrs hP hfP h1 a (hiff.2 (C54_bitvec_satisfiable_partial hs' hrs' hQ hfQ h2 b))

example : ∀ b, (bsolve (exB b 0) 60 exSat3).passes (fun rep => rep.answer == .SAT) = true ∧
    (bsolve (exB b 0) 60 exSat3').passes (fun rep => rep.answer == .SAT) = true ∧
    (bsolve (exB b 0) 200 exPigeon.shuffled).passes (fun rep => rep.answer == .UNSAT) = true := by decide +kernel

end Mvl.BV

namespace Mvl.Orig

variable {S : Type}

/-! ## C82 -/

/-- **C82**, what holds of it: if the original solver answers SAT, neither the other solver, in any variant, nor the
bit-vector solver without restarts answers UNSAT; if the original solver answers UNSAT without a decision, they do not answer
SAT.  Missing for `_partial`: UNSAT after a decision, where the original solver is wrong (`C82_fails`). -/
theorem C82_original_agrees_partial {ocfg : OCfg} {m : Mode} {P : Problem} (hwf : P.WellFormed) {fuel : Nat} {orep : OReport}
    (h : solve ocfg m fuel P = .ok orep) :
    (∀ {cfg : Cfg S} {algo : Algo} {fuel' : Nat} {rep : Report}, Selectable cfg algo → cfg.ScoreOK →
      (cfg.watch = true → P.NoDupLits) → Mvl.solve cfg algo fuel' P = .ok rep →
      ¬ (orep.answer = .SAT ∧ rep.answer = .UNSAT) ∧
      ¬ (orep.answer = .UNSAT ∧ orep.decisions = 0 ∧ rep.answer = .SAT)) ∧
    (∀ {cfg : BV.BCfg S} {fuel' : Nat} {rep : BV.BReport}, cfg.ScoreOK → cfg.restarts ≤ 0 → BV.Fits P →
      BV.bsolve cfg fuel' P = .ok rep →
      ¬ (orep.answer = .SAT ∧ rep.answer = .UNSAT) ∧
      ¬ (orep.answer = .UNSAT ∧ orep.decisions = 0 ∧ rep.answer = .SAT)) := by
  have hU : orep.answer = .UNSAT → orep.decisions = 0 → ¬ P.Satisfiable := by
    intro h1 h2
    cases m with
    | ch =>
      rcases C73_original_ch_unsat_partial hwf h h1 with h3 | h3
      · exact h3.2
      · omega
    | nc =>
      have h3 := C74_original_nc_unsat_partial hwf h h1
      obtain ⟨_, _, _, h5, h6, _⟩ := C77_original_nc_statistics hwf h
      exact h3.1 (by omega)
  refine ⟨?_, ?_⟩
  · intro cfg algo fuel' rep hv hs hnd h'
    refine ⟨?_, ?_⟩
    · rintro ⟨h1, h2⟩
      exact (answer_right hv hs hwf hnd h').2 h2 (C72_original_sat hwf h h1).1
    · rintro ⟨h1, h2, h3⟩
      exact hU h1 h2 ((answer_right hv hs hwf hnd h').1 h3)
  · intro cfg fuel' rep hs hrs h64 h'
    refine ⟨?_, ?_⟩
    · rintro ⟨h1, h2⟩
      exact BV.C55_bitvec_unsat_partial hs hrs hwf.regular h64 h' h2 (C72_original_sat hwf h h1).1
    · rintro ⟨h1, h2, h3⟩
      exact hU h1 h2 (BV.C54_bitvec_satisfiable_partial hs hrs hwf.regular h64 h' h3)

/-- Both halves are about something: SAT after a decision, and UNSAT without one. -/
example : (solve (exO true) .nc 40 exSat).passes (fun rep => rep.answer == .SAT && rep.decisions != 0) = true ∧
    (Mvl.solve (exCfg .VSIDS false) .learn 60 exSat).passes (fun rep => rep.answer == .SAT) = true ∧
    (BV.bsolve (BV.exB true 0) 60 exSat).passes (fun rep => rep.answer == .SAT) = true ∧
    (solve (exO true) .ch 40 exUnsat).passes (fun rep => rep.answer == .UNSAT && rep.decisions == 0) = true ∧
    (Mvl.solve (exCfg .VSIDS false) .learn 60 exUnsat).passes (fun rep => rep.answer == .UNSAT) = true := by
  decide +kernel

/-- **C82 fails**: on this well-formed file the original solver answers UNSAT, the others SAT. -/
theorem C82_fails : exWrong.WellFormed ∧ BV.Fits exWrong ∧ exWrong.NoDupLits ∧
    (solve (exO true) .ch 40 exWrong).passes (fun rep => rep.answer == .UNSAT) = true ∧
    (∀ m ∈ allModes, (Mvl.solve (exCfg m.2.1 m.2.2) m.1 60 exWrong).passes (fun rep => rep.answer == .SAT) = true) ∧
    ∀ b, (BV.bsolve (BV.exB b 0) 60 exWrong).passes (fun rep => rep.answer == .SAT) = true :=
  ⟨exWrong_wf, by decide, by decide, by decide +kernel, by decide +kernel, by decide +kernel⟩

end Mvl.Orig
