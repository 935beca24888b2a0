import Verif.Props.NC
import Verif.Proof.CReach
import Verif.Proof.DOcc

/-!
# Properties of single steps of the counter-mode searches

C13, C14 and C15.  `CReach` lists the states of the recursive search, `NReach` those of the clause-learning search.
-/

namespace Mvl

variable {S : Type}

/-- A state that some run of a counter-mode search goes through. -/
def Visited (cfg : Cfg S) (P : Problem) (s : St S) : Prop :=
  (∃ st, CReach cfg P s st) ∨ (cfg.ScoreOK ∧ ∃ rc, NReach cfg P s rc)

theorem Visited.dinv {cfg : Cfg S} (hw : cfg.watch = false) {P : Problem} (hwf : P.Proper) {s : St S}
    (h : Visited cfg P s) : ∃ G, DInv G (fun _ => False) s := by
  rcases h with ⟨st, h⟩ | ⟨hs, rc, h⟩
  · exact ⟨_, (h.crinv hw hwf).inv.toD⟩
  · obtain ⟨G, hn⟩ := h.dninv hw hs hwf
    exact ⟨G, hn.inv⟩

/-- Such a state of the chronological search on any file, or of clause learning on a file without repeated literals. -/
def Tidy (cfg : Cfg S) (P : Problem) (s : St S) : Prop :=
  (∃ st, CReach cfg P s st) ∨ (P.NoDupLits ∧ cfg.ScoreOK ∧ ∃ rc, NReach cfg P s rc)

theorem Tidy.visited {cfg : Cfg S} {P : Problem} {s : St S} (h : Tidy cfg P s) : Visited cfg P s := by
  rcases h with h | ⟨_, h⟩
  · exact .inl h
  · exact .inr h

theorem Tidy.cinv {cfg : Cfg S} (hw : cfg.watch = false) {P : Problem} (hwf : P.Proper) {s : St S}
    (h : Tidy cfg P s) : CInv (fun _ => False) s := by
  rcases h with ⟨st, h⟩ | ⟨hnd, hs, rc, h⟩
  · exact (h.crinv hw hwf).inv
  · exact (h.ninv hw hs hwf hnd).inv

/-- The literal is false in the state: its atom has the opposite sign. -/
def IsFalse (s : St S) (l : Lit) : Prop := s.asg l.var l.val = if l.eq then .ne else .eq

/-- The literal is true in the state. -/
def IsTrue (s : St S) (l : Lit) : Prop := s.asg l.var l.val = if l.eq then .eq else .ne

/-- The atom of the literal has no value in the state. -/
def IsOpen (s : St S) (l : Lit) : Prop := s.asg l.var l.val = .un

instance (s : St S) (l : Lit) : Decidable (IsFalse s l) := by unfold IsFalse; infer_instance
instance (s : St S) (l : Lit) : Decidable (IsTrue s l) := by unfold IsTrue; infer_instance
instance (s : St S) (l : Lit) : Decidable (IsOpen s l) := by unfold IsOpen; infer_instance

theorem isFalse_iff {s : St S} {l : Lit} : IsFalse s l ↔ LF s.asg l := by
  unfold IsFalse LF; cases l.eq <;> simp [Asg.ofSign]
theorem isTrue_iff {s : St S} {l : Lit} : IsTrue s l ↔ LT s.asg l := by
  unfold IsTrue LT; cases l.eq <;> simp [Asg.ofSign]
theorem isOpen_iff {s : St S} {l : Lit} : IsOpen s l ↔ LU s.asg l := Iff.rfl

/-- One step of the recursive search, to compute reachable states for the examples. -/
def cStep (cfg : Cfg S) (p : St S × List Lit) : St S × List Lit :=
  if p.1.conflict then
    match p.2 with
    | [] => p
    | l :: st => (reduceTheory cfg (popC cfg p.1) l.neg, st)
  else if p.1.units ≠ [] then (unitStep cfg p.1, p.2)
  else match chooseChrono cfg p.1 with
    | some l => (pushC cfg p.1 l, l :: p.2)
    | none => p

theorem cStep_reach {cfg : Cfg S} {P : Problem} {p : St S × List Lit} (h : CReach cfg P p.1 p.2) :
    CReach cfg P (cStep cfg p).1 (cStep cfg p).2 := by
  obtain ⟨s, st⟩ := p
  unfold cStep
  dsimp only at h ⊢
  by_cases hc : s.conflict = true
  · rw [if_pos hc]
    cases st with
    | nil => exact h
    | cons l st => exact .back h hc
  · rw [if_neg hc]
    have hc' := Bool.eq_false_iff.2 hc
    by_cases hu : s.units = []
    · rw [if_neg (by simp [hu])]
      split
      · rename_i l hl; exact .dec h hc' hu hl
      · exact h
    · rw [if_pos hu]; exact .prop h hc' hu

/-- The state after `n` steps. -/
def cState (cfg : Cfg S) (P : Problem) (n : Nat) : Res (St S × List Lit) :=
  match build cfg P with
  | .ok s => .ok (n.repeat (cStep cfg) (s, []))
  | .ub => .ub
  | .fuel => .fuel

theorem cState_reach {cfg : Cfg S} {P : Problem} {n : Nat} {p : St S × List Lit} (h : cState cfg P n = .ok p) :
    CReach cfg P p.1 p.2 := by
  unfold cState at h
  split at h
  · rename_i s hs
    cases h
    induction n with
    | zero => exact .start hs
    | succ n ih => exact cStep_reach ih
  · cases h
  · cases h

/-- **C13**, conflicts: the clause named by a conflict exists and all its literals are false; during the chronological
search it is a clause of the file. -/
theorem C13_conflict {cfg : Cfg S} (hw : cfg.watch = false) {P : Problem} (hwf : P.Proper) {s : St S}
    (h : Visited cfg P s) (hc : s.conflict = true) :
    ∃ id : Nat, id < s.ncl ∧ s.conflicting = (id : Nat) ∧ ∀ l ∈ (s.cl id).lits, IsFalse s l := by
  obtain ⟨G, hi⟩ := h.dinv hw hwf
  obtain ⟨id, hid, hcid, hf⟩ := hi.cnt.conf hc
  exact ⟨id, hid, hcid, fun l hl => isFalse_iff.2 (hf l hl)⟩

example : ∃ s : St (Option (Nat × Nat)), Visited (exCfg .lazy false) exUnsat s ∧ s.conflict = true := by
  obtain ⟨p, h1, h2⟩ := Res.of_passes (r := cState (exCfg .lazy false) exUnsat 4)
    (q := fun p => p.1.conflict) (by decide +kernel)
  exact ⟨p.1, .inl ⟨_, cState_reach h1⟩, h2⟩
example : ∃ s : St (Option (Nat × Nat)), Visited (exCfg .BK false) exSat3 s ∧ s.conflict = true := by
  obtain ⟨s, rc, q, h1, h2, _⟩ := exConflict
  exact ⟨s, .inr ⟨exCfg_score _ _, rc, h1⟩, h2⟩
example : ∃ s : St (Option (Nat × Nat)), Visited (exCfg .BK false) exDupNo s ∧ s.conflict = true ∧ s.LEVEL = 1 := by
  obtain ⟨p, h1, h2⟩ := Res.of_passes (r := ncState (exCfg .BK false) exDupNo 3)
    (q := fun p => p.1.conflict && p.1.LEVEL == 1) (by decide +kernel)
  simp only [Bool.and_eq_true, beq_iff_eq] at h2
  exact ⟨p.1, .inr ⟨exCfg_score _ _, p.2, ncState_reach h1⟩, h2.1, h2.2⟩

/-- **C13**, propagations: when unit propagation takes a clause from the queue, it is dropped because a literal of it is
true already, or because all its literals are false, or a literal `l` is propagated with the clause as reason, and then `l`
was unassigned and every other literal of the clause was false. -/
theorem C13_propagate {cfg : Cfg S} (hw : cfg.watch = false) {P : Problem} (hwf : P.Proper) {s : St S}
    (h : Visited cfg P s) (hc : s.conflict = false) {id : Nat} {rest : List Nat} (hu : s.units = id :: rest) (f : Nat) :
    id < s.ncl ∧
    (((∃ l ∈ (s.cl id).lits, IsTrue s l) ∨ ∀ l ∈ (s.cl id).lits, IsFalse s l) ∧
        unitProp cfg (f + 1) s = unitProp cfg f { s with unitClause := id, units := rest } ∨
      ∃ l ∈ (s.cl id).lits, IsOpen s l ∧ (∀ l' ∈ (s.cl id).lits, l' ≠ l → IsFalse s l') ∧
        unitProp cfg (f + 1) s =
          unitProp cfg f (reduceTheory cfg { s with unitClause := id, units := rest, nUnits := s.nUnits + 1 } l)) := by
  obtain ⟨G, hi⟩ := h.dinv hw hwf
  obtain ⟨hid, _⟩ := hi.cnt.unitsOK id (by rw [hu]; simp)
  refine ⟨hid, ?_⟩
  have hstep := unitProp_succ_D cfg f hi hc (by rw [hu]; simp)
  rw [hstep]
  unfold unitStep
  rw [hu]
  dsimp only
  by_cases hl : (s.cl id).level = -1
  · rw [if_pos (by exact hl)]
    cases hf : (s.cl id).lits.find? (fun l => s.asg l.var l.val = .un) with
    | none =>
      left
      refine ⟨.inr ?_, ?_⟩
      · intro l hm
        have h1 : ¬ LU s.asg l := by simpa [LU] using List.find?_eq_none.1 hf l hm
        have h2 := (hi.cnt.mark id hid).unsat hl
        rcases lit_cases s.asg l with h3 | h3 | h3
        · exact absurd ⟨l, hm, h3⟩ h2
        · exact isFalse_iff.2 h3
        · exact absurd h3 h1
      · have hf' : (({ s with unitClause := (id : Int), units := rest } : St S).cl id).lits.find?
          (fun l => ({ s with unitClause := (id : Int), units := rest } : St S).asg l.var l.val = .un) = none := hf
        simp only [hf']
    | some l =>
      right
      obtain ⟨hm, hlu, hoth⟩ := hi.front hu hl hf
      refine ⟨l, hm, hlu, fun l' h1 h2 => isFalse_iff.2 (hoth l' h1 h2), ?_⟩
      have hf' : (({ s with unitClause := (id : Int), units := rest } : St S).cl id).lits.find?
        (fun l => ({ s with unitClause := (id : Int), units := rest } : St S).asg l.var l.val = .un) = some l := hf
      simp only [hf']
  · left
    obtain ⟨l, hm, ht⟩ := (hi.cnt.mark id hid).sat hl
    refine ⟨.inl ⟨l, hm, isTrue_iff.2 ht⟩, ?_⟩
    rw [if_neg (by exact hl)]

/-- **C13**, sharper where no object is shared: a clause with all literals false is never taken from the queue. -/
theorem C13_propagate_tidy {cfg : Cfg S} (hw : cfg.watch = false) {P : Problem} (hwf : P.Proper) {s : St S}
    (h : Tidy cfg P s) (hc : s.conflict = false) {id : Nat} {rest : List Nat} (hu : s.units = id :: rest) :
    ¬ ∀ l ∈ (s.cl id).lits, IsFalse s l := by
  have hi := h.cinv hw hwf
  obtain ⟨hid, _⟩ := hi.cnt.unitsOK id (by rw [hu]; simp)
  intro hall
  by_cases hl : (s.cl id).level = -1
  · obtain ⟨l, _, hm, hlu, _⟩ := hi.front hc hu hl
    exact hlu.not_LF (isFalse_iff.1 (hall l hm))
  · obtain ⟨l, hm, ht⟩ := (hi.cnt.exact id hid).sat hl
    exact ht.not_LF (isFalse_iff.1 (hall l hm))

example : ∃ s : St (Option (Nat × Nat)), Visited (exCfg .lazy false) exUnsat s ∧ s.conflict = false ∧ s.LEVEL = 1 ∧
    ∃ id rest, s.units = id :: rest := by
  obtain ⟨p, h1, h2⟩ := Res.of_passes (r := cState (exCfg .lazy false) exUnsat 3)
    (q := fun p => !p.1.conflict && p.1.LEVEL == 1 && p.1.units != []) (by decide +kernel)
  simp only [Bool.and_eq_true, Bool.not_eq_true', beq_iff_eq, bne_iff_ne] at h2
  exact ⟨p.1, .inl ⟨_, cState_reach h1⟩, h2.1.1, h2.1.2, List.exists_cons_of_ne_nil h2.2⟩

/-- Every clause's satisfied mark and count of unassigned literals are what the assignment dictates: no literal true, mark
-1 and the number of unassigned occurrences; or satisfied, count 0 and the mark is the lowest level at which a literal was
made true. -/
def MarksExact (s : St S) : Prop :=
  ∀ id, id < s.ncl →
    ((s.cl id).level = -1 ∧ (∀ l ∈ (s.cl id).lits, ¬ IsTrue s l) ∧
      (s.cl id).numUn = (s.cl id).lits.countP (fun l => IsOpen s l)) ∨
    (0 ≤ (s.cl id).level ∧ (s.cl id).numUn = 0 ∧
      (∃ l ∈ (s.cl id).lits, IsTrue s l ∧ s.lvl l.var l.val = (s.cl id).level) ∧
      ∀ l ∈ (s.cl id).lits, IsTrue s l → (s.cl id).level ≤ s.lvl l.var l.val)

theorem marksExact_of {s : St S} (h : ∀ id, id < s.ncl → Exact s.asg s.lvl (s.cl id)) : MarksExact s := by
  intro id hid
  rcases h id hid with ⟨h1, h2, h3⟩ | ⟨h1, h2, ⟨l, hm, ht, hl⟩, h4⟩
  · refine .inl ⟨h1, fun l hm ht => h2 ⟨l, hm, isTrue_iff.1 ht⟩, ?_⟩
    rw [h3]; rfl
  · exact .inr ⟨h1, h2, ⟨l, hm, isTrue_iff.2 ht, hl⟩, fun l hm ht => h4 l hm (isTrue_iff.1 ht)⟩

/-- **C14**, invariant: marks and counts are exact in every state of the searches, not only after backtracking. -/
theorem C14_marks {cfg : Cfg S} (hw : cfg.watch = false) {P : Problem} (hwf : P.Proper) {s : St S}
    (h : Tidy cfg P s) : MarksExact s := marksExact_of (h.cinv hw hwf).cnt.exact

/-- The same without the counts of single-literal clauses. -/
def MarksWide (s : St S) : Prop :=
  ∀ id, id < s.ncl →
    (((s.cl id).level = -1 ∧ ∀ l ∈ (s.cl id).lits, ¬ IsTrue s l) ∨
      (0 ≤ (s.cl id).level ∧ (∃ l ∈ (s.cl id).lits, IsTrue s l ∧ s.lvl l.var l.val = (s.cl id).level) ∧
        ∀ l ∈ (s.cl id).lits, IsTrue s l → (s.cl id).level ≤ s.lvl l.var l.val)) ∧
    ((s.cl id).lits.length ≠ 1 →
      (s.cl id).numUn = if (s.cl id).level = -1 then (((s.cl id).lits.countP (fun l => IsOpen s l) : Nat) : Int) else 0)

theorem marksWide_of {G : Nat → Prop} {s : St S} (hm : ∀ id, id < s.ncl → Mark s.asg s.lvl (s.cl id))
    (hn : ∀ id, id < s.ncl → G id → Num s.asg (s.cl id)) (hs : DStore G s) : MarksWide s := by
  intro id hid
  refine ⟨?_, ?_⟩
  · rcases hm id hid with ⟨h1, h2⟩ | ⟨h1, ⟨l, hml, ht, hl⟩, h4⟩
    · exact .inl ⟨h1, fun l hm ht => h2 ⟨l, hm, isTrue_iff.1 ht⟩⟩
    · exact .inr ⟨h1, ⟨l, hml, isTrue_iff.2 ht, hl⟩, fun l hm ht => h4 l hm (isTrue_iff.1 ht)⟩
  · intro hlen
    have hg : G id := by
      apply Classical.byContradiction
      intro hg
      obtain ⟨B, hB⟩ := hs.unit id hid hg
      rw [hB] at hlen; exact hlen rfl
    exact hn id hid hg

/-- **C14**, invariant, on files that may repeat literals: all marks, and all counts but those of single-literal clauses,
are exact.  The full claim, `MarksExact`, fails there: see `C14_dup_fails`. -/
theorem C14_marks_dup_partial {cfg : Cfg S} (hw : cfg.watch = false) {P : Problem} (hwf : P.Proper) {s : St S}
    (h : Visited cfg P s) : MarksWide s := by
  obtain ⟨G, hi⟩ := h.dinv hw hwf
  exact marksWide_of hi.cnt.mark hi.cnt.num hi.cnt.store

/-- What must be left after going back to level `k`: atoms assigned above it are unassigned, atoms assigned at or below
it keep value, level, reason and position on the stack, the recorded value of a variable is the one the assignment
holds, and the decision stack keeps exactly the entries that are not above `k`. -/
structure Restored (s : St S) (k : Int) (s' : St S) : Prop where
  above : ∀ v d, s.lvl v d > k → s'.asg v d = .un
  below : ∀ v d, s.lvl v d ≤ k → s'.asg v d = s.asg v d ∧ s'.lvl v d = s.lvl v d ∧ s'.rsn v d = s.rsn v d ∧
    s'.idx v d = s.idx v d
  value : ∀ v, 1 ≤ v → v ≤ s.nv → ∀ d, s'.vval v = some d ↔ s'.asg v d = .eq
  stack : s'.decs = s.decs.filter (fun l => s.lvl l.var l.val ≤ k)

theorem restored_of {s s' : St S} {k : Int} (hb : s.tr.Base) {cls : List Lit → Prop} (hst : s.tr.Stack cls) (hk : -1 ≤ k)
    (hasg : s'.asg = (s.tr.undo k).asg) (hlvl : s'.lvl = (s.tr.undo k).lvl) (hrsn : s'.rsn = (s.tr.undo k).rsn)
    (hidx : s'.idx = s.idx) (hvv : s'.vval = (s.tr.undo k).vval) (hdecs : s'.decs = (s.tr.undo k).decs) :
    Restored s k s' := by
  have hlow : ∀ v d, s.lvl v d > k → s.asg v d ≠ .un := by
    intro v d h hu
    have : s.lvl v d = -10 := hb.un v d hu
    omega
  refine ⟨?_, ?_, ?_, ?_⟩
  · intro v d h
    rw [hasg]
    show (if s.lvl v d > k then Asg.un else s.asg v d) = .un
    rw [if_pos h]
  · intro v d h
    have hn : ¬ s.lvl v d > k := by omega
    rw [hasg, hlvl, hrsn, hidx]
    refine ⟨?_, ?_, ?_, rfl⟩
    · show (if s.lvl v d > k then Asg.un else s.asg v d) = _
      rw [if_neg hn]
    · show (if s.lvl v d > k then (-10 : Int) else s.lvl v d) = _
      rw [if_neg hn]
    · show (if s.lvl v d > k then (-10 : Int) else s.rsn v d) = _
      rw [if_neg hn]
  · intro v h1 h2 d
    rw [hasg, hvv]
    show (if 1 ≤ v ∧ v ≤ s.nv ∧ ∃ d < s.dom v, s.lvl v d > k then none else s.vval v) = some d ↔
      (if s.lvl v d > k then Asg.un else s.asg v d) = .eq
    have hvd : s.vval v = some d ↔ s.asg v d = .eq := hb.vv v d h1 h2
    constructor
    · intro h
      split at h
      · cases h
      · rename_i hno
        have he := hvd.1 h
        have hr : s.tr.Rng v d := hb.rng v d (by show s.asg v d ≠ .un; rw [he]; simp)
        rw [if_neg (fun hgt => hno ⟨h1, h2, d, hr.2.2, hgt⟩)]
        exact he
    · intro h
      split at h
      · cases h
      · rename_i hgt
        have hle : s.lvl v d ≤ k := by omega
        have h0 : 0 ≤ s.lvl v d := hb.lvl0 v d (by show s.asg v d ≠ .un; rw [h]; simp)
        rw [if_neg ?_]
        · exact hvd.2 h
        · rintro ⟨_, _, e, he, hgt'⟩
          have hL : s.lvl v e ≤ s.LEVEL := hb.lvlL v e (hlow v e hgt')
          have hvar := (hst k (by omega) (by show k < s.LEVEL; omega)).1 v h1 h2
          have hd : s.tr.asgAt k v d = .eq := by
            show (if s.lvl v d > k then Asg.un else s.asg v d) = .eq
            rw [if_neg hgt]; exact h
          have hed : s.tr.asgAt k v e = .un := by
            show (if s.lvl v e > k then Asg.un else s.asg v e) = .un
            rw [if_pos hgt']
          have hrd : d < s.dom v := (hb.rng v d (by show s.asg v d ≠ .un; rw [h]; simp)).2.2
          rcases hvar with ⟨x, hx, hxe, hxo⟩ | ⟨hno, _⟩ | h1
          · by_cases hex : e = x
            · subst hex; rw [hed] at hxe; cases hxe
            · have := hxo e he hex
              rw [hed] at this; cases this
          · exact hno d hrd hd
          · have h1 : s.dom v = 1 := h1
            have : d = e := by omega
            subst this
            exact hgt hgt'
  · rw [hdecs]
    show s.decs.filter (fun l => s.tr.asgAt k l.var l.val ≠ .un) = _
    apply List.filter_congr
    intro l hl
    obtain ⟨i, hi'⟩ := List.getElem?_of_mem hl
    have ht : LT s.asg l := (hb.d2 i l hi').1
    have hne : s.asg l.var l.val ≠ .un := ht.not_LU
    show decide ((if s.lvl l.var l.val > k then Asg.un else s.asg l.var l.val) ≠ .un) = _
    by_cases hgt : s.lvl l.var l.val > k
    · rw [if_pos hgt]
      have : ¬ s.lvl l.var l.val ≤ k := by omega
      simp [this]
    · rw [if_neg hgt, decide_eq_true hne, decide_eq_true (by omega)]

/-- **C14.** `undoTheory`, called in any state of the searches and for any level, restores exactly. -/
theorem C14_undo {cfg : Cfg S} (hw : cfg.watch = false) {P : Problem} (hwf : P.Proper) {s : St S}
    (h : Tidy cfg P s) {k : Int} (hk : -1 ≤ k) :
    Restored s k (undoTheory cfg s k) ∧ MarksExact (undoTheory cfg s k) ∧ (undoTheory cfg s k).ncl = s.ncl ∧
    ∀ id, id < s.ncl → ((undoTheory cfg s k).cl id).lits = (s.cl id).lits := by
  have hi := h.cinv hw hwf
  have hu := undoTheory_spec cfg (K := s.LEVEL) hk hi.base hi.cnt.store hi.cnt.exact
  have hf := hu.frame
  have hidx : (undoTheory cfg s k).idx = s.idx := by obtain ⟨_, _, _, _, _, _, _, e⟩ := hf; rw [e]
  have hncl : (undoTheory cfg s k).ncl = s.ncl := by obtain ⟨_, _, _, _, _, _, _, e⟩ := hf; rw [e]
  refine ⟨restored_of hi.base hi.stack hk (congrArg Trail.asg hu.tr) (congrArg Trail.lvl hu.tr) (congrArg Trail.rsn hu.tr) hidx
    (congrArg Trail.vval hu.tr) (congrArg Trail.decs hu.tr), marksExact_of ?_, hncl, hu.lits⟩
  rw [hncl]; exact hu.exact

/-- **C14**, on files that may repeat literals: as `C14_undo`, but for the counts of single-literal clauses. -/
theorem C14_undo_dup_partial {cfg : Cfg S} (hw : cfg.watch = false) {P : Problem} (hwf : P.Proper) {s : St S}
    (h : Visited cfg P s) {k : Int} (hk : -1 ≤ k) :
    Restored s k (undoTheory cfg s k) ∧ MarksWide (undoTheory cfg s k) ∧ (undoTheory cfg s k).ncl = s.ncl ∧
    ∀ id, id < s.ncl → ((undoTheory cfg s k).cl id).lits = (s.cl id).lits := by
  obtain ⟨G, hi⟩ := h.dinv hw hwf
  have hu := undoTheory_D cfg (K := s.LEVEL) hk hi.base hi.cnt.store hi.cnt.mark hi.cnt.num
  have hf := hu.frame
  have hidx : (undoTheory cfg s k).idx = s.idx := by obtain ⟨_, _, _, _, _, _, _, e⟩ := hf; rw [e]
  have hncl : (undoTheory cfg s k).ncl = s.ncl := by obtain ⟨_, _, _, _, _, _, _, e⟩ := hf; rw [e]
  refine ⟨restored_of hi.base hi.stack hk (congrArg Trail.asg hu.tr) (congrArg Trail.lvl hu.tr) (congrArg Trail.rsn hu.tr) hidx
    (congrArg Trail.vval hu.tr) (congrArg Trail.decs hu.tr), marksWide_of (G := G) ?_ ?_ hu.store, hncl, hu.lits⟩
  · rw [hncl]; exact hu.mark
  · rw [hncl]; exact hu.num

/-- **C14**, the clause-learning search: handling a conflict as a whole (analysis, learning, undoing, restarts included)
restores the level it returns to. -/
theorem C14_backjump {cfg : Cfg S} (hw : cfg.watch = false) (hs : cfg.ScoreOK)
    {P : Problem} (hwf : P.Proper) (hnd : P.NoDupLits) {s s' : St S} {rc rc' : Int} {f : Nat} (h : NReach cfg P s rc)
    (hc : s.conflict = true) (hL : s.LEVEL ≠ 0) (hrun : conflictNC cfg f s rc = .ok (s', rc')) :
    Restored s s'.LEVEL s' ∧ MarksExact s' ∧ 0 ≤ s'.LEVEL ∧ s'.LEVEL < s.LEVEL := by
  have hn := h.ninv hw hs hwf hnd
  have := hn.conf hw hc hL f
  rw [hrun] at this
  obtain ⟨hn', hb, _⟩ := this
  have ht := hb.tr
  refine ⟨restored_of hn.inv.base hn.inv.stack (Int.le_trans (by omega) hb.level.1) (congrArg Trail.asg ht) (congrArg Trail.lvl ht)
    (congrArg Trail.rsn ht) (congrArg Trail.idx ht) (congrArg Trail.vval ht) (congrArg Trail.decs ht),
    marksExact_of hn'.inv.cnt.exact, hb.level.1, hb.level.2⟩

/-- **C14**, the clause-learning search on files that may repeat literals. -/
theorem C14_backjump_dup_partial {cfg : Cfg S} (hw : cfg.watch = false) (hs : cfg.ScoreOK)
    {P : Problem} (hwf : P.Proper) {s s' : St S} {rc rc' : Int} {f : Nat} (h : NReach cfg P s rc)
    (hc : s.conflict = true) (hL : s.LEVEL ≠ 0) (hrun : conflictNC cfg f s rc = .ok (s', rc')) :
    Restored s s'.LEVEL s' ∧ MarksWide s' ∧ 0 ≤ s'.LEVEL ∧ s'.LEVEL < s.LEVEL := by
  obtain ⟨G, hn⟩ := h.dninv hw hs hwf
  obtain ⟨⟨G', hn'⟩, hb⟩ := hn.conf hw hc hL f (s', rc') hrun
  have ht := hb.tr
  exact ⟨restored_of hn.inv.base hn.inv.stack (Int.le_trans (by omega) hb.level.1) (congrArg Trail.asg ht) (congrArg Trail.lvl ht)
    (congrArg Trail.rsn ht) (congrArg Trail.idx ht) (congrArg Trail.vval ht) (congrArg Trail.decs ht),
    marksWide_of hn'.inv.cnt.mark hn'.inv.cnt.num hn'.inv.cnt.store, hb.level.1, hb.level.2⟩

/-- The count of some unsatisfied clause differs from the number of its unassigned literals. -/
def countOff (s : St S) : Bool :=
  (List.range s.ncl).any fun id => decide ((s.cl id).level = -1) &&
    decide ((s.cl id).numUn ≠ (((s.cl id).lits.countP (fun l => IsOpen s l) : Nat) : Int))

theorem not_marksExact {s : St S} (h : countOff s = true) : ¬ MarksExact s := by
  intro hm
  obtain ⟨id, hid, h1⟩ := List.any_eq_true.1 h
  simp only [Bool.and_eq_true, decide_eq_true_eq] at h1
  rcases hm id (List.mem_range.1 hid) with ⟨_, _, h2⟩ | ⟨h2, _⟩
  · exact h1.2 h2
  · omega

/-- **C14 fails with a repeated literal**: a clause is learned twice into the same object, and after backtracking its count of
unassigned literals is wrong. -/
theorem C14_dup_fails : exDupLearn.WellFormed ∧ ∃ s : St (Option (Nat × Nat)),
    Visited { exCfg .lazy false with restarts := 1 } exDupLearn s ∧ ¬ MarksExact s := by
  refine ⟨by decide, ?_⟩
  obtain ⟨p, h1, h2⟩ := Res.of_passes (r := ncState { exCfg .lazy false with restarts := 1 } exDupLearn 6)
    (q := fun p => countOff p.1) (by decide +kernel)
  exact ⟨p.1, .inr ⟨exCfg_score .lazy false, p.2, ncState_reach h1⟩, not_marksExact h2⟩

example : ∃ s : St (Option (Nat × Nat)), Tidy (exCfg .lazy false) exPigeon s ∧ s.LEVEL = 4 ∧
    s.decs.filter (fun l => s.lvl l.var l.val ≤ 2) ≠ s.decs ∧ s.decs.filter (fun l => s.lvl l.var l.val ≤ 2) ≠ [] := by
  obtain ⟨p, h1, h2⟩ := Res.of_passes (r := cState (exCfg .lazy false) exPigeon 8)
    (q := fun p => p.1.LEVEL == 4 && p.1.decs.filter (fun l => p.1.lvl l.var l.val ≤ 2) != p.1.decs &&
      p.1.decs.filter (fun l => p.1.lvl l.var l.val ≤ 2) != []) (by decide +kernel)
  simp only [Bool.and_eq_true, beq_iff_eq, bne_iff_ne] at h2
  exact ⟨p.1, .inl ⟨_, cState_reach h1⟩, h2.1.1, h2.1.2, h2.2⟩

/-- **C15.** Where the chronological search decides (no conflict, empty queue), no clause of the file is falsified, and
every clause of the file is satisfied or has at least two unassigned literal occurrences. -/
theorem C15_decision {cfg : Cfg S} (hw : cfg.watch = false) {P : Problem} (hwf : P.Proper) {s : St S}
    {st : List Lit} (h : CReach cfg P s st) (hc : s.conflict = false) (hu : s.units = []) :
    ∀ c ∈ P.clauses, (∃ l ∈ c, ¬ IsFalse s l) ∧
      ((∃ l ∈ c, IsTrue s l) ∨ 2 ≤ c.countP (fun l => IsOpen s l)) := by
  have hi := h.crinv hw hwf
  intro c hcm
  obtain ⟨i, hi'⟩ := List.getElem?_of_mem hcm
  have hlt : i < s.ncl := by rw [hi.ncl]; exact (List.getElem?_eq_some_iff.1 hi').1
  have h2 := hi.inv.twoOrSat hc hu ⟨i, hlt, rfl⟩
  rw [hi.lits i c hi'] at h2
  rcases h2 with ⟨l, hl, ht⟩ | h2
  · exact ⟨⟨l, hl, fun hf => ht.not_LF (isFalse_iff.1 hf)⟩, .inl ⟨l, hl, isTrue_iff.2 ht⟩⟩
  · obtain ⟨l, hl, hlu⟩ := openCount_pos.1 (by omega : 0 < openCount s.asg c)
    exact ⟨⟨l, hl, fun hf => hlu.not_LF (isFalse_iff.1 hf)⟩, .inr h2⟩

/-- Every decision of the chronological search is made at such a point: the code makes one only after the queue was
emptied without conflict. -/
theorem chronoAfter_decides {cfg : Cfg S} (hw : cfg.watch = false) {P : Problem} (hwf : P.Proper) (f : Nat) {s : St S}
    {st : List Lit} (h : CReach cfg P s st) :
    (propIf cfg f s).Sat fun s' => CReach cfg P s' st ∧ (s'.conflict = true ∨ s'.units = []) := by
  unfold propIf
  split
  · rename_i hu; exact ⟨h, .inr hu⟩
  · exact unitProp_creach hw hwf f h

example : ∃ (s : St (Option (Nat × Nat))) (st : List Lit), CReach (exCfg .BK false) exSat3 s st ∧ s.conflict = false ∧
    s.units = [] ∧ s.LEVEL = 1 ∧ ∃ l, chooseChrono (exCfg .BK false) s = some l := by
  obtain ⟨p, h1, h2⟩ := Res.of_passes (r := cState (exCfg .BK false) exSat3 8)
    (q := fun p => !p.1.conflict && p.1.units == [] && p.1.LEVEL == 1 && (chooseChrono (exCfg .BK false) p.1).isSome)
    (by decide +kernel)
  simp only [Bool.and_eq_true, Bool.not_eq_true', beq_iff_eq] at h2
  exact ⟨p.1, p.2, cState_reach h1, h2.1.1.1, h2.1.1.2, h2.1.2, Option.isSome_iff_exists.1 h2.2⟩

end Mvl
