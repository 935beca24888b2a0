import Verif.Proof.DEngine
import Verif.Proof.NCRun

/-!
# Reasons and conflict analysis when clauses may repeat a literal

Without the assumption that clauses have no repeated literal, conflict analysis may leave the range of the
resolvent (`.ub`) or not stop (`.fuel`).  Whenever it returns, the clause it returns is false and follows from
the stored clauses.
-/

namespace Mvl

variable {S : Type}

/-- The reason recorded for an assigned atom explains it (weaker than `ReasonOK`). -/
def WReasonOK (t : Trail) (cls : Nat → Option (List Lit)) (v d : Nat) : Prop :=
  t.rsn v d = -1 ∨
  (t.rsn v d = -2 ∧ t.asg v d = .eq ∧ (∀ e, e < t.dom v → e ≠ d → t.asg v e = .ne ∧ t.idx v e < t.idx v d) ∧
    2 ≤ t.dom v) ∨
  (∃ (id : Nat) (c : List Lit) (L : Lit), t.rsn v d = id ∧ cls id = some c ∧
    t.decs[(t.idx v d).toNat]? = some L ∧ L ∈ c ∧
    (∀ x ∈ c, x ≠ L → LF t.asg x ∧ t.idx x.var x.val < t.idx v d))

/-- All recorded reasons are right. -/
def WReasons (t : Trail) (cls : Nat → Option (List Lit)) : Prop :=
  ∀ v d, t.asg v d ≠ .un → WReasonOK t cls v d

/-- The literal assigned by `Ext` is either a decision, or forced by a clause. -/
def WCause (t : Trail) (cls : Nat → Option (List Lit)) (l : Lit) (r : Int) : Prop :=
  r = -1 ∨
  (∃ (id : Nat) (c : List Lit), r = id ∧ cls id = some c ∧ l ∈ c ∧ (∀ x ∈ c, x ≠ l → LF t.asg x))

theorem Ext.wreasons {t t' : Trail} {l : Lit} {r : Int} {cls : Nat → Option (List Lit)} (h : Ext t l r t')
    (hb : t.Base) (hr : t.Rng l.var l.val) (hrs : WReasons t cls) (hc : WCause t cls l r) : WReasons t' cls := by
  obtain ⟨ds, hds⟩ := h.decs
  have hpre : ∀ (i : Nat) (L : Lit), t.decs[i]? = some L → t'.decs[i]? = some L := by
    intro i L hL
    obtain ⟨hlt, _⟩ := List.getElem?_eq_some_iff.1 hL
    rw [hds, List.getElem?_append_left hlt]; exact hL
  have hlen : t'.decs[t.decs.length]? = some l := by rw [hds]; simp
  have hLF : ∀ x, LF t.asg x → LF t'.asg x := by
    intro x hx
    unfold LF at *
    rw [(h.old _ _ (LF_ne_un hx)).1]; exact hx
  intro v d hn
  by_cases hold : t.asg v d = .un
  · obtain ⟨hv, hlv, hcase⟩ := h.new v d hold hn
    rcases hcase with ⟨hrs1, hix, hval⟩ | ⟨hle, hrs2, hdl, heq, hix, hdd, hothers⟩
    · rcases hc with hr1 | ⟨id, c, hrid, hcid, hlc, hfalse⟩
      · left; rw [hrs1, hr1]
      · right; right
        refine ⟨id, c, l, by rw [hrs1, hrid], hcid, ?_, hlc, ?_⟩
        · rw [hix]; simpa using hlen
        · intro y hy hyl
          have hyf := hfalse y hy hyl
          refine ⟨hLF y hyf, ?_⟩
          have := (hb.idx_lt (LF_ne_un hyf)).2
          rw [(h.old _ _ (LF_ne_un hyf)).2.2.2]; omega
    · right; left
      refine ⟨hrs2, heq, ?_, ?_⟩
      · intro e he hed
        rw [h.dom] at he
        obtain ⟨h1, h2⟩ := hothers e he hed
        exact ⟨h1, by omega⟩
      · have h1 := (h.base.rng v d hn).2.2
        have h2 := hr.2.2
        rw [← hv, ← h.dom] at h2
        omega
  · obtain ⟨o1, o2, o3, o4⟩ := h.old v d hold
    rcases hrs v d hold with h1 | ⟨h1, h2, h3, hd2⟩ | ⟨id, c, L, h1, h2, h3, h4, h5⟩
    · left; rw [o3, h1]
    · right; left
      refine ⟨by rw [o3, h1], by rw [o1, h2], ?_, by rw [h.dom]; exact hd2⟩
      intro e' he' hed'
      rw [h.dom] at he'
      obtain ⟨q1, q2⟩ := h3 e' he' hed'
      obtain ⟨p1, p2, p3, p4⟩ := h.old v e' (by rw [q1]; simp)
      exact ⟨by rw [p1, q1], by omega⟩
    · right; right
      refine ⟨id, c, L, by rw [o3, h1], h2, ?_, h4, ?_⟩
      · rw [o4]; exact hpre _ _ h3
      · intro y hy hyl
        obtain ⟨q1, q2⟩ := h5 y hy hyl
        refine ⟨hLF y q1, ?_⟩
        rw [(h.old _ _ (LF_ne_un q1)).2.2.2]; omega

theorem WReasons.undo {t : Trail} {cls : Nat → Option (List Lit)} (hb : t.Base) (hrs : WReasons t cls) {k : Int} :
    WReasons ((t.undo k).level k) cls := by
  have hne : ∀ v d, ((t.undo k).level k).asg v d ≠ .un → t.asg v d ≠ .un ∧ t.lvl v d ≤ k ∧
      ((t.undo k).level k).asg v d = t.asg v d ∧
      ((t.undo k).level k).rsn v d = t.rsn v d := by
    intro v d hx
    obtain ⟨h1, h2, h3⟩ := Trail.asgAt_ne_un hx
    refine ⟨h1, h2, h3, ?_⟩; simp only [Trail.undo, Trail.level]; rw [if_neg (by omega)]
  have hkeep : ∀ v d, t.asg v d ≠ .un → t.lvl v d ≤ k → ((t.undo k).level k).asg v d = t.asg v d := by
    intro v d h1 h2
    exact Trail.asgAt_eq_of_le h2
  have hdecs : ∀ (i : Nat) (L : Lit), t.decs[i]? = some L → t.lvl L.var L.val ≤ k →
      ((t.undo k).level k).decs[i]? = some L := by
    intro i L hL hk
    have hdown : ∀ (i j : Nat) (x y : Lit), i ≤ j → t.decs[i]? = some x → t.decs[j]? = some y →
      (decide (t.asgAt k y.var y.val ≠ .un)) = true → (decide (t.asgAt k x.var x.val ≠ .un)) = true := by
      intro i j x y hij hx hy hp
      simp only [decide_eq_true_eq] at hp ⊢
      obtain ⟨_, h2, _⟩ := Trail.asgAt_ne_un hp
      have h3 := hb.d3 i j x y hij hx hy
      rw [Trail.asgAt_eq_of_le (by omega)]
      exact fun h' => (hb.d2 i x hx).1.not_LU h'
    have := (Trail.filter_getElem? hdown i L).2 ⟨hL, by
      simp only [decide_eq_true_eq]
      rw [Trail.asgAt_eq_of_le hk]
      exact LT_ne_un (hb.d2 i L hL).1⟩
    exact this
  have hidx : ∀ v d, ((t.undo k).level k).idx v d = t.idx v d := fun _ _ => rfl
  intro v d hn
  obtain ⟨h1, h2, h3, h5⟩ := hne v d hn
  rcases hrs v d h1 with r1 | ⟨r1, r2, r3, hd2⟩ | ⟨id, c, L, r1, r2, r3, r4, r5⟩
  · left; rw [h5, r1]
  · right; left
    refine ⟨by rw [h5, r1], by rw [h3, r2], ?_, hd2⟩
    intro e he hed
    obtain ⟨q1, q2⟩ := r3 e he hed
    have := Trail.lvl_le_of_idx hb (by rw [q1]; simp) h1 (Int.le_of_lt q2)
    rw [hkeep v e (by rw [q1]; simp) (by omega), hidx, hidx]
    exact ⟨q1, q2⟩
  · right; right
    refine ⟨id, c, L, by rw [h5, r1], r2, ?_, r4, ?_⟩
    · rw [hidx]
      apply hdecs _ _ r3
      obtain ⟨i, M, m1, m2, m3, m4, _⟩ := hb.d1 v d h1
      rw [m1] at r3
      have : t.decs[i]? = some L := by simpa using r3
      rw [m2] at this; cases this
      rw [m3, m4]; exact h2
    · intro y hy hyl
      obtain ⟨q1, q2⟩ := r5 y hy hyl
      refine ⟨?_, by rw [hidx, hidx]; exact q2⟩
      have := Trail.lvl_le_of_idx hb (LF_ne_un q1) h1 (Int.le_of_lt q2)
      unfold LF at *
      rw [hkeep _ _ (by rw [q1]; cases y.eq <;> simp) (by omega)]; exact q1

theorem WReasons.mono {t : Trail} {cls cls' : Nat → Option (List Lit)} (h : WReasons t cls)
    (hc : ∀ id c, cls id = some c → cls' id = some c) : WReasons t cls' := by
  intro v d hn
  rcases h v d hn with h | h | ⟨id, c, L, h1, h2, h3⟩
  · exact Or.inl h
  · exact Or.inr (Or.inl h)
  · exact Or.inr (Or.inr ⟨id, c, L, h1, hc id c h2, h3⟩)

/-- Whatever reason is used for a false literal, what it leaves in the resolvent is false. -/
theorem reason_false {t : Trail} {cls : Nat → Option (List Lit)} (hb : t.Base) (hrs : WReasons t cls) {l : Lit}
    (hlf : LF t.asg l) {r : List Lit} (hr : ReasonFor t cls l r) :
    ∀ x ∈ r, ¬ falsifies x l = true → LF t.asg x := by
  have hun := LF_ne_un hlf
  obtain ⟨i, L, hi, hLi, hLl, hLc⟩ := lf_idx hb hlf
  have hLL := hb.d2 i L hLi
  have hLneg : LF t.asg L.neg := by
    have := hLL.1
    unfold LT at this; unfold LF Lit.neg
    simpa using this
  have htoNat : (t.idx l.var l.val).toNat = i := by omega
  have hfL : falsifies L l = true := by
    rw [falsifies_iff]
    rcases hLc with h | ⟨ha, h, h', h''⟩
    · rw [h]; exact ⟨rfl, Or.inl ⟨rfl, by simp [Lit.neg]⟩⟩
    · exact ⟨h'.symm, Or.inr ⟨fun h => h'' h.symm, ha, h⟩⟩
  rcases hr with ⟨h1, L', h2, rfl⟩ | ⟨h1, rfl⟩ | ⟨id, h1, h2⟩
  · rw [htoNat, hLi] at h2
    cases h2
    intro x hx hf
    have hx' : x = L ∨ x = L.neg := by
      simp only [List.mem_cons, List.not_mem_nil, or_false] at hx
      obtain ⟨v, d, e⟩ := L
      cases e
      · rcases hx with rfl | rfl
        · right; rfl
        · left; rfl
      · rcases hx with rfl | rfl
        · left; rfl
        · right; rfl
    rcases hx' with rfl | rfl
    · exact absurd hfL hf
    · exact hLneg
  · intro x hx hf
    rw [List.mem_map] at hx
    obtain ⟨k, hk, rfl⟩ := hx
    have hk := List.mem_range.1 hk
    rcases hrs l.var l.val hun with q | ⟨_, q2, q3, _⟩ | ⟨id, c, M, q1, _⟩
    · rw [q] at h1; simp at h1
    · have hkl : k ≠ l.val := by
        rintro rfl
        apply hf
        have hle : l.eq = false := by
          unfold LF at hlf
          rw [q2] at hlf
          cases hx : l.eq
          · rfl
          · rw [hx] at hlf; simp at hlf
        rw [falsifies_iff]
        exact ⟨rfl, Or.inl ⟨rfl, by rw [hle]; simp⟩⟩
      have := (q3 k hk hkl).1
      unfold LF; simpa using this
    · omega
  · intro x hx hf
    rcases hrs l.var l.val hun with q | ⟨q, _⟩ | ⟨id', c, M, q1, q2, q3, q4, q5⟩
    · omega
    · omega
    · have : id' = id := by omega
      subst this
      rw [h2] at q2; cases q2
      rw [htoNat, hLi] at q3; cases q3
      refine (q5 x hx ?_).1
      rintro rfl
      exact hf hfL

/-- What `reasonOf` returns. -/
theorem reasonOf_ok {s : St S} {l : Lit} {r : List Lit} (h : reasonOf s l = .ok r) : ReasonFor s.tr s.lits? l r := by
  unfold reasonOf at h
  dsimp only at h
  split at h
  · rename_i h1
    split at h
    · simp at h
    · split at h
      · rename_i f hf
        simp only [Res.ok.injEq] at h
        exact Or.inl ⟨h1, f, hf, h.symm⟩
      · simp at h
  · split at h
    · rename_i h1
      simp only [Res.ok.injEq] at h
      exact Or.inr (Or.inl ⟨h1, h.symm⟩)
    · split at h
      · simp at h
      · split at h
        · rename_i h1 h2 h3 h4
          simp only [Res.ok.injEq] at h
          refine Or.inr (Or.inr ⟨(s.rsn l.var l.val).toNat, by show s.rsn l.var l.val = _; omega, ?_⟩)
          unfold St.lits?
          rw [if_pos h4, h]
        · simp at h

/-- Nothing is said about runs that leave the program's defined behaviour or do not stop. -/
def Res.Safe {α : Type} (x : Res α) (p : α → Prop) : Prop := ∀ a, x = .ok a → p a

theorem Res.Safe.bind {α β : Type} {x : Res α} {f : α → Res β} {p : α → Prop} {q : β → Prop} (h : x.Safe p)
    (hf : ∀ a, p a → (f a).Safe q) : (x >>= f).Safe q := by
  intro b hb
  cases x with
  | ok a => exact hf a (h a rfl) b hb
  | ub => simp at hb
  | fuel => simp at hb

theorem Res.Sat.safe {α : Type} {x : Res α} {p : α → Prop} (h : x.Sat p) : x.Safe p := by
  intro a ha; rw [ha] at h; exact h

theorem Res.safe_ok {α : Type} {a : α} {p : α → Prop} (h : p a) : (Res.ok a).Safe p := by
  intro b hb; cases hb; exact h

theorem Res.safe_ub {α : Type} {p : α → Prop} : (Res.ub : Res α).Safe p := by
  intro b hb; simp at hb

theorem Res.safe_fuel {α : Type} {p : α → Prop} : (Res.fuel : Res α).Safe p := by
  intro b hb; simp at hb

/-- What the clause returned by the analysis satisfies. -/
structure WLearned (s : St S) (c0 : Cls) (p0 : Option Nat) (c : Cls) (p : Option Nat) : Prop where
  fals : ∀ x ∈ c.lits, LF s.asg x
  entails : ∀ a, s.Model a → clauseHolds a c0.lits → clauseHolds a c.lits
  potent : c.lits.length = 1 ∨ (1 < c.lits.length ∧ countAtLevel s c.lits = 1)
  origin : (p = p0 ∧ c = c0) ∨ (p = none ∧ c.level = -1)

theorem analyze_safe (cfg : Cfg S) (hw : cfg.watch = false) (s : St S) (hb : s.tr.Base)
    (hrs : WReasons s.tr s.lits?) : ∀ (f : Nat) (c : Cls) (p : Option Nat), (∀ x ∈ c.lits, LF s.asg x) →
    (analyze cfg f s c p).Safe fun r => ∃ p', r.1 = learnClause cfg s r.2 p' ∧ WLearned s c p r.2 p'
  | 0, _, _, _ => Res.safe_fuel
  | f + 1, c, p, hc => by
    unfold analyze
    have hpot : potent cfg s c = .ok (decide (c.lits.length = 1) || decide (countAtLevel s c.lits = 1)) := by
      unfold potent
      by_cases h1 : c.lits.length = 1
      · rw [if_pos h1]; simp [h1]
      · rw [if_neg h1, if_neg (by simp [hw])]; simp [h1]
    rw [hpot]
    simp only [Res.ok_bind]
    split
    · rename_i hp
      have hp' : c.lits.length = 1 ∨ countAtLevel s c.lits = 1 := by simpa using hp
      apply Res.safe_ok
      refine ⟨p, rfl, hc, fun _ _ h => h, ?_, Or.inl ⟨rfl, rfl⟩⟩
      rcases hp' with h | h
      · exact Or.inl h
      · by_cases h1 : c.lits.length = 1
        · exact Or.inl h1
        · right
          refine ⟨?_, h⟩
          show 1 < c.lits.length
          have : countAtLevel s c.lits ≤ c.lits.length := List.countP_le_length
          omega
    · -- a resolution step
      have hlast : (lastFalse cfg s c).Safe fun l => l ∈ c.lits := by
        unfold lastFalse
        rw [if_neg (by simp [hw])]
        split
        · rename_i l hl
          exact Res.safe_ok (List.mem_of_getElem? hl)
        · exact Res.safe_ub
      refine Res.Safe.bind hlast fun l hl => ?_
      have hreas : (reasonOf s l).Safe fun r => ReasonFor s.tr s.lits? l r := fun r hr => reasonOf_ok hr
      refine Res.Safe.bind hreas fun r hr => ?_
      rw [if_neg (by simp [hw])]
      have hlits : (Cls.ofLits (resolve c.lits l r)).lits = resolve c.lits l r := rfl
      have hfr := reason_false hb hrs (hc l hl) hr
      intro q hq
      obtain ⟨p', h1, h2⟩ := analyze_safe cfg hw s hb hrs f (Cls.ofLits (resolve c.lits l r)) none (by
        intro x hx
        rw [hlits] at hx
        rcases mem_resolve.1 hx with ⟨hx, _⟩ | ⟨hx, hf⟩
        · exact hc x hx
        · exact hfr x hx hf) q hq
      refine ⟨p', h1, h2.fals, ?_, h2.potent, ?_⟩
      · intro a ha hc0
        apply h2.entails a ha
        rw [hlits]
        refine resolve_sound l hc0 (reason_holds hb (hc l hl) hr (fun h0 => ?_) ha)
        have h0 : s.tr.rsn l.var l.val = -2 := h0
        rcases hrs l.var l.val (LF_ne_un (hc l hl)) with q | ⟨_, _, _, q⟩ | ⟨id, _, _, q, _⟩
        · omega
        · exact q
        · omega
      · right
        rcases h2.origin with ⟨rfl, h⟩ | h
        · exact ⟨rfl, by rw [h]; rfl⟩
        · exact h

end Mvl
