import Verif.Proof.Undo

/-!
# Assigning a literal and propagating through the domain (`reduceTheory`)

Both engines run the same code with a different per-atom step; `reduceG` is that common code.
-/

namespace Mvl

variable {S : Type}

def excludeG (g : St S → Nat → Nat → Asg → St S) (v : Nat) (s : St S) (i : Nat) : St S :=
  if s.conflict then s else if s.asg v i = .un then g s v i .ne else s

def reduceEqG (g : St S → Nat → Nat → Asg → St S) (s : St S) (v d : Nat) : St S :=
  let s1 : St S := { s with decs := s.decs ++ [⟨v, d, true⟩], vval := upd s.vval v (some d) }
  let s2 := g s1 v d .eq
  let s3 := (List.range d).foldl (excludeG g v) s2
  (List.range' (d + 1) (s.dom v - (d + 1))).foldl (excludeG g v) s3

def reduceG (g : St S → Nat → Nat → Asg → St S) (s : St S) (l : Lit) : St S :=
  if l.eq then reduceEqG g s l.var l.val
  else
    let s1 : St S := { s with decs := s.decs ++ [⟨l.var, l.val, false⟩] }
    let s2 := g s1 l.var l.val .ne
    match checkEntail s2 l.var with
    | some e => reduceEqG g { s2 with nEntails := s2.nEntails + 1, unitClause := -2 } l.var e
    | none => s2

theorem reduceTheory_G (cfg : Cfg S) (s : St S) (l : Lit) :
    reduceTheory cfg s l = reduceG (assign1 cfg) s l := rfl
theorem wreduceTheory_G (s : St S) (l : Lit) :
    wreduceTheory s l = reduceG wassign1 s l := rfl

/-! ### checkEntail -/

theorem checkEntailLoop_spec (s : St S) (v : Nat) : ∀ (js : List Nat) (f : Option Nat), js.Nodup →
    (∀ x, f = some x → x ∉ js) →
    ((∃ e, checkEntailLoop s v js f = some e ∧
        ((f = some e ∧ ∀ j ∈ js, s.asg v j ≠ .un) ∨
         (f = none ∧ e ∈ js ∧ s.asg v e = .un ∧ ∀ j ∈ js, j ≠ e → s.asg v j ≠ .un))) ∨
     (checkEntailLoop s v js f = none ∧
        ((f = none ∧ ∀ j ∈ js, s.asg v j ≠ .un) ∨
         (∃ x ∈ js, s.asg v x = .un ∧ (f ≠ none ∨ ∃ y ∈ js, y ≠ x ∧ s.asg v y = .un)))))
  | [], f, _, _ => by
    cases f with
    | none => right; simp [checkEntailLoop]
    | some e => left; exact ⟨e, rfl, Or.inl ⟨rfl, by simp⟩⟩
  | j :: js, f, hnd, hf => by
    obtain ⟨hj, hnd⟩ := List.nodup_cons.1 hnd
    unfold checkEntailLoop
    by_cases hu : s.asg v j = .un
    · rw [if_pos hu]
      cases f with
      | none =>
        rcases checkEntailLoop_spec s v js (some j) hnd (by rintro x ⟨⟩; exact hj) with
          ⟨e, he, h⟩ | ⟨he, h⟩
        · left
          refine ⟨e, he, Or.inr ⟨rfl, ?_⟩⟩
          rcases h with ⟨h1, h2⟩ | ⟨h1, _⟩
          · cases h1
            refine ⟨by simp, hu, ?_⟩
            intro x hx hne
            rcases List.mem_cons.1 hx with rfl | hx
            · exact absurd rfl hne
            · exact h2 x hx
          · simp at h1
        · right
          refine ⟨he, Or.inr ?_⟩
          rcases h with ⟨h1, _⟩ | ⟨x, hx, hxu, _⟩
          · simp at h1
          · refine ⟨j, by simp, hu, Or.inr ⟨x, by simp [hx], ?_, hxu⟩⟩
            rintro rfl; exact hj hx
      | some f =>
        right
        exact ⟨rfl, Or.inr ⟨j, by simp, hu, Or.inl (by simp)⟩⟩
    · rw [if_neg hu]
      rcases checkEntailLoop_spec s v js f hnd (fun x hx hm => hf x hx (by simp [hm])) with
        ⟨e, he, h⟩ | ⟨he, h⟩
      · left
        refine ⟨e, he, ?_⟩
        rcases h with ⟨h1, h2⟩ | ⟨h1, h2, h3, h4⟩
        · left
          refine ⟨h1, ?_⟩
          intro x hx
          rcases List.mem_cons.1 hx with rfl | hx
          · exact hu
          · exact h2 x hx
        · right
          refine ⟨h1, by simp [h2], h3, ?_⟩
          intro x hx hne
          rcases List.mem_cons.1 hx with rfl | hx
          · exact hu
          · exact h4 x hx hne
      · right
        refine ⟨he, ?_⟩
        rcases h with ⟨h1, h2⟩ | ⟨x, hx, hxu, h3⟩
        · left
          refine ⟨h1, ?_⟩
          intro x hx
          rcases List.mem_cons.1 hx with rfl | hx
          · exact hu
          · exact h2 x hx
        · right
          refine ⟨x, by simp [hx], hxu, ?_⟩
          rcases h3 with h3 | ⟨y, hy, h4⟩
          · exact Or.inl h3
          · exact Or.inr ⟨y, by simp [hy], h4⟩

theorem checkEntail_some {s : St S} {v e : Nat} (h : checkEntail s v = some e) :
    e < s.dom v ∧ s.asg v e = .un ∧ ∀ j, j < s.dom v → j ≠ e → s.asg v j ≠ .un := by
  unfold checkEntail at h
  rcases checkEntailLoop_spec s v (List.range (s.dom v)) none List.nodup_range (by simp) with
    ⟨e', he, h'⟩ | ⟨he, _⟩
  · rw [h] at he; cases he
    rcases h' with ⟨h1, _⟩ | ⟨_, h2, h3, h4⟩
    · simp at h1
    · exact ⟨List.mem_range.1 h2, h3, fun j hj => h4 j (List.mem_range.2 hj)⟩
  · rw [h] at he; simp at he

theorem checkEntail_none {s : St S} {v : Nat} (h : checkEntail s v = none) :
    (∀ j, j < s.dom v → s.asg v j ≠ .un) ∨
    ∃ d e, d ≠ e ∧ d < s.dom v ∧ e < s.dom v ∧ s.asg v d = .un ∧ s.asg v e = .un := by
  unfold checkEntail at h
  rcases checkEntailLoop_spec s v (List.range (s.dom v)) none List.nodup_range (by simp) with
    ⟨e', he, h'⟩ | ⟨_, h'⟩
  · rw [h] at he; simp at he
  · rcases h' with ⟨_, h1⟩ | ⟨x, hx, hxu, h1⟩
    · left; exact fun j hj => h1 j (List.mem_range.2 hj)
    · right
      rcases h1 with h1 | ⟨y, hy, hyx, hyu⟩
      · simp at h1
      · exact ⟨x, y, Ne.symm hyx, List.mem_range.1 hx, List.mem_range.1 hy, hxu, hyu⟩

/-! ### Effect on the trail -/

/-- Zero or more further values of `v` excluded. -/
inductive Excl (v : Nat) (r : Int) (t : Trail) : Trail → Prop
  | refl : Excl v r t t
  | step {t' : Trail} {i : Nat} : Excl v r t t' → t'.asg v i = .un → i < t'.dom v →
      Excl v r t (t'.set v i .ne r)

/-- The trail after assigning `l` with reason `r`. -/
inductive Reduced (t : Trail) (l : Lit) (r : Int) : Trail → Prop
  | eq {t' : Trail} : l.eq = true → Excl l.var r (t.assignL l r) t' → Reduced t l r t'
  | ne : l.eq = false → Reduced t l r (t.assignL l r)
  | ent {e : Nat} : l.eq = false → e < t.dom l.var → (t.assignL l r).asg l.var e = .un →
      (∀ j, j < t.dom l.var → j ≠ e → (t.assignL l r).asg l.var j ≠ .un) →
      Reduced t l r ((t.assignL l r).assignL ⟨l.var, e, true⟩ (-2))

/-- What a per-atom step of an engine does to fields outside the trail. -/
structure Same (s s' : St S) : Prop where
  ncl : s'.ncl = s.ncl
  ptr : s'.ptr = s.ptr
  nheap : s'.nheap = s.nheap
  recs : s'.recs = s.recs
  score : s'.score = s.score
  nUnits : s'.nUnits = s.nUnits
  nBacktracks : s'.nBacktracks = s.nBacktracks
  nDecisions : s'.nDecisions = s.nDecisions
  nRestarts : s'.nRestarts = s.nRestarts
  ticks : s'.ticks = s.ticks
  flowOff : s'.flowOff = s.flowOff

theorem Same.refl (s : St S) : Same s s := ⟨rfl, rfl, rfl, rfl, rfl, rfl, rfl, rfl, rfl, rfl, rfl⟩

theorem Same.trans {s s' s'' : St S} (h1 : Same s s') (h2 : Same s' s'') : Same s s'' :=
  ⟨h2.1.trans h1.1, h2.2.trans h1.2, h2.3.trans h1.3, h2.4.trans h1.4, h2.5.trans h1.5,
   h2.6.trans h1.6, h2.7.trans h1.7, h2.8.trans h1.8, h2.9.trans h1.9, h2.10.trans h1.10, h2.11.trans h1.11⟩

/-- The facts about a per-atom step that do not depend on the engine. -/
structure StepG (g : St S → Nat → Nat → Asg → St S) : Prop where
  tr : ∀ s v d a, a ≠ .un → (g s v d a).tr = s.tr.set v d a s.unitClause
  unit : ∀ s v d a, (g s v d a).unitClause = s.unitClause
  ents : ∀ s v d a, (g s v d a).nEntails = s.nEntails
  same : ∀ s v d a, Same s (g s v d a)
  conf : ∀ s v d a, s.conflict = true → (g s v d a).conflict = true

theorem excl_trans {v : Nat} {r : Int} {t t' t'' : Trail} (h1 : Excl v r t t') (h2 : Excl v r t' t'') :
    Excl v r t t'' := by
  induction h2 with
  | refl => exact h1
  | step _ hx hy ih => exact .step ih hx hy

theorem exclude_fold {g : St S → Nat → Nat → Asg → St S} (hg : StepG g) (v : Nat) :
    ∀ (is : List Nat) (s : St S), (∀ i ∈ is, i < s.dom v) →
    Excl v s.unitClause s.tr (is.foldl (excludeG g v) s).tr ∧
    (is.foldl (excludeG g v) s).unitClause = s.unitClause ∧
    (is.foldl (excludeG g v) s).nEntails = s.nEntails ∧
    Same s (is.foldl (excludeG g v) s) ∧
    (s.conflict = true → (is.foldl (excludeG g v) s).conflict = true) ∧
    ((is.foldl (excludeG g v) s).conflict = false →
      (∀ i ∈ is, (is.foldl (excludeG g v) s).asg v i ≠ .un)) ∧
    (∀ v' d', s.asg v' d' ≠ .un → (is.foldl (excludeG g v) s).asg v' d' = s.asg v' d')
  | [], s, _ => ⟨.refl, rfl, rfl, Same.refl s, id, by simp, fun _ _ _ => rfl⟩
  | i :: is, s, his => by
    rw [List.foldl_cons]
    have hi := his i (by simp)
    have hstep : ∃ s', excludeG g v s i = s' ∧ s'.unitClause = s.unitClause ∧ s'.nEntails = s.nEntails ∧
        Same s s' ∧ (s.conflict = true → s'.conflict = true) ∧ s'.dom = s.dom ∧
        (s'.conflict = false → s'.asg v i ≠ .un) ∧
        (∀ v' d', s.asg v' d' ≠ .un → s'.asg v' d' = s.asg v' d') ∧
        (s'.tr = s.tr ∨ (s.asg v i = .un ∧ s'.tr = s.tr.set v i .ne s.unitClause)) := by
      refine ⟨_, rfl, ?_⟩
      unfold excludeG
      by_cases hc : s.conflict
      · rw [if_pos hc]
        exact ⟨rfl, rfl, Same.refl s, id, rfl, by rw [hc]; simp, fun _ _ _ => rfl, Or.inl rfl⟩
      · rw [if_neg hc]
        by_cases hu : s.asg v i = .un
        · rw [if_pos hu]
          have htr := hg.tr s v i .ne (by simp)
          have hasg : (g s v i .ne).asg = upd2 s.asg v i .ne := by
            have : (g s v i .ne).tr.asg = upd2 s.asg v i .ne := by rw [htr]; rfl
            exact this
          refine ⟨hg.unit _ _ _ _, hg.ents _ _ _ _, hg.same _ _ _ _, fun h => absurd h hc, ?_, ?_, ?_,
            Or.inr ⟨hu, htr⟩⟩
          · have : (g s v i .ne).tr.dom = s.dom := by rw [htr]; rfl
            exact this
          · intro _; rw [hasg]; simp
          · intro v' d' hne
            rw [hasg]; apply Trail.upd2_of_ne
            rintro ⟨rfl, rfl⟩; exact hne hu
        · rw [if_neg hu]
          exact ⟨rfl, rfl, Same.refl s, id, rfl, fun _ => hu, fun _ _ _ => rfl, Or.inl rfl⟩
    obtain ⟨s', hs', h1, h2, h3, h4, h5, h6, h7, h8⟩ := hstep
    rw [hs']
    obtain ⟨i1, i2, i3, i4, i5, i6, i7⟩ := exclude_fold hg v is s' (by rw [h5]; intro j hj; exact his j (by simp [hj]))
    refine ⟨?_, by rw [i2, h1], by rw [i3, h2], h3.trans i4, fun h => i5 (h4 h), ?_, ?_⟩
    · rw [h1] at i1
      have base : Excl v s.unitClause s.tr s'.tr := by
        rcases h8 with h8 | ⟨hu, h8⟩
        · rw [h8]; exact .refl
        · rw [h8]; exact .step .refl hu hi
      exact excl_trans base i1
    · intro hc j hj
      rcases List.mem_cons.1 hj with rfl | hj
      · have hc' : s'.conflict = false := by
          cases h : s'.conflict with
          | false => rfl
          | true => rw [i5 h] at hc; simp at hc
        rw [i7 v j (h6 hc')]; exact h6 hc'
      · exact i6 hc j hj
    · intro v' d' hne
      rw [i7 v' d' (by rw [h7 v' d' hne]; exact hne), h7 v' d' hne]

theorem excl_dom {v : Nat} {r : Int} {t t' : Trail} (h : Excl v r t t') : t'.dom = t.dom := by
  induction h with
  | refl => rfl
  | step _ _ _ ih => exact ih

theorem reduceEqG_trail {g : St S → Nat → Nat → Asg → St S} (hg : StepG g) (s : St S) (v d : Nat)
    (hd : d < s.dom v) :
    Excl v s.unitClause (s.tr.assignL ⟨v, d, true⟩ s.unitClause) (reduceEqG g s v d).tr ∧
    (reduceEqG g s v d).unitClause = s.unitClause ∧
    (reduceEqG g s v d).nEntails = s.nEntails ∧
    Same s (reduceEqG g s v d) ∧
    (s.conflict = true → (reduceEqG g s v d).conflict = true) ∧
    ((reduceEqG g s v d).conflict = false → ∀ i, i < s.dom v → (reduceEqG g s v d).asg v i ≠ .un) := by
  unfold reduceEqG
  dsimp only
  generalize hs1 : ({ s with decs := s.decs ++ [⟨v, d, true⟩], vval := upd s.vval v (some d) } : St S) = s1
  have h1tr : s1.tr.set v d .eq s1.unitClause = s.tr.assignL ⟨v, d, true⟩ s.unitClause := by
    subst hs1; rfl
  have htr := hg.tr s1 v d .eq (by simp)
  have hun1 : s1.unitClause = s.unitClause := by subst hs1; rfl
  have hsame1 : Same s s1 := by subst hs1; exact ⟨rfl, rfl, rfl, rfl, rfl, rfl, rfl, rfl, rfl, rfl, rfl⟩
  have hents1 : s1.nEntails = s.nEntails := by subst hs1; rfl
  have hc1 : s1.conflict = s.conflict := by subst hs1; rfl
  have hd1 : s1.dom = s.dom := by subst hs1; rfl
  rw [h1tr] at htr
  have hdom2 : (g s1 v d .eq).dom = s.dom := by
    have : (g s1 v d .eq).tr.dom = s.dom := by rw [htr]; rfl
    exact this
  have hasg2 : (g s1 v d .eq).asg v d = .eq := by
    have : (g s1 v d .eq).tr.asg v d = .eq := by rw [htr]; simp [Trail.assignL, Trail.set]
    exact this
  obtain ⟨a1, a2, a3, a4, a5, a6, a7⟩ := exclude_fold hg v (List.range d) (g s1 v d .eq)
    (by rw [hdom2]; intro i hi; have := List.mem_range.1 hi; omega)
  generalize (List.range d).foldl (excludeG g v) (g s1 v d .eq) = s3 at *
  have hdom3 : s3.dom = s.dom := by
    have := excl_dom a1
    rw [htr] at this
    exact this
  obtain ⟨b1, b2, b3, b4, b5, b6, b7⟩ := exclude_fold hg v (List.range' (d + 1) (s.dom v - (d + 1))) s3
    (by rw [hdom3]; intro i hi; have := List.mem_range'_1.1 hi; omega)
  generalize (List.range' (d + 1) (s.dom v - (d + 1))).foldl (excludeG g v) s3 = s4 at *
  have hu3 : s3.unitClause = s.unitClause := by rw [a2, hg.unit, hun1]
  rw [hu3] at b1
  rw [hg.unit, hun1, htr] at a1
  refine ⟨excl_trans a1 b1, by rw [b2, hu3], by rw [b3, a3, hg.ents, hents1],
    (hsame1.trans (hg.same _ _ _ _)).trans (a4.trans b4), ?_, ?_⟩
  · intro h; exact b5 (a5 (hg.conf _ _ _ _ (by rw [hc1]; exact h)))
  · intro hc i hi
    have hc3 : s3.conflict = false := by
      cases h : s3.conflict with
      | false => rfl
      | true => rw [b5 h] at hc; simp at hc
    rcases Nat.lt_trichotomy i d with h | h | h
    · have := a6 hc3 i (List.mem_range.2 h)
      rw [b7 v i this]; exact this
    · subst h
      have h3 : s3.asg v i = .eq := by rw [a7 v i (by rw [hasg2]; simp)]; exact hasg2
      rw [b7 v i (by rw [h3]; simp), h3]; simp
    · exact b6 hc i (List.mem_range'_1.2 ⟨by omega, by omega⟩)

theorem excl_noop {v : Nat} {r : Int} {t t' : Trail} (h : Excl v r t t')
    (hall : ∀ i, i < t.dom v → t.asg v i ≠ .un) : t' = t := by
  induction h with
  | refl => rfl
  | step h' hx hy ih =>
    rw [ih] at hx hy
    exact absurd hx (hall _ hy)

/-- The complete effect of `reduceTheory` on the trail. -/
theorem reduceG_trail {g : St S → Nat → Nat → Asg → St S} (hg : StepG g) (s : St S) (l : Lit)
    (hd : l.val < s.dom l.var) (hu : LU s.asg l) :
    Reduced s.tr l s.unitClause (reduceG g s l).tr ∧ Same s (reduceG g s l) ∧
    ((reduceG g s l).conflict = false → s.conflict = false ∧
      (l.eq = true → ∀ i, i < s.dom l.var → (reduceG g s l).asg l.var i ≠ .un) ∧
      (l.eq = false → ((∀ j, j < s.dom l.var → (reduceG g s l).asg l.var j ≠ .un) ∨
         ∃ d e, d ≠ e ∧ d < s.dom l.var ∧ e < s.dom l.var ∧
           (reduceG g s l).asg l.var d = .un ∧ (reduceG g s l).asg l.var e = .un))) := by
  unfold reduceG
  by_cases he : l.eq = true
  · rw [if_pos he]
    obtain ⟨h1, h2, h3, h4, h5, h6⟩ := reduceEqG_trail hg s l.var l.val hd
    have hl : (⟨l.var, l.val, true⟩ : Lit) = l := by cases l; simp at he; simp [he]
    rw [hl] at h1
    refine ⟨.eq he h1, h4, ?_⟩
    intro hc
    refine ⟨?_, fun _ => h6 hc, by simp [he]⟩
    cases h : s.conflict with
    | false => rfl
    | true => rw [h5 h] at hc; simp at hc
  · have he' : l.eq = false := by simpa using he
    rw [if_neg he]
    dsimp only
    have hl : (⟨l.var, l.val, false⟩ : Lit) = l := by cases l; simp at he; simp [he]
    generalize hs1 : ({ s with decs := s.decs ++ [⟨l.var, l.val, false⟩] } : St S) = s1
    have htr := hg.tr s1 l.var l.val .ne (by simp)
    have h1tr : s1.tr.set l.var l.val .ne s1.unitClause = s.tr.assignL l s.unitClause := by
      subst hs1
      unfold Trail.assignL
      rw [he', hl]; rfl
    rw [h1tr] at htr
    have hsame1 : Same s s1 := by subst hs1; exact ⟨rfl, rfl, rfl, rfl, rfl, rfl, rfl, rfl, rfl, rfl, rfl⟩
    have hc1 : s1.conflict = s.conflict := by subst hs1; rfl
    have hsame2 := hsame1.trans (hg.same s1 l.var l.val .ne)
    have hconf := hg.conf s1 l.var l.val .ne
    generalize g s1 l.var l.val .ne = s2 at *
    have hdom2 : s2.dom = s.dom := by
      have : s2.tr.dom = s.dom := by rw [htr]; rfl
      exact this
    have hasg2 : s2.asg = (s.tr.assignL l s.unitClause).asg := by
      have : s2.tr.asg = (s.tr.assignL l s.unitClause).asg := by rw [htr]
      exact this
    cases hent : checkEntail s2 l.var with
    | none =>
      refine ⟨by rw [htr]; exact .ne he', hsame2, ?_⟩
      intro hc
      refine ⟨?_, by simp [he], fun _ => ?_⟩
      · cases h : s.conflict with
        | false => rfl
        | true => rw [hconf (by rw [hc1]; exact h)] at hc; simp at hc
      · have := checkEntail_none hent
        rw [hdom2] at this
        exact this
    | some e =>
      obtain ⟨e1, e2, e3⟩ := checkEntail_some hent
      rw [hdom2] at e1 e3
      dsimp only
      generalize hs3 : ({ s2 with nEntails := s2.nEntails + 1, unitClause := -2 } : St S) = s3
      have htr3 : s3.tr = s.tr.assignL l s.unitClause := by subst hs3; exact htr
      have hdom3 : s3.dom = s.dom := by subst hs3; exact hdom2
      have hu3 : s3.unitClause = -2 := by subst hs3; rfl
      have hc3 : s3.conflict = s2.conflict := by subst hs3; rfl
      have hsame3 : Same s2 s3 := by subst hs3; exact ⟨rfl, rfl, rfl, rfl, rfl, rfl, rfl, rfl, rfl, rfl, rfl⟩
      obtain ⟨h1, h2, h3, h4, h5, h6⟩ := reduceEqG_trail hg s3 l.var e (by rw [hdom3]; exact e1)
      rw [htr3, hu3] at h1
      have hno := excl_noop h1 (by
        intro i hi
        by_cases hie : i = e
        · subst hie; simp [Trail.assignL, Trail.set]
        · have : ((s.tr.assignL l s.unitClause).assignL ⟨l.var, e, true⟩ (-2)).asg l.var i =
              (s.tr.assignL l s.unitClause).asg l.var i := Trail.upd2_of_ne _ _ (by simp [hie])
          rw [this, ← hasg2]
          exact e3 i hi hie)
      refine ⟨?_, (hsame2.trans hsame3).trans h4, ?_⟩
      · rw [hno]
        rw [hasg2] at e2 e3
        exact .ent he' e1 e2 e3
      · intro hc
        refine ⟨?_, by simp [he], fun _ => Or.inl ?_⟩
        · cases h : s.conflict with
          | false => rfl
          | true => rw [h5 (by rw [hc3]; exact hconf (by rw [hc1]; exact h))] at hc; simp at hc
        · rw [hdom3] at h6; exact h6 hc

/-! ### Induction over the per-atom steps, for engine invariants -/

/-- Invariants that ignore statistics and survive longer stacks are preserved by `reduceTheory` if preserved by each
per-atom step. -/
theorem reduceG_inv' {g : St S → Nat → Nat → Asg → St S} {I : St S → Prop}
    (hframe : ∀ (s : St S) ds vv u n, s.decs.length ≤ ds.length → I s → I { s with decs := ds, vval := vv, unitClause := u, nEntails := n })
    (hstep : ∀ s v d a, a ≠ .un → I s → s.asg v d = .un → I (g s v d a))
    (s : St S) (l : Lit) (hu : LU s.asg l) (hI : I s) : I (reduceG g s l) := by
  have hex : ∀ (v : Nat) (is : List Nat) (s : St S), I s → I (is.foldl (excludeG g v) s) := by
    intro v is
    induction is with
    | nil => exact fun s h => h
    | cons i is ih =>
      intro s h
      rw [List.foldl_cons]
      apply ih
      unfold excludeG
      split
      · exact h
      · split
        · rename_i hu; exact hstep s v i .ne (by simp) h hu
        · exact h
  have heq : ∀ (s : St S) (v d : Nat), s.asg v d = .un → I s → I (reduceEqG g s v d) := by
    intro s v d hu h
    unfold reduceEqG
    dsimp only
    apply hex
    apply hex
    apply hstep _ _ _ _ (by simp)
    · exact hframe s _ _ s.unitClause s.nEntails (by simp) h
    · exact hu
  unfold reduceG
  split
  · exact heq s _ _ hu hI
  · dsimp only
    have h2 : I (g { s with decs := s.decs ++ [⟨l.var, l.val, false⟩] } l.var l.val .ne) :=
      hstep _ _ _ _ (by simp) (hframe s _ s.vval s.unitClause s.nEntails (by simp) hI) hu
    split
    · rename_i e he
      apply heq
      · exact (checkEntail_some he).2.1
      · exact hframe _ _ _ _ _ (Nat.le_refl _) h2
    · exact h2

/-- Invariants that ignore stacks and statistics are preserved by `reduceTheory` if preserved by each
per-atom step. -/
theorem reduceG_inv {g : St S → Nat → Nat → Asg → St S} {I : St S → Prop}
    (hframe : ∀ (s : St S) ds vv u n, I s → I { s with decs := ds, vval := vv, unitClause := u, nEntails := n })
    (hstep : ∀ s v d a, a ≠ .un → I s → s.asg v d = .un → I (g s v d a))
    (s : St S) (l : Lit) (hu : LU s.asg l) (hI : I s) : I (reduceG g s l) :=
  reduceG_inv' (fun s ds vv u n _ => hframe s ds vv u n) hstep s l hu hI

end Mvl
