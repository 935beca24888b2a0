import Verif.Proof.DCounter

/-!
# Undoing assignments when clause objects may be shared
-/

namespace Mvl

variable {S : Type}

/-! ### addLiteral -/

theorem addOne_heap (cfg : Cfg S) (l : Lit) (s : St S) (id p : Nat) :
    (addOne cfg l s id).heap p =
      if p = s.ptr id ∧ (s.heap p).level = -1 then { s.heap p with numUn := (s.heap p).numUn + 1 }
      else s.heap p := by
  obtain ⟨c, hc⟩ := addOne_eq cfg l s id
  rw [hc]
  have hcl : s.cl id = s.heap (s.ptr id) := rfl
  by_cases hl : (s.cl id).level = -1
  · rw [if_pos hl]
    show (s.setCl id _).heap p = _
    rw [heap_setCl]
    by_cases hp : p = s.ptr id
    · subst hp; rw [hcl] at hl; simp [hl, hcl]
    · simp [hp]
  · rw [if_neg hl]
    by_cases hp : p = s.ptr id
    · subst hp; rw [hcl] at hl; simp [hl]
    · simp [hp]

theorem addFold_heap (cfg : Cfg S) (l : Lit) : ∀ (ids : List Nat) (s : St S) (p : Nat),
    (ids.foldl (addOne cfg l) s).heap p =
      if (s.heap p).level = -1 then { s.heap p with numUn := (s.heap p).numUn + (ids.map s.ptr).count p }
      else s.heap p
  | [], s, p => by split <;> simp
  | id :: ids, s, p => by
    rw [List.foldl_cons, addFold_heap cfg l ids, addOne_heap]
    obtain ⟨_, _, he⟩ := addOne_frame cfg l s id
    have hptr : (addOne cfg l s id).ptr = s.ptr := by rw [he]
    rw [hptr]
    by_cases hp : p = s.ptr id
    · subst hp
      by_cases hl : (s.heap (s.ptr id)).level = -1
      · simp only [hl, and_self, if_true, List.map_cons, List.count_cons_self, Cls.mk.injEq, and_true, true_and]
        omega
      · simp [hl]
    · have : (List.map s.ptr (id :: ids)).count p = (ids.map s.ptr).count p := by
        rw [List.map_cons, List.count_cons]; simp [Ne.symm hp]
      simp only [hp, false_and, if_false, this]

/-- Records, over the atoms `as`, of the object `p` under literals made false above level `k`. -/
def addSumP (s : St S) (k : Int) (p : Nat) : List (Nat × Nat) → Nat
  | [] => 0
  | a :: as => (if s.lvl a.1 a.2 > k then ((s.recs (falseLit s.asg a)).map s.ptr).count p else 0) +
      addSumP s k p as

theorem addSumP_frame {s s' : St S} (hf : FrameH s s') (k : Int) (p : Nat) : ∀ as,
    addSumP s' k p as = addSumP s k p as
  | [] => rfl
  | a :: as => by
    unfold addSumP
    rw [addSumP_frame hf k p as]
    obtain ⟨_, _, rfl⟩ := hf
    rfl

theorem addSumP_good {G : Nat → Prop} {s : St S} (hs : DStore G s) (k : Int) {j : Nat} (hj : j < s.ncl) (hg : G j) :
    ∀ as, addSumP s k (s.ptr j) as = addSum s.asg s.lvl k (s.cl j).lits as
  | [] => rfl
  | a :: as => by
    unfold addSumP addSum
    rw [addSumP_good hs k hj hg as, hs.count hj hg]

theorem undoAdd_fold_heap (cfg : Cfg S) (k : Int) : ∀ (as : List (Nat × Nat)) (s : St S),
    FrameH s (as.foldl (undoAdd cfg k) s) ∧
    ∀ p, (as.foldl (undoAdd cfg k) s).heap p =
      if (s.heap p).level = -1 then { s.heap p with numUn := (s.heap p).numUn + addSumP s k p as }
      else s.heap p
  | [], s => ⟨FrameH.refl s, fun p => by split <;> simp [addSumP]⟩
  | a :: as, s => by
    rw [List.foldl_cons]
    have hfr := undoAdd_frame cfg k s a
    obtain ⟨h1, h2⟩ := undoAdd_fold_heap cfg k as (undoAdd cfg k s a)
    refine ⟨hfr.trans h1, ?_⟩
    intro p
    rw [h2 p, addSumP_frame hfr]
    have hcl : (undoAdd cfg k s a).heap p =
        if (s.heap p).level = -1 then { s.heap p with numUn := (s.heap p).numUn +
          (if s.lvl a.1 a.2 > k then ((s.recs (falseLit s.asg a)).map s.ptr).count p else 0 : Nat) }
        else s.heap p := by
      rw [undoAdd_eq]
      by_cases hl : s.lvl a.1 a.2 > k
      · simp only [hl, if_true]
        exact addFold_heap cfg _ _ s p
      · simp only [hl, if_false]
        split <;> simp
    rw [hcl]
    by_cases hl : (s.heap p).level = -1
    · simp only [hl, if_true, addSumP, Cls.mk.injEq, and_true, true_and]
      omega
    · simp only [hl, if_false]

/-! ### unsatisfyClauses -/

theorem unsatLit_fold_heap (cfg : Cfg S) (k : Int) (id : Nat) : ∀ (ls : List Lit) (s : St S),
    FrameH s (ls.foldl (unsatLit cfg k id) s) ∧
    ∀ p, (ls.foldl (unsatLit cfg k id) s).heap p =
      if p = s.ptr id then { s.heap p with numUn := (s.heap p).numUn + opens s.asg s.lvl k ls } else s.heap p
  | [], s => ⟨FrameH.refl s, fun p => by split <;> simp [opens]⟩
  | l :: ls, s => by
    rw [List.foldl_cons]
    obtain ⟨c, hc⟩ := unsatLit_eq cfg k id s l
    have hfr : FrameH s (unsatLit cfg k id s l) := by
      rw [hc]; split
      · exact ⟨_, _, rfl⟩
      · exact FrameH.refl s
    have hcl : ∀ p, (unsatLit cfg k id s l).heap p =
        if p = s.ptr id then { s.heap p with numUn := (s.heap p).numUn +
          (if s.lvl l.var l.val > k ∨ s.asg l.var l.val = .un then 1 else 0 : Nat) } else s.heap p := by
      intro p
      rw [hc]
      by_cases hl : s.lvl l.var l.val > k ∨ s.asg l.var l.val = .un
      · rw [if_pos hl]
        show (s.setCl id _).heap p = _
        rw [heap_setCl]
        by_cases hp : p = s.ptr id
        · subst hp; simp [hl, St.cl]
        · simp [hp]
      · rw [if_neg hl]
        by_cases hp : p = s.ptr id
        · subst hp; simp [hl]
        · simp [hp]
    have hfr' := hfr
    obtain ⟨_, _, he⟩ := hfr'
    have hptr : (unsatLit cfg k id s l).ptr = s.ptr := by rw [he]
    have hasg : (unsatLit cfg k id s l).asg = s.asg := by rw [he]
    have hlvl : (unsatLit cfg k id s l).lvl = s.lvl := by rw [he]
    obtain ⟨h1, h2⟩ := unsatLit_fold_heap cfg k id ls (unsatLit cfg k id s l)
    refine ⟨hfr.trans h1, ?_⟩
    intro p
    rw [h2 p, hcl p, hasg, hlvl, hptr]
    by_cases hp : p = s.ptr id
    · simp only [hp, if_true, opens, List.countP_cons, Cls.mk.injEq, and_true, true_and,
        decide_eq_true_eq]
      omega
    · simp only [hp, if_false]

theorem unsatOne_heap (cfg : Cfg S) (k : Int) (s : St S) (id : Nat) :
    FrameH s (unsatOne cfg k s id) ∧
    ∀ p, (unsatOne cfg k s id).heap p =
      if p = s.ptr id ∧ (s.heap p).level > k then
        { s.heap p with numUn := (s.heap p).numUn + opens s.asg s.lvl k (s.heap p).lits, level := -1 }
      else s.heap p := by
  unfold unsatOne
  have hcl0 : s.cl id = s.heap (s.ptr id) := rfl
  by_cases hl : (s.cl id).level > k
  · rw [if_pos hl]
    obtain ⟨h1, h2⟩ := unsatLit_fold_heap cfg k id (s.cl id).lits s
    dsimp only
    refine ⟨h1.trans ⟨_, _, rfl⟩, ?_⟩
    intro p
    have h1' := h1
    obtain ⟨_, _, he⟩ := h1'
    have hptr : ((s.cl id).lits.foldl (unsatLit cfg k id) s).ptr = s.ptr := by rw [he]
    rw [heap_setCl, h2 p]
    have hcl : ((s.cl id).lits.foldl (unsatLit cfg k id) s).cl id =
        { s.heap (s.ptr id) with numUn := (s.heap (s.ptr id)).numUn + opens s.asg s.lvl k (s.cl id).lits } := by
      show ((s.cl id).lits.foldl (unsatLit cfg k id) s).heap (((s.cl id).lits.foldl (unsatLit cfg k id) s).ptr id) = _
      rw [hptr, h2, if_pos rfl]
    rw [hcl, hptr]
    by_cases hp : p = s.ptr id
    · subst hp; rw [hcl0] at hl; simp [hl, hcl0]
    · simp [hp]
  · rw [if_neg hl]
    refine ⟨FrameH.refl s, ?_⟩
    intro p
    by_cases hp : p = s.ptr id
    · subst hp; rw [hcl0] at hl; simp [hl]
    · simp [hp]

theorem unsatFold_heap (cfg : Cfg S) {k : Int} (hk : -1 ≤ k) : ∀ (ids : List Nat) (s : St S),
    FrameH s (ids.foldl (unsatOne cfg k) s) ∧
    ∀ p, (ids.foldl (unsatOne cfg k) s).heap p =
      if p ∈ ids.map s.ptr ∧ (s.heap p).level > k then
        { s.heap p with numUn := (s.heap p).numUn + opens s.asg s.lvl k (s.heap p).lits, level := -1 }
      else s.heap p
  | [], s => ⟨FrameH.refl s, fun p => by simp⟩
  | id :: ids, s => by
    rw [List.foldl_cons]
    obtain ⟨hfr, hcl⟩ := unsatOne_heap cfg k s id
    have hfr' := hfr
    obtain ⟨_, _, he⟩ := hfr'
    have hptr : (unsatOne cfg k s id).ptr = s.ptr := by rw [he]
    have hasg : (unsatOne cfg k s id).asg = s.asg := by rw [he]
    have hlvl : (unsatOne cfg k s id).lvl = s.lvl := by rw [he]
    obtain ⟨h1, h2⟩ := unsatFold_heap cfg hk ids (unsatOne cfg k s id)
    refine ⟨hfr.trans h1, ?_⟩
    intro p
    rw [h2 p, hcl p, hasg, hlvl, hptr]
    by_cases hp : p = s.ptr id
    · subst hp
      by_cases hl : (s.heap (s.ptr id)).level > k
      · simp only [hl, and_self, if_true, List.map_cons, List.mem_cons, true_or]
        rw [if_neg]
        intro h; have := h.2; omega
      · simp [hl]
    · simp [hp]

/-! ### Second loop of undoTheory -/

theorem undoUnsat_step_heap (cfg : Cfg S) {k : Int} (hk : -1 ≤ k) {G : Nat → Prop} {s : St S} (hs : DStore G s)
    (a : Nat × Nat) :
    FrameU s (undoUnsat cfg k s a) ∧ (undoUnsat cfg k s a).tr = Trail.undo1 k s.tr a ∧
    ∀ j, j < s.ncl → (undoUnsat cfg k s a).cl j =
      if (s.lvl a.1 a.2 > k ∧ trueLit s.asg a ∈ (s.cl j).lits) ∧ (s.cl j).level > k then
        { s.cl j with numUn := (s.cl j).numUn + opens s.asg s.lvl k (s.cl j).lits, level := -1 }
      else s.cl j := by
  rw [undoUnsat_eq]
  by_cases hl : s.lvl a.1 a.2 > k
  · rw [if_pos hl]
    obtain ⟨h1, h2⟩ := unsatFold_heap cfg hk (s.recs (trueLit s.asg a)) s
    dsimp only
    have htr : Trail.undo1 k s.tr a = { s.tr with
      lvl := upd2 s.lvl a.1 a.2 (-10)
      asg := upd2 s.asg a.1 a.2 .un
      rsn := upd2 s.rsn a.1 a.2 (-10)
      vval := upd s.vval a.1 none } := by unfold Trail.undo1; rw [if_pos (show s.tr.lvl a.1 a.2 > k from hl)]; rfl
    refine ⟨h1.toU.trans ⟨_, _, _, _, _, _, _, rfl⟩, ?_, ?_⟩
    · rw [htr]
      obtain ⟨hp, c, he⟩ := h1
      unfold unsatisfyClauses
      rw [he]; rfl
    · intro j hj
      have hptr : ((s.recs (trueLit s.asg a)).foldl (unsatOne cfg k) s).ptr = s.ptr := by
        obtain ⟨_, _, he⟩ := h1; rw [he]
      have := h2 (s.ptr j)
      simp only [hs.mem_ptr hj] at this
      simp only [hl, true_and]
      show ((s.recs (trueLit s.asg a)).foldl (unsatOne cfg k) s).heap
        (((s.recs (trueLit s.asg a)).foldl (unsatOne cfg k) s).ptr j) = _
      rw [hptr]
      exact this
  · rw [if_neg hl]
    refine ⟨FrameU.refl s, ?_, ?_⟩
    · unfold Trail.undo1; rw [if_neg]; exact hl
    · intro j _; simp [hl]

theorem DStore.frameU {G : Nat → Prop} {s s' : St S} (h : DStore G s) (hf : FrameU s s')
    (hl : ∀ j, j < s.ncl → (s'.cl j).lits = (s.cl j).lits) : DStore G s' := by
  obtain ⟨hp, c, g, lv, r, vv, ds, rfl⟩ := hf
  exact h.frame rfl rfl rfl rfl hl

theorem undoUnsat_fold_cl (cfg : Cfg S) {k : Int} (hk : -1 ≤ k) {G : Nat → Prop} : ∀ (as : List (Nat × Nat)) (s : St S),
    as.Nodup → DStore G s →
    FrameU s (as.foldl (undoUnsat cfg k) s) ∧
    (as.foldl (undoUnsat cfg k) s).tr = as.foldl (Trail.undo1 k) s.tr ∧
    ∀ j, j < s.ncl → (as.foldl (undoUnsat cfg k) s).cl j =
      if (∃ a ∈ as, s.lvl a.1 a.2 > k ∧ trueLit s.asg a ∈ (s.cl j).lits) ∧ (s.cl j).level > k then
        { s.cl j with numUn := (s.cl j).numUn + opens s.asg s.lvl k (s.cl j).lits, level := -1 }
      else s.cl j
  | [], s, _, _ => ⟨FrameU.refl s, rfl, fun j _ => by simp⟩
  | a :: as, s, hnd, hs => by
    rw [List.foldl_cons, List.foldl_cons]
    obtain ⟨ha, hnd⟩ := List.nodup_cons.1 hnd
    obtain ⟨hfr, htr, hcl⟩ := undoUnsat_step_heap cfg hk hs a
    have hlits : ∀ j, j < s.ncl → ((undoUnsat cfg k s a).cl j).lits = (s.cl j).lits := by
      intro j hj; rw [hcl j hj]; split <;> rfl
    have hs1 := hs.frameU hfr hlits
    obtain ⟨h1, h2, h3⟩ := undoUnsat_fold_cl cfg hk as (undoUnsat cfg k s a) hnd hs1
    refine ⟨hfr.trans h1, by rw [h2, htr], ?_⟩
    intro j hj
    obtain ⟨_, _, _, _, _, _, _, he⟩ := hfr
    have hncl : (undoUnsat cfg k s a).ncl = s.ncl := by rw [he]
    have hasg' : (undoUnsat cfg k s a).asg = (Trail.undo1 k s.tr a).asg := by rw [← htr]; rfl
    have hlvl' : (undoUnsat cfg k s a).lvl = (Trail.undo1 k s.tr a).lvl := by rw [← htr]; rfl
    have hasg : ∀ v d, (v, d) ≠ a → (undoUnsat cfg k s a).asg v d = s.asg v d := by
      intro v d hne
      rw [hasg']; unfold Trail.undo1
      split
      · exact Trail.upd2_of_ne _ _ (fun h => hne (by rw [h.1, h.2]))
      · rfl
    have hlvl : ∀ v d, (v, d) ≠ a → (undoUnsat cfg k s a).lvl v d = s.lvl v d := by
      intro v d hne
      rw [hlvl']; unfold Trail.undo1
      split
      · exact Trail.upd2_of_ne _ _ (fun h => hne (by rw [h.1, h.2]))
      · rfl
    have hop : ∀ c, opens (undoUnsat cfg k s a).asg (undoUnsat cfg k s a).lvl k c =
        opens s.asg s.lvl k c := by
      intro c
      unfold opens
      apply List.countP_congr
      intro l _
      simp only [decide_eq_true_eq]
      by_cases hla : (l.var, l.val) = a
      · subst hla
        rw [hasg', hlvl']
        unfold Trail.undo1
        split
        · rename_i hgt; simp; left; exact hgt
        · exact Iff.rfl
      · rw [hasg _ _ hla, hlvl _ _ hla]
    have hex : (∃ b ∈ as, (undoUnsat cfg k s a).lvl b.1 b.2 > k ∧
        trueLit (undoUnsat cfg k s a).asg b ∈ (s.cl j).lits) ↔
        ∃ b ∈ as, s.lvl b.1 b.2 > k ∧ trueLit s.asg b ∈ (s.cl j).lits := by
      constructor
      · rintro ⟨b, hb, h4, h5⟩
        have hba : (b.1, b.2) ≠ a := by rintro rfl; exact ha hb
        rw [hlvl _ _ hba] at h4
        unfold trueLit at *
        rw [hasg _ _ hba] at h5
        exact ⟨b, hb, h4, h5⟩
      · rintro ⟨b, hb, h4, h5⟩
        have hba : (b.1, b.2) ≠ a := by rintro rfl; exact ha hb
        refine ⟨b, hb, by rw [hlvl _ _ hba]; exact h4, ?_⟩
        unfold trueLit at *
        rw [hasg _ _ hba]; exact h5
    rw [h3 j (by rw [hncl]; exact hj), hlits j hj]
    simp only [hex, hop]
    rw [hcl j hj]
    by_cases hc : (s.lvl a.1 a.2 > k ∧ trueLit s.asg a ∈ (s.cl j).lits) ∧ (s.cl j).level > k
    · rw [if_pos hc, if_neg (by intro h; have := h.2; dsimp only at this; omega), if_pos ⟨⟨a, by simp, hc.1⟩, hc.2⟩]
    · rw [if_neg hc]
      by_cases hl : (s.cl j).level > k
      · have hc' : ¬ (s.lvl a.1 a.2 > k ∧ trueLit s.asg a ∈ (s.cl j).lits) := fun h => hc ⟨h, hl⟩
        simp only [hl, and_true, List.mem_cons, exists_eq_or_imp, hc', false_or]
      · simp [hl]

/-! ### undoTheory -/

/-- What `undoTheory` does: the trail is cut back, marks (and the counters of unshared clauses) are
right for it, nothing else changes. -/
structure DUndone (G : Nat → Prop) (s : St S) (k : Int) (s' : St S) : Prop where
  frame : FrameU s s'
  tr    : s'.tr = s.tr.undo k
  lits  : ∀ j, j < s.ncl → (s'.cl j).lits = (s.cl j).lits
  mark : ∀ j, j < s.ncl → Mark s'.asg s'.lvl (s'.cl j)
  num : ∀ j, j < s.ncl → G j → Num s'.asg (s'.cl j)
  store : DStore G s'

theorem undoTheory_D (cfg : Cfg S) {G : Nat → Prop} {s : St S} {k K : Int} (hk : -1 ≤ k) (hb : (s.tr.level K).Base)
    (hs : DStore G s) (hex : ∀ j, j < s.ncl → Mark s.asg s.lvl (s.cl j))
    (hnum : ∀ j, j < s.ncl → G j → Num s.asg (s.cl j)) :
    DUndone G s k (undoTheory cfg s k) := by
  obtain ⟨a2, a3'⟩ := undoAdd_fold_heap cfg k s.atoms s
  have a2' := a2
  obtain ⟨hp, cc, he⟩ := a2'
  have hatoms : (s.atoms.foldl (undoAdd cfg k) s).atoms = s.atoms := by rw [he]; rfl
  have hasg1 : (s.atoms.foldl (undoAdd cfg k) s).asg = s.asg := by rw [he]
  have hlvl1 : (s.atoms.foldl (undoAdd cfg k) s).lvl = s.lvl := by rw [he]
  have hncl1 : (s.atoms.foldl (undoAdd cfg k) s).ncl = s.ncl := by rw [he]
  have hptr1 : (s.atoms.foldl (undoAdd cfg k) s).ptr = s.ptr := by rw [he]
  have htr1 : (s.atoms.foldl (undoAdd cfg k) s).tr = s.tr := by rw [he]; rfl
  have a3 : ∀ j, (s.atoms.foldl (undoAdd cfg k) s).cl j =
      if (s.cl j).level = -1 then { s.cl j with numUn := (s.cl j).numUn + addSumP s k (s.ptr j) s.atoms }
      else s.cl j := by
    intro j
    show (s.atoms.foldl (undoAdd cfg k) s).heap ((s.atoms.foldl (undoAdd cfg k) s).ptr j) = _
    rw [hptr1]; exact a3' (s.ptr j)
  have a1 : DStore G (s.atoms.foldl (undoAdd cfg k) s) := by
    refine hs.frameU a2.toU (fun j _ => ?_)
    rw [a3]; split <;> rfl
  obtain ⟨b1, b2, b3⟩ := undoUnsat_fold_cl cfg hk s.atoms (s.atoms.foldl (undoAdd cfg k) s)
    (nodup_atoms s) a1
  rw [htr1, Trail.undo1_all hb (by omega)] at b2
  rw [hasg1, hlvl1, hncl1] at b3
  have hun : undoTheory cfg s k =
      { s.atoms.foldl (undoUnsat cfg k) (s.atoms.foldl (undoAdd cfg k) s) with
        decs := undoDecs (s.atoms.foldl (undoUnsat cfg k) (s.atoms.foldl (undoAdd cfg k) s))
          (s.atoms.foldl (undoUnsat cfg k) (s.atoms.foldl (undoAdd cfg k) s)).decs.length
          (s.atoms.foldl (undoUnsat cfg k) (s.atoms.foldl (undoAdd cfg k) s)).decs } := by
    unfold undoTheory
    dsimp only
    rw [hatoms]
  generalize hs2 : s.atoms.foldl (undoUnsat cfg k) (s.atoms.foldl (undoAdd cfg k) s) = s2 at *
  have hdecs2 : s2.decs = s.decs := by
    have : s2.tr.decs = s.decs := by rw [b2]
    exact this
  have hasg2 : s2.asg = (s.tr.undo k).asg := by
    have : s2.tr.asg = (s.tr.undo k).asg := by rw [b2]
    exact this
  have hlvl2 : s2.lvl = (s.tr.undo k).lvl := by
    have : s2.tr.lvl = (s.tr.undo k).lvl := by rw [b2]
    exact this
  have hfr : FrameU s (undoTheory cfg s k) := by
    rw [hun]; exact (a2.toU.trans b1).trans ⟨_, _, _, _, _, _, _, rfl⟩
  have htr : (undoTheory cfg s k).tr = s.tr.undo k := by
    rw [hun]
    show ({ s2.tr with decs := _ } : Trail) = _
    rw [b2, undoDecs_full, hasg2, hdecs2]
    rfl
  have hcl : ∀ j, j < s.ncl → (undoTheory cfg s k).cl j = s2.cl j := by
    intro j _; rw [hun]; rfl
  have hcl2 : ∀ j, j < s.ncl → s2.cl j =
      if (s.cl j).level = -1 then
        { s.cl j with numUn := (s.cl j).numUn + addSumP s k (s.ptr j) s.atoms }
      else if (s.cl j).level > k then
        { s.cl j with numUn := (s.cl j).numUn + opens s.asg s.lvl k (s.cl j).lits, level := -1 }
      else s.cl j := by
    intro j hj
    rw [b3 j hj, a3 j]
    by_cases hl : (s.cl j).level = -1
    · simp only [hl, if_true]
      rw [if_neg (by intro h; have := h.2; omega)]
    · simp only [hl, if_false]
      by_cases hl2 : (s.cl j).level > k
      · rw [if_pos hl2, if_pos]
        refine ⟨?_, hl2⟩
        rcases hex j hj with ⟨h1, _⟩ | ⟨_, ⟨l, hm, ht, hll⟩, _⟩
        · exact absurd h1 hl
        · refine ⟨(l.var, l.val), ?_, ?_, ?_⟩
          · exact mem_atoms.2 (hb.rng _ _ (fun h => ht.not_LU h))
          · simp only; omega
          · have : trueLit s.asg (l.var, l.val) = l := by
              obtain ⟨v, d, e⟩ := l
              unfold LT at ht
              unfold trueLit
              simp only at ht ⊢
              rw [ht]; cases e <;> simp [Asg.ofSign]
            rw [this]; exact hm
      · rw [if_neg hl2, if_neg (by simp [hl2])]
  have hlits : ∀ j, j < s.ncl → ((undoTheory cfg s k).cl j).lits = (s.cl j).lits := by
    intro j hj
    rw [hcl j hj, hcl2 j hj]
    split
    · rfl
    · split <;> rfl
  have hA : (undoTheory cfg s k).asg = s.tr.asgAt k := by
    have : (undoTheory cfg s k).tr.asg = s.tr.asgAt k := by rw [htr]; rfl
    exact this
  have hLv : (undoTheory cfg s k).lvl = (s.tr.undo k).lvl := by
    have : (undoTheory cfg s k).tr.lvl = (s.tr.undo k).lvl := by rw [htr]
    exact this
  have hLT : ∀ l, LT (s.tr.asgAt k) l → LT s.asg l ∧ s.lvl l.var l.val ≤ k := by
    intro l hl
    unfold LT at hl
    obtain ⟨h1, h2, h3⟩ := Trail.asgAt_ne_un (t := s.tr) (k := k) (v := l.var) (d := l.val) (by rw [hl]; simp)
    rw [h3] at hl
    exact ⟨hl, h2⟩
  have hLT' : ∀ l, LT s.asg l → s.lvl l.var l.val ≤ k → LT (s.tr.asgAt k) l := by
    intro l hl h2
    unfold LT; rw [Trail.asgAt_eq_of_le (t := s.tr) h2]; exact hl
  have hlv : ∀ v d, s.lvl v d ≤ k → (s.tr.undo k).lvl v d = s.lvl v d := by
    intro v d hle
    have : (s.tr.undo k).lvl v d = if s.lvl v d > k then -10 else s.lvl v d := rfl
    rw [this, if_neg (by omega)]
  have hul : ∀ v d, s.asg v d = .un → s.lvl v d ≤ k := by
    intro v d hu; have := hb.un v d hu
    have h' : s.lvl v d = -10 := this
    omega
  refine ⟨hfr, htr, hlits, ?_, ?_, hs.frameU hfr hlits⟩
  · intro j hj
    rw [hcl j hj, hA, hLv, hcl2 j hj]
    rcases hex j hj with ⟨h1, h2⟩ | ⟨h1, ⟨l, hm, ht, hll⟩, h4⟩
    · rw [if_pos h1]
      left
      refine ⟨h1, ?_⟩
      rintro ⟨l, hm, hl⟩
      exact h2 ⟨l, hm, (hLT l hl).1⟩
    · rw [if_neg (by omega)]
      by_cases hl2 : (s.cl j).level > k
      · rw [if_pos hl2]
        left
        refine ⟨rfl, ?_⟩
        rintro ⟨l, hm, hl⟩
        obtain ⟨h5, h6⟩ := hLT l hl
        have := h4 l hm h5
        omega
      · rw [if_neg hl2]
        right
        refine ⟨h1, ⟨l, hm, hLT' l ht (by omega), by rw [hlv _ _ (by omega)]; exact hll⟩, ?_⟩
        intro l' hm' ht'
        obtain ⟨h5, h6⟩ := hLT l' ht'
        rw [hlv _ _ h6]
        exact h4 l' hm' h5
  · intro j hj hg
    rw [hcl j hj, hA, hcl2 j hj]
    by_cases h1 : (s.cl j).level = -1
    · rw [if_pos h1]
      have h2 := (hex j hj).unsat h1
      have h3 := (hnum j hj hg).open h1
      have := addSum_spec (g := s.asg) (lvl := s.lvl) (k := k) (nodup_atoms s) hul
        (fun v d hl => mem_atoms.2 (hb.rng v d (fun hu => by have := hul v d hu; omega)))
        (c := (s.cl j).lits) (fun l hm hl => h2 ⟨l, hm, hl⟩)
      unfold Num
      dsimp only
      rw [if_pos h1, addSumP_good hs k hj hg]
      have e : openCount (s.tr.asgAt k) (s.cl j).lits =
        openCount (fun v d => if s.lvl v d > k then Asg.un else s.asg v d) (s.cl j).lits := rfl
      omega
    · rw [if_neg h1]
      have h2 := (hnum j hj hg).zero h1
      by_cases hl2 : (s.cl j).level > k
      · rw [if_pos hl2]
        unfold Num
        dsimp only
        rw [if_pos rfl, h2]
        have : opens s.asg s.lvl k (s.cl j).lits = openCount (s.tr.asgAt k) (s.cl j).lits := by
          unfold opens openCount
          apply List.countP_congr
          intro l _
          simp only [decide_eq_true_eq]
          unfold LU Trail.asgAt
          show _ ↔ (if s.lvl l.var l.val > k then Asg.un else s.asg l.var l.val) = .un
          by_cases hh : s.lvl l.var l.val > k <;> simp [hh]
        omega
      · rw [if_neg hl2]
        unfold Num; rw [if_neg h1]; exact h2

end Mvl
