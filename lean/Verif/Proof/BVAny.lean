import Verif.Proof.BVBuild

/-!
# Bit-vector variant: what survives restarts

After a restart the nodes of the variables are no longer sorted by level, so the invariants of `BVInv.lean` are lost.  What is
left, in every run: the clauses are consequences of the file with one literal per variable, no domain becomes empty, and
the counters add up.  Undefined behaviour is not excluded here.
-/

namespace Mvl.BV

variable {S : Type}

/-- A stored clause: one literal per variable, watches from the clause, true in every solution. -/
structure HOK (P : Problem) (c : BCls) : Prop where
  distinct : Distinct c.lits
  w0 : ∃ w, c.w0 = some w
  mem : ∀ w, IsW c w → w ∈ c.lits
  ent : ∀ x, P.Solves x → CHolds x c.lits

structure AInv (P : Problem) (s : BSt S) : Prop where
  nv : s.nv = P.numVars
  size : ∀ v, s.IsVar v → s.size v = P.dom v
  ptr : ∀ id, id < s.ncl → s.ptr id < s.nheap
  cls : ∀ id, id < s.ncl → HOK P (s.cl id)
  keep : ∀ c ∈ P.clauses, ∃ id, id < s.ncl ∧ (∀ l ∈ (s.cl id).lits, s.IsVar l.var) ∧
    ∀ x, P.InDom x → CHolds x (s.cl id).lits → clauseHolds x c
  live : ∀ v, s.IsVar v → ∃ j, (s.cur v).getLsbD j = true
  sub : ∀ v, s.IsVar v → ∀ j, (s.cur v).getLsbD j = true → j < s.size v
  nsub : ∀ v, s.IsVar v → ∀ n ∈ s.nodes v, ∀ j, n.values.getLsbD j = true → j < s.size v

theorem AInv.of_inv {P : Problem} {s : BSt S} (h : BInv s) (hm : SemInv P s) : AInv P s where
  nv := hm.nv
  size := hm.size
  ptr := h.store.ptr_lt
  cls id hid := by
    refine ⟨h.store.distinct id hid, ?_, fun w hw => (h.store.wok id hid).mem hw, fun x hx => hm.ent x hx id hid⟩
    rcases h.store.wok id hid with ⟨w, _, h1, _⟩ | ⟨_, w, _, h1, _⟩ <;> exact ⟨w, h1⟩
  keep c hc := by
    obtain ⟨id, h1, h2⟩ := hm.keep c hc
    exact ⟨id, h1, fun l hl => (h.store.lok id h1 l hl).isVar, h2⟩
  live := h.trail.live
  sub v hv j hj := ((h.trail.cur_iff v hv j).1 hj).1
  nsub v _ := h.trail.sub v

theorem SatU.trivial {α : Type} {x : Res α} {p : α → Prop} (h : ∀ a, x = .ok a → p a) : SatU True x p := by
  cases x with
  | ok a => exact h a rfl
  | ub => exact True.intro
  | fuel => exact True.intro

/-- The same values in the fields that matter. -/
theorem AInv.congr {P : Problem} {s s' : BSt S} (h : AInv P s) (h1 : s'.nv = s.nv) (h2 : s'.size = s.size)
    (h3 : s'.ncl = s.ncl) (h4 : s'.nheap = s.nheap) (h5 : s'.ptr = s.ptr) (h6 : s'.heap = s.heap) (h7 : s'.cur = s.cur)
    (h8 : s'.nodes = s.nodes) : AInv P s' := by
  have hc : s'.cl = s.cl := by funext i; unfold BSt.cl; rw [h5, h6]
  refine ⟨h1.trans h.nv, ?_, ?_, ?_, ?_, ?_, ?_, ?_⟩
  · intro v hv; rw [h2]; exact h.size v ((IsVar.congr h1).1 hv)
  · intro id hid; rw [h5, h4]; exact h.ptr id (h3 ▸ hid)
  · intro id hid; rw [hc]; exact h.cls id (h3 ▸ hid)
  · intro c hcc
    obtain ⟨id, e1, e2, e3⟩ := h.keep c hcc
    exact ⟨id, h3.symm ▸ e1, by rw [hc]; exact fun l hl => (IsVar.congr h1).2 (e2 l hl), by rw [hc]; exact e3⟩
  · intro v hv; rw [h7]; exact h.live v ((IsVar.congr h1).1 hv)
  · intro v hv; rw [h7, h2]; exact h.sub v ((IsVar.congr h1).1 hv)
  · intro v hv; rw [h8, h2]; exact h.nsub v ((IsVar.congr h1).1 hv)

/-- Other watches for a clause. -/
theorem AInv.setCl {P : Problem} {s : BSt S} (h : AInv P s) {id : Nat} {c : BCls} (hl : c.lits = (s.cl id).lits)
    (hc : HOK P c) : AInv P (s.setCl id c) := by
  refine ⟨h.nv, h.size, h.ptr, ?_, ?_, h.live, h.sub, h.nsub⟩
  · intro i hi
    unfold BSt.cl BSt.setCl
    dsimp only
    unfold upd
    split
    · exact hc
    · exact h.cls i hi
  · intro c' hc'
    obtain ⟨i, e1, e2, e3⟩ := h.keep c' hc'
    exact ⟨i, e1, by rw [lits_setCl hl]; exact e2, by rw [lits_setCl hl]; exact e3⟩

theorem HOK.swap {P : Problem} {c : BCls} (h : HOK P c) (h1 : c.w1 ≠ none) :
    HOK P { c with w0 := c.w1, w1 := c.w0 } where
  distinct := h.distinct
  w0 := by
    cases hw : c.w1 with
    | none => exact absurd hw h1
    | some w => exact ⟨w, rfl⟩
  mem w hw := h.mem w (isW_swap.1 hw)
  ent := h.ent

/-! ## Counters -/

/-- Number of clauses, backtracks and restarts; `p` may differ in the rest of the state. -/
structure SameCounts (s s' : BSt S) : Prop where
  ncl : s'.ncl = s.ncl
  nB : s'.nBacktracks = s.nBacktracks
  nR : s'.nRestarts = s.nRestarts

theorem SameCounts.refl (s : BSt S) : SameCounts s s := ⟨rfl, rfl, rfl⟩

theorem SameCounts.trans {s s' s'' : BSt S} (h : SameCounts s s') (h' : SameCounts s' s'') : SameCounts s s'' :=
  ⟨h'.1.trans h.1, h'.2.trans h.2, h'.3.trans h.3⟩

/-- Kept by a step that learns nothing. -/
def Good (P : Problem) (s : BSt S) (s' : BSt S) : Prop := AInv P s' ∧ SameCounts s s'

theorem swapPointer_any {P : Problem} {s : BSt S} (h : AInv P s) {id : Nat} (hid : id < s.ncl) (v : Nat) :
    SatU True (swapPointer s v id) (Good P s) := by
  unfold swapPointer
  dsimp only
  cases h0 : (s.cl id).w0 with
  | none => exact True.intro
  | some a =>
    cases h1 : (s.cl id).w1 with
    | none => exact True.intro
    | some b =>
      dsimp only
      refine SatU.bind (p := fun _ => True) (SatU.trivial fun _ _ => True.intro) fun x _ => ?_
      split
      · cases hf : (s.cl id).lits.find? fun l => bsat s l ≠ 0 ∧ l.var ≠ b.var with
        | none => exact ⟨h.congr rfl rfl rfl rfl rfl rfl rfl rfl, ⟨rfl, rfl, rfl⟩⟩
        | some l =>
          unfold removeRec
          dsimp only
          split
          · refine ⟨?_, ⟨rfl, rfl, rfl⟩⟩
            refine AInv.setCl (s := addRec { s with recs := upd s.recs a.var ((s.recs a.var).erase id) } l.var id)
              (h.congr rfl rfl rfl rfl rfl rfl rfl rfl) rfl ?_
            have hc := h.cls id hid
            refine ⟨hc.distinct, ⟨l, rfl⟩, ?_, hc.ent⟩
            intro w hw
            rcases hw with hw | hw
            · cases hw; exact List.mem_of_find?_eq_some hf
            · exact hc.mem w (Or.inr (h1.trans hw))
          · exact True.intro
      · exact ⟨h.congr rfl rfl rfl rfl rfl rfl rfl rfl, ⟨rfl, rfl, rfl⟩⟩

theorem satW_ne_none {s : BSt S} {o : Option BLit} {x : Nat} (h : satW s o = .ok x) : o ≠ none := by
  rintro rfl; cases h

theorem updateOne_any {P : Problem} {s : BSt S} (h : AInv P s) (v id : Nat) :
    SatU True (updateOne v s id) (Good P s) := by
  by_cases hc : s.conflict = true
  · unfold updateOne; rw [if_pos hc]; exact ⟨h, SameCounts.refl s⟩
  have hc : s.conflict = false := by simpa using hc
  by_cases hid : id < s.ncl
  · rw [updateOne_eq hc hid]
    refine SatU.bind (p := fun _ => True) (SatU.trivial fun _ _ => True.intro) fun x _ => ?_
    by_cases hx : x = 1
    · rw [if_pos hx]; exact ⟨h, SameCounts.refl s⟩
    rw [if_neg hx]
    refine SatU.bind (p := fun _ => (s.cl id).w1 ≠ none) (SatU.trivial fun _ e => satW_ne_none e) fun y hy => ?_
    have hsw : AInv P (s.setCl id { s.cl id with w0 := (s.cl id).w1, w1 := (s.cl id).w0 }) :=
      h.setCl rfl ((h.cls id hid).swap hy)
    by_cases hy1 : y = 1
    · rw [if_pos hy1]; exact ⟨hsw, ⟨rfl, rfl, rfl⟩⟩
    rw [if_neg hy1]
    dsimp only
    have fin : ∀ s1 : BSt S, AInv P s1 → SameCounts s s1 →
        SatU True (satW s1 (s1.cl id).w0 >>= fun z => if z = 0 then swapPointer s1 v id else .ok s1) (Good P s) := by
      intro s1 h1 h2
      refine SatU.bind (p := fun _ => True) (SatU.trivial fun _ _ => True.intro) fun z _ => ?_
      split
      · exact (swapPointer_any h1 (by rw [h2.ncl]; exact hid) v).mono fun a ha => ⟨ha.1, h2.trans ha.2⟩
      · exact ⟨h1, h2⟩
    split
    · exact fin _ hsw ⟨rfl, rfl, rfl⟩
    · exact fin _ h (SameCounts.refl s)
  · unfold updateOne
    rw [hc, if_neg hid]
    exact True.intro

theorem updateList_any {P : Problem} (v : Nat) : ∀ (ids : List Nat) {s : BSt S}, AInv P s →
    SatU True (updateList v ids s) (Good P s)
  | [], s, h => ⟨h, SameCounts.refl s⟩
  | id :: ids, s, h => by
    unfold updateList
    refine (updateOne_any h v id).bind fun s1 h1 => ?_
    exact (updateList_any v ids h1.1).mono fun a ha => ⟨ha.1, h1.2.trans ha.2⟩

/-- Reducing a domain to the values of a literal that leaves some. -/
theorem breduce_any {P : Problem} {s : BSt S} (h : AInv P s) {l : BLit} (hl : ¬ FalseNow s l) :
    SatU True (breduce s l) (Good P s) := by
  unfold breduce
  dsimp only
  split
  · exact ⟨h, SameCounts.refl s⟩
  · unfold updateVar
    refine (updateList_any _ _ ?_).mono fun a ha => ⟨ha.1, ⟨ha.2.1, ha.2.2, ha.2.3⟩⟩
    refine ⟨h.nv, h.size, h.ptr, h.cls, h.keep, ?_, ?_, ?_⟩
    · intro v hv
      show ∃ j, (upd s.cur l.var (s.cur l.var &&& l.vals) v).getLsbD j = true
      unfold upd
      split
      · rename_i e
        apply Classical.byContradiction
        intro hn
        refine hl fun j hj => ?_
        cases hx : (s.cur l.var).getLsbD j
        · rfl
        · exact absurd ⟨j, (and_bit _ _ _).2 ⟨hx, hj⟩⟩ hn
      · exact h.live v hv
    · intro v hv j hj
      replace hj : (if v = l.var then s.cur l.var &&& l.vals else s.cur v).getLsbD j = true := hj
      by_cases e : v = l.var
      · rw [if_pos e] at hj
        rw [e] at hv ⊢
        exact h.sub _ hv j ((and_bit _ _ _).1 hj).1
      · rw [if_neg e] at hj
        exact h.sub v hv j hj
    · intro v hv n hn
      replace hn : n ∈ (if v = l.var then
        ⟨s.atomIndex + 1, s.LEVEL, s.unitClause, s.cur l.var &&& ~~~ l.vals⟩ :: s.nodes l.var else s.nodes v) := hn
      by_cases e : v = l.var
      · rw [if_pos e] at hn
        rw [e] at hv ⊢
        rcases List.mem_cons.1 hn with rfl | hn
        · intro j hj
          exact h.sub _ hv j ((andnot_bit _ _ _).1 hj).1
        · exact h.nsub _ hv n hn
      · rw [if_neg e] at hn
        exact h.nsub v hv n hn

theorem satW_two {s : BSt S} {l : BLit} (h : satW s (some l) = .ok 2) : ¬ FalseNow s l := by
  have e : bsat s l = 2 := by
    by_cases hv : l.var ≤ s.nv
    · have : satW s (some l) = .ok (bsat s l) := if_pos hv
      rw [this] at h
      injection h
    · have : satW s (some l) = .ub := if_neg hv
      rw [this] at h
      cases h
  exact (bsat_two.1 e).2

theorem bunitProp_any {P : Problem} : ∀ (f : Nat) {s : BSt S}, AInv P s → SatU True (bunitProp f s) (Good P s)
  | 0, _, _ => True.intro
  | f + 1, s, h => by
    unfold bunitProp
    by_cases hc : s.conflict = true
    · rw [if_pos hc]; exact ⟨h.congr rfl rfl rfl rfl rfl rfl rfl rfl, ⟨rfl, rfl, rfl⟩⟩
    rw [if_neg hc]
    split
    · exact ⟨h, SameCounts.refl s⟩
    · rename_i id rest _
      dsimp only
      have h1 : AInv P ({ s with unitClause := id, units := rest } : BSt S) := h.congr rfl rfl rfl rfl rfl rfl rfl rfl
      have stop : SatU True (bunitProp f ({ s with unitClause := id, units := rest } : BSt S)) (Good P s) :=
        (bunitProp_any f h1).mono fun a ha => ⟨ha.1, ⟨ha.2.1, ha.2.2, ha.2.3⟩⟩
      have go : ∀ w, satW ({ s with unitClause := id, units := rest } : BSt S) (some w) = .ok 2 →
          SatU True (breduce ({ s with unitClause := id, units := rest } : BSt S) w >>= fun s2 =>
            bunitProp f { s2 with nUnits := s2.nUnits + 1 }) (Good P s) := by
        intro w hw
        refine (breduce_any h1 (satW_two hw)).bind fun s2 h2 => ?_
        refine (bunitProp_any f (s := { s2 with nUnits := s2.nUnits + 1 })
          (h2.1.congr rfl rfl rfl rfl rfl rfl rfl rfl)).mono fun a ha => ⟨ha.1, ?_⟩
        exact ⟨ha.2.1.trans h2.2.1, ha.2.2.trans h2.2.2, ha.2.3.trans h2.2.3⟩
      split
      · split
        · exact True.intro
        · rename_i w hw
          refine SatU.bind (p := fun x => satW ({ s with unitClause := id, units := rest } : BSt S) (some w) = .ok x)
            (SatU.trivial fun _ e => e) fun x hx => ?_
          split
          · rename_i e; subst e; exact go w hx
          · split
            · split
              · exact True.intro
              · rename_i w' hw'
                refine SatU.bind (p := fun x => satW ({ s with unitClause := id, units := rest } : BSt S) (some w') = .ok x)
                  (SatU.trivial fun _ e => e) fun x hx => ?_
                split
                · rename_i e; subst e; exact go w' hx
                · exact stop
            · exact stop
      · exact True.intro

/-! ## Undoing -/

theorem undoNodes_any (k : Int) {D : Nat → Prop} : ∀ (ns : List Node) (d : Bits),
    (∀ j, d.getLsbD j = true → D j) → (∀ n ∈ ns, ∀ j, n.values.getLsbD j = true → D j) →
    (∀ j, (undoNodes k d ns).1.getLsbD j = true → D j) ∧ (∀ j, d.getLsbD j = true → (undoNodes k d ns).1.getLsbD j = true) ∧
      ∀ n ∈ (undoNodes k d ns).2.1, n ∈ ns
  | [], d, h, _ => ⟨h, fun _ hj => hj, fun _ hn => hn⟩
  | n :: ns, d, h, h' => by
    unfold undoNodes
    split
    · obtain ⟨h1, h2, h3⟩ := undoNodes_any k ns (d ||| n.values)
        (fun j hj => ((or_bit _ _ _).1 hj).elim (h j) (h' n List.mem_cons_self j))
        (fun m hm => h' m (List.mem_cons_of_mem _ hm))
      exact ⟨h1, fun j hj => h2 j ((or_bit _ _ _).2 (Or.inl hj)), fun m hm => List.mem_cons_of_mem _ (h3 m hm)⟩
    · exact ⟨h, fun _ hj => hj, fun _ hn => hn⟩

theorem bundo_any {P : Problem} {s : BSt S} (h : AInv P s) (k : Int) : AInv P (bundo s k) := by
  have key : ∀ v, s.IsVar v → _ := fun v hv => undoNodes_any s.LEVEL (D := fun j => j < s.size v) (s.nodes v) (s.cur v)
    (h.sub v hv) (h.nsub v hv)
  refine ⟨h.nv, h.size, h.ptr, h.cls, h.keep, ?_, ?_, ?_⟩
  · intro v (hv : s.IsVar v)
    obtain ⟨j, hj⟩ := h.live v hv
    refine ⟨j, ?_⟩
    show (if 1 ≤ v ∧ v ≤ s.nv then _ else s.cur v).getLsbD j = true
    rw [if_pos (show 1 ≤ v ∧ v ≤ s.nv from hv)]
    exact (key v hv).2.1 j hj
  · intro v (hv : s.IsVar v) j hj
    have hj : (if 1 ≤ v ∧ v ≤ s.nv then _ else s.cur v).getLsbD j = true := hj
    rw [if_pos (show 1 ≤ v ∧ v ≤ s.nv from hv)] at hj
    exact (key v hv).1 j hj
  · intro v (hv : s.IsVar v) n hn
    have hn : n ∈ (if 1 ≤ v ∧ v ≤ s.nv then _ else s.nodes v) := hn
    rw [if_pos (show 1 ≤ v ∧ v ≤ s.nv from hv)] at hn
    exact h.nsub v hv n ((key v hv).2.2 n hn)

/-! ## Conflict analysis -/

theorem watchStep_mem (s : BSt S) {ls : List BLit} : ∀ (q : List BLit) (a : Int × Int × Option BLit × Option BLit),
    (∀ l ∈ q, l ∈ ls) → (∀ l, a.2.2.1 = some l → l ∈ ls) → (∀ l, a.2.2.2 = some l → l ∈ ls) →
    (∀ l, (q.foldl (watchStep s) a).2.2.1 = some l → l ∈ ls) ∧ (∀ l, (q.foldl (watchStep s) a).2.2.2 = some l → l ∈ ls)
  | [], _, _, h1, h2 => ⟨h1, h2⟩
  | l :: q, a, h, h1, h2 => by
    rw [List.foldl_cons]
    have hl := h l List.mem_cons_self
    refine watchStep_mem s q _ (fun m hm => h m (List.mem_cons_of_mem _ hm)) ?_ ?_
    · unfold watchStep
      dsimp only
      split
      · intro m hm; cases hm; exact hl
      · split
        · exact h1
        · exact h1
    · unfold watchStep
      dsimp only
      split
      · exact h1
      · split
        · intro m hm; cases hm; exact hl
        · exact h2

theorem assignWatched_mem (s : BSt S) (ls : List BLit) {w : BLit} (hw : IsW (assignWatched s ls) w) : w ∈ ls := by
  obtain ⟨h1, h2⟩ := watchStep_mem s ls (-1, -1, none, none) (fun _ h => h) (ls := ls) nofun nofun
  rcases hw with hw | hw
  · exact h1 w hw
  · exact h2 w hw

/-- A clause under analysis. -/
structure ACl (P : Problem) (c : BCls) : Prop where
  distinct : Distinct c.lits
  mem : ∀ w, IsW c w → w ∈ c.lits
  ent : ∀ x, P.Solves x → CHolds x c.lits

theorem HOK.acl {P : Problem} {c : BCls} (h : HOK P c) : ACl P c := ⟨h.1, h.3, h.4⟩

theorem ACl.resolve {P : Problem} {c r : BCls} (h : ACl P c) (hr : ACl P r) {l : BLit} (hl : c.w0 = some l) (s : BSt S) :
    ACl P (assignWatched s (bresolve c.lits l r.lits)) where
  distinct := (bresolve_spec _ _ _).1
  mem _ hw := assignWatched_mem s _ hw
  ent x hx := bresolve_sound h.distinct (h.mem l (Or.inl hl)) (h.ent x hx) (hr.ent x hx)

/-- After learning. -/
structure LearnedAny (P : Problem) (s s' : BSt S) : Prop where
  inv : AInv P s'
  ncl : s'.ncl = s.ncl + 1
  nB : s'.nBacktracks = s.nBacktracks
  nR : s'.nRestarts = s.nRestarts

theorem blearn_any (A : ScoreArith S) {P : Problem} {s : BSt S} (h : AInv P s) {c : BCls} (hc : ACl P c) {p : Option Nat}
    (hp : ∀ a, p = some a → a < s.nheap ∧ s.heap a = c) : SatU True (blearn A s c p) (LearnedAny P s) := by
  cases h0 : c.w0 with
  | none =>
    refine SatU.trivial ?_
    intro a ha
    unfold blearn at ha
    rw [h0] at ha
    cases ha
  | some w =>
  have hok : HOK P c := ⟨hc.distinct, ⟨w, h0⟩, hc.mem, hc.ent⟩
  -- the state with the clause in the list
  have put : ∀ s1 : BSt S, s1.nv = s.nv → s1.size = s.size → s1.cur = s.cur → s1.nodes = s.nodes → s1.ncl = s.ncl + 1 →
      s.nheap ≤ s1.nheap → (∀ id, id < s.ncl → s1.ptr id = s.ptr id) → (∀ a, a < s.nheap → s1.heap a = s.heap a) →
      s1.ptr s.ncl < s1.nheap → s1.heap (s1.ptr s.ncl) = c → AInv P s1 := by
    intro s1 e1 e2 e3 e4 e5 e6 e7 e8 e9 e10
    have hcl : ∀ id, id < s.ncl → s1.cl id = s.cl id := fun id hid => by
      unfold BSt.cl; rw [e7 id hid, e8 _ (h.ptr id hid)]
    refine ⟨e1.trans h.nv, ?_, ?_, ?_, ?_, ?_, ?_, ?_⟩
    · intro v hv; rw [e2]; exact h.size v ((IsVar.congr e1).1 hv)
    · intro id hid
      by_cases hlt : id < s.ncl
      · rw [e7 id hlt]; exact Nat.lt_of_lt_of_le (h.ptr id hlt) e6
      · have : id = s.ncl := by omega
        rw [this]; exact e9
    · intro id hid
      by_cases hlt : id < s.ncl
      · rw [hcl id hlt]; exact h.cls id hlt
      · have : id = s.ncl := by omega
        rw [this]; unfold BSt.cl; rw [e10]; exact hok
    · intro c' hc'
      obtain ⟨id, f1, f2, f3⟩ := h.keep c' hc'
      refine ⟨id, by omega, ?_, ?_⟩ <;> rw [hcl id f1]
      · exact fun l hl => (IsVar.congr e1).2 (f2 l hl)
      · exact f3
    · intro v hv; rw [e3]; exact h.live v ((IsVar.congr e1).1 hv)
    · intro v hv; rw [e3, e2]; exact h.sub v ((IsVar.congr e1).1 hv)
    · intro v hv; rw [e4, e2]; exact h.nsub v ((IsVar.congr e1).1 hv)
  have fin : ∀ s1 : BSt S, AInv P s1 → s1.ncl = s.ncl + 1 → s1.nBacktracks = s.nBacktracks → s1.nRestarts = s.nRestarts →
      SatU True (if c.lits.length > 1 then
          match c.w1 with
          | none => .ub
          | some w' => .ok (bhalve A (c.lits.foldl (bbump A) (addRec (addRec s1 w.var s.ncl) w'.var s.ncl)))
        else .ok (bhalve A (c.lits.foldl (bbump A) (addRec s1 w.var s.ncl)))) (LearnedAny P s) := by
    intro s1 hs1 e1 e2 e3
    split
    · split
      · exact True.intro
      · rename_i w' _
        obtain ⟨sc, e⟩ := halve_bump A c.lits (addRec (addRec s1 w.var s.ncl) w'.var s.ncl)
        rw [e]
        exact ⟨hs1.congr rfl rfl rfl rfl rfl rfl rfl rfl, e1, e2, e3⟩
    · obtain ⟨sc, e⟩ := halve_bump A c.lits (addRec s1 w.var s.ncl)
      rw [e]
      exact ⟨hs1.congr rfl rfl rfl rfl rfl rfl rfl rfl, e1, e2, e3⟩
  unfold blearn
  dsimp only
  rw [h0]
  dsimp only
  cases p with
  | some a =>
    obtain ⟨h1, h2⟩ := hp a rfl
    refine fin { s with ptr := upd s.ptr s.ncl a, ncl := s.ncl + 1 } (put _ rfl rfl rfl rfl rfl (Nat.le_refl _) ?_ ?_ ?_ ?_) rfl rfl rfl
    · intro id hid; show upd s.ptr s.ncl a id = _; unfold upd; rw [if_neg (by omega)]
    · intro b _; rfl
    · show upd s.ptr s.ncl a s.ncl < _; unfold upd; rw [if_pos rfl]; exact h1
    · show s.heap (upd s.ptr s.ncl a s.ncl) = _; unfold upd; rw [if_pos rfl]; exact h2
  | none =>
    refine fin { s with heap := upd s.heap s.nheap c, nheap := s.nheap + 1, ptr := upd s.ptr s.ncl s.nheap, ncl := s.ncl + 1 }
      (put _ rfl rfl rfl rfl rfl (Nat.le_succ _) ?_ ?_ ?_ ?_) rfl rfl rfl
    · intro id hid; show upd s.ptr s.ncl s.nheap id = _; unfold upd; rw [if_neg (by omega)]
    · intro b hb; show upd s.heap s.nheap c b = _; unfold upd; rw [if_neg (by omega)]
    · show upd s.ptr s.ncl s.nheap s.ncl < s.nheap + 1; unfold upd; rw [if_pos rfl]; omega
    · show upd s.heap s.nheap c (upd s.ptr s.ncl s.nheap s.ncl) = _; unfold upd; rw [if_pos rfl, if_pos rfl]

theorem banalyze_any (A : ScoreArith S) {P : Problem} {s : BSt S} (h : AInv P s) : ∀ (f : Nat) {c : BCls} {p : Option Nat},
    ACl P c → (∀ a, p = some a → a < s.nheap ∧ s.heap a = c) →
    SatU True (banalyze A f s c p) fun r => LearnedAny P s r.1
  | 0, _, _, _, _ => True.intro
  | f + 1, c, p, hc, hp => by
    unfold banalyze
    refine SatU.bind (p := fun _ => True) (SatU.trivial fun _ _ => True.intro) fun x _ => ?_
    split
    · exact (blearn_any A h hc hp).bind fun s1 h1 => h1
    · split
      · exact True.intro
      · rename_i l hl
        dsimp only
        split
        · exact True.intro
        · rename_i hr
          have hlt : (s.node l).reason.toNat < s.ncl := by omega
          exact banalyze_any A h f (hc.resolve (h.cls _ hlt).acl hl s) nofun

/-! ## The loop -/

/-- The counters against the restart interval. -/
structure RInv (cfg : BCfg S) (P : Problem) (s : BSt S) (rc : Int) : Prop where
  count : s.ncl = P.clauses.length + s.nBacktracks
  none : cfg.restarts ≤ 0 → rc = cfg.restarts ∧ s.nRestarts = 0
  some : 0 < cfg.restarts → rc = cfg.restarts * (s.nRestarts + 1 : Nat) ∧ cfg.restarts * s.nRestarts ≤ s.nBacktracks ∧
    (s.nBacktracks : Int) < rc

theorem RInv.same {cfg : BCfg S} {P : Problem} {s s' : BSt S} {rc : Int} (h : RInv cfg P s rc) (h' : SameCounts s s') :
    RInv cfg P s' rc where
  count := by rw [h'.ncl, h'.nB]; exact h.count
  none hr := by rw [h'.nR]; exact h.none hr
  some hr := by rw [h'.nR, h'.nB]; exact h.some hr

theorem RInv.restarts {cfg : BCfg S} {P : Problem} {s : BSt S} {rc : Int} (h : RInv cfg P s rc) :
    (s.nRestarts : Int) = if cfg.restarts ≤ 0 then 0 else (s.nBacktracks : Int) / cfg.restarts := by
  split
  · rename_i hr; rw [(h.none hr).2]; rfl
  · rename_i hr
    have hr : 0 < cfg.restarts := by omega
    obtain ⟨h1, h2, h3⟩ := h.some hr
    rw [h1] at h3
    symm
    rw [Int.ediv_eq_iff_of_pos hr]
    constructor
    · rw [Int.mul_comm]; exact h2
    · push_cast at h3
      have : cfg.restarts * ((s.nRestarts : Int) + 1) = (s.nRestarts : Int) * cfg.restarts + cfg.restarts := by
        rw [Int.mul_add, Int.mul_one, Int.mul_comm]
      omega

structure AnyInv (cfg : BCfg S) (P : Problem) (s : BSt S) (rc : Int) : Prop where
  inv : AInv P s
  cnt : RInv cfg P s rc

theorem bconflict_any (cfg : BCfg S) {P : Problem} {s : BSt S} {rc : Int} (h : AnyInv cfg P s rc) (f : Nat) :
    SatU True (bconflict cfg f s rc) fun p => AnyInv cfg P p.1 p.2 := by
  unfold bconflict
  split
  · exact True.intro
  · rename_i hid
    dsimp only
    have hlt : s.conflicting.toNat < s.ncl := by omega
    refine (banalyze_any cfg.arith h.inv f (h.inv.cls _ hlt).acl
      (by intro a ha; cases ha; exact ⟨h.inv.ptr _ hlt, rfl⟩)).bind ?_
    rintro ⟨s1, c⟩ hl
    dsimp only at hl ⊢
    refine SatU.bind (p := fun _ => True) (SatU.trivial fun _ _ => True.intro) fun lv _ => ?_
    have h1 : AInv P ({ s1 with LEVEL := lv, nBacktracks := s1.nBacktracks + 1, conflict := false } : BSt S) :=
      hl.inv.congr rfl rfl rfl rfl rfl rfl rfl rfl
    have hcount : s1.ncl = P.clauses.length + (s1.nBacktracks + 1) := by
      have := h.cnt.count; rw [hl.ncl, hl.nB]; omega
    split
    · rename_i hrc
      have hrc : ((s1.nBacktracks + 1 : Nat) : Int) = rc := hrc
      refine ⟨(bundo_any h1 0).congr rfl rfl rfl rfl rfl rfl rfl rfl, hcount, ?_, ?_⟩
      · intro hr
        have := (h.cnt.none hr).1
        omega
      · intro hr
        have := h.cnt.some hr
        show ((s1.nBacktracks + 1 : Nat) : Int) + cfg.restarts = cfg.restarts * ((s1.nRestarts + 1 + 1 : Nat) : Int) ∧
          cfg.restarts * ((s1.nRestarts + 1 : Nat) : Int) ≤ ((s1.nBacktracks + 1 : Nat) : Int) ∧
          ((s1.nBacktracks + 1 : Nat) : Int) < ((s1.nBacktracks + 1 : Nat) : Int) + cfg.restarts
        rw [hl.nR, hrc]
        have e : cfg.restarts * ((s.nRestarts + 1 + 1 : Nat) : Int) = cfg.restarts * ((s.nRestarts + 1 : Nat) : Int) + cfg.restarts := by
          rw [Int.natCast_add (s.nRestarts + 1) 1, Int.mul_add]; simp
        rw [e, ← this.1]
        exact ⟨rfl, Int.le_refl _, by omega⟩
    · rename_i hrc
      have hrc : ¬ ((s1.nBacktracks + 1 : Nat) : Int) = rc := hrc
      refine ⟨(bundo_any h1 lv).congr rfl rfl rfl rfl rfl rfl rfl rfl, hcount, ?_, ?_⟩
      · intro hr
        refine ⟨(h.cnt.none hr).1, ?_⟩
        show s1.nRestarts = 0
        rw [hl.nR]; exact (h.cnt.none hr).2
      · intro hr
        obtain ⟨e1, e2, e3⟩ := h.cnt.some hr
        show rc = cfg.restarts * ((s1.nRestarts + 1 : Nat) : Int) ∧ cfg.restarts * (s1.nRestarts : Int) ≤ ((s1.nBacktracks + 1 : Nat) : Int) ∧
          ((s1.nBacktracks + 1 : Nat) : Int) < rc
        rw [hl.nR]
        have := hl.nB
        exact ⟨e1, by omega, by omega⟩

theorem bchoose_any (cfg : BCfg S) (s : BSt S) :
    SatU True (bchoose cfg s) fun o => ∀ l, o = some l → ¬ FalseNow s l := by
  unfold bchoose
  split
  · show ∀ l, bchooseVSIDS cfg.arith s = some l → _
    have bits : ∀ {v j : Nat}, (s.cur v).getLsbD j = true → ¬ FalseNow s ⟨v, bit j⟩ := by
      intro v j hj hf
      have := hf j (by show (bit j).getLsbD j = true; rw [bit_bit (lt_of_bit hj)]; simp)
      rw [hj] at this; cases this
    have inner : ∀ (v : Nat) (js : List Nat) (b : S × Option BLit), (∀ l, b.2 = some l → ¬ FalseNow s l) →
        ∀ l, (js.foldl (fun (best : S × Option BLit) j =>
          if (s.cur v).getLsbD j then
            if cfg.arith.lt best.1 (s.score v j) then (s.score v j, some ⟨v, bit j⟩) else best
          else best) b).2 = some l → ¬ FalseNow s l := by
      intro v js
      induction js with
      | nil => intro b hb; exact hb
      | cons j js ih =>
        intro b hb
        rw [List.foldl_cons]
        apply ih
        split
        · rename_i hj
          split
          · intro l hl; cases hl; exact bits hj
          · exact hb
        · exact hb
    have outer : ∀ (vs : List Nat) (b : S × Option BLit), (∀ l, b.2 = some l → ¬ FalseNow s l) →
        ∀ l, (vs.foldl (fun best v =>
          if bcount (s.cur v) > 1 then
            (List.range (s.size v)).foldl (fun (best : S × Option BLit) j =>
              if (s.cur v).getLsbD j then
                if cfg.arith.lt best.1 (s.score v j) then (s.score v j, some ⟨v, bit j⟩) else best
              else best) best
          else best) b).2 = some l → ¬ FalseNow s l := by
      intro vs
      induction vs with
      | nil => intro b hb; exact hb
      | cons v vs ih =>
        intro b hb
        rw [List.foldl_cons]
        apply ih
        split
        · exact inner v _ b hb
        · exact hb
    exact outer _ _ nofun
  · have go : ∀ ids, SatU True (blazyLoop s ids) fun o => ∀ l, o = some l → ¬ FalseNow s l := by
      intro ids
      induction ids with
      | nil => exact fun l hl => nomatch hl
      | cons id ids ih =>
        unfold blazyLoop
        refine SatU.bind (p := fun x => satW s (s.cl id).w0 = .ok x) (SatU.trivial fun _ e => e) fun x hx => ?_
        split
        · rename_i e
          subst e
          intro l hl
          rw [hl] at hx
          exact satW_two hx
        · exact ih
    exact go _

theorem bdecide_any (cfg : BCfg S) {P : Problem} {s : BSt S} {rc : Int} (h : AnyInv cfg P s rc) :
    SatU True (bdecide cfg s) fun o => ∀ s', o = some s' → AnyInv cfg P s' rc := by
  unfold bdecide
  refine (bchoose_any cfg s).bind fun o ho => ?_
  cases o with
  | none => exact fun s' hs' => nomatch hs'
  | some l =>
    refine (breduce_any (s := { s with nDecisions := s.nDecisions + 1, LEVEL := s.LEVEL + 1, unitClause := -1 })
      (h.inv.congr rfl rfl rfl rfl rfl rfl rfl rfl) (l := l) (ho l rfl)).bind fun s1 h1 => ?_
    intro s' hs'
    cases hs'
    exact ⟨h1.1, h.cnt.same ⟨h1.2.1, h1.2.2, h1.2.3⟩⟩

theorem bstep_any (cfg : BCfg S) {P : Problem} {s : BSt S} {rc : Int} (h : AnyInv cfg P s rc) (f : Nat) :
    SatU True (bstep cfg f s rc) fun r => match r with
      | .inl x => ∃ rc', AnyInv cfg P x.2 rc'
      | .inr p => AnyInv cfg P p.1 p.2 := by
  have h1 : AnyInv cfg P ({ s with ticks := s.ticks + 1 } : BSt S) rc :=
    ⟨h.inv.congr rfl rfl rfl rfl rfl rfl rfl rfl, h.cnt.same ⟨rfl, rfl, rfl⟩⟩
  unfold bstep
  dsimp only
  split
  · exact ⟨rc, h1⟩
  split
  · exact ⟨rc, h1⟩
  refine SatU.bind (p := fun p => AnyInv cfg P p.1 p.2) ?_ ?_
  · split
    · exact bconflict_any cfg h1 f
    · exact h1
  intro p hp
  refine SatU.bind (p := fun s2 => AnyInv cfg P s2 p.2) ?_ ?_
  · split
    · exact hp
    · exact (bunitProp_any f hp.inv).mono fun a ha => ⟨ha.1, hp.cnt.same ha.2⟩
  intro s2 h2
  split
  · exact h2
  · refine (bdecide_any cfg h2).bind fun o ho => ?_
    cases o with
    | none => exact ⟨p.2, h2⟩
    | some s3 => exact ho s3 rfl

theorem bloop_any (cfg : BCfg S) {P : Problem} : ∀ (f : Nat) {s : BSt S} {rc : Int}, AnyInv cfg P s rc →
    SatU True (bloop cfg f s rc) fun r => ∃ rc', AnyInv cfg P r.2 rc'
  | 0, _, _, _ => True.intro
  | f + 1, s, rc, h => by
    rw [bloop_eq]
    refine (bstep_any cfg h f).bind ?_
    intro r hr
    cases r with
    | inl x => exact hr
    | inr p => exact bloop_any cfg f hr

end Mvl.BV
