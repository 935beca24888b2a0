import Verif.Proof.Stat
import Verif.Proof.Chrono

/-!
# No clause is ever lost or changed

For every state whatsoever, in counter mode: the clauses of the file stay in the clause list with the same
literals through the whole search.
-/

namespace Mvl

variable {S : Type}

/-- The clause list with the literals, without counters. -/
def shape (s : St S) : Nat × (Nat → Nat) × Nat × (Nat → List Lit) :=
  (s.ncl, s.ptr, s.nheap, fun h => (s.heap h).lits)

theorem shape_setCl (s : St S) (id : Nat) (c : Cls) (h : c.lits = (s.cl id).lits) : shape (s.setCl id c) = shape s := by
  unfold shape St.setCl
  have : (fun h => (upd s.heap (s.ptr id) c h).lits) = fun h => (s.heap h).lits := by
    funext x
    unfold upd
    split
    · next e => subst e; exact h
    · rfl
  rw [this]

theorem shape_satOne (cfg : Cfg S) (s : St S) (id : Nat) : shape (satOne cfg s id) = shape s := by
  unfold satOne
  split
  · dsimp only
    split
    · rw [foldl_keep (g := shape)]
      · exact shape_setCl _ _ _ rfl
      · intro s a; split <;> rfl
    · exact shape_setCl _ _ _ rfl
  · rfl

theorem shape_remOne (s : St S) (id : Nat) : shape (remOne s id) = shape s := by
  unfold remOne
  split
  · dsimp only
    split <;> split <;> exact shape_setCl s id { s.cl id with numUn := (s.cl id).numUn - 1 } rfl
  · rfl

theorem shape_addOne (cfg : Cfg S) (l : Lit) (s : St S) (id : Nat) : shape (addOne cfg l s id) = shape s := by
  unfold addOne
  split
  · dsimp only; split <;> exact shape_setCl s id { s.cl id with numUn := (s.cl id).numUn + 1 } rfl
  · rfl

theorem shape_unsatLit (cfg : Cfg S) (k : Int) (id : Nat) (s : St S) (l : Lit) : shape (unsatLit cfg k id s l) = shape s := by
  unfold unsatLit
  split
  · dsimp only; split <;> exact shape_setCl s id { s.cl id with numUn := (s.cl id).numUn + 1 } rfl
  · rfl

theorem shape_unsatOne (cfg : Cfg S) (k : Int) (s : St S) (id : Nat) : shape (unsatOne cfg k s id) = shape s := by
  unfold unsatOne
  split
  · dsimp only
    rw [shape_setCl _ id { (List.foldl (unsatLit cfg k id) s (s.cl id).lits).cl id with level := -1 } rfl]
    exact foldl_keep (g := shape) (shape_unsatLit cfg k id) _ s
  · rfl

theorem shape_assign1 (cfg : Cfg S) (s : St S) (v d : Nat) (a : Asg) : shape (assign1 cfg s v d a) = shape s := by
  unfold assign1 satisfyClauses removeLiteral
  rw [foldl_keep (g := shape) (shape_remOne), foldl_keep (g := shape) (shape_satOne cfg)]
  rfl

theorem shape_excludeOne (cfg : Cfg S) (v : Nat) (s : St S) (i : Nat) : shape (excludeOne cfg v s i) = shape s := by
  unfold excludeOne
  split
  · rfl
  · split
    · exact shape_assign1 ..
    · rfl

theorem shape_reduceEq (cfg : Cfg S) (s : St S) (v d : Nat) : shape (reduceEq cfg s v d) = shape s := by
  unfold reduceEq
  dsimp only
  rw [foldl_keep (g := shape) (shape_excludeOne cfg v), foldl_keep (g := shape) (shape_excludeOne cfg v), shape_assign1]; rfl

theorem shape_reduceTheory (cfg : Cfg S) (s : St S) (l : Lit) : shape (reduceTheory cfg s l) = shape s := by
  unfold reduceTheory
  split
  · exact shape_reduceEq ..
  · dsimp only
    split
    · rw [shape_reduceEq]
      exact shape_assign1 cfg { s with decs := s.decs ++ [⟨l.var, l.val, false⟩] } l.var l.val .ne
    · rw [shape_assign1]; rfl

theorem shape_undoTheory (cfg : Cfg S) (s : St S) (k : Int) : shape (undoTheory cfg s k) = shape s := by
  unfold undoTheory
  dsimp only
  show shape (List.foldl (undoUnsat cfg k) _ _) = _
  rw [foldl_keep (g := shape), foldl_keep (g := shape)]
  · intro s a
    unfold undoAdd addLiteral
    split
    · split
      · rw [foldl_keep (g := shape) (shape_addOne cfg _)]
      · rw [foldl_keep (g := shape) (shape_addOne cfg _)]
    · rfl
  · intro s a
    unfold undoUnsat unsatisfyClauses
    split
    · dsimp only
      split
      · exact foldl_keep (g := shape) (shape_unsatOne cfg k) _ s
      · exact foldl_keep (g := shape) (shape_unsatOne cfg k) _ s
    · rfl

theorem shape_unitProp (cfg : Cfg S) : ∀ (f : Nat) (s s' : St S), unitProp cfg f s = .ok s' → shape s' = shape s
  | 0, _, _, h => by simp [unitProp] at h
  | f + 1, s, s', h => by
    unfold unitProp at h
    split at h
    · cases h; rfl
    · split at h
      · cases h; rfl
      · dsimp only at h
        split at h
        · split at h
          · split at h
            · rw [shape_unitProp cfg f _ _ h, shape_reduceTheory]; rfl
            · rw [shape_unitProp cfg f _ _ h]; rfl
          · rw [shape_unitProp cfg f _ _ h]; rfl
        · cases h

/-- The clause list contains the clause `c`. -/
def HasClause (c : List Lit) (s : St S) : Prop :=
  ∃ id, id < s.ncl ∧ s.ptr id < s.nheap ∧ (s.cl id).lits = c

theorem HasClause.of_shape {c : List Lit} {s s' : St S} (h : HasClause c s) (e : shape s' = shape s) : HasClause c s' := by
  simp only [shape, Prod.mk.injEq] at e
  obtain ⟨e1, e2, e3, e4⟩ := e
  obtain ⟨id, h1, h2, h3⟩ := h
  refine ⟨id, by rw [e1]; exact h1, by rw [e2, e3]; exact h2, ?_⟩
  show (s'.heap (s'.ptr id)).lits = c
  rw [e2, congrFun e4 (s.ptr id)]
  exact h3

theorem shape_learnLit (cfg : Cfg S) (cid : Nat) (s : St S) (l : Lit) : shape (learnLit cfg cid s l) = shape s := by
  have hb : ∀ s : St S, shape (bump cfg s l) = shape s := by
    intro s
    unfold bump
    split
    · rfl
    · split
      · rfl
      · apply foldl_keep (g := shape)
        intro s a; split <;> rfl
    · rfl
  unfold learnLit
  dsimp only
  rw [hb]; split <;> rfl

theorem HasClause.learnClause {cfg : Cfg S} (hw : cfg.watch = false) {x : List Lit} {s : St S} (h : HasClause x s)
    {c : Cls} {p : Option Nat} (hp : ∀ a, p = some a → c.lits = (s.heap a).lits) :
    HasClause x (learnClause cfg s c p) := by
  obtain ⟨id, h1, h2, h3⟩ := h
  unfold Mvl.learnClause
  dsimp only
  have hv : ∀ t : St S, HasClause x t → HasClause x { (halveScores cfg t) with flowOff := (halveScores cfg t).flowOff + 1 } := by
    intro t ht
    apply ht.of_shape
    unfold halveScores; split <;> rfl
  apply hv
  rw [hw]
  simp only [Bool.false_eq_true, if_false]
  refine HasClause.of_shape ?_ (foldl_keep (g := shape) (shape_learnLit cfg _) _ _)
  have hne : id ≠ s.ncl := by omega
  cases p with
  | some a =>
    refine ⟨id, ?_, ?_, ?_⟩
    · show id < s.ncl + 1; omega
    · show upd s.ptr s.ncl a id < s.nheap
      simp only [upd, if_neg hne]; exact h2
    · show (upd s.heap a { c with numUn := 0 } (upd s.ptr s.ncl a id)).lits = x
      simp only [upd, if_neg hne]
      split
      · next e => show c.lits = x; rw [hp a rfl, ← e]; exact h3
      · exact h3
  | none =>
    refine ⟨id, ?_, ?_, ?_⟩
    · show id < s.ncl + 1; omega
    · show upd s.ptr s.ncl s.nheap id < s.nheap + 1
      simp only [upd, if_neg hne]; omega
    · show (upd s.heap s.nheap { c with numUn := 0 } (upd s.ptr s.ncl s.nheap id)).lits = x
      simp only [upd, if_neg hne]
      rw [if_neg (by omega)]
      exact h3

theorem HasClause.analyze {cfg : Cfg S} (hw : cfg.watch = false) {x : List Lit} : ∀ (f : Nat) (s : St S) (c : Cls)
    (p : Option Nat) (s' : St S) (c' : Cls), HasClause x s → (∀ a, p = some a → c.lits = (s.heap a).lits) →
    analyze cfg f s c p = .ok (s', c') → HasClause x s'
  | 0, _, _, _, _, _, _, _, h => by simp [Mvl.analyze] at h
  | f + 1, s, c, p, s', c', hx, hp, h => by
    unfold Mvl.analyze at h
    obtain ⟨b, _, h⟩ := Res.bind_eq_ok.1 h
    cases b with
    | true =>
      rw [if_pos rfl] at h
      cases h
      exact hx.learnClause hw hp
    | false =>
      rw [if_neg (by simp)] at h
      obtain ⟨l, _, h⟩ := Res.bind_eq_ok.1 h
      obtain ⟨r, _, h⟩ := Res.bind_eq_ok.1 h
      exact HasClause.analyze hw f s _ _ s' c' hx (by intro a ha; cases ha) h

theorem HasClause.conflictNC {cfg : Cfg S} (hw : cfg.watch = false) {x : List Lit} {f : Nat} {s : St S} {rc : Int}
    {p : St S × Int} (h : HasClause x s) (hr : Mvl.conflictNC cfg f s rc = .ok p) : HasClause x p.1 := by
  unfold Mvl.conflictNC at hr
  split at hr
  · cases hr
  · obtain ⟨⟨s1, c⟩, ha, hr⟩ := Res.bind_eq_ok.1 hr
    have h1 := h.analyze hw f _ _ _ _ _ (by intro a ha; cases ha; rfl) ha
    dsimp only at hr
    split at hr
    · cases hr
      refine HasClause.of_shape (s := undoTheory cfg { s1 with LEVEL := backtrackLevel s1 c.lits, nBacktracks := s1.nBacktracks + 1, conflict := false } 0) ?_ rfl
      exact h1.of_shape (shape_undoTheory cfg _ _)
    · cases hr
      refine HasClause.of_shape (s := undoTheory cfg { s1 with LEVEL := backtrackLevel s1 c.lits, nBacktracks := s1.nBacktracks + 1, conflict := false } (backtrackLevel s1 c.lits)) ?_ rfl
      exact h1.of_shape (shape_undoTheory cfg _ _)

theorem shape_decideNC {cfg : Cfg S} (hw : cfg.watch = false) {s s' : St S} (h : decideNC cfg s = some s') : shape s' = shape s := by
  unfold decideNC at h
  split at h
  · cases h
  · cases h
    rw [hw]
    simp only [Bool.false_eq_true, if_false]
    rw [shape_reduceTheory]
    unfold chooseEffect; split <;> rfl

theorem HasClause.learnLoop {cfg : Cfg S} (hw : cfg.watch = false) {x : List Lit} : ∀ (f : Nat) (s : St S) (rc : Int)
    (r : Nat) (s' : St S), HasClause x s → learnLoop cfg f s rc = .ok (r, s') → HasClause x s'
  | 0, _, _, _, _, _, h => by simp [Mvl.learnLoop] at h
  | f + 1, s, rc, r, s', hi, h => by
    rw [learnLoop_succ] at h
    split at h
    · cases h
    · split at h
      · cases h; exact hi
      · split at h
        · cases h; exact hi
        · obtain ⟨p, h1, h⟩ := Res.bind_eq_ok.1 h
          have hp : HasClause x p.1 := by
            unfold confIf at h1
            have hi' : HasClause x (tick s) := hi
            split at h1
            · rw [hw] at h1
              exact hi'.conflictNC hw h1
            · cases h1; exact hi'
          obtain ⟨s2, h2, h⟩ := Res.bind_eq_ok.1 h
          have hq : HasClause x s2 := by
            unfold propIfL at h2
            split at h2
            · cases h2; exact hp
            · rw [hw] at h2
              exact hp.of_shape (shape_unitProp cfg f _ _ h2)
          unfold learnAfter at h
          split at h
          · cases h
          · split at h
            · exact HasClause.learnLoop hw f _ _ _ _ hq h
            · split at h
              · cases h
                refine hq.of_shape ?_
                unfold chooseEffect; split <;> rfl
              · rename_i s3 hd
                exact HasClause.learnLoop hw f _ _ _ _ (hq.of_shape (shape_decideNC hw hd)) h

theorem HasClause.chrono {cfg : Cfg S} {x : List Lit} : ∀ (f : Nat) (s : St S) (lv : Int) (r : Nat) (s' : St S),
    HasClause x s → chrono cfg f s lv = .ok (r, s') → HasClause x s'
  | 0, _, _, _, _, _, h => by simp [Mvl.chrono] at h
  | f + 1, s, lv, r, s', hi, h => by
    rw [chrono_succ] at h
    split at h
    · cases h; exact hi
    · obtain ⟨s1, hp, h⟩ := Res.bind_eq_ok.1 h
      have h1 : HasClause x s1 := by
        unfold propIf at hp
        split at hp
        · cases hp; exact hi
        · exact HasClause.of_shape (s := tick { s with LEVEL := lv }) hi (shape_unitProp cfg f _ _ hp)
      unfold chronoAfter at h
      split at h
      · cases h; exact h1
      · split at h
        · cases h
          unfold popC
          dsimp only
          have e := shape_undoTheory cfg { tick s1 with nBacktracks := (tick s1).nBacktracks + 1, conflict := false }
            ((tick s1).LEVEL - 1)
          exact HasClause.of_shape (HasClause.of_shape (s := tick s1) h1 e) rfl
        · split at h
          · cases h
            refine h1.of_shape ?_
            unfold chooseEffect; split <;> rfl
          · rename_i l _
            obtain ⟨⟨r1, s2⟩, h2, h⟩ := Res.bind_eq_ok.1 h
            have hpush : HasClause x (pushC cfg (tick s1) l) := by
              refine h1.of_shape ?_
              unfold pushC
              rw [shape_reduceTheory]
              unfold chooseEffect; split <;> rfl
            have ih := HasClause.chrono f _ _ _ _ hpush h2
            dsimp only at h
            split at h
            · cases h; exact ih
            · split at h
              · cases h; exact ih
              · split at h
                · exact HasClause.chrono f _ _ _ _ (ih.of_shape (shape_reduceTheory cfg _ _)) h
                · cases h; exact ih

/-! ## Reading -/

theorem shape_addLit (cfg : Cfg S) (s : St S) (l : Lit) : shape (addLit cfg s l) = shape s := by
  have hb : shape (bump cfg s l) = shape s := by
    unfold bump
    split
    · rfl
    · split
      · rfl
      · apply foldl_keep (g := shape)
        intro s a; split <;> rfl
    · rfl
  unfold addLit
  dsimp only
  have : shape (match cfg.heur with
    | .BK => { s with cnt := upd s.cnt l (s.cnt l + 1) }
    | _ => bump cfg s l) = shape s := by
    split
    · rfl
    · exact hb
  split
  · exact this
  · exact this

theorem shape_addClause {cfg : Cfg S} (hw : cfg.watch = false) {s s' : St S} {ls : List Lit}
    (h : addClause cfg s ls = .ok s') :
    shape s' = (s.ncl + 1, upd s.ptr s.ncl s.nheap, s.nheap + 1, upd (fun h => (s.heap h).lits) s.nheap ls) := by
  unfold addClause at h
  have hf := foldl_keep (g := shape) (shape_addLit cfg) ls s
  generalize List.foldl (addLit cfg) s ls = s1 at h hf
  split at h
  · rw [hw] at h
    simp only [shape, Prod.mk.injEq] at hf
    obtain ⟨e1, e2, e3, e4⟩ := hf
    dsimp only at h
    simp only [Bool.false_eq_true, if_false] at h
    have key : ∀ t : St S, t.ncl = s1.ncl + 1 → t.ptr = upd s1.ptr s1.ncl s1.nheap → t.nheap = s1.nheap + 1 →
        t.heap = upd s1.heap s1.nheap (Cls.ofLits ls) →
        shape t = (s.ncl + 1, upd s.ptr s.ncl s.nheap, s.nheap + 1, upd (fun h => (s.heap h).lits) s.nheap ls) := by
      intro t t1 t2 t3 t4
      unfold shape
      rw [t1, t2, t3, t4, e1, e2, e3, ← e4]
      congr 3
      funext x
      simp only [upd]
      split <;> rfl
    split at h <;> cases h <;> exact key _ rfl rfl rfl rfl
  · cases h

theorem HasClause.buildItems {cfg : Cfg S} (hw : cfg.watch = false) {x : List Lit} : ∀ (is : List Item) (s s' : St S),
    buildItems cfg is s = .ok s' → (HasClause x s ∨ Item.clause x ∈ is) → HasClause x s'
  | [], s, s', h, hx => by
    cases h
    rcases hx with hx | hx
    · exact hx
    · cases hx
  | .dom d :: is, s, s', h, hx => by
    refine HasClause.buildItems hw is (addVar s d) s' h ?_
    rcases hx with hx | hx
    · exact .inl hx
    · rcases List.mem_cons.1 hx with e | e
      · cases e
      · exact .inr e
  | .clause ls :: is, s, s', h, hx => by
    unfold Mvl.buildItems at h
    obtain ⟨s1, h1, h⟩ := Res.bind_eq_ok.1 h
    have e := shape_addClause hw h1
    simp only [shape, Prod.mk.injEq] at e
    obtain ⟨e1, e2, e3, e4⟩ := e
    refine HasClause.buildItems hw is s1 s' h ?_
    rcases hx with ⟨id, a1, a2, a3⟩ | hx
    · have hne : id ≠ s.ncl := by omega
      left
      refine ⟨id, by omega, ?_, ?_⟩
      · rw [e2, e3]; simp only [upd, if_neg hne]; omega
      · show (s1.heap (s1.ptr id)).lits = x
        rw [e2]
        simp only [upd, if_neg hne]
        rw [congrFun e4 (s.ptr id)]
        simp only [upd]
        rw [if_neg (by omega)]
        exact a3
    · rcases List.mem_cons.1 hx with he | he
      · cases he
        left
        refine ⟨s.ncl, by omega, ?_, ?_⟩
        · rw [e2, e3]; simp only [upd, if_true]; omega
        · show (s1.heap (s1.ptr s.ncl)).lits = x
          rw [e2]
          simp only [upd, if_true]
          rw [congrFun e4 s.nheap]
          simp [upd]
      · exact .inr he

/-- A clause of the file is in the clause list at the end of every run. -/
theorem HasClause.search {cfg : Cfg S} (hw : cfg.watch = false) {x : List Lit} {is : List Item} {algo : Algo} {fuel : Nat}
    {s0 s : St S} {r : Nat} (hx : Item.clause x ∈ is) (hb : Mvl.buildItems cfg is (initSt cfg) = .ok s0)
    (hr : search cfg algo fuel s0 = .ok (r, s)) : HasClause x s := by
  have h0 := HasClause.buildItems hw is _ _ hb (.inr hx)
  cases algo with
  | chrono => exact h0.chrono _ _ _ _ _ hr
  | learn => exact h0.learnLoop hw _ _ _ _ _ hr

end Mvl
