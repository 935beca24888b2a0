import Verif.Proof.LInv

/-!
# Counters that only conflict handling touches

For every state whatsoever: nothing but the loops changes the number of backtracks and restarts, and nothing
but `learnClause` the number of missing returns.
-/

namespace Mvl

variable {S : Type}

/-- Backtracks, restarts, missing returns. -/
def stat (s : St S) : Nat × Nat × Nat := (s.nBacktracks, s.nRestarts, s.flowOff)

/-- The same together with the scores. -/
def statS (s : St S) : (Nat × Nat × Nat) × (Lit → S) := (stat s, s.score)

theorem foldl_keep {α β : Type} {g : St S → β} {f : St S → α → St S} (h : ∀ s a, g (f s a) = g s) :
    ∀ (l : List α) (s : St S), g (l.foldl f s) = g s
  | [], _ => rfl
  | a :: l, s => by rw [List.foldl_cons, foldl_keep h l, h]

theorem statS_satOne (cfg : Cfg S) (s : St S) (id : Nat) : statS (satOne cfg s id) = statS s := by
  unfold satOne
  split
  · dsimp only
    split
    · rw [foldl_keep (g := statS)]
      · rfl
      · intro s a; split <;> rfl
    · rfl
  · rfl

theorem statS_remOne (s : St S) (id : Nat) : statS (remOne s id) = statS s := by
  unfold remOne
  split
  · dsimp only
    split <;> split <;> rfl
  · rfl

theorem statS_addOne (cfg : Cfg S) (l : Lit) (s : St S) (id : Nat) : statS (addOne cfg l s id) = statS s := by
  unfold addOne
  split
  · dsimp only; split <;> rfl
  · rfl

theorem statS_unsatLit (cfg : Cfg S) (k : Int) (id : Nat) (s : St S) (l : Lit) : statS (unsatLit cfg k id s l) = statS s := by
  unfold unsatLit
  split
  · dsimp only; split <;> rfl
  · rfl

theorem statS_unsatOne (cfg : Cfg S) (k : Int) (s : St S) (id : Nat) : statS (unsatOne cfg k s id) = statS s := by
  unfold unsatOne
  split
  · exact foldl_keep (g := statS) (statS_unsatLit cfg k id) _ s
  · rfl

theorem statS_assign1 (cfg : Cfg S) (s : St S) (v d : Nat) (a : Asg) : statS (assign1 cfg s v d a) = statS s := by
  unfold assign1 removeLiteral
  rw [foldl_keep (g := statS) statS_remOne]
  unfold satisfyClauses
  rw [foldl_keep (g := statS) (statS_satOne cfg)]; rfl

theorem statS_excludeOne (cfg : Cfg S) (v : Nat) (s : St S) (i : Nat) : statS (excludeOne cfg v s i) = statS s := by
  unfold excludeOne
  split
  · rfl
  · split
    · exact statS_assign1 ..
    · rfl

theorem statS_reduceEq (cfg : Cfg S) (s : St S) (v d : Nat) : statS (reduceEq cfg s v d) = statS s := by
  unfold reduceEq
  dsimp only
  rw [foldl_keep (g := statS) (statS_excludeOne cfg v), foldl_keep (g := statS) (statS_excludeOne cfg v), statS_assign1]; rfl

theorem statS_reduceTheory (cfg : Cfg S) (s : St S) (l : Lit) : statS (reduceTheory cfg s l) = statS s := by
  unfold reduceTheory
  split
  · exact statS_reduceEq ..
  · dsimp only
    split
    · rw [statS_reduceEq]
      exact statS_assign1 cfg { s with decs := s.decs ++ [⟨l.var, l.val, false⟩] } l.var l.val .ne
    · rw [statS_assign1]; rfl

theorem statS_undoAdd (cfg : Cfg S) (k : Int) (s : St S) (a : Nat × Nat) : statS (undoAdd cfg k s a) = statS s := by
  unfold undoAdd addLiteral
  split
  · split <;> exact foldl_keep (g := statS) (statS_addOne cfg _) _ s
  · rfl

theorem statS_undoUnsat (cfg : Cfg S) (k : Int) (s : St S) (a : Nat × Nat) : statS (undoUnsat cfg k s a) = statS s := by
  unfold undoUnsat unsatisfyClauses
  split
  · dsimp only
    split
    · exact foldl_keep (g := statS) (statS_unsatOne cfg k) _ s
    · exact foldl_keep (g := statS) (statS_unsatOne cfg k) _ s
  · rfl

theorem statS_undoTheory (cfg : Cfg S) (s : St S) (k : Int) : statS (undoTheory cfg s k) = statS s := by
  unfold undoTheory
  dsimp only
  show statS (List.foldl (undoUnsat cfg k) _ _) = _
  rw [foldl_keep (g := statS) (statS_undoUnsat cfg k), foldl_keep (g := statS) (statS_undoAdd cfg k)]

theorem statS_swapPointer (s : St S) (id : Nat) (w : Lit) : statS (swapPointer s id w) = statS s := by
  unfold swapPointer
  dsimp only
  split
  · split
    · rfl
    · split
      · split
        · split <;> rfl
        · rfl
      · rfl
  · rfl

theorem statS_falsifyOne (l : Lit) (s : St S) (id : Nat) : statS (falsifyOne l s id) = statS s := by
  unfold falsifyOne
  dsimp only
  split
  · rfl
  · split
    · rfl
    · split
      · split
        · rfl
        · split
          · rfl
          · split
            · rw [statS_swapPointer]; rfl
            · rw [statS_swapPointer]
      · rfl

theorem statS_wassign1 (s : St S) (v d : Nat) (a : Asg) : statS (wassign1 s v d a) = statS s := by
  unfold wassign1 watchedFalsify
  rw [foldl_keep (g := statS) (statS_falsifyOne _)]; rfl

theorem statS_wexcludeOne (v : Nat) (s : St S) (i : Nat) : statS (wexcludeOne v s i) = statS s := by
  unfold wexcludeOne
  split
  · rfl
  · split
    · exact statS_wassign1 ..
    · rfl

theorem statS_wreduceEq (s : St S) (v d : Nat) : statS (wreduceEq s v d) = statS s := by
  unfold wreduceEq
  dsimp only
  rw [foldl_keep (g := statS) (statS_wexcludeOne v), foldl_keep (g := statS) (statS_wexcludeOne v), statS_wassign1]; rfl

theorem statS_wreduceTheory (s : St S) (l : Lit) : statS (wreduceTheory s l) = statS s := by
  unfold wreduceTheory
  split
  · exact statS_wreduceEq ..
  · dsimp only
    split
    · rw [statS_wreduceEq]
      exact statS_wassign1 { s with decs := s.decs ++ [⟨l.var, l.val, false⟩] } l.var l.val .ne
    · rw [statS_wassign1]; rfl

theorem statS_wundoTheory (s : St S) (k : Int) : statS (wundoTheory s k) = statS s := by
  unfold wundoTheory
  dsimp only
  show statS (List.foldl (wundoAtom k) _ _) = _
  rw [foldl_keep (g := statS)]
  intro s a; unfold wundoAtom; split <;> rfl

theorem statS_unitProp (cfg : Cfg S) : ∀ (f : Nat) (s s' : St S), unitProp cfg f s = .ok s' → statS s' = statS s
  | 0, _, _, h => by simp [unitProp] at h
  | f + 1, s, s', h => by
    unfold unitProp at h
    split at h
    · cases h; rfl
    · split at h
      · cases h; rfl
      · dsimp only at h
        split at h
        · split at h
          · split at h
            · rw [statS_unitProp cfg f _ _ h, statS_reduceTheory]; rfl
            · rw [statS_unitProp cfg f _ _ h]; rfl
          · rw [statS_unitProp cfg f _ _ h]; rfl
        · cases h

theorem statS_wunitProp (cfg : Cfg S) : ∀ (f : Nat) (s s' : St S), wunitProp cfg f s = .ok s' → statS s' = statS s
  | 0, _, _, h => by simp [wunitProp] at h
  | f + 1, s, s', h => by
    unfold wunitProp at h
    split at h
    · cases h
    · split at h
      · cases h; rfl
      · split at h
        · cases h; rfl
        · dsimp only at h
          split at h
          · split at h
            · cases h
            · split at h
              · rw [statS_wunitProp cfg f _ _ h]
                exact statS_wreduceTheory { s with unitClause := _, units := _ } _
              · split at h
                · split at h
                  · cases h
                  · split at h
                    · rw [statS_wunitProp cfg f _ _ h]
                      exact statS_wreduceTheory { s with unitClause := _, units := _ } _
                    · rw [statS_wunitProp cfg f _ _ h]; rfl
                · rw [statS_wunitProp cfg f _ _ h]; rfl
          · cases h

theorem statS_propIfL {cfg : Cfg S} {f : Nat} {s s' : St S} (h : propIfL cfg f s = .ok s') : statS s' = statS s := by
  unfold propIfL at h
  split at h
  · cases h; rfl
  · split at h
    · exact statS_wunitProp cfg f s s' h
    · exact statS_unitProp cfg f s s' h

theorem stat_bump (cfg : Cfg S) (s : St S) (l : Lit) : stat (bump cfg s l) = stat s := by
  unfold bump
  split
  · rfl
  · split
    · rfl
    · apply foldl_keep (g := stat)
      intro s a; split <;> rfl
  · rfl

theorem stat_learnLit (cfg : Cfg S) (cid : Nat) (s : St S) (l : Lit) : stat (learnLit cfg cid s l) = stat s := by
  unfold learnLit
  dsimp only
  rw [stat_bump]; split <;> rfl

theorem stat_learnClause (cfg : Cfg S) (s : St S) (c : Cls) (p : Option Nat) :
    stat (learnClause cfg s c p) = (s.nBacktracks, s.nRestarts, s.flowOff + 1) := by
  have key : ∀ t u : St S, stat t = stat u → stat { (halveScores cfg t) with flowOff := (halveScores cfg t).flowOff + 1 } =
      (u.nBacktracks, u.nRestarts, u.flowOff + 1) := by
    intro t u h
    have h' : stat (halveScores cfg t) = stat u := by
      rw [← h]; unfold halveScores; split <;> rfl
    simp only [stat, Prod.mk.injEq] at h' ⊢
    exact ⟨h'.1, h'.2.1, by rw [h'.2.2]⟩
  unfold learnClause
  dsimp only
  apply key
  rw [foldl_keep (g := stat) (stat_learnLit cfg _)]
  cases p <;> dsimp only <;> split
  all_goals try rfl
  all_goals
    cases c.w0 <;> dsimp only <;> split
    all_goals try rfl
    all_goals cases c.w1 <;> rfl

theorem stat_analyze (cfg : Cfg S) : ∀ (f : Nat) (s : St S) (c : Cls) (p : Option Nat) (s' : St S) (c' : Cls),
    analyze cfg f s c p = .ok (s', c') → stat s' = (s.nBacktracks, s.nRestarts, s.flowOff + 1)
  | 0, _, _, _, _, _, h => by simp [analyze] at h
  | f + 1, s, c, p, s', c', h => by
    unfold analyze at h
    obtain ⟨b, _, h⟩ := Res.bind_eq_ok.1 h
    cases b with
    | true =>
      rw [if_pos rfl] at h
      cases h
      exact stat_learnClause cfg s c p
    | false =>
      rw [if_neg (by simp)] at h
      obtain ⟨l, _, h⟩ := Res.bind_eq_ok.1 h
      obtain ⟨r, _, h⟩ := Res.bind_eq_ok.1 h
      exact stat_analyze cfg f s _ _ s' c' h

theorem RInv.of_stat {cfg : Cfg S} {s s' : St S} {rc : Int} (h : RInv cfg s rc) (e : stat s' = stat s) : RInv cfg s' rc := by
  simp only [stat, Prod.mk.injEq] at e
  exact h.congr e.2.1 e.1 e.2.2

theorem RInv.conflictNC {cfg : Cfg S} {f : Nat} {s : St S} {rc : Int} {p : St S × Int} (h : RInv cfg s rc)
    (hr : Mvl.conflictNC cfg f s rc = .ok p) : RInv cfg p.1 p.2 := by
  unfold Mvl.conflictNC at hr
  split at hr
  · cases hr
  · obtain ⟨⟨s1, c⟩, ha, hr⟩ := Res.bind_eq_ok.1 hr
    have e1 := stat_analyze cfg f _ _ _ _ _ ha
    simp only [stat, Prod.mk.injEq] at e1
    obtain ⟨b1, b2, b3⟩ := e1
    dsimp only at hr
    split at hr
    · rename_i hq
      cases hr
      rw [b1] at hq
      have e2 := congrArg Prod.fst (statS_undoTheory cfg { s1 with LEVEL := backtrackLevel s1 c.lits, nBacktracks := s1.nBacktracks + 1, conflict := false } 0)
      simp only [statS, stat, Prod.mk.injEq] at e2
      refine h.conf (by rw [← b1]; exact e2.1) (by rw [← b3]; exact e2.2.2)
        (Or.inl ⟨by push_cast at hq; exact hq, by show _ + 1 = _ + 1; rw [e2.2.1]; exact congrArg (· + 1) b2, ?_⟩)
      show ((undoTheory cfg _ 0).nBacktracks : Int) + _ = _
      rw [e2.1, ← b1]; push_cast; rfl
    · rename_i hq
      cases hr
      rw [b1] at hq
      have e2 := congrArg Prod.fst (statS_undoTheory cfg { s1 with LEVEL := backtrackLevel s1 c.lits, nBacktracks := s1.nBacktracks + 1, conflict := false }
        (backtrackLevel s1 c.lits))
      simp only [statS, stat, Prod.mk.injEq] at e2
      exact h.conf (by rw [← b1]; exact e2.1) (by rw [← b3]; exact e2.2.2)
        (Or.inr ⟨by push_cast at hq; exact hq, by rw [← b2]; exact e2.2.1, rfl⟩)

theorem RInv.conflictWL {cfg : Cfg S} {f : Nat} {s : St S} {rc : Int} {p : St S × Int} (h : RInv cfg s rc)
    (hr : Mvl.conflictWL cfg f s rc = .ok p) : RInv cfg p.1 p.2 := by
  unfold Mvl.conflictWL at hr
  split at hr
  · cases hr
  · obtain ⟨⟨s1, c⟩, ha, hr⟩ := Res.bind_eq_ok.1 hr
    have e1 := stat_analyze cfg f _ _ _ _ _ ha
    simp only [stat, Prod.mk.injEq] at e1
    obtain ⟨b1, b2, b3⟩ := e1
    dsimp only at hr
    obtain ⟨lv, _, hr⟩ := Res.bind_eq_ok.1 hr
    split at hr
    · rename_i hq
      cases hr
      rw [b1] at hq
      have e2 := congrArg Prod.fst (statS_wundoTheory { s1 with LEVEL := lv, nBacktracks := s1.nBacktracks + 1, conflict := false } 0)
      simp only [statS, stat, Prod.mk.injEq] at e2
      refine h.conf (by rw [← b1]; exact e2.1) (by rw [← b3]; exact e2.2.2)
        (Or.inl ⟨by push_cast at hq; exact hq, by show _ + 1 = _ + 1; rw [e2.2.1]; exact congrArg (· + 1) b2, ?_⟩)
      show ((wundoTheory _ 0).nBacktracks : Int) + _ = _
      rw [e2.1, ← b1]; push_cast; rfl
    · rename_i hq
      cases hr
      rw [b1] at hq
      have e2 := congrArg Prod.fst (statS_wundoTheory { s1 with LEVEL := lv, nBacktracks := s1.nBacktracks + 1, conflict := false } lv)
      simp only [statS, stat, Prod.mk.injEq] at e2
      exact h.conf (by rw [← b1]; exact e2.1) (by rw [← b3]; exact e2.2.2)
        (Or.inr ⟨by push_cast at hq; exact hq, by rw [← b2]; exact e2.2.1, rfl⟩)

theorem statS_chooseEffect (cfg : Cfg S) (s : St S) : statS (chooseEffect cfg s) = statS s := by
  unfold chooseEffect; split <;> rfl

theorem statS_decideNC {cfg : Cfg S} {s s' : St S} (h : decideNC cfg s = some s') : statS s' = statS s := by
  unfold decideNC at h
  split at h
  · cases h
  · cases h
    split
    · rw [statS_wreduceTheory]; exact statS_chooseEffect cfg s
    · rw [statS_reduceTheory]; exact statS_chooseEffect cfg s

/-- What every finished clause-learning loop satisfies, from any state. -/
structure LoopEnd (cfg : Cfg S) (r : Nat) (s : St S) : Prop where
  code : r ≤ 2
  clock : r = 1 → ∃ k, k < s.ticks ∧ cfg.late k = true
  rinv : ∃ rc, RInv cfg s rc

theorem learnLoop_end {cfg : Cfg S} : ∀ (f : Nat) (s : St S) (rc : Int) (r : Nat) (s' : St S), RInv cfg s rc →
    learnLoop cfg f s rc = .ok (r, s') → LoopEnd cfg r s'
  | 0, _, _, _, _, _, h => by simp [learnLoop] at h
  | f + 1, s, rc, r, s', hi, h => by
    rw [learnLoop_succ] at h
    split at h
    · cases h
    · split at h
      · rename_i hl
        cases h
        exact ⟨by omega, fun _ => ⟨s.ticks, Nat.lt_succ_self _, hl⟩, rc, hi.of_stat rfl⟩
      · split at h
        · cases h
          exact ⟨by omega, fun h => by omega, rc, hi.of_stat rfl⟩
        · obtain ⟨p, h1, h⟩ := Res.bind_eq_ok.1 h
          have hp : RInv cfg p.1 p.2 := by
            unfold confIf at h1
            have hi' : RInv cfg (tick s) rc := hi.of_stat rfl
            split at h1
            · split at h1
              · exact hi'.conflictWL h1
              · exact hi'.conflictNC h1
            · cases h1; exact hi'
          obtain ⟨s2, h2, h⟩ := Res.bind_eq_ok.1 h
          have hq : RInv cfg s2 p.2 := hp.of_stat (congrArg Prod.fst (statS_propIfL h2))
          unfold learnAfter at h
          split at h
          · cases h
          · split at h
            · exact learnLoop_end f _ _ _ _ hq h
            · split at h
              · cases h
                exact ⟨by omega, fun h => by omega, p.2, hq.of_stat (congrArg Prod.fst (statS_chooseEffect cfg s2))⟩
              · rename_i s3 hd
                exact learnLoop_end f _ _ _ _ (hq.of_stat (congrArg Prod.fst (statS_decideNC hd))) h

theorem chrono_end {cfg : Cfg S} : ∀ (f : Nat) (s : St S) (lv : Int) (r : Nat) (s' : St S),
    chrono cfg f s lv = .ok (r, s') → r ≤ 2 ∧ (r = 1 → ∃ k, k < s'.ticks ∧ cfg.late k = true)
  | 0, _, _, _, _, h => by simp [chrono] at h
  | f + 1, s, lv, r, s', h => by
    rw [chrono_succ] at h
    split at h
    · rename_i hl
      cases h
      exact ⟨by omega, fun _ => ⟨s.ticks, Nat.lt_succ_self _, hl⟩⟩
    · obtain ⟨s1, _, h⟩ := Res.bind_eq_ok.1 h
      unfold chronoAfter at h
      split at h
      · rename_i hl
        cases h
        exact ⟨by omega, fun _ => ⟨s1.ticks, Nat.lt_succ_self _, hl⟩⟩
      · split at h
        · cases h
          exact ⟨by omega, fun h => by omega⟩
        · split at h
          · cases h
            exact ⟨by omega, fun h => by omega⟩
          · obtain ⟨⟨r1, s2⟩, h1, h⟩ := Res.bind_eq_ok.1 h
            have ih := chrono_end f _ _ _ _ h1
            dsimp only at h
            split at h
            · cases h; exact ⟨by omega, fun h => by omega⟩
            · split at h
              · rename_i hr
                cases h
                exact ⟨by omega, fun _ => ih.2 hr⟩
              · split at h
                · exact chrono_end f _ _ _ _ h
                · cases h; exact ⟨by omega, fun h => by omega⟩

/-! ## The state after reading -/

theorem stat_addLit (cfg : Cfg S) (s : St S) (l : Lit) : stat (addLit cfg s l) = stat s := by
  unfold addLit
  dsimp only
  have : stat (match cfg.heur with
    | .BK => { s with cnt := upd s.cnt l (s.cnt l + 1) }
    | _ => bump cfg s l) = stat s := by
    split
    · rfl
    · exact stat_bump cfg s l
  split
  · exact this
  · exact this

theorem stat_addClause {cfg : Cfg S} {s s' : St S} {ls : List Lit} (h : addClause cfg s ls = .ok s') : stat s' = stat s := by
  unfold addClause at h
  have hf := foldl_keep (g := stat) (stat_addLit cfg) ls s
  generalize List.foldl (addLit cfg) s ls = s1 at h hf
  split at h
  · rw [← hf]
    dsimp only at h
    split at h
    · split at h
      · cases h
      · cases h; rfl
      · cases h; rfl
    · cases h; split <;> rfl
  · cases h

theorem stat_buildItems {cfg : Cfg S} : ∀ (is : List Item) (s s' : St S), buildItems cfg is s = .ok s' → stat s' = stat s
  | [], s, s', h => by cases h; rfl
  | .dom d :: is, s, s', h => stat_buildItems is (addVar s d) s' h
  | .clause ls :: is, s, s', h => by
    unfold buildItems at h
    obtain ⟨s1, h1, h⟩ := Res.bind_eq_ok.1 h
    rw [stat_buildItems is s1 s' h, stat_addClause h1]

theorem RInv.init {cfg : Cfg S} {s : St S} (h : stat s = (0, 0, 0)) : RInv cfg s cfg.restarts := by
  simp only [stat, Prod.mk.injEq] at h
  obtain ⟨h1, h2, h3⟩ := h
  refine ⟨?_, ?_, by rw [h1, h3]⟩
  · intro hp; rw [h1, h2]; simp; exact hp
  · intro hz; exact ⟨h2, hz⟩

theorem build_rinv {cfg : Cfg S} {P : Problem} {s : St S} (h : build cfg P = .ok s) : RInv cfg s cfg.restarts :=
  RInv.init (stat_buildItems _ _ _ h)

end Mvl
