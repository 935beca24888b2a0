import Verif.Proof.Stat

/-!
# States of the clause-learning searches on arbitrary input

No assumption on the formula and for both ways of propagating; used for facts about the scores.
-/

namespace Mvl

variable {S : Type}

/-- The states at the control points of `NonChronoBacktrack` and `WatchedLiterals`. -/
inductive LReach (cfg : Cfg S) (P : Problem) : St S → Int → Prop
  | start {s} : build cfg P = .ok s → LReach cfg P s cfg.restarts
  | tick {s rc} : LReach cfg P s rc → LReach cfg P (tick s) rc
  | conf {s rc f s' rc'} : LReach cfg P s rc → confIf cfg f s rc = .ok (s', rc') → LReach cfg P s' rc'
  | prop {s rc f s'} : LReach cfg P s rc → propIfL cfg f s = .ok s' → LReach cfg P s' rc
  | dec {s rc s'} : LReach cfg P s rc → decideNC cfg s = some s' → LReach cfg P s' rc

/-- A run goes through these states only. -/
theorem learnLoop_lreach {cfg : Cfg S} {P : Problem} : ∀ (f : Nat) (s : St S) (rc : Int) (r : Nat) (s' : St S),
    LReach cfg P s rc → learnLoop cfg f s rc = .ok (r, s') →
    ∃ t rc', LReach cfg P t rc' ∧ (s' = t ∨ decideNC cfg t = none ∧ r = 0 ∧ s' = chooseEffect cfg t)
  | 0, _, _, _, _, _, h => by simp [learnLoop] at h
  | f + 1, s, rc, r, s', hr, h => by
    rw [learnLoop_succ] at h
    split at h
    · cases h
    split at h
    · cases h; exact ⟨_, _, hr.tick, .inl rfl⟩
    split at h
    · cases h; exact ⟨_, _, hr.tick, .inl rfl⟩
    obtain ⟨⟨s1, rc1⟩, h1, h⟩ := Res.bind_eq_ok.1 h
    obtain ⟨s2, h2, h⟩ := Res.bind_eq_ok.1 h
    have r1 := hr.tick.conf h1
    have r2 := r1.prop h2
    unfold learnAfter at h
    split at h
    · cases h
    split at h
    · exact learnLoop_lreach f _ _ _ _ r2 h
    split at h
    · rename_i hd; cases h; exact ⟨_, _, r2, .inr ⟨hd, rfl, rfl⟩⟩
    · rename_i s3 hd; exact learnLoop_lreach f _ _ _ _ (r2.dec hd) h

/-! ### Scores -/

theorem learnLit_pos (cfg : Cfg S) {pos : S → Prop} (hg : cfg.arith.Good pos) (cid : Nat) (s : St S) (l : Lit)
    (h : ∀ l, pos (s.score l)) : ∀ l', pos ((learnLit cfg cid s l).score l') := by
  unfold learnLit
  dsimp only
  apply bump_pos cfg hg
  split
  · exact h
  · exact h

theorem learnLits_pos (cfg : Cfg S) {pos : S → Prop} (hg : cfg.arith.Good pos) (cid : Nat) : ∀ (ls : List Lit) (s : St S),
    (∀ l, pos (s.score l)) → ∀ l', pos ((ls.foldl (learnLit cfg cid) s).score l')
  | [], _, h => h
  | l :: ls, s, h => by
    rw [List.foldl_cons]
    exact learnLits_pos cfg hg cid ls _ (learnLit_pos cfg hg cid s l h)

theorem learnClause_pos (cfg : Cfg S) {pos : S → Prop} (hg : cfg.arith.Good pos) (s : St S) (c : Cls) (p : Option Nat)
    (h : ∀ l, pos (s.score l)) : ∀ l', pos ((learnClause cfg s c p).score l') := by
  unfold learnClause
  dsimp only
  have key : ∀ t : St S, (∀ l, pos (t.score l)) → ∀ l', pos ((halveScores cfg t).score l') := by
    intro t ht
    unfold halveScores
    split
    · intro l'; dsimp only; split
      · exact hg.2.2.1 _ (ht _)
      · exact ht _
    · intro l'; dsimp only; split
      · exact hg.2.2.1 _ (ht _)
      · exact ht _
    · exact ht
  apply key
  apply learnLits_pos cfg hg
  cases p <;> dsimp only <;> split
  all_goals try exact h
  all_goals
    cases c.w0 <;> dsimp only <;> split
    all_goals try exact h
    all_goals cases c.w1 <;> exact h

theorem analyze_pos (cfg : Cfg S) {pos : S → Prop} (hg : cfg.arith.Good pos) : ∀ (f : Nat) (s : St S) (c : Cls)
    (p : Option Nat) (r : St S × Cls), (∀ l, pos (s.score l)) → analyze cfg f s c p = .ok r → ∀ l, pos (r.1.score l)
  | 0, _, _, _, _, _, h => by simp [analyze] at h
  | f + 1, s, c, p, r, hp, h => by
    unfold analyze at h
    obtain ⟨b, _, h⟩ := Res.bind_eq_ok.1 h
    cases b with
    | true =>
      rw [if_pos rfl] at h
      cases h
      exact learnClause_pos cfg hg s c p hp
    | false =>
      rw [if_neg (by simp)] at h
      obtain ⟨l, _, h⟩ := Res.bind_eq_ok.1 h
      obtain ⟨q, _, h⟩ := Res.bind_eq_ok.1 h
      exact analyze_pos cfg hg f s _ _ r hp h

theorem confIf_pos (cfg : Cfg S) {pos : S → Prop} (hg : cfg.arith.Good pos) {f : Nat} {s : St S} {rc : Int}
    {p : St S × Int} (hp : ∀ l, pos (s.score l)) (h : confIf cfg f s rc = .ok p) : ∀ l, pos (p.1.score l) := by
  unfold confIf at h
  split at h
  · split at h
    · unfold conflictWL at h
      split at h
      · cases h
      obtain ⟨⟨s1, c⟩, ha, h⟩ := Res.bind_eq_ok.1 h
      have h1 := analyze_pos cfg hg _ _ _ _ _ hp ha
      dsimp only at h
      obtain ⟨lv, _, h⟩ := Res.bind_eq_ok.1 h
      split at h
      · cases h
        have e : (wundoTheory { s1 with LEVEL := lv, nBacktracks := s1.nBacktracks + 1, conflict := false } 0).score = s1.score :=
          congrArg Prod.snd (statS_wundoTheory { s1 with LEVEL := lv, nBacktracks := s1.nBacktracks + 1, conflict := false } 0)
        intro l; show pos ((wundoTheory _ _).score l); rw [e]; exact h1 l
      · cases h
        have e : (wundoTheory { s1 with LEVEL := lv, nBacktracks := s1.nBacktracks + 1, conflict := false } lv).score = s1.score :=
          congrArg Prod.snd (statS_wundoTheory { s1 with LEVEL := lv, nBacktracks := s1.nBacktracks + 1, conflict := false } lv)
        intro l; show pos ((wundoTheory _ _).score l); rw [e]; exact h1 l
    · unfold conflictNC at h
      split at h
      · cases h
      obtain ⟨⟨s1, c⟩, ha, h⟩ := Res.bind_eq_ok.1 h
      have h1 := analyze_pos cfg hg _ _ _ _ _ hp ha
      dsimp only at h
      split at h
      · cases h
        have e := congrArg Prod.snd (statS_undoTheory cfg { s1 with LEVEL := backtrackLevel s1 c.lits, nBacktracks := s1.nBacktracks + 1, conflict := false } 0)
        intro l; show pos ((undoTheory cfg _ _).score l)
        have e' := congrFun e l
        unfold statS at e'
        dsimp only at e'
        rw [e']; exact h1 l
      · cases h
        have e := congrArg Prod.snd (statS_undoTheory cfg { s1 with LEVEL := backtrackLevel s1 c.lits, nBacktracks := s1.nBacktracks + 1, conflict := false } (backtrackLevel s1 c.lits))
        intro l; show pos ((undoTheory cfg _ _).score l)
        have e' := congrFun e l
        unfold statS at e'
        dsimp only at e'
        rw [e']; exact h1 l
  · cases h; exact hp

theorem addClause_pos (cfg : Cfg S) {pos : S → Prop} (hg : cfg.arith.Good pos) {s s' : St S} {ls : List Lit}
    (hp : ∀ l, pos (s.score l)) (h : addClause cfg s ls = .ok s') : ∀ l, pos (s'.score l) := by
  have hf : ∀ (ls : List Lit) (s : St S), (∀ l, pos (s.score l)) → ∀ l, pos ((ls.foldl (addLit cfg) s).score l) := by
    intro ls
    induction ls with
    | nil => intro s h; exact h
    | cons l ls ih => intro s h; rw [List.foldl_cons]; exact ih _ (addLit_pos cfg hg s l h)
  have h1 := hf ls s hp
  unfold addClause at h
  split at h
  · dsimp only at h
    split at h
    · split at h
      · cases h
      · cases h; unfold addWatch; dsimp only; split <;> exact h1
      · cases h; unfold addWatch; dsimp only; split <;> exact h1
    · cases h; split <;> exact h1
  · cases h

theorem buildItems_pos (cfg : Cfg S) {pos : S → Prop} (hg : cfg.arith.Good pos) : ∀ (is : List Item) (s s' : St S),
    (∀ l, pos (s.score l)) → buildItems cfg is s = .ok s' → ∀ l, pos (s'.score l)
  | [], s, s', hp, h => by cases h; exact hp
  | .dom d :: is, s, s', hp, h => buildItems_pos cfg hg is (addVar s d) s' hp h
  | .clause ls :: is, s, s', hp, h => by
    unfold buildItems at h
    obtain ⟨s1, h1, h⟩ := Res.bind_eq_ok.1 h
    exact buildItems_pos cfg hg is _ s' (addClause_pos cfg hg hp h1) h

theorem LReach.pos {cfg : Cfg S} {P : Problem} {pos : S → Prop} (hg : cfg.arith.Good pos) {s : St S} {rc : Int}
    (h : LReach cfg P s rc) : ∀ l, pos (s.score l) := by
  induction h with
  | start hb => exact buildItems_pos cfg hg _ _ _ (fun _ => hg.1) hb
  | tick _ ih => exact ih
  | conf _ hc ih => exact confIf_pos cfg hg ih hc
  | prop _ hp ih =>
    have e := congrArg Prod.snd (statS_propIfL hp)
    intro l
    have e' := congrFun e l
    unfold statS at e'
    dsimp only at e'
    rw [e']; exact ih l
  | dec _ hd ih =>
    have e := congrArg Prod.snd (statS_decideNC hd)
    intro l
    have e' := congrFun e l
    unfold statS at e'
    dsimp only at e'
    rw [e']; exact ih l

end Mvl
