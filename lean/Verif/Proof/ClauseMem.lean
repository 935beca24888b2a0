import Verif.Model.ClauseMem
import Verif.Proof.WSound

/-!
# Conflict analysis with freed objects does what the analysis on values does
-/

namespace Mvl

variable {S : Type}

/-- `new` returns an address without an object, as long as there is one behind all objects. -/
def AllocC (new : Live → Nat) : Prop := ∀ (L : Live) (n : Nat), (∀ p, n ≤ p → L p = false) → L (new L) = false

/-- Finitely many objects. -/
def Live.Fin (L : Live) : Prop := ∃ n, ∀ p, n ≤ p → L p = false

theorem Live.Fin.upd {L : Live} (h : L.Fin) (a : Nat) : Live.Fin (upd L a true) := by
  obtain ⟨n, hn⟩ := h
  refine ⟨max n (a + 1), fun p hp => ?_⟩
  unfold Mvl.upd
  rw [if_neg (by omega)]
  exact hn p (by omega)

/-- The state without clause objects and without the addresses in `CLAUSELIST`. -/
def St.noH (s : St S) : St S := { s with heap := fun _ => default, nheap := 0, ptr := fun _ => 0 }

/-- The state with other clause objects. -/
abbrev St.withH (s : St S) (h : Nat → Cls) : St S := { s with heap := h }

/-! ## The other parts do not look at the objects -/

theorem maxLitLoop_withH (s : St S) (h : Nat → Cls) : ∀ (ls : List Lit) (i b : Nat) (m : Int),
    maxLitLoop (s.withH h) ls i b m = maxLitLoop s ls i b m
  | [], _, _, _ => rfl
  | l :: ls, i, b, m => by
    unfold maxLitLoop
    rw [maxLitLoop_withH s h ls, maxLitLoop_withH s h ls]

theorem assignWatchedLoop_withH (s : St S) (h : Nat → Cls) : ∀ (ls : List Lit) (w1 w2 : Option Lit) (m1 m2 : Int),
    assignWatchedLoop (s.withH h) ls w1 w2 m1 m2 = assignWatchedLoop s ls w1 w2 m1 m2
  | [], _, _, _, _ => rfl
  | l :: ls, w1, w2, m1, m2 => by
    unfold assignWatchedLoop
    rw [assignWatchedLoop_withH s h ls, assignWatchedLoop_withH s h ls, assignWatchedLoop_withH s h ls]

theorem assignWatched_withH (s : St S) (h : Nat → Cls) (c : Cls) : assignWatched (s.withH h) c = assignWatched s c := by
  unfold assignWatched
  rw [assignWatchedLoop_withH]

theorem potent_withH (cfg : Cfg S) (s : St S) (h : Nat → Cls) (c : Cls) : potent cfg (s.withH h) c = potent cfg s c := rfl

theorem lastFalse_withH (cfg : Cfg S) (s : St S) (h : Nat → Cls) (c : Cls) :
    lastFalse cfg (s.withH h) c = lastFalse cfg s c := by
  unfold lastFalse maxLit
  rw [maxLitLoop_withH]

theorem bumpVals_noH (cfg : Cfg S) (l : Lit) : ∀ (js : List Nat) (t : St S),
    (js.foldl (fun s j => if j ≠ l.val then
        ({ s with score := upd s.score ⟨l.var, j, true⟩ (cfg.arith.inc (s.score ⟨l.var, j, true⟩)) } : St S)
      else s) t).noH =
    js.foldl (fun s j => if j ≠ l.val then
        ({ s with score := upd s.score ⟨l.var, j, true⟩ (cfg.arith.inc (s.score ⟨l.var, j, true⟩)) } : St S)
      else s) t.noH
  | [], _ => rfl
  | j :: js, t => by
    rw [List.foldl_cons, List.foldl_cons, bumpVals_noH cfg l js]
    split <;> rfl

theorem bump_noH (cfg : Cfg S) (t : St S) (l : Lit) : (bump cfg t l).noH = bump cfg t.noH l := by
  unfold bump
  split
  · rfl
  · split
    · rfl
    · exact bumpVals_noH cfg l _ t
  · rfl

theorem learnLits_noH (cfg : Cfg S) (k : Nat) : ∀ (ls : List Lit) (t : St S),
    (ls.foldl (learnLit cfg k) t).noH = ls.foldl (learnLit cfg k) t.noH
  | [], _ => rfl
  | l :: ls, t => by
    rw [List.foldl_cons, List.foldl_cons, learnLits_noH cfg k ls]
    unfold learnLit
    dsimp only
    rw [bump_noH]
    split <;> rfl

theorem halveScores_noH (cfg : Cfg S) (t : St S) : (halveScores cfg t).noH = halveScores cfg t.noH := by
  unfold halveScores
  split <;> rfl

theorem learnRecs_noH (cfg : Cfg S) (k : Nat) (ls : List Lit) (t : St S) :
    (learnRecs cfg k ls t).noH = learnRecs cfg k ls t.noH := by
  unfold learnRecs
  rw [← learnLits_noH, ← halveScores_noH]
  rfl

theorem learnWatch_noH (cfg : Cfg S) (k : Nat) (c : Cls) (t : St S) :
    (learnWatch cfg k c t).noH = learnWatch cfg k c t.noH := by
  unfold learnWatch
  split
  · cases c.w0 <;> cases c.w1 <;> dsimp only <;> split <;> rfl
  · rfl

/-- Apart from the clause objects, learning does the same whatever the objects and wherever the new one is. -/
theorem learnClause_noH (cfg : Cfg S) (s : St S) (h : Nat → Cls) (c : Cls) (p q : Option Nat) :
    (learnClause cfg (s.withH h) c p).noH = (learnClause cfg s c q).noH := by
  rw [learnClause_split, learnClause_split, learnRecs_noH, learnRecs_noH, learnWatch_noH, learnWatch_noH]
  cases p <;> cases q <;> rfl

theorem learnClause_heap (cfg : Cfg S) (s : St S) (c : Cls) (p : Option Nat) :
    (learnClause cfg s c p).heap = upd s.heap (p.getD s.nheap) { c with numUn := 0 } := by
  obtain ⟨_, _, _, _, _, e⟩ := learnClause_any cfg s c p
  rw [e]

theorem learnClause_ptr (cfg : Cfg S) (s : St S) (c : Cls) (p : Option Nat) :
    (learnClause cfg s c p).ptr = upd s.ptr s.ncl (p.getD s.nheap) := by
  obtain ⟨_, _, _, _, _, e⟩ := learnClause_any cfg s c p
  rw [e]

/-! ## One step -/

theorem mreason_spec {new : Live → Nat} (hn : AllocC new) {s : St S} {h : Nat → Cls} {L0 L : Live}
    (hlive : ∀ i, i < s.ncl → L0 (s.ptr i) = true) (hh : ∀ q, L0 q = true → h q = s.heap q)
    (hL : ∀ q, L0 q = true → L q = true) (hfin : L.Fin) {l : Lit} {r : List Lit} (hr : reasonOf s l = .ok r) :
    ∃ h1 L1 ra, mreason new (s.withH h) L l = .ok (s.withH h1, L1, ra) ∧ (h1 ra).lits = r ∧ L1 ra = true ∧ L1.Fin ∧
      ((s.rsn l.var l.val < 0 ∧ L ra = false ∧ L1 = upd L ra true ∧ ∀ q, q ≠ ra → h1 q = h q) ∨
       (¬ s.rsn l.var l.val < 0 ∧ L1 = L ∧ h1 = h)) := by
  have hnew : L (new L) = false := by obtain ⟨n, hb⟩ := hfin; exact hn L n hb
  have fresh : ∀ ls : List Lit, s.rsn l.var l.val < 0 → ∃ h1 L1 ra,
      (Res.ok (newClause new (s.withH h) L (Cls.ofLits ls)) : Res _) = .ok (s.withH h1, L1, ra) ∧ (h1 ra).lits = ls ∧
      L1 ra = true ∧ L1.Fin ∧
      ((s.rsn l.var l.val < 0 ∧ L ra = false ∧ L1 = upd L ra true ∧ ∀ q, q ≠ ra → h1 q = h q) ∨
       (¬ s.rsn l.var l.val < 0 ∧ L1 = L ∧ h1 = h)) := by
    intro ls hneg
    refine ⟨upd h (new L) (Cls.ofLits ls), upd L (new L) true, new L, rfl, ?_, ?_, hfin.upd _, Or.inl ⟨hneg, hnew, rfl, ?_⟩⟩
    · unfold upd; rw [if_pos rfl]; rfl
    · unfold upd; rw [if_pos rfl]
    · intro q hq; unfold upd; rw [if_neg hq]
  unfold reasonOf at hr
  unfold mreason
  dsimp only at hr ⊢
  by_cases h1 : s.rsn l.var l.val = -1
  · rw [if_pos h1] at hr ⊢
    by_cases h2 : s.idx l.var l.val < 0
    · rw [if_pos h2] at hr; cases hr
    · rw [if_neg h2] at hr ⊢
      cases h3 : s.decs[(s.idx l.var l.val).toNat]? with
      | none => rw [h3] at hr; cases hr
      | some f =>
        rw [h3] at hr
        dsimp only at hr ⊢
        cases hr
        exact fresh _ (by omega)
  · rw [if_neg h1] at hr ⊢
    by_cases h2 : s.rsn l.var l.val = -2
    · rw [if_pos h2] at hr ⊢
      cases hr
      exact fresh _ (by omega)
    · rw [if_neg h2] at hr ⊢
      by_cases h3 : s.rsn l.var l.val < 0
      · rw [if_pos h3] at hr; cases hr
      · rw [if_neg h3] at hr ⊢
        by_cases h4 : (s.rsn l.var l.val).toNat < s.ncl
        · rw [if_pos h4] at hr ⊢
          cases hr
          refine ⟨h, L, s.ptr (s.rsn l.var l.val).toNat, rfl, ?_, hL _ (hlive _ h4), hfin, Or.inr ⟨h3, rfl, rfl⟩⟩
          rw [hh _ (hlive _ h4)]; rfl
        · rw [if_neg h4] at hr; cases hr

theorem readClause_live {s : St S} {L : Live} {a : Nat} (h : L a = true) : readClause s L a = .ok (s.heap a) := by
  unfold readClause; rw [if_pos h]

theorem manalyze_succ (cfg : Cfg S) (new : Live → Nat) (f : Nat) (s : St S) (L : Live) (a : Nat) (free : Bool) :
    manalyze cfg new (f + 1) s L a free = (readClause s L a >>= fun c => potent cfg s c >>= fun p =>
      if p = true then .ok (learnClause cfg s c (some a), L, a)
      else lastFalse cfg s c >>= fun l => mreason new s L l >>= fun x =>
        readClause x.1 x.2.1 a >>= fun c1 => readClause x.1 x.2.1 x.2.2 >>= fun rc =>
          let y := newClause new x.1 x.2.1 (Cls.ofLits (resolve c1.lits l rc.lits))
          deleteIf free y.2.1 a >>= fun L3 => deleteIf (s.rsn l.var l.val < 0) L3 x.2.2 >>= fun L4 =>
            manalyze cfg new f (massignWatched cfg y.1 y.2.2) L4 y.2.2 true) := rfl

theorem analyze_succ (cfg : Cfg S) (f : Nat) (s : St S) (c : Cls) (p : Option Nat) :
    analyze cfg (f + 1) s c p = (potent cfg s c >>= fun q =>
      if q = true then .ok (learnClause cfg s c p, c)
      else lastFalse cfg s c >>= fun l => reasonOf s l >>= fun reason =>
        analyze cfg f s (if cfg.watch then assignWatched s (Cls.ofLits (resolve c.lits l reason))
          else Cls.ofLits (resolve c.lits l reason)) none) := rfl

/-- What the analysis leaves: the state and clause list of the analysis on values, one more object (`b`, the learned clause)
unless it was there before, all others as they were. -/
structure Left (s : St S) (L0 : Live) (t : St S) (c : Cls) (t' : St S) (L' : Live) (b : Nat) : Prop where
  rest : t'.noH = t.noH
  list : ∀ i, i < s.ncl + 1 → t'.cl i = t.cl i
  place : t'.ptr = upd s.ptr s.ncl b
  learned : t'.heap b = { c with numUn := 0 }
  live : L' = upd L0 b true
  keep : ∀ q, L0 q = true → q ≠ b → t'.heap q = s.heap q

theorem manalyze_sim {cfg : Cfg S} {new : Live → Nat} (hn : AllocC new) {s : St S} {L0 : Live}
    (ha : ∀ i, i < s.ncl → s.ptr i < s.nheap) (hlive : ∀ i, i < s.ncl → L0 (s.ptr i) = true) (hfin : L0.Fin) :
    ∀ (f : Nat) (h : Nat → Cls) (L : Live) (a : Nat) (free : Bool) (p : Option Nat) (t : St S) (c : Cls),
      (∀ q, L0 q = true → h q = s.heap q) → L = upd L0 a true →
      ((free = true ∧ L0 a = false ∧ p = none) ∨ (free = false ∧ L0 a = true ∧ p = some a)) →
      analyze cfg f s (h a) p = .ok (t, c) →
      ∃ t' L' b, manalyze cfg new f (s.withH h) L a free = .ok (t', L', b) ∧ Left s L0 t c t' L' b
  | 0, _, _, _, _, _, _, _, _, _, _, he => by cases he
  | f + 1, h, L, a, free, p, t, c, hh, hL, hmode, he => by
    have hLa : L a = true := by rw [hL]; unfold upd; rw [if_pos rfl]
    have hmono : ∀ q, L0 q = true → L q = true := by
      intro q hq; rw [hL]; unfold upd; split
      · rfl
      · exact hq
    rw [analyze_succ] at he
    rw [manalyze_succ, readClause_live hLa, Res.ok_bind, potent_withH, lastFalse_withH]
    show ∃ t' L' b, (potent cfg s (h a) >>= _) = _ ∧ _
    obtain ⟨q, hq, he⟩ := Res.bind_eq_ok.1 he
    rw [hq, Res.ok_bind]
    by_cases hq1 : q = true
    · rw [if_pos hq1] at he ⊢
      cases he
      refine ⟨_, _, _, rfl, ⟨learnClause_noH cfg s h _ _ _, ?_, ?_, ?_, hL, ?_⟩⟩
      · intro i hi
        unfold St.cl
        rw [learnClause_heap, learnClause_heap, learnClause_ptr, learnClause_ptr]
        show upd h a _ (upd s.ptr s.ncl a i) = upd s.heap (p.getD s.nheap) _ (upd s.ptr s.ncl (p.getD s.nheap) i)
        by_cases hi' : i = s.ncl
        · unfold upd; rw [if_pos hi', if_pos hi', if_pos rfl, if_pos rfl]
        · have hilt : i < s.ncl := by omega
          have e1 : ∀ x, upd s.ptr s.ncl x i = s.ptr i := by intro x; unfold upd; rw [if_neg hi']
          rw [e1, e1]
          rcases hmode with ⟨_, h0, rfl⟩ | ⟨_, _, rfl⟩
          · have hne : s.ptr i ≠ a := by intro e; have := hlive i hilt; rw [e, h0] at this; cases this
            have hne' : s.ptr i ≠ (none : Option Nat).getD s.nheap := Nat.ne_of_lt (ha i hilt)
            unfold upd
            rw [if_neg hne, if_neg hne', hh _ (hlive i hilt)]
          · show upd h a _ (s.ptr i) = upd s.heap a _ (s.ptr i)
            unfold upd
            split
            · rfl
            · exact hh _ (hlive i hilt)
      · rw [learnClause_ptr]; rfl
      · rw [learnClause_heap]; show upd h a _ a = _; unfold upd; rw [if_pos rfl]
      · intro q hq hqa
        rw [learnClause_heap]
        show upd h a _ q = _
        unfold upd; rw [if_neg hqa]; exact hh q hq
    · rw [if_neg hq1] at he ⊢
      obtain ⟨l, hl, he⟩ := Res.bind_eq_ok.1 he
      obtain ⟨r, hr, he⟩ := Res.bind_eq_ok.1 he
      show ∃ t' L' b, (lastFalse cfg s (h a) >>= _) = _ ∧ _
      rw [hl, Res.ok_bind]
      obtain ⟨h1, L1, ra, e1, e2, e3, hfin1, e4⟩ := mreason_spec hn hlive hh hmono (by rw [hL]; exact hfin.upd a) hr
      rw [e1, Res.ok_bind]
      dsimp only
      have hL1a : L1 a = true := by
        rcases e4 with ⟨_, _, e, _⟩ | ⟨_, e, _⟩
        · rw [e]; unfold upd; split
          · rfl
          · exact hLa
        · rw [e]; exact hLa
      have h1a : h1 a = h a := by
        rcases e4 with ⟨_, e, _, e'⟩ | ⟨_, _, e⟩
        · apply e'; intro h'; rw [← h', hLa] at e; cases e
        · rw [e]
      have hL01 : ∀ q, L0 q = true → L1 q = true := by
        intro q hq
        rcases e4 with ⟨_, _, e, _⟩ | ⟨_, e, _⟩
        · rw [e]; unfold upd; split
          · rfl
          · exact hmono q hq
        · rw [e]; exact hmono q hq
      have hh1 : ∀ q, L0 q = true → h1 q = s.heap q := by
        intro q hq
        rcases e4 with ⟨_, e, _, e'⟩ | ⟨_, _, e⟩
        · rw [e' q, hh q hq]
          intro h'; have := hmono q hq; rw [h', e] at this; cases this
        · rw [e]; exact hh q hq
      rw [readClause_live hL1a, Res.ok_bind, readClause_live e3, Res.ok_bind]
      dsimp only [newClause]
      rw [h1a, e2]
      generalize hb : new L1 = b
      have hnb : L1 b = false := by obtain ⟨n, hbd⟩ := hfin1; rw [← hb]; exact hn L1 n hbd
      have hba : a ≠ b := by intro e; rw [e, hnb] at hL1a; cases hL1a
      have hbra : ra ≠ b := by intro e; rw [e, hnb] at e3; cases e3
      -- the first `delete`
      have hd1 : ∃ L3, deleteIf free (upd L1 b true) a = .ok L3 ∧
          (∀ q, q ≠ b → L3 q = if free = true ∧ q = a then false else L1 q) ∧ L3 b = true := by
        unfold deleteIf deleteClause
        cases free with
        | true =>
          rw [if_pos rfl, if_pos (by unfold upd; rw [if_neg hba]; exact hL1a)]
          refine ⟨_, rfl, ?_, ?_⟩
          · intro q hq
            unfold upd
            by_cases h' : q = a
            · rw [if_pos h', if_pos ⟨rfl, h'⟩]
            · rw [if_neg h', if_neg hq, if_neg (fun x => h' x.2)]
          · unfold upd; rw [if_neg (Ne.symm hba), if_pos rfl]
        | false =>
          rw [if_neg nofun]
          refine ⟨_, rfl, ?_, ?_⟩
          · intro q hq
            unfold upd
            rw [if_neg hq, if_neg nofun]
          · unfold upd; rw [if_pos rfl]
      obtain ⟨L3, e5, e6, e7⟩ := hd1
      rw [e5, Res.ok_bind]
      -- the second `delete`
      have hd2 : deleteIf (decide (s.rsn l.var l.val < 0)) L3 ra = .ok (upd L0 b true) := by
        have hL0b : L0 b = false := by
          cases hx : L0 b with
          | false => rfl
          | true => rw [hL01 b hx] at hnb; cases hnb
        have hL0a : free = true → L0 a = false := by
          intro hf
          rcases hmode with ⟨_, h', _⟩ | ⟨h', _, _⟩
          · exact h'
          · rw [hf] at h'; cases h'
        have hL0a' : free = false → L0 a = true := by
          intro hf
          rcases hmode with ⟨h', _, _⟩ | ⟨_, h', _⟩
          · rw [hf] at h'; cases h'
          · exact h'
        have hLq : ∀ q, (if free = true ∧ q = a then false else L q) = L0 q := by
          intro q
          rw [hL]
          by_cases hqa : q = a
          · subst hqa
            cases free with
            | true => rw [if_pos ⟨rfl, rfl⟩, hL0a rfl]
            | false => rw [if_neg nofun]; unfold upd; rw [if_pos rfl, hL0a' rfl]
          · rw [if_neg (fun x => hqa x.2)]; unfold upd; rw [if_neg hqa]
        unfold deleteIf
        rcases e4 with ⟨hneg, e8, e9, _⟩ | ⟨hneg, e9, _⟩
        · have hra : ra ≠ a := by intro e; rw [e, hLa] at e8; cases e8
          have hL0ra : L0 ra = false := by
            cases hx : L0 ra with
            | false => rfl
            | true => rw [hmono ra hx] at e8; cases e8
          rw [if_pos (decide_eq_true hneg)]
          unfold deleteClause
          rw [if_pos (by rw [e6 ra hbra, if_neg (fun x => hra x.2)]; exact e3)]
          congr 1
          funext q
          by_cases hqb : q = b
          · subst hqb
            unfold upd
            rw [if_neg (Ne.symm hbra), if_pos rfl, e7]
          · have e10 := e6 q hqb
            by_cases hqr : q = ra
            · subst hqr
              unfold upd
              rw [if_pos rfl, if_neg hqb, hL0ra]
            · unfold upd
              rw [if_neg hqr, if_neg hqb, e10, ← hLq q, e9]
              unfold upd
              rw [if_neg hqr]
        · rw [if_neg (by simpa using hneg)]
          congr 1
          funext q
          by_cases hqb : q = b
          · subst hqb; unfold upd; rw [if_pos rfl, e7]
          · unfold upd; rw [if_neg hqb, e6 q hqb, ← hLq q, e9]
      have hd2' : deleteIf (decide ((s.withH h).rsn l.var l.val < 0)) L3 ra = .ok (upd L0 b true) := hd2
      rw [hd2', Res.ok_bind]
      generalize hR : Cls.ofLits (resolve (h a).lits l r) = R at he ⊢
      have hL0b : L0 b = false := by
        cases hx : L0 b with
        | false => rfl
        | true => rw [hL01 b hx] at hnb; cases hnb
      have hst : massignWatched cfg ({ s.withH h1 with heap := upd h1 b R } : St S) b =
          s.withH (upd h1 b (if cfg.watch then assignWatched s R else R)) := by
        unfold massignWatched
        split
        · show ({ s with heap := upd (upd h1 b R) b (assignWatched (s.withH (upd h1 b R)) (upd h1 b R b)) } : St S) = _
          rw [assignWatched_withH]
          unfold St.withH
          congr 1
          funext q
          unfold upd
          rw [if_pos rfl]
          split <;> rfl
        · rfl
      rw [hst]
      refine manalyze_sim hn ha hlive hfin f _ _ b true none t c ?_ rfl (Or.inl ⟨rfl, hL0b, rfl⟩) ?_
      · intro q hq
        unfold upd
        rw [if_neg (by intro e; rw [e, hL0b] at hq; cases hq)]
        exact hh1 q hq
      · have : upd h1 b (if cfg.watch then assignWatched s R else R) b = (if cfg.watch then assignWatched s R else R) := by
          unfold upd; rw [if_pos rfl]
        rw [this]
        exact he

end Mvl
