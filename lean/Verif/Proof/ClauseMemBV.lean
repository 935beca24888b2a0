import Verif.Proof.ClauseMem

/-!
# The same for the bit-vector program
-/

namespace Mvl.BV

variable {S : Type}

/-- The state without clause objects and without the addresses in `CLAUSELIST`. -/
def BSt.noH (s : BSt S) : BSt S := { s with heap := fun _ => ⟨[], none, none⟩, nheap := 0, ptr := fun _ => 0 }

/-- The state with other clause objects. -/
abbrev BSt.withH (s : BSt S) (h : Nat → BCls) : BSt S := { s with heap := h }

theorem bbumps_eq (A : ScoreArith S) : ∀ (ls : List BLit) (t : BSt S),
    ∃ sc, ls.foldl (bbump A) t = { t with score := sc }
  | [], t => ⟨t.score, rfl⟩
  | l :: ls, t => by
    obtain ⟨sc, e⟩ := bbumps_eq A ls (bbump A t l)
    exact ⟨sc, by rw [List.foldl_cons, e]; rfl⟩

theorem bbumps_noH (A : ScoreArith S) : ∀ (ls : List BLit) (t : BSt S),
    (ls.foldl (bbump A) t).noH = ls.foldl (bbump A) t.noH
  | [], _ => rfl
  | l :: ls, t => by rw [List.foldl_cons, List.foldl_cons, bbumps_noH A ls]; rfl

/-- The rest of `learnClause` after the clause has its place. -/
theorem bfinish (A : ScoreArith S) (ls : List BLit) (t : BSt S) :
    (bhalve A (ls.foldl (bbump A) t)).noH = bhalve A (ls.foldl (bbump A) t.noH) ∧
    (bhalve A (ls.foldl (bbump A) t)).heap = t.heap ∧ (bhalve A (ls.foldl (bbump A) t)).ptr = t.ptr := by
  refine ⟨?_, ?_, ?_⟩
  · rw [← bbumps_noH]; rfl
  · obtain ⟨sc, e⟩ := bbumps_eq A ls t; rw [e]; rfl
  · obtain ⟨sc, e⟩ := bbumps_eq A ls t; rw [e]; rfl

theorem blearn_some {A : ScoreArith S} {s t : BSt S} {c : BCls} {p : Option Nat} (h : blearn A s c p = .ok t)
    (g : Nat → BCls) (a : Nat) : ∃ t', blearn A (s.withH g) c (some a) = .ok t' ∧ t'.noH = t.noH ∧ t'.heap = g ∧
      t'.ptr = upd s.ptr s.ncl a ∧ t.heap = (if p = none then upd s.heap s.nheap c else s.heap) ∧
      t.ptr = upd s.ptr s.ncl (p.getD s.nheap) := by
  unfold blearn at h ⊢
  dsimp only at h ⊢
  cases h0 : c.w0 with
  | none => rw [h0] at h; cases h
  | some w =>
    rw [h0] at h
    dsimp only at h ⊢
    by_cases hl : c.lits.length > 1
    · rw [if_pos hl] at h ⊢
      cases h1 : c.w1 with
      | none => rw [h1] at h; cases h
      | some w' =>
        rw [h1] at h
        dsimp only at h ⊢
        cases h
        refine ⟨_, rfl, ?_, (bfinish A _ _).2.1, (bfinish A _ _).2.2, ?_, ?_⟩
        · rw [(bfinish A _ _).1, (bfinish A _ _).1]; cases p <;> rfl
        · rw [(bfinish A _ _).2.1]; cases p <;> rfl
        · rw [(bfinish A _ _).2.2]; cases p <;> rfl
    · rw [if_neg hl] at h ⊢
      cases h
      refine ⟨_, rfl, ?_, (bfinish A _ _).2.1, (bfinish A _ _).2.2, ?_, ?_⟩
      · rw [(bfinish A _ _).1, (bfinish A _ _).1]; cases p <;> rfl
      · rw [(bfinish A _ _).2.1]; cases p <;> rfl
      · rw [(bfinish A _ _).2.2]; cases p <;> rfl

theorem bassignWatched_withH (s : BSt S) (h : Nat → BCls) (ls : List BLit) :
    assignWatched (s.withH h) ls = assignWatched s ls := rfl

theorem breadClause_live {s : BSt S} {L : Live} {a : Nat} (h : L a = true) : breadClause s L a = .ok (s.heap a) := by
  unfold breadClause; rw [if_pos h]

/-- What the analysis leaves, as for the other program. -/
structure BLeft (s : BSt S) (L0 : Live) (t : BSt S) (c : BCls) (t' : BSt S) (L' : Live) (b : Nat) : Prop where
  rest : t'.noH = t.noH
  list : ∀ i, i < s.ncl + 1 → t'.cl i = t.cl i
  place : t'.ptr = upd s.ptr s.ncl b
  learned : t'.heap b = c
  live : L' = upd L0 b true
  keep : ∀ q, L0 q = true → t'.heap q = s.heap q

theorem bmanalyze_succ (A : ScoreArith S) (new : Live → Nat) (f : Nat) (s : BSt S) (L : Live) (a : Nat) (free : Bool) :
    bmanalyze A new (f + 1) s L a free = (breadClause s L a >>= fun c => bpotent s c >>= fun p =>
      if p = true then blearn A s c (some a) >>= fun s => .ok (s, L, a)
      else match c.w0 with
      | none => .ub
      | some l =>
        if (s.node l).reason < 0 ∨ (s.node l).reason.toNat ≥ s.ncl then .ub
        else breadClause s L (s.ptr (s.node l).reason.toNat) >>= fun rc =>
          deleteIf free (upd L (new L) true) a >>= fun L3 =>
            bmanalyze A new f (s.withH (upd s.heap (new L) (assignWatched s (bresolve c.lits l rc.lits)))) L3 (new L) true) := rfl

theorem banalyze_succ (A : ScoreArith S) (f : Nat) (s : BSt S) (c : BCls) (p : Option Nat) :
    banalyze A (f + 1) s c p = (bpotent s c >>= fun q =>
      if q = true then blearn A s c p >>= fun s => .ok (s, c)
      else match c.w0 with
      | none => .ub
      | some l =>
        if (s.node l).reason < 0 ∨ (s.node l).reason.toNat ≥ s.ncl then .ub
        else banalyze A f s (assignWatched s (bresolve c.lits l (s.cl (s.node l).reason.toNat).lits)) none) := rfl

theorem bmanalyze_sim {A : ScoreArith S} {new : Live → Nat} (hn : AllocC new) {s : BSt S} {L0 : Live}
    (ha : ∀ i, i < s.ncl → s.ptr i < s.nheap) (hlive : ∀ i, i < s.ncl → L0 (s.ptr i) = true) (hfin : L0.Fin) :
    ∀ (f : Nat) (h : Nat → BCls) (L : Live) (a : Nat) (free : Bool) (p : Option Nat) (t : BSt S) (c : BCls),
      (∀ q, L0 q = true → h q = s.heap q) → L = upd L0 a true →
      ((free = true ∧ L0 a = false ∧ p = none) ∨ (free = false ∧ L0 a = true ∧ p = some a)) →
      banalyze A f s (h a) p = .ok (t, c) →
      ∃ t' L' b, bmanalyze A new f (s.withH h) L a free = .ok (t', L', b) ∧ BLeft s L0 t c t' L' b
  | 0, _, _, _, _, _, _, _, _, _, _, he => by cases he
  | f + 1, h, L, a, free, p, t, c, hh, hL, hmode, he => by
    have hLa : L a = true := by rw [hL]; unfold upd; rw [if_pos rfl]
    have hmono : ∀ q, L0 q = true → L q = true := by
      intro q hq; rw [hL]; unfold upd; split
      · rfl
      · exact hq
    rw [banalyze_succ] at he
    rw [bmanalyze_succ, breadClause_live hLa, Res.ok_bind]
    show ∃ t' L' b, (bpotent s (h a) >>= _) = _ ∧ _
    obtain ⟨q, hq, he⟩ := Res.bind_eq_ok.1 he
    rw [hq, Res.ok_bind]
    by_cases hq1 : q = true
    · rw [if_pos hq1] at he ⊢
      obtain ⟨t1, ht1, he⟩ := Res.bind_eq_ok.1 he
      cases he
      obtain ⟨t', e, e1, e2, e3, e4, e5⟩ := blearn_some ht1 h a
      rw [show (s.withH h).heap a = h a from rfl, e, Res.ok_bind]
      refine ⟨_, _, _, rfl, ⟨e1, ?_, e3, ?_, hL, ?_⟩⟩
      · intro i hi
        unfold BSt.cl
        rw [e2, e3, e4, e5]
        by_cases hi' : i = s.ncl
        · have e6 : ∀ x, upd s.ptr s.ncl x i = x := by intro x; unfold upd; rw [if_pos hi']
          rw [e6, e6]
          rcases hmode with ⟨_, h0, rfl⟩ | ⟨_, h0, rfl⟩
          · rw [if_pos rfl]; unfold upd; exact (if_pos rfl).symm
          · rw [if_neg nofun]; exact hh a h0
        · have hilt : i < s.ncl := by omega
          have e6 : ∀ x, upd s.ptr s.ncl x i = s.ptr i := by intro x; unfold upd; rw [if_neg hi']
          rw [e6, e6, hh _ (hlive i hilt)]
          split
          · unfold upd; rw [if_neg (Nat.ne_of_lt (ha i hilt))]
          · rfl
      · rw [e2]
      · intro q hq
        rw [e2]; exact hh q hq
    · rw [if_neg hq1] at he ⊢
      rw [show (s.withH h).heap a = h a from rfl]
      cases hl : (h a).w0 with
      | none => rw [hl] at he; cases he
      | some l =>
        rw [hl] at he
        dsimp only at he ⊢
        show ∃ t' L' b, (if (s.node l).reason < 0 ∨ (s.node l).reason.toNat ≥ s.ncl then _ else _) = _ ∧ _
        by_cases hr : (s.node l).reason < 0 ∨ (s.node l).reason.toNat ≥ s.ncl
        · rw [if_pos hr] at he; cases he
        · rw [if_neg hr] at he ⊢
          have hrl : L0 (s.ptr (s.node l).reason.toNat) = true := hlive _ (by omega)
          have hrd : breadClause (s.withH h) L ((s.withH h).ptr ((s.withH h).node l).reason.toNat) =
              .ok (s.cl (s.node l).reason.toNat) := by
            show breadClause (s.withH h) L (s.ptr (s.node l).reason.toNat) = _
            rw [breadClause_live (hmono _ hrl)]
            exact congrArg Res.ok (hh _ hrl)
          rw [hrd, Res.ok_bind]
          generalize hb : new L = b
          have hnb : L b = false := by
            obtain ⟨n, hbd⟩ : L.Fin := by rw [hL]; exact hfin.upd a
            rw [← hb]; exact hn L n hbd
          have hba : a ≠ b := by intro e; rw [e, hnb] at hLa; cases hLa
          have hL0b : L0 b = false := by
            cases hx : L0 b with
            | false => rfl
            | true => rw [hmono b hx] at hnb; cases hnb
          have hd : deleteIf free (upd L b true) a = .ok (upd L0 b true) := by
            unfold deleteIf deleteClause
            rcases hmode with ⟨rfl, h0, _⟩ | ⟨rfl, h0, _⟩
            · rw [if_pos rfl, if_pos (by unfold upd; rw [if_neg hba]; exact hLa)]
              congr 1
              funext q
              rw [hL]
              unfold upd
              by_cases hqa : q = a
              · rw [if_pos hqa, if_neg (by rw [hqa]; exact hba), hqa, h0]
              · rw [if_neg hqa]
                split <;> rfl
            · rw [if_neg nofun]
              congr 1
              funext q
              rw [hL]
              unfold upd
              split
              · rfl
              · split
                · rename_i hqa; rw [hqa, h0]
                · rfl
          rw [hd, Res.ok_bind]
          show ∃ t' L' b', bmanalyze A new f (s.withH (upd h b (assignWatched (s.withH h) (bresolve (h a).lits l _)))) _ b true = _ ∧ _
          refine bmanalyze_sim hn ha hlive hfin f _ _ b true none t c ?_ rfl (Or.inl ⟨rfl, hL0b, rfl⟩) ?_
          · intro q hq
            unfold upd
            rw [if_neg (by intro e; rw [e, hL0b] at hq; cases hq)]
            exact hh q hq
          · have : ∀ x, upd h b x b = x := by intro x; unfold upd; rw [if_pos rfl]
            rw [this, bassignWatched_withH]
            exact he

end Mvl.BV
