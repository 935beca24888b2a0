import Verif.Proof.BVAny
import Verif.Proof.BVChoose

/-!
# Bit-vector variant: clauses of the file and restarts

With restarts a clause of the file can end up with one falsified and one undecided watch without anybody noticing, but never
with all its watches falsified: an update that is cut short by a conflict is undone before the next one, because the level to
return to is below the level of the conflict.  A search that stops only when all domains have one value left (`-vsids`)
therefore ends with all clauses of the file satisfied.

`old` are the domains before the last reduction: while the records of its variable are being visited, and after a conflict,
the watches are only known to be good for these.
-/

namespace Mvl.BV

variable {S : Type}

/-- No value of the literal is in the domain. -/
def FalseIn (d : Nat → Bits) (l : BLit) : Prop := ∀ j, l.vals.getLsbD j = true → (d l.var).getLsbD j = false

/-- All watches are falsified. -/
def Bad (d : Nat → Bits) (c : BCls) : Prop := ∀ w, IsW c w → FalseIn d w

/-- Some record of the variable leads to the clause object. -/
def Cov (s : BSt S) (p v : Nat) : Prop := ∃ i, i < s.ncl ∧ s.ptr i = p ∧ i ∈ s.recs v

/-- `m` is the number of clauses of the file, `L` are their literals, `rem` the records still to be visited. -/
structure VS (m : Nat) (L : Nat → List BLit) (pos : S → Prop) (old : Nat → Bits) (rem : List Nat) (s : BSt S) : Prop where
  le : m ≤ s.ncl
  lits : ∀ id, id < m → (s.cl id).lits = L id
  up : ∀ v, s.IsVar v → ∀ j, (s.cur v).getLsbD j = true → (old v).getLsbD j = true
  lok : ∀ id, id < s.ncl → ∀ l ∈ (s.cl id).lits, LOK s l
  wok : ∀ id, id < m → WOK (s.cl id)
  cov : ∀ id, id < m → ∀ w, IsW (s.cl id) w → Cov s (s.ptr id) w.var
  good : ∀ id, id < m → ¬ Bad old (s.cl id)
  todo : s.conflict = false → ∀ id, id < m → Bad s.cur (s.cl id) → ∃ i ∈ rem, s.ptr i = s.ptr id
  lev0 : 0 ≤ s.LEVEL
  lev : ∀ v, ∀ n ∈ s.nodes v, 0 ≤ n.level
  cover : ∀ v, s.IsVar v → ∀ j, j < s.size v → (s.cur v).getLsbD j = true ∨ ∃ n ∈ s.nodes v, n.values.getLsbD j = true
  confl : s.conflict = true → ∃ b, (s.cl s.conflicting.toNat).w1 = some b ∧ FalseNow s b
  score : ∀ v j, pos (s.score v j)

/-- What an update leaves alone. -/
structure Same (s s' : BSt S) : Prop where
  nv : s'.nv = s.nv
  size : s'.size = s.size
  cur : s'.cur = s.cur
  nodes : s'.nodes = s.nodes
  LEVEL : s'.LEVEL = s.LEVEL
  ncl : s'.ncl = s.ncl
  ptr : s'.ptr = s.ptr
  score : s'.score = s.score

theorem Same.refl (s : BSt S) : Same s s := ⟨rfl, rfl, rfl, rfl, rfl, rfl, rfl, rfl⟩

theorem Same.trans {s s' s'' : BSt S} (h : Same s s') (h' : Same s' s'') : Same s s'' :=
  ⟨h'.1.trans h.1, h'.2.trans h.2, h'.3.trans h.3, h'.4.trans h.4, h'.5.trans h.5, h'.6.trans h.6, h'.7.trans h.7, h'.8.trans h.8⟩

theorem VS.congr {m : Nat} {L : Nat → List BLit} {pos : S → Prop} {old : Nat → Bits} {rem : List Nat} {s s' : BSt S} (h : VS m L pos old rem s)
    (hs : Same s s') (h1 : s'.heap = s.heap) (h2 : s'.recs = s.recs) (h3 : s'.conflict = s.conflict)
    (h4 : s'.conflicting = s.conflicting) : VS m L pos old rem s' := by
  have hc : s'.cl = s.cl := by funext i; unfold BSt.cl; rw [hs.ptr, h1]
  refine ⟨by rw [hs.ncl]; exact h.le, by rw [hc]; exact h.lits, ?_, ?_, by rw [hc]; exact h.wok, ?_, by rw [hc]; exact h.good, ?_, ?_, ?_, ?_, ?_, ?_⟩
  · intro v hv; rw [hs.cur]; exact h.up v ((IsVar.congr hs.nv).1 hv)
  · intro id hid l hl
    rw [hc] at hl
    exact LOK.congr hs.nv hs.size (h.lok id (hs.ncl ▸ hid) l hl)
  · intro id hid w hw
    rw [hc] at hw
    unfold Cov
    rw [hs.ncl, hs.ptr, h2]
    exact h.cov id hid w hw
  · rw [h3, hc, hs.cur, hs.ptr]; exact h.todo
  · rw [hs.LEVEL]; exact h.lev0
  · rw [hs.nodes]; exact h.lev
  · intro v hv; rw [hs.cur, hs.nodes, hs.size]; exact h.cover v ((IsVar.congr hs.nv).1 hv)
  · rw [h3, hc, h4]
    intro hh
    obtain ⟨b, h5, h6⟩ := h.confl hh
    exact ⟨b, h5, (FalseNow.congr hs.cur).2 h6⟩
  · rw [hs.score]; exact h.score

/-- After a visit of the record `i`. -/
theorem VS.put {m : Nat} {L : Nat → List BLit} {pos : S → Prop} {old : Nat → Bits} {rem : List Nat} {s s' : BSt S} {i : Nat}
    (h : VS m L pos old (i :: rem) s) (hi : i < s.ncl) (hs : Same s s') (hconf : s.conflict = false)
    (hheap : ∀ p, p ≠ s.ptr i → s'.heap p = s.heap p) (hlits : (s'.cl i).lits = (s.cl i).lits)
    (hcov : ∀ p, p ≠ s.ptr i → ∀ u, Cov s p u → Cov s' p u)
    (hown : WOK (s.cl i) → (∀ w, IsW (s.cl i) w → Cov s (s.ptr i) w.var) → ¬ Bad old (s.cl i) →
      WOK (s'.cl i) ∧ (∀ w, IsW (s'.cl i) w → Cov s' (s.ptr i) w.var) ∧ ¬ Bad old (s'.cl i) ∧
        (s'.conflict = false → ¬ Bad s.cur (s'.cl i)))
    (hcf : s'.conflict = true → ∃ b, (s'.cl s'.conflicting.toNat).w1 = some b ∧ FalseNow s b) :
    VS m L pos old rem s' := by
  have hptr := hs.ptr
  have heq : ∀ id, s.ptr id = s.ptr i → s'.cl id = s'.cl i := fun id e => by unfold BSt.cl; rw [hptr, e]
  have heq0 : ∀ id, s.ptr id = s.ptr i → s.cl id = s.cl i := fun id e => by unfold BSt.cl; rw [e]
  have hne : ∀ id, s.ptr id ≠ s.ptr i → s'.cl id = s.cl id := fun id e => by unfold BSt.cl; rw [hptr, hheap _ e]
  have own : ∀ id, id < m → s.ptr id = s.ptr i → WOK (s'.cl i) ∧ (∀ w, IsW (s'.cl i) w → Cov s' (s.ptr i) w.var) ∧
      ¬ Bad old (s'.cl i) ∧ (s'.conflict = false → ¬ Bad s.cur (s'.cl i)) := by
    intro id hid e
    refine hown ?_ ?_ ?_
    · rw [← heq0 id e]; exact h.wok id hid
    · rw [← heq0 id e, ← e]; exact h.cov id hid
    · rw [← heq0 id e]; exact h.good id hid
  refine ⟨by rw [hs.ncl]; exact h.le, ?_, ?_, ?_, ?_, ?_, ?_, ?_, ?_, ?_, ?_, ?_, ?_⟩
  · intro id hid
    by_cases e : s.ptr id = s.ptr i
    · rw [heq id e, hlits, ← heq0 id e]; exact h.lits id hid
    · rw [hne id e]; exact h.lits id hid
  · intro v hv; rw [hs.cur]; exact h.up v ((IsVar.congr hs.nv).1 hv)
  · intro id hid l hl
    rw [hs.ncl] at hid
    refine LOK.congr hs.nv hs.size ?_
    by_cases e : s.ptr id = s.ptr i
    · rw [heq id e, hlits] at hl; exact h.lok i hi l hl
    · rw [hne id e] at hl; exact h.lok id hid l hl
  · intro id hid
    by_cases e : s.ptr id = s.ptr i
    · rw [heq id e]; exact (own id hid e).1
    · rw [hne id e]; exact h.wok id hid
  · intro id hid w hw
    rw [hptr]
    by_cases e : s.ptr id = s.ptr i
    · rw [heq id e] at hw; rw [e]; exact (own id hid e).2.1 w hw
    · rw [hne id e] at hw; exact hcov _ e _ (h.cov id hid w hw)
  · intro id hid
    by_cases e : s.ptr id = s.ptr i
    · rw [heq id e]; exact (own id hid e).2.2.1
    · rw [hne id e]; exact h.good id hid
  · intro hc id hid
    rw [hs.cur, hptr]
    by_cases e : s.ptr id = s.ptr i
    · rw [heq id e]; intro hb; exact absurd hb ((own id hid e).2.2.2 hc)
    · rw [hne id e]
      intro hb
      obtain ⟨k, hk, h1⟩ := h.todo hconf id hid hb
      rcases List.mem_cons.1 hk with rfl | hk
      · exact absurd h1.symm e
      · exact ⟨k, hk, h1⟩
  · rw [hs.LEVEL]; exact h.lev0
  · rw [hs.nodes]; exact h.lev
  · intro v hv; rw [hs.cur, hs.nodes, hs.size]; exact h.cover v ((IsVar.congr hs.nv).1 hv)
  · intro hc
    obtain ⟨b, h1, h2⟩ := hcf hc
    exact ⟨b, h1, (FalseNow.congr hs.cur).2 h2⟩
  · rw [hs.score]; exact h.score

theorem satW_val {s : BSt S} {l : BLit} {x : Nat} (h : satW s (some l) = .ok x) : bsat s l = x := by
  by_cases hv : l.var ≤ s.nv
  · have : satW s (some l) = .ok (bsat s l) := if_pos hv
    rw [this] at h
    injection h
  · have : satW s (some l) = .ub := if_neg hv
    rw [this] at h
    cases h

theorem not_falseNow {P : Problem} {s : BSt S} (hA : AInv P s) {l : BLit} (hl : s.IsVar l.var) (h : bsat s l ≠ 0) :
    ¬ FalseNow s l := by
  intro hf
  by_cases ht : TrueNow s l
  · obtain ⟨j, hj⟩ := hA.live _ hl
    have := hf j (ht j hj)
    rw [hj] at this; cases this
  · exact h (bsat_zero.2 ⟨ht, hf⟩)

theorem VS.bad_cur {m : Nat} {L : Nat → List BLit} {pos : S → Prop} {old : Nat → Bits} {rem : List Nat} {s : BSt S} (h : VS m L pos old rem s)
    {c : BCls} (hc : ∀ w, IsW c w → s.IsVar w.var) (hb : Bad old c) : Bad s.cur c := by
  intro w hw j hj
  cases hx : (s.cur w.var).getLsbD j
  · rfl
  · have := h.up _ (hc w hw) j hx
    rw [hb w hw j hj] at this; cases this

theorem bad_swap {d : Nat → Bits} {c : BCls} : Bad d { c with w0 := c.w1, w1 := c.w0 } ↔ Bad d c :=
  ⟨fun h w hw => h w (isW_swap.2 hw), fun h w hw => h w (isW_swap.1 hw)⟩

theorem cl_setCl_self (s : BSt S) (i : Nat) (c : BCls) : (s.setCl i c).cl i = c := by
  unfold BSt.cl BSt.setCl upd
  dsimp only
  rw [if_pos rfl]

/-- The visit of a record that ends in `swapPointer`: both watches are not satisfied, the first is falsified. -/
theorem swapPointer_vs {P : Problem} {m : Nat} {L : Nat → List BLit} {pos : S → Prop} {old : Nat → Bits} {rem : List Nat} {s s1 : BSt S} {v i : Nat}
    (hA : AInv P s) (h : VS m L pos old (i :: rem) s) (hi : i < s.ncl) (hconf : s.conflict = false)
    (hs1 : s1 = s ∨ s1 = s.setCl i { s.cl i with w0 := (s.cl i).w1, w1 := (s.cl i).w0 })
    (hnt : ∀ w, IsW (s.cl i) w → bsat s w ≠ 1) :
    SatU True (swapPointer s1 v i) fun s' => VS m L pos old rem s' ∧ Same s s' := by
  have hsame : Same s s1 := by rcases hs1 with rfl | rfl <;> exact ⟨rfl, rfl, rfl, rfl, rfl, rfl, rfl, rfl⟩
  have hr1 : s1.recs = s.recs := by rcases hs1 with rfl | rfl <;> rfl
  have hcf1 : s1.conflict = false := by rcases hs1 with rfl | rfl <;> exact hconf
  have hheap1 : ∀ p, p ≠ s.ptr i → s1.heap p = s.heap p := by
    rcases hs1 with rfl | rfl
    · exact fun _ _ => rfl
    · intro p hp; show upd s.heap (s.ptr i) _ p = _; unfold upd; rw [if_neg hp]
  have hcl1 : s1.cl i = s.cl i ∨ s1.cl i = { s.cl i with w0 := (s.cl i).w1, w1 := (s.cl i).w0 } := by
    rcases hs1 with rfl | rfl
    · exact Or.inl rfl
    · exact Or.inr (cl_setCl_self _ _ _)
  have hlits1 : (s1.cl i).lits = (s.cl i).lits := by rcases hcl1 with e | e <;> rw [e]
  have hw1 : ∀ w, IsW (s1.cl i) w ↔ IsW (s.cl i) w := by
    intro w
    rcases hcl1 with e | e <;> rw [e]
    exact isW_swap
  have hbsat : ∀ l, bsat s1 l = bsat s l := by intro l; unfold bsat; rw [hsame.cur]
  have hmem : ∀ w, IsW (s.cl i) w → w ∈ (s.cl i).lits := (hA.cls i hi).mem
  have hvar : ∀ l ∈ (s.cl i).lits, s.IsVar l.var := fun l hl => (h.lok i hi l hl).isVar
  unfold swapPointer
  dsimp only
  cases h0 : (s1.cl i).w0 with
  | none => exact True.intro
  | some a =>
    cases h1 : (s1.cl i).w1 with
    | none => exact True.intro
    | some b =>
      dsimp only
      have hwa : IsW (s.cl i) a := (hw1 a).1 (Or.inl h0)
      have hwb : IsW (s.cl i) b := (hw1 b).1 (Or.inr h1)
      refine SatU.bind (p := fun x => satW s1 (some b) = .ok x) (SatU.trivial fun _ e => e) fun x hx => ?_
      have hx := satW_val hx
      rw [hbsat] at hx
      have hsplit : x = 2 ∨ x = 0 := by
        have := hnt b hwb
        rw [hx] at this
        unfold bsat at hx
        split at hx
        · omega
        · split at hx <;> omega
      split
      · rename_i hx2
        have hnb : ¬ FalseNow s b := (bsat_two.1 (hx.trans hx2)).2
        cases hf : (s1.cl i).lits.find? fun l => bsat s1 l ≠ 0 ∧ l.var ≠ b.var with
        | none =>
          refine ⟨?_, hsame.trans ⟨rfl, rfl, rfl, rfl, rfl, rfl, rfl, rfl⟩⟩
          refine h.put (s' := { s1 with units := i :: s1.units }) hi (hsame.trans ⟨rfl, rfl, rfl, rfl, rfl, rfl, rfl, rfl⟩) hconf
            hheap1 hlits1 ?_ ?_ ?_
          · rintro p _ u ⟨k, e1, e2, e3⟩
            exact ⟨k, by rw [show ({ s1 with units := i :: s1.units } : BSt S).ncl = s.ncl from hsame.ncl]; exact e1,
              (congrFun hsame.ptr k).trans e2, by rw [show ({ s1 with units := i :: s1.units } : BSt S).recs = s.recs from hr1]; exact e3⟩
          · intro hwok hcov hbad
            refine ⟨?_, ?_, ?_, ?_⟩
            · show WOK (s1.cl i)
              rcases hcl1 with e | e <;> rw [e]
              · exact hwok
              · apply hwok.swap
                intro hn
                rw [e] at h0; rw [hn] at h0; cases h0
            · intro w hw
              obtain ⟨k, e1, e2, e3⟩ := hcov w ((hw1 w).1 hw)
              exact ⟨k, by rw [show ({ s1 with units := i :: s1.units } : BSt S).ncl = s.ncl from hsame.ncl]; exact e1,
                (congrFun hsame.ptr k).trans e2, by rw [show ({ s1 with units := i :: s1.units } : BSt S).recs = s.recs from hr1]; exact e3⟩
            · intro hb; exact hbad fun w hw => hb w ((hw1 w).2 hw)
            · intro _ hb; exact hnb (hb b (Or.inr h1))
          · intro hc
            rw [show ({ s1 with units := i :: s1.units } : BSt S).conflict = false from hcf1] at hc; cases hc
        | some l =>
          have hl : l ∈ (s.cl i).lits := hlits1 ▸ List.mem_of_find?_eq_some hf
          have hp := List.find?_some hf
          have hp := of_decide_eq_true hp
          rw [hbsat] at hp
          have hnl : ¬ FalseNow s l := not_falseNow hA (hvar l hl) hp.1
          unfold removeRec
          dsimp only
          split
          · rename_i hin
            have hin : i ∈ s.recs a.var := hr1 ▸ hin.2
            generalize hs2 : (addRec { s1 with recs := upd s1.recs a.var ((s1.recs a.var).erase i) } l.var i).setCl i
              ⟨(s1.cl i).lits, some l, some b⟩ = s2
            suffices hgoal : VS m L pos old rem s2 ∧ Same s s2 by subst hs2; exact hgoal
            have e1 : Same s s2 := by subst hs2; exact hsame.trans ⟨rfl, rfl, rfl, rfl, rfl, rfl, rfl, rfl⟩
            have e2 : s2.cl i = ⟨(s1.cl i).lits, some l, some b⟩ := by subst hs2; exact cl_setCl_self _ _ _
            have e3 : ∀ p, p ≠ s.ptr i → s2.heap p = s.heap p := by
              intro p hp
              subst hs2
              show upd s1.heap (s1.ptr i) _ p = _
              unfold upd
              rw [hsame.ptr, if_neg hp, hheap1 p hp]
            have e4 : s2.recs = upd (upd s.recs a.var ((s.recs a.var).erase i)) l.var
                (i :: (upd s.recs a.var ((s.recs a.var).erase i)) l.var) := by subst hs2; rw [← hr1]; rfl
            have e5 : s2.conflict = false := by subst hs2; exact hcf1
            have e6 : ∀ u k, k ∈ s.recs u → (k ≠ i ∨ u ≠ a.var) → k ∈ s2.recs u := by
              intro u k hk hne
              have : k ∈ upd s.recs a.var ((s.recs a.var).erase i) u := by
                unfold upd
                split
                · rename_i e
                  rcases hne with hne | hne
                  · rw [List.mem_erase_of_ne hne, ← e]; exact hk
                  · exact absurd e hne
                · exact hk
              rw [e4]
              show k ∈ upd (upd s.recs a.var ((s.recs a.var).erase i)) l.var _ u
              rw [upd]
              split
              · rename_i e
                rw [e] at this
                exact List.mem_cons_of_mem _ this
              · exact this
            have hlw : ∀ w, IsW (s2.cl i) w → w = l ∨ w = b := by
              intro w hw
              rw [e2] at hw
              rcases hw with hw | hw
              · cases hw; exact Or.inl rfl
              · cases hw; exact Or.inr rfl
            refine ⟨h.put hi e1 hconf e3 (by rw [e2]; exact hlits1) ?_ ?_ ?_, e1⟩
            · rintro p hp u ⟨k, f1, f2, f3⟩
              refine ⟨k, by rw [e1.ncl]; exact f1, by rw [e1.ptr]; exact f2, e6 u k f3 (Or.inl ?_)⟩
              rintro rfl
              exact hp f2.symm
            · intro hwok hcov hbad
              have hab : a.var ≠ b.var := by
                have key : ∀ w w', (s.cl i).w0 = some w → (s.cl i).w1 = some w' → w.var ≠ w'.var := by
                  intro w w' g1 g2
                  rcases hwok with ⟨x, _, _, k3⟩ | ⟨_, x, y, k1, k2, _, _, k5⟩
                  · rw [k3] at g2; cases g2
                  · rw [k1] at g1; rw [k2] at g2; cases g1; cases g2; exact k5
                rcases hcl1 with e | e
                · exact key a b (by rw [← e]; exact h0) (by rw [← e]; exact h1)
                · rw [e] at h0 h1
                  exact (key b a h1 h0).symm
              have hlen : 1 < (s.cl i).lits.length := by
                rcases hwok with ⟨x, k1, k2, k3⟩ | ⟨k1, _⟩
                · have : a = x ∧ b = x := by
                    refine ⟨?_, ?_⟩
                    · rcases hwa with g | g
                      · rw [k2] at g; cases g; rfl
                      · rw [k3] at g; cases g
                    · rcases hwb with g | g
                      · rw [k2] at g; cases g; rfl
                      · rw [k3] at g; cases g
                  rw [this.1, this.2] at hab
                  exact absurd rfl hab
                · exact k1
              have hnotbad : ¬ Bad s.cur (s2.cl i) := fun hb => hnl (hb l (Or.inl (by rw [e2])))
              refine ⟨?_, ?_, ?_, fun _ => hnotbad⟩
              · right
                rw [e2]
                exact ⟨by show 1 < (s1.cl i).lits.length; rw [hlits1]; exact hlen, l, b, rfl, rfl,
                  by show l ∈ (s1.cl i).lits; rw [hlits1]; exact hl,
                  by show b ∈ (s1.cl i).lits; rw [hlits1]; exact hmem b hwb, hp.2⟩
              · intro w hw
                rcases hlw w hw with rfl | rfl
                · refine ⟨i, by rw [e1.ncl]; exact hi, by rw [e1.ptr], ?_⟩
                  rw [e4]
                  show i ∈ upd _ w.var _ w.var
                  rw [upd, if_pos rfl]
                  exact List.mem_cons_self
                · obtain ⟨k, f1, f2, f3⟩ := hcov w hwb
                  exact ⟨k, by rw [e1.ncl]; exact f1, by rw [e1.ptr]; exact f2, e6 _ k f3 (Or.inr hab.symm)⟩
              · intro hb
                refine hnotbad (h.bad_cur ?_ hb)
                intro w hw
                rcases hlw w hw with rfl | rfl
                · exact hvar _ hl
                · exact hvar _ (hmem _ hwb)
            · intro hc
              rw [e5] at hc; cases hc
          · exact True.intro
      · rename_i hx2
        have hx0 : x = 0 := by omega
        have hfb : FalseNow s b := (bsat_zero.1 (hx.trans hx0)).2
        refine ⟨?_, hsame.trans ⟨rfl, rfl, rfl, rfl, rfl, rfl, rfl, rfl⟩⟩
        refine h.put (s' := { s1 with conflict := true, conflicting := i }) hi (hsame.trans ⟨rfl, rfl, rfl, rfl, rfl, rfl, rfl, rfl⟩)
          hconf hheap1 hlits1 ?_ ?_ ?_
        · rintro p _ u ⟨k, e1, e2, e3⟩
          exact ⟨k, by rw [show ({ s1 with conflict := true, conflicting := (i : Int) } : BSt S).ncl = s.ncl from hsame.ncl]; exact e1,
            (congrFun hsame.ptr k).trans e2,
            by rw [show ({ s1 with conflict := true, conflicting := (i : Int) } : BSt S).recs = s.recs from hr1]; exact e3⟩
        · intro hwok hcov hbad
          refine ⟨?_, ?_, ?_, ?_⟩
          · show WOK (s1.cl i)
            rcases hcl1 with e | e <;> rw [e]
            · exact hwok
            · apply hwok.swap
              intro hn
              rw [e] at h0; rw [hn] at h0; cases h0
          · intro w hw
            obtain ⟨k, e1, e2, e3⟩ := hcov w ((hw1 w).1 hw)
            exact ⟨k, by rw [show ({ s1 with conflict := true, conflicting := (i : Int) } : BSt S).ncl = s.ncl from hsame.ncl]; exact e1,
              (congrFun hsame.ptr k).trans e2,
              by rw [show ({ s1 with conflict := true, conflicting := (i : Int) } : BSt S).recs = s.recs from hr1]; exact e3⟩
          · intro hb; exact hbad fun w hw => hb w ((hw1 w).2 hw)
          · intro hc; cases hc
        · intro _
          exact ⟨b, h1, hfb⟩

theorem updateOne_vs {P : Problem} {m : Nat} {L : Nat → List BLit} {pos : S → Prop} {old : Nat → Bits} {rem : List Nat} {s : BSt S} {v i : Nat}
    (hA : AInv P s) (h : VS m L pos old (i :: rem) s) :
    SatU True (updateOne v s i) fun s' => VS m L pos old rem s' ∧ Same s s' := by
  by_cases hc : s.conflict = true
  · unfold updateOne
    rw [if_pos hc]
    refine ⟨⟨h.le, h.lits, h.up, h.lok, h.wok, h.cov, h.good, ?_, h.lev0, h.lev, h.cover, h.confl, h.score⟩, Same.refl s⟩
    intro hc'; rw [hc] at hc'; cases hc'
  have hconf : s.conflict = false := by simpa using hc
  by_cases hi : i < s.ncl
  · have hmem : ∀ w, IsW (s.cl i) w → w ∈ (s.cl i).lits := (hA.cls i hi).mem
    have hvar : ∀ l ∈ (s.cl i).lits, s.IsVar l.var := fun l hl => (h.lok i hi l hl).isVar
    -- the clause keeps its watches, in one order or the other
    have keep : ∀ s1 : BSt S, (s1 = s ∨ s1 = s.setCl i { s.cl i with w0 := (s.cl i).w1, w1 := (s.cl i).w0 } ∧ (s.cl i).w1 ≠ none) →
        (∃ w, IsW (s.cl i) w ∧ bsat s w ≠ 0) → VS m L pos old rem s1 ∧ Same s s1 := by
      rintro s1 hs1 ⟨w, hw, hnz⟩
      have hsame : Same s s1 := by rcases hs1 with rfl | ⟨rfl, _⟩ <;> exact ⟨rfl, rfl, rfl, rfl, rfl, rfl, rfl, rfl⟩
      have hr1 : s1.recs = s.recs := by rcases hs1 with rfl | ⟨rfl, _⟩ <;> rfl
      have hw1 : ∀ w, IsW (s1.cl i) w ↔ IsW (s.cl i) w := by
        intro w
        rcases hs1 with rfl | ⟨rfl, _⟩
        · exact Iff.rfl
        · rw [cl_setCl_self]; exact isW_swap
      have hcv : ∀ p u, Cov s p u → Cov s1 p u := by
        rintro p u ⟨k, e1, e2, e3⟩
        exact ⟨k, by rw [hsame.ncl]; exact e1, by rw [hsame.ptr]; exact e2, by rw [hr1]; exact e3⟩
      refine ⟨h.put hi hsame hconf ?_ ?_ (fun p _ u => hcv p u) ?_ ?_, hsame⟩
      · rcases hs1 with rfl | ⟨rfl, _⟩
        · exact fun _ _ => rfl
        · intro p hp; show upd s.heap (s.ptr i) _ p = _; unfold upd; rw [if_neg hp]
      · rcases hs1 with rfl | ⟨rfl, _⟩
        · rfl
        · rw [cl_setCl_self]
      · intro hwok hcov hbad
        refine ⟨?_, fun w hw => hcv _ _ (hcov w ((hw1 w).1 hw)), fun hb => hbad fun w hw => hb w ((hw1 w).2 hw), fun _ hb => ?_⟩
        · rcases hs1 with rfl | ⟨rfl, hn⟩
          · exact hwok
          · rw [cl_setCl_self]; exact hwok.swap hn
        · exact not_falseNow hA (hvar w (hmem w hw)) hnz (hb w ((hw1 w).2 hw))
      · intro hc'
        have : s1.conflict = s.conflict := by rcases hs1 with rfl | ⟨rfl, _⟩ <;> rfl
        rw [this, hconf] at hc'; cases hc'
    rw [updateOne_eq hconf hi]
    refine SatU.bind (p := fun x => satW s (s.cl i).w0 = .ok x) (SatU.trivial fun _ e => e) fun x hx => ?_
    cases h0 : (s.cl i).w0 with
    | none => rw [h0] at hx; cases hx
    | some a =>
      rw [h0] at hx
      have hx := satW_val hx
      by_cases hx1 : x = 1
      · rw [if_pos hx1]
        exact keep s (Or.inl rfl) ⟨a, Or.inl h0, by omega⟩
      rw [if_neg hx1]
      refine SatU.bind (p := fun y => satW s (s.cl i).w1 = .ok y) (SatU.trivial fun _ e => e) fun y hy => ?_
      cases h1 : (s.cl i).w1 with
      | none => rw [h1] at hy; cases hy
      | some b =>
        rw [h1] at hy
        have hy := satW_val hy
        have hne : (s.cl i).w1 ≠ none := by rw [h1]; exact nofun
        by_cases hy1 : y = 1
        · rw [if_pos hy1]
          have := keep _ (Or.inr ⟨rfl, hne⟩) ⟨b, Or.inr h1, by omega⟩
          rw [h0, h1] at this
          exact this
        rw [if_neg hy1]
        dsimp only
        have hnt : ∀ w, IsW (s.cl i) w → bsat s w ≠ 1 := by
          rintro w (hw | hw)
          · rw [h0] at hw; cases hw; omega
          · rw [h1] at hw; cases hw; omega
        have fin : ∀ s1 : BSt S, (s1 = s ∨ s1 = s.setCl i { s.cl i with w0 := (s.cl i).w1, w1 := (s.cl i).w0 } ∧ (s.cl i).w1 ≠ none) →
            SatU True (satW s1 (s1.cl i).w0 >>= fun z => if z = 0 then swapPointer s1 v i else .ok s1)
              fun s' => VS m L pos old rem s' ∧ Same s s' := by
          intro s1 hs1
          refine SatU.bind (p := fun z => satW s1 (s1.cl i).w0 = .ok z) (SatU.trivial fun _ e => e) fun z hz => ?_
          split
          · exact swapPointer_vs hA h hi hconf (hs1.imp id And.left) hnt
          · rename_i hz0
            refine keep s1 hs1 ?_
            cases hw : (s1.cl i).w0 with
            | none => rw [hw] at hz; cases hz
            | some w =>
              rw [hw] at hz
              have hz := satW_val hz
              refine ⟨w, ?_, ?_⟩
              · rcases hs1 with rfl | ⟨rfl, _⟩
                · exact Or.inl hw
                · rw [cl_setCl_self] at hw
                  exact Or.inr hw
              · have : bsat s1 w = bsat s w := by rcases hs1 with rfl | ⟨rfl, _⟩ <;> rfl
                rw [← this, hz]; exact hz0
        split
        · have := fin _ (Or.inr ⟨rfl, hne⟩)
          rw [h0, h1] at this
          exact this
        · exact fin s (Or.inl rfl)
  · unfold updateOne
    rw [hconf, if_neg hi]
    exact True.intro

theorem updateList_vs {P : Problem} {m : Nat} {L : Nat → List BLit} {pos : S → Prop} {old : Nat → Bits} (v : Nat) : ∀ (ids : List Nat) {s : BSt S},
    AInv P s → VS m L pos old ids s → SatU True (updateList v ids s) fun s' => VS m L pos old [] s' ∧ Same s s'
  | [], s, _, h => ⟨h, Same.refl s⟩
  | id :: ids, s, hA, h => by
    unfold updateList
    refine ((updateOne_any hA v id).and (updateOne_vs hA h)).bind fun s1 h1 => ?_
    exact (updateList_vs v ids h1.1.1 h1.2.1).mono fun a ha => ⟨ha.1, h1.2.2.trans ha.2⟩

/-! ## Undoing -/

theorem undoNodes_ge (k : Int) : ∀ (ns : List Node) (d : Bits) (j : Nat), d.getLsbD j = true →
    (undoNodes k d ns).1.getLsbD j = true
  | [], _, _, h => h
  | n :: ns, d, j, h => by
    unfold undoNodes
    split
    · exact undoNodes_ge k ns _ j ((or_bit _ _ _).2 (Or.inl h))
    · exact h

theorem undoNodes_mem (k : Int) : ∀ (ns : List Node) (d : Bits), ∀ n ∈ (undoNodes k d ns).2.1, n ∈ ns
  | [], _, _, h => h
  | m :: ns, d, n, h => by
    unfold undoNodes at h
    split at h
    · exact List.mem_cons_of_mem _ (undoNodes_mem k ns _ n h)
    · exact h

theorem undoNodes_cover (k : Int) : ∀ (ns : List Node) (d : Bits) (j : Nat),
    (d.getLsbD j = true ∨ ∃ n ∈ ns, n.values.getLsbD j = true) →
    (undoNodes k d ns).1.getLsbD j = true ∨ ∃ n ∈ (undoNodes k d ns).2.1, n.values.getLsbD j = true
  | [], _, _, h => h
  | m :: ns, d, j, h => by
    unfold undoNodes
    split
    · apply undoNodes_cover k ns
      rcases h with h | ⟨n, hn, h⟩
      · exact Or.inl ((or_bit _ _ _).2 (Or.inl h))
      · rcases List.mem_cons.1 hn with rfl | hn
        · exact Or.inl ((or_bit _ _ _).2 (Or.inr h))
        · exact Or.inr ⟨n, hn, h⟩
    · exact h

/-- Going back below the present level gives back the values in `old`. -/
def Und (old : Nat → Bits) (s : BSt S) : Prop := ∀ k, k < s.LEVEL → ∀ v, s.IsVar v → ∀ j, (old v).getLsbD j = true →
  (undoNodes k (s.cur v) (s.nodes v)).1.getLsbD j = true

/-- The invariant at the head of the loop. -/
def MI (m : Nat) (L : Nat → List BLit) (pos : S → Prop) (s : BSt S) : Prop := ∃ old, VS m L pos old [] s ∧ Und old s

theorem und_cur (s : BSt S) : Und s.cur s := fun k _ _ _ j hj => undoNodes_ge k _ _ j hj

theorem MI.settled {m : Nat} {L : Nat → List BLit} {pos : S → Prop} {s : BSt S} (h : MI m L pos s) (hc : s.conflict = false) :
    VS m L pos s.cur [] s := by
  obtain ⟨old, h, _⟩ := h
  have hg : ∀ id, id < m → ¬ Bad s.cur (s.cl id) := by
    intro id hid hb
    obtain ⟨i, hi, _⟩ := h.todo hc id hid hb
    cases hi
  exact ⟨h.le, h.lits, fun _ _ _ hj => hj, h.lok, h.wok, h.cov, hg, fun _ id hid hb => absurd hb (hg id hid), h.lev0, h.lev, h.cover,
    h.confl, h.score⟩

theorem MI.congr {m : Nat} {L : Nat → List BLit} {pos : S → Prop} {s s' : BSt S} (h : MI m L pos s)
    (hs : Same s s') (h1 : s'.heap = s.heap) (h2 : s'.recs = s.recs) (h3 : s'.conflict = s.conflict)
    (h4 : s'.conflicting = s.conflicting) : MI m L pos s' := by
  obtain ⟨old, ha, hb⟩ := h
  refine ⟨old, ha.congr hs h1 h2 h3 h4, ?_⟩
  intro k hk v hv
  rw [hs.cur, hs.nodes]
  exact hb k (hs.LEVEL ▸ hk) v ((IsVar.congr hs.nv).1 hv)

theorem breduce_vs {P : Problem} {m : Nat} {L : Nat → List BLit} {pos : S → Prop} {s : BSt S} (hA : AInv P s) (h : VS m L pos s.cur [] s)
    (hc : s.conflict = false) {l : BLit} (hl : ¬ FalseNow s l) : SatU True (breduce s l) (MI m L pos) := by
  rw [breduce_eq]
  split
  · exact ⟨_, h, und_cur s⟩
  rename_i hch
  have hA1 : AInv P (addNode s l) := by
    refine ⟨hA.nv, hA.size, hA.ptr, hA.cls, hA.keep, ?_, ?_, ?_⟩
    · intro v hv
      by_cases e : v = l.var
      · subst e
        apply Classical.byContradiction
        intro hn
        refine hl fun j hj => ?_
        cases hx : (s.cur l.var).getLsbD j
        · rfl
        · exact absurd ⟨j, cur_addNode.2 ⟨hx, fun _ => hj⟩⟩ hn
      · obtain ⟨j, hj⟩ := hA.live v hv
        exact ⟨j, cur_addNode.2 ⟨hj, fun e' => absurd e' e⟩⟩
    · intro v hv j hj
      exact hA.sub v hv j (cur_addNode.1 hj).1
    · intro v hv n hn j hj
      rcases mem_addNode.1 hn with hn | ⟨rfl, rfl⟩
      · exact hA.nsub v hv n hn j hj
      · exact hA.sub _ hv j ((andnot_bit _ _ _).1 hj).1
  have h1 : VS m L pos s.cur (s.recs l.var) (addNode s l) := by
    refine ⟨h.le, h.lits, ?_, fun id hid w hw => ⟨(h.lok id hid w hw).1, (h.lok id hid w hw).2, (h.lok id hid w hw).3⟩, h.wok, h.cov, h.good, ?_, h.lev0, ?_, ?_, ?_, h.score⟩
    · intro v _ j hj; exact (cur_addNode.1 hj).1
    · intro _ id hid hb
      have hg := h.good id hid
      apply Classical.byContradiction
      intro hn
      apply hg
      intro w hw
      by_cases e : w.var = l.var
      · obtain ⟨i, e1, e2, e3⟩ := h.cov id hid w hw
        rw [e] at e3
        exact absurd ⟨i, e3, e2⟩ hn
      · exact falseNow_addNode_ne e (hb w hw)
    · intro v n hn
      rcases mem_addNode.1 hn with hn | ⟨_, rfl⟩
      · exact h.lev v n hn
      · exact h.lev0
    · intro v hv j hj
      rcases h.cover v hv j hj with h2 | ⟨n, hn, h2⟩
      · by_cases e : v = l.var
        · subst e
          cases hx : l.vals.getLsbD j
          · exact Or.inr ⟨_, mem_addNode.2 (Or.inr ⟨rfl, rfl⟩), (andnot_bit _ _ _).2 ⟨h2, hx⟩⟩
          · exact Or.inl (cur_addNode.2 ⟨h2, fun _ => hx⟩)
        · exact Or.inl (cur_addNode.2 ⟨h2, fun e' => absurd e' e⟩)
      · exact Or.inr ⟨n, mem_addNode.2 (Or.inl hn), h2⟩
    · intro hc'
      have hc' : s.conflict = true := hc'
      rw [hc] at hc'; cases hc'
  unfold updateVar
  refine (updateList_vs l.var _ hA1 h1).mono ?_
  rintro s' ⟨h2, hs⟩
  refine ⟨s.cur, h2, ?_⟩
  intro k hk v hv j hj
  rw [hs.LEVEL] at hk
  have hk : k < s.LEVEL := hk
  rw [hs.cur, hs.nodes]
  by_cases e : v = l.var
  · subst e
    have hn : (addNode s l).nodes l.var = ⟨s.atomIndex + 1, s.LEVEL, s.unitClause, s.cur l.var &&& ~~~ l.vals⟩ :: s.nodes l.var := by
      show upd s.nodes l.var _ l.var = _
      rw [upd, if_pos rfl]
    rw [hn]
    unfold undoNodes
    rw [if_pos (show s.LEVEL > k from hk)]
    apply undoNodes_ge
    rw [or_bit]
    cases hx : l.vals.getLsbD j
    · exact Or.inr ((andnot_bit _ _ _).2 ⟨hj, hx⟩)
    · exact Or.inl (cur_addNode.2 ⟨hj, fun _ => hx⟩)
  · exact undoNodes_ge _ _ _ _ (cur_addNode.2 ⟨hj, fun e' => absurd e' e⟩)

theorem bunitProp_vs {P : Problem} {m : Nat} {L : Nat → List BLit} {pos : S → Prop} : ∀ (f : Nat) {s : BSt S}, AInv P s → MI m L pos s →
    SatU True (bunitProp f s) (MI m L pos)
  | 0, _, _, _ => True.intro
  | f + 1, s, hA, h => by
    unfold bunitProp
    by_cases hc : s.conflict = true
    · rw [if_pos hc]; exact h.congr ⟨rfl, rfl, rfl, rfl, rfl, rfl, rfl, rfl⟩ rfl rfl rfl rfl
    rw [if_neg hc]
    have hc : s.conflict = false := by simpa using hc
    split
    · exact h
    · rename_i id rest _
      dsimp only
      have hA1 : AInv P ({ s with unitClause := id, units := rest } : BSt S) := hA.congr rfl rfl rfl rfl rfl rfl rfl rfl
      have h1 : MI m L pos ({ s with unitClause := id, units := rest } : BSt S) :=
        h.congr ⟨rfl, rfl, rfl, rfl, rfl, rfl, rfl, rfl⟩ rfl rfl rfl rfl
      have stop : SatU True (bunitProp f ({ s with unitClause := id, units := rest } : BSt S)) (MI m L pos) := bunitProp_vs f hA1 h1
      have go : ∀ w, satW ({ s with unitClause := id, units := rest } : BSt S) (some w) = .ok 2 →
          SatU True (breduce ({ s with unitClause := id, units := rest } : BSt S) w >>= fun s2 =>
            bunitProp f { s2 with nUnits := s2.nUnits + 1 }) (MI m L pos) := by
        intro w hw
        refine ((breduce_any hA1 (satW_two hw)).and (breduce_vs hA1 (h1.settled hc) hc (satW_two hw))).bind fun s2 h2 => ?_
        exact bunitProp_vs f (s := { s2 with nUnits := s2.nUnits + 1 })
          (h2.1.1.congr rfl rfl rfl rfl rfl rfl rfl rfl) (h2.2.congr ⟨rfl, rfl, rfl, rfl, rfl, rfl, rfl, rfl⟩ rfl rfl rfl rfl)
      split
      · split
        · exact True.intro
        · rename_i w hw
          refine SatU.bind (p := fun x => satW ({ s with unitClause := id, units := rest } : BSt S) (some w) = .ok x)
            (SatU.trivial fun _ e => e) fun x hx => ?_
          split
          · rename_i e; subst e; exact go w hx
          · split
            · split
              · exact True.intro
              · rename_i w' hw'
                refine SatU.bind (p := fun x => satW ({ s with unitClause := id, units := rest } : BSt S) (some w') = .ok x)
                  (SatU.trivial fun _ e => e) fun x hx => ?_
                split
                · rename_i e; subst e; exact go w' hx
                · exact stop
            · exact stop
      · exact True.intro

/-! ## Conflict analysis -/

theorem getNode_level {ns : List Node} (h : ∀ n ∈ ns, 0 ≤ n.level) (vals : Bits) :
    getNode ns vals = ⟨-1, -1, -1, vals⟩ ∨ 0 ≤ (getNode ns vals).level := by
  unfold getNode
  cases hf : ns.find? fun n => (n.values &&& vals) ≠ 0#64 with
  | none => exact Or.inl rfl
  | some n => exact Or.inr (h n (List.mem_of_find?_eq_some hf))

/-- A falsified literal has a node. -/
theorem VS.node_level {m : Nat} {L : Nat → List BLit} {pos : S → Prop} {old : Nat → Bits} {rem : List Nat} {s : BSt S} (h : VS m L pos old rem s)
    {l : BLit} (hl : LOK s l) (hf : FalseNow s l) : 0 ≤ (s.node l).level := by
  obtain ⟨j, hj⟩ := hl.some
  rcases h.cover _ hl.isVar j (hl.sub j hj) with h1 | ⟨n, hn, h1⟩
  · rw [hf j hj] at h1; cases h1
  · unfold BSt.node getNode
    cases hx : (s.nodes l.var).find? fun n => (n.values &&& l.vals) ≠ 0#64 with
    | none =>
      have := List.find?_eq_none.1 hx n hn
      refine absurd ?_ this
      rw [decide_eq_true_eq]
      exact (ne_zero_iff _).2 ⟨j, (and_bit _ _ _).2 ⟨h1, hj⟩⟩
    | some n' => exact h.lev _ n' (List.mem_of_find?_eq_some hx)

theorem watchStep_level {s : BSt S} (hl : ∀ v, ∀ n ∈ s.nodes v, 0 ≤ n.level) : ∀ (q : List BLit)
    (a : Int × Int × Option BLit × Option BLit), -1 ≤ a.1 → -1 ≤ a.2.1 →
    (∀ l, a.2.2.1 = some l → 0 ≤ (s.node l).level) → (∀ l, a.2.2.2 = some l → 0 ≤ (s.node l).level) →
    (∀ l, (q.foldl (watchStep s) a).2.2.2 = some l → 0 ≤ (s.node l).level)
  | [], _, _, _, _, h => h
  | l :: q, a, h1, h2, h3, h4 => by
    rw [List.foldl_cons]
    have key : -1 < (s.node l).index → 0 ≤ (s.node l).level := by
      intro hi
      rcases getNode_level (hl l.var) l.vals with e | e
      · unfold BSt.node at hi; rw [e] at hi; exact absurd hi (Int.lt_irrefl _)
      · exact e
    unfold watchStep
    dsimp only
    split
    · rename_i hlt
      exact watchStep_level hl q _ (by dsimp only; omega) (by dsimp only; omega)
        (fun m hm => by cases hm; exact key (by omega)) h3
    · split
      · exact watchStep_level hl q _ h1 (by dsimp only; omega) h3 (fun m hm => by cases hm; exact key (by omega))
      · exact watchStep_level hl q _ h1 h2 h3 h4

theorem resolve_lok {s : BSt S} {c r : List BLit} {l : BLit} (hc : ∀ x ∈ c, LOK s x) (hr : ∀ x ∈ r, LOK s x) :
    ∀ x ∈ bresolve c l r, LOK s x := by
  obtain ⟨_, h2, h3, _⟩ := bresolve_spec c l r
  have hin : ∀ v j, ClHas (bresolve c l r) v j → s.IsVar v ∧ j < s.size v := by
    intro v j hj
    rcases (h2 v j).1 hj with ⟨_, x, hx, rfl, hxj⟩ | ⟨⟨x, hx, rfl, hxj⟩, _⟩
    · exact ⟨(hc x hx).isVar, (hc x hx).sub j hxj⟩
    · exact ⟨(hr x hx).isVar, (hr x hx).sub j hxj⟩
  intro x hx
  obtain ⟨j, hj⟩ := h3 (fun y hy => (hc y hy).some) (fun y hy => (hr y hy).some) x hx
  exact ⟨(hin _ j ⟨x, hx, rfl, hj⟩).1, fun k hk => (hin _ k ⟨x, hx, rfl, hk⟩).2, j, hj⟩

/-- What learning leaves alone. -/
structure LearnVS (m : Nat) (L : Nat → List BLit) (pos : S → Prop) (old : Nat → Bits) (s : BSt S) (r : BSt S × BCls) : Prop where
  vs : VS m L pos old [] r.1
  cur : r.1.cur = s.cur
  nodes : r.1.nodes = s.nodes
  nv : r.1.nv = s.nv
  LEVEL : r.1.LEVEL = s.LEVEL
  back : r.2.lits.length = 1 ∨ ∃ b, r.2.w1 = some b ∧ 0 ≤ (s.node b).level ∧ (s.node b).level < s.LEVEL

theorem blearn_vs {A : ScoreArith S} {P : Problem} {m : Nat} {L : Nat → List BLit} {pos : S → Prop} (hg : A.Good pos) {old : Nat → Bits} {s : BSt S}
    (hA : AInv P s) (h : VS m L pos old [] s) (hcf : s.conflict = true) (hid : s.conflicting.toNat < s.ncl) {c : BCls}
    (hc : ∀ l ∈ c.lits, LOK s l) {p : Option Nat} (hp : ∀ a, p = some a → a < s.nheap ∧ s.heap a = c) :
    SatU True (blearn A s c p) fun s' => VS m L pos old [] s' ∧ s'.cur = s.cur ∧ s'.nodes = s.nodes ∧ s'.nv = s.nv ∧
      s'.LEVEL = s.LEVEL := by
  cases h0 : c.w0 with
  | none =>
    refine SatU.trivial ?_
    intro a ha
    unfold blearn at ha
    rw [h0] at ha
    cases ha
  | some w =>
  have put : ∀ s1 : BSt S, s1.nv = s.nv → s1.size = s.size → s1.cur = s.cur → s1.nodes = s.nodes → s1.LEVEL = s.LEVEL →
      s1.conflict = s.conflict → s1.conflicting = s.conflicting → s1.ncl = s.ncl + 1 →
      (∀ id, id < s.ncl → s1.ptr id = s.ptr id) → (∀ a, a < s.nheap → s1.heap a = s.heap a) →
      s1.heap (s1.ptr s.ncl) = c → (∀ v i, i ∈ s.recs v → i ∈ s1.recs v) → (∀ v j, pos (s1.score v j)) →
      VS m L pos old [] s1 := by
    intro s1 e1 e2 e3 e4 e5 e6 e7 e8 e9 e10 e11 e12 e13
    have hcl : ∀ id, id < s.ncl → s1.cl id = s.cl id := fun id hid => by
      unfold BSt.cl; rw [e9 id hid, e10 _ (hA.ptr id hid)]
    have hm : ∀ id, id < m → id < s.ncl := fun id hid => Nat.lt_of_lt_of_le hid h.le
    refine ⟨by rw [e8]; exact Nat.le_succ_of_le h.le, fun id hid => by rw [hcl id (hm id hid)]; exact h.lits id hid, ?_, ?_, ?_, ?_, ?_, ?_, by rw [e5]; exact h.lev0, by rw [e4]; exact h.lev, ?_,
      ?_, e13⟩
    · intro v hv; rw [e3]; exact h.up v ((IsVar.congr e1).1 hv)
    · intro id hid l hl
      refine LOK.congr e1 e2 ?_
      by_cases hlt : id < s.ncl
      · rw [hcl id hlt] at hl; exact h.lok id hlt l hl
      · have : id = s.ncl := by omega
        rw [this] at hl
        unfold BSt.cl at hl
        rw [e11] at hl
        exact hc l hl
    · intro id hid; rw [hcl id (hm id hid)]; exact h.wok id hid
    · intro id hid w hw
      rw [hcl id (hm id hid)] at hw
      obtain ⟨i, f1, f2, f3⟩ := h.cov id hid w hw
      exact ⟨i, by omega, by rw [e9 i f1, e9 id (hm id hid)]; exact f2, e12 _ _ f3⟩
    · intro id hid; rw [hcl id (hm id hid)]; exact h.good id hid
    · intro hc'; rw [e6, hcf] at hc'; cases hc'
    · intro v hv; rw [e3, e4, e2]; exact h.cover v ((IsVar.congr e1).1 hv)
    · intro _
      obtain ⟨b, f1, f2⟩ := h.confl hcf
      refine ⟨b, ?_, (FalseNow.congr e3).2 f2⟩
      rw [e7, hcl _ hid]; exact f1
  have hsub : ∀ (s1 : BSt S) (u i : Nat), ∀ v k, k ∈ s1.recs v → k ∈ (addRec s1 u i).recs v := by
    intro s1 u i v k hk
    show k ∈ upd s1.recs u _ v
    unfold upd
    split
    · rename_i e; subst e; exact List.mem_cons_of_mem _ hk
    · exact hk
  have fin : ∀ s1 : BSt S, s1.nv = s.nv → s1.size = s.size → s1.cur = s.cur → s1.nodes = s.nodes → s1.LEVEL = s.LEVEL →
      s1.conflict = s.conflict → s1.conflicting = s.conflicting → s1.ncl = s.ncl + 1 →
      (∀ id, id < s.ncl → s1.ptr id = s.ptr id) → (∀ a, a < s.nheap → s1.heap a = s.heap a) →
      s1.heap (s1.ptr s.ncl) = c → s1.recs = s.recs → s1.score = s.score →
      SatU True (if c.lits.length > 1 then
          match c.w1 with
          | none => .ub
          | some w' => .ok (bhalve A (c.lits.foldl (bbump A) (addRec (addRec s1 w.var s.ncl) w'.var s.ncl)))
        else .ok (bhalve A (c.lits.foldl (bbump A) (addRec s1 w.var s.ncl)))) fun s' => VS m L pos old [] s' ∧ s'.cur = s.cur ∧
          s'.nodes = s.nodes ∧ s'.nv = s.nv ∧ s'.LEVEL = s.LEVEL := by
    intro s1 e1 e2 e3 e4 e5 e6 e7 e8 e9 e10 e11 e12 e13
    have last : ∀ s2 : BSt S, s2.nv = s1.nv → s2.size = s1.size → s2.cur = s1.cur → s2.nodes = s1.nodes → s2.LEVEL = s1.LEVEL →
        s2.conflict = s1.conflict → s2.conflicting = s1.conflicting → s2.ncl = s1.ncl → s2.ptr = s1.ptr → s2.heap = s1.heap →
        (∀ v i, i ∈ s1.recs v → i ∈ s2.recs v) → s2.score = s1.score →
        VS m L pos old [] (bhalve A (c.lits.foldl (bbump A) s2)) ∧ (bhalve A (c.lits.foldl (bbump A) s2)).cur = s.cur ∧
          (bhalve A (c.lits.foldl (bbump A) s2)).nodes = s.nodes ∧ (bhalve A (c.lits.foldl (bbump A) s2)).nv = s.nv ∧
          (bhalve A (c.lits.foldl (bbump A) s2)).LEVEL = s.LEVEL := by
      intro s2 f1 f2 f3 f4 f5 f6 f7 f8 f9 f10 f11 f12
      have hpos := halve_pos hg (bump_pos hg c.lits (s := s2) (by rw [f12, e13]; exact h.score))
      obtain ⟨sc, e⟩ := halve_bump A c.lits s2
      rw [e] at hpos ⊢
      refine ⟨?_, f3.trans e3, f4.trans e4, f1.trans e1, f5.trans e5⟩
      refine put _ (f1.trans e1) (f2.trans e2) (f3.trans e3) (f4.trans e4) (f5.trans e5) (f6.trans e6) (f7.trans e7)
        (f8.trans e8) (fun id hid => (congrFun f9 id).trans (e9 id hid)) (fun a ha => (congrFun f10 a).trans (e10 a ha)) ?_ ?_ hpos
      · show s2.heap (s2.ptr s.ncl) = c
        rw [f10, f9]; exact e11
      · intro v i hi; exact f11 v i (by rw [e12]; exact hi)
    split
    · split
      · exact True.intro
      · rename_i w' _
        exact last _ rfl rfl rfl rfl rfl rfl rfl rfl rfl rfl (fun v i hi => hsub _ _ _ _ _ (hsub _ _ _ _ _ hi)) rfl
    · exact last _ rfl rfl rfl rfl rfl rfl rfl rfl rfl rfl (hsub _ _ _) rfl
  unfold blearn
  dsimp only
  rw [h0]
  dsimp only
  cases p with
  | some a =>
    obtain ⟨h1, h2⟩ := hp a rfl
    refine fin { s with ptr := upd s.ptr s.ncl a, ncl := s.ncl + 1 } rfl rfl rfl rfl rfl rfl rfl rfl ?_ (fun _ _ => rfl) ?_ rfl rfl
    · intro id hid; show upd s.ptr s.ncl a id = _; unfold upd; rw [if_neg (by omega)]
    · show s.heap (upd s.ptr s.ncl a s.ncl) = _; unfold upd; rw [if_pos rfl]; exact h2
  | none =>
    refine fin { s with heap := upd s.heap s.nheap c, nheap := s.nheap + 1, ptr := upd s.ptr s.ncl s.nheap, ncl := s.ncl + 1 }
      rfl rfl rfl rfl rfl rfl rfl rfl ?_ ?_ ?_ rfl rfl
    · intro id hid; show upd s.ptr s.ncl s.nheap id = _; unfold upd; rw [if_neg (by omega)]
    · intro b hb; show upd s.heap s.nheap c b = _; unfold upd; rw [if_neg (by omega)]
    · show upd s.heap s.nheap c (upd s.ptr s.ncl s.nheap s.ncl) = _; unfold upd; rw [if_pos rfl, if_pos rfl]

theorem banalyze_vs {A : ScoreArith S} {P : Problem} {m : Nat} {L : Nat → List BLit} {pos : S → Prop} (hg : A.Good pos) {old : Nat → Bits} {s : BSt S}
    (hA : AInv P s) (h : VS m L pos old [] s) (hcf : s.conflict = true) (hid : s.conflicting.toNat < s.ncl) :
    ∀ (f : Nat) {c : BCls} {p : Option Nat}, (∀ l ∈ c.lits, LOK s l) → (∀ b, c.w1 = some b → 0 ≤ (s.node b).level) →
    (∀ a, p = some a → a < s.nheap ∧ s.heap a = c) → SatU True (banalyze A f s c p) (LearnVS m L pos old s)
  | 0, _, _, _, _, _ => True.intro
  | f + 1, c, p, hc, hw, hp => by
    unfold banalyze
    refine SatU.bind (p := fun x => bpotent s c = .ok x) (SatU.trivial fun _ e => e) fun x hx => ?_
    split
    · rename_i hxt
      refine (blearn_vs hg hA h hcf hid hc hp).bind fun s1 h1 => ?_
      refine ⟨h1.1, h1.2.1, h1.2.2.1, h1.2.2.2.1, h1.2.2.2.2, ?_⟩
      unfold bpotent at hx
      split at hx
      · rename_i hl; exact Or.inl hl
      · split at hx
        · rename_i b hb
          injection hx with hx
          subst hx
          exact Or.inr ⟨b, hb, hw b hb, of_decide_eq_true hxt⟩
        · cases hx
    · split
      · exact True.intro
      · rename_i l hl
        dsimp only
        split
        · exact True.intro
        · rename_i hr
          have hlt : (s.node l).reason.toNat < s.ncl := by omega
          refine banalyze_vs hg hA h hcf hid f (resolve_lok hc (h.lok _ hlt)) ?_ nofun
          exact watchStep_level h.lev _ _ (Int.le_refl _) (Int.le_refl _) nofun nofun

/-- Going back after a conflict. -/
theorem bundo_vs {m : Nat} {L : Nat → List BLit} {pos : S → Prop} {old : Nat → Bits} {s : BSt S} (h : VS m L pos old [] s) {lv : Int} (h0 : 0 ≤ lv)
    (hu : ∀ v, s.IsVar v → ∀ j, (old v).getLsbD j = true → (undoNodes lv (s.cur v) (s.nodes v)).1.getLsbD j = true)
    (n : Nat) (k : Int) :
    MI m L pos (bundo ({ s with LEVEL := lv, nBacktracks := n, conflict := false } : BSt S) k) := by
  generalize hs' : bundo ({ s with LEVEL := lv, nBacktracks := n, conflict := false } : BSt S) k = s'
  have hcur : ∀ v, s.IsVar v → s'.cur v = (undoNodes lv (s.cur v) (s.nodes v)).1 := by
    intro v hv
    subst hs'
    exact if_pos (show 1 ≤ v ∧ v ≤ s.nv from hv)
  have hnodes : ∀ v, s.IsVar v → s'.nodes v = (undoNodes lv (s.cur v) (s.nodes v)).2.1 := by
    intro v hv
    subst hs'
    exact if_pos (show 1 ≤ v ∧ v ≤ s.nv from hv)
  have hcl : s'.cl = s.cl := by subst hs'; rfl
  have hg : ∀ id, id < m → ¬ Bad s'.cur (s.cl id) := by
    intro id hid hb
    apply h.good id hid
    intro w hw j hj
    cases hx : (old w.var).getLsbD j
    · rfl
    · have hv := (h.lok id (Nat.lt_of_lt_of_le hid h.le) w ((h.wok id hid).mem hw)).isVar
      have h1 := hu _ hv j hx
      have h2 := hb w hw j hj
      rw [hcur _ hv, h1] at h2
      cases h2
  refine ⟨s'.cur, ⟨?_, by rw [hcl]; exact h.lits, fun _ _ _ hj => hj, ?_, by rw [hcl]; exact h.wok, ?_, by rw [hcl]; exact hg,
    fun _ id hid hb => absurd hb (by rw [hcl]; exact hg id hid), ?_, ?_, ?_, ?_, ?_⟩, und_cur s'⟩
  · subst hs'; exact h.le
  · intro id hid l hl
    subst hs'
    exact ⟨(h.lok id hid l hl).1, (h.lok id hid l hl).2, (h.lok id hid l hl).3⟩
  · subst hs'; exact h.cov
  · subst hs'; exact h0
  · intro v n hn
    subst hs'
    have hn : n ∈ (if 1 ≤ v ∧ v ≤ s.nv then (undoNodes lv (s.cur v) (s.nodes v)).2.1 else s.nodes v) := hn
    split at hn
    · exact h.lev v n (undoNodes_mem _ _ _ n hn)
    · exact h.lev v n hn
  · intro v hv j hj
    have hv : s.IsVar v := by subst hs'; exact hv
    have hj : j < s.size v := by subst hs'; exact hj
    rw [hcur v hv, hnodes v hv]
    exact undoNodes_cover _ _ _ j (h.cover v hv j hj)
  · intro hc'
    subst hs'
    cases hc'
  · subst hs'; exact h.score

theorem bconflict_vs {cfg : BCfg S} {P : Problem} {m : Nat} {L : Nat → List BLit} {pos : S → Prop} (hg : cfg.arith.Good pos) {s : BSt S} {rc : Int}
    (hA : AInv P s) (h : MI m L pos s) (hcf : s.conflict = true) (hL : s.LEVEL ≠ 0) (f : Nat) :
    SatU True (bconflict cfg f s rc) fun p => MI m L pos p.1 := by
  obtain ⟨old, h, hu⟩ := h
  unfold bconflict
  split
  · exact True.intro
  · rename_i hid
    dsimp only
    have hlt : s.conflicting.toNat < s.ncl := by omega
    have hpos : 0 < s.LEVEL := by have := h.lev0; omega
    refine (banalyze_vs hg hA h hcf hlt f (h.lok _ hlt) ?_
      (by intro a ha; cases ha; exact ⟨hA.ptr _ hlt, rfl⟩)).bind ?_
    · intro b hb
      obtain ⟨b', hb', hf⟩ := h.confl hcf
      rw [hb] at hb'
      cases hb'
      exact h.node_level (h.lok _ hlt b ((hA.cls _ hlt).mem b (Or.inr hb))) hf
    · rintro ⟨s1, c⟩ hl
      dsimp only
      refine SatU.bind (p := fun lv => 0 ≤ lv ∧ lv < s.LEVEL) (SatU.trivial ?_) ?_
      · intro lv hlv
        unfold bbackLevel at hlv
        split at hlv
        · rename_i hlen
          rcases hl.back with h1 | ⟨b, h1, h2, h3⟩
          · dsimp only at h1; omega
          · dsimp only at h1
            rw [h1] at hlv
            injection hlv with hlv
            rw [← hlv]
            unfold BSt.node at h2 h3 ⊢
            rw [show s1.nodes = s.nodes from hl.nodes]
            exact ⟨h2, h3⟩
        · injection hlv with hlv
          omega
      · rintro lv ⟨hlv0, hlv⟩
        have key : ∀ k, MI m L pos (bundo ({ s1 with LEVEL := lv, nBacktracks := s1.nBacktracks + 1, conflict := false } : BSt S) k) := by
          refine bundo_vs hl.vs hlv0 ?_ _
          intro v hv j hj
          rw [show s1.cur = s.cur from hl.cur, show s1.nodes = s.nodes from hl.nodes]
          exact hu lv hlv v ((IsVar.congr (show s1.nv = s.nv from hl.nv)).1 hv) j hj
        split
        · obtain ⟨o, k1, k2⟩ := key 0
          have k3 := MI.settled ⟨o, k1, k2⟩ rfl
          refine ⟨_, ⟨k3.le, k3.lits, k3.up, fun id hid l hl => ⟨(k3.lok id hid l hl).1, (k3.lok id hid l hl).2, (k3.lok id hid l hl).3⟩, k3.wok, k3.cov, k3.good,
            k3.todo, Int.le_refl _, k3.lev, k3.cover, ?_, k3.score⟩, und_cur _⟩
          intro hc'; cases hc'
        · exact (key lv).congr ⟨rfl, rfl, rfl, rfl, rfl, rfl, rfl, rfl⟩ rfl rfl rfl rfl

/-! ## The loop -/

theorem bdecide_vs {cfg : BCfg S} {P : Problem} {m : Nat} {L : Nat → List BLit} {pos : S → Prop} {s : BSt S} (hA : AInv P s) (h : MI m L pos s)
    (hc : s.conflict = false) : SatU True (bdecide cfg s) fun o => (∀ s', o = some s' → MI m L pos s') ∧
      (o = none → bchoose cfg s = .ok none) := by
  unfold bdecide
  refine ((bchoose_any cfg s).and (q := fun o => bchoose cfg s = .ok o) (SatU.trivial fun _ e => e)).bind fun o ho => ?_
  cases o with
  | none => exact ⟨fun s' hs' => (nomatch hs'), fun _ => ho.2⟩
  | some l =>
    have h1 := h.settled hc
    refine (breduce_vs (m := m) (L := L) (pos := pos) (s := { s with nDecisions := s.nDecisions + 1, LEVEL := s.LEVEL + 1, unitClause := -1 })
      (hA.congr rfl rfl rfl rfl rfl rfl rfl rfl) ?_ hc (l := l) (ho.1 l rfl)).bind fun s1 h2 => ?_
    · refine ⟨h1.le, h1.lits, h1.up, fun id hid l hl => ⟨(h1.lok id hid l hl).1, (h1.lok id hid l hl).2, (h1.lok id hid l hl).3⟩, h1.wok, h1.cov, h1.good, h1.todo,
        Int.add_nonneg h1.lev0 (by decide), h1.lev, h1.cover, h1.confl, h1.score⟩
    · refine ⟨?_, nofun⟩
      intro s' hs'
      cases hs'
      exact h2

/-- What a result means: after code 0 nothing was left to choose. -/
def Done (cfg : BCfg S) (m : Nat) (L : Nat → List BLit) (pos : S → Prop) (x : Nat × BSt S) : Prop :=
  x.1 = 0 → MI m L pos x.2 ∧ x.2.conflict = false ∧ bchoose cfg x.2 = .ok none

theorem bstep_vs {cfg : BCfg S} {P : Problem} {m : Nat} {L : Nat → List BLit} {pos : S → Prop} (hg : cfg.arith.Good pos) {s : BSt S} {rc : Int}
    (hA : AnyInv cfg P s rc) (h : MI m L pos s) (f : Nat) :
    SatU True (bstep cfg f s rc) fun r => match r with
      | .inl x => Done cfg m L pos x
      | .inr p => MI m L pos p.1 := by
  have hA1 : AnyInv cfg P ({ s with ticks := s.ticks + 1 } : BSt S) rc :=
    ⟨hA.inv.congr rfl rfl rfl rfl rfl rfl rfl rfl, hA.cnt.same ⟨rfl, rfl, rfl⟩⟩
  have h1 : MI m L pos ({ s with ticks := s.ticks + 1 } : BSt S) :=
    h.congr ⟨rfl, rfl, rfl, rfl, rfl, rfl, rfl, rfl⟩ rfl rfl rfl rfl
  unfold bstep
  dsimp only
  split
  · exact fun e => nomatch e
  split
  · exact fun e => nomatch e
  rename_i hcl
  refine SatU.bind (p := fun p => AnyInv cfg P p.1 p.2 ∧ MI m L pos p.1) ?_ ?_
  · split
    · rename_i hcf
      exact (bconflict_any cfg hA1 f).and (bconflict_vs hg hA1.inv h1 hcf (fun e => hcl ⟨hcf, e⟩) f)
    · exact ⟨hA1, h1⟩
  intro p hp
  refine SatU.bind (p := fun s2 => AInv P s2 ∧ MI m L pos s2) ?_ ?_
  · split
    · exact ⟨hp.1.inv, hp.2⟩
    · exact ((bunitProp_any f hp.1.inv).mono fun a ha => ha.1).and (bunitProp_vs f hp.1.inv hp.2)
  intro s2 h2
  split
  · exact h2.2
  · rename_i hcf
    have hcf : s2.conflict = false := by simpa using hcf
    refine (bdecide_vs (cfg := cfg) h2.1 h2.2 hcf).bind fun o ho => ?_
    cases o with
    | none => exact fun _ => ⟨h2.2, hcf, ho.2 rfl⟩
    | some s3 => exact ho.1 s3 rfl

theorem bloop_vs {cfg : BCfg S} {P : Problem} {m : Nat} {L : Nat → List BLit} {pos : S → Prop} (hg : cfg.arith.Good pos) : ∀ (f : Nat) {s : BSt S}
    {rc : Int}, AnyInv cfg P s rc → MI m L pos s → SatU True (bloop cfg f s rc) (Done cfg m L pos)
  | 0, _, _, _, _ => True.intro
  | f + 1, s, rc, hA, h => by
    rw [bloop_eq]
    refine ((bstep_any cfg hA f).and (bstep_vs hg hA h f)).bind ?_
    intro r hr
    cases r with
    | inl x => exact hr.2
    | inr p => exact bloop_vs hg f hr.1 hr.2

/-! ## Start and end -/

theorem ReadInv.mi {P : Problem} {pos : S → Prop} {s : BSt S} (h : ReadInv P pos P.clauses s) : MI P.clauses.length (fun id => (s.cl id).lits) pos s := by
  have hl := h.loopInv
  have hcov : ∀ id, id < s.ncl → ∀ w, IsW (s.cl id) w → Cov s (s.ptr id) w.var :=
    fun id hid w hw => ⟨id, hid, rfl, (h.recs w.var id).2 ⟨hid, w, hw, rfl⟩⟩
  have hg : ∀ id, id < s.ncl → ¬ Bad s.cur (s.cl id) := by
    intro id hid hb
    obtain ⟨w, hw⟩ : ∃ w, IsW (s.cl id) w := by
      rcases h.wok id hid with ⟨w, _, h1, _⟩ | ⟨_, w, _, h1, _⟩ <;> exact ⟨w, Or.inl h1⟩
    have hok := hl.inv.store.lok id hid w ((h.wok id hid).mem hw)
    obtain ⟨j, hj⟩ := hok.some
    have h1 := hb w hw j hj
    rw [(h.cur_bit hok.isVar j).2 (hok.sub j hj)] at h1
    cases h1
  refine ⟨s.cur, ⟨by rw [h.ncl]; exact Nat.le_refl _, fun _ _ => rfl, fun _ _ _ hj => hj, hl.inv.store.lok, ?_, ?_, ?_, ?_, ?_, ?_, ?_, ?_, h.score⟩,
    und_cur s⟩
  · intro id hid; exact h.wok id (by rw [h.ncl]; exact hid)
  · intro id hid; exact hcov id (by rw [h.ncl]; exact hid)
  · intro id hid; exact hg id (by rw [h.ncl]; exact hid)
  · intro _ id hid hb; exact absurd hb (hg id (by rw [h.ncl]; exact hid))
  · rw [h.LEVEL]; exact Int.le_refl _
  · intro v n hn; rw [h.nodes] at hn; cases hn
  · intro v hv j hj; exact Or.inl ((h.cur_bit hv j).2 hj)
  · intro hc; rw [h.conflict] at hc; cases hc

/-- With `-vsids` nothing is left to choose only when every clause of the file, and with them every learned clause, is
satisfied. -/
theorem vsids_true {cfg : BCfg S} {P : Problem} {L : Nat → List BLit} {pos : S → Prop} (hg : cfg.arith.Good pos) (hv : cfg.vsids = true)
    {s : BSt S}
    (hA : AInv P s) (hkeep : ∀ c ∈ P.clauses, ∃ id, id < P.clauses.length ∧ ∀ x, P.InDom x → CHolds x (L id) → clauseHolds x c)
    (h : MI P.clauses.length L pos s) (hc : s.conflict = false) (hch : bchoose cfg s = .ok none) :
    ∀ id, id < s.ncl → ∃ l ∈ (s.cl id).lits, TrueNow s l := by
  have h1 := h.settled hc
  have hone : ∀ v, s.IsVar v → ∀ j j', (s.cur v).getLsbD j = true → (s.cur v).getLsbD j' = true → j = j' := by
    unfold bchoose at hch
    rw [if_pos hv] at hch
    injection hch with hch
    rw [bchooseVSIDS_eq] at hch
    intro v hv j j' hj hj'
    by_cases hb : bcount (s.cur v) > 1
    · have := vsOuter_none hg h1.score _ hch v (List.mem_range.2 (by have := hv.2; omega)) hb j (hA.sub v hv j hj)
      rw [hj] at this; cases this
    · exact bcount_one hb hj hj'
  -- the assignment
  have pick : ∀ v, ∃ j, s.IsVar v → (s.cur v).getLsbD j = true := by
    intro v
    by_cases hv : s.IsVar v
    · obtain ⟨j, hj⟩ := hA.live v hv
      exact ⟨j, fun _ => hj⟩
    · exact ⟨0, fun h => absurd h hv⟩
  let x : Assignment := fun v => Classical.choose (pick v)
  have hx : ∀ v, s.IsVar v → (s.cur v).getLsbD (x v) = true := fun v => Classical.choose_spec (pick v)
  have hd : P.InDom x := by
    intro v h2 h3
    have hv : s.IsVar v := ⟨h2, by rw [hA.nv]; exact h3⟩
    rw [← hA.size v hv]
    exact hA.sub v hv _ (hx v hv)
  have hsol : P.Solves x := by
    refine ⟨hd, ?_⟩
    intro c hcm
    obtain ⟨id, e1, e2⟩ := hkeep c hcm
    refine e2 x hd ?_
    rw [← h1.lits id e1]
    have hid : id < s.ncl := Nat.lt_of_lt_of_le e1 h1.le
    apply Classical.byContradiction
    intro hn
    apply h1.good id e1
    intro w hw j hj
    have hm := (h1.wok id e1).mem hw
    have hwv := (h1.lok id hid w hm).isVar
    cases hxj : (s.cur w.var).getLsbD j
    · rfl
    · refine absurd ⟨w, hm, ?_⟩ hn
      rw [hone _ hwv _ _ (hx _ hwv) hxj]
      exact hj
  intro id hid
  obtain ⟨l, hl, hlx⟩ := (hA.cls id hid).ent x hsol
  refine ⟨l, hl, ?_⟩
  intro j hj
  have hlv := (h1.lok id hid l hl).isVar
  rw [hone _ hlv _ _ hj (hx _ hlv)]
  exact hlx

end Mvl.BV
