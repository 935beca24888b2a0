import Verif.Proof.Learn
import Verif.Proof.Loop

/-!
# What both clause-learning searches keep true, and the measure that makes them stop
-/

namespace Mvl

variable {S : Type}

theorem SameF.lits? {s s' : St S} (h : SameF s s') : s'.lits? = s.lits? := by
  funext id
  unfold St.lits?
  rw [h.ncl]
  by_cases hid : id < s.ncl
  · rw [if_pos hid, if_pos hid, h.lits id hid]
  · rw [if_neg hid, if_neg hid]

/-- `s'` has the clauses of `s` and one more. -/
structure AddCl (s : St S) (c : List Lit) (s' : St S) : Prop where
  nv : s'.nv = s.nv
  dom : s'.dom = s.dom
  ncl : s'.ncl = s.ncl + 1
  old : ∀ id, id < s.ncl → (s'.cl id).lits = (s.cl id).lits
  new : (s'.cl s.ncl).lits = c

theorem AddCl.sameF {s s' s'' : St S} {c : List Lit} (h : AddCl s c s') (h' : SameF s' s'') : AddCl s c s'' :=
  ⟨h'.nv.trans h.nv, h'.dom.trans h.dom, h'.ncl.trans h.ncl,
    fun id hid => (h'.lits id (by rw [h.ncl]; omega)).trans (h.old id hid),
    (h'.lits s.ncl (by rw [h.ncl]; omega)).trans h.new⟩

theorem AddCl.isClause {s s' : St S} {c : List Lit} (h : AddCl s c s') {c' : List Lit} :
    s'.IsClause c' ↔ s.IsClause c' ∨ c' = c := by
  constructor
  · rintro ⟨id, hid, rfl⟩
    rw [h.ncl] at hid
    by_cases hi : id < s.ncl
    · left; exact ⟨id, hi, (h.old id hi).symm⟩
    · right
      have : id = s.ncl := by omega
      subst this; exact h.new
  · rintro (⟨id, hid, rfl⟩ | rfl)
    · exact ⟨id, by rw [h.ncl]; omega, h.old id hid⟩
    · exact ⟨s.ncl, by rw [h.ncl]; omega, h.new⟩

theorem AddCl.lits? {s s' : St S} {c : List Lit} (h : AddCl s c s') {id : Nat} {c' : List Lit}
    (hc : s.lits? id = some c') : s'.lits? id = some c' := by
  unfold St.lits? at *
  by_cases hid : id < s.ncl
  · rw [if_pos hid] at hc
    rw [if_pos (by rw [h.ncl]; omega), h.old id hid]; exact hc
  · rw [if_neg hid] at hc; simp at hc

/-- What a clause-learning search on `P` keeps true. -/
structure LInv (P : Problem) (s : St S) : Prop where
  nv : s.nv = P.numVars
  dom : s.dom = P.dom
  nodup : ∀ id, id < s.ncl → (s.cl id).lits.Nodup
  keep : ∀ (i : Nat) (c : List Lit), P.clauses[i]? = some c → i < s.ncl ∧ (s.cl i).lits = c
  sound : ∀ a, P.widen.Solves a → s.Model a
  lev0 : ∀ a, P.widen.Solves a → Agrees a (s.tr.asgAt 0)
  reasons : Reasons s.tr s.lits?
  ub : s.ub = false

theorem LInv.grow {P : Problem} {s s' : St S} (h : LInv P s) (hsf : SameF s s')
    (h0 : ∀ a, P.widen.Solves a → Agrees a (s'.tr.asgAt 0)) (hr : Reasons s'.tr s.lits?) (hub : s'.ub = false) :
    LInv P s' where
  nv := hsf.nv.trans h.nv
  dom := hsf.dom.trans h.dom
  nodup := by
    intro id hid
    rw [hsf.ncl] at hid
    rw [hsf.lits id hid]; exact h.nodup id hid
  keep := by
    intro i c hc
    obtain ⟨h1, h2⟩ := h.keep i c hc
    exact ⟨by rw [hsf.ncl]; exact h1, by rw [hsf.lits i h1]; exact h2⟩
  sound := fun a ha => hsf.model (h.sound a ha)
  lev0 := h0
  reasons := by rw [hsf.lits?]; exact hr
  ub := hub

theorem LInv.learn {P : Problem} {s s' : St S} (h : LInv P s) {c : List Lit} (ha : AddCl s c s')
    (hn : c.Nodup) (he : ∀ a, s.Model a → clauseHolds a c)
    (h0 : s'.tr.asgAt 0 = s.tr.asgAt 0) (hr : Reasons s'.tr s.lits?) (hub : s'.ub = false) : LInv P s' where
  nv := ha.nv.trans h.nv
  dom := ha.dom.trans h.dom
  nodup := by
    intro id hid
    rw [ha.ncl] at hid
    by_cases hi : id < s.ncl
    · rw [ha.old id hi]; exact h.nodup id hi
    · have : id = s.ncl := by omega
      subst this; rw [ha.new]; exact hn
  keep := by
    intro i c hc
    obtain ⟨h1, h2⟩ := h.keep i c hc
    exact ⟨by rw [ha.ncl]; omega, by rw [ha.old i h1]; exact h2⟩
  sound := by
    intro a hs
    have hm := h.sound a hs
    refine ⟨by rw [ha.nv, ha.dom]; exact hm.1, ?_⟩
    intro id hid
    rw [ha.ncl] at hid
    by_cases hi : id < s.ncl
    · rw [ha.old id hi]; exact hm.2 id hi
    · have : id = s.ncl := by omega
      subst this; rw [ha.new]; exact he a hm
  lev0 := by intro a hs; rw [h0]; exact h.lev0 a hs
  reasons := hr.mono (fun _ _ hc => ha.lits? hc)
  ub := hub

/-! ### The measure -/

/-- All sublists. -/
def subs {α : Type} : List α → List (List α)
  | [] => [[]]
  | x :: xs => subs xs ++ (subs xs).map (x :: ·)

theorem filter_mem_subs {α : Type} (p : α → Bool) : ∀ l : List α, l.filter p ∈ subs l
  | [] => by simp [subs]
  | x :: xs => by
    have := filter_mem_subs p xs
    unfold subs
    rw [List.mem_append, List.filter_cons]
    split
    · right; exact List.mem_map.2 ⟨_, this, rfl⟩
    · left; exact this

/-- All literals over the declared values. -/
def St.univ (s : St S) : List Lit := s.atoms.flatMap fun a => [⟨a.1, a.2, true⟩, ⟨a.1, a.2, false⟩]

theorem mem_univ {s : St S} {l : Lit} : l ∈ s.univ ↔ s.tr.Rng l.var l.val := by
  unfold St.univ
  rw [List.mem_flatMap]
  constructor
  · rintro ⟨a, ha, hl⟩
    have hl' : l = ⟨a.1, a.2, true⟩ ∨ l = ⟨a.1, a.2, false⟩ := by simpa using hl
    rcases hl' with rfl | rfl <;> exact mem_atoms.1 ha
  · intro h
    refine ⟨(l.var, l.val), mem_atoms.2 h, ?_⟩
    obtain ⟨v, d, e⟩ := l
    cases e <;> simp

/-- Same literals. -/
def SetEq (X Y : List Lit) : Prop := ∀ x, x ∈ X ↔ x ∈ Y

open Classical in
/-- Number of sets of literals that are not the set of literals of a clause. -/
noncomputable def unused (s : St S) : Nat :=
  (subs s.univ).countP fun X => decide (¬ ∃ c, s.IsClause c ∧ SetEq X c)

theorem univ_congr {s s' : St S} (h1 : s'.nv = s.nv) (h2 : s'.dom = s.dom) : s'.univ = s.univ := by
  unfold St.univ; rw [atoms_congr h1 h2]

theorem unused_same {s s' : St S} (h : SameF s s') : unused s' = unused s := by
  unfold unused
  rw [univ_congr h.nv h.dom]
  congr 1
  funext X
  congr 1
  apply propext
  constructor
  · rintro hn ⟨c, hc, he⟩; exact hn ⟨c, h.symm.isClause hc, he⟩
  · rintro hn ⟨c, hc, he⟩; exact hn ⟨c, h.isClause hc, he⟩

theorem unused_learn {s s' : St S} {c : List Lit} (h : AddCl s c s') (hr : ∀ l ∈ c, s.tr.Rng l.var l.val)
    (hf : ∀ c', s.IsClause c' → ¬ SetEq c' c) : unused s' < unused s := by
  unfold unused
  rw [univ_congr h.nv h.dom]
  apply countP_lt
  · intro X _ hX
    simp only [decide_eq_true_eq] at hX ⊢
    rintro ⟨c', hc', he⟩
    exact hX ⟨c', h.isClause.2 (Or.inl hc'), he⟩
  · refine ⟨s.univ.filter (fun l => decide (l ∈ c)), filter_mem_subs _ _, ?_, ?_⟩
    · simp only [decide_eq_false_iff_not]
      intro hn
      apply hn
      refine ⟨c, h.isClause.2 (Or.inr rfl), ?_⟩
      intro x
      simp only [List.mem_filter, decide_eq_true_eq]
      exact ⟨fun h => h.2, fun hx => ⟨mem_univ.2 (hr x hx), hx⟩⟩
    · simp only [decide_eq_true_eq]
      rintro ⟨c', hc', he⟩
      apply hf c' hc'
      intro x
      rw [← he x]
      simp only [List.mem_filter, decide_eq_true_eq]
      exact ⟨fun h => h.2, fun hx => ⟨mem_univ.2 (hr x hx), hx⟩⟩

/-- The learned clause is new. -/
theorem learned_fresh {t : Trail} (hb : t.Base) {c c' : List Lit} (hc : Confl t c) (hu : UniqueAt t c)
    (hn : c'.Nodup) (h2 : TwoOrSat (t.asgAt (t.LEVEL - 1)) c') : ¬ SetEq c' c := by
  intro he
  obtain ⟨x, hx, y, hy, hne, hxl, hyl⟩ := two_at_level hb hn (fun z hz => hc.fals z ((he z).1 hz)) h2
  obtain ⟨z, _, _, hz⟩ := hu
  by_cases hxz : x = z
  · subst hxz
    exact hz y ((he y).1 hy) (Ne.symm hne) hyl
  · exact hz x ((he x).1 hx) hxz hxl

/-! ### Restart bookkeeping -/

/-- `rc` is the local `restartCount`. -/
structure RInv (cfg : Cfg S) (s : St S) (rc : Int) : Prop where
  pos : 0 < cfg.restarts → rc = cfg.restarts * ((s.nRestarts : Int) + 1) ∧
    cfg.restarts * (s.nRestarts : Int) ≤ s.nBacktracks ∧ (s.nBacktracks : Int) < rc
  zero : cfg.restarts ≤ 0 → s.nRestarts = 0 ∧ rc ≤ 0
  flow : s.flowOff = s.nBacktracks

theorem RInv.congr {cfg : Cfg S} {s s' : St S} {rc : Int} (h : RInv cfg s rc) (h1 : s'.nRestarts = s.nRestarts)
    (h2 : s'.nBacktracks = s.nBacktracks) (h3 : s'.flowOff = s.flowOff) : RInv cfg s' rc := by
  refine ⟨?_, ?_, ?_⟩
  · rw [h1, h2]; exact h.pos
  · rw [h1]; exact h.zero
  · rw [h2, h3]; exact h.flow

/-- After a conflict. -/
theorem RInv.conf {cfg : Cfg S} {s s' : St S} {rc rc' : Int} (h : RInv cfg s rc)
    (h2 : s'.nBacktracks = s.nBacktracks + 1) (h3 : s'.flowOff = s.flowOff + 1)
    (h1 : ((s.nBacktracks : Int) + 1 = rc ∧ s'.nRestarts = s.nRestarts + 1 ∧
        rc' = ((s.nBacktracks : Int) + 1) + cfg.restarts) ∨
      ((s.nBacktracks : Int) + 1 ≠ rc ∧ s'.nRestarts = s.nRestarts ∧ rc' = rc)) : RInv cfg s' rc' := by
  refine ⟨?_, ?_, by rw [h2, h3, h.flow]⟩
  · intro hp
    obtain ⟨p1, p2, p3⟩ := h.pos hp
    rcases h1 with ⟨q1, q2, q3⟩ | ⟨q1, q2, q3⟩
    · rw [q2, h2]
      push_cast
      have e1 : cfg.restarts * ((s.nRestarts : Int) + 1 + 1) = cfg.restarts * ((s.nRestarts : Int) + 1) + cfg.restarts := by
        rw [Int.mul_add]; omega
      rw [e1]
      omega
    · rw [q2, h2, q3]
      push_cast
      omega
  · intro hz
    obtain ⟨z1, z2⟩ := h.zero hz
    rcases h1 with ⟨q1, q2, q3⟩ | ⟨q1, q2, q3⟩
    · omega
    · omega

end Mvl
