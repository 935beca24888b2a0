import Verif.Proof.LReach
import Verif.Proof.DOcc
import Verif.Props.Steps

/-!
# Properties of decisions and of the printed model

C16 (default heuristic), C17 (VSIDS) and C09 (printed model).
-/

namespace Mvl

variable {S : Type}

/-! ## C16 -/

/-- How often the literal occurs in clauses none of whose literals is true. -/
def liveOcc (s : St S) (l : Lit) : Int :=
  ((List.range s.ncl).map fun id =>
    if ∃ x ∈ (s.cl id).lits, IsTrue s x then (0 : Int) else ((s.cl id).lits.count l : Nat)).sum

/-- Positive minus negative live occurrences of an atom. -/
def netOcc (s : St S) (v d : Nat) : Int := liveOcc s ⟨v, d, true⟩ - liveOcc s ⟨v, d, false⟩

/-- A value in the domain of a variable that has no value yet, itself neither chosen nor excluded. -/
def FreeAtom (s : St S) (v d : Nat) : Prop :=
  (1 ≤ v ∧ v ≤ s.nv ∧ d < s.dom v) ∧ s.vval v = none ∧ s.asg v d = .un

instance (s : St S) (v d : Nat) : Decidable (FreeAtom s v d) := by unfold FreeAtom; infer_instance

/-- Order of atoms in the file: by variable, then by value. -/
def AtomBefore (v d v' d' : Nat) : Prop := v < v' ∨ v = v' ∧ d < d'

theorem liveOcc_eq {s : St S} (hex : ∀ j, j < s.ncl → Mark s.asg s.lvl (s.cl j)) (l : Lit) : liveOcc s l = occ s l := by
  unfold liveOcc occ
  have : ∀ n, n ≤ s.ncl → ((List.range n).map fun id =>
      if ∃ x ∈ (s.cl id).lits, IsTrue s x then (0 : Int) else ((s.cl id).lits.count l : Nat)).sum = occN s.cl l n := by
    intro n
    induction n with
    | zero => intro _; rfl
    | succ n ih =>
      intro hn
      rw [List.range_succ, List.map_append, List.sum_append, ih (by omega)]
      show _ = occN s.cl l n + occ1 (s.cl n) l
      congr 1
      rw [List.map_cons, List.map_nil, List.sum_cons, List.sum_nil, Int.add_zero]
      unfold occ1
      by_cases hl : (s.cl n).level = -1
      · have h1 := (hex n (by omega)).unsat hl
        rw [if_pos hl, if_neg]
        rintro ⟨x, hx, ht⟩
        exact h1 ⟨x, hx, isTrue_iff.1 ht⟩
      · obtain ⟨x, hx, ht⟩ := (hex n (by omega)).sat hl
        rw [if_neg hl, if_pos ⟨x, hx, isTrue_iff.2 ht⟩]
  exact this _ (Nat.le_refl _)

/-- One step of the running maximum. -/
def bestStep {α : Type} (cond : α → Prop) [DecidablePred cond] (f : α → Int) (lit : α → Lit) (b : Option (Int × Lit))
    (a : α) : Option (Int × Lit) :=
  if cond a then
    (match b with
      | none => some (f a, lit a)
      | some (m, l) => if m < f a then some (f a, lit a) else some (m, l))
    else b

/-- Running maximum over a list, first of the best. -/
theorem bestFold {α : Type} (cond : α → Prop) [DecidablePred cond] (f : α → Int) (lit : α → Lit) :
    ∀ (as pre : List α) (b : Option (Int × Lit)),
    (match b with
      | none => ∀ x ∈ pre, ¬ cond x
      | some (m, l) => ∃ p a q, pre = p ++ a :: q ∧ cond a ∧ l = lit a ∧ m = f a ∧ (∀ x ∈ p, cond x → f x < m) ∧
          ∀ x ∈ q, cond x → f x ≤ m) →
    (match as.foldl (bestStep cond f lit) b with
      | none => ∀ x ∈ pre ++ as, ¬ cond x
      | some (m, l) => ∃ p a q, pre ++ as = p ++ a :: q ∧ cond a ∧ l = lit a ∧ m = f a ∧ (∀ x ∈ p, cond x → f x < m) ∧
          ∀ x ∈ q, cond x → f x ≤ m)
  | [], pre, b, h => by rw [List.append_nil]; exact h
  | a :: as, pre, b, h => by
    rw [List.foldl_cons]
    have hap : pre ++ a :: as = (pre ++ [a]) ++ as := by simp
    rw [hap]
    apply bestFold cond f lit as (pre ++ [a])
    unfold bestStep
    by_cases hc : cond a
    · rw [if_pos hc]
      match b, h with
      | none, h =>
        exact ⟨pre, a, [], rfl, hc, rfl, rfl, fun x hx hcx => absurd hcx (h x hx), by simp⟩
      | some (m, l), h =>
        obtain ⟨p, y, q, h1, h2, h3, h4, h5, h6⟩ := h
        dsimp only
        by_cases hm : m < f a
        · rw [if_pos hm]
          refine ⟨pre, a, [], rfl, hc, rfl, rfl, ?_, by simp⟩
          intro x hx hcx
          rw [h1] at hx
          rcases List.mem_append.1 hx with hx | hx
          · have := h5 x hx hcx; omega
          · rcases List.mem_cons.1 hx with rfl | hx
            · omega
            · have := h6 x hx hcx; omega
        · rw [if_neg hm]
          refine ⟨p, y, q ++ [a], by rw [h1]; simp, h2, h3, h4, h5, ?_⟩
          intro x hx hcx
          rcases List.mem_append.1 hx with hx | hx
          · exact h6 x hx hcx
          · have : x = a := by simpa using hx
            subst this; omega
    · rw [if_neg hc]
      match b, h with
      | none, h =>
        intro x hx
        rcases List.mem_append.1 hx with hx | hx
        · exact h x hx
        · have : x = a := by simpa using hx
          subst this; exact hc
      | some (m, l), h =>
        obtain ⟨p, y, q, h1, h2, h3, h4, h5, h6⟩ := h
        refine ⟨p, y, q ++ [a], by rw [h1]; simp, h2, h3, h4, h5, ?_⟩
        intro x hx hcx
        rcases List.mem_append.1 hx with hx | hx
        · exact h6 x hx hcx
        · have : x = a := by simpa using hx
          subst this; exact absurd hcx hc

/-- The atoms are listed by variable, then by value. -/
theorem atoms_sorted (s : St S) : s.atoms.Pairwise fun a b => AtomBefore a.1 a.2 b.1 b.2 := by
  unfold St.atoms
  rw [List.pairwise_flatMap]
  constructor
  · intro v _
    rw [List.pairwise_map]
    refine List.pairwise_lt_range.imp ?_
    intro a b hab
    exact .inr ⟨rfl, hab⟩
  · refine List.Pairwise.imp ?_ List.pairwise_lt_range'
    intro v w hvw x hx y hy
    obtain ⟨d, _, rfl⟩ := List.mem_map.1 hx
    obtain ⟨e, _, rfl⟩ := List.mem_map.1 hy
    exact .inl hvw

theorem atomBefore_irrefl {v d v' d' : Nat} (h : AtomBefore v d v' d') (h' : AtomBefore v' d' v d ∨ (v = v' ∧ d = d')) :
    False := by
  unfold AtomBefore at *
  omega

theorem chooseBK_best (s : St S) {l : Lit} (h : chooseBK s = some l) :
    l.eq = true ∧ FreeAtom s l.var l.val ∧ ∀ v d, FreeAtom s v d →
      s.cnt ⟨v, d, true⟩ - s.cnt ⟨v, d, false⟩ ≤ s.cnt ⟨l.var, l.val, true⟩ - s.cnt ⟨l.var, l.val, false⟩ ∧
      (AtomBefore v d l.var l.val →
        s.cnt ⟨v, d, true⟩ - s.cnt ⟨v, d, false⟩ < s.cnt ⟨l.var, l.val, true⟩ - s.cnt ⟨l.var, l.val, false⟩) := by
  have := bestFold (fun a : Nat × Nat => s.vval a.1 = none ∧ s.asg a.1 a.2 = .un)
    (fun a => s.cnt ⟨a.1, a.2, true⟩ - s.cnt ⟨a.1, a.2, false⟩) (fun a => ⟨a.1, a.2, true⟩) s.atoms [] none (by simp)
  have h : (s.atoms.foldl (bestStep (fun a : Nat × Nat => s.vval a.1 = none ∧ s.asg a.1 a.2 = .un)
    (fun a => s.cnt ⟨a.1, a.2, true⟩ - s.cnt ⟨a.1, a.2, false⟩) (fun a => ⟨a.1, a.2, true⟩)) none).map Prod.snd = some l := h
  split at this
  · rename_i he
    rw [he] at h; simp at h
  · rename_i m l' he
    rw [he] at h
    simp only [Option.map_some, Option.some.injEq] at h
    subst h
    obtain ⟨p, a, q, h1, h2, h3, h4, h5, h6⟩ := this
    rw [List.nil_append] at h1
    subst h3
    have hsort := atoms_sorted s
    rw [h1] at hsort
    obtain ⟨_, hs2, hs3⟩ := List.pairwise_append.1 hsort
    have hq := (List.pairwise_cons.1 hs2).1
    have hin : a ∈ s.atoms := by rw [h1]; simp
    refine ⟨rfl, ⟨mem_atoms.1 hin, h2⟩, ?_⟩
    intro v d hf
    have hm : (v, d) ∈ s.atoms := mem_atoms.2 hf.1
    rw [h1] at hm
    dsimp only at h4 ⊢
    rcases List.mem_append.1 hm with hm | hm
    · have := h5 (v, d) hm hf.2
      dsimp only at this
      omega
    · rcases List.mem_cons.1 hm with hm | hm
      · subst hm
        exact ⟨Int.le_refl _, fun hb => (atomBefore_irrefl hb (.inr ⟨rfl, rfl⟩)).elim⟩
      · have h7 := h6 (v, d) hm hf.2
        have h8 := hq (v, d) hm
        dsimp only at h7 h8
        exact ⟨by omega, fun hb => (atomBefore_irrefl hb (.inl h8)).elim⟩

theorem Visited.occ {cfg : Cfg S} (hw : cfg.watch = false) {P : Problem} (hwf : P.Proper) (hbk : cfg.heur = .BK)
    {s : St S} (h : Visited cfg P s) : OccOK s := by
  rcases h with ⟨st, h⟩ | ⟨hs, rc, h⟩
  · exact h.occ hw hwf hbk
  · exact (h.doinv hw hs hwf).occ hbk

/-- **C16.** With the default heuristic, the decision of either search is a free atom `var=val` whose number of
positive minus negative occurrences in unsatisfied clauses is maximal among all free atoms, and larger than that of
every earlier free atom; no decision is found only when no free atom is left. -/
theorem C16_default {cfg : Cfg S} (hw : cfg.watch = false) (hbk : cfg.heur = .BK) {P : Problem} (hwf : P.Proper)
    {s : St S} (h : Visited cfg P s) {choice : Option Lit}
    (hch : choice = chooseChrono cfg s ∨ choice = chooseNC cfg s) :
    (∀ l, choice = some l → l.eq = true ∧ FreeAtom s l.var l.val ∧ ∀ v d, FreeAtom s v d →
      netOcc s v d ≤ netOcc s l.var l.val ∧ (AtomBefore v d l.var l.val → netOcc s v d < netOcc s l.var l.val)) ∧
    (choice = none → ∀ v d, ¬ FreeAtom s v d) := by
  obtain ⟨G, hi⟩ := h.dinv hw hwf
  have ho := h.occ hw hwf hbk
  have hc : choice = chooseBK s := by
    rcases hch with rfl | rfl
    · unfold chooseChrono; rw [hbk]
    · unfold chooseNC; rw [hbk]; dsimp only; rw [if_neg (by rw [hw]; simp)]
  subst hc
  have hnet : ∀ v d, s.asg v d = .un → netOcc s v d = s.cnt ⟨v, d, true⟩ - s.cnt ⟨v, d, false⟩ := by
    intro v d hu
    unfold netOcc
    rw [liveOcc_eq hi.cnt.mark, liveOcc_eq hi.cnt.mark, (ho ⟨v, d, true⟩).1 hu, (ho ⟨v, d, false⟩).1 hu]
  refine ⟨?_, (chooseBK_spec s).1⟩
  intro l hl
  obtain ⟨h1, h2, h3⟩ := chooseBK_best s hl
  refine ⟨h1, h2, ?_⟩
  intro v d hf
  rw [hnet v d hf.2.2, hnet _ _ h2.2.2]
  exact h3 v d hf

/-- A state after learning a clause: the choice has net count 1, an atom with the same count and one with count -1 are free. -/
example : ∃ s : St (Option (Nat × Nat)), Visited (exCfg .BK false) exSat3 s ∧ exSat3.clauses.length < s.ncl ∧
    chooseNC (exCfg .BK false) s = some ⟨1, 0, true⟩ ∧ netOcc s 1 0 = 1 ∧ FreeAtom s 4 0 ∧ netOcc s 4 0 = 1 ∧
      FreeAtom s 2 1 ∧ netOcc s 2 1 = -1 := by
  obtain ⟨p, h1, h2⟩ := Res.of_passes (r := ncState (exCfg .BK false) exSat3 3)
    (q := fun p => decide (exSat3.clauses.length < p.1.ncl ∧
      chooseNC (exCfg .BK false) p.1 = some ⟨1, 0, true⟩ ∧ netOcc p.1 1 0 = 1 ∧ FreeAtom p.1 4 0 ∧ netOcc p.1 4 0 = 1 ∧
      FreeAtom p.1 2 1 ∧ netOcc p.1 2 1 = -1)) (by decide +kernel)
  exact ⟨p.1, .inr ⟨exCfg_score _ _, p.2, ncState_reach h1⟩, of_decide_eq_true h2⟩

/-- A decision point on a file with repeated literals, after learning. -/
example : ∃ s : St (Option (Nat × Nat)), Visited (exCfg .BK false) exDupNo s ∧ s.conflict = false ∧
    (∃ l, chooseNC (exCfg .BK false) s = some l) := by
  obtain ⟨p, h1, h2⟩ := Res.of_passes (r := ncState (exCfg .BK false) exDupNo 2)
    (q := fun p => decide (p.1.conflict = false) && (chooseNC (exCfg .BK false) p.1).isSome) (by decide +kernel)
  simp only [Bool.and_eq_true, decide_eq_true_eq] at h2
  exact ⟨p.1, .inr ⟨exCfg_score _ _, p.2, ncState_reach h1⟩, h2.1, Option.isSome_iff_exists.1 h2.2⟩

/-! ## C17 -/

/-- The comparison of scores is a strict order; true of `double` comparison. -/
def ScoreArith.Strict (A : ScoreArith S) : Prop :=
  (∀ x, A.lt x x = false) ∧ ∀ x y z, A.lt x y = true → A.lt y z = true → A.lt x z = true

theorem foldl_better (A : ScoreArith S) (ho : A.Strict) (s : St S) : ∀ (ls : List Lit) (b : S × Option Lit),
    (∀ l, b.2 = some l → b.1 = s.score l) →
    (∀ l ∈ ls, A.lt (ls.foldl (better A s) b).1 (s.score l) = false) ∧
    (∀ x, A.lt b.1 x = false → A.lt (ls.foldl (better A s) b).1 x = false) ∧
    (∀ l, (ls.foldl (better A s) b).2 = some l → (ls.foldl (better A s) b).1 = s.score l)
  | [], b, hb => ⟨by simp, fun _ h => h, hb⟩
  | l :: ls, b, hb => by
    rw [List.foldl_cons]
    have hb' : ∀ x, (better A s b l).2 = some x → (better A s b l).1 = s.score x := by
      intro x hx
      unfold better at hx ⊢
      split at hx
      · rename_i hlt; rw [if_pos hlt]; cases hx; rfl
      · rename_i hlt; rw [if_neg hlt]; exact hb x hx
    have hm : ∀ x, A.lt b.1 x = false → A.lt (better A s b l).1 x = false := by
      intro x hx
      unfold better
      split
      · rename_i hlt
        cases h : A.lt (s.score l) x with
        | false => rfl
        | true => rw [ho.2 _ _ _ hlt h] at hx; cases hx
      · exact hx
    have hl : A.lt (better A s b l).1 (s.score l) = false := by
      unfold better
      split
      · exact ho.1 _
      · rename_i hlt; exact Bool.eq_false_iff.2 hlt
    obtain ⟨h1, h2, h3⟩ := foldl_better A ho s ls (better A s b l) hb'
    refine ⟨?_, fun x hx => h2 x (hm x hx), h3⟩
    intro x hx
    rcases List.mem_cons.1 hx with rfl | hx
    · exact h2 _ hl
    · exact h1 x hx

theorem foldl_if_flatMap {α β γ : Type} (cond : α → Prop) [DecidablePred cond] (g : α → List β) (f : γ → β → γ) :
    ∀ (as : List α) (b : γ), as.foldl (fun b a => if cond a then (g a).foldl f b else b) b =
      (as.flatMap fun a => if cond a then g a else []).foldl f b
  | [], _ => rfl
  | a :: as, b => by
    rw [List.foldl_cons, List.flatMap_cons, List.foldl_append, foldl_if_flatMap cond g f as]
    split <;> rfl

/-- **C17**, `-vsids`: the decision is a literal on a free atom with maximal score, and one is found whenever there is a
free atom. -/
theorem C17_vsids {cfg : Cfg S} (hh : cfg.heur = .VSIDS) (hs : cfg.ScoreOK) (ho : cfg.arith.Strict) {P : Problem}
    {s : St S} {rc : Int} (h : LReach cfg P s rc) :
    (∀ l, chooseNC cfg s = some l → FreeAtom s l.var l.val ∧
      ∀ l', FreeAtom s l'.var l'.val → cfg.arith.lt (s.score l) (s.score l') = false) ∧
    (chooseNC cfg s = none → ∀ v d, ¬ FreeAtom s v d) := by
  obtain ⟨pos, hg⟩ := hs
  have hok : ScoresOK cfg.arith s := fun l => hg.2.2.2 _ (h.pos hg l)
  have hc : chooseNC cfg s = chooseVSIDS cfg.arith s := by unfold chooseNC; rw [hh]
  rw [hc]
  obtain ⟨h1, h2⟩ := chooseVSIDS_spec cfg.arith s hok
  refine ⟨fun l hl => ⟨h2 l hl, ?_⟩, h1⟩
  intro l' hf
  have e := foldl_if_flatMap (fun a : Nat × Nat => s.vval a.1 = none ∧ s.asg a.1 a.2 = .un)
    (fun a => [⟨a.1, a.2, true⟩, ⟨a.1, a.2, false⟩]) (better cfg.arith s) s.atoms (cfg.arith.negOne, none)
  have e' : chooseVSIDS cfg.arith s = ((s.atoms.flatMap fun a => if s.vval a.1 = none ∧ s.asg a.1 a.2 = .un then
      [⟨a.1, a.2, true⟩, ⟨a.1, a.2, false⟩] else []).foldl (better cfg.arith s) (cfg.arith.negOne, none)).2 := by
    rw [← e]; rfl
  rw [e'] at hl
  obtain ⟨b1, _, b3⟩ := foldl_better cfg.arith ho s (s.atoms.flatMap fun a => if s.vval a.1 = none ∧ s.asg a.1 a.2 = .un then
      [⟨a.1, a.2, true⟩, ⟨a.1, a.2, false⟩] else []) (cfg.arith.negOne, none) (by simp)
  rw [← b3 l hl]
  apply b1
  rw [List.mem_flatMap]
  refine ⟨(l'.var, l'.val), mem_atoms.2 hf.1, ?_⟩
  rw [if_pos hf.2]
  obtain ⟨v, d, e⟩ := l'
  cases e <;> simp

/-- **C17**, `-vsids_pos`: the decision is a positive literal on a free atom with maximal score among those. -/
theorem C17_vsids_pos {cfg : Cfg S} (hh : cfg.heur = .VSIDS_pos) (hs : cfg.ScoreOK) (ho : cfg.arith.Strict) {P : Problem}
    {s : St S} {rc : Int} (h : LReach cfg P s rc) :
    (∀ l, chooseNC cfg s = some l → l.eq = true ∧ FreeAtom s l.var l.val ∧
      ∀ v d, FreeAtom s v d → cfg.arith.lt (s.score l) (s.score ⟨v, d, true⟩) = false) ∧
    (chooseNC cfg s = none → ∀ v d, ¬ FreeAtom s v d) := by
  obtain ⟨pos, hg⟩ := hs
  have hok : ScoresOK cfg.arith s := fun l => hg.2.2.2 _ (h.pos hg l)
  have hc : chooseNC cfg s = chooseVSIDSPos cfg.arith s := by unfold chooseNC; rw [hh]
  rw [hc]
  obtain ⟨h1, h2⟩ := chooseVSIDSPos_spec cfg.arith s hok
  refine ⟨fun l hl => ⟨(h2 l hl).1, (h2 l hl).2, ?_⟩, h1⟩
  intro v d hf
  have e := foldl_if_flatMap (fun a : Nat × Nat => s.vval a.1 = none ∧ s.asg a.1 a.2 = .un)
    (fun a => [⟨a.1, a.2, true⟩]) (better cfg.arith s) s.atoms (cfg.arith.negOne, none)
  have e' : chooseVSIDSPos cfg.arith s = ((s.atoms.flatMap fun a => if s.vval a.1 = none ∧ s.asg a.1 a.2 = .un then
      [⟨a.1, a.2, true⟩] else []).foldl (better cfg.arith s) (cfg.arith.negOne, none)).2 := by
    rw [← e]; rfl
  rw [e'] at hl
  obtain ⟨b1, _, b3⟩ := foldl_better cfg.arith ho s (s.atoms.flatMap fun a => if s.vval a.1 = none ∧ s.asg a.1 a.2 = .un then
      [⟨a.1, a.2, true⟩] else []) (cfg.arith.negOne, none) (by simp)
  rw [← b3 l hl]
  apply b1
  rw [List.mem_flatMap]
  exact ⟨(v, d), mem_atoms.2 hf.1, by rw [if_pos hf.2]; simp⟩

theorem ScoreArith.dyadic_strict : ScoreArith.dyadic.Strict := by
  refine ⟨?_, ?_⟩
  · rintro (_ | ⟨m, k⟩)
    · rfl
    · simp [ScoreArith.dyadic]
  · rintro (_ | ⟨m, k⟩) (_ | ⟨m', k'⟩) (_ | ⟨m'', k''⟩) <;> simp only [ScoreArith.dyadic, decide_eq_true_eq] <;> intro h1 h2
    all_goals first | (cases h2; done) | (cases h1; done) | trivial | skip
    · have p1 : 0 < 2 ^ k' := Nat.two_pow_pos k'
      have p2 : 0 < 2 ^ k'' := Nat.two_pow_pos k''
      have p3 : 0 < 2 ^ k := Nat.two_pow_pos k
      have a1 : m * 2 ^ k' * 2 ^ k'' < m' * 2 ^ k * 2 ^ k'' := Nat.mul_lt_mul_of_pos_right h1 p2
      have a2 : m' * 2 ^ k'' * 2 ^ k < m'' * 2 ^ k' * 2 ^ k := Nat.mul_lt_mul_of_pos_right h2 p3
      have e1 : m' * 2 ^ k * 2 ^ k'' = m' * 2 ^ k'' * 2 ^ k := by rw [Nat.mul_assoc, Nat.mul_comm (2 ^ k), Nat.mul_assoc]
      have e2 : m * 2 ^ k' * 2 ^ k'' = m * 2 ^ k'' * 2 ^ k' := by rw [Nat.mul_assoc, Nat.mul_comm (2 ^ k'), Nat.mul_assoc]
      have e3 : m'' * 2 ^ k' * 2 ^ k = m'' * 2 ^ k * 2 ^ k' := by rw [Nat.mul_assoc, Nat.mul_comm (2 ^ k'), Nat.mul_assoc]
      rw [e1, e2] at a1
      rw [e3] at a2
      exact Nat.lt_of_mul_lt_mul_right (Nat.lt_trans a1 a2)

example : ∃ (s : St (Option (Nat × Nat))) (rc : Int), LReach (exCfg .VSIDS true) exPigeon s rc ∧
    ∃ l, chooseNC (exCfg .VSIDS true) s = some l ∧ l.eq = false := by
  obtain ⟨p, h1, h2⟩ := Res.of_passes (r := build (exCfg .VSIDS true) exPigeon)
    (q := fun s => decide (chooseNC (exCfg .VSIDS true) s = some ⟨1, 0, false⟩)) (by decide +kernel)
  exact ⟨p, _, .start h1, _, of_decide_eq_true h2, rfl⟩

/-! ## C09 -/

/-- The printed model names every variable of the file exactly once, with a value of its domain, and nothing else. -/
def NamesAll (P : Problem) (m : List Lit) : Prop :=
  (∀ l ∈ m, l.eq = true ∧ 1 ≤ l.var ∧ l.var ≤ P.numVars) ∧
  ∀ v, 1 ≤ v → v ≤ P.numVars → ∃ d, d < P.dom v ∧ (m.filter fun l => l.var = v) = [⟨v, d, true⟩]

theorem filter_eq_singleton {α : Type} {p : α → Bool} {x : α} : ∀ {m : List α}, x ∈ m → p x = true →
    (∀ (i j : Nat) (y z : α), m[i]? = some y → m[j]? = some z → p y = true → p z = true → i = j) → m.filter p = [x]
  | [], h, _, _ => by simp at h
  | a :: m, h, hp, hu => by
    have hu' : ∀ (i j : Nat) (y z : α), m[i]? = some y → m[j]? = some z → p y = true → p z = true → i = j := by
      intro i j y z h1 h2 h3 h4
      have := hu (i + 1) (j + 1) y z h1 h2 h3 h4
      omega
    by_cases ha : p a = true
    · have hno : ∀ y ∈ m, ¬ p y = true := by
        intro y hy hpy
        obtain ⟨j, hj⟩ := List.getElem?_of_mem hy
        have := hu 0 (j + 1) a y rfl hj ha hpy
        omega
      rw [List.filter_cons_of_pos ha, List.filter_eq_nil_iff.2 hno]
      rcases List.mem_cons.1 h with rfl | h
      · rfl
      · exact absurd hp (hno x h)
    · rw [List.filter_cons_of_neg ha]
      rcases List.mem_cons.1 h with rfl | h
      · exact absurd hp ha
      · exact filter_eq_singleton h hp hu'

theorem printed_of {s : St S} (hb : s.tr.Base) (hvars : ∀ v, 1 ≤ v → v ≤ s.nv → VarOK s.dom s.asg v)
    (hn : ∀ v d, ¬ OpenAtom s v d) {P : Problem} (hnv : s.nv = P.numVars) (hdom : s.dom = P.dom)
    (hwf : P.WellFormed) : NamesAll P (printModel s) ∧
    ∀ a : Assignment, (∀ l ∈ printModel s, a l.var = l.val) → Completes P s a := by
  have hval : ∀ v, 1 ≤ v → v ≤ s.nv → ∃ d, d < s.dom v ∧ s.asg v d = .eq ∧ ∀ e, e < s.dom v → e ≠ d → s.asg v e = .ne := by
    intro v h1 h2
    rcases hvars v h1 h2 with h3 | ⟨_, d, _, _, hd, _, hu, _⟩ | h3
    · exact h3
    · exact absurd hu (no_open hb hvars hn ⟨v, d, true⟩ ⟨h1, h2, hd⟩)
    · have := hwf.two h1 (by rw [← hnv]; exact h2)
      rw [hdom] at h3; omega
  have hmem : ∀ v d, s.asg v d = .eq → (⟨v, d, true⟩ : Lit) ∈ s.decs := by
    intro v d he
    obtain ⟨i, L, _, h2, h3, _, h5⟩ := hb.d1 v d (by show s.asg v d ≠ .un; rw [he]; simp)
    rcases h5 with ⟨h6, h7⟩ | ⟨_, _, h7⟩
    · have h8 : Asg.eq = Asg.ofSign L.eq := he.symm.trans h7
      obtain ⟨Lv, Ld, Le⟩ := L
      dsimp only at h3 h6 h8
      subst h3 h6
      cases Le
      · cases h8
      · exact List.mem_of_getElem? h2
    · have h7 : s.asg v d = .ne := h7
      rw [he] at h7; simp at h7
  have htrue : ∀ l ∈ s.decs, l.eq = true → s.asg l.var l.val = .eq := by
    intro l hl he
    obtain ⟨i, hi⟩ := List.getElem?_of_mem hl
    have := (hb.d2 i l hi).1
    unfold LT at this
    rw [he] at this; exact this
  have hval1 : ∀ v d e, s.asg v d = .eq → s.asg v e = .eq → d = e := by
    intro v d e h1 h2
    have hr := hb.rng v d (by show s.asg v d ≠ .un; rw [h1]; simp)
    have e1 := (hb.vv v d hr.1 hr.2.1).2 h1
    have e2 := (hb.vv v e hr.1 hr.2.1).2 h2
    rw [e1] at e2; exact Option.some.inj e2
  refine ⟨⟨?_, ?_⟩, ?_⟩
  · intro l hl
    obtain ⟨h1, h2⟩ := List.mem_filter.1 hl
    have ht := htrue l h1 h2
    have hr := hb.rng l.var l.val (by show s.asg _ _ ≠ .un; rw [ht]; simp)
    exact ⟨h2, hr.1, by rw [← hnv]; exact hr.2.1⟩
  · intro v h1 h2
    obtain ⟨d, hd, he, _⟩ := hval v h1 (by rw [hnv]; exact h2)
    refine ⟨d, by rw [← hdom]; exact hd, ?_⟩
    unfold printModel
    rw [List.filter_filter]
    apply filter_eq_singleton (hmem v d he)
    · simp
    · intro i j y z h3 h4 h5 h6
      simp only [Bool.and_eq_true, decide_eq_true_eq] at h5 h6
      have t1 := htrue y (List.mem_of_getElem? h3) h5.2
      have t2 := htrue z (List.mem_of_getElem? h4) h6.2
      rw [h5.1] at t1
      rw [h6.1] at t2
      have hyz := hval1 v _ _ t1 t2
      have i1 := (hb.d2 i y h3).2
      have i2 := (hb.d2 j z h4).2
      rw [h5.1, hyz] at i1
      rw [h6.1, i1] at i2
      omega
  · intro a ha
    have hav : ∀ v d, s.asg v d = .eq → a v = d := by
      intro v d he
      exact ha ⟨v, d, true⟩ (List.mem_filter.2 ⟨hmem v d he, rfl⟩)
    refine ⟨?_, ?_⟩
    · intro v h1 h2
      obtain ⟨d, hd, he, _⟩ := hval v h1 (by rw [hnv]; exact h2)
      rw [hav v d he, ← hdom]; exact hd
    · intro v d
      refine ⟨hav v d, ?_⟩
      intro hne he
      have hr := hb.rng v d (by show s.asg v d ≠ .un; rw [hne]; simp)
      obtain ⟨d', _, he', _⟩ := hval v hr.1 hr.2.1
      have := hav v d' he'
      rw [he] at this
      subst this
      rw [hne] at he'; simp at he'

theorem CInv.printed {s : St S} (h : CInv (fun _ => False) s) (hc : s.conflict = false) (hn : ∀ v d, ¬ OpenAtom s v d)
    {P : Problem} (hnv : s.nv = P.numVars) (hdom : s.dom = P.dom) (hwf : P.WellFormed) :
    NamesAll P (printModel s) ∧
    ∀ a : Assignment, (∀ l ∈ printModel s, a l.var = l.val) → Completes P s a :=
  printed_of h.base (h.vars hc) hn hnv hdom hwf

/-- **C09**, `-solvech` with the default heuristic (the claim fails for the lazy heuristic, see `C09_lazy_fails`): after SAT
the printed model names every variable exactly once, and what it names satisfies the file. -/
theorem C09_chrono_model_partial {cfg : Cfg S} (hw : cfg.watch = false) (hh : cfg.heur = .BK)
    {P : Problem} (hwf : P.WellFormed) {fuel : Nat} {rep : Report}
    (hrun : solve cfg .chrono fuel P = .ok rep) (hans : rep.answer = .SAT) :
    NamesAll P rep.model ∧ ∀ a : Assignment, (∀ l ∈ rep.model, a l.var = l.val) → P.Solves a := by
  obtain ⟨s, h1, _, h3⟩ := C01_chrono_sat hw (.inl hh) hwf hrun hans
  obtain ⟨r, s', h1', rfl⟩ := solve_eq_ok.1 hrun
  rw [h1] at h1'
  cases h1'
  have hend := run_creach hw hwf.proper fuel (cfg := cfg)
  rw [h1] at hend
  cases hend with
  | @sat s2 st hr hc hu hch =>
    have hi := hr.crinv hw hwf
    have hno : ∀ v d, ¬ OpenAtom s2 v d := by
      apply (chooseBK_spec s2).1
      unfold chooseChrono at hch; rw [hh] at hch; exact hch
    obtain ⟨p1, p2⟩ := hi.inv.printed hc hno hi.nv hi.dom hwf
    obtain ⟨u, e⟩ := chooseEffect_eq cfg s2
    have em : (report 0 (chooseEffect cfg s2)).model = printModel s2 := by rw [e]; rfl
    rw [em]
    refine ⟨p1, fun a ha => h3 a ?_⟩
    obtain ⟨q1, q2⟩ := p2 a ha
    exact ⟨q1, by rw [e]; exact q2⟩

example : exSat.WellFormed ∧ (solve (exCfg .BK false) .chrono 30 exSat).passes
    (fun rep => rep.answer == .SAT && rep.model == [⟨1, 1, true⟩, ⟨2, 1, true⟩]) = true := by
  decide +kernel

/-- **C09**, `-solvenc` with a heuristic other than lazy (the claim fails for the lazy heuristic): after SAT the
printed model names every variable exactly once, and what it names satisfies the file. -/
theorem C09_learn_model_partial {cfg : Cfg S} (hw : cfg.watch = false) (hs : cfg.ScoreOK) (hh : cfg.heur ≠ .lazy)
    {P : Problem} (hwf : P.WellFormed) {fuel : Nat} {rep : Report}
    (hrun : solve cfg .learn fuel P = .ok rep) (hans : rep.answer = .SAT) :
    NamesAll P rep.model ∧ ∀ a : Assignment, (∀ l ∈ rep.model, a l.var = l.val) → P.Solves a := by
  obtain ⟨s, h1, _, h3⟩ := C04_learn_sat hw hs hwf hrun hans
  obtain ⟨r, s', h1', rfl⟩ := solve_eq_ok.1 hrun
  rw [h1] at h1'
  cases h1'
  have hpost := run_learn_safe hw hs hwf fuel _ h1
  cases hpost with
  | sat s1 rc hre hc hu hd =>
    obtain ⟨G, hn⟩ := hre.dninv hw hs hwf
    obtain ⟨pos, hg⟩ := hs
    have hok := scoresOK hg (hn.scores pos hg)
    have hno : ∀ v d, ¬ OpenAtom s1 v d := by
      have hch := decideNC_none hd
      unfold chooseNC at hch
      split at hch
      · exact (chooseVSIDS_spec cfg.arith s1 hok).1 hch
      · exact (chooseVSIDSPos_spec cfg.arith s1 hok).1 hch
      · rw [if_neg (by rw [hw]; simp)] at hch
        exact (chooseBK_spec s1).1 hch
      · rename_i hl; exact absurd hl hh
    obtain ⟨p1, p2⟩ := printed_of hn.inv.base (hn.inv.vars hc) hno hn.linv.nv hn.linv.dom hwf
    obtain ⟨u, e⟩ := chooseEffect_eq cfg s1
    have em : (report 0 (chooseEffect cfg s1)).model = printModel s1 := by rw [e]; rfl
    rw [em]
    refine ⟨p1, fun a ha => h3 a ?_⟩
    obtain ⟨q1, q2⟩ := p2 a ha
    exact ⟨q1, by rw [e]; exact q2⟩

example : (solve (exCfg .VSIDS false) .learn 60 exSat3).passes
    (fun rep => rep.answer == .SAT && rep.model.length == 4) = true := by
  decide +kernel

/-- One variable with three values that must not be 0. -/
def exNe : Problem := ⟨[3], [[⟨1, 0, false⟩]]⟩

/-- **C09 fails for the lazy heuristic**: both searches print SAT and an empty model, so the variable is not named and
value 0, which the printed model does not exclude, violates the file. -/
theorem C09_lazy_fails : ∃ rep rep' : Report, exNe.WellFormed ∧ exNe.NoDupLits ∧
    solve (exCfg .lazy false) .chrono 10 exNe = .ok rep ∧ solve (exCfg .lazy false) .learn 10 exNe = .ok rep' ∧
    rep.answer = .SAT ∧ rep'.answer = .SAT ∧ ¬ NamesAll exNe rep.model ∧ ¬ NamesAll exNe rep'.model ∧
    ∃ a : Assignment, (∀ l ∈ rep.model, a l.var = l.val) ∧ (∀ l ∈ rep'.model, a l.var = l.val) ∧ ¬ exNe.Solves a := by
  have hno : ¬ NamesAll exNe [] := by
    rintro ⟨_, h⟩
    obtain ⟨d, _, h⟩ := h 1 (by decide) (by decide)
    simp at h
  refine ⟨⟨.SAT, 0, 1, 0, 0, 1, 1, 0, [], some true⟩, ⟨.SAT, 0, 1, 0, 0, 1, 1, 0, [], some true⟩, by decide, by decide,
    by decide +kernel, by decide +kernel, rfl, rfl, hno, hno, fun _ => 0, by simp, by simp, by decide⟩

end Mvl
