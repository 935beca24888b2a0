import Verif.Proof.LInv

/-!
# Watched literals: one assigned atom

What the two watched literals of a clause say about it, and what `watchedFalsifyLiteral` does to that.
-/

namespace Mvl

variable {S : Type}

theorem upd_upd {ι α : Type} [DecidableEq ι] (f : ι → α) (i : ι) (x y : α) : upd (upd f i x) i y = upd f i y := by
  funext j; unfold upd; split <;> rfl

theorem upd_self {ι α : Type} [DecidableEq ι] (f : ι → α) (i : ι) : upd f i (f i) = f := by
  funext j; unfold upd; split
  · rename_i h; rw [h]
  · rfl

/-- A clause of one literal, watched. -/
def Watch1 (c : Cls) (a : Lit) : Prop := c.w0 = some a ∧ a ∈ c.lits ∧ c.lits.length = 1

/-- A clause of several literals with watched literals `a` and `b`, in this order. -/
def Watch2 (c : Cls) (a b : Lit) : Prop :=
  c.w0 = some a ∧ c.w1 = some b ∧ a ∈ c.lits ∧ b ∈ c.lits ∧ a ≠ b ∧ 1 < c.lits.length

def WShape (c : Cls) : Prop := (∃ a, Watch1 c a) ∨ ∃ a b, Watch2 c a b

/-- The watch lists in which the clause must be found. -/
def Watches (c : Cls) (l : Lit) : Prop := c.w0 = some l ∨ (1 < c.lits.length ∧ c.w1 = some l)

instance (c : Cls) (l : Lit) : Decidable (Watches c l) := by unfold Watches; infer_instance

theorem Watch1.watches {c : Cls} {a l : Lit} (h : Watch1 c a) : Watches c l ↔ l = a := by
  unfold Watches
  rw [h.1]
  have := h.2.2
  constructor
  · rintro (h1 | ⟨h1, _⟩)
    · cases h1; rfl
    · omega
  · rintro rfl; exact Or.inl rfl

theorem Watch2.watches {c : Cls} {a b l : Lit} (h : Watch2 c a b) : Watches c l ↔ l = a ∨ l = b := by
  unfold Watches
  rw [h.1, h.2.1]
  have := h.2.2.2.2.2
  constructor
  · rintro (h1 | ⟨_, h1⟩)
    · cases h1; exact Or.inl rfl
    · cases h1; exact Or.inr rfl
  · rintro (rfl | rfl)
    · exact Or.inl rfl
    · exact Or.inr ⟨this, rfl⟩

theorem Watch1.inj {c : Cls} {a b : Lit} (h : Watch1 c a) (h' : Watch1 c b) : a = b := by
  have := h.1.symm.trans h'.1; simpa using this

theorem Watch2.inj {c : Cls} {a b a' b' : Lit} (h : Watch2 c a b) (h' : Watch2 c a' b') : a = a' ∧ b = b' := by
  have h1 := h.1.symm.trans h'.1
  have h2 := h.2.1.symm.trans h'.2.1
  exact ⟨by simpa using h1, by simpa using h2⟩

theorem Watch1.not2 {c : Cls} {a b b' : Lit} (h : Watch1 c a) : ¬ Watch2 c b b' := by
  intro h'
  have h1 := h.2.2
  have h2 := h'.2.2.2.2.2
  omega

/-- What watched literals `a` and `b` of a clause with literals `ls` say under `g`; `p`: the clause is in the
queue. -/
structure Pair (ls : List Lit) (g : PA) (p : Prop) (a b : Lit) : Prop where
  fst : LF g a → LT g b ∨ (LU g b ∧ p)
  snd : LF g b → LT g a ∨ (LU g a ∧ p)
  unit : p → (LU g a → ∀ x ∈ ls, x ≠ a → LF g x) ∧ (LU g b → ∀ x ∈ ls, x ≠ b → LF g x)

theorem Pair.symm {ls : List Lit} {g : PA} {p : Prop} {a b : Lit} (h : Pair ls g p a b) : Pair ls g p b a :=
  ⟨h.snd, h.fst, fun hp => (h.unit hp).symm⟩

/-- The clause is in order. -/
def WOK (c : Cls) (g : PA) (p : Prop) : Prop :=
  (∃ a, Watch1 c a ∧ (LT g a ∨ (LU g a ∧ p))) ∨ ∃ a b, Watch2 c a b ∧ Pair c.lits g p a b

theorem WOK.shape {c : Cls} {g : PA} {p : Prop} (h : WOK c g p) : WShape c := by
  rcases h with ⟨a, h, _⟩ | ⟨a, b, h, _⟩
  · exact Or.inl ⟨a, h⟩
  · exact Or.inr ⟨a, b, h⟩

theorem WOK.one {c : Cls} {g : PA} {p : Prop} (h : WOK c g p) {a : Lit} (ha : Watch1 c a) : LT g a ∨ (LU g a ∧ p) := by
  rcases h with ⟨a', h1, h2⟩ | ⟨a', b', h1, _⟩
  · rw [ha.inj h1]; exact h2
  · exact absurd h1 ha.not2

theorem WOK.two {c : Cls} {g : PA} {p : Prop} (h : WOK c g p) {a b : Lit} (ha : Watch2 c a b) : Pair c.lits g p a b := by
  rcases h with ⟨a', h1, h2⟩ | ⟨a', b', h1, h2⟩
  · exact absurd ha h1.not2
  · obtain ⟨e1, e2⟩ := ha.inj h1
    rw [e1, e2]; exact h2

theorem WOK.congr {c : Cls} {g : PA} {p q : Prop} (h : WOK c g p) (hpq : p ↔ q) : WOK c g q := by
  have : p = q := propext hpq
  rw [← this]; exact h

/-- Only one of the two watched literals matters for the order. -/
theorem WOK.of_eq {c c' : Cls} {g : PA} {p : Prop} (h : WOK c g p) (hl : c'.lits = c.lits) (h0 : c'.w0 = c.w0)
    (h1 : c'.w1 = c.w1) : WOK c' g p := by
  rcases h with ⟨a, h2, h3⟩ | ⟨a, b, h2, h3⟩
  · left; exact ⟨a, ⟨h0.trans h2.1, by rw [hl]; exact h2.2.1, by rw [hl]; exact h2.2.2⟩, h3⟩
  · right
    refine ⟨a, b, ⟨h0.trans h2.1, h1.trans h2.2.1, ?_⟩, by rw [hl]; exact h3⟩
    rw [hl]; exact h2.2.2

/-- At a decision point a clause is satisfied or has two open literals. -/
theorem WOK.twoOrSat {c : Cls} {g : PA} (h : WOK c g False) : TwoOrSat g c.lits := by
  rcases h with ⟨a, h1, h2⟩ | ⟨a, b, h1, h2⟩
  · rcases h2 with h2 | h2
    · exact Or.inl ⟨a, h1.2.1, h2⟩
    · exact absurd h2.2 id
  · rcases lit_cases g a with h3 | h3 | h3
    · exact Or.inl ⟨a, h1.2.2.1, h3⟩
    · rcases h2.fst h3 with h4 | h4
      · exact Or.inl ⟨b, h1.2.2.2.1, h4⟩
      · exact absurd h4.2 id
    · rcases lit_cases g b with h4 | h4 | h4
      · exact Or.inl ⟨b, h1.2.2.2.1, h4⟩
      · rcases h2.snd h4 with h5 | h5
        · exact Or.inl ⟨a, h1.2.2.1, h5⟩
        · exact absurd h5.2 id
      · exact Or.inr (openCount_two_of h1.2.2.1 h1.2.2.2.1 h1.2.2.2.2.1 h3 h4)

/-! ### One more atom assigned -/

/-- `g'` is `g` with the open literal `l` made false. -/
structure Falsified (g : PA) (l : Lit) (g' : PA) : Prop where
  un : LU g l
  eq : g' = upd2 g l.var l.val (Asg.ofSign (!l.eq))

namespace Falsified

variable {g g' : PA} {l : Lit}

theorem fals (h : Falsified g l g') : LF g' l := by
  unfold LF; rw [h.eq]; simp

theorem other (h : Falsified g l g') {v d : Nat} (hn : ¬ (v = l.var ∧ d = l.val)) : g' v d = g v d := by
  rw [h.eq]; exact Trail.upd2_of_ne _ _ hn

theorem lf (h : Falsified g l g') {x : Lit} (hx : LF g x) : LF g' x := by
  unfold LF
  rw [h.other]
  · exact hx
  · rintro ⟨h1, h2⟩
    have hu := h.un
    unfold LU at hu
    unfold LF at hx
    rw [h1, h2, hu] at hx; simp at hx

theorem lt (h : Falsified g l g') {x : Lit} (hx : LT g x) : LT g' x := by
  unfold LT
  rw [h.other]
  · exact hx
  · rintro ⟨h1, h2⟩
    have hu := h.un
    unfold LU at hu
    unfold LT at hx
    rw [h1, h2, hu] at hx; simp at hx

theorem of_lu (h : Falsified g l g') {x : Lit} (hx : LU g' x) : LU g x := by
  unfold LU at *
  by_cases hc : x.var = l.var ∧ x.val = l.val
  · rw [h.eq, hc.1, hc.2] at hx; simp at hx
  · rw [h.other hc] at hx; exact hx

/-- Other literals than `l` do not become false. -/
theorem of_lf (h : Falsified g l g') {x : Lit} (hx : LF g' x) (hne : x ≠ l) : LF g x := by
  by_cases hc : x.var = l.var ∧ x.val = l.val
  · unfold LF at hx
    rw [h.eq, hc.1, hc.2] at hx
    simp [ofSign_inj] at hx
    exact absurd (Lit.ext' hc.1 hc.2 hx.symm) hne
  · unfold LF at *; rw [h.other hc] at hx; exact hx

/-- Clauses that do not watch `l` stay in order. -/
theorem wok (h : Falsified g l g') {c : Cls} {p : Prop} (hc : WOK c g p) (hw : ¬ Watches c l) : WOK c g' p := by
  have hkeep : ∀ x : Lit, x ≠ l → LU g x → LT g' x ∨ LU g' x := by
    intro x hx hu
    rcases lit_cases g' x with h1 | h1 | h1
    · exact Or.inl h1
    · exact absurd hu (h.of_lf h1 hx).not_LU
    · exact Or.inr h1
  rcases hc with ⟨a, h1, h2⟩ | ⟨a, b, h1, h2⟩
  · left
    refine ⟨a, h1, ?_⟩
    have hal : a ≠ l := fun e => hw (h1.watches.2 e.symm)
    rcases h2 with h2 | ⟨h2, h3⟩
    · exact Or.inl (h.lt h2)
    · rcases hkeep a hal h2 with h4 | h4
      · exact Or.inl h4
      · exact Or.inr ⟨h4, h3⟩
  · right
    refine ⟨a, b, h1, ?_⟩
    have hal : a ≠ l := fun e => hw (h1.watches.2 (Or.inl e.symm))
    have hbl : b ≠ l := fun e => hw (h1.watches.2 (Or.inr e.symm))
    refine ⟨?_, ?_, ?_⟩
    · intro hf
      rcases h2.fst (h.of_lf hf hal) with h3 | ⟨h3, h4⟩
      · exact Or.inl (h.lt h3)
      · rcases hkeep b hbl h3 with h5 | h5
        · exact Or.inl h5
        · exact Or.inr ⟨h5, h4⟩
    · intro hf
      rcases h2.snd (h.of_lf hf hbl) with h3 | ⟨h3, h4⟩
      · exact Or.inl (h.lt h3)
      · rcases hkeep a hal h3 with h5 | h5
        · exact Or.inl h5
        · exact Or.inr ⟨h5, h4⟩
    · intro hp
      obtain ⟨u1, u2⟩ := h2.unit hp
      exact ⟨fun hu x hx hne => h.lf (u1 (h.of_lu hu) x hx hne), fun hu x hx hne => h.lf (u2 (h.of_lu hu) x hx hne)⟩

end Falsified

/-! ### One record of the watch list -/

/-- The possible results of processing clause `id` in the watch list of the false literal `l`. -/
inductive FOut (l : Lit) (s : St S) (id : Nat) : St S → Prop
  | single (c' : Cls) : c'.lits = (s.cl id).lits → Watch1 c' l →
      FOut l s id { s.setCl id c' with conflict := true, conflicting := id }
  | sat (c' : Cls) (o : Lit) : c'.lits = (s.cl id).lits → Watch2 (s.cl id) l o ∨ Watch2 (s.cl id) o l →
      Watch2 c' o l → LT s.asg o → FOut l s id (s.setCl id c')
  | move (c' : Cls) (o x : Lit) : c'.lits = (s.cl id).lits → Watch2 (s.cl id) l o ∨ Watch2 (s.cl id) o l →
      Watch2 c' x o → LU s.asg o → ¬ LF s.asg x →
      FOut l s id ((addWatch (removeWatch s l id) x id).setCl id c')
  | unit (c' : Cls) (o : Lit) : c'.lits = (s.cl id).lits → Watch2 (s.cl id) l o ∨ Watch2 (s.cl id) o l →
      Watch2 c' l o → LU s.asg o → (∀ x ∈ (s.cl id).lits, x ≠ o → LF s.asg x) →
      FOut l s id { s.setCl id c' with units := id :: s.units }
  | conf (c' : Cls) (o : Lit) : c'.lits = (s.cl id).lits → Watch2 (s.cl id) l o ∨ Watch2 (s.cl id) o l →
      Watch2 c' l o → LF s.asg o →
      FOut l s id { s.setCl id c' with conflict := true, conflicting := id }

theorem setCl_self (s : St S) (id : Nat) : s.setCl id (s.cl id) = s := by
  unfold St.setCl St.cl; rw [upd_self]

theorem setCl_setCl (s : St S) (id : Nat) (c c' : Cls) : (s.setCl id c).setCl id c' = s.setCl id c' := by
  unfold St.setCl
  dsimp only
  rw [upd_upd]

theorem cl_setCl_same (s : St S) (id : Nat) (c : Cls) : (s.setCl id c).cl id = c := by
  unfold St.setCl St.cl; dsimp only; rw [upd_same]

/-- `SwapPointer` after the swap that makes `WATCHED[0]` the false literal. -/
theorem swapPointer_out {s : St S} {id : Nat} {l : Lit} {cs : Cls} (hl : cs.lits = (s.cl id).lits)
    (hf : LF s.asg l)
    (hw : Watch1 cs l ∨ ∃ o, Watch2 cs l o ∧ ¬ LT s.asg o ∧ (Watch2 (s.cl id) l o ∨ Watch2 (s.cl id) o l)) :
    FOut l s id (swapPointer (s.setCl id cs) id l) := by
  unfold swapPointer
  rw [cl_setCl_same]
  dsimp only
  rcases hw with h1 | ⟨o, h1, h2, h3⟩
  · rw [if_neg (by rw [h1.2.2]; omega)]
    exact .single cs hl h1
  · rw [if_pos h1.2.2.2.2.2, h1.2.1]
    dsimp only
    have hasg : (s.setCl id cs).asg = s.asg := rfl
    by_cases ho : sat (s.setCl id cs) o = 2
    · rw [if_pos ho]
      have hou : LU s.asg o := sat_eq_two.1 ho
      cases hfd : cs.lits.find? (fun l => sat (s.setCl id cs) l ≠ 0 ∧ l ≠ o) with
      | some x =>
        have hx := List.find?_some hfd
        simp only [decide_eq_true_eq] at hx
        have hxm := List.mem_of_find?_eq_some hfd
        have hxf : ¬ LF s.asg x := fun h => hx.1 (sat_eq_zero.2 h)
        have e : (addWatch (removeWatch (s.setCl id cs) l id) x id).setCl id { cs with w0 := some x, w1 := some o } =
            (addWatch (removeWatch s l id) x id).setCl id { cs with w0 := some x, w1 := some o } := by
          have : addWatch (removeWatch (s.setCl id cs) l id) x id = (addWatch (removeWatch s l id) x id).setCl id cs := rfl
          rw [this, setCl_setCl]
        dsimp only
        rw [if_pos h1.1]
        show FOut l s id ((addWatch (removeWatch (s.setCl id cs) l id) x id).setCl id { cs with w0 := some x, w1 := some o })
        rw [e]
        refine .move _ o x hl h3 ⟨rfl, rfl, hxm, h1.2.2.2.1, hx.2, h1.2.2.2.2.2⟩ hou hxf
      | none =>
        refine .unit cs o hl h3 h1 hou ?_
        intro x hx hne
        have := List.find?_eq_none.1 hfd x (by rw [hl]; exact hx)
        simp only [decide_eq_true_eq] at this
        have h0 : sat (s.setCl id cs) x = 0 := Classical.byContradiction fun h0 => this ⟨h0, hne⟩
        exact sat_eq_zero.1 h0
    · rw [if_neg ho]
      refine .conf cs o hl h3 h1 (LF_of_not h2 ?_)
      exact fun hu => ho (sat_eq_two.2 hu)

theorem falsifyOne_out {s : St S} {id : Nat} {l : Lit} (hc : s.conflict = false) (hf : LF s.asg l)
    (hs : WShape (s.cl id)) (hw : Watches (s.cl id) l) : FOut l s id (falsifyOne l s id) := by
  unfold falsifyOne
  rw [if_neg (by rw [hc]; simp)]
  dsimp only
  rcases hs with ⟨a, h1⟩ | ⟨a, b, h1⟩
  · have ha := h1.watches.1 hw
    subst ha
    rw [h1.1]
    dsimp only
    rw [if_pos (by intro h; exact hf.not_LT (sat_eq_one.1 h)), if_neg (by rw [h1.2.2]; simp),
      if_neg (by rw [h1.2.2]; simp)]
    split
    · rename_i hw1
      exact swapPointer_out rfl hf (Or.inl ⟨hw1, h1.2.1, h1.2.2⟩)
    · have := swapPointer_out (s := s) (id := id) (cs := s.cl id) rfl hf (Or.inl h1)
      rw [setCl_self] at this; exact this
  · rw [h1.1]
    dsimp only
    by_cases ha : sat s a = 1
    · rw [if_neg (by simp [ha])]
      have hlt := sat_eq_one.1 ha
      have hlb : l = b := by
        rcases h1.watches.1 hw with h | h
        · subst h; exact absurd hlt hf.not_LT
        · exact h
      subst hlb
      have := FOut.sat (l := l) (s := s) (id := id) (s.cl id) a rfl (Or.inr h1) h1 hlt
      rw [setCl_self] at this; exact this
    · rw [if_pos ha, if_neg (by rw [h1.2.1]; simp)]
      have hs1 : Watch2 { s.cl id with w0 := (s.cl id).w1, w1 := some a } b a :=
        ⟨h1.2.1, rfl, h1.2.2.2.1, h1.2.2.1, Ne.symm h1.2.2.2.2.1, h1.2.2.2.2.2⟩
      by_cases hb : sat s b = 1
      · rw [if_pos ⟨h1.2.2.2.2.2, by rw [h1.2.1]; simp [hb]⟩]
        have hlt := sat_eq_one.1 hb
        have hla : l = a := by
          rcases h1.watches.1 hw with h | h
          · exact h
          · subst h; exact absurd hlt hf.not_LT
        subst hla
        exact .sat _ b rfl (Or.inl h1) hs1 hlt
      · rw [if_neg (by rw [h1.2.1]; simp [hb])]
        by_cases hlb : l = b
        · subst hlb
          rw [if_pos h1.2.1]
          exact swapPointer_out rfl hf (Or.inr ⟨a, hs1, fun h => ha (sat_eq_one.2 h), Or.inr h1⟩)
        · rw [if_neg (by rw [h1.2.1]; simp; exact fun h => hlb h.symm)]
          have hla : l = a := by
            rcases h1.watches.1 hw with h | h
            · exact h
            · exact absurd h hlb
          subst hla
          have := swapPointer_out (s := s) (id := id) (cs := s.cl id) rfl hf
            (Or.inr ⟨b, h1, fun h => hb (sat_eq_one.2 h), Or.inl h1⟩)
          rw [setCl_self] at this; exact this

/-! ### What the watch operations leave alone -/

/-- Only the heap, the watch lists, the queue and the conflict and error flags differ. -/
def FrameW (s s' : St S) : Prop :=
  ∃ h w u c cg b, s' = { s with heap := h, wlist := w, units := u, conflict := c, conflicting := cg, ub := b }

theorem FrameW.refl (s : St S) : FrameW s s := ⟨_, _, _, _, _, _, rfl⟩

theorem FrameW.trans {s s' s'' : St S} (h1 : FrameW s s') (h2 : FrameW s' s'') : FrameW s s'' := by
  obtain ⟨_, _, _, _, _, _, rfl⟩ := h1
  obtain ⟨_, _, _, _, _, _, rfl⟩ := h2
  exact ⟨_, _, _, _, _, _, rfl⟩

theorem swapPointer_frame (s : St S) (id : Nat) (w : Lit) : FrameW s (swapPointer s id w) := by
  unfold swapPointer
  dsimp only
  split
  · split
    · exact ⟨_, _, _, _, _, _, rfl⟩
    · split
      · split
        · split
          · exact ⟨_, _, _, _, _, _, rfl⟩
          · exact ⟨_, _, _, _, _, _, rfl⟩
        · exact ⟨_, _, _, _, _, _, rfl⟩
      · exact ⟨_, _, _, _, _, _, rfl⟩
  · exact ⟨_, _, _, _, _, _, rfl⟩

theorem falsifyOne_frame (l : Lit) (s : St S) (id : Nat) : FrameW s (falsifyOne l s id) := by
  unfold falsifyOne
  dsimp only
  split
  · exact FrameW.refl s
  · split
    · exact ⟨_, _, _, _, _, _, rfl⟩
    · split
      · split
        · exact ⟨_, _, _, _, _, _, rfl⟩
        · split
          · exact ⟨_, _, _, _, _, _, rfl⟩
          · split
            · exact FrameW.trans ⟨_, _, _, _, _, _, rfl⟩ (swapPointer_frame _ _ _)
            · exact swapPointer_frame _ _ _
      · exact FrameW.refl s

theorem falsifyFold_frame (l : Lit) : ∀ (ids : List Nat) (s : St S), FrameW s (ids.foldl (falsifyOne l) s)
  | [], s => FrameW.refl s
  | id :: ids, s => (falsifyOne_frame l s id).trans (falsifyFold_frame l ids _)

theorem falsifyFold_conf (l : Lit) : ∀ (ids : List Nat) (s : St S), s.conflict = true → ids.foldl (falsifyOne l) s = s
  | [], _, _ => rfl
  | id :: ids, s, h => by
    have : falsifyOne l s id = s := by unfold falsifyOne; rw [if_pos h]
    rw [List.foldl_cons, this]
    exact falsifyFold_conf l ids s h

theorem wassign1_frame (s : St S) (v d : Nat) (a : Asg) : FrameW (wsetAtom s v d a) (wassign1 s v d a) :=
  falsifyFold_frame _ _ _

theorem FrameW.tr {s s' : St S} (h : FrameW s s') : s'.tr = s.tr := by
  obtain ⟨_, _, _, _, _, _, rfl⟩ := h; rfl

theorem stepG_wassign1 : StepG (wassign1 (S := S)) where
  tr := by
    intro s v d a ha
    rw [(wassign1_frame s v d a).tr]; rfl
  unit := by
    intro s v d a
    obtain ⟨_, _, _, _, _, _, h⟩ := wassign1_frame s v d a
    rw [h]; rfl
  ents := by
    intro s v d a
    obtain ⟨_, _, _, _, _, _, h⟩ := wassign1_frame s v d a
    rw [h]; rfl
  same := by
    intro s v d a
    obtain ⟨_, _, _, _, _, _, h⟩ := wassign1_frame s v d a
    rw [h]; exact ⟨rfl, rfl, rfl, rfl, rfl, rfl, rfl, rfl, rfl, rfl, rfl⟩
  conf := by
    intro s v d a hc
    unfold wassign1 watchedFalsify
    rw [falsifyFold_conf _ _ (wsetAtom s v d a) hc]
    exact hc

/-! ### The whole watch list -/

/-- The conflicting clause: false, with its latest literal watched first. -/
def WConf (s : St S) : Prop :=
  ∃ id, id < s.ncl ∧ s.conflicting = (id : Int) ∧ (∀ x ∈ (s.cl id).lits, LF s.asg x) ∧
    ∃ a ∈ (s.cl id).lits, (s.cl id).w0 = some a ∧ ∀ x ∈ (s.cl id).lits, s.idx x.var x.val ≤ s.idx a.var a.val

/-- Invariant of the watched-literal structures, between two atoms. -/
structure WCore (ex : Nat → Prop) (s : St S) : Prop where
  inj   : ∀ i j, i < s.ncl → j < s.ncl → s.ptr i = s.ptr j → i = j
  alloc : ∀ i, i < s.ncl → s.ptr i < s.nheap
  shape : ∀ id, id < s.ncl → WShape (s.cl id)
  lists : ∀ l id, (s.wlist l).count id = if id < s.ncl ∧ Watches (s.cl id) l then 1 else 0
  hist  : ∀ k : Int, 0 ≤ k → k < s.LEVEL → ∀ id, id < s.ncl → WOK (s.cl id) (s.tr.asgAt k) False
  cur   : s.conflict = false → ∀ id, id < s.ncl → WOK (s.cl id) s.asg (id ∈ s.units ∨ ex id)
  units : ∀ id ∈ s.units, id < s.ncl
  conf  : s.conflict = true → WConf s
  ix    : ∀ v d, s.asg v d ≠ .un → s.idx v d < s.decs.length

/-- The same in the middle of the loop over the watch list of `l`; `rem` are the clauses still to be processed
and `g` is the assignment before `l` became false. -/
structure WMid (ex : Nat → Prop) (l : Lit) (g : PA) (rem : List Nat) (s : St S) : Prop where
  inj   : ∀ i j, i < s.ncl → j < s.ncl → s.ptr i = s.ptr j → i = j
  alloc : ∀ i, i < s.ncl → s.ptr i < s.nheap
  shape : ∀ id, id < s.ncl → WShape (s.cl id)
  lists : ∀ l id, (s.wlist l).count id = if id < s.ncl ∧ Watches (s.cl id) l then 1 else 0
  hist  : ∀ k : Int, 0 ≤ k → k < s.LEVEL → ∀ id, id < s.ncl → WOK (s.cl id) (s.tr.asgAt k) False
  fals  : Falsified g l s.asg
  nodup : rem.Nodup
  todo  : s.conflict = false → ∀ id ∈ rem, id < s.ncl ∧ Watches (s.cl id) l ∧ WOK (s.cl id) g (id ∈ s.units ∨ ex id)
  done  : s.conflict = false → ∀ id, id < s.ncl → id ∉ rem → WOK (s.cl id) s.asg (id ∈ s.units ∨ ex id)
  units : ∀ id ∈ s.units, id < s.ncl
  conf  : s.conflict = true → WConf s
  ix    : ∀ v d, s.asg v d ≠ .un → s.idx v d < s.decs.length
  last  : s.idx l.var l.val = (s.decs.length : Int) - 1

theorem not_LF_asgAt {t : Trail} {k : Int} {x : Lit} (h : ¬ LF t.asg x) : ¬ LF (t.asgAt k) x := by
  intro hx
  apply h
  unfold LF at *
  have hne : t.asgAt k x.var x.val ≠ .un := by rw [hx]; simp
  rw [← (Trail.asgAt_ne_un hne).2.2]; exact hx

theorem LF_asgAt_of {t : Trail} {k : Int} {x : Lit} (h : LF (t.asgAt k) x) : LF t.asg x :=
  Classical.byContradiction fun hn => not_LF_asgAt hn h

/-- Replacing the record of one clause. -/
theorem WMid.setCl {ex : Nat → Prop} {l : Lit} {g : PA} {rem : List Nat} {s : St S} {id : Nat} (h : WMid ex l g (id :: rem) s)
    (hc : s.conflict = false) {c' : Cls} {w : Lit → List Nat} {u : List Nat} {cf : Bool} {cg : Int}
    (hl : c'.lits = (s.cl id).lits)
    (hsh : WShape c')
    (hw : ∀ x j, (w x).count j = if j < s.ncl ∧ Watches (if j = id then c' else s.cl j) x then 1 else 0)
    (hh : ∀ k : Int, 0 ≤ k → k < s.LEVEL → WOK c' (s.tr.asgAt k) False)
    (hu : u = s.units ∨ u = id :: s.units)
    (hd : cf = false → WOK c' s.asg (id ∈ u ∨ ex id))
    (hcf : cf = true → cg = id ∧ (∀ x ∈ (s.cl id).lits, LF s.asg x) ∧ c'.w0 = some l ∧ l ∈ (s.cl id).lits) :
    WMid ex l g rem { s.setCl id c' with wlist := w, units := u, conflict := cf, conflicting := cg } := by
  obtain ⟨hid, hwl, hok⟩ := h.todo hc id (by simp)
  obtain ⟨hnd1, hnd2⟩ := List.nodup_cons.1 h.nodup
  have hcl : ∀ j, j < s.ncl → ({ s.setCl id c' with wlist := w, units := u, conflict := cf, conflicting := cg } : St S).cl j =
      if j = id then c' else s.cl j := fun j hj => cl_setCl h.inj hid hj c'
  have hmem : ∀ j, j ≠ id → (j ∈ u ↔ j ∈ s.units) := by
    intro j hj
    rcases hu with rfl | rfl
    · exact Iff.rfl
    · simp [hj]
  refine ⟨h.inj, h.alloc, ?_, ?_, ?_, h.fals, hnd2, ?_, ?_, ?_, ?_, h.ix, h.last⟩
  · intro j hj
    rw [hcl j hj]; split
    · exact hsh
    · exact h.shape j hj
  · intro x j
    show (w x).count j = _
    rw [hw x j]
    show _ = if j < s.ncl ∧ _ then 1 else 0
    by_cases hj : j < s.ncl
    · rw [hcl j hj]
      by_cases hW : Watches (if j = id then c' else s.cl j) x <;> simp [hj, hW]
    · simp [hj]
  · intro k hk0 hk j hj
    rw [hcl j hj]; split
    · exact hh k hk0 hk
    · exact h.hist k hk0 hk j hj
  · intro hcf' j hj
    obtain ⟨h1, h2, h3⟩ := h.todo hc j (by simp [hj])
    have hne : j ≠ id := fun e => hnd1 (e ▸ hj)
    rw [hcl j h1, if_neg hne]
    exact ⟨h1, h2, h3.congr (or_congr (hmem j hne).symm Iff.rfl)⟩
  · intro hcf' j hj hjr
    rw [hcl j hj]
    split
    · rename_i e; subst e; exact hd hcf'
    · rename_i hne
      have := h.done hc j hj (by simp [hne, hjr])
      exact this.congr (or_congr (hmem j hne).symm Iff.rfl)
  · intro j hj
    show j < s.ncl
    rcases hu with rfl | rfl
    · exact h.units j hj
    · rcases List.mem_cons.1 hj with rfl | hj
      · exact hid
      · exact h.units j hj
  · intro hcf'
    obtain ⟨he, h1, h2, h3⟩ := hcf hcf'
    refine ⟨id, hid, he, ?_⟩
    rw [hcl id hid, if_pos rfl, hl]
    refine ⟨h1, l, h3, h2, ?_⟩
    intro x hx
    show s.idx x.var x.val ≤ s.idx l.var l.val
    rw [h.last]
    have := h.ix x.var x.val (by rw [h1 x hx]; simp)
    omega

theorem WMid.step {ex : Nat → Prop} {l : Lit} {g : PA} {rem : List Nat} {s : St S} {id : Nat}
    (h : WMid ex l g (id :: rem) s) : WMid ex l g rem (falsifyOne l s id) := by
  obtain ⟨hnd1, hnd2⟩ := List.nodup_cons.1 h.nodup
  by_cases hc : s.conflict
  · have : falsifyOne l s id = s := by unfold falsifyOne; rw [if_pos hc]
    rw [this]
    refine ⟨h.inj, h.alloc, h.shape, h.lists, h.hist, h.fals, hnd2, ?_, ?_, h.units, h.conf, h.ix, h.last⟩
    · intro hf; rw [hf] at hc; simp at hc
    · intro hf; rw [hf] at hc; simp at hc
  have hc : s.conflict = false := by simpa using hc
  obtain ⟨hid, hwl, hok⟩ := h.todo hc id (by simp)
  have hlf := h.fals.fals
  have hout := falsifyOne_out hc hlf (h.shape id hid) hwl
  -- the watched literals are the same up to order
  have hsame : ∀ c' : Cls, (∀ x, Watches c' x ↔ Watches (s.cl id) x) → ∀ x j,
      (s.wlist x).count j = if j < s.ncl ∧ Watches (if j = id then c' else s.cl j) x then 1 else 0 := by
    intro c' hcw x j
    rw [h.lists x j]
    by_cases hj : j = id
    · subst hj; rw [if_pos rfl]; simp only [hcw]
    · rw [if_neg hj]
  have hwat : ∀ {c' : Cls} {o : Lit}, Watch2 (s.cl id) l o ∨ Watch2 (s.cl id) o l → Watch2 c' l o ∨ Watch2 c' o l →
      ∀ x, Watches c' x ↔ Watches (s.cl id) x := by
    intro c' o h1 h2 x
    have e1 : Watches (s.cl id) x ↔ x = l ∨ x = o := by
      rcases h1 with h1 | h1
      · exact h1.watches
      · rw [h1.watches]; exact or_comm
    have e2 : Watches c' x ↔ x = l ∨ x = o := by
      rcases h2 with h2 | h2
      · exact h2.watches
      · rw [h2.watches]; exact or_comm
    rw [e1, e2]
  have hpair : ∀ {c : Cls} {o : Lit} {g : PA} {p : Prop}, WOK c g p → Watch2 c l o ∨ Watch2 c o l → Pair c.lits g p l o := by
    intro c o g p hw ho
    rcases ho with ho | ho
    · exact hw.two ho
    · exact (hw.two ho).symm
  have hhist : ∀ {c' : Cls} {o : Lit}, c'.lits = (s.cl id).lits → Watch2 (s.cl id) l o ∨ Watch2 (s.cl id) o l →
      Watch2 c' l o ∨ Watch2 c' o l → ∀ k : Int, 0 ≤ k → k < s.LEVEL → WOK c' (s.tr.asgAt k) False := by
    intro c' o hl h1 h2 k hk0 hk
    have := hpair (h.hist k hk0 hk id hid) h1
    rcases h2 with h2 | h2
    · exact Or.inr ⟨l, o, h2, by rw [hl]; exact this⟩
    · exact Or.inr ⟨o, l, h2, by rw [hl]; exact this.symm⟩
  generalize falsifyOne l s id = s' at hout
  cases hout with
  | single c' hl hw1 =>
    have hold : Watch1 (s.cl id) l := by
      rcases h.shape id hid with ⟨a, ha⟩ | ⟨a, b, ha⟩
      · rw [ha.watches.1 hwl]; exact ha
      · have h1 := ha.2.2.2.2.2
        have h2 := hw1.2.2
        rw [hl] at h2; omega
    have hall : ∀ x ∈ (s.cl id).lits, x = l := by
      intro x hx
      have h1 := hold.2.2
      have h2 := hold.2.1
      match hm : (s.cl id).lits, h1 with
      | [y], _ =>
        rw [hm] at hx h2
        simp at hx h2
        rw [hx, h2]
    refine h.setCl hc hl (Or.inl ⟨l, hw1⟩) (hsame c' fun x => by rw [hw1.watches, hold.watches]) ?_ (Or.inl rfl)
      (by simp) (fun _ => ⟨rfl, fun x hx => by rw [hall x hx]; exact hlf, hw1.1, hold.2.1⟩)
    intro k hk0 hk
    exact Or.inl ⟨l, hw1, (h.hist k hk0 hk id hid).one hold⟩
  | sat c' o hl hold hw2 hlt =>
    refine h.setCl hc hl (Or.inr ⟨o, l, hw2⟩) (hsame c' (hwat hold (Or.inr hw2))) (hhist hl hold (Or.inr hw2)) (Or.inl rfl)
      (fun _ => ?_) (fun hcf => absurd (hc.symm.trans hcf) (by simp))
    have hp := hpair hok hold
    refine Or.inr ⟨o, l, hw2, ⟨fun hf => absurd hlt hf.not_LT, fun _ => Or.inl hlt, ?_⟩⟩
    intro hpd
    exact ⟨fun hu => absurd hlt hu.not_LT, fun hu => absurd hu hlf.not_LU⟩
  | move c' o x hl hold hw2 hlu hxf =>
    have hxl : x ≠ l := fun e => hxf (e ▸ hlf)
    have hxo : x ≠ o := hw2.2.2.2.2.1
    have hlo : l ≠ o := by
      rcases hold with h1 | h1
      · exact h1.2.2.2.2.1
      · exact Ne.symm h1.2.2.2.2.1
    have hxm : x ∈ (s.cl id).lits := by rw [← hl]; exact hw2.2.2.1
    have hnp : ¬ (id ∈ s.units ∨ ex id) := by
      intro hp
      have := ((hpair hok hold).unit hp).2 (h.fals.of_lu hlu) x hxm hxo
      exact hxf (h.fals.lf this)
    have hold' : ∀ y, Watches (s.cl id) y ↔ y = l ∨ y = o := by
      intro y
      rcases hold with h1 | h1
      · exact h1.watches
      · rw [h1.watches]; exact or_comm
    refine h.setCl (w := (addWatch (removeWatch s l id) x id).wlist) hc hl (Or.inr ⟨x, o, hw2⟩) ?_ ?_ (Or.inl rfl)
      (fun _ => ?_) (fun hcf => absurd (hc.symm.trans hcf) (by simp))
    · intro y j
      have hcnt := h.lists y j
      unfold addWatch removeWatch
      dsimp only
      by_cases hj : j = id
      · subst hj
        rw [if_pos rfl]
        simp only [hold'] at hcnt
        simp only [hw2.watches]
        by_cases hyx : y = x
        · subst hyx
          simp only [upd_same, upd_of_ne _ _ hxl]
          rw [List.count_cons_self, hcnt]
          simp [hid, hxl, hxo]
        · rw [upd_of_ne _ _ hyx]
          by_cases hyl : y = l
          · subst hyl
            rw [upd_same, List.count_erase_self, hcnt]
            simp [hid, hyx, hlo]
          · rw [upd_of_ne _ _ hyl, hcnt]
            simp [hyl, hyx]
      · rw [if_neg hj]
        rw [← hcnt]
        by_cases hyx : y = x
        · subst hyx
          simp only [upd_same, upd_of_ne _ _ hxl]
          rw [List.count_cons_of_ne (Ne.symm hj)]
        · rw [upd_of_ne _ _ hyx]
          by_cases hyl : y = l
          · subst hyl
            rw [upd_same, List.count_erase_of_ne hj]
          · rw [upd_of_ne _ _ hyl]
    · intro k hk0 hk
      have hp := hpair (h.hist k hk0 hk id hid) hold
      have hou : ¬ LF (s.tr.asgAt k) o := not_LF_asgAt hlu.not_LF
      have hxu : ¬ LF (s.tr.asgAt k) x := not_LF_asgAt hxf
      exact Or.inr ⟨x, o, hw2, ⟨fun hf => absurd hf hxu, fun hf => absurd hf hou, fun hp => hp.elim⟩⟩
    · exact Or.inr ⟨x, o, hw2, ⟨fun hf => absurd hf hxf, fun hf => absurd hf hlu.not_LF, fun hp => absurd hp hnp⟩⟩
  | unit c' o hl hold hw2 hlu hall =>
    refine h.setCl hc hl (Or.inr ⟨l, o, hw2⟩) (hsame c' (hwat hold (Or.inl hw2))) (hhist hl hold (Or.inl hw2)) (Or.inr rfl)
      (fun _ => ?_) (fun hcf => absurd (hc.symm.trans hcf) (by simp))
    refine Or.inr ⟨l, o, hw2, ⟨fun _ => Or.inr ⟨hlu, Or.inl (by simp)⟩, fun hf => absurd hf hlu.not_LF, ?_⟩⟩
    intro _
    exact ⟨fun hu => absurd hu hlf.not_LU, fun _ x hx hne => hall x (by rw [← hl]; exact hx) hne⟩
  | conf c' o hl hold hw2 hof =>
    have hlo : o ≠ l := Ne.symm hw2.2.2.2.2.1
    have hp := hpair hok hold
    have hpd : id ∈ s.units ∨ ex id := by
      rcases hp.snd (h.fals.of_lf hof hlo) with h1 | h1
      · exact absurd h1 h.fals.un.not_LT
      · exact h1.2
    have hall : ∀ x ∈ (s.cl id).lits, LF s.asg x := by
      intro x hx
      by_cases hxl : x = l
      · rw [hxl]; exact hlf
      · exact h.fals.lf ((hp.unit hpd).1 h.fals.un x hx hxl)
    refine h.setCl hc hl (Or.inr ⟨l, o, hw2⟩) (hsame c' (hwat hold (Or.inl hw2))) (hhist hl hold (Or.inl hw2)) (Or.inl rfl)
      (by simp) (fun _ => ⟨rfl, hall, hw2.1, by rw [← hl]; exact hw2.2.2.1⟩)

theorem WMid.fold {ex : Nat → Prop} {l : Lit} {g : PA} : ∀ (rem : List Nat) (s : St S), WMid ex l g rem s →
    WMid ex l g [] (rem.foldl (falsifyOne l) s)
  | [], _, h => h
  | _ :: rem, _, h => WMid.fold rem _ h.step

theorem WMid.core {ex : Nat → Prop} {l : Lit} {g : PA} {s : St S} (h : WMid ex l g [] s) : WCore ex s :=
  ⟨h.inj, h.alloc, h.shape, h.lists, h.hist, fun hc id hid => h.done hc id hid (by simp), h.units, h.conf, h.ix⟩

theorem mem_wlist {ex : Nat → Prop} {s : St S} (h : WCore ex s) (l : Lit) (id : Nat) :
    id ∈ s.wlist l ↔ id < s.ncl ∧ Watches (s.cl id) l := by
  have := h.lists l id
  rw [← List.count_pos_iff, this]
  split <;> simp_all

theorem wlist_nodup {ex : Nat → Prop} {s : St S} (h : WCore ex s) (l : Lit) : (s.wlist l).Nodup := by
  rw [List.nodup_iff_count]
  intro id
  rw [h.lists l id]
  split <;> simp

/-- One atom: the writes and the walk over the watch list. -/
theorem WCore.mid {ex : Nat → Prop} {s : St S} (h : WCore ex s) {v d : Nat} {a : Asg} (ha : a ≠ .un)
    (hu : s.asg v d = .un) :
    WMid ex ⟨v, d, decide (a ≠ .eq)⟩ s.asg (s.wlist ⟨v, d, decide (a ≠ .eq)⟩) (wsetAtom s v d a) := by
  have hl : a = Asg.ofSign (!(decide (a ≠ .eq))) := by cases a <;> simp_all [Asg.ofSign]
  have hfal : Falsified s.asg ⟨v, d, decide (a ≠ .eq)⟩ (wsetAtom s v d a).asg :=
    ⟨hu, by rw [← hl]; rfl⟩
  have hkeep : ∀ v' d', s.asg v' d' ≠ .un → ¬ (v' = v ∧ d' = d) := by
    rintro v' d' hn ⟨rfl, rfl⟩; exact hn hu
  have hhist : ∀ k : Int, k < s.LEVEL → (wsetAtom s v d a).tr.asgAt k = s.tr.asgAt k := fun k hk =>
    Trail.asgAt_set (t := s.tr) (r := s.unitClause) hk hu
  refine ⟨h.inj, h.alloc, h.shape, h.lists, ?_, hfal, wlist_nodup h _, ?_, ?_, h.units, ?_, ?_, ?_⟩
  · intro k hk0 hk id hid
    rw [hhist k hk]
    exact h.hist k hk0 hk id hid
  · intro hc id hid
    obtain ⟨h1, h2⟩ := (mem_wlist h _ _).1 hid
    exact ⟨h1, h2, h.cur hc id h1⟩
  · intro hc id hid hni
    exact hfal.wok (h.cur hc id hid) (fun hw => hni ((mem_wlist h _ _).2 ⟨hid, hw⟩))
  · intro hc
    obtain ⟨id, hid, he, h1, b, hb, hb0, hmax⟩ := h.conf hc
    refine ⟨id, hid, he, fun x hx => hfal.lf (h1 x hx), b, hb, hb0, ?_⟩
    intro x hx
    have e : ∀ y ∈ (s.cl id).lits, (wsetAtom s v d a).idx y.var y.val = s.idx y.var y.val := fun y hy =>
      Trail.upd2_of_ne _ _ (hkeep _ _ (by rw [h1 y hy]; simp))
    rw [e x hx, e b hb]
    exact hmax x hx
  · intro v' d' hn
    show upd2 s.idx v d ((s.decs.length : Int) - 1) v' d' < s.decs.length
    rw [Trail.upd2_apply]
    split
    · omega
    · rename_i hne
      have : (wsetAtom s v d a).asg v' d' = s.asg v' d' := Trail.upd2_of_ne _ _ hne
      rw [this] at hn
      exact h.ix v' d' hn
  · show upd2 s.idx v d ((s.decs.length : Int) - 1) v d = (s.decs.length : Int) - 1
    simp

/-- Fields not mentioned by the invariant, and more decision literals. -/
theorem WCore.frame {ex : Nat → Prop} {s : St S} (h : WCore ex s) {ds : List Lit} (hd : s.decs.length ≤ ds.length)
    (vv : Nat → Option Nat) (u : Int) (n : Nat) :
    WCore ex { s with decs := ds, vval := vv, unitClause := u, nEntails := n } := by
  refine ⟨h.inj, h.alloc, h.shape, h.lists, h.hist, h.cur, h.units, h.conf, ?_⟩
  intro v d hn
  have := h.ix v d hn
  show s.idx v d < (ds.length : Int)
  omega

/-- Literal lists of clauses and the error flag are kept. -/
theorem FOut.keep {l : Lit} {s s' : St S} {id : Nat} (h : FOut l s id s') (hid : id < s.ncl)
    (hinj : ∀ i j, i < s.ncl → j < s.ncl → s.ptr i = s.ptr j → i = j) :
    s'.ub = s.ub ∧ ∀ j, j < s.ncl → (s'.cl j).lits = (s.cl j).lits := by
  have key : ∀ c' : Cls, c'.lits = (s.cl id).lits → ∀ j, j < s.ncl → ((s.setCl id c').cl j).lits = (s.cl j).lits := by
    intro c' hl j hj
    rw [cl_setCl hinj hid hj]
    split
    · rename_i e; rw [e]; exact hl
    · rfl
  cases h with
  | single c' hl => exact ⟨rfl, key c' hl⟩
  | sat c' o hl => exact ⟨rfl, key c' hl⟩
  | move c' o x hl => exact ⟨rfl, key c' hl⟩
  | unit c' o hl => exact ⟨rfl, key c' hl⟩
  | conf c' o hl => exact ⟨rfl, key c' hl⟩

theorem WMid.keep {ex : Nat → Prop} {l : Lit} {g : PA} {rem : List Nat} {s : St S} {id : Nat}
    (h : WMid ex l g (id :: rem) s) :
    (falsifyOne l s id).ub = s.ub ∧ ∀ j, j < s.ncl → ((falsifyOne l s id).cl j).lits = (s.cl j).lits := by
  by_cases hc : s.conflict
  · have : falsifyOne l s id = s := by unfold falsifyOne; rw [if_pos hc]
    rw [this]; exact ⟨rfl, fun _ _ => rfl⟩
  · have hc : s.conflict = false := by simpa using hc
    obtain ⟨hid, hwl, hok⟩ := h.todo hc id (by simp)
    exact (falsifyOne_out hc h.fals.fals (h.shape id hid) hwl).keep hid h.inj

theorem WMid.keepAll {ex : Nat → Prop} {l : Lit} {g : PA} : ∀ (rem : List Nat) (s : St S), WMid ex l g rem s →
    (rem.foldl (falsifyOne l) s).ub = s.ub ∧
    ∀ j, j < s.ncl → ((rem.foldl (falsifyOne l) s).cl j).lits = (s.cl j).lits
  | [], _, _ => ⟨rfl, fun _ _ => rfl⟩
  | id :: rem, s, h => by
    obtain ⟨h1, h2⟩ := h.keep
    obtain ⟨h3, h4⟩ := WMid.keepAll rem _ h.step
    rw [List.foldl_cons]
    refine ⟨h3.trans h1, fun j hj => ?_⟩
    have hn : (falsifyOne l s id).ncl = s.ncl := by
      obtain ⟨_, _, _, _, _, _, e⟩ := falsifyOne_frame l s id
      rw [e]
    rw [h4 j (by rw [hn]; exact hj), h2 j hj]

/-- One atom: the writes and the walk over the watch list. -/
theorem WCore.assign {ex : Nat → Prop} {s : St S} (h : WCore ex s) {v d : Nat} {a : Asg} (ha : a ≠ .un)
    (hu : s.asg v d = .un) : WCore ex (wassign1 s v d a) ∧ (wassign1 s v d a).ub = s.ub ∧
      ∀ j, j < s.ncl → ((wassign1 s v d a).cl j).lits = (s.cl j).lits :=
  have hm := h.mid ha hu
  ⟨(WMid.fold _ _ hm).core, WMid.keepAll _ _ hm⟩

end Mvl
