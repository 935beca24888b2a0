import Verif.Model.Core

/-!
# Partial assignments

Facts about assignments `Nat → Nat → Asg` alone (no solver state): when a literal is true, false or
open, and what it means for a variable and a clause to be in order at a decision point.
-/

namespace Mvl

/-- A partial assignment of atoms. -/
abbrev PA := Nat → Nat → Asg

def LT (g : PA) (l : Lit) : Prop := g l.var l.val = Asg.ofSign l.eq
def LU (g : PA) (l : Lit) : Prop := g l.var l.val = .un
def LF (g : PA) (l : Lit) : Prop := g l.var l.val = Asg.ofSign (!l.eq)

instance (g : PA) (l : Lit) : Decidable (LT g l) := by unfold LT; infer_instance
instance (g : PA) (l : Lit) : Decidable (LU g l) := by unfold LU; infer_instance
instance (g : PA) (l : Lit) : Decidable (LF g l) := by unfold LF; infer_instance

@[simp] theorem ofSign_true : Asg.ofSign true = .eq := rfl
@[simp] theorem ofSign_false : Asg.ofSign false = .ne := rfl
@[simp] theorem ofSign_ne_un (b : Bool) : Asg.ofSign b ≠ .un := by cases b <;> simp [Asg.ofSign]
@[simp] theorem un_ne_ofSign (b : Bool) : Asg.un ≠ Asg.ofSign b := by cases b <;> simp [Asg.ofSign]

theorem ofSign_inj {a b : Bool} : Asg.ofSign a = Asg.ofSign b ↔ a = b := by
  cases a <;> cases b <;> simp [Asg.ofSign]

theorem lit_cases (g : PA) (l : Lit) : LT g l ∨ LF g l ∨ LU g l := by
  unfold LT LF LU
  cases h : g l.var l.val <;> cases l.eq <;> simp [Asg.ofSign]

theorem LT.not_LF {g : PA} {l : Lit} (h : LT g l) : ¬ LF g l := by
  unfold LT LF at *; rw [h]; cases l.eq <;> simp [Asg.ofSign]
theorem LT.not_LU {g : PA} {l : Lit} (h : LT g l) : ¬ LU g l := by
  unfold LT LU at *; rw [h]; simp
theorem LF.not_LU {g : PA} {l : Lit} (h : LF g l) : ¬ LU g l := by
  unfold LF LU at *; rw [h]; simp
theorem LF.not_LT {g : PA} {l : Lit} (h : LF g l) : ¬ LT g l := fun h' => h'.not_LF h
theorem LU.not_LT {g : PA} {l : Lit} (h : LU g l) : ¬ LT g l := fun h' => h'.not_LU h
theorem LU.not_LF {g : PA} {l : Lit} (h : LU g l) : ¬ LF g l := fun h' => h'.not_LU h

theorem LF_of_not {g : PA} {l : Lit} (h1 : ¬ LT g l) (h2 : ¬ LU g l) : LF g l := by
  rcases lit_cases g l with h | h | h
  · exact absurd h h1
  · exact h
  · exact absurd h h2

/-- Some literal of the clause is true. -/
def CSat (g : PA) (c : List Lit) : Prop := ∃ l ∈ c, LT g l

instance (g : PA) (c : List Lit) : Decidable (CSat g c) := by unfold CSat; infer_instance

/-- Number of open literal occurrences. -/
def openCount (g : PA) (c : List Lit) : Nat := c.countP fun l => LU g l

/-- The clause is satisfied or has at least two open literal occurrences. -/
def TwoOrSat (g : PA) (c : List Lit) : Prop := CSat g c ∨ 2 ≤ openCount g c

/-- A variable has a value and all other values are excluded, or it has no value and at least two
values are open, or it has only one value. -/
def VarOK (dom : Nat → Nat) (g : PA) (v : Nat) : Prop :=
  (∃ d, d < dom v ∧ g v d = .eq ∧ ∀ e, e < dom v → e ≠ d → g v e = .ne) ∨
  ((∀ d, d < dom v → g v d ≠ .eq) ∧
    ∃ d e, d ≠ e ∧ d < dom v ∧ e < dom v ∧ g v d = .un ∧ g v e = .un) ∨
  dom v = 1

/-- An assignment agrees with a partial assignment. -/
def Agrees (a : Assignment) (g : PA) : Prop :=
  ∀ v d, (g v d = .eq → a v = d) ∧ (g v d = .ne → a v ≠ d)

theorem Agrees.of_LT {a : Assignment} {g : PA} (h : Agrees a g) {l : Lit} (hl : LT g l) :
    l.holds a := by
  unfold LT at hl; unfold Lit.holds
  cases he : l.eq <;> simp [he] at hl ⊢
  · exact (h _ _).2 hl
  · exact (h _ _).1 hl

theorem Agrees.of_LF {a : Assignment} {g : PA} (h : Agrees a g) {l : Lit} (hl : LF g l) :
    ¬ l.holds a := by
  unfold LF at hl; unfold Lit.holds
  cases he : l.eq <;> simp [he] at hl ⊢
  · exact (h _ _).1 hl
  · exact (h _ _).2 hl

theorem Agrees.clause {a : Assignment} {g : PA} (h : Agrees a g) {c : List Lit} (hc : CSat g c) :
    clauseHolds a c := by
  obtain ⟨l, hl, ht⟩ := hc
  exact ⟨l, hl, h.of_LT ht⟩

theorem openCount_pos {g : PA} {c : List Lit} : 0 < openCount g c ↔ ∃ l ∈ c, LU g l := by
  simp [openCount, List.countP_pos_iff]

theorem allFalse_of {g : PA} {c : List Lit} (h1 : ¬ CSat g c) (h2 : openCount g c = 0) :
    ∀ l ∈ c, LF g l := by
  intro l hl
  apply LF_of_not (fun h => h1 ⟨l, hl, h⟩)
  intro h
  have := openCount_pos.2 ⟨l, hl, h⟩
  omega

theorem openCount_zero_of_allFalse {g : PA} {c : List Lit} (h : ∀ l ∈ c, LF g l) :
    openCount g c = 0 := by
  rcases Nat.eq_zero_or_pos (openCount g c) with h0 | h0
  · exact h0
  · obtain ⟨l, hl, hu⟩ := openCount_pos.1 h0
    exact absurd hu (h l hl).not_LU

theorem not_CSat_of_allFalse {g : PA} {c : List Lit} (h : ∀ l ∈ c, LF g l) : ¬ CSat g c := by
  rintro ⟨l, hl, ht⟩
  exact ht.not_LF (h l hl)

/-- In an unsatisfied clause with at most one open occurrence, every literal other than an open one is
false. -/
theorem others_false {g : PA} {c : List Lit} {l : Lit} (hns : ¬ CSat g c) (ho : openCount g c ≤ 1)
    (hl : l ∈ c) (hu : LU g l) : ∀ l' ∈ c, l' ≠ l → LF g l' := by
  intro l' hl' hne
  apply LF_of_not (fun h => hns ⟨l', hl', h⟩)
  intro hu'
  have : 2 ≤ openCount g c := by
    unfold openCount
    have h2 : [l, l'].Sublist c ∨ [l', l].Sublist c := by
      clear hns ho hu hu'
      induction c with
      | nil => simp at hl
      | cons x xs ih =>
        rcases List.mem_cons.1 hl with rfl | h1
        · rcases List.mem_cons.1 hl' with h | h2
          · exact absurd h hne
          · left; exact (List.singleton_sublist.2 h2).cons_cons _
        · rcases List.mem_cons.1 hl' with rfl | h2
          · right; exact (List.singleton_sublist.2 h1).cons_cons _
          · rcases ih h1 h2 with h | h
            · left; exact h.cons _
            · right; exact h.cons _
    rcases h2 with h | h
    · have := h.countP_le (p := fun l => decide (LU g l))
      simpa [List.countP_cons, hu, hu'] using this
    · have := h.countP_le (p := fun l => decide (LU g l))
      simpa [List.countP_cons, hu, hu'] using this
  omega

end Mvl
