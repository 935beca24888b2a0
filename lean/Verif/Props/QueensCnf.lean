import Verif.Props.Pipeline
import Verif.Props.Benchmarks

/-!
# The n-queens problem as a Boolean formula, and the Python pigeonhole script

C68: the DIMACS file of nqueens_sat.cc says what the n-queens problem says, and is satisfiable exactly when the file of
Nqueens.cc is.  C69: the file, converted by `-b2f`, is an input for the solvers (fails: it ends with a blank line).
C70: the line end of the last line may be missing.  C71: the files of the Python pigeonhole script are inputs for the
solver (fails: no domain lines).
-/

namespace Mvl

variable {S : Type}

/-! ## C68 -/

theorem bLit_negNat {β : Nat → Bool} {n : Nat} : BLitHolds β (-(n : Int)) ↔ β n ≠ true := by
  rw [bLit_neg]; simp

/-- The list of the values `f 0, .., f (m-1)`. -/
theorem getD_forUp (f : Nat → Int) {m j : Nat} (h : j < m) : ((forUp 0 m).map f).getD j 0 = f j := by
  unfold forUp
  simp [List.getD_eq_getElem?_getD, h]

theorem mem_lessEqualOne {f : Nat → Int} {m : Nat} {c : List Int} : c ∈ lessEqualOne ((forUp 0 m).map f) ↔
    ∃ j k, j < k ∧ k < m ∧ c = [-(f j), -(f k)] := by
  unfold lessEqualOne
  have hl : ((forUp 0 m).map f).length = m := by simp [forUp]
  simp only [List.mem_flatMap, List.mem_map, mem_forUp, hl]
  constructor
  · rintro ⟨j, hj, k, hk, rfl⟩
    exact ⟨j, k, by omega, hk.2, by rw [getD_forUp f (by omega), getD_forUp f hk.2]⟩
  · rintro ⟨j, k, h1, h2, rfl⟩
    exact ⟨j, by omega, k, by omega, by rw [getD_forUp f (by omega), getD_forUp f h2]⟩

theorem lessEqualOne_solves {β : Nat → Bool} {f : Nat → Nat} {m : Nat} :
    BSolves β (lessEqualOne ((forUp 0 m).map fun j => (f j : Int))) ↔
      ∀ j k, j < k → k < m → ¬ (β (f j) = true ∧ β (f k) = true) := by
  constructor
  · intro h j k h1 h2 ⟨hj, hk⟩
    obtain ⟨x, hx, hl⟩ := h _ (mem_lessEqualOne.2 ⟨j, k, h1, h2, rfl⟩)
    simp only [List.mem_cons, List.not_mem_nil, or_false] at hx
    rcases hx with rfl | rfl
    · exact bLit_negNat.1 hl hj
    · exact bLit_negNat.1 hl hk
  · intro h c hc
    obtain ⟨j, k, h1, h2, rfl⟩ := mem_lessEqualOne.1 hc
    by_cases hj : β (f j) = true
    · exact ⟨-(f k : Int), by simp, bLit_negNat.2 fun hk => h j k h1 h2 ⟨hj, hk⟩⟩
    · exact ⟨-(f j : Int), by simp, bLit_negNat.2 hj⟩

theorem equalOne_solves {β : Nat → Bool} {f : Nat → Nat} {m : Nat} (hf : ∀ j, j < m → 1 ≤ f j) :
    BSolves β (equalOne ((forUp 0 m).map fun j => (f j : Int))) ↔
      (∃ j, j < m ∧ β (f j) = true) ∧ ∀ j k, j < k → k < m → ¬ (β (f j) = true ∧ β (f k) = true) := by
  unfold equalOne
  constructor
  · intro h
    refine ⟨?_, lessEqualOne_solves.1 fun c hc => h c (List.mem_cons_of_mem _ hc)⟩
    obtain ⟨x, hx, hl⟩ := h _ List.mem_cons_self
    obtain ⟨j, hj, rfl⟩ := List.mem_map.1 hx
    have hj := (mem_forUp.1 hj).2
    exact ⟨j, hj, (bLit_pos (hf j hj)).1 hl⟩
  · rintro ⟨⟨j, hj, h1⟩, h2⟩ c hc
    rcases List.mem_cons.1 hc with rfl | hc
    · exact ⟨f j, List.mem_map.2 ⟨j, mem_forUp.2 ⟨by omega, hj⟩, rfl⟩, (bLit_pos (hf j hj)).2 h1⟩
    · exact lessEqualOne_solves.2 h2 c hc

theorem bSolves_append {β : Nat → Bool} {cs ds : List (List Int)} : BSolves β (cs ++ ds) ↔ BSolves β cs ∧ BSolves β ds := by
  constructor
  · intro h
    exact ⟨fun c hc => h c (List.mem_append_left _ hc), fun c hc => h c (List.mem_append_right _ hc)⟩
  · rintro ⟨h1, h2⟩ c hc
    rcases List.mem_append.1 hc with hc | hc
    · exact h1 c hc
    · exact h2 c hc

theorem bSolves_flatMap {β : Nat → Bool} {a b : Nat} {f : Nat → List (List Int)} :
    BSolves β ((forUp a b).flatMap f) ↔ ∀ i, a ≤ i → i < b → BSolves β (f i) := by
  constructor
  · intro h i h1 h2 c hc
    exact h c (List.mem_flatMap.2 ⟨i, mem_forUp.2 ⟨h1, h2⟩, hc⟩)
  · intro h c hc
    obtain ⟨i, hi, hc⟩ := List.mem_flatMap.1 hc
    obtain ⟨h1, h2⟩ := mem_forUp.1 hi
    exact h i h1 h2 c hc

/-- Under `β`, a queen stands on row `r`, column `c`; the squares are numbered row by row from 1. -/
def Queen (N : Nat) (β : Nat → Bool) (r c : Nat) : Prop := β (r * N + c + 1) = true

/-- **C68.** An assignment satisfies the DIMACS file for `N` queens exactly when each row and each column of the board has
a queen and no two queens attack each other (same row, column or diagonal). -/
theorem C68_queens_cnf (N : Nat) (β : Nat → Bool) : BSolves β (queensCnf N) ↔
    (∀ r, r < N → ∃ c, c < N ∧ Queen N β r c) ∧ (∀ c, c < N → ∃ r, r < N ∧ Queen N β r c) ∧
    ∀ r c r' c', r < N → c < N → r' < N → c' < N → (r ≠ r' ∨ c ≠ c') → Queen N β r c → Queen N β r' c' →
      ¬ (r = r' ∨ c = c' ∨ dist r r' = dist c c') := by
  unfold queensCnf varName
  simp only [bSolves_append, bSolves_flatMap]
  have e1 : ∀ i, BSolves β (equalOne ((forUp 0 N).map fun j => ((i * N + j + 1 : Nat) : Int))) ↔ _ :=
    fun i => equalOne_solves (f := fun j => i * N + j + 1) (fun j _ => by omega)
  have e2 : ∀ i, BSolves β (equalOne ((forUp 0 N).map fun j => ((j * N + i + 1 : Nat) : Int))) ↔ _ :=
    fun i => equalOne_solves (f := fun j => j * N + i + 1) (fun j _ => by omega)
  have e3 : ∀ i, BSolves β (lessEqualOne ((forUp 0 (N - i)).map fun j => ((j * N + (i + j) + 1 : Nat) : Int))) ↔ _ :=
    fun i => lessEqualOne_solves (f := fun j => j * N + (i + j) + 1)
  have e4 : ∀ i, BSolves β (lessEqualOne ((forUp 0 (N - i)).map fun j => (((j + i) * N + j + 1 : Nat) : Int))) ↔ _ :=
    fun i => lessEqualOne_solves (f := fun j => (j + i) * N + j + 1)
  have e5 : ∀ i, BSolves β (lessEqualOne ((forUp 0 (N - i)).map fun j => ((j * N + (N - 1 - (i + j)) + 1 : Nat) : Int))) ↔ _ :=
    fun i => lessEqualOne_solves (f := fun j => j * N + (N - 1 - (i + j)) + 1)
  have e6 : ∀ i, BSolves β (lessEqualOne ((forUp 0 (N - i)).map fun j => (((j + i) * N + (N - 1 - j) + 1 : Nat) : Int))) ↔ _ :=
    fun i => lessEqualOne_solves (f := fun j => (j + i) * N + (N - 1 - j) + 1)
  simp only [e1, e2, e3, e4, e5, e6]
  constructor
  · rintro ⟨⟨⟨⟨⟨h1, h2⟩, h3⟩, h4⟩, h5⟩, h6⟩
    have diag : ∀ r c r' c', r < r' → c < N → r' < N → c' < N → Queen N β r c → Queen N β r' c' → c' - c = r' - r → False := by
      intro r c r' c' hr hc hr' hc' q q' hd
      by_cases h : r ≤ c
      · refine h3 (c - r) (by omega) (by omega) r r' hr (by omega) ⟨?_, ?_⟩
        · rw [show c - r + r = c by omega]; exact q
        · rw [show c - r + r' = c' by omega]; exact q'
      · refine h4 (r - c) (by omega) (by omega) c c' (by omega) (by omega) ⟨?_, ?_⟩
        · rw [show c + (r - c) = r by omega]; exact q
        · rw [show c' + (r - c) = r' by omega]; exact q'
    have anti : ∀ r c r' c', r < r' → c < N → r' < N → c' < N → Queen N β r c → Queen N β r' c' → c - c' = r' - r → False := by
      intro r c r' c' hr hc hr' hc' q q' hd
      by_cases h : r + c ≤ N - 1
      · refine h5 (N - 1 - (r + c)) (by omega) (by omega) r r' hr (by omega) ⟨?_, ?_⟩
        · rw [show N - 1 - (N - 1 - (r + c) + r) = c by omega]; exact q
        · rw [show N - 1 - (N - 1 - (r + c) + r') = c' by omega]; exact q'
      · refine h6 (r + c - (N - 1)) (by omega) (by omega) (N - 1 - c) (N - 1 - c') (by omega) (by omega) ⟨?_, ?_⟩
        · rw [show N - 1 - c + (r + c - (N - 1)) = r by omega, show N - 1 - (N - 1 - c) = c by omega]; exact q
        · rw [show N - 1 - c' + (r + c - (N - 1)) = r' by omega, show N - 1 - (N - 1 - c') = c' by omega]; exact q'
    have lt : ∀ r c r' c', r < r' → c < N → r' < N → c' < N → Queen N β r c → Queen N β r' c' →
        ¬ (r = r' ∨ c = c' ∨ dist r r' = dist c c') := by
      intro r c r' c' hr hc hr' hc' q q' h
      rcases h with h | h | h
      · omega
      · subst h
        exact (h2 c (by omega) hc).2 r r' hr hr' ⟨q, q'⟩
      · unfold dist at h
        by_cases hcc : c ≤ c'
        · exact diag r c r' c' hr hc hr' hc' q q' (by omega)
        · exact anti r c r' c' hr hc hr' hc' q q' (by omega)
    refine ⟨fun r hr => (h1 r (by omega) hr).1, fun c hc => (h2 c (by omega) hc).1, ?_⟩
    intro r c r' c' hr hc hr' hc' hne q q' h
    rcases Nat.lt_trichotomy r r' with h' | h' | h'
    · exact lt r c r' c' h' hc hr' hc' q q' h
    · subst h'
      rcases Nat.lt_trichotomy c c' with h'' | h'' | h''
      · exact (h1 r (by omega) hr).2 c c' h'' hc' ⟨q, q'⟩
      · rcases hne with hne | hne
        · exact hne rfl
        · exact hne h''
      · exact (h1 r (by omega) hr).2 c' c h'' hc ⟨q', q⟩
    · refine lt r' c' r c h' hc' hr hc q' q ?_
      unfold dist at *
      omega
  · rintro ⟨h1, h2, h3⟩
    have no : ∀ {r c r' c'}, Queen N β r c ∧ Queen N β r' c' → r < N → c < N → r' < N → c' < N → (r ≠ r' ∨ c ≠ c') →
        (r = r' ∨ c = c' ∨ dist r r' = dist c c') → False :=
      fun q a b c d e f => h3 _ _ _ _ a b c d e q.1 q.2 f
    refine ⟨⟨⟨⟨⟨?_, ?_⟩, ?_⟩, ?_⟩, ?_⟩, ?_⟩
    · exact fun i _ hi => ⟨h1 i hi, fun j k hj hk q => no q hi (by omega) hi hk (.inr (by omega)) (.inl rfl)⟩
    · exact fun i _ hi => ⟨h2 i hi, fun j k hj hk q => no q (by omega) hi hk hi (.inl (by omega)) (.inr (.inl rfl))⟩
    · exact fun i _ hi j k hj hk q => no (r := j) (c := i + j) (r' := k) (c' := i + k) q (by omega) (by omega) (by omega) (by omega)
        (.inl (by omega)) (.inr (.inr (by unfold dist; omega)))
    · exact fun i _ hi j k hj hk q => no (r := j + i) (c := j) (r' := k + i) (c' := k) q (by omega) (by omega) (by omega) (by omega)
        (.inl (by omega)) (.inr (.inr (by unfold dist; omega)))
    · exact fun i _ hi j k hj hk q => no (r := j) (c := N - 1 - (i + j)) (r' := k) (c' := N - 1 - (i + k)) q (by omega) (by omega)
        (by omega) (by omega) (.inl (by omega)) (.inr (.inr (by unfold dist; omega)))
    · exact fun i _ hi j k hj hk q => no (r := j + i) (c := N - 1 - j) (r' := k + i) (c' := N - 1 - k) q (by omega) (by omega)
        (by omega) (by omega) (.inl (by omega)) (.inr (.inr (by unfold dist; omega)))

/-- An injective function from `0..N-1` to itself takes every value. -/
theorem surj_of_inj {N : Nat} {f : Nat → Nat} (hf : ∀ r, r < N → f r < N)
    (hinj : ∀ r r', r < N → r' < N → f r = f r' → r = r') (c : Nat) (hc : c < N) : ∃ r, r < N ∧ f r = c := by
  apply Decidable.byContradiction
  intro hno
  have hnd : ((List.range N).map f).Nodup := by
    rw [List.nodup_iff_pairwise_ne, List.pairwise_map]
    refine List.Pairwise.imp_of_mem ?_ (List.pairwise_lt_range (n := N))
    intro x y hx hy hxy e
    have := hinj x y (List.mem_range.1 hx) (List.mem_range.1 hy) e
    omega
  have hsub : (List.range N).map f ⊆ (List.range N).erase c := by
    intro x hx
    obtain ⟨v, hv, rfl⟩ := List.mem_map.1 hx
    rw [List.mem_range] at hv
    refine (List.mem_erase_of_ne ?_).2 (List.mem_range.2 (hf v hv))
    intro e
    exact hno ⟨v, hv, e⟩
  have := hnd.length_le_of_subset hsub
  rw [List.length_map, List.length_erase_of_mem (List.mem_range.2 hc), List.length_range] at this
  omega

/-- **C68**: the DIMACS file has a model exactly when the file of the other n-queens script has a solution. -/
theorem C68_queens_agree (N : Nat) : BSatisfiable (queensCnf N) ↔ (fileProblem (queensFile N)).Satisfiable := by
  constructor
  · rintro ⟨β, h⟩
    obtain ⟨h1, _, h3⟩ := (C68_queens_cnf N β).1 h
    let a : Assignment := fun x => if hx : x - 1 < N then Classical.choose (h1 (x - 1) hx) else 0
    have ha : ∀ x, 1 ≤ x → x ≤ N → a x < N ∧ Queen N β (x - 1) (a x) := by
      intro x h h'
      have hx : x - 1 < N := by omega
      simp only [a, dif_pos hx]
      exact Classical.choose_spec (h1 (x - 1) hx)
    refine ⟨a, (C40_queens N a).2 ⟨fun x h h' => (ha x h h').1, ?_⟩⟩
    intro x y hx hx' hy hy' hne hat
    refine h3 (x - 1) (a x) (y - 1) (a y) (by omega) (ha x hx hx').1 (by omega) (ha y hy hy').1 (.inl (by omega))
      (ha x hx hx').2 (ha y hy hy').2 (.inr ?_)
    rcases hat with h | h
    · exact .inl h
    · right; unfold dist at *; omega
  · rintro ⟨a, h⟩
    obtain ⟨h1, h2⟩ := (C40_queens N a).1 h
    refine ⟨fun u => decide (a ((u - 1) / N + 1) = (u - 1) % N), (C68_queens_cnf N _).2 ?_⟩
    have hq : ∀ r c, c < N → (Queen N (fun u => decide (a ((u - 1) / N + 1) = (u - 1) % N)) r c ↔ a (r + 1) = c) := by
      intro r c hc
      unfold Queen
      have e1 : (r * N + c + 1 - 1) / N = r := by
        rw [Nat.add_sub_cancel, Nat.mul_comm, Nat.mul_add_div (by omega), Nat.div_eq_of_lt hc, Nat.add_zero]
      have e2 : (r * N + c + 1 - 1) % N = c := by
        rw [Nat.add_sub_cancel, Nat.mul_comm, Nat.mul_add_mod, Nat.mod_eq_of_lt hc]
      rw [decide_eq_true_iff, e1, e2]
    have inj : ∀ r r', r < N → r' < N → a (r + 1) = a (r' + 1) → r = r' := by
      intro r r' hr hr' e
      apply Decidable.byContradiction
      intro hne
      exact h2 (r + 1) (r' + 1) (by omega) (by omega) (by omega) (by omega) (by omega) (.inl e)
    refine ⟨fun r hr => ⟨a (r + 1), h1 _ (by omega) (by omega), (hq r _ (h1 _ (by omega) (by omega))).2 rfl⟩, ?_, ?_⟩
    · intro c hc
      obtain ⟨r, hr, e⟩ := surj_of_inj (f := fun r => a (r + 1)) (fun r hr => h1 _ (by omega) (by omega)) inj c hc
      exact ⟨r, hr, (hq r c hc).2 e⟩
    · intro r c r' c' hr hc hr' hc' hne q q'
      have q := (hq r c hc).1 q
      have q' := (hq r' c' hc').1 q'
      subst q q'
      have hrr : r ≠ r' := by
        rintro rfl
        rcases hne with h | h <;> exact h rfl
      rintro (h | h | h)
      · exact hrr h
      · exact hrr (inj r r' hr hr' h)
      · refine h2 (r + 1) (r' + 1) (by omega) (by omega) (by omega) (by omega) (by omega) (.inr ?_)
        unfold dist at *
        omega

example : Queen 4 (fun u => u ∈ [2, 8, 9, 15]) 1 3 ∧ BSolves (fun u => u ∈ [2, 8, 9, 15]) (queensCnf 4) := by
  unfold Queen; decide

example : queensCnfText 2 =
    ("p cnf 4 10\n1 2  0\n-1 -2  0\n3 4  0\n-3 -4  0\n1 3  0\n-1 -3  0\n2 4  0\n-2 -4  0\n" ++
     "-1 -4  0\n-2 -3  0\n\n").toList := by decide +kernel

/-! ## C69 -/

theorem queensCnf_clause {N : Nat} {c : List Int} (hc : c ∈ queensCnf N) : c ≠ [] ∧ c.length ≤ max N 2 ∧
    ∀ x ∈ c, ∃ i j, i < N ∧ j < N ∧ (x = varName N i j ∨ x = -(varName N i j)) := by
  have less : ∀ {m : Nat} {g h : Nat → Nat}, (∀ j, j < m → g j < N ∧ h j < N) →
      c ∈ lessEqualOne ((forUp 0 m).map fun j => varName N (g j) (h j)) → c ≠ [] ∧ c.length ≤ max N 2 ∧
      ∀ x ∈ c, ∃ i j, i < N ∧ j < N ∧ (x = varName N i j ∨ x = -(varName N i j)) := by
    intro m g h hb hm
    obtain ⟨j, k, h1, h2, rfl⟩ := mem_lessEqualOne.1 hm
    refine ⟨by simp, by simp; omega, ?_⟩
    intro x hx
    simp only [List.mem_cons, List.not_mem_nil, or_false] at hx
    rcases hx with rfl | rfl
    · exact ⟨g j, h j, (hb j (by omega)).1, (hb j (by omega)).2, .inr rfl⟩
    · exact ⟨g k, h k, (hb k h2).1, (hb k h2).2, .inr rfl⟩
  have eq : ∀ {g h : Nat → Nat}, 0 < N → (∀ j, j < N → g j < N ∧ h j < N) →
      c ∈ equalOne ((forUp 0 N).map fun j => varName N (g j) (h j)) → c ≠ [] ∧ c.length ≤ max N 2 ∧
      ∀ x ∈ c, ∃ i j, i < N ∧ j < N ∧ (x = varName N i j ∨ x = -(varName N i j)) := by
    intro g h h0 hb hm
    rcases List.mem_cons.1 hm with rfl | hm
    · refine ⟨?_, ?_, ?_⟩
      · simp [forUp]; omega
      · simp [forUp]; omega
      · intro x hx
        obtain ⟨j, hj, rfl⟩ := List.mem_map.1 hx
        have hj := (mem_forUp.1 hj).2
        exact ⟨g j, h j, (hb j hj).1, (hb j hj).2, .inl rfl⟩
    · exact less hb hm
  unfold queensCnf at hc
  simp only [List.mem_append, List.mem_flatMap, mem_forUp] at hc
  rcases hc with ((((⟨i, hi, hc⟩ | ⟨i, hi, hc⟩) | ⟨i, hi, hc⟩) | ⟨i, hi, hc⟩) | ⟨i, hi, hc⟩) | ⟨i, hi, hc⟩
  · exact eq (g := fun _ => i) (h := fun j => j) (by omega) (fun j hj => ⟨hi.2, hj⟩) hc
  · exact eq (g := fun j => j) (h := fun _ => i) (by omega) (fun j hj => ⟨hj, hi.2⟩) hc
  · exact less (g := fun j => j) (h := fun j => i + j) (fun j hj => ⟨by omega, by omega⟩) hc
  · exact less (g := fun j => j + i) (h := fun j => j) (fun j hj => ⟨by omega, by omega⟩) hc
  · exact less (g := fun j => j) (h := fun j => N - 1 - (i + j)) (fun j hj => ⟨by omega, by omega⟩) hc
  · exact less (g := fun j => j + i) (h := fun j => N - 1 - j) (fun j hj => ⟨by omega, by omega⟩) hc

theorem varName_le {N i j : Nat} (hi : i < N) (hj : j < N) : i * N + j + 1 ≤ N * N := by
  have : (i + 1) * N ≤ N * N := Nat.mul_le_mul_right N hi
  rw [Nat.add_mul, Nat.one_mul] at this
  omega

/-- The variables used are those announced, `1..N*N`. -/
theorem queensCnf_uses (N u : Nat) : BUses (queensCnf N) u ↔ 1 ≤ u ∧ u ≤ N * N := by
  constructor
  · rintro ⟨c, hc, x, hx, rfl⟩
    obtain ⟨i, j, hi, hj, h⟩ := (queensCnf_clause hc).2.2 x hx
    have := varName_le hi hj
    unfold varName at h
    omega
  · rintro ⟨h1, h2⟩
    have h0 : 0 < N := by
      rcases Nat.eq_zero_or_pos N with h | h
      · subst h; omega
      · exact h
    have hi : (u - 1) / N < N := Nat.div_lt_of_lt_mul (by omega)
    have hj : (u - 1) % N < N := Nat.mod_lt _ h0
    refine ⟨(forUp 0 N).map fun j => varName N ((u - 1) / N) j, ?_, varName N ((u - 1) / N) ((u - 1) % N), ?_, ?_⟩
    · unfold queensCnf
      simp only [List.mem_append]
      refine .inl (.inl (.inl (.inl (.inl (List.mem_flatMap.2 ⟨(u - 1) / N, mem_forUp.2 ⟨Nat.zero_le _, hi⟩, List.mem_cons_self⟩)))))
    · exact List.mem_map.2 ⟨(u - 1) % N, mem_forUp.2 ⟨by omega, hj⟩, rfl⟩
    · unfold varName
      have := Nat.div_add_mod (u - 1) N
      rw [Nat.mul_comm] at this
      omega

/-- The lines of the DIMACS file: the last one is blank. -/
def queensLines (N : Nat) : List RLine :=
  .head (.problem (N * N) (queensCnf N).length) ::
    (queensCnf N).map (fun c => .ints c true (c.flatMap (fun x => intText x ++ [' ']) ++ [' ', '0'])) ++ [.ints [] false []]

theorem queensCnfText_eq (N : Nat) : queensCnfText N = rText (queensLines N) := by
  unfold queensCnfText rText queensLines
  simp [List.flatMap_map, RLine.text, BLine.text]

theorem words_ints2 (c : List Int) :
    words (c.flatMap (fun x => intText x ++ [' ']) ++ [' ', '0']) = c.map intText ++ [['0']] := by
  induction c with
  | nil => decide
  | cons x c ih =>
    simp only [List.flatMap_cons, List.append_assoc, List.cons_append, List.nil_append] at ih ⊢
    rw [words_cons (intText_noBlank x) (intText_ne_nil x), ih]
    rfl

theorem intLine_length {c : List Int} (h : ∀ x ∈ c, FileLine.Small x.natAbs) :
    (c.flatMap fun x => intText x ++ [' ']).length ≤ 12 * c.length := by
  induction c with
  | nil => simp
  | cons x c ih =>
    have ih := ih fun y hy => h y (List.mem_cons_of_mem _ hy)
    have h1 : (intText x).length ≤ 11 := by
      have := natText_length_small (h x List.mem_cons_self)
      by_cases hx : x < 0
      · obtain ⟨n, rfl⟩ : ∃ n : Nat, x = -(n : Int) := ⟨x.natAbs, by omega⟩
        rw [intText_neg (by omega)]
        simp at this ⊢
        exact this
      · obtain ⟨n, rfl⟩ : ∃ n : Nat, x = (n : Int) := ⟨x.natAbs, by omega⟩
        rw [intText_nat]
        simp at this
        omega
    simp only [List.flatMap_cons, List.length_append, List.length_cons, List.length_nil]
    omega

theorem length_flatMap_le {α β : Type} {f : α → List β} {k : Nat} : ∀ (l : List α), (∀ a ∈ l, (f a).length ≤ k) →
    (l.flatMap f).length ≤ l.length * k := by
  intro l
  induction l with
  | nil => intro _; simp
  | cons a l ih =>
    intro h
    have h1 := ih fun b hb => h b (List.mem_cons_of_mem _ hb)
    have h2 := h a List.mem_cons_self
    rw [List.flatMap_cons, List.length_append, List.length_cons, Nat.add_mul]
    omega

theorem lessEqualOne_length {l : List Int} {N : Nat} (h : l.length ≤ N) : (lessEqualOne l).length ≤ N * N := by
  unfold lessEqualOne
  refine Nat.le_trans (length_flatMap_le (k := N) _ ?_) (Nat.mul_le_mul_right N (by rw [length_forUp]; omega))
  intro j _
  rw [List.length_map, length_forUp]
  omega

theorem queensCnf_small {N : Nat} (hN : N ≤ 230) : FileLine.Small (queensCnf N).length := by
  have hNN : N * N ≤ 230 * 230 := Nat.mul_le_mul hN hN
  have hl : ∀ (m : Nat) (f : Nat → Int), m ≤ N → (lessEqualOne ((forUp 0 m).map f)).length ≤ 53000 := by
    intro m f hm
    have := lessEqualOne_length (l := (forUp 0 m).map f) (N := N) (by rw [List.length_map, length_forUp]; omega)
    omega
  have hf : ∀ (a b : Nat) (f : Nat → List (List Int)), b ≤ N → (∀ i ∈ forUp a b, (f i).length ≤ 53001) →
      ((forUp a b).flatMap f).length ≤ 230 * 53001 := by
    intro a b f hb h
    refine Nat.le_trans (length_flatMap_le (k := 53001) _ h) (Nat.mul_le_mul_right 53001 ?_)
    rw [length_forUp]
    omega
  unfold queensCnf FileLine.Small
  simp only [List.length_append]
  have a1 := hf 0 N (fun i => equalOne ((forUp 0 N).map fun j => varName N i j)) (by omega)
    fun i _ => Nat.succ_le_succ (hl _ _ (by omega))
  have a2 := hf 0 N (fun i => equalOne ((forUp 0 N).map fun j => varName N j i)) (by omega)
    fun i _ => Nat.succ_le_succ (hl _ _ (by omega))
  have a3 := hf 0 (N - 1) (fun i => lessEqualOne ((forUp 0 (N - i)).map fun j => varName N j (i + j))) (by omega)
    fun i _ => Nat.le_succ_of_le (hl _ _ (by omega))
  have a4 := hf 1 (N - 1) (fun i => lessEqualOne ((forUp 0 (N - i)).map fun j => varName N (j + i) j)) (by omega)
    fun i _ => Nat.le_succ_of_le (hl _ _ (by omega))
  have a5 := hf 0 (N - 1) (fun i => lessEqualOne ((forUp 0 (N - i)).map fun j => varName N j (N - 1 - (i + j)))) (by omega)
    fun i _ => Nat.le_succ_of_le (hl _ _ (by omega))
  have a6 := hf 1 (N - 1) (fun i => lessEqualOne ((forUp 0 (N - i)).map fun j => varName N (j + i) (N - 1 - j))) (by omega)
    fun i _ => Nat.le_succ_of_le (hl _ _ (by omega))
  omega

theorem queensLines_ok {N : Nat} (hN : N ≤ 230) : ∀ l ∈ queensLines N, l.Ok := by
  have hc := queensCnf_small hN
  have hNN : N * N ≤ 230 * 230 := Nat.mul_le_mul hN hN
  intro l hl
  unfold queensLines at hl
  rcases List.mem_append.1 hl with hl | hl
  · rcases List.mem_cons.1 hl with rfl | hl
    · have hn : FileLine.Small (N * N) := by unfold FileLine.Small; omega
      have hl : (BLine.text (.problem (N * N) (queensCnf N).length)).length < 3000 := by
        have := natText_length_small hn
        have := natText_length_small hc
        simp [BLine.text]
        omega
      exact ⟨hl, ⟨hl, hn, hc⟩, fun c e => by cases e⟩
    · obtain ⟨c, hc, rfl⟩ := List.mem_map.1 hl
      obtain ⟨_, h2, _⟩ := queensCnf_clause hc
      have hsm : ∀ x ∈ c, x ≠ 0 ∧ FileLine.Small x.natAbs := by
        intro x hx
        have := (queensCnf_uses N x.natAbs).1 ⟨c, hc, x, hx, rfl⟩
        exact ⟨by omega, by unfold FileLine.Small; omega⟩
      refine ⟨?_, ?_, words_ints2 c, hsm⟩
      · have := intLine_length fun x hx => (hsm x hx).2
        show (_ ++ [' ', '0']).length < 3000
        rw [List.length_append]
        simp only [List.length_cons, List.length_nil]
        omega
      · intro ch hch
        rcases List.mem_append.1 hch with hch | hch
        · obtain ⟨x, _, hch⟩ := List.mem_flatMap.1 hch
          rcases List.mem_append.1 hch with hch | hch
          · exact intText_numeric x ch hch
          · exact .inr (.inr (List.mem_singleton.1 hch))
        · simp only [List.mem_cons, List.not_mem_nil, or_false] at hch
          rcases hch with rfl | rfl
          · exact .inr (.inr rfl)
          · exact .inl (by decide)
  · rw [List.mem_singleton] at hl
    subst hl
    exact ⟨by decide, by decide, rfl, by simp⟩

theorem queensLines_clauses (N : Nat) : rClauses (queensLines N) = queensCnf N ++ [[]] := by
  unfold queensLines
  rw [List.cons_append, rClauses_head]
  generalize queensCnf N = cs
  induction cs with
  | nil => rfl
  | cons c cs ih => rw [List.map_cons, List.cons_append, rClauses_ints, ih]; rfl

theorem queens_b2f_read {N : Nat} (h1 : 1 ≤ N) (hN : N ≤ 230) :
    ∃ out, boolean2Finite (queensCnfText N) = .ok out ∧
      readFile out = .ok (finProblem (N * N) (queensCnf N ++ [[]])).items := by
  have hu : ∀ v, BUses (queensCnf N ++ [[]]) v ↔ 1 ≤ v ∧ v ≤ N * N := by
    intro v
    rw [← queensCnf_uses]
    constructor
    · rintro ⟨c, hc, x, hx, e⟩
      rcases List.mem_append.1 hc with hc | hc
      · exact ⟨c, hc, x, hx, e⟩
      · rw [List.mem_singleton] at hc; subst hc; cases hx
    · rintro ⟨c, hc, x, hx, e⟩
      exact ⟨c, List.mem_append_left _ hc, x, hx, e⟩
  have hend : ∃ l ∈ queensLines N, l.ended = true := by
    have : (forUp 0 N).map (fun j => varName N 0 j) ∈ queensCnf N := by
      unfold queensCnf
      simp only [List.mem_append]
      exact .inl (.inl (.inl (.inl (.inl (List.mem_flatMap.2 ⟨0, mem_forUp.2 ⟨by omega, by omega⟩, List.mem_cons_self⟩)))))
    exact ⟨_, List.mem_append_left _ (List.mem_cons_of_mem _ (List.mem_map.2 ⟨_, this, rfl⟩)), rfl⟩
  have := b2f_read (queensLines_ok hN) hend (N := N * N) (by rw [queensLines_clauses]; exact hu) ?_
  · rw [queensLines_clauses, ← queensCnfText_eq] at this
    exact this
  · intro c hc'
    rw [queensLines_clauses] at hc'
    have hNN : N * N ≤ 230 * 230 := Nat.mul_le_mul hN hN
    have hsm : ∀ x ∈ c, FileLine.Small x.natAbs := by
      intro x hx
      have := (hu x.natAbs).1 ⟨c, hc', x, hx, rfl⟩
      unfold FileLine.Small; omega
    have := openClause_length hsm
    have hl : c.length ≤ 230 := by
      rcases List.mem_append.1 hc' with h | h
      · have := (queensCnf_clause h).2.1
        omega
      · rw [List.mem_singleton] at h; subst h; simp
    omega

/-- **C69 does not hold**, for any board of 1 to 230 rows (the full claim: the DIMACS file converted by `-b2f` can be
solved).  The file ends with a blank line, which becomes an empty clause: with `-wl` no solver prints an answer, and a
solver without `-wl` that prints SAT reports its model as incorrect. -/
theorem C69_queens_b2f_fails {N : Nat} (h1 : 1 ≤ N) (hN : N ≤ 230) :
    ∃ out, boolean2Finite (queensCnfText N) = .ok out ∧ ∀ (cfg : Cfg S) (algo : Algo) (fuel : Nat) (rep : Report),
      solveFile cfg algo fuel out = .ok rep → cfg.watch = false ∧ (rep.answer = .SAT → rep.verified = some false) := by
  obtain ⟨out, e1, e2⟩ := queens_b2f_read h1 hN
  have hempty : Item.clause [] ∈ (finProblem (N * N) (queensCnf N ++ [[]])).items := by
    simp [finProblem, Problem.items, finClause]
  refine ⟨out, e1, fun cfg algo fuel rep hr => ⟨?_, C20_flagged_partial e2 hempty hr⟩⟩
  cases hw : cfg.watch with
  | false => rfl
  | true =>
    unfold solveFile buildFile at hr
    rw [e2] at hr
    obtain ⟨s0, h0, _⟩ := Res.bind_eq_ok.1 hr
    simp only [Res.ok_bind] at h0
    exact absurd h0 (buildItems_watch_empty hw _ _ _ hempty)

/-! ## C70 -/

theorem pieces_dropLast : ∀ (cs acc : List Char) (ls : List (List Char)), pieces acc cs = ls → cs.getLast? = some '\n' →
    ls.getLast? ≠ some [] → pieces acc cs.dropLast = ls := by
  intro cs
  induction cs with
  | nil => intro acc ls _ h; cases h
  | cons c cs ih =>
    intro acc ls h1 h2 h3
    cases cs with
    | nil =>
      have : c = '\n' := by simpa using h2
      subst this
      simp only [pieces, if_true] at h1
      subst h1
      have : acc ≠ [] := by rintro rfl; simp at h3
      simp [pieces, this]
    | cons d cs =>
      have h2' : (d :: cs).getLast? = some '\n' := by rw [← h2, List.getLast?_cons_cons]
      rw [List.dropLast_cons_cons]
      rw [pieces] at h1 ⊢
      by_cases hc : c = '\n'
      · rw [if_pos hc] at h1 ⊢
        subst h1
        rw [ih [] _ rfl h2' ?_]
        intro h
        apply h3
        rw [List.getLast?_cons, h]
        rfl
      · rw [if_neg hc] at h1 ⊢
        exact ih _ _ h1 h2' h3

/-- **C70.** A last line without a line end is read like any other line, whatever the file, unless that line is empty. -/
theorem C70_final_newline {t : List Char} (h : t.getLast? ≠ some '\n') (ht : t ≠ []) :
    readFile t = readFile (t ++ ['\n']) := by
  unfold readFile fileLines
  have h1 := pieces_dropLast (t ++ ['\n']) [] _ rfl (by simp) ?_
  · rw [List.dropLast_concat] at h1
    rw [h1]
  · have key : ∀ (t acc : List Char), (acc ≠ [] ∨ t ≠ []) → t.getLast? ≠ some '\n' →
        (pieces acc (t ++ ['\n'])).getLast? ≠ some [] := by
      intro t
      induction t with
      | nil => intro acc h _; simpa [pieces] using h
      | cons c t ih =>
        intro acc _ h
        rw [List.cons_append, pieces]
        split
        · rename_i hc
          have ht : t ≠ [] := by rintro rfl; subst hc; simp at h
          have h' : t.getLast? ≠ some '\n' := by
            cases t with
            | nil => exact absurd rfl ht
            | cons d t => rwa [List.getLast?_cons_cons] at h
          have := ih [] (.inr ht) h'
          rw [List.getLast?_cons]
          cases e : (pieces [] (t ++ ['\n'])).getLast? with
          | none =>
            rw [List.getLast?_eq_none_iff] at e
            exfalso
            cases t with
            | nil => exact ht rfl
            | cons d t =>
              have : ∀ (t acc : List Char), pieces acc (t ++ ['\n']) ≠ [] := by
                intro t
                induction t with
                | nil => intro acc; simp [pieces]
                | cons d t ih => intro acc; rw [List.cons_append, pieces]; split <;> simp_all
              exact this _ _ e
          | some l => rw [e] at this; simpa using this
        · refine ih _ (.inl (by simp)) ?_
          cases t with
          | nil => simp
          | cons d t => rwa [List.getLast?_cons_cons] at h
    exact key t [] (.inr ht) h

/-- **C70**, on the solvers. -/
theorem C70_solveFile {t : List Char} (h : t.getLast? ≠ some '\n') (ht : t ≠ []) (cfg : Cfg S) (algo : Algo) (fuel : Nat) :
    solveFile cfg algo fuel t = solveFile cfg algo fuel (t ++ ['\n']) := by
  unfold solveFile buildFile
  rw [C70_final_newline h ht]

example : readFile "p cnf 1 1\nd 1 2\n1=1 0".toList = .ok [.dom 2, .clause [⟨1, 1, true⟩]] := by decide +kernel

/-! ## C71 -/

theorem mem_pigeonPy {n : Nat} {c : List Lit} : FileLine.clause c ∈ pigeonPyLines n ↔
    ∃ i j d, i < n - 1 ∧ 1 ≤ j ∧ j < d ∧ d ≤ n ∧ c = [⟨j, i, false⟩, ⟨d, i, false⟩] := by
  unfold pigeonPyLines
  simp only [List.mem_append, List.mem_cons, List.mem_map, List.mem_flatMap, List.not_mem_nil, or_false,
    List.mem_filter, mem_forUp, bne_iff_ne]
  constructor
  · rintro ((h | h) | ⟨i, hi, j, hj, d, hd, h⟩)
    · cases h
    · cases h
    · unfold neLine at h
      cases h
      exact ⟨i, j, d, hi.2, hj.1, by omega, by omega, rfl⟩
  · rintro ⟨i, j, d, h1, h2, h3, h4, rfl⟩
    exact .inr ⟨i, ⟨by omega, h1⟩, j, ⟨h2, by omega⟩, d, ⟨⟨by omega, by omega⟩, by omega⟩, rfl⟩

/-- **C71**: the clauses are those of the pigeonhole problem: with the domain `0..n-2` for each pigeon, no assignment
satisfies them. -/
theorem C71_pigeonPy_clauses {n : Nat} (hn : 1 ≤ n) :
    ¬ (⟨List.replicate n (n - 1), fileClauses (pigeonPyLines n)⟩ : Problem).Satisfiable := by
  rintro ⟨a, hd, hc⟩
  refine C39_pigeon_unsat hn ⟨a, ?_, ?_⟩
  · unfold fileProblem
    rw [pigeon_doms]
    exact hd
  · intro c h
    obtain ⟨i, j, k, h1, h2, h3, h4, rfl⟩ := pigeon_clause.1 (mem_fileClauses.1 h)
    obtain ⟨x, hx, hx'⟩ := hc [⟨k, i, false⟩, ⟨j, i, false⟩] (mem_fileClauses.2 (mem_pigeonPy.2 ⟨i, k, j, h1, h2, h3, h4, rfl⟩))
    refine ⟨x, ?_, hx'⟩
    simp only [List.mem_cons, List.not_mem_nil, or_false] at hx ⊢
    exact hx.symm

theorem pigeonPy_ok {n : Nat} (hn : FileLine.Small n) (hm : FileLine.Small ((n - 1) ^ 2 * n / 2)) :
    ∀ l ∈ pigeonPyLines n, l.Ok ∧ l.text.length < 3000 := by
  have hn' : n ≤ 2147483647 := hn
  intro l hl
  cases l with
  | comment t =>
    unfold pigeonPyLines neLine at hl
    simp at hl
    subst hl
    have h1 := natText_no (n := n) (c := '\n') (by decide)
    have h2 := natText_no (n := n - 1) (c := '\n') (by decide)
    have h3 := natText_length_small hn
    have h4 := natText_length_small (v := n - 1) (by unfold FileLine.Small; omega)
    refine ⟨?_, ?_⟩
    · show '\n' ∉ _
      simp [h1, h2]
    · simp [FileLine.text]
      omega
  | problem mv a b =>
    unfold pigeonPyLines neLine at hl
    simp at hl
    obtain ⟨rfl, rfl, rfl⟩ := hl
    have h3 := natText_length_small hn
    have h4 := natText_length_small hm
    refine ⟨⟨hn, hm⟩, ?_⟩
    simp [FileLine.text]
    omega
  | domain v d =>
    unfold pigeonPyLines neLine at hl
    simp at hl
  | clause c =>
    obtain ⟨i, j, d, h1, h2, h3, h4, rfl⟩ := mem_pigeonPy.1 hl
    have a1 : FileLine.Small i := by unfold FileLine.Small; omega
    have a2 : FileLine.Small j := by unfold FileLine.Small; omega
    have a3 : FileLine.Small d := by unfold FileLine.Small; omega
    have b1 := natText_length_small a1
    have b2 := natText_length_small a2
    have b3 := natText_length_small a3
    refine ⟨?_, ?_⟩
    · refine ⟨by simp, fun x hx => ?_⟩
      simp only [List.mem_cons, List.not_mem_nil, or_false] at hx
      rcases hx with rfl | rfl
      · exact ⟨h2, a2, a1⟩
      · exact ⟨by show 1 ≤ d; omega, a3, a1⟩
    · simp [FileLine.text, clauseText, Lit.text]
      omega

/-- **C71 does not hold**, for any number of pigeons (the full claim: the file is an input for the solvers, and none
prints SAT).  There are no domain lines, so the first clause names a variable that does not exist, and every solver reads
outside its arrays. -/
theorem C71_pigeonPy_fails {n : Nat} (h2 : 2 ≤ n) (hn : FileLine.Small n) (hm : FileLine.Small ((n - 1) ^ 2 * n / 2))
    (cfg : Cfg S) (algo : Algo) (fuel : Nat) : solveFile cfg algo fuel (pigeonPyText n) = .ub := by
  have hok := pigeonPy_ok hn hm
  have hr : readFile (fileText (pigeonPyLines n)) = _ := readFile_text (fun l hl => (hok l hl).1) fun l hl => (hok l hl).2
  have hlast : (fileText (pigeonPyLines n)).getLast? = some '\n' := by
    unfold fileText
    have : pigeonPyLines n ≠ [] := by unfold pigeonPyLines; simp
    generalize pigeonPyLines n = ls at this ⊢
    induction ls with
    | nil => exact absurd rfl this
    | cons l ls ih =>
      rw [List.flatMap_cons]
      cases ls with
      | nil => simp
      | cons l' ls => rw [List.getLast?_append, ih (by simp)]; rfl
  have hd : fileDoms (pigeonPyLines n) = [] := by
    unfold pigeonPyLines
    rw [fileDoms_append, fileDoms_clauses (ls := _ :: _), fileDoms_clauses]
    · rfl
    · intro l hl
      simp only [List.mem_flatMap, List.mem_map] at hl
      obtain ⟨i, _, j, _, k, _, rfl⟩ := hl
      exact .inr ⟨_, rfl⟩
    · intro l hl
      simp only [List.mem_cons, List.not_mem_nil, or_false] at hl
      rcases hl with rfl | rfl <;> exact .inl trivial
  rw [items_clauses hd] at hr
  have hread : readFile (pigeonPyText n) = .ok ((fileClauses (pigeonPyLines n)).map .clause) := by
    unfold readFile fileLines at hr ⊢
    unfold pigeonPyText
    rw [pieces_dropLast _ _ _ rfl hlast ?_]
    · exact hr
    · rw [pieces_file fun l hl => (hok l hl).1]
      intro h
      obtain ⟨l, hl, e⟩ := List.mem_map.1 (List.mem_of_getLast? h)
      have : l.text ≠ [] := by
        cases l with
        | comment t => simp [FileLine.text]
        | problem mv a b => cases mv <;> simp [FileLine.text]
        | domain v d => simp [FileLine.text]
        | clause c =>
          obtain ⟨i, j, d, _, _, _, _, rfl⟩ := mem_pigeonPy.1 hl
          simp [FileLine.text, clauseText, Lit.text]
      exact this e
  cases hc : fileClauses (pigeonPyLines n) with
  | nil =>
    have := mem_fileClauses.2 (mem_pigeonPy (n := n).2 ⟨0, 1, 2, by omega, by omega, by omega, by omega, rfl⟩)
    rw [hc] at this
    cases this
  | cons c cs =>
    have hm : c ∈ fileClauses (pigeonPyLines n) := by rw [hc]; exact List.mem_cons_self
    obtain ⟨i, j, d, _, hj, _, _, rfl⟩ := mem_pigeonPy.1 (mem_fileClauses.1 hm)
    have : ¬ j ≤ (initSt cfg).nv := by show ¬ j ≤ 0; omega
    unfold solveFile buildFile
    rw [hread, hc]
    simp [buildItems, addClause, litInRange, this]

example : pigeonPyText 2 =
    "c This is a pigeonhole problem with 2 pigeons and 1 holes\np cnf 2 1\n1!=0 2!=0 0".toList := by decide +kernel

example : 2 ≤ 100 ∧ FileLine.Small 100 ∧ FileLine.Small ((100 - 1) ^ 2 * 100 / 2) := by
  unfold FileLine.Small; decide

end Mvl
