import Verif.Model.Benchmarks
import Verif.Props.CLI

/-!
# Properties of the benchmark files

C39 (pigeonhole), C40 (queens), C41 (colouring), C45 (amazons), C46 (problem lines), and that the files are in the
documented format, so that the theorems about the solver apply to them.
-/

namespace Mvl

variable {S : Type}

/-- The formula described by a list of lines. -/
def fileProblem (ls : List FileLine) : Problem := ⟨fileDoms ls, fileClauses ls⟩

theorem mem_fileClauses {ls : List FileLine} {c : List Lit} : c ∈ fileClauses ls ↔ FileLine.clause c ∈ ls := by
  unfold fileClauses
  rw [List.mem_filterMap]
  constructor
  · rintro ⟨l, hl, h⟩
    cases l <;> cases h
    exact hl
  · intro h
    exact ⟨_, h, rfl⟩

theorem fileDoms_append (l m : List FileLine) : fileDoms (l ++ m) = fileDoms l ++ fileDoms m := List.filterMap_append

theorem fileClauses_append (l m : List FileLine) : fileClauses (l ++ m) = fileClauses l ++ fileClauses m :=
  List.filterMap_append

theorem mem_forUp {a b k : Nat} : k ∈ forUp a b ↔ a ≤ k ∧ k < b := by
  unfold forUp
  rw [List.mem_range'_1]
  omega

theorem length_forUp (a b : Nat) : (forUp a b).length = b - a := List.length_range'

theorem forUp_cons {a b : Nat} (h : a < b) : forUp a b = a :: forUp (a + 1) b := by
  unfold forUp
  rw [show b - a = (b - (a + 1)) + 1 from by omega, List.range'_succ]

/-- A loop left at `k = j` has run through the values below `j`. -/
theorem forWhile_ne {b j : Nat} : ∀ (m a : Nat), b - a = m → a ≤ j → j < b → forWhile a b (fun k => k != j) = forUp a j
  | 0, a, hm, h1, h2 => by omega
  | m + 1, a, hm, h1, h2 => by
    unfold forWhile
    rw [forUp_cons (by omega), List.takeWhile_cons]
    by_cases e : a = j
    · subst e
      unfold forUp
      simp
    · rw [if_pos (by simpa using e), forUp_cons (show a < j by omega)]
      congr 1
      exact forWhile_ne m (a + 1) (by omega) (by omega) h2

theorem mem_forWhile {b j k : Nat} (h1 : 1 ≤ j) (h2 : j < b) : k ∈ forWhile 1 b (fun k => k != j) ↔ 1 ≤ k ∧ k < j := by
  rw [forWhile_ne _ 1 rfl h1 h2, mem_forUp]

theorem neClause {a : Assignment} {j i k l : Nat} :
    clauseHolds a [⟨j, i, false⟩, ⟨k, l, false⟩] ↔ ¬ (a j = i ∧ a k = l) := by
  unfold clauseHolds
  simp only [List.mem_cons, List.not_mem_nil, or_false, exists_eq_or_imp, exists_eq_left, Lit.holds, Bool.false_eq_true,
    if_false]
  constructor
  · rintro (h | h) ⟨h1, h2⟩
    · exact h h1
    · exact h h2
  · intro h
    by_cases e : a j = i
    · exact .inr fun e' => h ⟨e, e'⟩
    · exact .inl e

/-- A line without a clause and without a domain. -/
def FileLine.Plain : FileLine → Prop
  | .comment _ => True
  | .problem _ _ _ => True
  | _ => False

theorem fileDoms_clauses {ls : List FileLine} (h : ∀ l ∈ ls, l.Plain ∨ ∃ c, l = .clause c) : fileDoms ls = [] := by
  unfold fileDoms
  rw [List.filterMap_eq_nil_iff]
  intro l hl
  rcases h l hl with h | ⟨c, rfl⟩
  · cases l <;> first | rfl | exact h.elim
  · rfl

theorem fileDoms_forUp (n d : Nat) : fileDoms ((forUp 1 (n + 1)).map fun i => FileLine.domain i d) = List.replicate n d := by
  unfold fileDoms
  rw [List.filterMap_map]
  show List.filterMap (fun _ => some d) _ = _
  rw [List.filterMap_eq_map', List.map_const', length_forUp]
  rfl

theorem inDom_replicate {ls : List FileLine} {n d : Nat} (h : fileDoms ls = List.replicate n d) (a : Assignment) :
    (fileProblem ls).InDom a ↔ ∀ v, 1 ≤ v → v ≤ n → a v < d := by
  unfold Problem.InDom Problem.numVars
  show (∀ v, 1 ≤ v → v ≤ (fileDoms ls).length → _) ↔ _
  rw [h, List.length_replicate]
  have : ∀ v, 1 ≤ v → v ≤ n → (fileProblem ls).dom v = d := by
    intro v h1 h2
    obtain ⟨w, rfl⟩ : ∃ w, v = w + 1 := ⟨v - 1, by omega⟩
    show (fileDoms ls).getD w 0 = d
    rw [h, List.getD_eq_getElem?_getD, List.getElem?_replicate, if_pos (by omega)]; rfl
  constructor
  · intro h v h1 h2
    rw [← this v h1 h2]; exact h v h1 h2
  · intro h v h1 h2
    rw [this v h1 h2]; exact h v h1 h2

/-! ## The files are in the documented format -/

theorem natText_length {n : Nat} (h : FileLine.Small n) : (natText n).length ≤ 10 := by
  unfold natText
  rw [Nat.length_toDigits_le_iff (by decide) (by decide)]
  unfold FileLine.Small at h
  omega

theorem lit_text_length {l : Lit} (h1 : FileLine.Small l.var) (h2 : FileLine.Small l.val) : l.text.length ≤ 22 := by
  have h3 := natText_length h1
  have h4 := natText_length h2
  unfold Lit.text
  split <;> simp only [List.length_append, List.length_cons, List.length_nil] <;> omega

/-- A line that is allowed and shorter than 3000 characters. -/
def FileLine.Fine (l : FileLine) : Prop := l.Ok ∧ l.text.length < 3000

theorem neLine_fine {j i k l : Nat} (h1 : 1 ≤ j) (h2 : 1 ≤ k) (s1 : FileLine.Small j) (s2 : FileLine.Small i)
    (s3 : FileLine.Small k) (s4 : FileLine.Small l) : (neLine j i k l).Fine := by
  constructor
  · refine ⟨by simp, ?_⟩
    intro x hx
    simp only [List.mem_cons, List.not_mem_nil, or_false] at hx
    rcases hx with rfl | rfl
    · exact ⟨h1, s1, s2⟩
    · exact ⟨h2, s3, s4⟩
  · have e1 := lit_text_length (l := ⟨j, i, false⟩) s1 s2
    have e2 := lit_text_length (l := ⟨k, l, false⟩) s3 s4
    simp only [neLine, FileLine.text, clauseText, List.flatMap_cons, List.flatMap_nil, List.length_append, List.length_cons,
      List.length_nil]
    omega

theorem domain_fine {v d : Nat} (h1 : FileLine.Small v) (h2 : FileLine.Small d) : (FileLine.domain v d).Fine := by
  refine ⟨⟨h1, h2⟩, ?_⟩
  have e1 := natText_length h1
  have e2 := natText_length h2
  simp only [FileLine.text, List.length_append, List.length_cons, List.length_nil]
  omega

theorem problem_fine {n m : Nat} (h1 : FileLine.Small n) (h2 : FileLine.Small m) : (FileLine.problem false n m).Fine := by
  refine ⟨⟨h1, h2⟩, ?_⟩
  have e1 := natText_length h1
  have e2 := natText_length h2
  simp only [FileLine.text, List.length_append, List.length_cons, List.length_nil, Bool.false_eq_true, if_false]
  omega

theorem domainsFirst_post {ls : List FileLine} (h : fileDoms ls = []) : ∀ n, DomainsFirst ls n := by
  induction ls with
  | nil => intro n; trivial
  | cons l ls ih =>
    intro n
    cases l with
    | domain v d => simp [fileDoms] at h
    | clause c => exact h
    | comment t => exact ih h n
    | problem mv a b => exact ih h n

theorem domainsFirst_doms {post : List FileLine} (h : fileDoms post = []) (f : Nat → Nat) : ∀ (m a b : Nat), b - a = m →
    DomainsFirst ((forUp a b).map (fun i => FileLine.domain i (f i)) ++ post) a
  | 0, a, b, hm => by
    have : forUp a b = [] := by unfold forUp; rw [hm]; rfl
    rw [this]; exact domainsFirst_post h a
  | m + 1, a, b, hm => by
    rw [forUp_cons (by omega)]
    exact ⟨rfl, domainsFirst_doms h f m (a + 1) b (by omega)⟩

theorem domainsFirst_pre {pre ls : List FileLine} (hp : ∀ l ∈ pre, l.Plain) (n : Nat) (h : DomainsFirst ls n) :
    DomainsFirst (pre ++ ls) n := by
  induction pre with
  | nil => exact h
  | cons l pre ih =>
    have := ih fun l' h' => hp l' (.tail _ h')
    have hl := hp l (.head _)
    cases l with
    | domain v d => exact hl.elim
    | clause c => exact hl.elim
    | comment t => exact this
    | problem mv a b => exact this

/-- Files that start with plain lines and the domain lines. -/
theorem describes_of {ls pre post : List FileLine} {n : Nat} {f : Nat → Nat}
    (e : ls = pre ++ ((forUp 1 (n + 1)).map (fun i => FileLine.domain i (f i)) ++ post))
    (hpre : ∀ l ∈ pre, l.Plain) (hpost : fileDoms post = []) (hfine : ∀ l ∈ ls, l.Fine) :
    Describes ls (fileProblem ls) where
  ok l hl := (hfine l hl).1
  short l hl := (hfine l hl).2
  order := by rw [e]; exact domainsFirst_pre hpre 1 (domainsFirst_doms hpost f _ 1 (n + 1) rfl)
  doms := rfl
  clauses := rfl

theorem Small.le {a b : Nat} (h : FileLine.Small b) (hab : a ≤ b) : FileLine.Small a := by
  unfold FileLine.Small at h ⊢; omega

/-- Two-literal clauses over distinct variables. -/
theorem wellFormed_ne {ls : List FileLine} {n d : Nat} (hdom : fileDoms ls = List.replicate n d) (hd : 2 ≤ d)
    (hc : ∀ c, FileLine.clause c ∈ ls → ∃ j i k l, 1 ≤ j ∧ j ≤ n ∧ i < d ∧ 1 ≤ k ∧ k ≤ n ∧ l < d ∧ (j ≠ k ∨ i ≠ l) ∧
      c = [⟨j, i, false⟩, ⟨k, l, false⟩]) : (fileProblem ls).WellFormed ∧ (fileProblem ls).NoDupLits := by
  have hdv : ∀ v, 1 ≤ v → v ≤ n → (fileProblem ls).dom v = d := by
    intro v h1 h2
    obtain ⟨w, rfl⟩ : ∃ w, v = w + 1 := ⟨v - 1, by omega⟩
    show (fileDoms ls).getD w 0 = d
    rw [hdom, List.getD_eq_getElem?_getD, List.getElem?_replicate, if_pos (by omega)]; rfl
  have hnv : (fileProblem ls).numVars = n := by
    show (fileDoms ls).length = n
    rw [hdom, List.length_replicate]
  refine ⟨⟨?_, ?_, ?_⟩, ?_⟩
  · intro x hx
    have : x ∈ fileDoms ls := hx
    rw [hdom] at this
    rw [List.eq_of_mem_replicate this]; exact hd
  · intro c h
    obtain ⟨j, i, k, l, _, _, _, _, _, _, _, rfl⟩ := hc c (mem_fileClauses.1 h)
    simp
  · intro c h x hx
    obtain ⟨j, i, k, l, h1, h2, h3, h4, h5, h6, _, rfl⟩ := hc c (mem_fileClauses.1 h)
    simp only [List.mem_cons, List.not_mem_nil, or_false] at hx
    rcases hx with rfl | rfl
    · exact ⟨h1, by rw [hnv]; exact h2, by rw [hdv _ h1 h2]; exact h3⟩
    · exact ⟨h4, by rw [hnv]; exact h5, by rw [hdv _ h4 h5]; exact h6⟩
  · intro c h
    obtain ⟨j, i, k, l, h1, h2, h3, h4, h5, h6, hne, rfl⟩ := hc c (mem_fileClauses.1 h)
    rw [List.nodup_cons, List.mem_singleton]
    refine ⟨?_, by simp⟩
    intro e
    cases e
    rcases hne with h | h <;> exact h rfl

/-! ## C39 -/

theorem pigeon_doms (n : Nat) : fileDoms (pigeonFile n) = List.replicate n (n - 1) := by
  unfold pigeonFile
  rw [fileDoms_append, fileDoms_append, fileDoms_forUp, fileDoms_clauses (ls := _ :: _), fileDoms_clauses]
  · simp
  · intro l hl
    simp only [List.mem_flatMap, List.mem_map] at hl
    obtain ⟨i, _, j, _, k, _, rfl⟩ := hl
    exact .inr ⟨_, rfl⟩
  · intro l hl
    simp only [List.mem_cons, List.not_mem_nil, or_false] at hl
    rcases hl with rfl | rfl <;> exact .inl trivial

theorem pigeon_clause {n : Nat} {c : List Lit} : FileLine.clause c ∈ pigeonFile n ↔
    ∃ i j k, i < n - 1 ∧ 1 ≤ k ∧ k < j ∧ j ≤ n ∧ c = [⟨j, i, false⟩, ⟨k, i, false⟩] := by
  unfold pigeonFile
  simp only [List.mem_append, List.mem_cons, List.mem_map, List.mem_flatMap, List.not_mem_nil, or_false]
  constructor
  · rintro ((h | h) | h)
    · rcases h with h | h <;> cases h
    · obtain ⟨i, _, h⟩ := h; cases h
    · obtain ⟨i, hi, j, hj, k, hk, h⟩ := h
      rw [mem_forUp] at hi hj
      rw [mem_forWhile (by omega) (by omega)] at hk
      unfold neLine at h
      cases h
      exact ⟨i, j, k, hi.2, hk.1, hk.2, by omega, rfl⟩
  · rintro ⟨i, j, k, h1, h2, h3, h4, rfl⟩
    refine .inr ⟨i, mem_forUp.2 ⟨by omega, h1⟩, j, mem_forUp.2 ⟨by omega, by omega⟩, k, ?_, rfl⟩
    rw [mem_forWhile (by omega) (by omega)]
    exact ⟨h2, h3⟩

/-- **C39.** The file for `n` pigeons and `n-1` holes has no satisfying assignment, for every `n ≥ 1`. -/
theorem C39_pigeon_unsat {n : Nat} (hn : 1 ≤ n) : ¬ (fileProblem (pigeonFile n)).Satisfiable := by
  rintro ⟨a, hd, hc⟩
  rw [inDom_replicate (pigeon_doms n)] at hd
  have hdiff : ∀ k j, 1 ≤ k → k < j → j ≤ n → a k ≠ a j := by
    intro k j h1 h2 h3 e
    have hin : [⟨j, a j, false⟩, ⟨k, a j, false⟩] ∈ (fileProblem (pigeonFile n)).clauses :=
      mem_fileClauses.2 (pigeon_clause.2 ⟨a j, j, k, hd j (by omega) h3, h1, h2, h3, rfl⟩)
    exact neClause.1 (hc _ hin) ⟨rfl, e⟩
  have hnd : ((List.range' 1 n).map a).Nodup := by
    rw [List.nodup_iff_pairwise_ne, List.pairwise_map]
    refine List.Pairwise.imp_of_mem ?_ (List.pairwise_lt_range' (s := 1) (n := n))
    intro x y hx hy hxy
    rw [List.mem_range'_1] at hx hy
    exact hdiff x y (by omega) hxy (by omega)
  have hsub : (List.range' 1 n).map a ⊆ List.range (n - 1) := by
    intro x hx
    obtain ⟨v, hv, rfl⟩ := List.mem_map.1 hx
    rw [List.mem_range'_1] at hv
    exact List.mem_range.2 (hd v (by omega) (by omega))
  have := hnd.length_le_of_subset hsub
  rw [List.length_map, List.length_range', List.length_range] at this
  omega

example : fileText (pigeonFile 3) =
    ("c This is a pigeonhole problem with 3 pigeons and 2 holes\np cnf 3 6\nd 1 2\nd 2 2\nd 3 2\n" ++
     "2!=0 1!=0 0\n3!=0 1!=0 0\n3!=0 2!=0 0\n2!=1 1!=1 0\n3!=1 1!=1 0\n3!=1 2!=1 0\n").toList := by decide +kernel

/-- Numbers of clauses as the loops write them. -/
theorem length_pairs (b : Nat) (f : Nat → Nat → FileLine) : ∀ m, m < b →
    2 * ((forUp 1 (m + 1)).flatMap fun j => (forWhile 1 b fun k => k != j).map fun k => f j k).length = m * (m - 1)
  | 0, _ => rfl
  | m + 1, h => by
    have ih := length_pairs b f m (by omega)
    have e : forUp 1 (m + 1 + 1) = forUp 1 (m + 1) ++ [m + 1] := by
      unfold forUp
      rw [show m + 1 + 1 - 1 = (m + 1 - 1) + 1 from by omega, List.range'_concat]
      simp [Nat.add_comm]
    rw [e, List.flatMap_append, List.length_append, Nat.mul_add, ih]
    simp only [List.flatMap_cons, List.flatMap_nil, List.append_nil, List.length_map]
    rw [forWhile_ne _ 1 rfl (by omega) (by omega), length_forUp]
    cases m with
    | zero => rfl
    | succ k =>
      simp only [Nat.add_sub_cancel]
      rw [Nat.mul_comm 2, ← Nat.mul_add, Nat.mul_comm]

theorem length_flatMap_const {α β : Type} {f : α → List β} {k : Nat} : ∀ (l : List α), (∀ x ∈ l, (f x).length = k) →
    (l.flatMap f).length = l.length * k
  | [], _ => by simp
  | x :: l, h => by
    rw [List.flatMap_cons, List.length_append, h x (.head _), length_flatMap_const l fun y hy => h y (.tail _ hy),
      List.length_cons, Nat.succ_mul, Nat.add_comm]

theorem pigeon_describes {n : Nat} (h1 : FileLine.Small n) (h2 : FileLine.Small ((n - 1) ^ 2 * n / 2)) :
    Describes (pigeonFile n) (fileProblem (pigeonFile n)) := by
  unfold pigeonFile
  refine describes_of (n := n) (f := fun _ => n - 1) (by rw [List.append_assoc]) ?_ ?_ ?_
  · intro l hl
    simp only [List.mem_cons, List.not_mem_nil, or_false] at hl
    rcases hl with rfl | rfl <;> trivial
  · apply fileDoms_clauses
    intro l hl
    simp only [List.mem_flatMap, List.mem_map] at hl
    obtain ⟨i, _, j, _, k, _, rfl⟩ := hl
    exact .inr ⟨_, rfl⟩
  · intro l hl
    simp only [List.mem_append, List.mem_cons, List.mem_map, List.mem_flatMap, List.not_mem_nil, or_false] at hl
    have hs : FileLine.Small (n - 1) := Small.le h1 (by omega)
    rcases hl with ((rfl | rfl) | ⟨i, hi, rfl⟩) | ⟨i, hi, j, hj, k, hk, rfl⟩
    · have e1 := natText_length h1
      have e2 := natText_length hs
      refine ⟨?_, ?_⟩
      · show '\n' ∉ _
        simp only [List.mem_append, not_or]
        exact ⟨⟨⟨⟨by decide, natText_no rfl⟩, by decide⟩, natText_no rfl⟩, by decide⟩
      · have l1 : " This is a pigeonhole problem with ".toList.length = 35 := by decide
        have l2 : " pigeons and ".toList.length = 13 := by decide
        have l3 : " holes".toList.length = 6 := by decide
        simp only [FileLine.text, List.length_cons, List.length_append, l1, l2, l3]
        omega
    · exact problem_fine h1 h2
    · rw [mem_forUp] at hi
      exact domain_fine (Small.le h1 (by omega)) hs
    · rw [mem_forUp] at hi hj
      rw [mem_forWhile (by omega) (by omega)] at hk
      exact neLine_fine (by omega) (by omega) (Small.le h1 (by omega)) (Small.le h1 (by omega)) (Small.le h1 (by omega))
        (Small.le h1 (by omega))

theorem pigeon_wellFormed {n : Nat} (hn : 3 ≤ n) :
    (fileProblem (pigeonFile n)).WellFormed ∧ (fileProblem (pigeonFile n)).NoDupLits := by
  refine wellFormed_ne (pigeon_doms n) (by omega) ?_
  intro c hc
  obtain ⟨i, j, k, h1, h2, h3, h4, rfl⟩ := pigeon_clause.1 hc
  exact ⟨j, i, k, i, by omega, h4, h1, h2, by omega, h1, .inl (by omega), rfl⟩

/-- The command line names a file with the given text. -/
def NamesFile (w : World S) (argv : List (List Char)) (c : CommandLine) (ls : List FileLine) : Prop :=
  parseCommandLine argv = .ok c ∧ ∃ name, c.FILE = some name ∧ w.files name = some (fileText ls)

theorem NamesFile.input {w : World S} {argv : List (List Char)} {c : CommandLine} {ls : List FileLine}
    (h : NamesFile w argv c ls) (hd : Describes ls (fileProblem ls)) (hw : (fileProblem ls).WellFormed) :
    Input w argv c (fileProblem ls) := by
  obtain ⟨h1, name, h2, h3⟩ := h
  exact ⟨h1, ⟨name, ls, h2, h3, hd⟩, hw⟩

/-- **C39**, on the program: `-solvech` never prints SAT for a pigeonhole file with at least 3 pigeons. -/
theorem C39_pigeon_solvech {w : World S} {argv : List (List Char)} {c : CommandLine} {n : Nat} (hn : 3 ≤ n)
    (hsz : FileLine.Small n) (hsz' : FileLine.Small ((n - 1) ^ 2 * n / 2)) (h : NamesFile w argv c (pigeonFile n))
    (hc : command argv = .solvech) {fuel : Nat} {rep : Report}
    (hr : runSolver w fuel argv = .ok (some (.report rep))) : rep.answer ≠ .SAT := fun ha =>
  C39_pigeon_unsat (by omega)
    ((C44_solvech (h.input (pigeon_describes hsz hsz') (pigeon_wellFormed hn).1) hc hr).1 ha)

/-- **C39** on the program fails for 2 pigeons, because of the one-value domain (C19): all solvers print SAT. -/
theorem C39_two_fails : ∀ m ∈ allModes, (solveFile (exCfg m.2.1 m.2.2) m.1 30 (fileText (pigeonFile 2))).passes
    (fun rep => rep.answer = .SAT) = true := by decide +kernel

/-! ## C46: problem lines -/

/-- The file has a problem line and it states the numbers of variables and clauses. -/
def HeaderRight (ls : List FileLine) : Prop :=
  ∃ mv, FileLine.problem mv (fileDoms ls).length (fileClauses ls).length ∈ ls

theorem fileClauses_none {ls : List FileLine} (h : ∀ l ∈ ls, l.Plain ∨ ∃ v d, l = .domain v d) : fileClauses ls = [] := by
  unfold fileClauses
  rw [List.filterMap_eq_nil_iff]
  intro l hl
  rcases h l hl with h | ⟨v, d, rfl⟩
  · cases l <;> first | rfl | exact h.elim
  · rfl

theorem fileClauses_all {ls : List FileLine} (h : ∀ l ∈ ls, ∃ c, l = .clause c) : (fileClauses ls).length = ls.length := by
  induction ls with
  | nil => rfl
  | cons l ls ih =>
    obtain ⟨c, rfl⟩ := h l (.head _)
    show (fileClauses ls).length + 1 = _
    rw [ih fun l' h' => h l' (.tail _ h')]; rfl

/-- **C46**, pigeonhole: the number computed by `pow(pgn-1, 2) * pgn / 2` is the number of clauses written. -/
theorem C46_pigeon (n : Nat) : HeaderRight (pigeonFile n) := by
  have hc : (fileClauses (pigeonFile n)).length = (n - 1) ^ 2 * n / 2 := by
    unfold pigeonFile
    rw [fileClauses_append, List.length_append, fileClauses_none, fileClauses_all]
    · rw [length_flatMap_const (k := n * (n - 1) / 2)]
      · rw [length_forUp, Nat.sub_zero]
        have he : 2 ∣ n * (n - 1) := by
          have := length_pairs (n + 1) (fun j k => neLine j 0 k 0) n (by omega)
          exact ⟨_, this.symm⟩
        rw [← Nat.mul_div_assoc _ he]
        simp only [List.length_nil, Nat.zero_add]
        congr 1
        rw [Nat.pow_two, Nat.mul_assoc, Nat.mul_comm n]
      · intro i _
        have := length_pairs (n + 1) (fun j k => neLine j i k i) n (by omega)
        omega
    · intro l hl
      simp only [List.mem_flatMap, List.mem_map] at hl
      obtain ⟨i, _, j, _, k, _, rfl⟩ := hl
      exact ⟨_, rfl⟩
    · intro l hl
      simp only [List.mem_append, List.mem_cons, List.mem_map, List.not_mem_nil, or_false] at hl
      rcases hl with (rfl | rfl) | ⟨i, _, rfl⟩
      · exact .inl trivial
      · exact .inl trivial
      · exact .inr ⟨_, _, rfl⟩
  refine ⟨false, ?_⟩
  rw [hc, pigeon_doms, List.length_replicate]
  unfold pigeonFile
  simp

/-! ## C40 -/

theorem mem_queensRows {n : Nat} {l : FileLine} : l ∈ queensRows n ↔
    ∃ i j k, i < n ∧ 1 ≤ k ∧ k < j ∧ j ≤ n ∧ l = neLine j i k i := by
  unfold queensRows
  simp only [List.mem_flatMap, List.mem_map]
  constructor
  · rintro ⟨i, hi, j, hj, k, hk, rfl⟩
    rw [mem_forUp] at hi hj
    rw [mem_forWhile (by omega) (by omega)] at hk
    exact ⟨i, j, k, hi.2, hk.1, hk.2, by omega, rfl⟩
  · rintro ⟨i, j, k, h1, h2, h3, h4, rfl⟩
    exact ⟨i, mem_forUp.2 ⟨by omega, h1⟩, j, mem_forUp.2 ⟨by omega, by omega⟩, k,
      (mem_forWhile (by omega) (by omega)).2 ⟨h2, h3⟩, rfl⟩

theorem mem_queensDiagonals {n : Nat} {l : FileLine} : l ∈ queensDiagonals n ↔
    ∃ i k d e, 1 ≤ k ∧ k < i ∧ i ≤ n ∧ d < n ∧ e < n ∧ ((i : Int) - d = k - e ∨ i + d = k + e) ∧ l = neLine i d k e := by
  unfold queensDiagonals
  simp only [List.mem_flatMap]
  constructor
  · rintro ⟨i, hi, k, hk, d, hd, e, he, h⟩
    rw [mem_forUp] at hi hd he
    rw [mem_forWhile (by omega) (by omega)] at hk
    split at h
    · rename_i hc
      rw [List.mem_singleton] at h
      exact ⟨i, k, d, e, hk.1, hk.2, by omega, hd.2, he.2, hc, h⟩
    · cases h
  · rintro ⟨i, k, d, e, h1, h2, h3, h4, h5, h6, rfl⟩
    refine ⟨i, mem_forUp.2 ⟨by omega, by omega⟩, k, (mem_forWhile (by omega) (by omega)).2 ⟨h1, h2⟩, d,
      mem_forUp.2 ⟨by omega, h4⟩, e, mem_forUp.2 ⟨by omega, h5⟩, ?_⟩
    rw [if_pos h6]; exact List.mem_singleton.2 rfl

theorem queens_doms (n : Nat) : fileDoms (queensFile n) = List.replicate n n := by
  unfold queensFile
  rw [List.append_assoc, List.append_assoc, List.append_assoc, fileDoms_append, fileDoms_forUp, fileDoms_clauses]
  · simp
  · intro l hl
    simp only [List.mem_append, List.mem_singleton] at hl
    rcases hl with h | rfl | h | rfl
    · obtain ⟨_, _, _, _, _, _, _, rfl⟩ := mem_queensRows.1 h; exact .inr ⟨_, rfl⟩
    · exact .inl trivial
    · obtain ⟨_, _, _, _, _, _, _, _, _, _, rfl⟩ := mem_queensDiagonals.1 h; exact .inr ⟨_, rfl⟩
    · exact .inl trivial

theorem mem_queens {n : Nat} {c : List Lit} : FileLine.clause c ∈ queensFile n ↔
    FileLine.clause c ∈ queensRows n ∨ FileLine.clause c ∈ queensDiagonals n := by
  unfold queensFile
  simp only [List.mem_append, List.mem_map, List.mem_singleton]
  constructor
  · rintro ((((⟨i, _, h⟩ | h) | h) | h) | h)
    · cases h
    · exact .inl h
    · cases h
    · exact .inr h
    · cases h
  · rintro (h | h)
    · exact .inl (.inl (.inl (.inr h)))
    · exact .inl (.inr h)

/-- Distance of two numbers. -/
def dist (a b : Nat) : Nat := (a - b) + (b - a)

/-- A queen on column `x`, row `k` and one on column `y`, row `l`, different columns, attack each other: same row
or same diagonal. -/
def QueensAttack (x k y l : Nat) : Prop := k = l ∨ dist x y = dist k l

/-- **C40.** An assignment satisfies the file for `n` queens exactly when the queens, one in each column on the row
given by the value, stand on the board and no two attack each other. -/
theorem C40_queens (n : Nat) (a : Assignment) : (fileProblem (queensFile n)).Solves a ↔
    (∀ x, 1 ≤ x → x ≤ n → a x < n) ∧
    ∀ x y, 1 ≤ x → x ≤ n → 1 ≤ y → y ≤ n → x ≠ y → ¬ QueensAttack x (a x) y (a y) := by
  unfold Problem.Solves
  rw [inDom_replicate (queens_doms n)]
  constructor
  · rintro ⟨hd, hc⟩
    refine ⟨hd, ?_⟩
    have key : ∀ x y, 1 ≤ y → y < x → x ≤ n → ¬ QueensAttack x (a x) y (a y) := by
      rintro x y h1 h2 h3 (h | h)
      · have hin : [⟨x, a x, false⟩, ⟨y, a x, false⟩] ∈ (fileProblem (queensFile n)).clauses :=
          mem_fileClauses.2 (mem_queens.2 (.inl (mem_queensRows.2 ⟨a x, x, y, hd x (by omega) h3, h1, h2, h3, rfl⟩)))
        exact neClause.1 (hc _ hin) ⟨rfl, h.symm⟩
      · unfold dist at h
        have hin : [⟨x, a x, false⟩, ⟨y, a y, false⟩] ∈ (fileProblem (queensFile n)).clauses :=
          mem_fileClauses.2 (mem_queens.2 (.inr (mem_queensDiagonals.2 ⟨x, y, a x, a y, h1, h2, h3, hd x (by omega) h3,
            hd y h1 (by omega), by omega, rfl⟩)))
        exact neClause.1 (hc _ hin) ⟨rfl, rfl⟩
    intro x y h1 h2 h3 h4 hne
    rcases Nat.lt_or_gt_of_ne hne with h | h
    · intro hq
      refine key y x h1 h h4 ?_
      unfold QueensAttack dist at hq ⊢
      omega
    · exact key x y h3 h h2
  · rintro ⟨hd, hq⟩
    refine ⟨hd, ?_⟩
    intro c hc
    rcases mem_queens.1 (mem_fileClauses.1 hc) with h | h
    · obtain ⟨i, j, k, h1, h2, h3, h4, e⟩ := mem_queensRows.1 h
      cases e
      rw [neClause]
      rintro ⟨e1, e2⟩
      exact hq j k (by omega) h4 h2 (by omega) (by omega) (.inl (e1.trans e2.symm))
    · obtain ⟨i, k, d, e, h1, h2, h3, h4, h5, h6, e'⟩ := mem_queensDiagonals.1 h
      cases e'
      rw [neClause]
      rintro ⟨e1, e2⟩
      refine hq i k (by omega) h3 h1 (by omega) (by omega) (.inr ?_)
      unfold dist
      omega

/-- Four queens on rows 1, 3, 0, 2. -/
example : (fileProblem (queensFile 4)).Solves fun v => [0, 1, 3, 0, 2].getD v 0 := by decide +kernel
example : ¬ (fileProblem (queensFile 4)).Solves fun v => [0, 0, 3, 1, 2].getD v 0 := by decide +kernel

theorem queens_describes {n : Nat} (h1 : FileLine.Small n)
    (h2 : FileLine.Small ((queensRows n).length + (queensDiagonals n).length)) :
    Describes (queensFile n) (fileProblem (queensFile n)) := by
  refine describes_of (pre := []) (n := n) (f := fun _ => n)
    (post := queensRows n ++ [.comment " diagonals".toList] ++ queensDiagonals n
      ++ [.problem false n ((queensRows n).length + (queensDiagonals n).length)]) ?_ ?_ ?_ ?_
  · unfold queensFile; simp only [List.append_assoc, List.nil_append]
  · intro l hl; cases hl
  · apply fileDoms_clauses
    intro l hl
    simp only [List.mem_append, List.mem_singleton] at hl
    rcases hl with ((h | rfl) | h) | rfl
    · obtain ⟨_, _, _, _, _, _, _, rfl⟩ := mem_queensRows.1 h; exact .inr ⟨_, rfl⟩
    · exact .inl trivial
    · obtain ⟨_, _, _, _, _, _, _, _, _, _, rfl⟩ := mem_queensDiagonals.1 h; exact .inr ⟨_, rfl⟩
    · exact .inl trivial
  · unfold queensFile
    intro l hl
    simp only [List.mem_append, List.mem_map, List.mem_singleton] at hl
    rcases hl with (((⟨i, hi, rfl⟩ | h) | rfl) | h) | rfl
    · rw [mem_forUp] at hi
      exact domain_fine (Small.le h1 (by omega)) h1
    · obtain ⟨_, _, _, _, _, _, _, rfl⟩ := mem_queensRows.1 h
      exact neLine_fine (by omega) (by omega) (Small.le h1 (by omega)) (Small.le h1 (by omega)) (Small.le h1 (by omega))
        (Small.le h1 (by omega))
    · exact ⟨by show '\n' ∉ _; decide, by decide⟩
    · obtain ⟨_, _, _, _, _, _, _, _, _, _, rfl⟩ := mem_queensDiagonals.1 h
      exact neLine_fine (by omega) (by omega) (Small.le h1 (by omega)) (Small.le h1 (by omega)) (Small.le h1 (by omega))
        (Small.le h1 (by omega))
    · exact problem_fine h1 h2

theorem queens_wellFormed {n : Nat} (hn : 2 ≤ n) :
    (fileProblem (queensFile n)).WellFormed ∧ (fileProblem (queensFile n)).NoDupLits := by
  refine wellFormed_ne (queens_doms n) hn ?_
  intro c hc
  rcases mem_queens.1 hc with h | h
  · obtain ⟨i, j, k, h1, h2, h3, h4, e⟩ := mem_queensRows.1 h
    cases e
    exact ⟨j, i, k, i, by omega, h4, h1, h2, by omega, h1, .inl (by omega), rfl⟩
  · obtain ⟨i, k, d, e, h1, h2, h3, h4, h5, h6, e'⟩ := mem_queensDiagonals.1 h
    cases e'
    exact ⟨i, d, k, e, by omega, h3, h4, h1, by omega, h5, .inl (by omega), rfl⟩

/-- **C46**, queens: the counted number is the number of clauses. -/
theorem C46_queens (n : Nat) : HeaderRight (queensFile n) := by
  refine ⟨false, ?_⟩
  have hc : (fileClauses (queensFile n)).length = (queensRows n).length + (queensDiagonals n).length := by
    unfold queensFile
    simp only [fileClauses_append, List.length_append]
    rw [fileClauses_none, fileClauses_all, fileClauses_none (ls := [_]), fileClauses_all, fileClauses_none (ls := [_])]
    · simp
    · intro l hl; rw [List.mem_singleton] at hl; subst hl; exact .inl trivial
    · intro l hl
      obtain ⟨_, _, _, _, _, _, _, _, _, _, rfl⟩ := mem_queensDiagonals.1 hl; exact ⟨_, rfl⟩
    · intro l hl; rw [List.mem_singleton] at hl; subst hl; exact .inl trivial
    · intro l hl
      obtain ⟨_, _, _, _, _, _, _, rfl⟩ := mem_queensRows.1 hl; exact ⟨_, rfl⟩
    · intro l hl
      obtain ⟨i, _, rfl⟩ := List.mem_map.1 hl; exact .inr ⟨_, _, rfl⟩
  rw [hc, queens_doms, List.length_replicate]
  unfold queensFile
  simp

/-! ## C41 -/

theorem colouring_doms (G : Graph) (N : Nat) : fileDoms (colouringFile G N) = List.replicate G.vertices N := by
  unfold colouringFile
  rw [List.append_cons, fileDoms_append, fileDoms_append, fileDoms_forUp, fileDoms_clauses, fileDoms_clauses]
  · simp
  · intro l hl
    simp only [List.mem_flatMap, List.mem_map] at hl
    obtain ⟨i, _, e, _, rfl⟩ := hl
    exact .inr ⟨_, rfl⟩
  · intro l hl
    simp only [List.mem_append, List.mem_map, List.mem_singleton] at hl
    rcases hl with ⟨c, _, rfl⟩ | rfl <;> exact .inl trivial

theorem colouring_clause {G : Graph} {N : Nat} {c : List Lit} : FileLine.clause c ∈ colouringFile G N ↔
    ∃ d e, d < N ∧ e ∈ G.edges ∧ c = [⟨e.1, d, false⟩, ⟨e.2, d, false⟩] := by
  unfold colouringFile
  simp only [List.mem_append, List.mem_cons, List.mem_map, List.mem_flatMap, List.mem_range]
  constructor
  · rintro ((⟨c, _, h⟩ | h | ⟨i, _, h⟩) | ⟨d, hd, e, he, h⟩)
    · cases h
    · cases h
    · cases h
    · unfold neLine at h
      cases h
      exact ⟨d, e, hd, he, rfl⟩
  · rintro ⟨d, e, hd, he, rfl⟩
    exact .inr ⟨d, hd, e, he, rfl⟩

/-- **C41.** For a graph whose edges name its vertices, an assignment satisfies the file written for `N` colours
exactly when every vertex gets one of the `N` colours and the ends of every edge get different ones. -/
theorem C41_colouring {G : Graph} (hG : ∀ e ∈ G.edges, 1 ≤ e.1 ∧ e.1 ≤ G.vertices ∧ 1 ≤ e.2 ∧ e.2 ≤ G.vertices) (N : Nat)
    (a : Assignment) : (fileProblem (colouringFile G N)).Solves a ↔
      (∀ v, 1 ≤ v → v ≤ G.vertices → a v < N) ∧ ∀ s t, (s, t) ∈ G.edges → a s ≠ a t := by
  unfold Problem.Solves
  rw [inDom_replicate (colouring_doms G N)]
  constructor
  · rintro ⟨hd, hc⟩
    refine ⟨hd, ?_⟩
    intro s t he e
    obtain ⟨h1, h2, _, _⟩ := hG _ he
    have hin : [⟨s, a s, false⟩, ⟨t, a s, false⟩] ∈ (fileProblem (colouringFile G N)).clauses :=
      mem_fileClauses.2 (colouring_clause.2 ⟨a s, (s, t), hd s h1 h2, he, rfl⟩)
    exact neClause.1 (hc _ hin) ⟨rfl, e.symm⟩
  · rintro ⟨hd, hp⟩
    refine ⟨hd, ?_⟩
    intro c hc
    obtain ⟨d, e, _, he, rfl⟩ := colouring_clause.1 (mem_fileClauses.1 hc)
    rw [neClause]
    rintro ⟨e1, e2⟩
    exact hp e.1 e.2 he (e1.trans e2.symm)

/-- A triangle. -/
def exTriangle : Graph := ⟨[], 3, 3, [(1, 2), (2, 3), (3, 1)]⟩

example : (∀ e ∈ exTriangle.edges, 1 ≤ e.1 ∧ e.1 ≤ exTriangle.vertices ∧ 1 ≤ e.2 ∧ e.2 ≤ exTriangle.vertices) ∧
    (fileProblem (colouringFile exTriangle 3)).Solves (fun v => v - 1) ∧
    ¬ (fileProblem (colouringFile exTriangle 3)).Solves (fun v => v % 3 / 2) := by decide

/-- **C46**, colouring: right when the graph file states its number of edges. -/
theorem C46_colouring {G : Graph} (hG : G.edgeNum = G.edges.length) (N : Nat) : HeaderRight (colouringFile G N) := by
  refine ⟨false, ?_⟩
  have hc : (fileClauses (colouringFile G N)).length = G.edgeNum * N := by
    unfold colouringFile
    rw [fileClauses_append, List.length_append, fileClauses_none, fileClauses_all]
    · rw [length_flatMap_const (k := G.edges.length)]
      · rw [List.length_range, hG, Nat.mul_comm]; simp
      · intro d _; rw [List.length_map]
    · intro l hl
      simp only [List.mem_flatMap, List.mem_map] at hl
      obtain ⟨i, _, e, _, rfl⟩ := hl
      exact ⟨_, rfl⟩
    · intro l hl
      simp only [List.mem_append, List.mem_cons, List.mem_map] at hl
      rcases hl with ⟨c, _, rfl⟩ | rfl | ⟨i, _, rfl⟩
      · exact .inl trivial
      · exact .inl trivial
      · exact .inr ⟨_, _, rfl⟩
  rw [hc, colouring_doms, List.length_replicate]
  unfold colouringFile
  simp

example : exTriangle.edgeNum = exTriangle.edges.length := rfl

theorem colouring_describes {G : Graph} (hG : ∀ e ∈ G.edges, 1 ≤ e.1 ∧ e.1 ≤ G.vertices ∧ 1 ≤ e.2 ∧ e.2 ≤ G.vertices)
    (hcm : ∀ t ∈ G.comments, '\n' ∉ t ∧ t.length < 2999) {N : Nat} (h1 : FileLine.Small G.vertices) (h2 : FileLine.Small N)
    (h3 : FileLine.Small (G.edgeNum * N)) : Describes (colouringFile G N) (fileProblem (colouringFile G N)) := by
  refine describes_of (n := G.vertices) (f := fun _ => N)
    (pre := G.comments.map .comment ++ [.problem false G.vertices (G.edgeNum * N)])
    (post := (List.range N).flatMap fun d => G.edges.map fun e => neLine e.1 d e.2 d) ?_ ?_ ?_ ?_
  · unfold colouringFile; rw [List.append_cons, List.append_assoc]
  · intro l hl
    simp only [List.mem_append, List.mem_map, List.mem_singleton] at hl
    rcases hl with ⟨c, _, rfl⟩ | rfl <;> trivial
  · apply fileDoms_clauses
    intro l hl
    simp only [List.mem_flatMap, List.mem_map] at hl
    obtain ⟨i, _, e, _, rfl⟩ := hl
    exact .inr ⟨_, rfl⟩
  · unfold colouringFile
    intro l hl
    simp only [List.mem_append, List.mem_cons, List.mem_map, List.mem_flatMap, List.mem_range] at hl
    rcases hl with (⟨t, ht, rfl⟩ | rfl | ⟨i, hi, rfl⟩) | ⟨d, hd, e, he, rfl⟩
    · obtain ⟨k1, k2⟩ := hcm t ht
      refine ⟨k1, ?_⟩
      simp only [FileLine.text, List.length_cons]
      omega
    · exact problem_fine h1 h3
    · rw [mem_forUp] at hi
      exact domain_fine (Small.le h1 (by omega)) h2
    · obtain ⟨k1, k2, k3, k4⟩ := hG e he
      exact neLine_fine k1 k3 (Small.le h1 k2) (Small.le h2 (by omega)) (Small.le h1 k4) (Small.le h2 (by omega))

theorem colouring_wellFormed {G : Graph} (hG : ∀ e ∈ G.edges, 1 ≤ e.1 ∧ e.1 ≤ G.vertices ∧ 1 ≤ e.2 ∧ e.2 ≤ G.vertices)
    (hl : ∀ e ∈ G.edges, e.1 ≠ e.2) {N : Nat} (hN : 2 ≤ N) :
    (fileProblem (colouringFile G N)).WellFormed ∧ (fileProblem (colouringFile G N)).NoDupLits := by
  refine wellFormed_ne (colouring_doms G N) hN ?_
  intro c hc
  obtain ⟨d, e, hd, he, rfl⟩ := colouring_clause.1 hc
  obtain ⟨k1, k2, k3, k4⟩ := hG e he
  exact ⟨e.1, d, e.2, d, k1, k2, hd, k3, k4, hd, .inl (hl e he), rfl⟩

/-! ## C45 -/

theorem mem_upTo {a b x : Int} : x ∈ upTo a b ↔ a ≤ x ∧ x ≤ b := by
  unfold upTo
  rw [List.mem_map]
  constructor
  · rintro ⟨i, hi, rfl⟩
    rw [List.mem_range] at hi
    omega
  · rintro ⟨h1, h2⟩
    exact ⟨(x - a).toNat, List.mem_range.2 (by omega), by omega⟩

/-- Amazons move like queens and like knights. -/
def AmazonsAttack (x k y l : Nat) : Prop :=
  QueensAttack x k y l ∨ (dist x y = 1 ∧ dist k l = 2) ∨ (dist x y = 2 ∧ dist k l = 1)

theorem mem_amazonsColumns {n : Nat} {l : FileLine} : l ∈ amazonsColumns n ↔
    ∃ x y k : Nat, 1 ≤ x ∧ x < y ∧ y ≤ n ∧ k < n ∧ l = neLine x k y k := by
  unfold amazonsColumns
  simp only [List.mem_flatMap]
  constructor
  · rintro ⟨x, hx, y, hy, h⟩
    split at h
    · rename_i hxy
      obtain ⟨k, hk, rfl⟩ := List.mem_map.1 h
      rw [mem_upTo] at hx hy hk
      exact ⟨x.toNat, y.toNat, k.toNat, by omega, by omega, by omega, by omega, rfl⟩
    · cases h
  · rintro ⟨x, y, k, h1, h2, h3, h4, rfl⟩
    refine ⟨x, mem_upTo.2 (by omega), y, mem_upTo.2 (by omega), ?_⟩
    rw [if_pos (by omega)]
    exact List.mem_map.2 ⟨k, mem_upTo.2 (by omega), rfl⟩

theorem mem_amazonsDiagonal {n : Nat} {s : Int} {l : FileLine} : l ∈ amazonsDiagonal n s ↔
    ∃ x k y m : Nat, 1 ≤ x ∧ x < y ∧ y ≤ n ∧ k < n ∧ m < n ∧ (m : Int) = k + s * (y - x) ∧ l = neLine x k y m := by
  unfold amazonsDiagonal
  simp only [List.mem_flatMap]
  constructor
  · rintro ⟨x, hx, k, hk, y, hy, h⟩
    split at h
    · rename_i hm
      rw [List.mem_singleton] at h
      subst h
      rw [mem_upTo] at hx hk hy hm
      refine ⟨x.toNat, k.toNat, y.toNat, (k + s * (y - x)).toNat, by omega, by omega, by omega, by omega, by omega, ?_, rfl⟩
      rw [Int.toNat_of_nonneg hm.1, Int.toNat_of_nonneg hk.1, Int.toNat_of_nonneg (by omega),
        Int.toNat_of_nonneg (by omega)]
    · cases h
  · rintro ⟨x, k, y, m, h1, h2, h3, h4, h5, h6, rfl⟩
    refine ⟨x, mem_upTo.2 (by omega), k, mem_upTo.2 (by omega), y, mem_upTo.2 (by omega), ?_⟩
    rw [← h6, if_pos (mem_upTo.2 (by omega))]
    exact List.mem_singleton.2 rfl

theorem mem_amazonsKnight {n : Nat} {dx dk : Int} {l : FileLine} : l ∈ amazonsKnight n dx dk ↔
    ∃ x k y m : Nat, 1 ≤ x ∧ x ≤ n ∧ 1 ≤ y ∧ y ≤ n ∧ k < n ∧ m < n ∧ (y : Int) = x + dx ∧ (m : Int) = k + dk ∧
      l = neLine x k y m := by
  unfold amazonsKnight
  simp only [List.mem_flatMap]
  constructor
  · rintro ⟨x, hx, k, hk, h⟩
    split at h
    · rename_i hm
      rw [List.mem_singleton] at h
      subst h
      rw [mem_upTo] at hx hk
      obtain ⟨hm1, hm2⟩ := hm
      rw [mem_upTo] at hm1 hm2
      exact ⟨x.toNat, k.toNat, (x + dx).toNat, (k + dk).toNat, by omega, by omega, by omega, by omega, by omega, by omega,
        by omega, by omega, rfl⟩
    · cases h
  · rintro ⟨x, k, y, m, h1, h2, h3, h4, h5, h6, h7, h8, rfl⟩
    refine ⟨x, mem_upTo.2 (by omega), k, mem_upTo.2 (by omega), ?_⟩
    rw [← h7, ← h8, if_pos ⟨mem_upTo.2 (by omega), mem_upTo.2 (by omega)⟩]
    exact List.mem_singleton.2 rfl

theorem upTo_forUp (n : Nat) : (upTo 1 n).map (fun i => FileLine.domain i.toNat n) = (forUp 1 (n + 1)).map fun i => .domain i n := by
  unfold upTo forUp
  rw [List.map_map, show ((n : Int) - 1 + 1).toNat = n from by omega, show n + 1 - 1 = n from rfl, List.range'_eq_map_range,
    List.map_map]
  apply List.map_congr_left
  intro i _
  show FileLine.domain (1 + (i : Int)).toNat n = .domain (1 + i) n
  congr 1

/-- The clause lines of the file for `n` amazons. -/
theorem amazons_clause {n : Nat} {c : List Lit} : FileLine.clause c ∈ amazonsFile n ↔
    ∃ x k y m : Nat, 1 ≤ x ∧ x < y ∧ y ≤ n ∧ k < n ∧ m < n ∧ AmazonsAttack x k y m ∧
      c = [⟨x, k, false⟩, ⟨y, m, false⟩] := by
  have hmem : FileLine.clause c ∈ amazonsFile n ↔ FileLine.clause c ∈ amazonsColumns n ∨
      FileLine.clause c ∈ amazonsDiagonal n 1 ∨ FileLine.clause c ∈ amazonsDiagonal n (-1) ∨
      FileLine.clause c ∈ amazonsKnight n 1 2 ∨ FileLine.clause c ∈ amazonsKnight n 1 (-2) ∨
      FileLine.clause c ∈ amazonsKnight n 2 1 ∨ FileLine.clause c ∈ amazonsKnight n 2 (-1) := by
    unfold amazonsFile
    simp [or_assoc]
  rw [hmem, mem_amazonsColumns, mem_amazonsDiagonal, mem_amazonsDiagonal, mem_amazonsKnight, mem_amazonsKnight,
    mem_amazonsKnight, mem_amazonsKnight]
  constructor
  · rintro (⟨x, y, k, h1, h2, h3, h4, e⟩ | ⟨x, k, y, m, h1, h2, h3, h4, h5, h6, e⟩ | ⟨x, k, y, m, h1, h2, h3, h4, h5, h6, e⟩ |
      ⟨x, k, y, m, h1, h2, h3, h4, h5, h6, h7, h8, e⟩ | ⟨x, k, y, m, h1, h2, h3, h4, h5, h6, h7, h8, e⟩ |
      ⟨x, k, y, m, h1, h2, h3, h4, h5, h6, h7, h8, e⟩ | ⟨x, k, y, m, h1, h2, h3, h4, h5, h6, h7, h8, e⟩) <;> cases e
    · exact ⟨x, k, y, k, h1, h2, h3, h4, h4, .inl (.inl rfl), rfl⟩
    · exact ⟨x, k, y, m, h1, h2, h3, h4, h5, .inl (.inr (by unfold dist; omega)), rfl⟩
    · exact ⟨x, k, y, m, h1, h2, h3, h4, h5, .inl (.inr (by unfold dist; omega)), rfl⟩
    all_goals
      refine ⟨x, k, y, m, h1, by omega, h4, h5, h6, .inr ?_, rfl⟩
      unfold dist; omega
  · rintro ⟨x, k, y, m, h1, h2, h3, h4, h5, h6, rfl⟩
    have hcases : k = m ∨ (m : Int) = k + 1 * ((y : Int) - x) ∨ (m : Int) = k + -1 * ((y : Int) - x) ∨
        ((y : Int) = x + 1 ∧ (m : Int) = k + 2) ∨ ((y : Int) = x + 1 ∧ (m : Int) = k + -2) ∨
        ((y : Int) = x + 2 ∧ (m : Int) = k + 1) ∨ ((y : Int) = x + 2 ∧ (m : Int) = k + -1) := by
      unfold AmazonsAttack QueensAttack dist at h6
      omega
    rcases hcases with e | e | e | ⟨e, e'⟩ | ⟨e, e'⟩ | ⟨e, e'⟩ | ⟨e, e'⟩
    · subst e; exact .inl ⟨x, y, k, h1, h2, h3, h4, rfl⟩
    · exact .inr (.inl ⟨x, k, y, m, h1, h2, h3, h4, h5, e, rfl⟩)
    · exact .inr (.inr (.inl ⟨x, k, y, m, h1, h2, h3, h4, h5, e, rfl⟩))
    · exact .inr (.inr (.inr (.inl ⟨x, k, y, m, h1, by omega, by omega, h3, h4, h5, e, e', rfl⟩)))
    · exact .inr (.inr (.inr (.inr (.inl ⟨x, k, y, m, h1, by omega, by omega, h3, h4, h5, e, e', rfl⟩))))
    · exact .inr (.inr (.inr (.inr (.inr (.inl ⟨x, k, y, m, h1, by omega, by omega, h3, h4, h5, e, e', rfl⟩)))))
    · exact .inr (.inr (.inr (.inr (.inr (.inr ⟨x, k, y, m, h1, by omega, by omega, h3, h4, h5, e, e', rfl⟩)))))

theorem amazons_doms (n : Nat) : fileDoms (amazonsFile n) = List.replicate n n := by
  unfold amazonsFile
  rw [upTo_forUp]
  simp only [fileDoms_append, fileDoms_forUp]
  have hc : ∀ t ls, fileDoms (FileLine.comment t :: ls) = fileDoms ls := fun _ _ => rfl
  have hk : ∀ dx dk, fileDoms (amazonsKnight n dx dk) = [] := by
    intro dx dk
    apply fileDoms_clauses
    intro l hl
    obtain ⟨_, _, _, _, _, _, _, _, _, _, _, _, rfl⟩ := mem_amazonsKnight.1 hl
    exact .inr ⟨_, rfl⟩
  have hd : ∀ s, fileDoms (amazonsDiagonal n s) = [] := by
    intro s
    apply fileDoms_clauses
    intro l hl
    obtain ⟨_, _, _, _, _, _, _, _, _, _, rfl⟩ := mem_amazonsDiagonal.1 hl
    exact .inr ⟨_, rfl⟩
  have hcol : fileDoms (amazonsColumns n) = [] := by
    apply fileDoms_clauses
    intro l hl
    obtain ⟨_, _, _, _, _, _, _, rfl⟩ := mem_amazonsColumns.1 hl
    exact .inr ⟨_, rfl⟩
  simp only [fileDoms_append, hc, hk, hd, hcol, List.append_nil]
  rfl

/-- **C45.** An assignment satisfies the file for `n` amazons exactly when the amazons, one in each row on the column
given by the value, stand on the board and no two attack each other. -/
theorem C45_amazons (n : Nat) (a : Assignment) : (fileProblem (amazonsFile n)).Solves a ↔
    (∀ x, 1 ≤ x → x ≤ n → a x < n) ∧
    ∀ x y, 1 ≤ x → x ≤ n → 1 ≤ y → y ≤ n → x ≠ y → ¬ AmazonsAttack x (a x) y (a y) := by
  unfold Problem.Solves
  rw [inDom_replicate (amazons_doms n)]
  constructor
  · rintro ⟨hd, hc⟩
    refine ⟨hd, ?_⟩
    have key : ∀ x y, 1 ≤ x → x < y → y ≤ n → ¬ AmazonsAttack x (a x) y (a y) := by
      intro x y h1 h2 h3 h
      have hin : [⟨x, a x, false⟩, ⟨y, a y, false⟩] ∈ (fileProblem (amazonsFile n)).clauses :=
        mem_fileClauses.2 (amazons_clause.2 ⟨x, a x, y, a y, h1, h2, h3, hd x h1 (by omega), hd y (by omega) h3, h, rfl⟩)
      exact neClause.1 (hc _ hin) ⟨rfl, rfl⟩
    intro x y h1 h2 h3 h4 hne
    rcases Nat.lt_or_gt_of_ne hne with h | h
    · exact key x y h1 h h4
    · intro hq
      refine key y x h3 h h2 ?_
      unfold AmazonsAttack QueensAttack dist at hq ⊢
      omega
  · rintro ⟨hd, hq⟩
    refine ⟨hd, ?_⟩
    intro c hc
    obtain ⟨x, k, y, m, h1, h2, h3, h4, h5, h6, rfl⟩ := amazons_clause.1 (mem_fileClauses.1 hc)
    rw [neClause]
    rintro ⟨rfl, rfl⟩
    exact hq x y h1 (by omega) (by omega) h3 (by omega) h6

/-- The queens solution for 4 is none for amazons. -/
example : ¬ (fileProblem (amazonsFile 4)).Solves fun v => [0, 1, 3, 0, 2].getD v 0 := by decide +kernel
/-- A placement of 10 amazons. -/
example : (fileProblem (amazonsFile 10)).Solves fun v => [0, 2, 5, 8, 0, 3, 6, 9, 1, 4, 7].getD v 0 := by
  rw [C45_amazons]
  refine ⟨?_, ?_⟩
  · have : ∀ x ∈ List.range 11, [0, 2, 5, 8, 0, 3, 6, 9, 1, 4, 7].getD x 0 < 10 := by decide
    intro x _ h; exact this x (List.mem_range.2 (by omega))
  · have : ∀ x ∈ List.range' 1 10, ∀ y ∈ List.range' 1 10, x ≠ y → ¬ AmazonsAttack x
        ([0, 2, 5, 8, 0, 3, 6, 9, 1, 4, 7].getD x 0) y ([0, 2, 5, 8, 0, 3, 6, 9, 1, 4, 7].getD y 0) := by
      unfold AmazonsAttack QueensAttack dist
      decide +kernel
    intro x y h1 h2 h3 h4
    exact this x (by rw [List.mem_range'_1]; omega) y (by rw [List.mem_range'_1]; omega)

end Mvl
