import Verif.Props.Batch
import Verif.Props.BVOutput

/-!
# Benchmark files and the printed text of both solvers

C109: what the text printed for a pigeonhole, queens, amazons or colouring file says about the puzzle itself.
-/

namespace Mvl

variable {S : Type}

/-! ## The amazons file -/

theorem amazons_describes {n : Nat} (h1 : FileLine.Small n) :
    Describes (amazonsFile n) (fileProblem (amazonsFile n)) := by
  refine describes_of (n := n) (f := fun _ => n)
    (pre := [.comment (' ' :: natText n ++ " amazons. see https://de.wikipedia.org/wiki/Damenproblem#Andere_Figuren".toList),
      .comment " one variable per row, value is the column to place an amazon:".toList])
    (post := .comment " Only one amazon per column:".toList :: amazonsColumns n
      ++ .comment " only one per diagonal:".toList :: amazonsDiagonal n 1 ++ amazonsDiagonal n (-1)
      ++ .comment " attack relation of knights: ".toList :: amazonsKnight n 1 2 ++ amazonsKnight n 1 (-2)
      ++ amazonsKnight n 2 1 ++ amazonsKnight n 2 (-1)) ?_ ?_ ?_ ?_
  · unfold amazonsFile
    rw [upTo_forUp]
    simp only [List.append_assoc, List.cons_append, List.nil_append]
  · intro l hl
    simp only [List.mem_cons, List.not_mem_nil, or_false] at hl
    rcases hl with rfl | rfl <;> trivial
  · apply fileDoms_clauses
    intro l hl
    simp only [List.mem_append, List.mem_cons, or_assoc] at hl
    rcases hl with rfl | h | rfl | h | h | rfl | h | h | h | h
    · exact .inl trivial
    · obtain ⟨_, _, _, _, _, _, _, rfl⟩ := mem_amazonsColumns.1 h; exact .inr ⟨_, rfl⟩
    · exact .inl trivial
    · obtain ⟨_, _, _, _, _, _, _, _, _, _, rfl⟩ := mem_amazonsDiagonal.1 h; exact .inr ⟨_, rfl⟩
    · obtain ⟨_, _, _, _, _, _, _, _, _, _, rfl⟩ := mem_amazonsDiagonal.1 h; exact .inr ⟨_, rfl⟩
    · exact .inl trivial
    all_goals
      obtain ⟨_, _, _, _, _, _, _, _, _, _, _, _, rfl⟩ := mem_amazonsKnight.1 h; exact .inr ⟨_, rfl⟩
  · have hcol : ∀ l ∈ amazonsColumns n, l.Fine := by
      intro l h
      obtain ⟨_, _, _, _, _, _, _, rfl⟩ := mem_amazonsColumns.1 h
      exact neLine_fine (by omega) (by omega) (Small.le h1 (by omega)) (Small.le h1 (by omega)) (Small.le h1 (by omega))
        (Small.le h1 (by omega))
    have hdia : ∀ s, ∀ l ∈ amazonsDiagonal n s, l.Fine := by
      intro s l h
      obtain ⟨_, _, _, _, _, _, _, _, _, _, rfl⟩ := mem_amazonsDiagonal.1 h
      exact neLine_fine (by omega) (by omega) (Small.le h1 (by omega)) (Small.le h1 (by omega)) (Small.le h1 (by omega))
        (Small.le h1 (by omega))
    have hkn : ∀ dx dk, ∀ l ∈ amazonsKnight n dx dk, l.Fine := by
      intro dx dk l h
      obtain ⟨_, _, _, _, _, _, _, _, _, _, _, _, rfl⟩ := mem_amazonsKnight.1 h
      exact neLine_fine (by omega) (by omega) (Small.le h1 (by omega)) (Small.le h1 (by omega)) (Small.le h1 (by omega))
        (Small.le h1 (by omega))
    unfold amazonsFile
    rw [upTo_forUp]
    intro l hl
    simp only [List.mem_append, List.mem_cons, List.mem_map, List.not_mem_nil, false_or, or_assoc] at hl
    rcases hl with rfl | rfl | ⟨i, hi, rfl⟩ | rfl | h | rfl | h | h | rfl | h | h | h | h
    · have e1 := natText_length h1
      constructor
      · show '\n' ∉ _
        have := natText_no (n := n) (c := '\n') (by decide)
        simp only [List.mem_cons, List.mem_append, not_or, List.cons_append]
        exact ⟨by decide, this, by decide⟩
      · simp only [FileLine.text, List.length_append, List.length_cons, List.cons_append]
        have : (" amazons. see https://de.wikipedia.org/wiki/Damenproblem#Andere_Figuren".toList).length = 71 := by decide
        omega
    · exact ⟨by show '\n' ∉ _; decide, by decide⟩
    · rw [mem_forUp] at hi
      exact domain_fine (Small.le h1 (by omega)) h1
    · exact ⟨by show '\n' ∉ _; decide, by decide⟩
    · exact hcol _ h
    · exact ⟨by show '\n' ∉ _; decide, by decide⟩
    · exact hdia _ _ h
    · exact hdia _ _ h
    · exact ⟨by show '\n' ∉ _; decide, by decide⟩
    all_goals exact hkn _ _ _ h

theorem amazons_wellFormed {n : Nat} (hn : 2 ≤ n) :
    (fileProblem (amazonsFile n)).WellFormed ∧ (fileProblem (amazonsFile n)).NoDupLits := by
  refine wellFormed_ne (amazons_doms n) hn ?_
  intro c hc
  obtain ⟨x, k, y, m, h1, h2, h3, h4, h5, _, rfl⟩ := amazons_clause.1 hc
  exact ⟨x, k, y, m, h1, by omega, h4, by omega, h3, h5, .inl (by omega), rfl⟩

/-! ## Puzzles -/

/-- The puzzles for which the benchmark directory holds a program that writes a file. -/
inductive Puzzle where
  | pigeons (n : Nat)
  | queens (n : Nat)
  | amazons (n : Nat)
  | colouring (G : Graph) (N : Nat)

namespace Puzzle

/-- The lines of the file written for the puzzle. -/
def file : Puzzle → List FileLine
  | pigeons n => pigeonFile n
  | queens n => queensFile n
  | amazons n => amazonsFile n
  | colouring G N => colouringFile G N

/-- Number of pigeons, columns, rows or vertices. -/
def cells : Puzzle → Nat
  | pigeons n => n
  | queens n => n
  | amazons n => n
  | colouring G _ => G.vertices

/-- Number of holes, rows, columns or colours. -/
def values : Puzzle → Nat
  | pigeons n => n - 1
  | queens n => n
  | amazons n => n
  | colouring _ N => N

/-- No two get in each other's way. -/
def Apart : Puzzle → (Nat → Nat) → Prop
  | pigeons n, a => ∀ x y, 1 ≤ x → x ≤ n → 1 ≤ y → y ≤ n → x ≠ y → a x ≠ a y
  | queens n, a => ∀ x y, 1 ≤ x → x ≤ n → 1 ≤ y → y ≤ n → x ≠ y → ¬ QueensAttack x (a x) y (a y)
  | amazons n, a => ∀ x y, 1 ≤ x → x ≤ n → 1 ≤ y → y ≤ n → x ≠ y → ¬ AmazonsAttack x (a x) y (a y)
  | colouring G _, a => ∀ s t, (s, t) ∈ G.edges → a s ≠ a t

/-- `a` is a solution of the puzzle. -/
def Right (p : Puzzle) (a : Nat → Nat) : Prop := (∀ x, 1 ≤ x → x ≤ p.cells → a x < p.values) ∧ p.Apart a

/-- The sizes for which the written file has domains of at least two values and numbers that can be read. -/
def Sized : Puzzle → Prop
  | pigeons n => 3 ≤ n ∧ n ≤ 1000
  | queens n => 2 ≤ n ∧ n ≤ 200
  | amazons n => 2 ≤ n ∧ n ≤ 2147483647
  | colouring G N => 2 ≤ N ∧ N ≤ 2147483647 ∧ G.vertices ≤ 2147483647 ∧ G.edgeNum * N ≤ 2147483647 ∧
      (∀ e ∈ G.edges, 1 ≤ e.1 ∧ e.1 ≤ G.vertices ∧ 1 ≤ e.2 ∧ e.2 ≤ G.vertices ∧ e.1 ≠ e.2) ∧
      ∀ t ∈ G.comments, '\n' ∉ t ∧ t.length < 2999

theorem describes {p : Puzzle} (h : p.Sized) : Describes p.file (fileProblem p.file) := by
  cases p with
  | pigeons n =>
    refine pigeon_describes (small_of h.2 (by decide)) (small_of (k := 1000 ^ 2 * 1000) ?_ (by decide))
    have h2 := h.2
    have h3 : (n - 1) ^ 2 * n ≤ 1000 ^ 2 * 1000 := Nat.mul_le_mul (Nat.pow_le_pow_left (by omega) 2) h2
    exact Nat.le_trans (Nat.div_le_self _ _) h3
  | queens n => exact queens_describes (small_of h.2 (by decide)) (queens_count h.2)
  | amazons n => exact amazons_describes h.2
  | colouring G N =>
    obtain ⟨_, h2, h3, h4, h5, h6⟩ := h
    exact colouring_describes (fun e he => by have := h5 e he; exact ⟨this.1, this.2.1, this.2.2.1, this.2.2.2.1⟩) h6 h3 h2 h4

theorem wellFormed {p : Puzzle} (h : p.Sized) : (fileProblem p.file).WellFormed ∧ (fileProblem p.file).NoDupLits := by
  cases p with
  | pigeons n => exact pigeon_wellFormed h.1
  | queens n => exact queens_wellFormed h.1
  | amazons n => exact amazons_wellFormed h.1
  | colouring G N =>
    obtain ⟨h1, _, _, _, h5, _⟩ := h
    exact colouring_wellFormed (fun e he => by have := h5 e he; exact ⟨this.1, this.2.1, this.2.2.1, this.2.2.2.1⟩)
      (fun e he => (h5 e he).2.2.2.2) h1

theorem doms {p : Puzzle} : (fileProblem p.file).doms = List.replicate p.cells p.values := by
  cases p with
  | pigeons n => exact pigeon_doms n
  | queens n => exact queens_doms n
  | amazons n => exact amazons_doms n
  | colouring G N => exact colouring_doms G N

theorem numVars {p : Puzzle} : (fileProblem p.file).numVars = p.cells := by
  show (fileProblem p.file).doms.length = _
  rw [doms, List.length_replicate]

/-- The solutions of the file are the solutions of the puzzle. -/
theorem solves {p : Puzzle} (h : p.Sized) (a : Assignment) : (fileProblem p.file).Solves a ↔ p.Right a := by
  cases p with
  | pigeons n =>
    unfold Problem.Solves Right
    refine Iff.trans (and_congr (inDom_replicate (pigeon_doms n) a) Iff.rfl) (and_congr_right fun hd => ?_)
    constructor
    · intro hc x y h1 h2 h3 h4 hne e
      have key : ∀ j k, 1 ≤ k → k < j → j ≤ n → a j ≠ a k := by
        intro j k h1 h2 h3 e
        have hin : [⟨j, a j, false⟩, ⟨k, a j, false⟩] ∈ (fileProblem (pigeonFile n)).clauses :=
          mem_fileClauses.2 (pigeon_clause.2 ⟨a j, j, k, hd j (by omega) h3, h1, h2, h3, rfl⟩)
        exact neClause.1 (hc _ hin) ⟨rfl, e.symm⟩
      rcases Nat.lt_or_gt_of_ne hne with h | h
      · exact key y x h1 h h4 e.symm
      · exact key x y h3 h h2 e
    · intro hq c hc
      obtain ⟨i, j, k, h1, h2, h3, h4, rfl⟩ := pigeon_clause.1 (mem_fileClauses.1 hc)
      refine neClause.2 fun he => hq j k (by omega) h4 h2 (by omega) (by omega) ?_
      exact he.1.trans he.2.symm
  | queens n => exact C40_queens n a
  | amazons n => exact C45_amazons n a
  | colouring G N =>
    obtain ⟨_, _, _, _, h5, _⟩ := h
    exact C41_colouring (fun e he => by have := h5 e he; exact ⟨this.1, this.2.1, this.2.2.1, this.2.2.2.1⟩) N a

theorem satisfiable {p : Puzzle} (h : p.Sized) : (fileProblem p.file).Satisfiable ↔ ∃ a, p.Right a :=
  exists_congr fun a => solves h a

/-- Every clause of the file is about two variables. -/
theorem two {p : Puzzle} (h : p.Sized) {c : List Lit} (hc : c ∈ (fileProblem p.file).clauses) :
    ∃ l ∈ c, ∃ l' ∈ c, l.var ≠ l'.var := by
  have hc := mem_fileClauses.1 hc
  cases p with
  | pigeons n =>
    obtain ⟨i, j, k, h1, h2, h3, h4, rfl⟩ := pigeon_clause.1 hc
    exact ⟨_, .head _, _, .tail _ (.head _), by dsimp only; omega⟩
  | queens n =>
    rcases mem_queens.1 hc with h | h
    · obtain ⟨i, j, k, h1, h2, h3, h4, e⟩ := mem_queensRows.1 h
      cases e
      exact ⟨_, .head _, _, .tail _ (.head _), by dsimp only; omega⟩
    · obtain ⟨i, k, d, e, h1, h2, h3, h4, h5, h6, e'⟩ := mem_queensDiagonals.1 h
      cases e'
      exact ⟨_, .head _, _, .tail _ (.head _), by dsimp only; omega⟩
  | amazons n =>
    obtain ⟨x, k, y, m, h1, h2, h3, h4, h5, _, rfl⟩ := amazons_clause.1 hc
    exact ⟨_, .head _, _, .tail _ (.head _), by dsimp only; omega⟩
  | colouring G N =>
    obtain ⟨d, e, hd, he, rfl⟩ := colouring_clause.1 hc
    obtain ⟨_, _, _, _, h5, _⟩ := h
    exact ⟨_, .head _, _, .tail _ (.head _), (h5 e he).2.2.2.2⟩

end Puzzle

/-! ## C109 -/

/-- What a text says about a puzzle: there is exactly one kind of answer line, SAT only if the puzzle has a solution, UNSAT
only if it has none. -/
structure Tells (p : Puzzle) (txt : List Char) : Prop where
  one   : OneAnswer txt
  sat   : answerLine .SAT ∈ linesOf txt → ∃ a, p.Right a
  unsat : answerLine .UNSAT ∈ linesOf txt → ¬ ∃ a, p.Right a

theorem tells_of {p : Puzzle} (h : p.Sized) {txt : List Char} (hs : Says (fileProblem p.file) txt) : Tells p txt :=
  ⟨hs.one, fun k => (p.satisfiable h).1 (hs.sat k), fun k k' => hs.unsat k ((p.satisfiable h).2 k')⟩

/-- **C109**, the answer, `-solvech` with any options: the text is right about the puzzle. -/
theorem C109_solvech {w : World S} {argv : List (List Char)} {c : CommandLine} {p : Puzzle} (hp : p.Sized)
    (h : NamesFile w argv c p.file) (hc : command argv = .solvech) (hlog : c.LOG = false) (hsz : 0 ≤ c.CLAUSE_SIZE)
    {t : Times} (ho : ∀ name, c.FILE = some name → OneLine name t) {fuel : Nat} {txt : List Char}
    (hr : programText w fuel argv t = .ok (some txt)) : Tells p txt :=
  tells_of hp (C100_solvech (h.input (p.describes hp) (p.wellFormed hp).1) hc hlog hsz ho hr)

/-- **C109**, the answer, `-solvenc` with any options. -/
theorem C109_solvenc {w : World S} {argv : List (List Char)} {c : CommandLine} {p : Puzzle} (hp : p.Sized)
    (h : NamesFile w argv c p.file) (hc : command argv = .solvenc) (hs : (c.cfg w).ScoreOK) (hlog : c.LOG = false)
    (hsz : 0 ≤ c.CLAUSE_SIZE) {t : Times} (ho : ∀ name, c.FILE = some name → OneLine name t) {fuel : Nat} {txt : List Char}
    (hr : programText w fuel argv t = .ok (some txt)) : Tells p txt :=
  tells_of hp (C100_solvenc_partial (h.input (p.describes hp) (p.wellFormed hp).1) hc hs (fun _ => (p.wellFormed hp).2) hlog hsz
    ho hr)

/-- **C109**, with a clock that is never late: the text is complete after finitely many steps, and a bell and SAT is a line of
it exactly if the puzzle has a solution, a bell and UNSAT exactly if it has none. -/
theorem C109_decides {w : World S} {argv : List (List Char)} {c : CommandLine} {p : Puzzle} (hp : p.Sized)
    (h : NamesFile w argv c p.file) (hc : command argv = .solvech ∨ command argv = .solvenc ∧ (c.cfg w).ScoreOK)
    (hlog : c.LOG = false) (hsz : 0 ≤ c.CLAUSE_SIZE) (hclock : ∀ k, w.late c.TIME k = false)
    {t : Times} (ho : ∀ name, c.FILE = some name → OneLine name t) :
    ∃ txt f0, (∀ fuel, f0 ≤ fuel → programText w fuel argv t = .ok (some txt)) ∧
      (answerLine .SAT ∈ linesOf txt ↔ ∃ a, p.Right a) ∧ (answerLine .UNSAT ∈ linesOf txt ↔ ¬ ∃ a, p.Right a) := by
  have hi := h.input (p.describes hp) (p.wellFormed hp).1
  rw [← p.satisfiable hp]
  rcases hc with hc | ⟨hc, hs⟩
  · exact C100_solvech_decides hi hc hlog hsz hclock ho
  · exact C100_solvenc_decides_partial hi hc hs (p.wellFormed hp).2 hlog hsz hclock ho

/-- What the lines `x=d` of a text are: one for each pigeon, column, row or vertex and for nothing else, and together a
solution of the puzzle. -/
def Draws (p : Puzzle) (txt : List Char) : Prop :=
  ∃ a, p.Right a ∧ ∀ x d, valueLine x d ∈ linesOf txt ↔ 1 ≤ x ∧ x ≤ p.cells ∧ d = a x

theorem draws_of {p : Puzzle} (h : p.Sized) {txt : List Char} (hs : Shows (fileProblem p.file) txt) : Draws p txt := by
  obtain ⟨h1, h2, h3⟩ := hs
  rw [p.numVars] at h1 h2
  have hch : ∀ v, ∃ d, 1 ≤ v → v ≤ p.cells → ∀ d', valueLine v d' ∈ linesOf txt ↔ d' = d := by
    intro v
    by_cases hv : 1 ≤ v ∧ v ≤ p.cells
    · obtain ⟨d, _, hd⟩ := h1 v hv.1 hv.2
      exact ⟨d, fun _ _ => hd⟩
    · exact ⟨0, fun k1 k2 => absurd ⟨k1, k2⟩ hv⟩
  refine ⟨fun v => (hch v).choose, (p.solves h _).1 (h3 _ fun v d hv => ?_), fun x d => ⟨fun hx => ?_, fun ⟨k1, k2, e⟩ => ?_⟩⟩
  · obtain ⟨k1, k2⟩ := h2 v d hv
    exact (((hch v).choose_spec k1 k2 d).1 hv).symm
  · obtain ⟨k1, k2⟩ := h2 x d hx
    exact ⟨k1, k2, ((hch x).choose_spec k1 k2 d).1 hx⟩
  · exact ((hch x).choose_spec k1 k2 d).2 e

/-- **C109**, the model, without `-lazy`: after SAT the lines `x=d` are a solution of the puzzle.  (Missing: `-lazy`, for which
it fails, see `C109_lazy_fails`.) -/
theorem C109_drawn_partial {w : World S} {argv : List (List Char)} {c : CommandLine} {p : Puzzle} (hp : p.Sized)
    (h : NamesFile w argv c p.file) (hc : command argv = .solvech ∨ command argv = .solvenc ∧ (c.cfg w).ScoreOK)
    (hz : c.heuristic ≠ .lazy) (hlog : c.LOG = false) (hsz : 0 ≤ c.CLAUSE_SIZE)
    {t : Times} (ho : ∀ name, c.FILE = some name → OneLine name t) {fuel : Nat} {txt : List Char}
    (hr : programText w fuel argv t = .ok (some txt)) (hans : answerLine .SAT ∈ linesOf txt) : Draws p txt := by
  have hi := h.input (p.describes hp) (p.wellFormed hp).1
  refine draws_of hp ?_
  rcases hc with hc | ⟨hc, hs⟩
  · exact C101_solvech_partial hi (p.wellFormed hp).1 hc hz hlog hsz ho hr hans
  · exact C101_solvenc_partial hi (p.wellFormed hp).1 hc hz hs (fun _ => (p.wellFormed hp).2) hlog hsz ho hr hans

/-- A directory with the file of a puzzle. -/
def puzzleWorld (p : Puzzle) : World (Option (Nat × Nat)) :=
  { exWorld with files := fun n => if n = "a".toList then some (fileText p.file) else none }

/-- The hypotheses of C109 are met by four queens, and the text draws them on rows 1, 3, 0, 2 or 2, 0, 3, 1. -/
example : (Puzzle.queens 4).Sized ∧
    NamesFile (puzzleWorld (.queens 4)) (argvOf ["-solvech", "-file", "a"]) { FILE := some "a".toList } (queensFile 4) ∧
    (programText (puzzleWorld (.queens 4)) 200 (argvOf ["-solvech", "-file", "a"]) exTimes).passes (fun o => match o with
      | some txt => decide (answerLine .SAT ∈ linesOf txt) &&
        ([(1, 1), (2, 3), (3, 0), (4, 2)].all (fun v => decide (valueLine v.1 v.2 ∈ linesOf txt)) ||
          [(1, 2), (2, 0), (3, 3), (4, 1)].all fun v => decide (valueLine v.1 v.2 ∈ linesOf txt))
      | none => false) = true :=
  ⟨⟨by decide, by decide⟩, ⟨by decide +kernel, _, rfl, rfl⟩, by decide +kernel⟩

/-- Three amazons cannot be placed. -/
example : (Puzzle.amazons 3).Sized ∧
    (programText (puzzleWorld (.amazons 3)) 300 (argvOf ["-solvenc", "-wl", "-vsids", "-file", "a"]) exTimes).passes (fun o => match o with
      | some txt => decide (answerLine .UNSAT ∈ linesOf txt)
      | none => false) = true :=
  ⟨⟨by decide, by decide⟩, by decide +kernel⟩

/-- Two vertices and an edge. -/
def exEdge : Graph := ⟨[], 2, 1, [(1, 2)]⟩

/-- **C109 fails with `-lazy`**: for two connected vertices and three colours SAT is printed, and no line gives vertex 2 a
colour. -/
theorem C109_lazy_fails : (Puzzle.colouring exEdge 3).Sized ∧
    NamesFile (puzzleWorld (.colouring exEdge 3)) (argvOf ["-solvech", "-lazy", "-file", "a"])
      { FILE := some "a".toList, heuristic := .lazy } (colouringFile exEdge 3) ∧
    ∃ txt, programText (puzzleWorld (.colouring exEdge 3)) 30 (argvOf ["-solvech", "-lazy", "-file", "a"]) exTimes =
        .ok (some txt) ∧ answerLine .SAT ∈ linesOf txt ∧ ¬ Draws (.colouring exEdge 3) txt := by
  refine ⟨by unfold Puzzle.Sized; decide, ⟨by decide +kernel, _, rfl, rfl⟩, ?_⟩
  have h : (programText (puzzleWorld (.colouring exEdge 3)) 30 (argvOf ["-solvech", "-lazy", "-file", "a"]) exTimes).passes
      (fun o => match o with
        | some txt => decide (answerLine .SAT ∈ linesOf txt ∧ valueLine 2 0 ∉ linesOf txt ∧ valueLine 2 1 ∉ linesOf txt ∧
          valueLine 2 2 ∉ linesOf txt)
        | none => false) = true := by decide +kernel
  obtain ⟨o, h1, h2⟩ := Res.of_passes h
  match o, h2 with
  | some txt, h2 =>
    have h2 := of_decide_eq_true h2
    refine ⟨txt, h1, h2.1, ?_⟩
    rintro ⟨a, ⟨ha, _⟩, hv⟩
    have hlt : a 2 < 3 := ha 2 (by decide) (by decide)
    have hin := (hv 2 (a 2)).2 ⟨by decide, by decide, rfl⟩
    have : a 2 = 0 ∨ a 2 = 1 ∨ a 2 = 2 := by omega
    rcases this with e | e | e <;> rw [e] at hin
    · exact h2.2.1 hin
    · exact h2.2.2.1 hin
    · exact h2.2.2.2 hin

end Mvl

namespace Mvl.BV

variable {S : Type}

theorem puzzle_input {w : World S} {argv : List (List Char)} {c : BLine} {p : Puzzle} (hp : p.Sized) (h64 : p.values ≤ 64)
    (hcmd : argv.head? = some "-solvenc".toList) (hl : bparseCommandLine argv = .ok c) {name : List Char}
    (hf : c.FILE = some name) (hw : w.files name = some (fileText p.file)) : BInput w argv c (fileProblem p.file) where
  cmd := hcmd
  line := hl
  file := ⟨name, p.file, hf, hw, p.describes hp⟩
  wf := (p.wellFormed hp).1.regular
  fits := by
    intro d hd
    rw [p.doms] at hd
    rw [(List.mem_replicate.1 hd).2]
    exact h64

/-- What the sets of values of a text are: each pigeon, column, row or vertex has an allowed value, and every choice of
allowed values is a solution of the puzzle. -/
def BDraws (p : Puzzle) (txt : List Char) : Prop :=
  (∀ x, 1 ≤ x → x ≤ p.cells → ∃ d, Allowed txt x d) ∧
  ∀ a : Nat → Nat, (∀ x, 1 ≤ x → x ≤ p.cells → Allowed txt x (a x)) → p.Right a

/-- **C109**, the bit-vector program without `-restart`, at most 64 values: the text is right about the puzzle, and after SAT
every choice from the sets printed is a solution.  (Missing: `-restart`: in general the answer can be wrong then,
see `C103_restart_fails`, and on a puzzle the run can be undefined, see `C109_restart_fails`.) -/
theorem C109_bitvec_partial {w : World S} {argv : List (List Char)} {c : BLine} {p : Puzzle} (hp : p.Sized)
    (h64 : p.values ≤ 64) (hcmd : argv.head? = some "-solvenc".toList) (hl : bparseCommandLine argv = .ok c) {name : List Char}
    (hf : c.FILE = some name) (hw : w.files name = some (fileText p.file)) (hs : (c.cfg w).ScoreOK) (hrs : c.RESTARTS ≤ 0)
    (hlog : c.LOG = false) (hsz : 0 ≤ c.CLAUSE_SIZE) {t : Times} (ho : OneLine name t) {fuel : Nat} {txt : List Char}
    (hr : bprogramText w fuel argv t = .ok (some txt)) :
    Tells p txt ∧ (answerLine .SAT ∈ linesOf txt → BDraws p txt) := by
  have hi := puzzle_input hp h64 hcmd hl hf hw
  have ho' : ∀ name, c.FILE = some name → OneLine name t := fun n hn => by rw [hf] at hn; cases hn; exact ho
  obtain ⟨h1, h2⟩ := C103_bitvec_partial hi hs hrs hlog hsz ho' hr
  refine ⟨tells_of hp h1, fun hans => ?_⟩
  obtain ⟨_, k2, _, k4⟩ := h2 hans
  rw [p.numVars] at k2 k4
  refine ⟨fun x hx1 hx2 => ?_, fun a ha => (p.solves hp a).1 (k4 a ha)⟩
  obtain ⟨d, _, hd⟩ := k2 x hx1 hx2
  exact ⟨d, hd⟩

/-- **C109**, the bit-vector program with a clock that is never late. -/
theorem C109_bitvec_decides_partial {w : World S} {argv : List (List Char)} {c : BLine} {p : Puzzle} (hp : p.Sized)
    (h64 : p.values ≤ 64) (hcmd : argv.head? = some "-solvenc".toList) (hl : bparseCommandLine argv = .ok c) {name : List Char}
    (hf : c.FILE = some name) (hw : w.files name = some (fileText p.file)) (hs : (c.cfg w).ScoreOK) (hrs : c.RESTARTS ≤ 0)
    (hlog : c.LOG = false) (hsz : 0 ≤ c.CLAUSE_SIZE) (hclock : ∀ k, w.late c.TIME k = false) {t : Times}
    (ho : OneLine name t) :
    ∃ txt f0, (∀ fuel, f0 ≤ fuel → bprogramText w fuel argv t = .ok (some txt)) ∧
      (answerLine .SAT ∈ linesOf txt ↔ ∃ a, p.Right a) ∧ (answerLine .UNSAT ∈ linesOf txt ↔ ¬ ∃ a, p.Right a) := by
  have hi := puzzle_input hp h64 hcmd hl hf hw
  have ho' : ∀ name, c.FILE = some name → OneLine name t := fun n hn => by rw [hf] at hn; cases hn; exact ho
  rw [← p.satisfiable hp]
  refine C103_decides_partial hi hs hrs hlog hsz hclock (fun i j h1 _ h3 _ => ?_) ho'
  obtain ⟨l, k1, l', k2, k3⟩ := p.two hp (List.getElem_mem h1)
  exact absurd (h3 l k1 l' k2) k3

/-- The hypotheses are met by the triangle with three colours; the text has SAT. -/
example : (Puzzle.colouring exTriangle 3).Sized ∧
    (bprogramText (puzzleWorld (.colouring exTriangle 3)) 200 (argvOf ["-solvenc", "-file", "a"]) exTimes).passes (fun o => match o with
      | some txt => decide (answerLine .SAT ∈ linesOf txt)
      | none => false) = true :=
  ⟨by unfold Puzzle.Sized; decide, by decide +kernel⟩

/-- **C109 fails with `-restart`**: four queens can be placed, and without `-restart` SAT is printed; with `-restart 1` the run
of the bit-vector program comes to an undefined operation. -/
theorem C109_restart_fails : (Puzzle.queens 4).Sized ∧ (∃ a, (Puzzle.queens 4).Right a) ∧
    bparseCommandLine (argvOf ["-solvenc", "-restart", "1", "-file", "a"]) =
      .ok { FILE := some "a".toList, RESTARTS := 1 } ∧
    bprogramText (puzzleWorld (.queens 4)) 2000 (argvOf ["-solvenc", "-restart", "1", "-file", "a"]) exTimes = .ub ∧
    (bprogramText (puzzleWorld (.queens 4)) 200 (argvOf ["-solvenc", "-file", "a"]) exTimes).passes (fun o => match o with
      | some txt => decide (answerLine .SAT ∈ linesOf txt)
      | none => false) = true := by
  have hs : (Puzzle.queens 4).Sized := ⟨by decide, by decide⟩
  refine ⟨hs, (Puzzle.satisfiable hs).1 ⟨fun v => [0, 1, 3, 0, 2].getD v 0, by decide +kernel⟩, by decide +kernel, ?_,
    by decide +kernel⟩
  have h : (match bprogramText (puzzleWorld (.queens 4)) 2000 (argvOf ["-solvenc", "-restart", "1", "-file", "a"]) exTimes with
    | .ub => true
    | _ => false) = true := by decide +kernel
  revert h
  cases bprogramText (puzzleWorld (.queens 4)) 2000 (argvOf ["-solvenc", "-restart", "1", "-file", "a"]) exTimes <;> simp

end Mvl.BV
