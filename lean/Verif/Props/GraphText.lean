import Verif.Props.Puzzles
import Verif.Props.Colouring
import Verif.Props.OrigOutput

/-!
# From graph files to printed colourings

C111: a directory of graph files is converted by `convert_folders.py`, one of the results is given to a solver, and the
printed text is read as a statement about the graph.
-/

namespace Mvl

variable {S : Type}

/-- `col` gives each of the vertices `1..n` one of `N` colours, and the ends of each edge line different ones. -/
def ColoursFile (ls : List CcgLine) (n N : Nat) (col : Nat → Nat) : Prop :=
  (∀ v, 1 ≤ v → v ≤ n → col v < N) ∧ ∀ s t, CcgLine.edge s t ∈ ls → col s ≠ col t

/-- The directory `d` has the graph files `names` with the lines `g` under `path`; the file `name` is one of them and has `n`
vertices, no loops, and numbers that the solver can read; `fs` are the files after the conversion for the numbers of
colours `Ns`, of which `N` is one. -/
structure FromGraphs (path : List Char) (names : List (List Char)) (g : List Char → List CcgLine) (d : Disk) (Ns : List Nat)
    (fs : List Char → Option (List Char)) (name : List Char) (n m N : Nat) : Prop where
  graphs : Graphs path names g d
  files  : fs = (convertFolders path names (Ns.map fun N : Nat => (N : Int)) d).files
  listed : name ∈ names
  colour : N ∈ Ns
  graph  : GraphFile (g name) n m
  loops  : ∀ s t, CcgLine.edge s t ∈ g name → s ≠ t
  two    : 2 ≤ N
  size   : N ≤ 2147483647 ∧ n ≤ 2147483647 ∧ m * N ≤ 2147483647

namespace FromGraphs

variable {path : List Char} {names : List (List Char)} {g : List Char → List CcgLine} {d : Disk} {Ns : List Nat}
  {fs : List Char → Option (List Char)} {name : List Char} {n m N : Nat}

/-- The same as a puzzle. -/
def puzzle (_ : FromGraphs path names g d Ns fs name n m N) : Puzzle := .colouring ⟨[], n, m, ccgEdges (g name)⟩ N

theorem sized (h : FromGraphs path names g d Ns fs name n m N) : h.puzzle.Sized := by
  refine ⟨h.two, h.size.1, h.size.2.1, h.size.2.2, fun e he => ?_, fun t ht => by cases ht⟩
  have he := mem_ccgEdges.1 he
  obtain ⟨k1, k2, k3, k4⟩ := h.graph.edges _ _ he
  exact ⟨k1, k2, k3, k4, h.loops _ _ he⟩

theorem right (h : FromGraphs path names g d Ns fs name n m N) (a : Nat → Nat) :
    h.puzzle.Right a ↔ ColoursFile (g name) n N a := by
  refine and_congr Iff.rfl ⟨fun k s t he => k s t (mem_ccgEdges.2 he), fun k s t he => k s t (mem_ccgEdges.1 he)⟩

theorem exists_right (h : FromGraphs path names g d Ns fs name n m N) :
    (∃ a, h.puzzle.Right a) ↔ ∃ col, ColoursFile (g name) n N col := exists_congr h.right

theorem file (h : FromGraphs path names g d Ns fs name n m N) :
    fs (resultPath N name) = some (fileText (colourLines N (g name))) := by
  rw [h.files, (C106_folders h.graphs).1 name h.listed N h.colour, colourText_eq h.graph.ok h.graph.count N false]

theorem describes (h : FromGraphs path names g d Ns fs name n m N) :
    Describes (colourLines N (g name)) (fileProblem h.puzzle.file) := by
  have k := colourLines_describes h.graph (N := N) h.size.2.1 h.size.1 h.size.2.2
  rw [colourLines_problem h.graph] at k
  exact k

theorem input {w : World S} (h : FromGraphs path names g d Ns w.files name n m N) {argv : List (List Char)} {c : CommandLine}
    (hl : parseCommandLine argv = .ok c) (hf : c.FILE = some (resultPath N name)) :
    Input w argv c (fileProblem h.puzzle.file) :=
  ⟨hl, ⟨_, _, hf, h.file, h.describes⟩, (Puzzle.wellFormed h.sized).1.regular⟩

/-- The problem line has the number of vertices and the number of edges times the number of colours. -/
theorem headers (h : FromGraphs path names g d Ns fs name n m N) :
    Orig.HeadersMatch n (m * N) (colourLines N (g name)) := by
  obtain ⟨pre, post, h1, h2, e⟩ := colourLines_split h.graph N
  intro mv n' m' hl
  rw [e] at hl
  simp only [List.mem_append, headLines, List.mem_cons, List.mem_map, List.mem_flatMap, List.mem_range] at hl
  rcases hl with ((hl | hl | ⟨i, _, hl⟩) | hl) | ⟨_, _, x, _, hl⟩
  · obtain ⟨t, e, _⟩ := h1 _ hl; cases e
  · cases hl; exact ⟨rfl, rfl, rfl⟩
  · cases hl
  · obtain ⟨t, e, _⟩ := h2 _ hl; cases e
  · cases hl

end FromGraphs

section

variable {path : List Char} {names : List (List Char)} {g : List Char → List CcgLine} {d : Disk} {Ns : List Nat}
  {name : List Char} {n m N : Nat}

/-- What a text says about the graph of a file and a number of colours. -/
structure TellsColours (ls : List CcgLine) (n N : Nat) (txt : List Char) : Prop where
  one   : OneAnswer txt
  sat   : answerLine .SAT ∈ linesOf txt → ∃ col, ColoursFile ls n N col
  unsat : answerLine .UNSAT ∈ linesOf txt → ¬ ∃ col, ColoursFile ls n N col

/-- **C111**, the answer: what the solver prints for a converted graph file, with any options, is right about the graph. -/
theorem C111_told {w : World S} (h : FromGraphs path names g d Ns w.files name n m N) {argv : List (List Char)}
    {c : CommandLine} (hl : parseCommandLine argv = .ok c) (hf : c.FILE = some (resultPath N name))
    (hc : command argv = .solvech ∨ command argv = .solvenc ∧ (c.cfg w).ScoreOK) (hlog : c.LOG = false)
    (hsz : 0 ≤ c.CLAUSE_SIZE) {t : Times} (ho : OneLine (resultPath N name) t) {fuel : Nat} {txt : List Char}
    (hr : programText w fuel argv t = .ok (some txt)) : TellsColours (g name) n N txt := by
  have hi := h.input hl hf
  have ho' : ∀ x, c.FILE = some x → OneLine x t := fun x hx => by rw [hf] at hx; cases hx; exact ho
  have key : Tells h.puzzle txt := by
    refine tells_of h.sized ?_
    rcases hc with hc | ⟨hc, hs⟩
    · exact C100_solvech hi hc hlog hsz ho' hr
    · exact C100_solvenc_partial hi hc hs (fun _ => (Puzzle.wellFormed h.sized).2) hlog hsz ho' hr
  exact ⟨key.one, fun k => h.exists_right.1 (key.sat k), fun k k' => key.unsat k (h.exists_right.2 k')⟩

/-- **C111**, with a clock that is never late: SAT is printed exactly if the graph can be coloured, UNSAT exactly if not. -/
theorem C111_decides {w : World S} (h : FromGraphs path names g d Ns w.files name n m N) {argv : List (List Char)}
    {c : CommandLine} (hl : parseCommandLine argv = .ok c) (hf : c.FILE = some (resultPath N name))
    (hc : command argv = .solvech ∨ command argv = .solvenc ∧ (c.cfg w).ScoreOK) (hlog : c.LOG = false)
    (hsz : 0 ≤ c.CLAUSE_SIZE) (hclock : ∀ k, w.late c.TIME k = false) {t : Times} (ho : OneLine (resultPath N name) t) :
    ∃ txt f0, (∀ fuel, f0 ≤ fuel → programText w fuel argv t = .ok (some txt)) ∧
      (answerLine .SAT ∈ linesOf txt ↔ ∃ col, ColoursFile (g name) n N col) ∧
      (answerLine .UNSAT ∈ linesOf txt ↔ ¬ ∃ col, ColoursFile (g name) n N col) := by
  have hi := h.input hl hf
  have ho' : ∀ x, c.FILE = some x → OneLine x t := fun x hx => by rw [hf] at hx; cases hx; exact ho
  rw [← h.exists_right, ← Puzzle.satisfiable h.sized]
  rcases hc with hc | ⟨hc, hs⟩
  · exact C100_solvech_decides hi hc hlog hsz hclock ho'
  · exact C100_solvenc_decides_partial hi hc hs (Puzzle.wellFormed h.sized).2 hlog hsz hclock ho'

/-- **C111**, the model, without `-lazy`: after SAT the lines `v=d` are a colouring of the graph.  (Missing: `-lazy`, for which
it fails, see `C109_lazy_fails`.) -/
theorem C111_drawn_partial {w : World S} (h : FromGraphs path names g d Ns w.files name n m N) {argv : List (List Char)}
    {c : CommandLine} (hl : parseCommandLine argv = .ok c) (hf : c.FILE = some (resultPath N name))
    (hc : command argv = .solvech ∨ command argv = .solvenc ∧ (c.cfg w).ScoreOK) (hz : c.heuristic ≠ .lazy)
    (hlog : c.LOG = false) (hsz : 0 ≤ c.CLAUSE_SIZE) {t : Times} (ho : OneLine (resultPath N name) t) {fuel : Nat}
    {txt : List Char} (hr : programText w fuel argv t = .ok (some txt)) (hans : answerLine .SAT ∈ linesOf txt) :
    ∃ col, ColoursFile (g name) n N col ∧ ∀ v d, valueLine v d ∈ linesOf txt ↔ 1 ≤ v ∧ v ≤ n ∧ d = col v := by
  have hi := h.input hl hf
  have ho' : ∀ x, c.FILE = some x → OneLine x t := fun x hx => by rw [hf] at hx; cases hx; exact ho
  have hwf := Puzzle.wellFormed h.sized
  have key : Draws h.puzzle txt := by
    refine draws_of h.sized ?_
    rcases hc with hc | ⟨hc, hs⟩
    · exact C101_solvech_partial hi hwf.1 hc hz hlog hsz ho' hr hans
    · exact C101_solvenc_partial hi hwf.1 hc hz hs (fun _ => hwf.2) hlog hsz ho' hr hans
  obtain ⟨a, h1, h2⟩ := key
  exact ⟨a, (h.right a).1 h1, h2⟩

/-- **C111**, two texts about one graph: after SAT for some number of colours, UNSAT is not printed for as many or more. -/
theorem C111_more {ls : List CcgLine} {N N' : Nat} (hN : N ≤ N') {txt txt' : List Char} (h : TellsColours ls n N txt)
    (h' : TellsColours ls n N' txt') (hs : answerLine .SAT ∈ linesOf txt) : answerLine .UNSAT ∉ linesOf txt' := by
  intro hu
  obtain ⟨col, k1, k2⟩ := h.sat hs
  exact h'.unsat hu ⟨col, fun v h1 h2 => Nat.lt_of_lt_of_le (k1 v h1 h2) hN, k2⟩

/-- **C111**, the chromatic number: SAT for `N + 1` colours and UNSAT for `N` together say that `N + 1` is the least number
of colours for the graph. -/
theorem C111_chromatic {ls : List CcgLine} {txt txt' : List Char} (h : TellsColours ls n (N + 1) txt)
    (h' : TellsColours ls n N txt') (hs : answerLine .SAT ∈ linesOf txt) (hu : answerLine .UNSAT ∈ linesOf txt') (k : Nat) :
    (∃ col, ColoursFile ls n k col) ↔ N + 1 ≤ k := by
  obtain ⟨col, k1, k2⟩ := h.sat hs
  refine ⟨fun ⟨c, c1, c2⟩ => ?_, fun hk => ⟨col, fun v h1 h2 => Nat.lt_of_lt_of_le (k1 v h1 h2) hk, k2⟩⟩
  rcases Nat.lt_or_ge N k with hlt | hge
  · exact hlt
  · exact absurd ⟨c, fun v h1 h2 => Nat.lt_of_lt_of_le (c1 v h1 h2) hge, c2⟩ (h'.unsat hu)

end

/-- A directory with the triangle. -/
def exDir : Disk := ⟨fun f => if f = "g/a.col".toList then some (ccgText exCcg) else none, fun _ => true⟩

/-- The files after the conversion for two and three colours. -/
def exConverted : World (Option (Nat × Nat)) :=
  { exWorld with files := (convertFolders "g/".toList ["a.col".toList] ([2, 3].map fun N : Nat => (N : Int)) exDir).files }

theorem exConverted_converted {N : Nat} (h : N = 2 ∨ N = 3) :
    FromGraphs "g/".toList ["a.col".toList] (fun _ => exCcg) exDir [2, 3] exConverted.files "a.col".toList 3 3 N where
  graphs := by
    intro name hn
    rw [List.mem_singleton] at hn
    subst hn
    exact ⟨⟨"a".toList, by decide⟩, by decide, 3, 3, exCcg_graph⟩
  files := rfl
  listed := .head _
  colour := by rcases h with rfl | rfl <;> decide
  graph := exCcg_graph
  loops := by
    intro s t hl
    simp only [exCcg, List.mem_cons, List.not_mem_nil, or_false, CcgLine.edge.injEq, reduceCtorEq, false_or] at hl
    omega
  two := by rcases h with rfl | rfl <;> decide
  size := by rcases h with rfl | rfl <;> decide

/-- The hypotheses of C111 are met by the triangle: three colours are enough, and two are not. -/
example : parseCommandLine (argvOf ["-solvech", "-file", "N3_DIMACS/a_N3.dimacs"]) =
      .ok { FILE := some (resultPath 3 "a.col".toList) } ∧
    (programText exConverted 200 (argvOf ["-solvech", "-file", "N3_DIMACS/a_N3.dimacs"]) exTimes).passes (fun o => match o with
      | some txt => decide (answerLine .SAT ∈ linesOf txt)
      | none => false) = true ∧
    (programText exConverted 200 (argvOf ["-solvenc", "-wl", "-file", "N2_DIMACS/a_N2.dimacs"]) exTimes).passes
      (fun o => match o with
      | some txt => decide (answerLine .UNSAT ∈ linesOf txt)
      | none => false) = true :=
  ⟨by decide +kernel, by decide +kernel, by decide +kernel⟩

end Mvl

namespace Mvl.BV

variable {S : Type} {path : List Char} {names : List (List Char)} {g : List Char → List CcgLine} {d : Disk} {Ns : List Nat}
  {name : List Char} {n m N : Nat}

theorem converted_input {w : World S} (h : FromGraphs path names g d Ns w.files name n m N) (h64 : N ≤ 64)
    {argv : List (List Char)} {c : BLine} (hcmd : argv.head? = some "-solvenc".toList) (hl : bparseCommandLine argv = .ok c)
    (hf : c.FILE = some (resultPath N name)) : BInput w argv c (fileProblem h.puzzle.file) where
  cmd := hcmd
  line := hl
  file := ⟨_, _, hf, h.file, h.describes⟩
  wf := (Puzzle.wellFormed h.sized).1.regular
  fits := by
    intro x hx
    rw [Puzzle.doms] at hx
    rw [(List.mem_replicate.1 hx).2]
    exact h64

/-- **C111**, the bit-vector program without `-restart`, at most 64 colours: the text is right about the graph, and after SAT
every vertex has a colour in its set, and every choice from the sets is a colouring.  (Missing: `-restart`, see
`C103_restart_fails`, `C109_restart_fails`.) -/
theorem C111_bitvec_partial {w : World S} (h : FromGraphs path names g d Ns w.files name n m N) (h64 : N ≤ 64)
    {argv : List (List Char)} {c : BLine} (hcmd : argv.head? = some "-solvenc".toList) (hl : bparseCommandLine argv = .ok c)
    (hf : c.FILE = some (resultPath N name)) (hs : (c.cfg w).ScoreOK) (hrs : c.RESTARTS ≤ 0) (hlog : c.LOG = false)
    (hsz : 0 ≤ c.CLAUSE_SIZE) {t : Times} (ho : OneLine (resultPath N name) t) {fuel : Nat} {txt : List Char}
    (hr : bprogramText w fuel argv t = .ok (some txt)) :
    TellsColours (g name) n N txt ∧ (answerLine .SAT ∈ linesOf txt →
      (∀ v, 1 ≤ v → v ≤ n → ∃ d, Allowed txt v d) ∧
      ∀ col : Nat → Nat, (∀ v, 1 ≤ v → v ≤ n → Allowed txt v (col v)) → ColoursFile (g name) n N col) := by
  have hi := converted_input h h64 hcmd hl hf
  have ho' : ∀ x, c.FILE = some x → OneLine x t := fun x hx => by rw [hf] at hx; cases hx; exact ho
  obtain ⟨h1, h2⟩ := C103_bitvec_partial hi hs hrs hlog hsz ho' hr
  have key := tells_of h.sized h1
  refine ⟨⟨key.one, fun k => h.exists_right.1 (key.sat k), fun k k' => key.unsat k (h.exists_right.2 k')⟩, fun hans => ?_⟩
  obtain ⟨_, k2, _, k4⟩ := h2 hans
  rw [Puzzle.numVars] at k2 k4
  refine ⟨fun x hx1 hx2 => ?_, fun a ha => (h.right a).1 ((Puzzle.solves h.sized a).1 (k4 a ha))⟩
  obtain ⟨d, _, hd⟩ := k2 x hx1 hx2
  exact ⟨d, hd⟩

/-- **C111**, the bit-vector program with a clock that is never late. -/
theorem C111_bitvec_decides_partial {w : World S} (h : FromGraphs path names g d Ns w.files name n m N) (h64 : N ≤ 64)
    {argv : List (List Char)} {c : BLine} (hcmd : argv.head? = some "-solvenc".toList) (hl : bparseCommandLine argv = .ok c)
    (hf : c.FILE = some (resultPath N name)) (hs : (c.cfg w).ScoreOK) (hrs : c.RESTARTS ≤ 0) (hlog : c.LOG = false)
    (hsz : 0 ≤ c.CLAUSE_SIZE) (hclock : ∀ k, w.late c.TIME k = false) {t : Times} (ho : OneLine (resultPath N name) t) :
    ∃ txt f0, (∀ fuel, f0 ≤ fuel → bprogramText w fuel argv t = .ok (some txt)) ∧
      (answerLine .SAT ∈ linesOf txt ↔ ∃ col, ColoursFile (g name) n N col) ∧
      (answerLine .UNSAT ∈ linesOf txt ↔ ¬ ∃ col, ColoursFile (g name) n N col) := by
  have hi := converted_input h h64 hcmd hl hf
  have ho' : ∀ x, c.FILE = some x → OneLine x t := fun x hx => by rw [hf] at hx; cases hx; exact ho
  rw [← h.exists_right, ← Puzzle.satisfiable h.sized]
  refine C103_decides_partial hi hs hrs hlog hsz hclock (fun i j h1 _ h3 _ => ?_) ho'
  obtain ⟨l, k1, l', k2, k3⟩ := Puzzle.two h.sized (List.getElem_mem h1)
  exact absurd (h3 l k1 l' k2) k3

example : bparseCommandLine (argvOf ["-solvenc", "-file", "N3_DIMACS/a_N3.dimacs"]) =
      .ok { FILE := some (resultPath 3 "a.col".toList) } ∧
    (bprogramText exConverted 200 (argvOf ["-solvenc", "-file", "N3_DIMACS/a_N3.dimacs"]) exTimes).passes
      (fun o => match o with
      | some txt => decide (answerLine .SAT ∈ linesOf txt)
      | none => false) = true :=
  ⟨by decide +kernel, by decide +kernel⟩

end Mvl.BV

namespace Mvl.Orig

variable {path : List Char} {names : List (List Char)} {g : List Char → List CcgLine} {d : Disk} {Ns : List Nat}
  {name : List Char} {n m N : Nat}

theorem resultPath_die : resultPath N name ≠ "die".toList := by
  intro e
  have e' := congrArg List.head? e
  revert e'
  show some 'N' ≠ some 'd'
  decide

/-- **C111**, the original program, called with the number of vertices for `-var` and the number of edges times the number of
colours for `-clause`: exactly one line ends with an answer; SAT only if the graph can be coloured; UNSAT after no decision
only if it cannot.  (Missing: UNSAT after a decision, which can be wrong for files in general, see `C104_fails`.) -/
theorem C111_original_partial {w : OWorld} (h : FromGraphs path names g d Ns w.files name n m N) (mo : Mode) (os : List OOpt)
    (hos : ∀ o ∈ os, o.Ok) (hN : (os.filterMap OOpt.varOf).getLast? = some (n : Int))
    (hM : (os.filterMap OOpt.clauseOf).getLast? = some ((m * N : Nat) : Int))
    (hF : (os.filterMap OOpt.fileOf).getLast? = some (resultPath N name)) {t : Times} (ho : OneLine (resultPath N name) t)
    {fuel : Nat} {txt : List Char} (hr : oprogramText w fuel (mo.arg :: os.flatMap OOpt.args) t = .ok (some txt)) :
    (∃ a : Answer, ∀ a', Answers txt a' ↔ a' = a) ∧ (Answers txt .SAT → ∃ col, ColoursFile (g name) n N col) ∧
    (Answers txt .UNSAT → "Number of Decisions   : 0".toList ∈ linesOf txt → ¬ ∃ col, ColoursFile (g name) n N col) := by
  have k := (C104_original_partial w mo os hos hN hM hF resultPath_die h.describes h.headers h.file (Puzzle.wellFormed h.sized).1 ho hr).1
  have e := (Puzzle.satisfiable h.sized).trans h.exists_right
  exact ⟨k.one, fun ha => e.1 (k.sat ha).1, fun ha hd hx => k.unsat ha hd (e.2 hx)⟩

/-- The hypotheses are met by the triangle with three colours, and the text has SAT. -/
example : FromGraphs "g/".toList ["a.col".toList] (fun _ => exCcg) exDir [2, 3] exConverted.files "a.col".toList 3 3 3 ∧
    (oprogramText ⟨true, .null, fun _ _ => false, exConverted.files⟩ 100 (Mode.ch.arg ::
      [OOpt.var 3, .clause 9, .file (resultPath 3 "a.col".toList)].flatMap OOpt.args) exTimes).passes (fun o => match o with
      | some txt => decide ("N3_DIMACS/a_N3.dimacs \t0.0000\t0.0001\t 0.0001".toList ++ '\t' :: "SAT".toList ∈ linesOf txt)
      | none => false) = true :=
  ⟨exConverted_converted (.inr rfl), by decide +kernel⟩

/-- **C111**, the original program with other numbers: called with another number of vertices or of clauses (the number of
edges, for instance) it prints the message about them and no answer. -/
theorem C111_original_refused {w : OWorld} (h : FromGraphs path names g d Ns w.files name n m N) (mo : Mode) (os : List OOpt)
    (hos : ∀ o ∈ os, o.Ok) {n' m' : Nat} (hN : (os.filterMap OOpt.varOf).getLast? = some (n' : Int))
    (hM : (os.filterMap OOpt.clauseOf).getLast? = some (m' : Int))
    (hF : (os.filterMap OOpt.fileOf).getLast? = some (resultPath N name)) (hne : n' ≠ n ∨ m' ≠ m * N) (fuel : Nat)
    (t : Times) :
    ∃ txt, oprogramText w fuel (mo.arg :: os.flatMap OOpt.args) t = .ok (some txt) ∧
      Reports txt " Commandline arguments and file arguments do not match.".toList ∧
      "**** ERROR ****".toList ∈ linesOf txt ∧ ∀ a, ¬ Answers txt a := by
  have hp : FileLine.problem false n (m * N) ∈ colourLines N (g name) := by
    obtain ⟨pre, post, _, _, e⟩ := colourLines_split h.graph N
    rw [e]
    exact List.mem_append_left _ (List.mem_append_left _ (List.mem_append_right _ (.head _)))
  refine ((C104_messages w mo fuel os hos t).2 n' m' _ hN hM hF resultPath_die).2 (colourLines N (g name)) h.describes.ok
    h.describes.short (fun a b hab => ?_) ⟨n, m * N, hp, ?_⟩ h.file
  · cases (h.headers _ _ _ hab).1
  · rcases hne with k | k
    · exact .inl (Ne.symm k)
    · exact .inr (Ne.symm k)

/-- The triangle with three colours has nine clauses, not three. -/
example : (oprogramText ⟨true, .null, fun _ _ => false, exConverted.files⟩ 5
    (argvOf ["-solvech", "-var", "3", "-clause", "3", "-file", "N3_DIMACS/a_N3.dimacs"]) exTimes).passes (fun o => match o with
      | some txt => decide (" Commandline arguments and file arguments do not match.".toList ∈ linesOf txt)
      | none => false) = true := by
  decide +kernel

end Mvl.Orig
