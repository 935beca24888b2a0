import Verif.Model.Colouring
import Verif.Props.Benchmarks
import Verif.Props.Program
import Verif.Props.Output

/-!
# Graph files and what the colouring scripts make of them

C106.  `CcgLine` is the format of graph files (lines `c ...`, `p word n m`, `e s t`); it does not mention the script.
-/

namespace Mvl

variable {S : Type}

/-! ## Graph files -/

/-- The lines of a graph file. -/
inductive CcgLine where
  | comment (t : List Char)
  | problem (w : List Char) (n m : Nat)
  | edge (s t : Nat)
deriving DecidableEq, Repr

namespace CcgLine

def text : CcgLine → List Char
  | comment t => 'c' :: t
  | problem w n m => "p ".toList ++ w ++ [' '] ++ natText n ++ [' '] ++ natText m
  | edge s t => "e ".toList ++ natText s ++ [' '] ++ natText t

/-- Comments stay on one line and are not too long for the solver, the word of the problem line is a word. -/
def Ok : CcgLine → Prop
  | comment t => '\n' ∉ t ∧ t.length < 2999
  | problem w _ _ => w ≠ [] ∧ ∀ c ∈ w, pySpace c = false
  | edge _ _ => True

def isProblem : CcgLine → Bool
  | problem _ _ _ => true
  | _ => false

def edge? : CcgLine → Option (Nat × Nat)
  | edge s t => some (s, t)
  | _ => none

end CcgLine

def ccgText (ls : List CcgLine) : List Char := ls.flatMap fun l => l.text ++ ['\n']

def ccgEdges (ls : List CcgLine) : List (Nat × Nat) := ls.filterMap CcgLine.edge?

/-! ## Reading -/

theorem pyLines_line : ∀ {l acc r : List Char}, '\n' ∉ l →
    pyLines acc (l ++ '\n' :: r) = (acc.reverse ++ l ++ ['\n']) :: pyLines [] r
  | [], acc, r, _ => by simp [pyLines]
  | c :: l, acc, r, h => by
    have hc : c ≠ '\n' := by rintro rfl; exact h List.mem_cons_self
    rw [List.cons_append, pyLines, if_neg hc, pyLines_line (fun h' => h (List.mem_cons_of_mem _ h'))]
    simp

theorem pySplit_word : ∀ {w acc r : List Char} {c : Char}, (∀ x ∈ w, pySpace x = false) → pySpace c = true →
    acc.reverse ++ w ≠ [] → pySplit acc (w ++ c :: r) = (acc.reverse ++ w) :: pySplit [] r
  | [], acc, r, c, _, hc, hn => by
    rw [List.nil_append, pySplit, if_pos hc, if_neg (by intro e; subst e; exact hn rfl), List.append_nil]
  | x :: w, acc, r, c, h, hc, hn => by
    rw [List.cons_append, pySplit, if_neg (by rw [h x List.mem_cons_self]; decide),
      pySplit_word (fun y hy => h y (List.mem_cons_of_mem _ hy)) hc (by simp)]
    simp

theorem natText_space {n : Nat} : ∀ c ∈ natText n, pySpace c = false := by
  intro c hc
  have := natText_digit c hc
  simp only [Char.isDigit, Bool.and_eq_true, decide_eq_true_eq] at this
  have h1 : 48 ≤ c.toNat := this.1
  have h2 : c ≠ ' ' := by rintro rfl; revert h1; decide
  simp only [pySpace, Bool.or_eq_false_iff, Bool.and_eq_false_iff, decide_eq_false_iff_not]
  exact ⟨⟨h2, .inr (by omega)⟩, .inr (by omega)⟩

theorem pyInt_nat (n : Nat) : pyInt (natText n) = some (n : Int) := by
  have h : pyDigits (natText n) = some n := by
    unfold pyDigits
    rw [if_pos ⟨natText_ne_nil n, List.all_eq_true.2 natText_digit⟩, digitsVal_natText]
  have hne : ∀ c s, natText n = c :: s → c.isDigit = true := fun c s e => natText_digit c (by rw [e]; exact .head _)
  unfold pyInt
  split
  · rename_i s e; exact absurd (hne _ _ e) (by decide)
  · rename_i s e; exact absurd (hne _ _ e) (by decide)
  · rw [h]; rfl

theorem split_problem {w : List Char} (h : w ≠ [] ∧ ∀ c ∈ w, pySpace c = false) (n m : Nat) :
    pySplit [] ((CcgLine.problem w n m).text ++ ['\n']) = [['p'], w, natText n, natText m] := by
  have e : (CcgLine.problem w n m).text ++ ['\n'] =
      ['p'] ++ ' ' :: (w ++ ' ' :: (natText n ++ ' ' :: (natText m ++ '\n' :: []))) := by
    simp [CcgLine.text]
  rw [e, pySplit_word (by decide) (by decide) (by simp), pySplit_word h.2 (by decide) (by simpa using h.1),
    pySplit_word natText_space (by decide) (by simpa using natText_ne_nil n),
    pySplit_word natText_space (by decide) (by simpa using natText_ne_nil m)]
  rfl

theorem split_edge (s t : Nat) :
    pySplit [] ((CcgLine.edge s t).text ++ ['\n']) = [['e'], natText s, natText t] := by
  have e : (CcgLine.edge s t).text ++ ['\n'] = ['e'] ++ ' ' :: (natText s ++ ' ' :: (natText t ++ '\n' :: [])) := by
    simp [CcgLine.text]
  rw [e, pySplit_word (by decide) (by decide) (by simp),
    pySplit_word natText_space (by decide) (by simpa using natText_ne_nil s),
    pySplit_word natText_space (by decide) (by simpa using natText_ne_nil t)]
  rfl

theorem ccg_no {l : CcgLine} (h : l.Ok) : '\n' ∉ l.text := by
  cases l with
  | comment t => simp only [CcgLine.text, List.mem_cons, not_or]; exact ⟨by decide, h.1⟩
  | problem w n m =>
    have h1 : '\n' ∉ w := fun hw => by have := h.2 _ hw; revert this; decide
    have h2 := natText_no (n := n) (c := '\n') (by decide)
    have h3 := natText_no (n := m) (c := '\n') (by decide)
    simp [CcgLine.text, h1, h2, h3]
  | edge s t =>
    have h2 := natText_no (n := s) (c := '\n') (by decide)
    have h3 := natText_no (n := t) (c := '\n') (by decide)
    simp [CcgLine.text, h2, h3]

theorem pyLines_ccg : ∀ {ls : List CcgLine}, (∀ l ∈ ls, l.Ok) → pyLines [] (ccgText ls) = ls.map fun l => l.text ++ ['\n']
  | [], _ => rfl
  | l :: ls, h => by
    show pyLines [] (l.text ++ ['\n'] ++ ccgText ls) = _
    rw [List.append_assoc, List.singleton_append, pyLines_line (ccg_no (h l (.head _))),
      pyLines_ccg fun x hx => h x (.tail _ hx)]
    simp

/-! ## Writing -/

/-- The lines written for the problem line. -/
def headLines (N n m : Nat) : List FileLine := .problem false n (m * N) :: (forUp 1 (n + 1)).map fun v => .domain v N

/-- The lines written while the graph file is read. -/
def outLines (N : Nat) : Bool → List CcgLine → List FileLine
  | _, [] => []
  | q, .comment t :: ls => (if q then [] else [.comment t]) ++ outLines N q ls
  | q, .problem _ n m :: ls => headLines N n m ++ outLines N q ls
  | _, .edge _ _ :: ls => outLines N true ls

theorem pyRange_nat (a b : Nat) : pyRange a b = (forUp a b).map fun i : Nat => (i : Int) := by
  unfold pyRange forUp
  rw [List.range'_eq_map_range, List.map_map, show ((b : Int) - (a : Int)).toNat = b - a from by omega]
  exact List.map_congr_left fun i _ => by simp

theorem flatMap_map' {α β γ : Type} (l : List α) (f : α → β) (g : β → List γ) :
    (l.map f).flatMap g = l.flatMap fun x => g (f x) := List.flatMap_map ..

theorem problemText_eq {w : List Char} (h : w ≠ [] ∧ ∀ c ∈ w, pySpace c = false) (N n m : Nat) :
    problemText N ((CcgLine.problem w n m).text ++ ['\n']) = some (fileText (headLines N n m)) := by
  unfold problemText
  rw [split_problem h]
  simp only [List.getElem?_cons_succ, List.getElem?_cons_zero, pyInt_nat]
  refine congrArg some ?_
  have e : pyRange 1 ((n : Int) + 1) = (forUp 1 (n + 1)).map fun i : Nat => (i : Int) := pyRange_nat 1 (n + 1)
  rw [e, ← Int.natCast_mul, intText_nat, intText_nat, flatMap_map']
  unfold headLines fileText
  rw [List.flatMap_cons, flatMap_map']
  simp [FileLine.text, intText_nat]

theorem edgeOf_eq (s t : Nat) : edgeOf ((CcgLine.edge s t).text ++ ['\n']) = some ((s : Int), (t : Int)) := by
  unfold edgeOf
  rw [split_edge]
  simp only [List.getElem?_cons_succ, List.getElem?_cons_zero, pyInt_nat]

def natEdge (e : Nat × Nat) : Int × Int := ((e.1 : Int), (e.2 : Int))

theorem colLoop_ccg (N : Nat) : ∀ {ls : List CcgLine} {s : ColState}, (∀ l ∈ ls, l.Ok) →
    ls.countP CcgLine.isProblem + s.seen.toNat ≤ 1 →
    ∃ s', colLoop N s (ls.map fun l => l.text ++ ['\n']) = (s', none) ∧
      s'.out = s.out ++ fileText (outLines N s.quiet ls) ∧ s'.edges = s.edges ++ (ccgEdges ls).map natEdge
  | [], s, _, _ => ⟨s, rfl, by simp [outLines, fileText], by simp [ccgEdges]⟩
  | .comment t :: ls, s, h, hp => by
    have e : colLine N s ((CcgLine.comment t).text ++ ['\n']) =
        (if s.quiet then s else { s with out := s.out ++ ((CcgLine.comment t).text ++ ['\n']) }, none) := rfl
    obtain ⟨s', h1, h2, h3⟩ := colLoop_ccg N (ls := ls)
      (s := if s.quiet then s else { s with out := s.out ++ ((CcgLine.comment t).text ++ ['\n']) })
      (fun x hx => h x (.tail _ hx)) (by
        rw [List.countP_cons, if_neg (by simp [CcgLine.isProblem])] at hp
        split <;> exact hp)
    refine ⟨s', ?_, ?_, ?_⟩
    · rw [List.map_cons, colLoop, e]; exact h1
    · rw [h2, outLines]
      cases hq : s.quiet with
      | true => simp [hq]
      | false => simp [fileText, FileLine.text, CcgLine.text]
    · rw [h3]
      have : ccgEdges (.comment t :: ls) = ccgEdges ls := rfl
      rw [this]
      split <;> rfl
  | .problem w n m :: ls, s, h, hp => by
    rw [List.countP_cons, if_pos (by simp [CcgLine.isProblem])] at hp
    have hs : s.seen = false := by cases hs : s.seen with
      | false => rfl
      | true => rw [hs] at hp; simp at hp
    have e : colLine N s ((CcgLine.problem w n m).text ++ ['\n']) =
        ({ s with out := s.out ++ fileText (headLines N n m), seen := true }, none) := by
      show (if s.seen then _ else match problemText N ((CcgLine.problem w n m).text ++ ['\n']) with
        | some t => _ | none => _) = _
      rw [problemText_eq (h _ (.head _)), hs]
      rfl
    obtain ⟨s', h1, h2, h3⟩ := colLoop_ccg N (ls := ls)
      (s := { s with out := s.out ++ fileText (headLines N n m), seen := true })
      (fun x hx => h x (.tail _ hx)) (by simp only [Bool.toNat_true]; omega)
    refine ⟨s', ?_, ?_, h3⟩
    · rw [List.map_cons, colLoop, e]; exact h1
    · rw [h2, outLines, fileText_append, List.append_assoc]
  | .edge a b :: ls, s, h, hp => by
    have e : colLine N s ((CcgLine.edge a b).text ++ ['\n']) =
        ({ s with edges := s.edges ++ [((a : Int), (b : Int))], quiet := true }, none) := by
      show (match edgeOf ((CcgLine.edge a b).text ++ ['\n']) with | some e => _ | none => _) = _
      rw [edgeOf_eq]
    obtain ⟨s', h1, h2, h3⟩ := colLoop_ccg N (ls := ls)
      (s := { s with edges := s.edges ++ [((a : Int), (b : Int))], quiet := true })
      (fun x hx => h x (.tail _ hx)) (by
        rw [List.countP_cons, if_neg (by simp [CcgLine.isProblem])] at hp; exact hp)
    refine ⟨s', ?_, h2, ?_⟩
    · rw [List.map_cons, colLoop, e]; exact h1
    · rw [h3]
      have : ccgEdges (.edge a b :: ls) = (a, b) :: ccgEdges ls := rfl
      rw [this]
      simp [natEdge]

theorem colClauses_eq (N : Nat) (es : List (Nat × Nat)) : colClauses N (es.map natEdge) =
    fileText ((List.range N).flatMap fun d => es.map fun e => neLine e.1 d e.2 d) := by
  unfold colClauses fileText
  have e : pyRange 0 (N : Int) = (forUp 0 N).map fun i : Nat => (i : Int) := pyRange_nat 0 N
  rw [e, flatMap_map', List.flatMap_assoc, show forUp 0 N = List.range N from by
    unfold forUp; rw [List.range_eq_range']; rfl]
  refine congrArg (List.flatMap · _) (funext fun d => ?_)
  rw [flatMap_map', flatMap_map']
  refine congrArg (List.flatMap · _) (funext fun x => ?_)
  simp [natEdge, neLine, FileLine.text, clauseText, Lit.text, intText_nat]

/-- All lines of the result file. -/
def colourLines (N : Nat) (ls : List CcgLine) : List FileLine :=
  outLines N false ls ++ (List.range N).flatMap fun d => (ccgEdges ls).map fun e => neLine e.1 d e.2 d

theorem colourText_eq {ls : List CcgLine} (h : ∀ l ∈ ls, l.Ok) (hp : ls.countP CcgLine.isProblem ≤ 1) (N : Nat)
    (skip : Bool) : colourText N skip (ccgText ls) = ⟨fileText (colourLines N ls), none, false⟩ := by
  obtain ⟨s', h1, h2, h3⟩ := colLoop_ccg N (ls := ls) (s := {}) h (by simpa using hp)
  unfold colourText
  rw [pyLines_ccg h, h1]
  simp only
  rw [h2, h3]
  show (⟨[] ++ fileText (outLines N false ls) ++ colClauses N ([] ++ (ccgEdges ls).map natEdge), none, false⟩ : Converted) = _
  rw [List.nil_append, List.nil_append, colClauses_eq, ← fileText_append]
  rfl

/-! ## The problem in the result file -/

def hasEdge (ls : List CcgLine) : Bool := ls.any fun l => l.edge?.isSome

theorem outLines_append (N : Nat) : ∀ (a b : List CcgLine) (q : Bool),
    outLines N q (a ++ b) = outLines N q a ++ outLines N (q || hasEdge a) b
  | [], b, q => by simp [outLines, hasEdge]
  | .comment t :: a, b, q => by
    rw [List.cons_append, outLines, outLines, outLines_append N a b q, List.append_assoc]
    rfl
  | .problem w n m :: a, b, q => by
    rw [List.cons_append, outLines, outLines, outLines_append N a b q, List.append_assoc]
    rfl
  | .edge s t :: a, b, q => by
    rw [List.cons_append, outLines, outLines, outLines_append N a b true]
    simp [hasEdge, CcgLine.edge?]

theorem outLines_comments (N : Nat) : ∀ {ls : List CcgLine} {q : Bool}, (∀ l ∈ ls, l.isProblem = false) →
    ∀ l ∈ outLines N q ls, ∃ t, l = .comment t ∧ CcgLine.comment t ∈ ls
  | [], _, _, l, hl => by cases hl
  | .comment t :: ls, q, h, l, hl => by
    rw [outLines, List.mem_append] at hl
    rcases hl with hl | hl
    · split at hl
      · cases hl
      · rw [List.mem_singleton] at hl; exact ⟨t, hl, .head _⟩
    · obtain ⟨t', h1, h2⟩ := outLines_comments N (fun x hx => h x (.tail _ hx)) l hl
      exact ⟨t', h1, .tail _ h2⟩
  | .problem w n m :: ls, q, h, l, hl => by have := h _ (.head _); cases this
  | .edge s t :: ls, q, h, l, hl => by
    rw [outLines] at hl
    obtain ⟨t', h1, h2⟩ := outLines_comments N (fun x hx => h x (.tail _ hx)) l hl
    exact ⟨t', h1, .tail _ h2⟩

/-- A graph file: lines as in the format, exactly one problem line `p w n m`, edges between the vertices `1..n`. -/
structure GraphFile (ls : List CcgLine) (n m : Nat) : Prop where
  ok      : ∀ l ∈ ls, l.Ok
  problem : ∃ w pre post, ls = pre ++ CcgLine.problem w n m :: post ∧ (∀ l ∈ pre, l.isProblem = false) ∧
    ∀ l ∈ post, l.isProblem = false
  edges   : ∀ s t, CcgLine.edge s t ∈ ls → 1 ≤ s ∧ s ≤ n ∧ 1 ≤ t ∧ t ≤ n

theorem mem_ccgEdges {ls : List CcgLine} {s t : Nat} : (s, t) ∈ ccgEdges ls ↔ CcgLine.edge s t ∈ ls := by
  unfold ccgEdges
  rw [List.mem_filterMap]
  constructor
  · rintro ⟨l, h1, h2⟩
    cases l with
    | edge a b => cases h2; exact h1
    | comment _ => cases h2
    | problem _ _ _ => cases h2
  · exact fun h => ⟨_, h, rfl⟩

theorem GraphFile.count {ls : List CcgLine} {n m : Nat} (h : GraphFile ls n m) : ls.countP CcgLine.isProblem ≤ 1 := by
  obtain ⟨w, pre, post, rfl, h1, h2⟩ := h.problem
  rw [List.countP_append, List.countP_cons, List.countP_eq_zero.2 fun l hl => by rw [h1 l hl]; decide,
    List.countP_eq_zero.2 fun l hl => by rw [h2 l hl]; decide]
  split <;> omega

theorem colourLines_split {ls : List CcgLine} {n m : Nat} (h : GraphFile ls n m) (N : Nat) :
    ∃ pre post : List FileLine, (∀ l ∈ pre, ∃ t, l = .comment t ∧ CcgLine.comment t ∈ ls) ∧
      (∀ l ∈ post, ∃ t, l = .comment t ∧ CcgLine.comment t ∈ ls) ∧
      colourLines N ls = pre ++ headLines N n m ++ post ++
        (List.range N).flatMap fun d => (ccgEdges ls).map fun e => neLine e.1 d e.2 d := by
  obtain ⟨w, pre, post, rfl, h1, h2⟩ := h.problem
  refine ⟨outLines N false pre, outLines N (false || hasEdge pre) post, ?_, ?_, ?_⟩
  · intro l hl
    obtain ⟨t, e, ht⟩ := outLines_comments N h1 l hl
    exact ⟨t, e, List.mem_append_left _ ht⟩
  · intro l hl
    obtain ⟨t, e, ht⟩ := outLines_comments N h2 l hl
    exact ⟨t, e, List.mem_append_right _ (.tail _ ht)⟩
  · unfold colourLines
    rw [outLines_append, outLines, List.append_assoc, List.append_assoc, List.append_assoc, List.append_assoc]

theorem colourLines_problem {ls : List CcgLine} {n m : Nat} (h : GraphFile ls n m) (N : Nat) :
    fileProblem (colourLines N ls) = fileProblem (colouringFile ⟨[], n, m, ccgEdges ls⟩ N) := by
  obtain ⟨pre, post, h1, h2, e⟩ := colourLines_split h N
  have p1 : fileDoms pre = [] := fileDoms_clauses fun l hl => by obtain ⟨t, rfl, _⟩ := h1 l hl; exact .inl trivial
  have p2 : fileDoms post = [] := fileDoms_clauses fun l hl => by obtain ⟨t, rfl, _⟩ := h2 l hl; exact .inl trivial
  have c1 : fileClauses pre = [] := fileClauses_none fun l hl => by obtain ⟨t, rfl, _⟩ := h1 l hl; exact .inl trivial
  have c2 : fileClauses post = [] := fileClauses_none fun l hl => by obtain ⟨t, rfl, _⟩ := h2 l hl; exact .inl trivial
  have e' : colouringFile ⟨[], n, m, ccgEdges ls⟩ N = headLines N n m ++
      (List.range N).flatMap fun d => (ccgEdges ls).map fun e => neLine e.1 d e.2 d := rfl
  unfold fileProblem
  rw [e, e', fileDoms_append, fileDoms_append, fileDoms_append, fileDoms_append, p1, p2, fileClauses_append,
    fileClauses_append, fileClauses_append, fileClauses_append, c1, c2]
  simp

theorem colourLines_describes {ls : List CcgLine} {n m N : Nat} (h : GraphFile ls n m) (h1 : FileLine.Small n)
    (h2 : FileLine.Small N) (h3 : FileLine.Small (m * N)) :
    Describes (colourLines N ls) (fileProblem (colourLines N ls)) := by
  obtain ⟨pre, post, k1, k2, e⟩ := colourLines_split h N
  have hcom : ∀ t, CcgLine.comment t ∈ ls → (FileLine.comment t).Fine := by
    intro t ht
    obtain ⟨a, b⟩ := h.ok _ ht
    refine ⟨a, ?_⟩
    simp only [FileLine.text, List.length_cons]
    omega
  refine describes_of (n := n) (f := fun _ => N) (pre := pre ++ [.problem false n (m * N)])
    (post := post ++ (List.range N).flatMap fun d => (ccgEdges ls).map fun e => neLine e.1 d e.2 d) ?_ ?_ ?_ ?_
  · rw [e]; unfold headLines; simp
  · intro l hl
    simp only [List.mem_append, List.mem_singleton] at hl
    rcases hl with hl | rfl
    · obtain ⟨t, rfl, _⟩ := k1 l hl; trivial
    · trivial
  · apply fileDoms_clauses
    intro l hl
    simp only [List.mem_append, List.mem_flatMap, List.mem_map] at hl
    rcases hl with hl | ⟨i, _, e, _, rfl⟩
    · obtain ⟨t, rfl, _⟩ := k2 l hl; exact .inl trivial
    · exact .inr ⟨_, rfl⟩
  · intro l hl
    rw [e] at hl
    simp only [List.mem_append, headLines, List.mem_cons, List.mem_map, List.mem_flatMap, List.mem_range] at hl
    rcases hl with ((hl | rfl | ⟨i, hi, rfl⟩) | hl) | ⟨d, hd, x, hx, rfl⟩
    · obtain ⟨t, rfl, ht⟩ := k1 l hl; exact hcom t ht
    · exact problem_fine h1 h3
    · rw [mem_forUp] at hi
      exact domain_fine (Small.le h1 (by omega)) h2
    · obtain ⟨t, rfl, ht⟩ := k2 l hl; exact hcom t ht
    · obtain ⟨a1, a2, a3, a4⟩ := h.edges x.1 x.2 (mem_ccgEdges.1 hx)
      exact neLine_fine a1 a3 (Small.le h1 a2) (Small.le h2 (by omega)) (Small.le h1 a4) (Small.le h2 (by omega))

/-- **C106.** For every graph file, wherever its problem line stands, the script reports nothing and writes a file in the
documented format whose solutions are the colourings of the graph with `N` colours; its problem line has the right numbers
if that of the graph file has. -/
theorem C106_colouring {ls : List CcgLine} {n m N : Nat} (h : GraphFile ls n m) (h1 : FileLine.Small n)
    (h2 : FileLine.Small N) (h3 : FileLine.Small (m * N)) (skip : Bool) :
    ∃ (fl : List FileLine) (P : Problem), colourText N skip (ccgText ls) = ⟨fileText fl, none, false⟩ ∧ Describes fl P ∧
      (∀ a : Assignment, P.Solves a ↔ (∀ v, 1 ≤ v → v ≤ n → a v < N) ∧ ∀ s t, CcgLine.edge s t ∈ ls → a s ≠ a t) ∧
      (2 ≤ N → (∀ s t, CcgLine.edge s t ∈ ls → s ≠ t) → P.WellFormed ∧ P.NoDupLits) ∧
      (m = (ls.filterMap CcgLine.edge?).length → HeaderRight fl) := by
  refine ⟨colourLines N ls, _, colourText_eq h.ok h.count N skip, colourLines_describes h h1 h2 h3, ?_, ?_, ?_⟩
  · intro a
    rw [colourLines_problem h, C41_colouring (fun e he => h.edges e.1 e.2 (mem_ccgEdges.1 he))]
    simp only [mem_ccgEdges]
  · intro hN hl
    rw [colourLines_problem h]
    exact colouring_wellFormed (fun e he => h.edges e.1 e.2 (mem_ccgEdges.1 he))
      (fun e he => hl e.1 e.2 (mem_ccgEdges.1 he)) hN
  · intro hm
    obtain ⟨mv, hh⟩ := C46_colouring (G := ⟨[], n, m, ccgEdges ls⟩) hm N
    have e := colourLines_problem h N
    have e1 : fileDoms (colourLines N ls) = fileDoms (colouringFile ⟨[], n, m, ccgEdges ls⟩ N) := congrArg Problem.doms e
    have e2 : fileClauses (colourLines N ls) = fileClauses (colouringFile ⟨[], n, m, ccgEdges ls⟩ N) :=
      congrArg Problem.clauses e
    refine ⟨mv, ?_⟩
    rw [e1, e2]
    obtain ⟨pre, post, _, _, e3⟩ := colourLines_split h N
    rw [e3]
    have e' : colouringFile ⟨[], n, m, ccgEdges ls⟩ N = headLines N n m ++
        (List.range N).flatMap fun d => (ccgEdges ls).map fun e => neLine e.1 d e.2 d := rfl
    rw [e'] at hh ⊢
    rcases List.mem_append.1 hh with hh | hh
    · exact List.mem_append_left _ (List.mem_append_left _ (List.mem_append_right _ hh))
    · exact List.mem_append_right _ hh

/-- A triangle with comments; the problem line comes after the first edge, the last comment is left out. -/
def exCcg : List CcgLine := [.comment " tri".toList, .edge 1 2, .problem "edge".toList 3 3, .comment " x".toList, .edge 2 3, .edge 3 1]

theorem exCcg_graph : GraphFile exCcg 3 3 := by
  refine ⟨?_, ⟨"edge".toList, [.comment " tri".toList, .edge 1 2], [.comment " x".toList, .edge 2 3, .edge 3 1], rfl,
    by decide, by decide⟩, ?_⟩
  · intro l hl
    simp only [exCcg, List.mem_cons, List.not_mem_nil, or_false] at hl
    rcases hl with rfl | rfl | rfl | rfl | rfl | rfl <;> simp only [CcgLine.Ok] <;> decide
  · intro s t hl
    simp only [exCcg, List.mem_cons, List.not_mem_nil, or_false, CcgLine.edge.injEq, reduceCtorEq, false_or] at hl
    omega

example : colourText 2 false (ccgText exCcg) = ⟨("c tri\np cnf 3 6\nd 1 2\nd 2 2\nd 3 2\n" ++
    "1!=0 2!=0 0\n2!=0 3!=0 0\n3!=0 1!=0 0\n1!=1 2!=1 0\n2!=1 3!=1 0\n3!=1 1!=1 0\n").toList, none, false⟩ := by
  decide +kernel

/-- Spaces, tabs and a missing line end do not matter. -/
example : (colourText 2 false "p\tedge   2 1 \n e".toList).report = some "Unknown line type".toList ∧
    colourText 1 false "p\tcol   2 1 \ne  1\t2".toList = ⟨"p cnf 2 1\nd 1 1\nd 2 1\n1!=0 2!=0 0\n".toList, none, false⟩ := by
  decide +kernel

/-- **C106**, with the solvers: on the file written for a graph without loops and `N ≥ 2` colours, `-solvech` and `-solvenc`
print SAT only if the graph has a colouring with `N` colours, UNSAT only if it has none. -/
theorem C106_solved {ls : List CcgLine} {n m N : Nat} (h : GraphFile ls n m) (h1 : FileLine.Small n)
    (h2 : FileLine.Small N) (h3 : FileLine.Small (m * N)) (hN : 2 ≤ N) (hl : ∀ s t, CcgLine.edge s t ∈ ls → s ≠ t)
    {skip : Bool} {w : World S} {argv : List (List Char)} {c : CommandLine} {name : List Char}
    (hline : parseCommandLine argv = .ok c) (hf : c.FILE = some name)
    (hfile : w.files name = some (colourText N skip (ccgText ls)).file)
    (hc : command argv = .solvech ∨ (command argv = .solvenc ∧ (c.cfg w).ScoreOK)) {fuel : Nat} {rep : Report}
    (hr : runSolver w fuel argv = .ok (some (.report rep))) :
    (rep.answer = .SAT → ∃ col : Nat → Nat, (∀ v, 1 ≤ v → v ≤ n → col v < N) ∧
      ∀ s t, CcgLine.edge s t ∈ ls → col s ≠ col t) ∧
    (rep.answer = .UNSAT → ¬ ∃ col : Nat → Nat, (∀ v, 1 ≤ v → v ≤ n → col v < N) ∧
      ∀ s t, CcgLine.edge s t ∈ ls → col s ≠ col t) := by
  obtain ⟨fl, P, k1, k2, k3, k4⟩ := C106_colouring h h1 h2 h3 skip
  obtain ⟨k5, k6⟩ := k4.1 hN hl
  have hin : Input w argv c P := ⟨hline, ⟨name, fl, hf, by rw [hfile, k1], k2⟩, k5⟩
  have e : P.Satisfiable ↔ ∃ col : Nat → Nat, (∀ v, 1 ≤ v → v ≤ n → col v < N) ∧
      ∀ s t, CcgLine.edge s t ∈ ls → col s ≠ col t := exists_congr k3
  rw [← e]
  rcases hc with hc | ⟨hc, hs⟩
  · exact C44_solvech hin hc hr
  · exact C44_solvenc_partial hin hc hs (fun _ => k6) hr

/-! ## Directories -/

theorem stem_col (s : List Char) : stem (s ++ ".col".toList) = s := by
  unfold stem
  rw [if_pos (by simp)]
  have e : (s ++ ".col".toList).reverse = 'l' :: 'o' :: 'c' :: '.' :: s.reverse := by simp
  rw [e]
  simp

/-- Where the result for a graph file and a number of colours is found. -/
def resultPath (N : Nat) (name : List Char) : List Char := folderOf N ++ resultName N name

theorem resultPath_ne {N : Nat} {path s name : List Char} : path ++ (s ++ ".col".toList) ≠ resultPath N name := by
  intro h
  have e1 : (path ++ (s ++ ".col".toList)).getLast? = some 'l' := by
    rw [← List.append_assoc, List.getLast?_append]; rfl
  have e2 : (resultPath N name).getLast? = some 's' := by
    unfold resultPath resultName
    rw [← List.append_assoc, List.getLast?_append]; rfl
  rw [h, e2] at e1
  revert e1
  decide

theorem resultPath_inj {N N' : Nat} {s s' : List Char}
    (h : resultPath N (s ++ ".col".toList) = resultPath N' (s' ++ ".col".toList)) : N = N' ∧ s = s' := by
  have e : ∀ (N : Nat) (s : List Char), resultPath N (s ++ ".col".toList) =
      'N' :: (natText N ++ ("_DIMACS/".toList ++ (s ++ "_N".toList ++ natText N ++ ".dimacs".toList))) := by
    intro N s
    unfold resultPath folderOf resultName
    rw [stem_col, intText_nat, List.cons_append, List.cons_append, List.append_assoc]
  rw [e, e] at h
  have h1 := (List.cons.inj h).2
  have hd : ∀ (r : List Char), NoDigit ("_DIMACS/".toList ++ r) := by
    intro r c hc
    cases hc; decide
  obtain ⟨a1, a2⟩ := takeWhile_digits (ds := natText N) (fun c hc => natText_digit c hc)
    (hd (s ++ "_N".toList ++ natText N ++ ".dimacs".toList))
  obtain ⟨b1, b2⟩ := takeWhile_digits (ds := natText N') (fun c hc => natText_digit c hc)
    (hd (s' ++ "_N".toList ++ natText N' ++ ".dimacs".toList))
  rw [h1] at a1 a2
  have e := natText_inj (b1.symm.trans a1)
  subst e
  refine ⟨rfl, ?_⟩
  have h2 := List.append_cancel_left (a2.symm.trans b2)
  exact (List.append_cancel_right (List.append_cancel_right (List.append_cancel_right h2)))

/-- The names are those of graph files, which can be read. -/
def Graphs (path : List Char) (names : List (List Char)) (g : List Char → List CcgLine) (d : Disk) : Prop :=
  ∀ name ∈ names, (∃ s, name = s ++ ".col".toList) ∧ d.files (path ++ name) = some (ccgText (g name)) ∧
    ∃ n m, GraphFile (g name) n m

theorem Graphs.write {path : List Char} {names : List (List Char)} {g : List Char → List CcgLine} {d : Disk}
    (h : Graphs path names g d) {N : Nat} {name t : List Char} : Graphs path names g (d.write (resultPath N name) t) := by
  intro x hx
  obtain ⟨⟨s, rfl⟩, h2, h3⟩ := h x hx
  exact ⟨⟨s, rfl⟩, by rw [write_other resultPath_ne]; exact h2, h3⟩

/-- The right result of a graph file is in its place. -/
def Done (g : List Char → List CcgLine) (d : Disk) (N : Nat) (name : List Char) : Prop :=
  d.files (resultPath N name) = some (fileText (colourLines N (g name)))

theorem colourFiles_done {path : List Char} {g : List Char → List CcgLine} {N : Nat} {skip : Bool} :
    ∀ {names : List (List Char)} {d : Disk}, Graphs path names g d →
    ∃ d', colourFiles N skip path (folderOf N) names d = (d', true) ∧
      (∀ names', Graphs path names' g d → Graphs path names' g d') ∧ (∀ name ∈ names, Done g d' N name) ∧
      ∀ N' s, Done g d N' (s ++ ".col".toList) → Done g d' N' (s ++ ".col".toList)
  | [], d, _ => ⟨d, rfl, fun _ h => h, fun _ h => (List.not_mem_nil h).elim, fun _ _ h => h⟩
  | name :: names, d, h => by
    obtain ⟨⟨s, rfl⟩, h2, n, m, h3⟩ := h _ (.head _)
    have e : colourText N skip ((d.files (path ++ (s ++ ".col".toList))).getD []) =
        ⟨fileText (colourLines N (g (s ++ ".col".toList))), none, false⟩ := by
      rw [h2]; exact colourText_eq h3.ok h3.count N skip
    obtain ⟨d', k1, k2, k3, k4⟩ := colourFiles_done (path := path) (g := g) (N := N) (skip := skip) (names := names)
      (d := d.write (resultPath N (s ++ ".col".toList)) (fileText (colourLines N (g (s ++ ".col".toList)))))
      (Graphs.write fun x hx => h x (.tail _ hx))
    refine ⟨d', ?_, fun names' hn => k2 names' hn.write, ?_, ?_⟩
    · rw [colourFiles, e]
      exact k1
    · intro x hx
      rw [List.mem_cons] at hx
      rcases hx with rfl | hx
      · exact k4 N s write_same
      · exact k3 x hx
    · intro N' s' hd
      refine k4 N' s' ?_
      unfold Done
      by_cases he : resultPath N' (s' ++ ".col".toList) = resultPath N (s ++ ".col".toList)
      · obtain ⟨rfl, rfl⟩ := resultPath_inj he
        exact write_same
      · rw [write_other he]; exact hd

/-- **C106**, directories: `convert_folders` leaves, for every graph file of the directory and every number of colours, a
result file with the text that C106 is about; all of them are there at the end. -/
theorem C106_folders {path : List Char} {names : List (List Char)} {g : List Char → List CcgLine} :
    ∀ {Ns : List Nat} {d : Disk}, Graphs path names g d →
    (∀ name ∈ names, ∀ N ∈ Ns, (convertFolders path names (Ns.map fun N : Nat => (N : Int)) d).files (resultPath N name) =
      some (colourText N false (ccgText (g name))).file) ∧
    ∀ name ∈ names, (convertFolders path names (Ns.map fun N : Nat => (N : Int)) d).files (path ++ name) =
      d.files (path ++ name) := by
  have key : ∀ {Ns : List Nat} {d : Disk}, Graphs path names g d →
      Graphs path names g (convertFolders path names (Ns.map fun N : Nat => (N : Int)) d) ∧
      (∀ N s, Done g d N (s ++ ".col".toList) →
        Done g (convertFolders path names (Ns.map fun N : Nat => (N : Int)) d) N (s ++ ".col".toList)) ∧
      ∀ name ∈ names, ∀ N ∈ Ns, Done g (convertFolders path names (Ns.map fun N : Nat => (N : Int)) d) N name := by
    intro Ns
    induction Ns with
    | nil => exact fun h => ⟨h, fun _ _ h => h, fun _ _ _ h => by cases h⟩
    | cons N Ns ih =>
      intro d h
      obtain ⟨d', k1, k2, k3, k4⟩ := colourFiles_done (N := N) (skip := false) h
      obtain ⟨i1, i2, i3⟩ := ih (k2 _ h)
      rw [List.map_cons, convertFolders, k1]
      refine ⟨i1, fun N' s hd => i2 N' s (k4 N' s hd), fun name hn N' hN => ?_⟩
      rw [List.mem_cons] at hN
      rcases hN with rfl | hN
      · obtain ⟨⟨s, rfl⟩, _, _⟩ := h name hn
        exact i2 N' s (k3 _ hn)
      · exact i3 name hn N' hN
  intro Ns d h
  obtain ⟨k1, _, k3⟩ := key (Ns := Ns) h
  refine ⟨fun name hn N hN => ?_, fun name hn => ?_⟩
  · obtain ⟨_, _, n, m, h3⟩ := h name hn
    rw [colourText_eq h3.ok h3.count N false]
    exact k3 name hn N hN
  · rw [(k1 name hn).2.1, (h name hn).2.1]

example : Graphs "g/".toList ["a.col".toList, "b.col".toList] (fun _ => exCcg)
    ⟨fun f => if f = "g/a.col".toList ∨ f = "g/b.col".toList then some (ccgText exCcg) else none, fun _ => true⟩ ∧
    (convertFolders "g/".toList ["a.col".toList, "b.col".toList] [3, 4]
      ⟨fun f => if f = "g/a.col".toList ∨ f = "g/b.col".toList then some (ccgText exCcg) else none, fun _ => true⟩).files
      "N4_DIMACS/b_N4.dimacs".toList = some (colourText 4 false (ccgText exCcg)).file := by
  refine ⟨?_, by decide +kernel⟩
  intro name hn
  simp only [List.mem_cons, List.not_mem_nil, or_false] at hn
  rcases hn with rfl | rfl
  · exact ⟨⟨"a".toList, by decide⟩, by decide, 3, 3, exCcg_graph⟩
  · exact ⟨⟨"b".toList, by decide⟩, by decide, 3, 3, exCcg_graph⟩

/-! ## `-s` -/

/-- **C106, files with a report and `-s`**: the script does not end, but a result file is left nevertheless; it holds the
clauses of the edges read before the report and no other line. -/
theorem C106_skip_fails {N : Int} {cs r : List Char} (h : (colourText N true cs).report = some r) :
    (colourText N true cs).exited = false ∧ ∃ es, (colourText N true cs).file = colClauses N es := by
  unfold colourText at h ⊢
  split
  · rename_i s e
    rw [e] at h; cases h
  · exact ⟨rfl, _, rfl⟩

/-- A graph file with a misspelt last line; its result file has no domain lines, and reading it is undefined in every mode of
the solver. -/
theorem C106_skip_witness : (colourText 2 true "p edge 2 1\ne 1 2\ne 1 b\n".toList).report = some "Incorrect edge line".toList ∧
    (colourFiles 2 true "g/".toList "r/".toList ["a.col".toList]
      ⟨fun f => if f = "g/a.col".toList then some "p edge 2 1\ne 1 2\ne 1 b\n".toList else none, fun _ => true⟩).1.files
      "r/a_N2.dimacs".toList = some "1!=0 2!=0 0\n1!=1 2!=1 0\n".toList ∧
    ∀ m ∈ allModes, solveFile (exCfg m.2.1 m.2.2) m.1 30 "1!=0 2!=0 0\n1!=1 2!=1 0\n".toList = .ub := by
  decide +kernel

/-- **C106, files with a report and no `-s`**: the graph files after it are not converted, and the result file is left without
clauses. -/
theorem C106_exit {N : Int} {path folder name : List Char} {names : List (List Char)} {d : Disk} {r : List Char}
    (h : (colourText N false ((d.files (path ++ name)).getD [])).report = some r) :
    colourFiles N false path folder (name :: names) d =
      (d.write (folder ++ resultName N name) (colLoop N {} (pyLines [] ((d.files (path ++ name)).getD []))).1.out, false) := by
  rw [colourFiles]
  unfold colourText at h ⊢
  split at h
  · cases h
  · rename_i s r e
    simp [e]

end Mvl
