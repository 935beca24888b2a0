import Verif.Props.Puzzles
import Verif.Props.OrigOutput

/-!
# Benchmark files and the original solver

C112: what the text printed by the original program for a pigeonhole, queens, amazons or colouring file says about the puzzle,
and two puzzles on which it goes wrong.
-/

namespace Mvl.Orig

/-- The number of clauses in the problem line of the file (the amazons file has no problem line). -/
def announced : Puzzle → Option Nat
  | .pigeons n => some ((n - 1) ^ 2 * n / 2)
  | .queens n => some ((queensRows n).length + (queensDiagonals n).length)
  | .amazons _ => none
  | .colouring G N => some (G.edgeNum * N)

/-- The numbers that the program has to be called with for the file of a puzzle; any for amazons. -/
def Asked (p : Puzzle) (N M : Nat) : Prop := ∀ m, announced p = some m → N = p.cells ∧ M = m

theorem asked_headers {p : Puzzle} {N M : Nat} (h : Asked p N M) : HeadersMatch N M p.file := by
  intro mv a b hl
  have key : ∀ m, announced p = some m → mv = false ∧ a = p.cells ∧ b = m → mv = false ∧ a = N ∧ b = M := by
    intro m hm ⟨h1, h2, h3⟩
    obtain ⟨k1, k2⟩ := h m hm
    exact ⟨h1, by rw [h2, k1], by rw [h3, k2]⟩
  cases p with
  | pigeons n =>
    refine key _ rfl ?_
    simp only [Puzzle.file, pigeonFile, List.mem_append, List.mem_cons, List.mem_map, List.mem_flatMap, List.not_mem_nil,
      or_false] at hl
    rcases hl with ((hl | hl) | ⟨_, _, hl⟩) | ⟨_, _, _, _, _, _, hl⟩
    · cases hl
    · cases hl; exact ⟨rfl, rfl, rfl⟩
    · cases hl
    · cases hl
  | queens n =>
    refine key _ rfl ?_
    simp only [Puzzle.file, queensFile, List.mem_append, List.mem_cons, List.mem_map, List.not_mem_nil, or_false] at hl
    rcases hl with (((⟨_, _, hl⟩ | hl) | hl) | hl) | hl
    · cases hl
    · obtain ⟨_, _, _, _, _, _, _, e⟩ := mem_queensRows.1 hl; cases e
    · cases hl
    · obtain ⟨_, _, _, _, _, _, _, _, _, _, e⟩ := mem_queensDiagonals.1 hl; cases e
    · cases hl; exact ⟨rfl, rfl, rfl⟩
  | amazons n =>
    exfalso
    simp only [Puzzle.file, amazonsFile, List.mem_append, List.mem_cons, List.mem_map, List.not_mem_nil, or_false,
      mem_amazonsColumns, mem_amazonsDiagonal, mem_amazonsKnight] at hl
    simp [neLine] at hl
  | colouring G N' =>
    refine key _ rfl ?_
    simp only [Puzzle.file, colouringFile, List.mem_append, List.mem_cons, List.mem_map, List.mem_flatMap] at hl
    rcases hl with (⟨_, _, hl⟩ | hl | ⟨_, _, hl⟩) | ⟨_, _, _, _, hl⟩
    · cases hl
    · cases hl; exact ⟨rfl, rfl, rfl⟩
    · cases hl
    · cases hl

/-- **C112**, for every puzzle, mode and list of options: exactly one line ends with an answer; SAT only if the puzzle has a
solution; UNSAT after no decision only if it has none.  (The full claim, that UNSAT is right, fails: see
`C112_queens_fails`.) -/
theorem C112_original_partial {p : Puzzle} (hp : p.Sized) {w : OWorld} (mo : Mode) (os : List OOpt) (hos : ∀ o ∈ os, o.Ok)
    {N M : Nat} {name : List Char} (ha : Asked p N M) (hN : (os.filterMap OOpt.varOf).getLast? = some (N : Int))
    (hM : (os.filterMap OOpt.clauseOf).getLast? = some (M : Int))
    (hF : (os.filterMap OOpt.fileOf).getLast? = some name) (hdie : name ≠ "die".toList)
    (hw : w.files name = some (fileText p.file)) {t : Times} (ho : OneLine name t) {fuel : Nat} {txt : List Char}
    (hr : oprogramText w fuel (mo.arg :: os.flatMap OOpt.args) t = .ok (some txt)) :
    (∃ a : Answer, ∀ a', Answers txt a' ↔ a' = a) ∧ (Answers txt .SAT → ∃ a, p.Right a) ∧
    (Answers txt .UNSAT → "Number of Decisions   : 0".toList ∈ linesOf txt → ¬ ∃ a, p.Right a) := by
  have k := (C104_original_partial w mo os hos hN hM hF hdie (p.describes hp) (asked_headers ha) hw (p.wellFormed hp).1 ho hr).1
  have e := Puzzle.satisfiable hp
  exact ⟨k.one, fun ha => e.1 (k.sat ha).1, fun ha hd hx => k.unsat ha hd (e.2 hx)⟩

/-- **C112**, the pigeons: the original program never prints SAT. -/
theorem C112_pigeons {n : Nat} (h1 : 3 ≤ n) (h2 : n ≤ 1000) {w : OWorld} (mo : Mode) (os : List OOpt)
    (hos : ∀ o ∈ os, o.Ok) {name : List Char} (hN : (os.filterMap OOpt.varOf).getLast? = some (n : Int))
    (hM : (os.filterMap OOpt.clauseOf).getLast? = some (((n - 1) ^ 2 * n / 2 : Nat) : Int))
    (hF : (os.filterMap OOpt.fileOf).getLast? = some name) (hdie : name ≠ "die".toList)
    (hw : w.files name = some (fileText (pigeonFile n))) {t : Times} (ho : OneLine name t) {fuel : Nat} {txt : List Char}
    (hr : oprogramText w fuel (mo.arg :: os.flatMap OOpt.args) t = .ok (some txt)) : ¬ Answers txt .SAT := by
  have hp : (Puzzle.pigeons n).Sized := ⟨h1, h2⟩
  intro ha
  have k := (C112_original_partial hp mo os hos (N := n) (M := (n - 1) ^ 2 * n / 2) (fun m hm => by cases hm; exact ⟨rfl, rfl⟩)
    hN hM hF hdie hw ho hr).2.1 ha
  exact C39_pigeon_unsat (by omega) ((Puzzle.satisfiable hp).2 k)

/-- **C112**, `-solvech` with a clock that is never late, where `delete` of a bad pointer goes unnoticed: from some number of
steps on the text is complete, and its answer is SAT or UNSAT. -/
theorem C112_answers {p : Puzzle} (hp : p.Sized) {w : OWorld} (hto : w.tolerant = true) (os : List OOpt)
    (hos : ∀ o ∈ os, o.Ok) {N M : Nat} {name : List Char} (ha : Asked p N M)
    (hN : (os.filterMap OOpt.varOf).getLast? = some (N : Int)) (hM : (os.filterMap OOpt.clauseOf).getLast? = some (M : Int))
    (hF : (os.filterMap OOpt.fileOf).getLast? = some name) (hdie : name ≠ "die".toList)
    (hw : w.files name = some (fileText p.file)) (hclock : ∀ l k, w.late l k = false) {t : Times} (ho : OneLine name t) :
    ∃ f0, ∀ fuel, f0 ≤ fuel → ∃ txt, oprogramText w fuel (Mode.ch.arg :: os.flatMap OOpt.args) t = .ok (some txt) ∧
      (Answers txt .SAT ∨ Answers txt .UNSAT) := by
  obtain ⟨f0, h0⟩ := C75_original_ends (w.at ((os.filterMap OOpt.timeOf).getLast?.getD 3600)) .ch (p.wellFormed hp).1
  refine ⟨f0, fun fuel hf => ?_⟩
  have h1 := h0 fuel hf
  have h2 := C76_original_ch_partial (cfg := w.at ((os.filterMap OOpt.timeOf).getLast?.getD 3600)) hto (p.wellFormed hp).1 fuel
  have h3 := C79_original_command_line w .ch fuel os hos hN hM hF hdie (p.describes hp) (asked_headers ha) hw
  cases hs : solve (w.at ((os.filterMap OOpt.timeOf).getLast?.getD 3600)) .ch fuel (fileProblem p.file) with
  | fuel => exact absurd hs h1
  | ub => exact absurd hs h2
  | ok rep =>
    rw [hs, Res.ok_bind] at h3
    have h4 : oprogramText w fuel (Mode.ch.arg :: os.flatMap OOpt.args) t = .ok (some (ooutcomeText name t (.report rep))) := by
      rw [otext_named w .ch fuel os hos hF, h3]; rfl
    obtain ⟨k1, k2⟩ := C104_original_partial w .ch os hos hN hM hF hdie (p.describes hp) (asked_headers ha) hw
      (p.wellFormed hp).1 ho h4
    refine ⟨_, h4, ?_⟩
    obtain ⟨a, hA⟩ := k1.one
    cases a with
    | SAT => exact .inl ((hA _).2 rfl)
    | UNSAT => exact .inr ((hA _).2 rfl)
    | TIMEOUT =>
      obtain ⟨k, hk⟩ := k2 ((hA _).2 rfl)
      rw [hclock] at hk; cases hk

/-- **C112**, the pigeons with `-solvech`: under the same conditions UNSAT is printed, and it is right, for every number of
pigeons. -/
theorem C112_pigeons_answers {n : Nat} (h1 : 3 ≤ n) (h2 : n ≤ 1000) {w : OWorld} (hto : w.tolerant = true) (os : List OOpt)
    (hos : ∀ o ∈ os, o.Ok) {name : List Char} (hN : (os.filterMap OOpt.varOf).getLast? = some (n : Int))
    (hM : (os.filterMap OOpt.clauseOf).getLast? = some (((n - 1) ^ 2 * n / 2 : Nat) : Int))
    (hF : (os.filterMap OOpt.fileOf).getLast? = some name) (hdie : name ≠ "die".toList)
    (hw : w.files name = some (fileText (pigeonFile n))) (hclock : ∀ l k, w.late l k = false) {t : Times}
    (ho : OneLine name t) :
    ∃ f0, ∀ fuel, f0 ≤ fuel → ∃ txt, oprogramText w fuel (Mode.ch.arg :: os.flatMap OOpt.args) t = .ok (some txt) ∧
      Answers txt .UNSAT := by
  obtain ⟨f0, h0⟩ := C112_answers (p := .pigeons n) ⟨h1, h2⟩ hto os hos (N := n) (M := (n - 1) ^ 2 * n / 2)
    (fun m hm => by cases hm; exact ⟨rfl, rfl⟩) hN hM hF hdie hw hclock ho
  refine ⟨f0, fun fuel hf => ?_⟩
  obtain ⟨txt, k1, k2⟩ := h0 fuel hf
  exact ⟨txt, k1, k2.resolve_left (C112_pigeons h1 h2 .ch os hos hN hM hF hdie hw ho k1)⟩

/-- A machine with the file of a puzzle, and a command line for it. -/
def puzzleOWorld (p : Puzzle) : OWorld :=
  ⟨true, .null, fun _ _ => false, fun f => if f = "a".toList then some (fileText p.file) else none⟩

def puzzleOpts (n m : Nat) : List OOpt := [.var n, .clause m, .file "a".toList]

/-- The hypotheses of C112 are met by four queens with `-solvenc`, for which the right SAT is printed. -/
example : (Puzzle.queens 4).Sized ∧ Asked (.queens 4) 4 52 ∧ (∀ o ∈ puzzleOpts 4 52, o.Ok) ∧
    (oprogramText (puzzleOWorld (.queens 4)) 300 (Mode.nc.arg :: (puzzleOpts 4 52).flatMap OOpt.args) exTimes).passes
      (fun o => match o with
      | some txt => decide ("a \t0.0000\t0.0001\t 0.0001".toList ++ '\t' :: "SAT".toList ∈ linesOf txt)
      | none => false) = true := by
  refine ⟨⟨by decide, by decide⟩, fun m hm => ?_, ?_, by decide +kernel⟩
  · have e : announced (.queens 4) = some 52 := by decide +kernel
    rw [e] at hm; cases hm; exact ⟨rfl, rfl⟩
  · intro o ho
    simp [puzzleOpts] at ho
    rcases ho with rfl | rfl | rfl <;> simp [OOpt.Ok, FileLine.Small]

/-- **C112 fails for UNSAT**: four queens can be placed, and the original program with `-solvech` prints UNSAT for them. -/
theorem C112_queens_fails : (Puzzle.queens 4).Sized ∧ Asked (.queens 4) 4 52 ∧ (∃ a, (Puzzle.queens 4).Right a) ∧
    ∃ txt, oprogramText (puzzleOWorld (.queens 4)) 300 (Mode.ch.arg :: (puzzleOpts 4 52).flatMap OOpt.args) exTimes =
        .ok (some txt) ∧ Answers txt .UNSAT := by
  have hs : (Puzzle.queens 4).Sized := ⟨by decide, by decide⟩
  refine ⟨hs, fun m hm => ?_, (Puzzle.satisfiable hs).1 ⟨fun v => [0, 1, 3, 0, 2].getD v 0, by decide +kernel⟩, ?_⟩
  · have e : announced (.queens 4) = some 52 := by decide +kernel
    rw [e] at hm; cases hm; exact ⟨rfl, rfl⟩
  · have h : (oprogramText (puzzleOWorld (.queens 4)) 300 (Mode.ch.arg :: (puzzleOpts 4 52).flatMap OOpt.args) exTimes).passes
        (fun o => match o with
        | some txt => decide ("a \t0.0000\t0.0001\t 0.0001".toList ++ '\t' :: "UNSAT".toList ∈ linesOf txt)
        | none => false) = true := by decide +kernel
    obtain ⟨o, h1, h2⟩ := Res.of_passes h
    match o, h2 with
    | some txt, h2 => exact ⟨txt, h1, _, of_decide_eq_true h2⟩

/-- The hypotheses are met by three pigeons. -/
example : (∀ o ∈ puzzleOpts 3 6, o.Ok) ∧
    (oprogramText (puzzleOWorld (.pigeons 3)) 300 (Mode.ch.arg :: (puzzleOpts 3 6).flatMap OOpt.args) exTimes).passes
      (fun o => match o with
      | some txt => decide ("a \t0.0000\t0.0001\t 0.0001".toList ++ '\t' :: "UNSAT".toList ∈ linesOf txt)
      | none => false) = true := by
  refine ⟨?_, by decide +kernel⟩
  intro o ho
  simp [puzzleOpts] at ho
  rcases ho with rfl | rfl | rfl <;> simp [OOpt.Ok, FileLine.Small]

/-- **C112**, three pigeons: with `-solvenc` the run of the original program comes to an undefined operation. -/
theorem C112_pigeons_fails : (Puzzle.pigeons 3).Sized ∧ Asked (.pigeons 3) 3 6 ∧
    oprogramText (puzzleOWorld (.pigeons 3)) 300 (Mode.nc.arg :: (puzzleOpts 3 6).flatMap OOpt.args) exTimes = .ub := by
  refine ⟨⟨by decide, by decide⟩, fun m hm => by cases hm; exact ⟨rfl, rfl⟩, ?_⟩
  have h : (match oprogramText (puzzleOWorld (.pigeons 3)) 300 (Mode.nc.arg :: (puzzleOpts 3 6).flatMap OOpt.args) exTimes with
    | .ub => true
    | _ => false) = true := by decide +kernel
  revert h
  cases oprogramText (puzzleOWorld (.pigeons 3)) 300 (Mode.nc.arg :: (puzzleOpts 3 6).flatMap OOpt.args) exTimes <;> simp

end Mvl.Orig
