import Verif.Model.Output
import Verif.Model.Program
import Verif.Model.Benchmarks

/-!
# The programs that write benchmark files and run the solver on them

/repo/benchmarks/Pigeonhole/Test.cc and /repo/benchmarks/Nqueens/Test.cc: for each size a file is written, the solver is
started on it with `popen`, and what it prints is added to a file of results.

Simplifications: the programs are run in their own directory, whose path (`~/netshare/mvl-solver/benchmarks/...`, as the
shell expands it) is the parameter `dir`; it holds no character special to the shell.  All files can be written.  The files
are those of the generators of the same directory, the loops being the same text.  The message `Done!` and the exit codes are
left out.
-/

namespace Mvl

variable {S : Type}

/-- `fgets(buffer, n + 1, test)`: at most `n` characters, up to and with the next newline; what was read and what is left. -/
def fgets : Nat → List Char → List Char × List Char
  | 0, cs => ([], cs)
  | _ + 1, [] => ([], [])
  | n + 1, c :: cs => if c = '\n' then ([c], cs) else (c :: (fgets n cs).1, (fgets n cs).2)

theorem fgets_rest (n : Nat) : ∀ cs, (fgets n cs).2.length ≤ cs.length := by
  induction n with
  | zero => intro cs; exact Nat.le_refl _
  | succ n ih =>
    intro cs
    cases cs with
    | nil => exact Nat.le_refl _
    | cons c cs =>
      rw [fgets]
      split
      · simp
      · have := ih cs
        simp only [List.length_cons]
        omega

/-- The loop of `run_solver`, /repo/benchmarks/Pigeonhole/Test.cc:18-23 and /repo/benchmarks/Nqueens/Test.cc:17-22: what is
written to the file of results when the solver prints `cs`.  `fputs` stops at a zero byte.  (The loop ends when `feof` is
set, which is after the last characters were read and written.) -/
def copyOut (cs : List Char) : List Char :=
  match cs with
  | [] => []
  | c :: cs =>
    cString (fgets 99 (c :: cs)).1 ++ copyOut (fgets 99 (c :: cs)).2
  termination_by cs.length
  decreasing_by
    rw [fgets]
    split
    · simp
    · have := fgets_rest 98 cs
      simp only [List.length_cons]
      omega

/-- What the programs do not decide: the directory, the score arithmetic, and for the run on each size the clock and the
texts of the times. -/
structure Bench (S : Type) where
  dir   : List Char
  arith : ScoreArith S
  late  : Nat → Int → Nat → Bool
  times : Nat → Times

/-- One round of the loop: write the file, run the solver, add what it prints to the file of results. -/
def batchStep (m : Bench S) (fuel : Nat) (name : Nat → List Char) (file : Nat → List FileLine) (opts : List (List Char))
    (log : List Char) (n : Nat) (d : Disk) : Res Disk := do
  let d1 := d.write (m.dir ++ name n) (fileText (file n))
  let txt ← programText ⟨m.arith, m.late n, d1.files⟩ fuel (opts ++ ["-file".toList, m.dir ++ name n]) (m.times n)
  match txt with
  | some txt => .ok (d1.write (m.dir ++ log) ((d1.files (m.dir ++ log)).getD [] ++ copyOut txt))
  | none => .ub

def batch (m : Bench S) (fuel : Nat) (name : Nat → List Char) (file : Nat → List FileLine) (opts : List (List Char))
    (log : List Char) : List Nat → Disk → Res Disk
  | [], d => .ok d
  | n :: ns, d => (batchStep m fuel name file opts log n d).bind (batch m fuel name file opts log ns)

/-- `name`, /repo/benchmarks/Pigeonhole/Test.cc:42. -/
def pigeonName (n : Nat) : List Char := "pgn".toList ++ natText n

/-- `name`, /repo/benchmarks/Nqueens/Test.cc:34. -/
def queensName (n : Nat) : List Char := natText n ++ "queens".toList

/-- /repo/benchmarks/Pigeonhole/Test.cc:11-82. -/
def pigeonBatch (m : Bench S) (fuel : Nat) (d : Disk) : Res Disk :=
  batch m fuel pigeonName pigeonFile ["-solvenc".toList, "-vsids".toList] "pgn4_15_vsids".toList (forUp 4 15) d

/-- /repo/benchmarks/Nqueens/Test.cc:10-83. -/
def queensBatch (m : Bench S) (fuel : Nat) (d : Disk) : Res Disk :=
  batch m fuel queensName queensFile ["-solvenc".toList] "out43_75_BK1".toList (forUp 43 76) d

end Mvl
