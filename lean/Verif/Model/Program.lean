import Verif.Model.Encode
import Verif.Model.GenBen

/-!
# The program

`main`, /repo/src/Main.cc:26-101, for all commands, with the files it reads and writes.

A file is known by its name only: two names of one file (`a` and `./a`, a link) are not modelled.  Opening a file by a null
name is `ub`.  What is in the files when the program ends by undefined behaviour is not said.  `-help` and an unknown command
print a menu and wait for input; that dialogue is not modelled.
-/

namespace Mvl

variable {S : Type}

/-- The files that can be opened, and the names that can be opened for writing. -/
structure Disk where
  files    : List Char → Option (List Char)
  canWrite : List Char → Bool

/-- `ofstream` opened with `ios::out` empties the file; `t` is what is then written into it. -/
def Disk.write (d : Disk) (name t : List Char) : Disk := { d with files := upd d.files name (some t) }

/-- How a run ends. -/
inductive Ending where
  | menu
  | noInput
  | noOutput
  | written
  | solved (o : Outcome)
deriving DecidableEq, Repr

/-- What the command line and the files do not decide: the score arithmetic, the clock, the values of `rand()`, and how many
blanks separate the words on a line written by the two encoders (their models give the words, see `Layout`). -/
structure Machine (S : Type) where
  arith : ScoreArith S
  late  : Int → Nat → Bool
  rand  : Nat → Nat
  lay   : List (List (List Char)) → List Char

/-- The three converters open the input, then the output, then read: /repo/src/Boolean2Finite.cc:27-49 and 52,
/repo/src/LinearEncode.cc:37-60 and 62, /repo/src/QuadraticEncode.cc:43-66 and 68.  The first read comes after the output
file was emptied and before anything is written to it. -/
def convertFile (conv : List Char → Res (List Char)) (c : CommandLine) (d : Disk) : Res (Ending × Disk) :=
  match c.FILE with
  | none => .ub
  | some inp =>
    if d.files inp = none then .ok (.noInput, d)
    else
      match c.MODEL_FILE with
      | none => .ub
      | some out =>
        if d.canWrite out then
          let d1 := d.write out []
          conv ((d1.files inp).getD []) >>= fun t => .ok (.written, d1.write out t)
        else .ok (.noOutput, d)

/-- `GenBenFin` and `GenBenBool`, the output: /repo/src/GenBenFunc.cc:112-139 and 225-248. -/
def generateFile (rand : Nat → Nat) (fuel : Nat) (c : CommandLine) (d : Disk) : Res (Ending × Disk) :=
  genBen c rand fuel >>= fun t =>
  match c.FILE with
  | none => .ub
  | some out => if d.canWrite out then .ok (.written, d.write out t) else .ok (.noOutput, d)

/-- `SolveFinite`; no file is written. -/
def solveOnDisk (m : Machine S) (fuel : Nat) (c : CommandLine) (algo : Algo) (d : Disk) : Res (Ending × Disk) :=
  solveNamed ⟨m.arith, m.late, d.files⟩ fuel c algo >>= fun o => .ok (.solved o, d)

/-- `main`, /repo/src/Main.cc:26-101. -/
def runMain (m : Machine S) (fuel : Nat) (argv : List (List Char)) (d : Disk) : Res (Ending × Disk) :=
  parseCommandLine argv >>= fun c =>
  match command argv with
  | .help => .ok (.menu, d)
  | .genben => generateFile m.rand fuel c d
  | .b2f => convertFile boolean2Finite c d
  | .linenc => convertFile (fun cs => linearEncode cs >>= fun w => .ok (m.lay w)) c d
  | .quadenc => convertFile (fun cs => quadraticEncode cs >>= fun w => .ok (m.lay w)) c d
  | .solvech => solveOnDisk m fuel c .chrono d
  | .solvenc => solveOnDisk m fuel c .learn d

end Mvl
