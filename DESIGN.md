# Design

Subject: akinanop/mvl-solver (C++), read as text from /repo.  The model is Lean 4 code under
`lean/Verif/Model`, written function by function next to the source; the properties of
`properties.jsonl` are theorems under `lean/Verif/Props`; invariants and helper lemmas are under
`lean/Verif/Proof`; the specification (what a finite-domain formula and a solution are, independent of
the solver) is `lean/Verif/Spec.lean`.

## Trusted base

* The Lean 4.33.0 kernel.  Every property theorem depends at most on the standard axioms `propext`,
  `Classical.choice` and `Quot.sound` (checked with `#print axioms`).  No own axioms, no `sorry`, no
  `native_decide`, no `bv_decide`.
* The reading of the code.  The model is not generated; each definition cites the file and lines it
  models and notes what it leaves out.
* C++ semantics assumed: `int` does not overflow (except where a property is about overflow),
  allocation succeeds, `-LOG` output is ignored; the text on `stdout` is modelled for the solver commands of the three programs
  (`Model/Output.lean`, `Model/BVOutput.lean`, `Model/OrigOutput.lean`), the times as parameters, elsewhere only the reported
  values.

## What is modelled

| Model file | Code | Simplifications |
|---|---|---|
| `Model/State.lean` | data of `Formula`, `Variable`, `Clause`, `Literal` | arrays as functions; pairs of POS/NEG arrays as one function of a literal; clause objects in a heap with `CLAUSELIST` a list of pointers |
| `Model/Core.lean` | src/Formula.cc: all of the functions from `verifyModel` to `watchedReduceTheory` | VSIDS arithmetic abstract (covers doubles); recursion of `reduceTheory` unrolled (it nests at most once) |
| `Model/Search.lean` | `ChronoBacktrack`, `NonChronoBacktrack`, `WatchedLiterals`, unit propagation, building the state, `SolveFinite` | loops take fuel; clock readings are an arbitrary function of the reading's number; reading outside an array is the outcome `ub` |
| `Model/Parser.lean` | character-level reading in `BuildFormula` | `sscanf`/`getline` modelled on character lists |
| `Model/CLI.lean` | `ParseCommandLine`, dispatch in Main.cc for the two solver commands | `argv` as lists of characters; a number option without its number is `ub`; files are a function from names to characters |
| `Model/Benchmarks.lean` | pigeon_script.cc, Nqueens.cc, coloring_script.py, Namazons-generator.hs, nqueens_sat.cc, pigeonhole_script.py | output as lists of lines of the format; sizes are parameters; the texts for 10 pigeons, 8 queens, 4 and 10 amazons were compared with the instance files in /repo and agree character by character |
| `Model/Encode.lean` | LinearEncode.cc, QuadraticEncode.cc, Boolean2Finite.cc | opening the files left out; output of the first two as words of each line (number of blanks left out), of the third as characters; overflow is modelled in `Fact` only |
| `Model/GenBen.lean` | GenBenFunc.cc, the `-genben` branch of Main.cc | `rand()` is an arbitrary sequence of numbers; `new` with a negative size is `ub`; opening the file left out |
| `Model/WatchList.lean` | `VARRECORD`, `addRecord`, `removeRecord`, destructor of Variable.cc | memory of records with explicit addresses; `new` returns any free address; access to a freed record is `ub` |
| `Model/WatchMem.lean` | `watchedFalsifyLiteral`, `SwapPointer`, `learnClause`, `BuildFormula`, `WatchedLiterals` and the functions between them (Formula.cc), on those records | the other fields as in `Model/Core.lean`; a bound on the records per walk, removed in the theorems |
| `Model/ClauseMem.lean` | `analyzeConflict` of src/Formula.cc and bitvec/Formula.cc with the `Clause` objects it makes and deletes | an address is a place in the store of clauses, with a mark whether an object is there; the literals of a clause are part of it, as in the program |
| `Model/BVMem.lean` | the bit-vector search with its linked `VARRECORD`s, the destructor of bitvec/Variable.cc | as `Model/WatchMem.lean`; the list of variable v is kept under the literal `vkey v`; the clauses stay values |
| `Model/Program.lean` | `main` of src/Main.cc with all commands, and the files it reads and writes | a file is known by one name; the number of blanks between the words an encoder writes is a parameter (`Layout`); the menu dialogue is not modelled |
| `Model/BitVec.lean` | the separate solver in /repo/bitvec: Literal.h, Clause.cc, Variable.cc, Formula.cc, SolveFinite.cc | `bitset<64>` is `BitVec 64`; watch lists as lists of clause numbers; a domain of more than 64 values is `ub`; reading of lines shared with `Model/Parser.lean` |
| `Model/BVCLI.lean` | bitvec/Global.cc `ParseCommandLine`, bitvec/Main.cc | as `Model/CLI.lean`; the other commands of that menu do nothing |
| `Model/Orig.lean` | the solver the project started from, /repo/original_solver: Formula.cc, SolveFinite.cc, Variable.cc, Clause.cc | clauses and records, which are never freed, are values; the pointer `ENTAILLITERAL`, which is freed, is null, live or stale; what an uninitialised pointer holds is a parameter |
| `Model/RandomSat.lean` | /repo/tests/RandomSAT: random_sat.py, fixed_clauses.py, constant_probability.py | random numbers are a parameter; an exception is `ub`; the `float` average is left out |
| `Model/Batch.lean` | /repo/benchmarks/Pigeonhole/Test.cc and /repo/benchmarks/Nqueens/Test.cc | run in their own directory; all files can be written; the shell passes the words of the command on |
| `Model/Colouring.lean` | /repo/benchmarks/Graph_Coloring: coloring_script.py, convert_folders.py | a character is a byte, no carriage returns; `int` without underscores; directories can be written |
| `Model/OrigCLI.lean` | its command line: ParseCommandLine in /repo/original_solver/Global.cc and Main.cc, the two solver commands | as `Model/CLI.lean`; files and clock are parameters |

`Format.lean` is the specification of the documented file format (texts of lines, what formula they describe);
it does not mention the parser.  `SpecBool.lean` is the specification of Boolean formulas and DIMACS files.

The converters and the generator in /repo/original_solver have the same text as those in /repo/src, apart from comments and
an `#include`, and so have their branches in `ParseCommandLine`: C26–C33 are about both.

Not modelled: printing of times and logs, the destructors at the end of the program (except C47), the other benchmark
material, the makefiles.

## Plan of proof

Everything about the search rests on one idea: *undoing the trail to level k gives back the state the
solver was in when it decided at level k*.  So the invariant carries, for every level `k` below the
current one, the facts that held at that decision, expressed on the assignment restricted to levels
`≤ k`: each variable either has a value with all others excluded, or has at least two open values; and
each clause is satisfied or has at least two open literal occurrences.  Assignments made at the current
level do not touch these facts, decisions add one layer, undoing pops layers.

* Counters (`NumUnAss`, clause `LEVEL`) are proved equal to what the assignment dictates after every
  step.
* Reasons: every propagated atom's clause has all other literals false, earlier on the stack, and (no
  repeated literals) one of them at the same level.
* Repeated literals (`Proof/D*.lean`): the counts of repeated occurrences keep the invariant for all clauses but learned
  single-literal ones, which may be stored twice in one object; reasons lose the literal at the same level, so nothing
  can be said about termination, but soundness stays.  `Proof/WSound.lean` does without any invariant of the trail.
* Learned clauses are entailed because extended resolution is sound; they are false when learned and
  new as sets, which gives termination.
* Watched literals: a false watch implies that the other watch is true (at a level not above the false one's), or that
  the clause is pending in the queue or in the part of the watch list still to be walked.  The invariant is again stated
  for every lower level, so that undoing needs no change of watches.

## Properties

(See MANIFEST.json for status and theorem names.)

* C01–C03: `chrono` on every well-formed formula, by induction on the fuel / number of open atoms.
* C04–C06, C12, C42: `learnLoop` in counter mode; invariant plus induction on fuel; termination by
  counting possible clauses.
* C07, C08, C48–C53: `learnLoop` in watched mode (`Proof/WL*.lean`).  False as stated for clauses that repeat a literal;
  negation proved, positive theorems under "no repeated literal".
* C04, C05, C12, C13, C16 hold on every file; C14, C18 and C06 need "no repeated literal" (`C14_dup_fails`, `C18_dup_fails`).
* C09: printed model; false for the lazy heuristic (witness), proved for the others.
* C10, C11, C25: corollaries of the same invariants / direct inductions.
* C13–C18: invariants of reachable states, decision heuristics.
* C19: the invariants of the searches are stated for `Problem.Proper` (domains of at least one value) and soundness for
  `Problem.widen` (one-value domains raised to two values); for `WellFormed` files both are the file itself.
  `Props/OneValue.lean` has the results.
* C19, C20, C22, C24, C31, C33, C37, C38, C43: the code violates the property; negation proved by a concrete run,
  and a partial theorem for the inputs where the property holds.
* C21: parser round trip on characters (`Format.lean`, `Proof/Parse.lean`, `Props/Files.lean`).
* C23: invariants of the option loop; C24: induction over the list of options.
* C44: C01–C06 composed with C21 and C23, from `argv` and the characters of the file.
* C26–C31: encoders.  `Proof/LinRead.lean`, `Proof/Quad.lean`, `Proof/B2f.lean` compute the exact output for every
  file of the documented format; `Proof/Linear.lean` gives the meaning of the clauses.  Equisatisfiability by explicit
  translation of assignments.  Each claim fails on some inputs; witnesses are proved next to the theorems.
* C32, C33: every random function in turn (`Proof/GenBen.lean`), for any sequence of random numbers.
* C92 (`Proof/WatchMem.lean`, `Proof/WatchMemRun.lean`): the search on records does, step by step, what the search on lists
  does, as long as the latter sets no `ub`, which C49 gives; the walk needs that the list of the false literal only loses records
  already visited.
* C93 (`Proof/ClauseMem.lean`, `Proof/ClauseMemBV.lean`): by induction on the analysis; between two rounds the objects are those
  of before and the current resolvent.
* C94 (`Proof/BVMem.lean`): as C92, for the bit-vector search without restarts; the destructors by induction on the variables.
* C95-C99 (`Props/Program.lean`, `Props/Chain.lean`): the command line option by option; C97 and C98 compose the theorems on the converters, the
  generator and the solvers, run by run, over a disk.
* C100-C102 (`Props/Output.lean`): the text is the list of its lines; the lines with the times hold a tabulator, the answer a bell,
  the values `=`, the statistics a colon, so each can be told from the others.  `parse_results.cc` line by line.
* C103, C104 (`Props/BVOutput.lean`, `Props/OrigOutput.lean`): the same for the other two programs.
* C106 (`Props/Colouring.lean`): the colouring scripts on texts; the result is the problem of C41.  The format of graph files is
  `CcgLine`, which does not mention the script.
* C113 (`Props/EncodeBV.lean`): `-linenc`, `-b2f`, then the bit-vector solver.
* C112 (`Props/OrigPuzzles.lean`): the original solver on the puzzles of C109; it prints UNSAT for four queens (`C112_queens_fails`).
* C111 (`Props/GraphText.lean`): from a directory of graph files (`FromGraphs`) to the printed text of the three programs, read as a statement about colourings (`ColoursFile`).
* C110 (`Props/Numbers.lean`): numbers on the command line that are missing, do not fit, or are words (`BadNumber`).
* C109 (`Props/Puzzles.lean`): the printed texts of solver and bit-vector solver on the benchmark files, in terms of the
  puzzles (`Puzzle`, `Right`, `Tells`, `Draws`).
* C108 (`Props/Collect.lean`): `parse_results` on texts of all three programs (`AnyRun`).
* C107 (`Props/BoolChain.lean`): C33, C66 and `C31_gap_fails` put together on the disk of C96.
* C105 (`Props/Batch.lean`): the programs that run the solver on a series of files, by induction on the series, from C100,
  C39, C40 and C102.
* C34, C47: `Proof/WatchList.lean` shows that the memory always holds one doubly linked list per literal.
* C35: corollary of the soundness theorems.
* C36–C38, C54–C60: the bit-vector solver (`Proof/BV*.lean`).  Invariant: the assignment nodes of the variables and the
  domains agree; every propagated node has a clause whose other literals were false before; clauses and watch lists agree;
  a false watch means that the other watch is true at a level not above, or that the clause is pending.  Termination: the
  learned clauses are new as sets of literals.  The full invariant is for `-restart` not positive (the default).  A weaker
  one survives the faulty restarts (`Proof/BVAny.lean`): clauses are entailed, domains not empty, counts exact; it gives
  C36, C58, C59 and the checked form of C54 for every setting.  `Proof/BVLoop.lean` shows for one file that the run never
  ends: the conflict analysis comes back to a clause it has seen (C56).  `Proof/BVVsids.lean` follows the watches of the
  clauses of the file through restarts: outside an unfinished conflict one of the two watches is not false, so that with
  `-vsids`, where SAT comes only when every variable has one value, SAT is right with restarts too (C54, C57).
* C61: the search is monotone in the fuel and in the clock (`Proof/Fuel.lean`, `Props/Clock.lean`).
* C62, C63: two more facts about what a conflict leaves behind (`Backjump` in `Proof/NC.lean`, `Props/Learned.lean`).
* C81 (`Props/OneValue.lean`): the theorems on the bit-vector solver are for `Problem.Regular` files: domains of at least one
  value, and no clause excludes the only value of a domain (such a literal has an empty set of values).
* C64, C65: options and answers of the bit-vector program, from `argv` and the characters of the file (`Props/BVCLI.lean`).
* C66, C67: the converters and the solvers after each other (`Proof/B2fLines.lean`, `Props/Pipeline.lean`).
* C68–C71: queens as a DIMACS file, files without final line end, the Python pigeonhole script (`Props/QueensCnf.lean`).
* C72–C77: the original solver (`Proof/Orig*.lean`, `Props/Orig.lean`).  One invariant (`Inv` in `Proof/OrigReduce.lean`) of the
  state between calls; `undo_inv` shows that undoing restores it; `chrono_spec` goes by recursion over `ChronoBacktrack`, and
  `Nc` in `Proof/OrigLearn.lean` is the loop invariant of `NonChronoBacktrackLoop`.
* C78–C80: the original solver from its command line and file (`Props/OrigCLI.lean`), from the parsing lemmas of C21 and C24.
* C82–C84 (`Props/Meta.lean`): pairs of runs, from the theorems on single runs and facts about `Satisfiable` alone.
* C85 (`Props/Reading.lean`): which files the three programs can read; C31 and C66 on formulas that leave out a variable.
* C90, C91 (`Props/BoolSolve.lean`): the bit-vector and the original solver on the output of `-b2f`.
* C86–C89 (`Model/RandomSat.lean`, `Props/RandomSat.lean`): the Python scripts for random formulas, with the random numbers as a
  parameter, and their files through `-b2f` to the solvers.
* C39–C41, C45, C46: benchmark scripts, for every size; membership in the lists of lines written by the loops.

## Disagreements found between documentation/intention and code

* A variable with a one-value domain is never assigned its value by entailment, so `d=1, {x!=0}` gets
  SAT (C19).
* A blank line is an empty clause; the counter solvers never see it as falsified (C20).
* A repeated literal in a clause makes the watched solver answer UNSAT on satisfiable formulas (C08) or SAT on
  unsatisfiable ones (C10), makes it use a watched literal that was never set (C49), and
  makes conflict analysis of the counter solver index an empty clause (C18).
* With `-lazy` the printed model can leave variables out (C09).
* `learnClause` has a return type and no return statement (C43).
* README documents `-restarts`, the parser reads `-restart` (C24).
* A line of 3000 or more characters ends the reading of the file (C22).
* The linear encoding writes `v!=k` like `v=k` for two-valued variables (C26).
* The linear encoding announces 4 clauses too many for each two-valued variable (C27), and needs the problem line
  before the domain lines (`linear_needs_header`), unlike the files of the n-queens script.
* The quadratic encoding overflows from 13 values on (C28, C29) and writes the clauses about the variables without the
  end marker `0` (C28).
* `-b2f` has undefined behaviour on a formula without clauses (C30), leaves gaps in the numbering and can write lines
  too long for the solver (C31).
* `-genben -sat 1` without `-bool 1` can produce unsatisfiable files (C33).
* `-genben -clausesize 0` writes empty clauses also with `-sat 1` (C32); more literals per clause than variables make
  it run forever (`genben_too_long`).
* The destructor of `Variable` frees the head of each watch list twice (C47); it is never called.
* The bit-vector variant ignores the argument of its undo function (C37), so that a restart leaves assignments in place,
  makes two decisions at one level, and then reads `CLAUSELIST[-1]` in the conflict analysis (C38).
  With restarts it also answers UNSAT on a satisfiable file (C55, C60) and can analyse one conflict forever, without
  looking at the clock (C56).  In the default mode it can print SAT and then INCORRECT, with a set of values that contains
  a falsifying assignment (C54, C57).
* The bit-vector variant reads a watch that does not exist when two clauses of the file mention one variable only and both
  become false or the second one does by propagation (C38).
* The DIMACS file of nqueens_sat.cc ends with a blank line; after `-b2f` it has an empty clause (C69).
* The files of pigeonhole_script.py have no domain lines; the solver reads outside its arrays on them (C71).
* The original solver answers UNSAT on satisfiable problems: `-solvech` stops when its first decision failed (C73), `-solvenc`
  learns the complement of the last decision although earlier decisions took part (C74).
* The original solver deletes `ENTAILLITERAL` twice, and `-solvenc` reads `DECSTACK[-1]` when the first conflict comes with
  nothing assigned at level 0 (C76).
* The original solver compares two uninitialised numbers on a file that begins with the documented `p mvcnf` line (C78).
* The bit-vector solver answers SAT on unsatisfiable files that exclude the only value of a one-value domain (C81).
