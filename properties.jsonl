{"id": "C01", "title": "Chronological solver: SAT answers are right", "statement": "When `Solver -solvech` prints SAT for a well-formed file (d-lines for variables 1..N in order, every domain of size at least 2, every clause non-empty, every literal naming a declared variable and a value inside its domain), the values it holds satisfy every clause of the file: any completion of the assignment by values the solver has not excluded is a satisfying assignment.", "quantifier": "for every well-formed formula, heuristic accepted by -solvech (BK, lazy), clock behaviour and execution length", "why_tests_cant": "a test fixes one formula and one clock; the claim is over all formulas and all search histories", "anchors": ["src/Formula.cc:ChronoBacktrack", "src/Formula.cc:unitPropagation", "src/Formula.cc:reduceTheory", "src/SolveFinite.cc"]}
{"id": "C02", "title": "Chronological solver: UNSAT answers are right", "statement": "When `Solver -solvech` prints UNSAT for a well-formed file, no assignment of domain values to the variables satisfies all clauses.", "quantifier": "for every well-formed formula, heuristic, clock behaviour and execution length", "why_tests_cant": "UNSAT is a universal statement over all assignments; a test can only compare against a handful of known-UNSAT files", "anchors": ["src/Formula.cc:ChronoBacktrack", "src/Formula.cc:undoTheory"]}
{"id": "C03", "title": "Chronological solver: always answers", "statement": "If the clock never passes the time limit, `Solver -solvech` on a well-formed file stops after finitely many steps, with SAT exactly when the formula is satisfiable and UNSAT exactly when it is not.", "quantifier": "for every well-formed formula and heuristic", "why_tests_cant": "termination for all inputs cannot be observed by running finitely many of them", "anchors": ["src/Formula.cc:ChronoBacktrack", "src/Formula.cc:unitPropagation"]}
{"id": "C04", "title": "Clause-learning solver (counters): SAT answers are right", "statement": "When `Solver -solvenc` (without -wl) prints SAT for a well-formed file, every completion of the assignment it holds satisfies every clause of the file.", "quantifier": "for every well-formed formula, heuristic, restart interval, clock behaviour and execution length", "why_tests_cant": "learned clauses, backjumps and restarts give an unbounded set of histories", "anchors": ["src/Formula.cc:NonChronoBacktrack", "src/Formula.cc:analyzeConflict", "src/Formula.cc:undoTheory"]}
{"id": "C05", "title": "Clause-learning solver (counters): UNSAT answers are right", "statement": "When `Solver -solvenc` (without -wl) prints UNSAT for a well-formed file, the formula has no satisfying assignment.", "quantifier": "for every well-formed formula, heuristic, restart interval, clock behaviour and execution length", "why_tests_cant": "UNSAT is universal over assignments and depends on every clause learned on the way", "anchors": ["src/Formula.cc:NonChronoBacktrack", "src/Formula.cc:analyzeConflict", "src/Formula.cc:learnClause"]}
{"id": "C06", "title": "Clause-learning solver (counters): always answers", "statement": "If the clock never passes the time limit, `Solver -solvenc` on a well-formed file whose clauses repeat no literal stops after finitely many steps.", "quantifier": "for every well-formed duplicate-free formula and heuristic", "why_tests_cant": "a hang on one particular formula is only visible if that formula happens to be in the test set", "anchors": ["src/Formula.cc:analyzeConflict", "src/Formula.cc:potent", "src/Formula.cc:backtrackLevel"]}
{"id": "C07", "title": "Watched-literal solver: SAT answers are right", "statement": "When `Solver -solvenc -wl` prints SAT for a well-formed file, every completion of the assignment it holds satisfies every clause of the file.", "quantifier": "for every well-formed formula, heuristic (VSIDS, VSIDS_pos, lazy), restart interval, clock behaviour and execution length", "why_tests_cant": "the watch lists depend on the entire history of assignments and backjumps", "anchors": ["src/Formula.cc:WatchedLiterals", "src/Formula.cc:watchedFalsifyLiteral", "src/Formula.cc:SwapPointer"]}
{"id": "C08", "title": "Watched-literal solver: UNSAT answers are right", "statement": "When `Solver -solvenc -wl` prints UNSAT for a well-formed file, the formula has no satisfying assignment.", "quantifier": "for every well-formed formula, heuristic, restart interval, clock behaviour and execution length", "why_tests_cant": "UNSAT is universal over assignments; wrong answers only appear for particular literal orders and duplicates", "anchors": ["src/Formula.cc:WatchedLiterals", "src/Formula.cc:SwapPointer", "src/Formula.cc:WatchedUnitPropagation"]}
{"id": "C09", "title": "The printed model determines a solution", "statement": "After SAT, the list of `var=val` lines printed as the model names every variable exactly once with a value in its domain, and the assignment it names satisfies the file.", "quantifier": "for every well-formed formula, every heuristic and every solver variant", "why_tests_cant": "one cannot enumerate all formulas; the lazy heuristic stops early only on some of them", "anchors": ["src/Formula.cc:PrintModel", "src/SolveFinite.cc", "src/Formula.cc:lazyChooseLiteral"]}
{"id": "C10", "title": "SAT is always followed by CORRECT", "statement": "Whenever the solver prints SAT for a well-formed file, the self-check prints that the model is CORRECT, learned clauses included.", "quantifier": "for every well-formed formula, solver variant, heuristic, restart interval and clock", "why_tests_cant": "the check runs over clauses learned during the whole run", "anchors": ["src/Formula.cc:verifyModel", "src/SolveFinite.cc"]}
{"id": "C11", "title": "TIMEOUT only when the clock says so", "statement": "TIMEOUT is printed only if some clock reading taken during the search exceeded start time plus the -time limit; if no reading does, the answer is SAT or UNSAT.", "quantifier": "for every formula, solver variant and every sequence of clock readings", "why_tests_cant": "clock readings are an adversarial environment input; tests see one sequence", "anchors": ["src/Formula.cc:ChronoBacktrack", "src/Formula.cc:NonChronoBacktrack", "src/Formula.cc:WatchedLiterals"]}
{"id": "C12", "title": "Learning never changes the set of solutions", "statement": "Every clause the solver adds while running is satisfied by every satisfying assignment of the input file.", "quantifier": "for every well-formed formula and every point of every execution of -solvenc with or without -wl", "why_tests_cant": "needs all learned clauses of all runs and all assignments", "anchors": ["src/Formula.cc:resolve", "src/Formula.cc:analyzeConflict", "src/Formula.cc:learnClause"]}
{"id": "C13", "title": "A conflict is always a falsified clause, a propagation always forced", "statement": "In counter mode, whenever the solver flags a conflict, the named clause has all its literals false; whenever it propagates a literal from a clause, every other literal of that clause is false and the literal is unassigned.", "quantifier": "for every reachable state of the counter-mode solvers", "why_tests_cant": "states are reached by arbitrarily long histories of assignments and undos", "anchors": ["src/Formula.cc:removeLiteral", "src/Formula.cc:unitPropagation"]}
{"id": "C14", "title": "Backtracking restores exactly", "statement": "After backtracking to a level, every atom assigned above that level is unassigned, every atom assigned at or below it keeps its value, level and reason, and each clause's satisfied mark and count of unassigned literals equal what the remaining assignment dictates.", "quantifier": "for every reachable state of the counter-mode solvers and every target level", "why_tests_cant": "counters are updated incrementally; drift would only show after specific long histories", "anchors": ["src/Formula.cc:undoTheory", "src/Formula.cc:addLiteral", "src/Formula.cc:unsatisfyClauses"]}
{"id": "C15", "title": "No unit or falsified clause is left behind at a decision", "statement": "In chronological mode, whenever the solver makes a decision, no clause of the file is falsified, and every clause of the file that is not satisfied has at least two unassigned literal occurrences.", "quantifier": "for every decision of every execution on a well-formed file", "why_tests_cant": "it quantifies over every decision of every run", "anchors": ["src/Formula.cc:unitPropagation", "src/Formula.cc:removeLiteral", "src/Formula.cc:ChronoBacktrack"]}
{"id": "C16", "title": "The default heuristic picks the literal with the best net count", "statement": "With the default heuristic the decision is an unassigned `var=val` whose (positive minus negative) number of occurrences in currently unsatisfied clauses is maximal among all unassigned atoms, the earliest in file order among equals; a decision is made whenever an unassigned variable exists.", "quantifier": "for every reachable decision point of -solvech and -solvenc", "why_tests_cant": "counts are kept incrementally through satisfaction, falsification, learning and undo", "anchors": ["src/Formula.cc:chooseLiteral", "src/Formula.cc:satisfyClauses", "src/Formula.cc:unsatisfyClauses", "src/Formula.cc:addLiteral"]}
{"id": "C17", "title": "VSIDS choices are unassigned literals of maximal score", "statement": "With -vsids (or -vsids_pos) the decision is an unassigned literal (a positive unassigned literal) whose score is maximal, and one is found whenever an unassigned atom of an unassigned variable exists.", "quantifier": "for every reachable decision point of -solvenc, with any score arithmetic that keeps scores above -1", "why_tests_cant": "the score tables are arbitrary functions of the history", "anchors": ["src/Formula.cc:chooseLiteralVSIDS", "src/Formula.cc:chooseLiteralVSIDS_allPos"]}
{"id": "C18", "title": "Counter-mode conflict analysis touches only valid data", "statement": "On a well-formed file whose clauses repeat no literal, no run of -solvech or -solvenc (without -wl) reads a clause, literal or decision-stack entry that does not exist.", "quantifier": "for every well-formed duplicate-free formula, heuristic, restart interval, clock and execution length", "why_tests_cant": "out-of-range reads may go unnoticed in a test and appear only for particular conflict shapes", "anchors": ["src/Formula.cc:analyzeConflict", "src/Formula.cc:maxLit", "src/Formula.cc:potent"]}
{"id": "C19", "title": "Domains of size one are handled", "statement": "A file declaring a variable with a one-value domain gets SAT only if it is satisfiable over that domain.", "quantifier": "for every formula with a domain of size one", "why_tests_cant": "no benchmark in the repository has a domain of size one", "anchors": ["src/Formula.cc:reduceTheory", "src/Formula.cc:checkEntail"]}
{"id": "C20", "title": "Empty clauses make the formula UNSAT", "statement": "A file containing an empty clause (a line holding only 0, or a blank line, which the parser also takes as a clause) is never reported SAT.", "quantifier": "for every file with an empty clause", "why_tests_cant": "only visible on files with such a line", "anchors": ["src/Formula.cc:BuildFormula", "src/Formula.cc:NonChronoBacktrack"]}
{"id": "C21", "title": "Reading back a printed formula gives the same formula", "statement": "Writing a formula in the documented format (d-lines, one clause per line, `v=k` and `v!=k`, terminating 0, lines under 3000 characters) and reading it with the solver yields exactly that formula: same domains, same clauses, same literal order.", "quantifier": "for every formula, with any comment and p-lines interspersed", "why_tests_cant": "quantifies over all formulas and all decimal renderings", "anchors": ["src/Formula.cc:BuildFormula", "README.md"]}
{"id": "C22", "title": "Every clause line of the file reaches the solver", "statement": "The solver never silently ignores a clause line of its input file.", "quantifier": "for every input file", "why_tests_cant": "tests do not contain lines of 3000 or more characters", "anchors": ["src/Formula.cc:BuildFormula"]}
{"id": "C23", "title": "Options never select a solver/heuristic pair without a decision rule", "statement": "After reading any command line, -wl is never combined with the BK heuristic, and -solvech is never combined with -wl or with a VSIDS heuristic; hence every solver run has a decision rule.", "quantifier": "for every argument vector", "why_tests_cant": "the option loop accepts any sequence and multiplicity of options", "anchors": ["src/Global.cc:ParseCommandLine", "src/Formula.cc:ChronoBacktrack", "src/Formula.cc:WatchedLiterals"]}
{"id": "C24", "title": "Documented options are honoured", "statement": "Each solver option documented in the README (-time, -wl, -vsids, -vsids_pos, -lazy, -restarts) given after the command changes the corresponding setting.", "quantifier": "for every documented option and argument", "why_tests_cant": "the parser silently ignores words it does not know, so nothing fails visibly", "anchors": ["src/Global.cc:ParseCommandLine", "README.md"]}
{"id": "C25", "title": "Restarts happen every r-th backtrack", "statement": "With restart interval r > 0, the number of restarts reported equals the number of backtracks divided by r, rounded down; with r = 0 there are none.", "quantifier": "for every run of -solvenc with or without -wl", "why_tests_cant": "counts range over executions of any length", "anchors": ["src/Formula.cc:NonChronoBacktrack", "src/Formula.cc:WatchedLiterals"]}
{"id": "C26", "title": "Linear encoding preserves satisfiability", "statement": "The Boolean formula written by -linenc is satisfiable exactly when the finite-domain input is.", "quantifier": "for every well-formed finite-domain formula", "why_tests_cant": "equisatisfiability quantifies over all formulas and all assignments on both sides", "anchors": ["src/LinearEncode.cc:LinearEncode"]}
{"id": "C27", "title": "Linear encoding header counts", "statement": "The p-line written by -linenc announces exactly the number of clauses written, and no literal exceeds the announced number of variables.", "quantifier": "for every well-formed finite-domain formula whose p-line states its own clause count", "why_tests_cant": "closed-form counts must match nested loops for every domain size", "anchors": ["src/LinearEncode.cc:LinearEncode"]}
{"id": "C28", "title": "Quadratic encoding preserves satisfiability", "statement": "The Boolean formula over atoms `v=k` written by -quadenc is satisfiable exactly when the finite-domain input is; from any of its models the value of each variable can be read off uniquely.", "quantifier": "for every well-formed finite-domain formula", "why_tests_cant": "quantifies over all formulas and assignments", "anchors": ["src/QuadraticEncode.cc:QuadraticEncode"]}
{"id": "C29", "title": "Quadratic encoding header counts", "statement": "The p-line written by -quadenc announces exactly the number of clauses written and the number of atoms used.", "quantifier": "for every well-formed finite-domain formula", "why_tests_cant": "the factorial in the closed form overflows only for larger domains", "anchors": ["src/QuadraticEncode.cc:QuadraticEncode", "src/QuadraticEncode.cc:Fact"]}
{"id": "C30", "title": "Boolean to finite conversion preserves satisfiability", "statement": "The finite-domain file written by -b2f for a DIMACS CNF has a satisfying assignment exactly when the CNF has one, with value 1 meaning true.", "quantifier": "for every CNF", "why_tests_cant": "quantifies over all CNFs and assignments", "anchors": ["src/Boolean2Finite.cc:Boolean2Finite"]}
{"id": "C31", "title": "The output of -b2f is a valid input file", "statement": "For every CNF whose clauses are 0-terminated, the d-lines written by -b2f declare exactly the variables 1..N used by the clauses, in order, so the solver can read the file.", "quantifier": "for every CNF", "why_tests_cant": "gaps in variable numbering and missing terminators do not occur in the sample files", "anchors": ["src/Boolean2Finite.cc:Boolean2Finite", "src/Formula.cc:BuildFormula"]}
{"id": "C32", "title": "Generated finite benchmarks asked to be satisfiable are satisfiable", "statement": "A file written by -genben with -sat 1 -bool 1 has a satisfying assignment, and every clause has the requested size with pairwise distinct variables and values inside the domains.", "quantifier": "for every parameter setting and every outcome of the random number generator on which generation stops", "why_tests_cant": "the random stream ranges over an infinite set", "anchors": ["src/GenBenFunc.cc:GenBenFin"]}
{"id": "C33", "title": "Generated Boolean benchmarks asked to be satisfiable are satisfiable", "statement": "A file written by -genben with -sat 1 -bool 0 (the default) has a satisfying assignment.", "quantifier": "for every parameter setting and every outcome of the random number generator", "why_tests_cant": "an unlucky random stream is needed to see a failure", "anchors": ["src/GenBenFunc.cc:GenBenBool"]}
{"id": "C34", "title": "Watch lists behave as lists", "statement": "Adding a clause to a literal's watch list puts it in front, removing a clause deletes exactly its first occurrence and leaves all others in order, and no link ever dangles.", "quantifier": "for every sequence of additions and removals on every literal", "why_tests_cant": "pointer surgery bugs show only for head/middle/tail patterns in long histories", "anchors": ["src/Variable.cc:addRecord", "src/Variable.cc:removeRecord"]}
{"id": "C35", "title": "Solver variants never contradict each other", "statement": "On the same well-formed duplicate-free file no two of -solvech, -solvenc, -solvenc -wl give opposite answers (one SAT, another UNSAT), whatever heuristics, restarts and clocks are used.", "quantifier": "for every well-formed duplicate-free formula and every pair of configurations", "why_tests_cant": "quantifies over pairs of executions", "anchors": ["src/SolveFinite.cc", "src/Formula.cc"]}
{"id": "C36", "title": "Bit-vector variant: resolution is sound", "statement": "In the bit-vector solver, the resolvent of two clauses is satisfied by every assignment that satisfies both, and represents each variable at most once.", "quantifier": "for every pair of clauses and every resolved literal", "why_tests_cant": "quantifies over all clauses and assignments", "anchors": ["bitvec/Formula.cc:resolve", "bitvec/Clause.cc:addAtom"]}
{"id": "C37", "title": "Bit-vector variant: backtracking to a level undoes everything above it", "statement": "A call asking to undo to level k leaves no assignment made above level k.", "quantifier": "for every state and every k", "why_tests_cant": "only restarts ask for a level different from the current one", "anchors": ["bitvec/Formula.cc:watchedUndoTheory", "bitvec/Formula.cc:WatchedLiterals"]}
{"id": "C38", "title": "Bit-vector variant: no out-of-range access", "statement": "The bit-vector solver never reads the watch of a literal that does not exist, on any well-formed file.", "quantifier": "for every well-formed formula and execution", "why_tests_cant": "undefined behaviour can pass a test silently", "anchors": ["bitvec/Formula.cc:watchedUpdateVar", "bitvec/Formula.cc:sat"]}
{"id": "C39", "title": "Pigeonhole benchmark is unsatisfiable for every size", "statement": "The file written by the pigeonhole script for n pigeons and n-1 holes has no satisfying assignment, for every n > 1.", "quantifier": "for every n", "why_tests_cant": "a solver run checks one n at a time", "anchors": ["benchmarks/Pigeonhole/pigeon_script.cc"]}
{"id": "C40", "title": "N-queens benchmark models are exactly queen placements", "statement": "An assignment satisfies the file written by the N-queens script exactly when placing a queen in each column on the row given by its value leaves no two queens attacking each other.", "quantifier": "for every n and every assignment", "why_tests_cant": "the correspondence is for all n and all assignments", "anchors": ["benchmarks/Nqueens/Nqueens.cc"]}
{"id": "C41", "title": "Graph colouring benchmark models are exactly proper colourings", "statement": "An assignment satisfies the clauses written by the colouring script for a graph and N colours exactly when it is a proper N-colouring.", "quantifier": "for every graph and every N", "why_tests_cant": "the correspondence is for all graphs and colourings", "anchors": ["benchmarks/Graph_Coloring/coloring_script.py"]}
{"id": "C42", "title": "Conflict analysis produces a clause that was false", "statement": "Every clause learned by -solvenc, with or without -wl, is non-empty and has all its literals false at the moment it is learned.", "quantifier": "for every conflict of every execution on a well-formed duplicate-free file", "why_tests_cant": "quantifies over all conflicts", "anchors": ["src/Formula.cc:analyzeConflict", "src/Formula.cc:resolve"]}
{"id": "C43", "title": "Every run that learns executes a function without a return statement", "statement": "No execution of the solver reaches the end of a value-returning function without a return.", "quantifier": "for every execution", "why_tests_cant": "it is undefined behaviour, so what a test sees depends on the compiler", "anchors": ["src/Formula.cc:learnClause", "bitvec/Formula.cc:learnClause"]}
{"id": "C44", "title": "From command line and file to the printed answer", "statement": "For any argument vector that selects -solvech or -solvenc and names a file in the documented format describing a well-formed formula, an answer SAT is printed only if the formula is satisfiable and UNSAT only if it is not; with a clock that is never late, one of the two is printed.", "quantifier": "for every argument vector, every file text in the documented format and every clock", "why_tests_cant": "argument vectors and files are both unbounded and the option loop accepts any sequence", "anchors": ["src/Main.cc:main", "src/Global.cc:ParseCommandLine", "src/Formula.cc:BuildFormula", "src/SolveFinite.cc:SolveFinite"]}
{"id": "C45", "title": "N-amazons file models amazon placements", "statement": "An assignment satisfies the file written by the N-amazons generator exactly when placing an amazon in each row on the column given by its value leaves no two amazons attacking each other (as queens or as knights).", "quantifier": "for every n and every assignment", "why_tests_cant": "n and the assignments are unbounded; a missing knight move shows only on some boards", "anchors": ["benchmarks/Namazons/Namazons-generator.hs"]}
{"id": "C46", "title": "Benchmark problem lines are right", "statement": "The p-line in the files written by the pigeonhole, N-queens and colouring scripts states the number of variables and the number of clauses in the file.", "quantifier": "for every size and every graph file that states its own number of edges", "why_tests_cant": "the pigeonhole script computes the count by a closed formula that must agree with three nested loops for every n", "anchors": ["benchmarks/Pigeonhole/pigeon_script.cc", "benchmarks/Nqueens/Nqueens.cc", "benchmarks/Graph_Coloring/coloring_script.py"]}
{"id": "C47", "title": "Destroying a variable frees each watch record once", "statement": "The destructor of Variable frees every record of every watch list exactly once and touches no freed memory.", "quantifier": "for every reachable set of watch lists", "why_tests_cant": "freeing twice often goes unnoticed, and the programs never destroy a variable", "anchors": ["src/Variable.cc:~Variable"]}
{"id": "C48", "title": "The watched-literal solver always answers", "statement": "With a clock that is never late, `Solver -solvenc -wl` stops on every well-formed duplicate-free file and prints SAT or UNSAT, and the answer is right.", "quantifier": "for every well-formed duplicate-free formula, heuristic (VSIDS, VSIDS_pos, lazy) and restart interval", "why_tests_cant": "termination is about unbounded executions with learning and restarts", "anchors": ["src/Formula.cc:WatchedLiterals", "src/Formula.cc:WatchedUnitPropagation", "src/Formula.cc:watchedUndoTheory"]}
{"id": "C49", "title": "The watched-literal solver touches only data that exists", "statement": "No run of `Solver -solvenc -wl` on a well-formed duplicate-free file indexes outside a container or uses a watched literal that was not set.", "quantifier": "for every well-formed duplicate-free formula, heuristic, restart interval, clock and execution length", "why_tests_cant": "out-of-range reads often go unnoticed, and depend on the history of the run", "anchors": ["src/Formula.cc:watchedFalsifyLiteral", "src/Formula.cc:SwapPointer", "src/Formula.cc:analyzeConflict"]}
{"id": "C50", "title": "Watched-literal conflicts and propagations are justified", "statement": "With -wl, a clause reported as conflicting has all its literals false; a clause taken from the unit queue either has a true literal or forces the literal that is assigned.", "quantifier": "for every reachable state of every execution of -solvenc -wl on a well-formed duplicate-free file", "why_tests_cant": "quantifies over all reachable states", "anchors": ["src/Formula.cc:WatchedUnitPropagation", "src/Formula.cc:watchedFalsifyLiteral"]}
{"id": "C51", "title": "Watched-literal propagation is complete before a decision", "statement": "Whenever -wl makes a decision, every clause, learned ones included, has a true literal or at least two different unassigned literals.", "quantifier": "for every decision of every execution of -solvenc -wl on a well-formed duplicate-free file", "why_tests_cant": "a missed propagation only shows up for particular histories of watches", "anchors": ["src/Formula.cc:WatchedLiterals", "src/Formula.cc:watchedFalsifyLiteral", "src/Formula.cc:watchedUndoTheory"]}
{"id": "C52", "title": "Watch lists and watched literals agree", "statement": "At every point of a -wl run a clause with one literal watches it, a longer clause watches two different literals of its own, and a clause is in the watch list of a literal exactly once if it watches that literal and not otherwise.", "quantifier": "for every reachable state of every execution of -solvenc -wl on a well-formed duplicate-free file", "why_tests_cant": "the lists are changed by every propagation of every run", "anchors": ["src/Formula.cc:SwapPointer", "src/Formula.cc:BuildFormula", "src/Formula.cc:learnClause", "src/Variable.cc:addRecord"]}
{"id": "C53", "title": "Watched-literal backtracking restores exactly", "statement": "With -wl, undoing to a level leaves every assignment made at or below that level and nothing else, including the reasons and levels, and handling a conflict leaves the level it jumps to as it was.", "quantifier": "for every reachable state and every level, on well-formed duplicate-free files", "why_tests_cant": "quantifies over all states and levels", "anchors": ["src/Formula.cc:watchedUndoTheory", "src/Formula.cc:watchedUndoTheory"]}
{"id": "C54", "title": "Bit-vector variant: SAT is right", "statement": "When the bit-vector solver prints SAT, the set of values printed for each variable is not empty, and every assignment that takes its values from these sets satisfies the file.", "quantifier": "for every well-formed file with domains of at most 64 values, both heuristics, every clock and execution", "why_tests_cant": "covers all formulas, all executions and all choices from the printed sets", "anchors": ["bitvec/Formula.cc:WatchedLiterals", "bitvec/Formula.cc:PrintModel"]}
{"id": "C55", "title": "Bit-vector variant: UNSAT is right", "statement": "When the bit-vector solver prints UNSAT, the file has no satisfying assignment.", "quantifier": "for every well-formed file with domains of at most 64 values, both heuristics, every clock and execution", "why_tests_cant": "UNSAT on a satisfiable file can only be excluded for all formulas by proof", "anchors": ["bitvec/Formula.cc:WatchedLiterals", "bitvec/Formula.cc:analyzeConflict"]}
{"id": "C56", "title": "Bit-vector variant: the search decides", "statement": "With a clock that is never late the bit-vector solver stops and answers SAT exactly on the satisfiable files and UNSAT exactly on the others.", "quantifier": "for every well-formed file with domains of at most 64 values, both heuristics", "why_tests_cant": "termination cannot be tested", "anchors": ["bitvec/Formula.cc:WatchedLiterals", "bitvec/Formula.cc:WatchedUnitPropagation"]}
{"id": "C57", "title": "Bit-vector variant: the self-check never complains", "statement": "After SAT the self-check of the bit-vector solver prints CORRECT.", "quantifier": "for every well-formed file and execution", "why_tests_cant": "all executions", "anchors": ["bitvec/Formula.cc:verifyModel", "bitvec/SolveFinite.cc:SolveFinite"]}
{"id": "C58", "title": "Bit-vector variant: the statistics add up", "statement": "The bit-vector solver prints the number of variables of the file, the number of clauses of the file plus one for each backtrack, and the number of restarts it made.", "quantifier": "for every well-formed file and execution", "why_tests_cant": "all executions", "anchors": ["bitvec/Formula.cc:PrintInfo", "bitvec/Formula.cc:learnClause"]}
{"id": "C59", "title": "Bit-vector variant: learned clauses are entailed", "statement": "Every clause the bit-vector solver holds during its search is satisfied by every satisfying assignment of the file.", "quantifier": "for every well-formed file and every state of every execution", "why_tests_cant": "quantifies over all assignments and all states", "anchors": ["bitvec/Formula.cc:analyzeConflict", "bitvec/Formula.cc:learnClause"]}
{"id": "C60", "title": "The two programs agree", "statement": "The bit-vector solver and any variant of the other solver never give opposite answers on the same file.", "quantifier": "for every well-formed file, all settings of both programs, all executions", "why_tests_cant": "pairs of executions on all files", "anchors": ["bitvec/SolveFinite.cc:SolveFinite", "src/SolveFinite.cc:SolveFinite"]}
{"id": "C61", "title": "The time limit decides only whether there is an answer", "statement": "Two runs of one search on one file with the same settings, whatever the clock shows in each, print the same answer, model and statistics unless one of them prints TIMEOUT.", "quantifier": "for every formula, setting, clock and pair of executions, both programs", "why_tests_cant": "pairs of executions under all clocks", "anchors": ["src/Formula.cc:TIMELIMIT", "src/SolveFinite.cc:SolveFinite", "bitvec/Formula.cc:TIMELIMIT"]}
{"id": "C62", "title": "No clause is learned twice", "statement": "On files whose clauses do not repeat a literal, the clause learned from a conflict differs, as a set of literals, from every clause of the file and every clause learned before; so a run makes no more backtracks than there are sets of literals, and prints as many clauses as the file has plus one per backtrack.", "quantifier": "for every such file, setting, state and execution of -solvenc with and without -wl", "why_tests_cant": "all reachable states, all pairs of clauses", "anchors": ["src/Formula.cc:analyzeConflict", "src/Formula.cc:learnClause"]}
{"id": "C63", "title": "Learned clauses are asserting at the lowest level", "statement": "After a conflict without restart, the clause just learned waits alone in the queue of unit clauses, exactly one of its literals is free and all others are false, and the level returned to is the lowest at which this is so.", "quantifier": "for every well-formed file without repeated literals, setting and state of -solvenc with and without -wl", "why_tests_cant": "all reachable states", "anchors": ["src/Formula.cc:backtrackLevel", "src/Formula.cc:NonChronoBacktrack", "src/Formula.cc:WatchedLiterals"]}
{"id": "C64", "title": "Bit-vector program: options honoured", "statement": "After -solvenc, whatever the order and number of options, the bit-vector program uses the last -file, -time and -restart given, the defaults otherwise, and the VSIDS heuristic exactly when -vsids is given; with another command it shows the menu and solves nothing.", "quantifier": "for every list of options", "why_tests_cant": "all orders and repetitions of options", "anchors": ["bitvec/Global.cc:ParseCommandLine", "bitvec/Main.cc:main"]}
{"id": "C65", "title": "Bit-vector program end to end", "statement": "Called on a file in the documented format with domains of at most 64 values, the bit-vector program prints SAT only for satisfiable formulas, with a model, and UNSAT only for unsatisfiable ones; without a time limit it prints one of the two.", "quantifier": "for every command line, file, and execution", "why_tests_cant": "all files and command lines", "anchors": ["bitvec/Main.cc:main", "bitvec/SolveFinite.cc:SolveFinite"]}
{"id": "C66", "title": "DIMACS file through -b2f to the solver", "statement": "A DIMACS file converted by -b2f and given to any solver gets the right answer: SAT only if the Boolean formula has a model, and then the printed values are one; UNSAT only if it has none; without a time limit one of the two is printed.", "quantifier": "for every DIMACS file, solver, heuristic, restart setting and clock", "why_tests_cant": "all formulas and all runs of two programs after each other", "anchors": ["src/Boolean2Finite.cc:Boolean2Finite", "src/SolveFinite.cc:SolveFinite"]}
{"id": "C67", "title": "Linear encoding, conversion back, and solver agree", "statement": "A finite-domain file encoded by -linenc, converted by -b2f and given to any solver gets the answer that is right for the original file.", "quantifier": "for every file of the documented format, solver and setting", "why_tests_cant": "all files and all runs of three programs after each other", "anchors": ["src/LinearEncode.cc:LinearEncode", "src/Boolean2Finite.cc:Boolean2Finite", "src/SolveFinite.cc:SolveFinite"]}
{"id": "C68", "title": "Queens as a DIMACS file", "statement": "The models of the formula written by nqueens_sat for N rows are exactly the placements with one queen in each row and column and no two queens on a diagonal; the formula has a model exactly when the finite-domain file of Nqueens has one; the variables used are those announced.", "quantifier": "for every N", "why_tests_cant": "all board sizes", "anchors": ["benchmarks/Nqueens/nqueens_sat.cc:main", "benchmarks/Nqueens/Nqueens.cc:main"]}
{"id": "C69", "title": "The DIMACS queens file can be converted and solved", "statement": "The file written by nqueens_sat, converted by -b2f, can be solved: every solver that prints SAT prints a correct model, and every solver prints an answer.", "quantifier": "for every N and setting", "why_tests_cant": "all board sizes and settings", "anchors": ["benchmarks/Nqueens/nqueens_sat.cc:main", "src/Boolean2Finite.cc:Boolean2Finite"]}
{"id": "C70", "title": "Missing line end of the last line", "statement": "A file whose last line has no line end is read, and solved, like the file with the line end added.", "quantifier": "for every text", "why_tests_cant": "all texts", "anchors": ["src/Formula.cc:BuildFormula"]}
{"id": "C71", "title": "Python pigeonhole files can be solved", "statement": "The file written by pigeonhole_script.py for n pigeons states the pigeonhole problem and can be read by the solver.", "quantifier": "for every n and setting", "why_tests_cant": "all sizes and settings", "anchors": ["benchmarks/Pigeonhole/pigeonhole_script.py"]}
{"id": "C72", "title": "Original solver: SAT is right", "statement": "When the original solver prints SAT, the problem has a solution and the program's own check prints correct; it never reports that there is no atom to branch on.", "quantifier": "for every well-formed problem (clauses may repeat or contradict literals), both searches, every clock and initial memory", "why_tests_cant": "all problems and all runs", "anchors": ["original_solver/Formula.cc:checkSat", "original_solver/Formula.cc:verifyModel", "original_solver/Formula.cc:ChronoBacktrack", "original_solver/Formula.cc:NonChronoBacktrackLoop"]}
{"id": "C73", "title": "Original solver: UNSAT of -solvech is right", "statement": "When the original solver with -solvech prints UNSAT, the problem has no solution.", "quantifier": "for every well-formed problem", "why_tests_cant": "all problems; the answer cannot be checked by evaluating a model", "anchors": ["original_solver/Formula.cc:ChronoBacktrack"]}
{"id": "C74", "title": "Original solver: UNSAT of -solvenc is right", "statement": "When the original solver with -solvenc prints UNSAT, the problem has no solution.", "quantifier": "for every well-formed problem", "why_tests_cant": "all problems; the answer cannot be checked by evaluating a model", "anchors": ["original_solver/Formula.cc:NonChronoBacktrackLoop", "original_solver/Formula.cc:analyzeConflict"]}
{"id": "C75", "title": "Original solver: the search ends", "statement": "Both searches of the original solver end; TIMEOUT is printed only when a reading of the clock was past the limit.", "quantifier": "for every well-formed problem and every clock", "why_tests_cant": "unbounded runs", "anchors": ["original_solver/Formula.cc:ChronoBacktrack", "original_solver/Formula.cc:NonChronoBacktrackLoop", "original_solver/Formula.cc:unitPropagation"]}
{"id": "C76", "title": "Original solver: no undefined behaviour", "statement": "The original solver does not read outside DECSTACK and does not delete an object twice.", "quantifier": "for every well-formed problem", "why_tests_cant": "undefined behaviour may go unnoticed in a test", "anchors": ["original_solver/Formula.cc:analyzeConflict", "original_solver/Formula.cc:reduceTheory"]}
{"id": "C77", "title": "Original solver: statistics", "statement": "-solvech: level = decisions - backtracks, and the clause count is that of the problem. -solvenc: each backtrack adds one clause, backtracks are at most the number of variable-value pairs, level + backtracks <= decisions, and UNSAT is reported at level 0.", "quantifier": "for every well-formed problem, answer and clock", "why_tests_cant": "all runs", "anchors": ["original_solver/Formula.cc:PrintInfo"]}
{"id": "C78", "title": "Original solver: reading a file", "statement": "A file in the documented format whose problem lines carry the numbers given with -var and -clause is answered like the formula it describes, wherever the comments are; with other numbers the program ends without an answer.", "quantifier": "for every file and every pair of numbers", "why_tests_cant": "all files", "anchors": ["original_solver/Formula.cc:BuildFormula"]}
{"id": "C79", "title": "Original solver: command line", "statement": "After -solvech or -solvenc the options may come in any order and number; the last -var, -clause, -file and -time count, one hour being the limit without -time; without -var, -clause or -file the program prints the message about the command line.", "quantifier": "for every list of options and every machine", "why_tests_cant": "unbounded command lines", "anchors": ["original_solver/Global.cc:ParseCommandLine", "original_solver/Main.cc:main"]}
{"id": "C80", "title": "Original solver: from the command line to the answer", "statement": "Started with the file of a well-formed problem and its two numbers, the original solver ends and prints a right answer.", "quantifier": "for every well-formed problem, file, list of options, machine and both searches", "why_tests_cant": "all runs", "anchors": ["original_solver/SolveFinite.cc:SolveFinite", "original_solver/Main.cc:main"]}
{"id": "C81", "title": "Bit-vector variant: one-value domains", "statement": "On a file in which some variables have a single value the bit-vector solver answers SAT only if the file is satisfiable, UNSAT only if it is not.", "quantifier": "for every file with domains of 1 to 64 values", "why_tests_cant": "all files", "anchors": ["bitvec/Formula.cc:BuildFormula", "bitvec/Formula.cc:WatchedLiterals"]}
{"id": "C82", "title": "Original solver and its successors agree", "statement": "The original solver and the later ones never give opposite answers on the same file.", "quantifier": "for every well-formed file, both searches of the original solver, all variants of the others, all executions", "why_tests_cant": "all files and runs", "anchors": ["original_solver/SolveFinite.cc:SolveFinite", "src/SolveFinite.cc:SolveFinite", "bitvec/SolveFinite.cc:SolveFinite"]}
{"id": "C83", "title": "Order, repetition and removal of clauses", "statement": "Removing clauses from a file or adding literals to its clauses never turns SAT into UNSAT, even with another variant of the solver. Two files with the same clauses in another order, repeated, or with their literals in another order get the same answer.", "quantifier": "for every pair of such files in which no clause repeats a literal, and every pair of solver variants and settings without a time limit", "why_tests_cant": "relates all pairs of inputs", "anchors": ["src/SolveFinite.cc:SolveFinite", "src/Formula.cc:BuildFormula"]}
{"id": "C84", "title": "Numbering of variables and values", "statement": "A file and the file with other numbers for its variables and values get the same answer.", "quantifier": "for every file in which no clause repeats a literal, every renumbering and pair of solver variants and settings without a time limit", "why_tests_cant": "relates all pairs of inputs", "anchors": ["src/SolveFinite.cc:SolveFinite", "src/Formula.cc:BuildFormula"]}
{"id": "C85", "title": "Which files can be read", "statement": "Reading a file stays inside the solver's arrays exactly when every clause names only variables that have a domain line before it and values of their domains (with -wl, moreover, no clause is empty; for the bit-vector solver: values below 64, domains of at most 64 values, no empty clause); otherwise there is no answer.", "quantifier": "for every file whose lines can be scanned, all three programs, every setting", "why_tests_cant": "all files; an access outside an array may go unnoticed in a test", "anchors": ["src/Formula.cc:BuildFormula", "bitvec/Formula.cc:BuildFormula", "original_solver/Formula.cc:BuildFormula"]}
{"id": "C86", "title": "Random formulas have the size asked for", "statement": "random_sat.py writes the DIMACS file of a formula with the announced number of clauses, each of the given length, about the announced variables only; and every such formula can be written.", "quantifier": "for every number of variables and clauses, every clause length and all random numbers", "why_tests_cant": "random output; all sizes", "anchors": ["tests/RandomSAT/random_sat.py:dimacs", "tests/RandomSAT/fixed_clauses.py:dimacs"]}
{"id": "C87", "title": "Random formulas can be converted and solved", "statement": "The file printed by random_sat.py, converted by -b2f, is answered correctly by every solver.", "quantifier": "for every size, all random numbers, every solver and setting", "why_tests_cant": "random output; all sizes and settings", "anchors": ["tests/RandomSAT/random_sat.py:dimacs", "src/Boolean2Finite.cc:Boolean2Finite"]}
{"id": "C88", "title": "Constant-probability formulas", "statement": "dimacs_formula of constant_probability.py writes the announced number of clauses, none with a variable twice or beyond those announced, and gives back the number of variables that occur; and every such formula can be written.", "quantifier": "for every number of variables, every positive number of clauses and all random numbers", "why_tests_cant": "random output; all sizes", "anchors": ["tests/RandomSAT/constant_probability.py:dimacs_formula", "tests/RandomSAT/constant_probability.py:random_formula"]}
{"id": "C89", "title": "Constant-probability formulas can be converted and solved", "statement": "The text written by dimacs_formula, converted by -b2f, is answered correctly by every solver.", "quantifier": "for every size, all random numbers, every solver and setting", "why_tests_cant": "random output; all sizes and settings", "anchors": ["tests/RandomSAT/constant_probability.py:dimacs_formula", "src/Boolean2Finite.cc:Boolean2Finite"]}
{"id": "C90", "title": "Converted formulas and the bit-vector solver", "statement": "The bit-vector solver, run on the output of -b2f, stops and answers for the DIMACS file given to -b2f; after SAT every choice of 0 (false) and 1 (true) from the sets it prints satisfies that file.", "quantifier": "for every DIMACS file, every heuristic and clock", "why_tests_cant": "all formulas and settings; two programs in a row", "anchors": ["src/Boolean2Finite.cc:Boolean2Finite", "bitvec/Formula.cc:BuildFormula", "bitvec/Formula.cc:WatchedLiterals"]}
{"id": "C91", "title": "Converted formulas and the original solver", "statement": "The original solver, run on the output of -b2f with the two numbers of the problem line as -var and -clause, ends and answers for the DIMACS file given to -b2f.", "quantifier": "for every DIMACS file, both searches, every clock and memory behaviour", "why_tests_cant": "all formulas and settings; two programs in a row", "anchors": ["src/Boolean2Finite.cc:Boolean2Finite", "original_solver/Formula.cc:BuildFormula", "original_solver/SolveFinite.cc:SolveFinite"]}
{"id": "C92", "title": "The watched-literal search on linked records", "statement": "With -wl, kept as doubly linked records in memory, the watch lists are walked and changed during the whole search without touching a record that was never allocated or has been freed; the search ends and prints the right answer, and at the end each list holds exactly the clauses that watch its literal, no pointer dangles and no record is lost.", "quantifier": "for every file without repeated literals in a clause, every heuristic available with -wl, every clock, and every allocator that returns free addresses", "why_tests_cant": "whether a freed record is read depends on the allocator and on the order in which lists change while being walked", "anchors": ["src/Formula.cc:watchedFalsifyLiteral", "src/Formula.cc:SwapPointer", "src/Variable.cc:addRecord", "src/Variable.cc:removeRecord"]}
{"id": "C93", "title": "Temporary clauses of conflict analysis", "statement": "Conflict analysis makes and deletes temporary clauses. It reads no deleted clause, deletes none twice and none that is a clause of the formula or learned before; when it ends, the learned clause is the only new object, every entry of the clause list points to an existing object, and no earlier clause has changed. Where temporary clauses are placed in memory makes no difference to the clause learned or the state left.", "quantifier": "for every state of a search, every conflict it handles, with and without -wl, also in the bit-vector program, and for every allocator that returns free addresses", "why_tests_cant": "a use after free shows only if the allocator happens to reuse the address, and a leak does not show in the output at all", "anchors": ["src/Formula.cc:analyzeConflict", "src/Formula.cc:resolve", "src/Formula.cc:learnClause", "bitvec/Formula.cc:analyzeConflict"]}
{"id": "C94", "title": "Watch records of the bit-vector solver", "statement": "The bit-vector solver keeps the clauses that watch a variable in a doubly linked list of records. A search never reads or frees a record that does not exist, gives the answer and the statistics of a search on plain lists, and when it ends no pointer dangles and no record is lost. Destroying the variables then frees every record exactly once.", "quantifier": "for every well-formed file with domains up to 64, with and without -vsids, every clock, every allocator that returns free addresses", "why_tests_cant": "a dangling pointer shows only if the allocator reuses the address, and there are unboundedly many orders in which records move", "anchors": ["bitvec/Formula.cc:SwapPointer", "bitvec/Variable.cc:addRecord", "bitvec/Variable.cc:removeRecord", "bitvec/Variable.cc:~Variable"]}
{"id": "C95", "title": "Generator and converter options are honoured", "statement": "After -genben the options -var, -clause, -clausesize, -sat, -domain, -drand, -bool and -file may come in any order; the last one of each kind counts, a missing one has its default, other words are skipped. After -b2f, -linenc and -quadenc the input is the last -file and the output the last -model. A solver given a negative -clausesize and a file with at least one line prints no answer but ends with an exception.", "quantifier": "for every list of options in any order and number, every file name (also one that looks like an option), every number that fits an int", "why_tests_cant": "there are unboundedly many orders and repetitions of the options, and file names that look like options", "anchors": ["src/Global.cc:ParseCommandLine", "src/Formula.cc:BuildFormula"]}
{"id": "C96", "title": "A run changes only the file it is told to write", "statement": "A solver run changes no file. -genben changes only the file named by -file. A converter changes only the file named by -model; if the input cannot be opened it changes nothing, also not the output file; otherwise the output becomes the conversion of the input file as it was before the run.", "quantifier": "for every command line, every content of every file, every file system state", "why_tests_cant": "needs all combinations of names, also equal names for input and output, and of files that can and cannot be opened", "anchors": ["src/Main.cc:main", "src/LinearEncode.cc:LinearEncode", "src/QuadraticEncode.cc:QuadraticEncode", "src/Boolean2Finite.cc:Boolean2Finite", "src/GenBenFunc.cc:GenBenFin"]}
{"id": "C97", "title": "Encode, convert and solve in three runs", "statement": "Running the program with -linenc -file a -model b, then with -b2f -file b -model c, then with a solver command on c gives an answer that is right for the formula in a; the first two runs change only b and c.", "quantifier": "for every file a with variables of 3 to 230 values and clauses of up to 230 literals, every solver command line naming c, all file names with a different from b and b from c, any spacing of the words the encoder writes", "why_tests_cant": "the composition of three programs over all inputs; a wrong index in the encoding gives a wrong answer only on some formulas", "anchors": ["src/Main.cc:main", "src/LinearEncode.cc:LinearEncode", "src/Boolean2Finite.cc:Boolean2Finite", "src/SolveFinite.cc:SolveFinite"]}
{"id": "C98", "title": "Generate and solve in two runs", "statement": "Running the program with -genben -bool 1 and options, then with a solver command on the file written: the file describes a formula with the number of variables and clauses asked for, the solver reads exactly that formula and its answer is right, and it is SAT when -sat 1 was asked for.", "quantifier": "for every list of generator options, every sequence of values of rand(), every solver command line naming the file", "why_tests_cant": "the generator is random; tests see only some sequences of random numbers", "anchors": ["src/GenBenFunc.cc:GenBenFin", "src/Main.cc:main", "src/Formula.cc:BuildFormula", "src/SolveFinite.cc:SolveFinite"]}
{"id": "C99", "title": "Generated files with the bit-vector and the original solver", "statement": "The file written by -genben -bool 1 can be given to the bit-vector solver and to the original solver. The bit-vector solver prints SAT exactly for the satisfiable ones, and every choice from the domains it prints solves the formula. The original solver, given the numbers of variables and clauses of the generator's command line, ends; its SAT is right and verified and its UNSAT is right.", "quantifier": "for every list of generator options, every sequence of values of rand(), every command line of the two solvers naming the file", "why_tests_cant": "the generator is random and the programs are three different ones; tests see only some sequences of random numbers", "anchors": ["src/GenBenFunc.cc:GenBenFin", "bitvec/SolveFinite.cc:SolveFinite", "original_solver/SolveFinite.cc:SolveFinite"]}
{"id": "C100", "title": "The printed text tells the answer", "statement": "Exactly one line of what Solver -solvech and -solvenc print (without -verbose) consists of the bell character and SAT, TIMEOUT or UNSAT. SAT is there only if the formula is satisfiable, and then the line that the model is CORRECT is there as well; UNSAT only if it is not; with a clock that is never late SAT or UNSAT is there, after finitely many steps. If the file cannot be opened no such line is printed.", "quantifier": "for every argument vector, every file in the documented format, every clock, all texts of the times and every file name without a newline", "why_tests_cant": "scripts read the answer out of the text; that no file name, statistic or model line can be mistaken for it is a claim about all texts", "anchors": ["src/SolveFinite.cc:SolveFinite", "src/Main.cc:main", "src/Formula.cc:PrintInfo"]}
{"id": "C101", "title": "The printed lines v=d are a solution", "statement": "After SAT, among the lines of the printed text, every variable of the file has exactly one line v=d, with d in its domain, no other number has one, and every assignment that agrees with these lines satisfies the file.", "quantifier": "for every argument vector selecting -solvech or -solvenc, every file in the documented format describing a well-formed formula", "why_tests_cant": "concerns all formulas and the whole text, in which other lines must not look like values", "anchors": ["src/Formula.cc:PrintModel", "src/Literal.h:Print", "src/SolveFinite.cc:SolveFinite"]}
{"id": "C102", "title": "The printed statistics can be read and collected", "statement": "Each of the seven statistics stands on exactly one line under its label. For -solvenc without -wl the clauses printed are those of the file plus the backtracks printed, and the restarts printed are the backtracks divided by the interval. parse_results, given the texts of any number of runs, writes the seven numbers of each run in order, each followed by a zero byte and a space, and a newline after a run with SAT; every run has its own row. Output.cc writes one row for the whole file.", "quantifier": "for every run, every sequence of runs, every file name and time text in which the script finds nothing (no colon, newline, zero byte or Th)", "why_tests_cant": "tests look at some result files only; that the number of rows differs from the number of runs shows only for sequences with UNSAT", "anchors": ["src/Formula.cc:PrintInfo", "benchmarks/parse_results.cc:main", "benchmarks/Nqueens/Output.cc:main"]}
{"id": "C103", "title": "Bit-vector solver: the printed text tells the answer, the sets of values and the statistics", "statement": "Exactly one line of what the bit-vector program prints (without -verbose) consists of the bell character and SAT, TIMEOUT or UNSAT, and it is right. After SAT, every variable of the file has exactly one line v=b with 64 binary digits; some value of its domain is allowed (its digit, counted from the right, is 1), and every choice of allowed values satisfies the file. If the text says the self-check was CORRECT this holds whatever the options. The statistics can be read in one way only; clauses are those of the file plus the backtracks, restarts are the backtracks divided by the interval.", "quantifier": "for every argument vector selecting -solvenc, every file in the documented format with domains of at most 64 values, every clock, all texts of the times and every file name without a newline", "why_tests_cant": "the printed sets stand for up to 64^n assignments, all of which have to solve the file; and no other line may be mistaken for an answer, set or number, for any file", "anchors": ["bitvec/SolveFinite.cc:SolveFinite", "bitvec/Formula.cc:PrintModel", "bitvec/Formula.cc:PrintInfo", "bitvec/Main.cc:main"]}
{"id": "C104", "title": "Original solver: the printed text tells the answer and the statistics", "statement": "Exactly one line of what the original program prints for -solvech and -solvenc ends with a tabulator and SAT, TIMEOUT or UNSAT. SAT is printed only if the formula is satisfiable, and then the model is printed to be CORRECT; UNSAT only if it is not; TIMEOUT only if the clock was late. The numbers can be read in one way only; with -solvech levels are decisions minus backtracks, with -solvenc clauses are those of the file plus backtracks. With a required option missing, with numbers that are not those of the file or with a file that cannot be opened the text says so and no line ends with an answer.", "quantifier": "for every sequence of options, every file in the documented format describing a well-formed formula, every clock, all texts of the times and every file name without a newline", "why_tests_cant": "concerns all files and command lines and the whole text", "anchors": ["original_solver/SolveFinite.cc:SolveFinite", "original_solver/Formula.cc:PrintInfo", "original_solver/Main.cc:main", "original_solver/Global.cc:ParseCommandLine"]}
{"id": "C105", "title": "Result files of the benchmark programs", "statement": "The programs Test.cc for pigeonholes and queens, which write a file for each size, run the solver on it and add what it prints to a file of results, leave there one text for each size, in order and unchanged. Each text has exactly one answer; for pigeonholes it is never SAT, and UNSAT if the time limit is not reached; for queens it is SAT only if so many queens can be placed, UNSAT only if they cannot, and one of the two if the time limit is not reached. parse_results makes as many rows of the texts as there are runs with SAT, so one row of all pigeonhole runs.", "quantifier": "for every list of sizes (pigeons 3 to 1000, queens 2 to 200), what was in the file of results before, every clock, score arithmetic and texts of times", "why_tests_cant": "the runs take hours and depend on the clock; concerns every series of sizes", "anchors": ["benchmarks/Pigeonhole/Test.cc:main", "benchmarks/Nqueens/Test.cc:main", "benchmarks/Pigeonhole/Test.cc:run_solver"]}
{"id": "C106", "title": "Graph files become colouring problems", "statement": "For every graph file in the CCG format (one problem line anywhere, edges between its vertices, comments) coloring_script.py reports nothing and writes a file in the documented format whose solutions are exactly the colourings of the graph with N colours; on it the solvers say SAT only if there is a colouring, UNSAT only if there is none. convert_folders.py leaves such a file for every graph file of a directory and every number of colours, none overwriting another. With -s a badly formatted file is skipped: it leaves no result file.", "quantifier": "for every graph file text, number of colours, list of files and solver setting", "why_tests_cant": "all texts of graph files, all graphs and numbers of colours; files of a directory must not disturb each other", "anchors": ["benchmarks/Graph_Coloring/coloring_script.py:convert_problem_line", "benchmarks/Graph_Coloring/coloring_script.py", "benchmarks/Graph_Coloring/convert_folders.py"]}
{"id": "C107", "title": "Boolean benchmarks through three runs", "statement": "-genben for a Boolean formula into a file, -b2f from there into a second file, then -solvech or -solvenc on that: whatever rand() returns, the first file holds a formula of the size asked for, the conversion succeeds, no other file changes, and the solver gives an answer, which is right for the formula; SAT if a satisfiable formula was asked for.", "quantifier": "for every list of generator options, every stream of random numbers, every solver setting and disk", "why_tests_cant": "the random numbers decide which variables occur; a gap in their numbers shows up only in the third run", "anchors": ["src/GenBenFunc.cc:GenBenBool", "src/Boolean2Finite.cc:Boolean2Finite", "src/Main.cc:main"]}
{"id": "C108", "title": "Collecting the results of all three programs", "statement": "From the texts of any runs of the solver, the bit-vector solver and the original solver, one after the other, parse_results writes the seven numbers of each run's statistics in the order of the text and nothing else but separators; every run has a row of its own.", "quantifier": "for every list of runs of the three programs, with any answers and numbers", "why_tests_cant": "all texts of all runs in any mixture; a digit or a letter in the wrong place of some text would shift the table", "anchors": ["benchmarks/parse_results.cc:main", "bitvec/Formula.cc:PrintInfo", "original_solver/Formula.cc:PrintInfo"]}
{"id": "C109", "title": "Puzzles solved by both solver programs, read from the printed text", "statement": "For a pigeonhole, queens, amazons or colouring file as the benchmark programs write it, the text printed by the solver (-solvech or -solvenc) and by the bit-vector solver says SAT only if the puzzle has a solution and UNSAT only if it has none; with enough time one of the two is printed; after SAT the printed values are a solution of the puzzle: pigeons in different holes, pieces that do not attack each other, a proper colouring.", "quantifier": "for every size (pigeons 3..1000, queens 2..200, amazons from 2, any graph without loops and at least 2 colours; at most 64 values for the bit-vector program), every option and every number of steps", "why_tests_cant": "all sizes and graphs, and all options; a generator that forgets one attack or a solver that loses one clause still gives plausible placements", "anchors": ["benchmarks/Pigeonhole/pigeon_script.cc:main", "benchmarks/Nqueens/Nqueens.cc:main", "benchmarks/Namazons/Namazons-generator.hs", "benchmarks/Graph_Coloring/coloring_script.py", "src/Formula.cc:PrintInfo", "bitvec/Formula.cc:PrintInfo"]}
{"id": "C110", "title": "Numbers on the command line that are missing or do not fit", "statement": "In all three programs, after any documented options, an option that takes a number (-time, -var, -clause, -clausesize, -restart, and those of -genben) whose number is missing or does not fit into an int makes the run undefined, whatever follows and whatever the file; a word that is no number is read as 0 without a message. Numbers that fit are read as they are.", "quantifier": "for every list of documented options before it, every such option, every number that does not fit and all arguments after it", "why_tests_cant": "infinitely many numbers and command lines; undefined behaviour may look like an ordinary run in a test", "anchors": ["src/Global.cc:ParseCommandLine", "bitvec/Global.cc:ParseCommandLine", "original_solver/Global.cc:ParseCommandLine"]}
{"id": "C111", "title": "From a directory of graph files to a printed colouring", "statement": "After convert_folders.py has run on a directory of graph files, each solver program, called with one of the files written, prints SAT only if that graph can be coloured with that number of colours and UNSAT only if it cannot; with enough time one of the two is printed; after SAT the printed values are a colouring, each vertex once. SAT for N+1 and UNSAT for N colours together give the chromatic number. The original solver needs the numbers of vertices and of edges times colours; called with others it refuses.", "quantifier": "for every directory of graph files, list of numbers of colours, graph file and number in them, option and number of steps", "why_tests_cant": "all graphs, directories and options; three programs and two scripts must agree on formats and names", "anchors": ["benchmarks/Graph_Coloring/convert_folders.py", "benchmarks/Graph_Coloring/coloring_script.py", "src/Formula.cc:PrintInfo", "bitvec/Formula.cc:PrintInfo", "original_solver/Formula.cc"]}
{"id": "C112", "title": "The original solver on the benchmark puzzles", "statement": "For a pigeonhole, queens, amazons or colouring file, called with the numbers of its problem line, the original solver prints one answer, SAT only if the puzzle has a solution and UNSAT only if it has none.", "quantifier": "for every puzzle and size, mode (-solvech, -solvenc), list of options and number of steps", "why_tests_cant": "all sizes and graphs; a wrong UNSAT looks like any other", "anchors": ["original_solver/Formula.cc", "original_solver/Main.cc", "benchmarks/Nqueens/Nqueens.cc:main", "benchmarks/Pigeonhole/pigeon_script.cc:main"]}
{"id": "C113", "title": "Linear encoding, conversion back, bit-vector solver", "statement": "A finite-domain file encoded with -linenc, turned into a two-valued file with -b2f and given to the bit-vector solver gets the right answer for the original file, also when its domains are too large for the bit-vector solver itself; SAT is printed for every satisfiable file when there is enough time.", "quantifier": "for every file with domains of 3 to 230 values and clauses of at most 230 literals, every printing of the encoded words, setting without -restart and number of steps", "why_tests_cant": "three programs in a row over all formulas; an encoding that loses one clause changes the answer on few files", "anchors": ["src/LinearEncode.cc", "src/Boolean2Finite.cc", "bitvec/Formula.cc"]}
