{
 "claims": [
  {
   "property": "C01",
   "status": "proved",
   "theorems": [
    "Mvl.C01_chrono_sat"
   ],
   "note": "every well-formed formula, BK and lazy, every clock and budget"
  },
  {
   "property": "C02",
   "status": "proved",
   "theorems": [
    "Mvl.C02_chrono_unsat"
   ],
   "note": ""
  },
  {
   "property": "C03",
   "status": "proved",
   "theorems": [
    "Mvl.C03_chrono_decides"
   ],
   "note": ""
  },
  {
   "property": "C04",
   "status": "proved",
   "theorems": [
    "Mvl.C04_learn_sat"
   ],
   "note": "all files, repeated literals included; all heuristics, restart intervals and clocks"
  },
  {
   "property": "C05",
   "status": "proved",
   "theorems": [
    "Mvl.C05_learn_unsat"
   ],
   "note": "all files, repeated literals included"
  },
  {
   "property": "C06",
   "status": "proved",
   "theorems": [
    "Mvl.C06_learn_decides"
   ],
   "note": "also proves the answer right"
  },
  {
   "property": "C07",
   "status": "partial",
   "theorems": [
    "Mvl.C07_watch_sat_partial",
    "Mvl.C07_dup_fails",
    "Mvl.C07_default_fails"
   ],
   "note": "false as stated for clauses that repeat a literal (witness); proved for all other files"
  },
  {
   "property": "C08",
   "status": "partial",
   "theorems": [
    "Mvl.C08_watch_unsat_partial",
    "Mvl.C08_dup_fails"
   ],
   "note": "false as stated for clauses that repeat a literal (witness); proved for all other files"
  },
  {
   "property": "C09",
   "status": "partial",
   "theorems": [
    "Mvl.C09_chrono_model_partial",
    "Mvl.C09_learn_model_partial",
    "Mvl.C09_watch_model_partial",
    "Mvl.C09_lazy_fails"
   ],
   "note": "false as stated for the lazy heuristic (witness); proved for the other heuristics; with -wl only for files without repeated literals, where it is false otherwise (C10_dup_fails)"
  },
  {
   "property": "C10",
   "status": "partial",
   "theorems": [
    "Mvl.C10_chrono_verified",
    "Mvl.C10_learn_verified",
    "Mvl.C10_watch_verified_partial",
    "Mvl.C10_dup_fails"
   ],
   "note": "false with -wl for clauses that repeat a literal (witness); proved without -wl for every file and with -wl for all other files"
  },
  {
   "property": "C11",
   "status": "proved",
   "theorems": [
    "Mvl.C11_timeout",
    "Mvl.C11_answer"
   ],
   "note": "every formula, search, heuristic and clock, with and without -wl"
  },
  {
   "property": "C12",
   "status": "proved",
   "theorems": [
    "Mvl.C12_learn_sound",
    "Mvl.C12_watch_sound"
   ],
   "note": "all files, repeated literals included, with and without -wl"
  },
  {
   "property": "C13",
   "status": "proved",
   "theorems": [
    "Mvl.C13_conflict",
    "Mvl.C13_propagate",
    "Mvl.C13_propagate_tidy"
   ],
   "note": "all files, repeated literals included"
  },
  {
   "property": "C14",
   "status": "partial",
   "theorems": [
    "Mvl.C14_marks",
    "Mvl.C14_undo",
    "Mvl.C14_backjump",
    "Mvl.C14_marks_dup_partial",
    "Mvl.C14_undo_dup_partial",
    "Mvl.C14_backjump_dup_partial",
    "Mvl.C14_dup_fails"
   ],
   "note": "complete for -solvech on every file and for -solvenc on files without repeated literals; with them the count of a single-literal clause can be wrong (witness), everything else is proved"
  },
  {
   "property": "C15",
   "status": "proved",
   "theorems": [
    "Mvl.C15_decision"
   ],
   "note": ""
  },
  {
   "property": "C16",
   "status": "proved",
   "theorems": [
    "Mvl.C16_default"
   ],
   "note": "all files, repeated literals included"
  },
  {
   "property": "C17",
   "status": "proved",
   "theorems": [
    "Mvl.C17_vsids",
    "Mvl.C17_vsids_pos"
   ],
   "note": "every formula, with and without -wl"
  },
  {
   "property": "C18",
   "status": "proved",
   "theorems": [
    "Mvl.C18_chrono_no_ub",
    "Mvl.C18_learn_no_ub",
    "Mvl.C18_dup_fails"
   ],
   "note": "the missing return of learnClause is counted separately (C43)"
  },
  {
   "property": "C19",
   "status": "partial",
   "theorems": [
    "Mvl.C19_exact_partial",
    "Mvl.C19_unsat",
    "Mvl.C19_sat_partial",
    "Mvl.C19_wrong_iff",
    "Mvl.C19_fails"
   ],
   "note": "false as stated: witness file, all solvers. Proved for files with one-value domains: UNSAT is never wrong; every solver answers for the file with its one-value domains raised to two values; SAT is right if no clause excludes the only value of a variable; it is wrong exactly when raising the domain makes the file satisfiable."
  },
  {
   "property": "C20",
   "status": "partial",
   "theorems": [
    "Mvl.C20_fails",
    "Mvl.C20_watch_ub",
    "Mvl.C20_watch_empty",
    "Mvl.C20_flagged_partial"
   ],
   "note": "false as stated (witness); proved for every file with an empty clause: the model check printed after SAT reports INCORRECT, and with -wl reading the file is undefined behaviour"
  },
  {
   "property": "C21",
   "status": "proved",
   "theorems": [
    "Mvl.C21_round_trip"
   ],
   "note": "on the characters of the file; numbers fit in an int, lines shorter than 3000 characters"
  },
  {
   "property": "C22",
   "status": "partial",
   "theorems": [
    "Mvl.C22_fails",
    "Mvl.C22_lines_partial"
   ],
   "note": "false as stated for lines of 3000 characters (witness); proved when all lines are shorter"
  },
  {
   "property": "C23",
   "status": "proved",
   "theorems": [
    "Mvl.C23_options"
   ],
   "note": ""
  },
  {
   "property": "C24",
   "status": "partial",
   "theorems": [
    "Mvl.C24_solvenc_partial",
    "Mvl.C24_solvech",
    "Mvl.C24_restarts_fails"
   ],
   "note": "false for -restarts (proved for every number); proved for the other documented options of -solvenc and -solvech in any order"
  },
  {
   "property": "C25",
   "status": "proved",
   "theorems": [
    "Mvl.C25_restarts"
   ],
   "note": "every formula, with and without -wl; int overflow of the counters is not modelled"
  },
  {
   "property": "C26",
   "status": "partial",
   "theorems": [
    "Mvl.C26_linear_partial",
    "Mvl.C26_fails",
    "Mvl.linear_needs_header"
   ],
   "note": "false for v!=k on two-valued variables (witness); proved for all other formulas with the problem line first and at least one clause"
  },
  {
   "property": "C27",
   "status": "partial",
   "theorems": [
    "Mvl.C27_linear_partial",
    "Mvl.C27_fails"
   ],
   "note": "literals never exceed the announced variables; the announced clause number is right exactly when no variable is two-valued (witness otherwise)"
  },
  {
   "property": "C28",
   "status": "partial",
   "theorems": [
    "Mvl.C28_quadratic_partial",
    "Mvl.C28_fails",
    "Mvl.C28_stream_fails"
   ],
   "note": "proved for domains below 13 values, reading each line as a clause; from 13 values on Fact overflows; read with 0 as clause end the formula is a different one (witness)"
  },
  {
   "property": "C29",
   "status": "partial",
   "theorems": [
    "Mvl.C29_quadratic_partial",
    "Mvl.C28_fails"
   ],
   "note": "proved for domains below 13 values; from 13 values on Fact overflows"
  },
  {
   "property": "C30",
   "status": "partial",
   "theorems": [
    "Mvl.C30_b2f_partial",
    "Mvl.C30_fails"
   ],
   "note": "proved for every CNF with at least one clause; without clauses the program has undefined behaviour"
  },
  {
   "property": "C31",
   "status": "partial",
   "theorems": [
    "Mvl.C31_b2f_partial",
    "Mvl.C31_fails",
    "Mvl.C31_long_fails",
    "Mvl.C31_gap_fails"
   ],
   "note": "proved when the variables used are 1..N and output lines stay below 3000 characters; witnesses for both. Fails for every formula whose variables are not 1..N (C31_gap_fails)."
  },
  {
   "property": "C32",
   "status": "partial",
   "theorems": [
    "Mvl.C32_finite_partial",
    "Mvl.C32_fails",
    "Mvl.genben_too_long",
    "Mvl.genben_solve"
   ],
   "note": "proved for every random stream on which generation ends, with clause size at least 1 and a fixed domain size at least 1 (or random domain sizes); with clause size 0 the file holds empty clauses (witness)"
  },
  {
   "property": "C33",
   "status": "partial",
   "theorems": [
    "Mvl.C33_bool_partial",
    "Mvl.C33_fails",
    "Mvl.C33_no_var"
   ],
   "note": "false: the sign of the planted literal is flipped at random (witness 1 0 / -1 0); proved: clause sizes, ranges, no repeated literal, and satisfiable when no flip happens"
  },
  {
   "property": "C34",
   "status": "proved",
   "theorems": [
    "Mvl.C34_lists",
    "Mvl.C34_first",
    "Mvl.C34_loop",
    "Mvl.C34_refines"
   ],
   "note": "pointer-level memory; also that no record leaks and that the loop's saved next pointer stays valid"
  },
  {
   "property": "C35",
   "status": "proved",
   "theorems": [
    "Mvl.C35_agree",
    "Mvl.C35_dup_fails"
   ],
   "note": "also shows that the restriction to duplicate-free files is needed"
  },
  {
   "property": "C39",
   "status": "proved",
   "theorems": [
    "Mvl.C39_pigeon_unsat",
    "Mvl.C39_pigeon_solvech",
    "Mvl.C39_two_fails"
   ],
   "note": "the file is unsatisfiable for every n; -solvech never prints SAT for n >= 3; for n = 2 the program prints SAT (C19)"
  },
  {
   "property": "C40",
   "status": "proved",
   "theorems": [
    "Mvl.C40_queens"
   ],
   "note": ""
  },
  {
   "property": "C41",
   "status": "proved",
   "theorems": [
    "Mvl.C41_colouring"
   ],
   "note": "graphs whose edges name vertices 1..n"
  },
  {
   "property": "C42",
   "status": "proved",
   "theorems": [
    "Mvl.C42_learn_false",
    "Mvl.C42_watch_false"
   ],
   "note": ""
  },
  {
   "property": "C43",
   "status": "proved",
   "theorems": [
    "Mvl.C43_flow_off",
    "Mvl.C43_fails"
   ],
   "note": "the claim as stated is false; proved: the number of such events equals the number of backtracks, with a witness run"
  },
  {
   "property": "C44",
   "status": "partial",
   "theorems": [
    "Mvl.C44_solvech",
    "Mvl.C44_solvech_answers",
    "Mvl.C44_solvenc_partial",
    "Mvl.C44_solvenc_answers_partial",
    "Mvl.C44_dup_fails",
    "Mvl.C44_no_file"
   ],
   "note": "-solvech complete; SAT and UNSAT right for -solvenc without -wl on every file, with -wl on files without repeated literals (false otherwise, witness); that one of the two is printed is proved for files without repeated literals. One-value domains are covered if no clause excludes the only value (C19)."
  },
  {
   "property": "C45",
   "status": "proved",
   "theorems": [
    "Mvl.C45_amazons"
   ],
   "note": ""
  },
  {
   "property": "C46",
   "status": "proved",
   "theorems": [
    "Mvl.C46_pigeon",
    "Mvl.C46_queens",
    "Mvl.C46_colouring"
   ],
   "note": ""
  },
  {
   "property": "C47",
   "status": "partial",
   "theorems": [
    "Mvl.C47_fails",
    "Mvl.C47_after_search_fails",
    "Mvl.C47_empty_partial"
   ],
   "note": "false for every non-empty list: the head record is freed twice; hence after every -wl search on a file with a clause (the program never runs the destructor)"
  },
  {
   "property": "C48",
   "status": "proved",
   "theorems": [
    "Mvl.C48_watch_decides"
   ],
   "note": ""
  },
  {
   "property": "C49",
   "status": "proved",
   "theorems": [
    "Mvl.C49_watch_no_ub",
    "Mvl.C49_dup_ub"
   ],
   "note": "with a witness that the restriction to duplicate-free files is needed"
  },
  {
   "property": "C50",
   "status": "proved",
   "theorems": [
    "Mvl.C50_conflict",
    "Mvl.C50_propagate"
   ],
   "note": ""
  },
  {
   "property": "C51",
   "status": "proved",
   "theorems": [
    "Mvl.C51_decision"
   ],
   "note": ""
  },
  {
   "property": "C52",
   "status": "proved",
   "theorems": [
    "Mvl.C52_watch_lists"
   ],
   "note": ""
  },
  {
   "property": "C53",
   "status": "proved",
   "theorems": [
    "Mvl.C53_undo",
    "Mvl.C53_backjump"
   ],
   "note": ""
  },
  {
   "property": "C36",
   "status": "proved",
   "theorems": [
    "Mvl.BV.C36_resolve_sound",
    "Mvl.BV.C36_resolve_distinct",
    "Mvl.BV.C36_resolve_values",
    "Mvl.BV.C36_used",
    "Mvl.BV.C36_needs_member"
   ],
   "note": "the resolved literal has to be in the first clause, which the solver guarantees"
  },
  {
   "property": "C37",
   "status": "partial",
   "theorems": [
    "Mvl.BV.C37_fails",
    "Mvl.BV.C37_undo_partial",
    "Mvl.BV.C37_search_partial"
   ],
   "note": "false in general (the argument is ignored); proved for calls whose argument is the current level, which are all calls in runs without restarts"
  },
  {
   "property": "C38",
   "status": "partial",
   "theorems": [
    "Mvl.BV.C38_fails",
    "Mvl.BV.C38_restart_fails",
    "Mvl.BV.C38_no_ub_partial",
    "Mvl.BV.C38_two_valued_partial",
    "Mvl.BV.C38_two_valued_fails"
   ],
   "note": "false with two clauses about one variable each, and with restarts; proved without restarts for files with at most one clause about a single variable, and for satisfiable files with any number of them if their variables have at most two values"
  },
  {
   "property": "C54",
   "status": "partial",
   "theorems": [
    "Mvl.BV.C54_bitvec_sat_partial",
    "Mvl.BV.C54_bitvec_satisfiable_partial",
    "Mvl.BV.C54_bitvec_checked",
    "Mvl.BV.C54_bitvec_vsids_partial",
    "Mvl.BV.C54_bitvec_vsids_satisfiable",
    "Mvl.BV.C54_restart_fails"
   ],
   "note": "proved for -restart not positive (the default), for -vsids with any -restart, and whenever the self-check printed CORRECT; false with -restart and the default choice of literals (witness: the printed sets contain an assignment that falsifies the file)"
  },
  {
   "property": "C55",
   "status": "partial",
   "theorems": [
    "Mvl.BV.C55_bitvec_unsat_partial",
    "Mvl.BV.C55_restart_fails",
    "Mvl.BV.C55_vsids_restart_fails"
   ],
   "note": "proved for -restart not positive (the default); false with restarts, with either choice of literals (two witnesses)"
  },
  {
   "property": "C56",
   "status": "partial",
   "theorems": [
    "Mvl.BV.C56_bitvec_decides_partial",
    "Mvl.BV.C56_restart_fails",
    "Mvl.BV.C56_vsids_restart_fails",
    "Mvl.BV.C56_two_valued_partial"
   ],
   "note": "proved for -restart not positive (the default) and files with at most one clause about a single variable; also for satisfiable files with any number of such clauses about two-valued variables; with restarts a run can go on forever"
  },
  {
   "property": "C57",
   "status": "partial",
   "theorems": [
    "Mvl.BV.C57_bitvec_check_partial",
    "Mvl.BV.C57_bitvec_vsids_partial",
    "Mvl.BV.C57_restart_fails"
   ],
   "note": "proved for -restart not positive (the default) and for -vsids with any -restart; false with -restart and the default choice of literals (witness: SAT, then INCORRECT)"
  },
  {
   "property": "C58",
   "status": "proved",
   "theorems": [
    "Mvl.BV.C58_bitvec_counts"
   ],
   "note": "for every setting of -restart"
  },
  {
   "property": "C59",
   "status": "proved",
   "theorems": [
    "Mvl.BV.C59_bitvec_entailed"
   ],
   "note": "for every setting of -restart"
  },
  {
   "property": "C60",
   "status": "partial",
   "theorems": [
    "Mvl.BV.C60_bitvec_agrees_partial",
    "Mvl.BV.C60_bitvec_vsids_partial",
    "Mvl.BV.C60_restart_fails"
   ],
   "note": "proved for -restart not positive (the default); with -vsids and restarts a SAT is never contradicted; false with restarts in the default mode; if the other solver runs with -wl, for files without repeated literals (see C08)"
  },
  {
   "property": "C61",
   "status": "proved",
   "theorems": [
    "Mvl.C61_more_time",
    "Mvl.C61_same_report",
    "Mvl.BV.C61_bitvec_more_time",
    "Mvl.BV.C61_bitvec_same_report"
   ],
   "note": ""
  },
  {
   "property": "C62",
   "status": "proved",
   "theorems": [
    "Mvl.C62_learn_new",
    "Mvl.C62_learn_distinct",
    "Mvl.C62_learn_bound",
    "Mvl.C62_watch_new",
    "Mvl.C62_watch_distinct",
    "Mvl.C62_watch_bound"
   ],
   "note": ""
  },
  {
   "property": "C63",
   "status": "proved",
   "theorems": [
    "Mvl.C63_learn_asserting",
    "Mvl.C63_watch_asserting"
   ],
   "note": ""
  },
  {
   "property": "C64",
   "status": "proved",
   "theorems": [
    "Mvl.BV.C64_bitvec_options",
    "Mvl.BV.bitvec_menu"
   ],
   "note": "For every list of the documented options plus -restart, -vsids, -wl with numbers that fit in an int."
  },
  {
   "property": "C65",
   "status": "partial",
   "theorems": [
    "Mvl.BV.C65_bitvec_partial",
    "Mvl.BV.C65_bitvec_checked",
    "Mvl.BV.C65_bitvec_vsids_partial",
    "Mvl.BV.C65_bitvec_answers_partial",
    "Mvl.BV.C65_restart_fails"
   ],
   "note": "Answers right from argv and file text without -restart; with -vsids SAT is right with any options; with any options a checked SAT is right and the counts exact. An answer is printed if at most one clause is about a single variable. Fails with -restart (witness)."
  },
  {
   "property": "C66",
   "status": "partial",
   "theorems": [
    "Mvl.C66_b2f_solve_partial",
    "Mvl.C66_b2f_answers_partial",
    "Mvl.C31_gap_fails"
   ],
   "note": "For files that use the variables 1..N without gap, with at least one clause, no empty clause and converted lines under 3000 characters (C22/C31). With -wl, and for the existence of an answer, no repeated literal. Fails for every formula whose variables are not 1..N (C31_gap_fails)."
  },
  {
   "property": "C67",
   "status": "partial",
   "theorems": [
    "Mvl.C67_linenc_b2f_lines_partial",
    "Mvl.C67_linenc_b2f_solve_partial"
   ],
   "note": "For domains of at least 3 values, when no converted line has 3000 characters (for instance domains and clauses of at most 230 elements); two-valued variables are encoded wrongly (C26_fails)."
  },
  {
   "property": "C68",
   "status": "proved",
   "theorems": [
    "Mvl.C68_queens_cnf",
    "Mvl.C68_queens_agree",
    "Mvl.queensCnf_uses"
   ],
   "note": ""
  },
  {
   "property": "C69",
   "status": "partial",
   "theorems": [
    "Mvl.C69_queens_b2f_fails"
   ],
   "note": "Fails for every board of 1 to 230 rows: the blank line at the end becomes an empty clause. Negation proved."
  },
  {
   "property": "C70",
   "status": "proved",
   "theorems": [
    "Mvl.C70_final_newline",
    "Mvl.C70_solveFile"
   ],
   "note": ""
  },
  {
   "property": "C71",
   "status": "partial",
   "theorems": [
    "Mvl.C71_pigeonPy_clauses",
    "Mvl.C71_pigeonPy_fails"
   ],
   "note": "The clauses are right; the file has no domain lines and every solver has undefined behaviour on it, for every n >= 2. Negation proved."
  },
  {
   "property": "C72",
   "status": "proved",
   "theorems": [
    "Mvl.Orig.C72_original_sat",
    "Mvl.Orig.C72_no_missing_branch",
    "Mvl.Orig.C72_example",
    "Mvl.Orig.C72_empty_clause"
   ],
   "note": "false for empty clauses (witness), which well-formed problems do not have"
  },
  {
   "property": "C73",
   "status": "partial",
   "theorems": [
    "Mvl.Orig.C73_original_ch_unsat_partial",
    "Mvl.Orig.C73_fails",
    "Mvl.Orig.C73_example"
   ],
   "note": "proved when there was no decision; otherwise only that some variable cannot have some value. The full claim is false: witness with a satisfiable problem."
  },
  {
   "property": "C74",
   "status": "partial",
   "theorems": [
    "Mvl.Orig.C74_original_nc_unsat_partial",
    "Mvl.Orig.C74_fails",
    "Mvl.Orig.C74_example"
   ],
   "note": "proved when decisions = backtracks; in general each solution uses one of the values excluded at the backtracks. The full claim is false: witness with a satisfiable problem."
  },
  {
   "property": "C75",
   "status": "proved",
   "theorems": [
    "Mvl.Orig.C75_original_ends",
    "Mvl.Orig.C75_original_timeout",
    "Mvl.Orig.C75_example"
   ],
   "note": ""
  },
  {
   "property": "C76",
   "status": "partial",
   "theorems": [
    "Mvl.Orig.C76_original_ch_partial",
    "Mvl.Orig.C76_original_nc_partial",
    "Mvl.Orig.C76_example",
    "Mvl.Orig.C76_double_delete",
    "Mvl.Orig.C76_stack_underflow"
   ],
   "note": "proved when delete of a bad pointer goes unnoticed, for -solvenc with a unit clause in the problem. The full claim is false: two witnesses."
  },
  {
   "property": "C77",
   "status": "proved",
   "theorems": [
    "Mvl.Orig.C77_original_ch_statistics",
    "Mvl.Orig.C77_original_nc_statistics",
    "Mvl.Orig.C77_example"
   ],
   "note": ""
  },
  {
   "property": "C78",
   "status": "partial",
   "theorems": [
    "Mvl.Orig.C78_original_file",
    "Mvl.Orig.C78_original_mismatch",
    "Mvl.Orig.C78_mvcnf_fails",
    "Mvl.Orig.C80_example"
   ],
   "note": "proved for problem lines 'p cnf N M'. A file that begins with the 'p mvcnf N M' of the README has undefined behaviour: two numbers never read are compared (proved)."
  },
  {
   "property": "C79",
   "status": "proved",
   "theorems": [
    "Mvl.Orig.C79_original_command_line",
    "Mvl.Orig.C79_original_required",
    "Mvl.Orig.C79_original_mismatch",
    "Mvl.Orig.C79_original_no_file",
    "Mvl.Orig.C79_example",
    "Mvl.Orig.C80_example"
   ],
   "note": ""
  },
  {
   "property": "C80",
   "status": "partial",
   "theorems": [
    "Mvl.Orig.C80_original_answers_partial",
    "Mvl.Orig.C80_fails",
    "Mvl.Orig.C80_example"
   ],
   "note": "proved: it ends, SAT is right and verified, TIMEOUT only after the limit, UNSAT without a decision is right. UNSAT after a decision can be wrong (witness from a file)."
  },
  {
   "property": "C81",
   "status": "partial",
   "theorems": [
    "Mvl.BV.C81_bitvec_one_partial",
    "Mvl.BV.C81_fails"
   ],
   "note": "proved without -restart when no clause has a literal v!=0 on a one-value variable v. With such a literal SAT can be wrong, or a literal that does not exist is read (witnesses). All positive theorems C36-C38, C54-C60, C65 about this solver now also cover such files."
  },
  {
   "property": "C82",
   "status": "partial",
   "theorems": [
    "Mvl.Orig.C82_original_agrees_partial",
    "Mvl.Orig.C82_fails"
   ],
   "note": "proved: SAT of the original solver is never contradicted, nor its UNSAT without a decision (the others with -wl on files without repeated literals, the bit-vector solver without -restart). UNSAT after a decision is contradicted on some file (witness, C73)."
  },
  {
   "property": "C83",
   "status": "proved",
   "theorems": [
    "Mvl.C83_weaker",
    "Mvl.C83_order",
    "Mvl.BV.C83_bitvec_weaker"
   ],
   "note": "same answer: for files without repeated literals and without a time limit; never opposite: for all files (with -wl, without repeated literals), and for the bit-vector solver without -restart"
  },
  {
   "property": "C84",
   "status": "proved",
   "theorems": [
    "Mvl.C84_renamed",
    "Mvl.BV.C84_bitvec_renamed"
   ],
   "note": "for files without repeated literals and without a time limit; for the bit-vector solver never opposite answers, without -restart"
  },
  {
   "property": "C85",
   "status": "proved",
   "theorems": [
    "Mvl.C85_reading",
    "Mvl.BV.C85_bitvec_reading",
    "Mvl.Orig.C85_original_reading"
   ],
   "note": "both directions, for the three programs"
  },
  {
   "property": "C86",
   "status": "proved",
   "theorems": [
    "Mvl.C86_random_formula",
    "Mvl.C86_random_all"
   ],
   "note": "for at least one variable and clause length at least 1"
  },
  {
   "property": "C87",
   "status": "partial",
   "theorems": [
    "Mvl.C87_dimacs_partial",
    "Mvl.C87_printed_fails"
   ],
   "note": "false for every size: print adds a blank line, which becomes an empty clause (C87_printed_fails). Proved for the text without it, when the formula uses the variables 1..N (otherwise C31_gap_fails) and, with -wl, repeats no literal in a clause."
  },
  {
   "property": "C88",
   "status": "proved",
   "theorems": [
    "Mvl.C88_coin_formula",
    "Mvl.C88_coin_all"
   ],
   "note": "the average, a float, is not modelled"
  },
  {
   "property": "C89",
   "status": "partial",
   "theorems": [
    "Mvl.C89_coin_solve_partial",
    "Mvl.C89_fails"
   ],
   "note": "proved for formulas without empty clause that use the variables 1..N, up to 230 variables; for all others it fails (C89_fails)"
  },
  {
   "property": "C90",
   "status": "partial",
   "theorems": [
    "Mvl.BV.C90_b2f_bitvec_partial",
    "Mvl.BV.C90_b2f_bitvec_answers_partial",
    "Mvl.BV.C90_fails",
    "Mvl.C31_gap_fails"
   ],
   "note": "answers right without -restart for formulas that use the variables 1..N, with non-empty clauses and converted lines under 3000 characters; an answer is printed for every satisfiable one, and for every one with at most one clause about a single variable. False in general: witness 1 0 / -1 0."
  },
  {
   "property": "C91",
   "status": "partial",
   "theorems": [
    "Mvl.Orig.C91_b2f_original_partial",
    "Mvl.Orig.C91_fails"
   ],
   "note": "it ends, SAT is right, UNSAT without a decision (with -solvenc: with as many decisions as backtracks) is right. UNSAT after a decision is wrong on some formula (witness)."
  },
  {
   "property": "C92",
   "status": "proved",
   "theorems": [
    "Mvl.C92_records",
    "Mvl.C92_answers"
   ],
   "note": "the pointer-level search is proved equal to the list-level one of C48 and C52, step by step"
  },
  {
   "property": "C93",
   "status": "proved",
   "theorems": [
    "Mvl.C93_analysis",
    "Mvl.C93_learn",
    "Mvl.C93_watch",
    "Mvl.BV.C93_bitvec_analysis",
    "Mvl.BV.C93_bitvec"
   ],
   "note": "the analysis on objects is proved to end like the one on values; the state and the learned clause are the same up to addresses"
  },
  {
   "property": "C94",
   "status": "partial",
   "theorems": [
    "Mvl.BV.C94_records_partial",
    "Mvl.BV.C94_reports_partial",
    "Mvl.BV.C94_answers_partial",
    "Mvl.BV.C94_conflict",
    "Mvl.BV.C94_destructors_partial",
    "Mvl.BV.C94_fails"
   ],
   "note": "proved without restarts, a single conflict also with them; with restarts, or with several clauses about a single variable, the full claim is false (C94_fails)"
  },
  {
   "property": "C95",
   "status": "proved",
   "theorems": [
    "Mvl.C95_genben",
    "Mvl.C95_convert",
    "Mvl.C95_negative_clausesize"
   ],
   "note": "numbers given as decimal digits that fit an int"
  },
  {
   "property": "C96",
   "status": "partial",
   "theorems": [
    "Mvl.C96_only_output",
    "Mvl.C96_no_input",
    "Mvl.C96_no_output",
    "Mvl.C96_converted_partial",
    "Mvl.C96_in_place_fails"
   ],
   "note": "false if input and output of a converter have the same name: the output is emptied before the input is read (C96_in_place_fails)"
  },
  {
   "property": "C97",
   "status": "partial",
   "theorems": [
    "Mvl.C97_three_runs_partial"
   ],
   "note": "for two-valued variables the linear encoding itself is wrong (C26_fails); longer lines are cut by the solver (C31_long_fails)"
  },
  {
   "property": "C98",
   "status": "partial",
   "theorems": [
    "Mvl.C98_generate_solve_partial"
   ],
   "note": "domains of random size or of a fixed size of at least 1, clauses of 1 to 130 literals; longer clauses can make lines too long for the solver (C22), clauses of size 0 are read as empty clauses (C32_fails)"
  },
  {
   "property": "C99",
   "status": "partial",
   "theorems": [
    "Mvl.C99_generate_bitvec_partial",
    "Mvl.C99_generate_original_partial"
   ],
   "note": "clauses of 1 to 130 literals; bit-vector solver without -restart and domains of at most 64 values, an answer is proved to be printed for clauses of at least 2 literals; original solver: fixed domain size of at least 2, UNSAT after a decision can be wrong (C73_fails)"
  },
  {
   "property": "C100",
   "status": "partial",
   "theorems": [
    "Mvl.C100_solvech",
    "Mvl.C100_solvech_decides",
    "Mvl.C100_solvenc_partial",
    "Mvl.C100_solvenc_decides_partial",
    "Mvl.C100_no_file"
   ],
   "note": "-solvech in full; -solvenc -wl for files whose clauses repeat no literal (otherwise the answer can be wrong, C44_dup_fails); -solvenc is proved to answer for such files; -clausesize not negative, no -verbose"
  },
  {
   "property": "C101",
   "status": "partial",
   "theorems": [
    "Mvl.C101_solvech_partial",
    "Mvl.C101_solvenc_partial",
    "Mvl.C101_lazy_fails"
   ],
   "note": "false with -lazy (C101_lazy_fails); with -wl for files whose clauses repeat no literal; domains of at least two values"
  },
  {
   "property": "C102",
   "status": "partial",
   "theorems": [
    "Mvl.C102_numbers",
    "Mvl.C102_solvenc",
    "Mvl.C102_parse_results",
    "Mvl.C102_rows",
    "Mvl.C102_row_fails",
    "Mvl.C102_queens_row"
   ],
   "note": "all proved except that every run has its own row, which is false: rows end only after runs with SAT (C102_rows, C102_row_fails)"
  },
  {
   "property": "C103",
   "status": "partial",
   "theorems": [
    "Mvl.BV.C103_bitvec_partial",
    "Mvl.BV.C103_checked",
    "Mvl.BV.C103_vsids",
    "Mvl.BV.C103_decides_partial",
    "Mvl.BV.C103_numbers",
    "Mvl.BV.C103_restart_fails",
    "Mvl.BV.C103_no_file"
   ],
   "note": "the answer without -restart (with it UNSAT can be wrong, C103_restart_fails); with -vsids SAT is right with restarts too; the sets whenever CORRECT is printed, and the statistics, in full; -clausesize not negative"
  },
  {
   "property": "C104",
   "status": "partial",
   "theorems": [
    "Mvl.Orig.C104_original_partial",
    "Mvl.Orig.C104_numbers",
    "Mvl.Orig.C104_fails",
    "Mvl.Orig.C104_messages"
   ],
   "note": "all but UNSAT after a decision, which can be wrong (C104_fails)"
  },
  {
   "property": "C105",
   "status": "proved",
   "theorems": [
    "Mvl.C105_copy",
    "Mvl.C105_pigeons",
    "Mvl.C105_pigeons_unsat",
    "Mvl.C105_queens",
    "Mvl.C105_queens_decides"
   ],
   "note": "the directory name and the texts of the times hold no newline, zero byte, colon or Th"
  },
  {
   "property": "C106",
   "status": "partial",
   "theorems": [
    "Mvl.C106_colouring",
    "Mvl.C106_solved",
    "Mvl.C106_folders",
    "Mvl.C106_skip_fails",
    "Mvl.C106_skip_witness",
    "Mvl.C106_exit"
   ],
   "note": "all proved except -s, which is false: the result file is removed and then opened again for the clauses, so clauses without domain lines are left, which no solver can read (C106_skip_fails, C106_skip_witness); solver part for at least two colours and graphs without loops"
  },
  {
   "property": "C107",
   "status": "partial",
   "theorems": [
    "Mvl.C107_three_runs_partial",
    "Mvl.C107_sat_fails",
    "Mvl.C107_gap_witness"
   ],
   "note": "formula of the right size, conversion, other files: proved. The solver part is proved exactly when the formula uses the variables 1..N without a gap; with a gap no solver gets to an answer (proved for all such formulas). -sat 1 can give UNSAT (C107_sat_fails). Clauses of 1 to 230 literals, at least one clause."
  },
  {
   "property": "C108",
   "status": "partial",
   "theorems": [
    "Mvl.C108_collect",
    "Mvl.C108_rows",
    "Mvl.C108_original_fails"
   ],
   "note": "the exact output is proved for all mixtures of runs; rows of their own is false: only runs that print a model end a row, so runs of the original solver never do (C108_original_fails)"
  },
  {
   "property": "C109",
   "status": "partial",
   "theorems": [
    "Mvl.C109_solvech",
    "Mvl.C109_solvenc",
    "Mvl.C109_decides",
    "Mvl.C109_drawn_partial",
    "Mvl.C109_lazy_fails",
    "Mvl.BV.C109_bitvec_partial",
    "Mvl.BV.C109_bitvec_decides_partial",
    "Mvl.BV.C109_restart_fails"
   ],
   "note": "answers of the solver proved for all options; the printed values without -lazy (it fails with it: C109_lazy_fails), the bit-vector program without -restart (it fails with it: C109_restart_fails, four queens and -restart 1 end in an undefined operation); runs that also print -verbose output are not covered"
  },
  {
   "property": "C110",
   "status": "proved",
   "theorems": [
    "Mvl.C110_solvech",
    "Mvl.C110_solvenc",
    "Mvl.C110_genben",
    "Mvl.C110_word",
    "Mvl.C110_solvech_fits",
    "Mvl.C110_solvenc_fits",
    "Mvl.BV.C110_bitvec",
    "Mvl.Orig.C110_original",
    "Mvl.BV.C64_bitvec_options",
    "Mvl.Orig.C79_original_command_line"
   ],
   "note": "numbers that fit: C110_*_fits, for the other programs C64 and C79; added after edit M413 (overflow of atoi) was not noticed by any theorem"
  },
  {
   "property": "C111",
   "status": "partial",
   "theorems": [
    "Mvl.C111_told",
    "Mvl.C111_decides",
    "Mvl.C111_drawn_partial",
    "Mvl.C111_more",
    "Mvl.C111_chromatic",
    "Mvl.BV.C111_bitvec_partial",
    "Mvl.BV.C111_bitvec_decides_partial",
    "Mvl.Orig.C111_original_partial",
    "Mvl.Orig.C111_original_refused"
   ],
   "note": "solver: answers with all options, values without -lazy (it fails with it, C109_lazy_fails); bit-vector solver without -restart, at most 64 colours; original solver: UNSAT after a decision left out (it can be wrong, C104_fails, C112_queens_fails). Graphs without loops, at least 2 colours, numbers that fit an int."
  },
  {
   "property": "C112",
   "status": "partial",
   "theorems": [
    "Mvl.Orig.C112_original_partial",
    "Mvl.Orig.C112_pigeons",
    "Mvl.Orig.C112_answers",
    "Mvl.Orig.C112_pigeons_answers",
    "Mvl.Orig.C112_queens_fails",
    "Mvl.Orig.C112_pigeons_fails"
   ],
   "note": "SAT right, UNSAT without a decision right, for all puzzles and options; -solvech ends with SAT or UNSAT when delete of a bad pointer goes unnoticed and the clock is never late (C112_answers), for 3 to 1000 pigeons with UNSAT (C112_pigeons_answers). UNSAT is false in general: -solvech prints UNSAT for four queens, which can be placed (C112_queens_fails); -solvenc on three pigeons is undefined (C112_pigeons_fails)."
  },
  {
   "property": "C113",
   "status": "partial",
   "theorems": [
    "Mvl.BV.C113_linenc_b2f_bitvec_partial"
   ],
   "note": "two-valued variables are encoded wrongly (C26_fails), longer lines are cut (C31_long_fails), with -restart the answer can be wrong (C55_restart_fails); that UNSAT is printed for every unsatisfiable file is not proved (contradicting clauses about one variable are read out of bounds, C38_two_valued_fails)"
  }
 ]
}
