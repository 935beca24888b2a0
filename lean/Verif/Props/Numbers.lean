import Verif.Props.Program
import Verif.Props.Output
import Verif.Props.BVOutput
import Verif.Props.OrigOutput

/-!
# Numbers on the command line

C110: what the programs do with an option whose number is missing, too large, or not a number.
-/

namespace Mvl

variable {S : Type}

/-- What follows the option is no number that fits into an `int`: nothing, or a number that is too large or too small. -/
def BadNumber (r : List (List Char)) : Prop :=
  r = [] ∨ (∃ n more, 2147483647 < n ∧ r = natText n :: more) ∨ ∃ n more, 2147483648 < n ∧ r = ('-' :: natText n) :: more

theorem scanDigits_big {neg : Bool} {n : Nat} (h : if neg then 2147483648 < n else 2147483647 < n) :
    scanDigits neg (natText n) = .ub := by
  have h' := takeWhile_digits (fun c hc => natText_digit (n := n) c hc) noDigit_nil
  rw [List.append_nil] at h'
  unfold scanDigits
  simp only [h'.1, h'.2, digitsVal_natText, if_neg (natText_ne_nil n)]
  cases neg
  · simp only [Bool.false_eq_true, if_false] at h ⊢
    rw [if_neg (by omega)]
  · simp only [if_true] at h ⊢
    rw [if_neg (by omega)]

theorem atoi_big {n : Nat} (h : 2147483647 < n) : atoi (natText n) = .ub := by
  have e : scanInt (natText n) = .ub := by
    rw [← scanDigits_big (neg := false) (n := n) (by simpa using h)]
    cases e : natText n with
    | nil => exact absurd e (natText_ne_nil n)
    | cons c cs => exact scanInt_digit (natText_digit c (by rw [e]; exact List.mem_cons_self))
  unfold atoi
  rw [e]

theorem atoi_small {n : Nat} (h : 2147483648 < n) : atoi ('-' :: natText n) = .ub := by
  have e : scanInt ('-' :: natText n) = .ub := by
    rw [← scanDigits_big (neg := true) (n := n) (by simpa using h)]
    rfl
  unfold atoi
  rw [e]

/-- A text that begins with neither a digit, a sign nor a blank is read as 0. -/
theorem atoi_word {c : Char} {w : List Char} (h1 : c.isDigit = false) (h2 : isSpace c = false) (h3 : c ≠ '-') (h4 : c ≠ '+') :
    atoi (c :: w) = .ok 0 := by
  have e : scanInt (c :: w) = .ok none := by
    unfold scanInt
    rw [show skipWs (c :: w) = c :: w from by simp [skipWs, h2]]
    split
    · rename_i r heq; cases heq; exact absurd rfl h3
    · rename_i r heq; cases heq; exact absurd rfl h4
    · unfold scanDigits
      simp [h1]
  unfold atoi
  rw [e]

theorem parse_bad {C : Type} {opt : List Char → Option (OptKind C)} {o : List Char} {f : C → Int → C} {c : C}
    {r : List (List Char)} (ho : opt o = some (.num f)) (hr : BadNumber r) : parseOpts opt c (o :: r) = .ub := by
  rcases hr with rfl | ⟨n, more, hn, rfl⟩ | ⟨n, more, hn, rfl⟩ <;> rw [parseOpts, ho]
  · dsimp only
    rw [atoi_big hn]
  · dsimp only
    rw [atoi_small hn]

theorem parse_pre {C O : Type} {opt : List Char → Option (OptKind C)} {args : O → List (List Char)} {Ok : O → Prop}
    (h : ∀ o, Ok o → ∀ c, ∃ c', ∀ r, parseOpts opt c (args o ++ r) = parseOpts opt c' r) :
    ∀ (os : List O), (∀ o ∈ os, Ok o) → ∀ c, ∃ c', ∀ r, parseOpts opt c (os.flatMap args ++ r) = parseOpts opt c' r
  | [], _, c => ⟨c, fun _ => rfl⟩
  | o :: os, hok, c => by
    obtain ⟨c1, h1⟩ := h o (hok o (.head _)) c
    obtain ⟨c2, h2⟩ := parse_pre h os (fun o' h' => hok o' (.tail _ h')) c1
    refine ⟨c2, fun r => ?_⟩
    rw [List.flatMap_cons, List.append_assoc, h1, h2]

theorem solvech_pre (o : SolverOpt) (ho : o.Ok) (c : CommandLine) :
    ∃ c', ∀ r, parseOpts solvechOpt c (o.args ++ r) = parseOpts solvechOpt c' r := by
  cases o with
  | time n => exact ⟨_, fun r => parseOpts_num (opt := solvechOpt) (o := "-time".toList) rfl (atoi_nat ho)⟩
  | _ => exact ⟨_, fun r => rfl⟩

theorem solvenc_pre (o : SolverOpt) (ho : o.Ok) (c : CommandLine) :
    ∃ c', ∀ r, parseOpts solvencOpt c (o.args ++ r) = parseOpts solvencOpt c' r := by
  cases o with
  | time n => exact ⟨_, fun r => parseOpts_num (opt := solvencOpt) (o := "-time".toList) rfl (atoi_nat ho)⟩
  | _ => exact ⟨_, fun r => rfl⟩

/-- **C110**, `-solvech`: after any documented options, `-var`, `-clause`, `-clausesize` or `-time` with a number that is
missing or does not fit makes the run undefined, whatever the file. -/
theorem C110_solvech (w : World S) (fuel : Nat) (t : Times) (os : List SolverOpt) (h : ∀ o ∈ os, o.Ok) {o : String}
    (ho : o ∈ ["-var", "-clause", "-clausesize", "-time"]) {r : List (List Char)} (hr : BadNumber r) :
    programText w fuel ("-solvech".toList :: (os.flatMap SolverOpt.args ++ o.toList :: r)) t = .ub := by
  have key : parseCommandLine ("-solvech".toList :: (os.flatMap SolverOpt.args ++ o.toList :: r)) = .ub := by
    obtain ⟨c', h1⟩ := parse_pre solvech_pre os h {}
    refine (h1 (o.toList :: r)).trans ?_
    simp only [List.mem_cons, List.not_mem_nil, or_false] at ho
    rcases ho with rfl | rfl | rfl | rfl <;> exact parse_bad rfl hr
  unfold programText
  rw [key]
  rfl

/-- **C110**, `-solvenc`, also for `-restart`. -/
theorem C110_solvenc (w : World S) (fuel : Nat) (t : Times) (os : List SolverOpt) (h : ∀ o ∈ os, o.Ok) {o : String}
    (ho : o ∈ ["-var", "-clause", "-clausesize", "-time", "-restart"]) {r : List (List Char)} (hr : BadNumber r) :
    programText w fuel ("-solvenc".toList :: (os.flatMap SolverOpt.args ++ o.toList :: r)) t = .ub := by
  have key : parseCommandLine ("-solvenc".toList :: (os.flatMap SolverOpt.args ++ o.toList :: r)) = .ub := by
    obtain ⟨c', h1⟩ := parse_pre solvenc_pre os h {}
    refine (h1 (o.toList :: r)).trans ?_
    simp only [List.mem_cons, List.not_mem_nil, or_false] at ho
    rcases ho with rfl | rfl | rfl | rfl | rfl <;> exact parse_bad rfl hr
  unfold programText
  rw [key]
  rfl

/-- **C110**, `-genben`: any of its number options. -/
theorem C110_genben (m : Machine S) (fuel : Nat) (d : Disk) (os : List GenOpt) (h : ∀ o ∈ os, o.Ok) {o : String}
    (ho : o ∈ ["-var", "-clause", "-clausesize", "-sat", "-domain", "-drand", "-bool"]) {r : List (List Char)}
    (hr : BadNumber r) : runMain m fuel ("-genben".toList :: (os.flatMap GenOpt.args ++ o.toList :: r)) d = .ub := by
  have key : parseCommandLine ("-genben".toList :: (os.flatMap GenOpt.args ++ o.toList :: r)) = .ub := by
    obtain ⟨c', h1⟩ := parse_pre (Ok := GenOpt.Ok) (fun o ho c => ⟨_, genben_piece o ho c⟩) os h {}
    refine (h1 (o.toList :: r)).trans ?_
    simp only [List.mem_cons, List.not_mem_nil, or_false] at ho
    rcases ho with rfl | rfl | rfl | rfl | rfl | rfl | rfl <;> exact parse_bad rfl hr
  unfold runMain
  rw [key]
  rfl

/-- **C110**, a word that is no number is read as 0, without a message: here after `-time`, as the last option. -/
theorem C110_word (os : List SolverOpt) (h : ∀ o ∈ os, o.Ok) {x : Char} {w : List Char} (h1 : x.isDigit = false)
    (h2 : isSpace x = false) (h3 : x ≠ '-') (h4 : x ≠ '+') {cmd : String} (hc : cmd = "-solvech" ∨ cmd = "-solvenc") :
    ∃ c, parseCommandLine (cmd.toList :: (os.flatMap SolverOpt.args ++ ["-time".toList, x :: w])) = .ok c ∧ c.TIME = 0 := by
  rcases hc with rfl | rfl
  · obtain ⟨c', k1⟩ := parse_pre solvech_pre os h {}
    refine ⟨{ c' with TIME := 0 }, (k1 _).trans ?_, rfl⟩
    exact parseOpts_num (opt := solvechOpt) (o := "-time".toList) rfl (atoi_word h1 h2 h3 h4)
  · obtain ⟨c', k1⟩ := parse_pre solvenc_pre os h {}
    refine ⟨{ c' with TIME := 0 }, (k1 _).trans ?_, rfl⟩
    exact parseOpts_num (opt := solvencOpt) (o := "-time".toList) rfl (atoi_word h1 h2 h3 h4)

/-- **C110**, numbers that fit are read as they are; `-solvech`. -/
theorem C110_solvech_fits (os : List SolverOpt) (h : ∀ o ∈ os, o.Ok) {n : Nat} (hn : n ≤ 2147483647) {o : String}
    {field : CommandLine → Int} (ho : (o, field) ∈ [("-var", CommandLine.NUM_VAR), ("-clause", CommandLine.NUM_CLAUSE),
      ("-clausesize", CommandLine.CLAUSE_SIZE), ("-time", CommandLine.TIME)]) :
    ∃ c, parseCommandLine ("-solvech".toList :: (os.flatMap SolverOpt.args ++ [o.toList, natText n])) = .ok c ∧ field c = n := by
  obtain ⟨c', h1⟩ := parse_pre solvech_pre os h {}
  simp only [List.mem_cons, List.not_mem_nil, or_false, Prod.mk.injEq] at ho
  rcases ho with ⟨rfl, rfl⟩ | ⟨rfl, rfl⟩ | ⟨rfl, rfl⟩ | ⟨rfl, rfl⟩
  · exact ⟨{ c' with NUM_VAR := n }, (h1 _).trans (parseOpts_num (opt := solvechOpt) (o := "-var".toList) rfl (atoi_nat hn)), rfl⟩
  · exact ⟨{ c' with NUM_CLAUSE := n }, (h1 _).trans (parseOpts_num (opt := solvechOpt) (o := "-clause".toList) rfl (atoi_nat hn)), rfl⟩
  · exact ⟨{ c' with CLAUSE_SIZE := n }, (h1 _).trans (parseOpts_num (opt := solvechOpt) (o := "-clausesize".toList) rfl (atoi_nat hn)), rfl⟩
  · exact ⟨{ c' with TIME := n }, (h1 _).trans (parseOpts_num (opt := solvechOpt) (o := "-time".toList) rfl (atoi_nat hn)), rfl⟩

/-- **C110**, numbers that fit; `-solvenc`. -/
theorem C110_solvenc_fits (os : List SolverOpt) (h : ∀ o ∈ os, o.Ok) {n : Nat} (hn : n ≤ 2147483647) {o : String}
    {field : CommandLine → Int} (ho : (o, field) ∈ [("-var", CommandLine.NUM_VAR), ("-clause", CommandLine.NUM_CLAUSE),
      ("-clausesize", CommandLine.CLAUSE_SIZE), ("-time", CommandLine.TIME), ("-restart", CommandLine.RESTARTS)]) :
    ∃ c, parseCommandLine ("-solvenc".toList :: (os.flatMap SolverOpt.args ++ [o.toList, natText n])) = .ok c ∧ field c = n := by
  obtain ⟨c', h1⟩ := parse_pre solvenc_pre os h {}
  simp only [List.mem_cons, List.not_mem_nil, or_false, Prod.mk.injEq] at ho
  rcases ho with ⟨rfl, rfl⟩ | ⟨rfl, rfl⟩ | ⟨rfl, rfl⟩ | ⟨rfl, rfl⟩ | ⟨rfl, rfl⟩
  · exact ⟨{ c' with NUM_VAR := n }, (h1 _).trans (parseOpts_num (opt := solvencOpt) (o := "-var".toList) rfl (atoi_nat hn)), rfl⟩
  · exact ⟨{ c' with NUM_CLAUSE := n }, (h1 _).trans (parseOpts_num (opt := solvencOpt) (o := "-clause".toList) rfl (atoi_nat hn)), rfl⟩
  · exact ⟨{ c' with CLAUSE_SIZE := n }, (h1 _).trans (parseOpts_num (opt := solvencOpt) (o := "-clausesize".toList) rfl (atoi_nat hn)), rfl⟩
  · exact ⟨{ c' with TIME := n }, (h1 _).trans (parseOpts_num (opt := solvencOpt) (o := "-time".toList) rfl (atoi_nat hn)), rfl⟩
  · exact ⟨{ c' with RESTARTS := n }, (h1 _).trans (parseOpts_num (opt := solvencOpt) (o := "-restart".toList) rfl (atoi_nat hn)), rfl⟩

/-- Ten thousand million milliseconds; the option without a number; a word. -/
example : BadNumber ["10000000000".toList, "-file".toList, "a".toList] ∧ BadNumber [] ∧
    BadNumber ["-9999999999".toList] ∧ ('t'.isDigit = false ∧ isSpace 't' = false) :=
  ⟨.inr (.inl ⟨10000000000, ["-file".toList, "a".toList], by decide, by decide +kernel⟩), .inl rfl,
    .inr (.inr ⟨9999999999, [], by decide, by decide +kernel⟩), by decide⟩

end Mvl

namespace Mvl.BV

variable {S : Type}

theorem bsolvenc_pre (o : BOpt) (ho : o.Ok) (c : BLine) :
    ∃ c', ∀ r, parseOpts bsolvencOpt c (o.args ++ r) = parseOpts bsolvencOpt c' r := by
  cases o with
  | time n => exact ⟨_, fun r => parseOpts_num (opt := bsolvencOpt) (o := "-time".toList) rfl (atoi_nat ho)⟩
  | restart n => exact ⟨_, fun r => parseOpts_num (opt := bsolvencOpt) (o := "-restart".toList) rfl (atoi_nat ho)⟩
  | var n => exact ⟨_, fun r => parseOpts_num (opt := bsolvencOpt) (o := "-var".toList) rfl (atoi_nat ho)⟩
  | clause n => exact ⟨_, fun r => parseOpts_num (opt := bsolvencOpt) (o := "-clause".toList) rfl (atoi_nat ho)⟩
  | _ => exact ⟨_, fun r => rfl⟩

/-- **C110**, the bit-vector program. -/
theorem C110_bitvec (w : World S) (fuel : Nat) (t : Times) (os : List BOpt) (h : ∀ o ∈ os, o.Ok) {o : String}
    (ho : o ∈ ["-var", "-clause", "-time", "-restart"]) {r : List (List Char)} (hr : BadNumber r) :
    bprogramText w fuel ("-solvenc".toList :: (os.flatMap BOpt.args ++ o.toList :: r)) t = .ub := by
  have key : bparseCommandLine ("-solvenc".toList :: (os.flatMap BOpt.args ++ o.toList :: r)) = .ub := by
    obtain ⟨c', h1⟩ := parse_pre bsolvenc_pre os h {}
    refine (h1 (o.toList :: r)).trans ?_
    simp only [List.mem_cons, List.not_mem_nil, or_false] at ho
    rcases ho with rfl | rfl | rfl | rfl <;> exact parse_bad rfl hr
  unfold bprogramText
  rw [key]
  rfl

end Mvl.BV

namespace Mvl.Orig

theorem osolve_pre (o : OOpt) (ho : o.Ok) (c : OLine) :
    ∃ c', ∀ r, parseOpts osolveOpt c (o.args ++ r) = parseOpts osolveOpt c' r := by
  cases o with
  | time n => exact ⟨_, fun r => parseOpts_num (opt := osolveOpt) (o := "-time".toList) rfl (atoi_nat ho)⟩
  | var n =>
    have ho : n + 1 < 2147483648 := ho
    exact ⟨_, fun r => parseOpts_num (opt := osolveOpt) (o := "-var".toList) rfl (atoi_nat (by show n ≤ 2147483647; omega))⟩
  | clause n => exact ⟨_, fun r => parseOpts_num (opt := osolveOpt) (o := "-clause".toList) rfl (atoi_nat ho)⟩
  | clausesize n =>
    have ho : n ≤ 1000000000 := ho
    exact ⟨_, fun r => parseOpts_num (opt := osolveOpt) (o := "-clausesize".toList) rfl
      (atoi_nat (by show n ≤ 2147483647; omega))⟩
  | _ => exact ⟨_, fun r => rfl⟩

/-- **C110**, the original program. -/
theorem C110_original (w : OWorld) (m : Mode) (fuel : Nat) (t : Times) (os : List OOpt) (h : ∀ o ∈ os, o.Ok) {o : String}
    (ho : o ∈ ["-var", "-clause", "-clausesize", "-time"]) {r : List (List Char)} (hr : BadNumber r) :
    oprogramText w fuel (m.arg :: (os.flatMap OOpt.args ++ o.toList :: r)) t = .ub := by
  have key : parseOpts osolveOpt {} (os.flatMap OOpt.args ++ o.toList :: r) = .ub := by
    obtain ⟨c', h1⟩ := parse_pre osolve_pre os h {}
    refine (h1 (o.toList :: r)).trans ?_
    simp only [List.mem_cons, List.not_mem_nil, or_false] at ho
    rcases ho with rfl | rfl | rfl | rfl <;> exact parse_bad rfl hr
  unfold oprogramText orunSolver
  rw [omode_arg]
  dsimp only [List.tail_cons]
  rw [key]
  rfl

end Mvl.Orig
