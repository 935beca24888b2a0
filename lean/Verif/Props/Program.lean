import Verif.Model.Program
import Verif.Props.Pipeline
import Verif.Props.CLI
import Verif.Props.GenBen
import Verif.Props.Benchmarks

/-!
# Properties of the whole program

C95 (options of the generator and of the converters), C96 (which files are written), C97 (three runs: `-linenc`, `-b2f`, a
solver), C98 (two runs: `-genben`, a solver).
-/

namespace Mvl

variable {S : Type}

/-! ## C95 -/

/-- Reading arguments option by option. -/
theorem parse_pieces {C O : Type} {opt : List Char → Option (OptKind C)} {args : O → List (List Char)} {eff : C → O → C} :
    ∀ (os : List O) (c : C), (∀ o ∈ os, ∀ c rest, parseOpts opt c (args o ++ rest) = parseOpts opt (eff c o) rest) →
      parseOpts opt c (os.flatMap args) = .ok (os.foldl eff c)
  | [], c, _ => by rw [List.flatMap_nil, parseOpts]; rfl
  | o :: os, c, h => by
    rw [List.flatMap_cons, h o List.mem_cons_self, parse_pieces os _ fun o ho => h o (List.mem_cons_of_mem _ ho)]
    rfl

/-- A field set by some options has the value of the last of them. -/
theorem foldl_last {C O α : Type} {eff : C → O → C} (π : C → α) (ex : O → Option α)
    (h : ∀ c o, π (eff c o) = (ex o).getD (π c)) : ∀ (os : List O) (c : C),
    π (os.foldl eff c) = (os.filterMap ex).getLast?.getD (π c)
  | [], c => rfl
  | o :: os, c => by
    rw [List.foldl_cons, foldl_last π ex h os, h]
    cases e : ex o with
    | none => rw [List.filterMap_cons_none e]; rfl
    | some a =>
      rw [List.filterMap_cons_some e, getLast_cons_getD]
      rfl

theorem parseOpts_text {C : Type} {opt : List Char → Option (OptKind C)} {o a : List Char} {f : C → Option (List Char) → C}
    {c : C} {args : List (List Char)} (ho : opt o = some (.text f)) :
    parseOpts opt c (o :: a :: args) = parseOpts opt (f c (some a)) args := by
  rw [parseOpts, ho]

theorem parseOpts_skip {C : Type} {opt : List Char → Option (OptKind C)} {o : List Char}
    {c : C} {args : List (List Char)} (ho : opt o = none) : parseOpts opt c (o :: args) = parseOpts opt c args := by
  rw [parseOpts.eq_def]
  dsimp only
  rw [ho]

/-- Options of `-genben`, and a word that is none. -/
inductive GenOpt where
  | var (n : Nat) | clause (n : Nat) | clausesize (n : Nat) | sat (n : Nat) | domain (n : Nat) | drand (n : Nat)
  | bool (n : Nat) | file (name : List Char) | other (w : List Char)

namespace GenOpt

/-- How the option is written. -/
def args : GenOpt → List (List Char)
  | var n => ["-var".toList, natText n]
  | clause n => ["-clause".toList, natText n]
  | clausesize n => ["-clausesize".toList, natText n]
  | sat n => ["-sat".toList, natText n]
  | domain n => ["-domain".toList, natText n]
  | drand n => ["-drand".toList, natText n]
  | bool n => ["-bool".toList, natText n]
  | file f => ["-file".toList, f]
  | other w => [w]

def Ok : GenOpt → Prop
  | var n | clause n | clausesize n | sat n | domain n | drand n | bool n => FileLine.Small n
  | file _ => True
  | other w => w ∉ ["-var", "-clause", "-clausesize", "-sat", "-domain", "-drand", "-bool", "-file"].map String.toList

def varOf : GenOpt → Option Int | var n => some n | _ => none
def clauseOf : GenOpt → Option Int | clause n => some n | _ => none
def sizeOf : GenOpt → Option Int | clausesize n => some n | _ => none
def satOf : GenOpt → Option Bool | sat n => some (n != 0) | _ => none
def domainOf : GenOpt → Option Int | domain n => some n | _ => none
def drandOf : GenOpt → Option Bool | drand n => some (n != 0) | _ => none
def boolOf : GenOpt → Option Bool | bool n => some (n != 0) | _ => none
def fileOf : GenOpt → Option (List Char) | file f => some f | _ => none

/-- What an option changes. -/
def eff (c : CommandLine) : GenOpt → CommandLine
  | var n => { c with NUM_VAR := n }
  | clause n => { c with NUM_CLAUSE := n }
  | clausesize n => { c with CLAUSE_SIZE := n }
  | sat n => { c with SAT_UNSAT := n != 0 }
  | domain n => { c with DOMAIN_SIZE := n }
  | drand n => { c with DRAND := n != 0 }
  | bool n => { c with BOOL_FINITE := n != 0 }
  | file f => { c with FILE := some f }
  | other _ => c

end GenOpt

theorem ne_zero_cast (n : Nat) : decide ((n : Int) ≠ 0) = (n != 0) := by
  cases n with
  | zero => rfl
  | succ n => simp; omega

theorem genben_piece (o : GenOpt) (ho : o.Ok) (c : CommandLine) (rest : List (List Char)) :
    parseOpts genbenOpt c (o.args ++ rest) = parseOpts genbenOpt (o.eff c) rest := by
  cases o with
  | var n => exact parseOpts_num (opt := genbenOpt) (o := "-var".toList) rfl (atoi_nat ho)
  | clause n => exact parseOpts_num (opt := genbenOpt) (o := "-clause".toList) rfl (atoi_nat ho)
  | clausesize n => exact parseOpts_num (opt := genbenOpt) (o := "-clausesize".toList) rfl (atoi_nat ho)
  | sat n =>
    have := parseOpts_num (opt := genbenOpt) (c := c) (args := rest) (o := "-sat".toList) rfl (atoi_nat ho)
    rw [ne_zero_cast] at this
    exact this
  | domain n => exact parseOpts_num (opt := genbenOpt) (o := "-domain".toList) rfl (atoi_nat ho)
  | drand n =>
    have := parseOpts_num (opt := genbenOpt) (c := c) (args := rest) (o := "-drand".toList) rfl (atoi_nat ho)
    rw [ne_zero_cast] at this
    exact this
  | bool n =>
    have := parseOpts_num (opt := genbenOpt) (c := c) (args := rest) (o := "-bool".toList) rfl (atoi_nat ho)
    rw [ne_zero_cast] at this
    exact this
  | file f => exact parseOpts_text (opt := genbenOpt) (o := "-file".toList) rfl
  | other w =>
    refine parseOpts_skip ?_
    simp only [GenOpt.Ok, List.map_cons, List.map_nil, List.mem_cons, List.not_mem_nil, or_false, not_or] at ho
    obtain ⟨h1, h2, h3, h4, h5, h6, h7, h8⟩ := ho
    unfold genbenOpt
    rw [if_neg h1, if_neg h2, if_neg h3, if_neg h4, if_neg h5, if_neg h6, if_neg h7, if_neg h8]

/-- **C95**, `-genben`: the options are read in any order, the last one of each kind counts, other words are skipped. -/
theorem C95_genben (os : List GenOpt) (h : ∀ o ∈ os, o.Ok) :
    ∃ c, parseCommandLine ("-genben".toList :: os.flatMap GenOpt.args) = .ok c ∧
      command ("-genben".toList :: os.flatMap GenOpt.args) = .genben ∧
      c.NUM_VAR = (os.filterMap GenOpt.varOf).getLast?.getD (-1) ∧
      c.NUM_CLAUSE = (os.filterMap GenOpt.clauseOf).getLast?.getD (-1) ∧
      c.CLAUSE_SIZE = (os.filterMap GenOpt.sizeOf).getLast?.getD 3 ∧
      c.SAT_UNSAT = (os.filterMap GenOpt.satOf).getLast?.getD true ∧
      c.DOMAIN_SIZE = (os.filterMap GenOpt.domainOf).getLast?.getD 10 ∧
      c.DRAND = (os.filterMap GenOpt.drandOf).getLast?.getD false ∧
      c.BOOL_FINITE = (os.filterMap GenOpt.boolOf).getLast?.getD false ∧
      c.FILE = (os.filterMap GenOpt.fileOf).getLast? := by
  refine ⟨os.foldl GenOpt.eff {}, parse_pieces (opt := genbenOpt) os {} fun o ho => genben_piece o (h o ho), rfl, ?_⟩
  refine ⟨foldl_last CommandLine.NUM_VAR (eff := GenOpt.eff) GenOpt.varOf ?_ os {}, foldl_last CommandLine.NUM_CLAUSE (eff := GenOpt.eff) GenOpt.clauseOf ?_ os {},
    foldl_last CommandLine.CLAUSE_SIZE (eff := GenOpt.eff) GenOpt.sizeOf ?_ os {}, foldl_last CommandLine.SAT_UNSAT (eff := GenOpt.eff) GenOpt.satOf ?_ os {},
    foldl_last CommandLine.DOMAIN_SIZE (eff := GenOpt.eff) GenOpt.domainOf ?_ os {}, foldl_last CommandLine.DRAND (eff := GenOpt.eff) GenOpt.drandOf ?_ os {},
    foldl_last CommandLine.BOOL_FINITE (eff := GenOpt.eff) GenOpt.boolOf ?_ os {}, ?_⟩
  case refine_8 =>
    rw [foldl_last CommandLine.FILE (eff := GenOpt.eff) (fun o => (GenOpt.fileOf o).map some)
      (by intro c o; cases o <;> rfl) os {}, ← List.map_filterMap, List.getLast?_map]
    cases (os.filterMap GenOpt.fileOf).getLast? <;> rfl
  all_goals intro c o; cases o <;> rfl

example : parseCommandLine (argvOf ["-genben", "-var", "5", "quick", "-bool", "1", "-var", "7", "-drand", "0", "-file", "-var",
      "-clausesize", "2"]) =
    .ok { NUM_VAR := 7, CLAUSE_SIZE := 2, BOOL_FINITE := true, FILE := some "-var".toList } := by decide

/-- Options of the converters, and a word that is none. -/
inductive ConvOpt where
  | file (name : List Char) | model (name : List Char) | other (w : List Char)

namespace ConvOpt

def args : ConvOpt → List (List Char)
  | file f => ["-file".toList, f]
  | model f => ["-model".toList, f]
  | other w => [w]

def Ok : ConvOpt → Prop
  | other w => w ≠ "-file".toList ∧ w ≠ "-model".toList
  | _ => True

def fileOf : ConvOpt → Option (List Char) | file f => some f | _ => none
def modelOf : ConvOpt → Option (List Char) | model f => some f | _ => none

def eff (c : CommandLine) : ConvOpt → CommandLine
  | file f => { c with FILE := some f }
  | model f => { c with MODEL_FILE := some f }
  | other _ => c

end ConvOpt

theorem conv_piece (o : ConvOpt) (ho : o.Ok) (c : CommandLine) (rest : List (List Char)) :
    parseOpts convOpt c (o.args ++ rest) = parseOpts convOpt (o.eff c) rest := by
  cases o with
  | file f => exact parseOpts_text (opt := convOpt) (o := "-file".toList) rfl
  | model f => exact parseOpts_text (opt := convOpt) (o := "-model".toList) rfl
  | other w =>
    refine parseOpts_skip ?_
    unfold convOpt
    rw [if_neg ho.1, if_neg ho.2]

/-- The converters. -/
def Command.converts (k : Command) : Prop := k = .b2f ∨ k = .linenc ∨ k = .quadenc

/-- **C95**, `-b2f`, `-linenc`, `-quadenc`: the input is the last `-file`, the output the last `-model`. -/
theorem C95_convert (os : List ConvOpt) (h : ∀ o ∈ os, o.Ok) {cmd : List Char} (hc : (command [cmd]).converts) :
    ∃ c, parseCommandLine (cmd :: os.flatMap ConvOpt.args) = .ok c ∧
      command (cmd :: os.flatMap ConvOpt.args) = command [cmd] ∧
      c.FILE = (os.filterMap ConvOpt.fileOf).getLast? ∧ c.MODEL_FILE = (os.filterMap ConvOpt.modelOf).getLast? := by
  have hk : command (cmd :: os.flatMap ConvOpt.args) = command [cmd] := rfl
  refine ⟨os.foldl ConvOpt.eff {}, ?_, hk, ?_, ?_⟩
  · have : (command [cmd]).opts = convOpt := by
      rcases hc with h | h | h <;> rw [h] <;> rfl
    unfold parseCommandLine
    rw [hk, this]
    exact parse_pieces (opt := convOpt) os {} fun o ho => conv_piece o (h o ho)
  · rw [foldl_last CommandLine.FILE (eff := ConvOpt.eff) (fun o => (ConvOpt.fileOf o).map some) (by intro c o; cases o <;> rfl) os {},
      ← List.map_filterMap, List.getLast?_map]
    cases (os.filterMap ConvOpt.fileOf).getLast? <;> rfl
  · rw [foldl_last CommandLine.MODEL_FILE (eff := ConvOpt.eff) (fun o => (ConvOpt.modelOf o).map some) (by intro c o; cases o <;> rfl) os {},
      ← List.map_filterMap, List.getLast?_map]
    cases (os.filterMap ConvOpt.modelOf).getLast? <;> rfl

example : (command ["-b2f".toList]).converts ∧ (command ["-linenc".toList]).converts ∧ (command ["-quadenc".toList]).converts ∧
    parseCommandLine (argvOf ["-quadenc", "-model", "x", "-file", "a", "-time", "-model", "b"]) =
      .ok { FILE := some "a".toList, MODEL_FILE := some "b".toList } :=
  ⟨.inl rfl, .inr (.inl rfl), .inr (.inr rfl), by decide⟩

/-- **C95**, a negative `-clausesize`: whatever the file holds, if it holds a line, the solver ends with an exception and
prints no answer. -/
theorem C95_negative_clausesize {w : World S} {argv : List (List Char)} {c : CommandLine} {name cs : List Char}
    (hl : parseCommandLine argv = .ok c) (hc : command argv = .solvech ∨ command argv = .solvenc)
    (hf : c.FILE = some name) (hn : w.files name = some cs) (hsz : c.CLAUSE_SIZE < 0) (hne : fileLines cs ≠ []) (fuel : Nat) :
    runSolver w fuel argv = .ok (some .lengthError) := by
  have : ∀ algo, solveNamed w fuel c algo = .ok .lengthError := by
    intro algo
    unfold solveNamed
    rw [hf]; dsimp only
    rw [hn]; dsimp only
    rw [if_pos ⟨hsz, hne⟩]
  rcases hc with hc | hc
  · rw [runSolver_solvech hl hc, this]; rfl
  · rw [runSolver_solvenc hl hc, this]; rfl

example : parseCommandLine (argvOf ["-solvenc", "-clausesize", "-3", "-file", "a"]) =
    .ok { FILE := some "a".toList, CLAUSE_SIZE := -3 } ∧ fileLines (fileText exFile) ≠ [] := by decide

/-! ## C96 -/

theorem write_other {d : Disk} {out name t : List Char} (h : name ≠ out) : (d.write out t).files name = d.files name :=
  if_neg h

theorem write_same {d : Disk} {out t : List Char} : (d.write out t).files out = some t := if_pos rfl

theorem convertFile_changes {conv : List Char → Res (List Char)} {c : CommandLine} {d d' : Disk} {e : Ending}
    (h : convertFile conv c d = .ok (e, d')) :
    d'.canWrite = d.canWrite ∧ ∀ name, d'.files name ≠ d.files name →
      e = .written ∧ c.MODEL_FILE = some name ∧ d.canWrite name = true := by
  unfold convertFile at h
  split at h
  · cases h
  · split at h
    · cases h
      exact ⟨rfl, fun name hn => absurd rfl hn⟩
    · split at h
      · cases h
      · next out ho =>
        split at h
        · next hw =>
          obtain ⟨t, _, h2⟩ := Res.bind_eq_ok.1 h
          cases h2
          refine ⟨rfl, fun name hn => ?_⟩
          by_cases hno : name = out
          · exact ⟨rfl, by rw [ho, hno], by rw [hno]; exact hw⟩
          · exact absurd ((write_other hno).trans (write_other hno)) hn
        · cases h
          exact ⟨rfl, fun name hn => absurd rfl hn⟩

/-- **C96.** A run changes no file but the one it is told to write: for `-genben` the one after `-file`, for the converters
the one after `-model`; a solver changes none. -/
theorem C96_only_output {m : Machine S} {fuel : Nat} {argv : List (List Char)} {d d' : Disk} {e : Ending} {c : CommandLine}
    (hl : parseCommandLine argv = .ok c) (h : runMain m fuel argv d = .ok (e, d')) :
    d'.canWrite = d.canWrite ∧ ∀ name, d'.files name ≠ d.files name → e = .written ∧ d.canWrite name = true ∧
      (command argv = .genben ∧ c.FILE = some name ∨ (command argv).converts ∧ c.MODEL_FILE = some name) := by
  unfold runMain at h
  rw [hl, Res.ok_bind] at h
  have solve : ∀ algo, solveOnDisk m fuel c algo d = .ok (e, d') → d' = d := by
    intro algo h
    obtain ⟨o, _, h2⟩ := Res.bind_eq_ok.1 h
    cases h2
    rfl
  cases hk : command argv <;> rw [hk] at h <;> dsimp only at h
  · cases h
    exact ⟨rfl, fun name hn => absurd rfl hn⟩
  · obtain ⟨t, _, h2⟩ := Res.bind_eq_ok.1 h
    split at h2
    · cases h2
    · next out ho =>
      split at h2
      · next hw =>
        cases h2
        refine ⟨rfl, fun name hn => ?_⟩
        by_cases hno : name = out
        · exact ⟨rfl, by rw [hno]; exact hw, .inl ⟨rfl, by rw [ho, hno]⟩⟩
        · exact absurd (write_other hno) hn
      · cases h2
        exact ⟨rfl, fun name hn => absurd rfl hn⟩
  · obtain ⟨h1, h2⟩ := convertFile_changes h
    exact ⟨h1, fun name hn => ⟨(h2 name hn).1, (h2 name hn).2.2, .inr ⟨.inl rfl, (h2 name hn).2.1⟩⟩⟩
  · obtain ⟨h1, h2⟩ := convertFile_changes h
    exact ⟨h1, fun name hn => ⟨(h2 name hn).1, (h2 name hn).2.2, .inr ⟨.inr (.inl rfl), (h2 name hn).2.1⟩⟩⟩
  · obtain ⟨h1, h2⟩ := convertFile_changes h
    exact ⟨h1, fun name hn => ⟨(h2 name hn).1, (h2 name hn).2.2, .inr ⟨.inr (.inr rfl), (h2 name hn).2.1⟩⟩⟩
  · rw [solve _ h]
    exact ⟨rfl, fun name hn => absurd rfl hn⟩
  · rw [solve _ h]
    exact ⟨rfl, fun name hn => absurd rfl hn⟩

/-- The converter behind a command. -/
def Machine.conv (m : Machine S) : Command → List Char → Res (List Char)
  | .b2f => boolean2Finite
  | .linenc => fun cs => linearEncode cs >>= fun w => .ok (m.lay w)
  | .quadenc => fun cs => quadraticEncode cs >>= fun w => .ok (m.lay w)
  | _ => fun _ => .ub

theorem runMain_convert {m : Machine S} {fuel : Nat} {argv : List (List Char)} {d : Disk} {c : CommandLine}
    (hl : parseCommandLine argv = .ok c) (hc : (command argv).converts) :
    runMain m fuel argv d = convertFile (m.conv (command argv)) c d := by
  unfold runMain
  rw [hl, Res.ok_bind]
  rcases hc with h | h | h <;> rw [h] <;> rfl

/-- **C96**, a converter whose input cannot be opened changes nothing, not even the output file; the same if the output
cannot be opened. -/
theorem C96_no_input {m : Machine S} {fuel : Nat} {argv : List (List Char)} {d : Disk} {c : CommandLine} {inp : List Char}
    (hl : parseCommandLine argv = .ok c) (hc : (command argv).converts) (hf : c.FILE = some inp) (hn : d.files inp = none) :
    runMain m fuel argv d = .ok (.noInput, d) := by
  rw [runMain_convert hl hc]
  unfold convertFile
  rw [hf]
  dsimp only
  rw [if_pos hn]

theorem C96_no_output {m : Machine S} {fuel : Nat} {argv : List (List Char)} {d : Disk} {c : CommandLine} {inp out : List Char}
    (hl : parseCommandLine argv = .ok c) (hc : (command argv).converts) (hf : c.FILE = some inp) (hn : d.files inp ≠ none)
    (ho : c.MODEL_FILE = some out) (hw : d.canWrite out = false) :
    runMain m fuel argv d = .ok (.noOutput, d) := by
  rw [runMain_convert hl hc]
  unfold convertFile
  rw [hf]
  dsimp only
  rw [if_neg hn, ho]
  dsimp only
  rw [hw, if_neg (by simp)]

/-- **C96**, converting into another file: the output is what the converter makes of the input file, which is kept.
(The full claim has no `inp ≠ out`; then it is false, `C96_in_place_fails`.) -/
theorem C96_converted_partial {m : Machine S} {fuel : Nat} {argv : List (List Char)} {d : Disk} {c : CommandLine}
    {inp out cs : List Char} (hl : parseCommandLine argv = .ok c) (hc : (command argv).converts) (hf : c.FILE = some inp)
    (hcs : d.files inp = some cs) (ho : c.MODEL_FILE = some out) (hw : d.canWrite out = true) (hne : inp ≠ out) {t : List Char}
    (ht : m.conv (command argv) cs = .ok t) :
    ∃ d', runMain m fuel argv d = .ok (.written, d') ∧ d'.files out = some t ∧ d'.canWrite = d.canWrite ∧
      ∀ name, name ≠ out → d'.files name = d.files name := by
  refine ⟨(d.write out []).write out t, ?_, write_same, rfl, fun name hn => (write_other hn).trans (write_other hn)⟩
  rw [runMain_convert hl hc]
  unfold convertFile
  rw [hf]
  dsimp only
  rw [if_neg (by rw [hcs]; simp), ho]
  dsimp only
  rw [if_pos hw, write_other hne, hcs, Option.getD_some, ht, Res.ok_bind]

/-- **C96 fails in place**: with one name for input and output, `-linenc` and `-quadenc` leave an empty file, whatever the
file held, and `-b2f` reads behind an empty set (`end--`). -/
theorem C96_in_place_fails {m : Machine S} (hlay : m.lay [] = []) {fuel : Nat} {d : Disk} {name cs : List Char}
    (hcs : d.files name = some cs) (hw : d.canWrite name = true) :
    (∃ d', runMain m fuel ["-linenc".toList, "-file".toList, name, "-model".toList, name] d = .ok (.written, d') ∧
      d'.files name = some []) ∧
    (∃ d', runMain m fuel ["-quadenc".toList, "-file".toList, name, "-model".toList, name] d = .ok (.written, d') ∧
      d'.files name = some []) ∧
    runMain m fuel ["-b2f".toList, "-file".toList, name, "-model".toList, name] d = .ub := by
  have key : ∀ (conv : List Char → Res (List Char)) (c : CommandLine), c.FILE = some name → c.MODEL_FILE = some name →
      convertFile conv c d = conv [] >>= fun t => .ok (.written, (d.write name []).write name t) := by
    intro conv c h1 h2
    unfold convertFile
    rw [h1]
    dsimp only
    rw [if_neg (by rw [hcs]; simp), h2]
    dsimp only
    rw [if_pos hw, write_same]
    rfl
  have hp : ∀ cmd : List Char, (command [cmd]).converts →
      ∃ c, parseCommandLine [cmd, "-file".toList, name, "-model".toList, name] = .ok c ∧ c.FILE = some name ∧
        c.MODEL_FILE = some name := by
    intro cmd hc
    obtain ⟨c, h1, _, h3, h4⟩ := C95_convert [.file name, .model name] (by intro o ho; simp at ho; rcases ho with rfl | rfl <;> trivial) hc
    exact ⟨c, h1, h3, h4⟩
  refine ⟨?_, ?_, ?_⟩
  · obtain ⟨c, h1, h2, h3⟩ := hp "-linenc".toList (.inr (.inl rfl))
    refine ⟨(d.write name []).write name [], ?_, write_same⟩
    rw [runMain_convert h1 (.inr (.inl rfl)), key _ c h2 h3]
    show (linearEncode [] >>= fun w => Res.ok (m.lay w)) >>= _ = _
    rw [show linearEncode [] = .ok [] from rfl, Res.ok_bind, Res.ok_bind, hlay]
  · obtain ⟨c, h1, h2, h3⟩ := hp "-quadenc".toList (.inr (.inr rfl))
    refine ⟨(d.write name []).write name [], ?_, write_same⟩
    rw [runMain_convert h1 (.inr (.inr rfl)), key _ c h2 h3]
    show (quadraticEncode [] >>= fun w => Res.ok (m.lay w)) >>= _ = _
    rw [show quadraticEncode [] = .ok [] from rfl, Res.ok_bind, Res.ok_bind, hlay]
  · obtain ⟨c, h1, h2, h3⟩ := hp "-b2f".toList (.inl rfl)
    rw [runMain_convert h1 (.inl rfl), key _ c h2 h3]
    rfl

/-! ## C97 -/

/-- The characters `t` of a line with the words `w`, followed by at most one blank each, and one blank more. -/
def LineOf (w : List (List Char)) (t : List Char) : Prop :=
  ((∀ x ∈ w, NoBlank x ∧ x ≠ []) → words t = w) ∧ (∀ ch ∈ t, ch = ' ' ∨ ∃ x ∈ w, ch ∈ x) ∧
    t.length ≤ (w.map fun x => x.length + 1).sum + 1

/-- How the encoders write their lines: the words of the first line with one blank between them, the others as `LineOf`.
(/repo/src/LinearEncode.cc:99-193 has two blanks before the `0` of one kind of line and one blank elsewhere;
/repo/src/QuadraticEncode.cc:97-147 has a blank or none at the end of a line.) -/
def Layout (lay : List (List (List Char)) → List Char) : Prop :=
  lay [] = [] ∧ ∀ hd ls, ∃ ts : List (List (List Char) × List Char), ls = ts.map Prod.fst ∧
    lay (hd :: ls) = [' '].intercalate hd ++ '\n' :: ts.flatMap (fun p => p.2 ++ ['\n']) ∧ ∀ p ∈ ts, LineOf p.1 p.2

/-- A layout: every word is followed by a blank. -/
def plainLayout : List (List (List Char)) → List Char
  | [] => []
  | hd :: ls => [' '].intercalate hd ++ '\n' :: ls.flatMap fun w => (w.flatMap fun x => x ++ [' ']) ++ ['\n']

theorem plainLayout_ok : Layout plainLayout := by
  refine ⟨rfl, fun hd ls => ⟨ls.map fun w => (w, w.flatMap fun x => x ++ [' ']), ?_, ?_, ?_⟩⟩
  · rw [List.map_map]
    exact (List.map_id ls).symm
  · rw [List.flatMap_map]; rfl
  · intro p hp
    obtain ⟨w, hwl, rfl⟩ := List.mem_map.1 hp
    refine ⟨?_, ?_, ?_⟩
    · dsimp only
      clear hp hwl
      intro hw
      induction w with
      | nil => rfl
      | cons x w ih =>
        have h1 := hw x List.mem_cons_self
        simp only [List.flatMap_cons, List.append_assoc, List.cons_append, List.nil_append] at ih ⊢
        rw [words_cons h1.1 h1.2, ih fun y hy => hw y (List.mem_cons_of_mem _ hy)]
    · intro ch hch
      obtain ⟨x, hx, hm⟩ := List.mem_flatMap.1 hch
      rcases List.mem_append.1 hm with hm | hm
      · exact .inr ⟨x, hx, hm⟩
      · exact .inl (List.mem_singleton.1 hm)
    · dsimp only
      rw [List.length_flatMap]
      simp

theorem intText_length {x : Int} (h : FileLine.Small x.natAbs) : (intText x).length ≤ 11 := by
  have := natText_length_small h
  unfold intText
  split
  · simp only [List.length_cons]
    omega
  · omega

/-- A DIMACS file with short clauses, in any layout, has no line that is too long. -/
theorem layout_prints {lay : List (List (List Char)) → List Char} (hl : Layout lay) {n m : Int} {cs : List (List Int)}
    (hb : ∀ c ∈ cs, c.length ≤ 240 ∧ ∀ x ∈ c, FileLine.Small x.natAbs) : Prints (dimacsWords n m cs) (lay (dimacsWords n m cs)) := by
  obtain ⟨ts, h1, h2, h3⟩ := hl.2 [['p'], ['c', 'n', 'f'], intText n, intText m] (cs.map fun c => c.map intText ++ [['0']])
  refine ⟨_, ts, by rw [← h1]; rfl, h2, fun p hp => ?_⟩
  obtain ⟨g1, g2, g3⟩ := h3 p hp
  have hm : p.1 ∈ cs.map fun c => c.map intText ++ [['0']] := by rw [h1]; exact List.mem_map.2 ⟨p, hp, rfl⟩
  obtain ⟨c, hc, e⟩ := List.mem_map.1 hm
  have hlen : (p.1.map fun x => x.length + 1).sum ≤ 12 * c.length + 2 := by
    rw [← e, List.map_append, List.sum_append, List.map_map]
    have : ∀ c : List Int, (∀ x ∈ c, FileLine.Small x.natAbs) →
        (c.map ((fun x : List Char => x.length + 1) ∘ intText)).sum ≤ 12 * c.length := by
      intro c
      induction c with
      | nil => intro _; simp
      | cons x c ih =>
        intro h
        have := intText_length (h x List.mem_cons_self)
        have := ih fun y hy => h y (List.mem_cons_of_mem _ hy)
        simp only [List.map_cons, List.sum_cons, Function.comp, List.length_cons] at this ⊢
        omega
    have := this c (hb c hc).2
    simp at this ⊢
    exact this
  refine ⟨g1 ?_, g2, ?_⟩
  · intro x hx
    rw [← e] at hx
    rcases List.mem_append.1 hx with hx | hx
    · obtain ⟨y, _, rfl⟩ := List.mem_map.1 hx
      exact ⟨intText_noBlank y, intText_ne_nil y⟩
    · rw [List.mem_singleton.1 hx]
      exact ⟨by intro ch hch; rw [List.mem_singleton.1 hch]; decide, by simp⟩
  · have := (hb c hc).1
    omega

/-- **C97.** Three runs of the program: `-linenc` from file `a` into `b`, `-b2f` from `b` into `c`, a solver on `c`.  For a
file `a` whose variables have 3 to 230 values and whose clauses have at most 230 literals, the first two runs succeed and
keep all other files, and every answer the solver then prints is right for `a`; with a clock that is never late and clauses
without repeated literals it prints one. (Missing: two-valued variables, for which `-linenc` is wrong, `C26_fails`; longer
clauses, `C31_long_fails`.) -/
theorem C97_three_runs_partial {m : Machine S} (hs : ∃ pos, m.arith.Good pos) (hlay : Layout m.lay)
    {d : Disk} {a b c : List Char} (hab : a ≠ b) (hbc : b ≠ c)
    (hwb : d.canWrite b = true) (hwc : d.canWrite c = true) {ls : List FileLine} {P : Problem}
    (ha : d.files a = some (fileText ls)) (h : Describes ls P) (hw : P.WellFormed)
    (hh : HeaderFirst ls P.numVars P.clauses.length) (hc : P.clauses ≠ []) (h3 : ∀ k ∈ P.doms, 3 ≤ k ∧ k ≤ 230)
    (hlen : ∀ cl ∈ P.clauses, cl.length ≤ 230) (hsz : 4 * P.doms.sum + P.clauses.length ≤ 2147483647) (f1 f2 : Nat) :
    ∃ d1 d2, runMain m f1 ["-linenc".toList, "-file".toList, a, "-model".toList, b] d = .ok (.written, d1) ∧
      runMain m f2 ["-b2f".toList, "-file".toList, b, "-model".toList, c] d1 = .ok (.written, d2) ∧
      (∀ name, name ≠ b → name ≠ c → d2.files name = d.files name) ∧
      ∀ {argv : List (List Char)} {cl : CommandLine}, parseCommandLine argv = .ok cl →
        command argv = .solvech ∨ command argv = .solvenc → cl.FILE = some c →
        ((cl.WATCH = true → P.NoDupLits) → ∀ fuel rep d3, runMain m fuel argv d2 = .ok (.solved (.report rep), d3) → Right P rep) ∧
        (P.NoDupLits → 0 ≤ cl.CLAUSE_SIZE → (∀ k, m.late cl.TIME k = false) →
          ∃ rep f0, (∀ fuel, f0 ≤ fuel → runMain m fuel argv d2 = .ok (.solved (.report rep), d2)) ∧
            (rep.answer = .SAT ↔ P.Satisfiable) ∧ (rep.answer = .UNSAT ↔ ¬ P.Satisfiable)) := by
  have hD : ∀ v, 1 ≤ v → v ≤ P.numVars → 3 ≤ domOf P.doms v ∧ domOf P.doms v ≤ 230 := by
    intro v h1 h2
    rw [domOf_eq h1 h2]
    exact h3 _ (dom_mem h1 h2)
  have hok : ∀ c ∈ P.clauses, ∀ l ∈ c, 1 ≤ l.var ∧ l.var ≤ P.numVars ∧ l.val < domOf P.doms l.var := by
    intro c hc l hl
    obtain ⟨o1, o2, o3⟩ := hw.lits_ok c hc l hl
    exact ⟨o1, o2, by rw [domOf_eq o1 o2]; exact o3⟩
  have hlin := linearEncode_text h hw hh hc
  have hbs : ∀ cl ∈ linCnf (domOf P.doms) P.numVars P.clauses, cl.length ≤ 240 ∧ ∀ x ∈ cl, FileLine.Small x.natAbs := by
    intro cl hcl
    have hsum := linTotal_sum fun d hd => (h3 d hd).1
    refine ⟨?_, fun x hx => ?_⟩
    · rcases List.mem_append.1 hcl with hcl | hcl
      · obtain ⟨v, g1, g2, _, g4⟩ := mem_linExtras.1 hcl
        have := linExtra_sizes (hD v g1 g2).1 cl g4
        have := (hD v g1 g2).2
        omega
      · obtain ⟨c0, h0, rfl⟩ := List.mem_map.1 hcl
        rw [List.length_map]
        have := hlen c0 h0
        omega
    · have := (linCnf_uses (cs := P.clauses) (fun v h1 h2 => (hD v h1 h2).1) hok x.natAbs).1 ⟨cl, hcl, x, hx, rfl⟩
      unfold FileLine.Small
      omega
  have hpr := layout_prints hlay (n := linVars P.numVars P.doms) (m := linClauses P.clauses.length P.doms) hbs
  -- the first run
  have hp : ∀ cmd x y : List Char, (command [cmd]).converts →
      ∃ cl, parseCommandLine [cmd, "-file".toList, x, "-model".toList, y] = .ok cl ∧ cl.FILE = some x ∧ cl.MODEL_FILE = some y := by
    intro cmd x y hc
    obtain ⟨c, h1, _, h3, h4⟩ := C95_convert [.file x, .model y] (by intro o ho; simp at ho; rcases ho with rfl | rfl <;> trivial) hc
    exact ⟨c, h1, h3, h4⟩
  obtain ⟨c1, p1, p2, p3⟩ := hp "-linenc".toList a b (.inr (.inl rfl))
  obtain ⟨d1, r1, r2, r3, r4⟩ := C96_converted_partial (m := m) (fuel := f1) p1 (.inr (.inl rfl)) p2 ha p3 hwb hab
    (t := m.lay (dimacsWords (linVars P.numVars P.doms) (linClauses P.clauses.length P.doms)
      (linCnf (domOf P.doms) P.numVars P.clauses)))
    (by show (linearEncode (fileText ls) >>= fun w => Res.ok (m.lay w)) = _; rw [hlin]; rfl)
  -- the second run; the text does not depend on the solver
  obtain ⟨c2, q1, q2, q3⟩ := hp "-b2f".toList b c (.inl rfl)
  have hb2f : ∀ {cfg : Cfg S} {algo : Algo} (_ : Selectable cfg algo) (_ : cfg.ScoreOK) (_ : cfg.watch = true → P.NoDupLits),
      ∃ out, boolean2Finite (m.lay (dimacsWords (linVars P.numVars P.doms) (linClauses P.clauses.length P.doms)
        (linCnf (domOf P.doms) P.numVars P.clauses))) = .ok out ∧
      (∀ fuel rep, solveFile cfg algo fuel out = .ok rep → Right P rep) ∧
      ((∀ k, cfg.late k = false) → P.NoDupLits →
        ∃ rep f0, (∀ fuel, f0 ≤ fuel → solveFile cfg algo fuel out = .ok rep) ∧
          (rep.answer = .SAT ↔ P.Satisfiable) ∧ (rep.answer = .UNSAT ↔ ¬ P.Satisfiable)) := by
    intro cfg algo hv hs hnd
    obtain ⟨W, e1, e2⟩ := C67_linenc_b2f_solve_partial hv hs h hw hnd hh hc h3 hlen hsz
    rw [hlin] at e1
    cases e1
    exact e2 _ hpr
  obtain ⟨out, ho, -, -⟩ := hb2f (cfg := { heur := .BK, watch := false, arith := m.arith, restarts := 0, late := fun _ => false })
    (algo := .chrono) ⟨rfl, .inl rfl⟩ hs (by intro h; cases h)
  obtain ⟨d2, s1, s2, s3, s4⟩ := C96_converted_partial (m := m) (fuel := f2) q1 (.inl rfl) q2 r2 q3 (by rw [r3]; exact hwc) hbc
    (t := out) ho
  refine ⟨d1, d2, r1, s1, fun name hnb hnc => (s4 name hnc).trans (r4 name hnb), ?_⟩
  intro argv cl hl hcmd hf
  have hrun : ∃ algo, Selectable (CommandLine.cfg cl ⟨m.arith, m.late, d2.files⟩) algo ∧
      ∀ fuel, runMain m fuel argv d2 = solveOnDisk m fuel cl algo d2 := by
    obtain ⟨k1, k2⟩ := C23_options hl
    rcases hcmd with hcmd | hcmd
    · refine ⟨.chrono, ?_, fun fuel => ?_⟩
      · obtain ⟨g1, g2, g3⟩ := k2 hcmd
        refine ⟨g1, ?_⟩
        show cl.heuristic = _ ∨ cl.heuristic = _
        cases e : cl.heuristic <;> simp_all
      · unfold runMain; rw [hl, hcmd]; rfl
    · refine ⟨.learn, k1, fun fuel => ?_⟩
      unfold runMain; rw [hl, hcmd]; rfl
  obtain ⟨algo, hv, hrun⟩ := hrun
  refine ⟨fun hnd fuel rep d3 hr => ?_, fun hnd hcs hclock => ?_⟩
  · obtain ⟨out', e1, e2, _⟩ := hb2f hv hs hnd
    rw [ho] at e1
    cases e1
    rw [hrun] at hr
    obtain ⟨o, g1, g2⟩ := Res.bind_eq_ok.1 hr
    cases g2
    refine e2 fuel rep ?_
    unfold solveNamed at g1
    rw [hf] at g1
    dsimp only at g1
    rw [s2] at g1
    dsimp only at g1
    split at g1
    · cases g1
    · obtain ⟨r, g3, g4⟩ := Res.bind_eq_ok.1 g1
      cases g4
      exact g3
  · obtain ⟨out', e1, _, e2⟩ := hb2f hv hs fun _ => hnd
    rw [ho] at e1
    cases e1
    obtain ⟨rep, f0, g1, g2⟩ := e2 hclock hnd
    refine ⟨rep, f0, fun fuel hfu => ?_, g2⟩
    rw [hrun]
    unfold solveOnDisk solveNamed
    rw [hf]
    dsimp only
    rw [s2]
    dsimp only
    rw [if_neg (by intro h; omega), g1 fuel hfu]
    rfl

/-- A machine, and a disk with one file. -/
def exMachine : Machine (Option (Nat × Nat)) := ⟨ScoreArith.dyadic, fun _ _ => false, fun i => 3 * i + 1, plainLayout⟩

def exDisk : Disk := ⟨fun n => if n = "a".toList then some (fileText exPipe.file) else none, fun _ => true⟩

/-- The hypotheses of C97 are met by the file of `exPipe` (see there), and the three runs give SAT. -/
example : Layout exMachine.lay ∧ exDisk.files "a".toList = some (fileText exPipe.file) ∧
    (runMain exMachine 0 (argvOf ["-linenc", "-file", "a", "-model", "b"]) exDisk >>= fun r1 =>
      runMain exMachine 0 (argvOf ["-b2f", "-file", "b", "-model", "c"]) r1.2 >>= fun r2 =>
      runMain exMachine 60 (argvOf ["-solvenc", "-wl", "-file", "c"]) r2.2).passes
        (fun r => match r.1 with | .solved (.report rep) => decide (rep.answer = .SAT) | _ => false) = true := by
  exact ⟨plainLayout_ok, rfl, by decide +kernel⟩

/-! ## C98 -/

theorem domainsFirst_mapIdx {post : List FileLine} (h : fileDoms post = []) : ∀ (ds : List Nat) (n : Nat),
    DomainsFirst ((ds.mapIdx fun i d => FileLine.domain (i + n) d) ++ post) n
  | [], n => domainsFirst_post h n
  | d :: ds, n => by
    rw [List.mapIdx_cons]
    refine ⟨Nat.zero_add n, ?_⟩
    have := domainsFirst_mapIdx h ds (n + 1)
    have e : (fun i d => FileLine.domain (i + 1 + n) d) = fun i d => FileLine.domain (i + (n + 1)) d := by
      funext i d
      rw [Nat.add_right_comm, Nat.add_assoc]
    rw [e]
    exact this

theorem fileDoms_onlyClauses (cs : List (List Lit)) : fileDoms (cs.map .clause) = [] := by
  unfold fileDoms
  rw [List.filterMap_map]
  exact List.filterMap_eq_nil_iff.2 fun _ _ => rfl

theorem fileDoms_mapIdx (ds : List Nat) (n : Nat) : fileDoms (ds.mapIdx fun i d => FileLine.domain (i + n) d) = ds := by
  unfold fileDoms
  induction ds generalizing n with
  | nil => rfl
  | cons d ds ih =>
    rw [List.mapIdx_cons]
    have e : (fun i d => FileLine.domain (i + 1 + n) d) = fun i d => FileLine.domain (i + (n + 1)) d := by
      funext i d
      rw [Nat.add_right_comm, Nat.add_assoc]
    rw [e]
    show d :: List.filterMap _ _ = d :: ds
    rw [ih]

theorem fileClauses_mapIdx (ds : List Nat) (n : Nat) : fileClauses (ds.mapIdx fun i d => FileLine.domain (i + n) d) = [] := by
  unfold fileClauses
  refine List.filterMap_eq_nil_iff.2 fun l hl => ?_
  obtain ⟨i, _, rfl⟩ := List.mem_mapIdx.1 hl
  rfl

theorem clauseText_length {c : List Lit} (h : ∀ l ∈ c, FileLine.Small l.var ∧ FileLine.Small l.val) :
    (clauseText c).length ≤ 23 * c.length + 1 := by
  unfold clauseText
  rw [List.length_append]
  have : (c.flatMap fun l => l.text ++ [' ']).length ≤ 23 * c.length := by
    induction c with
    | nil => simp
    | cons l c ih =>
      have h1 := lit_text_length (h l List.mem_cons_self).1 (h l List.mem_cons_self).2
      have h2 := ih fun x hx => h x (List.mem_cons_of_mem _ hx)
      rw [List.flatMap_cons, List.length_append, List.length_append, List.length_cons]
      simp only [List.length_cons, List.length_nil]
      omega
  simp only [List.length_cons, List.length_nil]
  omega

/-- The plainest file of a formula that is not too large is in the documented format. -/
theorem file_describes {P : Problem} (hw : P.Proper) (hn : FileLine.Small P.numVars) (hm : FileLine.Small P.clauses.length)
    (hd : ∀ d ∈ P.doms, FileLine.Small d) (hc : ∀ c ∈ P.clauses, c.length ≤ 130) : Describes P.file P := by
  have hdv : ∀ l, P.LitOk l → FileLine.Small l.var ∧ FileLine.Small l.val := by
    intro l hl
    obtain ⟨h1, h2, h3⟩ := hl
    exact ⟨Small.le hn h2, Small.le (hd _ (dom_mem h1 h2)) (Nat.le_of_lt h3)⟩
  have fine : ∀ l ∈ P.file, l.Fine := by
    intro l hl
    rcases List.mem_append.1 hl with hl | hl
    · rcases List.mem_cons.1 hl with rfl | hl
      · exact problem_fine hn hm
      · obtain ⟨i, hi, rfl⟩ := List.mem_mapIdx.1 hl
        refine domain_fine (Small.le hn ?_) (hd _ (List.getElem_mem hi))
        exact hi
    · obtain ⟨c, hcm, rfl⟩ := List.mem_map.1 hl
      have hl := fun x hx => hdv x (hw.lits_ok c hcm x hx)
      refine ⟨⟨hw.nonempty c hcm, fun x hx => ⟨(hw.lits_ok c hcm x hx).1, hl x hx⟩⟩, ?_⟩
      have := clauseText_length hl
      have := hc c hcm
      show (clauseText c).length < 3000
      omega
  refine ⟨fun l hl => (fine l hl).1, fun l hl => (fine l hl).2, ?_, ?_, ?_⟩
  · exact domainsFirst_mapIdx (fileDoms_onlyClauses P.clauses) P.doms 1
  · show fileDoms (_ :: (_ ++ _)) = _
    have : fileDoms ((P.doms.mapIdx fun i d => FileLine.domain (i + 1) d) ++ P.clauses.map .clause) = P.doms := by
      have h1 := fileDoms_mapIdx P.doms 1
      have h2 := fileDoms_onlyClauses P.clauses
      unfold fileDoms at h1 h2 ⊢
      rw [List.filterMap_append, h1, h2, List.append_nil]
    exact this
  · show fileClauses (_ :: (_ ++ _)) = _
    have : fileClauses ((P.doms.mapIdx fun i d => FileLine.domain (i + 1) d) ++ P.clauses.map .clause) = P.clauses := by
      have h1 := fileClauses_mapIdx P.doms 1
      unfold fileClauses at h1 ⊢
      rw [List.filterMap_append, h1, List.filterMap_map, List.nil_append]
      exact List.filterMap_some
    exact this

/-- What `-genben -bool 1` writes, with clauses of 1 to 130 literals: every variable stands at most once in a clause. -/
theorem generated {m : Machine S} {d d1 : Disk} {f1 : Nat}
    {os : List GenOpt} (hos : ∀ o ∈ os, o.Ok) {out : List Char} (hout : (os.filterMap GenOpt.fileOf).getLast? = some out)
    (hb : (os.filterMap GenOpt.boolOf).getLast? = some true)
    (hd : 1 ≤ (os.filterMap GenOpt.domainOf).getLast?.getD 10)
    (hz : 1 ≤ (os.filterMap GenOpt.sizeOf).getLast?.getD 3 ∧ (os.filterMap GenOpt.sizeOf).getLast?.getD 3 ≤ 130)
    (hrun : runMain m f1 ("-genben".toList :: os.flatMap GenOpt.args) d = .ok (.written, d1)) :
    ∃ P : Problem, d1 = d.write out (fileText P.file) ∧ P.Regular ∧ P.NoDupLits ∧ Describes P.file P ∧
      (P.numVars : Int) = (os.filterMap GenOpt.varOf).getLast?.getD (-1) ∧
      (P.clauses.length : Int) = (os.filterMap GenOpt.clauseOf).getLast?.getD (-1) ∧
      ((os.filterMap GenOpt.satOf).getLast?.getD true = true → P.Satisfiable) ∧
      (∀ k ∈ P.doms, (k : Int) ≤ (os.filterMap GenOpt.domainOf).getLast?.getD 10 ∧
        ((os.filterMap GenOpt.drandOf).getLast?.getD false = false → (k : Int) = (os.filterMap GenOpt.domainOf).getLast?.getD 10)) ∧
      ∀ cl ∈ P.clauses, (cl.length : Int) = (os.filterMap GenOpt.sizeOf).getLast?.getD 3 ∧ (cl.map Lit.var).Nodup ∧
        ∀ l ∈ cl, l.eq = true := by
  obtain ⟨c, hl, hk, e1, e2, e3, e4, e5, e6, e7, e8⟩ := C95_genben os hos
  unfold runMain at hrun
  rw [hl, Res.ok_bind, hk] at hrun
  dsimp only at hrun
  obtain ⟨t, ht, h2⟩ := Res.bind_eq_ok.1 hrun
  rw [e8, hout] at h2
  dsimp only at h2
  have hd1 : d1 = d.write out t := by
    split at h2
    · cases h2; rfl
    · cases h2
  clear h2
  subst hd1
  obtain ⟨P, rfl, p2, p3, p4, p5, p6⟩ := C32_finite_partial (by rw [e7, hb]; rfl) (fun _ => by rw [e5]; omega)
    (by rw [e3]; exact hz.1) ht
  have small : ∀ {ex : GenOpt → Option Int} {dflt : Int} {n : Nat}, (∀ o ∈ os, ∀ x, ex o = some x → x ≤ 2147483647) →
      dflt ≤ 2147483647 → (n : Int) = (os.filterMap ex).getLast?.getD dflt → FileLine.Small n := by
    intro ex dflt n hx hdf e
    unfold FileLine.Small
    cases hg : (os.filterMap ex).getLast? with
    | none => rw [hg] at e; simp only [Option.getD_none] at e; omega
    | some y =>
      rw [hg] at e
      simp only [Option.getD_some] at e
      obtain ⟨o, ho, hy⟩ := List.mem_filterMap.1 (List.mem_of_getLast? hg)
      have := hx o ho y hy
      omega
  have sm : ∀ {n : Nat}, FileLine.Small n → (n : Int) ≤ 2147483647 := by
    intro n h; unfold FileLine.Small at h; omega
  have hn : FileLine.Small P.numVars := small (ex := GenOpt.varOf) (dflt := -1) (by
    intro o ho x hx
    cases o <;> cases hx
    exact sm (hos _ ho)) (by decide) (p2.trans e1)
  have hm : FileLine.Small P.clauses.length := small (ex := GenOpt.clauseOf) (dflt := -1) (by
    intro o ho x hx
    cases o <;> cases hx
    exact sm (hos _ ho)) (by decide) (p3.trans e2)
  have hdd : ∀ k ∈ P.doms, FileLine.Small k := by
    have hD : FileLine.Small ((os.filterMap GenOpt.domainOf).getLast?.getD 10).toNat := by
      refine small (ex := GenOpt.domainOf) (dflt := 10) ?_ (by decide) (by omega)
      intro o ho x hx
      cases o <;> cases hx
      exact sm (hos _ ho)
    intro k hk
    refine Small.le hD ?_
    cases hdr : c.DRAND with
    | false =>
      have := (p4 k hk).2.1 hdr
      rw [e5] at this
      omega
    | true =>
      have := (p4 k hk).2.2 hdr (by rw [e5]; omega)
      rw [e5] at this
      omega
  have hw : P.Regular := by
    refine ⟨⟨fun k hk => (p4 k hk).1, fun cl hcl e => ?_, fun cl hcl l hl => ((p5 cl hcl).2.2 l hl).1⟩,
      fun cl hcl l hl _ => ((p5 cl hcl).2.2 l hl).2⟩
    have := (p5 cl hcl).1
    rw [e, e3, List.length_nil] at this
    omega
  have hlen : ∀ cl ∈ P.clauses, cl.length ≤ 130 := by
    intro cl hcl
    have := (p5 cl hcl).1
    rw [e3] at this
    omega
  have hnd : P.NoDupLits := by
    intro cl hcl
    have h1 := (p5 cl hcl).2.1
    unfold List.Nodup at h1 ⊢
    rw [List.pairwise_map] at h1
    exact h1.imp fun h e => h (congrArg Lit.var e)
  refine ⟨P, rfl, hw, hnd, file_describes hw.toProper hn hm hdd hlen, p2.trans e1, p3.trans e2,
    fun h => p6 (by rw [e4]; exact h), fun k hk => ?_,
    fun cl hcl => ⟨(p5 cl hcl).1.trans e3, (p5 cl hcl).2.1, fun l hl => ((p5 cl hcl).2.2 l hl).2⟩⟩
  have q := (p4 k hk).2
  rw [e5, e6] at q
  refine ⟨?_, q.1⟩
  cases hdr : (os.filterMap GenOpt.drandOf).getLast?.getD false with
  | false => have := q.1 hdr; omega
  | true => have := q.2 hdr (by omega); omega

/-- **C98.** Two runs of the program: `-genben -bool 1` with domains of random size or of a fixed size of at least 1, and clauses
of 1 to 130 literals, then a solver on the file written.  Whatever `rand()` returns, if the first run writes the file, it
describes a formula of the size asked for, all other files are kept, and every answer the solver prints is right; with a clock
that is never late it prints one, and SAT if `-sat 1` was asked for (the default).  A domain of one value does no harm here,
because no generated literal excludes a value. (Missing: longer clauses, whose lines may be too long for the solver.) -/
theorem C98_generate_solve_partial {m : Machine S} (hs : ∃ pos, m.arith.Good pos) {d d1 : Disk} {f1 : Nat}
    {os : List GenOpt} (hos : ∀ o ∈ os, o.Ok) {out : List Char} (hout : (os.filterMap GenOpt.fileOf).getLast? = some out)
    (hb : (os.filterMap GenOpt.boolOf).getLast? = some true)
    (hd : 1 ≤ (os.filterMap GenOpt.domainOf).getLast?.getD 10)
    (hz : 1 ≤ (os.filterMap GenOpt.sizeOf).getLast?.getD 3 ∧ (os.filterMap GenOpt.sizeOf).getLast?.getD 3 ≤ 130)
    (hrun : runMain m f1 ("-genben".toList :: os.flatMap GenOpt.args) d = .ok (.written, d1)) :
    ∃ P : Problem, d1.files out = some (fileText P.file) ∧ P.Regular ∧
      (P.numVars : Int) = (os.filterMap GenOpt.varOf).getLast?.getD (-1) ∧
      (P.clauses.length : Int) = (os.filterMap GenOpt.clauseOf).getLast?.getD (-1) ∧
      ((os.filterMap GenOpt.satOf).getLast?.getD true = true → P.Satisfiable) ∧
      (∀ name, name ≠ out → d1.files name = d.files name) ∧
      ∀ {argv : List (List Char)} {cl : CommandLine}, parseCommandLine argv = .ok cl →
        command argv = .solvech ∨ command argv = .solvenc → cl.FILE = some out →
        (∀ fuel rep d2, runMain m fuel argv d1 = .ok (.solved (.report rep), d2) → Right P rep) ∧
        (0 ≤ cl.CLAUSE_SIZE → (∀ k, m.late cl.TIME k = false) →
          ∃ rep f0, (∀ fuel, f0 ≤ fuel → runMain m fuel argv d1 = .ok (.solved (.report rep), d1)) ∧
            (rep.answer = .SAT ↔ P.Satisfiable) ∧ (rep.answer = .UNSAT ↔ ¬ P.Satisfiable)) := by
  obtain ⟨P, rfl, hw, hnd, hdesc, p2, p3, p6, -⟩ := generated hos hout hb hd hz hrun
  refine ⟨P, write_same, hw, p2, p3, p6, fun name hne => write_other hne, ?_⟩
  intro argv cl hl' hcmd hf
  have hin : Input (S := S) ⟨m.arith, m.late, (d.write out (fileText P.file)).files⟩ argv cl P :=
    ⟨hl', ⟨out, P.file, hf, write_same, hdesc⟩, hw⟩
  have hrun2 : ∃ algo, Selectable (CommandLine.cfg cl (⟨m.arith, m.late, (d.write out (fileText P.file)).files⟩ : World S)) algo ∧
      ∀ fuel, runMain m fuel argv (d.write out (fileText P.file)) = solveOnDisk m fuel cl algo (d.write out (fileText P.file)) := by
    rcases hcmd with hcmd | hcmd
    · refine ⟨.chrono, hin.chrono hcmd, fun fuel => ?_⟩
      unfold runMain; rw [hl', hcmd]; rfl
    · refine ⟨.learn, hin.learn, fun fuel => ?_⟩
      unfold runMain; rw [hl', hcmd]; rfl
  obtain ⟨algo, hv, hrun2⟩ := hrun2
  refine ⟨fun fuel rep d2 hr => ?_, fun hcs hclock => ?_⟩
  · rw [hrun2] at hr
    obtain ⟨o, g1, g2⟩ := Res.bind_eq_ok.1 hr
    cases g2
    exact answer_regular hv hs hw (fun _ => hnd) (hin.report g1)
  · obtain ⟨rep, f0, g1, g2⟩ := decides_regular hv hs hclock hw hnd
    refine ⟨rep, f0, fun fuel hfu => ?_, g2⟩
    rw [hrun2]
    unfold solveOnDisk
    rw [hin.solveNamed hcs, g1 fuel hfu]
    rfl

/-- The hypotheses of C98, and two runs. -/
example : ((([.var 2, .clause 2, .clausesize 2, .domain 3, .bool 1, .file "g".toList] : List GenOpt).filterMap
      GenOpt.boolOf).getLast? = some true) ∧
    (runMain { exMachine with rand := exRand } 5 (argvOf ["-genben", "-var", "2", "-clause", "2", "-clausesize", "2", "-domain", "3",
      "-bool", "1", "-file", "g"]) exDisk >>= fun r1 =>
      runMain exMachine 60 (argvOf ["-solvech", "-file", "g"]) r1.2).passes
        (fun r => match r.1 with | .solved (.report rep) => decide (rep.answer = .SAT) | _ => false) = true := by
  exact ⟨rfl, by decide +kernel⟩

/-- The same with domains of random size; here both have one value. -/
example : (runMain { exMachine with rand := exRand } 9 (argvOf ["-genben", "-var", "2", "-clause", "2", "-clausesize", "2",
      "-domain", "4", "-drand", "1", "-bool", "1", "-file", "g"]) exDisk).passes
        (fun r => r.2.files "g".toList = some "p cnf 2 2\nd 1 1\nd 2 1\n2=0 1=0 0\n1=0 2=0 0\n".toList) = true ∧
    (runMain { exMachine with rand := exRand } 9 (argvOf ["-genben", "-var", "2", "-clause", "2", "-clausesize", "2",
      "-domain", "4", "-drand", "1", "-bool", "1", "-file", "g"]) exDisk >>= fun r1 =>
      runMain exMachine 60 (argvOf ["-solvech", "-file", "g"]) r1.2).passes
        (fun r => match r.1 with | .solved (.report rep) => decide (rep.answer = .SAT) | _ => false) = true := by
  exact ⟨by decide +kernel, by decide +kernel⟩

end Mvl
