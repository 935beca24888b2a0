import Verif.Model.Batch
import Verif.Props.Output
import Verif.Props.Program

/-!
# The programs that run the solver on benchmark files

C105: what /repo/benchmarks/Pigeonhole/Test.cc and /repo/benchmarks/Nqueens/Test.cc leave in their file of results.
-/

namespace Mvl

variable {S : Type}

/-! ## Copying -/

theorem fgets_append (n : Nat) : ∀ cs, (fgets n cs).1 ++ (fgets n cs).2 = cs := by
  induction n with
  | zero => intro cs; rfl
  | succ n ih =>
    intro cs
    cases cs with
    | nil => rfl
    | cons c cs =>
      rw [fgets]
      split
      · rfl
      · exact congrArg (c :: ·) (ih cs)

/-- **C105**: a text without zero bytes is copied as it is, though in pieces of at most 99 characters. -/
theorem C105_copy (cs : List Char) (h : '\x00' ∉ cs) : copyOut cs = cs := by
  match cs, h with
  | [], _ => rw [copyOut]
  | c :: cs, h =>
    rw [copyOut]
    have e := fgets_append 99 (c :: cs)
    rw [cString_eq (fun hz => h (by rw [← e]; exact List.mem_append_left _ hz)),
      C105_copy _ (fun hz => h (by rw [← e]; exact List.mem_append_right _ hz)), e]
  termination_by cs.length
  decreasing_by
    rw [fgets]
    split
    · simp
    · have := fgets_rest 98 cs
      simp only [List.length_cons]
      omega

/-- A text of 260 characters with a line longer than the buffer. -/
example : copyOut (List.replicate 130 'a' ++ '\n' :: List.replicate 129 'b') =
    List.replicate 130 'a' ++ '\n' :: List.replicate 129 'b' := C105_copy _ (by decide +kernel)

/-- A zero byte and what follows it on the line is lost, so the hypothesis is needed. -/
example : copyOut "ab\x00cd\nef".toList = "abef".toList := by decide +kernel

theorem text_no {l : Logged} (hq : QuietRun l.name l.t) : '\x00' ∉ l.text := by
  unfold Logged.text
  rw [reportText_eq]
  intro h
  obtain ⟨x, hx, h⟩ := List.mem_flatMap.1 h
  rw [List.mem_append] at h
  rcases h with h | h
  · rcases mem_runLines.1 hx with hx | hx
    · obtain ⟨⟨_, n2, _, _⟩, ⟨_, b2, _, _⟩, ⟨_, s2, _, _⟩, ⟨_, t2, _, _⟩⟩ := hq
      unfold timeLines at hx
      split at hx <;> simp only [List.mem_cons, List.not_mem_nil, or_false] at hx
      · rcases hx with rfl | rfl <;> simp [n2, b2, s2, t2] at h
      · subst hx; simp [n2, b2, s2, t2] at h
    · exact plain_no (.inr (.inr rfl)) x hx h
  · simp at h

/-! ## A round -/

/-- Options with which the text is printed for a file named after them, without `-wl`. -/
def PlainOpts (opts : List (List Char)) : Prop := opts.head? = some "-solvenc".toList ∧ ∀ f, ∃ c,
  parseCommandLine (opts ++ ["-file".toList, f]) = .ok c ∧ c.FILE = some f ∧ c.LOG = false ∧ 0 ≤ c.CLAUSE_SIZE ∧ c.WATCH = false

/-- The files of a series can be read and solved, and their names differ from the file of results. -/
structure Series (m : Bench S) (name : Nat → List Char) (file : Nat → List FileLine) (log : List Char) (ns : List Nat) :
    Prop where
  describes : ∀ n ∈ ns, Describes (file n) (fileProblem (file n))
  wf        : ∀ n ∈ ns, (fileProblem (file n)).WellFormed
  nodup     : ∀ n ∈ ns, (fileProblem (file n)).NoDupLits
  log       : ∀ n ∈ ns, name n ≠ log
  quiet     : ∀ n ∈ ns, QuietRun (m.dir ++ name n) (m.times n)

/-- What a run on the file of size `n` leaves in the file of results. -/
structure Entry (file : Nat → List FileLine) (n : Nat) (l : Logged) : Prop where
  says  : Says (fileProblem (file n)) l.text
  quiet : QuietRun l.name l.t
  model : l.c.MODEL = true

theorem command_of {opts rest : List (List Char)} (h : opts.head? = some "-solvenc".toList) :
    command (opts ++ rest) = .solvenc := by
  cases opts with
  | nil => cases h
  | cons a t => cases h; rfl

theorem input_of {m : Bench S} {name : Nat → List Char} {file : Nat → List FileLine} {opts : List (List Char)}
    {log : List Char} {n : Nat} {d : Disk} (h : Series m name file log [n]) {c : CommandLine}
    (hl : parseCommandLine (opts ++ ["-file".toList, m.dir ++ name n]) = .ok c) (hf : c.FILE = some (m.dir ++ name n)) :
    Input ⟨m.arith, m.late n, (d.write (m.dir ++ name n) (fileText (file n))).files⟩
      (opts ++ ["-file".toList, m.dir ++ name n]) c (fileProblem (file n)) :=
  ⟨hl, ⟨_, _, hf, write_same, h.describes n (by simp)⟩, h.wf n (by simp)⟩

theorem step_text {m : Bench S} {name : Nat → List Char} {file : Nat → List FileLine} {opts : List (List Char)}
    {log : List Char} {n : Nat} {d : Disk} (ho : PlainOpts opts) (hs : ∃ pos, m.arith.Good pos)
    (h : Series m name file log [n]) {fuel : Nat} {txt : List Char}
    (hr : programText ⟨m.arith, m.late n, (d.write (m.dir ++ name n) (fileText (file n))).files⟩ fuel
      (opts ++ ["-file".toList, m.dir ++ name n]) (m.times n) = .ok (some txt)) :
    ∃ l : Logged, l.text = txt ∧ Entry file n l := by
  obtain ⟨c, h1, h2, h3, h4, h5⟩ := ho.2 (m.dir ++ name n)
  have hin := input_of (opts := opts) (d := d) h h1 h2
  have hq := h.quiet n (by simp)
  have hsay := C100_solvenc_partial hin (command_of ho.1) hs (fun hw => by rw [h5] at hw; cases hw) h3 h4
    (t := m.times n) (fun nm e => by rw [h2] at e; cases e; exact hq.oneLine) hr
  rw [programText_solvenc hin.line (command_of ho.1) h3 h2] at hr
  obtain ⟨o, h6, h7⟩ := Res.bind_eq_ok.1 hr
  cases h7
  obtain ⟨rep, rfl, _⟩ := hin.outcome h4 h6
  exact ⟨⟨c, _, .learn, _, rep⟩, rfl, hsay, hq, model_on h1⟩

theorem step_ok {m : Bench S} {name : Nat → List Char} {file : Nat → List FileLine} {opts : List (List Char)}
    {log : List Char} {n : Nat} {d d' : Disk} (ho : PlainOpts opts) (hs : ∃ pos, m.arith.Good pos)
    (h : Series m name file log [n]) {fuel : Nat} (hr : batchStep m fuel name file opts log n d = .ok d') :
    ∃ l : Logged, Entry file n l ∧
      d'.files (m.dir ++ log) = some ((d.files (m.dir ++ log)).getD [] ++ l.text) := by
  unfold batchStep at hr
  obtain ⟨txt, h1, h2⟩ := Res.bind_eq_ok.1 hr
  cases txt with
  | none => cases h2
  | some txt =>
    obtain ⟨l, rfl, he⟩ := step_text ho hs h h1
    cases h2
    refine ⟨l, he, ?_⟩
    rw [write_same, C105_copy _ (text_no he.quiet), write_other]
    intro e
    exact h.log n (by simp) (List.append_cancel_left e).symm

theorem Series.head {m : Bench S} {name : Nat → List Char} {file : Nat → List FileLine} {log : List Char} {n : Nat}
    {ns : List Nat} (h : Series m name file log (n :: ns)) : Series m name file log [n] := by
  constructor <;> intro k hk <;> rw [List.mem_singleton] at hk <;> subst hk
  · exact h.describes k (by simp)
  · exact h.wf k (by simp)
  · exact h.nodup k (by simp)
  · exact h.log k (by simp)
  · exact h.quiet k (by simp)

theorem Series.tail {m : Bench S} {name : Nat → List Char} {file : Nat → List FileLine} {log : List Char} {n : Nat}
    {ns : List Nat} (h : Series m name file log (n :: ns)) : Series m name file log ns :=
  ⟨fun k hk => h.describes k (by simp [hk]), fun k hk => h.wf k (by simp [hk]), fun k hk => h.nodup k (by simp [hk]),
    fun k hk => h.log k (by simp [hk]), fun k hk => h.quiet k (by simp [hk])⟩

theorem batch_log {m : Bench S} {name : Nat → List Char} {file : Nat → List FileLine} {opts : List (List Char)}
    {log : List Char} (ho : PlainOpts opts) (hs : ∃ pos, m.arith.Good pos) {fuel : Nat} :
    ∀ {ns : List Nat} {d d' : Disk}, Series m name file log ns → ns ≠ [] →
    batch m fuel name file opts log ns d = .ok d' →
    ∃ ls : List (Nat × Logged), ls.map Prod.fst = ns ∧ (∀ p ∈ ls, Entry file p.1 p.2) ∧
      d'.files (m.dir ++ log) = some ((d.files (m.dir ++ log)).getD [] ++ ls.flatMap fun p => p.2.text)
  | [], _, _, _, hne, _ => absurd rfl hne
  | n :: ns, d, d', h, _, hr => by
    rw [batch] at hr
    obtain ⟨d1, h1, h2⟩ := Res.bind_eq_ok.1 hr
    obtain ⟨l, h3, h4⟩ := step_ok ho hs h.head h1
    by_cases hn : ns = []
    · subst hn
      cases h2
      exact ⟨[(n, l)], rfl, by simpa using h3, by rw [h4]; simp⟩
    · obtain ⟨ls, h5, h6, h7⟩ := batch_log ho hs h.tail hn h2
      exact ⟨(n, l) :: ls, by rw [List.map_cons, h5], List.forall_mem_cons.2 ⟨h3, h6⟩, by rw [h7, h4]; simp⟩

theorem batch_ends {m : Bench S} {name : Nat → List Char} {file : Nat → List FileLine} {opts : List (List Char)}
    {log : List Char} (ho : PlainOpts opts) (hs : ∃ pos, m.arith.Good pos)
    (hclock : ∀ n t k, m.late n t k = false) : ∀ {ns : List Nat} (d : Disk), Series m name file log ns →
    ∃ d' f0, (∀ fuel, f0 ≤ fuel → batch m fuel name file opts log ns d = .ok d') ∧ (ns ≠ [] → ∃ ls : List (Nat × Logged),
      ls.map Prod.fst = ns ∧ (∀ p ∈ ls, Entry file p.1 p.2 ∧ answerLine .TIMEOUT ∉ linesOf p.2.text) ∧
      d'.files (m.dir ++ log) = some ((d.files (m.dir ++ log)).getD [] ++ ls.flatMap fun p => p.2.text))
  | [], d, _ => ⟨d, 0, fun _ _ => rfl, fun h => absurd rfl h⟩
  | n :: ns, d, h => by
    obtain ⟨c, h1, h2, h3, h4, h5⟩ := ho.2 (m.dir ++ name n)
    have hin := input_of (opts := opts) (d := d) h.head h1 h2
    have hq := h.quiet n (by simp)
    obtain ⟨txt, f0, h6, h7, h8⟩ := C100_solvenc_decides_partial hin (command_of ho.1) hs (h.nodup n (by simp)) h3 h4
      (fun k => hclock n c.TIME k) (t := m.times n) (fun nm e => by rw [h2] at e; cases e; exact hq.oneLine)
    obtain ⟨l, rfl, he⟩ := step_text ho hs h.head (h6 f0 (Nat.le_refl _))
    obtain ⟨d1, hd1⟩ : ∃ d1, ∀ fuel, f0 ≤ fuel → batchStep m fuel name file opts log n d = .ok d1 := by
      refine ⟨(d.write (m.dir ++ name n) (fileText (file n))).write (m.dir ++ log)
        (((d.write (m.dir ++ name n) (fileText (file n))).files (m.dir ++ log)).getD [] ++ copyOut l.text), fun fuel hf => ?_⟩
      unfold batchStep
      simp only [h6 fuel hf, Res.ok_bind]
    have hto : answerLine .TIMEOUT ∉ linesOf l.text := by
      obtain ⟨a, ha⟩ := he.says.one
      intro ht
      have e := (ha .TIMEOUT).1 ht
      by_cases hp : (fileProblem (file n)).Satisfiable
      · have := (ha .SAT).1 (h7.2 hp); rw [← e] at this; cases this
      · have := (ha .UNSAT).1 (h8.2 hp); rw [← e] at this; cases this
    obtain ⟨d', f1, k1, k2⟩ := batch_ends ho hs hclock d1 h.tail
    refine ⟨d', max f0 f1, fun fuel hf => ?_, fun _ => ?_⟩
    · rw [batch, hd1 fuel (by omega)]
      exact k1 fuel (by omega)
    · obtain ⟨l', h9, h10⟩ := step_ok ho hs h.head (hd1 f0 (Nat.le_refl _))
      have hll : l'.text = l.text := by
        have := hd1 f0 (Nat.le_refl _)
        unfold batchStep at this
        obtain ⟨o, e1, e2⟩ := Res.bind_eq_ok.1 this
        rw [h6 f0 (Nat.le_refl _)] at e1
        cases e1
        cases e2
        rw [write_same, C105_copy _ (text_no he.quiet), write_other] at h10
        · exact (List.append_cancel_left (Option.some.inj h10)).symm
        · intro e
          exact h.log n (by simp) (List.append_cancel_left e).symm
      by_cases hn : ns = []
      · subst hn
        have e : d' = d1 := by
          have := k1 f1 (Nat.le_refl _)
          cases this; rfl
        subst e
        refine ⟨[(n, l')], rfl, fun p hp => ?_, by rw [h10]; simp⟩
        rw [List.mem_singleton] at hp
        subst hp
        exact ⟨h9, by rw [hll]; exact hto⟩
      · obtain ⟨ls, h11, h12, h13⟩ := k2 hn
        exact ⟨(n, l') :: ls, by rw [List.map_cons, h11], List.forall_mem_cons.2 ⟨⟨h9, by rw [hll]; exact hto⟩, h12⟩,
          by rw [h13, h10]; simp⟩

/-! ## The two programs -/

theorem plain_vsids : PlainOpts ["-solvenc".toList, "-vsids".toList] := ⟨rfl, fun f => ⟨_, rfl, rfl, rfl, by show (0 : Int) ≤ 3; decide, rfl⟩⟩
theorem plain_bk : PlainOpts ["-solvenc".toList] := ⟨rfl, fun f => ⟨_, rfl, rfl, rfl, by show (0 : Int) ≤ 3; decide, rfl⟩⟩

theorem pigeonName_ne (n : Nat) : pigeonName n ≠ "pgn4_15_vsids".toList := by
  intro h
  have : '_' ∈ pigeonName n := by rw [h]; decide
  unfold pigeonName at this
  rw [List.mem_append] at this
  rcases this with h | h
  · revert h; decide
  · exact natText_no (by decide) h

theorem queensName_ne (n : Nat) : queensName n ≠ "out43_75_BK1".toList := by
  intro h
  have : '_' ∈ queensName n := by rw [h]; decide
  unfold queensName at this
  rw [List.mem_append] at this
  rcases this with h | h
  · exact natText_no (by decide) h
  · revert h; decide

theorem small_of {n k : Nat} (h : n ≤ k) (hk : k ≤ 2147483647) : FileLine.Small n := Nat.le_trans h hk

theorem pigeon_series {m : Bench S} {ns : List Nat} (h : ∀ n ∈ ns, 3 ≤ n ∧ n ≤ 1000)
    (hq : ∀ n ∈ ns, QuietRun (m.dir ++ pigeonName n) (m.times n)) :
    Series m pigeonName pigeonFile "pgn4_15_vsids".toList ns := by
  refine ⟨fun n hn => ?_, fun n hn => (pigeon_wellFormed (h n hn).1).1, fun n hn => (pigeon_wellFormed (h n hn).1).2,
    fun n _ => pigeonName_ne n, hq⟩
  obtain ⟨_, h2⟩ := h n hn
  refine pigeon_describes (small_of h2 (by decide)) (small_of (k := 1000 ^ 2 * 1000) ?_ (by decide))
  have h3 : (n - 1) ^ 2 * n ≤ 1000 ^ 2 * 1000 := Nat.mul_le_mul (Nat.pow_le_pow_left (by omega) 2) h2
  exact Nat.le_trans (Nat.div_le_self _ _) h3

theorem length_flatMap_le {α β : Type} {f : α → List β} {k : Nat} : ∀ (l : List α), (∀ x ∈ l, (f x).length ≤ k) →
    (l.flatMap f).length ≤ l.length * k
  | [], _ => by simp
  | x :: l, h => by
    rw [List.flatMap_cons, List.length_append, List.length_cons, Nat.succ_mul]
    have := h x (.head _)
    have := length_flatMap_le l fun y hy => h y (.tail _ hy)
    omega

theorem length_forWhile (a b : Nat) (p : Nat → Bool) : (forWhile a b p).length ≤ b - a := by
  unfold forWhile
  have := (List.takeWhile_sublist (l := forUp a b) p).length_le
  rw [length_forUp] at this
  exact this

theorem queens_count {n : Nat} (hn : n ≤ 200) :
    FileLine.Small ((queensRows n).length + (queensDiagonals n).length) := by
  have h1 : (queensRows n).length ≤ n * (n * n) := by
    unfold queensRows
    refine Nat.le_trans (length_flatMap_le (k := n * n) _ fun i _ => Nat.le_trans (length_flatMap_le (k := n) _
      fun j _ => ?_) ?_) ?_
    · rw [List.length_map]
      have := length_forWhile 1 (n + 1) fun k => k != j
      omega
    · rw [length_forUp]; exact Nat.le_refl _
    · rw [length_forUp]; exact Nat.le_refl _
  have h2 : (queensDiagonals n).length ≤ n * (n * (n * n)) := by
    unfold queensDiagonals
    refine Nat.le_trans (length_flatMap_le (k := n * (n * n)) _ fun i _ => Nat.le_trans (length_flatMap_le (k := n * n) _
      fun k _ => Nat.le_trans (length_flatMap_le (k := n) _ fun d _ => Nat.le_trans (length_flatMap_le (k := 1) _
      fun l _ => ?_) ?_) ?_) ?_) ?_
    · split <;> simp
    · rw [length_forUp]; simp
    · rw [length_forUp]; exact Nat.le_refl _
    · have := length_forWhile 1 (n + 1) fun k => k != i
      exact Nat.mul_le_mul_right _ (by omega)
    · rw [length_forUp]; exact Nat.le_refl _
  have h3 : n * n ≤ 200 * 200 := Nat.mul_le_mul hn hn
  have h4 : n * (n * n) ≤ 200 * (200 * 200) := Nat.mul_le_mul hn h3
  have h5 : n * (n * (n * n)) ≤ 200 * (200 * (200 * 200)) := Nat.mul_le_mul hn h4
  show _ ≤ 2147483647
  omega

theorem queens_series {m : Bench S} {ns : List Nat} (h : ∀ n ∈ ns, 2 ≤ n ∧ n ≤ 200)
    (hq : ∀ n ∈ ns, QuietRun (m.dir ++ queensName n) (m.times n)) :
    Series m queensName queensFile "out43_75_BK1".toList ns :=
  ⟨fun n hn => queens_describes (small_of (h n hn).2 (by decide)) (queens_count (h n hn).2),
    fun n hn => (queens_wellFormed (h n hn).1).1, fun n hn => (queens_wellFormed (h n hn).1).2,
    fun n _ => queensName_ne n, hq⟩

/-- What `parse_results` makes of the texts in a file of results: as many newlines as texts with the line for SAT. -/
theorem rows_of {file : Nat → List FileLine} {ls : List (Nat × Logged)} (h : ∀ p ∈ ls, Entry file p.1 p.2) :
    (parseResults (ls.flatMap fun p => p.2.text)).count '\n' = ls.countP fun p => answerLine .SAT ∈ linesOf p.2.text := by
  have e : (ls.flatMap fun p => p.2.text) = (ls.map Prod.snd).flatMap Logged.text := by
    rw [List.flatMap_map]
  rw [e, C102_rows, List.countP_map]
  · refine List.countP_congr fun p hp => ?_
    have : answerLine .SAT ∈ linesOf p.2.text ↔ p.2.r.answer = .SAT := by
      unfold Logged.text
      rw [linesOf_report (h p hp).quiet.oneLine, mem_answer]
    simp [this]
  · intro l hl
    obtain ⟨p, hp, rfl⟩ := List.mem_map.1 hl
    exact (h p hp).quiet
  · intro l hl
    obtain ⟨p, hp, rfl⟩ := List.mem_map.1 hl
    exact (h p hp).model

/-- The text has exactly one kind of answer line. -/
def OneAnswer (txt : List Char) : Prop := ∃ a : Answer, ∀ a', answerLine a' ∈ linesOf txt ↔ a' = a

/-- **C105**, pigeonhole: whatever sizes from 3 to 1000 the loop runs through, the file of results gets one text for each size, in
this order; each has exactly one answer, and it is never SAT; and the table that `parse_results` makes of them has no
newline, so all sizes are in one row. -/
theorem C105_pigeons {m : Bench S} (hs : ∃ pos, m.arith.Good pos) {ns : List Nat} (hne : ns ≠ [])
    (h : ∀ n ∈ ns, 3 ≤ n ∧ n ≤ 1000) (hq : ∀ n ∈ ns, QuietRun (m.dir ++ pigeonName n) (m.times n)) {fuel : Nat} {d d' : Disk}
    (hr : batch m fuel pigeonName pigeonFile ["-solvenc".toList, "-vsids".toList] "pgn4_15_vsids".toList ns d = .ok d') :
    ∃ ts : List (Nat × List Char), ts.map Prod.fst = ns ∧
      d'.files (m.dir ++ "pgn4_15_vsids".toList) =
        some ((d.files (m.dir ++ "pgn4_15_vsids".toList)).getD [] ++ ts.flatMap Prod.snd) ∧
      (∀ p ∈ ts, OneAnswer p.2 ∧ answerLine .SAT ∉ linesOf p.2) ∧ '\n' ∉ parseResults (ts.flatMap Prod.snd) := by
  obtain ⟨ls, h1, h2, h3⟩ := batch_log plain_vsids hs (pigeon_series h hq) hne hr
  have hno : ∀ p ∈ ls, answerLine .SAT ∉ linesOf p.2.text := fun p hp hsat =>
    C39_pigeon_unsat (by have := (h p.1 (by rw [← h1]; exact List.mem_map_of_mem hp)).1; omega) ((h2 p hp).says.sat hsat)
  have hrow := rows_of h2
  rw [List.countP_eq_zero.2 fun p hp => by simpa using hno p hp, List.count_eq_zero] at hrow
  refine ⟨ls.map fun p => (p.1, p.2.text), ?_, ?_, ?_, ?_⟩
  · rw [List.map_map, ← h1]; rfl
  · rw [h3, List.flatMap_map]
  · intro p hp
    obtain ⟨q, hq, rfl⟩ := List.mem_map.1 hp
    exact ⟨(h2 q hq).says.one, hno q hq⟩
  · rw [List.flatMap_map]; exact hrow

/-- **C105**, the pigeonhole program itself, with a clock that is never late: it comes to its end, and the file of results then
holds, after what was in it before, eleven texts, each with the answer UNSAT. -/
theorem C105_pigeons_unsat {m : Bench S} (hs : ∃ pos, m.arith.Good pos)
    (hq : ∀ n ∈ forUp 4 15, QuietRun (m.dir ++ pigeonName n) (m.times n)) (hclock : ∀ n t k, m.late n t k = false) (d : Disk) :
    ∃ d' f0, (∀ fuel, f0 ≤ fuel → pigeonBatch m fuel d = .ok d') ∧ ∃ ts : List (List Char), ts.length = 11 ∧
      d'.files (m.dir ++ "pgn4_15_vsids".toList) =
        some ((d.files (m.dir ++ "pgn4_15_vsids".toList)).getD [] ++ ts.flatten) ∧
      ∀ t ∈ ts, OneAnswer t ∧ answerLine .UNSAT ∈ linesOf t := by
  have hb : ∀ n ∈ forUp 4 15, 3 ≤ n ∧ n ≤ 1000 := fun n hn => by rw [mem_forUp] at hn; omega
  obtain ⟨d', f0, h1, h2⟩ := batch_ends plain_vsids hs hclock d (pigeon_series (m := m) hb hq)
  obtain ⟨ls, h3, h4, h5⟩ := h2 (by decide)
  refine ⟨d', f0, h1, ls.map fun p => p.2.text, ?_, ?_, ?_⟩
  · rw [List.length_map, ← List.length_map (f := Prod.fst), h3]; rfl
  · rw [h5, List.flatMap_def]
  · intro t ht
    obtain ⟨q, hq', rfl⟩ := List.mem_map.1 ht
    obtain ⟨he, hto⟩ := h4 q hq'
    refine ⟨he.says.one, ?_⟩
    have hns : ¬ (fileProblem (pigeonFile q.1)).Satisfiable :=
      C39_pigeon_unsat (by have := (hb q.1 (by rw [← h3]; exact List.mem_map_of_mem hq')).1; omega)
    obtain ⟨a, ha⟩ := he.says.one
    cases a with
    | SAT => exact absurd (he.says.sat ((ha _).2 rfl)) hns
    | TIMEOUT => exact absurd ((ha _).2 rfl) hto
    | UNSAT => exact (ha _).2 rfl

/-- `n` queens can be placed so that no two attack each other. -/
def Placeable (n : Nat) : Prop := ∃ row : Nat → Nat, (∀ x, 1 ≤ x → x ≤ n → row x < n) ∧
  ∀ x y, 1 ≤ x → x ≤ n → 1 ≤ y → y ≤ n → x ≠ y → ¬ QueensAttack x (row x) y (row y)

theorem placeable_iff (n : Nat) : Placeable n ↔ (fileProblem (queensFile n)).Satisfiable :=
  exists_congr fun a => (C40_queens n a).symm

/-- **C105**, queens: whatever sizes from 2 to 200 the loop runs through, the file of results gets one text for each size, in this
order; each has exactly one answer; SAT is among the lines only if so many queens can be placed, UNSAT only if they cannot;
and the table that `parse_results` makes of the texts has as many newlines as there are texts with SAT. -/
theorem C105_queens {m : Bench S} (hs : ∃ pos, m.arith.Good pos) {ns : List Nat} (hne : ns ≠ [])
    (h : ∀ n ∈ ns, 2 ≤ n ∧ n ≤ 200) (hq : ∀ n ∈ ns, QuietRun (m.dir ++ queensName n) (m.times n)) {fuel : Nat} {d d' : Disk}
    (hr : batch m fuel queensName queensFile ["-solvenc".toList] "out43_75_BK1".toList ns d = .ok d') :
    ∃ ts : List (Nat × List Char), ts.map Prod.fst = ns ∧
      d'.files (m.dir ++ "out43_75_BK1".toList) =
        some ((d.files (m.dir ++ "out43_75_BK1".toList)).getD [] ++ ts.flatMap Prod.snd) ∧
      (∀ p ∈ ts, OneAnswer p.2 ∧ (answerLine .SAT ∈ linesOf p.2 → Placeable p.1) ∧
        (answerLine .UNSAT ∈ linesOf p.2 → ¬ Placeable p.1)) ∧
      (parseResults (ts.flatMap Prod.snd)).count '\n' = ts.countP fun p => answerLine .SAT ∈ linesOf p.2 := by
  obtain ⟨ls, h1, h2, h3⟩ := batch_log plain_bk hs (queens_series h hq) hne hr
  refine ⟨ls.map fun p => (p.1, p.2.text), ?_, ?_, ?_, ?_⟩
  · rw [List.map_map, ← h1]; rfl
  · rw [h3, List.flatMap_map]
  · intro p hp
    obtain ⟨q, hq, rfl⟩ := List.mem_map.1 hp
    refine ⟨(h2 q hq).says.one, fun hsat => (placeable_iff _).2 ((h2 q hq).says.sat hsat), fun hun hpl => ?_⟩
    exact (h2 q hq).says.unsat hun ((placeable_iff _).1 hpl)
  · rw [List.flatMap_map, List.countP_map]
    exact rows_of h2

/-- **C105**, the queens program itself, with a clock that is never late: it comes to its end, and each of its 33 texts says SAT
exactly if so many queens can be placed, and UNSAT exactly if not. -/
theorem C105_queens_decides {m : Bench S} (hs : ∃ pos, m.arith.Good pos)
    (hq : ∀ n ∈ forUp 43 76, QuietRun (m.dir ++ queensName n) (m.times n)) (hclock : ∀ n t k, m.late n t k = false) (d : Disk) :
    ∃ d' f0, (∀ fuel, f0 ≤ fuel → queensBatch m fuel d = .ok d') ∧ ∃ ts : List (Nat × List Char),
      ts.map Prod.fst = forUp 43 76 ∧
      d'.files (m.dir ++ "out43_75_BK1".toList) =
        some ((d.files (m.dir ++ "out43_75_BK1".toList)).getD [] ++ ts.flatMap Prod.snd) ∧
      ∀ p ∈ ts, (answerLine .SAT ∈ linesOf p.2 ↔ Placeable p.1) ∧ (answerLine .UNSAT ∈ linesOf p.2 ↔ ¬ Placeable p.1) := by
  have hb : ∀ n ∈ forUp 43 76, 2 ≤ n ∧ n ≤ 200 := fun n hn => by rw [mem_forUp] at hn; omega
  obtain ⟨d', f0, h1, h2⟩ := batch_ends plain_bk hs hclock d (queens_series (m := m) hb hq)
  obtain ⟨ls, h3, h4, h5⟩ := h2 (by decide)
  refine ⟨d', f0, h1, ls.map fun p => (p.1, p.2.text), ?_, ?_, ?_⟩
  · rw [List.map_map, ← h3]; rfl
  · rw [h5, List.flatMap_map]
  · intro p hp
    obtain ⟨q, hq', rfl⟩ := List.mem_map.1 hp
    obtain ⟨he, hto⟩ := h4 q hq'
    have k1 : answerLine .SAT ∈ linesOf q.2.text → Placeable q.1 := fun h => (placeable_iff _).2 (he.says.sat h)
    have k2 : answerLine .UNSAT ∈ linesOf q.2.text → ¬ Placeable q.1 := fun h h' => he.says.unsat h ((placeable_iff _).1 h')
    obtain ⟨a, ha⟩ := he.says.one
    refine ⟨⟨k1, fun hp => ?_⟩, ⟨k2, fun hp => ?_⟩⟩ <;> cases a with
    | SAT => first | exact (ha _).2 rfl | exact absurd (k1 ((ha _).2 rfl)) hp
    | TIMEOUT => exact absurd ((ha _).2 rfl) hto
    | UNSAT => first | exact (ha _).2 rfl | exact absurd hp (k2 ((ha _).2 rfl))

/-- A machine for the examples. -/
def exBench : Bench (Option (Nat × Nat)) where
  dir := "/b/".toList
  arith := exWorld.arith
  late := fun _ _ _ => false
  times := fun _ => exTimes

instance (a : List Char) : Decidable (Quiet a) :=
  decidable_of_iff ('\n' ∉ a ∧ '\x00' ∉ a ∧ ':' ∉ a ∧ ¬ ['T', 'h'] <:+: a)
    ⟨fun ⟨h1, h2, h3, h4⟩ => ⟨h1, h2, h3, h4⟩, fun ⟨h1, h2, h3, h4⟩ => ⟨h1, h2, h3, h4⟩⟩

instance (name : List Char) (t : Times) : Decidable (QuietRun name t) :=
  decidable_of_iff (Quiet name ∧ Quiet t.build ∧ Quiet t.search ∧ Quiet t.total)
    ⟨fun ⟨h1, h2, h3, h4⟩ => ⟨h1, h2, h3, h4⟩, fun ⟨h1, h2, h3, h4⟩ => ⟨h1, h2, h3, h4⟩⟩

/-- The hypotheses of C105 about names and times. -/
example : (∀ n ∈ forUp 4 15, QuietRun (exBench.dir ++ pigeonName n) (exBench.times n)) ∧
    (∀ n ∈ forUp 43 76, QuietRun (exBench.dir ++ queensName n) (exBench.times n)) ∧ ∃ pos, exBench.arith.Good pos :=
  ⟨by decide +kernel, by decide +kernel, _, ScoreArith.dyadic_good⟩

example : (batch exBench 200 pigeonName pigeonFile ["-solvenc".toList, "-vsids".toList] "pgn4_15_vsids".toList [3]
    ⟨fun _ => none, fun _ => true⟩).passes
    (fun d => ((d.files "/b/pgn4_15_vsids".toList).getD []).count '\n' == 18 &&
      (linesOf ((d.files "/b/pgn4_15_vsids".toList).getD [])).contains (answerLine .UNSAT)) = true := by decide +kernel

end Mvl
