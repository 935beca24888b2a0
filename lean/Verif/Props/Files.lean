import Verif.Proof.Parse
import Verif.Proof.Build
import Verif.Proof.Shape
import Verif.Props.NC

/-!
# Properties of reading a file

C21 (round trip), C22 (no clause line ignored; false for long lines), C19 (one-value domains; false) and
C20 (empty clauses; false), the last two on the characters of a file.
-/

namespace Mvl

variable {S : Type}

/-! ## C21 -/

/-- The formula held by a solver state: domain sizes of the variables and literals of the clauses, in
order. -/
structure Holds (s : St S) (P : Problem) : Prop where
  vars    : s.nv = P.numVars
  doms    : ∀ v, 1 ≤ v → v ≤ P.numVars → s.dom v = P.dom v
  count   : s.ncl = P.clauses.length
  clauses : ∀ (i : Nat) (c : List Lit), P.clauses[i]? = some c → (s.cl i).lits = c

/-- **C21**.  Reading a file in the documented format, with comment and problem lines anywhere, gives
exactly the formula it describes: the solver then holds the same domains and the same clauses with the
literals in the same order. -/
theorem C21_round_trip (cfg : Cfg S) {ls : List FileLine} {P : Problem} (h : Describes ls P)
    (hok : ∀ c ∈ P.clauses, ∀ l ∈ c, P.LitOk l) :
    readFile (fileText ls) = .ok (P.doms.map .dom ++ P.clauses.map .clause) ∧
    ∃ s, buildFile cfg (fileText ls) = .ok s ∧ Holds s P := by
  have hr := readFile_describes h
  refine ⟨hr, ?_⟩
  have hne : ∀ c ∈ P.clauses, c ≠ [] := by
    intro c hc
    rw [← h.clauses] at hc
    obtain ⟨l, hl, e⟩ := List.mem_filterMap.1 hc
    cases l with
    | clause c' => cases e; exact (h.ok _ hl).1
    | _ => cases e
  obtain ⟨s, h1, h2⟩ := build_read cfg hok (fun _ => hne)
  refine ⟨s, ?_, ?_⟩
  · unfold buildFile
    rw [hr]
    exact h1
  · have hp := h2.ptr
    have hh := h2.heap
    obtain ⟨c, sc, r, w, hp', u, p, e⟩ := h2.frame
    refine ⟨by rw [e]; rfl, ?_, by rw [e], ?_⟩
    · intro v _ _
      rw [e, ← P.dom_eq]
    · intro i c hc
      have hi : i < P.clauses.length := by
        rw [List.getElem?_eq_some_iff] at hc; exact hc.1
      show (s.heap (s.ptr i)).lits = c
      rw [hp i hi, hh i c hc]
      unfold mkCls
      split <;> rfl

/-- The answer on a file is the answer on the formula it describes. -/
theorem solveFile_describes (cfg : Cfg S) {ls : List FileLine} {P : Problem} (h : Describes ls P)
    (algo : Algo) (fuel : Nat) : solveFile cfg algo fuel (fileText ls) = solve cfg algo fuel P := by
  unfold solveFile buildFile solve run build
  rw [readFile_describes h]
  simp only [Res.ok_bind]
  cases buildItems cfg P.items (initSt cfg) <;> rfl

/-- A file with comments between the lines. -/
def exFile : List FileLine :=
  [.comment " two variables".toList, .problem true 2 3, .domain 1 2, .comment [], .domain 2 12,
   .clause [⟨1, 0, true⟩, ⟨2, 11, false⟩], .comment ['\t'], .clause [⟨2, 10, true⟩]]

example : Describes exFile ⟨[2, 12], [[⟨1, 0, true⟩, ⟨2, 11, false⟩], [⟨2, 10, true⟩]]⟩ :=
  ⟨by decide, by decide, ⟨rfl, rfl, rfl⟩, rfl, rfl⟩

example : readFile "c x\np mvcnf 2 2\nd 1 2\nd 2 12\n1=0 2!=11 0\n2=10 0\n".toList =
    .ok [.dom 2, .dom 12, .clause [⟨1, 0, true⟩, ⟨2, 11, false⟩], .clause [⟨2, 10, true⟩]] := by decide

/-! ## C22 -/

/-- A line of the file that holds a clause: it is not a comment, problem or domain line. -/
def IsClauseLine (l : List Char) : Prop := ∀ c, l.head? = some c → c ≠ 'c' ∧ c ≠ 'p' ∧ c ≠ 'd'

instance (l : List Char) : Decidable (IsClauseLine l) :=
  match l with
  | [] => .isTrue (by intro c h; cases h)
  | c :: _ => decidable_of_iff (c ≠ 'c' ∧ c ≠ 'p' ∧ c ≠ 'd')
      ⟨fun h d hd => by cases hd; exact h, fun h => h c rfl⟩

/-- Lines of a text. -/
def textLines (cs : List Char) : List (List Char) := pieces [] cs

def Item.isClause : Item → Bool
  | .clause _ => true
  | .dom _ => false

/-- A comment of 3000 characters followed by a formula without solutions. -/
def longFile : List Char :=
  List.replicate 3000 'c' ++ "\nd 1 2\n1=0 0\n1=1 0\n".toList

theorem pieces_replicate (c : Char) (hc : c ≠ '\n') (r : List Char) : ∀ n acc,
    pieces acc (List.replicate n c ++ r) = pieces (List.replicate n c ++ acc) r
  | 0, acc => rfl
  | n + 1, acc => by
    rw [List.replicate_succ, List.cons_append, pieces, if_neg hc, pieces_replicate c hc r n]
    rw [show List.replicate n c ++ c :: acc = (List.replicate n c ++ [c]) ++ acc from by simp,
      ← List.replicate_succ', List.replicate_succ]

/-- **C22** does not hold: a line of 3000 characters, even a comment, ends the reading; the clauses after it
are ignored and the solver reports SAT on an unsatisfiable formula. -/
theorem C22_fails : textLines longFile = [List.replicate 3000 'c', "d 1 2".toList, "1=0 0".toList, "1=1 0".toList] ∧
    readFile longFile = .ok [] ∧
    ∃ rep, solveFile (exCfg .BK false) .chrono 5 longFile = .ok rep ∧ rep.answer = .SAT := by
  have hp : pieces [] longFile = [List.replicate 3000 'c', "d 1 2".toList, "1=0 0".toList, "1=1 0".toList] := by
    unfold longFile
    rw [pieces_replicate 'c' (by decide)]
    rw [show ("\nd 1 2\n1=0 0\n1=1 0\n".toList) = '\n' :: "d 1 2\n1=0 0\n1=1 0\n".toList from by decide, pieces,
      if_pos rfl]
    rw [List.append_nil, List.reverse_replicate]
    congr 1
  have hr : readFile longFile = .ok [] := by
    unfold readFile fileLines
    rw [hp, List.takeWhile_cons, List.length_replicate]
    rfl
  refine ⟨hp, hr, ?_⟩
  unfold solveFile buildFile
  rw [hr]
  exact ⟨_, rfl, by decide⟩

theorem scanLine_count {s s' : Scan} {l : List Char} {i : Option Item} (h : scanLine s l = .ok (s', i)) :
    (i.toList.countP Item.isClause) = if IsClauseLine l then 1 else 0 := by
  unfold scanLine at h
  split at h
  · cases h; rw [if_neg (fun hc => (hc 'c' rfl).1 rfl)]; rfl
  · rw [Res.bind_eq_ok] at h
    obtain ⟨_, _, h⟩ := h
    cases h; rw [if_neg (fun hc => (hc 'p' rfl).2.1 rfl)]; rfl
  · rw [Res.bind_eq_ok] at h
    obtain ⟨_, _, h⟩ := h
    cases h; rw [if_neg (fun hc => (hc 'd' rfl).2.2 rfl)]; rfl
  · next h1 h2 h3 =>
    rw [Res.bind_eq_ok] at h
    obtain ⟨_, _, h⟩ := h
    cases h
    rw [if_pos]
    · rfl
    · intro c hc
      cases l with
      | nil => cases hc
      | cons d r =>
        cases hc
        exact ⟨by rintro rfl; exact h1 r rfl, by rintro rfl; exact h2 r rfl, by rintro rfl; exact h3 r rfl⟩

theorem cString_clauseLine (l : List Char) : IsClauseLine l → IsClauseLine (cString l) := by
  intro h c hc
  cases l with
  | nil => cases hc
  | cons d r =>
    unfold cString at hc
    rw [List.takeWhile_cons] at hc
    split at hc
    · exact h c hc
    · cases hc

theorem scanLines_count {ls : List (List Char)} : ∀ {s : Scan} {is : List Item}, scanLines s ls = .ok is →
    ls.countP (fun l => IsClauseLine l) ≤ is.countP Item.isClause := by
  induction ls with
  | nil => intro s is h; simp
  | cons l ls ih =>
    intro s is h
    simp only [scanLines] at h
    rw [Res.bind_eq_ok] at h
    obtain ⟨⟨s', i⟩, h1, h⟩ := h
    rw [Res.bind_eq_ok] at h
    obtain ⟨is', h2, h⟩ := h
    cases h
    have e := scanLine_count h1
    have e2 := ih h2
    rw [List.countP_cons, List.countP_append, e]
    have := cString_clauseLine l
    by_cases hl : IsClauseLine l
    · rw [if_pos (this hl)]; simp [hl]; omega
    · simp [hl]; omega

/-- **C22**, for files whose lines all have fewer than 3000 characters (the full claim has no such
restriction): when the file is read, each clause line gives a clause. -/
theorem C22_lines_partial {cs : List Char} {is : List Item} (hs : ∀ l ∈ textLines cs, l.length < 3000)
    (h : readFile cs = .ok is) :
    (textLines cs).countP (fun l => IsClauseLine l) ≤ is.countP Item.isClause := by
  unfold readFile fileLines at h
  rw [takeWhile_all (by intro a ha; simpa using hs a ha)] at h
  exact scanLines_count h

example : let cs := "p cnf 1 2\nd 1 2\n1=0 0\n1=1 0".toList
    (∀ l ∈ textLines cs, l.length < 3000) ∧ (textLines cs).countP (fun l => IsClauseLine l) = 2 ∧
    readFile cs = .ok [.dom 2, .clause [⟨1, 0, true⟩], .clause [⟨1, 1, true⟩]] := by decide

/-! ## C19 -/

/-- The combinations of command, heuristic and watched literals that the command line can select. -/
def allModes : List (Algo × Heuristic × Bool) :=
  [(.chrono, .BK, false), (.chrono, .lazy, false), (.learn, .BK, false), (.learn, .VSIDS, false),
   (.learn, .VSIDS_pos, false), (.learn, .lazy, false), (.learn, .VSIDS, true), (.learn, .VSIDS_pos, true),
   (.learn, .lazy, true)]

/-- **C19** does not hold: with a one-value domain the solvers never notice that the value is excluded.
The file `d 1 1`, `1!=0 0` has no solution, yet every solver prints SAT and reports the model as correct. -/
theorem C19_fails :
    ¬ (⟨[1], [[⟨1, 0, false⟩]]⟩ : Problem).Satisfiable ∧
    Describes [.domain 1 1, .clause [⟨1, 0, false⟩]] ⟨[1], [[⟨1, 0, false⟩]]⟩ ∧
    ∀ m ∈ allModes, (solveFile (exCfg m.2.1 m.2.2) m.1 20 "d 1 1\n1!=0 0\n".toList).passes
      (fun rep => rep.answer = .SAT && rep.verified = some true) = true := by
  refine ⟨?_, ⟨by decide, by decide, ⟨rfl, rfl⟩, rfl, rfl⟩, ?_⟩
  · rintro ⟨a, h1, h2⟩
    obtain ⟨l, hl, hh⟩ := h2 _ List.mem_cons_self
    simp at hl
    subst hl
    have := h1 1 (by decide) (by decide)
    have e : (⟨[1], [[⟨1, 0, false⟩]]⟩ : Problem).dom 1 = 1 := by decide
    rw [e] at this
    simp [Lit.holds] at hh
    omega
  · decide +kernel

/-! ## C20 -/

/-- **C20** does not hold: the file `d 1 2`, `1=0 0` and a blank line describes a formula with an empty
clause; the solvers without watched literals print SAT (and then report the model as incorrect). -/
theorem C20_fails :
    readFile "d 1 2\n1=0 0\n\n".toList = .ok [.dom 2, .clause [⟨1, 0, true⟩], .clause []] ∧
    ¬ (⟨[2], [[⟨1, 0, true⟩], []]⟩ : Problem).Satisfiable ∧
    ∀ algo : Algo, ∀ h ∈ [Heuristic.BK, .VSIDS, .VSIDS_pos, .lazy],
      (solveFile (exCfg h false) algo 20 "d 1 2\n1=0 0\n\n".toList).passes
        (fun rep => rep.answer = .SAT && rep.verified = some false) = true := by
  refine ⟨by decide, ?_, ?_⟩
  · rintro ⟨a, _, h2⟩
    obtain ⟨l, hl, _⟩ := h2 [] (by simp)
    cases hl
  · intro algo h hh
    cases algo <;> simp at hh <;> rcases hh with rfl | rfl | rfl | rfl <;> decide +kernel

/-- With watched literals a blank line makes the solver read the first literal of an empty clause. -/
theorem C20_watch_ub {cfg : Cfg S} (hw : cfg.watch = true) (algo : Algo) (fuel : Nat) :
    solveFile cfg algo fuel "d 1 2\n1=0 0\n\n".toList = .ub := by
  have hr : readFile "d 1 2\n1=0 0\n\n".toList = .ok [.dom 2, .clause [⟨1, 0, true⟩], .clause []] := by decide
  unfold solveFile buildFile
  rw [hr]
  obtain ⟨s1, h1⟩ : ∃ s1, addClause cfg (addVar (initSt cfg) 2) [⟨1, 0, true⟩] = .ok s1 := by
    unfold addClause
    rw [if_pos (by simp [litInRange, addVar, initSt, upd]), hw]
    exact ⟨_, rfl⟩
  have h2 : addClause cfg s1 [] = .ub := by
    unfold addClause
    rw [if_pos (show [].all (litInRange s1) = true from rfl), hw]
    rfl
  simp only [Res.ok_bind, buildItems, h1, h2, Res.ub_bind]

theorem buildItems_watch_empty {cfg : Cfg S} (hw : cfg.watch = true) : ∀ (is : List Item) (s s' : St S),
    Item.clause [] ∈ is → buildItems cfg is s ≠ .ok s'
  | [], _, _, h => by cases h
  | .dom d :: is, s, s', h => by
    refine buildItems_watch_empty hw is (addVar s d) s' ?_
    rcases List.mem_cons.1 h with e | e
    · cases e
    · exact e
  | .clause ls :: is, s, s', h => by
    intro hb
    unfold buildItems at hb
    obtain ⟨s1, h1, hb⟩ := Res.bind_eq_ok.1 hb
    rcases List.mem_cons.1 h with e | e
    · cases e
      unfold addClause at h1
      rw [if_pos (show [].all (litInRange s) = true from rfl), hw] at h1
      cases h1
    · exact buildItems_watch_empty hw is s1 s' e hb

/-- **C20**, the part that holds (the full claim: SAT is never reported): whenever the file contains an empty
clause and the solver says SAT, it then reports its model as incorrect. -/
theorem C20_flagged_partial {cfg : Cfg S} {algo : Algo} {fuel : Nat} {cs : List Char} {is : List Item} {rep : Report}
    (hread : readFile cs = .ok is) (hempty : Item.clause [] ∈ is) (hrun : solveFile cfg algo fuel cs = .ok rep)
    (hsat : rep.answer = .SAT) : rep.verified = some false := by
  unfold solveFile buildFile at hrun
  rw [hread] at hrun
  obtain ⟨s0, h0, hrun⟩ := Res.bind_eq_ok.1 hrun
  simp only [Res.ok_bind] at h0
  obtain ⟨⟨r, s⟩, h1, hrun⟩ := Res.bind_eq_ok.1 hrun
  cases hrun
  cases hw : cfg.watch with
  | true => exact absurd h0 (buildItems_watch_empty hw is _ _ hempty)
  | false =>
    obtain ⟨id, hid, _, hc⟩ := HasClause.search hw hempty h0 h1
    have hr := report_sat.1 hsat
    subst hr
    have hv : verifyModel s = false := by
      unfold verifyModel
      rw [List.all_eq_false]
      refine ⟨id, List.mem_range.2 hid, ?_⟩
      rw [hc]; simp
    show (if (0 : Nat) = 0 then some (verifyModel s) else none) = some false
    rw [if_pos rfl, hv]

example : readFile "d 1 2\n1=0 0\n\n".toList = .ok [.dom 2, .clause [⟨1, 0, true⟩], .clause []] ∧
    ∃ rep, solveFile (exCfg .BK false) .learn 20 "d 1 2\n1=0 0\n\n".toList = .ok rep ∧ rep.answer = .SAT := by
  have h : (solveFile (exCfg .BK false) .learn 20 "d 1 2\n1=0 0\n\n".toList).passes
      (fun rep => rep.answer = .SAT) = true := by decide +kernel
  obtain ⟨rep, h1, h2⟩ := Res.of_passes h
  exact ⟨by decide, rep, h1, of_decide_eq_true h2⟩

end Mvl
