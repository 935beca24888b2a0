import Verif.Props.Encode

/-!
# Boolean to finite domain: clause lines with any number of blanks

`Verif/Proof/B2f.lean` is about DIMACS files with one blank after each literal.  The encoder and the n-queens script write
two blanks before some of the end markers, and the script ends with a blank line.
-/

namespace Mvl

/-- A line of a Boolean file: one that is copied, or a line of integers, with or without end marker `0`. -/
inductive RLine where
  | head (l : BLine)
  | ints (c : List Int) (z : Bool) (t : List Char)

namespace RLine

def text : RLine → List Char
  | head l => l.text
  | ints _ _ t => t

/-- Only digits, signs and blanks. -/
def Numeric (t : List Char) : Prop := ∀ ch ∈ t, ch.isDigit = true ∨ ch = '-' ∨ ch = ' '

instance (t : List Char) : Decidable (Numeric t) := by unfold Numeric; infer_instance

def Ok (l : RLine) : Prop :=
  l.text.length < 3000 ∧
  match l with
  | head l => l.Ok ∧ ∀ c, l ≠ .clause c
  | ints c z t => Numeric t ∧ words t = c.map intText ++ (if z then [['0']] else []) ∧
      ∀ x ∈ c, x ≠ 0 ∧ FileLine.Small x.natAbs

def clause? : RLine → Option (List Int)
  | head _ => none
  | ints c _ _ => some c

def ended : RLine → Bool
  | head _ => false
  | ints _ z _ => z

end RLine

theorem numeric_no {t : List Char} (h : RLine.Numeric t) {c : Char} (h1 : c.isDigit = false) (h2 : c ≠ '-') (h3 : c ≠ ' ') :
    c ∉ t := fun hm => by
  rcases h c hm with h | h | h
  · rw [h1] at h; cases h
  · exact h2 h
  · exact h3 h

theorem rText_no {l : RLine} (h : l.Ok) {c : Char} (hc : c = '\n' ∨ c = '\x00') : c ∉ l.text := by
  cases l with
  | head l => exact bText_no h.2.1 hc
  | ints cl z t =>
    rcases hc with rfl | rfl
    · exact numeric_no h.2.1 (by decide) (by decide) (by decide)
    · exact numeric_no h.2.1 (by decide) (by decide) (by decide)

/-- The characters of the file. -/
def rText (ls : List RLine) : List Char := ls.flatMap fun l => l.text ++ ['\n']

def rClauses (ls : List RLine) : List (List Int) := ls.filterMap RLine.clause?

def rHead (ls : List RLine) : List Char :=
  ls.flatMap fun l => match l with | .head l => l.text ++ ['\n'] | _ => []

theorem rClauses_head (l : BLine) (ls : List RLine) : rClauses (.head l :: ls) = rClauses ls := by
  unfold rClauses; rw [List.filterMap_cons]; rfl

theorem rClauses_ints (c : List Int) (z : Bool) (t : List Char) (ls : List RLine) :
    rClauses (.ints c z t :: ls) = c :: rClauses ls := by
  unfold rClauses; rw [List.filterMap_cons]; rfl

theorem fileLines_r {ls : List RLine} (h : ∀ l ∈ ls, l.Ok) : fileLines (rText ls) = ls.map RLine.text := by
  have hp : pieces [] (rText ls) = ls.map RLine.text := by
    unfold rText
    induction ls with
    | nil => rfl
    | cons l ls ih =>
      simp only [List.flatMap_cons, List.append_assoc, List.cons_append, List.nil_append, List.map_cons]
      rw [pieces_line (rText_no (h l List.mem_cons_self) (.inl rfl)), ih (fun x hx => h x (List.mem_cons_of_mem _ hx))]
      simp
  unfold fileLines
  rw [hp, takeWhile_all]
  intro a ha
  obtain ⟨l, hl, rfl⟩ := List.mem_map.1 ha
  simpa using (h l hl).1

/-- The numbers inserted for a line. -/
def rNums (c : List Int) (z : Bool) : List Nat := c.map Int.natAbs ++ if z then [0] else []

theorem b2fWords_ints {c : List Int} (h : ∀ x ∈ c, x ≠ 0 ∧ FileLine.Small x.natAbs) (z : Bool) :
    ∀ vs, b2fWords vs (c.map intText ++ if z then [['0']] else []) = .ok (insertAll vs (rNums c z), c) := by
  cases z with
  | true => exact b2fWords_clause h
  | false =>
    simp only [rNums, Bool.false_eq_true, if_false, List.append_nil]
    induction c with
    | nil => intro vs; rfl
    | cons x c ih =>
      intro vs
      obtain ⟨h1, h2⟩ := h x List.mem_cons_self
      simp only [List.map_cons, b2fWords, atoi_int h2, Res.ok_bind]
      rw [if_neg (by unfold FileLine.Small at h2; omega), ih (fun y hy => h y (List.mem_cons_of_mem _ hy))]
      simp only [Res.ok_bind, if_neg h1, insertAll]
      rfl

theorem b2fLine_ints (t : B2fSt) {c : List Int} {z : Bool} {x : List Char} (h : (RLine.ints c z x).Ok) :
    b2fLine t (cString x) = .ok { t with variables := insertAll t.variables (rNums c z), data := t.data ++ [c] } := by
  rw [cString_id (numeric_no h.2.1 (by decide) (by decide) (by decide))]
  have hc : ∀ d r, x = d :: r → d ≠ 'c' ∧ d ≠ 'p' := by
    rintro d r rfl
    have hn := h.2.1
    constructor <;> rintro rfl
    · exact numeric_no hn (by decide) (by decide) (by decide) List.mem_cons_self
    · exact numeric_no hn (by decide) (by decide) (by decide) List.mem_cons_self
  unfold b2fLine
  split
  · exact absurd rfl (hc _ _ rfl).1
  · exact absurd rfl (hc _ _ rfl).2
  · rw [h.2.2.1, b2fWords_ints h.2.2.2]
    rfl

/-- The set after the lines. -/
def rSet (vs : List Nat) : List RLine → List Nat
  | [] => vs
  | .head _ :: ls => rSet vs ls
  | .ints c z _ :: ls => rSet (insertAll vs (rNums c z)) ls

theorem b2fLines_r {ls : List RLine} (h : ∀ l ∈ ls, l.Ok) :
    ∀ t : B2fSt, b2fLines t (ls.map RLine.text) = .ok
      ⟨rSet t.variables ls, t.data ++ rClauses ls, t.out ++ rHead ls⟩ := by
  induction ls with
  | nil => intro t; simp [b2fLines, rClauses, rSet, rHead]
  | cons l ls ih =>
    intro t
    have ih := ih (fun x hx => h x (List.mem_cons_of_mem _ hx))
    have hl := h l List.mem_cons_self
    simp only [List.map_cons, b2fLines]
    cases l with
    | head l =>
      have e : b2fLine t (cString (RLine.text (.head l))) = .ok { t with out := t.out ++ l.text ++ ['\n'] } := by
        show b2fLine t (cString l.text) = _
        rw [cString_id (bText_no hl.2.1 (.inr rfl))]
        cases l with
        | comment x => rfl
        | problem n m => rfl
        | clause c => exact absurd rfl (hl.2.2 c)
      rw [e]
      simp only [Res.ok_bind, ih]
      simp [rClauses_head, rHead, rSet]
    | ints c z x =>
      have e : b2fLine t (cString (RLine.text (.ints c z x))) = _ := b2fLine_ints t hl
      rw [e]
      simp only [Res.ok_bind, ih]
      simp [rClauses_ints, rHead, rSet]

theorem mem_rSet {m : Nat} {ls : List RLine} : ∀ {vs : List Nat},
    m ∈ rSet vs ls ↔ m ∈ vs ∨ ((∃ l ∈ ls, l.ended = true) ∧ m = 0) ∨ BUses (rClauses ls) m := by
  induction ls with
  | nil => intro vs; simp [rSet, BUses, rClauses]
  | cons l ls ih =>
    intro vs
    cases l with
    | head l =>
      have hen : (∃ l' ∈ RLine.head l :: ls, l'.ended = true) ↔ ∃ l ∈ ls, l.ended = true := by
        constructor
        · rintro ⟨l', hl, e⟩
          rcases List.mem_cons.1 hl with rfl | hl
          · cases e
          · exact ⟨l', hl, e⟩
        · rintro ⟨l', hl, e⟩; exact ⟨l', List.mem_cons_of_mem _ hl, e⟩
      rw [rSet, ih, rClauses_head, hen]
    | ints c z x =>
      rw [rSet, ih, mem_insertAll]
      have e := rClauses_ints c z x ls
      have hu : BUses (c :: rClauses ls) m ↔ (∃ x ∈ c, x.natAbs = m) ∨ BUses (rClauses ls) m := by
        simp [BUses]
      have hz : m ∈ rNums c z ↔ (∃ x ∈ c, x.natAbs = m) ∨ (z = true ∧ m = 0) := by
        unfold rNums
        cases z <;> simp
      have hen : (∃ l ∈ RLine.ints c z x :: ls, l.ended = true) ↔ z = true ∨ ∃ l ∈ ls, l.ended = true := by
        constructor
        · rintro ⟨l', hl, e⟩
          rcases List.mem_cons.1 hl with rfl | hl
          · exact .inl e
          · exact .inr ⟨l', hl, e⟩
        · rintro (e | ⟨l', hl, e⟩)
          · exact ⟨_, List.mem_cons_self, e⟩
          · exact ⟨l', List.mem_cons_of_mem _ hl, e⟩
      rw [e, hu, hz, hen]
      constructor
      · rintro ((h | h | ⟨h, e⟩) | ⟨h, e⟩ | h)
        · exact .inl h
        · exact .inr (.inr (.inl h))
        · exact .inr (.inl ⟨.inl h, e⟩)
        · exact .inr (.inl ⟨.inr h, e⟩)
        · exact .inr (.inr (.inr h))
      · rintro (h | ⟨h | h, e⟩ | h | h)
        · exact .inl (.inl h)
        · exact .inl (.inr (.inr ⟨h, e⟩))
        · exact .inr (.inl ⟨h, e⟩)
        · exact .inl (.inr (.inl h))
        · exact .inr (.inr h)

theorem rSet_sorted {ls : List RLine} : ∀ {vs : List Nat}, vs.Pairwise (· < ·) → (rSet vs ls).Pairwise (· < ·) := by
  induction ls with
  | nil => intro vs h; exact h
  | cons l ls ih =>
    intro vs h
    cases l with
    | head l => exact ih h
    | ints c z x => exact ih (insertAll_sorted h)

theorem rWellFormed {ls : List RLine} (h : ∀ l ∈ ls, l.Ok) :
    ∀ c ∈ rClauses ls, ∀ x ∈ c, x ≠ 0 ∧ FileLine.Small x.natAbs := by
  intro c hc x hx
  obtain ⟨l, hl, e⟩ := List.mem_filterMap.1 hc
  cases l with
  | head l => cases e
  | ints c' z t => cases e; exact (h _ hl).2.2.2 x hx

theorem rSet_cons {ls : List RLine} (h : ∀ l ∈ ls, l.Ok) (hz : ∃ l ∈ ls, l.ended = true) :
    ∃ used, rSet [] ls = 0 :: used ∧ used.Pairwise (· < ·) ∧ ∀ v, v ∈ used ↔ BUses (rClauses ls) v := by
  have hs := rSet_sorted (ls := ls) (vs := []) List.Pairwise.nil
  have hm : 0 ∈ rSet [] ls := mem_rSet.2 (.inr (.inl ⟨hz, rfl⟩))
  cases e : rSet [] ls with
  | nil => rw [e] at hm; cases hm
  | cons k used =>
    rw [e] at hs hm
    rw [List.pairwise_cons] at hs
    have hk : k = 0 := by
      rcases List.mem_cons.1 hm with h | h
      · exact h.symm
      · have := hs.1 0 h; omega
    subst hk
    refine ⟨used, rfl, hs.2, fun v => ⟨fun hv => ?_, fun hv => ?_⟩⟩
    · have h1 : v ∈ rSet [] ls := by rw [e]; exact List.mem_cons_of_mem _ hv
      have h2 := hs.1 v hv
      rcases mem_rSet.1 h1 with h | ⟨_, h⟩ | h
      · cases h
      · omega
      · exact h
    · have h1 : v ∈ rSet [] ls := mem_rSet.2 (.inr (.inr hv))
      rw [e] at h1
      rcases List.mem_cons.1 h1 with h' | h'
      · obtain ⟨c, hc, x, hx, e⟩ := hv
        have := (rWellFormed h c hc x hx).1
        omega
      · exact h'

/-- What `-b2f` writes for a file with at least one end marker. -/
theorem boolean2Finite_r {ls : List RLine} (h : ∀ l ∈ ls, l.Ok) (hz : ∃ l ∈ ls, l.ended = true) :
    ∃ used : List Nat, used.Pairwise (· < ·) ∧ (∀ v, v ∈ used ↔ BUses (rClauses ls) v) ∧
      boolean2Finite (rText ls) = .ok (rHead ls ++
        used.flatMap (fun v => FileLine.text (.domain v 2) ++ ['\n']) ++
        (rClauses ls).flatMap fun c => openClauseText (finClause c) ++ ['\n']) := by
  obtain ⟨used, e, h1, h2⟩ := rSet_cons h hz
  refine ⟨used, h1, h2, ?_⟩
  unfold boolean2Finite
  rw [fileLines_r h, b2fLines_r h]
  simp only [Res.ok_bind, e, b2fDomains, List.nil_append, Res.pure_eq]
  congr 2
  · congr 1
    induction used with
    | nil => rfl
    | cons v used ih => simp [FileLine.text, show natText 2 = ['2'] from rfl]
  · congr 1
    funext c
    exact b2fClause_text c

/-- The head lines. -/
def rHeads (ls : List RLine) : List BLine :=
  ls.filterMap fun l => match l with | .head l => some l | _ => none

theorem rHead_eq (ls : List RLine) : rHead ls = (rHeads ls).flatMap fun l => l.text ++ ['\n'] := by
  unfold rHead rHeads
  induction ls with
  | nil => rfl
  | cons l ls ih => cases l <;> simp [ih]

/-- The solver reads the output as the clauses of the file, with as many two-valued variables as the file uses. -/
theorem b2f_read_used {ls : List RLine} (h : ∀ l ∈ ls, l.Ok) (hz : ∃ l ∈ ls, l.ended = true)
    (hs : ∀ c ∈ rClauses ls, (openClauseText (finClause c)).length < 3000) :
    ∃ (out : List Char) (used : List Nat), boolean2Finite (rText ls) = .ok out ∧ used.Pairwise (· < ·) ∧
      (∀ v, v ∈ used ↔ BUses (rClauses ls) v) ∧ readFile out = .ok (finProblem used.length (rClauses ls)).items := by
  have hb := rWellFormed h
  obtain ⟨used, h1, h2, e⟩ := boolean2Finite_r h hz
  refine ⟨_, used, e, h1, h2, ?_⟩
  let L : List (List Char × Option Item) := (rHeads ls).map (fun l => (l.text, none)) ++
    used.map (fun v => (FileLine.text (.domain v 2), some (Item.dom 2))) ++
    (rClauses ls).map fun c => (openClauseText (finClause c), some (Item.clause (finClause c)))
  have hsm : ∀ v ∈ used, FileLine.Small v := by
    intro v hv
    obtain ⟨c, hc, x, hx, rfl⟩ := (h2 v).1 hv
    exact (hb c hc x hx).2
  have hhd : ∀ l ∈ rHeads ls, l.Ok ∧ ∀ c, l ≠ .clause c := by
    intro l hl
    obtain ⟨r, g1, g2⟩ := List.mem_filterMap.1 hl
    cases r with
    | head l' => cases g2; exact (h _ g1).2
    | ints c z t => cases g2
  have key := readFile_lines (fun p : List Char × Option Item => p.1) (fun p => p.2) (ls := L) ?_ ?_ ?_
  · have et : (L.flatMap fun l => l.1 ++ ['\n']) = rHead ls ++
        used.flatMap (fun v => FileLine.text (.domain v 2) ++ ['\n']) ++
        (rClauses ls).flatMap (fun c => openClauseText (finClause c) ++ ['\n']) := by
      simp only [L, List.flatMap_append, List.flatMap_map, rHead_eq]
    have ei : L.filterMap (fun p => p.2) = (finProblem used.length (rClauses ls)).items := by
      have e1 : ((rHeads ls).map fun l => (BLine.text l, (none : Option Item))).filterMap (fun p => p.2) = [] := by
        rw [List.filterMap_eq_nil_iff]
        intro p hp
        obtain ⟨l, _, rfl⟩ := List.mem_map.1 hp
        rfl
      have e2 : ∀ l : List Nat, (l.map fun v => (FileLine.text (.domain v 2), some (Item.dom 2))).filterMap (fun p => p.2) =
          List.replicate l.length (Item.dom 2) := by
        intro l
        induction l with
        | nil => rfl
        | cons a l ih => simp [ih, List.replicate_succ]
      have e3 : ∀ l : List (List Int), (l.map fun c => (openClauseText (finClause c), some (Item.clause (finClause c)))).filterMap
          (fun p => p.2) = l.map fun c => Item.clause (finClause c) := by
        intro l
        induction l with
        | nil => rfl
        | cons a l ih => simp [ih]
      simp only [L, List.filterMap_append, e1, e2, e3, List.nil_append]
      simp [finProblem, Problem.items]
    rw [et, ei] at key
    exact key
  · intro p hp
    simp only [L, List.mem_append, List.mem_map] at hp
    rcases hp with (⟨l, hl, rfl⟩ | ⟨v, hv, rfl⟩) | ⟨c, hc, rfl⟩
    · exact bText_no (hhd l hl).1 (.inl rfl)
    · exact text_no_newline (l := .domain v 2) ⟨hsm v hv, by decide⟩
    · exact openClauseText_no (by decide) (by decide) (by decide) (by decide)
  · intro p hp
    simp only [L, List.mem_append, List.mem_map] at hp
    rcases hp with (⟨l, hl, rfl⟩ | ⟨v, hv, rfl⟩) | ⟨c, hc, rfl⟩
    · exact (hhd l hl).1.1
    · have := natText_length_small (hsm v hv)
      simp [FileLine.text, show natText 2 = ['2'] from rfl]
      omega
    · exact hs c hc
  · intro p hp s
    simp only [L, List.mem_append, List.mem_map] at hp
    rcases hp with (⟨l, hl, rfl⟩ | ⟨v, hv, rfl⟩) | ⟨c, hc, rfl⟩
    · exact scanLine_head (hhd l hl).1 (hhd l hl).2 s
    · have ho : (FileLine.domain v 2).Ok := ⟨hsm v hv, by decide⟩
      obtain ⟨s', e'⟩ := scanLine_text s ho
      refine ⟨s', ?_⟩
      dsimp only
      rw [scanLine_cString s ho, e']
      rfl
    · apply scanLine_open
      intro l hl
      obtain ⟨x, hx, rfl⟩ := List.mem_map.1 hl
      obtain ⟨g1, g2⟩ := hb c hc x hx
      refine ⟨by show 1 ≤ x.natAbs; omega, g2, ?_⟩
      show FileLine.Small (if x < 0 then 0 else 1)
      split <;> decide

/-- The solver reads the output as the intended formula when the variables used are `1..N`. -/
theorem b2f_read {ls : List RLine} (h : ∀ l ∈ ls, l.Ok) (hz : ∃ l ∈ ls, l.ended = true) {N : Nat}
    (hN : ∀ v, BUses (rClauses ls) v ↔ 1 ≤ v ∧ v ≤ N)
    (hs : ∀ c ∈ rClauses ls, (openClauseText (finClause c)).length < 3000) :
    ∃ out, boolean2Finite (rText ls) = .ok out ∧ readFile out = .ok (finProblem N (rClauses ls)).items := by
  obtain ⟨out, used, e, h1, h2, h3⟩ := b2f_read_used h hz hs
  have hused : used = List.range' 1 N := by
    refine sorted_ext h1 List.pairwise_lt_range' fun v => ?_
    rw [h2, hN, List.mem_range'_1]
    omega
  subst hused
  rw [List.length_range'] at h3
  exact ⟨out, e, h3⟩

theorem sorted_range : ∀ {l : List Nat} {k : Nat}, l.Pairwise (· < ·) → (∀ v ∈ l, k ≤ v ∧ v < k + l.length) →
    l = List.range' k l.length
  | [], _, _, _ => rfl
  | a :: l, k, h, hb => by
    rw [List.pairwise_cons] at h
    have ha := hb a List.mem_cons_self
    have ih := sorted_range (k := k + 1) h.2 fun v hv => by
      have h1 := h.1 v hv
      have h2 := hb v (List.mem_cons_of_mem _ hv)
      rw [List.length_cons] at h2
      omega
    have hak : a = k := by
      cases l with
      | nil => simp at ha; omega
      | cons b l =>
        rw [List.length_cons, List.range'_succ] at ih
        injection ih with e _
        have := h.1 b List.mem_cons_self
        omega
    subst hak
    rw [List.length_cons, List.range'_succ, ← ih]

/-- A sorted list of positive numbers that is not `1..N` has an entry beyond its length. -/
theorem sorted_gap {l : List Nat} (h : l.Pairwise (· < ·)) (h0 : ∀ v ∈ l, 1 ≤ v)
    (hg : ¬ ∃ N, ∀ v, v ∈ l ↔ 1 ≤ v ∧ v ≤ N) : ∃ v ∈ l, l.length < v := by
  apply Classical.byContradiction
  intro hn
  have e := sorted_range (k := 1) h fun v hv => ⟨h0 v hv, by
    have : ¬ l.length < v := fun h => hn ⟨v, hv, h⟩
    omega⟩
  refine hg ⟨l.length, fun v => ?_⟩
  rw [e, List.length_range', List.mem_range'_1]
  omega

/-- Each literal of a line written by `-b2f` takes at most 13 characters. -/
theorem openClause_length {c : List Int} (h : ∀ x ∈ c, FileLine.Small x.natAbs) :
    (openClauseText (finClause c)).length ≤ 13 * c.length := by
  induction c with
  | nil => simp [openClauseText, finClause]
  | cons x c ih =>
    have ih := ih fun y hy => h y (List.mem_cons_of_mem _ hy)
    have h1 := natText_length_small (h x List.mem_cons_self)
    have e : (openClauseText (finClause (x :: c))).length =
        (Lit.text ⟨x.natAbs, if x < 0 then 0 else 1, true⟩ ++ [' ']).length + (openClauseText (finClause c)).length := by
      simp [openClauseText, finClause]
      omega
    rw [e]
    have h2 : (natText (if x < 0 then 0 else 1)).length = 1 := by split <;> rfl
    simp only [Lit.text, List.length_append, List.length_cons, List.length_nil, h2, if_true] at *
    omega

end Mvl
