import Verif.Proof.LinRead

/-!
# Boolean to finite domain: reading and writing
-/

namespace Mvl

/-! ## Words and lines -/

theorem intText_noBlank (x : Int) : NoBlank (intText x) := by
  intro c hc
  unfold intText at hc
  split at hc
  · rcases List.mem_cons.1 hc with rfl | hc
    · decide
    · exact digit_noBlank (natText_digit c hc)
  · exact digit_noBlank (natText_digit c hc)

theorem intText_ne_nil (x : Int) : intText x ≠ [] := by
  unfold intText
  split
  · simp
  · exact natText_ne_nil _

theorem words_ints (c : List Int) :
    words (c.flatMap (fun x => intText x ++ [' ']) ++ ['0']) = c.map intText ++ [['0']] := by
  induction c with
  | nil => decide
  | cons x c ih =>
    simp only [List.flatMap_cons, List.append_assoc, List.cons_append, List.nil_append] at ih ⊢
    rw [words_cons (intText_noBlank x) (intText_ne_nil x), ih]
    rfl

theorem words_open (c : List Lit) : words (openClauseText c) = c.map Lit.text := by
  unfold openClauseText
  induction c with
  | nil => decide
  | cons l c ih =>
    simp only [List.flatMap_cons, List.append_assoc, List.cons_append, List.nil_append] at ih ⊢
    rw [words_cons (lit_noBlank l) (lit_text_ne_nil l), ih]
    rfl

theorem atoi_int {x : Int} (h : FileLine.Small x.natAbs) : atoi (intText x) = .ok x := by
  unfold FileLine.Small at h
  unfold atoi
  by_cases hx : x < 0
  · obtain ⟨n, rfl⟩ : ∃ n : Nat, x = -(n : Int) := ⟨x.natAbs, by omega⟩
    rw [intText_neg (by omega)]
    have : scanInt ('-' :: natText n) = .ok (some (-(n : Int), [])) := by
      have h1 := takeWhile_digits (fun c hc => natText_digit (n := n) c hc) noDigit_nil
      rw [List.append_nil] at h1
      have e : skipWs ('-' :: natText n) = '-' :: natText n := by simp [skipWs, isSpace]
      unfold scanInt
      rw [e]
      unfold scanDigits
      simp only [h1.1, h1.2, digitsVal_natText, if_neg (natText_ne_nil n), if_true]
      rw [if_pos ⟨by omega, by omega⟩]
    rw [this]
  · obtain ⟨n, rfl⟩ : ∃ n : Nat, x = (n : Int) := ⟨x.natAbs, by omega⟩
    rw [intText_nat, scanInt_nat' (by unfold FileLine.Small; omega)]

theorem atoi_zero : atoi ['0'] = .ok 0 := by decide

/-- The set after inserting the variables of a clause and the end marker. -/
def insertAll (vs : List Nat) : List Nat → List Nat
  | [] => vs
  | n :: ns => insertAll (setInsert n vs) ns

theorem b2fWords_clause {c : List Int} (h : ∀ x ∈ c, x ≠ 0 ∧ FileLine.Small x.natAbs) :
    ∀ vs, b2fWords vs (c.map intText ++ [['0']]) = .ok (insertAll vs (c.map Int.natAbs ++ [0]), c) := by
  induction c with
  | nil =>
    intro vs
    simp only [List.map_nil, List.nil_append, b2fWords]
    rw [atoi_zero]
    rfl
  | cons x c ih =>
    intro vs
    obtain ⟨h1, h2⟩ := h x List.mem_cons_self
    simp only [List.map_cons, List.cons_append, b2fWords, atoi_int h2, Res.ok_bind]
    rw [if_neg (by unfold FileLine.Small at h2; omega), ih (fun y hy => h y (List.mem_cons_of_mem _ hy))]
    simp only [Res.ok_bind, if_neg h1, insertAll]
    rfl

theorem intText_no {x : Int} {c : Char} (hc : c.isDigit = false) (h : c ≠ '-') : c ∉ intText x := by
  unfold intText
  split
  · intro hm
    rcases List.mem_cons.1 hm with e | hm
    · exact h e
    · exact natText_no hc hm
  · exact natText_no hc

theorem bText_no {l : BLine} (h : l.Ok) {c : Char} (hc : c = '\n' ∨ c = '\x00') : c ∉ l.text := by
  have hd : c.isDigit = false := by rcases hc with rfl | rfl <;> decide
  have h1 : c ≠ ' ' := by rcases hc with rfl | rfl <;> decide
  have h2 : c ≠ '-' := by rcases hc with rfl | rfl <;> decide
  have h3 : c ∉ ['p', ' ', 'c', 'n', 'f', ' '] := by rcases hc with rfl | rfl <;> decide
  have h0 : c ≠ '0' := by rcases hc with rfl | rfl <;> decide
  have h4 : c ≠ 'c' := by rcases hc with rfl | rfl <;> decide
  cases l with
  | comment t =>
    intro hm
    rcases List.mem_cons.1 hm with e | hm
    · exact h4 e
    · rcases hc with rfl | rfl
      · exact h.2.1 hm
      · exact h.2.2 hm
  | problem n m =>
    intro hm
    simp only [BLine.text, List.append_assoc] at hm
    rcases List.mem_append.1 hm with hm | hm
    · exact h3 hm
    · simp only [List.mem_append, List.mem_singleton] at hm
      rcases hm with hm | hm | hm
      · exact natText_no hd hm
      · exact h1 hm
      · exact natText_no hd hm
  | clause cl =>
    intro hm
    simp only [BLine.text, List.mem_append, List.mem_flatMap, List.mem_singleton] at hm
    rcases hm with ⟨x, _, hm | hm⟩ | hm
    · exact intText_no hd h2 hm
    · exact h1 hm
    · exact h0 hm

theorem fileLines_bool {ls : List BLine} (h : ∀ l ∈ ls, l.Ok) : fileLines (bFileText ls) = ls.map BLine.text := by
  have hp : pieces [] (bFileText ls) = ls.map BLine.text := by
    unfold bFileText
    induction ls with
    | nil => rfl
    | cons l ls ih =>
      simp only [List.flatMap_cons, List.append_assoc, List.cons_append, List.nil_append, List.map_cons]
      rw [pieces_line (bText_no (h l List.mem_cons_self) (.inl rfl)), ih (fun x hx => h x (List.mem_cons_of_mem _ hx))]
      simp
  unfold fileLines
  rw [hp, takeWhile_all]
  intro a ha
  obtain ⟨l, hl, rfl⟩ := List.mem_map.1 ha
  simpa using (h l hl).1

theorem b2fLine_clause (t : B2fSt) {c : List Int} (h : (BLine.clause c).Ok) :
    b2fLine t (cString (BLine.text (.clause c))) = .ok { t with
      variables := insertAll t.variables (c.map Int.natAbs ++ [0]), data := t.data ++ [c] } := by
  rw [cString_id (bText_no h (.inr rfl))]
  have hd : ∃ d r, BLine.text (.clause c) = d :: r ∧ d ≠ 'c' ∧ d ≠ 'p' := by
    cases c with
    | nil => exact ⟨'0', [], rfl, by decide, by decide⟩
    | cons x c =>
      cases e : intText x with
      | nil => exact absurd e (intText_ne_nil x)
      | cons d r =>
        have hm : d ∈ intText x := by rw [e]; exact List.mem_cons_self
        refine ⟨d, ?_, ?_, ?_, ?_⟩
        rotate_left
        · simp only [BLine.text, List.flatMap_cons, e, List.cons_append]; rfl
        · rintro rfl; exact intText_no (by decide) (by decide) hm
        · rintro rfl; exact intText_no (by decide) (by decide) hm
  obtain ⟨d, r, e, h1, h2⟩ := hd
  have hw : words (d :: r) = c.map intText ++ [['0']] := by rw [← e]; exact words_ints c
  rw [e]
  unfold b2fLine
  split
  · next e => cases e; exact absurd rfl h1
  · next e => cases e; exact absurd rfl h2
  · rw [hw, b2fWords_clause h.2]
    rfl

/-- The set after the clauses. -/
def setOf (vs : List Nat) : List (List Int) → List Nat
  | [] => vs
  | c :: cs => setOf (insertAll vs (c.map Int.natAbs ++ [0])) cs

theorem b2fLines_text {ls : List BLine} (h : ∀ l ∈ ls, l.Ok) :
    ∀ t : B2fSt, b2fLines t (ls.map BLine.text) = .ok
      ⟨setOf t.variables (bClauses ls), t.data ++ bClauses ls, t.out ++ bHead ls⟩ := by
  induction ls with
  | nil => intro t; simp [b2fLines, bClauses, setOf, bHead]
  | cons l ls ih =>
    intro t
    have ih := ih (fun x hx => h x (List.mem_cons_of_mem _ hx))
    have hl := h l List.mem_cons_self
    simp only [List.map_cons, b2fLines]
    cases l with
    | comment x =>
      rw [cString_id (bText_no hl (.inr rfl))]
      rw [show b2fLine t (BLine.text (.comment x)) = .ok { t with out := t.out ++ BLine.text (.comment x) ++ ['\n'] } from rfl]
      simp only [Res.ok_bind, ih]
      simp [bClauses, bHead]
    | problem n m =>
      rw [cString_id (bText_no hl (.inr rfl))]
      rw [show b2fLine t (BLine.text (.problem n m)) = .ok { t with out := t.out ++ BLine.text (.problem n m) ++ ['\n'] } from rfl]
      simp only [Res.ok_bind, ih]
      simp [bClauses, bHead]
    | clause c =>
      rw [b2fLine_clause t hl]
      simp only [Res.ok_bind, ih]
      simp [bClauses, bHead, setOf]

/-! ## The set -/

theorem mem_setInsert {n m : Nat} {vs : List Nat} : m ∈ setInsert n vs ↔ m = n ∨ m ∈ vs := by
  induction vs with
  | nil => simp [setInsert]
  | cons k ks ih =>
    unfold setInsert
    split
    · simp
    · split
      · next h => subst h; simp
      · simp only [List.mem_cons, ih]
        constructor
        · rintro (h | h | h)
          · exact .inr (.inl h)
          · exact .inl h
          · exact .inr (.inr h)
        · rintro (h | h | h)
          · exact .inr (.inl h)
          · exact .inl h
          · exact .inr (.inr h)

theorem setInsert_sorted {n : Nat} {vs : List Nat} (h : vs.Pairwise (· < ·)) : (setInsert n vs).Pairwise (· < ·) := by
  induction vs with
  | nil => simp [setInsert]
  | cons k ks ih =>
    rw [List.pairwise_cons] at h
    unfold setInsert
    split
    · next hn =>
      rw [List.pairwise_cons]
      refine ⟨?_, List.pairwise_cons.2 h⟩
      intro a ha
      rcases List.mem_cons.1 ha with rfl | ha
      · exact hn
      · exact Nat.lt_trans hn (h.1 a ha)
    · split
      · exact List.pairwise_cons.2 h
      · next h1 h2 =>
        rw [List.pairwise_cons]
        refine ⟨?_, ih h.2⟩
        intro a ha
        rcases mem_setInsert.1 ha with rfl | ha
        · omega
        · exact h.1 a ha

theorem mem_insertAll {m : Nat} {ns : List Nat} : ∀ {vs : List Nat}, m ∈ insertAll vs ns ↔ m ∈ vs ∨ m ∈ ns := by
  induction ns with
  | nil => intro vs; simp [insertAll]
  | cons n ns ih =>
    intro vs
    rw [insertAll, ih, mem_setInsert, List.mem_cons]
    constructor
    · rintro ((h | h) | h)
      · exact .inr (.inl h)
      · exact .inl h
      · exact .inr (.inr h)
    · rintro (h | h | h)
      · exact .inl (.inr h)
      · exact .inl (.inl h)
      · exact .inr h

theorem insertAll_sorted {ns : List Nat} : ∀ {vs : List Nat}, vs.Pairwise (· < ·) → (insertAll vs ns).Pairwise (· < ·) := by
  induction ns with
  | nil => intro vs h; exact h
  | cons n ns ih => intro vs h; exact ih (setInsert_sorted h)

theorem mem_setOf {m : Nat} {cs : List (List Int)} : ∀ {vs : List Nat},
    m ∈ setOf vs cs ↔ m ∈ vs ∨ (cs ≠ [] ∧ m = 0) ∨ BUses cs m := by
  induction cs with
  | nil => intro vs; simp [setOf, BUses]
  | cons c cs ih =>
    intro vs
    rw [setOf, ih, mem_insertAll]
    simp only [List.mem_append, List.mem_map, BUses, List.mem_cons, List.not_mem_nil, or_false]
    constructor
    · rintro ((h | ⟨x, hx, e⟩ | h) | ⟨_, h⟩ | ⟨c', hc', x, hx, e⟩)
      · exact .inl h
      · exact .inr (.inr ⟨c, .inl rfl, x, hx, e⟩)
      · exact .inr (.inl ⟨by simp, h⟩)
      · exact .inr (.inl ⟨by simp, h⟩)
      · exact .inr (.inr ⟨c', .inr hc', x, hx, e⟩)
    · rintro (h | ⟨_, h⟩ | ⟨c', rfl | hc', x, hx, e⟩)
      · exact .inl (.inl h)
      · exact .inl (.inr (.inr h))
      · exact .inl (.inr (.inl ⟨x, hx, e⟩))
      · exact .inr (.inr ⟨c', hc', x, hx, e⟩)

theorem setOf_sorted {cs : List (List Int)} : ∀ {vs : List Nat}, vs.Pairwise (· < ·) → (setOf vs cs).Pairwise (· < ·) := by
  induction cs with
  | nil => intro vs h; exact h
  | cons c cs ih => intro vs h; exact ih (insertAll_sorted h)

/-- The set begins with the end marker 0; the rest are the variables used. -/
theorem setOf_cons {cs : List (List Int)} (hc : cs ≠ []) (h0 : BWellFormed cs) :
    ∃ used, setOf [] cs = 0 :: used ∧ used.Pairwise (· < ·) ∧ ∀ v, v ∈ used ↔ BUses cs v := by
  have hs := setOf_sorted (cs := cs) (vs := []) List.Pairwise.nil
  have hm : 0 ∈ setOf [] cs := mem_setOf.2 (.inr (.inl ⟨hc, rfl⟩))
  cases e : setOf [] cs with
  | nil => rw [e] at hm; cases hm
  | cons k used =>
    rw [e] at hs hm
    rw [List.pairwise_cons] at hs
    have hk : k = 0 := by
      rcases List.mem_cons.1 hm with h | h
      · exact h.symm
      · have := hs.1 0 h; omega
    subst hk
    refine ⟨used, rfl, hs.2, fun v => ⟨fun hv => ?_, fun hv => ?_⟩⟩
    · have h1 : v ∈ setOf [] cs := by rw [e]; exact List.mem_cons_of_mem _ hv
      have h2 := hs.1 v hv
      rcases mem_setOf.1 h1 with h | ⟨_, h⟩ | h
      · cases h
      · omega
      · exact h
    · have h1 : v ∈ setOf [] cs := mem_setOf.2 (.inr (.inr hv))
      rw [e] at h1
      rcases List.mem_cons.1 h1 with h | h
      · obtain ⟨c, hc, x, hx, e⟩ := hv
        have := h0 c hc x hx
        omega
      · exact h

theorem sorted_ext : ∀ {l₁ l₂ : List Nat}, l₁.Pairwise (· < ·) → l₂.Pairwise (· < ·) → (∀ v, v ∈ l₁ ↔ v ∈ l₂) → l₁ = l₂
  | [], [], _, _, _ => rfl
  | [], b :: l₂, _, _, h => absurd ((h b).2 List.mem_cons_self) (by simp)
  | a :: l₁, [], _, _, h => absurd ((h a).1 List.mem_cons_self) (by simp)
  | a :: l₁, b :: l₂, h1, h2, h => by
    rw [List.pairwise_cons] at h1 h2
    have hab : a = b := by
      rcases List.mem_cons.1 ((h a).1 List.mem_cons_self) with e | e
      · exact e
      · rcases List.mem_cons.1 ((h b).2 List.mem_cons_self) with e' | e'
        · exact e'.symm
        · have := h1.1 b e'; have := h2.1 a e; omega
    subst hab
    congr 1
    refine sorted_ext h1.2 h2.2 fun v => ⟨fun hv => ?_, fun hv => ?_⟩
    · rcases List.mem_cons.1 ((h v).1 (List.mem_cons_of_mem _ hv)) with e | e
      · subst e; exact absurd (h1.1 v hv) (Nat.lt_irrefl _)
      · exact e
    · rcases List.mem_cons.1 ((h v).2 (List.mem_cons_of_mem _ hv)) with e | e
      · subst e; exact absurd (h2.1 v hv) (Nat.lt_irrefl _)
      · exact e

/-! ## The output -/

theorem b2fClause_text (c : List Int) : b2fClause c = openClauseText (finClause c) ++ ['\n'] := by
  unfold b2fClause openClauseText finClause
  congr 1
  induction c with
  | nil => rfl
  | cons x c ih =>
    simp only [List.flatMap_cons, List.map_cons, ih]
    congr 1
    by_cases hx : x < 0
    · obtain ⟨n, rfl⟩ : ∃ n : Nat, x = -(n : Int) := ⟨x.natAbs, by omega⟩
      simp [show 0 < n from by omega, Lit.text, intText_nat, show natText 0 = ['0'] from rfl]
    · obtain ⟨n, rfl⟩ : ∃ n : Nat, x = (n : Int) := ⟨x.natAbs, by omega⟩
      simp [hx, Lit.text, intText_nat, show natText 1 = ['1'] from rfl]

/-- What `-b2f` writes for a DIMACS file with at least one clause. -/
theorem boolean2Finite_text {ls : List BLine} (h : ∀ l ∈ ls, l.Ok) (hc : bClauses ls ≠ []) :
    ∃ used : List Nat, used.Pairwise (· < ·) ∧ (∀ v, v ∈ used ↔ BUses (bClauses ls) v) ∧
      boolean2Finite (bFileText ls) = .ok (bHead ls ++
        used.flatMap (fun v => FileLine.text (.domain v 2) ++ ['\n']) ++
        (bClauses ls).flatMap fun c => openClauseText (finClause c) ++ ['\n']) := by
  have h0 : BWellFormed (bClauses ls) := by
    intro c hc x hx
    obtain ⟨l, hl, e⟩ := List.mem_filterMap.1 hc
    cases l with
    | comment t => cases e
    | problem n m => cases e
    | clause c' => cases e; exact ((h _ hl).2 x hx).1
  obtain ⟨used, e, h1, h2⟩ := setOf_cons hc h0
  refine ⟨used, h1, h2, ?_⟩
  unfold boolean2Finite
  rw [fileLines_bool h, b2fLines_text h]
  simp only [Res.ok_bind, e, b2fDomains, List.nil_append, Res.pure_eq]
  congr 2
  · congr 1
    induction used with
    | nil => rfl
    | cons v used ih => simp [FileLine.text, show natText 2 = ['2'] from rfl]
  · congr 1
    funext c
    exact b2fClause_text c

/-! ## Reading the output -/

theorem readFile_lines {α : Type} (text : α → List Char) (item : α → Option Item) {ls : List α}
    (h1 : ∀ l ∈ ls, '\n' ∉ text l) (h2 : ∀ l ∈ ls, (text l).length < 3000)
    (h3 : ∀ l ∈ ls, ∀ s, ∃ s', scanLine s (cString (text l)) = .ok (s', item l)) :
    readFile (ls.flatMap fun l => text l ++ ['\n']) = .ok (ls.filterMap item) := by
  have hp : pieces [] (ls.flatMap fun l => text l ++ ['\n']) = ls.map text := by
    clear h2 h3
    induction ls with
    | nil => rfl
    | cons l ls ih =>
      simp only [List.flatMap_cons, List.append_assoc, List.cons_append, List.nil_append, List.map_cons]
      rw [pieces_line (h1 l List.mem_cons_self), ih (fun x hx => h1 x (List.mem_cons_of_mem _ hx))]
      simp
  unfold readFile fileLines
  rw [hp, takeWhile_all]
  · clear hp h1 h2
    generalize ({} : Scan) = s
    induction ls generalizing s with
    | nil => rfl
    | cons l ls ih =>
      obtain ⟨s', e⟩ := h3 l List.mem_cons_self s
      simp only [List.map_cons, scanLines, e, Res.ok_bind, ih (fun x hx => h3 x (List.mem_cons_of_mem _ hx)) s',
        List.filterMap_cons]
      cases item l <;> rfl
  · intro a ha
    obtain ⟨l, hl, rfl⟩ := List.mem_map.1 ha
    simpa using h2 l hl

theorem openClauseText_no {c : List Lit} {x : Char} (hx : x.isDigit = false) (h1 : x ≠ '=') (h2 : x ≠ '!')
    (h3 : x ≠ ' ') : x ∉ openClauseText c := by
  intro h
  obtain ⟨l, _, hl⟩ := List.mem_flatMap.1 h
  rcases List.mem_append.1 hl with hl | hl
  · exact lit_text_no hx h1 h2 hl
  · simp at hl; exact h3 hl

theorem scanClause_open {c : List Lit} (h : ∀ l ∈ c, 1 ≤ l.var ∧ FileLine.Small l.var ∧ FileLine.Small l.val) :
    ∀ s, ∃ s' : Scan, scanClause s (c.map Lit.text) = .ok (s', c) := by
  induction c with
  | nil => intro s; exact ⟨s, rfl⟩
  | cons l c ih =>
    intro s
    have hl := h l List.mem_cons_self
    obtain ⟨s', e⟩ := ih (fun x hx => h x (List.mem_cons_of_mem _ hx)) (Scan.lit l)
    refine ⟨s', ?_⟩
    simp only [List.map_cons, scanClause]
    rw [scanWord_lit s hl.1 hl.2.1 hl.2.2]
    simp only [Res.ok_bind, e]
    rfl

theorem scanLine_open {c : List Lit} (h : ∀ l ∈ c, 1 ≤ l.var ∧ FileLine.Small l.var ∧ FileLine.Small l.val) (s : Scan) :
    ∃ s', scanLine s (cString (openClauseText c)) = .ok (s', some (.clause c)) := by
  rw [cString_id (openClauseText_no (by decide) (by decide) (by decide) (by decide))]
  obtain ⟨s', e⟩ := scanClause_open h s
  refine ⟨s', ?_⟩
  have hd : ∀ d r, openClauseText c = d :: r → d.isDigit = true := by
    intro d r e
    cases c with
    | nil => cases e
    | cons l c =>
      cases e2 : natText l.var with
      | nil => exact absurd e2 (natText_ne_nil _)
      | cons d' r' =>
        unfold openClauseText Lit.text at e
        rw [List.flatMap_cons, e2] at e
        simp only [List.cons_append] at e
        cases e
        exact natText_digit d (by rw [e2]; exact List.mem_cons_self)
  unfold scanLine
  split
  · next e' => exact absurd (hd _ _ e') (by decide)
  · next e' => exact absurd (hd _ _ e') (by decide)
  · next e' => exact absurd (hd _ _ e') (by decide)
  · rw [words_open, e]; rfl

end Mvl
