import Verif.Model.Parser
import Verif.Format

/-!
# Reading back what was written: lemmas
-/

namespace Mvl

/-! ## Numbers -/

theorem isDigit_range {c : Char} (h : c.isDigit = true) : 48 ≤ c.toNat ∧ c.toNat ≤ 57 := by
  simp only [Char.isDigit, Bool.and_eq_true, decide_eq_true_eq] at h
  exact ⟨h.1, h.2⟩

theorem isDigit_ne {c d : Char} (h : c.isDigit = true) (hd : d.isDigit = false) : c ≠ d := by
  intro e; rw [e, hd] at h; cases h

theorem isDigit_not_space {c : Char} (h : c.isDigit = true) : isSpace c = false := by
  unfold isSpace
  simp only [Bool.or_eq_false_iff, decide_eq_false_iff_not]
  refine ⟨⟨⟨⟨⟨?_, ?_⟩, ?_⟩, ?_⟩, ?_⟩, ?_⟩ <;> exact isDigit_ne h (by decide)

theorem natText_digit {n : Nat} : ∀ c ∈ natText n, c.isDigit = true :=
  fun _ h => Nat.isDigit_of_mem_toDigits (by decide) (by decide) h

theorem natText_ne_nil (n : Nat) : natText n ≠ [] := Nat.toDigits_ne_nil

theorem digitsVal_natText (n : Nat) : digitsVal (natText n) = n :=
  Nat.ofDigitChars_ten_toDigits

/-- The rest of the input does not go on with a digit. -/
def NoDigit (r : List Char) : Prop := ∀ c, r.head? = some c → c.isDigit = false

theorem noDigit_nil : NoDigit [] := by intro c h; cases h

theorem noDigit_cons {c : Char} {r : List Char} (h : c.isDigit = false) : NoDigit (c :: r) := by
  intro d hd; cases hd; exact h

theorem takeWhile_digits {ds r : List Char} (h : ∀ c ∈ ds, c.isDigit = true) (hr : NoDigit r) :
    (ds ++ r).takeWhile Char.isDigit = ds ∧ (ds ++ r).dropWhile Char.isDigit = r := by
  induction ds with
  | nil =>
    cases r with
    | nil => simp
    | cons c r => simp [hr c rfl]
  | cons d ds ih =>
    have := ih (fun c hc => h c (List.mem_cons_of_mem _ hc))
    simp [h d List.mem_cons_self, this.1, this.2]

theorem scanDigits_nat {n : Nat} {r : List Char} (hn : FileLine.Small n) (hr : NoDigit r) :
    scanDigits false (natText n ++ r) = .ok (some ((n : Int), r)) := by
  have h := takeWhile_digits (fun c hc => natText_digit (n := n) c hc) hr
  unfold scanDigits
  simp only [h.1, h.2, digitsVal_natText, if_neg (natText_ne_nil n)]
  unfold FileLine.Small at hn
  simp only [Bool.false_eq_true, if_false]
  rw [if_pos ⟨by omega, by omega⟩]

theorem skipWs_digit {c : Char} {r : List Char} (h : c.isDigit = true) : skipWs (c :: r) = c :: r := by
  simp [skipWs, isDigit_not_space h]

theorem scanInt_digit {c : Char} {r : List Char} (h : c.isDigit = true) :
    scanInt (c :: r) = scanDigits false (c :: r) := by
  have h1 : c ≠ '-' := isDigit_ne h (by decide)
  have h2 : c ≠ '+' := isDigit_ne h (by decide)
  unfold scanInt
  rw [skipWs_digit h]
  split
  · next e => cases e; exact absurd rfl h1
  · next e => cases e; exact absurd rfl h2
  · rfl

theorem scanInt_nat {n : Nat} {r : List Char} (hn : FileLine.Small n) (hr : NoDigit r) :
    scanInt (natText n ++ r) = .ok (some ((n : Int), r)) := by
  rw [← scanDigits_nat hn hr]
  cases e : natText n with
  | nil => exact absurd e (natText_ne_nil n)
  | cons c cs => exact scanInt_digit (natText_digit c (by rw [e]; exact List.mem_cons_self))

theorem scanInt_nat' {n : Nat} (hn : FileLine.Small n) : scanInt (natText n) = .ok (some ((n : Int), [])) := by
  have := scanInt_nat hn noDigit_nil
  rwa [List.append_nil] at this

theorem scanInt_space {cs : List Char} : scanInt (' ' :: cs) = scanInt cs := by
  unfold scanInt
  rw [show skipWs (' ' :: cs) = skipWs cs from by simp [skipWs, isSpace]]

/-! ## Words -/

/-- The state of the scanner after reading a literal. -/
def Scan.lit (l : Lit) : Scan := ⟨some l.var, some l.val, some (if l.eq then '=' else '!')⟩

theorem scannedLit_lit {v k : Nat} {c : Char} (h : 1 ≤ v) :
    scannedLit ⟨some v, some k, some c⟩ = .ok (some ⟨v, k, c = '='⟩) := by
  unfold scannedLit
  simp only
  rw [if_neg (by omega), if_neg (by omega)]
  rfl

theorem scanWord_lit (s : Scan) {l : Lit} (h1 : 1 ≤ l.var) (h2 : FileLine.Small l.var)
    (h3 : FileLine.Small l.val) : scanWord s l.text = .ok (Scan.lit l, some l) := by
  obtain ⟨v, k, e⟩ := l
  simp only at h1 h2 h3
  have hv : ((v : Nat) : Int) ≠ 0 := by omega
  cases e with
  | true =>
    have e1 : scan1 s (Lit.text ⟨v, k, true⟩) = .ok ⟨some v, some k, some '='⟩ := by
      have et : Lit.text ⟨v, k, true⟩ = natText v ++ ('=' :: natText k) := by
        show (natText v ++ ['=']) ++ natText k = _
        rw [List.append_assoc]; rfl
      rw [et]
      unfold scan1
      rw [scanInt_nat h2 (noDigit_cons (by decide))]
      have : skipWs ('=' :: natText k) = '=' :: natText k := by simp [skipWs, isSpace]
      simp only [this]
      unfold scanVal
      rw [scanInt_nat' h3]
    unfold scanWord scanBoth
    rw [e1]
    simp only [Res.ok_bind, show ('=' : Char) ≠ '!' from by decide, if_false, scannedLit_lit h1]
    rfl
  | false =>
    have e0 : scanInt (natText v ++ ('!' :: '=' :: natText k)) = .ok (some ((v : Int), '!' :: '=' :: natText k)) :=
      scanInt_nat h2 (noDigit_cons (by decide))
    have w1 : skipWs ('!' :: '=' :: natText k) = '!' :: '=' :: natText k := by simp [skipWs, isSpace]
    have w2 : skipWs ('=' :: natText k) = '=' :: natText k := by simp [skipWs, isSpace]
    have et : Lit.text ⟨v, k, false⟩ = natText v ++ ('!' :: '=' :: natText k) := by
      show (natText v ++ ['!', '=']) ++ natText k = _
      rw [List.append_assoc]; rfl
    have e1 : scan1 s (Lit.text ⟨v, k, false⟩) = .ok ⟨some v, s.val, some '!'⟩ := by
      rw [et]
      unfold scan1
      rw [e0]
      simp only [w1]
      unfold scanVal scanInt
      rw [w2]
      simp [scanDigits]
    have e2 : ∀ s', scan2 s' (Lit.text ⟨v, k, false⟩) = .ok ⟨some v, some k, some '!'⟩ := by
      intro s'
      rw [et]
      unfold scan2
      rw [e0]
      simp only [w1, w2]
      unfold scanVal
      rw [scanInt_nat' h3]
    unfold scanWord scanBoth
    rw [e1]
    simp only [Res.ok_bind, if_true, e2, scannedLit_lit h1]
    rfl

theorem scanInt_zero : scanInt ['0'] = .ok (some (0, [])) := by decide

theorem scanWord_zero {s : Scan} {c : Char} (h : s.ch = some c) :
    scanWord s ['0'] = .ok ({ s with var := some 0 }, none) := by
  unfold scanWord scanBoth scan1
  rw [scanInt_zero]
  have : skipWs [] = [] := rfl
  simp only [this, Res.ok_bind, h]
  split
  · unfold scan2
    rw [scanInt_zero]
    simp [this, scannedLit]
  · simp [scannedLit]

/-- A word of the line: no blanks inside. -/
def NoBlank (w : List Char) : Prop := ∀ c ∈ w, c ≠ ' ' ∧ c ≠ '\t'

theorem wordsAux_word {w acc r : List Char} (h : NoBlank w) :
    wordsAux acc (w ++ r) = wordsAux (w.reverse ++ acc) r := by
  induction w generalizing acc with
  | nil => rfl
  | cons c w ih =>
    have hc := h c List.mem_cons_self
    rw [List.cons_append, wordsAux, if_neg (by rintro (e | e); exact hc.1 e; exact hc.2 e),
      ih (fun d hd => h d (List.mem_cons_of_mem _ hd))]
    simp

theorem words_cons {w r : List Char} (h : NoBlank w) (hw : w ≠ []) :
    words (w ++ ' ' :: r) = w :: words r := by
  unfold words
  rw [wordsAux_word h, wordsAux, if_pos (Or.inl rfl), if_neg (by simp [hw])]
  simp

theorem digit_noBlank {c : Char} (h : c.isDigit = true) : c ≠ ' ' ∧ c ≠ '\t' :=
  ⟨isDigit_ne h (by decide), isDigit_ne h (by decide)⟩

theorem lit_noBlank (l : Lit) : NoBlank l.text := by
  intro c hc
  unfold Lit.text at hc
  rcases List.mem_append.1 hc with h | h
  · rcases List.mem_append.1 h with h | h
    · exact digit_noBlank (natText_digit c h)
    · split at h
      · simp at h; subst h; decide
      · simp at h; rcases h with rfl | rfl <;> decide
  · exact digit_noBlank (natText_digit c h)

theorem lit_text_ne_nil (l : Lit) : l.text ≠ [] := by
  unfold Lit.text
  simp [natText_ne_nil]

theorem words_clause (c : List Lit) : words (clauseText c) = c.map Lit.text ++ [['0']] := by
  unfold clauseText
  induction c with
  | nil => decide
  | cons l c ih =>
    simp only [List.flatMap_cons, List.append_assoc, List.cons_append, List.nil_append] at ih ⊢
    rw [words_cons (lit_noBlank l) (lit_text_ne_nil l), ih]
    rfl

theorem scanClause_lits {c : List Lit} (h : ∀ l ∈ c, 1 ≤ l.var ∧ FileLine.Small l.var ∧ FileLine.Small l.val) :
    ∀ s ch, (s : Scan).ch = some ch → ∃ s' : Scan, (∃ ch', s'.ch = some ch') ∧
      scanClause s (c.map Lit.text ++ [['0']]) = .ok (s', c) := by
  induction c with
  | nil =>
    intro s ch hs
    refine ⟨{ s with var := some 0 }, ⟨ch, hs⟩, ?_⟩
    simp only [List.map_nil, List.nil_append, scanClause]
    rw [scanWord_zero hs]
    rfl
  | cons l c ih =>
    intro s ch _
    have hl := h l List.mem_cons_self
    obtain ⟨s', hs', e⟩ := ih (fun x hx => h x (List.mem_cons_of_mem _ hx)) (Scan.lit l) _ rfl
    refine ⟨s', hs', ?_⟩
    simp only [List.map_cons, List.cons_append, scanClause]
    rw [scanWord_lit s hl.1 hl.2.1 hl.2.2]
    simp only [Res.ok_bind, e]
    rfl

theorem scanClause_ok {c : List Lit} (hc : c ≠ [])
    (h : ∀ l ∈ c, 1 ≤ l.var ∧ FileLine.Small l.var ∧ FileLine.Small l.val) (s : Scan) :
    ∃ s' : Scan, (∃ ch', s'.ch = some ch') ∧
      scanClause s (c.map Lit.text ++ [['0']]) = .ok (s', c) := by
  cases c with
  | nil => exact absurd rfl hc
  | cons l c =>
    have hl := h l List.mem_cons_self
    obtain ⟨s', hs', e⟩ := scanClause_lits (fun x hx => h x (List.mem_cons_of_mem _ hx)) (Scan.lit l) _ rfl
    refine ⟨s', hs', ?_⟩
    simp only [List.map_cons, List.cons_append, scanClause]
    rw [scanWord_lit s hl.1 hl.2.1 hl.2.2]
    simp only [Res.ok_bind, e]
    rfl

/-! ## Lines -/

/-- What the solver keeps of a line. -/
def FileLine.item : FileLine → Option Item
  | .comment _ => none
  | .problem _ _ _ => none
  | .domain _ d => some (.dom d)
  | .clause c => some (.clause c)

theorem scanVarVal_two (s : Scan) {n m : Nat} (hn : FileLine.Small n) (hm : FileLine.Small m) :
    scanVarVal s (natText n ++ ' ' :: natText m) = .ok { s with var := some n, val := some m } := by
  unfold scanVarVal
  rw [scanInt_nat hn (noDigit_cons (by decide))]
  simp only
  unfold scanVal
  rw [scanInt_space, scanInt_nat' hm]

theorem skipWs_natText (n : Nat) (r : List Char) : skipWs (natText n ++ r) = natText n ++ r := by
  cases e : natText n with
  | nil => exact absurd e (natText_ne_nil n)
  | cons c cs => exact skipWs_digit (natText_digit c (by rw [e]; exact List.mem_cons_self))

theorem scanLine_clause (s : Scan) (c : List Lit) (hc : c ≠ []) :
    scanLine s (clauseText c) = (do
      let (s, ls) ← scanClause s (c.map Lit.text ++ [['0']])
      pure (s, some (.clause ls))) := by
  have hd : ∃ d r, clauseText c = d :: r ∧ d.isDigit = true := by
    cases c with
    | nil => exact absurd rfl hc
    | cons l c =>
      cases e : natText l.var with
      | nil => exact absurd e (natText_ne_nil _)
      | cons d r =>
        refine ⟨d, ?_, ?_, natText_digit d (by rw [e]; exact List.mem_cons_self)⟩
        rotate_left
        · unfold clauseText Lit.text
          rw [List.flatMap_cons, e]
          simp only [List.cons_append]
          rfl
  obtain ⟨d, r, e, hd⟩ := hd
  have h1 : d ≠ 'c' := isDigit_ne hd (by decide)
  have h2 : d ≠ 'p' := isDigit_ne hd (by decide)
  have h3 : d ≠ 'd' := isDigit_ne hd (by decide)
  rw [← words_clause]
  rw [e]
  unfold scanLine
  split
  · next e => cases e; exact absurd rfl h1
  · next e => cases e; exact absurd rfl h2
  · next e => cases e; exact absurd rfl h3
  · rfl

theorem scanLine_text (s : Scan) {l : FileLine} (h : l.Ok) :
    ∃ s', scanLine s l.text = .ok (s', l.item) := by
  cases l with
  | comment t => exact ⟨s, rfl⟩
  | problem mv n m =>
    cases mv with
    | true =>
      refine ⟨s, ?_⟩
      show (do let s ← scanP s _; pure (s, none)) = _
      have : matchText ['p', ' ', 'c', 'n', 'f', ' '] (FileLine.text (.problem true n m)) = none := by
        simp [FileLine.text, matchText, skipWs, isSpace]
      unfold scanP
      rw [this]
      rfl
    | false =>
      refine ⟨{ s with var := some n, val := some m }, ?_⟩
      · show (do let s ← scanP s _; pure (s, none)) = _
        have : matchText ['p', ' ', 'c', 'n', 'f', ' '] (FileLine.text (.problem false n m)) =
            some (natText n ++ ' ' :: natText m) := by
          have e : FileLine.text (.problem false n m) =
              'p' :: ' ' :: 'c' :: 'n' :: 'f' :: ' ' :: (natText n ++ ' ' :: natText m) := by
            simp [FileLine.text]
          rw [e]
          have w : skipWs (' ' :: (natText n ++ ' ' :: natText m)) = natText n ++ ' ' :: natText m := by
            rw [show skipWs (' ' :: (natText n ++ ' ' :: natText m)) = skipWs (natText n ++ ' ' :: natText m) from by
              simp [skipWs, isSpace]]
            exact skipWs_natText _ _
          have w' : ∀ r, skipWs (' ' :: 'c' :: r) = 'c' :: r := by intro r; simp [skipWs, isSpace]
          simp only [matchText, w', w]
          simp
        unfold scanP
        rw [this]
        simp only [scanVarVal_two s h.1 h.2]
        rfl
  | domain v d =>
    refine ⟨{ s with var := some v, val := some d }, ?_⟩
    · show (do let (s, d) ← scanD s _; pure (s, some (Item.dom d))) = _
      have : matchText ['d', ' '] (FileLine.text (.domain v d)) = some (natText v ++ ' ' :: natText d) := by
        have e : FileLine.text (.domain v d) = 'd' :: ' ' :: (natText v ++ ' ' :: natText d) := by
          simp [FileLine.text]
        rw [e]
        have w : skipWs (' ' :: (natText v ++ ' ' :: natText d)) = natText v ++ ' ' :: natText d := by
          rw [show skipWs (' ' :: (natText v ++ ' ' :: natText d)) = skipWs (natText v ++ ' ' :: natText d) from by
            simp [skipWs, isSpace]]
          exact skipWs_natText _ _
        simp only [matchText, w]
        simp
      unfold scanD
      rw [this]
      simp only [scanVarVal_two s h.1 h.2, Res.ok_bind]
      rw [if_neg (by omega)]
      rfl
  | clause c =>
    obtain ⟨s', _, e⟩ := scanClause_ok h.1 h.2 s
    refine ⟨s', ?_⟩
    show scanLine s (clauseText c) = _
    rw [scanLine_clause s c h.1, e]
    rfl

/-! ## Files -/

theorem pieces_line {w acc r : List Char} (h : '\n' ∉ w) :
    pieces acc (w ++ '\n' :: r) = (acc.reverse ++ w) :: pieces [] r := by
  induction w generalizing acc with
  | nil => simp [pieces]
  | cons c w ih =>
    rw [List.cons_append, pieces, if_neg (by rintro rfl; exact h List.mem_cons_self),
      ih (fun hc => h (List.mem_cons_of_mem _ hc))]
    simp

theorem pieces_last {w acc : List Char} (h : '\n' ∉ w) (hw : acc.reverse ++ w ≠ []) :
    pieces acc w = [acc.reverse ++ w] := by
  induction w generalizing acc with
  | nil => simp at hw; simp [pieces, hw]
  | cons c w ih =>
    rw [pieces, if_neg (by rintro rfl; exact h List.mem_cons_self),
      ih (fun hc => h (List.mem_cons_of_mem _ hc)) (by simp)]
    simp

theorem natText_no {n : Nat} {c : Char} (hc : c.isDigit = false) : c ∉ natText n := by
  intro h; rw [natText_digit c h] at hc; cases hc

theorem lit_text_no {l : Lit} {c : Char} (hc : c.isDigit = false) (h1 : c ≠ '=') (h2 : c ≠ '!') : c ∉ l.text := by
  intro h
  unfold Lit.text at h
  rcases List.mem_append.1 h with h | h
  · rcases List.mem_append.1 h with h | h
    · exact natText_no hc h
    · split at h
      · simp at h; exact h1 h
      · simp at h; rcases h with h | h; exact h2 h; exact h1 h
  · exact natText_no hc h

theorem clauseText_no {c : List Lit} {x : Char} (hx : x.isDigit = false) (h1 : x ≠ '=') (h2 : x ≠ '!')
    (h3 : x ≠ ' ') : x ∉ clauseText c := by
  intro h
  unfold clauseText at h
  rcases List.mem_append.1 h with h | h
  · obtain ⟨l, _, hl⟩ := List.mem_flatMap.1 h
    rcases List.mem_append.1 hl with hl | hl
    · exact lit_text_no hx h1 h2 hl
    · simp at hl; exact h3 hl
  · simp at h; subst h; simp at hx

theorem text_no_newline {l : FileLine} (h : l.Ok) : '\n' ∉ l.text := by
  cases l with
  | comment t =>
    intro hc
    rcases List.mem_cons.1 hc with hc | hc
    · cases hc
    · exact h hc
  | problem mv n m =>
    intro hc
    have e1 := natText_no (n := n) (c := '\n') (by decide)
    have e2 := natText_no (n := m) (c := '\n') (by decide)
    cases mv <;> simp [FileLine.text, e1, e2] at hc
  | domain v d =>
    intro hc
    have e1 := natText_no (n := v) (c := '\n') (by decide)
    have e2 := natText_no (n := d) (c := '\n') (by decide)
    simp [FileLine.text, e1, e2] at hc
  | clause c => exact clauseText_no (by decide) (by decide) (by decide) (by decide)

theorem pieces_file {ls : List FileLine} (h : ∀ l ∈ ls, l.Ok) : pieces [] (fileText ls) = ls.map FileLine.text := by
  unfold fileText
  induction ls with
  | nil => rfl
  | cons l ls ih =>
    simp only [List.flatMap_cons, List.append_assoc, List.cons_append, List.nil_append, List.map_cons]
    rw [pieces_line (text_no_newline (h l List.mem_cons_self)), ih (fun x hx => h x (List.mem_cons_of_mem _ hx))]
    simp

theorem takeWhile_all {α : Type} {p : α → Bool} {l : List α} (h : ∀ a ∈ l, p a = true) : l.takeWhile p = l := by
  induction l with
  | nil => rfl
  | cons a l ih =>
    rw [List.takeWhile_cons, if_pos (h a List.mem_cons_self), ih (fun x hx => h x (List.mem_cons_of_mem _ hx))]

theorem fileLines_file {ls : List FileLine} (h : ∀ l ∈ ls, l.Ok) (hs : ∀ l ∈ ls, l.text.length < 3000) :
    fileLines (fileText ls) = ls.map FileLine.text := by
  unfold fileLines
  rw [pieces_file h, takeWhile_all]
  intro a ha
  obtain ⟨l, hl, rfl⟩ := List.mem_map.1 ha
  simpa using hs l hl

theorem cString_id {w : List Char} (h : '\x00' ∉ w) : cString w = w :=
  takeWhile_all (by intro a ha; simp; rintro rfl; exact h ha)

theorem scanLine_cString (s : Scan) {l : FileLine} (h : l.Ok) :
    scanLine s (cString l.text) = scanLine s l.text := by
  cases l with
  | comment t => rfl
  | problem mv n m =>
    rw [cString_id]
    intro hc
    have e1 := natText_no (n := n) (c := '\x00') (by decide)
    have e2 := natText_no (n := m) (c := '\x00') (by decide)
    cases mv <;> simp [FileLine.text, e1, e2] at hc
  | domain v d =>
    rw [cString_id]
    intro hc
    have e1 := natText_no (n := v) (c := '\x00') (by decide)
    have e2 := natText_no (n := d) (c := '\x00') (by decide)
    simp [FileLine.text, e1, e2] at hc
  | clause c =>
    rw [cString_id]
    exact clauseText_no (by decide) (by decide) (by decide) (by decide)

theorem scanLines_text {ls : List FileLine} (h : ∀ l ∈ ls, l.Ok) :
    ∀ s, scanLines s (ls.map FileLine.text) = .ok (ls.filterMap FileLine.item) := by
  induction ls with
  | nil => intro s; rfl
  | cons l ls ih =>
    intro s
    obtain ⟨s', e⟩ := scanLine_text s (h l List.mem_cons_self)
    simp only [List.map_cons, scanLines]
    rw [scanLine_cString s (h l List.mem_cons_self), e]
    simp only [Res.ok_bind, ih (fun x hx => h x (List.mem_cons_of_mem _ hx)) s']
    cases l <;> rfl

theorem readFile_text {ls : List FileLine} (h : ∀ l ∈ ls, l.Ok) (hs : ∀ l ∈ ls, l.text.length < 3000) :
    readFile (fileText ls) = .ok (ls.filterMap FileLine.item) := by
  unfold readFile
  rw [fileLines_file h hs, scanLines_text h]

/-! ## Order of the items -/

theorem items_clauses {ls : List FileLine} (h : fileDoms ls = []) :
    ls.filterMap FileLine.item = (fileClauses ls).map Item.clause := by
  induction ls with
  | nil => rfl
  | cons l ls ih =>
    cases l with
    | comment t => exact ih h
    | problem a b c => exact ih h
    | domain v d => simp [fileDoms] at h
    | clause c =>
      simp only [fileDoms, List.filterMap_cons] at h
      simp only [List.filterMap_cons, FileLine.item, fileClauses, List.map_cons]
      rw [ih h]; rfl

theorem items_order {ls : List FileLine} : ∀ {n}, DomainsFirst ls n →
    ls.filterMap FileLine.item = (fileDoms ls).map Item.dom ++ (fileClauses ls).map Item.clause := by
  induction ls with
  | nil => intro n _; rfl
  | cons l ls ih =>
    intro n h
    cases l with
    | comment t => exact ih h
    | problem a b c => exact ih h
    | domain v d =>
      simp only [List.filterMap_cons, FileLine.item, fileDoms, fileClauses, List.map_cons]
      rw [ih h.2]; rfl
    | clause c =>
      have h' : fileDoms ls = [] := h
      have h0 : fileDoms (FileLine.clause c :: ls) = [] := by simpa [fileDoms] using h'
      rw [h0]
      exact items_clauses (ls := .clause c :: ls) h0

theorem readFile_describes {ls : List FileLine} {P : Problem} (h : Describes ls P) :
    readFile (fileText ls) = .ok P.items := by
  rw [readFile_text h.ok h.short, items_order h.order, h.doms, h.clauses]
  rfl

end Mvl
