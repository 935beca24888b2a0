import Verif.Proof.Parse
import Verif.Proof.Linear

/-!
# Linear encoding: reading a file in the documented format
-/

namespace Mvl

/-! ## Shared by the encoders -/

theorem scanBoth_lit (s : Scan) {l : Lit} (h1 : 1 ≤ l.var) (h2 : FileLine.Small l.var)
    (h3 : FileLine.Small l.val) : scanBoth s l.text = .ok (Scan.lit l) := by
  have h := scanWord_lit s h1 h2 h3
  unfold scanWord at h
  obtain ⟨s', e, h⟩ := Res.bind_eq_ok.1 h
  obtain ⟨o, _, h⟩ := Res.bind_eq_ok.1 h
  simp only [Res.pure_eq, Res.ok.injEq, Prod.mk.injEq] at h
  rw [e, h.1]

theorem scanBoth_zero {s : Scan} {c : Char} (h : s.ch = some c) :
    scanBoth s ['0'] = .ok { s with var := some 0 } := by
  have h := scanWord_zero h
  unfold scanWord at h
  obtain ⟨s', e, h⟩ := Res.bind_eq_ok.1 h
  obtain ⟨o, _, h⟩ := Res.bind_eq_ok.1 h
  simp only [Res.pure_eq, Res.ok.injEq, Prod.mk.injEq] at h
  rw [e, h.1]

theorem scanP_text (s : Scan) {n m : Nat} (hn : FileLine.Small n) (hm : FileLine.Small m) :
    scanP s (FileLine.text (.problem false n m)) = .ok { s with var := some n, val := some m } := by
  have : matchText ['p', ' ', 'c', 'n', 'f', ' '] (FileLine.text (.problem false n m)) =
      some (natText n ++ ' ' :: natText m) := by
    have e : FileLine.text (.problem false n m) =
        'p' :: ' ' :: 'c' :: 'n' :: 'f' :: ' ' :: (natText n ++ ' ' :: natText m) := by
      simp [FileLine.text]
    rw [e]
    have w : skipWs (' ' :: (natText n ++ ' ' :: natText m)) = natText n ++ ' ' :: natText m := by
      rw [show skipWs (' ' :: (natText n ++ ' ' :: natText m)) = skipWs (natText n ++ ' ' :: natText m) from by
        simp [skipWs, isSpace]]
      exact skipWs_natText _ _
    have w' : ∀ r, skipWs (' ' :: 'c' :: r) = 'c' :: r := by intro r; simp [skipWs, isSpace]
    simp only [matchText, w', w]
    simp
  unfold scanP
  rw [this]
  exact scanVarVal_two s hn hm

theorem scanDVals_text (s : Scan) {v d : Nat} (hv : FileLine.Small v) (hd : FileLine.Small d) :
    scanDVals s (FileLine.text (.domain v d)) = .ok { s with var := some v, val := some d } := by
  have : matchText ['d', ' '] (FileLine.text (.domain v d)) = some (natText v ++ ' ' :: natText d) := by
    have e : FileLine.text (.domain v d) = 'd' :: ' ' :: (natText v ++ ' ' :: natText d) := by
      simp [FileLine.text]
    rw [e]
    have w : skipWs (' ' :: (natText v ++ ' ' :: natText d)) = natText v ++ ' ' :: natText d := by
      rw [show skipWs (' ' :: (natText v ++ ' ' :: natText d)) = skipWs (natText v ++ ' ' :: natText d) from by
        simp [skipWs, isSpace]]
      exact skipWs_natText _ _
    simp only [matchText, w]
    simp
  unfold scanDVals
  rw [this]
  exact scanVarVal_two s hv hd

/-- A clause line starts with a digit. -/
theorem clauseText_digit {c : List Lit} (hc : c ≠ []) : ∃ d r, clauseText c = d :: r ∧ d.isDigit = true := by
  cases c with
  | nil => exact absurd rfl hc
  | cons l c =>
    cases e : natText l.var with
    | nil => exact absurd e (natText_ne_nil _)
    | cons d r =>
      refine ⟨d, ?_, ?_, natText_digit d (by rw [e]; exact List.mem_cons_self)⟩
      rotate_left
      · unfold clauseText Lit.text
        rw [List.flatMap_cons, e]
        simp only [List.cons_append]
        rfl

theorem cString_problem (mv : Bool) (n m : Nat) :
    cString (FileLine.text (.problem mv n m)) = FileLine.text (.problem mv n m) := by
  rw [cString_id]
  intro hc
  have e1 := natText_no (n := n) (c := '\x00') (by decide)
  have e2 := natText_no (n := m) (c := '\x00') (by decide)
  cases mv <;> simp [FileLine.text, e1, e2] at hc

theorem cString_domain (v d : Nat) :
    cString (FileLine.text (.domain v d)) = FileLine.text (.domain v d) := by
  rw [cString_id]
  intro hc
  have e1 := natText_no (n := v) (c := '\x00') (by decide)
  have e2 := natText_no (n := d) (c := '\x00') (by decide)
  simp [FileLine.text, e1, e2] at hc

theorem cString_clause (c : List Lit) : cString (clauseText c) = clauseText c := by
  rw [cString_id]
  exact clauseText_no (by decide) (by decide) (by decide) (by decide)

theorem intText_nat (n : Nat) : intText (n : Int) = natText n := by
  unfold intText; rw [if_neg (by omega)]; simp

theorem intText_neg {n : Nat} (h : 1 ≤ n) : intText (-(n : Int)) = '-' :: natText n := by
  unfold intText; rw [if_pos (by omega)]; simp

/-! ## Linear encoding -/

/-- Domain sizes by variable; 2 by default. -/
def domOf (ds : List Nat) (i : Nat) : Nat := if i = 0 then 2 else ds.getD (i - 1) 2

theorem domOf_snoc (ds : List Nat) (d i : Nat) :
    domOf (ds ++ [d]) i = if i = ds.length + 1 then d else domOf ds i := by
  unfold domOf
  by_cases h0 : i = 0
  · rw [if_pos h0, if_neg (by omega), if_pos h0]
  · rw [if_neg h0, if_neg h0]
    by_cases h : i = ds.length + 1
    · rw [if_pos h, h]; simp
    · rw [if_neg h]
      simp only [List.getD_eq_getElem?_getD, List.getElem?_append]
      split
      · rfl
      · rw [List.getElem?_eq_none (by simp; omega), List.getElem?_eq_none (by omega)]

/-- State after the problem line and domain lines with sizes `ds`. -/
def linHead (s : Scan) (n m : Nat) (ds : List Nat) : LinSt :=
  { scan := s, numClause := m, numVar := n,
    newClause := (ds.map fun d : Nat => 4 * ((d : Int) - 2) + 3 + 1).sum,
    newVar := (ds.map fun d : Nat => 2 * (d : Int) - 1).sum,
    count := ds.length, arr := some (n + 1, fun i => (domOf ds i : Int)) }

/-- State after the first clause line has been recognised. -/
def linBody (s : Scan) (n m : Nat) (ds : List Nat) (out : List (List (List Char))) : LinSt :=
  { scan := s, numClause := m, numVar := n,
    newClause := (ds.map fun d : Nat => 4 * ((d : Int) - 2) + 3 + 1).sum + m,
    newVar := (ds.map fun d : Nat => 2 * (d : Int) - 1).sum + (n - ds.length),
    count := ds.length, arr := some (n + 1, fun i => (domOf ds i : Int)),
    index := some (linIndex fun i => (domOf ds i : Int)), isdone := true, out := out }

theorem linLine_comment (t : LinSt) (x : List Char) : linLine t (cString (FileLine.text (.comment x))) = .ok t := rfl

theorem linLine_problem (t : LinSt) {n m : Nat} (hn : FileLine.Small n) (hm : FileLine.Small m) :
    linLine t (cString (FileLine.text (.problem false n m))) = .ok
      { t with scan := { t.scan with var := some n, val := some m }, numVar := n, numClause := m,
               arr := some (n + 1, fun _ => 2), index := none } := by
  rw [cString_problem]
  show linP t (FileLine.text (.problem false n m)) = _
  unfold linP
  rw [scanP_text t.scan hn hm]
  simp only [Res.ok_bind, Scan.both]
  rw [if_neg (by omega)]
  rfl

theorem linLine_domain (s : Scan) {n m d : Nat} {ds : List Nat} (hn : ds.length < n)
    (hv : FileLine.Small (ds.length + 1)) (hd : FileLine.Small d) :
    ∃ s', linLine (linHead s n m ds) (cString (FileLine.text (.domain (ds.length + 1) d))) =
      .ok (linHead s' n m (ds ++ [d])) := by
  refine ⟨{ s with var := some ((ds.length + 1 : Nat) : Int), val := some d }, ?_⟩
  rw [cString_domain]
  show linD _ (FileLine.text (.domain (ds.length + 1) d)) = _
  unfold linD
  rw [scanDVals_text _ hv hd]
  simp only [Res.ok_bind, Scan.both, linHead]
  rw [if_pos (by omega)]
  have e : (fun i => if i = ((ds.length + 1 : Nat) : Int).toNat then (d : Int) else (domOf ds i : Int)) =
      fun i => (domOf (ds ++ [d]) i : Int) := by
    funext i
    rw [domOf_snoc, Int.toNat_natCast]
    split <;> rfl
  rw [e]
  simp [List.sum_append]

theorem linExtras_eq {ds : List Nat} (h2 : ∀ d ∈ ds, 2 ≤ d) (n : Nat) :
    ((List.range (n + 1)).flatMap fun i =>
      if 2 < (domOf ds i : Int) then
        (linExtra (linIndex (fun i => (domOf ds i : Int)) i) ((domOf ds i : Int)).toNat).map zeroLine else []) =
      (linExtras (domOf ds) n).map zeroLine := by
  have hD : ∀ i, 1 ≤ i → 2 ≤ domOf ds i := by
    intro i hi
    unfold domOf
    rw [if_neg (by omega), List.getD_eq_getElem?_getD]
    cases e : ds[i - 1]? with
    | none => simp
    | some d => exact h2 d (List.mem_of_getElem? e)
  rw [List.range_eq_range', List.range'_succ, List.flatMap_cons]
  have e0 : domOf ds 0 = 2 := rfl
  rw [if_neg (by rw [e0]; decide), List.nil_append]
  unfold linExtras
  rw [List.map_flatMap]
  congr 1
  funext i
  rw [linIndex_eq hD, Int.toNat_natCast]
  by_cases h : 2 < domOf ds i
  · rw [if_pos h, if_pos (by omega)]
  · rw [if_neg h, if_neg (by omega)]; rfl

theorem domOf_two {ds : List Nat} (h2 : ∀ d ∈ ds, 2 ≤ d) : ∀ i, 2 ≤ domOf ds i := by
  intro i
  unfold domOf
  split
  · exact Nat.le_refl _
  · rw [List.getD_eq_getElem?_getD]
    cases e : ds[i - 1]? with
    | none => simp
    | some d => exact h2 d (List.mem_of_getElem? e)

/-- The header written. -/
def linVars (n : Nat) (ds : List Nat) : Int := (ds.map fun d : Nat => 2 * (d : Int) - 1).sum + (n - ds.length)

def linClauses (m : Nat) (ds : List Nat) : Int := (ds.map fun d : Nat => 4 * ((d : Int) - 2) + 3 + 1).sum + m

theorem linFirst_head (s : Scan) {n m : Nat} {ds : List Nat} (hn : 1 ≤ n) (h2 : ∀ d ∈ ds, 2 ≤ d) :
    linFirst (linHead s n m ds) =
      .ok (linBody s n m ds (dimacsWords (linVars n ds) (linClauses m ds) (linExtras (domOf ds) n))) := by
  unfold linFirst
  have e0 : domOf ds 0 = 2 := rfl
  simp only [linHead, Bool.false_eq_true, if_false]
  rw [if_neg (by rw [e0]; omega), linExtras_eq h2]
  rfl

theorem linLit_lit {n m : Nat} {ds : List Nat} {out : List (List (List Char))} (h2 : ∀ d ∈ ds, 2 ≤ d) {l : Lit}
    (h1 : 1 ≤ l.var) (hn : l.var ≤ n) :
    ∃ s' : Scan, (∃ ch, s'.ch = some ch) ∧ linLit (linBody (Scan.lit l) n m ds out) =
      .ok (linBody s' n m ds out, some (intText (linLitInt (domOf ds) l))) := by
  have hD := domOf_two h2
  have hi := linIdx_pos (domOf ds) l.var h1
  have hI := linIndex_eq (D := domOf ds) (fun i _ => hD i) l.var
  unfold linLit
  simp only [linBody, Scan.lit]
  rw [if_neg (by omega), if_pos (by omega), Int.toNat_natCast]
  by_cases h : 2 < domOf ds l.var
  · rw [if_pos (by omega)]
    refine ⟨⟨some (linIndex (fun i => (domOf ds i : Int)) l.var + l.val), some l.val, some (if l.eq then '=' else '!')⟩,
      ⟨_, rfl⟩, ?_⟩
    rw [hI]
    have e : linLitInt (domOf ds) l = if l.eq then ((linIdx (domOf ds) l.var + l.val : Nat) : Int)
        else -((linIdx (domOf ds) l.var + l.val : Nat) : Int) := by unfold linLitInt; rw [if_pos h]
    rw [e]
    have ec : ((linIdx (domOf ds) l.var : Nat) : Int) + (l.val : Int) = ((linIdx (domOf ds) l.var + l.val : Nat) : Int) := by
      omega
    rw [ec]
    cases l.eq
    · simp only [Bool.false_eq_true, if_false, if_true]
      rw [intText_nat, intText_neg (by omega)]
    · simp only [if_true, show ('=' : Char) ≠ '!' from by decide, if_false]
  · rw [if_neg (by omega)]
    refine ⟨⟨some (if (l.val : Int) = 1 then linIndex (fun i => (domOf ds i : Int)) l.var
      else -(linIndex (fun i => (domOf ds i : Int)) l.var)), some l.val, some (if l.eq then '=' else '!')⟩,
      ⟨_, rfl⟩, ?_⟩
    rw [hI]
    have e : linLitInt (domOf ds) l = if (l.val : Int) = 1 then (linIdx (domOf ds) l.var : Int)
        else -(linIdx (domOf ds) l.var : Int) := by
      unfold linLitInt; rw [if_neg h]
      by_cases hv : l.val = 1
      · rw [if_pos hv, if_pos (by omega)]
      · rw [if_neg hv, if_neg (by omega)]
    rw [e]

theorem linWords_clause {n m : Nat} {ds : List Nat} {out : List (List (List Char))} (h2 : ∀ d ∈ ds, 2 ≤ d)
    {c : List Lit} (hc : ∀ l ∈ c, 1 ≤ l.var ∧ FileLine.Small l.var ∧ FileLine.Small l.val ∧ l.var ≤ n) :
    ∀ s : Scan, (c ≠ [] ∨ ∃ ch, s.ch = some ch) → ∃ s' : Scan,
      linWords (linBody s n m ds out) (c.map Lit.text ++ [['0']]) =
        .ok (linBody s' n m ds out, c.map fun l => intText (linLitInt (domOf ds) l)) := by
  induction c with
  | nil =>
    intro s hs
    obtain ⟨ch, hs⟩ := hs.resolve_left (fun h => h rfl)
    refine ⟨{ s with var := some 0 }, ?_⟩
    simp only [List.map_nil, List.nil_append, linWords]
    rw [show (linBody s n m ds out).scan = s from rfl, scanBoth_zero hs]
    rfl
  | cons l c ih =>
    intro s _
    obtain ⟨h1, h3, h4, h5⟩ := hc l List.mem_cons_self
    obtain ⟨s1, hs1, e1⟩ := linLit_lit (n := n) (m := m) (out := out) h2 h1 h5
    obtain ⟨s2, e2⟩ := ih (fun x hx => hc x (List.mem_cons_of_mem _ hx)) s1 (.inr hs1)
    refine ⟨s2, ?_⟩
    simp only [List.map_cons, List.cons_append, linWords]
    rw [show (linBody s n m ds out).scan = s from rfl, scanBoth_lit s h1 h3 h4]
    simp only [Res.ok_bind]
    rw [show ({ linBody s n m ds out with scan := Scan.lit l } : LinSt) = linBody (Scan.lit l) n m ds out from rfl, e1]
    simp only [Res.ok_bind, e2]
    rfl

theorem linLine_clause (t : LinSt) {c : List Lit} (hc : c ≠ []) :
    linLine t (cString (FileLine.text (.clause c))) = (do
      let t ← linFirst t
      let (t, os) ← linWords t (c.map Lit.text ++ [['0']])
      pure { t with out := t.out ++ [os ++ [['0']]] }) := by
  show linLine t (cString (clauseText c)) = _
  rw [cString_clause, ← words_clause]
  obtain ⟨d, r, e, hd⟩ := clauseText_digit hc
  have h1 : d ≠ 'c' := isDigit_ne hd (by decide)
  have h2 : d ≠ 'p' := isDigit_ne hd (by decide)
  have h3 : d ≠ 'd' := isDigit_ne hd (by decide)
  rw [e]
  unfold linLine
  split
  · next e => cases e; exact absurd rfl h1
  · next e => cases e; exact absurd rfl h2
  · next e => cases e; exact absurd rfl h3
  · rfl

/-- The line written for a clause. -/
def linOut (ds : List Nat) (c : List Lit) : List (List Char) := (c.map fun l => intText (linLitInt (domOf ds) l)) ++ [['0']]

theorem linLines_body {n m : Nat} {ds : List Nat} (h2 : ∀ d ∈ ds, 2 ≤ d) {ls : List FileLine}
    (hok : ∀ l ∈ ls, l.Ok) (hd : fileDoms ls = []) (hp : NoProblem ls)
    (hv : ∀ c ∈ fileClauses ls, ∀ l ∈ c, l.var ≤ n) :
    ∀ s out, ∃ s', linLines (linBody s n m ds out) (ls.map FileLine.text) =
      .ok (linBody s' n m ds (out ++ (fileClauses ls).map (linOut ds))) := by
  induction ls with
  | nil => intro s out; exact ⟨s, by simp [linLines, fileClauses]⟩
  | cons l ls ih =>
    intro s out
    have hok' : ∀ x ∈ ls, x.Ok := fun x hx => hok x (List.mem_cons_of_mem _ hx)
    have hp' : NoProblem ls := fun x hx => hp x (List.mem_cons_of_mem _ hx)
    simp only [List.map_cons, linLines]
    cases l with
    | comment x =>
      rw [linLine_comment]
      exact ih hok' hd hp' hv s out
    | problem a b c => exact absurd rfl (hp _ List.mem_cons_self a b c)
    | domain v d => simp [fileDoms] at hd
    | clause c =>
      have hc := hok _ List.mem_cons_self
      have hv1 : ∀ l ∈ c, l.var ≤ n := hv c (by simp [fileClauses])
      have hv2 : ∀ c' ∈ fileClauses ls, ∀ l ∈ c', l.var ≤ n := fun c' h' => hv c' (by
        simp only [fileClauses, List.filterMap_cons]; exact List.mem_cons_of_mem _ h')
      obtain ⟨s1, e1⟩ := linWords_clause (n := n) (m := m) (out := out) h2
        (fun l hl => ⟨(hc.2 l hl).1, (hc.2 l hl).2.1, (hc.2 l hl).2.2, hv1 l hl⟩) s (.inl hc.1)
      obtain ⟨s2, e2⟩ := ih hok' (by simpa [fileDoms] using hd) hp' hv2 s1 (out ++ [linOut ds c])
      refine ⟨s2, ?_⟩
      rw [linLine_clause _ hc.1]
      rw [show linFirst (linBody s n m ds out) = .ok (linBody s n m ds out) from rfl]
      simp only [Res.ok_bind, e1, Res.pure_eq]
      rw [show ({ linBody s1 n m ds out with out := (linBody s1 n m ds out).out ++
        [(c.map fun l => intText (linLitInt (domOf ds) l)) ++ [['0']]] } : LinSt) = linBody s1 n m ds (out ++ [linOut ds c]) from rfl,
        e2]
      simp [fileClauses]

theorem linLines_head {n m : Nat} (hn : 1 ≤ n) {ls : List FileLine} :
    ∀ (ds : List Nat) (s : Scan), (∀ l ∈ ls, l.Ok) → DomainsFirst ls (ds.length + 1) → NoProblem ls →
      (∀ d ∈ ds ++ fileDoms ls, 2 ≤ d) → ds.length + (fileDoms ls).length ≤ n →
      (∀ c ∈ fileClauses ls, ∀ l ∈ c, l.var ≤ n) → fileClauses ls ≠ [] →
      ∃ t, linLines (linHead s n m ds) (ls.map FileLine.text) = .ok t ∧
        t.out = dimacsWords (linVars n (ds ++ fileDoms ls)) (linClauses m (ds ++ fileDoms ls))
          (linExtras (domOf (ds ++ fileDoms ls)) n) ++ (fileClauses ls).map (linOut (ds ++ fileDoms ls)) := by
  induction ls with
  | nil => intro ds s _ _ _ _ _ _ h; exact absurd rfl h
  | cons l ls ih =>
    intro ds s hok hdf hp h2 hlen hv hne
    have hok' : ∀ x ∈ ls, x.Ok := fun x hx => hok x (List.mem_cons_of_mem _ hx)
    have hp' : NoProblem ls := fun x hx => hp x (List.mem_cons_of_mem _ hx)
    simp only [List.map_cons, linLines]
    cases l with
    | comment x =>
      rw [linLine_comment]
      exact ih ds s hok' hdf hp' h2 hlen hv hne
    | problem a b c => exact absurd rfl (hp _ List.mem_cons_self a b c)
    | domain v d =>
      obtain ⟨rfl, hdf⟩ := hdf
      have hfd : fileDoms (FileLine.domain (ds.length + 1) d :: ls) = d :: fileDoms ls := by simp [fileDoms]
      have hfc : fileClauses (FileLine.domain (ds.length + 1) d :: ls) = fileClauses ls := by simp [fileClauses]
      rw [hfd] at h2 hlen ⊢
      rw [hfc] at hv hne ⊢
      have ho := hok _ List.mem_cons_self
      simp only [List.length_cons] at hlen
      obtain ⟨s1, e1⟩ := linLine_domain s (m := m) (n := n) (ds := ds) (by omega) ho.1 ho.2
      rw [e1]
      rw [List.append_cons ds d (fileDoms ls)] at h2 ⊢
      simp only [Res.ok_bind]
      exact ih (ds ++ [d]) s1 hok' (by simpa using hdf) hp' h2 (by simp; omega) hv hne
    | clause c =>
      have hd : fileDoms ls = [] := hdf
      have hfd : fileDoms (FileLine.clause c :: ls) = [] := by simpa [fileDoms] using hd
      rw [hfd, List.append_nil] at h2 ⊢
      have hc := hok _ List.mem_cons_self
      have hv1 : ∀ l ∈ c, l.var ≤ n := hv c (by simp [fileClauses])
      have hv2 : ∀ c' ∈ fileClauses ls, ∀ l ∈ c', l.var ≤ n := fun c' h' => hv c' (by
        simp only [fileClauses, List.filterMap_cons]; exact List.mem_cons_of_mem _ h')
      rw [linLine_clause _ hc.1, linFirst_head s hn h2]
      simp only [Res.ok_bind]
      obtain ⟨s1, e1⟩ := linWords_clause (n := n) (m := m)
        (out := dimacsWords (linVars n ds) (linClauses m ds) (linExtras (domOf ds) n)) h2
        (fun l hl => ⟨(hc.2 l hl).1, (hc.2 l hl).2.1, (hc.2 l hl).2.2, hv1 l hl⟩) s (.inl hc.1)
      obtain ⟨s2, e2⟩ := linLines_body (n := n) (m := m) h2 hok' hd hp' hv2 s1
        (dimacsWords (linVars n ds) (linClauses m ds) (linExtras (domOf ds) n) ++ [linOut ds c])
      simp only [e1, Res.ok_bind, Res.pure_eq]
      refine ⟨_, e2, ?_⟩
      simp [linBody, fileClauses]

theorem linLines_start {n m : Nat} (hn : 1 ≤ n) {ls : List FileLine} (h : HeaderFirst ls n m) (hok : ∀ l ∈ ls, l.Ok)
    (hdf : DomainsFirst ls 1) (h2 : ∀ d ∈ fileDoms ls, 2 ≤ d) (hlen : (fileDoms ls).length ≤ n)
    (hv : ∀ c ∈ fileClauses ls, ∀ l ∈ c, l.var ≤ n) (hne : fileClauses ls ≠ []) :
    linLines {} (ls.map FileLine.text) >>= (fun t => pure t.out) =
      .ok (dimacsWords (linVars n (fileDoms ls)) (linClauses m (fileDoms ls))
        (linCnf (domOf (fileDoms ls)) n (fileClauses ls))) := by
  induction ls with
  | nil => exact absurd rfl hne
  | cons l ls ih =>
    have hok' : ∀ x ∈ ls, x.Ok := fun x hx => hok x (List.mem_cons_of_mem _ hx)
    simp only [List.map_cons, linLines]
    cases l with
    | comment x =>
      rw [linLine_comment]
      exact ih h hok' hdf h2 hlen hv hne
    | problem a b c =>
      obtain ⟨rfl, rfl, rfl, hp⟩ := h
      have ho := hok _ List.mem_cons_self
      rw [linLine_problem _ ho.1 ho.2]
      simp only [Res.ok_bind]
      obtain ⟨t, e, et⟩ := linLines_head (n := b) (m := c) hn [] ⟨some b, some c, none⟩ hok' hdf hp h2
        (by simpa [fileDoms] using hlen) hv hne
      have e' : linLines (linHead ⟨some b, some c, none⟩ b c []) (ls.map FileLine.text) >>= (fun t => pure t.out) = .ok t.out := by
        rw [e]; rfl
      rw [et] at e'
      refine Eq.trans ?_ (e'.trans ?_)
      · have : (fun i => (domOf [] i : Int)) = fun _ => 2 := by
          funext i
          unfold domOf
          simp
        unfold linHead
        rw [this]
        rfl
      · have f1 : fileDoms (FileLine.problem false b c :: ls) = fileDoms ls := by simp [fileDoms]
        have f2 : fileClauses (FileLine.problem false b c :: ls) = fileClauses ls := by simp [fileClauses]
        rw [f1, f2]
        simp [dimacsWords, linCnf, linOut, Function.comp_def]
    | domain v d => exact absurd h (by simp [HeaderFirst])
    | clause c => exact absurd h (by simp [HeaderFirst])

/-- What `-linenc` writes for a file in the documented format. -/
theorem linearEncode_text {ls : List FileLine} {P : Problem} {m : Nat} (h : Describes ls P) (hw : P.WellFormed)
    (hh : HeaderFirst ls P.numVars m) (hc : P.clauses ≠ []) :
    linearEncode (fileText ls) = .ok (dimacsWords (linVars P.numVars P.doms) (linClauses m P.doms)
      (linCnf (domOf P.doms) P.numVars P.clauses)) := by
  have hn : 1 ≤ P.numVars := by
    cases e : P.clauses with
    | nil => exact absurd e hc
    | cons c cs =>
      have hm : c ∈ P.clauses := by rw [e]; exact List.mem_cons_self
      cases e' : c with
      | nil => exact absurd e' (hw.nonempty c hm)
      | cons l c' =>
        have := hw.lits_ok c hm l (by rw [e']; exact List.mem_cons_self)
        exact Nat.le_trans this.1 this.2.1
  unfold linearEncode
  rw [fileLines_file h.ok h.short]
  have := linLines_start hn hh h.ok h.order (by rw [h.doms]; exact hw.dom_two) (by rw [h.doms]; exact Nat.le_refl _)
    (by rw [h.clauses]; exact fun c hc l hl => (hw.lits_ok c hc l hl).2.1) (by rw [h.clauses]; exact hc)
  rw [h.doms, h.clauses] at this
  exact this

end Mvl
