import Verif.Proof.LinRead

/-!
# Quadratic encoding: reading a file and the meaning of the clauses written
-/

namespace Mvl

/-! ## Numbers -/

/-- The number added to the clause count for a domain of size `d`. -/
def quadCount (d : Nat) : Nat := d * (d - 1) / 2 + 1

theorem fact_small : ∀ d : Nat, d < 13 → 2 ≤ d →
    (do let f ← fact (d : Int)
        let f2 ← fact ((d : Int) - 2)
        if 2147483647 < f2 * 2 then Res.ub else pure (Int.tdiv f (f2 * 2) + 1)) = .ok (quadCount d : Int) := by
  decide +kernel

/-- The clauses for a variable: at least one value, at most one value. -/
def aExtra (v d : Nat) : List (List ALit) :=
  ((List.range d).map fun y => ⟨true, v, y⟩) ::
  (List.range d).flatMap fun a => (List.range' (a + 1) (d - (a + 1))).map fun b => [⟨false, v, a⟩, ⟨false, v, b⟩]

theorem aExtra_length : ∀ d : Nat, d < 13 → ∀ v, (aExtra v d).length = quadCount d := by
  have h : ∀ d : Nat, d < 13 → ((List.range d).map fun a => d - (a + 1)).sum + 1 = quadCount d := by decide
  intro d hd v
  rw [← h d hd]
  unfold aExtra
  simp [List.length_flatMap]

theorem atomWord_text (v k : Nat) : atomWord (v : Int) (k : Int) = ALit.text ⟨true, v, k⟩ := by
  unfold atomWord ALit.text
  rw [intText_nat, intText_nat]
  rfl

theorem quadExtra_text (v d : Nat) : quadExtra ((v : Int), (d : Int)) = (aExtra v d).map fun c => c.map ALit.text := by
  unfold quadExtra aExtra
  simp only [Int.toNat_natCast, List.map_cons, List.map_map, List.map_flatMap, atomWord_text]
  rfl

/-! ## Words -/

/-- The literal written for a literal of the input. -/
def aLit (l : Lit) : ALit := ⟨l.eq, l.var, l.val⟩

theorem scan1_eq (s : Scan) {v k : Nat} (h2 : FileLine.Small v) (h3 : FileLine.Small k) :
    scan1 s (Lit.text ⟨v, k, true⟩) = .ok ⟨some v, some k, some '='⟩ := by
  have et : Lit.text ⟨v, k, true⟩ = natText v ++ ('=' :: natText k) := by
    show (natText v ++ ['=']) ++ natText k = _
    rw [List.append_assoc]; rfl
  rw [et]
  unfold scan1
  rw [scanInt_nat h2 (noDigit_cons (by decide))]
  have : skipWs ('=' :: natText k) = '=' :: natText k := by simp [skipWs, isSpace]
  simp only [this]
  unfold scanVal
  rw [scanInt_nat' h3]

theorem scan1_ne (s : Scan) {v k : Nat} (h2 : FileLine.Small v) :
    scan1 s (Lit.text ⟨v, k, false⟩) = .ok ⟨some v, s.val, some '!'⟩ := by
  have e0 : scanInt (natText v ++ ('!' :: '=' :: natText k)) = .ok (some ((v : Int), '!' :: '=' :: natText k)) :=
    scanInt_nat h2 (noDigit_cons (by decide))
  have w1 : skipWs ('!' :: '=' :: natText k) = '!' :: '=' :: natText k := by simp [skipWs, isSpace]
  have w2 : skipWs ('=' :: natText k) = '=' :: natText k := by simp [skipWs, isSpace]
  have et : Lit.text ⟨v, k, false⟩ = natText v ++ ('!' :: '=' :: natText k) := by
    show (natText v ++ ['!', '=']) ++ natText k = _
    rw [List.append_assoc]; rfl
  rw [et]
  unfold scan1
  rw [e0]
  simp only [w1]
  unfold scanVal scanInt
  rw [w2]
  simp [scanDigits]

theorem scan2_ne (s : Scan) {v k : Nat} (h2 : FileLine.Small v) (h3 : FileLine.Small k) :
    scan2 s (Lit.text ⟨v, k, false⟩) = .ok ⟨some v, some k, some '!'⟩ := by
  have e0 : scanInt (natText v ++ ('!' :: '=' :: natText k)) = .ok (some ((v : Int), '!' :: '=' :: natText k)) :=
    scanInt_nat h2 (noDigit_cons (by decide))
  have w1 : skipWs ('!' :: '=' :: natText k) = '!' :: '=' :: natText k := by simp [skipWs, isSpace]
  have w2 : skipWs ('=' :: natText k) = '=' :: natText k := by simp [skipWs, isSpace]
  have et : Lit.text ⟨v, k, false⟩ = natText v ++ ('!' :: '=' :: natText k) := by
    show (natText v ++ ['!', '=']) ++ natText k = _
    rw [List.append_assoc]; rfl
  rw [et]
  unfold scan2
  rw [e0]
  simp only [w1, w2]
  unfold scanVal
  rw [scanInt_nat' h3]

theorem quadWord_lit (s : Scan) {l : Lit} (h1 : 1 ≤ l.var) (h2 : FileLine.Small l.var) (h3 : FileLine.Small l.val) :
    quadWord s l.text = .ok (Scan.lit l, some (aLit l).text) := by
  obtain ⟨v, k, e⟩ := l
  simp only at h1 h2 h3
  unfold quadWord
  cases e with
  | true =>
    rw [scan1_eq s h2 h3]
    simp only [Res.ok_bind, Scan.both, atomWord_text]
    rw [if_neg (by omega), if_neg (by decide)]
    rfl
  | false =>
    rw [scan1_ne s h2]
    simp only [Res.ok_bind, if_true, scan2_ne _ h2 h3, Scan.both, atomWord_text]
    rw [if_neg (by omega)]
    rfl

theorem quadWord_zero (s : Scan) : quadWord s ['0'] = .ok ({ s with var := some 0 }, none) := by
  unfold quadWord scan1
  rw [scanInt_zero]
  rfl

theorem quadWords_clause {c : List Lit} (hc : ∀ l ∈ c, 1 ≤ l.var ∧ FileLine.Small l.var ∧ FileLine.Small l.val) :
    ∀ s : Scan, ∃ s' : Scan, quadWords s (c.map Lit.text ++ [['0']]) = .ok (s', c.map fun l => (aLit l).text) := by
  induction c with
  | nil =>
    intro s
    refine ⟨{ s with var := some 0 }, ?_⟩
    simp only [List.map_nil, List.nil_append, quadWords]
    rw [quadWord_zero]
    rfl
  | cons l c ih =>
    intro s
    obtain ⟨h1, h3, h4⟩ := hc l List.mem_cons_self
    obtain ⟨s2, e2⟩ := ih (fun x hx => hc x (List.mem_cons_of_mem _ hx)) (Scan.lit l)
    refine ⟨s2, ?_⟩
    simp only [List.map_cons, List.cons_append, quadWords]
    rw [quadWord_lit s h1 h3 h4]
    simp only [Res.ok_bind, e2]
    rfl

/-! ## Lines -/

theorem quadLine_comment (t : QuadSt) (x : List Char) : quadLine t (cString (FileLine.text (.comment x))) = .ok t := rfl

theorem quadLine_problem (t : QuadSt) {n m : Nat} (hn : FileLine.Small n) (hm : FileLine.Small m) :
    quadLine t (cString (FileLine.text (.problem false n m))) = .ok
      { t with scan := { t.scan with var := some n, val := some m }, numClause := t.numClause + m } := by
  rw [cString_problem]
  show quadP t (FileLine.text (.problem false n m)) = _
  unfold quadP
  rw [scanP_text t.scan hn hm]
  rfl

theorem quadLine_domain (t : QuadSt) {v d : Nat} (hv : FileLine.Small v) (hd : FileLine.Small d) (h2 : 2 ≤ d)
    (h13 : d < 13) :
    quadLine t (cString (FileLine.text (.domain v d))) = .ok
      { t with scan := { t.scan with var := some v, val := some d }, vars := t.vars ++ [((v : Int), (d : Int))],
               numVar := t.numVar + d, numClause := t.numClause + quadCount d } := by
  rw [cString_domain]
  show quadD t (FileLine.text (.domain v d)) = _
  have hf := fact_small d h13 h2
  unfold quadD
  rw [scanDVals_text _ hv hd]
  simp only [Res.ok_bind, Scan.both]
  rw [if_neg (by omega)]
  obtain ⟨f, e1, hf⟩ := Res.bind_eq_ok.1 hf
  obtain ⟨f2, e2, hf⟩ := Res.bind_eq_ok.1 hf
  rw [e1]
  simp only [Res.ok_bind, e2]
  split at hf
  · cases hf
  · next h =>
    rw [if_neg h]
    simp only [Res.pure_eq, Res.ok.injEq] at hf ⊢
    rw [← hf]
    simp [Int.add_assoc]

theorem quadLine_clause (t : QuadSt) {c : List Lit} (hc : c ≠ []) :
    quadLine t (cString (FileLine.text (.clause c))) = (do
      let (s, os) ← quadWords (quadFirst t).scan (c.map Lit.text ++ [['0']])
      pure { quadFirst t with scan := s, out := (quadFirst t).out ++ [os ++ [['0']]] }) := by
  show quadLine t (cString (clauseText c)) = _
  rw [cString_clause, ← words_clause]
  obtain ⟨d, r, e, hd⟩ := clauseText_digit hc
  have h1 : d ≠ 'c' := isDigit_ne hd (by decide)
  have h2 : d ≠ 'p' := isDigit_ne hd (by decide)
  have h3 : d ≠ 'd' := isDigit_ne hd (by decide)
  rw [e]
  unfold quadLine
  split
  · next e => cases e; exact absurd rfl h1
  · next e => cases e; exact absurd rfl h2
  · next e => cases e; exact absurd rfl h3
  · rfl

/-- The line written for a clause. -/
def quadOut (c : List Lit) : List (List Char) := (c.map fun l => (aLit l).text) ++ [['0']]

/-- The number of clauses announced by the problem lines before the first clause line. -/
def announced : List FileLine → Nat
  | [] => 0
  | .problem _ _ m :: ls => m + announced ls
  | .clause _ :: _ => 0
  | _ :: ls => announced ls

theorem quadLines_body {ls : List FileLine} (hok : ∀ l ∈ ls, l.Ok) (hd : fileDoms ls = []) (hp : PlainProblem ls) :
    ∀ t : QuadSt, t.isdone = true → ∃ t', quadLines t (ls.map FileLine.text) = .ok t' ∧
      t'.out = t.out ++ (fileClauses ls).map quadOut := by
  induction ls with
  | nil => intro t _; exact ⟨t, rfl, by simp [fileClauses]⟩
  | cons l ls ih =>
    intro t ht
    have hok' : ∀ x ∈ ls, x.Ok := fun x hx => hok x (List.mem_cons_of_mem _ hx)
    have hp' : PlainProblem ls := fun x hx => hp x (List.mem_cons_of_mem _ hx)
    have ho := hok _ List.mem_cons_self
    simp only [List.map_cons, quadLines]
    cases l with
    | comment x => rw [quadLine_comment]; exact ih hok' hd hp' t ht
    | problem a b c =>
      cases a with
      | true => exact absurd rfl (hp _ List.mem_cons_self b c)
      | false =>
        rw [quadLine_problem t ho.1 ho.2]
        obtain ⟨t', e, h⟩ := ih hok' (by simpa [fileDoms] using hd) hp' { t with
          scan := { t.scan with var := some (b : Int), val := some (c : Int) }, numClause := t.numClause + c } ht
        exact ⟨t', e, h⟩
    | domain v d => simp [fileDoms] at hd
    | clause c =>
      have hf : quadFirst t = t := by unfold quadFirst; rw [if_pos ht]
      obtain ⟨s1, e1⟩ := quadWords_clause ho.2 t.scan
      rw [quadLine_clause t ho.1, hf, e1]
      simp only [Res.ok_bind, Res.pure_eq]
      obtain ⟨t', e, h⟩ := ih hok' (by simpa [fileDoms] using hd) hp'
        { t with scan := s1, out := t.out ++ [(c.map fun l => (aLit l).text) ++ [['0']]] } ht
      refine ⟨t', e, ?_⟩
      rw [h]
      simp [fileClauses, quadOut]

/-- The clauses for the variables from `v` on. -/
def aExtras : Nat → List Nat → List (List ALit)
  | _, [] => []
  | v, d :: ds => aExtra v d ++ aExtras (v + 1) ds

theorem aExtras_append (v : Nat) (ds es : List Nat) :
    aExtras v (ds ++ es) = aExtras v ds ++ aExtras (v + ds.length) es := by
  induction ds generalizing v with
  | nil => rfl
  | cons d ds ih =>
    simp only [List.cons_append, aExtras, ih, List.append_assoc, List.length_cons]
    rw [show v + 1 + ds.length = v + (ds.length + 1) from by omega]

theorem quadLines_head {ls : List FileLine} :
    ∀ (ds : List Nat) (t : QuadSt), (∀ l ∈ ls, l.Ok) → DomainsFirst ls (ds.length + 1) → PlainProblem ls →
      (∀ d ∈ fileDoms ls, 2 ≤ d ∧ d < 13) → fileClauses ls ≠ [] → t.isdone = false → t.out = [] →
      t.vars.flatMap quadExtra = (aExtras 1 ds).map (fun c => c.map ALit.text) →
      ∃ t', quadLines t (ls.map FileLine.text) = .ok t' ∧
        t'.out = [['p'], ['c', 'n', 'f'], intText (t.numVar + ((fileDoms ls).sum : Int)),
            intText (t.numClause + announced ls + (((fileDoms ls).map quadCount).sum : Int))] ::
          (aExtras 1 (ds ++ fileDoms ls)).map (fun c => c.map ALit.text) ++ (fileClauses ls).map quadOut := by
  induction ls with
  | nil => intro ds t _ _ _ _ h; exact absurd rfl h
  | cons l ls ih =>
    intro ds t hok hdf hp h2 hne hi hout hvars
    have hok' : ∀ x ∈ ls, x.Ok := fun x hx => hok x (List.mem_cons_of_mem _ hx)
    have hp' : PlainProblem ls := fun x hx => hp x (List.mem_cons_of_mem _ hx)
    have ho := hok _ List.mem_cons_self
    simp only [List.map_cons, quadLines]
    cases l with
    | comment x => rw [quadLine_comment]; exact ih ds t hok' hdf hp' h2 hne hi hout hvars
    | problem a b c =>
      cases a with
      | true => exact absurd rfl (hp _ List.mem_cons_self b c)
      | false =>
        rw [quadLine_problem t ho.1 ho.2]
        simp only [Res.ok_bind]
        obtain ⟨t', e, h⟩ := ih ds { t with
          scan := { t.scan with var := some (b : Int), val := some (c : Int) }, numClause := t.numClause + c }
          hok' hdf hp' h2 hne hi hout hvars
        refine ⟨t', e, ?_⟩
        rw [h]
        have : fileDoms (FileLine.problem false b c :: ls) = fileDoms ls := by simp [fileDoms]
        rw [this]
        have : fileClauses (FileLine.problem false b c :: ls) = fileClauses ls := by simp [fileClauses]
        rw [this]
        simp [announced, Int.add_assoc]
    | domain v d =>
      obtain ⟨rfl, hdf⟩ := hdf
      have hfd : fileDoms (FileLine.domain (ds.length + 1) d :: ls) = d :: fileDoms ls := by simp [fileDoms]
      have hfc : fileClauses (FileLine.domain (ds.length + 1) d :: ls) = fileClauses ls := by simp [fileClauses]
      rw [hfd] at h2 ⊢
      rw [hfc] at hne ⊢
      have hd := h2 d List.mem_cons_self
      rw [quadLine_domain t ho.1 ho.2 hd.1 hd.2]
      simp only [Res.ok_bind]
      obtain ⟨t', e, h⟩ := ih (ds ++ [d]) { t with
          scan := { t.scan with var := some ((ds.length + 1 : Nat) : Int), val := some (d : Int) },
          vars := t.vars ++ [(((ds.length + 1 : Nat) : Int), (d : Int))],
          numVar := t.numVar + d, numClause := t.numClause + quadCount d }
          hok' (by simpa using hdf) hp' (fun x hx => h2 x (List.mem_cons_of_mem _ hx)) hne hi hout (by
            simp only [List.flatMap_append, hvars, List.flatMap_cons, List.flatMap_nil, List.append_nil, quadExtra_text,
              aExtras_append, List.map_append, aExtras, Nat.add_comm 1])
      refine ⟨t', e, ?_⟩
      rw [h, List.append_cons ds d (fileDoms ls)]
      have e1 : t.numVar + (d : Int) + ((fileDoms ls).sum : Int) = t.numVar + (((d :: fileDoms ls).sum : Nat) : Int) := by
        simp [Int.add_assoc]
      have e2 : t.numClause + (quadCount d : Int) + (announced ls : Int) + (((fileDoms ls).map quadCount).sum : Int) =
          t.numClause + (announced (FileLine.domain (ds.length + 1) d :: ls) : Int) +
            ((((d :: fileDoms ls).map quadCount).sum : Nat) : Int) := by
        simp only [announced, List.map_cons, List.sum_cons]; omega
      simp only [e1, e2]
    | clause c =>
      have hd : fileDoms ls = [] := hdf
      have hfd : fileDoms (FileLine.clause c :: ls) = [] := by simpa [fileDoms] using hd
      rw [hfd]
      obtain ⟨s1, e1⟩ := quadWords_clause ho.2 (quadFirst t).scan
      rw [quadLine_clause t ho.1, e1]
      simp only [Res.ok_bind, Res.pure_eq]
      have hf : quadFirst t = { t with isdone := true, out := ([['p'], ['c', 'n', 'f'], intText t.numVar, intText t.numClause] ::
          List.map (fun c => c.map ALit.text) (aExtras 1 ds)) } := by
        unfold quadFirst
        rw [if_neg (by simp [hi]), hout, hvars]
        rfl
      obtain ⟨t', e, h⟩ := quadLines_body hok' hd hp'
        { quadFirst t with scan := s1, out := (quadFirst t).out ++ [(c.map fun l => (aLit l).text) ++ [['0']]] } (by rw [hf])
      refine ⟨t', e, ?_⟩
      rw [h, hf]
      simp [fileClauses, quadOut, announced]

/-- What `-quadenc` writes for a file in the documented format. -/
theorem quadraticEncode_text {ls : List FileLine} {P : Problem} (h : Describes ls P) (hw : P.WellFormed)
    (hp : PlainProblem ls) (h13 : ∀ d ∈ P.doms, d < 13) (hc : P.clauses ≠ []) :
    quadraticEncode (fileText ls) = .ok ([['p'], ['c', 'n', 'f'], intText (P.doms.sum : Int),
        intText ((announced ls + (P.doms.map quadCount).sum : Nat) : Int)] ::
      (aExtras 1 P.doms).map (fun c => c.map ALit.text) ++ (P.clauses.map fun c => c.map aLit).map
        fun c => c.map ALit.text ++ [['0']]) := by
  unfold quadraticEncode
  rw [fileLines_file h.ok h.short]
  obtain ⟨t, e, ht⟩ := quadLines_head (ls := ls) [] {} h.ok h.order hp
    (by rw [h.doms]; exact fun d hd => ⟨hw.dom_two d hd, h13 d hd⟩) (by rw [h.clauses]; exact hc) rfl rfl rfl
  rw [e]
  simp only [Res.ok_bind, Res.pure_eq, ht, h.doms, h.clauses]
  simp [quadOut, Function.comp_def]

/-! ## Meaning -/

theorem aExtra_iff {β : Nat → Nat → Bool} {v d : Nat} :
    ASolves β (aExtra v d) ↔ ∃ k, k < d ∧ ∀ j, j < d → (β v j = true ↔ j = k) := by
  constructor
  · intro h
    obtain ⟨l, hl, hh⟩ := h _ List.mem_cons_self
    obtain ⟨k, hk, rfl⟩ := List.mem_map.1 hl
    have hk' := List.mem_range.1 hk
    have two : ∀ a b, a < b → b < d → β v a = true → β v b = true → False := by
      intro a b hab hb ha' hb'
      obtain ⟨l, hl, hh⟩ := h [⟨false, v, a⟩, ⟨false, v, b⟩] (List.mem_cons_of_mem _ (List.mem_flatMap.2
        ⟨a, List.mem_range.2 (by omega), List.mem_map.2 ⟨b, List.mem_range'_1.2 (by omega), rfl⟩⟩))
      simp only [List.mem_cons, List.not_mem_nil, or_false] at hl
      rcases hl with rfl | rfl
      · have : β v a = false := hh; rw [this] at ha'; cases ha'
      · have : β v b = false := hh; rw [this] at hb'; cases hb'
    have hk2 : β v k = true := hh
    refine ⟨k, hk', fun j hj => ⟨fun hb => ?_, fun e => by rw [e]; exact hk2⟩⟩
    rcases Nat.lt_trichotomy j k with g | g | g
    · exact (two j k g hk' hb hk2).elim
    · exact g
    · exact (two k j g hj hk2 hb).elim
  · rintro ⟨k, hk, h⟩ c hc
    rcases List.mem_cons.1 hc with rfl | hc
    · exact ⟨_, List.mem_map.2 ⟨k, List.mem_range.2 hk, rfl⟩, (h k hk).2 rfl⟩
    · obtain ⟨a, ha, hc⟩ := List.mem_flatMap.1 hc
      obtain ⟨b, hb, rfl⟩ := List.mem_map.1 hc
      have ha' := List.mem_range.1 ha
      have hb' := List.mem_range'_1.1 hb
      by_cases e : a = k
      · refine ⟨⟨false, v, b⟩, by simp, ?_⟩
        show β v b = false
        cases g : β v b with
        | false => rfl
        | true => have := (h b (by omega)).1 g; omega
      · refine ⟨⟨false, v, a⟩, by simp, ?_⟩
        show β v a = false
        cases g : β v a with
        | false => rfl
        | true => exact absurd ((h a ha').1 g) e

theorem mem_aExtras {c : List ALit} (v : Nat) (ds : List Nat) :
    c ∈ aExtras v ds ↔ ∃ i, ∃ h : i < ds.length, c ∈ aExtra (v + i) ds[i] := by
  induction ds generalizing v with
  | nil => simp [aExtras]
  | cons d ds ih =>
    simp only [aExtras, List.mem_append, ih]
    constructor
    · rintro (h | ⟨i, hi, h⟩)
      · exact ⟨0, by simp, h⟩
      · exact ⟨i + 1, by simp; omega, by simpa [Nat.add_assoc, Nat.add_comm 1 i] using h⟩
    · rintro ⟨i, hi, h⟩
      cases i with
      | zero => exact .inl h
      | succ i => exact .inr ⟨i, by simpa using hi, by simpa [Nat.add_assoc, Nat.add_comm 1 i] using h⟩

theorem aExtras_solves {β : Nat → Nat → Bool} {P : Problem} :
    ASolves β (aExtras 1 P.doms) ↔
      ∀ v, 1 ≤ v → v ≤ P.numVars → ∃ k, k < P.dom v ∧ ∀ j, j < P.dom v → (β v j = true ↔ j = k) := by
  have hd : ∀ i, (h : i < P.doms.length) → P.dom (1 + i) = P.doms[i] := by
    intro i h
    rw [Nat.add_comm]
    simp [Problem.dom, List.getD_eq_getElem?_getD, List.getElem?_eq_getElem h]
  constructor
  · intro h v h1 h2
    obtain ⟨i, rfl⟩ : ∃ i, v = 1 + i := ⟨v - 1, by omega⟩
    have hi : i < P.doms.length := by have : 1 + i ≤ P.doms.length := h2; omega
    rw [hd i hi]
    refine aExtra_iff.1 ?_
    intro c hc
    exact h c ((mem_aExtras 1 P.doms).2 ⟨i, hi, hc⟩)
  · intro h c hc
    obtain ⟨i, hi, hc⟩ := (mem_aExtras 1 P.doms).1 hc
    have := h (1 + i) (by omega) (by show 1 + i ≤ P.doms.length; omega)
    rw [hd i hi] at this
    exact aExtra_iff.2 this c hc

end Mvl
