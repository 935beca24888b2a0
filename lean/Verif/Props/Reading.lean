import Verif.Props.Orig
import Verif.Props.BitVec
import Verif.Props.Pipeline

/-!
# Which files can be read

C85: building the formula stays inside the arrays exactly when every clause names only variables declared before it and
values of their domains.  C31, C66:
`-b2f` and a solver on a formula that leaves out a variable.
-/

namespace Mvl

variable {S : Type}

/-! ## C85 -/

/-- The literal names a variable of the list, numbered from 1, and one of its values. -/
def Named (ds : List Nat) (l : Lit) : Prop := 1 ≤ l.var ∧ ∃ d, ds[l.var - 1]? = some d ∧ l.val < d

/-- Every clause is `ok` for the domains declared before it; `ds`: those declared so far. -/
def Lines (ok : List Nat → List Lit → Prop) : List Nat → List Item → Prop
  | _, [] => True
  | ds, .dom d :: is => Lines ok (ds ++ [d]) is
  | ds, .clause c :: is => ok ds c ∧ Lines ok ds is

/-- The arrays have the declared sizes. -/
structure Sizes (nv : Nat) (dom : Nat → Nat) (ds : List Nat) : Prop where
  nv   : nv = ds.length
  zero : dom 0 = 0
  dom  : ∀ v, v < ds.length → ds[v]? = some (dom (v + 1))

theorem Sizes.push {nv : Nat} {dom : Nat → Nat} {ds : List Nat} (h : Sizes nv dom ds) (d : Nat) :
    Sizes (nv + 1) (upd dom (nv + 1) d) (ds ++ [d]) := by
  refine ⟨by rw [h.nv]; simp, by rw [upd_of_ne _ _ (by omega)]; exact h.zero, fun v hv => ?_⟩
  have hn := h.nv
  simp at hv
  by_cases e : v = ds.length
  · subst e
    rw [hn, upd_same]; simp
  · rw [upd_of_ne _ _ (by omega), List.getElem?_append_left (by omega)]
    exact h.dom v (by omega)

theorem Sizes.named {nv : Nat} {dom : Nat → Nat} {ds : List Nat} (h : Sizes nv dom ds) (l : Lit) :
    (l.var ≤ nv ∧ l.val < dom l.var) ↔ Named ds l := by
  have hn := h.nv
  constructor
  · rintro ⟨h1, h2⟩
    have h0 : 1 ≤ l.var := by
      rcases Nat.eq_zero_or_pos l.var with e | e
      · rw [e, h.zero] at h2; omega
      · exact e
    refine ⟨h0, dom l.var, ?_, h2⟩
    have := h.dom (l.var - 1) (by omega)
    rw [this, show l.var - 1 + 1 = l.var by omega]
  · rintro ⟨h0, d, h1, h2⟩
    obtain ⟨hl, _⟩ := List.getElem?_eq_some_iff.1 h1
    have := h.dom (l.var - 1) hl
    rw [h1, show l.var - 1 + 1 = l.var by omega] at this
    cases this
    exact ⟨by omega, h2⟩

/-- Reading succeeds or ends with an invalid access; it always ends. -/
theorem addClause_cases (cfg : Cfg S) (s : St S) (c : List Lit) :
    (∃ s', addClause cfg s c = .ok s' ∧ s'.nv = s.nv ∧ s'.dom = s.dom ∧ c.all (litInRange s) = true ∧
      (cfg.watch = true → c ≠ [])) ∨
    (addClause cfg s c = .ub ∧ ¬ (c.all (litInRange s) = true ∧ (cfg.watch = true → c ≠ []))) := by
  by_cases hr : c.all (litInRange s) = true
  · by_cases hne : cfg.watch = true → c ≠ []
    · refine .inl ⟨_, addClause_eq cfg s c hr hne, ?_, ?_, hr, hne⟩
      all_goals
        obtain ⟨w, e⟩ := watchCls_frame cfg (storeCls cfg (c.foldl (addLit cfg) s) c) c (c.foldl (addLit cfg) s).ncl
        obtain ⟨u, e2⟩ := storeCls_frame cfg (c.foldl (addLit cfg) s) c
        obtain ⟨⟨c1, sc1, r1, e1⟩, _⟩ := addLits cfg c s
        rw [e, e2, e1]
    · refine .inr ⟨?_, fun h => hne h.2⟩
      have : cfg.watch = true ∧ c = [] := by
        apply Classical.byContradiction
        intro hn
        exact hne fun hw hc => hn ⟨hw, hc⟩
      obtain ⟨hw, rfl⟩ := this
      unfold addClause
      rw [if_pos hr, hw]; rfl
  · refine .inr ⟨?_, fun h => hr h.1⟩
    unfold addClause
    rw [if_neg hr]

/-- What the solver needs of a clause line. -/
def Readable (watch : Bool) (ds : List Nat) (c : List Lit) : Prop :=
  (∀ l ∈ c, Named ds l) ∧ (watch = true → c ≠ [])

theorem buildItems_lines {cfg : Cfg S} : ∀ (is : List Item) (s : St S) (ds : List Nat), Sizes s.nv s.dom ds →
    (Lines (Readable cfg.watch) ds is → ∃ s', buildItems cfg is s = .ok s') ∧
    (¬ Lines (Readable cfg.watch) ds is → buildItems cfg is s = .ub)
  | [], s, ds, _ => ⟨fun _ => ⟨s, rfl⟩, fun h => absurd trivial h⟩
  | .dom d :: is, s, ds, h => buildItems_lines is (addVar s d) (ds ++ [d]) (h.push d)
  | .clause c :: is, s, ds, h => by
    have hall : c.all (litInRange s) = true ↔ ∀ l ∈ c, Named ds l := by
      rw [List.all_eq_true]
      exact forall_congr' fun l => imp_congr_right fun _ => by
        rw [← h.named]; unfold litInRange; simp
    unfold Lines buildItems Readable
    rcases addClause_cases cfg s c with ⟨s', e, e1, e2, h1, h2⟩ | ⟨e, h1⟩
    · rw [e, Res.ok_bind]
      obtain ⟨i1, i2⟩ := buildItems_lines is s' ds (by rw [e1, e2]; exact h)
      exact ⟨fun g => i1 g.2, fun g => i2 fun g' => g ⟨⟨hall.1 h1, h2⟩, g'⟩⟩
    · rw [e, Res.ub_bind]
      rw [hall] at h1
      exact ⟨fun g => absurd g.1 h1, fun _ => rfl⟩

theorem initSt_sizes (cfg : Cfg S) : Sizes (initSt cfg).nv (initSt cfg).dom [] := ⟨rfl, rfl, fun _ h => by cases h⟩

/-- **C85.** Whatever the file and the settings: the formula is built when every clause names only variables declared
before it and values of their domains, and with `-wl` no clause is empty; otherwise a variable or value that does not
exist is accessed, and nothing in the solver prevents it. -/
theorem C85_reading {cs : List Char} {is : List Item} (hread : readFile cs = .ok is) (cfg : Cfg S) :
    (Lines (Readable cfg.watch) [] is → ∃ s, buildFile cfg cs = .ok s) ∧
    (¬ Lines (Readable cfg.watch) [] is → ∀ algo fuel, solveFile cfg algo fuel cs = .ub) := by
  obtain ⟨h1, h2⟩ := buildItems_lines (cfg := cfg) is (initSt cfg) [] (initSt_sizes cfg)
  refine ⟨fun h => ?_, fun h algo fuel => ?_⟩
  · unfold buildFile
    rw [hread, Res.ok_bind]
    exact h1 h
  · unfold solveFile buildFile
    rw [hread, Res.ok_bind, h2 h, Res.ub_bind]

example : readFile "d 1 2\n1=1 2=0 0\nd 2 2\n".toList = .ok [.dom 2, .clause [⟨1, 1, true⟩, ⟨2, 0, true⟩], .dom 2] ∧
    ¬ Lines (Readable false) [] [.dom 2, .clause [⟨1, 1, true⟩, ⟨2, 0, true⟩], .dom 2] := by
  refine ⟨by decide +kernel, fun h => ?_⟩
  obtain ⟨_, d, h1, _⟩ := h.1.1 ⟨2, 0, true⟩ (by simp)
  simp at h1

example : Lines (Readable true) [] [.dom 2, .clause [⟨1, 1, true⟩], .dom 3, .clause [⟨2, 2, false⟩, ⟨1, 0, true⟩]] := by
  simp [Lines, Readable, Named]

namespace Orig

theorem buildItems_lines : ∀ (is : List Item) (s : OSt) (ds : List Nat), Sizes s.nv s.dom ds →
    (Lines (Readable false) ds is → ∃ s', buildItems is s = .ok s') ∧
    (¬ Lines (Readable false) ds is → buildItems is s = .ub)
  | [], s, ds, _ => ⟨fun _ => ⟨s, rfl⟩, fun h => absurd trivial h⟩
  | .dom d :: is, s, ds, h => buildItems_lines is (addVar s d) (ds ++ [d]) (h.push d)
  | .clause c :: is, s, ds, h => by
    have hall : c.all (litInRange s) = true ↔ ∀ l ∈ c, Named ds l := by
      rw [List.all_eq_true]
      exact forall_congr' fun l => imp_congr_right fun _ => by
        rw [← h.named]; unfold litInRange; simp
    have hf : ∀ (c : List Lit) (s : OSt), (c.foldl addLit s).nv = s.nv ∧ (c.foldl addLit s).dom = s.dom := by
      intro c
      induction c with
      | nil => intro s; exact ⟨rfl, rfl⟩
      | cons l c ih => intro s; exact ih (addLit s l)
    unfold Lines buildItems Readable addClause
    by_cases hr : c.all (litInRange s) = true
    · rw [if_pos hr]
      dsimp only
      rw [Res.ok_bind]
      obtain ⟨i1, i2⟩ := buildItems_lines is { c.foldl addLit s with
          cls := upd (c.foldl addLit s).cls (c.foldl addLit s).ncl ⟨c, false, c.length, -1⟩,
          ncl := (c.foldl addLit s).ncl + 1 } ds (by
        show Sizes (c.foldl addLit s).nv (c.foldl addLit s).dom ds
        rw [(hf c s).1, (hf c s).2]; exact h)
      exact ⟨fun g => i1 g.2, fun g => i2 fun g' => g ⟨⟨hall.1 hr, fun e => by cases e⟩, g'⟩⟩
    · rw [if_neg hr, Res.ub_bind]
      exact ⟨fun g => absurd (hall.2 g.1.1) hr, fun _ => rfl⟩

/-- **C85** for the original solver. -/
theorem C85_original_reading {cs : List Char} {nvars nclauses : Int} {is : List Item}
    (hread : readFile nvars nclauses cs = .ok (some is)) (cfg : OCfg) :
    (Lines (Readable false) [] is → ∃ s, buildItems is (init cfg) = .ok s) ∧
    (¬ Lines (Readable false) [] is → ∀ m fuel, solveFile cfg m fuel nvars nclauses cs = .ub) := by
  obtain ⟨h1, h2⟩ := buildItems_lines is (init cfg) [] ⟨rfl, rfl, fun _ h => by cases h⟩
  refine ⟨h1, fun h m fuel => ?_⟩
  unfold solveFile
  rw [hread, Res.ok_bind]
  dsimp only
  rw [h2 h, Res.ub_bind]

end Orig

namespace BV

/-- What the bit-vector solver needs of a clause line; the number 0 names its dummy variable. -/
def BReadable (ds : List Nat) (c : List Lit) : Prop := c ≠ [] ∧ ∀ l ∈ c, l.var ≤ ds.length ∧ l.val < 64

theorem addAtom_var {n : Nat} {a : BLit} : ∀ {acc : List BLit}, (∀ l ∈ addAtom acc a, l.var ≤ n) ↔
    (∀ l ∈ acc, l.var ≤ n) ∧ a.var ≤ n
  | [] => by simp [addAtom]
  | l :: ls => by
    unfold addAtom
    split
    · rename_i h
      simp only [List.forall_mem_cons, h]
      exact ⟨fun h => ⟨h, h.1⟩, fun h => h.1⟩
    · simp only [List.forall_mem_cons, addAtom_var (acc := ls), and_assoc]

theorem addAtom_ne_nil (acc : List BLit) (a : BLit) : addAtom acc a ≠ [] := by
  cases acc with
  | nil => simp [addAtom]
  | cons l ls => unfold addAtom; split <;> simp

/-- The words of a clause line. -/
theorem readLits_cases (s : BSt S) : ∀ (ls : List Lit) (acc : List BLit),
    (∃ c, readLits s acc ls = .ok c ∧ (c = [] ↔ acc = [] ∧ ls = []) ∧ (∀ l ∈ ls, l.val < 64) ∧
      ((∀ l ∈ c, l.var ≤ s.nv) ↔ (∀ l ∈ acc, l.var ≤ s.nv) ∧ ∀ l ∈ ls, l.var ≤ s.nv)) ∨
    (readLits s acc ls = .ub ∧ ¬ ∀ l ∈ ls, l.var ≤ s.nv ∧ l.val < 64)
  | [], acc => .inl ⟨acc, rfl, by simp, by simp, by simp⟩
  | l :: ls, acc => by
    unfold readLits
    have key : ∀ b : BLit, b.var = l.var → l.val < 64 →
        (∃ c, (Res.ok b >>= fun a => readLits s (addAtom acc a) ls) = .ok c ∧ (c = [] ↔ acc = [] ∧ l :: ls = []) ∧
          (∀ x ∈ l :: ls, x.val < 64) ∧
          ((∀ x ∈ c, x.var ≤ s.nv) ↔ (∀ x ∈ acc, x.var ≤ s.nv) ∧ ∀ x ∈ l :: ls, x.var ≤ s.nv)) ∨
        ((Res.ok b >>= fun a => readLits s (addAtom acc a) ls) = .ub ∧ ¬ ∀ x ∈ l :: ls, x.var ≤ s.nv ∧ x.val < 64) := by
      intro b hb hv
      rw [Res.ok_bind]
      rcases readLits_cases s ls (addAtom acc b) with ⟨c, e, h1, h2, h3⟩ | ⟨e, h1⟩
      · refine .inl ⟨c, e, ?_, by rw [List.forall_mem_cons]; exact ⟨hv, h2⟩, ?_⟩
        · rw [h1]; simp [addAtom_ne_nil]
        · rw [h3, addAtom_var, hb, List.forall_mem_cons, and_assoc]
      · exact .inr ⟨e, fun h => h1 fun x hx => h x (List.mem_cons_of_mem _ hx)⟩
    unfold readLit
    by_cases hv : l.val < 64
    · rw [if_pos hv]
      split
      · exact key _ rfl hv
      · by_cases hl : l.var ≤ s.nv
        · rw [if_pos hl]; exact key _ rfl hv
        · rw [if_neg hl, Res.ub_bind]
          exact .inr ⟨rfl, fun h => hl (h l List.mem_cons_self).1⟩
    · rw [if_neg hv, Res.ub_bind]
      exact .inr ⟨rfl, fun h => hv (h l List.mem_cons_self).2⟩

theorem baddClause_cases (A : ScoreArith S) (s : BSt S) (c : List Lit) {ds : List Nat} (hn : s.nv = ds.length) :
    (∃ s', baddClause A s c = .ok s' ∧ s'.nv = s.nv ∧ BReadable ds c) ∨ (baddClause A s c = .ub ∧ ¬ BReadable ds c) := by
  have hb : ∀ (c : List BLit) (s : BSt S), (c.foldl (bbump A) s).nv = s.nv := by
    intro c
    induction c with
    | nil => intro s; rfl
    | cons l c ih => intro s; exact ih (bbump A s l)
  unfold baddClause
  rcases readLits_cases s c [] with ⟨b, e, h1, h2, h3⟩ | ⟨e, h1⟩
  · rw [e, Res.ok_bind]
    by_cases ha : (b.all fun l => l.var ≤ s.nv) = true
    · rw [if_pos ha]
      have ha' : ∀ l ∈ b, l.var ≤ s.nv := by simpa using ha
      have hc := (h3.1 ha').2
      dsimp only
      cases b with
      | nil => exact .inr ⟨rfl, fun h => h.1 (h1.1 rfl).2⟩
      | cons a b =>
        have hne : c ≠ [] := fun h => by have := h1.2 ⟨rfl, h⟩; cases this
        have hR : BReadable ds c := ⟨hne, fun l hl => ⟨by rw [← hn]; exact hc l hl, h2 l hl⟩⟩
        cases b with
        | nil => exact .inl ⟨_, rfl, hb _ _, hR⟩
        | cons a' b => exact .inl ⟨_, rfl, hb _ _, hR⟩
    · rw [if_neg ha]
      refine .inr ⟨rfl, fun h => ha ?_⟩
      have := h3.2 ⟨by simp, fun l hl => by rw [hn]; exact (h.2 l hl).1⟩
      simpa using this
  · rw [e, Res.ub_bind]
    exact .inr ⟨rfl, fun h => h1 fun l hl => by rw [hn]; exact h.2 l hl⟩

theorem bbuildItems_lines (A : ScoreArith S) : ∀ (is : List Item) (s : BSt S) (ds : List Nat), s.nv = ds.length →
    ((∀ d, Item.dom d ∈ is → d ≤ 64) ∧ Lines BReadable ds is → ∃ s', bbuildItems A is s = .ok s') ∧
    (¬ ((∀ d, Item.dom d ∈ is → d ≤ 64) ∧ Lines BReadable ds is) → bbuildItems A is s = .ub)
  | [], s, ds, _ => ⟨fun _ => ⟨s, rfl⟩, fun h => absurd ⟨(fun _ h => by cases h), trivial⟩ h⟩
  | .dom d :: is, s, ds, h => by
    unfold bbuildItems baddVar Lines
    by_cases hd : d ≤ 64
    · rw [if_pos hd, Res.ok_bind]
      obtain ⟨i1, i2⟩ := bbuildItems_lines A is
        { s with nv := s.nv + 1, size := upd s.size (s.nv + 1) d, cur := upd s.cur (s.nv + 1) (full d) } (ds ++ [d])
        (by simp [h])
      refine ⟨fun g => i1 ⟨fun e he => g.1 e (List.mem_cons_of_mem _ he), g.2⟩, fun g => i2 fun g' => g ⟨?_, g'.2⟩⟩
      intro e he
      rcases List.mem_cons.1 he with he | he
      · cases he; exact hd
      · exact g'.1 e he
    · rw [if_neg hd, Res.ub_bind]
      exact ⟨fun g => absurd (g.1 d List.mem_cons_self) hd, fun _ => rfl⟩
  | .clause c :: is, s, ds, h => by
    unfold bbuildItems Lines
    have hm : (∀ d, Item.dom d ∈ Item.clause c :: is → d ≤ 64) ↔ ∀ d, Item.dom d ∈ is → d ≤ 64 := by simp
    rw [hm]
    rcases baddClause_cases A s c h with ⟨s', e, e1, h1⟩ | ⟨e, h1⟩
    · rw [e, Res.ok_bind]
      obtain ⟨i1, i2⟩ := bbuildItems_lines A is s' ds (by rw [e1, h])
      exact ⟨fun g => i1 ⟨g.1, g.2.2⟩, fun g => i2 fun g' => g ⟨g'.1, h1, g'.2⟩⟩
    · rw [e, Res.ub_bind]
      exact ⟨fun g => absurd g.2.1 h1, fun _ => rfl⟩

/-- **C85** for the bit-vector solver: domains have at most 64 values, values are below 64, the variables are declared
before they are used, and no clause is empty. -/
theorem C85_bitvec_reading {cs : List Char} {is : List Item} (hread : readFile cs = .ok is) (cfg : BCfg S) :
    ((∀ d, Item.dom d ∈ is → d ≤ 64) ∧ Lines BReadable [] is → ∃ s, bbuildItems cfg.arith is (binit cfg.arith) = .ok s) ∧
    (¬ ((∀ d, Item.dom d ∈ is → d ≤ 64) ∧ Lines BReadable [] is) → ∀ fuel, bsolveFile cfg fuel cs = .ub) := by
  obtain ⟨h1, h2⟩ := bbuildItems_lines cfg.arith is (binit cfg.arith) [] rfl
  refine ⟨h1, fun h fuel => ?_⟩
  unfold bsolveFile
  rw [hread, Res.ok_bind, h2 h, Res.ub_bind]

example : Lines BReadable [] [.dom 2, .clause [⟨1, 1, true⟩], .dom 3, .clause [⟨2, 63, false⟩, ⟨1, 0, true⟩]] ∧
    ¬ Lines BReadable [] [.dom 2, .clause []] := by
  simp [Lines, BReadable]

end BV

/-- **C20**, `-wl`: every file with an empty clause makes the solver access a literal that does not exist. -/
theorem C20_watch_empty {cfg : Cfg S} (hw : cfg.watch = true) {cs : List Char} {is : List Item}
    (hread : readFile cs = .ok is) (hempty : Item.clause [] ∈ is) (algo : Algo) (fuel : Nat) :
    solveFile cfg algo fuel cs = .ub := by
  refine (C85_reading hread cfg).2 (fun h => ?_) algo fuel
  have key : ∀ (is : List Item) (ds : List Nat), Lines (Readable cfg.watch) ds is → Item.clause [] ∉ is := by
    intro is
    induction is with
    | nil => intro _ _ hm; cases hm
    | cons i is ih =>
      intro ds h hm
      cases i with
      | dom d =>
        rcases List.mem_cons.1 hm with e | hm
        · cases e
        · exact ih _ h hm
      | clause c =>
        rcases List.mem_cons.1 hm with e | hm
        · cases e
          exact h.1.2 hw rfl
        · exact ih _ h.2 hm
  exact key is [] h hempty

example : readFile "d 1 3\n\n1=2 0\n".toList = .ok [.dom 3, .clause [], .clause [⟨1, 2, true⟩]] := by decide +kernel

/-! ## C31 and C66 on formulas that leave out a variable -/

theorem lines_doms {ok : List Nat → List Lit → Prop} : ∀ (es ds : List Nat) (cs : List (List Lit)),
    Lines ok ds (es.map .dom ++ cs.map .clause) ↔ ∀ c ∈ cs, ok (ds ++ es) c
  | [], ds, cs => by
    rw [List.append_nil, List.map_nil, List.nil_append]
    induction cs with
    | nil => simp [Lines]
    | cons c cs ih => simp [Lines, ih]
  | e :: es, ds, cs => by
    rw [List.map_cons, List.cons_append]
    unfold Lines
    rw [lines_doms es (ds ++ [e]) cs]
    simp

/-- A file of the documented form: domains first. -/
theorem lines_items {ok : List Nat → List Lit → Prop} {P : Problem} : Lines ok [] P.items ↔ ∀ c ∈ P.clauses, ok P.doms c := by
  unfold Problem.items
  rw [lines_doms, List.nil_append]

/-- For every formula whose variables are not the numbers from 1 to some `N`, all solvers access a variable that does not
exist. -/
theorem b2f_gap {ls : List RLine} (h : ∀ l ∈ ls, l.Ok) (hz : ∃ l ∈ ls, l.ended = true)
    (hs : ∀ c ∈ rClauses ls, (openClauseText (finClause c)).length < 3000)
    (hg : ¬ ∃ N, ∀ v, BUses (rClauses ls) v ↔ 1 ≤ v ∧ v ≤ N) :
    ∃ out, boolean2Finite (rText ls) = .ok out ∧
      (∀ (S : Type) (cfg : Cfg S) (algo : Algo) (fuel : Nat), solveFile cfg algo fuel out = .ub) ∧
      (∀ (S : Type) (cfg : BV.BCfg S) (fuel : Nat), BV.bsolveFile cfg fuel out = .ub) := by
  have hb := rWellFormed h
  obtain ⟨out, used, e, h1, h2, h3⟩ := b2f_read_used h hz hs
  obtain ⟨v, hv, hlt⟩ := sorted_gap h1 (fun v hv => by
    obtain ⟨c, hc, x, hx, rfl⟩ := (h2 v).1 hv
    have := (hb c hc x hx).1
    omega) (fun ⟨N, hN⟩ => hg ⟨N, fun v => (h2 v).symm.trans (hN v)⟩)
  obtain ⟨c, hc, x, hx, rfl⟩ := (h2 v).1 hv
  have hc' : finClause c ∈ (finProblem used.length (rClauses ls)).clauses := List.mem_map.2 ⟨c, hc, rfl⟩
  have hl : (⟨x.natAbs, if x < 0 then 0 else 1, true⟩ : Lit) ∈ finClause c := List.mem_map.2 ⟨x, hx, rfl⟩
  have hd : (finProblem used.length (rClauses ls)).doms.length = used.length := by simp [finProblem]
  refine ⟨out, e, fun S cfg algo fuel => (C85_reading h3 cfg).2 (fun hL => ?_) algo fuel,
    fun S cfg fuel => (BV.C85_bitvec_reading h3 cfg).2 (fun hL => ?_) fuel⟩
  · obtain ⟨_, d, g1, _⟩ := (lines_items.1 hL _ hc').1 _ hl
    obtain ⟨g, _⟩ := List.getElem?_eq_some_iff.1 g1
    rw [hd] at g
    dsimp only at g
    omega
  · have g := ((lines_items.1 hL.2 _ hc').2 _ hl).1
    rw [hd] at g
    dsimp only at g
    omega

/-- The line of a DIMACS file as a line of integers. -/
def BLine.toR : BLine → RLine
  | .clause c => .ints c true (BLine.text (.clause c))
  | l => .head l

theorem toR_text (ls : List BLine) : rText (ls.map BLine.toR) = bFileText ls := by
  unfold rText bFileText
  rw [List.flatMap_map]
  congr 1
  funext l
  cases l <;> rfl

theorem toR_clauses (ls : List BLine) : rClauses (ls.map BLine.toR) = bClauses ls := by
  unfold rClauses bClauses
  rw [List.filterMap_map]
  congr 1
  funext l
  cases l <;> rfl

theorem toR_ok {l : BLine} (h : l.Ok) : l.toR.Ok := by
  cases l with
  | comment t => exact ⟨h.1, h, fun c e => by cases e⟩
  | problem n m => exact ⟨h.1, h, fun c e => by cases e⟩
  | clause c =>
    refine ⟨h.1, ?_, words_ints c, h.2⟩
    intro ch hch
    rcases List.mem_append.1 hch with hch | hch
    · obtain ⟨x, _, hch⟩ := List.mem_flatMap.1 hch
      rcases List.mem_append.1 hch with hch | hch
      · exact intText_numeric x ch hch
      · exact .inr (.inr (List.mem_singleton.1 hch))
    · rw [List.mem_singleton] at hch
      subst hch
      exact .inl (by decide)

/-- **C31, C66 do not hold** for any formula whose variables are not the numbers from 1 to some `N` (the full claims: the
converted file can be read, and is answered correctly): no solver reaches its search. -/
theorem C31_gap_fails {ls : List BLine} (h : ∀ l ∈ ls, l.Ok) (hc : bClauses ls ≠ [])
    (hs : ∀ c ∈ bClauses ls, (openClauseText (finClause c)).length < 3000)
    (hg : ¬ ∃ N, ∀ v, BUses (bClauses ls) v ↔ 1 ≤ v ∧ v ≤ N) :
    ∃ out, boolean2Finite (bFileText ls) = .ok out ∧
      (∀ (S : Type) (cfg : Cfg S) (algo : Algo) (fuel : Nat), solveFile cfg algo fuel out = .ub) ∧
      (∀ (S : Type) (cfg : BV.BCfg S) (fuel : Nat), BV.bsolveFile cfg fuel out = .ub) := by
  have hz : ∃ l ∈ ls.map BLine.toR, l.ended = true := by
    cases hc' : bClauses ls with
    | nil => exact absurd hc' hc
    | cons c cs =>
      have : c ∈ bClauses ls := by rw [hc']; exact List.mem_cons_self
      obtain ⟨l, hl, e⟩ := List.mem_filterMap.1 this
      refine ⟨l.toR, List.mem_map.2 ⟨l, hl, rfl⟩, ?_⟩
      cases l with
      | clause c' => rfl
      | comment t => cases e
      | problem n m => cases e
  have := b2f_gap (ls := ls.map BLine.toR) (fun l hl => by
    obtain ⟨b, hb, rfl⟩ := List.mem_map.1 hl
    exact toR_ok (h b hb)) hz (by rw [toR_clauses]; exact hs) (by rw [toR_clauses]; exact hg)
  rw [toR_text] at this
  exact this

example : ¬ ∃ N, ∀ v, BUses (bClauses [.problem 4 2, .clause [1, -2], .clause [4, 2]]) v ↔ 1 ≤ v ∧ v ≤ N := by
  rintro ⟨N, h⟩
  have h4 := (h 4).1 ⟨[4, 2], by simp [bClauses], 4, by simp, rfl⟩
  obtain ⟨c, hc, x, hx, e⟩ := (h 3).2 (by omega)
  revert x
  revert c
  decide

end Mvl
