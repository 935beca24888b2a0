import Verif.Model.GenBen
import Verif.SpecBool

/-!
# What the random benchmark generators draw and write

Every function of `Model/GenBen.lean` in turn, for every sequence of random numbers on which it ends.
-/

namespace Mvl

variable {c : CommandLine} {r : Nat → Nat}

theorem randMod_ok {i : Nat} {m : Int} {p : Int × Nat} (h : randMod r i m = .ok p) :
    m ≠ 0 ∧ 0 ≤ p.1 ∧ (0 < m → p.1 < m) := by
  unfold randMod at h
  split at h
  · cases h
  · rename_i hm
    cases h
    refine ⟨hm, Int.tmod_nonneg _ (Int.natCast_nonneg _), fun hp => ?_⟩
    exact Int.tmod_lt_of_pos _ hp

theorem arrGet_ok {a : List Int} {i x : Int} (h : arrGet a i = .ok x) : 0 ≤ i ∧ a[i.toNat]? = some x := by
  unfold arrGet at h
  split at h
  · cases h
  · split at h
    · rename_i e
      cases h
      exact ⟨by omega, e⟩
    · cases h

theorem finDomain_ok {i : Nat} {p : Int × Nat} (h : finDomain c r i = .ok p) :
    (c.DRAND = false → p.1 = c.DOMAIN_SIZE) ∧ (c.DRAND = true → 0 ≤ p.1 ∧ (0 < c.DOMAIN_SIZE → p.1 < c.DOMAIN_SIZE)) := by
  unfold finDomain at h
  split at h
  · rename_i e
    exact ⟨fun e' => (Bool.false_ne_true (e'.symm.trans e)).elim, fun _ => (randMod_ok h).2⟩
  · rename_i e
    cases h
    exact ⟨fun _ => rfl, fun e' => (e e').elim⟩

theorem finDomains_ok : ∀ {n i : Nat} {p : List Int × Nat}, finDomains c r n i = .ok p →
    p.1.length = n ∧ (∀ d ∈ p.1, (c.DRAND = false → d = c.DOMAIN_SIZE) ∧
      (c.DRAND = true → 0 ≤ d ∧ (0 < c.DOMAIN_SIZE → d < c.DOMAIN_SIZE)))
  | 0, i, p, h => by
    cases h
    exact ⟨rfl, fun d hd => nomatch hd⟩
  | n + 1, i, p, h => by
    unfold finDomains at h
    obtain ⟨q, h1, h⟩ := Res.bind_eq_ok.1 h
    obtain ⟨q', h2, h⟩ := Res.bind_eq_ok.1 h
    cases h
    have e := finDomain_ok h1
    have e' := finDomains_ok h2
    refine ⟨by simp [e'.1], fun d hd => ?_⟩
    rcases List.mem_cons.1 hd with rfl | hd
    · exact e
    · exact e'.2 d hd

theorem finSolution_ok : ∀ {ds : List Int} {i : Nat} {p : List Int × Nat}, finSolution r ds i = .ok p →
    ∀ (j : Nat) (d : Int), ds[j]? = some d → d ≠ 0 ∧ ∃ k, p.1[j]? = some k ∧ 0 ≤ k ∧ (0 < d → k < d)
  | [], i, p, h => fun j d e => by simp at e
  | d :: ds, i, p, h => by
    unfold finSolution at h
    obtain ⟨q, h1, h⟩ := Res.bind_eq_ok.1 h
    obtain ⟨q', h2, h⟩ := Res.bind_eq_ok.1 h
    cases h
    have e := randMod_ok h1
    intro j d' hd
    cases j with
    | zero =>
      simp only [List.getElem?_cons_zero, Option.some.injEq] at hd ⊢
      subst hd
      exact ⟨e.1, q.1, rfl, e.2⟩
    | succ j =>
      simp only [List.getElem?_cons_succ] at hd ⊢
      exact finSolution_ok h2 j d' hd

theorem finPass_ok : ∀ {zs : List Int} {v : Int} {i : Nat} {p : (Int × Nat) × Bool}, finPass c r zs v i = .ok p →
    (p.2 = false → p.1.1 = v ∧ v ∉ zs) ∧ (p.2 = true → 0 ≤ p.1.1 ∧ (0 < c.NUM_VAR → p.1.1 < c.NUM_VAR))
  | [], v, i, p, h => by
    cases h
    exact ⟨fun _ => ⟨rfl, List.not_mem_nil⟩, fun h => nomatch h⟩
  | z :: zs, v, i, p, h => by
    unfold finPass at h
    split at h
    · obtain ⟨q, h1, h⟩ := Res.bind_eq_ok.1 h
      cases h
      exact ⟨fun h => (nomatch h), fun _ => (randMod_ok h1).2⟩
    · rename_i ne
      have e := finPass_ok h
      refine ⟨fun hp => ⟨(e.1 hp).1, ?_⟩, e.2⟩
      intro hm
      rcases List.mem_cons.1 hm with hm | hm
      · exact ne hm
      · exact (e.1 hp).2 hm

theorem finFresh_ok : ∀ {fuel : Nat} {zs : List Int} {v : Int} {i : Nat} {p : Int × Nat},
    finFresh c r fuel zs v i = .ok p → 0 ≤ v ∧ (0 < c.NUM_VAR → v < c.NUM_VAR) →
    p.1 ∉ zs ∧ 0 ≤ p.1 ∧ (0 < c.NUM_VAR → p.1 < c.NUM_VAR)
  | 0, zs, v, i, p, h, _ => nomatch h
  | fuel + 1, zs, v, i, p, h, hv => by
    unfold finFresh at h
    obtain ⟨⟨q, b⟩, h1, h⟩ := Res.bind_eq_ok.1 h
    have e := finPass_ok h1
    cases b with
    | true =>
      simp only [if_true] at h
      exact finFresh_ok h (e.2 rfl)
    | false =>
      simp only [Bool.false_eq_true, if_false] at h
      cases h
      have e' := e.1 rfl
      dsimp only at e'
      rw [e'.1]
      exact ⟨e'.2, hv⟩

/-- What is known about a literal of a generated clause. -/
structure FinOk (c : CommandLine) (doms : List Int) (l : Int × Int) : Prop where
  var  : 0 ≤ l.1
  lt   : l.1 < c.NUM_VAR
  val  : 0 ≤ l.2
  dom  : ∃ d, doms[l.1.toNat]? = some d ∧ l.2 < d

theorem finLit_ok {fuel : Nat} {doms soln : List Int} {done : List (Int × Int)} {i : Nat} {p : (Int × Int) × Nat}
    (hn : 0 ≤ c.NUM_VAR) (hl : doms.length = c.NUM_VAR.toNat) (hd : ∀ d ∈ doms, 0 < d)
    (hs : ∀ (j : Nat) (d : Int), doms[j]? = some d → d ≠ 0 ∧ ∃ k, soln[j]? = some k ∧ 0 ≤ k ∧ (0 < d → k < d))
    (h : finLit c r fuel doms soln done i = .ok p) :
    FinOk c doms p.1 ∧ p.1.1 ∉ done.map Prod.fst ∧
      (c.SAT_UNSAT = true → done = [] → soln[p.1.1.toNat]? = some p.1.2) := by
  unfold finLit at h
  split at h
  · rename_i hc
    simp only [Bool.and_eq_true, beq_iff_eq] at hc
    have he : done = [] := List.eq_nil_of_length_eq_zero hc.2
    unfold finFirst at h
    obtain ⟨q, h1, h⟩ := Res.bind_eq_ok.1 h
    obtain ⟨k, h2, h⟩ := Res.bind_eq_ok.1 h
    cases h
    have e := randMod_ok h1
    have hv : q.1 < c.NUM_VAR := e.2.2 (by omega)
    have hlt : q.1.toNat < doms.length := by omega
    have hg : doms[q.1.toNat]? = some doms[q.1.toNat] := List.getElem?_eq_getElem hlt
    obtain ⟨_, k', hk, hk0, hkd⟩ := hs _ _ hg
    have e2 := (arrGet_ok h2).2
    have : k' = k := Option.some.inj (hk.symm.trans e2)
    subst this
    refine ⟨⟨e.2.1, hv, hk0, _, hg, hkd (hd _ (List.getElem_mem hlt))⟩, ?_, fun _ _ => e2⟩
    rw [he]
    exact List.not_mem_nil
  · rename_i hc
    unfold finOther at h
    obtain ⟨q, h1, h⟩ := Res.bind_eq_ok.1 h
    obtain ⟨q2, h2, h⟩ := Res.bind_eq_ok.1 h
    obtain ⟨d, h3, h⟩ := Res.bind_eq_ok.1 h
    obtain ⟨q4, h4, h⟩ := Res.bind_eq_ok.1 h
    cases h
    have e := randMod_ok h1
    have e2 := finFresh_ok h2 e.2
    have e3 := arrGet_ok h3
    have e4 := randMod_ok h4
    have hd' : 0 < d := hd _ (List.mem_of_getElem? e3.2)
    refine ⟨⟨e2.2.1, e2.2.2 (by omega), e4.2.1, d, e3.2, e4.2.2 hd'⟩, e2.1, fun hs he => ?_⟩
    rw [hs, he] at hc
    exact (hc rfl).elim

/-- What is known about a generated clause, or the beginning of one. -/
structure FinClauseOk (c : CommandLine) (doms soln : List Int) (cl : List (Int × Int)) : Prop where
  lits  : ∀ l ∈ cl, FinOk c doms l
  nodup : (cl.map Prod.fst).Nodup
  first : c.SAT_UNSAT = true → ∀ l ls, cl = l :: ls → soln[l.1.toNat]? = some l.2

theorem finLits_ok {fuel : Nat} {doms soln : List Int}
    (hn : 0 ≤ c.NUM_VAR) (hl : doms.length = c.NUM_VAR.toNat) (hd : ∀ d ∈ doms, 0 < d)
    (hs : ∀ (j : Nat) (d : Int), doms[j]? = some d → d ≠ 0 ∧ ∃ k, soln[j]? = some k ∧ 0 ≤ k ∧ (0 < d → k < d)) :
    ∀ {n : Nat} {done : List (Int × Int)} {i : Nat} {p : List (Int × Int) × Nat},
    finLits c r fuel doms soln n done i = .ok p → FinClauseOk c doms soln done →
    FinClauseOk c doms soln p.1 ∧ p.1.length = done.length + n
  | 0, done, i, p, h, hk => by
    cases h
    exact ⟨hk, rfl⟩
  | n + 1, done, i, p, h, hk => by
    unfold finLits at h
    obtain ⟨q, h1, h⟩ := Res.bind_eq_ok.1 h
    have e := finLit_ok hn hl hd hs h1
    have e' := finLits_ok hn hl hd hs h ⟨?_, ?_, ?_⟩
    · refine ⟨e'.1, ?_⟩
      rw [e'.2, List.length_append]
      simp only [List.length_cons, List.length_nil]
      omega
    · intro l hm
      rcases List.mem_append.1 hm with hm | hm
      · exact hk.lits l hm
      · rw [List.mem_singleton.1 hm]
        exact e.1
    · rw [List.map_append]
      refine List.nodup_append.2 ⟨hk.nodup, by simp, ?_⟩
      intro a ha b hb
      simp only [List.map_cons, List.map_nil, List.mem_singleton] at hb
      subst hb
      intro hab
      subst hab
      exact e.2.1 ha
    · intro hsat l ls hll
      cases done with
      | nil =>
        cases hll
        exact e.2.2 hsat rfl
      | cons a as =>
        cases hll
        exact hk.first hsat _ _ rfl

theorem finClauses_ok {fuel : Nat} {doms soln : List Int}
    (hn : 0 ≤ c.NUM_VAR) (hl : doms.length = c.NUM_VAR.toNat) (hd : ∀ d ∈ doms, 0 < d)
    (hs : ∀ (j : Nat) (d : Int), doms[j]? = some d → d ≠ 0 ∧ ∃ k, soln[j]? = some k ∧ 0 ≤ k ∧ (0 < d → k < d)) :
    ∀ {n : Nat} {i : Nat} {p : List (List (Int × Int)) × Nat}, finClauses c r fuel doms soln n i = .ok p →
    p.1.length = n ∧ ∀ cl ∈ p.1, FinClauseOk c doms soln cl ∧ cl.length = c.CLAUSE_SIZE.toNat
  | 0, i, p, h => by
    cases h
    exact ⟨rfl, fun cl hcl => nomatch hcl⟩
  | n + 1, i, p, h => by
    unfold finClauses at h
    obtain ⟨q, h1, h⟩ := Res.bind_eq_ok.1 h
    obtain ⟨q2, h2, h⟩ := Res.bind_eq_ok.1 h
    cases h
    have e := finLits_ok hn hl hd hs h1 ⟨fun l hl => (nomatch hl), List.nodup_nil, fun _ l ls hll => (nomatch hll)⟩
    have e' := finClauses_ok hn hl hd hs h2
    refine ⟨by simp [e'.1], fun cl hcl => ?_⟩
    rcases List.mem_cons.1 hcl with rfl | hcl
    · exact ⟨e.1, by simpa using e.2⟩
    · exact e'.2 cl hcl

/-! ## The text -/

/-- A generated literal in the notation of the format. -/
def finToLit (l : Int × Int) : Lit := ⟨(l.1 + 1).toNat, l.2.toNat, true⟩

theorem intText_nonneg {i : Int} (h : 0 ≤ i) : intText i = natText i.toNat := by
  unfold intText
  rw [if_neg (by omega), show i.natAbs = i.toNat by omega]

theorem clause_text {cl : List (Int × Int)} (h : ∀ l ∈ cl, 0 ≤ l.1 ∧ 0 ≤ l.2) :
    (cl.flatMap fun l => intText (l.1 + 1) ++ ['='] ++ intText l.2 ++ [' '])
      = (cl.map finToLit).flatMap fun l => l.text ++ [' '] := by
  induction cl with
  | nil => rfl
  | cons l ls ih =>
    have e := h l List.mem_cons_self
    rw [List.flatMap_cons, List.map_cons, List.flatMap_cons, ih fun l hl => h l (List.mem_cons_of_mem _ hl)]
    congr 1
    unfold finToLit Lit.text
    rw [intText_nonneg (show 0 ≤ l.1 + 1 by omega), intText_nonneg e.2]
    simp

theorem clauses_text : ∀ {cls : List (List (Int × Int))}, (∀ cl ∈ cls, ∀ l ∈ cl, 0 ≤ l.1 ∧ 0 ≤ l.2) →
    (cls.flatMap fun cl => (cl.flatMap fun l => intText (l.1 + 1) ++ ['='] ++ intText l.2 ++ [' ']) ++ ['0', '\n'])
      = fileText (cls.map fun cl => .clause (cl.map finToLit))
  | [], _ => rfl
  | cl :: cls, h => by
    have ih := clauses_text fun cl hcl => h cl (List.mem_cons_of_mem _ hcl)
    unfold fileText at ih ⊢
    rw [List.flatMap_cons, List.map_cons, List.flatMap_cons, ih, clause_text (h cl List.mem_cons_self)]
    simp [FileLine.text, clauseText]

theorem domains_text : ∀ {doms : List Int} {n : Nat}, (∀ d ∈ doms, 0 ≤ d) →
    (doms.mapIdx fun y d => "d ".toList ++ intText (((n + y : Nat) : Int) + 1) ++ [' '] ++ intText d ++ ['\n']).flatten
      = fileText ((doms.map Int.toNat).mapIdx fun y d => .domain (n + y + 1) d)
  | [], n, _ => rfl
  | d :: ds, n, h => by
    have ih := domains_text (n := n + 1) fun d hd => h d (List.mem_cons_of_mem _ hd)
    have a1 : ∀ y : Nat, n + 1 + y = n + (y + 1) := by intro y; omega
    simp only [a1] at ih
    unfold fileText at ih ⊢
    rw [List.mapIdx_cons, List.flatten_cons, ih, List.map_cons, List.mapIdx_cons, List.flatMap_cons]
    congr 1
    have e := h d List.mem_cons_self
    rw [intText_nonneg e, intText_nonneg (show (0 : Int) ≤ ((n + 0 : Nat) : Int) + 1 by omega)]
    rfl

theorem fileText_append (l m : List FileLine) : fileText (l ++ m) = fileText l ++ fileText m := List.flatMap_append

/-- The formula written. -/
def genProblem (doms : List Int) (cls : List (List (Int × Int))) : Problem :=
  ⟨doms.map Int.toNat, cls.map fun cl => cl.map finToLit⟩

theorem finText_eq {doms : List Int} {cls : List (List (Int × Int))}
    (hv : c.NUM_VAR = doms.length) (hc : c.NUM_CLAUSE = cls.length)
    (hd : ∀ d ∈ doms, 0 ≤ d) (hl : ∀ cl ∈ cls, ∀ l ∈ cl, 0 ≤ l.1 ∧ 0 ≤ l.2) :
    finText c doms cls = fileText (genProblem doms cls).file := by
  unfold finText Problem.file genProblem
  have e := domains_text (n := 0) hd
  simp only [Nat.zero_add] at e
  rw [e, clauses_text hl]
  unfold genHead
  rw [hv, hc, intText_nonneg (Int.natCast_nonneg _), intText_nonneg (Int.natCast_nonneg _)]
  rw [List.cons_append]
  unfold fileText
  rw [List.flatMap_cons, List.flatMap_append]
  simp [FileLine.text, List.map_map, Function.comp_def]

/-- A file written by the finite-domain generator. -/
theorem genBenFin_ok {fuel : Nat} {t : List Char} (hd : c.DRAND = false → 0 < c.DOMAIN_SIZE)
    (h : genBenFin c r fuel = .ok t) :
    ∃ doms soln cls, t = fileText (genProblem doms cls).file ∧
      c.NUM_VAR = (doms.length : Int) ∧ c.NUM_CLAUSE = (cls.length : Int) ∧ (c.NUM_CLAUSE ≠ 0 → 0 ≤ c.CLAUSE_SIZE) ∧
      (∀ d ∈ doms, 0 < d ∧ (c.DRAND = false → d = c.DOMAIN_SIZE) ∧
        (c.DRAND = true → 0 < c.DOMAIN_SIZE → d < c.DOMAIN_SIZE)) ∧
      (∀ (j : Nat) (d : Int), doms[j]? = some d → ∃ k : Int, soln[j]? = some k ∧ 0 ≤ k ∧ k < d) ∧
      ∀ cl ∈ cls, FinClauseOk c doms soln cl ∧ cl.length = c.CLAUSE_SIZE.toNat := by
  unfold genBenFin at h
  split at h
  · rename_i hs
    unfold sizesOk at hs
    simp only [Bool.and_eq_true, decide_eq_true_eq, Bool.or_eq_true, beq_iff_eq] at hs
    obtain ⟨q1, h1, h⟩ := Res.bind_eq_ok.1 h
    obtain ⟨q2, h2, h⟩ := Res.bind_eq_ok.1 h
    obtain ⟨q3, h3, h⟩ := Res.bind_eq_ok.1 h
    cases h
    have e1 := finDomains_ok h1
    have e2 := finSolution_ok h2
    have hpos : ∀ d ∈ q1.1, 0 < d := by
      intro d hm
      cases hb : c.DRAND with
      | false =>
        rw [(e1.2 d hm).1 hb]
        exact hd hb
      | true =>
        have a := ((e1.2 d hm).2 hb).1
        obtain ⟨j, hj⟩ := List.mem_iff_getElem?.1 hm
        have b := (e2 j d hj).1
        omega
    have e3 := finClauses_ok hs.1.1 e1.1 hpos e2 h3
    refine ⟨q1.1, q2.1, q3.1, ?_, by omega, by omega, by omega, fun d hm =>
      ⟨hpos d hm, (e1.2 d hm).1, fun hb => ((e1.2 d hm).2 hb).2⟩, ?_, e3.2⟩
    · refine finText_eq (by omega) (by omega) (fun d hm => Int.le_of_lt (hpos d hm)) fun cl hcl l hl => ?_
      have := (e3.2 cl hcl).1.lits l hl
      exact ⟨this.var, this.val⟩
    · intro j d hj
      obtain ⟨_, k, hk, hk0, hkd⟩ := e2 j d hj
      exact ⟨k, hk, hk0, hkd (hpos d (List.mem_of_getElem? hj))⟩
  · cases h

/-! ## Boolean -/

theorem boolSolution_ok : ∀ {n x i : Nat}, ((boolSolution r n x i).1.length = n) ∧
    ∀ (j : Nat) (y : Int), (boolSolution r n x i).1[j]? = some y → y.natAbs = x + j
  | 0, x, i => ⟨rfl, fun j y h => by simp [boolSolution] at h⟩
  | n + 1, x, i => by
    have ih := boolSolution_ok (n := n) (x := x + 1) (i := i + 1)
    unfold boolSolution
    refine ⟨by simp [ih.1], fun j y h => ?_⟩
    cases j with
    | zero =>
      simp only [List.getElem?_cons_zero, Option.some.injEq] at h
      subst h
      split <;> omega
    | succ j =>
      simp only [List.getElem?_cons_succ] at h
      have := ih.2 j y h
      omega

/-- A literal of a variable from 1 to `NUM_VAR`. -/
def BoolIn (c : CommandLine) (x : Int) : Prop := 1 ≤ x.natAbs ∧ (x.natAbs : Int) ≤ c.NUM_VAR

theorem boolPass_ok (hn : 0 ≤ c.NUM_VAR) : ∀ {zs : List Int} {v : Int} {i : Nat} {p : (Int × Nat) × Bool},
    boolPass c r zs v i = .ok p → (p.2 = false → p.1.1 = v ∧ v ∉ zs) ∧ (p.2 = true → BoolIn c p.1.1)
  | [], v, i, p, h => by
    cases h
    exact ⟨fun _ => ⟨rfl, List.not_mem_nil⟩, fun h => nomatch h⟩
  | z :: zs, v, i, p, h => by
    unfold boolPass at h
    split at h
    · obtain ⟨q, h1, h⟩ := Res.bind_eq_ok.1 h
      cases h
      have e := randMod_ok h1
      refine ⟨fun h => (nomatch h), fun _ => ?_⟩
      have := e.2.2 (by omega)
      unfold BoolIn
      dsimp only
      omega
    · rename_i ne
      have e := boolPass_ok hn h
      refine ⟨fun hp => ⟨(e.1 hp).1, ?_⟩, e.2⟩
      intro hm
      rcases List.mem_cons.1 hm with hm | hm
      · exact ne hm
      · exact (e.1 hp).2 hm

theorem boolFresh_ok (hn : 0 ≤ c.NUM_VAR) : ∀ {fuel : Nat} {zs : List Int} {v : Int} {i : Nat} {p : Int × Nat},
    boolFresh c r fuel zs v i = .ok p → BoolIn c v → p.1 ∉ zs ∧ BoolIn c p.1
  | 0, zs, v, i, p, h, _ => nomatch h
  | fuel + 1, zs, v, i, p, h, hv => by
    unfold boolFresh at h
    obtain ⟨⟨q, b⟩, h1, h⟩ := Res.bind_eq_ok.1 h
    have e := boolPass_ok hn h1
    cases b with
    | true =>
      simp only [if_true] at h
      exact boolFresh_ok hn h (e.2 rfl)
    | false =>
      simp only [Bool.false_eq_true, if_false] at h
      cases h
      have e' := e.1 rfl
      dsimp only at e'
      rw [e'.1]
      exact ⟨e'.2, hv⟩

theorem boolLit_ok (hn : 0 ≤ c.NUM_VAR) {fuel : Nat} {soln done : List Int} {i : Nat} {p : Int × Nat}
    (hs : ∀ (j : Nat) (y : Int), soln[j]? = some y → y.natAbs = 1 + j)
    (h : boolLit c r fuel soln done i = .ok p) :
    BoolIn c p.1 ∧ p.1 ∉ done ∧ (c.SAT_UNSAT = true → done = [] → ∃ x ∈ soln, p.1 = if coin r i then x else -x) := by
  unfold boolLit at h
  split at h
  · rename_i hc
    simp only [Bool.and_eq_true, beq_iff_eq] at hc
    have he : done = [] := List.eq_nil_of_length_eq_zero hc.2
    unfold boolFirst at h
    obtain ⟨q, h1, h⟩ := Res.bind_eq_ok.1 h
    obtain ⟨x, h2, h⟩ := Res.bind_eq_ok.1 h
    cases h
    have e := randMod_ok h1
    have hv : q.1 < c.NUM_VAR := e.2.2 (by omega)
    have e2 := arrGet_ok h2
    have hx := hs _ _ e2.2
    refine ⟨?_, by rw [he]; exact List.not_mem_nil, fun _ _ => ⟨x, List.mem_of_getElem? e2.2, ?_⟩⟩
    · unfold BoolIn
      dsimp only
      split <;> omega
    · dsimp only
      rw [show -1 * x = -x by omega]
  · rename_i hc
    unfold boolOther at h
    obtain ⟨q, h1, h⟩ := Res.bind_eq_ok.1 h
    have e := randMod_ok h1
    have hv : q.1 < c.NUM_VAR := e.2.2 (by omega)
    have e2 := boolFresh_ok hn h (by unfold BoolIn; split <;> omega)
    refine ⟨e2.2, e2.1, fun hs he => ?_⟩
    rw [hs, he] at hc
    exact (hc rfl).elim

/-- What is known about a generated Boolean clause that began with random number `i`. -/
structure BoolClauseOk (c : CommandLine) (r : Nat → Nat) (soln : List Int) (i : Nat) (cl : List Int) : Prop where
  lits  : ∀ x ∈ cl, BoolIn c x
  nodup : cl.Nodup
  first : c.SAT_UNSAT = true → ∀ x xs, cl = x :: xs → ∃ y ∈ soln, x = if coin r i then y else -y

theorem boolLits_ok (hn : 0 ≤ c.NUM_VAR) {fuel : Nat} {soln : List Int} {i0 : Nat}
    (hs : ∀ (j : Nat) (y : Int), soln[j]? = some y → y.natAbs = 1 + j) :
    ∀ {n : Nat} {done : List Int} {i : Nat} {p : List Int × Nat}, boolLits c r fuel soln n done i = .ok p →
    (done = [] → i = i0) → BoolClauseOk c r soln i0 done → BoolClauseOk c r soln i0 p.1 ∧ p.1.length = done.length + n
  | 0, done, i, p, h, _, hk => by
    cases h
    exact ⟨hk, rfl⟩
  | n + 1, done, i, p, h, hi, hk => by
    unfold boolLits at h
    obtain ⟨q, h1, h⟩ := Res.bind_eq_ok.1 h
    have e := boolLit_ok hn hs h1
    have e' := boolLits_ok (i0 := i0) hn hs h (by simp) ⟨?_, ?_, ?_⟩
    · refine ⟨e'.1, ?_⟩
      rw [e'.2, List.length_append]
      simp only [List.length_cons, List.length_nil]
      omega
    · intro l hm
      rcases List.mem_append.1 hm with hm | hm
      · exact hk.lits l hm
      · rw [List.mem_singleton.1 hm]
        exact e.1
    · refine List.nodup_append.2 ⟨hk.nodup, by simp, ?_⟩
      intro a ha b hb
      rw [List.mem_singleton] at hb
      subst hb
      intro hab
      subst hab
      exact e.2.1 ha
    · intro hsat l ls hll
      cases done with
      | nil =>
        cases hll
        rw [← hi rfl]
        exact e.2.2 hsat rfl
      | cons a as =>
        cases hll
        exact hk.first hsat _ _ rfl

/-- The number of random numbers used before each clause. -/
def boolStarts (c : CommandLine) (r : Nat → Nat) (fuel : Nat) (soln : List Int) : Nat → Nat → List Nat
  | 0, _ => []
  | n + 1, i =>
    i :: match boolLits c r fuel soln c.CLAUSE_SIZE.toNat [] i with
      | .ok p => boolStarts c r fuel soln n p.2
      | _ => []

theorem boolClauses_ok (hn : 0 ≤ c.NUM_VAR) {fuel : Nat} {soln : List Int}
    (hs : ∀ (j : Nat) (y : Int), soln[j]? = some y → y.natAbs = 1 + j) :
    ∀ {n : Nat} {i : Nat} {p : List (List Int) × Nat}, boolClauses c r fuel soln n i = .ok p →
    p.1.length = n ∧ ∀ cl ∈ p.1, (∃ i0 ∈ boolStarts c r fuel soln n i, BoolClauseOk c r soln i0 cl) ∧
      cl.length = c.CLAUSE_SIZE.toNat
  | 0, i, p, h => by
    cases h
    exact ⟨rfl, fun cl hcl => nomatch hcl⟩
  | n + 1, i, p, h => by
    unfold boolClauses at h
    obtain ⟨q, h1, h⟩ := Res.bind_eq_ok.1 h
    obtain ⟨q2, h2, h⟩ := Res.bind_eq_ok.1 h
    cases h
    have e := boolLits_ok hn hs h1 (fun _ => rfl)
      ⟨fun l hl => (nomatch hl), List.nodup_nil, fun _ l ls hll => (nomatch hll)⟩
    have e' := boolClauses_ok hn hs h2
    refine ⟨by simp [e'.1], fun cl hcl => ?_⟩
    unfold boolStarts
    rw [h1]
    rcases List.mem_cons.1 hcl with rfl | hcl
    · exact ⟨⟨i, List.mem_cons_self, e.1⟩, by simpa using e.2⟩
    · obtain ⟨⟨i0, hi0, hk⟩, hlen⟩ := e'.2 cl hcl
      exact ⟨⟨i0, List.mem_cons_of_mem _ hi0, hk⟩, hlen⟩

theorem boolText_eq {cls : List (List Int)} (hn : 0 ≤ c.NUM_VAR) (hc : 0 ≤ c.NUM_CLAUSE) :
    boolText c cls = bFileText (.problem c.NUM_VAR.toNat c.NUM_CLAUSE.toNat :: cls.map .clause) := by
  have e : (cls.flatMap fun cl => (cl.flatMap fun x => intText x ++ [' ']) ++ ['0', '\n'])
      = (cls.map BLine.clause).flatMap fun l => l.text ++ ['\n'] := by
    induction cls with
    | nil => rfl
    | cons cl cls ih =>
      rw [List.flatMap_cons, List.map_cons, List.flatMap_cons, ih]
      simp [BLine.text]
  unfold boolText bFileText genHead
  rw [e, List.flatMap_cons, intText_nonneg hn, intText_nonneg hc]
  simp [BLine.text]

/-- A file written by the Boolean generator. -/
theorem genBenBool_ok {fuel : Nat} {t : List Char} (hn : 0 ≤ c.NUM_VAR) (h : genBenBool c r fuel = .ok t) :
    ∃ cls : List (List Int), t = bFileText (.problem c.NUM_VAR.toNat c.NUM_CLAUSE.toNat :: cls.map .clause) ∧
      c.NUM_CLAUSE = (cls.length : Int) ∧
      ∀ cl ∈ cls, (∃ i0 ∈ boolStarts c r fuel (boolSolution r c.NUM_VAR.toNat 1 0).1 c.NUM_CLAUSE.toNat
          (boolSolution r c.NUM_VAR.toNat 1 0).2,
        BoolClauseOk c r (boolSolution r c.NUM_VAR.toNat 1 0).1 i0 cl) ∧ cl.length = c.CLAUSE_SIZE.toNat := by
  unfold genBenBool at h
  split at h
  · rename_i hs
    unfold sizesOk at hs
    simp only [Bool.and_eq_true, decide_eq_true_eq, Bool.or_eq_true, beq_iff_eq] at hs
    obtain ⟨q3, h3, h⟩ := Res.bind_eq_ok.1 h
    cases h
    have e3 := boolClauses_ok hn boolSolution_ok.2 h3
    exact ⟨q3.1, boolText_eq hn hs.1.2, by omega, e3.2⟩
  · cases h

end Mvl
