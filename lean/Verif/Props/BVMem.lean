import Verif.Proof.BVMem
import Verif.Props.WatchMem
import Verif.Props.BitVec

/-!
# Properties of the bit-vector search on linked records

C94.
-/

namespace Mvl.BV

variable {S : Type}

/-- **C94.** The bit-vector search without restarts on linked watch records, with any allocator that returns free addresses
and any clock: when the search on lists of clause numbers ends, this one ends without an access to a record that was never
allocated or is freed, with the same result code and in the same state; the records then are the lists of that state, no
pointer dangles and no record is lost. -/
theorem C94_records_partial {cfg : BCfg S} (hs : cfg.ScoreOK) (hrs : cfg.restarts ≤ 0) {P : Problem} (hwf : P.Regular)
    (h64 : Fits P) {new : WMem → Nat} (hn : Alloc new) {fuel r : Nat} {s : BSt S} (hrun : brun cfg fuel P = .ok (r, s)) :
    ∃ h g0, (∀ g, g0 ≤ g → bprun cfg new g fuel P = .ok (r, ({ s with recs := fun _ => [] }, h))) ∧
      (∀ v, Reads h (h.head (vkey v)) (s.recs v)) ∧ NoDangling h ∧
      ∀ p, h.mem p ≠ none → ∃ v i, v ≤ P.numVars ∧ i < (s.recs v).length ∧ follow h i (h.head (vkey v)) = some p := by
  have hfin := brun_final hs hrs hwf h64 fuel
  obtain ⟨pos, hg⟩ := hs
  obtain ⟨h, ⟨L, hr⟩, g0, hg⟩ := bprun_sim hg hrs hwf h64 hn hrun
  rw [hrun] at hfin
  obtain ⟨hi, hsem, _⟩ := hfin
  refine ⟨h, g0, hg, fun v => ?_, hr.rep.noDangling, ?_⟩
  · obtain ⟨last, hl⟩ := hr.rep.linked (vkey v)
    rw [← keyed_vkey s.recs v, ← hr.nums (vkey v)]
    exact hl.reads
  · intro p hp
    obtain ⟨l, hm⟩ := hr.rep.noleak p hp
    obtain ⟨last, hl⟩ := hr.rep.linked l
    obtain ⟨i, hi0⟩ := List.mem_iff_getElem?.1 hm
    have hi' : i < (L l).length := by
      have := (List.getElem?_eq_some_iff.1 hi0).1
      rwa [List.length_map] at this
    have hk : l = vkey l.var := by
      apply Classical.byContradiction
      intro hne
      have h0 : (L l).map Prod.snd = [] := by rw [hr.nums l]; exact if_neg hne
      rw [List.map_eq_nil_iff.1 h0] at hi'
      exact absurd hi' (Nat.not_lt_zero _)
    have hlen : i < (s.recs l.var).length := by
      rw [← keyed_vkey s.recs l.var, ← hk, ← hr.nums l, List.length_map]
      exact hi'
    refine ⟨l.var, i, ?_, hlen, ?_⟩
    · obtain ⟨hid, w, hw, hv⟩ := (hi.store.recs l.var _).1 (List.getElem_mem hlen)
      have := (hi.store.lok _ hid w ((hi.store.wok _ hid).mem hw)).1
      rw [hv] at this
      rw [← hsem.nv]
      exact this.2
    · rw [← hk, hl.follow hi', ← List.getElem?_map, hi0]

/-- What is printed after the search on linked records. -/
def bpsolve (cfg : BCfg S) (new : WMem → Nat) (g fuel : Nat) (P : Problem) : Res BReport :=
  bprun cfg new g fuel P >>= fun p => .ok (breport p.1 p.2.1)

/-- **C94.** What the search on linked records prints is what the search on lists prints. -/
theorem C94_reports_partial {cfg : BCfg S} (hs : cfg.ScoreOK) (hrs : cfg.restarts ≤ 0) {P : Problem} (hwf : P.Regular)
    (h64 : Fits P) {new : WMem → Nat} (hn : Alloc new) {fuel : Nat} {rep : BReport} (hrun : bsolve cfg fuel P = .ok rep) :
    ∃ g0, ∀ g, g0 ≤ g → bpsolve cfg new g fuel P = .ok rep := by
  obtain ⟨r, s, h1, rfl⟩ := bsolve_eq_ok.1 hrun
  obtain ⟨h, g0, hg, _⟩ := C94_records_partial hs hrs hwf h64 hn h1
  refine ⟨g0, fun g hle => ?_⟩
  unfold bpsolve
  rw [hg g hle]
  rfl

/-- **C94**, with at most one clause about a single variable: the search on linked records ends and answers right. -/
theorem C94_answers_partial {cfg : BCfg S} (hs : cfg.ScoreOK) (hrs : cfg.restarts ≤ 0)
    (hclock : ∀ k, cfg.late k = false) {P : Problem} (hwf : P.Regular) (h64 : Fits P)
    (hone : ∀ i j, (hi : i < P.clauses.length) → (hj : j < P.clauses.length) →
      (∀ l ∈ P.clauses[i], ∀ l' ∈ P.clauses[i], l.var = l'.var) →
      (∀ l ∈ P.clauses[j], ∀ l' ∈ P.clauses[j], l.var = l'.var) → i = j) {new : WMem → Nat} (hn : Alloc new) :
    ∃ rep f0, (rep.answer = .SAT ↔ P.Satisfiable) ∧ (rep.answer = .UNSAT ↔ ¬ P.Satisfiable) ∧
      ∀ fuel, f0 ≤ fuel → ∃ g0, ∀ g, g0 ≤ g → bpsolve cfg new g fuel P = .ok rep := by
  obtain ⟨rep, f0, h1, h2, h3⟩ := C56_bitvec_decides_partial hs hrs hclock hwf h64 hone
  exact ⟨rep, f0, h2, h3, fun fuel hf => C94_reports_partial hs hrs hwf h64 hn (h1 fuel hf)⟩

/-- **C94**, one conflict, whatever the interval of the restarts: if the memory holds the lists of the state, then analysis,
learning and backtracking or restart on records end as on lists, in the same state, and the memory again holds its lists. -/
theorem C94_conflict (cfg : BCfg S) {new : WMem → Nat} (hn : Alloc new) {s s' : BSt S} {h : WMem}
    (hr : RepOf h (keyed s.recs)) {rc rc' : Int} {f : Nat} (e : bconflict cfg f s rc = .ok (s', rc')) :
    ∃ h', bpconflict cfg new f ({ s with recs := fun _ => [] }, h) rc = .ok (({ s' with recs := fun _ => [] }, h'), rc') ∧
      (∀ v, Reads h' (h'.head (vkey v)) (s'.recs v)) ∧ NoDangling h' := by
  obtain ⟨h', h1, L, hr'⟩ := bpconflict_sim cfg hn hr e
  refine ⟨h', h1, fun v => ?_, hr'.rep.noDangling⟩
  obtain ⟨last, hl⟩ := hr'.rep.linked (vkey v)
  rw [← keyed_vkey s'.recs v, ← hr'.nums (vkey v)]
  exact hl.reads

/-- A run with restarts that ends, on lists and on records. -/
example : (bsolve (exB true 1) 100 exRestart).passes (fun rep => decide (0 < rep.restarts ∧
    bpsolve (exB true 1) exNew 40 100 exRestart = .ok rep)) = true := by decide +kernel

/-- Freeing the records of one list. -/
theorem freeAll_linked {last : Option Nat} : ∀ {ps : List (Nat × Nat)} {h : WMem} {before cur : Option Nat} {k : Nat},
    Linked h.mem before cur ps last none → (ps.map Prod.fst).Nodup → ps.length ≤ k →
    ∃ h', h.freeAll k cur = .ok h' ∧ h'.head = h.head ∧ ∀ x, h'.mem x = if x ∈ ps.map Prod.fst then none else h.mem x
  | [], h, before, cur, k, hl, _, _ => by
    obtain ⟨_, rfl⟩ := hl
    exact ⟨h, by cases k <;> rfl, rfl, fun x => by simp⟩
  | p :: ps, h, before, cur, 0, _, _, hk => absurd hk (Nat.not_succ_le_zero _)
  | p :: ps, h, before, cur, k + 1, hl, hnd, hk => by
    obtain ⟨rfl, nx, h2, h3⟩ := hl
    rw [List.map_cons, List.nodup_cons] at hnd
    have h3' : Linked (upd h.mem p.1 none) (some p.1) nx ps last none := by
      refine h3.frame fun q hq => ?_
      exact if_neg fun (e : q = p.1) => hnd.1 (e ▸ hq)
    obtain ⟨h', e1, e2, e3⟩ := freeAll_linked (h := { h with mem := upd h.mem p.1 none }) (k := k) h3' hnd.2
      (Nat.le_of_succ_le_succ hk)
    refine ⟨h', ?_, e2, fun x => ?_⟩
    · rw [WMem.freeAll]
      simp only [WMem.read, WMem.free, h2, Res.ok_bind]
      exact e1
    · rw [e3 x]
      simp only [List.map_cons, List.mem_cons]
      by_cases hx : x ∈ ps.map Prod.fst
      · rw [if_pos hx, if_pos (.inr hx)]
      · rw [if_neg hx]
        by_cases hp : x = p.1
        · rw [if_pos (.inl hp)]
          exact if_pos hp
        · rw [if_neg (fun h0 => h0.elim hp hx)]
          exact if_neg hp

/-- Freeing the records of several variables. -/
theorem bdestroyAll_linked {L : Nat → List (Nat × Nat)} (hnd : ∀ v, ((L v).map Prod.fst).Nodup)
    (hown : ∀ v v' p, p ∈ (L v).map Prod.fst → p ∈ (L v').map Prod.fst → v = v') {k : Nat} :
    ∀ {vs : List Nat} {h : WMem}, vs.Nodup → (∀ v ∈ vs, (L v).length ≤ k) →
    (∀ v ∈ vs, ∃ last, Linked h.mem none (h.head (vkey v)) (L v) last none) →
    ∃ h', bdestroyAll k vs h = .ok h' ∧ ∀ x, (∃ v ∈ vs, x ∈ (L v).map Prod.fst) ∧ h'.mem x = none ∨
      (¬ ∃ v ∈ vs, x ∈ (L v).map Prod.fst) ∧ h'.mem x = h.mem x
  | [], h, _, _, _ => ⟨h, rfl, fun x => .inr ⟨by simp, rfl⟩⟩
  | v :: vs, h, hvs, hk, hl => by
    rw [List.nodup_cons] at hvs
    obtain ⟨last, h1⟩ := hl v (by simp)
    obtain ⟨h2, e1, e2, e3⟩ := freeAll_linked h1 (hnd v) (hk v (by simp))
    obtain ⟨h', e4, e5⟩ := bdestroyAll_linked hnd hown (k := k) (vs := vs) (h := h2) hvs.2
      (fun u hu => hk u (List.mem_cons_of_mem _ hu)) (fun u hu => by
        obtain ⟨last', h3⟩ := hl u (List.mem_cons_of_mem _ hu)
        refine ⟨last', ?_⟩
        rw [e2]
        refine h3.frame fun q hq => ?_
        rw [e3 q, if_neg]
        intro hq'
        exact hvs.1 (hown v u q hq' hq ▸ hu))
    refine ⟨h', ?_, fun x => ?_⟩
    · rw [bdestroyAll, bdestroy, e1]
      exact e4
    · rcases e5 x with ⟨⟨u, hu, hx⟩, e⟩ | ⟨hx, e⟩
      · exact .inl ⟨⟨u, List.mem_cons_of_mem _ hu, hx⟩, e⟩
      · rw [e3 x] at e
        by_cases hv : x ∈ (L v).map Prod.fst
        · rw [if_pos hv] at e
          exact .inl ⟨⟨v, by simp, hv⟩, e⟩
        · rw [if_neg hv] at e
          refine .inr ⟨?_, e⟩
          rintro ⟨u, hu, hxu⟩
          rcases List.mem_cons.1 hu with rfl | hu
          · exact hv hxu
          · exact hx ⟨u, hu, hxu⟩

/-- **C94.** The destructors of the variables, run after a bit-vector search without restarts, free every record exactly
once: a second `delete` of a record would be undefined behaviour, and no record is left. In src the same destructor
frees a record twice (C47). -/
theorem C94_destructors_partial {cfg : BCfg S} (hs : cfg.ScoreOK) (hrs : cfg.restarts ≤ 0) {P : Problem} (hwf : P.Regular)
    (h64 : Fits P) {new : WMem → Nat} (hn : Alloc new) {fuel r : Nat} {s : BSt S} (hrun : brun cfg fuel P = .ok (r, s)) :
    ∃ g0, ∀ g, g0 ≤ g → ∃ p, bprun cfg new g fuel P = .ok (r, p) ∧
      ∃ k0, ∀ k, k0 ≤ k → ∃ h', bdestroyAll k (List.range (P.numVars + 1)) p.2 = .ok h' ∧ ∀ x, h'.mem x = none := by
  have hfin := brun_final hs hrs hwf h64 fuel
  obtain ⟨pos, hg⟩ := hs
  obtain ⟨h, ⟨L, hr⟩, g0, hg⟩ := bprun_sim hg hrs hwf h64 hn hrun
  rw [hrun] at hfin
  obtain ⟨hi, hsem, _⟩ := hfin
  refine ⟨g0, fun g hle => ⟨_, hg g hle, ?_⟩⟩
  have hmax : ∀ n, ∃ k0, ∀ v, v < n → (L (vkey v)).length ≤ k0 := by
    intro n
    induction n with
    | zero => exact ⟨0, fun v hv => absurd hv (Nat.not_lt_zero _)⟩
    | succ n ih =>
      obtain ⟨k0, hk⟩ := ih
      refine ⟨k0 + (L (vkey n)).length, fun v hv => ?_⟩
      rcases Nat.lt_or_ge v n with h1 | h1
      · have := hk v h1; omega
      · have : v = n := by omega
        subst this; omega
  obtain ⟨k0, hk0⟩ := hmax (P.numVars + 1)
  refine ⟨k0, fun k hk => ?_⟩
  obtain ⟨h', e1, e2⟩ := bdestroyAll_linked (L := fun v => L (vkey v)) (fun v => hr.rep.nodup _)
    (fun v v' p h1 h2 => congrArg Lit.var (hr.rep.owner _ _ p h1 h2)) (k := k) (vs := List.range (P.numVars + 1)) (h := h)
    List.nodup_range (fun v hv => Nat.le_trans (hk0 v (List.mem_range.1 hv)) hk) (fun v _ => hr.rep.linked _)
  refine ⟨h', e1, fun x => ?_⟩
  rcases e2 x with ⟨_, e⟩ | ⟨hx, e⟩
  · exact e
  · rw [e]
    apply Classical.byContradiction
    intro hp
    obtain ⟨l, hm⟩ := hr.rep.noleak x hp
    have hne : L l ≠ [] := by intro h0; rw [h0] at hm; simp at hm
    have hk : l = vkey l.var := by
      apply Classical.byContradiction
      intro hne'
      have h0 : (L l).map Prod.snd = [] := by rw [hr.nums l]; exact if_neg hne'
      exact hne (List.map_eq_nil_iff.1 h0)
    refine hx ⟨l.var, ?_, hk ▸ hm⟩
    have hne2 : s.recs l.var ≠ [] := by
      rw [← keyed_vkey s.recs l.var, ← hk, ← hr.nums l]
      intro h0
      exact hne (List.map_eq_nil_iff.1 h0)
    obtain ⟨id, hmem⟩ := List.exists_mem_of_ne_nil _ hne2
    obtain ⟨hid, w, hw, hv⟩ := (hi.store.recs l.var id).1 hmem
    have := (hi.store.lok _ hid w ((hi.store.wok _ hid).mem hw)).1
    rw [hv] at this
    rw [List.mem_range, ← hsem.nv]
    exact Nat.lt_succ_of_le this.2

/-- The hypotheses, and a run on records with a conflict, whose records the destructors free. -/
example : (exB true 0).ScoreOK ∧ exSat3.WellFormed ∧ Fits exSat3 ∧
    (bprun (exB true 0) exNew 40 60 exSat3).passes (fun p => decide (p.1 = 0) && decide (0 < p.2.1.nBacktracks) &&
      decide (p.2.2.mem 0 ≠ none) &&
      (bdestroyAll 40 (List.range (exSat3.numVars + 1)) p.2.2).passes fun h => decide (h.mem 0 = none)) = true :=
  ⟨exB_score _ _, by decide, by decide, by decide +kernel⟩

/-- Destroying a variable twice is undefined: the theorem says something. -/
example : (bprun (exB true 0) exNew 40 60 exSat3).passes (fun p =>
    decide (bdestroyAll 40 [1, 1] p.2.2 matches .ub)) = true := by decide +kernel

/-- Why C94 is proved without restarts, and its answers only with at most one clause about a single variable: else the run
on records reads what does not exist, as the run on lists does (C38). -/
theorem C94_fails : exTwoDecisions.WellFormed ∧ Fits exTwoDecisions ∧ exOneVar.WellFormed ∧ Fits exOneVar ∧
    bpsolve (exB false 1) exNew 40 20 exTwoDecisions = .ub ∧ bpsolve (exB true 0) exNew 40 20 exOneVar = .ub :=
  ⟨by decide, by decide, by decide, by decide, by decide +kernel, by decide +kernel⟩

end Mvl.BV
