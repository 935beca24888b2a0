import Verif.Proof.WatchMemRun
import Verif.Props.WatchList
import Verif.Props.WL

/-!
# Properties of the watched-literal search on linked records

C92, and C47 after a search.
-/

namespace Mvl

variable {S : Type}

/-- There is an allocator. -/
theorem alloc_exists : ∃ new, Alloc new := by
  classical
  refine ⟨fun h => if e : ∃ p, h.mem p = none then e.choose else 0, ?_⟩
  intro h n hn
  have e : ∃ p, h.mem p = none := ⟨n, hn n (Nat.le_refl n)⟩
  dsimp only
  rw [dif_pos e]
  exact e.choose_spec

/-- The report depends only on the fields other than the watch lists. -/
theorem report_noW (r : Nat) (s : St S) : report r s.noW = report r s := rfl

/-- **C92.** The search with `-wl` on linked watch records, with any allocator that returns free addresses and any clock:
it ends without an access to a record that was never allocated or is freed, with the result code and in the state of the
search on lists of clause numbers; the records then are the lists of that state, no pointer dangles and no record is lost. -/
theorem C92_records {cfg : Cfg S} (hw : cfg.watch = true) (hs : cfg.ScoreOK) {P : Problem} (hwf : P.Proper)
    (hnd : P.NoDupLits) {new : WMem → Nat} (hn : Alloc new) :
    ∃ r s f0, ∀ fuel, f0 ≤ fuel → run cfg .learn fuel P = .ok (r, s) ∧
      ∃ h g0, (∀ g, g0 ≤ g → prun cfg new g fuel P = .ok (r, ({ s with wlist := fun _ => [] }, h))) ∧
        (∀ l, Reads h (h.head l) (s.wlist l)) ∧ NoDangling h ∧
        ∀ p, h.mem p ≠ none → ∃ l i, i < (s.wlist l).length ∧ follow h i (h.head l) = some p := by
  obtain ⟨s0, hb, _⟩ := build_vinv (cfg := cfg) hw hwf hnd
  obtain ⟨⟨r, s⟩, f0, hp⟩ := learnLoop_term (WReach.loopInv hw hs hwf hnd) (WReach.loopTerm hw hs hwf hnd) _ s0 cfg.restarts
    (Nat.le_refl _) (.start hb)
  refine ⟨r, s, f0, fun fuel hf => ?_⟩
  have hrun : run cfg .learn fuel P = .ok (r, s) := by rw [run_learn_eq hb]; exact hp fuel hf
  refine ⟨hrun, ?_⟩
  obtain ⟨h, ⟨L, hr⟩, g0, hg⟩ := prun_sim hw hs hwf hnd hn hrun
  refine ⟨h, g0, hg, fun l => ?_, hr.rep.noDangling, ?_⟩
  · obtain ⟨last, hl⟩ := hr.rep.linked l
    rw [← hr.nums l]
    exact hl.reads
  · intro p hp
    obtain ⟨l, hm⟩ := hr.rep.noleak p hp
    obtain ⟨last, hl⟩ := hr.rep.linked l
    obtain ⟨i, hi⟩ := List.mem_iff_getElem?.1 hm
    have hi' : i < (L l).length := by
      have := (List.getElem?_eq_some_iff.1 hi).1
      rwa [List.length_map] at this
    refine ⟨l, i, by rw [← hr.nums l, List.length_map]; exact hi', ?_⟩
    rw [hl.follow hi', ← List.getElem?_map, hi]

/-- What is printed after the search on linked records. -/
def psolve (cfg : Cfg S) (new : WMem → Nat) (g fuel : Nat) (P : Problem) : Res Report := do
  let (r, p) ← prun cfg new g fuel P
  pure (report r p.1)

/-- **C92.** The search on linked watch records ends and answers right. -/
theorem C92_answers {cfg : Cfg S} (hw : cfg.watch = true) (hh : cfg.heur ≠ .BK) (hs : cfg.ScoreOK)
    (hclock : ∀ k, cfg.late k = false) {P : Problem} (hwf : P.WellFormed) (hnd : P.NoDupLits) {new : WMem → Nat}
    (hn : Alloc new) : ∃ rep f0, (rep.answer = .SAT ↔ P.Satisfiable) ∧ (rep.answer = .UNSAT ↔ ¬ P.Satisfiable) ∧
      ∀ fuel, f0 ≤ fuel → solve cfg .learn fuel P = .ok rep ∧ ∃ g0, ∀ g, g0 ≤ g → psolve cfg new g fuel P = .ok rep := by
  obtain ⟨rep, f0, h1, h2, h3⟩ := C48_watch_decides hw hh hs hclock hwf hnd
  refine ⟨rep, f0, h2, h3, fun fuel hf => ⟨h1 fuel hf, ?_⟩⟩
  obtain ⟨r, s, hrun, rfl⟩ := solve_eq_ok.1 (h1 fuel hf)
  obtain ⟨h, _, g0, hg⟩ := prun_sim hw hs hwf.proper hnd hn hrun
  refine ⟨g0, fun g hle => ?_⟩
  unfold psolve
  have e := hg g hle
  dsimp only at e
  rw [e]
  rfl

/-- An allocator for memories that use few addresses: the first free address below 200. -/
def exNew (h : WMem) : Nat := ((List.range 200).find? fun p => (h.mem p).isNone).getD 0

/-- A file on which records move between lists before the answer. -/
def exMove : Problem :=
  ⟨[3, 3, 3], [[⟨1, 0, true⟩, ⟨2, 0, true⟩, ⟨3, 0, true⟩], [⟨1, 0, false⟩, ⟨2, 1, true⟩, ⟨3, 1, true⟩],
    [⟨2, 1, false⟩, ⟨3, 0, false⟩], [⟨1, 1, true⟩, ⟨2, 2, true⟩, ⟨3, 1, false⟩]]⟩

/-- The hypotheses of C92, and runs on records. -/
example : (exCfg .VSIDS true).watch = true ∧ (exCfg .VSIDS true).heur ≠ .BK ∧ exMove.WellFormed ∧ exMove.NoDupLits ∧
    (prun (exCfg .VSIDS true) exNew 30 20 exMove).passes (fun p => decide (p.1 = 0) &&
      -- one record of clause 0 moved to the third literal of the clause
      (decide (p.2.2.head ⟨3, 0, true⟩ ≠ none) || decide (p.2.2.head ⟨3, 1, true⟩ ≠ none))) = true := by decide +kernel

example : ∃ new, Alloc new ∧ (exCfg .lazy true).ScoreOK ∧ ∀ k, (exCfg .lazy true).late k = false := by
  obtain ⟨new, h⟩ := alloc_exists
  exact ⟨new, h, exCfg_score _ _, fun _ => rfl⟩

/-- **C47** fails after every search with `-wl` on a file with a clause: whatever records are allocated where, there is a
literal whose list the destructor of its variable cannot free without freeing a record twice. -/
theorem C47_after_search_fails {cfg : Cfg S} (hw : cfg.watch = true) (hs : cfg.ScoreOK) {P : Problem} (hwf : P.Proper)
    (hnd : P.NoDupLits) (hne : P.clauses ≠ []) {new : WMem → Nat} (hn : Alloc new) {fuel r : Nat} {s : St S}
    (hrun : run cfg .learn fuel P = .ok (r, s)) : ∃ l g0, ∀ g, g0 ≤ g → ∃ s' h, prun cfg new g fuel P = .ok (r, (s', h)) ∧
      ∀ k h', h.destroy k l ≠ .ok h' := by
  obtain ⟨h, ⟨L, hr⟩, g0, hg⟩ := prun_sim hw hs hwf hnd hn hrun
  obtain ⟨s1, rc, hre, u, n, e⟩ := run_watch_reach_nodup hw hs hwf hnd hrun
  have hv := hre.vinv hw hs hwf hnd
  obtain ⟨c, hc⟩ := List.exists_mem_of_ne_nil _ hne
  obtain ⟨i, hi⟩ := List.getElem?_of_mem hc
  obtain ⟨hlt, _⟩ := hv.linv.keep i c hi
  obtain ⟨a, _, _, h2⟩ := (C52_watch_lists hw hs hwf hnd hre).1 i hlt
  have hcount : (s1.wlist a).count i = 1 := by
    rcases h2 with ⟨_, h2⟩ | ⟨b, _, _, _, h2⟩
    · rw [h2 a, if_pos rfl]
    · rw [h2 a, if_pos (.inl rfl)]
  have hmem : i ∈ s.wlist a := by
    rw [e]
    exact List.count_pos_iff.1 (by show 0 < (s1.wlist a).count i; omega)
  refine ⟨a, g0, fun g hle => ⟨_, h, hg g hle, fun k h' => ?_⟩⟩
  have hL : L a ≠ [] := by
    intro h0
    rw [← hr.nums a, h0] at hmem
    simp at hmem
  obtain ⟨x, xs, hx⟩ := List.exists_cons_of_ne_nil hL
  refine C47_fails (p := x.1) ?_ k
  rw [hr.rep.head, hx]
  rfl

example : exMove.clauses ≠ [] ∧ (run (exCfg .VSIDS true) .learn 20 exMove).passes (fun _ => true) = true := by decide +kernel

end Mvl
