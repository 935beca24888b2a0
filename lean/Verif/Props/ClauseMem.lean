import Verif.Proof.ClauseMem
import Verif.Proof.ClauseMemBV
import Verif.Props.Learned
import Verif.Props.BitVec

/-!
# Properties of the clause objects of conflict analysis

C93.
-/

namespace Mvl

variable {S : Type}

/-- There is an allocator. -/
theorem allocC_exists : ∃ new, AllocC new := by
  classical
  refine ⟨fun L => if e : ∃ p, L p = false then e.choose else 0, ?_⟩
  intro L n hn
  have e : ∃ p, L p = false := ⟨n, hn n (Nat.le_refl n)⟩
  dsimp only
  rw [dif_pos e]
  exact e.choose_spec

/-- What conflict analysis leaves in memory: `L0` are the objects before, `L` those after, `b` is the learned clause.  The
learned clause is the only object that is new; all objects of before are still there; every entry of `CLAUSELIST`, the new
one included, points to an object. -/
def CleanMemory (L0 L : Live) (ncl : Nat) (ptr ptr' : Nat → Nat) (b : Nat) : Prop :=
  (∀ p, L p = true ↔ L0 p = true ∨ p = b) ∧ (∀ i, i < ncl → ptr' i = ptr i) ∧ ptr' ncl = b ∧
    ∀ i, i < ncl + 1 → L (ptr' i) = true

theorem CleanMemory.mk' {L0 : Live} {ncl : Nat} {ptr : Nat → Nat} {b : Nat} (h : ∀ i, i < ncl → L0 (ptr i) = true) :
    CleanMemory L0 (upd L0 b true) ncl ptr (upd ptr ncl b) b := by
  refine ⟨fun p => ?_, fun i hi => ?_, by simp [upd], fun i hi => ?_⟩
  · unfold upd
    split
    · rename_i e; simp [e]
    · rename_i e; simp [e]
  · unfold upd; rw [if_neg (by omega)]
  · unfold upd
    by_cases e : i = ncl
    · simp [e]
    · rw [if_neg e]
      split
      · rfl
      · exact h i (by omega)

theorem live_upd_self {L0 : Live} {a : Nat} (h : L0 a = true) : L0 = upd L0 a true := by
  funext q
  unfold upd
  split
  · rename_i e; rw [e, h]
  · rfl

/-- **C93.** `analyzeConflict` on objects that are made and freed, from any state in which every entry of `CLAUSELIST` points
to an object: if it ends without an access outside the arrays it also touches no object that is not there and frees none
twice; it learns the same clause and leaves the same state, up to addresses; every temporary object is freed, nothing else
is, and no clause of before is changed (the conflicting clause itself apart, if that is what is learned). -/
theorem C93_analysis {cfg : Cfg S} {new : Live → Nat} (hn : AllocC new) {s : St S} {L0 : Live}
    (ha : ∀ i, i < s.ncl → s.ptr i < s.nheap) (hlive : ∀ i, i < s.ncl → L0 (s.ptr i) = true) (hfin : L0.Fin) {id : Nat}
    (hid : id < s.ncl) {f : Nat} {t : St S} {c : Cls} (h : analyze cfg f s (s.cl id) (some (s.ptr id)) = .ok (t, c)) :
    ∃ t' L b, manalyze cfg new f s L0 (s.ptr id) false = .ok (t', L, b) ∧ CleanMemory L0 L s.ncl s.ptr t'.ptr b ∧
      (t'.heap b).lits = c.lits ∧ (∀ i, i < s.ncl + 1 → t'.cl i = t.cl i) ∧
      (∀ p, L0 p = true → p ≠ b → t'.heap p = s.heap p) ∧ t'.noH = t.noH := by
  obtain ⟨t', L', b, h1, h2⟩ := manalyze_sim (cfg := cfg) hn ha hlive hfin f s.heap L0 (s.ptr id) false (some (s.ptr id)) t c
    (fun _ _ => rfl) (live_upd_self (hlive id hid)) (Or.inr ⟨rfl, hlive id hid, rfl⟩) h
  refine ⟨t', L', b, h1, ?_, by rw [h2.learned], h2.list, h2.keep, h2.rest⟩
  rw [h2.live, h2.place]
  exact .mk' hlive

/-- Handling a conflict begins with the analysis of the conflicting clause. -/
theorem conflictNC_analyze {cfg : Cfg S} {f : Nat} {s : St S} {rc : Int} {q : St S × Int} (h : conflictNC cfg f s rc = .ok q) :
    s.conflicting.toNat < s.ncl ∧ ∃ t c, analyze cfg f s (s.cl s.conflicting.toNat) (some (s.ptr s.conflicting.toNat)) = .ok (t, c) := by
  unfold conflictNC at h
  split at h
  · cases h
  · rename_i hc
    refine ⟨by omega, ?_⟩
    obtain ⟨⟨t, c⟩, h1, _⟩ := Res.bind_eq_ok.1 h
    exact ⟨t, c, h1⟩

theorem conflictWL_analyze {cfg : Cfg S} {f : Nat} {s : St S} {rc : Int} {q : St S × Int} (h : conflictWL cfg f s rc = .ok q) :
    s.conflicting.toNat < s.ncl ∧ ∃ t c, analyze cfg f s (s.cl s.conflicting.toNat) (some (s.ptr s.conflicting.toNat)) = .ok (t, c) := by
  unfold conflictWL at h
  split at h
  · cases h
  · rename_i hc
    refine ⟨by omega, ?_⟩
    obtain ⟨⟨t, c⟩, h1, _⟩ := Res.bind_eq_ok.1 h
    exact ⟨t, c, h1⟩

/-- **C93**, `-solvenc` without `-wl`: every conflict the search handles. -/
theorem C93_learn {cfg : Cfg S} (hw : cfg.watch = false) (hs : cfg.ScoreOK) {P : Problem} (hwf : P.Proper) {s : St S}
    {rc : Int} (h : NReach cfg P s rc) {f : Nat} {q : St S × Int} (hrun : conflictNC cfg f s rc = .ok q) {new : Live → Nat}
    (hn : AllocC new) {L0 : Live} (hlive : ∀ i, i < s.ncl → L0 (s.ptr i) = true) (hfin : L0.Fin) :
    ∃ t c t' L b, analyze cfg f s (s.cl s.conflicting.toNat) (some (s.ptr s.conflicting.toNat)) = .ok (t, c) ∧
      manalyze cfg new f s L0 (s.ptr s.conflicting.toNat) false = .ok (t', L, b) ∧
      CleanMemory L0 L s.ncl s.ptr t'.ptr b ∧ (t'.heap b).lits = c.lits ∧ (∀ i, i < s.ncl + 1 → t'.cl i = t.cl i) ∧
      (∀ p, L0 p = true → p ≠ b → t'.heap p = s.heap p) ∧ t'.noH = t.noH := by
  obtain ⟨G, hd⟩ := h.dninv hw hs hwf
  obtain ⟨hid, t, c, h1⟩ := conflictNC_analyze hrun
  obtain ⟨t', L, b, h2⟩ := C93_analysis hn hd.inv.cnt.store.alloc hlive hfin hid h1
  exact ⟨t, c, t', L, b, h1, h2⟩

/-- **C93**, `-solvenc -wl`, on duplicate-free files: every conflict the search handles. -/
theorem C93_watch {cfg : Cfg S} (hw : cfg.watch = true) (hs : cfg.ScoreOK) {P : Problem} (hwf : P.Proper) (hnd : P.NoDupLits)
    {s : St S} {rc : Int} (h : WReach cfg P s rc) {f : Nat} {q : St S × Int} (hrun : conflictWL cfg f s rc = .ok q)
    {new : Live → Nat} (hn : AllocC new) {L0 : Live} (hlive : ∀ i, i < s.ncl → L0 (s.ptr i) = true) (hfin : L0.Fin) :
    ∃ t c t' L b, analyze cfg f s (s.cl s.conflicting.toNat) (some (s.ptr s.conflicting.toNat)) = .ok (t, c) ∧
      manalyze cfg new f s L0 (s.ptr s.conflicting.toNat) false = .ok (t', L, b) ∧
      CleanMemory L0 L s.ncl s.ptr t'.ptr b ∧ (t'.heap b).lits = c.lits ∧ (∀ i, i < s.ncl + 1 → t'.cl i = t.cl i) ∧
      (∀ p, L0 p = true → p ≠ b → t'.heap p = s.heap p) ∧ t'.noH = t.noH := by
  have hd := h.vinv hw hs hwf hnd
  obtain ⟨hid, t, c, h1⟩ := conflictWL_analyze hrun
  obtain ⟨t', L, b, h2⟩ := C93_analysis hn hd.inv.core.alloc hlive hfin hid h1
  exact ⟨t, c, t', L, b, h1, h2⟩

/-! ## Examples -/

/-- A first-fit allocator for less than 100 objects. -/
def exNewClause (L : Live) : Nat := ((List.range 100).find? fun p => !L p).getD 100

/-- The objects of `CLAUSELIST`. -/
def listed (s : St S) : Live := fun p => (List.range s.ncl).any fun i => s.ptr i == p

/-- The number of objects, below the address 100. -/
def objects (L : Live) : Nat := (List.range 100).countP fun p => L p

/-- A conflict of the search with counters: analysis is not finished at once, the learned clause is a new object, and that is
the only one more. -/
example : (ncState (exCfg .BK false) exSat3 2).passes (fun p => p.1.conflict &&
    !(analyze (exCfg .BK false) 1 p.1 (p.1.cl p.1.conflicting.toNat) none).passes (fun _ => true) &&
    (manalyze (exCfg .BK false) exNewClause 50 p.1 (listed p.1) (p.1.ptr p.1.conflicting.toNat) false).passes
      fun r => !listed p.1 r.2.2 && objects r.2.1 == objects (listed p.1) + 1) = true := by decide +kernel

/-- The hypothesis on the objects matters: were the conflicting clause freed, the analysis would read a freed object. -/
example : (ncState (exCfg .BK false) exSat3 2).passes (fun p =>
    !(manalyze (exCfg .BK false) exNewClause 50 p.1 (upd (listed p.1) (p.1.ptr p.1.conflicting.toNat) false)
      (p.1.ptr p.1.conflicting.toNat) false).passes fun _ => true) = true := by decide +kernel

/-- A conflict of the search with watched literals. -/
example : (List.range 30).any (fun n => (wlState (exCfg .lazy true) exPigeon n).passes (fun p => p.1.conflict &&
    (manalyze (exCfg .lazy true) exNewClause 50 p.1 (listed p.1) (p.1.ptr p.1.conflicting.toNat) false).passes
      fun r => !listed p.1 r.2.2 && objects r.2.1 == objects (listed p.1) + 1)) = true := by decide +kernel

namespace BV

/-- **C93**, the bit-vector program, from any state. -/
theorem C93_bitvec_analysis {A : ScoreArith S} {new : Live → Nat} (hn : AllocC new) {s : BSt S} {L0 : Live}
    (ha : ∀ i, i < s.ncl → s.ptr i < s.nheap) (hlive : ∀ i, i < s.ncl → L0 (s.ptr i) = true) (hfin : L0.Fin) {id : Nat}
    (hid : id < s.ncl) {f : Nat} {t : BSt S} {c : BCls} (h : banalyze A f s (s.cl id) (some (s.ptr id)) = .ok (t, c)) :
    ∃ t' L b, bmanalyze A new f s L0 (s.ptr id) false = .ok (t', L, b) ∧ CleanMemory L0 L s.ncl s.ptr t'.ptr b ∧
      t'.heap b = c ∧ (∀ i, i < s.ncl + 1 → t'.cl i = t.cl i) ∧ (∀ p, L0 p = true → t'.heap p = s.heap p) ∧
      t'.noH = t.noH := by
  obtain ⟨t', L', b, h1, h2⟩ := bmanalyze_sim (A := A) hn ha hlive hfin f s.heap L0 (s.ptr id) false (some (s.ptr id)) t c
    (fun _ _ => rfl) (live_upd_self (hlive id hid)) (Or.inr ⟨rfl, hlive id hid, rfl⟩) h
  refine ⟨t', L', b, h1, ?_, h2.learned, h2.list, h2.keep, h2.rest⟩
  rw [h2.live, h2.place]
  exact .mk' hlive

/-- **C93**, the bit-vector program, with or without restarts: every conflict the search handles. -/
theorem C93_bitvec {cfg : BCfg S} (hs : cfg.ScoreOK) {P : Problem} (hwf : P.Regular) (h64 : Fits P) {s : BSt S} {rc : Int}
    (h : BReach cfg P s rc) {f : Nat} {q : BSt S × Int} (hrun : bconflict cfg f s rc = .ok q) {new : Live → Nat}
    (hn : AllocC new) {L0 : Live} (hlive : ∀ i, i < s.ncl → L0 (s.ptr i) = true) (hfin : L0.Fin) :
    ∃ t c t' L b, banalyze cfg.arith f s (s.cl s.conflicting.toNat) (some (s.ptr s.conflicting.toNat)) = .ok (t, c) ∧
      bmanalyze cfg.arith new f s L0 (s.ptr s.conflicting.toNat) false = .ok (t', L, b) ∧
      CleanMemory L0 L s.ncl s.ptr t'.ptr b ∧ t'.heap b = c ∧ (∀ i, i < s.ncl + 1 → t'.cl i = t.cl i) ∧
      (∀ p, L0 p = true → t'.heap p = s.heap p) ∧ t'.noH = t.noH := by
  have hd := h.any hs hwf h64
  unfold bconflict at hrun
  split at hrun
  · cases hrun
  · rename_i hc
    obtain ⟨⟨t, c⟩, h1, _⟩ := Res.bind_eq_ok.1 hrun
    obtain ⟨t', L, b, h2⟩ := C93_bitvec_analysis hn hd.inv.ptr hlive hfin (by omega) h1
    exact ⟨t, c, t', L, b, h1, h2⟩

/-- The objects of `CLAUSELIST`. -/
def blisted (s : BSt S) : Live := fun p => (List.range s.ncl).any fun i => s.ptr i == p

/-- A conflict of the bit-vector search whose analysis makes a new clause. -/
example : (bbuild ScoreArith.dyadic exUns >>= fun s => bsteps (exB false 0) 60 9 s 0).passes (fun p => p.1.conflict &&
    (bmanalyze ScoreArith.dyadic exNewClause 50 p.1 (blisted p.1) (p.1.ptr p.1.conflicting.toNat) false).passes
      fun r => !blisted p.1 r.2.2 && objects r.2.1 == objects (blisted p.1) + 1) = true := by decide +kernel

end BV

end Mvl
