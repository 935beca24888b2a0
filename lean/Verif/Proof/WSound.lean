import Verif.Proof.WLRun
import Verif.Proof.DNC
import Verif.Proof.LReach

/-!
# Clause learning with watched literals on any file: the clause list stays sound

Resolution is sound whatever the state of the trail, so the clauses learned are consequences of the file even when repeated
literals break the watches.
-/

namespace Mvl

variable {S : Type}

/-- The variable exists. -/
def VarIn (n : Nat) (l : Lit) : Prop := 1 ≤ l.var ∧ l.var ≤ n

/-- Literals and watches of the clause name existing variables. -/
structure ClsIn (n : Nat) (c : Cls) : Prop where
  lits : ∀ l ∈ c.lits, VarIn n l
  w0 : ∀ l, c.w0 = some l → VarIn n l
  w1 : ∀ l, c.w1 = some l → VarIn n l

/-- Clause numbers in the watch lists and in the queue are in range. -/
def Ids (s : St S) : Prop := (∀ l, ∀ id ∈ s.wlist l, id < s.ncl) ∧ ∀ id ∈ s.units, id < s.ncl

/-- What assignments leave alone. -/
structure WSame (s s' : St S) : Prop where
  nv : s'.nv = s.nv
  dom : s'.dom = s.dom
  ncl : s'.ncl = s.ncl
  ptr : s'.ptr = s.ptr
  nheap : s'.nheap = s.nheap
  score : s'.score = s.score
  heap : ∀ p, (s'.heap p).lits = (s.heap p).lits ∧ (ClsIn s.nv (s.heap p) → ClsIn s.nv (s'.heap p))
  decs : (∀ l ∈ s.decs, VarIn s.nv l) → ∀ l ∈ s'.decs, VarIn s.nv l
  ids : Ids s'

theorem WSame.refl {s : St S} (hi : Ids s) : WSame s s := ⟨rfl, rfl, rfl, rfl, rfl, rfl, fun _ => ⟨rfl, id⟩, id, hi⟩

theorem WSame.trans {s s' s'' : St S} (h1 : WSame s s') (h2 : WSame s' s'') : WSame s s'' := by
  refine ⟨h2.nv.trans h1.nv, h2.dom.trans h1.dom, h2.ncl.trans h1.ncl, h2.ptr.trans h1.ptr, h2.nheap.trans h1.nheap,
    h2.score.trans h1.score, fun p => ⟨(h2.heap p).1.trans (h1.heap p).1, fun h => ?_⟩, fun h => ?_, h2.ids⟩
  · have := (h2.heap p).2; rw [h1.nv] at this; exact this ((h1.heap p).2 h)
  · have := h2.decs; rw [h1.nv] at this; exact this (h1.decs h)

theorem WSame.set {s : St S} (hi : Ids s) {id : Nat} {c : Cls} (hl : c.lits = (s.cl id).lits)
    (hc : ClsIn s.nv (s.cl id) → ClsIn s.nv c) : WSame s (s.setCl id c) := by
  refine ⟨rfl, rfl, rfl, rfl, rfl, rfl, fun p => ?_, fun h => h, hi⟩
  show ((upd s.heap (s.ptr id) c) p).lits = _ ∧ (_ → ClsIn s.nv ((upd s.heap (s.ptr id) c) p))
  unfold upd
  split
  · rename_i h; rw [h]; exact ⟨hl, hc⟩
  · exact ⟨rfl, fun h => h⟩

theorem swapPointer_same {s : St S} (hi : Ids s) {id : Nat} (hid : id < s.ncl) (cur : Lit) : WSame s (swapPointer s id cur) := by
  have keep : ∀ (c : Bool) (cg : Int) (b : Bool), WSame s { s with conflict := c, conflicting := cg, ub := b } :=
    fun _ _ _ => ⟨rfl, rfl, rfl, rfl, rfl, rfl, fun _ => ⟨rfl, fun h => h⟩, fun h => h, hi⟩
  unfold swapPointer
  dsimp only
  split
  · split
    · exact keep s.conflict s.conflicting true
    · split
      · split
        · rename_i l hl
          split
          · have hm := List.mem_of_find?_eq_some hl
            have hrem : ∀ x, ∀ i ∈ (removeWatch s cur id).wlist x, i < s.ncl := by
              intro x i hx
              unfold removeWatch upd at hx
              dsimp only at hx
              split at hx
              · exact hi.1 cur i (List.mem_of_mem_erase hx)
              · exact hi.1 x i hx
            have hids : Ids (addWatch (removeWatch s cur id) l id) := by
              refine ⟨?_, hi.2⟩
              intro x i hx
              unfold addWatch upd at hx
              dsimp only at hx
              show i < s.ncl
              split at hx
              · rcases List.mem_cons.1 hx with rfl | hx
                · exact hid
                · exact hrem l i hx
              · exact hrem x i hx
            refine WSame.trans (s' := addWatch (removeWatch s cur id) l id) ?_ (WSame.set hids rfl ?_)
            · exact ⟨rfl, rfl, rfl, rfl, rfl, rfl, fun _ => ⟨rfl, fun h => h⟩, fun h => h, hids⟩
            · intro hc
              refine ⟨hc.lits, ?_, hc.w1⟩
              intro x hx; cases hx; exact hc.lits l hm
          · exact keep s.conflict s.conflicting true
        · refine ⟨rfl, rfl, rfl, rfl, rfl, rfl, fun _ => ⟨rfl, fun h => h⟩, fun h => h, ⟨hi.1, ?_⟩⟩
          intro i hx
          rcases List.mem_cons.1 hx with rfl | hx
          · exact hid
          · exact hi.2 i hx
      · exact keep true id s.ub
  · exact keep true id s.ub

theorem falsifyOne_same (l : Lit) {s : St S} (hi : Ids s) {id : Nat} (hid : id < s.ncl) : WSame s (falsifyOne l s id) := by
  have flip : WSame s (s.setCl id { s.cl id with w0 := (s.cl id).w1, w1 := (s.cl id).w0 }) :=
    WSame.set hi rfl fun h => ⟨h.lits, h.w1, h.w0⟩
  have err : WSame s { s with ub := true } :=
    ⟨rfl, rfl, rfl, rfl, rfl, rfl, fun _ => ⟨rfl, fun h => h⟩, fun h => h, hi⟩
  unfold falsifyOne
  dsimp only
  split
  · exact WSame.refl hi
  · split
    · exact err
    · split
      · split
        · exact err
        · split
          · exact flip
          · split
            · exact flip.trans (swapPointer_same flip.ids hid _)
            · exact swapPointer_same hi hid _
      · exact WSame.refl hi

theorem falsifyFold_same (l : Lit) : ∀ (ids : List Nat) {s : St S}, Ids s → (∀ id ∈ ids, id < s.ncl) →
    WSame s (ids.foldl (falsifyOne l) s)
  | [], _, hi, _ => WSame.refl hi
  | id :: ids, s, hi, h => by
    have h1 := falsifyOne_same l hi (id := id) (h id (by simp))
    exact h1.trans (falsifyFold_same l ids h1.ids fun i hx => by rw [h1.ncl]; exact h i (by simp [hx]))

theorem wassign1_same {s : St S} (hi : Ids s) (v d : Nat) (a : Asg) : WSame s (wassign1 s v d a) :=
  WSame.trans (s' := wsetAtom s v d a) ⟨rfl, rfl, rfl, rfl, rfl, rfl, fun _ => ⟨rfl, fun h => h⟩, fun h => h, hi⟩
    (falsifyFold_same _ _ hi (hi.1 _))

theorem wexclude_same (v : Nat) : ∀ (is : List Nat) {s : St S}, Ids s → WSame s (is.foldl (wexcludeOne v) s)
  | [], _, hi => WSame.refl hi
  | i :: is, s, hi => by
    rw [List.foldl_cons]
    have h1 : WSame s (wexcludeOne v s i) := by
      unfold wexcludeOne
      split
      · exact WSame.refl hi
      · split
        · exact wassign1_same hi _ _ _
        · exact WSame.refl hi
    exact h1.trans (wexclude_same v is h1.ids)

theorem push_same {s : St S} (hi : Ids s) {l : Lit} (hl : VarIn s.nv l) (vv : Nat → Option Nat) :
    WSame s { s with decs := s.decs ++ [l], vval := vv } := by
  refine ⟨rfl, rfl, rfl, rfl, rfl, rfl, fun _ => ⟨rfl, fun h => h⟩, fun h x hx => ?_, hi⟩
  rcases List.mem_append.1 hx with hx | hx
  · exact h x hx
  · rw [List.mem_singleton.1 hx]; exact hl

theorem wreduceEq_same {s : St S} (hi : Ids s) {v : Nat} (d : Nat) (hv : 1 ≤ v ∧ v ≤ s.nv) : WSame s (wreduceEq s v d) := by
  unfold wreduceEq
  dsimp only
  have h1 := push_same hi (l := ⟨v, d, true⟩) hv (upd s.vval v (some d))
  have h2 := h1.trans (wassign1_same h1.ids v d .eq)
  have h3 := h2.trans (wexclude_same v (List.range d) h2.ids)
  exact h3.trans (wexclude_same v _ h3.ids)

theorem wreduceTheory_same {s : St S} (hi : Ids s) {l : Lit} (hl : VarIn s.nv l) : WSame s (wreduceTheory s l) := by
  unfold wreduceTheory
  split
  · exact wreduceEq_same hi _ hl
  · dsimp only
    have h0 := push_same (s := s) hi (l := ⟨l.var, l.val, false⟩) hl s.vval
    have h1 : WSame s (wassign1 { s with decs := s.decs ++ [⟨l.var, l.val, false⟩] } l.var l.val .ne) :=
      h0.trans (wassign1_same h0.ids _ _ _)
    generalize wassign1 { s with decs := s.decs ++ [⟨l.var, l.val, false⟩] } l.var l.val .ne = t at h1 ⊢
    split
    · refine h1.trans (WSame.trans (s' := { t with nEntails := t.nEntails + 1, unitClause := -2 }) ?_
        (wreduceEq_same (s := { t with nEntails := t.nEntails + 1, unitClause := -2 }) h1.ids _ ?_))
      · exact ⟨rfl, rfl, rfl, rfl, rfl, rfl, fun _ => ⟨rfl, fun h => h⟩, fun h => h, h1.ids⟩
      · show 1 ≤ l.var ∧ l.var ≤ t.nv
        rw [h1.nv]; exact hl
    · exact h1

theorem undoDecs_sub (s : St S) : ∀ (k : Nat) (ds : List Lit), ∀ l ∈ undoDecs s k ds, l ∈ ds
  | 0, _, _, h => h
  | k + 1, ds, l, h => by
    unfold undoDecs at h
    split at h
    · have := undoDecs_sub s k _ l h
      split at this
      · exact List.mem_of_mem_eraseIdx this
      · exact this
    · exact undoDecs_sub s k _ l h

theorem wundoAtoms_same (k : Int) : ∀ (as : List (Nat × Nat)) {s : St S}, Ids s → WSame s (as.foldl (wundoAtom k) s)
  | [], _, hi => WSame.refl hi
  | a :: as, s, hi => by
    rw [List.foldl_cons]
    have h1 : WSame s (wundoAtom k s a) := by
      unfold wundoAtom
      split
      · exact ⟨rfl, rfl, rfl, rfl, rfl, rfl, fun _ => ⟨rfl, fun h => h⟩, fun h => h, hi⟩
      · exact WSame.refl hi
    exact h1.trans (wundoAtoms_same k as h1.ids)

theorem wundoTheory_same {s : St S} (hi : Ids s) (k : Int) : WSame s (wundoTheory s k) := by
  unfold wundoTheory
  dsimp only
  have h1 := wundoAtoms_same k s.atoms hi
  refine h1.trans ⟨rfl, rfl, rfl, rfl, rfl, rfl, fun _ => ⟨rfl, fun h => h⟩, fun h l hl => ?_, h1.ids⟩
  exact h l (undoDecs_sub _ _ _ l hl)

/-- The invariant: the clause list starts with the file and follows from it. -/
structure KInv (cfg : Cfg S) (P : Problem) (s : St S) : Prop where
  nv : s.nv = P.numVars
  dom : s.dom = P.dom
  alloc : ∀ id, id < s.ncl → s.ptr id < s.nheap
  rng : ∀ id, id < s.ncl → ClsIn s.nv (s.cl id)
  decs : ∀ l ∈ s.decs, VarIn s.nv l
  keep : ∀ (i : Nat) (c : List Lit), P.clauses[i]? = some c → i < s.ncl ∧ (s.cl i).lits = c
  sound : ∀ a, P.widen.Solves a → s.Model a
  pos : ∀ pos, cfg.arith.Good pos → ∀ l, pos (s.score l)
  ids : Ids s

theorem KInv.same {cfg : Cfg S} {P : Problem} {s s' : St S} (h : KInv cfg P s) (hs : WSame s s') : KInv cfg P s' := by
  have hcl : ∀ id, (s'.cl id).lits = (s.cl id).lits := by
    intro id
    have := (hs.heap (s.ptr id)).1
    unfold St.cl; rw [hs.ptr]; exact this
  refine ⟨hs.nv.trans h.nv, hs.dom.trans h.dom, ?_, ?_, ?_, ?_, ?_, ?_, hs.ids⟩
  · intro id hid; rw [hs.ncl] at hid; rw [hs.ptr, hs.nheap]; exact h.alloc id hid
  · intro id hid
    rw [hs.ncl] at hid
    have := (hs.heap (s.ptr id)).2 (h.rng id hid)
    unfold St.cl; rw [hs.ptr, hs.nv]; exact this
  · rw [hs.nv]; exact hs.decs h.decs
  · intro i c hc; rw [hs.ncl, hcl]; exact h.keep i c hc
  · intro a ha
    have hm := h.sound a ha
    refine ⟨?_, ?_⟩
    · rw [hs.nv, hs.dom]; exact hm.1
    · intro id hid; rw [hs.ncl] at hid; rw [hcl]; exact hm.2 id hid
  · rw [hs.score]; exact h.pos

theorem Read.kinv {cfg : Cfg S} {P : Problem} {s : St S} (h : Read cfg P.doms P.clauses s) (hw : cfg.watch = true) (hwf : P.WellFormed) :
    KInv cfg P s := by
  have hptr : ∀ id, id < s.ncl → s.ptr id < s.nheap := by
    intro id hid
    rw [h.ncl] at hid
    rw [h.ptr id hid]
    obtain ⟨_, _, _, _, _, _, _, e⟩ := h.frame
    rw [e]; exact hid
  refine ⟨h.nv, h.dom, hptr, ?_, ?_, ?_, fun a ha => (h.model a).2 ha, h.pos, ?_, ?_⟩
  · intro id hid
    obtain ⟨c, _, hc, he⟩ := h.cl_of_lt hid
    have hv : ∀ l ∈ c, VarIn s.nv l := by
      intro l hl
      have := hwf.lits_ok c hc l hl
      rw [h.nv]; exact ⟨this.1, this.2.1⟩
    rw [he]
    refine ⟨by rw [mkCls_lits]; exact hv, ?_, ?_⟩
    all_goals
      intro l hl
      unfold mkCls at hl
      rw [if_pos hw] at hl
      exact hv l (List.mem_of_getElem? hl)
  · intro l hl
    obtain ⟨_, _, _, _, _, _, _, e⟩ := h.frame
    rw [e] at hl; simp [initSt] at hl
  · intro i c hc
    have hlt : i < P.clauses.length := by
      rcases Nat.lt_or_ge i P.clauses.length with h' | h'
      · exact h'
      · rw [List.getElem?_eq_none h'] at hc; simp at hc
    exact ⟨by rw [h.ncl]; exact hlt, by rw [h.cl hc, mkCls_lits]⟩
  · intro l id hid
    rw [h.ncl]
    rcases Nat.lt_or_ge id P.clauses.length with h' | h'
    · exact h'
    · have := h.wlist hw l id
      rw [List.getElem?_eq_none h'] at this
      have h2 := List.count_pos_iff.2 hid
      simp at this; omega
  · intro id hid
    obtain ⟨c, hc, _⟩ := (h.units id).1 hid
    rw [h.ncl]
    rcases Nat.lt_or_ge id P.clauses.length with h' | h'
    · exact h'
    · rw [List.getElem?_eq_none h'] at hc; simp at hc

/-- Records and scores of a new clause. -/
def learnRecs (cfg : Cfg S) (k : Nat) (ls : List Lit) (t : St S) : St S :=
  let s4 := halveScores cfg (ls.foldl (learnLit cfg k) t)
  { s4 with flowOff := s4.flowOff + 1 }

/-- Watches of a new clause. -/
def learnWatch (cfg : Cfg S) (k : Nat) (c : Cls) (t : St S) : St S :=
  if cfg.watch then
    let u := match c.w0 with
      | some w => addWatch t w k
      | none => { t with ub := true }
    if c.lits.length > 1 then
      match c.w1 with
      | some w => addWatch u w k
      | none => { u with ub := true }
    else u
  else t

/-- The new entry of the clause list. -/
def learnPlace (s : St S) (c : Cls) (p : Option Nat) : St S :=
  match p with
  | some a => { s with heap := upd s.heap a { c with numUn := 0 }, ptr := upd s.ptr s.ncl a, ncl := s.ncl + 1 }
  | none =>
    { s with
        heap := upd s.heap s.nheap { c with numUn := 0 }, nheap := s.nheap + 1,
        ptr := upd s.ptr s.ncl s.nheap, ncl := s.ncl + 1 }

theorem learnClause_split (cfg : Cfg S) (s : St S) (c : Cls) (p : Option Nat) :
    learnClause cfg s c p = learnRecs cfg s.ncl c.lits (learnWatch cfg s.ncl c (learnPlace s c p)) := by
  cases p <;> rfl

theorem learnRecs_eq (cfg : Cfg S) (k : Nat) (ls : List Lit) (t : St S) :
    ∃ sc r, learnRecs cfg k ls t = { t with score := sc, recs := r, flowOff := t.flowOff + 1 } := by
  have hbump : ∀ (l : Lit) (t : St S), ∃ sc, bump cfg t l = { t with score := sc } := by
    intro l t
    unfold bump
    split
    · exact ⟨_, rfl⟩
    · split
      · exact ⟨_, rfl⟩
      · generalize List.range (t.dom l.var) = js
        induction js generalizing t with
        | nil => exact ⟨_, rfl⟩
        | cons j js ih =>
          rw [List.foldl_cons]
          split
          · obtain ⟨sc, e⟩ := ih { t with score := upd t.score ⟨l.var, j, true⟩ (cfg.arith.inc (t.score ⟨l.var, j, true⟩)) }
            exact ⟨sc, e⟩
          · exact ih t
    · exact ⟨t.score, rfl⟩
  have hlit : ∀ (ls : List Lit) (t : St S), ∃ sc r, ls.foldl (learnLit cfg k) t = { t with score := sc, recs := r } := by
    intro ls
    induction ls with
    | nil => intro t; exact ⟨t.score, t.recs, rfl⟩
    | cons l ls ih =>
      intro t
      rw [List.foldl_cons]
      obtain ⟨sc, r, e⟩ := ih (learnLit cfg k t l)
      rw [e]
      unfold learnLit
      dsimp only
      split
      · obtain ⟨sc', e'⟩ := hbump l t
        rw [e']; exact ⟨_, _, rfl⟩
      · obtain ⟨sc', e'⟩ := hbump l { t with recs := upd t.recs l (t.recs l ++ [k]) }
        rw [e']; exact ⟨_, _, rfl⟩
  have hhalf : ∀ t : St S, ∃ sc, halveScores cfg t = { t with score := sc } := by
    intro t
    unfold halveScores
    split
    · exact ⟨_, rfl⟩
    · exact ⟨_, rfl⟩
    · exact ⟨t.score, rfl⟩
  obtain ⟨sc, r, e⟩ := hlit ls t
  obtain ⟨sc', e'⟩ := hhalf { t with score := sc, recs := r }
  unfold learnRecs
  rw [e, e']
  exact ⟨sc', r, rfl⟩

theorem learnWatch_eq (cfg : Cfg S) (k : Nat) (c : Cls) (t : St S) :
    ∃ w b, ((∀ l, ∀ id ∈ t.wlist l, id < k) → ∀ l, ∀ id ∈ w l, id < k + 1) ∧
      learnWatch cfg k c t = { t with wlist := w, ub := b } := by
  have h0 : (∀ l, ∀ id ∈ t.wlist l, id < k) → ∀ l, ∀ id ∈ t.wlist l, id < k + 1 :=
    fun h l id hid => Nat.lt_succ_of_lt (h l id hid)
  have ha : ∀ (u : Lit → List Nat) (x : Lit), (∀ l, ∀ id ∈ u l, id < k + 1) →
      ∀ l, ∀ id ∈ upd u x (k :: u x) l, id < k + 1 := by
    intro u x h l id hid
    unfold upd at hid
    split at hid
    · rcases List.mem_cons.1 hid with rfl | hid
      · exact Nat.lt_succ_self _
      · exact h x id hid
    · exact h l id hid
  unfold learnWatch
  split
  · cases h1 : c.w0 <;> cases h2 : c.w1 <;> dsimp only <;> split
    · exact ⟨_, _, h0, rfl⟩
    · exact ⟨_, _, h0, rfl⟩
    · exact ⟨_, _, fun h => ha _ _ (h0 h), rfl⟩
    · exact ⟨_, _, h0, rfl⟩
    · exact ⟨_, _, fun h => ha _ _ (h0 h), rfl⟩
    · exact ⟨_, _, fun h => ha _ _ (h0 h), rfl⟩
    · exact ⟨_, _, fun h => ha _ _ (ha _ _ (h0 h)), rfl⟩
    · exact ⟨_, _, fun h => ha _ _ (h0 h), rfl⟩
  · exact ⟨t.wlist, t.ub, h0, rfl⟩

theorem learnPlace_eq (s : St S) (c : Cls) (p : Option Nat) : learnPlace s c p =
    { s with
        heap := upd s.heap (p.getD s.nheap) { c with numUn := 0 },
        nheap := (if p = none then s.nheap + 1 else s.nheap), ptr := upd s.ptr s.ncl (p.getD s.nheap),
        ncl := s.ncl + 1 } := by
  cases p <;> rfl

/-- `learnClause` in full. -/
theorem learnClause_any (cfg : Cfg S) (s : St S) (c : Cls) (p : Option Nat) :
    ∃ sc r w b, ((∀ l, ∀ id ∈ s.wlist l, id < s.ncl) → ∀ l, ∀ id ∈ w l, id < s.ncl + 1) ∧ learnClause cfg s c p =
      { s with
          heap := upd s.heap (p.getD s.nheap) { c with numUn := 0 },
          nheap := (if p = none then s.nheap + 1 else s.nheap), ptr := upd s.ptr s.ncl (p.getD s.nheap),
          ncl := s.ncl + 1, score := sc, recs := r, wlist := w, ub := b, flowOff := s.flowOff + 1 } := by
  obtain ⟨w, b, h1, e1⟩ := learnWatch_eq cfg s.ncl c (learnPlace s c p)
  obtain ⟨sc, r, e2⟩ := learnRecs_eq cfg s.ncl c.lits (learnWatch cfg s.ncl c (learnPlace s c p))
  rw [learnPlace_eq] at h1
  refine ⟨sc, r, w, b, h1, ?_⟩
  rw [learnClause_split, e2, e1, learnPlace_eq]

theorem assignWatchedLoop_mem (s : St S) : ∀ (ls : List Lit) (w1 w2 : Option Lit) (m1 m2 : Int) (Q : Lit → Prop),
    (∀ l ∈ ls, Q l) → (∀ l, w1 = some l → Q l) → (∀ l, w2 = some l → Q l) →
    (∀ l, (assignWatchedLoop s ls w1 w2 m1 m2).1 = some l → Q l) ∧
    (∀ l, (assignWatchedLoop s ls w1 w2 m1 m2).2 = some l → Q l)
  | [], _, _, _, _, _, _, h1, h2 => ⟨h1, h2⟩
  | x :: ls, w1, w2, m1, m2, Q, h, h1, h2 => by
    have hx : ∀ l, some x = some l → Q l := by intro l e; cases e; exact h x (by simp)
    have hr : ∀ l ∈ ls, Q l := fun l hl => h l (by simp [hl])
    unfold assignWatchedLoop
    split
    · exact assignWatchedLoop_mem s ls _ _ _ _ Q hr hx h1
    · split
      · exact assignWatchedLoop_mem s ls _ _ _ _ Q hr h1 hx
      · exact assignWatchedLoop_mem s ls _ _ _ _ Q hr h1 h2

/-- The clause the analysis starts from, or returns: a consequence of the clause list, and if it is an object already stored,
that object. -/
structure Cons (s : St S) (c : Cls) (p : Option Nat) : Prop where
  rng : ClsIn s.nv c
  holds : ∀ a, s.Model a → clauseHolds a c.lits
  origin : ∀ q, p = some q → s.heap q = c ∧ q < s.nheap

theorem reasonOf_cons {s : St S} {l : Lit} {r : List Lit} (hl : VarIn s.nv l) (hr : ∀ id, id < s.ncl → ClsIn s.nv (s.cl id))
    (hd : ∀ l ∈ s.decs, VarIn s.nv l) (h2 : ∀ v, 1 ≤ v → v ≤ s.nv → 2 ≤ s.dom v) (h : reasonOf s l = .ok r) :
    (∀ x ∈ r, VarIn s.nv x) ∧ ∀ a, s.Model a → clauseHolds a r := by
  rcases reasonOf_ok h with ⟨_, L, hL, rfl⟩ | ⟨_, rfl⟩ | ⟨id, _, h2⟩
  · have hL := hd L (List.mem_of_getElem? hL)
    refine ⟨?_, fun a _ => ?_⟩
    · intro x hx
      simp only [List.mem_cons, List.not_mem_nil, or_false] at hx
      rcases hx with rfl | rfl <;> exact hL
    · by_cases h : a L.var = L.val
      · exact ⟨⟨L.var, L.val, true⟩, by simp, by simpa [Lit.holds] using h⟩
      · exact ⟨⟨L.var, L.val, false⟩, by simp, by simpa [Lit.holds] using h⟩
  · refine ⟨?_, fun a ha => ?_⟩
    · intro x hx
      obtain ⟨k, _, rfl⟩ := List.mem_map.1 hx
      exact hl
    · refine ⟨⟨l.var, a l.var, true⟩, List.mem_map.2 ⟨a l.var, List.mem_range.2 ?_, rfl⟩, by simp [Lit.holds]⟩
      have := ha.1 l.var hl.1 hl.2
      have := h2 l.var hl.1 hl.2
      show a l.var < s.dom l.var
      omega
  · unfold St.lits? at h2
    split at h2
    · rename_i hid
      cases h2
      exact ⟨(hr id hid).lits, fun a ha => ha.2 id hid⟩
    · simp at h2

theorem analyze_cons (cfg : Cfg S) (hw : cfg.watch = true) {s : St S} (hr : ∀ id, id < s.ncl → ClsIn s.nv (s.cl id))
    (hd : ∀ l ∈ s.decs, VarIn s.nv l) (hd2 : ∀ v, 1 ≤ v → v ≤ s.nv → 2 ≤ s.dom v) :
    ∀ (f : Nat) (c : Cls) (p : Option Nat) (r : St S × Cls), Cons s c p →
    analyze cfg f s c p = .ok r → ∃ p', r.1 = learnClause cfg s r.2 p' ∧ Cons s r.2 p'
  | 0, _, _, _, _, h => by simp [analyze] at h
  | f + 1, c, p, r, hc, h => by
    unfold analyze at h
    obtain ⟨b, _, h⟩ := Res.bind_eq_ok.1 h
    cases b with
    | true =>
      rw [if_pos rfl] at h
      cases h
      exact ⟨p, rfl, hc⟩
    | false =>
      rw [if_neg (by simp)] at h
      obtain ⟨l, hl, h⟩ := Res.bind_eq_ok.1 h
      obtain ⟨q, hq, h⟩ := Res.bind_eq_ok.1 h
      have hlv : VarIn s.nv l := by
        unfold lastFalse at hl
        rw [if_pos hw] at hl
        split at hl
        · rename_i w h0; cases hl; exact hc.rng.w0 _ h0
        · simp at hl
      obtain ⟨h1, h2⟩ := reasonOf_cons hlv hr hd hd2 hq
      dsimp only at h
      rw [if_pos hw] at h
      refine analyze_cons cfg hw hr hd hd2 f _ none r ⟨?_, ?_, fun q h => by simp at h⟩ h
      · have hres : ∀ x ∈ resolve c.lits l q, VarIn s.nv x := by
          intro x hx
          rcases mem_resolve.1 hx with hx | hx
          · exact hc.rng.lits x hx.1
          · exact h1 x hx.1
        have := assignWatchedLoop_mem s (resolve c.lits l q) none none (-1) (-1) (VarIn s.nv) hres (by simp) (by simp)
        exact ⟨hres, this.1, this.2⟩
      · intro a ha
        exact resolve_sound l (hc.holds a ha) (h2 a ha)

theorem KInv.learn {cfg : Cfg S} {P : Problem} {s : St S} (h : KInv cfg P s) {c : Cls} {p : Option Nat} (hc : Cons s c p) :
    KInv cfg P (learnClause cfg s c p) := by
  have hpos : ∀ pos, cfg.arith.Good pos → ∀ l, pos ((learnClause cfg s c p).score l) :=
    fun pos hg => learnClause_pos cfg hg s c p (h.pos pos hg)
  obtain ⟨sc, r, w, b, hids, e⟩ := learnClause_any cfg s c p
  have hold : ∀ id, id < s.ncl → ((learnClause cfg s c p).cl id).lits = (s.cl id).lits ∧
      ClsIn s.nv ((learnClause cfg s c p).cl id) := by
    intro id hid
    have hne : id ≠ s.ncl := by omega
    rw [e]
    show ((upd s.heap (p.getD s.nheap) { c with numUn := 0 }) (upd s.ptr s.ncl (p.getD s.nheap) id)).lits = _ ∧
      ClsIn s.nv ((upd s.heap (p.getD s.nheap) { c with numUn := 0 }) (upd s.ptr s.ncl (p.getD s.nheap) id))
    have e1 : upd s.ptr s.ncl (p.getD s.nheap) id = s.ptr id := by simp [upd, hne]
    rw [e1]
    by_cases h2 : s.ptr id = p.getD s.nheap
    · rw [h2]
      cases p with
      | none => exact absurd h2 (by have := h.alloc id hid; simp; omega)
      | some q =>
        have hq := (hc.origin q rfl).1
        have h3 : s.cl id = c := by unfold St.cl; rw [h2]; exact hq
        have := h.rng id hid
        rw [h3] at this ⊢
        simp only [upd, if_true]
        exact ⟨trivial, this.lits, this.w0, this.w1⟩
    · have e2 : (upd s.heap (p.getD s.nheap) { c with numUn := 0 }) (s.ptr id) = s.cl id := by simp [upd, h2, St.cl]
      rw [e2]; exact ⟨rfl, h.rng id hid⟩
  have hnew : ((learnClause cfg s c p).cl s.ncl) = { c with numUn := 0 } := by
    rw [e]; simp [St.cl, upd]
  have hncl : (learnClause cfg s c p).ncl = s.ncl + 1 := by rw [e]
  have hnv : (learnClause cfg s c p).nv = s.nv := by rw [e]
  have hdom : (learnClause cfg s c p).dom = s.dom := by rw [e]
  refine ⟨hnv.trans h.nv, hdom.trans h.dom, ?_, ?_, ?_, ?_, ?_, hpos, ?_⟩
  · intro id hid
    rw [hncl] at hid
    rw [e]
    show upd s.ptr s.ncl (p.getD s.nheap) id < if p = none then s.nheap + 1 else s.nheap
    by_cases hne : id = s.ncl
    · subst hne
      cases p with
      | none => simp [upd]
      | some q => simpa [upd] using (hc.origin q rfl).2
    · have := h.alloc id (by omega)
      simp only [upd, hne, if_false]
      split <;> omega
  · intro id hid
    rw [hncl] at hid; rw [hnv]
    by_cases hne : id = s.ncl
    · subst hne; rw [hnew]; exact ⟨hc.rng.lits, hc.rng.w0, hc.rng.w1⟩
    · exact (hold id (by omega)).2
  · rw [e]; exact h.decs
  · intro i k hk
    obtain ⟨h1, h2⟩ := h.keep i k hk
    exact ⟨by rw [hncl]; omega, by rw [(hold i h1).1]; exact h2⟩
  · intro a ha
    have hm := h.sound a ha
    refine ⟨by rw [hnv, hdom]; exact hm.1, ?_⟩
    intro id hid
    rw [hncl] at hid
    by_cases hne : id = s.ncl
    · subst hne; rw [hnew]; exact hc.holds a hm
    · rw [(hold id (by omega)).1]; exact hm.2 id (by omega)
  · rw [e]; exact ⟨hids h.ids.1, fun id hid => Nat.lt_succ_of_lt (h.ids.2 id hid)⟩

theorem KInv.prop {cfg : Cfg S} {P : Problem} {s : St S} (h : KInv cfg P s) :
    KInv cfg P (wunitStep s) := by
  unfold wunitStep
  cases hun : s.units with
  | nil => exact h
  | cons id rest =>
    dsimp only
    have hid : id < s.ncl := h.ids.2 id (by rw [hun]; simp)
    have h0 : KInv cfg P { s with unitClause := (id : Int), units := rest } :=
      ⟨h.nv, h.dom, h.alloc, h.rng, h.decs, h.keep, h.sound, h.pos, h.ids.1, fun i hi => h.ids.2 i (by rw [hun]; simp [hi])⟩
    split
    · rename_i w hw
      have hwv : VarIn s.nv w := by
        rcases (openWatch_some hw).1 with h1 | ⟨_, h1⟩
        · exact (h.rng id hid).w0 w h1
        · exact (h.rng id hid).w1 w h1
      have := h0.same (wreduceTheory_same (s := { s with unitClause := (id : Int), units := rest }) h0.ids hwv)
      exact ⟨this.nv, this.dom, this.alloc, this.rng, this.decs, this.keep, this.sound, this.pos, this.ids⟩
    · exact h0

theorem KInv.dec {cfg : Cfg S} (hw : cfg.watch = true) (hs : cfg.ScoreOK) {P : Problem} {s s' : St S} (h : KInv cfg P s)
    (hd : decideNC cfg s = some s') : KInv cfg P s' := by
  obtain ⟨l, h1, rfl⟩ := decideNC_watch hw hd
  have h0 : KInv cfg P { s with nDecisions := s.nDecisions + 1, LEVEL := s.LEVEL + 1, unitClause := -1 } :=
    ⟨h.nv, h.dom, h.alloc, h.rng, h.decs, h.keep, h.sound, h.pos, h.ids⟩
  refine h0.same (wreduceTheory_same h0.ids ?_)
  show VarIn s.nv l
  rcases chooseWL_some hw hs h.pos h1 with h2 | h2
  · exact ⟨h2.1.1, h2.1.2.1⟩
  · obtain ⟨id, hid, h0, _⟩ := lazyWatchedChoose_some h2
    exact (h.rng id hid).w0 l h0

theorem wundoTheory_frame (t : St S) (k : Int) : FrameT t (wundoTheory t k) := by
  obtain ⟨_, g, l, r, vv, ds, e⟩ := wundoFold k t.atoms t
  unfold wundoTheory
  dsimp only
  rw [e]; exact ⟨_, _, _, _, _, rfl⟩

theorem KInv.conf {cfg : Cfg S} (hw : cfg.watch = true) {P : Problem} {s s' : St S} {rc rc' : Int} {f : Nat} (h : KInv cfg P s)
    (hwf : P.WellFormed) (he : conflictWL cfg f s rc = .ok (s', rc')) : KInv cfg P s' ∧ s'.conflict = false := by
  unfold conflictWL at he
  split at he
  · simp at he
  · rename_i hid
    have hid' : s.conflicting.toNat < s.ncl := by omega
    obtain ⟨⟨s1, c⟩, h1, he⟩ := Res.bind_eq_ok.1 he
    obtain ⟨lv, h2, he⟩ := Res.bind_eq_ok.1 he
    have hcons : Cons s (s.cl s.conflicting.toNat) (some (s.ptr s.conflicting.toNat)) := by
      refine ⟨h.rng _ hid', fun a ha => ha.2 _ hid', ?_⟩
      intro q hq; cases hq; exact ⟨rfl, h.alloc _ hid'⟩
    obtain ⟨p', hp', hc⟩ := analyze_cons cfg hw h.rng h.decs (fun v h1 h2 => by
      rw [h.dom]; have h2 := h.nv ▸ h2
      have h3 := P.widen_dom h1 h2
      rw [hwf.widen] at h3
      omega) f _ _ _ hcons h1
    have hp' : s1 = learnClause cfg s c p' := hp'
    have hk1 : KInv cfg P s1 := by rw [hp']; exact h.learn hc
    have hn1 : 0 < s1.ncl := by
      obtain ⟨_, _, _, _, _, e⟩ := learnClause_any cfg s c p'
      rw [hp', e]; show 0 < s.ncl + 1; omega
    dsimp only at he
    have hk2 : KInv cfg P { s1 with LEVEL := lv, nBacktracks := s1.nBacktracks + 1, conflict := false } :=
      ⟨hk1.nv, hk1.dom, hk1.alloc, hk1.rng, hk1.decs, hk1.keep, hk1.sound, hk1.pos, hk1.ids⟩
    have hcf : ∀ (t : St S) (k : Int), (wundoTheory t k).conflict = t.conflict ∧ (wundoTheory t k).ncl = t.ncl := by
      intro t k
      obtain ⟨_, _, _, _, _, e⟩ := wundoTheory_frame t k
      rw [e]; exact ⟨rfl, rfl⟩
    split at he
    · cases he
      have := hk2.same (wundoTheory_same hk2.ids 0)
      refine ⟨⟨this.nv, this.dom, this.alloc, this.rng, this.decs, this.keep, this.sound, this.pos, this.ids.1, ?_⟩, (hcf _ _).1⟩
      have hn : 0 < (wundoTheory { s1 with LEVEL := lv, nBacktracks := s1.nBacktracks + 1, conflict := false } 0).ncl := by
        rw [(hcf _ _).2]; exact hn1
      intro i hi
      dsimp only at hi
      split at hi
      · have := List.mem_singleton.1 hi
        show i < (wundoTheory _ _).ncl
        omega
      · simp at hi
    · cases he
      have := hk2.same (wundoTheory_same hk2.ids lv)
      refine ⟨⟨this.nv, this.dom, this.alloc, this.rng, this.decs, this.keep, this.sound, this.pos, this.ids.1, ?_⟩, (hcf _ _).1⟩
      have hn : 0 < (wundoTheory { s1 with LEVEL := lv, nBacktracks := s1.nBacktracks + 1, conflict := false } lv).ncl := by
        rw [(hcf _ _).2]; exact hn1
      intro i hi
      have := List.mem_singleton.1 hi
      show i < (wundoTheory _ _).ncl
      omega

theorem WReach.kinv {cfg : Cfg S} {P : Problem} (hw : cfg.watch = true) (hs : cfg.ScoreOK) (hwf : P.WellFormed) {s : St S}
    {rc : Int} (h : WReach cfg P s rc) : KInv cfg P s := by
  induction h with
  | start hb =>
    obtain ⟨s0, h1, h2⟩ := build_read (P := P) cfg hwf.lits_ok (fun _ => hwf.nonempty)
    rw [h1] at hb; cases hb
    exact h2.kinv hw hwf
  | tick _ ih => exact ⟨ih.nv, ih.dom, ih.alloc, ih.rng, ih.decs, ih.keep, ih.sound, ih.pos, ih.ids⟩
  | prop _ _ _ ih => exact ih.prop
  | conf _ _ _ he ih => exact (ih.conf hw hwf he).1
  | dec _ _ _ hd ih => exact ih.dec hw hs hd

/-- A round of the propagation loop that does not fail is `wunitStep`. -/
theorem wunitProp_ok (cfg : Cfg S) (f : Nat) {s s' : St S} (hc : s.conflict = false) (hu : s.units ≠ [])
    (h : wunitProp cfg (f + 1) s = .ok s') : wunitProp cfg f (wunitStep s) = .ok s' := by
  unfold wunitProp at h
  unfold wunitStep openWatch
  split at h
  · simp at h
  rw [if_neg (by rw [hc]; simp)] at h
  cases hun : s.units with
  | nil => exact absurd hun hu
  | cons id rest =>
    rw [hun] at h
    dsimp only at h ⊢
    split at h
    · split at h
      · simp at h
      · rename_i w hw
        rw [hw]
        dsimp only
        split at h
        · rename_i h2; rw [if_pos h2]; exact h
        · rename_i h2; rw [if_neg h2]
          split at h
          · rename_i h3; rw [if_pos h3]
            split at h
            · simp at h
            · rename_i w' hw'
              rw [hw']
              dsimp only
              split at h
              · rename_i h4; rw [if_pos h4]; exact h
              · rename_i h4; rw [if_neg h4]; exact h
          · rename_i h3; rw [if_neg h3]; exact h
    · simp at h

theorem wunitProp_reach_any {cfg : Cfg S} {P : Problem} : ∀ (f : Nat) (s s' : St S) (rc : Int), WReach cfg P s rc →
    wunitProp cfg f s = .ok s' → WReach cfg P s' rc ∧ (s'.conflict = true ∨ s'.units = [])
  | 0, _, _, _, _, h => by simp [wunitProp] at h
  | f + 1, s, s', rc, hr, h => by
    by_cases hc : s.conflict = true
    · unfold wunitProp at h
      split at h
      · simp at h
      · cases h; exact ⟨hr, Or.inl hc⟩
    · by_cases hu : s.units = []
      · unfold wunitProp at h
        split at h
        · simp at h
        · rw [hu] at h; cases h; exact ⟨hr, Or.inr hu⟩
      · have hc : s.conflict = false := by simpa using hc
        exact wunitProp_reach_any f _ s' rc (hr.prop hc hu) (wunitProp_ok cfg f hc hu h)

/-- Whatever the run returns, it passed through the states of `WReach`. -/
theorem run_watch_safe {cfg : Cfg S} (hw : cfg.watch = true) (hs : cfg.ScoreOK) {P : Problem} (hwf : P.WellFormed)
    (fuel : Nat) : (run cfg .learn fuel P).Safe (LPost cfg (WReach cfg P)) := by
  obtain ⟨s0, h1, _⟩ := build_read (P := P) cfg hwf.lits_ok (fun _ => hwf.nonempty)
  have : run cfg .learn fuel P = learnLoop cfg fuel s0 cfg.restarts := by unfold run; rw [h1]; rfl
  rw [this]
  refine learnLoop_safe (fun s rc h => h.tick) ?_ ?_ (fun s rc s' h hc hu hd => h.dec hc hu hd) fuel s0 _ (.start h1)
  · intro f s rc h hc hL
    unfold confIf
    rw [if_pos hc, if_pos hw]
    rintro ⟨s', rc'⟩ hp
    exact ⟨h.conf hc hL hp, ((h.kinv hw hs hwf).conf hw hwf hp).2⟩
  · intro f s rc h hc
    unfold propIfL
    by_cases hu : s.units = []
    · rw [if_pos hu]; exact Res.safe_ok ⟨h, Or.inr hu⟩
    · rw [if_neg hu, if_pos hw]
      intro s' hs'
      exact wunitProp_reach_any f s s' rc h hs'

end Mvl
