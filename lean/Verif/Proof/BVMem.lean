import Verif.Model.BVMem
import Verif.Proof.WatchMem
import Verif.Proof.BVBuild

/-!
# Bit-vector variant: the search on linked records does what the search on lists does
-/

namespace Mvl.BV

variable {S : Type}

/-- The state without watch lists. -/
def BSt.noR (s : BSt S) : BSt S := { s with recs := fun _ => [] }

/-- Lists of variables in the table indexed by literals. -/
def keyed (f : Nat → List Nat) (l : Lit) : List Nat := if l = vkey l.var then f l.var else []

theorem keyed_vkey (f : Nat → List Nat) (v : Nat) : keyed f (vkey v) = f v := if_pos rfl

theorem keyed_upd (f : Nat → List Nat) (v : Nat) (x : List Nat) : keyed (upd f v x) = upd (keyed f) (vkey v) x := by
  funext l
  unfold keyed upd
  by_cases h1 : l = vkey l.var
  · by_cases h2 : l.var = v
    · rw [if_pos h1, if_pos h2, if_pos (h1.trans (by rw [h2]))]
    · rw [if_pos h1, if_neg h2, if_neg (fun e => h2 (by rw [e]; rfl))]
      exact (if_pos h1).symm
  · rw [if_neg h1, if_neg (fun e => h1 (by rw [e]; rfl))]
    exact (if_neg h1).symm

theorem keyed_nil : keyed (fun _ => []) = fun _ => [] := by
  funext l; unfold keyed; split <;> rfl

/-! ## Records -/

theorem badd_sim {h : WMem} {L : Lit → List (Nat × Nat)} {f : Nat → List Nat} (hr : RepL h L (keyed f)) {new : WMem → Nat}
    (hn : Alloc new) (v id : Nat) : ∃ h', baddRecord h v id (new h) = .ok h' ∧
      RepL h' (upd L (vkey v) ((new h, id) :: L (vkey v))) (keyed (upd f v (id :: f v))) := by
  obtain ⟨h', e, hr'⟩ := hr.add hn id (vkey v)
  rw [keyed_vkey, ← keyed_upd] at hr'
  exact ⟨h', e, hr'⟩

theorem badd_simO {h : WMem} {f : Nat → List Nat} (hr : RepOf h (keyed f)) {new : WMem → Nat}
    (hn : Alloc new) (v id : Nat) : ∃ h', baddRecord h v id (new h) = .ok h' ∧ RepOf h' (keyed (upd f v (id :: f v))) := by
  obtain ⟨L, hr⟩ := hr
  obtain ⟨h', e, hr'⟩ := badd_sim hr hn v id
  exact ⟨h', e, _, hr'⟩

/-- The second test of `VARREC` in `removeRecord` is never true. -/
theorem bremove_sim {h : WMem} {L : Lit → List (Nat × Nat)} {f : Nat → List Nat} (hr : RepL h L (keyed f)) {v : Nat}
    {as bs : List (Nat × Nat)} {p : Nat × Nat} (hL : L (vkey v) = as ++ p :: bs) (hnd : (f v).Nodup) :
    ∃ h', bremoveRecord h v p.1 = .ok h' ∧ RepL h' (upd L (vkey v) (as ++ bs)) (keyed (upd f v ((f v).erase p.2))) := by
  obtain ⟨h', e, hr'⟩ := hr.remove hL (by rw [keyed_vkey]; exact hnd)
  rw [keyed_vkey, ← keyed_upd] at hr'
  refine ⟨h', ?_, hr'⟩
  unfold WMem.removeRecord at e
  obtain ⟨h1, e1, e⟩ := Res.bind_eq_ok.1 e
  obtain ⟨h2, e2, e⟩ := Res.bind_eq_ok.1 e
  unfold bremoveRecord
  rw [e1, Res.ok_bind, e2, Res.ok_bind]
  cases hm : h2.mem p.1 with
  | none => rw [WMem.free, hm] at e; cases e
  | some r =>
    have hh : h' = { h2 with mem := upd h2.mem p.1 none } := by
      rw [WMem.free, hm] at e; cases e; rfl
    have hne : ¬ h2.head (vkey v) = some p.1 := by
      intro he
      have h3 : h'.head (vkey v) = some p.1 := by rw [hh]; exact he
      have h4 : h'.mem p.1 = none := by rw [hh]; exact upd_same _ _ _
      rw [hr'.rep.head] at h3
      cases hL' : upd L (vkey v) (as ++ bs) (vkey v) with
      | nil => rw [hL'] at h3; cases h3
      | cons x xs =>
        rw [hL'] at h3
        have h3 : some x.1 = some p.1 := h3
        obtain ⟨pv, h5⟩ := hr'.rep.at (as := []) hL'
        rw [Option.some.inj h3, h4] at h5
        cases h5
    rw [WMem.read, hm]
    dsimp only
    rw [Res.ok_bind, if_neg hne]
    exact e

/-! ## One record -/

theorem swapPointer_ok {s s' : BSt S} {v id : Nat} (e : swapPointer s v id = .ok s') :
    ∃ w1 w2 x, (s.cl id).w0 = some w1 ∧ (s.cl id).w1 = some w2 ∧ satW s (some w2) = .ok x ∧
      ((x = 2 ∧ ∃ l, ((s.cl id).lits.find? fun l => bsat s l ≠ 0 ∧ l.var ≠ w2.var) = some l ∧ w1.var = v ∧ id ∈ s.recs v ∧
          s' = (addRec ({ s with recs := upd s.recs v ((s.recs v).erase id) } : BSt S) l.var id).setCl id
            ⟨(s.cl id).lits, some l, some w2⟩) ∨
       (x = 2 ∧ ((s.cl id).lits.find? fun l => bsat s l ≠ 0 ∧ l.var ≠ w2.var) = none ∧
          s' = { s with units := id :: s.units }) ∨
       (x ≠ 2 ∧ s' = { s with conflict := true, conflicting := id })) := by
  unfold swapPointer at e
  dsimp only at e
  cases h0 : (s.cl id).w0 with
  | none => rw [h0] at e; cases e
  | some w1 =>
    cases h1 : (s.cl id).w1 with
    | none => rw [h0, h1] at e; cases e
    | some w2 =>
      rw [h0, h1] at e
      obtain ⟨x, ex, e⟩ := Res.bind_eq_ok.1 e
      refine ⟨w1, w2, x, rfl, rfl, ex, ?_⟩
      by_cases hx : x = 2
      · rw [if_pos hx] at e
        cases hf : (s.cl id).lits.find? fun l => bsat s l ≠ 0 ∧ l.var ≠ w2.var with
        | none =>
          rw [hf] at e
          cases e
          exact .inr (.inl ⟨hx, rfl, rfl⟩)
        | some l =>
          rw [hf] at e
          obtain ⟨s1, e1, e⟩ := Res.bind_eq_ok.1 e
          unfold removeRec at e1
          by_cases hv : w1.var = v ∧ id ∈ s.recs w1.var
          · rw [if_pos hv] at e1
            obtain ⟨hv, hm⟩ := hv
            subst hv
            cases e1
            cases e
            exact .inl ⟨hx, l, rfl, rfl, hm, rfl⟩
          · rw [if_neg hv] at e1; cases e1
      · rw [if_neg hx] at e
        cases e
        exact .inr (.inr ⟨hx, rfl⟩)

theorem bpswap_sim {new : WMem → Nat} (hn : Alloc new) {s s' : BSt S} {h : WMem} {L : Lit → List (Nat × Nat)} {v rec id : Nat}
    {as bs : List (Nat × Nat)} (hr : RepL h L (keyed s.recs)) (hL : L (vkey v) = as ++ (rec, id) :: bs)
    (hnd : (s.recs v).Nodup) (e : swapPointer s v id = .ok s') :
    ∃ h' L' as', bpswapPointer new (s.noR, h) rec id = .ok (s'.noR, h') ∧ RepL h' L' (keyed s'.recs) ∧
      L' (vkey v) = as' ++ bs := by
  have hL1 : L (vkey v) = (as ++ [(rec, id)]) ++ bs := by rw [hL]; simp
  obtain ⟨w1, w2, x, h0, h1, hx, hcase⟩ := swapPointer_ok e
  have hcl : s.noR.cl id = s.cl id := rfl
  have hsw : satW s.noR (some w2) = satW s (some w2) := rfl
  have hbs : bsat s.noR = bsat s := rfl
  unfold bpswapPointer
  dsimp only
  rw [hcl, h0, h1]
  dsimp only
  rw [hsw, hx, Res.ok_bind, hbs]
  rcases hcase with ⟨h2, l, hf, hv, hm, rfl⟩ | ⟨h2, hf, rfl⟩ | ⟨h2, rfl⟩
  · rw [if_pos h2, hf]
    dsimp only
    subst hv
    obtain ⟨h1', e1, hr1⟩ := bremove_sim hr hL hnd
    obtain ⟨h2', e2, hr2⟩ := badd_sim hr1 hn l.var id
    rw [e1, Res.ok_bind, e2, Res.ok_bind]
    by_cases hlv : l.var = w1.var
    · refine ⟨h2', _, (new h1', id) :: as, rfl, hr2, ?_⟩
      rw [hlv, upd_same, upd_same]; rfl
    · refine ⟨h2', _, as, rfl, hr2, ?_⟩
      rw [upd_of_ne _ _ (fun e => hlv (congrArg Lit.var e).symm), upd_same]
  · rw [if_pos h2, hf]
    exact ⟨h, L, _, rfl, hr, hL1⟩
  · rw [if_neg h2]
    exact ⟨h, L, _, rfl, hr, hL1⟩

theorem updateOne_ok {s s' : BSt S} {v id : Nat} (hc : s.conflict = false) (e : updateOne v s id = .ok s') :
    id < s.ncl ∧ ∃ x, satW s (s.cl id).w0 = .ok x ∧ ((x = 1 ∧ s' = s) ∨ (x ≠ 1 ∧ ∃ y, satW s (s.cl id).w1 = .ok y ∧
      ((y = 1 ∧ s' = s.setCl id { s.cl id with w0 := (s.cl id).w1, w1 := (s.cl id).w0 }) ∨
       (y ≠ 1 ∧ ∃ s1, s1 = (if (s.cl id).w1.map BLit.var = some v then
            s.setCl id { s.cl id with w0 := (s.cl id).w1, w1 := (s.cl id).w0 } else s) ∧
          ∃ z, satW s1 (s1.cl id).w0 = .ok z ∧ ((z = 0 ∧ swapPointer s1 v id = .ok s') ∨ (z ≠ 0 ∧ s' = s1)))))) := by
  have hid : id < s.ncl := by
    apply Classical.byContradiction
    intro hid
    unfold updateOne at e
    rw [if_neg (by rw [hc]; simp), if_neg hid] at e
    cases e
  refine ⟨hid, ?_⟩
  rw [updateOne_eq hc hid] at e
  obtain ⟨x, hx, e⟩ := Res.bind_eq_ok.1 e
  refine ⟨x, hx, ?_⟩
  by_cases h1 : x = 1
  · rw [if_pos h1] at e; cases e; exact .inl ⟨h1, rfl⟩
  rw [if_neg h1] at e
  obtain ⟨y, hy, e⟩ := Res.bind_eq_ok.1 e
  refine .inr ⟨h1, y, hy, ?_⟩
  by_cases h2 : y = 1
  · rw [if_pos h2] at e; cases e; exact .inl ⟨h2, rfl⟩
  rw [if_neg h2] at e
  refine .inr ⟨h2, _, rfl, ?_⟩
  obtain ⟨z, hz, e⟩ := Res.bind_eq_ok.1 e
  refine ⟨z, hz, ?_⟩
  by_cases h3 : z = 0
  · rw [if_pos h3] at e; exact .inl ⟨h3, e⟩
  · rw [if_neg h3] at e; cases e; exact .inr ⟨h3, rfl⟩

theorem bpupdateOne_sim {new : WMem → Nat} (hn : Alloc new) {s s' : BSt S} {h : WMem} {L : Lit → List (Nat × Nat)}
    {v rec id : Nat} {as bs : List (Nat × Nat)} (hr : RepL h L (keyed s.recs)) (hL : L (vkey v) = as ++ (rec, id) :: bs)
    (hnd : (s.recs v).Nodup) (hc : s.conflict = false) (e : updateOne v s id = .ok s') :
    ∃ h' L' as', bpupdateOne new v (s.noR, h) rec id = .ok (s'.noR, h') ∧ RepL h' L' (keyed s'.recs) ∧
      L' (vkey v) = as' ++ bs := by
  have hL1 : L (vkey v) = (as ++ [(rec, id)]) ++ bs := by rw [hL]; simp
  obtain ⟨hid, x, hx, hcase⟩ := updateOne_ok hc e
  have hcl : s.noR.cl id = s.cl id := rfl
  have hsw : ∀ w, satW s.noR w = satW s w := fun _ => rfl
  unfold bpupdateOne
  dsimp only
  rw [if_pos (show id < s.noR.ncl from hid), hcl, hsw, hx, Res.ok_bind]
  rcases hcase with ⟨h1, rfl⟩ | ⟨h1, y, hy, hcase⟩
  · rw [if_pos h1]
    exact ⟨h, L, _, rfl, hr, hL1⟩
  rw [if_neg h1, hsw, hy, Res.ok_bind]
  rcases hcase with ⟨h2, rfl⟩ | ⟨h2, s1, hs1, z, hz, hcase⟩
  · rw [if_pos h2]
    exact ⟨h, L, _, rfl, hr, hL1⟩
  rw [if_neg h2]
  have hn1 : (if (s.cl id).w1.map BLit.var = some v then
      s.noR.setCl id { s.cl id with w0 := (s.cl id).w1, w1 := (s.cl id).w0 } else s.noR) = s1.noR := by
    rw [hs1]; split <;> rfl
  have hre : s1.recs = s.recs := by rw [hs1]; split <;> rfl
  rw [hn1, show s1.noR.cl id = s1.cl id from rfl, show ∀ w, satW s1.noR w = satW s1 w from fun _ => rfl, hz, Res.ok_bind]
  rw [← hre] at hr hnd
  rcases hcase with ⟨h3, e3⟩ | ⟨h3, rfl⟩
  · rw [if_pos h3]
    exact bpswap_sim hn hr hL hnd e3
  · rw [if_neg h3]
    exact ⟨h, L, _, rfl, hr, hL1⟩

/-! ## The invariant of the clause list -/

theorem StoreInv.of_eq {s s' : BSt S} (h : StoreInv s) (e1 : s'.nv = s.nv) (e2 : s'.size = s.size) (e3 : s'.ptr = s.ptr)
    (e4 : s'.ncl = s.ncl) (e5 : s'.nheap = s.nheap) (e6 : s'.heap = s.heap) (e7 : s'.recs = s.recs) : StoreInv s' := by
  have hcl : ∀ i, s'.cl i = s.cl i := by intro i; unfold BSt.cl; rw [e3, e6]
  refine ⟨?_, ?_, ?_, ?_, ?_, ?_, ?_⟩
  · rw [e4, e3, e5]; exact h.ptr_lt
  · rw [e4, e3]; exact h.ptr_inj
  · rw [e4]; intro i hi; rw [hcl]; exact h.distinct i hi
  · rw [e4]; intro i hi; rw [hcl]; exact fun l hl => (h.lok i hi l hl).congr e1 e2
  · rw [e4]; intro i hi; rw [hcl]; exact h.wok i hi
  · rw [e4, e7]; intro v i; rw [hcl]; exact h.recs v i
  · rw [e7]; exact h.nodup

/-- Moving a watch. -/
theorem move_store {s : BSt S} (h : StoreInv s) {id : Nat} (hid : id < s.ncl) {a b l : BLit} (ha : (s.cl id).w0 = some a)
    (hb : (s.cl id).w1 = some b) (hml : l ∈ (s.cl id).lits) (hla : l ≠ a) (hlb : l.var ≠ b.var) :
    StoreInv ((addRec ({ s with recs := upd s.recs a.var ((s.recs a.var).erase id) } : BSt S) l.var id).setCl id
      ⟨(s.cl id).lits, some l, some b⟩) := by
  have hwa : IsW (s.cl id) a := Or.inl ha
  have hwb : IsW (s.cl id) b := Or.inr hb
  have hw := h.wok id hid
  have hma := hw.mem hwa
  have hmb := hw.mem hwb
  have hd := h.distinct id hid
  have hlen : 1 < (s.cl id).lits.length := by
    rcases hw with ⟨x, _, _, h3⟩ | ⟨h1, _⟩
    · rw [h3] at hb; cases hb
    · exact h1
  have hab : a.var ≠ b.var := by
    obtain ⟨x, y, h1, h2, _, _, h5⟩ := hw.w1_of_len hlen
    rw [ha] at h1; rw [hb] at h2; cases h1; cases h2; exact h5
  have hisw : ∀ w, IsW (s.cl id) w → w = a ∨ w = b := by
    intro w hw'
    rcases hw' with h1 | h1
    · rw [ha] at h1; cases h1; exact Or.inl rfl
    · rw [hb] at h1; cases h1; exact Or.inr rfl
  have hla' : l.var ≠ a.var := fun e => hla (hd.eq hml hma e)
  have hnrec : id ∉ s.recs l.var := by
    intro hx
    obtain ⟨_, w, hw1, hw2⟩ := (h.recs l.var id).1 hx
    rcases hisw w hw1 with rfl | rfl
    · exact hla' hw2.symm
    · exact hlb hw2.symm
  generalize hs' : (addRec ({ s with recs := upd s.recs a.var ((s.recs a.var).erase id) } : BSt S) l.var id).setCl id
    ⟨(s.cl id).lits, some l, some b⟩ = s'
  have hcl : ∀ i, i < s.ncl → s'.cl i = if i = id then ⟨(s.cl id).lits, some l, some b⟩ else s.cl i := by
    intro i hi
    subst hs'
    exact cl_setCl (s := s) h hid _ hi
  have hlits : ∀ i, i < s.ncl → (s'.cl i).lits = (s.cl i).lits := by
    intro i hi
    rw [hcl i hi]
    split
    · rename_i e; rw [e]
    · rfl
  have hrecs : ∀ x, s'.recs x = if x = l.var then id :: s.recs l.var else if x = a.var then (s.recs a.var).erase id else s.recs x := by
    intro x
    subst hs'
    show upd (upd s.recs a.var ((s.recs a.var).erase id)) l.var (id :: upd s.recs a.var ((s.recs a.var).erase id) l.var) x = _
    unfold upd
    rw [if_neg hla']
  have hncl : s'.ncl = s.ncl := by subst hs'; rfl
  have hptr : s'.ptr = s.ptr := by subst hs'; rfl
  have hnh : s'.nheap = s.nheap := by subst hs'; rfl
  have hnv : s'.nv = s.nv := by subst hs'; rfl
  have hsz : s'.size = s.size := by subst hs'; rfl
  clear hs'
  have hisw' : ∀ w, IsW (s'.cl id) w ↔ w = l ∨ w = b := by
    intro w
    rw [hcl id hid, if_pos rfl]
    unfold IsW
    simp only [Option.some.injEq]
    constructor
    · rintro (h1 | h1)
      · exact Or.inl h1.symm
      · exact Or.inr h1.symm
    · rintro (h1 | h1)
      · exact Or.inl h1.symm
      · exact Or.inr h1.symm
  have hoth : ∀ i, i < s.ncl → i ≠ id → s'.cl i = s.cl i := by
    intro i hi hne'; rw [hcl i hi, if_neg hne']
  refine ⟨?_, ?_, ?_, ?_, ?_, ?_, ?_⟩
  · rw [hncl, hptr, hnh]; exact h.ptr_lt
  · rw [hncl, hptr]; exact h.ptr_inj
  · rw [hncl]; intro i hi; rw [hlits i hi]; exact h.distinct i hi
  · rw [hncl]; intro i hi; rw [hlits i hi]; exact fun x hx => (h.lok i hi x hx).congr hnv hsz
  · rw [hncl]
    intro i hi
    by_cases he : i = id
    · subst he
      rw [hcl i hi, if_pos rfl]
      exact Or.inr ⟨hlen, l, b, rfl, rfl, hml, hmb, hlb⟩
    · rw [hoth i hi he]; exact h.wok i hi
  · intro x i
    rw [hncl, hrecs]
    by_cases he : i = id
    · subst he
      simp only [hisw']
      by_cases hx : x = l.var
      · rw [if_pos hx]
        constructor
        · intro _; exact ⟨hid, l, Or.inl rfl, hx.symm⟩
        · intro _; exact List.mem_cons_self
      · rw [if_neg hx]
        by_cases hx' : x = a.var
        · rw [if_pos hx']
          constructor
          · intro hm
            exact absurd hm (List.Nodup.not_mem_erase (h.nodup a.var))
          · rintro ⟨_, w, h1 | h1, h2⟩
            · exact absurd (h1 ▸ h2).symm hx
            · exact absurd (h1 ▸ h2 |>.trans hx').symm hab
        · rw [if_neg hx', h.recs]
          constructor
          · rintro ⟨_, w, h1, h2⟩
            rcases hisw w h1 with h3 | h3
            · exact absurd (h3 ▸ h2).symm hx'
            · exact ⟨hid, w, Or.inr h3, h2⟩
          · rintro ⟨_, w, h1 | h1, h2⟩
            · exact absurd (h1 ▸ h2).symm hx
            · exact ⟨hid, w, h1 ▸ hwb, h2⟩
    · have key : i ∈ (if x = l.var then id :: s.recs l.var else if x = a.var then (s.recs a.var).erase id else s.recs x) ↔ i ∈ s.recs x := by
        by_cases hx : x = l.var
        · rw [if_pos hx, hx]
          constructor
          · intro hm; rcases List.mem_cons.1 hm with h1 | h1
            · exact absurd h1 he
            · exact h1
          · exact List.mem_cons_of_mem _
        · rw [if_neg hx]
          by_cases hx' : x = a.var
          · rw [if_pos hx', hx', List.mem_erase_of_ne he]
          · rw [if_neg hx']
      rw [key, h.recs]
      constructor
      · rintro ⟨hi, hw'⟩; exact ⟨hi, by rw [hoth i hi he]; exact hw'⟩
      · rintro ⟨hi, hw'⟩; exact ⟨hi, by rw [hoth i hi he] at hw'; exact hw'⟩
  · intro x
    rw [hrecs]
    by_cases hx : x = l.var
    · rw [if_pos hx, List.nodup_cons]
      exact ⟨hnrec, h.nodup _⟩
    · rw [if_neg hx]
      by_cases hx' : x = a.var
      · rw [if_pos hx']; exact (h.nodup _).erase _
      · rw [if_neg hx']; exact h.nodup _

theorem updateOne_store {s s' : BSt S} {v id : Nat} (h : StoreInv s) (hc : s.conflict = false)
    (e : updateOne v s id = .ok s') : StoreInv s' := by
  obtain ⟨hid, x, hx, hcase⟩ := updateOne_ok hc e
  rcases hcase with ⟨_, rfl⟩ | ⟨_, y, hy, hcase⟩
  · exact h
  have hw1 : (s.cl id).w1 ≠ none := by intro h0; rw [h0] at hy; cases hy
  rcases hcase with ⟨_, rfl⟩ | ⟨_, s1, hs1, z, hz, hcase⟩
  · exact swap_store h hid hw1
  have hst : StoreInv s1 ∧ s1.ncl = s.ncl := by
    rw [hs1]
    split
    · exact ⟨swap_store h hid hw1, rfl⟩
    · exact ⟨h, rfl⟩
  rcases hcase with ⟨h3, e3⟩ | ⟨_, rfl⟩
  · obtain ⟨w1, w2, x', h0, h1, hx', hcase⟩ := swapPointer_ok e3
    rcases hcase with ⟨_, l, hf, hv, _, rfl⟩ | ⟨_, _, rfl⟩ | ⟨_, rfl⟩
    · have hml := List.mem_of_find?_eq_some hf
      have hpl := List.find?_some hf
      simp only [decide_eq_true_eq] at hpl
      subst hv
      refine move_store hst.1 (by rw [hst.2]; exact hid) h0 h1 hml ?_ hpl.2
      intro e
      apply hpl.1
      rw [h0] at hz
      unfold satW at hz
      dsimp only at hz
      by_cases hle : w1.var ≤ s1.nv
      · rw [if_pos hle] at hz
        cases hz
        rw [e]; exact h3
      · rw [if_neg hle] at hz; cases hz
    · exact hst.1.of_eq rfl rfl rfl rfl rfl rfl rfl
    · exact hst.1.of_eq rfl rfl rfl rfl rfl rfl rfl
  · exact hst.1

/-! ## The walk -/

/-- `F g` ends, for `g` large enough, in the state `s'` with its lists in memory. -/
def Runs (F : Nat → Res (BPSt S)) (s' : BSt S) : Prop :=
  ∃ h', RepOf h' (keyed s'.recs) ∧ ∃ g0, ∀ g, g0 ≤ g → F g = .ok (s'.noR, h')

theorem Runs.bind {F : Nat → Res (BPSt S)} {K : Nat → BPSt S → Res (BPSt S)} {s1 s2 : BSt S} (h : Runs F s1)
    (hk : ∀ h1, RepOf h1 (keyed s1.recs) → Runs (fun g => K g (s1.noR, h1)) s2) : Runs (fun g => F g >>= K g) s2 := by
  obtain ⟨h1, hr1, g1, e1⟩ := h
  obtain ⟨h2, hr2, g2, e2⟩ := hk h1 hr1
  refine ⟨h2, hr2, g1 + g2, fun g hg => ?_⟩
  dsimp only
  rw [e1 g (by omega), Res.ok_bind]
  exact e2 g (by omega)

theorem Runs.ok {s : BSt S} {h : WMem} (hr : RepOf h (keyed s.recs)) : Runs (fun _ => .ok (s.noR, h)) s :=
  ⟨h, hr, 0, fun _ _ => rfl⟩

/-- As `Runs`, with a result code. -/
def RunsR (F : Nat → Res (Nat × BPSt S)) (r : Nat) (s' : BSt S) : Prop :=
  ∃ h', RepOf h' (keyed s'.recs) ∧ ∃ g0, ∀ g, g0 ≤ g → F g = .ok (r, (s'.noR, h'))

theorem Runs.bindR {F : Nat → Res (BPSt S)} {K : Nat → BPSt S → Res (Nat × BPSt S)} {s1 s2 : BSt S} {r : Nat} (h : Runs F s1)
    (hk : ∀ h1, RepOf h1 (keyed s1.recs) → RunsR (fun g => K g (s1.noR, h1)) r s2) : RunsR (fun g => F g >>= K g) r s2 := by
  obtain ⟨h1, hr1, g1, e1⟩ := h
  obtain ⟨h2, hr2, g2, e2⟩ := hk h1 hr1
  refine ⟨h2, hr2, g1 + g2, fun g hg => ?_⟩
  dsimp only
  rw [e1 g (by omega), Res.ok_bind]
  exact e2 g (by omega)

theorem updateList_conf (v : Nat) : ∀ (ids : List Nat) (s : BSt S), s.conflict = true → updateList v ids s = .ok s
  | [], _, _ => rfl
  | id :: ids, s, h => by
    unfold updateList updateOne
    rw [if_pos h]
    exact updateList_conf v ids s h

theorem bpwalk_sim {new : WMem → Nat} (hn : Alloc new) {v : Nat} : ∀ (bs as : List (Nat × Nat)) (s s' : BSt S) (h : WMem)
    (L : Lit → List (Nat × Nat)), StoreInv s → RepL h L (keyed s.recs) → L (vkey v) = as ++ bs →
    updateList v (bs.map Prod.snd) s = .ok s' →
    Runs (fun g => bpwalk new v g (s.noR, h) (bs.head?.map Prod.fst)) s' ∧ StoreInv s'
  | [], _, s, s', h, L, hst, hr, _, e => by
    cases e
    refine ⟨⟨h, ⟨L, hr⟩, 1, fun g hg => ?_⟩, hst⟩
    obtain ⟨g, rfl⟩ : ∃ k, g = k + 1 := ⟨g - 1, by omega⟩
    rfl
  | (rec, id) :: bs, as, s, s', h, L, hst, hr, hL, e => by
    cases hc : s.conflict with
    | true =>
      rw [updateList_conf v _ s hc] at e
      cases e
      refine ⟨⟨h, ⟨L, hr⟩, 1, fun g hg => ?_⟩, hst⟩
      obtain ⟨g, rfl⟩ : ∃ k, g = k + 1 := ⟨g - 1, by omega⟩
      show bpwalk new v (g + 1) (s.noR, h) (some rec) = _
      unfold bpwalk
      rw [if_pos (show s.noR.conflict = true from hc)]
    | false =>
      rw [List.map_cons, updateList] at e
      obtain ⟨s1, e1, e⟩ := Res.bind_eq_ok.1 e
      obtain ⟨h1, L1, as1, p1, hr1, hL1⟩ := bpupdateOne_sim hn hr hL (hst.nodup v) hc e1
      obtain ⟨pv, hp⟩ := hr.rep.at hL
      obtain ⟨⟨h2, hr2, g2, e2⟩, hst2⟩ := bpwalk_sim hn bs as1 s1 s' h1 L1 (updateOne_store hst hc e1) hr1 hL1 e
      refine ⟨⟨h2, hr2, g2 + 1, fun g hg => ?_⟩, hst2⟩
      obtain ⟨g, rfl⟩ : ∃ k, g = k + 1 := ⟨g - 1, by omega⟩
      show bpwalk new v (g + 1) (s.noR, h) (some rec) = _
      unfold bpwalk
      rw [if_neg (by show ¬ s.noR.conflict = true; rw [show s.noR.conflict = s.conflict from rfl, hc]; simp)]
      rw [read_ok hp, Res.ok_bind]
      dsimp only
      rw [p1, Res.ok_bind]
      exact e2 g (by omega)

theorem bpreduce_sim {new : WMem → Nat} (hn : Alloc new) {s s' : BSt S} (hst : StoreInv s) {h : WMem}
    (hr : RepOf h (keyed s.recs)) {l : BLit} (e : breduce s l = .ok s') :
    Runs (fun g => bpreduce new g (s.noR, h) l) s' ∧ StoreInv s' := by
  rw [breduce_eq] at e
  unfold bpreduce
  dsimp only
  by_cases hch : s.cur l.var &&& ~~~ l.vals = 0#64
  · rw [if_pos hch] at e
    cases e
    simp only [if_pos (show s.noR.cur l.var &&& ~~~ l.vals = 0#64 from hch)]
    exact ⟨Runs.ok hr, hst⟩
  · rw [if_neg hch] at e
    simp only [if_neg (show ¬ s.noR.cur l.var &&& ~~~ l.vals = 0#64 from hch)]
    obtain ⟨L, hr⟩ := hr
    have hf : s.recs l.var = (L (vkey l.var)).map Prod.snd := by rw [hr.nums, keyed_vkey]
    unfold updateVar at e
    rw [show (addNode s l).recs l.var = s.recs l.var from rfl, hf] at e
    have := bpwalk_sim hn (L (vkey l.var)) [] (addNode s l) s' h L (store_addNode hst) hr rfl e
    rw [← hr.rep.head] at this
    exact this

theorem bpunitProp_sim {new : WMem → Nat} (hn : Alloc new) : ∀ (f : Nat) {s s' : BSt S} {h : WMem}, StoreInv s →
    RepOf h (keyed s.recs) → bunitProp f s = .ok s' → Runs (fun g => bpunitProp new g f (s.noR, h)) s' ∧ StoreInv s'
  | 0, _, _, _, _, _, e => by cases e
  | f + 1, s, s', h, hst, hr, e => by
    unfold bunitProp at e
    simp only [bpunitProp]
    by_cases hc : s.conflict = true
    · rw [if_pos hc] at e
      cases e
      simp only [if_pos (show s.noR.conflict = true from hc)]
      exact ⟨⟨h, hr, 0, fun _ _ => rfl⟩, hst.of_eq rfl rfl rfl rfl rfl rfl rfl⟩
    rw [if_neg hc] at e
    simp only [if_neg (show ¬ s.noR.conflict = true from hc)]
    rw [show s.noR.units = s.units from rfl]
    cases hu : s.units with
    | nil =>
      rw [hu] at e
      cases e
      exact ⟨Runs.ok hr, hst⟩
    | cons id rest =>
      rw [hu] at e
      dsimp only at e ⊢
      have hid : id < s.ncl := by
        apply Classical.byContradiction
        intro hid
        rw [if_neg hid] at e; cases e
      rw [if_pos hid] at e
      simp only [if_pos (show id < s.noR.ncl from hid)]
      -- the state after taking the clause from the queue
      generalize hs1 : ({ s with unitClause := (id : Int), units := rest } : BSt S) = s1 at e
      have hs1' : ({ s.noR with unitClause := (id : Int), units := rest } : BSt S) = s1.noR := by rw [← hs1]; rfl
      have hst1 : StoreInv s1 := by rw [← hs1]; exact hst.of_eq rfl rfl rfl rfl rfl rfl rfl
      have hr1 : RepOf h (keyed s1.recs) := by rw [← hs1]; exact hr
      rw [hs1']
      rw [show s1.noR.cl id = s1.cl id from rfl, show satW s1.noR = satW s1 from rfl]
      have red : ∀ {w : BLit}, (breduce s1 w >>= fun s2 => bunitProp f { s2 with nUnits := s2.nUnits + 1 }) = .ok s' →
          Runs (fun g => bpreduce new g (s1.noR, h) w >>= fun p2 =>
            bpunitProp new g f ({ p2.1 with nUnits := p2.1.nUnits + 1 }, p2.2)) s' ∧ StoreInv s' := by
        intro w e
        obtain ⟨s2, e2, e⟩ := Res.bind_eq_ok.1 e
        obtain ⟨a1, a2⟩ := bpreduce_sim hn hst1 hr1 e2
        have hst2 : StoreInv ({ s2 with nUnits := s2.nUnits + 1 } : BSt S) := a2.of_eq rfl rfl rfl rfl rfl rfl rfl
        obtain ⟨h0, hr0, _⟩ := a1
        have last := (bpunitProp_sim hn f (h := h0) hst2 hr0 e).2
        exact ⟨(bpreduce_sim hn hst1 hr1 e2).1.bind fun h2 hr2 => (bpunitProp_sim hn f (h := h2) hst2 hr2 e).1, last⟩
      cases hw : (s1.cl id).w0 with
      | none => rw [hw] at e; cases e
      | some w =>
        rw [hw] at e
        dsimp only at e ⊢
        obtain ⟨x, hx, e⟩ := Res.bind_eq_ok.1 e
        rw [hx]
        simp only [Res.ok_bind]
        by_cases h2 : x = 2
        · rw [if_pos h2] at e
          simp only [if_pos h2]
          exact red e
        rw [if_neg h2] at e
        simp only [if_neg h2]
        by_cases hl : (s1.cl id).lits.length > 1
        · rw [if_pos hl] at e
          simp only [if_pos hl]
          cases hw' : (s1.cl id).w1 with
          | none => rw [hw'] at e; cases e
          | some w' =>
            rw [hw'] at e
            dsimp only at e ⊢
            obtain ⟨y, hy, e⟩ := Res.bind_eq_ok.1 e
            rw [hy]
            simp only [Res.ok_bind]
            by_cases h3 : y = 2
            · rw [if_pos h3] at e
              simp only [if_pos h3]
              exact red e
            · rw [if_neg h3] at e
              simp only [if_neg h3]
              exact bpunitProp_sim hn f hst1 hr1 e
        · rw [if_neg hl] at e
          simp only [if_neg hl]
          exact bpunitProp_sim hn f hst1 hr1 e

/-! ## Conflicts -/

theorem bump_noR (A : ScoreArith S) : ∀ (ls : List BLit) (s : BSt S),
    ls.foldl (bbump A) s.noR = (ls.foldl (bbump A) s).noR ∧ (ls.foldl (bbump A) s).recs = s.recs ∧
      (ls.foldl (bbump A) s).units = s.units
  | [], _ => ⟨rfl, rfl, rfl⟩
  | l :: ls, s => by
    rw [List.foldl_cons, List.foldl_cons]
    obtain ⟨h1, h2, h3⟩ := bump_noR A ls (bbump A s l)
    exact ⟨h1, h2, h3⟩

theorem blearn_push (A : ScoreArith S) (s : BSt S) (c : BCls) (q : Option Nat) : blearn A s c q =
    match c.w0 with
    | none => .ub
    | some w =>
      if c.lits.length > 1 then
        match c.w1 with
        | none => .ub
        | some w' => .ok (bhalve A (c.lits.foldl (bbump A) (addRec (addRec (bpushLearned s c q) w.var s.ncl) w'.var s.ncl)))
      else .ok (bhalve A (c.lits.foldl (bbump A) (addRec (bpushLearned s c q) w.var s.ncl))) := by
  cases q <;> rfl

theorem bplearn_sim (A : ScoreArith S) {new : WMem → Nat} (hn : Alloc new) {s s' : BSt S} {h : WMem}
    (hr : RepOf h (keyed s.recs)) {c : BCls} {q : Option Nat} (e : blearn A s c q = .ok s') :
    ∃ h', bplearn A new (s.noR, h) c q = .ok (s'.noR, h') ∧ RepOf h' (keyed s'.recs) := by
  rw [blearn_push] at e
  unfold bplearn
  dsimp only at e ⊢
  have hs1' : bpushLearned s.noR c q = (bpushLearned s c q).noR := by cases q <;> rfl
  have hre : (bpushLearned s c q).recs = s.recs := by cases q <;> rfl
  generalize bpushLearned s c q = s1 at e hs1' hre
  rw [hs1', show s.noR.ncl = s.ncl from rfl]
  cases hw : c.w0 with
  | none => rw [hw] at e; cases e
  | some w =>
    rw [hw] at e
    dsimp only at e ⊢
    obtain ⟨h1, e1, hr1⟩ := badd_simO hr hn w.var s.ncl
    rw [e1, Res.ok_bind]
    by_cases hl : c.lits.length > 1
    · rw [if_pos hl] at e ⊢
      cases hw' : c.w1 with
      | none => rw [hw'] at e; cases e
      | some w' =>
        rw [hw'] at e
        dsimp only at e ⊢
        cases e
        obtain ⟨h2, e2, hr2⟩ := badd_simO hr1 hn w'.var s.ncl
        rw [e2, Res.ok_bind]
        obtain ⟨b1, b2, _⟩ := bump_noR A c.lits (addRec (addRec s1 w.var s.ncl) w'.var s.ncl)
        refine ⟨h2, ?_, ?_⟩
        · rw [show s1.noR = (addRec (addRec s1 w.var s.ncl) w'.var s.ncl).noR from rfl, b1]; rfl
        · rw [show ∀ t : BSt S, (bhalve A t).recs = t.recs from fun _ => rfl, b2]
          unfold addRec
          dsimp only
          rw [hre]
          exact hr2
    · rw [if_neg hl] at e ⊢
      cases e
      obtain ⟨b1, b2, _⟩ := bump_noR A c.lits (addRec s1 w.var s.ncl)
      refine ⟨h1, ?_, ?_⟩
      · rw [show s1.noR = (addRec s1 w.var s.ncl).noR from rfl, b1]; rfl
      · rw [show ∀ t : BSt S, (bhalve A t).recs = t.recs from fun _ => rfl, b2]
        unfold addRec
        dsimp only
        rw [hre]
        exact hr1

theorem bpanalyze_sim (A : ScoreArith S) {new : WMem → Nat} (hn : Alloc new) {s : BSt S} {h : WMem}
    (hr : RepOf h (keyed s.recs)) : ∀ (f : Nat) {c : BCls} {q : Option Nat} {s' : BSt S} {c' : BCls},
    banalyze A f s c q = .ok (s', c') →
    ∃ h', bpanalyze A new f (s.noR, h) c q = .ok ((s'.noR, h'), c') ∧ RepOf h' (keyed s'.recs)
  | 0, _, _, _, _, e => by cases e
  | f + 1, c, q, s', c', e => by
    unfold banalyze at e
    unfold bpanalyze
    obtain ⟨x, hx, e⟩ := Res.bind_eq_ok.1 e
    rw [show bpotent (s.noR, h).1 c = bpotent s c from rfl, hx, Res.ok_bind]
    by_cases hp : x = true
    · rw [if_pos hp] at e ⊢
      obtain ⟨s1, e1, e⟩ := Res.bind_eq_ok.1 e
      cases e
      obtain ⟨h1, p1, hr1⟩ := bplearn_sim A hn hr e1
      rw [p1]
      exact ⟨h1, rfl, hr1⟩
    · rw [if_neg hp] at e ⊢
      cases hw : c.w0 with
      | none => rw [hw] at e; cases e
      | some l =>
        rw [hw] at e
        dsimp only at e ⊢
        rw [show s.noR.node l = s.node l from rfl, show s.noR.ncl = s.ncl from rfl]
        by_cases hb : (s.node l).reason < 0 ∨ (s.node l).reason.toNat ≥ s.ncl
        · rw [if_pos hb] at e; cases e
        · rw [if_neg hb] at e ⊢
          exact bpanalyze_sim A hn hr f e

theorem bpconflict_sim (cfg : BCfg S) {new : WMem → Nat} (hn : Alloc new) {s s' : BSt S} {h : WMem}
    (hr : RepOf h (keyed s.recs)) {rc rc' : Int} {f : Nat} (e : bconflict cfg f s rc = .ok (s', rc')) :
    ∃ h', bpconflict cfg new f (s.noR, h) rc = .ok ((s'.noR, h'), rc') ∧ RepOf h' (keyed s'.recs) := by
  unfold bconflict at e
  unfold bpconflict
  dsimp only at e ⊢
  by_cases hr0 : s.conflicting < 0 ∨ s.conflicting.toNat ≥ s.ncl
  · rw [if_pos hr0] at e; cases e
  rw [if_neg hr0] at e
  rw [if_neg (show ¬ (s.noR.conflicting < 0 ∨ s.noR.conflicting.toNat ≥ s.noR.ncl) from hr0)]
  obtain ⟨⟨s1, c⟩, e1, e⟩ := Res.bind_eq_ok.1 e
  dsimp only at e
  obtain ⟨lv, e2, e⟩ := Res.bind_eq_ok.1 e
  obtain ⟨h1, p1, hr1⟩ := bpanalyze_sim cfg.arith hn hr f e1
  rw [show s.noR.cl s.noR.conflicting.toNat = s.cl s.conflicting.toNat from rfl,
    show s.noR.ptr s.noR.conflicting.toNat = s.ptr s.conflicting.toNat from rfl, p1, Res.ok_bind]
  rw [show bbackLevel s1.noR c = bbackLevel s1 c from rfl, e2, Res.ok_bind]
  dsimp only at e ⊢
  rw [show s1.noR.nBacktracks = s1.nBacktracks from rfl]
  by_cases hb : ((s1.nBacktracks + 1 : Nat) : Int) = rc
  · rw [if_pos hb] at e ⊢
    cases e
    exact ⟨h1, rfl, hr1⟩
  · rw [if_neg hb] at e ⊢
    cases e
    exact ⟨h1, rfl, hr1⟩

/-! ## Decisions -/

theorem blazy_noR (s : BSt S) : ∀ ids, blazyLoop s.noR ids = blazyLoop s ids
  | [] => rfl
  | id :: ids => by
    unfold blazyLoop
    rw [blazy_noR s ids]
    rfl

theorem bchoose_noR (cfg : BCfg S) (s : BSt S) : bchoose cfg s.noR = bchoose cfg s := by
  unfold bchoose
  split
  · rfl
  · exact blazy_noR s _

/-! ## The loop -/

theorem bploop_sim {cfg : BCfg S} {P : Problem} {pos : S → Prop} (hg : cfg.arith.Good pos) {new : WMem → Nat} (hn : Alloc new)
    {rc : Int} (hrc : rc ≤ 0) : ∀ (f : Nat) (s s' : BSt S) (h : WMem) (r : Nat), LoopInv True P pos s →
    RepOf h (keyed s.recs) → bloop cfg f s rc = .ok (r, s') → RunsR (fun g => bploop cfg new g f (s.noR, h) rc) r s'
  | 0, _, _, _, _, _, _, e => by cases e
  | f + 1, s, s', h, r, hl, hr, e => by
    rw [bloop_eq] at e
    obtain ⟨x, ex, e⟩ := Res.bind_eq_ok.1 e
    have hspec := bstep_spec cfg hg hl hrc f
    rw [ex] at hspec
    unfold bstep at ex
    simp only [bploop]
    dsimp only at ex
    by_cases h1 : cfg.late s.ticks = true
    · rw [if_pos h1] at ex
      cases ex
      cases e
      simp only [if_pos (show cfg.late s.noR.ticks = true from h1)]
      exact ⟨h, hr, 0, fun _ _ => rfl⟩
    rw [if_neg h1] at ex
    simp only [if_neg (show ¬ cfg.late s.noR.ticks = true from h1)]
    by_cases h2 : s.conflict = true ∧ s.LEVEL = 0
    · rw [if_pos h2] at ex
      cases ex
      cases e
      simp only [if_pos (show s.noR.conflict = true ∧ s.noR.LEVEL = 0 from h2)]
      exact ⟨h, hr, 0, fun _ _ => rfl⟩
    rw [if_neg h2] at ex
    simp only [if_neg (show ¬ (s.noR.conflict = true ∧ s.noR.LEVEL = 0) from h2)]
    obtain ⟨⟨s1, rc1⟩, ec, ex⟩ := Res.bind_eq_ok.1 ex
    obtain ⟨s2, ep, ex⟩ := Res.bind_eq_ok.1 ex
    dsimp only at ep ex
    -- the conflict part
    have hc1 : StoreInv s1 ∧ rc1 = rc ∧ ∃ h1, RepOf h1 (keyed s1.recs) ∧
        (if s.noR.conflict then bpconflict cfg new f (({ s.noR with ticks := s.noR.ticks + 1 } : BSt S), h) rc
          else .ok ((({ s.noR with ticks := s.noR.ticks + 1 } : BSt S), h), rc)) = .ok ((s1.noR, h1), rc1) := by
      by_cases hc : s.conflict = true
      · rw [if_pos hc] at ec
        rw [if_pos (show s.noR.conflict = true from hc)]
        have hL : s.LEVEL ≠ 0 := fun e => h2 ⟨hc, e⟩
        have ht := hl.inv.tick
        have hb := bconflict_spec cfg hg ht (hl.sem.stats (s.ticks + 1) s.nDecisions s.LEVEL) hl.score hc hL hrc f
        rw [ec] at hb
        obtain ⟨h1, p1, hr1⟩ := bpconflict_sim cfg hn (s := { s with ticks := s.ticks + 1 }) (h := h) hr ec
        exact ⟨hb.2.1.store, hb.1, h1, hr1, p1⟩
      · rw [if_neg hc] at ec
        rw [if_neg (show ¬ s.noR.conflict = true from hc)]
        cases ec
        exact ⟨hl.inv.tick.store, rfl, h, hr, rfl⟩
    obtain ⟨hst1, hrc1, h1', hr1, p1⟩ := hc1
    rw [hrc1] at ex p1
    rw [p1]
    simp only [Res.ok_bind]
    -- propagation
    have hp : Runs (fun g => if s1.noR.units = [] then .ok (s1.noR, h1') else bpunitProp new g f (s1.noR, h1')) s2 ∧
        StoreInv s2 := by
      by_cases hu : s1.units = []
      · rw [if_pos hu] at ep
        cases ep
        simp only [if_pos (show s1.noR.units = [] from hu)]
        exact ⟨Runs.ok hr1, hst1⟩
      · rw [if_neg hu] at ep
        simp only [if_neg (show ¬ s1.noR.units = [] from hu)]
        exact bpunitProp_sim hn f hst1 hr1 ep
    obtain ⟨hp, hst2⟩ := hp
    refine hp.bindR fun h2' hr2 => ?_
    dsimp only
    by_cases hc2 : s2.conflict = true
    · rw [if_pos hc2] at ex
      cases ex
      simp only [if_pos (show s2.noR.conflict = true from hc2)]
      exact bploop_sim hg hn hrc f s2 s' h2' r hspec.2.1 hr2 e
    rw [if_neg hc2] at ex
    simp only [if_neg (show ¬ s2.noR.conflict = true from hc2)]
    obtain ⟨o, eo, ex⟩ := Res.bind_eq_ok.1 ex
    unfold bdecide at eo
    unfold bpdecide
    dsimp only
    simp only [bchoose_noR]
    obtain ⟨c, ech, eo⟩ := Res.bind_eq_ok.1 eo
    rw [ech]
    simp only [Res.ok_bind]
    cases c with
    | none =>
      cases eo
      cases ex
      cases e
      exact ⟨h2', hr2, 0, fun _ _ => rfl⟩
    | some l =>
      obtain ⟨s3, e3, eo⟩ := Res.bind_eq_ok.1 eo
      cases eo
      cases ex
      dsimp only at hspec e
      have hst2' : StoreInv ({ s2 with nDecisions := s2.nDecisions + 1, LEVEL := s2.LEVEL + 1, unitClause := -1 } : BSt S) :=
        hst2.of_eq rfl rfl rfl rfl rfl rfl rfl
      have key := (bpreduce_sim hn hst2' (h := h2') hr2 e3).1
      obtain ⟨h3, hr3, g3, q3⟩ := key
      obtain ⟨h4, hr4, g4, q4⟩ := bploop_sim hg hn hrc f s3 s' h3 r hspec.2.1 hr3 e
      refine ⟨h4, hr4, g3 + g4, fun g hle => ?_⟩
      have q3 := q3 g (by omega)
      dsimp only at q3 ⊢
      rw [show (({ s2.noR with nDecisions := s2.noR.nDecisions + 1, LEVEL := s2.noR.LEVEL + 1, unitClause := -1 } : BSt S), h2') =
        (({ s2 with nDecisions := s2.nDecisions + 1, LEVEL := s2.LEVEL + 1, unitClause := -1 } : BSt S).noR, h2') from rfl, q3,
        Res.ok_bind, Res.ok_bind]
      exact q4 g (by omega)

/-! ## Reading -/

theorem readLits_noR (s : BSt S) : ∀ (ls : List Lit) (c : List BLit), readLits s.noR c ls = readLits s c ls
  | [], _ => rfl
  | l :: ls, c => by
    unfold readLits
    rw [show readLit s.noR = readLit s from rfl]
    simp only [readLits_noR s ls]

theorem baddClause_push (A : ScoreArith S) (s : BSt S) (ls : List Lit) : baddClause A s ls =
    (readLits s [] ls >>= fun c =>
      if c.all fun l => l.var ≤ s.nv then
        let s1 := c.foldl (bbump A) (bpushRead s c)
        match c with
        | [] => .ub
        | [a] => .ok (addRec { s1 with units := s1.units ++ [s.ncl] } a.var s.ncl)
        | a :: b :: _ => .ok (addRec (addRec s1 a.var s.ncl) b.var s.ncl)
      else .ub) := rfl

theorem bpaddClause_sim (A : ScoreArith S) {new : WMem → Nat} (hn : Alloc new) {s s' : BSt S} {h : WMem}
    (hr : RepOf h (keyed s.recs)) {ls : List Lit} (e : baddClause A s ls = .ok s') :
    ∃ h', bpaddClause A new (s.noR, h) ls = .ok (s'.noR, h') ∧ RepOf h' (keyed s'.recs) := by
  rw [baddClause_push] at e
  unfold bpaddClause
  dsimp only at e ⊢
  rw [readLits_noR]
  obtain ⟨c, ec, e⟩ := Res.bind_eq_ok.1 e
  rw [ec, Res.ok_bind, show s.noR.nv = s.nv from rfl]
  by_cases hall : (c.all fun l => decide (l.var ≤ s.nv)) = true
  · rw [if_pos hall] at e ⊢
    obtain ⟨b1, b2, _⟩ := bump_noR A c (bpushRead s c)
    have b1 : c.foldl (bbump A) (bpushRead s.noR c) = _ := b1
    have b4 : (c.foldl (bbump A) (bpushRead s c)).recs = s.recs := b2
    rw [b1, show s.noR.ncl = s.ncl from rfl]
    generalize c.foldl (bbump A) (bpushRead s c) = t at e b4 ⊢
    match c with
    | [] => cases e
    | [a] =>
      cases e
      obtain ⟨h1, e1, hr1⟩ := badd_simO hr hn a.var s.ncl
      dsimp only
      rw [e1, Res.ok_bind]
      refine ⟨h1, rfl, ?_⟩
      unfold addRec
      dsimp only
      rw [b4]
      exact hr1
    | a :: b :: xs =>
      cases e
      obtain ⟨h1, e1, hr1⟩ := badd_simO hr hn a.var s.ncl
      obtain ⟨h2, e2, hr2⟩ := badd_simO hr1 hn b.var s.ncl
      dsimp only
      rw [e1, Res.ok_bind, e2, Res.ok_bind]
      refine ⟨h2, rfl, ?_⟩
      unfold addRec
      dsimp only
      rw [b4]
      exact hr2
  · rw [if_neg hall] at e; cases e

theorem bpbuildItems_sim (A : ScoreArith S) {new : WMem → Nat} (hn : Alloc new) : ∀ (is : List Item)
    {s s' : BSt S} {h : WMem}, RepOf h (keyed s.recs) → bbuildItems A is s = .ok s' →
    ∃ h', bpbuildItems A new is (s.noR, h) = .ok (s'.noR, h') ∧ RepOf h' (keyed s'.recs)
  | [], _, _, h, hr, e => by cases e; exact ⟨h, rfl, hr⟩
  | .dom d :: is, s, s', h, hr, e => by
    unfold bbuildItems at e
    obtain ⟨s1, e1, e⟩ := Res.bind_eq_ok.1 e
    have hv : baddVar s.noR d = .ok s1.noR ∧ s1.recs = s.recs := by
      unfold baddVar at e1 ⊢
      split at e1
      · rename_i hd
        cases e1
        rw [if_pos hd]
        exact ⟨rfl, rfl⟩
      · cases e1
    obtain ⟨h2, p2, hr2⟩ := bpbuildItems_sim A hn is (s := s1) (h := h) (by rw [hv.2]; exact hr) e
    refine ⟨h2, ?_, hr2⟩
    unfold bpbuildItems
    dsimp only
    rw [hv.1, Res.ok_bind, p2]
  | .clause ls :: is, s, s', h, hr, e => by
    unfold bbuildItems at e
    obtain ⟨s1, e1, e⟩ := Res.bind_eq_ok.1 e
    obtain ⟨h1, p1, hr1⟩ := bpaddClause_sim A hn hr e1
    obtain ⟨h2, p2, hr2⟩ := bpbuildItems_sim A hn is hr1 e
    refine ⟨h2, ?_, hr2⟩
    unfold bpbuildItems
    rw [p1, Res.ok_bind, p2]

/-- Whole runs. -/
theorem bprun_sim {cfg : BCfg S} {pos : S → Prop} (hg : cfg.arith.Good pos) (hrc : cfg.restarts ≤ 0) {P : Problem}
    (hwf : P.Regular) (h64 : ∀ d ∈ P.doms, d ≤ 64) {new : WMem → Nat} (hn : Alloc new) {fuel r : Nat} {s : BSt S}
    (e : brun cfg fuel P = .ok (r, s)) : RunsR (fun g => bprun cfg new g fuel P) r s := by
  obtain ⟨s0, hb, hread⟩ := bbuild_read hg hwf h64
  unfold brun at e
  rw [hb, Res.ok_bind] at e
  have hr0 : RepOf WMem.empty (keyed (binit cfg.arith).recs) := by
    rw [show (binit cfg.arith).recs = fun _ => [] from rfl, keyed_nil]; exact RepOf.empty
  obtain ⟨h1, p1, hr1⟩ := bpbuildItems_sim cfg.arith hn P.items hr0 hb
  have hl : LoopInv True P pos s0 := by
    have := hread.loopInv
    exact ⟨this.inv, this.sem, fun _ => .inl trivial, this.score⟩
  obtain ⟨h2, hr2, g0, q⟩ := bploop_sim hg hn hrc fuel s0 s h1 r hl hr1 e
  refine ⟨h2, hr2, g0, fun g hle => ?_⟩
  unfold bprun
  dsimp only
  rw [show (binit cfg.arith, WMem.empty) = ((binit cfg.arith).noR, WMem.empty) from rfl, p1, Res.ok_bind]
  exact q g hle

end Mvl.BV
