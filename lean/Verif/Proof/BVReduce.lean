import Verif.Proof.BVUpdate

/-!
# Bit-vector variant: one record, all records, a new node
-/

namespace Mvl.BV

variable {S : Type}

theorem bsat_cases (s : BSt S) (l : BLit) : bsat s l = 0 ∨ bsat s l = 1 ∨ bsat s l = 2 := by
  unfold bsat; split
  · simp
  · split <;> simp

theorem updateOne_eq {s : BSt S} {v id : Nat} (hc : s.conflict = false) (hid : id < s.ncl) :
    updateOne v s id = (satW s (s.cl id).w0 >>= fun x => if x = 1 then .ok s else
      satW s (s.cl id).w1 >>= fun y =>
        if y = 1 then .ok (s.setCl id { s.cl id with w0 := (s.cl id).w1, w1 := (s.cl id).w0 })
        else
          let s1 := if (s.cl id).w1.map BLit.var = some v then
            s.setCl id { s.cl id with w0 := (s.cl id).w1, w1 := (s.cl id).w0 } else s
          satW s1 (s1.cl id).w0 >>= fun z => if z = 0 then swapPointer s1 v id else .ok s1) := by
  unfold updateOne
  rw [hc, if_pos hid]
  rfl

theorem UpdInv.swapped {s : BSt S} {v id : Nat} {rem : List Nat} (h : UpdInv s v rem) (hc : s.conflict = false)
    (hid : id < s.ncl) (h1 : (s.cl id).w1 ≠ none) :
    UpdInv (s.setCl id { s.cl id with w0 := (s.cl id).w1, w1 := (s.cl id).w0 }) v rem := by
  have hf : Frame s (s.setCl id { s.cl id with w0 := (s.cl id).w1, w1 := (s.cl id).w0 }) := setCl_frame rfl
  exact ⟨hf.trail h.trail, swap_store h.store hid h1,
    h.watch.frame hf (fun i hi w => swap_isW h.store hid hi w) rfl hc hc, h.nodup, h.rem⟩

theorem updateOne_spec {U : Prop} {s : BSt S} {v id : Nat} {ids : List Nat} (h : UpdInv s v (id :: ids))
    (hU : OneOK U s v) : SatU U (updateOne v s id) fun s' => UpdInv s' v ids ∧ Frame s s' := by
  cases hc : s.conflict with
  | true =>
    unfold updateOne
    rw [hc]
    exact ⟨h.drop_conflict hc, Frame.refl s⟩
  | false =>
    obtain ⟨hid, wv, hwv, hwvv⟩ := (h.store.recs v id).1 (h.rem id List.mem_cons_self)
    rw [updateOne_eq hc hid]
    have hw := h.store.wok id hid
    rcases id_cases : hw with ⟨a, hl, ha, hb⟩ | ⟨hlen, a, b, ha, hb, hma, hmb, hab⟩
    · have hla := h.store.lok id hid a (by rw [hl]; simp)
      rw [ha, hb, satW_some hla.isVar]
      show SatU U (if bsat s a = 1 then _ else _ : Res (BSt S)) _
      by_cases h1 : bsat s a = 1
      · rw [if_pos h1]
        refine ⟨h.drop hc ?_ ?_ ?_, Frame.refl s⟩
        · intro w w' hw1 hw2 hne
          exact absurd (by have := hw.len hw1 hw2 hne; rw [hl] at this; simp at this) (fun h : False => h)
        · intro w w' hw1 hw2 hne
          exact absurd (by have := hw.len hw1 hw2 hne; rw [hl] at this; simp at this) (fun h : False => h)
        · intro x hx
          rw [hl] at hx; cases hx
          exact bsat_one.1 h1
      · rw [if_neg h1]
        rcases hU with hU | hU
        · exact hU
        · have hav : a.var = v := by
            rcases hwv with h2 | h2
            · rw [ha] at h2; cases h2; exact hwvv
            · rw [hb] at h2; cases h2
          exact absurd (bsat_one.2 (hU id hid a hl hav)) h1
    · have hla := h.store.lok id hid a hma
      have hlb := h.store.lok id hid b hmb
      have hisw : ∀ w, IsW (s.cl id) w → w = a ∨ w = b := by
        intro w hw'
        rcases hw' with h1 | h1
        · rw [ha] at h1; cases h1; exact Or.inl rfl
        · rw [hb] at h1; cases h1; exact Or.inr rfl
      have hnsing : ∀ x, (s.cl id).lits ≠ [x] := by intro x hx; rw [hx] at hlen; simp at hlen
      rw [ha, satW_some hla.isVar]
      show SatU U (if bsat s a = 1 then _ else _ : Res (BSt S)) _
      -- both kinds of success: a true watch
      have htrue : ∀ s1 : BSt S, UpdInv s1 v (id :: ids) → Frame s s1 → s1.conflict = false →
          (∀ w, IsW (s1.cl id) w ↔ IsW (s.cl id) w) → (∃ t, (t = a ∨ t = b) ∧ TrueNow s t) → UpdInv s1 v ids := by
        intro s1 h1 hf hc1 hiw ⟨t, ht, htt⟩
        have hlt : LOK s t := by rcases ht with rfl | rfl; exact hla; exact hlb
        have hfal : ∀ w, IsW (s1.cl id) w → FalseNow s1 w → w ≠ t := by
          intro w _ hfw e
          subst e
          exact h.trail.not_both hlt.isVar htt ((FalseNow.congr hf.cur).1 hfw)
        refine h1.drop hc1 ?_ ?_ ?_
        · intro w w' hw1 hw2 hne hfw _
          left
          rw [TrueNow.congr hf.cur]
          have e : w' = t := by
            have h3 := hisw w ((hiw w).1 hw1)
            have h4 := hisw w' ((hiw w').1 hw2)
            have h5 := hfal w hw1 hfw
            rcases h3 with rfl | rfl <;> rcases h4 with rfl | rfl <;> rcases ht with rfl | rfl <;>
              first | rfl | exact absurd rfl hne | exact absurd rfl h5
          rw [e]; exact htt
        · intro w w' hw1 hw2 hne hfw hfw'
          have h3 := hisw w ((hiw w).1 hw1)
          have h4 := hisw w' ((hiw w').1 hw2)
          have h5 := hfal w hw1 hfw
          have h6 := hfal w' hw2 hfw'
          rcases h3 with rfl | rfl <;> rcases h4 with rfl | rfl <;> rcases ht with rfl | rfl <;>
              first | exact absurd rfl hne | exact absurd rfl h5 | exact absurd rfl h6
        · intro x hx
          rw [hf.lits] at hx
          exact absurd hx (hnsing x)
      by_cases h1 : bsat s a = 1
      · rw [if_pos h1]
        exact ⟨htrue s h (Frame.refl s) hc (fun _ => Iff.rfl) ⟨a, Or.inl rfl, bsat_one.1 h1⟩, Frame.refl s⟩
      · rw [if_neg h1, hb, satW_some hlb.isVar]
        show SatU U (if bsat s b = 1 then _ else _ : Res (BSt S)) _
        have hb' : (s.cl id).w1 ≠ none := by rw [hb]; simp
        have hsw := h.swapped hc hid hb'
        have hfr : Frame s (s.setCl id { s.cl id with w0 := (s.cl id).w1, w1 := (s.cl id).w0 }) := setCl_frame rfl
        have hcl := cl_setCl h.store hid { s.cl id with w0 := (s.cl id).w1, w1 := (s.cl id).w0 } hid
        rw [if_pos rfl] at hcl
        rw [ha, hb] at hsw hfr hcl
        by_cases h2 : bsat s b = 1
        · rw [if_pos h2]
          refine ⟨htrue _ hsw hfr hc ?_ ⟨b, Or.inr rfl, bsat_one.1 h2⟩, hfr⟩
          intro w
          rw [hcl]
          unfold IsW
          dsimp only
          rw [ha, hb]
          exact Or.comm
        · rw [if_neg h2]
          have hnta : ¬ TrueNow s a := fun ht => h1 (bsat_one.2 ht)
          have hntb : ¬ TrueNow s b := fun ht => h2 (bsat_one.2 ht)
          -- the rest, with the watch on `v` in front
          have main : ∀ (s1 : BSt S) (x y : BLit), UpdInv s1 v (id :: ids) → Frame s s1 → s1.conflict = false →
              (s1.cl id).w0 = some x → (s1.cl id).w1 = some y → x.var = v → ¬ TrueNow s x → ¬ TrueNow s y → LOK s x →
              x.var ≠ y.var →
              SatU U (satW s1 (s1.cl id).w0 >>= fun z => if z = 0 then swapPointer s1 v id else .ok s1)
                fun s' => UpdInv s' v ids ∧ Frame s s' := by
            intro s1 x y hu hf hc1 hx hy hxv hnx hny hlx hxy
            rw [hx, satW_some ((IsVar.congr hf.nv).2 hlx.isVar)]
            show SatU U (if bsat s1 x = 0 then _ else _ : Res (BSt S)) _
            by_cases h3 : bsat s1 x = 0
            · rw [if_pos h3]
              obtain ⟨s', e, h4, h5⟩ := swapPointer_spec hu hc1 (by rw [hf.ncl]; exact hid) hx hy hxv (bsat_zero.1 h3).2
                (by rw [TrueNow.congr hf.cur]; exact hny)
              rw [e]
              exact ⟨h4, hf.trans h5⟩
            · rw [if_neg h3]
              have hnfx : ¬ FalseNow s1 x := by
                intro hfx
                exact h3 (bsat_zero.2 ⟨by rw [TrueNow.congr hf.cur]; exact hnx, hfx⟩)
              have hisw1 : ∀ w, IsW (s1.cl id) w → w = x ∨ w = y := by
                intro w hw'
                rcases hw' with h1 | h1
                · rw [hx] at h1; cases h1; exact Or.inl rfl
                · rw [hy] at h1; cases h1; exact Or.inr rfl
              refine ⟨hu.drop hc1 ?_ ?_ ?_, hf⟩
              · intro w w' hw1 _ _ hfw hwv'
                rcases hisw1 w hw1 with rfl | rfl
                · exact absurd hfw hnfx
                · exact absurd (hxv.trans hwv'.symm) hxy
              · intro w w' hw1 hw2 hne hfw hfw'
                rcases hisw1 w hw1 with e1 | e1 <;> rcases hisw1 w' hw2 with e2 | e2
                · exact hne (e1.trans e2.symm)
                · exact hnfx (e1 ▸ hfw)
                · exact hnfx (e2 ▸ hfw')
                · exact hne (e1.trans e2.symm)
              · intro z hz
                rw [hf.lits] at hz
                exact absurd hz (hnsing z)
          by_cases h3 : b.var = v
          · simp only [Option.map_some, h3, if_true]
            exact main _ b a hsw hfr hc (congrArg BCls.w0 hcl) (congrArg BCls.w1 hcl) h3 hntb hnta hlb hab.symm
          · have hav : a.var = v := by
              rcases hisw wv hwv with rfl | rfl
              · exact hwvv
              · exact absurd hwvv h3
            simp only [Option.map_some, Option.some.injEq, h3, if_false]
            exact main s a b h (Frame.refl s) hc ha hb hav hnta hntb hla hab

theorem updateList_spec {U : Prop} {v : Nat} : ∀ (ids : List Nat) {s : BSt S}, UpdInv s v ids → OneOK U s v →
    SatU U (updateList v ids s) fun s' => UpdInv s' v [] ∧ Frame s s'
  | [], s, h, _ => ⟨h, Frame.refl s⟩
  | id :: ids, s, h, hU => by
    unfold updateList
    refine SatU.bind (updateOne_spec h hU) ?_
    rintro s1 ⟨h1, hf⟩
    exact (updateList_spec ids h1 (hU.congr hf)).mono fun s2 h2 => ⟨h2.1, hf.trans h2.2⟩

end Mvl.BV
