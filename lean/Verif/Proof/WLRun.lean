import Verif.Proof.WL

/-!
# Clause learning with watched literals: reachable states, partial correctness and termination
-/

namespace Mvl

variable {S : Type}

/-- States the watched-literal search passes through. -/
inductive WReach (cfg : Cfg S) (P : Problem) : St S → Int → Prop
  | start {s} : build cfg P = .ok s → WReach cfg P s cfg.restarts
  | tick {s rc} : WReach cfg P s rc → WReach cfg P (tick s) rc
  | prop {s rc} : WReach cfg P s rc → s.conflict = false → s.units ≠ [] → WReach cfg P (wunitStep s) rc
  | conf {s rc f s' rc'} : WReach cfg P s rc → s.conflict = true → s.LEVEL ≠ 0 →
      conflictWL cfg f s rc = .ok (s', rc') → WReach cfg P s' rc'
  | dec {s rc s'} : WReach cfg P s rc → s.conflict = false → s.units = [] → decideNC cfg s = some s' →
      WReach cfg P s' rc

theorem Read.linv {cfg : Cfg S} {P : Problem} {s : St S} (h : Read cfg P.doms P.clauses s)
    (hnd : P.NoDupLits) : LInv P s := by
  refine ⟨h.nv, h.dom, ?_, ?_, ?_, ?_, ?_, ?_⟩
  · intro id hid
    obtain ⟨c, _, hc, he⟩ := h.cl_of_lt hid
    rw [he, mkCls_lits]; exact hnd c hc
  · intro i c hc
    have hlt : i < P.clauses.length := by
      rcases Nat.lt_or_ge i P.clauses.length with h' | h'
      · exact h'
      · rw [List.getElem?_eq_none h'] at hc; simp at hc
    exact ⟨by rw [h.ncl]; exact hlt, by rw [h.cl hc, mkCls_lits]⟩
  · intro a ha; exact (h.model a).2 ha
  · intro a _ v d
    have hu : s.tr.asgAt 0 v d = .un := by
      unfold Trail.asgAt
      have : s.tr.asg v d = .un := by show s.asg v d = .un; rw [h.asg]
      rw [this]; split <;> rfl
    rw [hu]; simp
  · intro v d hn
    have : s.tr.asg v d = .un := by show s.asg v d = .un; rw [h.asg]
    exact absurd this hn
  · obtain ⟨_, _, _, _, _, _, _, e⟩ := h.frame; rw [e]; rfl

theorem Read.rinv {cfg : Cfg S} {P : Problem} {s : St S} (h : Read cfg P.doms P.clauses s) : RInv cfg s cfg.restarts := by
  have e1 : s.nRestarts = 0 := by obtain ⟨_, _, _, _, _, _, _, e⟩ := h.frame; rw [e]; rfl
  have e2 : s.nBacktracks = 0 := by obtain ⟨_, _, _, _, _, _, _, e⟩ := h.frame; rw [e]; rfl
  have e3 : s.flowOff = 0 := by obtain ⟨_, _, _, _, _, _, _, e⟩ := h.frame; rw [e]; rfl
  refine ⟨?_, ?_, by rw [e2, e3]⟩
  · intro hp
    rw [e1, e2]
    refine ⟨by simp, by simp, by simpa using hp⟩
  · intro hz; exact ⟨e1, hz⟩

/-- A clause just read, in a state where nothing is assigned. -/
theorem mkCls_wok {cfg : Cfg S} (hw : cfg.watch = true) {c : List Lit} (hne : c ≠ []) (hnd : c.Nodup) {g : PA}
    (hg : ∀ v d, g v d = .un) {p : Prop} (hp : c.length = 1 ↔ p) : WOK (mkCls cfg c) g p := by
  have hu : ∀ l, LU g l := fun l => hg _ _
  match c, hne with
  | [a], _ =>
    left
    refine ⟨a, ⟨?_, ?_, ?_⟩, Or.inr ⟨hu a, hp.1 rfl⟩⟩ <;> simp [mkCls, hw, Cls.ofLits]
  | a :: b :: cs, _ =>
    right
    have hab : a ≠ b := by
      rintro rfl
      simp at hnd
    refine ⟨a, b, ⟨?_, ?_, ?_, ?_, hab, ?_⟩, fun hx => absurd (hu a) hx.not_LU, fun hx => absurd (hu b) hx.not_LU, ?_⟩
    · simp [mkCls, hw]
    · simp [mkCls, hw]
    · simp [mkCls_lits]
    · simp [mkCls_lits]
    · simp [mkCls_lits]
    · intro hp'
      have := hp.2 hp'
      simp at this

/-- The state after reading the file. -/
theorem Read.winv {cfg : Cfg S} {P : Problem} {s : St S} (h : Read cfg P.doms P.clauses s) (hw : cfg.watch = true)
    (hwf : P.Proper) (hnd : P.NoDupLits) : WInv (fun _ => False) s := by
  have hLv := h.LEVEL
  have hcf : s.conflict = false := by obtain ⟨_, _, _, _, _, _, _, e⟩ := h.frame; rw [e]; rfl
  have hun : ∀ v d, s.asg v d = .un := fun v d => by rw [h.asg]
  refine ⟨h.base, by rw [hLv]; omega, ⟨?_, ?_, ?_, ?_, ?_, ?_, ?_, ?_, ?_⟩, ?_, fun _ v h1 h2 => h.varOK hwf h1 h2, h.rng hwf⟩
  · intro i j hi hj he
    rw [h.ncl] at hi hj
    rw [h.ptr i hi, h.ptr j hj] at he; exact he
  · intro i hi
    have hnh : s.nheap = P.clauses.length := by obtain ⟨_, _, _, _, _, _, _, e⟩ := h.frame; rw [e]
    rw [h.ncl] at hi
    rw [h.ptr i hi, hnh]; exact hi
  · intro id hid
    obtain ⟨c, _, hc, he⟩ := h.cl_of_lt hid
    rw [he]
    exact (mkCls_wok hw (hwf.nonempty c hc) (hnd c hc) (g := s.asg) hun (p := c.length = 1) Iff.rfl).shape
  · intro l id
    rw [h.wlist hw]
    by_cases hid : id < s.ncl
    · obtain ⟨c, h1, hc, he⟩ := h.cl_of_lt hid
      rw [h1, he]
      have hne := hwf.nonempty c hc
      have hn := hnd c hc
      match c, hne with
      | [a], _ =>
        simp [hid, Watches, mkCls, hw, Cls.ofLits]
      | a :: b :: cs, _ =>
        have hab : a ≠ b := by
          rintro rfl
          simp at hn
        by_cases hl : a = l
        · subst hl
          simp [hid, Watches, mkCls, hw, Cls.ofLits, Ne.symm hab]
        · simp [hid, Watches, mkCls, hw, Cls.ofLits, hl]
    · have hn : P.clauses[id]? = none := List.getElem?_eq_none (by rw [← h.ncl]; omega)
      rw [hn]; simp [hid]
  · intro k hk0 hk; rw [hLv] at hk; omega
  · intro _ id hid
    obtain ⟨c, h1, hc, he⟩ := h.cl_of_lt hid
    rw [he]
    refine mkCls_wok hw (hwf.nonempty c hc) (hnd c hc) hun ?_
    rw [h.units id]
    constructor
    · intro hl; exact Or.inl ⟨c, h1, hl⟩
    · rintro (⟨c', h1', hl⟩ | hx)
      · rw [h1] at h1'; cases h1'; exact hl
      · exact hx.elim
  · intro id hid
    obtain ⟨c, h1, _⟩ := (h.units id).1 hid
    rw [h.ncl]
    rcases Nat.lt_or_ge id P.clauses.length with h' | h'
    · exact h'
    · rw [List.getElem?_eq_none h'] at h1; simp at h1
  · intro hc; rw [hcf] at hc; simp at hc
  · intro v d hn; exact absurd (hun v d) hn
  · intro k hk0 hk; rw [hLv] at hk; omega

theorem build_vinv {cfg : Cfg S} {P : Problem} (hw : cfg.watch = true)
    (hwf : P.Proper) (hnd : P.NoDupLits) : ∃ s, build cfg P = .ok s ∧ VInv cfg P s cfg.restarts := by
  obtain ⟨s0, h1, h2⟩ := build_read cfg hwf.lits_ok (fun _ => hwf.nonempty)
  exact ⟨s0, h1, h2.winv hw hwf hnd, h2.linv hnd, h2.pos, h2.rinv⟩

theorem WReach.vinv {cfg : Cfg S} {P : Problem} (hw : cfg.watch = true) (hs : cfg.ScoreOK)
    (hwf : P.Proper) (hnd : P.NoDupLits) {s : St S} {rc : Int} (h : WReach cfg P s rc) : VInv cfg P s rc := by
  induction h with
  | start hb =>
    obtain ⟨s0, h1, h2⟩ := build_vinv (cfg := cfg) hw hwf hnd
    rw [h1] at hb; cases hb; exact h2
  | tick _ ih => exact ih.tick
  | prop _ hc hu ih => exact ih.prop hc hu
  | conf _ hc hL he ih =>
    rename_i f s' rc' _
    have := ih.conf hw hc hL f
    rw [he] at this; exact this.1
  | dec _ hc hu hd ih => exact (ih.dec hw hs hc hu hd).1

theorem wunitProp_reach {cfg : Cfg S} {P : Problem} (hw : cfg.watch = true) (hs : cfg.ScoreOK)
    (hwf : P.Proper) (hnd : P.NoDupLits) : ∀ (f : Nat) (s : St S) (rc : Int), WReach cfg P s rc →
    (wunitProp cfg f s).Sat fun s' => WReach cfg P s' rc
  | 0, _, _, _ => trivial
  | f + 1, s, rc, h => by
    have hv := h.vinv hw hs hwf hnd
    cases hc : s.conflict with
    | true =>
      unfold wunitProp
      rw [if_neg (by rw [hv.linv.ub]; simp), if_pos hc]; exact h
    | false =>
      by_cases hu : s.units = []
      · unfold wunitProp
        rw [if_neg (by rw [hv.linv.ub]; simp), if_neg (by simp [hc]), hu]; exact h
      · rw [wunitProp_succ cfg f hv.inv hv.linv.ub hc hu]
        exact wunitProp_reach hw hs hwf hnd f _ rc (h.prop hc hu)

theorem WReach.loopInv {cfg : Cfg S} {P : Problem} (hw : cfg.watch = true) (hs : cfg.ScoreOK)
    (hwf : P.Proper) (hnd : P.NoDupLits) : LoopInv cfg (WReach cfg P) where
  ub := fun s rc h => (h.vinv hw hs hwf hnd).linv.ub
  tick := fun s rc h => h.tick
  conf := by
    intro f s rc h hc hL
    unfold confIf
    rw [if_pos hc, if_pos hw]
    have := (h.vinv hw hs hwf hnd).conf hw hc hL f
    cases he : conflictWL cfg f s rc with
    | ok p =>
      rw [he] at this
      exact ⟨h.conf hc hL he, this.2.1.conflict⟩
    | ub => rw [he] at this; exact this
    | fuel => trivial
  prop := by
    intro f s rc h hc
    unfold propIfL
    by_cases hu : s.units = []
    · rw [if_pos hu]; exact ⟨h, Or.inr hu⟩
    · rw [if_neg hu, if_pos hw]
      have hv := h.vinv hw hs hwf hnd
      have h1 := wunitProp_reach hw hs hwf hnd f s rc h
      have h2 := wunitProp_spec cfg f hv.inv hv.linv.ub
      cases he : wunitProp cfg f s with
      | ok s' => rw [he] at h1 h2; exact ⟨h1, h2.done⟩
      | ub => rw [he] at h1; exact h1
      | fuel => trivial
  dec := fun s rc s' h hc hu hd => h.dec hc hu hd

theorem WReach.loopTerm {cfg : Cfg S} {P : Problem} (hw : cfg.watch = true) (hs : cfg.ScoreOK)
    (hwf : P.Proper) (hnd : P.NoDupLits) : LoopTerm cfg (WReach cfg P) unused where
  tick := fun s => unused_same ⟨rfl, rfl, rfl, fun _ _ => rfl⟩
  conf := by
    intro s rc h hc hL
    have hn := h.vinv hw hs hwf hnd
    obtain ⟨id, hid, hcid, hcf, hnu, hwk⟩ := hn.confl hc hL
    have hL1 : 1 ≤ s.LEVEL := by have := hn.inv.lev0; omega
    obtain ⟨f0, hf0⟩ := analyze_total cfg s hn.inv.base hn.linv.reasons hL1 (s.cl id) (some (s.ptr id)) hcf (fun _ => hwk)
    have htn : s.conflicting.toNat = id := by rw [hcid]; simp
    have hsp := analyze_spec cfg s hn.inv.base hn.linv.reasons hL1 f0 (s.cl id) (some (s.ptr id)) hcf (fun _ => hwk) (Or.inr hnu)
    have hm := hn.conf hw hc hL f0
    cases he : analyze cfg f0 s (s.cl id) (some (s.ptr id)) with
    | ub => rw [he] at hsp; exact absurd hsp (by simp [Res.Sat])
    | fuel => exact absurd he (hf0 f0 (Nat.le_refl _))
    | ok r =>
      have hconf : ∀ f, f0 ≤ f → conflictWL cfg f s rc = conflictWL cfg f0 s rc := by
        intro f hf
        unfold conflictWL
        rw [if_neg (by rw [hcid]; omega), if_neg (by rw [hcid]; omega), htn]
        dsimp only
        rw [he, analyze_mono_le cfg hf he]
      cases hp : conflictWL cfg f0 s rc with
      | ub => rw [hp] at hm; exact absurd hm (by simp [Res.Sat])
      | fuel =>
        exfalso
        unfold conflictWL at hp
        rw [if_neg (by rw [hcid]; omega), htn] at hp
        dsimp only at hp
        rw [he] at hp
        simp only [Res.ok_bind] at hp
        have : ∃ b, wlLevel r.1 r.2 = .ok b := by
          rw [he] at hsp
          obtain ⟨e1, hl⟩ := hsp
          have hl1 : r.1.lvl = s.lvl := by
            obtain ⟨⟨w0, _, hw0, _⟩, hw1⟩ := hl.watch hw
            obtain ⟨sc, r', w, he2, _, _⟩ := learn_watch cfg hw s r.2 hw0
              (fun hlen => by obtain ⟨_, w1, _, e, _⟩ := hw1 hlen; exact ⟨w1, e⟩)
            rw [e1, he2]
          obtain ⟨b, hb, _⟩ := learned_watch hn.inv.base hL1 hl hw hl1
          exact ⟨b, hb⟩
        obtain ⟨b, hb⟩ := this
        rw [hb] at hp
        simp only [Res.ok_bind] at hp
        split at hp <;> simp [pure] at hp
      | ok p =>
        rw [hp] at hm
        refine ⟨p, f0, hm.2.2, ?_⟩
        intro f hf
        unfold confIf
        rw [if_pos hc, if_pos hw, hconf f hf, hp]
  prop := by
    intro s rc h hc
    have hn := h.vinv hw hs hwf hnd
    unfold propIfL
    by_cases hu : s.units = []
    · exact ⟨s, 0, Nat.le_refl _, Nat.le_refl _, fun f _ => by rw [if_pos hu]⟩
    · obtain ⟨s', f0, hf⟩ := wunitProp_term cfg _ _ s (Nat.le_refl _) (Nat.le_refl _) hn.inv hn.linv.ub
      have hsp := wunitProp_spec cfg f0 hn.inv hn.linv.ub
      rw [hf f0 (Nat.le_refl _)] at hsp
      refine ⟨s', f0, Nat.le_of_eq (unused_same hsp.grown.sameF), hsp.grown.unCount_le, ?_⟩
      intro f hff
      rw [if_neg hu, if_pos hw, hf f hff]
  dec := by
    intro s rc s' h hc hu hd
    obtain ⟨_, h2, h3⟩ := (h.vinv hw hs hwf hnd).dec hw hs hc hu hd
    exact ⟨Nat.le_of_eq (unused_same h2), h3⟩

end Mvl
