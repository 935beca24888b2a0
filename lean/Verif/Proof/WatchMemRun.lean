import Verif.Proof.WatchMem

/-!
# The search on linked records does what the search on lists does: whole runs
-/

namespace Mvl

variable {S : Type}

/-! ## Functions that do not look at the watch lists -/

/-- `f` neither reads nor changes the watch lists, and leaves `ub` alone. -/
def NoLists (f : St S → St S) : Prop := ∀ s, (f s).noW = f s.noW ∧ (f s).wlist = s.wlist ∧ (f s).ub = s.ub

theorem NoLists.foldl {α : Type} {f : St S → α → St S} (h : ∀ x, NoLists fun s => f s x) : ∀ (xs : List α),
    NoLists fun s => xs.foldl f s
  | [], _ => ⟨rfl, rfl, rfl⟩
  | x :: xs, s => by
    obtain ⟨a1, a2, a3⟩ := h x s
    obtain ⟨b1, b2, b3⟩ := NoLists.foldl h xs (f s x)
    simp only [List.foldl_cons]
    exact ⟨by rw [b1, a1], b2.trans a2, b3.trans a3⟩

theorem noLists_bump (cfg : Cfg S) (l : Lit) : NoLists fun s : St S => bump cfg s l := by
  intro s
  unfold bump
  cases cfg.heur with
  | VSIDS => exact ⟨rfl, rfl, rfl⟩
  | VSIDS_pos =>
    dsimp only
    by_cases h : l.eq = true
    · rw [if_pos h, if_pos h]; exact ⟨rfl, rfl, rfl⟩
    · rw [if_neg h, if_neg h]
      have e : s.noW.dom = s.dom := rfl
      rw [e]
      refine NoLists.foldl (fun j s => ?_) _ s
      dsimp only
      split <;> exact ⟨rfl, rfl, rfl⟩
  | BK => exact ⟨rfl, rfl, rfl⟩
  | lazy => exact ⟨rfl, rfl, rfl⟩

theorem noLists_learnLit (cfg : Cfg S) (hw : cfg.watch = true) (cid : Nat) (l : Lit) :
    NoLists fun s : St S => learnLit cfg cid s l := by
  intro s
  unfold learnLit
  simp only [hw]
  exact noLists_bump cfg l s

theorem noLists_halve (cfg : Cfg S) : NoLists fun s : St S => halveScores cfg s := by
  intro s
  unfold halveScores
  cases cfg.heur <;> exact ⟨rfl, rfl, rfl⟩

theorem noLists_addLit (cfg : Cfg S) (hw : cfg.watch = true) (l : Lit) : NoLists fun s : St S => addLit cfg s l := by
  intro s
  unfold addLit
  simp only [hw]
  cases he : cfg.heur with
  | BK => exact ⟨rfl, rfl, rfl⟩
  | _ => exact noLists_bump cfg l s

theorem noLists_wundoAtom (k : Int) (a : Nat × Nat) : NoLists fun s : St S => wundoAtom k s a := by
  intro s
  unfold wundoAtom
  have e : s.noW.lvl = s.lvl := rfl
  dsimp only
  rw [e]
  split <;> exact ⟨rfl, rfl, rfl⟩

theorem undoDecs_noW (s : St S) : ∀ (k : Nat) (ds : List Lit), undoDecs s.noW k ds = undoDecs s k ds
  | 0, _ => rfl
  | k + 1, ds => by
    unfold undoDecs
    have e : s.noW.asg = s.asg := rfl
    rw [e]
    cases ds[k]? with
    | none => exact undoDecs_noW s k ds
    | some l => exact undoDecs_noW s k _

theorem noLists_wundo (k : Int) : NoLists fun s : St S => wundoTheory s k := by
  intro s
  unfold wundoTheory
  have e : s.noW.atoms = s.atoms := rfl
  obtain ⟨a1, a2, a3⟩ := NoLists.foldl (fun a => noLists_wundoAtom k a) s.atoms s
  dsimp only at a1 a2 a3 ⊢
  rw [e, ← a1, undoDecs_noW]
  exact ⟨rfl, a2, a3⟩

theorem wundo_noW (s : St S) (k : Int) : wundoTheory s.noW k = (wundoTheory s k).noW := (noLists_wundo k s).1.symm
theorem wundo_wlist (s : St S) (k : Int) : (wundoTheory s k).wlist = s.wlist := (noLists_wundo k s).2.1
theorem wundo_ub (s : St S) (k : Int) : (wundoTheory s k).ub = s.ub := (noLists_wundo k s).2.2

theorem assignWatchedLoop_noW (s : St S) : ∀ (ls : List Lit) (a b : Option Lit) (m n : Int),
    assignWatchedLoop s.noW ls a b m n = assignWatchedLoop s ls a b m n
  | [], _, _, _, _ => rfl
  | l :: ls, a, b, m, n => by
    unfold assignWatchedLoop
    have e : s.noW.idx = s.idx := rfl
    rw [e]
    simp only [assignWatchedLoop_noW s ls]

theorem assignWatched_noW (s : St S) (c : Cls) : assignWatched s.noW c = assignWatched s c := by
  unfold assignWatched
  rw [assignWatchedLoop_noW]

theorem lastFalse_noW (cfg : Cfg S) (hw : cfg.watch = true) (s : St S) (c : Cls) :
    lastFalse cfg s.noW c = lastFalse cfg s c := by
  unfold lastFalse
  rw [if_pos hw, if_pos hw]

theorem chooseNC_noW (cfg : Cfg S) (hw : cfg.watch = true) (s : St S) : chooseNC cfg s.noW = chooseNC cfg s := by
  unfold chooseNC
  cases cfg.heur with
  | BK => simp [hw]
  | _ => rfl

theorem chooseEffect_noW (cfg : Cfg S) (s : St S) : chooseEffect cfg s.noW = (chooseEffect cfg s).noW ∧
    (chooseEffect cfg s).wlist = s.wlist := by
  unfold chooseEffect
  cases cfg.heur <;> exact ⟨rfl, rfl⟩

/-! ## Learning -/

theorem paddWatches_sim {new : WMem → Nat} (hn : Alloc new) {h : WMem} {f : Lit → List Nat} (hr : RepOf h f) (cid len : Nat)
    {a : Lit} (w1 : Option Lit) : (len ≤ 1 → ∃ h', paddWatches new h cid len (some a) w1 = .ok h' ∧
        RepOf h' (upd f a (cid :: f a))) ∧
      (∀ b, 1 < len → w1 = some b → ∃ h', paddWatches new h cid len (some a) w1 = .ok h' ∧
        RepOf h' (upd (upd f a (cid :: f a)) b (cid :: upd f a (cid :: f a) b))) := by
  obtain ⟨h1, e1, hr1⟩ := hr.add hn cid a
  constructor
  · intro hl
    refine ⟨h1, ?_, hr1⟩
    unfold paddWatches
    dsimp only
    rw [e1, Res.ok_bind, if_neg (by omega)]
  · rintro b hl rfl
    obtain ⟨h2, e2, hr2⟩ := hr1.add hn cid b
    refine ⟨h2, ?_, hr2⟩
    unfold paddWatches
    dsimp only
    rw [e1, Res.ok_bind, if_pos hl, e2]

theorem plearnClause_sim {cfg : Cfg S} (hw : cfg.watch = true) {new : WMem → Nat} (hn : Alloc new) {s : St S} {c : Cls}
    {q : Option Nat} {h : WMem} (hr : RepOf h s.wlist) (hub : (learnClause cfg s c q).ub = false) :
    ∃ h', plearnClause cfg new (s.noW, h) c q = .ok ((learnClause cfg s c q).noW, h') ∧
      RepOf h' (learnClause cfg s c q).wlist := by
  unfold learnClause at hub ⊢
  unfold plearnClause
  dsimp only at hub ⊢
  simp only [hw, if_true] at hub ⊢
  -- the state with the clause stored
  have key : ∀ (t : St S) (t0 : St S), t0 = t.noW → t.wlist = s.wlist →
      (let t2 := (if c.lits.length > 1 then
          match c.w1 with
          | some w => addWatch (match c.w0 with | some w => addWatch t w s.ncl | none => { t with ub := true }) w s.ncl
          | none => { (match c.w0 with | some w => addWatch t w s.ncl | none => { t with ub := true }) with ub := true }
        else (match c.w0 with | some w => addWatch t w s.ncl | none => { t with ub := true }));
      let s4 := halveScores cfg (c.lits.foldl (learnLit cfg s.ncl) t2);
      s4.ub = false → ∃ h', (do
        let h1 ← paddWatches new h s.ncl c.lits.length c.w0 c.w1
        let s4' := halveScores cfg (c.lits.foldl (learnLit cfg s.ncl) t0)
        (.ok ({ s4' with flowOff := s4'.flowOff + 1 }, h1) : Res (PSt S))) =
          .ok (({ s4 with flowOff := s4.flowOff + 1 } : St S).noW, h') ∧ RepOf h' s4.wlist) := by
    intro t t0 h0 hwl
    subst h0
    have hfold : ∀ u : St S, u.noW = t.noW → halveScores cfg (c.lits.foldl (learnLit cfg s.ncl) t.noW) =
        (halveScores cfg (c.lits.foldl (learnLit cfg s.ncl) u)).noW ∧
        (halveScores cfg (c.lits.foldl (learnLit cfg s.ncl) u)).wlist = u.wlist ∧
        (halveScores cfg (c.lits.foldl (learnLit cfg s.ncl) u)).ub = u.ub := by
      intro u hu
      obtain ⟨a1, a2, a3⟩ := NoLists.foldl (fun l => noLists_learnLit cfg hw s.ncl l) c.lits u
      obtain ⟨b1, b2, b3⟩ := noLists_halve cfg (c.lits.foldl (learnLit cfg s.ncl) u)
      dsimp only at a1 a2 a3 b1 b2 b3
      refine ⟨?_, b2.trans a2, b3.trans a3⟩
      rw [b1, a1, hu]
    dsimp only
    cases h0 : c.w0 with
    | none =>
      intro hub
      exfalso
      dsimp only at hub
      split at hub
      · split at hub
        · rename_i w _
          obtain ⟨_, _, e⟩ := noLists_halve cfg (c.lits.foldl (learnLit cfg s.ncl) (addWatch { t with ub := true } w s.ncl))
          obtain ⟨_, _, e'⟩ := NoLists.foldl (fun l => noLists_learnLit cfg hw s.ncl l) c.lits (addWatch { t with ub := true } w s.ncl)
          have := (e.trans e').symm.trans hub
          simp [addWatch] at this
        · obtain ⟨_, _, e⟩ := noLists_halve cfg (c.lits.foldl (learnLit cfg s.ncl) { t with ub := true })
          obtain ⟨_, _, e'⟩ := NoLists.foldl (fun l => noLists_learnLit cfg hw s.ncl l) c.lits { t with ub := true }
          have := (e.trans e').symm.trans hub
          simp at this
      · obtain ⟨_, _, e⟩ := noLists_halve cfg (c.lits.foldl (learnLit cfg s.ncl) { t with ub := true })
        obtain ⟨_, _, e'⟩ := NoLists.foldl (fun l => noLists_learnLit cfg hw s.ncl l) c.lits { t with ub := true }
        have := (e.trans e').symm.trans hub
        simp at this
    | some a =>
      dsimp only
      obtain ⟨k1, k2⟩ := paddWatches_sim hn hr s.ncl c.lits.length (a := a) c.w1
      by_cases hl : c.lits.length > 1
      · rw [if_pos hl]
        cases h1 : c.w1 with
        | none =>
          intro hub
          exfalso
          obtain ⟨_, _, e⟩ := noLists_halve cfg (c.lits.foldl (learnLit cfg s.ncl) { addWatch t a s.ncl with ub := true })
          obtain ⟨_, _, e'⟩ := NoLists.foldl (fun l => noLists_learnLit cfg hw s.ncl l) c.lits { addWatch t a s.ncl with ub := true }
          have := (e.trans e').symm.trans hub
          simp at this
        | some b =>
          intro _
          obtain ⟨h', e, hr'⟩ := k2 b hl h1
          rw [h1] at e
          obtain ⟨f1, f2, _⟩ := hfold (addWatch (addWatch t a s.ncl) b s.ncl) rfl
          refine ⟨h', ?_, ?_⟩
          · rw [e, Res.ok_bind, f1]; rfl
          · rw [f2]
            show RepOf h' (upd (upd t.wlist a (s.ncl :: t.wlist a)) b (s.ncl :: upd t.wlist a (s.ncl :: t.wlist a) b))
            rw [hwl]; exact hr'
      · rw [if_neg hl]
        intro _
        obtain ⟨h', e, hr'⟩ := k1 (by omega)
        obtain ⟨f1, f2, _⟩ := hfold (addWatch t a s.ncl) rfl
        refine ⟨h', ?_, ?_⟩
        · rw [e, Res.ok_bind, f1]; rfl
        · rw [f2]
          show RepOf h' (upd t.wlist a (s.ncl :: t.wlist a))
          rw [hwl]; exact hr'
  cases q with
  | none => exact key _ _ rfl rfl hub
  | some a => exact key _ _ rfl rfl hub

theorem panalyze_sim {cfg : Cfg S} (hw : cfg.watch = true) {new : WMem → Nat} (hn : Alloc new) {s : St S} {h : WMem}
    (hr : RepOf h s.wlist) : ∀ (f : Nat) (c : Cls) (q : Option Nat) {s' : St S} {c' : Cls},
    analyze cfg f s c q = .ok (s', c') → s'.ub = false →
    ∃ h', panalyze cfg new f (s.noW, h) c q = .ok ((s'.noW, h'), c') ∧ RepOf h' s'.wlist
  | 0, _, _, _, _, e, _ => by simp [analyze] at e
  | f + 1, c, q, s', c', e, hub => by
    unfold analyze at e
    unfold panalyze
    dsimp only
    have e1 : potent cfg s.noW c = potent cfg s c := rfl
    rw [e1, lastFalse_noW cfg hw]
    cases hp : potent cfg s c with
    | ub => rw [hp] at e; simp at e
    | fuel => rw [hp] at e; simp at e
    | ok b =>
      rw [hp, Res.ok_bind] at e
      rw [Res.ok_bind]
      cases b with
      | true =>
        simp only [if_true, Res.pure_eq, Res.ok.injEq, Prod.mk.injEq] at e ⊢
        obtain ⟨rfl, rfl⟩ := e
        obtain ⟨h', e2, hr'⟩ := plearnClause_sim hw hn hr hub
        exact ⟨h', by rw [e2]; rfl, hr'⟩
      | false =>
        simp only [Bool.false_eq_true, if_false] at e ⊢
        obtain ⟨l, e2, e⟩ := Res.bind_eq_ok.1 e
        obtain ⟨r, e3, e⟩ := Res.bind_eq_ok.1 e
        have e4 : reasonOf s.noW l = reasonOf s l := rfl
        rw [e2, Res.ok_bind, e4, e3, Res.ok_bind, assignWatched_noW]
        rw [if_pos hw] at e
        exact panalyze_sim hw hn hr f _ none e hub

theorem pconflictWL_sim {cfg : Cfg S} (hw : cfg.watch = true) {new : WMem → Nat} (hn : Alloc new) {s s' : St S} {h : WMem}
    (hr : RepOf h s.wlist) {f : Nat} {rc rc' : Int} (e : conflictWL cfg f s rc = .ok (s', rc')) (hub : s'.ub = false) :
    ∃ h', pconflictWL cfg new f (s.noW, h) rc = .ok ((s'.noW, h'), rc') ∧ RepOf h' s'.wlist := by
  unfold conflictWL at e
  unfold pconflictWL
  dsimp only at e ⊢
  have e1 : s.noW.conflicting = s.conflicting := rfl
  have e2 : s.noW.ncl = s.ncl := rfl
  have e3 : s.noW.cl = s.cl := rfl
  have e4 : s.noW.ptr = s.ptr := rfl
  rw [e1, e2, e3, e4]
  by_cases hx : s.conflicting < 0 ∨ s.conflicting.toNat ≥ s.ncl
  · rw [if_pos hx] at e; simp at e
  · rw [if_neg hx] at e ⊢
    obtain ⟨⟨s1, c1⟩, ea, e⟩ := Res.bind_eq_ok.1 e
    dsimp only at e
    obtain ⟨lv, el, e⟩ := Res.bind_eq_ok.1 e
    have hub1 : s1.ub = false := by
      split at e <;> cases e
      · dsimp only at hub; rw [wundo_ub] at hub; exact hub
      · dsimp only at hub; rw [wundo_ub] at hub; exact hub
    obtain ⟨h1, ep, hr1⟩ := panalyze_sim hw hn hr f _ _ ea hub1
    refine ⟨h1, ?_, ?_⟩
    · rw [ep, Res.ok_bind]
      dsimp only
      have el' : wlLevel s1.noW c1 = wlLevel s1 c1 := rfl
      rw [el', el, Res.ok_bind]
      have u : ∀ k, wundoTheory ({ s1.noW with LEVEL := lv, nBacktracks := s1.noW.nBacktracks + 1, conflict := false } : St S) k =
          (wundoTheory ({ s1 with LEVEL := lv, nBacktracks := s1.nBacktracks + 1, conflict := false } : St S) k).noW :=
        fun k => wundo_noW ({ s1 with LEVEL := lv, nBacktracks := s1.nBacktracks + 1, conflict := false } : St S) k
      rw [u, u]
      have eb : s1.noW.nBacktracks = s1.nBacktracks := rfl
      rw [eb]
      split at e
      · rename_i hb
        rw [if_pos hb]
        cases e
        rfl
      · rename_i hb
        rw [if_neg hb]
        cases e
        rfl
    · split at e <;> cases e
      · dsimp only; rw [wundo_wlist]; exact hr1
      · dsimp only; rw [wundo_wlist]; exact hr1

/-! ## Propagation -/

theorem pwunitProp_succ (new : WMem → Nat) (g f : Nat) {s : St S} (h : WInv (fun _ => False) s) (m : WMem)
    (hc : s.conflict = false) {id : Nat} {rest : List Nat} (hun : s.units = id :: rest) :
    pwunitProp new g (f + 1) (s.noW, m) =
      match openWatch ({ s with unitClause := (id : Int), units := rest } : St S)
          (({ s with unitClause := (id : Int), units := rest } : St S).cl id) with
      | some w => do
        let p2 ← pwreduceTheory new g (({ s with unitClause := (id : Int), units := rest } : St S).noW, m) w
        pwunitProp new g f ({ p2.1 with nUnits := p2.1.nUnits + 1 }, p2.2)
      | none => pwunitProp new g f (({ s with unitClause := (id : Int), units := rest } : St S).noW, m) := by
  conv => lhs; unfold pwunitProp
  dsimp only
  rw [if_neg (show ¬ s.noW.conflict = true by rw [show s.noW.conflict = s.conflict from rfl, hc]; simp)]
  rw [show s.noW.units = id :: rest from hun]
  dsimp only
  have hid : id < s.ncl := h.core.units id (by rw [hun]; simp)
  rw [if_pos (show id < s.noW.ncl from hid)]
  have hsh := h.core.shape id hid
  have hcl : ({ s with unitClause := (id : Int), units := rest } : St S).cl id = s.cl id := rfl
  have hcl' : ({ s.noW with unitClause := (id : Int), units := rest } : St S).cl id = s.cl id := rfl
  have hsat : ∀ x, sat ({ s.noW with unitClause := (id : Int), units := rest } : St S) x =
    sat ({ s with unitClause := (id : Int), units := rest } : St S) x := fun _ => rfl
  rw [hcl, hcl']
  simp only [hsat]
  unfold openWatch
  rcases hsh with ⟨a, h1⟩ | ⟨a, b, h1⟩
  · rw [h1.1]
    dsimp only
    have hnl : ¬ (s.cl id).lits.length > 1 := by rw [h1.2.2]; omega
    by_cases h2 : sat ({ s with unitClause := (id : Int), units := rest } : St S) a = 2
    · rw [if_pos h2, if_pos h2]; rfl
    · rw [if_neg h2, if_neg h2, if_neg hnl, if_neg hnl]; rfl
  · rw [h1.1, h1.2.1]
    dsimp only
    have hnl : (s.cl id).lits.length > 1 := h1.2.2.2.2.2
    by_cases h2 : sat ({ s with unitClause := (id : Int), units := rest } : St S) a = 2
    · rw [if_pos h2, if_pos h2]; rfl
    · rw [if_neg h2, if_neg h2, if_pos hnl, if_pos hnl]
      by_cases h3 : sat ({ s with unitClause := (id : Int), units := rest } : St S) b = 2
      · rw [if_pos h3, if_pos h3]; rfl
      · rw [if_neg h3, if_neg h3]; rfl

theorem pwunitProp_sim {cfg : Cfg S} {P : Problem} (hw : cfg.watch = true) (hs : cfg.ScoreOK)
    (hwf : P.Proper) (hnd : P.NoDupLits) {new : WMem → Nat} (hn : Alloc new) : ∀ (f : Nat) (s s' : St S) (rc : Int) (h : WMem),
    WReach cfg P s rc → RepOf h s.wlist → wunitProp cfg f s = .ok s' →
    Runs (fun g => pwunitProp new g f (s.noW, h)) s'
  | 0, _, _, _, _, _, _, e => by simp [wunitProp] at e
  | f + 1, s, s', rc, h, hre, hr, e => by
    have hv := hre.vinv hw hs hwf hnd
    cases hc : s.conflict with
    | true =>
      unfold wunitProp at e
      rw [if_neg (by rw [hv.linv.ub]; simp), if_pos hc] at e
      cases e
      refine ⟨h, hr, 0, fun g _ => ?_⟩
      dsimp only
      unfold pwunitProp
      dsimp only
      rw [if_pos (show s.noW.conflict = true from hc)]
    | false =>
      cases hun : s.units with
      | nil =>
        unfold wunitProp at e
        rw [if_neg (by rw [hv.linv.ub]; simp), if_neg (by simp [hc]), hun] at e
        cases e
        refine ⟨h, hr, 0, fun g _ => ?_⟩
        dsimp only
        unfold pwunitProp
        dsimp only
        rw [if_neg (show ¬ s.noW.conflict = true by rw [show s.noW.conflict = s.conflict from rfl, hc]; simp)]
        rw [show s.noW.units = [] from hun]
      | cons id rest =>
        have hu : s.units ≠ [] := by rw [hun]; simp
        rw [wunitProp_succ cfg f hv.inv hv.linv.ub hc hu] at e
        have hre' := hre.prop hc hu
        simp only [pwunitProp_succ new _ f hv.inv h hc hun]
        have hid := hv.inv.core.units id (by rw [hun]; simp)
        have hpop := hv.inv.pop hun (id : Int)
        cases ho : openWatch ({ s with unitClause := (id : Int), units := rest } : St S)
            (({ s with unitClause := (id : Int), units := rest } : St S).cl id) with
        | none =>
          have est : wunitStep s = ({ s with unitClause := (id : Int), units := rest } : St S) := by
            unfold wunitStep; rw [hun]; dsimp only; rw [ho]
          dsimp only
          rw [est] at e hre'
          exact pwunitProp_sim hw hs hwf hnd hn f _ s' rc h hre' hr e
        | some w =>
          have est : wunitStep s = ({ wreduceTheory ({ s with unitClause := (id : Int), units := rest } : St S) w with
              nUnits := (wreduceTheory ({ s with unitClause := (id : Int), units := rest } : St S) w).nUnits + 1 } : St S) := by
            unfold wunitStep; rw [hun]; dsimp only; rw [ho]
          dsimp only
          rw [est] at e hre'
          obtain ⟨_, hlu⟩ := openWatch_some ho
          have := pwreduceTheory_sim hn (h := h) hpop.core (l := w) hlu hv.linv.ub hr
          exact this.bind fun h1 hr1 => pwunitProp_sim hw hs hwf hnd hn f _ s' rc h1 hre' hr1 e

/-! ## The loop -/

/-- As `Runs`, with a result code. -/
def RunsR (F : Nat → Res (Nat × PSt S)) (r : Nat) (s' : St S) : Prop :=
  ∃ h', RepOf h' s'.wlist ∧ ∃ g0, ∀ g, g0 ≤ g → F g = .ok (r, (s'.noW, h'))

theorem Runs.bindR {F : Nat → Res (PSt S)} {K : Nat → PSt S → Res (Nat × PSt S)} {s1 s2 : St S} {r : Nat} (h : Runs F s1)
    (hk : ∀ h1, RepOf h1 s1.wlist → RunsR (fun g => K g (s1.noW, h1)) r s2) : RunsR (fun g => F g >>= K g) r s2 := by
  obtain ⟨h1, hr1, g1, e1⟩ := h
  obtain ⟨h2, hr2, g2, e2⟩ := hk h1 hr1
  refine ⟨h2, hr2, g1 + g2, fun g hg => ?_⟩
  dsimp only
  rw [e1 g (by omega), Res.ok_bind]
  exact e2 g (by omega)

/-- The part of the loop after the conflict part. -/
def pafter (cfg : Cfg S) (new : WMem → Nat) (g f : Nat) (rc : Int) (p : PSt S) : Res (Nat × PSt S) :=
  (if p.1.units = [] then .ok p else pwunitProp new g f p) >>= fun p =>
  if p.1.conflict then plearnLoop cfg new g f p rc
  else match pdecide cfg new g p with
    | none => .ok (0, (chooseEffect cfg p.1, p.2))
    | some r => do
      let p ← r
      plearnLoop cfg new g f p rc

theorem plearnLoop_succ (cfg : Cfg S) (new : WMem → Nat) (g f : Nat) (s : St S) (h : WMem) (rc : Int) :
    plearnLoop cfg new g (f + 1) (s.noW, h) rc =
      if cfg.late s.ticks then .ok (1, ((tick s).noW, h))
      else if s.conflict ∧ s.LEVEL = 0 then .ok (2, ((tick s).noW, h))
      else (if s.conflict then pconflictWL cfg new f ((tick s).noW, h) rc else .ok (((tick s).noW, h), rc)) >>=
        fun x => pafter cfg new g f x.2 x.1 := by
  have key : ∀ (p : PSt S) (rc : Int), (do
      let p ← if p.1.units = [] then .ok p else pwunitProp new g f p
      if p.1.conflict then plearnLoop cfg new g f p rc
      else match pdecide cfg new g p with
        | none => .ok (0, (chooseEffect cfg p.1, p.2))
        | some r => do
          let p ← r
          plearnLoop cfg new g f p rc) = pafter cfg new g f rc p := by
    intro p rc
    unfold pafter
    by_cases h1 : p.1.units = []
    · simp only [h1]; rfl
    · simp only [h1]; rfl
  conv => lhs; unfold plearnLoop
  dsimp only [readClock]
  by_cases h1 : cfg.late s.ticks = true
  · rw [if_pos (show cfg.late s.noW.ticks = true from h1), if_pos h1]; rfl
  rw [if_neg (show ¬ cfg.late s.noW.ticks = true from h1), if_neg h1]
  by_cases h2 : s.conflict = true ∧ s.LEVEL = 0
  · rw [if_pos (show s.noW.conflict = true ∧ s.noW.LEVEL = 0 from h2), if_pos h2]; rfl
  rw [if_neg (show ¬ (s.noW.conflict = true ∧ s.noW.LEVEL = 0) from h2), if_neg h2]
  by_cases h3 : s.conflict = true
  · rw [if_pos (show s.noW.conflict = true from h3), if_pos h3]
    exact congrArg (fun k => pconflictWL cfg new f ((tick s).noW, h) rc >>= k) (funext fun p => key p.1 p.2)
  · rw [if_neg (show ¬ s.noW.conflict = true from h3), if_neg h3]
    exact key ((tick s).noW, h) rc

theorem plearnLoop_sim {cfg : Cfg S} {P : Problem} (hw : cfg.watch = true) (hs : cfg.ScoreOK)
    (hwf : P.Proper) (hnd : P.NoDupLits) {new : WMem → Nat} (hn : Alloc new) : ∀ (f : Nat) (s s' : St S) (rc : Int) (h : WMem)
    (r : Nat), WReach cfg P s rc → RepOf h s.wlist → learnLoop cfg f s rc = .ok (r, s') →
    RunsR (fun g => plearnLoop cfg new g f (s.noW, h) rc) r s'
  | 0, _, _, _, _, _, _, _, e => by simp [learnLoop] at e
  | f + 1, s, s', rc, h, r, hre, hr, e => by
    have hI := WReach.loopInv (cfg := cfg) (P := P) hw hs hwf hnd
    simp only [plearnLoop_succ]
    rw [learnLoop_succ, if_neg (by rw [hI.ub s rc hre]; simp)] at e
    by_cases h1 : cfg.late s.ticks = true
    · rw [if_pos h1] at e
      simp only [if_pos h1]
      cases e
      exact ⟨h, hr, 0, fun _ _ => rfl⟩
    rw [if_neg h1] at e
    simp only [if_neg h1]
    by_cases h2 : s.conflict = true ∧ s.LEVEL = 0
    · rw [if_pos h2] at e
      simp only [if_pos h2]
      cases e
      exact ⟨h, hr, 0, fun _ _ => rfl⟩
    rw [if_neg h2] at e
    simp only [if_neg h2]
    obtain ⟨⟨s1, rc1⟩, ec, e⟩ := Res.bind_eq_ok.1 e
    obtain ⟨s2, ep, e⟩ := Res.bind_eq_ok.1 e
    dsimp only at ep e
    -- the conflict part
    have hc1 : WReach cfg P s1 rc1 ∧ s1.conflict = false ∧ ∃ h1, RepOf h1 s1.wlist ∧
        (if s.conflict then pconflictWL cfg new f ((tick s).noW, h) rc else .ok (((tick s).noW, h), rc)) =
          .ok ((s1.noW, h1), rc1) := by
      unfold confIf at ec
      by_cases hc : s.conflict = true
      · have hL : s.LEVEL ≠ 0 := fun hl => h2 ⟨hc, hl⟩
        have hx := hI.conf f (tick s) rc hre.tick hc hL
        unfold confIf at hx
        rw [ec] at hx
        rw [if_pos (show (tick s).conflict = true from hc), if_pos hw] at ec
        rw [if_pos hc]
        obtain ⟨h1, e1, hr1⟩ := pconflictWL_sim hw hn (s := tick s) hr ec (hI.ub _ _ hx.1)
        exact ⟨hx.1, hx.2, h1, hr1, e1⟩
      · rw [if_neg (show ¬ (tick s).conflict = true from hc)] at ec
        cases ec
        rw [if_neg hc]
        exact ⟨hre.tick, Bool.eq_false_iff.2 hc, h, hr, rfl⟩
    obtain ⟨hre1, hcf1, h1', hr1, e1⟩ := hc1
    rw [e1]
    simp only [Res.ok_bind]
    unfold pafter
    -- propagation
    have hpi := hI.prop f s1 rc1 hre1 hcf1
    rw [ep] at hpi
    obtain ⟨hre2, hdone⟩ := hpi
    have hp : Runs (fun g => if s1.noW.units = [] then .ok (s1.noW, h1') else pwunitProp new g f (s1.noW, h1')) s2 := by
      unfold propIfL at ep
      have eu : s1.noW.units = s1.units := rfl
      rw [eu]
      by_cases hu : s1.units = []
      · simp only [if_pos hu] at ep ⊢
        cases ep
        exact Runs.ok hr1
      · rw [if_neg hu, if_pos hw] at ep
        simp only [if_neg hu]
        exact pwunitProp_sim hw hs hwf hnd hn f s1 s2 rc1 h1' hre1 hr1 ep
    refine hp.bindR fun h2' hr2 => ?_
    -- after propagation
    unfold learnAfter at e
    rw [if_neg (by rw [hI.ub s2 rc1 hre2]; simp)] at e
    dsimp only
    have ec2 : s2.noW.conflict = s2.conflict := rfl
    rw [ec2]
    by_cases hc2 : s2.conflict = true
    · rw [if_pos hc2] at e
      simp only [if_pos hc2]
      exact plearnLoop_sim hw hs hwf hnd hn f s2 s' rc1 h2' r hre2 hr2 e
    rw [if_neg hc2] at e
    simp only [if_neg hc2]
    have hc2' : s2.conflict = false := by simpa using hc2
    have hu2 : s2.units = [] := by
      rcases hdone with h' | h'
      · exact absurd h' hc2
      · exact h'
    cases hd : decideNC cfg s2 with
    | none =>
      rw [hd] at e
      cases e
      have hch : chooseNC cfg s2 = none := by
        unfold decideNC at hd
        cases hch : chooseNC cfg s2 with
        | none => rfl
        | some l => rw [hch] at hd; simp at hd
      obtain ⟨c1, c2⟩ := chooseEffect_noW cfg s2
      refine ⟨h2', by rw [c2]; exact hr2, 0, fun g _ => ?_⟩
      dsimp only
      unfold pdecide
      rw [chooseNC_noW cfg hw, hch]
      dsimp only
      rw [c1]
    | some s3 =>
      rw [hd] at e
      have hre3 := hre2.dec hc2' hu2 hd
      obtain ⟨l, hl, rfl⟩ := decideNC_watch hw hd
      have hv := hre2.vinv hw hs hwf hnd
      obtain ⟨_, hlu⟩ := hv.inv.choose_some (chooseWL_some hw hs hv.scores hl)
      have ho := hv.inv.open_level hc2' hu2 (-1) (s2.nDecisions + 1)
      have hpd : ∀ g, pdecide cfg new g (s2.noW, h2') = some (pwreduceTheory new g
          (({ s2 with nDecisions := s2.nDecisions + 1, LEVEL := s2.LEVEL + 1, unitClause := -1 } : St S).noW, h2') l) := by
        intro g
        unfold pdecide
        rw [chooseNC_noW cfg hw, hl]
        dsimp only
        rw [(chooseEffect_noW cfg s2).1]
        obtain ⟨u, he⟩ := chooseEffect_eq cfg s2
        rw [he]
        rfl
      simp only [hpd]
      exact (pwreduceTheory_sim hn (h := h2') ho.core (l := l) hlu hv.linv.ub hr2).bindR fun h3 hr3 =>
        plearnLoop_sim hw hs hwf hnd hn f _ s' rc1 h3 r hre3 hr3 e

/-! ## Reading -/

theorem paddClause_sim {cfg : Cfg S} (hw : cfg.watch = true) {new : WMem → Nat} (hn : Alloc new) {s s' : St S} {h : WMem}
    (hr : RepOf h s.wlist) {ls : List Lit} (e : addClause cfg s ls = .ok s') :
    ∃ h', paddClause cfg new (s.noW, h) ls = .ok (s'.noW, h') ∧ RepOf h' s'.wlist := by
  unfold addClause at e
  unfold paddClause
  have e1 : litInRange s.noW = litInRange s := rfl
  dsimp only
  rw [e1]
  by_cases hall : ls.all (litInRange s) = true
  · rw [if_pos hall] at e ⊢
    simp only [hw, if_true] at e
    obtain ⟨a1, a2, a3⟩ := NoLists.foldl (fun l => noLists_addLit cfg hw l) ls s
    dsimp only at a1 a2 a3
    rw [← a1]
    generalize ls.foldl (addLit cfg) s = t at *
    have hr' : RepOf h t.wlist := by rw [a2]; exact hr
    match ls with
    | [] => simp at e
    | [a] =>
      dsimp only at e
      cases e
      obtain ⟨h1, e1, hr1⟩ := (paddWatches_sim hn hr' t.ncl 1 (a := a) none).1 (by omega)
      refine ⟨h1, ?_, hr1⟩
      show (paddWatches new h t.ncl 1 (some a) none >>= _) = _
      rw [e1]; rfl
    | a :: b :: xs =>
      dsimp only at e
      cases e
      obtain ⟨h1, e1, hr1⟩ := (paddWatches_sim hn hr' t.ncl (a :: b :: xs).length (a := a) (some b)).2 b (by simp) rfl
      have hl : ¬ (a :: b :: xs).length = 1 := by simp
      refine ⟨h1, ?_, ?_⟩
      · show (paddWatches new h t.ncl (a :: b :: xs).length (some a) (some b) >>= _) = _
        rw [e1, Res.ok_bind, if_neg hl, if_neg hl]; rfl
      · rw [if_neg hl]
        exact hr1
  · rw [if_neg hall] at e; simp at e

theorem pbuildItems_sim {cfg : Cfg S} (hw : cfg.watch = true) {new : WMem → Nat} (hn : Alloc new) : ∀ (is : List Item)
    {s s' : St S} {h : WMem}, RepOf h s.wlist → buildItems cfg is s = .ok s' →
    ∃ h', pbuildItems cfg new is (s.noW, h) = .ok (s'.noW, h') ∧ RepOf h' s'.wlist
  | [], _, _, h, hr, e => by cases e; exact ⟨h, rfl, hr⟩
  | .dom d :: is, s, s', h, hr, e => pbuildItems_sim hw hn is (s := addVar s d) hr e
  | .clause ls :: is, s, s', h, hr, e => by
    unfold buildItems at e
    obtain ⟨s1, e1, e⟩ := Res.bind_eq_ok.1 e
    obtain ⟨h1, p1, hr1⟩ := paddClause_sim hw hn hr e1
    obtain ⟨h2, p2, hr2⟩ := pbuildItems_sim hw hn is hr1 e
    refine ⟨h2, ?_, hr2⟩
    unfold pbuildItems
    rw [p1, Res.ok_bind, p2]

/-- Whole runs. -/
theorem prun_sim {cfg : Cfg S} {P : Problem} (hw : cfg.watch = true) (hs : cfg.ScoreOK)
    (hwf : P.Proper) (hnd : P.NoDupLits) {new : WMem → Nat} (hn : Alloc new) {fuel r : Nat} {s : St S}
    (e : run cfg .learn fuel P = .ok (r, s)) : RunsR (fun g => prun cfg new g fuel P) r s := by
  unfold run at e
  obtain ⟨s0, e0, e⟩ := Res.bind_eq_ok.1 e
  obtain ⟨h0, p0, hr0⟩ := pbuildItems_sim hw hn P.items (s := initSt cfg) RepOf.empty e0
  obtain ⟨h1, hr1, g0, hg⟩ := plearnLoop_sim hw hs hwf hnd hn fuel s0 s cfg.restarts h0 r (.start e0) hr0 e
  refine ⟨h1, hr1, g0, fun g hle => ?_⟩
  dsimp only
  unfold prun
  have p0' : pbuildItems cfg new P.items (initSt cfg, WMem.empty) = .ok (s0.noW, h0) := p0
  rw [p0', Res.ok_bind]
  exact hg g hle

end Mvl
