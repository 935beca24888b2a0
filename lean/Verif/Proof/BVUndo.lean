import Verif.Proof.BVProp

/-!
# Bit-vector variant: undoing
-/

namespace Mvl.BV

variable {S : Type}

/-- The inner loop of the undo function, on nodes whose levels do not grow towards the older ones. -/
theorem undoNodes_spec (k : Int) : ∀ (ns : List Node) (d : Bits), ns.Pairwise (fun n m => m.level ≤ n.level) →
    (undoNodes k d ns).2.1 = ns.filter (fun n => n.level ≤ k) ∧
    (undoNodes k d ns).2.2 + (ns.filter fun n => n.level ≤ k).length = ns.length ∧
    ∀ j, (undoNodes k d ns).1.getLsbD j = true ↔
      d.getLsbD j = true ∨ ∃ n ∈ ns, k < n.level ∧ n.values.getLsbD j = true
  | [], d, _ => by simp [undoNodes]
  | n :: ns, d, h => by
    rw [List.pairwise_cons] at h
    unfold undoNodes
    by_cases hn : n.level > k
    · obtain ⟨h1, h2, h3⟩ := undoNodes_spec k ns (d ||| n.values) h.2
      rw [if_pos hn, List.filter_cons_of_neg (by simpa using hn)]
      refine ⟨h1, by rw [List.length_cons]; dsimp only; omega, ?_⟩
      intro j
      dsimp only
      rw [h3, or_bit]
      constructor
      · rintro ((h4 | h4) | ⟨m, hm, h4⟩)
        · exact Or.inl h4
        · exact Or.inr ⟨n, List.mem_cons_self, hn, h4⟩
        · exact Or.inr ⟨m, List.mem_cons_of_mem _ hm, h4⟩
      · rintro (h4 | ⟨m, hm, h4, h5⟩)
        · exact Or.inl (Or.inl h4)
        · rcases List.mem_cons.1 hm with rfl | hm
          · exact Or.inl (Or.inr h5)
          · exact Or.inr ⟨m, hm, h4, h5⟩
    · rw [if_neg hn]
      have hall : ∀ m ∈ n :: ns, m.level ≤ k := by
        intro m hm
        rcases List.mem_cons.1 hm with rfl | hm
        · omega
        · have := h.1 m hm; omega
      have hfil : (n :: ns).filter (fun n => n.level ≤ k) = n :: ns := by
        rw [List.filter_eq_self]
        intro m hm
        exact decide_eq_true (hall m hm)
      rw [hfil]
      refine ⟨rfl, Nat.zero_add _, ?_⟩
      intro j
      constructor
      · exact Or.inl
      · rintro (h4 | ⟨m, hm, h4, _⟩)
        · exact h4
        · have := hall m hm; omega

theorem TrailInv.levels {s : BSt S} (h : TrailInv s) (v : Nat) : (s.nodes v).Pairwise fun n m => m.level ≤ n.level :=
  (h.sorted v).imp_of_mem fun {a b} ha hb hab => h.lev v v b hb a ha hab

theorem flatMap_filter_length (k : Int) (f : Nat → List Node) (g : Nat → Nat)
    (h : ∀ v, g v + ((f v).filter fun n => n.level ≤ k).length = (f v).length) : ∀ L : List Nat,
    ((L.map g).sum : Nat) + (L.flatMap fun v => (f v).filter fun n => n.level ≤ k).length = (L.flatMap f).length
  | [] => rfl
  | v :: L => by
    have ih := flatMap_filter_length k f g h L
    have := h v
    rw [List.map_cons, List.sum_cons, List.flatMap_cons, List.flatMap_cons, List.length_append, List.length_append]
    omega

theorem flatMap_congr' {f g : Nat → List Node} : ∀ (L : List Nat), (∀ v ∈ L, f v = g v) → L.flatMap f = L.flatMap g
  | [], _ => rfl
  | v :: L, h => by
    rw [List.flatMap_cons, List.flatMap_cons, h v List.mem_cons_self,
      flatMap_congr' L fun w hw => h w (List.mem_cons_of_mem _ hw)]

/-- What undoing to the level in `LEVEL` does to the nodes: exactly those above it go. -/
theorem bundo_nodes {s : BSt S} (hl : ∀ v, (s.nodes v).Pairwise fun n m => m.level ≤ n.level)
    (hout : ∀ v, ¬ s.IsVar v → s.nodes v = []) (x : Int) (v : Nat) :
    (bundo s x).nodes v = (s.nodes v).filter fun n => n.level ≤ s.LEVEL := by
  show (if 1 ≤ v ∧ v ≤ s.nv then (undoNodes s.LEVEL (s.cur v) (s.nodes v)).2.1 else s.nodes v) = _
  by_cases hv : s.IsVar v
  · rw [if_pos (show 1 ≤ v ∧ v ≤ s.nv from hv)]; exact (undoNodes_spec _ _ _ (hl v)).1
  · rw [if_neg (show ¬ (1 ≤ v ∧ v ≤ s.nv) from hv), hout v hv]; rfl

theorem bundo_cur {s : BSt S} (hl : ∀ v, (s.nodes v).Pairwise fun n m => m.level ≤ n.level) (x : Int) {v : Nat}
    (hv : s.IsVar v) (j : Nat) : ((bundo s x).cur v).getLsbD j = true ↔
      (s.cur v).getLsbD j = true ∨ ∃ n ∈ s.nodes v, s.LEVEL < n.level ∧ n.values.getLsbD j = true := by
  show BitVec.getLsbD (if 1 ≤ v ∧ v ≤ s.nv then (undoNodes s.LEVEL (s.cur v) (s.nodes v)).1 else s.cur v) j = true ↔ _
  rw [if_pos (show 1 ≤ v ∧ v ≤ s.nv from hv)]
  exact (undoNodes_spec _ _ _ (hl v)).2.2 j

theorem bundo_trail {s : BSt S} {L : Int} (h : TrailInv ({ s with LEVEL := L } : BSt S)) (h0 : 0 ≤ s.LEVEL) (x : Int) :
    TrailInv (bundo s x) := by
  have hl : ∀ v, (s.nodes v).Pairwise fun n m => m.level ≤ n.level := h.levels
  have hn := bundo_nodes hl h.out x
  have hmem : ∀ v n, n ∈ (bundo s x).nodes v ↔ n ∈ s.nodes v ∧ n.level ≤ s.LEVEL := by
    intro v n
    rw [hn, List.mem_filter, decide_eq_true_eq]
  have hsub : ∀ v n, n ∈ (bundo s x).nodes v → n ∈ s.nodes v := fun v n hx => ((hmem v n).1 hx).1
  refine ⟨h.size_le, ?_, ?_, ?_, ?_, ?_, ?_, ?_, ?_, ?_, ?_, ?_, ?_, h0⟩
  · intro v hv
    rw [hn, show s.nodes v = [] from h.out v hv]; rfl
  · intro v hv
    show (if 1 ≤ v ∧ v ≤ s.nv then (undoNodes s.LEVEL (s.cur v) (s.nodes v)).1 else s.cur v) = _
    rw [if_neg (show ¬ (1 ≤ v ∧ v ≤ s.nv) from hv)]
    exact h.out_cur v hv
  · intro v hv j
    rw [bundo_cur hl x hv j]
    have hc : (s.cur v).getLsbD j = true ↔ j < s.size v ∧ ∀ n ∈ s.nodes v, n.values.getLsbD j = false := h.cur_iff v hv j
    rw [hc]
    constructor
    · rintro (⟨h1, h2⟩ | ⟨m, hm, h1, h2⟩)
      · exact ⟨h1, fun n hn' => h2 n (hsub v n hn')⟩
      · refine ⟨h.sub v m hm j h2, ?_⟩
        intro n hn'
        obtain ⟨h3, h4⟩ := (hmem v n).1 hn'
        cases hx : n.values.getLsbD j
        · rfl
        · have := h.node_unique h3 hm hx h2
          subst this
          omega
    · rintro ⟨h1, h2⟩
      by_cases hx : ∃ n ∈ s.nodes v, n.values.getLsbD j = true
      · obtain ⟨n, hn', hj⟩ := hx
        right
        refine ⟨n, hn', ?_, hj⟩
        apply Classical.byContradiction
        intro hle
        have := h2 n ((hmem v n).2 ⟨hn', by omega⟩)
        rw [hj] at this; cases this
      · left
        refine ⟨h1, ?_⟩
        intro n hn'
        cases hj : n.values.getLsbD j
        · rfl
        · exact absurd ⟨n, hn', hj⟩ hx
  · intro v hv
    obtain ⟨j, hj⟩ := h.live v hv
    exact ⟨j, (bundo_cur hl x hv j).2 (Or.inl hj)⟩
  · intro v; rw [hn]; exact (h.sorted v).filter _
  · intro v; rw [hn]; exact (h.disj v).filter _
  · intro v n hx; exact h.sub v n (hsub v n hx)
  · intro v n hx
    obtain ⟨h1, h2⟩ := (hmem v n).1 hx
    exact ⟨(h.pos v n h1).1, (h.pos v n h1).2.1, h2⟩
  · intro v w n hx m hy; exact h.lev v w n (hsub v n hx) m (hsub w m hy)
  · intro v w n hx m hy; exact h.inj v w n (hsub v n hx) m (hsub w m hy)
  · intro v n hx i h1 h2
    obtain ⟨h3, h4⟩ := (hmem v n).1 hx
    obtain ⟨w, m, hm, e⟩ := h.down v n h3 i h1 h2
    refine ⟨w, m, (hmem w m).2 ⟨hm, ?_⟩, e⟩
    have := h.lev w v m hm n h3 (by omega)
    omega
  · have hc : s.atomIndex = (((List.range' 1 s.nv).flatMap s.nodes).length : Nat) := h.count
    have key := flatMap_filter_length s.LEVEL s.nodes (fun v => (undoNodes s.LEVEL (s.cur v) (s.nodes v)).2.2)
      (fun v => (undoNodes_spec _ _ _ (hl v)).2.1) (List.range' 1 s.nv)
    show s.atomIndex - _ = (((List.range' 1 s.nv).flatMap (bundo s x).nodes).length : Nat)
    rw [flatMap_congr' _ fun v _ => hn v, hc]
    omega

end Mvl.BV
