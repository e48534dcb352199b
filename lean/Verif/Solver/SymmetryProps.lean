import Verif.Solver.Symmetry
import Verif.Solver.Relational

/-! # C67: theorems -/
set_option linter.dupNamespace false
set_option linter.unusedSectionVars false
namespace Verif.Solver
open Verif.Runtime Verif.Vector Verif.Matrix Verif.Planner
variable {K P V : Type} [DecidableEq P] [DecidableEq K]
variable {G : Geometry P} {calls : List (Setup K P V)} {base : Nat} {s : Cell P → V} {E : (Σ _ : Nat, P) → (Σ _ : Nat, P) → Prop}

theorem stored_client {pl : Planner K P V} (h : pl.ops.map (fun r => (r.matrix, r.dom, r.rng)) = mats calls) (u : Σ _ : Nat, P) :
    pl.stored u.1 u.2 = clientStored calls u := by
  unfold Planner.stored clientStored
  rw [← h, List.flatMap_map]

theorem symmetric_client (h : ClientSystem G calls base) (nw : Nat) (hE : Indistinguishable G calls s E) :
    ∃ pl pl', Planner.empty.setupAll G calls = some pl ∧ SolverSetup G pl pl' base nw ∧ Symmetric E G pl' ∧
      (∀ k, k = 0 ∨ k = 1 → Alike E pl' s k) ∧ ∀ s', Alike E pl' s' 0 → ∀ u u', E u u' → SameValue (sols calls) s' u u' := by
  obtain ⟨pl, pl', hpl, S, hc⟩ := h.complete nw
  have hu := unknowns_eq hc
  have hm := (c31_consistent G _ hc.constructed pl' hc.accepted).2.2.2.2.2.2.2.1
  rw [mats_alloc] at hm
  have hlk : ∀ k, k < 2 → ∀ w ∈ clientUnknowns G calls, ∃ v, (given calls k)[w.1]? = some v ∧ pl'.vec k w.1 = v := by
    intro k hk w hw
    rw [← hu] at hw
    obtain ⟨v, h1, -, -⟩ := (c33_client_vectors hc k hk).1 ⟨w, hw⟩
    refine ⟨v, by rw [given_alloc] at h1; exact h1, ?_⟩
    unfold Planner.vec
    rw [hc.lookup k _ hk, h1]
    rfl
  have hE1 := hE.unknowns
  have key : ∀ k, k < 2 → ∀ s' : Cell P → V, (Alike E pl' s' k ↔ ∀ u u', E u u' → SameValue (given calls k) s' u u') := by
    intro k hk s'
    constructor
    · intro ha u u' he v v' hv hv'
      obtain ⟨w, h1, h2⟩ := hlk k hk u (hE1 u u' he).1
      obtain ⟨w', h3, h4⟩ := hlk k hk u' (hE1 u u' he).2
      have := ha u u' he
      rw [hv] at h1; rw [hv'] at h3
      cases h1; cases h3
      rw [h2, h4] at this
      exact this
    · intro ha u u' he
      obtain ⟨w, h1, h2⟩ := hlk k hk u (hE1 u u' he).1
      obtain ⟨w', h3, h4⟩ := hlk k hk u' (hE1 u u' he).2
      rw [h2, h4]
      exact ha u u' he w w' h1 h3
  refine ⟨pl, pl', hpl, S, ⟨fun u u' he => by rw [hu]; exact hE1 u u' he, fun u u' he => ?_⟩, fun k hk => ?_, fun s' ha => (key 0 (by omega) s').1 ha⟩
  · rw [stored_client hm, stored_client hm]
    exact hE.rows u u' he
  · rcases hk with rfl | rfl
    · exact (key 0 (by omega) s).2 hE.sol
    · exact (key 1 (by omega) s).2 hE.rhs

theorem Keeps.ensures {pl pl' : Planner K P V} {nw : Nat} {α : Type} {f : Planner K P V → M P V α}
    (hal : pl.allocateWorkspace G base nw = some pl') (h : Keeps E pl' (fun k => k = 0 ∨ k = 1) (f pl') (fun _ => True) (fun k => k = 0))
    (hs : ∀ k, k = 0 ∨ k = 1 → Alike E pl' s k)
    (hout : ∀ s', Alike E pl' s' 0 → ∀ u u', E u u' → SameValue (sols calls) s' u u') (n : Nat) :
    Ensures (Verif.Solver.allocate G pl base nw >>= f) n s fun _ s' => ∀ u u', E u u' → SameValue (sols calls) s' u u' := by
  obtain ⟨a, n', s', h1, -, h3⟩ := h n s hs
  exact ((Runs.allocate hal n s).bind h1).ensures (hout s' (h3 0 rfl))

/-- **C67**, CG: in any arithmetic, under every schedule and every order of the reductions, unknowns that cannot be told apart have equal
values in the solution after every number of steps. -/
theorem c67_cg (A : Arith V) (h : ClientSystem G calls base) (hE : Indistinguishable G calls s E) :
    ∃ pl, Planner.empty.setupAll G calls = some pl ∧ ∀ k n, Ensures (cg A G pl base k) n s fun _ s' =>
      ∀ u u', E u u' → SameValue (sols calls) s' u u' := by
  obtain ⟨pl, pl', hpl, S, hS, h1, h2⟩ := symmetric_client h 3 hE
  exact ⟨pl, hpl, fun k n => Keeps.ensures S.alloc (f := fun pl' => CG.solve (plannerOps A G.toEnv pl') k)
    (keeps_cg A S.ready hS S.order S.nonempty k) h1 h2 n⟩

/-- **C67**, BiCGStab. -/
theorem c67_bicgstab (A : Arith V) (h : ClientSystem G calls base) (hE : Indistinguishable G calls s E) :
    ∃ pl, Planner.empty.setupAll G calls = some pl ∧ ∀ k n, Ensures (biCGStab A G pl base k) n s fun _ s' =>
      ∀ u u', E u u' → SameValue (sols calls) s' u u' := by
  obtain ⟨pl, pl', hpl, S, hS, h1, h2⟩ := symmetric_client h 5 hE
  exact ⟨pl, hpl, fun k n => Keeps.ensures S.alloc (f := fun pl' => BiCGStab.solve (plannerOps A G.toEnv pl') k)
    (keeps_bi A S.ready hS S.order S.nonempty k) h1 h2 n⟩

/-- **C67**, GMRES, any restart length. -/
theorem c67_gmres (A : Arith V) (m : Nat) (h : ClientSystem G calls base) (hE : Indistinguishable G calls s E) :
    ∃ pl, Planner.empty.setupAll G calls = some pl ∧ ∀ k n, Ensures (gmres A G pl base m k) n s fun _ s' =>
      ∀ u u', E u u' → SameValue (sols calls) s' u u' := by
  obtain ⟨pl, pl', hpl, S, hS, h1, h2⟩ := symmetric_client h (m + 1) hE
  exact ⟨pl, hpl, fun k n => Keeps.ensures S.alloc (f := fun pl' => GMRES.solve (plannerOps A G.toEnv pl') m k)
    (keeps_gmres A S.ready hS S.order S.nonempty k) h1 h2 n⟩

/-! ## Copies of a block -/

/-- Block `i` and block `j` are copies: they have the same points, equal right-hand sides and initial values, and the matrices added
for row block `i` are the same objects, in the same order, as those added for row block `j`, from column blocks which are the same or
again copies. -/
structure Copies (G : Geometry P) (calls : List (Setup K P V)) (s : Cell P → V) (C : Nat → Nat → Prop) : Prop where
  range : ∀ i j, C i j → i < (sols calls).length ∧ j < (sols calls).length
  points : ∀ i j, C i j → ∀ v v', (sols calls)[i]? = some v → (sols calls)[j]? = some v' → ∀ p, p ∈ G.points v.space ↔ p ∈ G.points v'.space
  matrices : ∀ i j, C i j → List.Forall₂ (fun t t' : Op K P V × Nat × Nat => t.1 = t'.1 ∧ (t.2.1 = t'.2.1 ∨ C t.2.1 t'.2.1))
    ((mats calls).filter fun t => t.2.2 = i) ((mats calls).filter fun t => t.2.2 = j)
  sol : ∀ i j, C i j → ∀ v v', (sols calls)[i]? = some v → (sols calls)[j]? = some v' → ∀ p ∈ G.points v.space,
    s (.elem v.data p) = s (.elem v'.data p)
  rhs : ∀ i j, C i j → ∀ v v', (rhss calls)[i]? = some v → (rhss calls)[j]? = some v' → ∀ p ∈ G.points v.space,
    s (.elem v.data p) = s (.elem v'.data p)

theorem clientStored_filter (calls : List (Setup K P V)) (u : Σ _ : Nat, P) :
    clientStored calls u = ((mats calls).filter fun t => t.2.2 = u.1).flatMap fun t => (t.1.stored u.2).map fun e => (⟨t.2.1, e.1⟩, e.2) := by
  unfold clientStored
  induction mats calls with
  | nil => rfl
  | cons t l ih =>
    rw [List.flatMap_cons, List.filter_cons, ih]
    by_cases ht : t.2.2 = u.1
    · simp [ht]
    · simp [ht]

theorem forall₂_flatMap {α β γ δ : Type} {R : α → β → Prop} {Q : γ → δ → Prop} {f : α → List γ} {g : β → List δ} {l : List α} {l' : List β}
    (h : List.Forall₂ R l l') (hf : ∀ a b, a ∈ l → b ∈ l' → R a b → List.Forall₂ Q (f a) (g b)) :
    List.Forall₂ Q (l.flatMap f) (l'.flatMap g) := by
  induction h with
  | nil => exact .nil
  | cons hab _ ih =>
    rw [List.flatMap_cons, List.flatMap_cons]
    refine forall₂_append (hf _ _ (List.mem_cons_self ..) (List.mem_cons_self ..) hab) (ih fun a b ha hb => ?_)
    exact hf a b (List.mem_cons_of_mem _ ha) (List.mem_cons_of_mem _ hb)

theorem forall₂_map_same {α γ δ : Type} {Q : γ → δ → Prop} {f : α → γ} {g : α → δ} {l : List α} (h : ∀ a ∈ l, Q (f a) (g a)) :
    List.Forall₂ Q (l.map f) (l.map g) := by
  induction l with
  | nil => exact .nil
  | cons a l ih => exact .cons (h a (List.mem_cons_self ..)) (ih fun b hb => h b (List.mem_cons_of_mem _ hb))

/-- The same point of two copies, or the same unknown. -/
def copied (G : Geometry P) (calls : List (Setup K P V)) (C : Nat → Nat → Prop) (u u' : Σ _ : Nat, P) : Prop :=
  u ∈ clientUnknowns G calls ∧ u' ∈ clientUnknowns G calls ∧ u.2 = u'.2 ∧ (u.1 = u'.1 ∨ C u.1 u'.1)

theorem Copies.indistinguishable (h : ClientSystem G calls base) {C : Nat → Nat → Prop} (hC : Copies G calls s C) :
    Indistinguishable G calls s (copied G calls C) := by
  obtain ⟨pl, pl', hpl, S, hc⟩ := h.complete 0
  have hu := unknowns_eq hc
  have hm := (c31_consistent G _ hc.constructed pl' hc.accepted).2.2.2.2.2.2.2.1
  rw [mats_alloc] at hm
  have hmem : ∀ u t, t ∈ clientStored calls u → t.1 ∈ clientUnknowns G calls := by
    intro u t ht
    rw [← stored_client hm] at ht
    rw [← hu]
    exact stored_mem S.ready ht
  have hval : ∀ k, k < 2 → ∀ u u', u ∈ clientUnknowns G calls → u.2 = u'.2 → u.1 = u'.1 → SameValue (given calls k) s u u' := by
    rintro k - ⟨i, p⟩ ⟨i', p'⟩ - h1 h2 v v' hv hv'
    simp only at h1 h2 hv hv'
    subst h1 h2
    rw [hv] at hv'
    cases hv'
    rfl
  have hpt : ∀ k, k < 2 → ∀ u ∈ clientUnknowns G calls, ∀ v, (given calls k)[u.1]? = some v → u.2 ∈ G.points v.space := by
    intro k hk u hu' v hv
    rw [← hu] at hu'
    obtain ⟨w, h1, h2, -⟩ := (c33_client_vectors hc k hk).1 ⟨u, hu'⟩
    rw [given_alloc] at h1
    simp only at h1 h2
    rw [hv] at h1
    cases h1
    exact h2
  refine ⟨fun u u' he => ⟨he.1, he.2.1⟩, ?_, ?_, ?_⟩
  · rintro ⟨i, p⟩ ⟨j, q⟩ ⟨h1, h2, h3, h4⟩
    simp only at h3 h4
    subst h3
    have hrows : List.Forall₂ (fun t t' : Op K P V × Nat × Nat => t.1 = t'.1 ∧ (t.2.1 = t'.2.1 ∨ C t.2.1 t'.2.1))
        ((mats calls).filter fun t => t.2.2 = i) ((mats calls).filter fun t => t.2.2 = j) := by
      rcases h4 with rfl | h4
      · exact List.forall₂_same.2 fun t _ => ⟨rfl, Or.inl rfl⟩
      · exact hC.matrices i j h4
    have hmem1 : ∀ t ∈ (mats calls).filter (fun t => t.2.2 = i), ∀ e ∈ t.1.stored p, (⟨t.2.1, e.1⟩ : Σ _ : Nat, P) ∈ clientUnknowns G calls := by
      intro t ht e he
      apply hmem ⟨i, p⟩ (⟨t.2.1, e.1⟩, e.2)
      rw [clientStored_filter]
      exact List.mem_flatMap.2 ⟨t, ht, List.mem_map.2 ⟨e, he, rfl⟩⟩
    have hmem2 : ∀ t ∈ (mats calls).filter (fun t => t.2.2 = j), ∀ e ∈ t.1.stored p, (⟨t.2.1, e.1⟩ : Σ _ : Nat, P) ∈ clientUnknowns G calls := by
      intro t ht e he
      apply hmem ⟨j, p⟩ (⟨t.2.1, e.1⟩, e.2)
      rw [clientStored_filter]
      exact List.mem_flatMap.2 ⟨t, ht, List.mem_map.2 ⟨e, he, rfl⟩⟩
    rw [clientStored_filter, clientStored_filter]
    refine forall₂_flatMap hrows fun t t' ht ht' hr => ?_
    have m1 := hmem1 t ht
    have m2 := hmem2 t' ht'
    obtain ⟨t1, t2, t3⟩ := t
    obtain ⟨t1', t2', t3'⟩ := t'
    obtain ⟨r1, r2⟩ := hr
    simp only at r1 r2 m1 m2
    subst r1
    exact forall₂_map_same fun e he => ⟨⟨m1 e he, m2 e he, rfl, r2⟩, rfl⟩
  · rintro u u' ⟨h1, h2, h3, h4⟩
    rcases h4 with h4 | h4
    · exact hval 0 (by omega) u u' h1 h3 h4
    · intro v v' hv hv'
      rw [← h3]
      exact hC.sol _ _ h4 v v' hv hv' _ (hpt 0 (by omega) u h1 v hv)
  · rintro u u' ⟨h1, h2, h3, h4⟩
    rcases h4 with h4 | h4
    · exact hval 1 (by omega) u u' h1 h3 h4
    · intro v v' hv hv'
      rw [← h3]
      exact hC.rhs _ _ h4 v v' hv hv' _ (hpt 1 (by omega) u h1 v hv)

/-- The solution is the same in two blocks. -/
def EqualBlocks (G : Geometry P) (calls : List (Setup K P V)) (s : Cell P → V) (i j : Nat) : Prop :=
  ∀ v v', (sols calls)[i]? = some v → (sols calls)[j]? = some v' → ∀ p ∈ G.points v.space, s (.elem v.data p) = s (.elem v'.data p)

theorem Copies.equalBlocks {C : Nat → Nat → Prop} (hC : Copies G calls s C) {s' : Cell P → V}
    (h : ∀ u u', copied G calls C u u' → SameValue (sols calls) s' u u') (i j : Nat) (hij : C i j) : EqualBlocks G calls s' i j := by
  intro v v' hv hv' p hp
  obtain ⟨r1, r2⟩ := hC.range i j hij
  refine h ⟨i, p⟩ ⟨j, p⟩ ⟨?_, ?_, rfl, Or.inr hij⟩ v v' hv hv'
  · refine Finset.mem_sigma.2 ⟨Finset.mem_range.2 r1, List.mem_toFinset.2 ?_⟩
    rw [hv]
    exact hp
  · refine Finset.mem_sigma.2 ⟨Finset.mem_range.2 r2, List.mem_toFinset.2 ?_⟩
    rw [hv']
    exact (hC.points i j hij v v' hv hv' p).1 hp

/-- **C67** for copies of a block: whatever the arithmetic, the number of steps, the schedule and the order of reductions, all three
solvers leave equal values in copies. -/
theorem c67_copies (A : Arith V) (h : ClientSystem G calls base) {C : Nat → Nat → Prop} (hC : Copies G calls s C) :
    ∃ pl, Planner.empty.setupAll G calls = some pl ∧ ∀ k n,
      Ensures (cg A G pl base k) n s (fun _ s' => ∀ i j, C i j → EqualBlocks G calls s' i j) ∧
      Ensures (biCGStab A G pl base k) n s (fun _ s' => ∀ i j, C i j → EqualBlocks G calls s' i j) ∧
      ∀ m, Ensures (gmres A G pl base m k) n s (fun _ s' => ∀ i j, C i j → EqualBlocks G calls s' i j) := by
  have hE := hC.indistinguishable h
  obtain ⟨pl, hpl, h1⟩ := c67_cg A h hE
  obtain ⟨pl2, hpl2, h2⟩ := c67_bicgstab A h hE
  rw [hpl] at hpl2
  cases hpl2
  have post : ∀ {α : Type} {m : M P V α} {n : Nat}, Ensures m n s (fun _ s' => ∀ u u', copied G calls C u u' → SameValue (sols calls) s' u u') →
      Ensures m n s (fun _ s' => ∀ i j, C i j → EqualBlocks G calls s' i j) := by
    rintro α m n ⟨a, n', ts, q1, q2, q3⟩
    exact ⟨a, n', ts, q1, q2, fun M' r1 r2 i j hij => hC.equalBlocks (q3 M' r1 r2) i j hij⟩
  refine ⟨pl, hpl, fun k n => ⟨post (h1 k n), post (h2 k n), fun m => ?_⟩⟩
  obtain ⟨pl3, hpl3, h3⟩ := c67_gmres A m h hE
  rw [hpl] at hpl3
  cases hpl3
  exact post (h3 k n)

end Verif.Solver
