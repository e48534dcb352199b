import Verif.Special.Recurrence
import Verif.Solver.Rate

/-! # The recurrences in terms of the calls of a client -/
set_option linter.dupNamespace false
set_option linter.unusedSectionVars false
namespace Verif.Special
open Verif.Runtime Verif.Vector Verif.Matrix Verif.Planner Verif.Solver
variable {K P V : Type} [DecidableEq P] [DecidableEq K]
variable {G : Geometry P} {calls : List (Setup K P V)} {base : Nat} {A : Arith V}

/-- What the list of vectors `vs`, one per block, holds at an unknown. -/
def valueAt (A : Arith V) (vs : List Vec) (s : Cell P → V) (u : Σ _ : Nat, P) : V :=
  (vs[u.1]?).elim A.zero fun v => s (.elem v.data u.2)

/-- A row of the client's system multiplied with a vector: the stored entries of the row in all matrices, in the order in which the
matrices were added and store them. -/
def rowTimes (A : Arith V) (G : Geometry P) (calls : List (Setup K P V)) (y : clientUnknowns G calls → V) (u : clientUnknowns G calls) : V :=
  (clientStored calls u.1).foldl (fun a t => A.add a (A.mul t.2 (if h : t.1 ∈ clientUnknowns G calls then y ⟨t.1, h⟩ else A.zero))) A.zero

theorem client_any (A : Arith V) (h : ClientSystem G calls base) (nw : Nat) :
    ∃ pl pl', Planner.empty.setupAll G calls = some pl ∧ SolverSetup G pl pl' base nw ∧
      ∃ e : pl'.U G ≃ clientUnknowns G calls, (∀ y, plannerProduct A G pl' (y ∘ e) = rowTimes A G calls y ∘ e) ∧
        (∀ s : Cell P → V, pl'.content G s 0 = (fun u => valueAt A (sols calls) s u.1) ∘ e) ∧
        (∀ s : Cell P → V, pl'.content G s 1 = (fun u => valueAt A (rhss calls) s u.1) ∘ e) ∧
        ∀ u ∈ clientUnknowns G calls, ∀ t ∈ clientStored calls u, t.1 ∈ clientUnknowns G calls := by
  obtain ⟨pl, pl', hpl, S, hc⟩ := h.complete nw
  have hu := unknowns_eq hc
  have hm := (c31_consistent G _ hc.constructed pl' hc.accepted).2.2.2.2.2.2.2.1
  rw [mats_alloc] at hm
  refine ⟨pl, pl', hpl, S, Equiv.subtypeEquivRight fun u => by rw [hu], fun y => funext fun w => ?_, fun s => funext fun w => ?_,
    fun s => funext fun w => ?_, fun u _ t ht => ?_⟩
  · have hst : pl'.stored w.1.1 w.1.2 = clientStored calls w.1 := stored_client hm w.1
    unfold plannerProduct rowValue rowTimes
    show _ = (clientStored calls w.1).foldl _ _
    rw [← hst]
    apply List.foldl_ext
    intro a t ht
    have h1 := stored_mem S.ready ht
    have h2 : t.1 ∈ clientUnknowns G calls := by rw [← hu]; exact h1
    rw [dif_pos h1, dif_pos h2]
    rfl
  · obtain ⟨v, h1, -, h3⟩ := (c33_client_vectors hc 0 (by omega)).1 w
    rw [given_alloc] at h1
    rw [h3]
    show _ = valueAt A (given calls 0) s w.1
    unfold valueAt
    rw [h1]
    rfl
  · obtain ⟨v, h1, -, h3⟩ := (c33_client_vectors hc 1 (by omega)).1 w
    rw [given_alloc] at h1
    rw [h3]
    show _ = valueAt A (given calls 1) s w.1
    unfold valueAt
    rw [h1]
    rfl
  · rw [← stored_client hm] at ht
    rw [← hu]
    exact stored_mem S.ready ht

/-! ## Renaming the unknowns -/
section
variable {ι κ : Type} [Fintype ι] [Fintype κ] (e : ι ≃ κ) {mv : (ι → V) → ι → V} {mv' : (κ → V) → κ → V}

theorem sums_rename {f : ι → V} {v : V} (h : Sums A (∑ u, {f u}) v) : Sums A (∑ u, {f (e.symm u)}) v := by
  rw [e.symm.sum_comp (fun u => ({f u} : Multiset V))]
  exact h

theorem mv_rename (hmv : ∀ y, mv (y ∘ e) = mv' y ∘ e) (y : ι → V) : mv y ∘ e.symm = mv' (y ∘ e.symm) := by
  have h := hmv (y ∘ e.symm)
  have h2 : (y ∘ e.symm) ∘ e = y := funext fun i => by simp
  rw [h2] at h
  rw [h]
  funext i
  simp

theorem CGRun.rename (hmv : ∀ y, mv (y ∘ e) = mv' y ∘ e) {x0 b : κ → V} {x p q r : Nat → ι → V} {ρ π : Nat → V}
    (h : CGRun A mv (x0 ∘ e) (b ∘ e) x p q r ρ π) :
    CGRun A mv' x0 b (fun k => x k ∘ e.symm) (fun k => p k ∘ e.symm) (fun k => q k ∘ e.symm) (fun k => r k ∘ e.symm) ρ π where
  x_zero := by rw [h.x_zero]; funext i; simp
  r_zero := by rw [h.r_zero]; funext i; simp
  p_zero := by rw [h.p_zero]; funext i; simp
  rho k := sums_rename e (h.rho k)
  product k := by rw [h.product k]; exact mv_rename e hmv _
  curvature k := sums_rename e (h.curvature k)
  x_succ k u := h.x_succ k _
  r_succ k u := h.r_succ k _
  p_succ k u := h.p_succ k _

theorem BiRun.rename (hmv : ∀ y, mv (y ∘ e) = mv' y ∘ e) {x0 b : κ → V} {x p v r g t : Nat → ι → V} {ρ α ω τ ν η : Nat → V}
    (h : BiRun A mv (x0 ∘ e) (b ∘ e) x p v r g t ρ α ω τ ν η) :
    BiRun A mv' x0 b (fun k => x k ∘ e.symm) (fun k => p k ∘ e.symm) (fun k => v k ∘ e.symm) (fun k => r k ∘ e.symm)
      (fun k => g k ∘ e.symm) (fun k => t k ∘ e.symm) ρ α ω τ ν η where
  x_zero := by rw [h.x_zero]; funext i; simp
  r_zero := by rw [h.r_zero]; funext i; simp
  p_zero := by rw [h.p_zero]; funext i; simp
  v_zero := by rw [h.v_zero]; funext i; simp
  rho_zero := h.rho_zero
  alpha_zero := h.alpha_zero
  omega_zero := h.omega_zero
  rho k := by
    have h1 := sums_rename e (h.rho k)
    simpa using h1
  p_succ k u := h.p_succ k _
  product k := by rw [h.product k]; exact mv_rename e hmv _
  tau k := by
    have h1 := sums_rename e (h.tau k)
    simpa using h1
  half k u := h.half k _
  alpha := h.alpha
  half_product k := by rw [h.half_product k]; exact mv_rename e hmv _
  nu k := sums_rename e (h.nu k)
  eta k := sums_rename e (h.eta k)
  omega := h.omega
  x_succ k u := h.x_succ k _
  r_succ k u := h.r_succ k _

end

theorem comp_eq {ι κ : Type} (e : ι ≃ κ) {f : κ → V} {g : ι → V} (h : f ∘ e = g) (u : κ) : f u = g (e.symm u) := by
  rw [← h]; simp

/-- **C71**: conjugate gradients, in any arithmetic, for every schedule and order of the reductions: the solution after `k` steps and the recorded
squared norms are those of a recurrence. -/
theorem cg_recurrence (A : Arith V) (h : ClientSystem G calls base) (n : Nat) (s : Cell P → V) :
    ∃ pl, Planner.empty.setupAll G calls = some pl ∧ ∃ x p q r ρ π,
      CGRun A (rowTimes A G calls) (fun u => valueAt A (sols calls) s u.1) (fun u => valueAt A (rhss calls) s u.1) x p q r ρ π ∧
      ∀ k, Ensures (cg A G pl base k) n s fun c s' => (∀ u : clientUnknowns G calls, valueAt A (sols calls) s' u.1 = x k u) ∧
        (∀ u : clientUnknowns G calls, valueAt A (rhss calls) s' u.1 = valueAt A (rhss calls) s u.1) ∧
        c.history.length = k + 1 ∧ ∀ (i : Nat) a, c.history[i]? = some a → s' (.fut a.fut) = ρ i := by
  obtain ⟨pl, pl', hpl, S, e, hmv, h0, h1, -⟩ := client_any A h 3
  obtain ⟨x, p, q, r, ρ, π, hrun, hens⟩ := cg_planner A S n s
  rw [h0, h1] at hrun
  refine ⟨pl, hpl, _, _, _, _, ρ, π, hrun.rename e hmv, fun k => ensures_weaken (hens k) ?_⟩
  rintro c s' ⟨g1, g2, g3⟩
  rw [h0] at g1
  rw [h1, h1] at g2
  exact ⟨fun u => comp_eq e g1 u, fun u => by
    have := congrFun g2 (e.symm u)
    simpa using this, g3⟩

/-- **C71**: BiCGStab, in any arithmetic, for every schedule and order of the reductions. -/
theorem bi_recurrence (A : Arith V) (h : ClientSystem G calls base) (n : Nat) (s : Cell P → V) :
    ∃ pl, Planner.empty.setupAll G calls = some pl ∧ ∃ x p v r g t ρ α ω τ ν η,
      BiRun A (rowTimes A G calls) (fun u => valueAt A (sols calls) s u.1) (fun u => valueAt A (rhss calls) s u.1) x p v r g t ρ α ω τ ν η ∧
      ∀ k, Ensures (biCGStab A G pl base k) n s fun c s' => (∀ u : clientUnknowns G calls, valueAt A (sols calls) s' u.1 = x k u) ∧
        (∀ u : clientUnknowns G calls, valueAt A (rhss calls) s' u.1 = valueAt A (rhss calls) s u.1) ∧
        (c.rhos.length = k ∧ c.alphas.length = k ∧ c.omegas.length = k) ∧
        (∀ (i : Nat) a, (c.rhos ++ [c.rho])[i]? = some a → s' (.fut a.fut) = ρ i) ∧
        (∀ (i : Nat) a, (c.alphas ++ [c.alpha])[i]? = some a → s' (.fut a.fut) = α i) ∧
        ∀ (i : Nat) a, (c.omegas ++ [c.omega])[i]? = some a → s' (.fut a.fut) = ω i := by
  obtain ⟨pl, pl', hpl, S, e, hmv, h0, h1, -⟩ := client_any A h 5
  obtain ⟨x, p, v, r, g, t, ρ, α, ω, τ, ν, η, hrun, hens⟩ := bi_planner A S n s
  rw [h0, h1] at hrun
  refine ⟨pl, hpl, _, _, _, _, _, _, ρ, α, ω, τ, ν, η, hrun.rename e hmv, fun k => ensures_weaken (hens k) ?_⟩
  rintro c s' ⟨g1, g2, g3⟩
  rw [h0] at g1
  rw [h1, h1] at g2
  exact ⟨fun u => comp_eq e g1 u, fun u => by
    have := congrFun g2 (e.symm u)
    simpa using this, g3⟩

end Verif.Special
