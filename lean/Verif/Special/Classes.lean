import Verif.Special.Undefined
import Verif.Solver.Invariant

/-! # C73: classes of unknowns bound the number of steps a solver can make

If the unknowns fall into `c` classes such that the right-hand side is constant on every class and, for each class of columns, the
coefficients of every row of a class add up to the same sum, then conjugate gradients are finished after at most `c` steps, and more steps
than that (CG: more than were needed; BiCGStab: more than `c`; GMRES: a restart length above `c`) leave no element of the solution
defined. -/
set_option linter.dupNamespace false
set_option linter.unusedSectionVars false
namespace Verif.Special
open Verif.Runtime Verif.Vector Verif.Matrix Verif.Planner Verif.Solver Verif.Textbook
open _root_.Matrix (mulVec mulVec_zero)
open scoped _root_.Matrix

/-! ## Mathematics -/
section
variable {ι V : Type} [Fintype ι] [Field V] [LinearOrder V] [IsStrictOrderedRing V] {N : _root_.Matrix ι ι V} {x0 b : ι → V}
  {W : Submodule V (ι → V)}

theorem cg_defined_in (hspd : SPD N) (hb : b ∈ W) (hW : ∀ y ∈ W, N *ᵥ y ∈ W) :
    ∃ k0, k0 ≤ Module.finrank V W ∧ (∀ k, k ≤ k0 → CGDefined N x0 b k) ∧ N *ᵥ ((Textbook.cg N x0 b k0).x - x0) = b ∧
      ∀ k, k0 < k → ¬CGDefined N x0 b k := by
  obtain ⟨k0, hk0, hz, hnz⟩ := cg_terminates_in (A := N) (x0 := x0) (b := b) hspd hb hW
  have hreg := cg_regular hspd k0 hnz
  refine ⟨k0, hk0, fun k hk => ⟨fun i hi => (hreg i (by omega)).2, fun i hi => (hreg i (by omega)).1⟩, ?_, fun k hk hdk => ?_⟩
  · have := cg_residual N x0 b k0
    rw [hz] at this
    exact (sub_eq_zero.1 this.symm).symm
  · apply hdk.1 k0 hk
    have hp : (Textbook.cg N x0 b k0).p = 0 := by
      cases k0 with
      | zero => exact hz
      | succ j =>
        rw [cg_p, hz]
        unfold cgBeta
        rw [hz]
        simp
    rw [hp]
    simp

end

/-! ## Specification -/
section
variable {K P V : Type} [DecidableEq P] [DecidableEq K] [Field V] [DecidableEq V]

/-- The classes are compatible with the client's system: equal right-hand sides in a class; the coefficients of the rows of a class have
the same sum over every class of columns. -/
structure Classes {κ : Type} [DecidableEq κ] (G : Geometry P) (calls : List (Setup K P (Option V))) (s : Cell P → Option V)
    (cls : clientUnknowns G calls → κ) : Prop where
  rhs : ∀ u u', cls u = cls u' → exactVector G calls (rhss calls) s u = exactVector G calls (rhss calls) s u'
  rows : ∀ u u' c, cls u = cls u' →
    (∑ w, if cls w = c then exactMatrix G calls u w else 0) = ∑ w, if cls w = c then exactMatrix G calls u' w else 0

end

/-! ## Clients -/
section
variable {K P V : Type} [DecidableEq P] [DecidableEq K] [Field V] [DecidableEq V]
variable {G : Geometry P} {calls : List (Setup K P (Option V))} {base : Nat} {root : V → V} {s : Cell P → Option V}
variable {κ : Type} [DecidableEq κ] [Fintype κ] {cls : clientUnknowns G calls → κ}
variable (h : ClientSystem G calls base) (hd : Defined G calls s) (hroot : root 0 = 0) (n : Nat)
include h hd hroot

/-- **C73**, conjugate gradients on a symmetric positive definite system: the exact solution is reached after some number `k0` of steps, at
most the number of classes; until then every element is defined, after any larger number of steps none is. -/
theorem c73_cg [LinearOrder V] [IsStrictOrderedRing V] (hspd : SPD (exactMatrix G calls)) (hc : Classes G calls s cls) :
    ∃ pl, Planner.empty.setupAll G calls = some pl ∧ ∃ k0, k0 ≤ Fintype.card κ ∧
      (∀ k, k ≤ k0 → Ensures (cg (partialArith root) G pl base k) n s fun _ s' => ∃ y, SolutionIs G calls s' y) ∧
      (∃ y, exactMatrix G calls *ᵥ y = exactVector G calls (rhss calls) s ∧
        Ensures (cg (partialArith root) G pl base k0) n s fun _ s' => SolutionIs G calls s' fun u => exactVector G calls (sols calls) s u + y u) ∧
      ∀ k, k0 < k → Ensures (cg (partialArith root) G pl base k) n s fun _ s' => SolutionUndefined G calls s' := by
  obtain ⟨pl, hpl, hcg⟩ := c72_cg h hd hroot n
  have hcg := hcg _ _ _ rfl rfl rfl
  obtain ⟨k0, hk0, h1, h2, h3⟩ := cg_defined_in (x0 := exactVector G calls (sols calls) s) hspd (constantOn_iff.2 hc.rhs)
    (equitable_in hc.rows)
  refine ⟨pl, hpl, k0, hk0.trans (finrank_constantOn cls), fun k hk => ensures_weaken (hcg k) fun _ s' g => ⟨_, g.1 (h1 k hk)⟩,
    ⟨_, h2, ensures_weaken (hcg k0) fun _ s' g => ?_⟩, fun k hk => ensures_weaken (hcg k) fun _ s' g => g.2 (h3 k hk)⟩
  convert g.1 (h1 k0 (Nat.le_refl _)) using 1
  funext u
  simp

/-- **C73**, BiCGStab, any matrix: more steps than classes leave no element of the solution defined. -/
theorem c73_bicgstab (hc : Classes G calls s cls) : ∃ pl, Planner.empty.setupAll G calls = some pl ∧
    ∀ k, Fintype.card κ < k →
      Ensures (biCGStab (partialArith root) G pl base k) n s fun _ s' => SolutionUndefined G calls s' := by
  obtain ⟨pl, hpl, hbi⟩ := c72_bicgstab h hd hroot n
  refine ⟨pl, hpl, fun k hk => ensures_weaken (hbi _ _ _ rfl rfl rfl k) fun _ s' g => g.2 ?_⟩
  intro hreg
  have hf := finrank_constantOn (V := V) cls
  exact bi_breaks_down_in (x0 := exactVector G calls (sols calls) s) (constantOn_iff.2 hc.rhs) (equitable_in hc.rows)
    fun i hi => hreg i (by omega)

/-- **C73**, GMRES, exact square roots, initial solution constant on the classes: a restart length above the number of classes leaves no
element of the solution defined, already after one cycle. -/
theorem c73_gmres [LinearOrder V] [IsStrictOrderedRing V] (hsq : ∀ a, 0 ≤ a → root a * root a = a) (hc : Classes G calls s cls)
    (hsol : ∀ u u', cls u = cls u' → exactVector G calls (sols calls) s u = exactVector G calls (sols calls) s u') {m : Nat}
    (hm : Fintype.card κ < m) : ∃ pl, Planner.empty.setupAll G calls = some pl ∧
    ∀ k, 1 ≤ k → Ensures (gmres (partialArith root) G pl base m k) n s fun _ s' => SolutionUndefined G calls s' := by
  obtain ⟨pl, hpl, hgm⟩ := c72_gmres h hd hroot n (m := m) (by omega)
  refine ⟨pl, hpl, fun k hk => ensures_weaken (hgm _ _ _ rfl rfl rfl k) fun _ s' g => g.2 ?_⟩
  intro hreg
  have hf := finrank_constantOn (V := V) cls
  exact arnoldi_breaks_down_in hsq ((constantOn V cls).sub_mem (constantOn_iff.2 hc.rhs)
    (equitable_in hc.rows _ (constantOn_iff.2 hsol))) (equitable_in hc.rows) (by omega) (hreg 0 hk)

end
end Verif.Special
