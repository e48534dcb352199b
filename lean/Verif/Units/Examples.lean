import Verif.Units.Instances
import Verif.Special.Examples
import Verif.Solver.Examples

/-! # C88: the theorems apply to concrete systems -/
set_option linter.dupNamespace false
set_option linter.unusedSectionVars false
namespace Verif.Units
open Verif.Runtime Verif.Vector Verif.Matrix Verif.Planner Verif.Solver Verif.Special
open scoped _root_.Matrix

/-- Rounding to the nearest integer. -/
noncomputable def nearest (x : ℝ) : Int := round x

theorem box_changed {V : Type} {e : Nat → V} {d d' : V} {x b x' b' : Nat → V} {f f' : V → V} (hx : ∀ p, x' p = f (x p))
    (hb : ∀ p, b' p = f' (b p)) : Changed boxG (rhss (boxCalls e)) f' (boxStore d x b) (boxStore d' x' b') ∧
      Changed boxG (sols (boxCalls e)) f (boxStore d x b) (boxStore d' x' b') := by
  constructor
  · intro v hv p _
    have hr : rhss (boxCalls e) = [⟨6, 0, 0, 0⟩] := rfl
    rw [hr, List.mem_singleton] at hv
    subst hv
    exact hb p
  · intro v hv p _
    have hr : sols (boxCalls e) = [⟨5, 0, 0, 0⟩] := rfl
    rw [hr, List.mem_singleton] at hv
    subst hv
    exact hx p

/-- 53 binary digits, rounding to nearest: the system `[[3, 1], [1, 2]] x = (1, 7)` from `x = (5, 0)`, and the same system with the matrix
in units of `2^3` and the right-hand side in units of `2^10`.  Other memory cells of the second run are NaN. -/
theorem ex_units_cg (n k : Nat) : ∃ pl pl' y z,
    Planner.empty.setupAll boxG (boxCalls fun i => Fp.num ([3, 1, 1, 2].getD i 0)) = some pl ∧
    Planner.empty.setupAll boxG (mapCalls (scale (.ofAdd 3)) (boxCalls fun i => Fp.num ([3, 1, 1, 2].getD i 0))) = some pl' ∧
    (Ensures (cg (floatArith nearest 52) boxG pl 20 k) n
      (boxStore (.num 0) (fun p => .num ([5, 0].getD p 0)) fun p => .num ([1, 7].getD p 0)) fun _ t =>
        t (.elem 5 0) = y ∧ t (.elem 5 1) = z) ∧
    Ensures (cg (floatArith nearest 52) boxG pl' 20 k) n
      (boxStore .nan (fun p => .num (2 ^ 7 * [5, 0].getD p 0)) fun p => .num (2 ^ 10 * [1, 7].getD p 0)) fun _ t =>
        t (.elem 5 0) = scale (.ofAdd 7) y ∧ t (.elem 5 1) = scale (.ofAdd 7) z := by
  have hu : ∀ p : Nat, p < 2 → (⟨0, p⟩ : Σ _ : Nat, Nat) ∈ clientUnknowns boxG (boxCalls fun i => Fp.num ([3, 1, 1, 2].getD i 0)) := by
    intro p hp
    rw [box_unknowns]
    have : p = 0 ∨ p = 1 := by omega
    rcases this with rfl | rfl <;> decide
  obtain ⟨hb, hx⟩ := box_changed (e := fun i => Fp.num ([3, 1, 1, 2].getD i 0)) (d := .num 0) (d' := .nan)
    (x := fun p => .num ([5, 0].getD p 0)) (b := fun p => .num ([1, 7].getD p 0)) (x' := fun p => .num (2 ^ 7 * [5, 0].getD p 0))
    (b' := fun p => .num (2 ^ 10 * [1, 7].getD p 0)) (f := scale (.ofAdd 10 / .ofAdd 3)) (f' := scale (.ofAdd 10)) (fun _ => rfl) (fun _ => rfl)
  obtain ⟨pl, pl', h1, h2, x, ρ, h⟩ := c88_cg (float_units (ρ := nearest) (by simp [nearest]) 52) boxSystem hb hx n
  refine ⟨pl, pl', x k ⟨0, 0⟩, x k ⟨0, 1⟩, h1, h2, ensures_weaken (h k).1 fun _ t q => ?_, ensures_weaken (h k).2 fun _ t q => ?_⟩
  · exact ⟨q.1 ⟨0, 0⟩ (hu 0 (by omega)), q.1 ⟨0, 1⟩ (hu 1 (by omega))⟩
  · exact ⟨q.1 ⟨0, 0⟩ (hu 0 (by omega)), q.1 ⟨0, 1⟩ (hu 1 (by omega))⟩

/-- The hypotheses of `c88_bicgstab`, and those of `c88_gmres`, are met by the same system. -/
example : UnitLaws (floatArith nearest 52) scale ∧ RootLaw (floatArith nearest 52) scale ∧
    ClientSystem boxG (boxCalls fun i => Fp.num ([3, 1, 1, 2].getD i 0)) 20 ∧
    Changed boxG (rhss (boxCalls fun i => Fp.num ([3, 1, 1, 2].getD i 0))) (scale (.ofAdd 3))
      (boxStore (Fp.num 0) (fun p => Fp.num ([5, 0].getD p 0)) fun p => Fp.num ([1, 7].getD p 0))
      (boxStore (Fp.num 0) (fun p => Fp.num ([5, 0].getD p 0)) fun p => Fp.num (2 ^ 3 * [1, 7].getD p 0)) ∧
    Changed boxG (sols (boxCalls fun i => Fp.num ([3, 1, 1, 2].getD i 0))) (fun a => a)
      (boxStore (Fp.num 0) (fun p => Fp.num ([5, 0].getD p 0)) fun p => Fp.num ([1, 7].getD p 0))
      (boxStore (Fp.num 0) (fun p => Fp.num ([5, 0].getD p 0)) fun p => Fp.num (2 ^ 3 * [1, 7].getD p 0)) := by
  have h0 : nearest 0 = 0 := by simp [nearest]
  obtain ⟨hb, hx⟩ := box_changed (e := fun i => Fp.num ([3, 1, 1, 2].getD i 0)) (d := .num 0) (d' := .num 0)
    (x := fun p => Fp.num ([5, 0].getD p 0)) (b := fun p => Fp.num ([1, 7].getD p 0)) (x' := fun p => Fp.num ([5, 0].getD p 0))
    (b' := fun p => Fp.num (2 ^ 3 * [1, 7].getD p 0)) (f := fun a => a) (f' := scale (.ofAdd 3)) (fun _ => rfl) (fun _ => rfl)
  exact ⟨float_units h0 52, float_root h0 52, boxSystem, hb, hx⟩

/-- GMRES does not follow a change of the unit of the right-hand side: rotation by a right angle, restart length 1, from zero.  For the
right-hand sides `(3, 4)` and `(6, 8)` the first cycle computes the same solution `(3/5, 4/5)`. -/
theorem c88_gmres_violated : ∃ (pl pl' : Planner Nat Nat ℚ), SolverSetup Solver.exG pl pl' 10 2 ∧ ∀ c ∈ [1, 2],
    Ensures (gmres (exactArith ℚ qsqrt) Solver.exG pl 10 1 1) 0 (exMem 0 0 (c * 3) (c * 4)) fun _ s' =>
      ∀ u, pl'.content Solver.exG s' 0 u = if u.1.2 = 0 then 3 / 5 else 4 / 5 := by
  refine ⟨exPl rotE, exPl' rotE 2, exSetup rotE 2, fun c hc => ?_⟩
  simp only [List.mem_cons, List.not_mem_nil, or_false] at hc
  rcases hc with rfl | rfl
  all_goals
    refine WP.ensures ((gmres_wp (exactArith_exact ℚ qsqrt) (exSetup rotE 2) 1 0 _ (show Verif.Textbook.CycleRegular qsqrt _ _ _ _ _ by decide +kernel)).mono fun c n' s' h => ?_)
    obtain ⟨y, w, -, h0, -⟩ := h.1.view
    rw [w.vec 0 (by omega), h0]
    decide +kernel

end Verif.Units
