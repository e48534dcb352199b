import Verif.Rounding.GMRESSteps
import Verif.Rounding.Examples

/-! # C93 for the example system with eleven binary digits -/
set_option linter.dupNamespace false
namespace Verif.Rounding
open Verif.Runtime Verif.Vector Verif.Matrix Verif.Planner Verif.Solver
open scoped _root_.Matrix

/-- One step of restart length one from zero with a positive right-hand side: the hypotheses of `c93_steps` hold, and the solution moves by
about one, whatever the right-hand side is. -/
example (s : Cell Nat → ℝ) (h0 : ∀ p, s (.elem 0 p) = 0) (h1 : ∀ p, s (.elem 1 p) = 0) (hb : ∀ d p, (d = 2 ∨ d = 3) → 0 < s (.elem d p)) :
    ∃ pl, Planner.empty.setupAll Solver.exG realCalls = some pl ∧ ∃ x : Nat → clientUnknowns Solver.exG realCalls → ℝ,
      (∀ k, Ensures (gmres (roundedArith (chop 10)) Solver.exG pl 10 1 k) 0 s fun _ s' => clientSol Solver.exG realCalls s' = x k) ∧
      (9 : ℝ) / 10 ≤ norm2 (x 1) ∧ norm2 (x 1) ≤ 11 / 10 := by
  have hsol : (sols realCalls).length = 2 := rfl
  obtain ⟨pl, g1, x, H, g2, g3, g4, g5⟩ := c93_steps small (by norm_num) realSystem real_cut real_rows _ rfl (by rw [hsol]; norm_num) 1 0 s
  have hx0 : x 0 = 0 := by
    rw [g2]
    funext v
    obtain ⟨v, hv⟩ := v
    rcases real_mem v hv with rfl | rfl | rfl | rfl
    · exact h0 0
    · exact h0 1
    · exact h1 0
    · exact h1 1
  have hv0 : (⟨0, 0⟩ : Σ _ : Nat, Nat) ∈ clientUnknowns Solver.exG realCalls := by
    unfold clientUnknowns
    simp only [Finset.mem_sigma, Finset.mem_range, hsol]
    exact ⟨by omega, by decide⟩
  have hres := g5 0 ⟨⟨⟨0, 0⟩, hv0⟩, by
    have hp := real_rhs s hb ⟨⟨0, 0⟩, hv0⟩
    rw [hx0, show vabs (0 : clientUnknowns Solver.exG realCalls → ℝ) = 0 from funext fun _ => abs_zero, _root_.Matrix.mulVec_zero,
      _root_.Matrix.mulVec_zero, sub_zero, Pi.zero_apply, add_zero, abs_of_pos hp]
    have : ((1 : ℝ) + (1 / 2) ^ 10) ^ (2 + 2) - 1 < 1 := by norm_num
    nlinarith⟩ (fun j hj => absurd hj (by omega))
  rw [hx0, sub_zero, norm2_zero, zero_add, hsol] at hres
  refine ⟨pl, g1, x, fun k => ensures_weaken (g3 k) fun _ s' h => h.1, ?_, ?_⟩
  all_goals
    have hup : scaleHigh ((1 / 2) ^ 10) ((1 + (1 / 2) ^ 10) ^ (1 + 2 + 2) - 1) ≤ 101 / 100 := by
      unfold scaleHigh
      have : (999 : ℝ) / 1000 - 3 / 1000 ≤ √(1 - ((1 + (1 / 2) ^ 10) ^ (1 + 2 + 2) - 1)) := by
        apply Real.le_sqrt_of_sq_le
        norm_num
      rw [div_le_iff₀ (mul_pos (by norm_num) (lt_of_lt_of_le (by norm_num) this))]
      norm_num at this ⊢
      nlinarith
    have hlow : (99 : ℝ) / 100 ≤ scaleLow ((1 / 2) ^ 10) ((1 + (1 / 2) ^ 10) ^ (1 + 2 + 2) - 1) := by
      unfold scaleLow
      have : √(1 + ((1 + (1 / 2) ^ 10) ^ (1 + 2 + 2) - 1)) ≤ (1003 : ℝ) / 1000 := by
        rw [Real.sqrt_le_left (by norm_num)]
        norm_num
      have hpos : (0 : ℝ) < √(1 + ((1 + (1 / 2) ^ 10) ^ (1 + 2 + 2) - 1)) := Real.sqrt_pos.2 (by norm_num)
      rw [le_div_iff₀ (by positivity)]
      norm_num at this ⊢
      nlinarith
    obtain ⟨e1, e2⟩ := hres
    have e3 := e2 rfl
    rw [pow_one, Nat.cast_one, one_mul] at e1
    norm_num at e1 e3 hup hlow ⊢
    linarith

end Verif.Rounding
