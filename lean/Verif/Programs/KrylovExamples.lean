import Verif.Programs.Krylov
import Verif.Special.Examples
import Mathlib.LinearAlgebra.Matrix.Notation
import Mathlib.Data.Rat.Defs
import Mathlib.Algebra.Order.Field.Rat
import Mathlib.Tactic.NormNum
import Mathlib.Tactic.Linarith

/-! Examples for C76. -/
namespace Verif.Programs
open _root_.Matrix Verif.Solver Verif.Special

/-- The matrix with rows `(2, -1)`, `(-1, 2)`. -/
def two : Matrix (Fin 2) (Fin 2) ℚ := !![2, -1; -1, 2]

theorem two_SPD : Textbook.SPD two := by
  constructor
  · ext i j; fin_cases i <;> fin_cases j <;> rfl
  · intro x hx
    have e : x ⬝ᵥ two *ᵥ x = x 0 * x 0 + x 1 * x 1 + (x 0 - x 1) * (x 0 - x 1) := by
      simp [two, dotProduct, mulVec, Fin.sum_univ_two]; ring
    rw [e]
    have h0 : x 0 ≠ 0 ∨ x 1 ≠ 0 := by
      by_contra hc
      push Not at hc
      exact hx (by ext i; fin_cases i; exact hc.1; exact hc.2)
    have a0 := mul_self_nonneg (x 0)
    have a1 := mul_self_nonneg (x 1)
    have a2 := mul_self_nonneg (x 0 - x 1)
    rcases h0 with h | h
    · have := mul_self_pos.2 h; linarith
    · have := mul_self_pos.2 h; linarith

/-- Right-hand side `(3, 0)`, initial guess `(1, 0)`: the second of the script's two iterates is the solution `(2, 1)`, and `double_cg` gives
the same two. -/
example : two *ᵥ ![1, 0] ≠ ![3, 0] ∧ (pyCg (· / ·) two ![3, 0] ![1, 0]).length = 2 ∧
    (∃ k, ∃ hk : k < (pyCg (· / ·) two ![3, 0] ![1, 0]).length, two *ᵥ (pyCg (· / ·) two ![3, 0] ![1, 0])[k] = ![3, 0]) ∧
    pyDoubleCg (· / ·) two ![3, 0] ![1, 0] = pyCg (· / ·) two ![3, 0] ![1, 0] := by
  have hne : two *ᵥ ![1, 0] ≠ ![3, 0] := by
    intro h
    have := congrFun h 0
    simp [two] at this
  refine ⟨hne, by rw [c76_script]; simp, ?_, (c76_double _ _ _ _).2.2 (by simp)⟩
  obtain ⟨k, hk, h, -⟩ := c76_solves two two_SPD ![3, 0] ![1, 0] hne
  exact ⟨k, hk, h⟩

/-- C76 for the library: the system of `Verif.Special.Examples` meets the hypotheses. -/
example : ClientSystem boxG (boxCalls (exE ℝ)) 20 ∧ Defined boxG (boxCalls (exE ℝ)) (exStore ℝ) ∧ Real.sqrt 0 = 0 :=
  ⟨boxSystem, ex_defined, Real.sqrt_zero⟩

end Verif.Programs
