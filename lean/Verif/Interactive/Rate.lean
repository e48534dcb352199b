import Verif.Interactive.Client
import Verif.Solver.Rate

/-! # C80: how many steps a convergence loop does -/
set_option linter.dupNamespace false
set_option linter.unusedSectionVars false
namespace Verif.Textbook
open _root_.Matrix
variable {ι : Type} [Fintype ι] {A : Matrix ι ι ℝ}

/-- The squared norm of the residual and the squared energy norm of the error. -/
theorem Between.residual {m M : ℝ} (hsym : Aᵀ = A) (hm : 0 < m) (hB : Between A m M) (v : ι → ℝ) :
    m * energy A v ≤ (A *ᵥ v) ⬝ᵥ (A *ᵥ v) ∧ (A *ᵥ v) ⬝ᵥ (A *ᵥ v) ≤ M * energy A v := by
  obtain ⟨Q, l, hl, hQA, hQ⟩ := diagonal_coordinates hsym
  unfold energy
  rw [hQ, hQ (A *ᵥ v), dotProduct, dotProduct, Finset.mul_sum, Finset.mul_sum]
  refine ⟨Finset.sum_le_sum fun i _ => ?_, Finset.sum_le_sum fun i _ => ?_⟩ <;> rw [hQA] <;> obtain ⟨h1, h2⟩ := hB.eigenvalue (hl i)
  · nlinarith [mul_nonneg (mul_nonneg (hm.le.trans h1) (sub_nonneg.2 h1)) (sq_nonneg ((Qᵀ *ᵥ v) i))]
  · nlinarith [mul_nonneg (mul_nonneg (hm.le.trans h1) (sub_nonneg.2 h2)) (sq_nonneg ((Qᵀ *ᵥ v) i))]

/-- Within `⌈½ √(M/m) log (2 √(M/m) / ε)⌉` steps the norm of the residual has been reduced by the factor `ε`. -/
theorem cg_residual_rate {m M : ℝ} {b : ι → ℝ} (hsym : Aᵀ = A) (hm : 0 < m) (hmM : m ≤ M) (hB : Between A m M) (ε : ℝ) (hε : 0 < ε) :
    ∃ j, j ≤ ⌈√(M / m) / 2 * Real.log (2 * √(M / m) / ε)⌉₊ ∧ (cg A 0 b j).r ⬝ᵥ (cg A 0 b j).r ≤ ε ^ 2 * (b ⬝ᵥ b) := by
  have hM := lt_of_lt_of_le hm hmM
  have hq : 0 < √(M / m) := Real.sqrt_pos.2 (div_pos hM hm)
  have hspd := hB.spd hsym hm
  obtain ⟨i, -, hi, -⟩ := cg_terminates (A := A) (x0 := 0) (b := b) hspd
  have hz : A *ᵥ (cg A 0 b i).x = b := by
    have := cg_residual A 0 b i
    rw [hi, sub_zero] at this
    exact (sub_eq_zero.1 this.symm).symm
  set z := (cg A 0 b i).x
  obtain ⟨j, h1, -, h3, -⟩ := cg_rate (x0 := 0) hsym hm hmM hB ⌈√(M / m) / 2 * Real.log (2 * √(M / m) / ε)⌉₊ z
    (by rw [hz, mulVec_zero, add_zero])
  refine ⟨j, h1, ?_⟩
  have h4 := enough_steps (ε := ε / √(M / m)) hm hmM (by positivity) ⌈√(M / m) / 2 * Real.log (2 * √(M / m) / ε)⌉₊
    (by rw [div_div_eq_mul_div]; exact Nat.le_ceil _)
  rw [sub_zero] at h3
  have h5 : energy A (z - (cg A 0 b j).x) ≤ (ε / √(M / m)) ^ 2 * energy A z :=
    h3.trans (mul_le_mul_of_nonneg_right h4 (energy_nonneg hspd z))
  have hr : (cg A 0 b j).r = A *ᵥ (z - (cg A 0 b j).x) := by
    rw [cg_residual A 0 b j, sub_zero, mulVec_sub, hz]
  have h6 := (hB.residual hsym hm (z - (cg A 0 b j).x)).2
  have h7 := (hB.residual hsym hm z).1
  rw [hz] at h7
  rw [← hr] at h6
  have h8 : (ε / √(M / m)) ^ 2 = ε ^ 2 * (m / M) := by
    rw [div_pow, Real.sq_sqrt (by positivity)]
    field_simp
  rw [h8] at h5
  calc _ ≤ M * energy A (z - (cg A 0 b j).x) := h6
    _ ≤ M * (ε ^ 2 * (m / M) * energy A z) := mul_le_mul_of_nonneg_left h5 hM.le
    _ = ε ^ 2 * (m * energy A z) := by field_simp
    _ ≤ ε ^ 2 * (b ⬝ᵥ b) := mul_le_mul_of_nonneg_left h7 (by positivity)

end Verif.Textbook

namespace Verif.Interactive
open Verif.Runtime Verif.Vector Verif.Matrix Verif.Solver Verif.Planner Verif.Special Verif.Textbook
open scoped _root_.Matrix
variable {K P : Type} [DecidableEq P] [DecidableEq K]
variable {G : Geometry P} {calls : List (Setup K P ℝ)} {base : Nat} {A : Arith ℝ}

/-- **C80**, exact arithmetic: if the matrix of the system is symmetric and its quadratic form lies between `m > 0` and `M` times the
squared norm, and the initial solution is zero, then the loop `while (residual_norm_squared.back().get_value() > tol) step();` with a
tolerance `tol ≥ ε² ‖b‖²` ends in every execution, after at most `⌈½ √(M/m) log (2 √(M/m) / ε)⌉` steps and after at most as many
as there are unknowns, and then `‖b - A x‖² ≤ tol`. -/
theorem c80_rate (hA : A.Exact) (h : ClientSystem G calls base) (hsym : (clientMatrix G calls)ᵀ = clientMatrix G calls) {m M : ℝ}
    (hm : 0 < m) (hmM : m ≤ M) (hB : Between (clientMatrix G calls) m M) (n : Nat) (s : Cell P → ℝ)
    (hx0 : ∀ v ∈ sols calls, ∀ p ∈ G.points v.space, s (.elem v.data p) = 0) (ε : ℝ) (hε : 0 < ε) (tol : ℝ)
    (htol : ε ^ 2 * (clientRhs G calls s ⬝ᵥ clientRhs G calls s) ≤ tol) :
    ∃ pl, Planner.empty.setupAll G calls = some pl ∧
      Ends (cgLoop A G pl base fun _ v => decide (tol < v)) .start n s fun ctl seen s' =>
        (∃ pl' c k, ctl = .stop pl' c k ∧ k ≤ ⌈√(M / m) / 2 * Real.log (2 * √(M / m) / ε)⌉₊ ∧
          k ≤ (clientUnknowns G calls).card ∧ seen.length = k + 1) ∧
        clientResidual G calls s s' ⬝ᵥ clientResidual G calls s s' ≤ tol ∧
        seen.getLast? = some (clientResidual G calls s s' ⬝ᵥ clientResidual G calls s s') ∧
        clientRhs G calls s' = clientRhs G calls s := by
  obtain ⟨j, hj, hr⟩ := cg_residual_rate (b := clientRhs G calls s) hsym hm hmM hB ε hε
  have h0 : 0 ≤ tol := le_trans (mul_nonneg (sq_nonneg _) (Finset.sum_nonneg fun i _ => mul_self_nonneg _)) htol
  obtain ⟨i, hi, hri, -⟩ := cg_terminates (x0 := 0) (b := clientRhs G calls s) (hB.spd hsym hm)
  rw [Fintype.card_coe] at hi
  obtain ⟨l, hl1, hl2, hl3⟩ : ∃ l, l ≤ j ∧ l ≤ i ∧ (Textbook.cg (clientMatrix G calls) 0 (clientRhs G calls s) l).r ⬝ᵥ
      (Textbook.cg (clientMatrix G calls) 0 (clientRhs G calls s) l).r ≤ tol := by
    rcases le_total j i with hji | hji
    · exact ⟨j, le_refl _, hji, hr.trans htol⟩
    · exact ⟨i, hji, le_refl _, by rw [hri, zero_dotProduct]; exact h0⟩
  obtain ⟨pl, hpl, g1, g2, g3⟩ := loop_within hA h (hB.spd hsym hm) n s hx0 tol h0 l hl3
  refine ⟨pl, hpl, g1, g2, fun i w hw he => ?_⟩
  obtain ⟨⟨pl', c, k, f1, f2, f3⟩, f4⟩ := g3 i w hw he
  exact ⟨⟨pl', c, k, f1, f2.trans (hl1.trans hj), f2.trans (hl2.trans hi), f3⟩, f4⟩

end Verif.Interactive
