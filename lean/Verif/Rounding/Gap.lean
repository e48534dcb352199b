import Verif.Rounding.Spec
import Mathlib.Data.Matrix.Mul
import Mathlib.Algebra.Order.BigOperators.Ring.Finset

/-! # The residual gap of one coupled update `x += θ p`, `r -= θ A p` -/
set_option linter.dupNamespace false
set_option linter.unusedSectionVars false
namespace Verif.Rounding
open Verif.Vector
open scoped _root_.Matrix
variable {ι : Type} [Fintype ι] {u : ℝ} {M Ma : _root_.Matrix ι ι ℝ}

/-- Absolute values of all elements. -/
def vabs {X : Type} (x : X → ℝ) : X → ℝ := fun v => |x v|

theorem abs_mulVec (h : ∀ i j, |M i j| ≤ Ma i j) (z w : ι → ℝ) (hz : ∀ j, |z j| ≤ w j) (i : ι) : |(M *ᵥ z) i| ≤ (Ma *ᵥ w) i := by
  show |∑ j, M i j * z j| ≤ ∑ j, Ma i j * w j
  refine (Finset.abs_sum_le_sum_abs _ _).trans (Finset.sum_le_sum fun j _ => ?_)
  rw [abs_mul]
  exact mul_le_mul (h i j) (hz j) (abs_nonneg _) ((abs_nonneg _).trans (h i j))

theorem mulVec_mono (h : ∀ i j, 0 ≤ Ma i j) {z w : ι → ℝ} (hz : ∀ j, z j ≤ w j) (i : ι) : (Ma *ᵥ z) i ≤ (Ma *ᵥ w) i :=
  Finset.sum_le_sum fun j _ => mul_le_mul_of_nonneg_left (hz j) (h i j)

/-- What one step adds to the distance between the true and the computed residual: `x`, `x'` the solution before and after the step, `r'`
the residual vector after it, `m` the largest number of stored entries in a row, `Ma` the matrix of absolute values. -/
noncomputable def gapTerm (u : ℝ) (m : Nat) (Ma : _root_.Matrix ι ι ℝ) (x x' r' : ι → ℝ) : ι → ℝ := fun v =>
  u / (1 - u) * ((Ma *ᵥ vabs x') v + |r' v|) +
    ((1 + u) ^ (m + 3) + u - 1) / (1 - u) * (Ma *ᵥ fun w => |x' w| / (1 - u) + |x w|) v

/-- A rounded value bounds the exact one. -/
theorem abs_le_rounded (hu1 : u < 1) {a t : ℝ} (h : |a - t| ≤ u * |t|) : |t| ≤ |a| / (1 - u) := by
  have h1 : |t| ≤ |a - t| + |a| := by
    have := abs_sub_abs_le_abs_sub t a
    rw [abs_sub_comm] at this
    linarith
  rw [le_div_iff₀ (by linarith)]
  nlinarith

theorem gap_step (hu : 0 ≤ u) (hu1 : u < 1) (hM : ∀ i j, |M i j| ≤ Ma i j) {m : Nat} {x x' r r' p q : ι → ℝ} {θ α β : ℝ}
    (hx : ∀ v, |x' v - (α * p v + x v)| ≤ u * |α * p v + x v|) (hr : ∀ v, |r' v - (β * q v + r v)| ≤ u * |β * q v + r v|)
    (hα : |α - θ| ≤ u * |θ|) (hβ : Near u 2 β (-θ) |θ|) (hq : ∀ v, Near u (1 + m) (q v) ((M *ᵥ p) v) ((Ma *ᵥ vabs p) v)) (v : ι) :
    |(M *ᵥ (x' - x)) v + (r' v - r v)| ≤ gapTerm u m Ma x x' r' v := by
  have hMa : ∀ i j, 0 ≤ Ma i j := fun i j => (abs_nonneg _).trans (hM i j)
  have h1u : 0 < 1 - u := by linarith
  -- the three parts
  have hdx : ∀ w, |x' w - (α * p w + x w)| ≤ u / (1 - u) * |x' w| := fun w => by
    have h1 := abs_le_rounded hu1 (hx w)
    calc _ ≤ u * |α * p w + x w| := hx w
      _ ≤ u * (|x' w| / (1 - u)) := mul_le_mul_of_nonneg_left h1 hu
      _ = u / (1 - u) * |x' w| := by ring
  have hdr : |r' v - (β * q v + r v)| ≤ u / (1 - u) * |r' v| := by
    have h1 := abs_le_rounded hu1 (hr v)
    calc _ ≤ u * |β * q v + r v| := hr v
      _ ≤ u * (|r' v| / (1 - u)) := mul_le_mul_of_nonneg_left h1 hu
      _ = u / (1 - u) * |r' v| := by ring
  have e1 : (M *ᵥ (x' - x)) v + (r' v - r v) = (M *ᵥ fun w => x' w - (α * p w + x w)) v + (r' v - (β * q v + r v)) +
      ((α - θ) * (M *ᵥ p) v + (β * q v - -θ * (M *ᵥ p) v)) := by
    have h1 : (M *ᵥ (x' - x)) v = (M *ᵥ fun w => x' w - (α * p w + x w)) v + α * (M *ᵥ p) v := by
      show ∑ j, M v j * (x' j - x j) = ∑ j, M v j * (x' j - (α * p j + x j)) + α * ∑ j, M v j * p j
      rw [Finset.mul_sum, ← Finset.sum_add_distrib]
      exact Finset.sum_congr rfl fun j _ => by ring
    rw [h1]
    ring
  have b1 : |(M *ᵥ fun w => x' w - (α * p w + x w)) v| ≤ u / (1 - u) * (Ma *ᵥ vabs x') v := by
    refine (abs_mulVec hM _ (fun w => u / (1 - u) * |x' w|) hdx v).trans (le_of_eq ?_)
    show ∑ j, Ma v j * (u / (1 - u) * |x' j|) = u / (1 - u) * ∑ j, Ma v j * |x' j|
    rw [Finset.mul_sum]
    exact Finset.sum_congr rfl fun j _ => by ring
  set S := (Ma *ᵥ vabs p) v with hS
  have hS0 : 0 ≤ S := (hq v).nonneg
  have b2 : |(α - θ) * (M *ᵥ p) v| ≤ u * |θ| * S := by
    rw [abs_mul]
    exact mul_le_mul hα (hq v).2 (abs_nonneg _) (mul_nonneg hu (abs_nonneg _))
  have b3 : |β * q v - -θ * (M *ᵥ p) v| ≤ ((1 + u) ^ (m + 3) - 1) * (|θ| * S) := by
    have h := (hβ.times hu (hq v)).1
    rwa [show 2 + (1 + m) = m + 3 by omega] at h
  have b4 : |θ| * S ≤ (Ma *ᵥ fun w => |x' w| / (1 - u) + |x w|) v / (1 - u) := by
    have h1 : |θ| ≤ |α| / (1 - u) := abs_le_rounded hu1 hα
    have h2 : ∀ w, |α| * |p w| ≤ |x' w| / (1 - u) + |x w| := fun w => by
      have h3 := abs_le_rounded hu1 (hx w)
      have h4 : |α * p w| ≤ |α * p w + x w| + |x w| := by
        have := abs_sub (α * p w + x w) (x w)
        simpa using this
      rw [← abs_mul]
      linarith
    have h3 : |α| * S ≤ (Ma *ᵥ fun w => |x' w| / (1 - u) + |x w|) v := by
      refine le_trans (le_of_eq ?_) (mulVec_mono hMa h2 v)
      show |α| * ∑ j, Ma v j * |p j| = ∑ j, Ma v j * (|α| * |p j|)
      rw [Finset.mul_sum]
      exact Finset.sum_congr rfl fun j _ => by ring
    calc |θ| * S ≤ |α| / (1 - u) * S := mul_le_mul_of_nonneg_right h1 hS0
      _ = |α| * S / (1 - u) := by ring
      _ ≤ _ := div_le_div_of_nonneg_right h3 h1u.le
  have hc : 0 ≤ (1 + u) ^ (m + 3) + u - 1 := by
    have : (1 : ℝ) ≤ (1 + u) ^ (m + 3) := one_le_pow₀ (by linarith)
    linarith
  have b5 : ((1 + u) ^ (m + 3) + u - 1) * (|θ| * S) ≤
      ((1 + u) ^ (m + 3) + u - 1) / (1 - u) * (Ma *ᵥ fun w => |x' w| / (1 - u) + |x w|) v := by
    calc _ ≤ ((1 + u) ^ (m + 3) + u - 1) * ((Ma *ᵥ fun w => |x' w| / (1 - u) + |x w|) v / (1 - u)) := mul_le_mul_of_nonneg_left b4 hc
      _ = _ := by ring
  rw [e1]
  unfold gapTerm
  refine (abs_add_le _ _).trans ?_
  have t1 := abs_add_le ((M *ᵥ fun w => x' w - (α * p w + x w)) v) (r' v - (β * q v + r v))
  have t2 := abs_add_le ((α - θ) * (M *ᵥ p) v) (β * q v - -θ * (M *ᵥ p) v)
  nlinarith

/-- The gap after `k` steps. -/
theorem gap_sum {m : Nat} {b : ι → ℝ} {x r : Nat → ι → ℝ} {k : Nat} (h0 : r 0 = b)
    (h : ∀ j, j < k → ∀ v, |(M *ᵥ (x (j + 1) - x j)) v + (r (j + 1) v - r j v)| ≤ gapTerm u m Ma (x j) (x (j + 1)) (r (j + 1)) v) (v : ι) :
    |(b - M *ᵥ (x k - x 0) - r k) v| ≤ ∑ j ∈ Finset.range k, gapTerm u m Ma (x j) (x (j + 1)) (r (j + 1)) v := by
  induction k with
  | zero => simp [h0]
  | succ k ih =>
    rw [Finset.sum_range_succ]
    have e : (b - M *ᵥ (x (k + 1) - x 0) - r (k + 1)) v = (b - M *ᵥ (x k - x 0) - r k) v -
        ((M *ᵥ (x (k + 1) - x k)) v + (r (k + 1) v - r k v)) := by
      simp only [_root_.Matrix.mulVec_sub, Pi.sub_apply]
      ring
    rw [e]
    exact (abs_sub _ _).trans (add_le_add (ih fun j hj => h j (by omega)) (h k (by omega) v))

/-- Larger iterates, larger terms. -/
theorem gapTerm_mono (hu : 0 ≤ u) (hu1 : u < 1) (hMa : ∀ i j, 0 ≤ Ma i j) {m : Nat} {x x' r' X X' R : ι → ℝ} (hx : ∀ v, |x v| ≤ X v)
    (hx' : ∀ v, |x' v| ≤ X' v) (hr : ∀ v, |r' v| ≤ R v) (v : ι) :
    gapTerm u m Ma x x' r' v ≤ u / (1 - u) * ((Ma *ᵥ X') v + R v) +
      ((1 + u) ^ (m + 3) + u - 1) / (1 - u) * (Ma *ᵥ fun w => X' w / (1 - u) + X w) v := by
  have h1u : 0 < 1 - u := by linarith
  have hc : 0 ≤ (1 + u) ^ (m + 3) + u - 1 := by
    have : (1 : ℝ) ≤ (1 + u) ^ (m + 3) := one_le_pow₀ (by linarith)
    linarith
  unfold gapTerm
  refine add_le_add (mul_le_mul_of_nonneg_left (add_le_add (mulVec_mono hMa hx' v) (hr v)) (div_nonneg hu h1u.le))
    (mul_le_mul_of_nonneg_left (mulVec_mono hMa (fun w => ?_) v) (div_nonneg hc h1u.le))
  exact add_le_add (div_le_div_of_nonneg_right (hx' w) h1u.le) (hx w)

end Verif.Rounding
