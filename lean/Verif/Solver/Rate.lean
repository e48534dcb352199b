import Verif.Solver.Client
import Mathlib.Analysis.Matrix.Spectrum
import Mathlib.Analysis.SpecialFunctions.Trigonometric.Chebyshev.RootsExtrema
import Mathlib.Analysis.SpecialFunctions.Log.Deriv

/-! # C56: how fast conjugate gradients converge -/
set_option linter.dupNamespace false
set_option linter.unusedSectionVars false
namespace Verif.Textbook
open _root_.Matrix Polynomial

variable {ι : Type} [Fintype ι] {A : Matrix ι ι ℝ} {x0 b : ι → ℝ}

/-- `l` is an eigenvalue of `A`. -/
def Eigenvalue (A : Matrix ι ι ℝ) (l : ℝ) : Prop := ∃ v : ι → ℝ, v ≠ 0 ∧ A *ᵥ v = l • v

/-- Coordinates in which a symmetric matrix is diagonal. -/
theorem diagonal_coordinates (hA : Aᵀ = A) : ∃ (Q : Matrix ι ι ℝ) (l : ι → ℝ), (∀ i, Eigenvalue A (l i)) ∧
    (∀ w i, (Qᵀ *ᵥ (A *ᵥ w)) i = l i * (Qᵀ *ᵥ w) i) ∧ ∀ v w, v ⬝ᵥ w = (Qᵀ *ᵥ v) ⬝ᵥ (Qᵀ *ᵥ w) := by
  classical
  have hH : A.IsHermitian := by
    rw [Matrix.IsHermitian, conjTranspose_eq_transpose_of_trivial, hA]
  let U : Matrix ι ι ℝ := hH.eigenvectorUnitary
  have hU1 : Uᵀ * U = 1 := by
    have := (mem_unitaryGroup_iff' (A := U)).1 hH.eigenvectorUnitary.2
    rwa [star_eq_conjTranspose, conjTranspose_eq_transpose_of_trivial] at this
  have hU2 : U * Uᵀ = 1 := by
    have := (mem_unitaryGroup_iff (A := U)).1 hH.eigenvectorUnitary.2
    rwa [star_eq_conjTranspose, conjTranspose_eq_transpose_of_trivial] at this
  have hAU : A * U = U * diagonal hH.eigenvalues := by
    have := hH.spectral_theorem
    rw [Unitary.conjStarAlgAut_apply] at this
    have h2 : A = U * diagonal hH.eigenvalues * Uᵀ := by
      conv_lhs => rw [this]
      rw [star_eq_conjTranspose, conjTranspose_eq_transpose_of_trivial]
      rfl
    conv_lhs => rw [h2]
    rw [Matrix.mul_assoc, hU1, Matrix.mul_one]
  have hUA : Uᵀ * A = diagonal hH.eigenvalues * Uᵀ := by
    have := congrArg transpose hAU
    rwa [transpose_mul, transpose_mul, diagonal_transpose, hA] at this
  refine ⟨U, hH.eigenvalues, fun i => ⟨U *ᵥ Pi.single i 1, ?_, ?_⟩, fun w i => ?_, fun v w => ?_⟩
  · intro h
    have : Uᵀ *ᵥ (U *ᵥ Pi.single i 1) = Uᵀ *ᵥ 0 := by rw [h]
    rw [mulVec_mulVec, hU1, one_mulVec, mulVec_zero] at this
    have := congrFun this i
    simp at this
  · rw [mulVec_mulVec, hAU, ← mulVec_mulVec, diagonal_mulVec_single, mul_one, ← mulVec_smul, ← Pi.single_smul, smul_eq_mul, mul_one]
  · rw [mulVec_mulVec, hUA, ← mulVec_mulVec, mulVec_diagonal]
  · rw [dotProduct_mulVec, ← mulVec_transpose, transpose_transpose, mulVec_mulVec, hU2, one_mulVec]

/-- The value of a polynomial at a matrix applied to a vector lies in the Krylov space. -/
theorem poly_krylov (A : Matrix ι ι ℝ) (b : ι → ℝ) (q : ℝ[X]) (k : Nat) :
    ∑ i ∈ Finset.range k, q.coeff i • (fun y => A *ᵥ y)^[i] b ∈ krylov A b k :=
  Submodule.sum_mem _ fun i hi => Submodule.smul_mem _ _ (Submodule.subset_span ⟨i, Finset.mem_range.1 hi, rfl⟩)

/-- For every polynomial of degree at most `k` that is 1 at 0: the squared energy norm of the error after `k` steps is at most the
initial one times a bound for the squares of its values at the eigenvalues. -/
theorem cg_polynomial (hA : SPD A) (k : Nat) (hr : ∀ i, i < k → (cg A x0 b i).r ≠ 0) (z : ι → ℝ) (hz : A *ᵥ z = b + A *ᵥ x0)
    (p : ℝ[X]) (hdeg : p.natDegree ≤ k) (hp0 : p.eval 0 = 1) (c : ℝ) (hc : ∀ l, Eigenvalue A l → p.eval l ^ 2 ≤ c) :
    energy A (z - (cg A x0 b k).x) ≤ c * energy A (z - x0) := by
  obtain ⟨Q, l, hl, hQA, hQ⟩ := diagonal_coordinates hA.1
  have hpos : ∀ i, 0 < l i := fun i => by
    obtain ⟨v, hv, h⟩ := hl i
    have := hA.2 v hv
    rw [h, dotProduct_smul, smul_eq_mul] at this
    exact pos_of_mul_pos_left this (le_of_lt (dot_self_pos hv))
  have hen : ∀ w, energy A w = ∑ i, l i * (Qᵀ *ᵥ w) i ^ 2 := fun w => by
    unfold energy
    rw [hQ, dotProduct]
    exact Finset.sum_congr rfl fun i _ => by rw [hQA]; ring
  -- the competitor
  let q : ℝ[X] := (1 - p).divX
  have hq : ∀ t : ℝ, t * q.eval t = 1 - p.eval t := fun t => by
    have h1 : (1 - p).coeff 0 = 0 := by
      rw [coeff_zero_eq_eval_zero, eval_sub, hp0, eval_one, sub_self]
    have := congrArg (eval t) (divX_mul_X_add (1 - p))
    rw [h1] at this
    simp only [eval_mul, eval_X, map_zero, add_zero, eval_sub, eval_one] at this
    rw [mul_comm]
    exact this
  have hqd : ∀ t : ℝ, q.eval t = ∑ i ∈ Finset.range k, q.coeff i * t ^ i := fun t => by
    rcases Nat.eq_zero_or_pos k with rfl | hk
    · have : p = C (p.coeff 0) := eq_C_of_natDegree_le_zero hdeg
      have h0 : q = 0 := by
        show (1 - p).divX = 0
        rw [this, ← C_1, ← C_sub, divX_C]
      simp [h0]
    · refine eval_eq_sum_range' ?_ t
      have h1 : (1 - p).natDegree ≤ k := (natDegree_sub_le _ _).trans (by simp [hdeg])
      have h2 : q.natDegree = (1 - p).natDegree - 1 := natDegree_divX_eq_natDegree_tsub_one
      omega
  let y := x0 + ∑ i ∈ Finset.range k, q.coeff i • (fun y => A *ᵥ y)^[i] b
  have hmin := cg_minimises hA k hr z hz y (by
    show x0 + _ - x0 ∈ _
    rw [add_sub_cancel_left]
    exact poly_krylov A b q k)
  refine hmin.trans ?_
  have hAz : A *ᵥ (z - x0) = b := by rw [mulVec_sub, hz, add_sub_cancel_right]
  have hiter : ∀ n i, (Qᵀ *ᵥ (fun y => A *ᵥ y)^[n] b) i = l i ^ n * (l i * (Qᵀ *ᵥ (z - x0)) i) := fun n i => by
    induction n with
    | zero => rw [Function.iterate_zero_apply, pow_zero, one_mul, ← hQA, hAz]
    | succ n ih => rw [Function.iterate_succ_apply', hQA, ih]; ring
  have hcoord : ∀ i, (Qᵀ *ᵥ (z - y)) i = p.eval (l i) * (Qᵀ *ᵥ (z - x0)) i := fun i => by
    have : z - y = (z - x0) - ∑ i ∈ Finset.range k, q.coeff i • (fun y => A *ᵥ y)^[i] b := by
      show z - (x0 + _) = _
      rw [sub_add_eq_sub_sub]
    rw [this, mulVec_sub, mulVec_sum, Pi.sub_apply, Finset.sum_apply]
    simp only [mulVec_smul, Pi.smul_apply, smul_eq_mul, hiter]
    have e : ∑ n ∈ Finset.range k, q.coeff n * (l i ^ n * (l i * (Qᵀ *ᵥ (z - x0)) i)) =
        (∑ n ∈ Finset.range k, q.coeff n * l i ^ n) * (l i * (Qᵀ *ᵥ (z - x0)) i) := by
      rw [Finset.sum_mul]
      exact Finset.sum_congr rfl fun n _ => by ring
    rw [e, ← hqd, ← mul_assoc, mul_comm (q.eval _), hq]
    ring
  rw [hen, hen, Finset.mul_sum]
  refine Finset.sum_le_sum fun i _ => ?_
  rw [hcoord, mul_pow]
  have h1 := hc _ (hl i)
  have h2 : 0 ≤ l i * (Qᵀ *ᵥ (z - x0)) i ^ 2 := mul_nonneg (le_of_lt (hpos i)) (sq_nonneg _)
  nlinarith [mul_le_mul_of_nonneg_right h1 h2]

/-- The quadratic form of `A` lies between `m` and `M` times the squared norm. -/
def Between (A : Matrix ι ι ℝ) (m M : ℝ) : Prop := ∀ v : ι → ℝ, m * (v ⬝ᵥ v) ≤ v ⬝ᵥ A *ᵥ v ∧ v ⬝ᵥ A *ᵥ v ≤ M * (v ⬝ᵥ v)

theorem Between.spd {m M : ℝ} (hA : Aᵀ = A) (hm : 0 < m) (h : Between A m M) : SPD A :=
  ⟨hA, fun v hv => lt_of_lt_of_le (mul_pos hm (dot_self_pos hv)) (h v).1⟩

theorem Between.eigenvalue {m M : ℝ} (h : Between A m M) {l : ℝ} (hl : Eigenvalue A l) : m ≤ l ∧ l ≤ M := by
  obtain ⟨v, hv, e⟩ := hl
  have h1 := h v
  rw [e, dotProduct_smul, smul_eq_mul] at h1
  have := dot_self_pos hv
  exact ⟨le_of_mul_le_mul_right h1.1 this, le_of_mul_le_mul_right h1.2 this⟩

/-- The contraction factor. -/
noncomputable def factor (m M : ℝ) : ℝ := (√M - √m) / (√M + √m)

theorem factor_nonneg {m M : ℝ} (h : m ≤ M) : 0 ≤ factor m M :=
  div_nonneg (sub_nonneg.2 (Real.sqrt_le_sqrt h)) (add_nonneg (Real.sqrt_nonneg _) (Real.sqrt_nonneg _))

/-- The value of the Chebyshev polynomial at `(M + m) / (M - m)`. -/
theorem chebyshev_large {m M : ℝ} (hm : 0 < m) (h : m < M) (k : Nat) :
    1 / 2 * (1 / factor m M ^ k) ≤ (Chebyshev.T ℝ k).eval ((M + m) / (M - m)) := by
  have hs := Real.sqrt_lt_sqrt hm.le h
  have hm0 := Real.sqrt_pos.2 hm
  have hM2 := Real.sq_sqrt (hm.trans h).le
  have hm2 := Real.sq_sqrt hm.le
  have hf : 0 < factor m M := div_pos (by linarith) (by linarith)
  have e1 : (M + m) / (M - m) = Real.cosh (Real.log (1 / factor m M)) := by
    rw [Real.cosh_eq, Real.exp_neg, Real.exp_log (by positivity)]
    unfold factor
    have h1 : √M - √m ≠ 0 := by linarith
    have h2 : √M + √m ≠ 0 := by linarith
    have h3 : M - m ≠ 0 := by linarith
    rw [← hM2, ← hm2, Real.sqrt_sq (by positivity), Real.sqrt_sq (by positivity)] at *
    field_simp
    ring
  rw [e1, Chebyshev.T_real_cosh, Real.cosh_eq]
  have e2 : Real.exp (((k : ℤ) : ℝ) * Real.log (1 / factor m M)) = 1 / factor m M ^ k := by
    rw [Int.cast_natCast, ← Real.log_pow, Real.exp_log (by positivity), one_div, one_div, inv_pow]
  rw [e2]
  have := Real.exp_pos (-(((k : ℤ) : ℝ) * Real.log (1 / factor m M)))
  linarith

/-- There is a polynomial of degree `k` that is 1 at 0 and small between `m` and `M`. -/
theorem small_polynomial {m M : ℝ} (hm : 0 < m) (h : m ≤ M) (k : Nat) :
    ∃ p : ℝ[X], p.natDegree ≤ k ∧ p.eval 0 = 1 ∧ ∀ l, m ≤ l → l ≤ M → p.eval l ^ 2 ≤ 4 * factor m M ^ (2 * k) := by
  rcases h.eq_or_lt with rfl | hlt
  · have hf : factor m m = 0 := by simp [factor]
    rcases Nat.eq_zero_or_pos k with rfl | hk
    · exact ⟨1, by simp, by simp, fun l _ _ => by norm_num⟩
    · refine ⟨1 - C (1 / m) * X, ?_, by simp, fun l h1 h2 => ?_⟩
      · refine (natDegree_sub_le _ _).trans ?_
        simp only [natDegree_one, zero_le, sup_of_le_right]
        exact (natDegree_C_mul_le _ _).trans (natDegree_X_le.trans hk)
      · have : l = m := le_antisymm h2 h1
        subst this
        rw [hf, zero_pow (by omega)]
        simp [hm.ne']
  · let t : ℝ[X] := (Chebyshev.T ℝ k).comp (C (-2 / (M - m)) * X + C ((M + m) / (M - m)))
    have ht : ∀ l, t.eval l = (Chebyshev.T ℝ k).eval (-2 / (M - m) * l + (M + m) / (M - m)) := fun l => by
      simp [t, eval_comp]
    have hbig := chebyshev_large hm hlt k
    have hs := Real.sqrt_lt_sqrt hm.le hlt
    have hm0 := Real.sqrt_pos.2 hm
    have hf : 0 < factor m M := div_pos (by linarith) (by linarith)
    have hfk : 0 < factor m M ^ k := pow_pos hf k
    set T0 := (Chebyshev.T ℝ k).eval ((M + m) / (M - m)) with hT0
    have hT0pos : 0 < T0 := lt_of_lt_of_le (by positivity) hbig
    refine ⟨C (1 / T0) * t, ?_, ?_, fun l h1 h2 => ?_⟩
    · refine (natDegree_C_mul_le _ _).trans (natDegree_comp_le.trans ?_)
      rw [Chebyshev.natDegree_T, Int.natAbs_natCast]
      have : (C (-2 / (M - m)) * X + C ((M + m) / (M - m))).natDegree ≤ 1 := natDegree_linear_le
      calc k * _ ≤ k * 1 := Nat.mul_le_mul_left _ this
        _ = k := Nat.mul_one k
    · rw [eval_mul, eval_C, ht, mul_zero, zero_add, ← hT0]
      field_simp
    · rw [eval_mul, eval_C, ht]
      have hd : 0 < M - m := by linarith
      have habs : |(-2 / (M - m) * l + (M + m) / (M - m))| ≤ 1 := by
        have : -2 / (M - m) * l + (M + m) / (M - m) = (M + m - 2 * l) / (M - m) := by field_simp; ring
        rw [this, abs_div, abs_of_pos hd, div_le_one hd, abs_le]
        constructor <;> linarith
      have h3 := Chebyshev.abs_eval_T_real_le_one (k : ℤ) habs
      have h4 : (1 / T0) ≤ 2 * factor m M ^ k := by
        rw [div_le_iff₀ hT0pos]
        calc (1 : ℝ) = 2 * factor m M ^ k * (1 / 2 * (1 / factor m M ^ k)) := by field_simp
          _ ≤ 2 * factor m M ^ k * T0 := mul_le_mul_of_nonneg_left hbig (by positivity)
      have h5 : (1 / T0) ^ 2 ≤ (2 * factor m M ^ k) ^ 2 := pow_le_pow_left₀ (by positivity) h4 2
      have h6 := (sq_le_one_iff_abs_le_one _).2 h3
      calc (1 / T0 * (Chebyshev.T ℝ k).eval (-2 / (M - m) * l + (M + m) / (M - m))) ^ 2
          = (1 / T0) ^ 2 * (Chebyshev.T ℝ k).eval (-2 / (M - m) * l + (M + m) / (M - m)) ^ 2 := mul_pow _ _ _
        _ ≤ (1 / T0) ^ 2 * 1 := mul_le_mul_of_nonneg_left h6 (by positivity)
        _ ≤ (2 * factor m M ^ k) ^ 2 := by rw [mul_one]; exact h5
        _ = 4 * factor m M ^ (2 * k) := by ring

/-- The factor in terms of the condition number. -/
theorem factor_le_exp {m M : ℝ} (hm : 0 < m) (h : m ≤ M) : factor m M ≤ Real.exp (-2 * √(m / M)) := by
  have hM := lt_of_lt_of_le hm h
  have hm0 := Real.sqrt_pos.2 hm
  have hM0 := Real.sqrt_pos.2 hM
  rcases h.eq_or_lt with rfl | hlt
  · have hf : factor m m = 0 := by simp [factor]
    rw [hf]; exact (Real.exp_pos _).le
  have hs := Real.sqrt_lt_sqrt hm.le hlt
  set t := √(m / M) with ht
  have ht' : t = √m / √M := Real.sqrt_div hm.le M
  have ht0 : 0 < t := by rw [ht']; positivity
  have ht1 : t < 1 := by rw [ht', div_lt_one hM0]; exact hs
  have e : factor m M = (1 - t) / (1 + t) := by
    rw [ht']; unfold factor
    field_simp
  have hsum := Real.hasSum_log_sub_log_of_abs_lt_one (abs_lt.2 ⟨by linarith, ht1⟩)
  have h1 : 2 * t ≤ Real.log (1 + t) - Real.log (1 - t) := by
    have := le_hasSum hsum 0 (fun k _ => by positivity)
    simpa using this
  rw [e, ← Real.exp_log (show 0 < (1 - t) / (1 + t) from div_pos (by linarith) (by linarith)), Real.log_div (by linarith) (by linarith)]
  exact Real.exp_le_exp.2 (by linarith)

/-- Within `k` steps, before any division by zero, some iterate is as good as a polynomial of degree `k` promises. -/
theorem cg_within (hA : SPD A) (k : Nat) (z : ι → ℝ) (hz : A *ᵥ z = b + A *ᵥ x0)
    (p : ℝ[X]) (hdeg : p.natDegree ≤ k) (hp0 : p.eval 0 = 1) (c : ℝ) (h0 : 0 ≤ c) (hc : ∀ l, Eigenvalue A l → p.eval l ^ 2 ≤ c) :
    ∃ j, j ≤ k ∧ CGRegular A x0 b j ∧ energy A (z - (cg A x0 b j).x) ≤ c * energy A (z - x0) ∧ (j < k → (cg A x0 b j).x = z) := by
  obtain ⟨j, -, hj, hnz⟩ := cg_terminates (A := A) (x0 := x0) (b := b) hA
  rcases lt_or_ge j k with h | h
  · refine ⟨j, h.le, cg_regular hA j hnz, ?_⟩
    have hres : 0 = A *ᵥ (z - (cg A x0 b j).x) := by
      have h1 := cg_residual A x0 b j
      rw [hj] at h1
      rw [h1, mulVec_sub, mulVec_sub, hz]
      abel
    have : z - (cg A x0 b j).x = 0 := by
      by_contra hne
      have := hA.2 _ hne
      rw [← hres, dotProduct_zero] at this
      exact lt_irrefl _ this
    rw [this]
    refine ⟨?_, fun _ => (sub_eq_zero.1 this).symm⟩
    simp only [energy, zero_dotProduct]
    exact mul_nonneg h0 (energy_nonneg hA _)
  · have hnz' : ∀ i, i < k → (cg A x0 b i).r ≠ 0 := fun i hi => hnz i (by omega)
    exact ⟨k, le_refl k, cg_regular hA k hnz', cg_polynomial hA k hnz' z hz p hdeg hp0 c hc, fun h => absurd h (lt_irrefl _)⟩

end Verif.Textbook

namespace Verif.Textbook
open _root_.Matrix Polynomial
variable {ι : Type} [Fintype ι] {A : Matrix ι ι ℝ} {x0 b : ι → ℝ}

/-- The rate in terms of the bounds of the quadratic form. -/
theorem cg_rate {m M : ℝ} (hsym : Aᵀ = A) (hm : 0 < m) (hmM : m ≤ M) (hB : Between A m M) (k : Nat) (z : ι → ℝ)
    (hz : A *ᵥ z = b + A *ᵥ x0) : ∃ j, j ≤ k ∧ CGRegular A x0 b j ∧
      energy A (z - (cg A x0 b j).x) ≤ 4 * factor m M ^ (2 * k) * energy A (z - x0) ∧ (j < k → (cg A x0 b j).x = z) := by
  obtain ⟨p, h1, h2, h3⟩ := small_polynomial hm hmM k
  exact cg_within (hB.spd hsym hm) k z hz p h1 h2 _ (mul_nonneg (by norm_num) (pow_nonneg (factor_nonneg hmM) _))
    fun l hl => h3 l (hB.eigenvalue hl).1 (hB.eigenvalue hl).2

/-- How many steps reduce the bound by `ε`. -/
theorem enough_steps {m M ε : ℝ} (hm : 0 < m) (hmM : m ≤ M) (hε : 0 < ε) (k : Nat) (hk : √(M / m) / 2 * Real.log (2 / ε) ≤ k) :
    4 * factor m M ^ (2 * k) ≤ ε ^ 2 := by
  have hM := lt_of_lt_of_le hm hmM
  have h1 : factor m M ^ k ≤ Real.exp (-2 * √(m / M)) ^ k := pow_le_pow_left₀ (factor_nonneg hmM) (factor_le_exp hm hmM) k
  rw [← Real.exp_nat_mul] at h1
  have hmul : √(m / M) * √(M / m) = 1 := by
    rw [← Real.sqrt_mul (by positivity), div_mul_div_comm, mul_comm m M, div_self (by positivity), Real.sqrt_one]
  have h2 : (k : ℝ) * (-2 * √(m / M)) ≤ Real.log (ε / 2) := by
    have h3 : Real.log (ε / 2) = - Real.log (2 / ε) := by rw [← Real.log_inv, inv_div]
    have h4 := mul_le_mul_of_nonneg_left hk (show 0 ≤ 2 * √(m / M) by positivity)
    have h5 : 2 * √(m / M) * (√(M / m) / 2 * Real.log (2 / ε)) = (√(m / M) * √(M / m)) * Real.log (2 / ε) := by ring
    rw [h5, hmul, one_mul] at h4
    rw [h3]
    linarith
  have h6 : factor m M ^ k ≤ ε / 2 := by
    refine h1.trans ((Real.exp_le_exp.2 h2).trans ?_)
    rw [Real.exp_log (by positivity)]
  have h7 := pow_le_pow_left₀ (pow_nonneg (factor_nonneg hmM) k) h6 2
  calc 4 * factor m M ^ (2 * k) = 4 * (factor m M ^ k) ^ 2 := by ring
    _ ≤ 4 * (ε / 2) ^ 2 := by linarith
    _ = ε ^ 2 := by ring

/-- Few different eigenvalues: few steps. -/
theorem cg_distinct (hA : SPD A) (E : Finset ℝ) (hE : ∀ l, Eigenvalue A l → l ∈ E) (z : ι → ℝ) (hz : A *ᵥ z = b + A *ᵥ x0) :
    ∃ j, j ≤ E.card ∧ CGRegular A x0 b j ∧ (cg A x0 b j).x = z := by
  let E' := E.filter (· ≠ 0)
  suffices h : (∏ e ∈ E', (1 - C (1 / e) * X)).natDegree ≤ E.card ∧ (∏ e ∈ E', (1 - C (1 / e) * X)).eval 0 = 1 ∧
      ∀ l, Eigenvalue A l → (∏ e ∈ E', (1 - C (1 / e) * X)).eval l ^ 2 ≤ 0 by
    obtain ⟨j, h1, h2, h3, -⟩ := cg_within hA E.card z hz _ h.1 h.2.1 0 (le_refl 0) h.2.2
    refine ⟨j, h1, h2, ?_⟩
    rw [zero_mul] at h3
    by_contra hne
    have := hA.2 (z - (cg A x0 b j).x) (sub_ne_zero.2 (Ne.symm hne))
    exact absurd h3 (not_le.2 this)
  refine ⟨?_, ?_, ?_⟩
  · refine (natDegree_prod_le _ _).trans (((Finset.sum_le_card_nsmul _ _ 1) fun e _ => ?_).trans ?_)
    · refine (natDegree_sub_le _ _).trans ?_
      simp only [natDegree_one, zero_le, sup_of_le_right]
      exact (natDegree_C_mul_le _ _).trans natDegree_X_le
    · rw [smul_eq_mul, mul_one]
      exact Finset.card_filter_le _ _
  · rw [eval_prod]
    exact Finset.prod_eq_one fun e _ => by simp
  · intro l hl
    have hl0 : l ≠ 0 := by
      rintro rfl
      obtain ⟨v, hv, e⟩ := hl
      have := hA.2 v hv
      rw [e, zero_smul, dotProduct_zero] at this
      exact lt_irrefl _ this
    have : (∏ e ∈ E', (1 - C (1 / e) * X)).eval l = 0 := by
      rw [eval_prod]
      refine Finset.prod_eq_zero (i := l) (Finset.mem_filter.2 ⟨hE l hl, hl0⟩) ?_
      simp [hl0]
    rw [this]
    exact le_of_eq (by ring)

end Verif.Textbook

namespace Verif.Solver
open Verif.Runtime Verif.Vector Verif.Matrix Verif.Planner Verif.Textbook
open scoped _root_.Matrix

variable {K P : Type} [DecidableEq P] [DecidableEq K] {A : Arith ℝ}
variable {G : Geometry P} {pl pl' : Planner K P ℝ} {base : Nat}

/-- Whatever holds of a textbook iterate without division by zero holds of the program. -/
theorem cg_ensures (hA : A.Exact) (S : SolverSetup G pl pl' base 3) (n : Nat) (s : Cell P → ℝ) (hx0 : pl'.content G s 0 = 0)
    {j : Nat} (hreg : CGRegular (pl'.operator G) 0 (pl'.content G s 1) j) :
    Ensures (cg A G pl base j) n s fun _ s' => pl'.content G s' 0 = (Textbook.cg (pl'.operator G) 0 (pl'.content G s 1) j).x := by
  rw [← hx0] at hreg ⊢
  exact WP.ensures ((cg_wp hA S j n s hreg).mono fun c n' s' h => h.1.contents.2.1)

theorem ensures_weaken {α V : Type} {m : M P V α} {n : Nat} {s : Cell P → V} {Q Q' : α → (Cell P → V) → Prop}
    (h : Ensures m n s Q) (hQ : ∀ a s', Q a s' → Q' a s') : Ensures m n s Q' := by
  obtain ⟨a, n', ts, q1, q2, q3⟩ := h
  exact ⟨a, n', ts, q1, q2, fun M' h1 h2 => hQ _ _ (q3 M' h1 h2)⟩

/-- **C56**: if the operator is symmetric and its quadratic form lies between `m > 0` and `M` times the squared norm, then CG, started
from zero, has after `k` steps - or has solved the system exactly before - reduced the energy norm of the error by the factor
`2 ((√M - √m) / (√M + √m)) ^ k` (the statement is about squares). -/
theorem c56_rate (hA : A.Exact) (S : SolverSetup G pl pl' base 3) (hsym : (pl'.operator G)ᵀ = pl'.operator G) {m M : ℝ} (hm : 0 < m)
    (hmM : m ≤ M) (hB : Between (pl'.operator G) m M) (n : Nat) (s : Cell P → ℝ) (hx0 : pl'.content G s 0 = 0) (z : pl'.U G → ℝ)
    (hz : pl'.operator G *ᵥ z = pl'.content G s 1) (k : Nat) :
    ∃ j, j ≤ k ∧ Ensures (cg A G pl base j) n s fun _ s' =>
      energy (pl'.operator G) (z - pl'.content G s' 0) ≤ 4 * ((√M - √m) / (√M + √m)) ^ (2 * k) * energy (pl'.operator G) z ∧
      (j < k → pl'.content G s' 0 = z) := by
  obtain ⟨j, h1, h2, h3, h4⟩ := cg_rate (x0 := 0) hsym hm hmM hB k z (by rw [hz, Matrix.mulVec_zero, add_zero])
  refine ⟨j, h1, ensures_weaken (cg_ensures hA S n s hx0 h2) fun _ s' h => ?_⟩
  rw [h]
  rw [sub_zero] at h3
  exact ⟨h3, h4⟩

/-- **C56**: for every `ε > 0`, at most `⌈½ √(M/m) log (2/ε)⌉` steps reduce the energy norm of the error by the factor `ε`. -/
theorem c56_steps (hA : A.Exact) (S : SolverSetup G pl pl' base 3) (hsym : (pl'.operator G)ᵀ = pl'.operator G) {m M : ℝ} (hm : 0 < m)
    (hmM : m ≤ M) (hB : Between (pl'.operator G) m M) (n : Nat) (s : Cell P → ℝ) (hx0 : pl'.content G s 0 = 0) (z : pl'.U G → ℝ)
    (hz : pl'.operator G *ᵥ z = pl'.content G s 1) (ε : ℝ) (hε : 0 < ε) :
    ∃ j, j ≤ ⌈√(M / m) / 2 * Real.log (2 / ε)⌉₊ ∧ Ensures (cg A G pl base j) n s fun _ s' =>
      energy (pl'.operator G) (z - pl'.content G s' 0) ≤ ε ^ 2 * energy (pl'.operator G) z := by
  obtain ⟨j, h1, h2⟩ := c56_rate hA S hsym hm hmM hB n s hx0 z hz ⌈√(M / m) / 2 * Real.log (2 / ε)⌉₊
  refine ⟨j, h1, ensures_weaken h2 fun _ s' h => h.1.trans ?_⟩
  exact mul_le_mul_of_nonneg_right (enough_steps hm hmM hε _ (Nat.le_ceil _)) (energy_nonneg (hB.spd hsym hm) z)

/-- **C56**: if the operator is symmetric positive definite and has at most `d` different eigenvalues, at most `d` steps solve the
system exactly. -/
theorem c56_distinct_eigenvalues (hA : A.Exact) (S : SolverSetup G pl pl' base 3) (hspd : SPD (pl'.operator G)) (E : Finset ℝ)
    (hE : ∀ l, Eigenvalue (pl'.operator G) l → l ∈ E) (n : Nat) (s : Cell P → ℝ) (hx0 : pl'.content G s 0 = 0) (z : pl'.U G → ℝ)
    (hz : pl'.operator G *ᵥ z = pl'.content G s 1) :
    ∃ j, j ≤ E.card ∧ Ensures (cg A G pl base j) n s fun _ s' => pl'.content G s' 0 = z := by
  obtain ⟨j, h1, h2, h3⟩ := cg_distinct (x0 := 0) hspd E hE z (by rw [hz, Matrix.mulVec_zero, add_zero])
  exact ⟨j, h1, ensures_weaken (cg_ensures hA S n s hx0 h2) fun _ s' h => by rw [h, h3]⟩

/-! ## In terms of the client's calls -/
section
variable {calls : List (Setup K P ℝ)}

/-- **C56** in terms of the calls: `N` is the matrix of the system the calls describe (any number of blocks and matrices), `z` the
solution for the given right-hand side vectors; the solution vectors are zero at first. -/
theorem c56_client (hA : A.Exact) (h : ClientSystem G calls base) (N : _root_.Matrix (clientUnknowns G calls) (clientUnknowns G calls) ℝ)
    (hN : ∀ u u', N u u' = clientCoef calls u.1 u'.1) (hsym : Nᵀ = N) {m M : ℝ} (hm : 0 < m) (hmM : m ≤ M) (hB : Between N m M)
    (n : Nat) (s : Cell P → ℝ) (hx0 : ∀ v ∈ sols calls, ∀ p ∈ G.points v.space, s (.elem v.data p) = 0)
    (z : clientUnknowns G calls → ℝ) (hz : N *ᵥ z = fun u => clientVec (rhss calls) s u.1) (k : Nat) :
    ∃ pl, Planner.empty.setupAll G calls = some pl ∧ ∃ j, j ≤ k ∧ Ensures (cg A G pl base j) n s fun _ s' =>
      energy N (z - fun u => clientVec (sols calls) s' u.1) ≤ 4 * ((√M - √m) / (√M + √m)) ^ (2 * k) * energy N z ∧
      (j < k → ∀ u, clientVec (sols calls) s' u.1 = z u) := by
  obtain ⟨pl, pl', hpl, S, e, hop, hcont⟩ := client_view h 3
  refine ⟨pl, hpl, ?_⟩
  obtain ⟨hdot, hmv, hen⟩ := transport e (pl'.operator G) N fun u u' => by rw [hop, hN]
  have hcont' : ∀ k, k < 2 → ∀ s' : Cell P → ℝ, pl'.content G s' k = (fun u => clientVec (given calls k) s' u.1) ∘ e :=
    fun k hk s' => funext fun u => hcont k hk s' u
  have hB' : Between (pl'.operator G) m M := fun v => by
    have : v = (v ∘ e.symm) ∘ e := by funext i; simp
    rw [this, hmv, hdot, hdot]
    exact hB _
  have hsym' : (pl'.operator G)ᵀ = pl'.operator G := by
    funext u u'
    show pl'.operator G u' u = _
    rw [hop, hop, ← hN, ← hN]
    exact congrFun (congrFun hsym (e u)) (e u')
  obtain ⟨j, hj, hE⟩ := c56_rate hA S hsym' hm hmM hB' n s (funext fun u => by
    rw [hcont 0 (by omega)]
    exact clientVec_zero hx0 _) (z ∘ e) (by
    rw [hmv, hz, hcont' 1 (by omega)]
    rfl) k
  refine ⟨j, hj, ensures_weaken hE fun _ s' h => ?_⟩
  rw [hcont' 0 (by omega), hen] at h
  obtain ⟨h1, h2⟩ := h
  refine ⟨?_, fun hlt u => ?_⟩
  · rw [← hen]
    exact h1
  · have := congrFun (h2 hlt) (e.symm u)
    simp only [Function.comp, Equiv.apply_symm_apply] at this
    exact this

/-- **C56** in terms of the calls, few different eigenvalues. -/
theorem c56_client_distinct_eigenvalues (hA : A.Exact) (h : ClientSystem G calls base)
    (N : _root_.Matrix (clientUnknowns G calls) (clientUnknowns G calls) ℝ) (hN : ∀ u u', N u u' = clientCoef calls u.1 u'.1)
    (hspd : SPD N) (E : Finset ℝ) (hE : ∀ l, Eigenvalue N l → l ∈ E) (n : Nat) (s : Cell P → ℝ)
    (hx0 : ∀ v ∈ sols calls, ∀ p ∈ G.points v.space, s (.elem v.data p) = 0)
    (z : clientUnknowns G calls → ℝ) (hz : N *ᵥ z = fun u => clientVec (rhss calls) s u.1) :
    ∃ pl, Planner.empty.setupAll G calls = some pl ∧ ∃ j, j ≤ E.card ∧ Ensures (cg A G pl base j) n s fun _ s' =>
      ∀ u : clientUnknowns G calls, clientVec (sols calls) s' u.1 = z u := by
  obtain ⟨pl, pl', hpl, S, e, hop, hcont⟩ := client_view h 3
  refine ⟨pl, hpl, ?_⟩
  have hMN : ∀ u u', pl'.operator G u u' = N (e u) (e u') := fun u u' => by rw [hop, hN]
  obtain ⟨hdot, hmv, hen⟩ := transport e (pl'.operator G) N hMN
  obtain ⟨j, hj, hE⟩ := c56_distinct_eigenvalues hA S (SPD_transfer e _ N hMN hspd) E (fun l hl => by
    obtain ⟨v, hv, hAv⟩ := hl
    refine hE l ⟨v ∘ e.symm, fun h0 => hv ?_, ?_⟩
    · funext i
      have := congrFun h0 (e i)
      simpa using this
    · have e1 : v = (v ∘ e.symm) ∘ e := by funext i; simp
      rw [e1, hmv] at hAv
      funext u
      have := congrFun hAv (e.symm u)
      simpa using this) n s (funext fun u => by
      rw [hcont 0 (by omega)]
      exact clientVec_zero hx0 _) (z ∘ e) (by
      rw [hmv, hz]
      funext u
      rw [hcont 1 (by omega)]
      rfl)
  refine ⟨j, hj, ensures_weaken hE fun _ s' h u => ?_⟩
  have := congrFun h (e.symm u)
  rw [hcont 0 (by omega)] at this
  simp only [Function.comp, Equiv.apply_symm_apply] at this
  exact this

end

end Verif.Solver
