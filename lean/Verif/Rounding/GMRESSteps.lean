import Verif.Rounding.GMRES

/-! # C93: the length of a GMRES step and the residual after it, in floating-point arithmetic -/
set_option linter.dupNamespace false
set_option linter.unusedSectionVars false
namespace Verif.Rounding
open Verif.Runtime Verif.Vector Verif.Matrix Verif.Planner Verif.Solver
open scoped _root_.Matrix
variable {K P : Type} [DecidableEq P] [DecidableEq K] {u : ℝ} {A : Arith ℝ}
variable {G : Geometry P} {calls : List (Setup K P ℝ)} {base : Nat}

section
variable {ι : Type} [Fintype ι]

theorem norm2_smul (a : ℝ) (ha : 0 ≤ a) (z : ι → ℝ) : norm2 (fun w => a * z w) = a * norm2 z := by
  have : (fun w => a * z w) = a • z := rfl
  rw [this, norm2_eq, norm2_eq, WithLp.toLp_smul, norm_smul, Real.norm_of_nonneg ha]

theorem norm2_vabs (z : ι → ℝ) : norm2 (vabs z) = norm2 z := by unfold norm2; rw [vabs_dot]

theorem norm2_zero : norm2 (0 : ι → ℝ) = 0 := by unfold norm2; simp

theorem norm2_sum_le (m : Nat) (z : Nat → ι → ℝ) {hi : ℝ} (h : ∀ j, j < m → norm2 (z j) ≤ hi) : norm2 (∑ j ∈ Finset.range m, z j) ≤ m * hi := by
  induction m with
  | zero => simp [norm2_zero]
  | succ m ih =>
    rw [Finset.sum_range_succ]
    refine (norm2_add _ _).trans ?_
    have h1 := ih fun j hj => h j (by omega)
    have h2 := h m (by omega)
    push_cast
    linarith

variable {l c m : Nat} {M Ma : _root_.Matrix ι ι ℝ} {b x r x' : ι → ℝ} {B W : Nat → ι → ℝ} {H : Nat → Nat → ℝ}

theorem AccurateCycle.residual_ne (h : AccurateCycle u l c m M Ma b x r B W H x')
    (hr : ∃ w, ((1 + u) ^ (l + 2) - 1) * (|b w| + (Ma *ᵥ vabs x) w) < |(b - M *ᵥ x) w|) : r ≠ 0 := by
  rintro rfl
  obtain ⟨w, hw⟩ := hr
  have := h.start w
  rw [sub_zero] at this
  linarith

theorem AccurateCycle.new_ne (h : AccurateCycle u l c m M Ma b x r B W H x') {j : Nat} (hj : j < m) (hH : H (j + 1) j ≠ 0) : W j ≠ 0 := by
  intro h0
  have := h.norm j hj
  rw [h0, norm2_zero, mul_zero, mul_zero] at this
  exact hH (le_antisymm this.2 this.1)

/-- The basis vectors have a length near one. -/
theorem AccurateCycle.lengths (h : AccurateCycle u l c m M Ma b x r B W H x') (hu : 0 ≤ u) (hu1 : u < 1) (hr : r ≠ 0)
    (hH : ∀ j, j + 1 < m → H (j + 1) j ≠ 0) (j : Nat) (hj : j < m) :
    scaleLow u ((1 + u) ^ c - 1) ≤ norm2 (B j) ∧ norm2 (B j) ≤ scaleHigh u ((1 + u) ^ c - 1) := by
  have hlo : 0 ≤ scaleLow u ((1 + u) ^ c - 1) := by
    unfold scaleLow
    positivity
  cases j with
  | zero => exact (h.first hr).length hlo hr
  | succ j => exact (h.next j hj (h.new_ne (by omega) (hH j hj))).length hlo (h.new_ne (by omega) (hH j hj))

/-- How far a step moves the solution. -/
theorem AccurateCycle.step (h : AccurateCycle u l c m M Ma b x r B W H x') (hu : 0 ≤ u) {hi : ℝ} (hB : ∀ j, j < m → norm2 (B j) ≤ hi) :
    norm2 (x' - x - ∑ j ∈ Finset.range m, B j) ≤ ((1 + u) ^ m - 1) * (norm2 x + m * hi) := by
  have hκ : 0 ≤ (1 + u) ^ m - 1 := by
    have : (1 : ℝ) ≤ (1 + u) ^ m := one_le_pow₀ (by linarith)
    linarith
  have h1 : norm2 (x' - x - ∑ j ∈ Finset.range m, B j) ≤
      norm2 (fun w => ((1 + u) ^ m - 1) * (vabs x + ∑ j ∈ Finset.range m, vabs (B j)) w) := by
    refine norm2_mono fun w => ?_
    have := h.update w
    rw [sub_sub]
    refine this.trans (le_of_eq ?_)
    simp only [Pi.add_apply, Finset.sum_apply, vabs]
  rw [norm2_smul _ hκ] at h1
  refine h1.trans (mul_le_mul_of_nonneg_left ((norm2_add _ _).trans ?_) hκ)
  rw [norm2_vabs]
  have := norm2_sum_le m (fun j => vabs (B j)) (hi := hi) fun j hj => by rw [norm2_vabs]; exact hB j hj
  linarith

/-- The residual after a step. -/
theorem AccurateCycle.after (h : AccurateCycle u l c m M Ma b x r B W H x') (hM : ∀ i j, |M i j| ≤ Ma i j) (w : ι) :
    |(b - M *ᵥ x' - (r - ∑ j ∈ Finset.range m, (∑ i ∈ Finset.range (j + 1), H i j • B i + W j))) w| ≤
      ((1 + u) ^ (l + 2) - 1) * (|b w| + (Ma *ᵥ vabs x) w) +
      ∑ j ∈ Finset.range m, ((1 + u) ^ (l + 2 + j) - 1) * ((Ma *ᵥ vabs (B j)) w + ∑ i ∈ Finset.range (j + 1), |H i j| * |B i w|) +
      (Ma *ᵥ fun v => ((1 + u) ^ m - 1) * (|x v| + ∑ j ∈ Finset.range m, |B j v|)) w := by
  have e : b - M *ᵥ x' - (r - ∑ j ∈ Finset.range m, (∑ i ∈ Finset.range (j + 1), H i j • B i + W j)) =
      (b - M *ᵥ x - r) - ∑ j ∈ Finset.range m, (M *ᵥ B j - ∑ i ∈ Finset.range (j + 1), H i j • B i - W j) -
        M *ᵥ (x' - (x + ∑ j ∈ Finset.range m, B j)) := by
    have e1 : ∑ j ∈ Finset.range m, (M *ᵥ B j - ∑ i ∈ Finset.range (j + 1), H i j • B i - W j) =
        M *ᵥ (∑ j ∈ Finset.range m, B j) - ∑ j ∈ Finset.range m, (∑ i ∈ Finset.range (j + 1), H i j • B i + W j) := by
      rw [_root_.Matrix.mulVec_sum, ← Finset.sum_sub_distrib]
      exact Finset.sum_congr rfl fun j _ => by rw [sub_sub]
    rw [e1, _root_.Matrix.mulVec_sub, _root_.Matrix.mulVec_add]
    abel
  rw [e]
  have h1 := h.start w
  have h2 := abs_mulVec hM (x' - (x + ∑ j ∈ Finset.range m, B j)) _ h.update w
  have h3 : |(∑ j ∈ Finset.range m, (M *ᵥ B j - ∑ i ∈ Finset.range (j + 1), H i j • B i - W j)) w| ≤
      ∑ j ∈ Finset.range m, ((1 + u) ^ (l + 2 + j) - 1) * ((Ma *ᵥ vabs (B j)) w + ∑ i ∈ Finset.range (j + 1), |H i j| * |B i w|) := by
    rw [Finset.sum_apply]
    exact (Finset.abs_sum_le_sum_abs _ _).trans (Finset.sum_le_sum fun j hj => h.arnoldi j (Finset.mem_range.1 hj) w)
  have h4 : ∀ p q t : ℝ, |p - q - t| ≤ |p| + |q| + |t| := fun p q t => (abs_sub _ _).trans (add_le_add (abs_sub _ _) (le_refl _))
  exact (h4 _ _ _).trans (add_le_add (add_le_add h1 h3) h2)

end

theorem clientAbs_le (h : ClientSystem G calls base) {L N : Nat} (hcut : ClientCut G calls L N) (i j : clientUnknowns G calls) :
    |clientMatrix G calls i j| ≤ clientAbs G calls i j := by
  obtain ⟨pl, pl', hpl, S, -, -, e, hop, habs, -⟩ := client_stored h 0 hcut
  have := abs_operator (pl := pl') (G := G) (e.symm i) (e.symm j)
  rw [hop, habs] at this
  simpa using this

/-- **C93**, consequences a user sees.  Let `x k` be the solution after `k` steps, `ε` the relative error of an inner product.  A step that
starts where the residual is not yet lost in rounding errors, and in which no recorded subdiagonal entry is zero, moves the solution by at most
the length of the basis, near `m`; with restart length one it moves it by nearly one, however close the solution is. -/
theorem c93_steps (hA : Rounded u A) (hu1 : u < 1) (h : ClientSystem G calls base) {L N l : Nat} (hcut : ClientCut G calls L N)
    (hl : ∀ v ∈ clientUnknowns G calls, (clientStored calls v).length ≤ l) (ε : ℝ) (hε : ε = (1 + u) ^ (L + N + (sols calls).length) - 1)
    (hε1 : ε < 1) (m n : Nat) (s : Cell P → ℝ) :
    ∃ pl, Planner.empty.setupAll G calls = some pl ∧ ∃ (x : Nat → clientUnknowns G calls → ℝ) (H : Nat → Nat → Nat → ℝ),
      x 0 = clientSol G calls s ∧
      (∀ k, Ensures (gmres A G pl base m k) n s fun _ s' => clientSol G calls s' = x k ∧ clientRhs G calls s' = clientRhs G calls s) ∧
      (∀ k, Ensures (gmres A G pl base m (k + 1)) n s fun c s' => clientSol G calls s' = x (k + 1) ∧
        ∀ i j, j < m → i ≤ j + 1 → s' (.fut (c.inner i j).fut) = H k i j) ∧
      ∀ k, (∃ w, ((1 + u) ^ (l + 2) - 1) * (|clientRhs G calls s w| + (clientAbs G calls *ᵥ vabs (x k)) w) <
          |(clientRhs G calls s - clientMatrix G calls *ᵥ x k) w|) → (∀ j, j + 1 < m → H k (j + 1) j ≠ 0) →
        norm2 (x (k + 1) - x k) ≤ m * scaleHigh u ε + ((1 + u) ^ m - 1) * (norm2 (x k) + m * scaleHigh u ε) ∧
        (m = 1 → scaleLow u ε - u * (norm2 (x k) + scaleHigh u ε) ≤ norm2 (x (k + 1) - x k)) := by
  obtain ⟨pl, hpl, x, r, B, W, H, h1, h2, h3, h4⟩ := c93_client hA hu1 h hcut hl (by rw [← hε]; exact hε1) m n s
  refine ⟨pl, hpl, x, H, h1, h2, h3, fun k hres hH => ?_⟩
  have hB := (h4 k).lengths hA.nonneg hu1 ((h4 k).residual_ne hres) hH
  rw [← hε] at hB
  have hs := (h4 k).step hA.nonneg fun j hj => (hB j hj).2
  have hsum := norm2_sum_le m (B k) fun j hj => (hB j hj).2
  set d := x (k + 1) - x k - ∑ j ∈ Finset.range m, B k j with hd
  have hx : x (k + 1) - x k = d + ∑ j ∈ Finset.range m, B k j := by rw [hd]; abel
  refine ⟨?_, fun hm => ?_⟩
  · rw [hx]
    have := norm2_add d (∑ j ∈ Finset.range m, B k j)
    linarith
  · subst hm
    rw [Finset.sum_range_one] at hx
    have h5 := norm2_add (x (k + 1) - x k) (-d)
    rw [norm2_neg, show x (k + 1) - x k + -d = B k 0 by rw [hx]; abel] at h5
    have := (hB 0 (by omega)).1
    rw [pow_one, Nat.cast_one, one_mul, add_sub_cancel_left] at hs
    linarith

/-- **C93**, the residual after a step, from quantities of the step: the recorded inner products, the basis vectors and the new vectors. -/
theorem c93_residual (hA : Rounded u A) (hu1 : u < 1) (h : ClientSystem G calls base) {L N l : Nat} (hcut : ClientCut G calls L N)
    (hl : ∀ v ∈ clientUnknowns G calls, (clientStored calls v).length ≤ l) (hε : (1 + u) ^ (L + N + (sols calls).length) - 1 < 1)
    (m n : Nat) (s : Cell P → ℝ) :
    ∃ pl, Planner.empty.setupAll G calls = some pl ∧ ∃ (x r : Nat → clientUnknowns G calls → ℝ) (B W : Nat → Nat → clientUnknowns G calls → ℝ)
      (H : Nat → Nat → Nat → ℝ),
      (∀ k, Ensures (gmres A G pl base m (k + 1)) n s fun c s' => clientSol G calls s' = x (k + 1) ∧
        ∀ i j, j < m → i ≤ j + 1 → s' (.fut (c.inner i j).fut) = H k i j) ∧
      (∀ k, AccurateCycle u l (L + N + (sols calls).length) m (clientMatrix G calls) (clientAbs G calls) (clientRhs G calls s) (x k) (r k) (B k)
        (W k) (H k) (x (k + 1))) ∧
      ∀ k w, |(clientRhs G calls s - clientMatrix G calls *ᵥ x (k + 1) -
          (r k - ∑ j ∈ Finset.range m, (∑ i ∈ Finset.range (j + 1), H k i j • B k i + W k j))) w| ≤
        ((1 + u) ^ (l + 2) - 1) * (|clientRhs G calls s w| + (clientAbs G calls *ᵥ vabs (x k)) w) +
        ∑ j ∈ Finset.range m, ((1 + u) ^ (l + 2 + j) - 1) *
          ((clientAbs G calls *ᵥ vabs (B k j)) w + ∑ i ∈ Finset.range (j + 1), |H k i j| * |B k i w|) +
        (clientAbs G calls *ᵥ fun v => ((1 + u) ^ m - 1) * (|x k v| + ∑ j ∈ Finset.range m, |B k j v|)) w := by
  obtain ⟨pl, hpl, x, r, B, W, H, h1, h2, h3, h4⟩ := c93_client hA hu1 h hcut hl hε m n s
  exact ⟨pl, hpl, x, r, B, W, H, h3, h4, fun k w => (h4 k).after (clientAbs_le h hcut) w⟩

end Verif.Rounding
