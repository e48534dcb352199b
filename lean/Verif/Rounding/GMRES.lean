import Verif.Rounding.GMRESRun

/-! # C93: the accuracy of a GMRES cycle in floating-point arithmetic -/
set_option linter.dupNamespace false
set_option linter.unusedSectionVars false
namespace Verif.Rounding
open Verif.Runtime Verif.Vector Verif.Matrix Verif.Planner Verif.Solver
open scoped _root_.Matrix
variable {K P : Type} [DecidableEq P] [DecidableEq K] {u : ℝ} {A : Arith ℝ}
variable {G : Geometry P} {calls : List (Setup K P ℝ)} {base : Nat}

/-! ## What is claimed of a cycle -/

/-- `v` is `r` divided by its length, up to a factor between `lo` and `hi` in each component. -/
def Normalised {ι : Type} [Fintype ι] (lo hi : ℝ) (v r : ι → ℝ) : Prop := ∀ w, ∃ θ, lo ≤ θ ∧ θ ≤ hi ∧ v w = θ * (r w / norm2 r)

/-- The least factor by which normalisation can be off: one square root, one quotient and one product, of a sum with relative error `ε`. -/
noncomputable def scaleLow (u ε : ℝ) : ℝ := (1 - u) ^ 2 / ((1 + u) * √(1 + ε))

/-- The greatest such factor. -/
noncomputable def scaleHigh (u ε : ℝ) : ℝ := (1 + u) ^ 2 / ((1 - u) * √(1 - ε))

/-- A cycle of length `m` that takes the solution from `x` to `x'`, with unit roundoff `u`, at most `l` stored entries per row, inner products
with `c` roundings: `r` is the residual it starts from, `B j` the basis vectors, `H i j` the recorded inner products, `W j` the new vector of
column `j` before normalisation. -/
structure AccurateCycle {ι : Type} [Fintype ι] (u : ℝ) (l c m : Nat) (M Ma : _root_.Matrix ι ι ℝ) (b x r : ι → ℝ) (B W : Nat → ι → ℝ)
    (H : Nat → Nat → ℝ) (x' : ι → ℝ) : Prop where
  /-- The residual is that of the present solution. -/
  start : ∀ w, |(b - M *ᵥ x - r) w| ≤ ((1 + u) ^ (l + 2) - 1) * (|b w| + (Ma *ᵥ vabs x) w)
  /-- The first basis vector is the normalised residual. -/
  first : r ≠ 0 → Normalised (scaleLow u ((1 + u) ^ c - 1)) (scaleHigh u ((1 + u) ^ c - 1)) (B 0) r
  /-- The Arnoldi relation. -/
  arnoldi : ∀ j, j < m → ∀ w, |(M *ᵥ B j - ∑ i ∈ Finset.range (j + 1), H i j • B i - W j) w| ≤
    ((1 + u) ^ (l + 2 + j) - 1) * ((Ma *ᵥ vabs (B j)) w + ∑ i ∈ Finset.range (j + 1), |H i j| * |B i w|)
  /-- The recorded entries are inner products with what is left of the new vector. -/
  inner : ∀ j, j < m → ∀ i, i ≤ j → |H i j - B i ⬝ᵥ (M *ᵥ B j - ∑ i' ∈ Finset.range i, H i' j • B i')| ≤
    ((1 + u) ^ (c + (l + 1 + i)) - 1) * (vabs (B i) ⬝ᵥ fun w => (Ma *ᵥ vabs (B j)) w + ∑ i' ∈ Finset.range i, |H i' j| * |B i' w|)
  /-- The entry below the diagonal is the length of the new vector. -/
  norm : ∀ j, j < m → (1 - u) * √(1 - ((1 + u) ^ c - 1)) * norm2 (W j) ≤ H (j + 1) j ∧
    H (j + 1) j ≤ (1 + u) * √(1 + ((1 + u) ^ c - 1)) * norm2 (W j)
  /-- The next basis vector is the normalised new vector. -/
  next : ∀ j, j + 1 < m → W j ≠ 0 → Normalised (scaleLow u ((1 + u) ^ c - 1)) (scaleHigh u ((1 + u) ^ c - 1)) (B (j + 1)) (W j)
  /-- The basis vectors are added to the solution. -/
  update : ∀ w, |(x' - (x + ∑ j ∈ Finset.range m, B j)) w| ≤ ((1 + u) ^ m - 1) * (|x w| + ∑ j ∈ Finset.range m, |B j w|)

/-! ## Normalisation -/
section
variable {ι : Type} [Fintype ι]

theorem norm2_sq (z : ι → ℝ) : norm2 z ^ 2 = z ⬝ᵥ z := Real.sq_sqrt (Finset.sum_nonneg fun _ _ => mul_self_nonneg _)

theorem norm2_pos {z : ι → ℝ} (h : z ≠ 0) : 0 < norm2 z := by
  refine Real.sqrt_pos.2 (lt_of_le_of_ne (Finset.sum_nonneg fun _ _ => mul_self_nonneg _) fun e => h ?_)
  funext w
  have := (Finset.sum_eq_zero_iff_of_nonneg fun i _ => mul_self_nonneg (z i)).1 e.symm w (Finset.mem_univ w)
  simpa using this

theorem vabs_dot (z : ι → ℝ) : vabs z ⬝ᵥ vabs z = z ⬝ᵥ z := Finset.sum_congr rfl fun _ _ => abs_mul_abs_self _

/-- The rounded square root of a computed square of a norm. -/
theorem near_norm (hA : Rounded u A) (hu1 : u < 1) {c : Nat} {r : ι → ℝ} {D ε : ℝ} (hε : ε = (1 + u) ^ c - 1) (hε1 : ε < 1)
    (h : GM.NearDot u c r r D) : (1 - u) * √(1 - ε) * norm2 r ≤ A.sqrt D ∧ A.sqrt D ≤ (1 + u) * √(1 + ε) * norm2 r := by
  have hu := hA.nonneg
  have hε0 : 0 ≤ ε := by
    have : (1 : ℝ) ≤ (1 + u) ^ c := one_le_pow₀ (by linarith)
    linarith
  have h1 := h.1
  rw [vabs_dot, ← hε, ← norm2_sq] at h1
  have hn : 0 ≤ norm2 r := Real.sqrt_nonneg _
  have h2 : (1 - ε) * norm2 r ^ 2 ≤ D := by have := abs_le.1 h1; nlinarith
  have h2' : D ≤ (1 + ε) * norm2 r ^ 2 := by have := abs_le.1 h1; nlinarith
  have hs : ∀ a, 0 ≤ a → √(a * norm2 r ^ 2) = √a * norm2 r := fun a ha => by rw [Real.sqrt_mul ha, Real.sqrt_sq hn]
  have h3 : √(1 - ε) * norm2 r ≤ √D := by
    rw [← hs _ (by linarith)]
    exact Real.sqrt_le_sqrt h2
  have h3' : √D ≤ √(1 + ε) * norm2 r := by
    rw [← hs _ (by linarith)]
    exact Real.sqrt_le_sqrt h2'
  have hD : 0 ≤ D := le_trans (mul_nonneg (by linarith) (sq_nonneg _)) h2
  have h4 := abs_le.1 (hA.sqrt D hD)
  have h5 : 0 ≤ √D := Real.sqrt_nonneg _
  constructor
  · calc (1 - u) * √(1 - ε) * norm2 r = (1 - u) * (√(1 - ε) * norm2 r) := by ring
      _ ≤ (1 - u) * √D := mul_le_mul_of_nonneg_left h3 (by linarith)
      _ ≤ A.sqrt D := by linarith
  · calc A.sqrt D ≤ (1 + u) * √D := by linarith
      _ ≤ (1 + u) * (√(1 + ε) * norm2 r) := mul_le_mul_of_nonneg_left h3' (by linarith)
      _ = _ := by ring

/-- A product as the exact product with a factor near one. -/
theorem mul_factor (hA : Rounded u A) (a b : ℝ) : ∃ θ, 1 - u ≤ θ ∧ θ ≤ 1 + u ∧ A.mul a b = θ * (a * b) := by
  have h := hA.mul a b
  have hu := hA.nonneg
  by_cases h0 : a * b = 0
  · rw [h0] at h ⊢
    refine ⟨1, by linarith, by linarith, ?_⟩
    simpa using h
  · refine ⟨A.mul a b / (a * b), ?_, ?_, (div_mul_cancel₀ _ h0).symm⟩
    all_goals
      have h1 : |A.mul a b / (a * b) - 1| ≤ u := by
        rw [show A.mul a b / (a * b) - 1 = (A.mul a b - a * b) / (a * b) by rw [sub_div, div_self h0], abs_div,
          div_le_iff₀ (abs_pos.2 h0)]
        exact h
      have := abs_le.1 h1
      linarith

theorem normalised (hA : Rounded u A) (hu1 : u < 1) {c : Nat} {r : ι → ℝ} {D ε : ℝ} (hε : ε = (1 + u) ^ c - 1) (hε1 : ε < 1)
    (h : GM.NearDot u c r r D) (hr : r ≠ 0) {v : ι → ℝ} (hv : ∀ w, v w = A.mul (A.div A.one (A.sqrt D)) (r w)) :
    Normalised (scaleLow u ε) (scaleHigh u ε) v r := by
  have hu := hA.nonneg
  have hε0 : 0 ≤ ε := by
    have : (1 : ℝ) ≤ (1 + u) ^ c := one_le_pow₀ (by linarith)
    linarith
  obtain ⟨g1, g2⟩ := near_norm hA hu1 hε hε1 h
  have hn := norm2_pos hr
  have hl : 0 < √(1 - ε) := Real.sqrt_pos.2 (by linarith)
  have hh : 0 < √(1 + ε) := Real.sqrt_pos.2 (by linarith)
  have hlp : 0 < (1 - u) * √(1 - ε) := mul_pos (by linarith) hl
  have hhp : 0 < (1 + u) * √(1 + ε) := mul_pos (by linarith) hh
  set q := A.sqrt D with hq
  have hqp : 0 < q := lt_of_lt_of_le (mul_pos hlp hn) g1
  have hd := abs_le.1 (hA.div A.one q (ne_of_gt hqp))
  rw [hA.one, abs_of_pos (div_pos one_pos hqp)] at hd
  set d := A.div 1 q with hdd
  have hd1 : (1 - u) / q ≤ d := by have : (1 - u) / q = 1 / q - u * (1 / q) := by ring
                                   linarith [hd.1]
  have hd2 : d ≤ (1 + u) / q := by have : (1 + u) / q = 1 / q + u * (1 / q) := by ring
                                   linarith [hd.2]
  have hqn1 : 1 / ((1 + u) * √(1 + ε)) ≤ norm2 r / q := by
    rw [div_le_div_iff₀ hhp hqp]
    linarith
  have hqn2 : norm2 r / q ≤ 1 / ((1 - u) * √(1 - ε)) := by
    rw [div_le_div_iff₀ hqp hlp]
    linarith
  have hqn0 : 0 < norm2 r / q := div_pos hn hqp
  have e1 : (1 - u) * (1 / ((1 + u) * √(1 + ε))) ≤ d * norm2 r := by
    have h1 : (1 - u) * (norm2 r / q) ≤ d * norm2 r := by
      have := mul_le_mul_of_nonneg_right hd1 hn.le
      rwa [div_mul_eq_mul_div, mul_div_assoc] at this
    exact (mul_le_mul_of_nonneg_left hqn1 (by linarith)).trans h1
  have e2 : d * norm2 r ≤ (1 + u) * (1 / ((1 - u) * √(1 - ε))) := by
    have h1 : d * norm2 r ≤ (1 + u) * (norm2 r / q) := by
      have := mul_le_mul_of_nonneg_right hd2 hn.le
      rwa [div_mul_eq_mul_div, mul_div_assoc] at this
    exact h1.trans (mul_le_mul_of_nonneg_left hqn2 (by linarith))
  have e0 : 0 ≤ d * norm2 r := le_trans (mul_nonneg (by linarith) (by positivity)) e1
  intro w
  obtain ⟨θ, t1, t2, t3⟩ := mul_factor hA d (r w)
  refine ⟨θ * (d * norm2 r), ?_, ?_, ?_⟩
  · have : scaleLow u ε = (1 - u) * ((1 - u) * (1 / ((1 + u) * √(1 + ε)))) := by unfold scaleLow; ring
    rw [this]
    exact mul_le_mul t1 e1 (mul_nonneg (by linarith) (by positivity)) (by linarith)
  · have : scaleHigh u ε = (1 + u) * ((1 + u) * (1 / ((1 - u) * √(1 - ε)))) := by unfold scaleHigh; ring
    rw [this]
    exact mul_le_mul t2 e2 e0 (by linarith)
  · rw [hv, hA.one, t3]
    field_simp

/-- Normalised vectors have a length near one. -/
theorem Normalised.length {lo hi : ℝ} {v r : ι → ℝ} (h : Normalised lo hi v r) (hlo : 0 ≤ lo) (hr : r ≠ 0) : lo ≤ norm2 v ∧ norm2 v ≤ hi := by
  have hn := norm2_pos hr
  have hw : ∀ w, lo * |r w / norm2 r| ≤ |v w| ∧ |v w| ≤ hi * |r w / norm2 r| := fun w => by
    obtain ⟨θ, h1, h2, h3⟩ := h w
    rw [h3, abs_mul, abs_of_nonneg (hlo.trans h1)]
    exact ⟨mul_le_mul_of_nonneg_right h1 (abs_nonneg _), mul_le_mul_of_nonneg_right h2 (abs_nonneg _)⟩
  have hsum : ∑ w, (r w / norm2 r) ^ 2 = 1 := by
    have : ∑ w, (r w / norm2 r) ^ 2 = (r ⬝ᵥ r) / norm2 r ^ 2 := by
      rw [dotProduct, Finset.sum_div]
      exact Finset.sum_congr rfl fun w _ => by rw [div_pow, sq (r w)]
    rw [this, norm2_sq, div_self]
    rw [← norm2_sq]
    positivity
  have hi0 : 0 ≤ hi := by
    by_contra hneg
    have hv : ∀ w, r w = 0 := fun w => by
      have h1 := (abs_nonneg _).trans (hw w).2
      by_contra hrw
      have : 0 < |r w / norm2 r| := abs_pos.2 (div_ne_zero hrw (ne_of_gt hn))
      nlinarith
    exact hr (funext hv)
  have h2 : norm2 v ^ 2 = ∑ w, |v w| ^ 2 := by
    rw [norm2_sq]
    exact Finset.sum_congr rfl fun w _ => by rw [sq_abs, sq]
  have hlow : lo ^ 2 ≤ norm2 v ^ 2 := by
    rw [h2, ← mul_one (lo ^ 2), ← hsum, Finset.mul_sum]
    refine Finset.sum_le_sum fun w _ => ?_
    have := pow_le_pow_left₀ (mul_nonneg hlo (abs_nonneg _)) (hw w).1 2
    rwa [mul_pow, sq_abs (r w / norm2 r)] at this
  have hhigh : norm2 v ^ 2 ≤ hi ^ 2 := by
    rw [h2, ← mul_one (hi ^ 2), ← hsum, Finset.mul_sum]
    refine Finset.sum_le_sum fun w _ => ?_
    have := pow_le_pow_left₀ (abs_nonneg _) (hw w).2 2
    rwa [mul_pow, sq_abs (r w / norm2 r)] at this
  exact ⟨(pow_le_pow_iff_left₀ hlo (Real.sqrt_nonneg _) two_ne_zero).1 hlow, (pow_le_pow_iff_left₀ (Real.sqrt_nonneg _) hi0 two_ne_zero).1 hhigh⟩

/-! ## The vectors of a column -/

theorem near_axpy (hA : Rounded u A) {c : Nat} {α β y g T : ℝ} (h : Near u c y g T) :
    Near u (c + 1) (A.fma α β y) (α * β + g) (|α| * |β| + T) := by
  have h1 : Near u c (α * β) (α * β) (|α| * |β|) := by
    rw [← abs_mul]
    exact (Near.exact (α * β)).mono hA.nonneg (Nat.zero_le c) (le_refl _)
  exact (h1.plus h).round hA.nonneg (hA.fma α β y)

theorem near_columns (hA : Rounded u A) {l : Nat} {M Ma : _root_.Matrix ι ι ℝ} {B W : Nat → ι → ℝ} {H : Nat → ℝ} {j : Nat}
    (h0 : GM.NearMul u l M Ma (B j) (W 0)) (hW : ∀ i, i ≤ j → ∀ w, W (i + 1) w = A.fma (A.neg (H i)) (B i w) (W i w)) :
    ∀ i, i ≤ j + 1 → ∀ w, Near u (l + 1 + i) (W i w) ((M *ᵥ B j - ∑ i' ∈ Finset.range i, H i' • B i') w)
      ((Ma *ᵥ vabs (B j)) w + ∑ i' ∈ Finset.range i, |H i'| * |B i' w|) := by
  intro i
  induction i with
  | zero =>
    intro _ w
    have := h0 w
    rw [show 1 + l = l + 1 + 0 by omega] at this
    simpa using this
  | succ i ih =>
    intro hi w
    have h1 := near_axpy hA (α := A.neg (H i)) (β := B i w) (ih (by omega) w)
    rw [hW i (by omega) w]
    have e1 : A.neg (H i) * B i w + (M *ᵥ B j - ∑ i' ∈ Finset.range i, H i' • B i') w =
        (M *ᵥ B j - ∑ i' ∈ Finset.range (i + 1), H i' • B i') w := by
      rw [Finset.sum_range_succ, hA.neg]
      simp only [Pi.sub_apply, Pi.add_apply, Pi.smul_apply, smul_eq_mul]
      ring
    have e2 : |A.neg (H i)| * |B i w| + ((Ma *ᵥ vabs (B j)) w + ∑ i' ∈ Finset.range i, |H i'| * |B i' w|) =
        (Ma *ᵥ vabs (B j)) w + ∑ i' ∈ Finset.range (i + 1), |H i'| * |B i' w| := by
      rw [Finset.sum_range_succ, hA.neg, abs_neg]
      ring
    rw [e1, e2] at h1
    exact h1

theorem near_update (hA : Rounded u A) {m : Nat} {B Y : Nat → ι → ℝ} (hY : ∀ j, j < m → ∀ w, Y (j + 1) w = A.fma A.one (B j w) (Y j w)) :
    ∀ j, j ≤ m → ∀ w, Near u j (Y j w) ((Y 0 + ∑ i ∈ Finset.range j, B i) w) (|Y 0 w| + ∑ i ∈ Finset.range j, |B i w|) := by
  intro j
  induction j with
  | zero => intro _ w; simpa using Near.exact (u := u) (Y 0 w)
  | succ j ih =>
    intro hj w
    have h1 := near_axpy hA (α := A.one) (β := B j w) (ih (by omega) w)
    rw [hY j (by omega) w]
    have e1 : A.one * B j w + (Y 0 + ∑ i ∈ Finset.range j, B i) w = (Y 0 + ∑ i ∈ Finset.range (j + 1), B i) w := by
      rw [Finset.sum_range_succ, hA.one]
      simp only [Pi.add_apply]
      ring
    have e2 : |A.one| * |B j w| + (|Y 0 w| + ∑ i ∈ Finset.range j, |B i w|) = |Y 0 w| + ∑ i ∈ Finset.range (j + 1), |B i w| := by
      rw [Finset.sum_range_succ, hA.one, abs_one]
      ring
    rw [e1, e2] at h1
    exact h1

/-- A cycle in floating-point arithmetic is accurate. -/
theorem GM.Cycle.accurate (hA : Rounded u A) (hu1 : u < 1) {l c m : Nat} (hc : (1 + u) ^ c - 1 < 1) {M Ma : _root_.Matrix ι ι ℝ} {b x x' : ι → ℝ}
    {B : Nat → ι → ℝ} {H : Nat → Nat → ℝ} (h : GM.Cycle A (GM.NearMul u l M Ma) (GM.NearDot u c) m b x B H x') :
    ∃ r W, AccurateCycle u l c m M Ma b x r B W H x' := by
  obtain ⟨⟨q, r, D, h1, h2, h3, h4⟩, h5, Y, h6, h7, h8⟩ := h
  choose W E g1 g2 g3 g4 g5 using fun j (hj : j < m) => h5 j hj
  have hW : ∀ j hj, ∀ i, i ≤ j + 1 → ∀ w, Near u (l + 1 + i) (W j hj i w) ((M *ᵥ B j - ∑ i' ∈ Finset.range i, H i' j • B i') w)
      ((Ma *ᵥ vabs (B j)) w + ∑ i' ∈ Finset.range i, |H i' j| * |B i' w|) :=
    fun j hj => near_columns hA (g1 j hj) fun i hi => (g2 j hj i hi).2
  refine ⟨r, fun j => if hj : j < m then W j hj (j + 1) else 0, ⟨fun w => ?_, fun hr => ?_, fun j hj w => ?_, fun j hj i hi => ?_, fun j hj => ?_,
    fun j hj hne => ?_, fun w => ?_⟩⟩
  · have hq : Near u (1 + l) (A.neg A.one * q w) (-(M *ᵥ x) w) ((Ma *ᵥ vabs x) w) := by
      have := h1 w
      rw [hA.neg, hA.one]
      refine ⟨?_, by rw [abs_neg]; exact this.2⟩
      rw [show -1 * q w - -(M *ᵥ x) w = -(q w - (M *ᵥ x) w) by ring, abs_neg]
      exact this.1
    have hb := (Near.exact (u := u) (b w)).mono hA.nonneg (Nat.zero_le (1 + l)) (le_refl _)
    have := ((hq.plus hb).round hA.nonneg (hA.fma (A.neg A.one) (q w) (b w))).1
    rw [← h2 w, abs_sub_comm, show 1 + l + 1 = l + 2 by omega] at this
    rw [show (b - M *ᵥ x - r) w = -(M *ᵥ x) w + b w - r w by simp only [Pi.sub_apply]; ring, add_comm |b w|]
    exact this
  · exact normalised hA hu1 rfl hc h3 hr h4
  · rw [dif_pos hj]
    have := (hW j hj (j + 1) (Nat.le_refl _) w).1
    rw [abs_sub_comm, show l + 1 + (j + 1) = l + 2 + j by omega] at this
    exact this
  · exact (near_dotProduct hA.nonneg (g2 j hj i hi).1 (hW j hj i (by omega))).1
  · have e4 : H (j + 1) j = A.sqrt (E j hj) := g4 j hj
    rw [dif_pos hj, e4]
    exact near_norm hA hu1 rfl hc (g3 j hj)
  · rw [dif_pos (show j < m by omega)] at hne ⊢
    exact normalised hA hu1 rfl hc (g3 j (by omega)) hne (g5 j (by omega) hj)
  · have := (near_update hA h7 m (Nat.le_refl _) w).1
    rw [h6, ← h8] at this
    exact this

theorem AccurateCycle.rename {κ : Type} [Fintype κ] (e : ι ≃ κ) {l c m : Nat} {M Ma : _root_.Matrix ι ι ℝ} {M' Ma' : _root_.Matrix κ κ ℝ}
    (hM : ∀ i j, M i j = M' (e i) (e j)) (hMa : ∀ i j, Ma i j = Ma' (e i) (e j)) {b : κ → ℝ} {x r x' : ι → ℝ} {B W : Nat → ι → ℝ}
    {H : Nat → Nat → ℝ} (h : AccurateCycle u l c m M Ma (b ∘ e) x r B W H x') :
    AccurateCycle u l c m M' Ma' b (x ∘ e.symm) (r ∘ e.symm) (fun j => B j ∘ e.symm) (fun j => W j ∘ e.symm) H (x' ∘ e.symm) := by
  have hinv : ∀ f : ι → ℝ, (f ∘ e.symm) ∘ e = f := fun f => funext fun v => by simp
  obtain ⟨hdot, hmv, -⟩ := transport e M M' hM
  obtain ⟨-, hmva, -⟩ := transport e Ma Ma' hMa
  have hdot' : ∀ y z : ι → ℝ, (y ∘ e.symm) ⬝ᵥ (z ∘ e.symm) = y ⬝ᵥ z := fun y z => by rw [← hdot, hinv, hinv]
  have hmv' : ∀ y : ι → ℝ, M' *ᵥ (y ∘ e.symm) = (M *ᵥ y) ∘ e.symm := fun y => by
    have := hmv (y ∘ e.symm)
    rw [hinv] at this
    rw [this]
    funext w; simp
  have hmva' : ∀ y : ι → ℝ, Ma' *ᵥ vabs (y ∘ e.symm) = (Ma *ᵥ vabs y) ∘ e.symm := fun y => by
    have := hmva (vabs (y ∘ e.symm))
    rw [show vabs (y ∘ e.symm) ∘ e = vabs y from hinv (vabs y)] at this
    rw [this]
    funext w; simp
  have hn : ∀ y : ι → ℝ, norm2 (y ∘ e.symm) = norm2 y := fun y => by unfold norm2; rw [hdot']
  have hne : ∀ y : ι → ℝ, y ∘ e.symm ≠ 0 → y ≠ 0 := fun y h1 h2 => h1 (by rw [h2]; rfl)
  have hnm : ∀ {lo hi : ℝ} {v r : ι → ℝ}, Normalised lo hi v r → Normalised lo hi (v ∘ e.symm) (r ∘ e.symm) := fun hv w => by
    rw [hn]
    exact hv (e.symm w)
  have hs : ∀ (n j : Nat), ∑ i ∈ Finset.range n, H i j • (B i ∘ e.symm) = (∑ i ∈ Finset.range n, H i j • B i) ∘ e.symm := fun n j => by
    funext w
    simp only [Function.comp, Finset.sum_apply, Pi.smul_apply]
  refine ⟨fun w => ?_, fun hr => hnm (h.first (hne _ hr)), fun j hj w => ?_, fun j hj i hi => ?_, fun j hj => ?_, fun j hj hr => hnm (h.next j hj (hne _ hr)),
    fun w => ?_⟩
  · have := h.start (e.symm w)
    rw [hmv', hmva']
    simpa using this
  · rw [hmv', hmva', hs]
    exact h.arnoldi j hj (e.symm w)
  · have h1 := h.inner j hj i hi
    rw [hmv', hmva', hs]
    rw [show (M *ᵥ B j) ∘ e.symm - (∑ i' ∈ Finset.range i, H i' j • B i') ∘ e.symm = (M *ᵥ B j - ∑ i' ∈ Finset.range i, H i' j • B i') ∘ e.symm from rfl,
      hdot', show vabs (B i ∘ e.symm) = vabs (B i) ∘ e.symm from rfl]
    have h2 := hdot' (vabs (B i)) (fun w => (Ma *ᵥ vabs (B j)) w + ∑ i' ∈ Finset.range i, |H i' j| * |B i' w|)
    rw [← h2] at h1
    exact h1
  · rw [hn]
    exact h.norm j hj
  · have h1 := h.update (e.symm w)
    simpa using h1

end

/-! ## The client's view -/

/-- **C93**: GMRES with restart length `m` in floating-point arithmetic, for every system a client can set up, every way of cutting it, every
schedule and order of the reductions: `x k` is what the run with `k` steps leaves in the solution vectors, `H k i j` what step `k + 1` leaves in
the recorded inner products; every step is accurate with respect to the solution it starts from. -/
theorem c93_client (hA : Rounded u A) (hu1 : u < 1) (h : ClientSystem G calls base) {L N l : Nat} (hcut : ClientCut G calls L N)
    (hl : ∀ v ∈ clientUnknowns G calls, (clientStored calls v).length ≤ l) (hε : (1 + u) ^ (L + N + (sols calls).length) - 1 < 1)
    (m n : Nat) (s : Cell P → ℝ) :
    ∃ pl, Planner.empty.setupAll G calls = some pl ∧ ∃ (x r : Nat → clientUnknowns G calls → ℝ) (B W : Nat → Nat → clientUnknowns G calls → ℝ)
      (H : Nat → Nat → Nat → ℝ), x 0 = clientSol G calls s ∧
      (∀ k, Ensures (gmres A G pl base m k) n s fun _ s' => clientSol G calls s' = x k ∧ clientRhs G calls s' = clientRhs G calls s) ∧
      (∀ k, Ensures (gmres A G pl base m (k + 1)) n s fun c s' => clientSol G calls s' = x (k + 1) ∧
        ∀ i j, j < m → i ≤ j + 1 → s' (.fut (c.inner i j).fut) = H k i j) ∧
      ∀ k, AccurateCycle u l (L + N + (sols calls).length) m (clientMatrix G calls) (clientAbs G calls) (clientRhs G calls s) (x k) (r k) (B k)
        (W k) (H k) (x (k + 1)) := by
  obtain ⟨pl, pl', hpl, S, hcut', hlen, e, hop, habs, hst, h0, h1⟩ := client_stored h (m + 1) hcut
  obtain ⟨x, B, H, g1, g2, g3, g4⟩ := GM.gmres_planner hA S hcut' (l := l) (fun v => by rw [hst v]; exact hl _ (e v).2) n s
  rw [hlen, h1] at g2
  choose r W hac using fun k => (g2 k).accurate hA hu1 hε
  have hc : ∀ f : pl'.U G → ℝ, (f ∘ e.symm) ∘ e = f := fun f => funext fun v => by simp
  refine ⟨pl, hpl, fun k => x k ∘ e.symm, fun k => r k ∘ e.symm, fun k j => B k j ∘ e.symm, fun k j => W k j ∘ e.symm, H, ?_, fun k => ?_, fun k => ?_,
    fun k => (hac k).rename e hop habs⟩
  · refine comp_inj e ?_
    rw [hc, g1, h0]
  · refine ensures_weaken (g3 k) ?_
    rintro c s' ⟨a1, a2⟩
    rw [h0] at a1
    rw [h1, h1] at a2
    refine ⟨comp_inj e ?_, comp_inj e a2⟩
    rw [a1, hc]
  · refine ensures_weaken (g4 k) ?_
    rintro c s' ⟨a1, a2⟩
    rw [h0] at a1
    refine ⟨comp_inj e ?_, a2⟩
    rw [a1, hc]

end Verif.Rounding
