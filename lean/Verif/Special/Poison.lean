import Verif.Special.Spec

/-! # How zeros, infinities and NaN spread through the recurrences -/
set_option linter.dupNamespace false
set_option linter.unusedSectionVars false
namespace Verif.Special
open Verif.Runtime Verif.Vector Verif.Matrix Verif.Planner Verif.Solver
variable {V ι : Type} [Fintype ι] {A : Arith V} {Fin Zero NaN : V → Prop}

section
variable (I : IEEE A Fin Zero NaN)
include I

theorem sums_zero {f : ι → V} {v : V} (h : Sums A (∑ u, {f u}) v) (hf : ∀ u, Zero (f u)) : Zero v := by
  refine h.mem I.zero (fun a b ha hb => I.add_zero a b ha hb) fun x hx => ?_
  obtain ⟨u, -, hu⟩ := Multiset.mem_sum.1 hx
  rw [Multiset.mem_singleton] at hu
  exact hu ▸ hf u

theorem sums_inf {f : ι → V} {v : V} (h : Sums A (∑ u, {f u}) v) (u : ι) (hf : ¬Fin (f u)) : ¬Fin v :=
  h.absorb (C := fun a => ¬Fin a) (fun a b ha => I.add_inf a b (Or.inl ha)) (fun a b hb => I.add_inf a b (Or.inr hb))
    ⟨f u, Multiset.mem_sum.2 ⟨u, Finset.mem_univ u, Multiset.mem_singleton_self _⟩, hf⟩

theorem sums_nan {f : ι → V} {v : V} (h : Sums A (∑ u, {f u}) v) (u : ι) (hf : NaN (f u)) : NaN v :=
  h.absorb (C := NaN) (fun a b ha => I.add_nan a b (Or.inl ha)) (fun a b hb => I.add_nan a b (Or.inr hb))
    ⟨f u, Multiset.mem_sum.2 ⟨u, Finset.mem_univ u, Multiset.mem_singleton_self _⟩, hf⟩

/-- A quotient by an infinity or NaN is 0 or NaN. -/
theorem div_inf {a b : V} (hb : ¬Fin b) : Zero (A.div a b) ∨ NaN (A.div a b) := by
  by_cases ha : Fin a
  · exact I.div_by_inf a b ha hb
  · exact Or.inr (I.div_inf_inf a b ha hb)

/-- 0 or NaN times an infinity or NaN, plus anything, is NaN. -/
theorem fma_poison {a b c : V} (ha : Zero a ∨ NaN a) (hb : ¬Fin b) : NaN (A.fma a b c) := by
  rcases ha with ha | ha
  · exact I.fma_inf_zero a b c (Or.inr ⟨ha, hb⟩)
  · exact I.fma_nan a b c (Or.inl ha)

theorem mul_poison {a b : V} (ha : Zero a ∨ NaN a) (hb : ¬Fin b) : NaN (A.mul a b) := by
  rcases ha with ha | ha
  · exact I.mul_inf_zero a b (Or.inr ⟨ha, hb⟩)
  · exact I.mul_nan a b (Or.inl ha)

theorem nan_inf {a : V} (h : NaN a) : ¬Fin a := I.nan_not_fin a h

end

/-- How a matrix treats special values: `CoefInf` are the unknowns whose row stores an infinite or NaN coefficient, `CoefNaN` those whose
row stores a NaN; `Uses u u'`: the row of `u` stores a coefficient in the column `u'`. -/
structure Product (A : Arith V) (Fin Zero NaN : V → Prop) (mv : (ι → V) → ι → V) (CoefInf CoefNaN : ι → Prop) (Uses : ι → ι → Prop) :
    Prop where
  zero : (∀ u, ¬CoefInf u) → ∀ y, (∀ u, Zero (y u)) → ∀ u, Zero (mv y u)
  coef_inf : ∀ y u, CoefInf u → ¬Fin (mv y u)
  coef_nan : ∀ y u, CoefNaN u → NaN (mv y u)
  use_inf : ∀ y u u', Uses u u' → ¬Fin (y u') → ¬Fin (mv y u)
  use_nan : ∀ y u u', Uses u u' → NaN (y u') → NaN (mv y u)

section
variable (I : IEEE A Fin Zero NaN) {mv : (ι → V) → ι → V} {CoefInf CoefNaN : ι → Prop} {Uses : ι → ι → Prop}
  (M : Product A Fin Zero NaN mv CoefInf CoefNaN Uses)
include I

/-! ## Conjugate gradients -/
section
variable {x0 b : ι → V} {x p q r : Nat → ι → V} {ρ π : Nat → V} (R : CGRun A mv x0 b x p q r ρ π)
include R

theorem cg_keep_nan {k : Nat} {u : ι} (h : NaN (x k u)) : ∀ k', k ≤ k' → NaN (x k' u) := by
  intro k' hk
  induction hk with
  | refl => exact h
  | step _ ih => rw [R.x_succ]; exact I.fma_nan _ _ _ (Or.inr (Or.inr ih))

theorem cg_keep_inf {k : Nat} {u : ι} (h : ¬Fin (x k u)) : ∀ k', k ≤ k' → ¬Fin (x k' u) := by
  intro k' hk
  induction hk with
  | refl => exact h
  | step _ ih => rw [R.x_succ]; exact I.fma_inf _ _ _ (Or.inr (Or.inr ih))

theorem cg_alpha_nan {k : Nat} (h : NaN (A.div (ρ k) (π k))) (u : ι) : ∀ k', k + 1 ≤ k' → NaN (x k' u) :=
  cg_keep_nan I R (by rw [R.x_succ]; exact I.fma_nan _ _ _ (Or.inl h))

/-- A search direction that is infinite or NaN everywhere. -/
theorem cg_direction_inf {k : Nat} (h : ∀ u, ¬Fin (p k u)) (u : ι) : ∀ k', k + 1 ≤ k' → NaN (x k' u) := by
  refine cg_keep_nan I R ?_
  rw [R.x_succ]
  refine fma_poison I (div_inf I ?_) (h u)
  exact sums_inf I (R.curvature k) u (I.mul_inf _ _ (Or.inl (h u)))

/-- A recorded squared norm 0. -/
theorem cg_norm_zero {j : Nat} (h : Zero (ρ j)) (u : ι) : ∀ k', j + 2 ≤ k' → NaN (x k' u) := by
  refine cg_direction_inf I R (k := j + 1) (fun u => ?_) u
  rw [R.p_succ]
  exact I.fma_inf _ _ _ (Or.inl (I.div_by_zero _ _ h))

/-- A recorded squared norm that is infinite or NaN. -/
theorem cg_norm_inf {j : Nat} (h : ¬Fin (ρ j)) (u : ι) : (∀ k', j + 1 ≤ k' → ¬Fin (x k' u)) ∧ ∀ k', j + 2 ≤ k' → NaN (x k' u) := by
  by_cases hp : Fin (π j)
  · constructor
    · refine cg_keep_inf I R ?_
      rw [R.x_succ]
      exact I.fma_inf _ _ _ (Or.inl (I.div_inf_fin _ _ h hp))
    · refine cg_direction_inf I R (k := j + 1) (fun w => ?_) u
      have hr : ¬Fin (r (j + 1) w) := by
        rw [R.r_succ]
        exact I.fma_inf _ _ _ (Or.inl (I.div_inf_fin _ _ (I.mul_inf _ _ (Or.inr h)) hp))
      rw [R.p_succ]
      exact I.fma_inf _ _ _ (Or.inr (Or.inr hr))
  · have hn := @cg_alpha_nan _ _ _ _ _ _ _ I _ _ _ _ _ _ _ _ _ R j (I.div_inf_inf _ _ h hp) u
    exact ⟨fun k' h => nan_inf I (hn k' h), fun k' h => hn k' (by omega)⟩

/-- An infinite or NaN element of the right-hand side. -/
theorem cg_rhs_inf {w : ι} (h : ¬Fin (b w)) (u : ι) : ∀ k', 1 ≤ k' → NaN (x k' u) := by
  refine cg_alpha_nan I R (k := 0) (I.div_inf_inf _ _ ?_ ?_) u
  · exact sums_inf I (R.rho 0) w (I.mul_inf _ _ (Or.inl (by rw [R.r_zero]; exact h)))
  · exact sums_inf I (R.curvature 0) w (I.mul_inf _ _ (Or.inl (by rw [R.p_zero]; exact h)))

include M

/-- A right-hand side 0. -/
theorem cg_rhs_zero (hc : ∀ u, ¬CoefInf u) (h : ∀ u, Zero (b u)) (u : ι) : ∀ k', 1 ≤ k' → NaN (x k' u) := by
  have hp : ∀ u, Zero (p 0 u) := fun u => by rw [R.p_zero]; exact h u
  refine cg_alpha_nan I R (k := 0) (I.div_zero_zero _ _ ?_ ?_) u
  · exact sums_zero I (R.rho 0) fun w => I.mul_zero _ _ (Or.inl (by rw [R.r_zero]; exact ⟨h w, I.zero_fin _ (h w)⟩))
  · refine sums_zero I (R.curvature 0) fun w => I.mul_zero _ _ (Or.inl ⟨hp w, I.zero_fin _ ?_⟩)
    rw [R.product]
    exact M.zero hc _ hp w

/-- An infinite or NaN coefficient. -/
theorem cg_coef_inf {w : ι} (h : CoefInf w) (u : ι) : ∀ k', 2 ≤ k' → NaN (x k' u) := by
  have hq : ¬Fin (q 0 w) := by rw [R.product]; exact M.coef_inf _ w h
  have hpi : ¬Fin (π 0) := sums_inf I (R.curvature 0) w (I.mul_inf _ _ (Or.inr hq))
  have hr : NaN (r 1 w) := by rw [R.r_succ]; exact fma_poison I (div_inf I hpi) hq
  have hrho : NaN (ρ 1) := sums_nan I (R.rho 1) w (I.mul_nan _ _ (Or.inl hr))
  exact cg_alpha_nan I R (k := 1) (I.div_nan _ _ (Or.inl hrho)) u

/-- A NaN coefficient. -/
theorem cg_coef_nan {w : ι} (h : CoefNaN w) (u : ι) : ∀ k', 1 ≤ k' → NaN (x k' u) := by
  have hq : NaN (q 0 w) := by rw [R.product]; exact M.coef_nan _ w h
  exact cg_alpha_nan I R (k := 0) (I.div_nan _ _ (Or.inr (sums_nan I (R.curvature 0) w (I.mul_nan _ _ (Or.inr hq))))) u

end

/-! ## BiCGStab -/
section
variable {x0 b : ι → V} {x p v r h t : Nat → ι → V} {ρ α ω τ ν η : Nat → V} (R : BiRun A mv x0 b x p v r h t ρ α ω τ ν η)
include R

theorem bi_keep_nan {k : Nat} {u : ι} (hx : NaN (x k u)) : ∀ k', k ≤ k' → NaN (x k' u) := by
  intro k' hk
  induction hk with
  | refl => exact hx
  | step _ ih => rw [R.x_succ]; exact I.fma_nan _ _ _ (Or.inr (Or.inr (I.fma_nan _ _ _ (Or.inr (Or.inr ih)))))

theorem bi_keep_inf {k : Nat} {u : ι} (hx : ¬Fin (x k u)) : ∀ k', k ≤ k' → ¬Fin (x k' u) := by
  intro k' hk
  induction hk with
  | refl => exact hx
  | step _ ih => rw [R.x_succ]; exact I.fma_inf _ _ _ (Or.inr (Or.inr (I.fma_inf _ _ _ (Or.inr (Or.inr ih)))))

theorem bi_alpha_nan {k : Nat} (ha : NaN (α (k + 1))) (u : ι) : ∀ k', k + 1 ≤ k' → NaN (x k' u) :=
  bi_keep_nan I R (by rw [R.x_succ]; exact I.fma_nan _ _ _ (Or.inr (Or.inr (I.fma_nan _ _ _ (Or.inl ha)))))

theorem bi_omega_nan {k : Nat} (ha : NaN (ω (k + 1))) (u : ι) : ∀ k', k + 1 ≤ k' → NaN (x k' u) :=
  bi_keep_nan I R (by rw [R.x_succ]; exact I.fma_nan _ _ _ (Or.inl ha))

/-- A recorded `α` or `ω` that is infinite or NaN. -/
theorem bi_scalar_inf {k : Nat} (ha : ¬Fin (α (k + 1)) ∨ ¬Fin (ω (k + 1))) (u : ι) : ∀ k', k + 1 ≤ k' → ¬Fin (x k' u) := by
  refine bi_keep_inf I R ?_
  rw [R.x_succ]
  rcases ha with ha | ha
  · exact I.fma_inf _ _ _ (Or.inr (Or.inr (I.fma_inf _ _ _ (Or.inl ha))))
  · exact I.fma_inf _ _ _ (Or.inl ha)

/-- A recorded `ρ` or `ω` that is 0: the next search direction. -/
theorem bi_direction_inf {j : Nat} (hz : Zero (ρ j) ∨ Zero (ω j)) (u : ι) : ¬Fin (p (j + 1) u) := by
  rw [R.p_succ]
  refine I.fma_inf _ _ _ (Or.inl (I.mul_inf _ _ ?_))
  rcases hz with hz | hz
  · exact Or.inl (I.div_by_zero _ _ hz)
  · exact Or.inr (I.div_by_zero _ _ hz)

theorem bi_scalar_zero_inf {j : Nat} (hz : Zero (ρ j) ∨ Zero (ω j)) (u : ι) : ∀ k', j + 1 ≤ k' → ¬Fin (x k' u) := by
  refine bi_keep_inf I R ?_
  rw [R.x_succ]
  exact I.fma_inf _ _ _ (Or.inr (Or.inr (I.fma_inf _ _ _ (Or.inr (Or.inl (bi_direction_inf I R hz u))))))

/-- An infinite or NaN element of the right-hand side. -/
theorem bi_rhs_inf {w : ι} (hb : ¬Fin (b w)) (u : ι) : ∀ k', 1 ≤ k' → NaN (x k' u) := by
  have hrho : ¬Fin (ρ 1) := sums_inf I (R.rho 0) w (I.mul_inf _ _ (Or.inr hb))
  have hp : NaN (p 1 u) := by
    rw [R.p_succ]
    refine I.fma_nan _ _ _ (Or.inl (I.mul_inf_zero _ _ (Or.inl ⟨?_, ?_⟩)))
    · rw [R.rho_zero]; exact I.div_inf_fin _ _ hrho I.one
    · rw [R.alpha_zero, R.omega_zero]; exact I.div_one _ I.zero
  exact bi_keep_nan I R (by rw [R.x_succ]; exact I.fma_nan _ _ _ (Or.inr (Or.inr (I.fma_nan _ _ _ (Or.inr (Or.inl hp))))))

include M

/-- A recorded `ρ` or `ω` that is 0. -/
theorem bi_scalar_zero {w w' : ι} (hw : Uses w w') {j : Nat} (hz : Zero (ρ j) ∨ Zero (ω j)) (u : ι) :
    ∀ k', j + 1 ≤ k' → NaN (x k' u) := by
  have hp := bi_direction_inf I R hz
  have hv : ¬Fin (v (j + 1) w) := by rw [R.product]; exact M.use_inf _ w w' hw (hp w')
  have ht : ¬Fin (τ j) := sums_inf I (R.tau j) w (I.mul_inf _ _ (Or.inr hv))
  refine bi_keep_nan I R ?_
  rw [R.x_succ, R.alpha]
  exact I.fma_nan _ _ _ (Or.inr (Or.inr (fma_poison I (div_inf I ht) (hp u))))

/-- A right-hand side 0. -/
theorem bi_rhs_zero (hc : ∀ u, ¬CoefInf u) (hb : ∀ u, Zero (b u)) (u : ι) : ∀ k', 1 ≤ k' → NaN (x k' u) := by
  have hrho : Zero (ρ 1) := sums_zero I (R.rho 0) fun w => I.mul_zero _ _ (Or.inl (by rw [R.r_zero]; exact ⟨hb w, I.zero_fin _ (hb w)⟩))
  have hz := I.zero_fin _ I.zero
  have hp : ∀ u, Zero (p 1 u) := by
    intro u
    rw [R.p_succ, R.rho_zero, R.alpha_zero, R.omega_zero, R.v_zero, R.p_zero, R.r_zero]
    have h1 := I.div_one _ hrho
    have h2 := I.div_one _ I.zero
    have h3 : Zero (A.fma (A.neg A.one) A.zero A.zero) := I.fma_zero _ _ _ (Or.inr ⟨I.neg_fin _ I.one, I.zero⟩) I.zero
    exact I.fma_zero _ _ _ (Or.inl ⟨I.mul_zero _ _ (Or.inl ⟨h1, I.zero_fin _ h2⟩), I.zero_fin _ h3⟩) (hb u)
  have ht : Zero (τ 0) := sums_zero I (R.tau 0) fun w => I.mul_zero _ _ (Or.inl ⟨hb w, I.zero_fin _ (by
    rw [R.product]; exact M.zero hc _ hp w)⟩)
  exact bi_alpha_nan I R (k := 0) (by rw [R.alpha]; exact I.div_zero_zero _ _ hrho ht) u

/-- An intermediate residual 0. -/
theorem bi_half_zero (hc : ∀ u, ¬CoefInf u) {k : Nat} (hh : ∀ u, Zero (h k u)) (u : ι) : ∀ k', k + 1 ≤ k' → NaN (x k' u) := by
  have ht : ∀ u, Zero (t k u) := by rw [R.half_product]; exact M.zero hc _ hh
  refine bi_omega_nan I R ?_ u
  rw [R.omega]
  exact I.div_zero_zero _ _ (sums_zero I (R.nu k) fun w => I.mul_zero _ _ (Or.inl ⟨hh w, I.zero_fin _ (ht w)⟩))
    (sums_zero I (R.eta k) fun w => I.mul_zero _ _ (Or.inl ⟨ht w, I.zero_fin _ (ht w)⟩))

/-- An infinite or NaN coefficient. -/
theorem bi_coef_inf {w : ι} (hw : CoefInf w) (u : ι) : ∀ k', 1 ≤ k' → NaN (x k' u) := by
  have hv : ¬Fin (v 1 w) := by rw [R.product]; exact M.coef_inf _ w hw
  have ht : ¬Fin (τ 0) := sums_inf I (R.tau 0) w (I.mul_inf _ _ (Or.inr hv))
  have hh : NaN (h 0 w) := by rw [R.half]; exact fma_poison I (div_inf I ht) hv
  refine bi_omega_nan I R (k := 0) ?_ u
  rw [R.omega]
  exact I.div_nan _ _ (Or.inl (sums_nan I (R.nu 0) w (I.mul_nan _ _ (Or.inl hh))))

end

/-! ## GMRES -/
section
variable {m : Nat} {b x x' : ι → V} {B : Nat → ι → V} {H : Nat → Nat → V} (R : Cycle A mv m b x B H x')
include R

theorem gm_keep_nan {u : ι} (h : NaN (x u)) : NaN (x' u) := by
  obtain ⟨Y, h0, h1, rfl⟩ := R.update
  have : ∀ j, j ≤ m → NaN (Y j u) := by
    intro j
    induction j with
    | zero => intro _; rw [h0]; exact h
    | succ j ih => intro hj; rw [h1 j hj]; exact I.fma_nan _ _ _ (Or.inr (Or.inr (ih (by omega))))
  exact this m (Nat.le_refl m)

theorem gm_keep_inf {u : ι} (h : ¬Fin (x u)) : ¬Fin (x' u) := by
  obtain ⟨Y, h0, h1, rfl⟩ := R.update
  have : ∀ j, j ≤ m → ¬Fin (Y j u) := by
    intro j
    induction j with
    | zero => intro _; rw [h0]; exact h
    | succ j ih => intro hj; rw [h1 j hj]; exact I.fma_inf _ _ _ (Or.inr (Or.inr (ih (by omega))))
  exact this m (Nat.le_refl m)

/-- A NaN in a basis vector. -/
theorem gm_basis_nan {i : Nat} (hi : i < m) {u : ι} (h : NaN (B i u)) : NaN (x' u) := by
  obtain ⟨Y, h0, h1, rfl⟩ := R.update
  have : ∀ j, i < j → j ≤ m → NaN (Y j u) := by
    intro j hj hjm
    induction j with
    | zero => omega
    | succ j ih =>
      rw [h1 j hjm]
      by_cases hij : i = j
      · subst hij; exact I.fma_nan _ _ _ (Or.inr (Or.inl h))
      · exact I.fma_nan _ _ _ (Or.inr (Or.inr (ih (by omega) (by omega))))
  exact this m hi (Nat.le_refl m)

theorem gm_basis_inf {i : Nat} (hi : i < m) {u : ι} (h : ¬Fin (B i u)) : ¬Fin (x' u) := by
  obtain ⟨Y, h0, h1, rfl⟩ := R.update
  have : ∀ j, i < j → j ≤ m → ¬Fin (Y j u) := by
    intro j hj hjm
    induction j with
    | zero => omega
    | succ j ih =>
      rw [h1 j hjm]
      by_cases hij : i = j
      · subst hij; exact I.fma_inf _ _ _ (Or.inr (Or.inl h))
      · exact I.fma_inf _ _ _ (Or.inr (Or.inr (ih (by omega) (by omega))))
  exact this m hi (Nat.le_refl m)

/-- A recorded normalisation 0. -/
theorem gm_entry_zero {j : Nat} (hj : j + 1 < m) (h : Zero (H (j + 1) j)) (u : ι) : ¬Fin (x' u) := by
  obtain ⟨W, D, -, -, -, h4, h5⟩ := R.column j (by omega)
  beta_reduce at h4
  rw [h4] at h
  refine gm_basis_inf I R hj ?_
  rw [h5 hj]
  exact I.mul_inf _ _ (Or.inl (I.div_by_zero _ _ h))

/-- A residual 0. -/
theorem gm_residual_zero (hm : 0 < m) (h : ∀ u, Zero (A.fma (A.neg A.one) (mv x u) (b u))) (u : ι) : NaN (x' u) := by
  obtain ⟨D, h1, h2⟩ := R.start
  refine gm_basis_nan I R hm ?_
  have hD : Zero D := sums_zero I h1 fun w => I.mul_zero _ _ (Or.inl ⟨h w, I.zero_fin _ (h w)⟩)
  rw [h2]
  exact I.mul_inf_zero _ _ (Or.inl ⟨I.div_by_zero _ _ (I.sqrt_zero _ hD), h u⟩)

/-- A residual that is NaN somewhere. -/
theorem gm_residual_nan (hm : 0 < m) {w : ι} (h : NaN (A.fma (A.neg A.one) (mv x w) (b w))) (u : ι) : NaN (x' u) := by
  obtain ⟨D, h1, h2⟩ := R.start
  refine gm_basis_nan I R hm ?_
  have hD : NaN D := sums_nan I h1 w (I.mul_nan _ _ (Or.inl h))
  rw [h2]
  exact I.mul_nan _ _ (Or.inl (I.div_nan _ _ (Or.inr (I.sqrt_nan _ hD))))

/-- A residual that is infinite or NaN somewhere. -/
theorem gm_residual_inf (hm : 1 < m) {w : ι} (h : ¬Fin (A.fma (A.neg A.one) (mv x w) (b w))) (u : ι) : NaN (x' u) := by
  obtain ⟨D, h1, h2⟩ := R.start
  have hD : ¬Fin D := sums_inf I h1 w (I.mul_inf _ _ (Or.inl h))
  have hB : NaN (B 0 w) := by rw [h2]; exact mul_poison I (div_inf I (I.sqrt_inf _ hD)) h
  obtain ⟨W, D', -, g2, g3, -, g5⟩ := R.column 0 (by omega)
  have hH : NaN (H 0 0) := sums_nan I (g2 0 (Nat.le_refl 0)).1 w (I.mul_nan _ _ (Or.inl hB))
  have hW : ∀ u, NaN (W 1 u) := fun u => by rw [(g2 0 (Nat.le_refl 0)).2]; exact I.fma_nan _ _ _ (Or.inl (I.neg_nan _ hH))
  refine gm_basis_nan I R hm ?_
  rw [g5 hm]
  exact I.mul_nan _ _ (Or.inr (hW u))

/-- At a restart length 1: NaN where the residual is infinite or NaN. -/
theorem gm_residual_inf_here (hm : 0 < m) {w : ι} (h : ¬Fin (A.fma (A.neg A.one) (mv x w) (b w))) : NaN (x' w) := by
  obtain ⟨D, h1, h2⟩ := R.start
  have hD : ¬Fin D := sums_inf I h1 w (I.mul_inf _ _ (Or.inl h))
  refine gm_basis_nan I R hm ?_
  rw [h2]
  exact mul_poison I (div_inf I (I.sqrt_inf _ hD)) h

end
end
end Verif.Special
