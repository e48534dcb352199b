import Verif.Units.Pair
import Verif.Special.GMRES
import Mathlib.Tactic.Abel
import Mathlib.Algebra.Group.TypeTags.Basic

/-! # The units of the quantities in the recurrences -/
set_option linter.dupNamespace false
set_option linter.unusedSectionVars false
namespace Verif.Units
open Verif.Runtime Verif.Vector Verif.Matrix Verif.Planner Verif.Solver Verif.Special
variable {K P V Γ : Type} [DecidableEq P] [DecidableEq K] [CommGroup Γ] {A : Arith V} {act : Γ → V → V}

/-- Equations between products of units. -/
macro "units" : tactic =>
  `(tactic| (apply Additive.ofMul.injective; simp only [ofMul_mul, ofMul_div, ofMul_inv, ofMul_one]; abel))

/-- The second number of the pair is the first in the unit `e`. -/
def Wt (act : Γ → V → V) (e : Γ) (p : V × V) : Prop := p.2 = act e p.1

theorem Wt.cast {e e' : Γ} {p : V × V} (h : Wt act e p) (he : e = e') : Wt act e' p := he ▸ h

variable (L : UnitLaws A act)
include L

theorem wt_zero (e : Γ) : Wt act e (pairArith A).zero := (L.zero e).symm
theorem wt_one : Wt act 1 (pairArith A).one := (L.one _).symm
theorem wt_neg {e : Γ} {a : V × V} (h : Wt act e a) : Wt act e ((pairArith A).neg a) := by
  show A.neg a.2 = _
  rw [h, L.neg]; rfl
theorem wt_add {e : Γ} {a b : V × V} (ha : Wt act e a) (hb : Wt act e b) : Wt act e ((pairArith A).add a b) := by
  show A.add a.2 b.2 = _
  rw [ha, hb, L.add]; rfl
theorem wt_mul {e e' : Γ} {a b : V × V} (ha : Wt act e a) (hb : Wt act e' b) : Wt act (e * e') ((pairArith A).mul a b) := by
  show A.mul a.2 b.2 = _
  rw [ha, hb, L.mul]; rfl
theorem wt_div {e e' : Γ} {a b : V × V} (ha : Wt act e a) (hb : Wt act e' b) : Wt act (e / e') ((pairArith A).div a b) := by
  show A.div a.2 b.2 = _
  rw [ha, hb, L.div]; rfl
theorem wt_fma {e e' e'' : Γ} {a b c : V × V} (ha : Wt act e a) (hb : Wt act e' b) (hc : Wt act e'' c) (he : e'' = e * e') :
    Wt act e'' ((pairArith A).fma a b c) := by
  subst he
  show A.fma a.2 b.2 c.2 = _
  rw [ha, hb, hc, L.fma]; rfl

theorem wt_sum {ι : Type} [Fintype ι] {e : Γ} {f : ι → V × V} {v : V × V} (h : Sums (pairArith A) (∑ u, {f u}) v) (hf : ∀ u, Wt act e (f u)) :
    Wt act e v := by
  refine h.mem (C := Wt act e) (wt_zero L e) (fun a b ha hb => wt_add L ha hb) fun x hx => ?_
  rw [Multiset.mem_sum] at hx
  obtain ⟨u, -, hu⟩ := hx
  rw [Multiset.mem_singleton.1 hu]
  exact hf u

variable {ι : Type} [Fintype ι] {mv : (ι → V × V) → ι → V × V} {g h : Γ} {x0 b : ι → V × V}

/-- The product with the matrix has the unit of the matrix times that of the vector. -/
def ProductUnit (act : Γ → V → V) (g : Γ) (mv : (ι → V × V) → ι → V × V) : Prop :=
  ∀ e y, (∀ u, Wt act e (y u)) → ∀ u, Wt act (g * e) (mv y u)

/-- CG: all quantities but the solution. -/
theorem cg_weights_r (hmv : ProductUnit act g mv) (hb : ∀ u, Wt act h (b u)) {x p q r : Nat → ι → V × V}
    {ρ π : Nat → V × V} (H : CGRun (pairArith A) mv x0 b x p q r ρ π) :
    ∀ k, (∀ u, Wt act h (r k u)) ∧ (∀ u, Wt act h (p k u)) ∧ Wt act (h * h) (ρ k) ∧ Wt act (h * (g * h)) (π k) := by
  have hρ : ∀ k, (∀ u, Wt act h (r k u)) → Wt act (h * h) (ρ k) := fun k hr => wt_sum L (H.rho k) fun u => wt_mul L (hr u) (hr u)
  have hq : ∀ k, (∀ u, Wt act h (p k u)) → ∀ u, Wt act (g * h) (q k u) := fun k hp u => by rw [H.product k]; exact hmv _ _ hp u
  have hπ : ∀ k, (∀ u, Wt act h (p k u)) → Wt act (h * (g * h)) (π k) := fun k hp =>
    wt_sum L (H.curvature k) fun u => wt_mul L (hp u) (hq k hp u)
  intro k
  induction k with
  | zero =>
    have hp : ∀ u, Wt act h (p 0 u) := H.p_zero ▸ hb
    have hr : ∀ u, Wt act h (r 0 u) := H.r_zero ▸ hb
    exact ⟨hr, hp, hρ 0 hr, hπ 0 hp⟩
  | succ k ih =>
    obtain ⟨ir, ip, iρ, iπ⟩ := ih
    have hr' : ∀ u, Wt act h (r (k + 1) u) := fun u => by
      rw [H.r_succ]
      exact wt_fma L (wt_div L (wt_mul L (wt_neg L (wt_one L)) iρ) iπ) (hq k ip u) (ir u) (by units)
    have hp' : ∀ u, Wt act h (p (k + 1) u) := fun u => by
      rw [H.p_succ]
      exact wt_fma L (wt_div L (hρ _ hr') iρ) (ip u) (hr' u) (by units)
    exact ⟨hr', hp', hρ _ hr', hπ _ hp'⟩

theorem cg_weights (hmv : ProductUnit act g mv) (hx : ∀ u, Wt act (h / g) (x0 u)) (hb : ∀ u, Wt act h (b u)) {x p q r : Nat → ι → V × V}
    {ρ π : Nat → V × V} (H : CGRun (pairArith A) mv x0 b x p q r ρ π) :
    ∀ k, (∀ u, Wt act (h / g) (x k u)) ∧ Wt act (h * h) (ρ k) := by
  have hw := cg_weights_r L hmv hb H
  intro k
  refine ⟨?_, (hw k).2.2.1⟩
  induction k with
  | zero => rw [H.x_zero]; exact hx
  | succ k ih =>
    intro u
    rw [H.x_succ]
    exact wt_fma L (wt_div L (hw k).2.2.1 (hw k).2.2.2) ((hw k).2.1 u) (ih u) (by units)

/-- BiCGStab: all quantities but the solution. -/
theorem bi_weights_r (hmv : ProductUnit act g mv) (hb : ∀ u, Wt act h (b u))
    {x p v r w t : Nat → ι → V × V} {ρ α ω τ ν η : Nat → V × V} (H : BiRun (pairArith A) mv x0 b x p v r w t ρ α ω τ ν η) :
    ∀ k, (∀ u, Wt act h (r k u)) ∧
      (∀ u, Wt act h (p (k + 1) u)) ∧ (∀ u, Wt act (g * h) (v (k + 1) u)) ∧ Wt act (h * h) (ρ (k + 1)) ∧ Wt act g⁻¹ (α (k + 1)) ∧
      Wt act g⁻¹ (ω (k + 1)) ∧ ∀ u, Wt act h (w k u) := by
  have step : ∀ k, (∀ u, Wt act h (r k u)) → (∀ u, Wt act h (p (k + 1) u)) → Wt act (h * h) (ρ (k + 1)) →
      (∀ u, Wt act (g * h) (v (k + 1) u)) ∧ Wt act g⁻¹ (α (k + 1)) ∧ Wt act g⁻¹ (ω (k + 1)) ∧ (∀ u, Wt act h (w k u)) ∧
        ∀ u, Wt act h (r (k + 1) u) := by
    intro k ir hp hρ
    have hv : ∀ u, Wt act (g * h) (v (k + 1) u) := fun u => by rw [H.product k]; exact hmv _ _ hp u
    have hτ : Wt act (h * (g * h)) (τ k) := wt_sum L (H.tau k) fun u => wt_mul L (hb u) (hv u)
    have hw : ∀ u, Wt act h (w k u) := fun u => by
      rw [H.half]
      exact wt_fma L (wt_div L (wt_mul L (wt_neg L (wt_one L)) hρ) hτ) (hv u) (ir u) (by units)
    have hα : Wt act g⁻¹ (α (k + 1)) := by rw [H.alpha]; exact (wt_div L hρ hτ).cast (by units)
    have ht : ∀ u, Wt act (g * h) (t k u) := fun u => by rw [H.half_product k]; exact hmv _ _ hw u
    have hν : Wt act (h * (g * h)) (ν k) := wt_sum L (H.nu k) fun u => wt_mul L (hw u) (ht u)
    have hη : Wt act (g * h * (g * h)) (η k) := wt_sum L (H.eta k) fun u => wt_mul L (ht u) (ht u)
    have hω : Wt act g⁻¹ (ω (k + 1)) := by rw [H.omega]; exact (wt_div L hν hη).cast (by units)
    refine ⟨hv, hα, hω, hw, fun u => ?_⟩
    rw [H.r_succ]
    exact wt_fma L (wt_neg L hω) (ht u) (hw u) (by units)
  have hρ : ∀ k, (∀ u, Wt act h (r k u)) → Wt act (h * h) (ρ (k + 1)) := fun k ir => wt_sum L (H.rho k) fun u => wt_mul L (ir u) (hb u)
  intro k
  induction k with
  | zero =>
    have ir : ∀ u, Wt act h (r 0 u) := H.r_zero ▸ hb
    have hp : ∀ u, Wt act h (p 1 u) := fun u => by
      rw [H.p_succ, H.rho_zero, H.alpha_zero, H.omega_zero, H.v_zero, H.p_zero]
      have h1 : Wt act h⁻¹ ((pairArith A).fma ((pairArith A).neg (pairArith A).one) (pairArith A).zero (pairArith A).zero) :=
        wt_fma L (wt_neg L (wt_one L)) (wt_zero L h⁻¹) (wt_zero L h⁻¹) (by units)
      exact wt_fma L (wt_mul L (wt_div L (hρ 0 ir) (wt_one L)) (wt_div L (wt_zero L 1) (wt_one L))) h1 (ir u) (by units)
    obtain ⟨hv, hα, hω, hw, -⟩ := step 0 ir hp (hρ 0 ir)
    exact ⟨ir, hp, hv, hρ 0 ir, hα, hω, hw⟩
  | succ k ih =>
    obtain ⟨ir, jp, jv, jρ, jα, jω, jw⟩ := ih
    have ir' := (step k ir jp jρ).2.2.2.2
    have hp : ∀ u, Wt act h (p (k + 2) u) := fun u => by
      rw [H.p_succ]
      exact wt_fma L (wt_mul L (wt_div L (hρ _ ir') jρ) (wt_div L jα jω)) (wt_fma L (wt_neg L jω) (jv u) (jp u) (by units)) (ir' u) (by units)
    obtain ⟨hv, hα, hω, hw, -⟩ := step (k + 1) ir' hp (hρ _ ir')
    exact ⟨ir', hp, hv, hρ _ ir', hα, hω, hw⟩

theorem bi_weights (hmv : ProductUnit act g mv) (hx : ∀ u, Wt act (h / g) (x0 u)) (hb : ∀ u, Wt act h (b u))
    {x p v r w t : Nat → ι → V × V} {ρ α ω τ ν η : Nat → V × V} (H : BiRun (pairArith A) mv x0 b x p v r w t ρ α ω τ ν η) :
    ∀ k, (∀ u, Wt act (h / g) (x k u)) ∧ Wt act (h * h) (ρ (k + 1)) ∧ Wt act g⁻¹ (α (k + 1)) ∧ Wt act g⁻¹ (ω (k + 1)) := by
  have hw := bi_weights_r L hmv hb H
  intro k
  refine ⟨?_, (hw k).2.2.2.1, (hw k).2.2.2.2.1, (hw k).2.2.2.2.2.1⟩
  induction k with
  | zero => rw [H.x_zero]; exact hx
  | succ k ih =>
    intro u
    obtain ⟨-, hp, -, -, hα, hω, hh⟩ := hw k
    rw [H.x_succ]
    exact wt_fma L hω (hh u) (wt_fma L hα (hp u) (ih u) (by units)) (by units)

variable (hroot : RootLaw A act)
include hroot

theorem wt_sqrt {e : Γ} {a : V × V} (ha : Wt act (e * e) a) : Wt act e ((pairArith A).sqrt a) := by
  show A.sqrt a.2 = _
  rw [ha, hroot]; rfl

/-- A cycle of GMRES: the basis vectors have no unit, the recorded inner products have that of the matrix; the solution must have none. -/
theorem gmres_weights (hmv : ProductUnit act g mv) {m : Nat} {x x' : ι → V × V} {B : Nat → ι → V × V} {H : Nat → Nat → V × V}
    (hb : ∀ u, Wt act h (b u)) (hAx : ∀ u, Wt act h (mv x u)) (hx : ∀ u, Wt act 1 (x u)) (C : Cycle (pairArith A) mv m b x B H x') :
    (∀ u, Wt act 1 (x' u)) ∧ ∀ i j, j < m → i ≤ j + 1 → Wt act g (H i j) := by
  have hB : ∀ j, j < m ∨ j = 0 → ∀ i, i ≤ j → ∀ u, Wt act 1 (B i u) := by
    intro j
    induction j with
    | zero =>
      intro _ i hi u
      obtain rfl : i = 0 := by omega
      obtain ⟨D, hD, hB0⟩ := C.start
      rw [hB0]
      have hr : ∀ u, Wt act h ((pairArith A).fma ((pairArith A).neg (pairArith A).one) (mv x u) (b u)) := fun u =>
        wt_fma L (wt_neg L (wt_one L)) (hAx u) (hb u) (by units)
      have hD' : Wt act (h * h) D := wt_sum L hD fun u => wt_mul L (hr u) (hr u)
      exact (wt_mul L (wt_div L (wt_one L) (wt_sqrt L hroot hD')) (hr u)).cast (by units)
    | succ j ih =>
      intro hj i hi u
      have hjm : j + 1 < m := by omega
      have ih' := ih (Or.inl (by omega))
      by_cases hij : i ≤ j
      · exact ih' i hij u
      · obtain rfl : i = j + 1 := by omega
        obtain ⟨W, D, w0, w1, w2, w3, w4⟩ := C.column j (by omega)
        have hW : ∀ i, i ≤ j + 1 → ∀ u, Wt act g (W i u) := by
          intro i
          induction i with
          | zero => intro _ u; rw [w0]; exact (hmv 1 _ (ih' j (Nat.le_refl _)) u).cast (by units)
          | succ i jh =>
            intro hi u
            have hWi := jh (by omega)
            have hH : Wt act g (H i j) := (wt_sum L (w1 i (by omega)).1 fun u => wt_mul L (ih' i (by omega) u) (hWi u)).cast (by units)
            rw [(w1 i (by omega)).2]
            exact wt_fma L (wt_neg L hH) (ih' i (by omega) u) (hWi u) (by units)
        have hD : Wt act (g * g) D := wt_sum L w2 fun u => wt_mul L (hW _ (Nat.le_refl _) u) (hW _ (Nat.le_refl _) u)
        rw [w4 hjm]
        exact (wt_mul L (wt_div L (wt_one L) (wt_sqrt L hroot hD)) (hW _ (Nat.le_refl _) u)).cast (by units)
  refine ⟨?_, fun i j hj hi => ?_⟩
  · obtain ⟨Y, y0, y1, rfl⟩ := C.update
    have : ∀ j, j ≤ m → ∀ u, Wt act 1 (Y j u) := by
      intro j
      induction j with
      | zero => intro _; rw [y0]; exact hx
      | succ j ih =>
        intro hj u
        rw [y1 j (by omega)]
        exact wt_fma L (wt_one L) (hB j (Or.inl (by omega)) j (Nat.le_refl _) u) (ih (by omega) u) (by units)
    exact this m (Nat.le_refl _)
  · obtain ⟨W, D, w0, w1, w2, w3, w4⟩ := C.column j hj
    have hBj := hB j (Or.inl hj)
    have hW : ∀ i, i ≤ j + 1 → (∀ u, Wt act g (W i u)) := by
      intro i
      induction i with
      | zero => intro _ u; rw [w0]; exact (hmv 1 _ (hBj j (Nat.le_refl _)) u).cast (by units)
      | succ i jh =>
        intro hi u
        have hWi := jh (by omega)
        have hH : Wt act g (H i j) := (wt_sum L (w1 i (by omega)).1 fun u => wt_mul L (hBj i (by omega) u) (hWi u)).cast (by units)
        rw [(w1 i (by omega)).2]
        exact wt_fma L (wt_neg L hH) (hBj i (by omega) u) (hWi u) (by units)
    by_cases hij : i ≤ j
    · exact (wt_sum L (w1 i hij).1 fun u => wt_mul L (hBj i hij u) (hW i (by omega) u)).cast (by units)
    · obtain rfl : i = j + 1 := by omega
      have hD : Wt act (g * g) D := wt_sum L w2 fun u => wt_mul L (hW _ (Nat.le_refl _) u) (hW _ (Nat.le_refl _) u)
      have w3 : H (j + 1) j = (pairArith A).sqrt D := w3
      rw [w3]
      exact wt_sqrt L hroot hD

end Verif.Units
