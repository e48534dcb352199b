import Verif.Solver.Textbook
import Mathlib.LinearAlgebra.Matrix.DotProduct
import Mathlib.LinearAlgebra.Dimension.Constructions
import Mathlib.LinearAlgebra.Dimension.StrongRankCondition
import Mathlib.LinearAlgebra.FiniteDimensional.Basic
import Mathlib.Tactic.Linarith
import Mathlib.Tactic.Ring
import Mathlib.Tactic.FieldSimp
import Mathlib.Tactic.Module

/-! Mathematics of the conjugate gradient recurrence. -/
set_option linter.unusedSectionVars false
namespace Verif.Textbook
open _root_.Matrix

variable {ι V : Type} [Fintype ι] [Field V]

section
variable (A : Matrix ι ι V) (x0 b : ι → V)

/-- `α_k`. -/
def cgAlpha (k : Nat) : V :=
  ((cg A x0 b k).r ⬝ᵥ (cg A x0 b k).r) / ((cg A x0 b k).p ⬝ᵥ A *ᵥ (cg A x0 b k).p)
/-- `β_k`. -/
def cgBeta (k : Nat) : V :=
  ((cg A x0 b (k + 1)).r ⬝ᵥ (cg A x0 b (k + 1)).r) / ((cg A x0 b k).r ⬝ᵥ (cg A x0 b k).r)

theorem cg_x (k : Nat) : (cg A x0 b (k + 1)).x = (cg A x0 b k).x + cgAlpha A x0 b k • (cg A x0 b k).p := rfl
theorem cg_r (k : Nat) : (cg A x0 b (k + 1)).r = (cg A x0 b k).r - cgAlpha A x0 b k • (A *ᵥ (cg A x0 b k).p) := rfl
theorem cg_p (k : Nat) : (cg A x0 b (k + 1)).p = (cg A x0 b (k + 1)).r + cgBeta A x0 b k • (cg A x0 b k).p := rfl

/-- The recursive residual is the true residual, up to the initial guess. -/
theorem cg_residual (k : Nat) : (cg A x0 b k).r = b - A *ᵥ ((cg A x0 b k).x - x0) := by
  induction k with
  | zero => simp [cg]
  | succ k ih =>
    rw [cg_r, cg_x, ih, mulVec_sub, mulVec_sub, mulVec_add, mulVec_smul]
    module
end

section
variable [LinearOrder V] [IsStrictOrderedRing V]

theorem dot_self_pos {v : ι → V} (h : v ≠ 0) : 0 < v ⬝ᵥ v := by
  have h1 : 0 ≤ v ⬝ᵥ v := Finset.sum_nonneg fun i _ => mul_self_nonneg (v i)
  exact lt_of_le_of_ne h1 (fun e => h (dotProduct_self_eq_zero.1 e.symm))

theorem symm_dot {A : Matrix ι ι V} (h : Aᵀ = A) (x y : ι → V) : x ⬝ᵥ A *ᵥ y = y ⬝ᵥ A *ᵥ x := by
  rw [dotProduct_mulVec, ← mulVec_transpose, h, dotProduct_comm]

variable {A : Matrix ι ι V} {x0 b : ι → V}

/-- The invariant of CG: everything about step `k` relative to earlier steps. -/
structure CGOrth (A : Matrix ι ι V) (x0 b : ι → V) (k : Nat) : Prop where
  rp : ∀ i, i < k → (cg A x0 b k).r ⬝ᵥ (cg A x0 b i).p = 0
  rr : ∀ i, i < k → (cg A x0 b k).r ⬝ᵥ (cg A x0 b i).r = 0
  pAp : ∀ i, i < k → (cg A x0 b k).p ⬝ᵥ A *ᵥ (cg A x0 b i).p = 0
  self : (cg A x0 b k).r ⬝ᵥ (cg A x0 b k).p = (cg A x0 b k).r ⬝ᵥ (cg A x0 b k).r

theorem CGOrth.pos (hA : SPD A) {k : Nat} (h : CGOrth A x0 b k) (hr : (cg A x0 b k).r ≠ 0) :
    0 < (cg A x0 b k).r ⬝ᵥ (cg A x0 b k).r ∧ (cg A x0 b k).p ≠ 0 ∧ 0 < (cg A x0 b k).p ⬝ᵥ A *ᵥ (cg A x0 b k).p ∧
      0 < cgAlpha A x0 b k := by
  have h1 := dot_self_pos hr
  have h2 : (cg A x0 b k).p ≠ 0 := by
    intro e
    have := h.self
    rw [e, dotProduct_zero] at this
    exact absurd this.symm (ne_of_gt h1)
  have h3 := hA.2 _ h2
  exact ⟨h1, h2, h3, div_pos h1 h3⟩

theorem CGOrth.all (hA : SPD A) (k : Nat) (hr : ∀ i, i < k → (cg A x0 b i).r ≠ 0) : ∀ j, j ≤ k → CGOrth A x0 b j := by
  induction k with
  | zero =>
    intro j hj
    obtain rfl : j = 0 := by omega
    exact ⟨fun i hi => by omega, fun i hi => by omega, fun i hi => by omega, rfl⟩
  | succ k ih =>
    have ih := ih (fun i hi => hr i (by omega))
    intro j hj
    by_cases hjk : j ≤ k
    · exact ih j hjk
    obtain rfl : j = k + 1 := by omega
    have hk := ih k (le_refl k)
    obtain ⟨p1, p2, p3, p4⟩ := hk.pos hA (hr k (by omega))
    have rp : ∀ i, i < k + 1 → (cg A x0 b (k + 1)).r ⬝ᵥ (cg A x0 b i).p = 0 := by
      intro i hi
      rw [cg_r, sub_dotProduct, smul_dotProduct]
      by_cases hik : i = k
      · subst hik
        rw [hk.self, dotProduct_comm (A *ᵥ _), smul_eq_mul, cgAlpha, div_mul_cancel₀ _ (ne_of_gt p3), sub_self]
      · rw [hk.rp i (by omega), dotProduct_comm (A *ᵥ _), symm_dot hA.1, hk.pAp i (by omega)]
        simp
    have rr : ∀ i, i < k + 1 → (cg A x0 b (k + 1)).r ⬝ᵥ (cg A x0 b i).r = 0 := by
      intro i hi
      cases i with
      | zero => exact rp 0 hi
      | succ i =>
        have : (cg A x0 b (i + 1)).r = (cg A x0 b (i + 1)).p - cgBeta A x0 b i • (cg A x0 b i).p := by
          rw [cg_p]; simp
        rw [this, dotProduct_sub, dotProduct_smul, rp _ hi, rp i (by omega)]
        simp
    have rAp : ∀ i, i ≤ k → (cg A x0 b (k + 1)).r ⬝ᵥ A *ᵥ (cg A x0 b i).p =
        ((cg A x0 b (k + 1)).r ⬝ᵥ (cg A x0 b i).r - (cg A x0 b (k + 1)).r ⬝ᵥ (cg A x0 b (i + 1)).r) / cgAlpha A x0 b i := by
      intro i hi
      have p5 := ((ih i hi).pos hA (hr i (by omega))).2.2.2
      rw [cg_r A x0 b i, dotProduct_sub, dotProduct_smul, smul_eq_mul]
      field_simp
      ring
    refine ⟨rp, rr, ?_, ?_⟩
    · intro i hi
      rw [cg_p, add_dotProduct, smul_dotProduct, rAp i (by omega), smul_eq_mul]
      by_cases hik : i = k
      · subst hik
        rw [rr i (by omega), cgBeta, cgAlpha]
        field_simp
        ring
      · rw [rr i (by omega), rr (i + 1) (by omega), hk.pAp i (by omega)]
        simp
    · rw [cg_p, dotProduct_add, dotProduct_smul, rp k (by omega)]
      simp

theorem cg_regular (hA : SPD A) (k : Nat) (hr : ∀ i, i < k → (cg A x0 b i).r ≠ 0) : CGRegular A x0 b k := by
  intro i hi
  obtain ⟨p1, -, p3, -⟩ := (CGOrth.all hA k hr i (by omega)).pos hA (hr i hi)
  exact ⟨ne_of_gt p1, ne_of_gt p3⟩

/-- Mutually orthogonal non-zero vectors are at most as many as there are unknowns. -/
theorem orthogonal_card (m : Nat) (v : Nat → ι → V) (hv : ∀ i, i < m → v i ≠ 0)
    (ho : ∀ i j, i < j → j < m → v j ⬝ᵥ v i = 0) : m ≤ Fintype.card ι := by
  have hne : ∀ i j, i < m → j < m → i ≠ j → v i ⬝ᵥ v j = 0 := by
    intro i j hi hj e
    rcases lt_or_gt_of_ne e with h | h
    · rw [dotProduct_comm]; exact ho i j h hj
    · exact ho j i h hi
  have hli : LinearIndependent V (fun i : Fin m => v i) := by
    rw [Fintype.linearIndependent_iff]
    intro g hg i
    have := congrArg (fun w => v i ⬝ᵥ w) hg
    simp only [dotProduct_sum, dotProduct_smul, dotProduct_zero, smul_eq_mul] at this
    rw [Finset.sum_eq_single i] at this
    · rcases mul_eq_zero.1 this with h | h
      · exact h
      · exact absurd h (ne_of_gt (dot_self_pos (hv i i.2)))
    · intro j _ hji
      rw [hne i j i.2 j.2 (fun e => hji (Fin.ext e.symm)), mul_zero]
    · intro h
      exact absurd (Finset.mem_univ i) h
  have := hli.fintype_card_le_finrank
  simpa using this

theorem cg_terminates (hA : SPD A) : ∃ k, k ≤ Fintype.card ι ∧ (cg A x0 b k).r = 0 ∧ ∀ i, i < k → (cg A x0 b i).r ≠ 0 := by
  have hex : ∃ k, k ≤ Fintype.card ι ∧ (cg A x0 b k).r = 0 := by
    by_contra hcon
    push Not at hcon
    have hno : ∀ i, i < Fintype.card ι + 1 → (cg A x0 b i).r ≠ 0 := fun i hi => hcon i (by omega)
    have := orthogonal_card (Fintype.card ι + 1) (fun i => (cg A x0 b i).r) hno
      (fun i j hij hj => (CGOrth.all hA (Fintype.card ι + 1) hno j (by omega)).rr i hij)
    omega
  classical
  refine ⟨Nat.find hex, (Nat.find_spec hex).1, (Nat.find_spec hex).2, fun i hi => ?_⟩
  intro e
  exact Nat.find_min hex hi ⟨by have := (Nat.find_spec hex).1; omega, e⟩

/-- The energy norm of the error strictly decreases. -/
theorem cg_decrease (hA : SPD A) (k : Nat) (hr : ∀ i, i ≤ k → (cg A x0 b i).r ≠ 0) (z : ι → V) (hz : A *ᵥ z = b + A *ᵥ x0) :
    energy A (z - (cg A x0 b (k + 1)).x) < energy A (z - (cg A x0 b k).x) := by
  have hk := CGOrth.all hA (k + 1) (fun i hi => hr i (by omega)) k (by omega)
  obtain ⟨p1, p2, p3, p4⟩ := hk.pos hA (hr k (le_refl k))
  have hAe : A *ᵥ (z - (cg A x0 b k).x) = (cg A x0 b k).r := by
    rw [cg_residual, mulVec_sub, mulVec_sub, hz]
    module
  have : energy A (z - (cg A x0 b (k + 1)).x) = energy A (z - (cg A x0 b k).x)
      - cgAlpha A x0 b k * ((cg A x0 b k).r ⬝ᵥ (cg A x0 b k).r) := by
    unfold energy
    have e1 : z - (cg A x0 b (k + 1)).x = (z - (cg A x0 b k).x) - cgAlpha A x0 b k • (cg A x0 b k).p := by
      rw [cg_x]; module
    have hsym := symm_dot hA.1 (z - (cg A x0 b k).x) (cg A x0 b k).p
    rw [hAe, dotProduct_comm (cg A x0 b k).p, hk.self] at hsym
    rw [e1, mulVec_sub, mulVec_smul, hAe]
    generalize z - (cg A x0 b k).x = e at hsym
    simp only [dotProduct_sub, sub_dotProduct, smul_dotProduct, dotProduct_smul, smul_eq_mul]
    rw [hsym, dotProduct_comm (cg A x0 b k).p (cg A x0 b k).r, hk.self]
    have : cgAlpha A x0 b k * ((cg A x0 b k).p ⬝ᵥ A *ᵥ (cg A x0 b k).p) = (cg A x0 b k).r ⬝ᵥ (cg A x0 b k).r := by
      rw [cgAlpha, div_mul_cancel₀ _ (ne_of_gt p3)]
    rw [this]
    ring
  rw [this]
  have := mul_pos p4 p1
  linarith

/-! ## Krylov spaces -/

omit [LinearOrder V] [IsStrictOrderedRing V] in
theorem krylov_mono {A : Matrix ι ι V} {b : ι → V} {k l : Nat} (h : k ≤ l) : krylov A b k ≤ krylov A b l :=
  Submodule.span_mono (fun v ⟨i, hi, e⟩ => ⟨i, by omega, e⟩)

omit [LinearOrder V] [IsStrictOrderedRing V] in
theorem krylov_mul {A : Matrix ι ι V} {b : ι → V} {k : Nat} {v : ι → V} (h : v ∈ krylov A b k) : A *ᵥ v ∈ krylov A b (k + 1) := by
  unfold krylov at h
  induction h using Submodule.span_induction with
  | mem v hv =>
    obtain ⟨i, hi, rfl⟩ := hv
    refine Submodule.subset_span ⟨i + 1, by omega, ?_⟩
    rw [Function.iterate_succ_apply']
  | zero => rw [mulVec_zero]; exact Submodule.zero_mem _
  | add v w _ _ h1 h2 => rw [mulVec_add]; exact Submodule.add_mem _ h1 h2
  | smul a v _ h1 => rw [mulVec_smul]; exact Submodule.smul_mem _ a h1

omit [LinearOrder V] [IsStrictOrderedRing V] in
theorem cg_in_krylov (A : Matrix ι ι V) (x0 b : ι → V) (k : Nat) :
    (cg A x0 b k).r ∈ krylov A b (k + 1) ∧ (cg A x0 b k).p ∈ krylov A b (k + 1) ∧ (cg A x0 b k).x - x0 ∈ krylov A b k := by
  induction k with
  | zero =>
    have : b ∈ krylov A b 1 := Submodule.subset_span ⟨0, by omega, rfl⟩
    refine ⟨this, this, ?_⟩
    show x0 - x0 ∈ _
    rw [sub_self]; exact Submodule.zero_mem _
  | succ k ih =>
    obtain ⟨h1, h2, h3⟩ := ih
    have hr : (cg A x0 b (k + 1)).r ∈ krylov A b (k + 1 + 1) := by
      rw [cg_r]
      exact Submodule.sub_mem _ (krylov_mono (by omega) h1) (Submodule.smul_mem _ _ (krylov_mul h2))
    refine ⟨hr, ?_, ?_⟩
    · rw [cg_p]
      exact Submodule.add_mem _ hr (Submodule.smul_mem _ _ (krylov_mono (by omega) h2))
    · have : (cg A x0 b (k + 1)).x - x0 = ((cg A x0 b k).x - x0) + cgAlpha A x0 b k • (cg A x0 b k).p := by
        rw [cg_x]; module
      rw [this]
      exact Submodule.add_mem _ (krylov_mono (by omega) h3) (Submodule.smul_mem _ _ h2)

/-- The span of the first `k` search directions. -/
def dirs (A : Matrix ι ι V) (x0 b : ι → V) (k : Nat) : Submodule V (ι → V) :=
  Submodule.span V {v | ∃ i, i < k ∧ v = (cg A x0 b i).p}

theorem dirs_mono {k l : Nat} (h : k ≤ l) : dirs A x0 b k ≤ dirs A x0 b l :=
  Submodule.span_mono (fun v ⟨i, hi, e⟩ => ⟨i, by omega, e⟩)

theorem p_mem_dirs (k : Nat) : (cg A x0 b k).p ∈ dirs A x0 b (k + 1) := Submodule.subset_span ⟨k, by omega, rfl⟩

theorem r_mem_dirs (k : Nat) : (cg A x0 b k).r ∈ dirs A x0 b (k + 1) := by
  cases k with
  | zero => exact p_mem_dirs 0
  | succ k =>
    have : (cg A x0 b (k + 1)).r = (cg A x0 b (k + 1)).p - cgBeta A x0 b k • (cg A x0 b k).p := by
      rw [cg_p]; simp
    rw [this]
    exact Submodule.sub_mem _ (p_mem_dirs _) (Submodule.smul_mem _ _ (dirs_mono (by omega) (p_mem_dirs k)))

theorem krylov_le_dirs (hA : SPD A) (k : Nat) (hr : ∀ i, i < k → (cg A x0 b i).r ≠ 0) : krylov A b k ≤ dirs A x0 b k := by
  have hAp : ∀ i, i < k → A *ᵥ (cg A x0 b i).p ∈ dirs A x0 b (i + 2) := by
    intro i hi
    obtain ⟨-, -, -, p4⟩ := (CGOrth.all hA k hr i (by omega)).pos hA (hr i hi)
    have : A *ᵥ (cg A x0 b i).p = (cgAlpha A x0 b i)⁻¹ • ((cg A x0 b i).r - (cg A x0 b (i + 1)).r) := by
      rw [cg_r A x0 b i, sub_sub_cancel, smul_smul, inv_mul_cancel₀ (ne_of_gt p4), one_smul]
    rw [this]
    exact Submodule.smul_mem _ _ (Submodule.sub_mem _ (dirs_mono (by omega) (r_mem_dirs i)) (r_mem_dirs (i + 1)))
  have hmul : ∀ j, j < k → ∀ v ∈ dirs A x0 b j, A *ᵥ v ∈ dirs A x0 b (j + 1) := by
    intro j hj v hv
    unfold dirs at hv
    induction hv using Submodule.span_induction with
    | mem v hv =>
      obtain ⟨i, hi, rfl⟩ := hv
      exact dirs_mono (by omega) (hAp i (by omega))
    | zero => rw [mulVec_zero]; exact Submodule.zero_mem _
    | add v w _ _ h1 h2 => rw [mulVec_add]; exact Submodule.add_mem _ h1 h2
    | smul a v _ h1 => rw [mulVec_smul]; exact Submodule.smul_mem _ a h1
  have hiter : ∀ i, i < k → (fun y => A *ᵥ y)^[i] b ∈ dirs A x0 b (i + 1) := by
    intro i
    induction i with
    | zero => intro _; exact p_mem_dirs 0
    | succ i ih =>
      intro hi
      rw [Function.iterate_succ_apply']
      exact hmul (i + 1) (by omega) _ (ih (by omega))
  refine Submodule.span_le.2 ?_
  rintro v ⟨i, hi, rfl⟩
  exact dirs_mono (by omega) (hiter i hi)

theorem r_orth_dirs {k : Nat} (h : CGOrth A x0 b k) {v : ι → V} (hv : v ∈ dirs A x0 b k) : (cg A x0 b k).r ⬝ᵥ v = 0 := by
  unfold dirs at hv
  induction hv using Submodule.span_induction with
  | mem v hv =>
    obtain ⟨i, hi, rfl⟩ := hv
    exact h.rp i hi
  | zero => exact dotProduct_zero _
  | add v w _ _ h1 h2 => rw [dotProduct_add, h1, h2, add_zero]
  | smul a v _ h1 => rw [dotProduct_smul, h1, smul_zero]

theorem energy_nonneg (hA : SPD A) (v : ι → V) : 0 ≤ energy A v := by
  by_cases h : v = 0
  · subst h; unfold energy; simp
  · exact le_of_lt (hA.2 v h)

/-- The iterate minimises the energy norm of the error over `x0 + K_k`. -/
theorem cg_minimises (hA : SPD A) (k : Nat) (hr : ∀ i, i < k → (cg A x0 b i).r ≠ 0) (z : ι → V) (hz : A *ᵥ z = b + A *ᵥ x0)
    (y : ι → V) (hy : y - x0 ∈ krylov A b k) : energy A (z - (cg A x0 b k).x) ≤ energy A (z - y) := by
  have hk := CGOrth.all hA k hr k (le_refl k)
  have hAe : A *ᵥ (z - (cg A x0 b k).x) = (cg A x0 b k).r := by
    rw [cg_residual, mulVec_sub, mulVec_sub, hz]
    module
  have hd : (cg A x0 b k).x - y ∈ dirs A x0 b k := by
    apply krylov_le_dirs hA k hr
    have : (cg A x0 b k).x - y = ((cg A x0 b k).x - x0) - (y - x0) := by module
    rw [this]
    exact Submodule.sub_mem _ (cg_in_krylov A x0 b k).2.2 hy
  have hort := r_orth_dirs hk hd
  have : energy A (z - y) = energy A (z - (cg A x0 b k).x) + energy A ((cg A x0 b k).x - y) := by
    unfold energy
    have e1 : z - y = (z - (cg A x0 b k).x) + ((cg A x0 b k).x - y) := by module
    rw [e1, mulVec_add, hAe]
    simp only [dotProduct_add, add_dotProduct]
    rw [symm_dot hA.1 (z - (cg A x0 b k).x), hAe, dotProduct_comm ((cg A x0 b k).x - y), hort]
    ring
  rw [this]
  have := energy_nonneg hA ((cg A x0 b k).x - y)
  linarith

end

end Verif.Textbook
