import Verif.Solver.Textbook
import Verif.Solver.GMRESRefine
import Verif.Solver.CGMath

/-! The Arnoldi process in exact arithmetic. -/
set_option linter.dupNamespace false
set_option linter.unusedSectionVars false
namespace Verif.Textbook
open _root_.Matrix

section
variable {ι V : Type} [Fintype ι] [Field V]

theorem mgs_orth {v : Nat → ι → V} (w : ι → V) (k : Nat) (hn : ∀ i, i < k → v i ⬝ᵥ v i = 1)
    (ho : ∀ i j, i < j → j < k → v i ⬝ᵥ v j = 0) : ∀ i, i < k → v i ⬝ᵥ mgs v w k = 0 := by
  induction k with
  | zero => intro i hi; omega
  | succ k ih =>
    have ih := ih (fun i hi => hn i (by omega)) (fun i j h1 h2 => ho i j h1 (by omega))
    intro i hi
    show v i ⬝ᵥ (mgs v w k - (v k ⬝ᵥ mgs v w k) • v k) = 0
    rw [dotProduct_sub, dotProduct_smul, smul_eq_mul]
    by_cases e : i = k
    · subst e; rw [hn i (by omega)]; ring
    · rw [ih i (by omega), ho i k (by omega) (by omega)]; ring

theorem mgs_sum (v : Nat → ι → V) (w : ι → V) (k : Nat) :
    w = ∑ i ∈ Finset.range k, (v i ⬝ᵥ mgs v w i) • v i + mgs v w k := by
  induction k with
  | zero => simp [mgs]
  | succ k ih =>
    rw [Finset.sum_range_succ]
    show w = _ + (mgs v w k - (v k ⬝ᵥ mgs v w k) • v k)
    rw [add_assoc, add_sub_cancel]
    exact ih

/-- The Arnoldi relation, without scaling. -/
theorem arnoldi_relation_raw (sqrt : V → V) (A : Matrix ι ι V) (r : ι → V) (j : Nat) :
    A *ᵥ arnoldi sqrt A r j = ∑ i ∈ Finset.range (j + 1), hess sqrt A r i j • arnoldi sqrt A r i + arnoldiRaw sqrt A r (j + 1) := by
  conv_lhs => rw [mgs_sum (arnoldi sqrt A r) (A *ᵥ arnoldi sqrt A r j) (j + 1)]
  congr 1
  apply Finset.sum_congr rfl
  intro i hi
  have := Finset.mem_range.1 hi
  unfold hess
  rw [if_pos (by omega)]

theorem raw_eq (sqrt : V → V) (A : Matrix ι ι V) (r : ι → V) (j : Nat)
    (h : sqrt (arnoldiRaw sqrt A r j ⬝ᵥ arnoldiRaw sqrt A r j) ≠ 0) :
    arnoldiRaw sqrt A r j = sqrt (arnoldiRaw sqrt A r j ⬝ᵥ arnoldiRaw sqrt A r j) • arnoldi sqrt A r j := by
  rw [arnoldi_succ]
  unfold normalise
  rw [smul_smul, mul_one_div_cancel h, one_smul]

/-- The Arnoldi relation. -/
theorem arnoldi_relation (sqrt : V → V) (A : Matrix ι ι V) (r : ι → V) (j : Nat)
    (h : sqrt (arnoldiRaw sqrt A r (j + 1) ⬝ᵥ arnoldiRaw sqrt A r (j + 1)) ≠ 0) :
    A *ᵥ arnoldi sqrt A r j = ∑ i ∈ Finset.range (j + 2), hess sqrt A r i j • arnoldi sqrt A r i := by
  rw [arnoldi_relation_raw, Finset.sum_range_succ _ (j + 1)]
  congr 1
  conv_lhs => rw [raw_eq sqrt A r (j + 1) h]
  unfold hess
  rw [if_neg (by omega)]

theorem ArnoldiRegular.ne {sqrt : V → V} {A : Matrix ι ι V} {r : ι → V} {m : Nat} (h : ArnoldiRegular sqrt A r m) (j : Nat)
    (hj : j < m) : sqrt (arnoldiRaw sqrt A r j ⬝ᵥ arnoldiRaw sqrt A r j) ≠ 0 := by
  cases j with
  | zero => exact h.1
  | succ j => exact h.2 j hj

end

section
variable {ι V : Type} [Fintype ι] [Field V]

theorem RootsExact.of_all [LinearOrder V] [IsStrictOrderedRing V] {sqrt : V → V} (hs : ∀ a, 0 ≤ a → sqrt a * sqrt a = a)
    (A : Matrix ι ι V) (r : ι → V) (m : Nat) : RootsExact sqrt A r m :=
  fun _ _ => hs _ (Finset.sum_nonneg fun _ _ => mul_self_nonneg _)

theorem normalise_unit {sqrt : V → V} {w : ι → V} (hs : sqrt (w ⬝ᵥ w) * sqrt (w ⬝ᵥ w) = w ⬝ᵥ w) (h : sqrt (w ⬝ᵥ w) ≠ 0) :
    normalise sqrt w ⬝ᵥ normalise sqrt w = 1 := by
  unfold normalise
  rw [smul_dotProduct, dotProduct_smul, smul_eq_mul, smul_eq_mul]
  field_simp
  rw [sq, hs]

/-- The Arnoldi vectors are orthonormal. -/
theorem arnoldi_orthonormal {sqrt : V → V} {A : Matrix ι ι V} {r : ι → V} {m : Nat} (hs : RootsExact sqrt A r m)
    (h : ArnoldiRegular sqrt A r m) : ∀ j, j < m → arnoldi sqrt A r j ⬝ᵥ arnoldi sqrt A r j = 1 ∧
      ∀ i, i < j → arnoldi sqrt A r i ⬝ᵥ arnoldi sqrt A r j = 0 := by
  intro j
  induction j using Nat.strong_induction_on with
  | _ j ih =>
    intro hj
    refine ⟨?_, ?_⟩
    · rw [arnoldi_succ]; exact normalise_unit (hs j hj) (h.ne j hj)
    · intro i hi
      rw [arnoldi_succ sqrt A r j]
      unfold normalise
      rw [dotProduct_smul, smul_eq_mul]
      obtain ⟨j', rfl⟩ : ∃ j', j = j' + 1 := ⟨j - 1, by omega⟩
      show _ * (arnoldi sqrt A r i ⬝ᵥ mgs _ _ (j' + 1)) = 0
      rw [mgs_orth _ (j' + 1) (fun a ha => (ih a (by omega) (by omega)).1)
        (fun a b hab hb => (ih b (by omega) (by omega)).2 a hab) i (by omega), mul_zero]

/-- The last vector, not scaled, is orthogonal to the others. -/
theorem arnoldi_last_orth {sqrt : V → V} {A : Matrix ι ι V} {r : ι → V} {m : Nat} (hs : RootsExact sqrt A r m)
    (h : ArnoldiRegular sqrt A r m) (hm : 0 < m) (i : Nat) (hi : i < m) : arnoldi sqrt A r i ⬝ᵥ arnoldiRaw sqrt A r m = 0 := by
  obtain ⟨m', rfl⟩ : ∃ m', m = m' + 1 := ⟨m - 1, by omega⟩
  exact mgs_orth _ (m' + 1) (fun a ha => (arnoldi_orthonormal hs h a ha).1)
    (fun a b hab hb => (arnoldi_orthonormal hs h b hb).2 a hab) i hi

end

section
variable {ι V : Type} [Fintype ι] [Field V]

/-- The span of the first `k` Arnoldi vectors. -/
def basisSpan (sqrt : V → V) (A : Matrix ι ι V) (r : ι → V) (k : Nat) : Submodule V (ι → V) :=
  Submodule.span V {v | ∃ i, i < k ∧ v = arnoldi sqrt A r i}

theorem basisSpan_mono {sqrt : V → V} {A : Matrix ι ι V} {r : ι → V} {k l : Nat} (h : k ≤ l) :
    basisSpan sqrt A r k ≤ basisSpan sqrt A r l := Submodule.span_mono (fun _ ⟨i, hi, e⟩ => ⟨i, by omega, e⟩)

theorem mem_basisSpan {sqrt : V → V} {A : Matrix ι ι V} {r : ι → V} {i k : Nat} (h : i < k) :
    arnoldi sqrt A r i ∈ basisSpan sqrt A r k := Submodule.subset_span ⟨i, h, rfl⟩

theorem arnoldi_mem_krylov (sqrt : V → V) (A : Matrix ι ι V) (r : ι → V) (j : Nat) :
    arnoldiRaw sqrt A r j ∈ krylov A r (j + 1) ∧ arnoldi sqrt A r j ∈ krylov A r (j + 1) := by
  induction j using Nat.strong_induction_on with
  | _ j ih =>
    have h1 : arnoldiRaw sqrt A r j ∈ krylov A r (j + 1) := by
      cases j with
      | zero => exact Submodule.subset_span ⟨0, by omega, rfl⟩
      | succ j =>
        have := arnoldi_relation_raw sqrt A r j
        have e : arnoldiRaw sqrt A r (j + 1) = A *ᵥ arnoldi sqrt A r j -
          ∑ i ∈ Finset.range (j + 1), hess sqrt A r i j • arnoldi sqrt A r i := by rw [this]; simp
        rw [e]
        refine Submodule.sub_mem _ (krylov_mul (ih j (by omega)).2) (Submodule.sum_mem _ fun i hi => ?_)
        have := Finset.mem_range.1 hi
        exact Submodule.smul_mem _ _ (krylov_mono (by omega) (ih i (by omega)).2)
    refine ⟨h1, ?_⟩
    rw [arnoldi_succ]
    exact Submodule.smul_mem _ _ h1

theorem basisSpan_mul {sqrt : V → V} {A : Matrix ι ι V} {r : ι → V} {m : Nat} (h : ArnoldiRegular sqrt A r m) (k : Nat)
    (hk : k < m) {v : ι → V} (hv : v ∈ basisSpan sqrt A r k) : A *ᵥ v ∈ basisSpan sqrt A r (k + 1) := by
  unfold basisSpan at hv
  induction hv using Submodule.span_induction with
  | mem v hv =>
    obtain ⟨i, hi, rfl⟩ := hv
    rw [arnoldi_relation sqrt A r i (h.ne (i + 1) (by omega))]
    refine Submodule.sum_mem _ fun a ha => Submodule.smul_mem _ _ (mem_basisSpan ?_)
    have := Finset.mem_range.1 ha
    omega
  | zero => rw [mulVec_zero]; exact Submodule.zero_mem _
  | add v w _ _ h1 h2 => rw [mulVec_add]; exact Submodule.add_mem _ h1 h2
  | smul a v _ h1 => rw [mulVec_smul]; exact Submodule.smul_mem _ _ h1

/-- The Arnoldi vectors span the Krylov space. -/
theorem basisSpan_eq {sqrt : V → V} {A : Matrix ι ι V} {r : ι → V} {m : Nat} (h : ArnoldiRegular sqrt A r m) (k : Nat) (hk : k ≤ m) :
    basisSpan sqrt A r k = krylov A r k := by
  apply le_antisymm
  · refine Submodule.span_le.2 ?_
    rintro v ⟨i, hi, rfl⟩
    exact krylov_mono (by omega) (arnoldi_mem_krylov sqrt A r i).2
  · refine Submodule.span_le.2 ?_
    rintro v ⟨i, hi, rfl⟩
    have gen : ∀ i, i < m → (fun y => A *ᵥ y)^[i] r ∈ basisSpan sqrt A r (i + 1) := by
      intro i
      induction i with
      | zero =>
        intro hi
        have := raw_eq sqrt A r 0 h.1
        show arnoldiRaw sqrt A r 0 ∈ _
        rw [this]
        exact Submodule.smul_mem _ _ (mem_basisSpan (by omega))
      | succ i ih =>
        intro hi
        rw [Function.iterate_succ_apply']
        exact basisSpan_mul h (i + 1) (by omega) (ih (by omega))
    exact basisSpan_mono (by omega) (gen i (by omega))

end

section
variable {ι V : Type} [Fintype ι] [Field V]

/-- The sum of `k` orthonormal vectors has squared length `k`. -/
theorem sum_orthonormal {v : Nat → ι → V} (k : Nat) (h : ∀ j, j < k → v j ⬝ᵥ v j = 1 ∧ ∀ i, i < j → v i ⬝ᵥ v j = 0) :
    ((List.range k).map v).sum ⬝ᵥ ((List.range k).map v).sum = k ∧
      ∀ w, (∀ i, i < k → v i ⬝ᵥ w = 0) → ((List.range k).map v).sum ⬝ᵥ w = 0 := by
  induction k with
  | zero => simp
  | succ k ih =>
    obtain ⟨h1, h2⟩ := ih (fun j hj => h j (by omega))
    have e : ((List.range (k + 1)).map v).sum = ((List.range k).map v).sum + v k := by
      rw [List.range_succ, List.map_append, List.sum_append]; simp
    rw [e]
    constructor
    · have hk := h k (by omega)
      rw [add_dotProduct, dotProduct_add, dotProduct_add, h1, h2 (v k) hk.2, dotProduct_comm (v k), h2 (v k) hk.2, hk.1]
      push_cast; ring
    · intro w hw
      rw [add_dotProduct, h2 w (fun i hi => hw i (by omega)), hw k (by omega), add_zero]

/-- The library's GMRES moves the iterate by exactly the distance `sqrt m` in every cycle, however small the residual is. -/
theorem sumCycle_distance {sqrt : V → V} {A : Matrix ι ι V} {m : Nat} {x0 b : ι → V}
    {k : Nat} (hs : RootsExact sqrt A (b - A *ᵥ sumCycle sqrt A m x0 b k) m) (h : ArnoldiRegular sqrt A (b - A *ᵥ sumCycle sqrt A m x0 b k) m) :
    (sumCycle sqrt A m x0 b (k + 1) - sumCycle sqrt A m x0 b k) ⬝ᵥ (sumCycle sqrt A m x0 b (k + 1) - sumCycle sqrt A m x0 b k) = m := by
  have : sumCycle sqrt A m x0 b (k + 1) - sumCycle sqrt A m x0 b k =
      ((List.range m).map (arnoldi sqrt A (b - A *ᵥ sumCycle sqrt A m x0 b k))).sum := by
    show sumCycle sqrt A m x0 b k + _ - _ = _
    simp
  rw [this]
  exact (sum_orthonormal m (arnoldi_orthonormal hs h)).1

end

end Verif.Textbook
