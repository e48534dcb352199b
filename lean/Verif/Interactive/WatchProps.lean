import Verif.Interactive.WatchExact

/-! # C84: which loops end -/
set_option linter.dupNamespace false
set_option linter.unusedSectionVars false
namespace Verif.Interactive
open Verif.Runtime Verif.Vector Verif.Matrix Verif.Solver Verif.Planner Verif.Special Verif.Textbook
open _root_.Matrix (mulVec_zero one_mulVec mulVec_sub)
open scoped _root_.Matrix
variable {K P V : Type} [DecidableEq P] [DecidableEq K]

/-! ## Facts about the methods -/
section
variable {ι : Type} [Fintype ι] [Field V] [LinearOrder V] [IsStrictOrderedRing V] {N : _root_.Matrix ι ι V} {x0 b : ι → V}

theorem cg_residual_iterate (k : Nat) : b - N *ᵥ (cg N x0 b k).x = (cg N x0 b k).r - N *ᵥ x0 := by
  rw [cg_residual, mulVec_sub]
  abel

theorem cg_defined_nonzero {k : Nat} (hd : CGDefined N x0 b k) : ∀ i, i < k → (cg N x0 b i).r ≠ 0 := by
  intro i hi hz
  apply hd.1 i hi
  have hp : (cg N x0 b i).p = 0 := by
    cases i with
    | zero => exact hz
    | succ j =>
      rw [cg_p, hz]
      unfold cgBeta
      rw [hz]
      simp
  rw [hp]
  simp

theorem dot_cauchy (u v : ι → V) : (u ⬝ᵥ v) ^ 2 ≤ (u ⬝ᵥ u) * (v ⬝ᵥ v) := by
  have := Finset.sum_mul_sq_le_sq_mul_sq Finset.univ u v
  unfold dotProduct
  simpa only [pow_two] using this

theorem residualSq_nonneg (x : ι → V) : 0 ≤ residualSq N b x := Finset.sum_nonneg fun _ _ => mul_self_nonneg _

/-- The true residual of a defined iterate after at least one step, when the initial solution is not zero. -/
theorem cg_warm_bound (hspd : SPD N) {k : Nat} (hk : 0 < k) (hd : CGDefined N x0 b k) :
    (b ⬝ᵥ N *ᵥ x0) ^ 2 ≤ residualSq N b (cg N x0 b k).x * (b ⬝ᵥ b) := by
  have ho := CGOrth.all hspd k (cg_defined_nonzero hd) k (le_refl _)
  have h0 : (cg N x0 b k).r ⬝ᵥ b = 0 := ho.rr 0 hk
  have := dot_cauchy (b - N *ᵥ (cg N x0 b k).x) b
  have e : (b - N *ᵥ (cg N x0 b k).x) ⬝ᵥ b = -(b ⬝ᵥ N *ᵥ x0) := by
    rw [cg_residual_iterate, sub_dotProduct, h0, zero_sub, dotProduct_comm]
  rw [e, neg_sq] at this
  exact this

end

section
variable {ι : Type} [Fintype ι] [DecidableEq ι] [Field V] [LinearOrder V] [IsStrictOrderedRing V] {root : V → V} {x0 b : ι → V}

/-- With restart length 1 and the identity matrix, the residual of the library's GMRES moves by the length 1 towards zero, past it if it is
shorter. -/
theorem sumCycle_identity (hsq : ∀ c, root (c ^ 2) = |c|) {d : V} (hd : residualSq (1 : _root_.Matrix ι ι V) b x0 = d ^ 2) (k : Nat)
    (hreg : CycleRegular root (1 : _root_.Matrix ι ι V) 1 x0 b k) :
    ∃ j : ℤ, residualSq (1 : _root_.Matrix ι ι V) b (sumCycle root 1 1 x0 b k) = (d - j) ^ 2 := by
  have hdd : d * d = (b - x0) ⬝ᵥ (b - x0) := by
    rw [← pow_two, ← hd]
    unfold residualSq
    rw [one_mulVec]
  suffices h : d ≠ 0 → ∃ j : ℤ, b - sumCycle root 1 1 x0 b k = (1 - j / d) • (b - x0) by
    by_cases h0 : d = 0
    · cases k with
      | zero =>
        refine ⟨0, ?_⟩
        show residualSq (1 : _root_.Matrix ι ι V) b x0 = _
        unfold residualSq
        rw [one_mulVec, ← hdd]
        push_cast
        ring
      | succ k =>
        have := (hreg 0 (by omega)).1
        change root (residualSq (1 : _root_.Matrix ι ι V) b x0) ≠ 0 at this
        rw [hd, hsq, h0, abs_zero] at this
        exact absurd rfl this
    · obtain ⟨j, hj⟩ := h h0
      refine ⟨j, ?_⟩
      unfold residualSq
      rw [one_mulVec, hj, smul_dotProduct, dotProduct_smul, smul_eq_mul, smul_eq_mul, ← hdd]
      field_simp
  intro h0
  induction k with
  | zero => exact ⟨0, by simp [sumCycle]⟩
  | succ k ih =>
    obtain ⟨j, hj⟩ := ih fun i hi => hreg i (by omega)
    have hne := (hreg k (by omega)).1
    rw [one_mulVec, hj] at hne
    have hrr : ((1 - (j : V) / d) • (b - x0)) ⬝ᵥ ((1 - (j : V) / d) • (b - x0)) = (d - j) ^ 2 := by
      rw [smul_dotProduct, dotProduct_smul, smul_eq_mul, smul_eq_mul, ← hdd]
      field_simp
    rw [hrr, hsq] at hne
    have hdj : d - j ≠ 0 := fun e => hne (by rw [e, abs_zero])
    have harn : arnoldi root 1 (b - (1 : _root_.Matrix ι ι V) *ᵥ sumCycle root 1 1 x0 b k) 0 = (1 / |d - j|) • ((1 - (j : V) / d) • (b - x0)) := by
      show normalise root _ = _
      unfold normalise
      rw [one_mulVec, hj, hrr, hsq]
    have hnext : b - sumCycle root 1 1 x0 b (k + 1) = (1 - (j : V) / d) • (b - x0) - (1 / |d - j|) • ((1 - (j : V) / d) • (b - x0)) := by
      rw [← harn, ← hj]
      show b - (sumCycle root 1 1 x0 b k + ((List.range 1).map _).sum) = _
      simp only [List.range_one, List.map_cons, List.map_nil, List.sum_cons, List.sum_nil, add_zero]
      abel
    rcases lt_or_gt_of_ne hdj with hlt | hgt
    · refine ⟨j - 1, ?_⟩
      rw [hnext, abs_of_neg hlt, smul_smul, ← sub_smul]
      congr 1
      push_cast
      have : -(d - j) ≠ 0 := neg_ne_zero.2 hdj
      field_simp
      ring
    · refine ⟨j + 1, ?_⟩
      rw [hnext, abs_of_pos hgt, smul_smul, ← sub_smul]
      congr 1
      push_cast
      field_simp
      ring

/-- If the length of the initial residual is a whole number `m`, the residual gets shorter by 1 in each of the first `m` cycles. -/
theorem sumCycle_whole (hsq : ∀ c, root (c ^ 2) = |c|) {m : Nat} (hd : residualSq (1 : _root_.Matrix ι ι V) b x0 = (m : V) ^ 2) (k : Nat)
    (hk : k ≤ m) : CycleRegular root (1 : _root_.Matrix ι ι V) 1 x0 b k ∧
      residualSq (1 : _root_.Matrix ι ι V) b (sumCycle root 1 1 x0 b k) = ((m : V) - k) ^ 2 := by
  have hdd : (m : V) * m = (b - x0) ⬝ᵥ (b - x0) := by
    rw [← pow_two, ← hd]
    unfold residualSq
    rw [one_mulVec]
  rcases Nat.eq_zero_or_pos m with rfl | hm
  · obtain rfl : k = 0 := by omega
    exact ⟨fun i hi => absurd hi (by omega), by rw [show sumCycle root 1 1 x0 b 0 = x0 from rfl, hd]; simp⟩
  have hm0 : (m : V) ≠ 0 := Nat.cast_ne_zero.2 (by omega)
  have hrr : ∀ i : Nat, ((1 - (i : V) / m) • (b - x0)) ⬝ᵥ ((1 - (i : V) / m) • (b - x0)) = ((m : V) - i) ^ 2 := by
    intro i
    rw [smul_dotProduct, dotProduct_smul, smul_eq_mul, smul_eq_mul, ← hdd]
    field_simp
  suffices h : ∀ k, k ≤ m → CycleRegular root (1 : _root_.Matrix ι ι V) 1 x0 b k ∧ b - sumCycle root 1 1 x0 b k = (1 - (k : V) / m) • (b - x0) by
    obtain ⟨h1, h2⟩ := h k hk
    refine ⟨h1, ?_⟩
    unfold residualSq
    rw [one_mulVec, h2, hrr]
  intro k
  induction k with
  | zero => intro _; exact ⟨fun i hi => absurd hi (by omega), by simp [sumCycle]⟩
  | succ k ih =>
    intro hk
    obtain ⟨h1, h2⟩ := ih (by omega)
    have hlt : (0 : V) < m - k := sub_pos.2 (by exact_mod_cast hk)
    have hroot : root ((b - (1 : _root_.Matrix ι ι V) *ᵥ sumCycle root 1 1 x0 b k) ⬝ᵥ (b - (1 : _root_.Matrix ι ι V) *ᵥ sumCycle root 1 1 x0 b k)) =
        m - k := by
      rw [one_mulVec, h2, hrr, hsq, abs_of_pos hlt]
    refine ⟨fun i hi => ?_, ?_⟩
    · by_cases e : i = k
      · subst e
        exact ⟨by rw [hroot]; exact ne_of_gt hlt, fun j hj => absurd hj (by omega)⟩
      · exact h1 i (by omega)
    · have harn : arnoldi root 1 (b - (1 : _root_.Matrix ι ι V) *ᵥ sumCycle root 1 1 x0 b k) 0 = (1 / ((m : V) - k)) • ((1 - (k : V) / m) • (b - x0)) := by
        show normalise root _ = _
        unfold normalise
        rw [hroot, one_mulVec, h2]
      have hnext : b - sumCycle root 1 1 x0 b (k + 1) = (1 - (k : V) / m) • (b - x0) - (1 / ((m : V) - k)) • ((1 - (k : V) / m) • (b - x0)) := by
        rw [← harn, ← h2]
        show b - (sumCycle root 1 1 x0 b k + ((List.range 1).map _).sum) = _
        simp only [List.range_one, List.map_cons, List.map_nil, List.sum_cons, List.sum_nil, add_zero]
        abel
      rw [hnext, smul_smul, ← sub_smul]
      congr 1
      have hne := ne_of_gt hlt
      push_cast
      field_simp
      ring

end

/-! ## The loops -/
section
variable [Field V] [LinearOrder V] [IsStrictOrderedRing V] {G : Geometry P} {calls : List (Setup K P (Option V))} {base : Nat}
  {root : V → V} {s : Cell P → Option V}

theorem EndsWithin.le {τ : Type} {W : (Nat → Option V → Bool) → Program P (Option V) (Watch τ)} {n : Nat} {D : Nat → Prop}
    {y : Nat → clientUnknowns G calls → V} (h : EndsWithin G calls W n s D y) {tol : V} {m : Nat}
    (hm : Within (exactMatrix G calls) (exactVector G calls (rhss calls) s) D y tol m) :
    Ends (W (above tol)) .start n s fun ctl seen s' => ∃ t k z, ctl = .stop t k ∧ k ≤ m ∧ seen.length = k + 1 ∧ SolutionIs G calls s' z ∧
      residualSq (exactMatrix G calls) (exactVector G calls (rhss calls) s) z ≤ tol ∧
      seen.getLast? = some (some (residualSq (exactMatrix G calls) (exactVector G calls (rhss calls) s) z)) := by
  classical
  have hex : ∃ k, Within (exactMatrix G calls) (exactVector G calls (rhss calls) s) D y tol k := ⟨m, hm⟩
  obtain ⟨g1, g2, g3⟩ := (h tol).1 (Nat.find hex) (Nat.find_spec hex) fun j hj => Nat.find_min hex hj
  refine ⟨g1, g2, fun i w hw he => ?_⟩
  obtain ⟨⟨t, f1⟩, f2, f3, f4⟩ := g3 i w hw he
  exact ⟨t, _, _, f1, Nat.find_le hm, f2, f3, (Nat.find_spec hex).2, f4⟩

variable (h : ClientSystem G calls base) (hd : Defined G calls s) (hroot : root 0 = 0)
  (hst : ∃ u ∈ clientUnknowns G calls, clientStored calls u ≠ []) (n : Nat)
include h hd hroot hst

/-- **C84**, conjugate gradients from a zero initial solution on a symmetric positive definite system: the loop ends, after at most as many
steps as there are unknowns, and leaves a solution within the tolerance. -/
theorem c84_cg_converges (hspd : SPD (exactMatrix G calls)) (hx0 : exactVector G calls (sols calls) s = 0) (tol : V) (htol : 0 ≤ tol) :
    ∃ pl, Planner.empty.setupAll G calls = some pl ∧
      Ends (cgWatch (partialArith root) G pl base (above tol)) .start n s fun ctl seen s' => ∃ t k z, ctl = .stop t k ∧
        k ≤ (clientUnknowns G calls).card ∧ seen.length = k + 1 ∧ SolutionIs G calls s' z ∧
        residualSq (exactMatrix G calls) (exactVector G calls (rhss calls) s) z ≤ tol ∧
        seen.getLast? = some (some (residualSq (exactMatrix G calls) (exactVector G calls (rhss calls) s) z)) := by
  obtain ⟨pl, hpl, hE⟩ := c84_cg_exact h hd hroot hst n
  have hE := hE _ _ _ rfl rfl rfl
  obtain ⟨k0, hk0, hz, hnz⟩ := cg_terminates (A := exactMatrix G calls) (x0 := exactVector G calls (sols calls) s)
    (b := exactVector G calls (rhss calls) s) hspd
  have hreg := cg_regular hspd k0 hnz
  obtain ⟨g1, g2, g3⟩ := hE.le (tol := tol) (m := k0) ⟨⟨fun i hi => (hreg i (by omega)).2, fun i hi => (hreg i (by omega)).1⟩, by
    unfold residualSq
    rw [cg_residual_iterate, hz, hx0, mulVec_zero, sub_zero, zero_dotProduct]
    exact htol⟩
  refine ⟨pl, hpl, g1, g2, fun i w hw he => ?_⟩
  obtain ⟨t, k, z, f1, f2, f3⟩ := g3 i w hw he
  exact ⟨t, k, z, f1, f2.trans (hk0.trans (by rw [Fintype.card_coe])), f3⟩

/-- **C84**, conjugate gradients from another initial solution `x0`: if the tolerance is below `(b · A x0)² / (b · b)`, and `x0` is not within
it, the loop never ends. -/
theorem c84_cg_warm (hspd : SPD (exactMatrix G calls)) (tol : V) (N : _root_.Matrix (clientUnknowns G calls) (clientUnknowns G calls) V)
    (x0 b : clientUnknowns G calls → V) (hN : N = exactMatrix G calls) (hx0 : x0 = exactVector G calls (sols calls) s)
    (hb : b = exactVector G calls (rhss calls) s) (h0 : tol < residualSq N b x0) (h1 : tol * (b ⬝ᵥ b) < (b ⬝ᵥ N *ᵥ x0) ^ 2) :
    ∃ pl, Planner.empty.setupAll G calls = some pl ∧ RunsForever (cgWatch (partialArith root) G pl base (above tol)) .start n s := by
  obtain ⟨pl, hpl, hE⟩ := c84_cg_exact h hd hroot hst n
  have hE := hE _ _ _ rfl rfl rfl
  subst hN hx0 hb
  refine ⟨pl, hpl, (hE tol).2 fun k hk => ?_⟩
  rcases Nat.eq_zero_or_pos k with rfl | hpos
  · exact absurd hk.2 (not_le.2 h0)
  · have h2 := cg_warm_bound hspd hpos hk.1
    have h3 := mul_le_mul_of_nonneg_right hk.2 (Finset.sum_nonneg fun u (_ : u ∈ Finset.univ) =>
      mul_self_nonneg (exactVector G calls (rhss calls) s u))
    exact absurd (h2.trans h3) (not_le.2 h1)

/-- **C84**, BiCGStab on any system: if the loop has not ended after as many steps as there are unknowns, it never ends. -/
theorem c84_bicgstab_ends_or_never (tol : V) : ∃ pl, Planner.empty.setupAll G calls = some pl ∧
    ((Ends (biWatch (partialArith root) G pl base (above tol)) .start n s fun ctl seen s' => ∃ t k z, ctl = .stop t k ∧
        k ≤ (clientUnknowns G calls).card ∧ seen.length = k + 1 ∧ SolutionIs G calls s' z ∧
        residualSq (exactMatrix G calls) (exactVector G calls (rhss calls) s) z ≤ tol ∧
        seen.getLast? = some (some (residualSq (exactMatrix G calls) (exactVector G calls (rhss calls) s) z))) ∨
      RunsForever (biWatch (partialArith root) G pl base (above tol)) .start n s) := by
  obtain ⟨pl, hpl, hE⟩ := c84_bicgstab_exact h hd hroot hst n
  have hE := hE _ _ _ rfl rfl rfl
  refine ⟨pl, hpl, ?_⟩
  by_cases hex : ∃ k, Within (exactMatrix G calls) (exactVector G calls (rhss calls) s)
      (BiRegular (exactMatrix G calls) (exactVector G calls (sols calls) s) (exactVector G calls (rhss calls) s))
      (fun k => (bi (exactMatrix G calls) (exactVector G calls (sols calls) s) (exactVector G calls (rhss calls) s) k).x) tol k
  · obtain ⟨m, hm⟩ := hex
    have hle : m ≤ (clientUnknowns G calls).card := by
      by_contra hlt
      have hb := bi_breaks_down (A := exactMatrix G calls) (x0 := exactVector G calls (sols calls) s)
        (b := exactVector G calls (rhss calls) s) _ rfl
      rw [Fintype.card_coe] at hb
      exact hb fun i hi => hm.1 i (by omega)
    obtain ⟨g1, g2, g3⟩ := hE.le hm
    refine Or.inl ⟨g1, g2, fun i w hw he => ?_⟩
    obtain ⟨t, k, z, f1, f2, f3⟩ := g3 i w hw he
    exact ⟨t, k, z, f1, f2.trans hle, f3⟩
  · exact Or.inr ((hE tol).2 fun k hk => hex ⟨k, hk⟩)

/-- **C84**, BiCGStab: if no defined iterate of fewer steps than there are unknowns is within the tolerance, and `r · b` is not zero before
the last of them, the loop never ends, although the half step that follows has residual zero. -/
theorem c84_bicgstab_never (tol : V) (m : Nat) (hm : m + 1 = (clientUnknowns G calls).card)
    (N : _root_.Matrix (clientUnknowns G calls) (clientUnknowns G calls) V) (x0 b : clientUnknowns G calls → V) (hN : N = exactMatrix G calls)
    (hx0 : x0 = exactVector G calls (sols calls) s) (hb : b = exactVector G calls (rhss calls) s)
    (hfar : ∀ k, k ≤ m → BiRegular N x0 b k → tol < residualSq N b (bi N x0 b k).x) (hr : (bi N x0 b m).r ⬝ᵥ b ≠ 0) :
    ∃ pl, Planner.empty.setupAll G calls = some pl ∧ RunsForever (biWatch (partialArith root) G pl base (above tol)) .start n s := by
  obtain ⟨pl, hpl, hE⟩ := c84_bicgstab_exact h hd hroot hst n
  have hE := hE _ _ _ rfl rfl rfl
  subst hN hx0 hb
  refine ⟨pl, hpl, (hE tol).2 fun k hk => ?_⟩
  by_cases hle : k ≤ m
  · exact absurd hk.2 (not_le.2 (hfar k hle hk.1))
  · obtain ⟨h1, h2, h3, h4⟩ := hk.1 m (by omega)
    have := bi_half m (by rw [hm, Fintype.card_coe]) (fun i hi => hk.1 i (by omega)) ⟨h1, h2, h3⟩ hr
    apply h4
    rw [this, mulVec_zero, zero_dotProduct]

/-- **C84**, GMRES with restart length 1 on the identity matrix, if the initial residual has the length `d` and the square root of a square
is exact: the loop never ends if `d` is not near an integer.  (The textbook method solves the system in one step.) -/
theorem c84_gmres_never (hsq : ∀ c, root (c ^ 2) = |c|) (hone : exactMatrix G calls = 1) (tol d : V)
    (hres : residualSq 1 (exactVector G calls (rhss calls) s) (exactVector G calls (sols calls) s) = d ^ 2)
    (hfar : ∀ j : ℤ, tol < (d - j) ^ 2) :
    ∃ pl, Planner.empty.setupAll G calls = some pl ∧ RunsForever (gmresWatch (partialArith root) G pl base 1 (above tol)) .start n s := by
  obtain ⟨pl, hpl, hE⟩ := c84_gmres_exact h hd hroot hst n (m := 1) (by omega)
  have hE := hE _ _ _ rfl rfl rfl
  refine ⟨pl, hpl, (hE tol).2 fun k hk => ?_⟩
  obtain ⟨hreg, hle⟩ := hk
  rw [hone] at hreg hle
  obtain ⟨j, hj⟩ := sumCycle_identity hsq hres k hreg
  rw [hj] at hle
  exact absurd hle (not_le.2 (hfar j))

/-- **C84**, the same with an initial residual whose length is a whole number `m`, and a tolerance from 0 to just below 1: the loop ends,
after exactly `m` steps. -/
theorem c84_gmres_whole (hsq : ∀ c, root (c ^ 2) = |c|) (hone : exactMatrix G calls = 1) (tol : V) (m : Nat)
    (hres : residualSq 1 (exactVector G calls (rhss calls) s) (exactVector G calls (sols calls) s) = (m : V) ^ 2)
    (h0 : 0 ≤ tol) (h1 : tol < 1) :
    ∃ pl, Planner.empty.setupAll G calls = some pl ∧
      Ends (gmresWatch (partialArith root) G pl base 1 (above tol)) .start n s fun ctl seen s' => (∃ t, ctl = .stop t m) ∧
        seen.length = m + 1 ∧ SolutionIs G calls s' (exactVector G calls (rhss calls) s) := by
  obtain ⟨pl, hpl, hE⟩ := c84_gmres_exact h hd hroot hst n (m := 1) (by omega)
  have hE := hE _ _ _ rfl rfl rfl
  have key := fun k hk => sumCycle_whole (x0 := exactVector G calls (sols calls) s) hsq hres k hk
  refine ⟨pl, hpl, ?_⟩
  obtain ⟨g1, g2, g3⟩ := (hE tol).1 m (by
    rw [hone]
    exact ⟨(key m (le_refl _)).1, by rw [(key m (le_refl _)).2, sub_self]; simpa using h0⟩) (by
    intro j hj hw
    rw [hone] at hw
    have := hw.2
    rw [(key j (by omega)).2] at this
    have hone : (1 : V) ≤ m - j := by
      rw [le_sub_iff_add_le]
      exact_mod_cast (by omega : 1 + j ≤ m)
    have : (1 : V) ≤ (m - j) ^ 2 := one_le_pow₀ hone
    linarith)
  refine ⟨g1, g2, fun i w hw he => ?_⟩
  obtain ⟨f1, f2, f3, -⟩ := g3 i w hw he
  refine ⟨f1, f2, ?_⟩
  rw [hone] at f3
  have hz := (key m (le_refl _)).2
  rw [sub_self, zero_pow two_ne_zero] at hz
  have : exactVector G calls (rhss calls) s = sumCycle root 1 1 (exactVector G calls (sols calls) s) (exactVector G calls (rhss calls) s) m := by
    by_contra hne
    have hp := dot_self_pos (v := exactVector G calls (rhss calls) s - sumCycle root 1 1 (exactVector G calls (sols calls) s)
      (exactVector G calls (rhss calls) s) m) (sub_ne_zero.2 hne)
    unfold residualSq at hz
    rw [one_mulVec] at hz
    exact absurd hz (ne_of_gt hp)
  rw [← this] at f3
  exact f3

end
end Verif.Interactive
