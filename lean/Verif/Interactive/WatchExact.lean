import Verif.Interactive.WatchClient
import Verif.Special.Undefined

/-! # C84 in exact arithmetic, where a division by zero has no result -/
set_option linter.dupNamespace false
set_option linter.unusedSectionVars false
namespace Verif.Interactive
open Verif.Runtime Verif.Vector Verif.Matrix Verif.Solver Verif.Planner Verif.Special Verif.Textbook
open scoped _root_.Matrix
variable {K P V : Type} [DecidableEq P] [DecidableEq K]

/-! ## NaN -/

/-- **C84**, IEEE arithmetic: if an element of the right-hand side is NaN, none of the three loops ends, when the test goes on for NaN. -/
theorem c84_nan_input {G : Geometry P} {calls : List (Setup K P V)} {base : Nat} {A : Arith V} {Fin Zero NaN : V → Prop}
    (I : IEEE A Fin Zero NaN) (h : ClientSystem G calls base) (n : Nat) (s : Cell P → V) (m : Nat) (hb : Somewhere G (rhss calls) s NaN)
    (goOn : Nat → V → Bool) (hgo : ∀ i v, NaN v → goOn i v = true) :
    ∃ pl, Planner.empty.setupAll G calls = some pl ∧ RunsForever (cgWatch A G pl base goOn) .start n s ∧
      RunsForever (biWatch A G pl base goOn) .start n s ∧ RunsForever (gmresWatch A G pl base m goOn) .start n s := by
  obtain ⟨pl, hpl, _, _, _, _, _, _, -, _, w1⟩ := c84_cg A h n s
  obtain ⟨pl2, hpl2, _, _, _, _, _, _, _, _, _, _, _, _, -, _, w2⟩ := c84_bicgstab A h n s
  obtain ⟨pl3, hpl3, _, _, _, -, -, _, w3⟩ := c84_gmres A m h n s
  cases hpl.symm.trans hpl2
  cases hpl.symm.trans hpl3
  obtain ⟨v, hv, y, hy, hf⟩ := hb
  obtain ⟨w, hw⟩ := rhs_unknown (A := A) h hv hy
  have key : ∀ {x : clientUnknowns G calls → V} {δ : V},
      ComputedNorm A (rowTimes A G calls) (fun u => valueAt A (rhss calls) s u.1) x δ → NaN δ := by
    intro x δ hδ
    refine sums_nan I hδ w (I.mul_nan _ _ (Or.inl (I.fma_nan _ _ _ (Or.inr (Or.inr ?_)))))
    beta_reduce
    rw [hw]
    exact hf
  exact ⟨pl, hpl, w1.forever _ fun j => hgo j _ (key (w1.norm j)), w2.forever _ fun j => hgo j _ (key (w2.norm j)),
    w3.forever _ fun j => hgo j _ (key (w3.norm j))⟩

/-! ## Exact arithmetic -/

/-- The test `!(value <= tol)`: go on unless the value is defined and at most `tol`. -/
def above [LE V] [DecidableLE V] (tol : V) : Nat → Option V → Bool := fun _ v => !(v.any fun a => decide (a ≤ tol))

/-- The squared norm of `b - A x`. -/
def residualSq {ι : Type} [Fintype ι] [Field V] (N : _root_.Matrix ι ι V) (b x : ι → V) : V := (b - N *ᵥ x) ⬝ᵥ (b - N *ᵥ x)

/-- The method whose iterate after `k` steps is `y k`, defined for the `k` of which `D` is true, is within the tolerance after `k` steps. -/
def Within {ι : Type} [Fintype ι] [Field V] [LE V] (N : _root_.Matrix ι ι V) (b : ι → V) (D : Nat → Prop) (y : Nat → ι → V) (tol : V)
    (k : Nat) : Prop :=
  D k ∧ residualSq N b (y k) ≤ tol

/-- What the loop `W` with the test `!(value <= tol)` does: it ends at the first iterate that is defined and within the tolerance, if there
is one; otherwise it never ends. -/
def EndsWithin {τ : Type} [Field V] [DecidableEq V] [LE V] [DecidableLE V] (G : Geometry P) (calls : List (Setup K P (Option V)))
    (W : (Nat → Option V → Bool) → Program P (Option V) (Watch τ)) (n : Nat) (s : Cell P → Option V)
    (D : Nat → Prop) (y : Nat → clientUnknowns G calls → V) : Prop :=
  ∀ tol : V,
    (∀ k, Within (exactMatrix G calls) (exactVector G calls (rhss calls) s) D y tol k →
      (∀ j, j < k → ¬Within (exactMatrix G calls) (exactVector G calls (rhss calls) s) D y tol j) →
      Ends (W (above tol)) .start n s fun ctl seen s' => (∃ t, ctl = .stop t k) ∧ seen.length = k + 1 ∧ SolutionIs G calls s' (y k) ∧
        seen.getLast? = some (some (residualSq (exactMatrix G calls) (exactVector G calls (rhss calls) s) (y k)))) ∧
    ((∀ k, ¬Within (exactMatrix G calls) (exactVector G calls (rhss calls) s) D y tol k) → RunsForever (W (above tol)) .start n s)

section
variable [Field V] [LinearOrder V] {G : Geometry P} {calls : List (Setup K P (Option V))} {base : Nat}
  {root : V → V} {s : Cell P → Option V}

theorem above_some (tol a : V) (i : Nat) : above tol i (some a) = true ↔ ¬a ≤ tol := by simp [above]

theorem above_none (tol : V) (i : Nat) : above tol i none = true := rfl

theorem spec_exact {τ : Type} (h : ClientSystem G calls base) (hd : Defined G calls s) (hroot : root 0 = 0)
    (hst : ∃ u ∈ clientUnknowns G calls, clientStored calls u ≠ []) {n : Nat}
    {W : (Nat → Option V → Bool) → Program P (Option V) (Watch τ)} {x : Nat → clientUnknowns G calls → Option V} {δ : Nat → Option V}
    (w : WatchSpec (partialArith root) G calls W n s x δ) {D : Nat → Prop} {y : Nat → clientUnknowns G calls → V}
    (h1 : ∀ k, D k → x k = fun u => some (y k u)) (h2 : ∀ k, ¬D k → ∀ u, x k u = none) : EndsWithin G calls W n s D y := by
  have I := partial_ieee hroot
  have g1 : ∀ k, D k → δ k = some (residualSq (exactMatrix G calls) (exactVector G calls (rhss calls) s) (y k)) := by
    intro k hk
    refine p_sums (w.norm k) fun u => ?_
    have e : computedResidual (partialArith root) (rowTimes (partialArith root) G calls)
        (fun u => valueAt (partialArith root) (rhss calls) s u.1) (x k) u =
        some ((exactVector G calls (rhss calls) s - exactMatrix G calls *ᵥ y k) u) := by
      unfold computedResidual
      rw [h1 k hk, exact_product h hd.coefs]
      beta_reduce
      rw [show valueAt (partialArith root) (rhss calls) s u.1 =
        some (exactVector G calls (rhss calls) s u) from congrFun (exact_rhs h hd.rhs) u, p_one, p_neg, p_fma]
      congr 1
      rw [Pi.sub_apply]
      ring
    rw [e, p_mul]
  have g2 : ∀ k, ¬D k → δ k = none := by
    intro k hk
    obtain ⟨u, hu, hne⟩ := hst
    obtain ⟨t, ht⟩ := List.exists_mem_of_ne_nil _ hne
    have hm := stored_unknown h u hu t ht
    have := (product_client I G calls).use_nan (x k) ⟨u, hu⟩ ⟨t.1, hm⟩ ⟨t, ht, rfl⟩ (h2 k hk _)
    exact sums_nan I (w.norm k) ⟨u, hu⟩ (I.mul_nan _ _ (Or.inl (I.fma_nan _ _ _ (Or.inr (Or.inl this)))))
  have go : ∀ tol k, above tol k (δ k) = true ↔ ¬Within (exactMatrix G calls) (exactVector G calls (rhss calls) s) D y tol k := by
    intro tol k
    by_cases hk : D k
    · rw [g1 k hk, above_some]
      exact ⟨fun a b => a b.2, fun a b => a ⟨hk, b⟩⟩
    · rw [g2 k hk]
      exact ⟨fun _ b => hk b.1, fun _ => above_none tol k⟩
  intro tol
  refine ⟨fun k hk hj => ?_, fun hn => w.forever _ fun j => (go tol j).2 (hn j)⟩
  obtain ⟨e1, e2, e3⟩ := w.ends (above tol) k (fun j hjk => (go tol j).2 (hj j hjk))
    (Bool.eq_false_iff.2 fun ht => (go tol k).1 ht hk)
  refine ⟨e1, e2, fun i w' hw he => ?_⟩
  obtain ⟨f1, f2, f3, -⟩ := e3 i w' hw he
  refine ⟨f1, by rw [f2]; simp, fun u => ?_, ?_⟩
  · exact (f3 u).trans (congrFun (h1 k hk.1) u)
  · rw [f2, List.range_succ, ← g1 k hk.1]
    simp

variable (h : ClientSystem G calls base) (hd : Defined G calls s) (hroot : root 0 = 0)
  (hst : ∃ u ∈ clientUnknowns G calls, clientStored calls u ≠ []) (n : Nat)
include h hd hroot hst

/-- **C84**, conjugate gradients, exact arithmetic. -/
theorem c84_cg_exact : ∃ pl, Planner.empty.setupAll G calls = some pl ∧
    ∀ N x0 b, N = exactMatrix G calls → x0 = exactVector G calls (sols calls) s → b = exactVector G calls (rhss calls) s →
    EndsWithin G calls (cgWatch (partialArith root) G pl base) n s (CGDefined N x0 b) (fun k => (Textbook.cg N x0 b k).x) := by
  obtain ⟨pl, hpl, x, p, q, r, ρ, π, R, δ, w⟩ := c84_cg (partialArith root) h n s
  rw [exact_rhs h hd.rhs, exact_sol hd.sol] at R
  refine ⟨pl, hpl, ?_⟩
  rintro N x0 b rfl rfl rfl
  exact spec_exact h hd hroot hst w (fun k hk => (cg_partial (exact_product h hd.coefs) R k).1 hk)
    fun k hk u => cg_partial_undefined (exact_product h hd.coefs) R hroot hk u

/-- **C84**, BiCGStab, exact arithmetic. -/
theorem c84_bicgstab_exact : ∃ pl, Planner.empty.setupAll G calls = some pl ∧
    ∀ N x0 b, N = exactMatrix G calls → x0 = exactVector G calls (sols calls) s → b = exactVector G calls (rhss calls) s →
    EndsWithin G calls (biWatch (partialArith root) G pl base) n s (BiRegular N x0 b) (fun k => (bi N x0 b k).x) := by
  obtain ⟨pl, hpl, x, p, v, r, g, t, ρ, α, ω, τ, ν, η, R, δ, w⟩ := c84_bicgstab (partialArith root) h n s
  rw [exact_rhs h hd.rhs, exact_sol hd.sol] at R
  refine ⟨pl, hpl, ?_⟩
  rintro N x0 b rfl rfl rfl
  exact spec_exact h hd hroot hst w (fun k hk => (bi_partial (exact_product h hd.coefs) R k hk).x)
    fun k hk u => bi_partial_undefined (exact_product h hd.coefs) R hroot hk u

/-- **C84**, GMRES, exact arithmetic. -/
theorem c84_gmres_exact {m : Nat} (hm : 0 < m) : ∃ pl, Planner.empty.setupAll G calls = some pl ∧
    ∀ N x0 b, N = exactMatrix G calls → x0 = exactVector G calls (sols calls) s → b = exactVector G calls (rhss calls) s →
    EndsWithin G calls (gmresWatch (partialArith root) G pl base m) n s (CycleRegular root N m x0 b) (sumCycle root N m x0 b) := by
  obtain ⟨pl, hpl, x, B, H, h0, R, δ, w⟩ := c84_gmres (partialArith root) m h n s
  rw [exact_rhs h hd.rhs] at R
  have h0' := (funext h0).trans (exact_sol (root := root) hd.sol)
  refine ⟨pl, hpl, ?_⟩
  rintro N x0 b rfl rfl rfl
  set N := exactMatrix G calls with hN
  set x0 := exactVector G calls (sols calls) s with hx0
  set b := exactVector G calls (rhss calls) s with hb
  have hdef : ∀ k, CycleRegular root N m x0 b k → x k = fun u => some (sumCycle root N m x0 b k u) := by
    intro k
    induction k with
    | zero => intro _; exact h0'
    | succ k ih =>
      intro hk
      have h1 := ih fun i hi => hk i (by omega)
      have hR := R k
      rw [h1] at hR
      exact gm_partial (exact_product h hd.coefs) hR hm (hk k (by omega))
  refine spec_exact h hd hroot hst w hdef fun k hk u => ?_
  obtain ⟨i, hi, hbad, hmin⟩ : ∃ i, i < k ∧ ¬ArnoldiRegular root N (b - N *ᵥ sumCycle root N m x0 b i) m ∧ CycleRegular root N m x0 b i := by
    classical
    have hex : ∃ i, i < k ∧ ¬ArnoldiRegular root N (b - N *ᵥ sumCycle root N m x0 b i) m :=
      Classical.byContradiction fun hn => hk fun i hi => Classical.byContradiction fun h0 => hn ⟨i, hi, h0⟩
    refine ⟨Nat.find hex, (Nat.find_spec hex).1, (Nat.find_spec hex).2, fun j hj => ?_⟩
    have hjk := (Nat.find_spec hex).1
    exact Classical.byContradiction fun h0 => Nat.find_min hex hj ⟨by omega, h0⟩
  have hR := R i
  rw [hdef i hmin] at hR
  exact (gmres_stays (partial_ieee hroot) h R).1 (gm_partial_undefined (exact_product h hd.coefs) hR hroot hm hbad u) k hi

end
end Verif.Interactive
