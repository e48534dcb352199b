import Verif.Interactive.Loop
import Verif.Special.Props
import Verif.Solver.ClientResidual

/-! # C80 in terms of the client's calls -/
set_option linter.dupNamespace false
set_option linter.unusedSectionVars false
namespace Verif.Interactive
open Verif.Runtime Verif.Vector Verif.Matrix Verif.Solver Verif.Planner Verif.Special Verif.Textbook
open scoped _root_.Matrix
variable {K P V : Type} [DecidableEq P] [DecidableEq K]
variable {G : Geometry P} {calls : List (Setup K P V)} {base : Nat}

theorem last_getElem? (c : CG Scalar) {k : Nat} (h : c.history.length = k + 1) : c.history[k]? = some c.last := by
  unfold CG.history at *
  rw [List.length_append, List.length_singleton] at h
  rw [List.getElem?_append_right (by omega), show k - c.older.length = 0 by omega]
  rfl

/-- **C80**, any arithmetic: there are values `ρ 0, ρ 1, …` and solutions `x 0, x 1, …`, those of the recurrence of conjugate gradients,
such that for every test: if `k` is the first number for which the test stops at `ρ k`, then every execution of the loop ends, does `k`
steps, sees `ρ 0, …, ρ k` and leaves `x k`; and if there is no such number, no execution ends. -/
theorem c80_client (A : Arith V) (h : ClientSystem G calls base) (n : Nat) (s : Cell P → V) :
    ∃ pl, Planner.empty.setupAll G calls = some pl ∧ ∃ x p q r ρ π,
      CGRun A (rowTimes A G calls) (fun u => valueAt A (sols calls) s u.1) (fun u => valueAt A (rhss calls) s u.1) x p q r ρ π ∧
      ∀ goOn : Nat → V → Bool,
        (∀ k, (∀ j, j < k → goOn j (ρ j) = true) → goOn k (ρ k) = false →
          Ends (cgLoop A G pl base goOn) .start n s fun ctl seen s' => (∃ pl' c, ctl = .stop pl' c k) ∧ seen = (List.range (k + 1)).map ρ ∧
            (∀ u : clientUnknowns G calls, valueAt A (sols calls) s' u.1 = x k u) ∧
            ∀ u : clientUnknowns G calls, valueAt A (rhss calls) s' u.1 = valueAt A (rhss calls) s u.1) ∧
        ((∀ j, goOn j (ρ j) = true) → RunsForever (cgLoop A G pl base goOn) .start n s) := by
  obtain ⟨pl, hpl, x, p, q, r, ρ, π, R, hens⟩ := cg_recurrence A h n s
  have hρ : ∀ j, Ensures (cg A G pl base j) n s fun c s' => s' (.fut c.last.fut) = ρ j := fun j =>
    ensures_weaken (hens j) fun c s' hc => hc.2.2.2 j _ (last_getElem? c hc.2.2.1)
  refine ⟨pl, hpl, x, p, q, r, ρ, π, R, fun goOn => ⟨fun k hgo hstop => ?_, c80_never_ends hρ⟩⟩
  obtain ⟨g1, g2, g3⟩ := c80_loop (goOn := goOn) (fun j _ => hρ j) hgo hstop (hens k)
  refine ⟨g1, g2, fun i w hw he => ?_⟩
  obtain ⟨⟨pl', c, f1, f2⟩, f3⟩ := g3 i w hw he
  exact ⟨⟨pl', c, f1⟩, f3, f2.1, f2.2.1⟩

/-- **C80**, any arithmetic: a loop with a cap on the number of steps always ends, within the cap. -/
theorem c80_capped (A : Arith V) (h : ClientSystem G calls base) (n : Nat) (s : Cell P → V) (cap : Nat) (test : V → Bool) :
    ∃ pl, Planner.empty.setupAll G calls = some pl ∧
      Ends (cgLoop A G pl base fun i v => decide (i < cap) && test v) .start n s fun ctl seen _ =>
        ∃ pl' c k, ctl = .stop pl' c k ∧ k ≤ cap ∧ seen.length = k + 1 ∧ (∀ v ∈ seen.take k, test v = true) ∧
          (k < cap → ∃ v, seen[k]? = some v ∧ test v = false) := by
  obtain ⟨pl, hpl, x, p, q, r, ρ, π, -, hall⟩ := c80_client A h n s
  refine ⟨pl, hpl, ?_⟩
  have hex : ∃ k, k ≤ cap ∧ (decide (k < cap) && test (ρ k)) = false ∧ ∀ j, j < k → (decide (j < cap) && test (ρ j)) = true := by
    have hP : ∃ k, (decide (k < cap) && test (ρ k)) = false := ⟨cap, by simp⟩
    refine ⟨Nat.find hP, Nat.find_le (by simp), Nat.find_spec hP, fun j hj => ?_⟩
    have := Nat.find_min hP hj
    simpa using this
  obtain ⟨k, hk, hstop, hgo⟩ := hex
  obtain ⟨g1, g2, g3⟩ := (hall fun i v => decide (i < cap) && test v).1 k hgo hstop
  refine ⟨g1, g2, fun i w hw he => ?_⟩
  obtain ⟨⟨pl', c, f1⟩, f2, -⟩ := g3 i w hw he
  refine ⟨pl', c, k, f1, hk, by rw [f2]; simp, fun v hv => ?_, fun hlt => ⟨ρ k, by rw [f2]; simp, ?_⟩⟩
  · rw [f2, ← List.map_take, List.take_range, Nat.min_eq_left (by omega)] at hv
    obtain ⟨j, hj, rfl⟩ := List.mem_map.1 hv
    have := hgo j (List.mem_range.1 hj)
    simp only [Bool.and_eq_true] at this
    exact this.2
  · simpa [hlt] using hstop

/-- **C80**, IEEE arithmetic: once a NaN has been recorded, every later record is NaN; so a loop whose test goes on for NaN (such as
`!(value <= tolerance)`), and up to that record for the values before it, never ends. -/
theorem c80_nan {A : Arith V} {Fin Zero NaN : V → Prop} (I : IEEE A Fin Zero NaN) (h : ClientSystem G calls base) (n : Nat)
    (s : Cell P → V) : ∃ pl, Planner.empty.setupAll G calls = some pl ∧ ∃ ρ : Nat → V,
      (∀ j, Ensures (cg A G pl base j) n s fun c s' => s' (.fut c.last.fut) = ρ j) ∧
      ∀ j, NaN (ρ j) → (∀ i, j ≤ i → NaN (ρ i)) ∧ ∀ goOn : Nat → V → Bool, (∀ i, i < j → goOn i (ρ i) = true) →
        (∀ i v, NaN v → goOn i v = true) → RunsForever (cgLoop A G pl base goOn) .start n s := by
  obtain ⟨pl, hpl, x, p, q, r, ρ, π, R, hens⟩ := cg_recurrence A h n s
  have hρ : ∀ j, Ensures (cg A G pl base j) n s fun c s' => s' (.fut c.last.fut) = ρ j := fun j =>
    ensures_weaken (hens j) fun c s' hc => hc.2.2.2 j _ (last_getElem? c hc.2.2.1)
  refine ⟨pl, hpl, ρ, hρ, fun j hj => ?_⟩
  have hstay : ∀ i, j ≤ i → NaN (ρ i) := by
    intro i hi
    induction hi with
    | refl => exact hj
    | @step i _ ih =>
      by_cases hu : Nonempty (clientUnknowns G calls)
      · obtain ⟨u⟩ := hu
        refine sums_nan I (R.rho (i + 1)) u (I.mul_nan _ _ (Or.inl ?_))
        rw [R.r_succ]
        exact I.fma_nan _ _ _ (Or.inl (I.div_nan _ _ (Or.inl (I.mul_nan _ _ (Or.inr ih)))))
      · exact absurd (I.zero_fin _ (sums_zero I (R.rho i) fun u => (hu ⟨u⟩).elim)) (I.nan_not_fin _ ih)
  refine ⟨hstay, fun goOn h1 h2 => c80_never_ends hρ fun i => ?_⟩
  by_cases hi : i < j
  · exact h1 i hi
  · exact h2 i _ (hstay i (by omega))

/-- **C80**, IEEE arithmetic: if an element of the right-hand side is NaN, a loop whose test goes on for NaN never ends. -/
theorem c80_nan_input {A : Arith V} {Fin Zero NaN : V → Prop} (I : IEEE A Fin Zero NaN) (h : ClientSystem G calls base) (n : Nat)
    (s : Cell P → V) (hb : Somewhere G (rhss calls) s NaN) (goOn : Nat → V → Bool) (hgo : ∀ i v, NaN v → goOn i v = true) :
    ∃ pl, Planner.empty.setupAll G calls = some pl ∧ RunsForever (cgLoop A G pl base goOn) .start n s := by
  obtain ⟨pl, hpl, x, p, q, r, ρ, π, R, hall⟩ := c80_client A h n s
  refine ⟨pl, hpl, (hall goOn).2 fun j => hgo j _ ?_⟩
  obtain ⟨v, hv, y, hy, hf⟩ := hb
  obtain ⟨w, hw⟩ := rhs_unknown (A := A) h hv hy
  have key : ∀ j, ∃ u, NaN (r j u) := by
    intro j
    induction j with
    | zero => exact ⟨w, by rw [R.r_zero]; beta_reduce; rw [hw]; exact hf⟩
    | succ j ih =>
      obtain ⟨u, hu⟩ := ih
      exact ⟨u, by rw [R.r_succ]; exact I.fma_nan _ _ _ (Or.inr (Or.inr hu))⟩
  obtain ⟨u, hu⟩ := key j
  exact sums_nan I (R.rho j) u (I.mul_nan _ _ (Or.inl hu))

/-! ## Exact arithmetic -/
section
variable [Field V] [LinearOrder V] [IsStrictOrderedRing V] {A : Arith V}

/-- The loop ends no later than at a step of the textbook method whose squared residual is within the tolerance. -/
theorem loop_within (hA : A.Exact) (h : ClientSystem G calls base) (hspd : SPD (clientMatrix G calls)) (n : Nat) (s : Cell P → V)
    (hx0 : ∀ v ∈ sols calls, ∀ p ∈ G.points v.space, s (.elem v.data p) = 0) (tol : V) (htol : 0 ≤ tol) (m : Nat)
    (hm : (Textbook.cg (clientMatrix G calls) 0 (clientRhs G calls s) m).r ⬝ᵥ
      (Textbook.cg (clientMatrix G calls) 0 (clientRhs G calls s) m).r ≤ tol) :
    ∃ pl, Planner.empty.setupAll G calls = some pl ∧
      Ends (cgLoop A G pl base fun _ v => decide (tol < v)) .start n s fun ctl seen s' =>
        (∃ pl' c k, ctl = .stop pl' c k ∧ k ≤ m ∧ seen.length = k + 1) ∧
        clientResidual G calls s s' ⬝ᵥ clientResidual G calls s s' ≤ tol ∧
        seen.getLast? = some (clientResidual G calls s s' ⬝ᵥ clientResidual G calls s s') ∧
        clientRhs G calls s' = clientRhs G calls s := by
  have hz := clientSol_zero hx0
  obtain ⟨ρ, hρdef⟩ : ∃ ρ : Nat → V, ρ = fun i => (Textbook.cg (clientMatrix G calls) 0 (clientRhs G calls s) i).r ⬝ᵥ
    (Textbook.cg (clientMatrix G calls) 0 (clientRhs G calls s) i).r := ⟨_, rfl⟩
  have hex : ∃ k, k ≤ m ∧ ρ k ≤ tol ∧ ∀ j, j < k → tol < ρ j := by
    have hP : ∃ k, ρ k ≤ tol := ⟨m, by rw [hρdef]; exact hm⟩
    refine ⟨Nat.find hP, Nat.find_le (by rw [hρdef]; exact hm), Nat.find_spec hP, fun j hj => ?_⟩
    exact lt_of_not_ge (Nat.find_min hP hj)
  obtain ⟨k, hk, hstop, hgo⟩ := hex
  have hreg : ∀ j, j ≤ k → CGRegular (clientMatrix G calls) 0 (clientRhs G calls s) j := fun j hj =>
    cg_regular hspd j fun i hi h0 => by
      have := hgo i (by omega)
      rw [hρdef] at this
      simp only [h0, zero_dotProduct] at this
      exact absurd this (not_lt.2 htol)
  obtain ⟨pl, hpl, hens⟩ := cg_client hA h k n s (by rw [hz]; exact hreg k (le_refl _))
  refine ⟨pl, hpl, ?_⟩
  have hρ : ∀ j, j ≤ k → Ensures (cg A G pl base j) n s fun c s' => s' (.fut c.last.fut) = ρ j := by
    intro j hj
    obtain ⟨pl2, hpl2, hj2⟩ := cg_client hA h j n s (by rw [hz]; exact hreg j hj)
    rw [hpl] at hpl2
    cases hpl2
    refine ensures_weaken hj2 fun c s' hc => ?_
    rw [hc.2.2.2 j _ (last_getElem? c hc.2.2.1), hρdef, hz]
  obtain ⟨g1, g2, g3⟩ := c80_loop (goOn := fun _ v => decide (tol < v)) hρ (fun j hj => decide_eq_true (hgo j hj))
    (decide_eq_false (not_lt.2 hstop)) hens
  refine ⟨g1, g2, fun i w hw he => ?_⟩
  obtain ⟨⟨pl', c, f1, f2, f2', -⟩, f3⟩ := g3 i w hw he
  have hr : clientResidual G calls s w.machine.store ⬝ᵥ clientResidual G calls s w.machine.store = ρ k := by
    have hres := cg_residual (clientMatrix G calls) 0 (clientRhs G calls s) k
    simp only [sub_zero] at hres
    unfold clientResidual
    rw [f2, hz, ← hres, hρdef]
  refine ⟨⟨pl', c, k, f1, hk, by rw [f3]; simp⟩, by rw [hr]; exact hstop, ?_, f2'⟩
  rw [f3, hr, List.range_succ]
  simp

/-- **C80**, exact arithmetic: on a symmetric positive definite system with zero initial solution, the loop
`while (residual_norm_squared.back().get_value() > tol) step();` with `tol ≥ 0` ends in every execution, after at most as many steps as
there are unknowns, and then the solution satisfies `‖b - A x‖² ≤ tol`. -/
theorem c80_converges (hA : A.Exact) (h : ClientSystem G calls base) (hspd : SPD (clientMatrix G calls)) (n : Nat) (s : Cell P → V)
    (hx0 : ∀ v ∈ sols calls, ∀ p ∈ G.points v.space, s (.elem v.data p) = 0) (tol : V) (htol : 0 ≤ tol) :
    ∃ pl, Planner.empty.setupAll G calls = some pl ∧
      Ends (cgLoop A G pl base fun _ v => decide (tol < v)) .start n s fun ctl seen s' =>
        (∃ pl' c k, ctl = .stop pl' c k ∧ k ≤ (clientUnknowns G calls).card ∧ seen.length = k + 1) ∧
        clientResidual G calls s s' ⬝ᵥ clientResidual G calls s s' ≤ tol ∧
        seen.getLast? = some (clientResidual G calls s s' ⬝ᵥ clientResidual G calls s s') ∧
        clientRhs G calls s' = clientRhs G calls s := by
  obtain ⟨m, hm, hrm, -⟩ := cg_terminates (x0 := 0) (b := clientRhs G calls s) hspd
  obtain ⟨pl, hpl, g1, g2, g3⟩ := loop_within hA h hspd n s hx0 tol htol m (by rw [hrm, zero_dotProduct]; exact htol)
  refine ⟨pl, hpl, g1, g2, fun i w hw he => ?_⟩
  obtain ⟨⟨pl', c, k, f1, f2, f3⟩, f4⟩ := g3 i w hw he
  exact ⟨⟨pl', c, k, f1, f2.trans (hm.trans (by rw [Fintype.card_coe])), f3⟩, f4⟩

/-- **C80**, exact arithmetic: with tolerance zero the loop leaves the solution of the system. -/
theorem c80_solves (hA : A.Exact) (h : ClientSystem G calls base) (hspd : SPD (clientMatrix G calls)) (n : Nat) (s : Cell P → V)
    (hx0 : ∀ v ∈ sols calls, ∀ p ∈ G.points v.space, s (.elem v.data p) = 0) :
    ∃ pl, Planner.empty.setupAll G calls = some pl ∧
      Ends (cgLoop A G pl base fun _ v => decide (0 < v)) .start n s fun _ _ s' =>
        clientMatrix G calls *ᵥ clientSol G calls s' = clientRhs G calls s := by
  obtain ⟨pl, hpl, g1, g2, g3⟩ := c80_converges hA h hspd n s hx0 0 (le_refl _)
  refine ⟨pl, hpl, g1, g2, fun i w hw he => ?_⟩
  have h1 := (g3 i w hw he).2.1
  have h2 : clientResidual G calls s w.machine.store = 0 := by
    by_contra hne
    exact absurd h1 (not_le.2 (dot_self_pos hne))
  exact (sub_eq_zero.1 h2).symm

end
end Verif.Interactive
