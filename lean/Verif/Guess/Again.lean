import Verif.Guess.Props

/-! # C89: starting again with the solution of an earlier run as the initial guess -/
set_option linter.dupNamespace false
set_option linter.unusedSectionVars false
namespace Verif.Guess
open Verif.Runtime Verif.Vector Verif.Matrix Verif.Planner Verif.Solver Verif.Special Verif.Units
variable {K P V : Type} [DecidableEq P] [DecidableEq K] {A : Arith V}
variable {G : Geometry P} {calls : List (Setup K P V)} {base : Nat} {s : Cell P → V}

theorem same_rhs {s s' : Cell P → V} (hsys : ClientSystem G calls base) (hb : Same G (rhss calls) s s') :
    (fun u : clientUnknowns G calls => valueAt A (rhss calls) s' u.1) = fun u => valueAt A (rhss calls) s u.1 := by
  funext u
  obtain ⟨v, hv, hp, hval⟩ := unknown_rhs (A := A) hsys u
  rw [hval, hval]
  exact hb v hv _ hp

theorem same_sol {s s' : Cell P → V} (hx : Same G (sols calls) s s') :
    (fun u : clientUnknowns G calls => valueAt A (sols calls) s' u.1) = fun u => valueAt A (sols calls) s u.1 := by
  funext u
  obtain ⟨v, hv, hp, hval⟩ := unknown_sol (A := A) u
  rw [hval, hval]
  exact hx v hv _ hp

/-- **C89**, CG starts all over.  After `k` steps from `s`, let another run start from any memory `s'` that holds the solution reached and the
same right-hand side: it goes through the coefficients, directions and squared norms of the first run again, from the first one on. -/
theorem c89_cg_again (hA : OrderFree A) (hsys : ClientSystem G calls base) (n : Nat) :
    ∃ pl, Planner.empty.setupAll G calls = some pl ∧ ∃ (α ρ : Nat → V) (d x : Nat → (Σ _ : Nat, P) → V),
      Solution A G calls s (x 0) ∧ Follows A G calls α d x ∧ ∀ k,
        Ensures (cg A G pl base k) n s fun c t => Solution A G calls t (x k) ∧ c.history.length = k + 1 ∧ Records t c.history ρ ∧
          ∀ n' s', Same G (sols calls) t s' → Same G (rhss calls) s s' → ∃ y : Nat → (Σ _ : Nat, P) → V,
            y 0 = x k ∧ Follows A G calls α d y ∧ ∀ l, Ensures (cg A G pl base l) n' s' fun c' t' =>
              Solution A G calls t' (y l) ∧ c'.history.length = l + 1 ∧ Records t' c'.history ρ := by
  obtain ⟨pl, hpl, x, p, q, r, ρ, π, run, e⟩ := cg_recurrence A hsys n s
  refine ⟨pl, hpl, fun k => A.div (ρ k) (π k), ρ, fun k => ext A G calls (p k), fun k => ext A G calls (x k), ?_, ?_,
    fun k => ensures_weaken (e k) ?_⟩
  · intro u hu; beta_reduce; rw [ext_mem hu, run.x_zero]
  · intro k u hu; beta_reduce; rw [ext_mem hu, ext_mem hu, ext_mem hu, run.x_succ]
  rintro c t ⟨q1, -, q2, q3⟩
  refine ⟨fun u hu => by beta_reduce; rw [ext_mem hu, q1 ⟨u, hu⟩], q2, q3, fun n' s' hx hb => ?_⟩
  obtain ⟨pl', hpl', y, p', q', r', ρ', π', run', e'⟩ := cg_recurrence A hsys n' s'
  obtain rfl : pl = pl' := Option.some.inj (hpl.symm.trans hpl')
  rw [same_rhs hsys hb, same_sol hx] at run'
  have hu := cg_unique hA run run'
  have hy : y 0 = x k := by rw [run'.x_zero]; funext u; exact q1 u
  refine ⟨fun l => ext A G calls (y l), by beta_reduce; rw [hy], ?_, fun l => ensures_weaken (e' l) ?_⟩
  · intro j u hu'
    beta_reduce
    rw [ext_mem hu', ext_mem hu', ext_mem hu', run'.x_succ, (hu j).2.1, (hu j).2.2.1, (hu j).2.2.2]
  · rintro c' t' ⟨j1, -, j2, j3⟩
    exact ⟨fun u hu' => by beta_reduce; rw [ext_mem hu', j1 ⟨u, hu'⟩], j2, fun i a ha => by rw [j3 i a ha, (hu i).2.2.1]⟩

/-- **C89**, BiCGStab starts all over. -/
theorem c89_bicgstab_again (hA : OrderFree A) (hsys : ClientSystem G calls base) (n : Nat) :
    ∃ pl, Planner.empty.setupAll G calls = some pl ∧ ∃ (ρ α ω : Nat → V) (d e x : Nat → (Σ _ : Nat, P) → V),
      Solution A G calls s (x 0) ∧ FollowsTwo A G calls (fun k => α (k + 1)) d (fun k => ω (k + 1)) e x ∧ ∀ k,
        Ensures (biCGStab A G pl base k) n s fun c t => Solution A G calls t (x k) ∧
          (c.rhos.length = k ∧ c.alphas.length = k ∧ c.omegas.length = k) ∧
          (Records t (c.rhos ++ [c.rho]) ρ ∧ Records t (c.alphas ++ [c.alpha]) α ∧ Records t (c.omegas ++ [c.omega]) ω) ∧
          ∀ n' s', Same G (sols calls) t s' → Same G (rhss calls) s s' → ∃ y : Nat → (Σ _ : Nat, P) → V,
            y 0 = x k ∧ FollowsTwo A G calls (fun k => α (k + 1)) d (fun k => ω (k + 1)) e y ∧ ∀ l,
              Ensures (biCGStab A G pl base l) n' s' fun c' t' => Solution A G calls t' (y l) ∧
                (c'.rhos.length = l ∧ c'.alphas.length = l ∧ c'.omegas.length = l) ∧
                Records t' (c'.rhos ++ [c'.rho]) ρ ∧ Records t' (c'.alphas ++ [c'.alpha]) α ∧ Records t' (c'.omegas ++ [c'.omega]) ω := by
  obtain ⟨pl, hpl, x, p, v, r, g, w, ρ, α, ω, τ, ν, η, run, e⟩ := bi_recurrence A hsys n s
  refine ⟨pl, hpl, ρ, α, ω, fun k => ext A G calls (p (k + 1)), fun k => ext A G calls (g k), fun k => ext A G calls (x k), ?_, ?_,
    fun k => ensures_weaken (e k) ?_⟩
  · intro u hu; beta_reduce; rw [ext_mem hu, run.x_zero]
  · intro k u hu; beta_reduce; rw [ext_mem hu, ext_mem hu, ext_mem hu, ext_mem hu, run.x_succ]
  rintro c t ⟨q1, -, ql, q2⟩
  refine ⟨fun u hu => by beta_reduce; rw [ext_mem hu, q1 ⟨u, hu⟩], ql, q2, fun n' s' hx hb => ?_⟩
  obtain ⟨pl', hpl', y, p', v', r', g', w', ρ', α', ω', τ', ν', η', run', e'⟩ := bi_recurrence A hsys n' s'
  obtain rfl : pl = pl' := Option.some.inj (hpl.symm.trans hpl')
  rw [same_rhs hsys hb, same_sol hx] at run'
  have hu := bi_unique hA run run'
  have hy : y 0 = x k := by rw [run'.x_zero]; funext u; exact q1 u
  refine ⟨fun l => ext A G calls (y l), by beta_reduce; rw [hy], ?_, fun l => ensures_weaken (e' l) ?_⟩
  · intro j u hu'
    obtain ⟨-, -, -, -, -, -, h1, h2⟩ := hu j
    obtain ⟨-, -, -, -, h3, h4, -⟩ := hu (j + 1)
    beta_reduce
    rw [ext_mem hu', ext_mem hu', ext_mem hu', ext_mem hu', run'.x_succ, h1, h2, h3, h4]
  · rintro c' t' ⟨j1, -, jl, j2, j3, j4⟩
    refine ⟨fun u hu' => by beta_reduce; rw [ext_mem hu', j1 ⟨u, hu'⟩], jl, fun i a ha => ?_, fun i a ha => ?_, fun i a ha => ?_⟩
    · rw [j2 i a ha, (hu i).2.2.2.1]
    · rw [j3 i a ha, (hu i).2.2.2.2.1]
    · rw [j4 i a ha, (hu i).2.2.2.2.2.1]

/-- **C89**, GMRES goes on.  After `k` cycles from `s`, let another run start from any memory `s'` that holds the solution reached and the
same right-hand side: after `l` cycles it has the solution that the first run has after `k + l`, and the same inner products. -/
theorem c89_gmres_again (hA : OrderFree A) (hsys : ClientSystem G calls base) (m n : Nat) :
    ∃ pl, Planner.empty.setupAll G calls = some pl ∧ ∃ (x : Nat → (Σ _ : Nat, P) → V) (H : Nat → Nat → Nat → V),
      Solution A G calls s (x 0) ∧ ∀ k,
        Ensures (gmres A G pl base m k) n s fun c t => Solution A G calls t (x k) ∧
          (0 < k → ∀ i j, j < m → i ≤ j + 1 → t (.fut (c.inner i j).fut) = H k i j) ∧
          ∀ n' s', Same G (sols calls) t s' → Same G (rhss calls) s s' → ∀ l, Ensures (gmres A G pl base m l) n' s' fun c' t' =>
            Solution A G calls t' (x (k + l)) ∧ (0 < l → ∀ i j, j < m → i ≤ j + 1 → t' (.fut (c'.inner i j).fut) = H (k + l) i j) := by
  obtain ⟨pl, hpl, x, B, H, h0, hC, e, f⟩ := gmres_recurrence A m hsys n s
  have main : ∀ k, Ensures (gmres A G pl base m k) n s fun c t => (∀ u : clientUnknowns G calls, valueAt A (sols calls) t u.1 = x k u) ∧
      (0 < k → ∀ i j, j < m → i ≤ j + 1 → t (.fut (c.inner i j).fut) = H (k - 1) i j) := by
    intro k
    cases k with
    | zero => exact ensures_weaken (e 0) fun c t q => ⟨q.1, fun h => absurd h (Nat.lt_irrefl _)⟩
    | succ k => exact ensures_weaken (f k) fun c t q => ⟨q.1, fun _ => q.2⟩
  refine ⟨pl, hpl, fun k => ext A G calls (x k), fun k => H (k - 1), ?_, fun k => ensures_weaken (main k) ?_⟩
  · intro u hu; beta_reduce; rw [ext_mem hu, h0]
  rintro c t ⟨q1, q2⟩
  refine ⟨fun u hu => by beta_reduce; rw [ext_mem hu, q1 ⟨u, hu⟩], q2, fun n' s' hx hb => ?_⟩
  obtain ⟨pl', hpl', y, B', H', h0', hC', e', f'⟩ := gmres_recurrence A m hsys n' s'
  obtain rfl : pl = pl' := Option.some.inj (hpl.symm.trans hpl')
  rw [same_rhs hsys hb] at hC'
  have hy : ∀ l, y l = x (k + l) := by
    intro l
    induction l with
    | zero =>
      funext u
      rw [h0']
      exact (congrFun (same_sol hx) u).trans (q1 u)
    | succ l ih =>
      have h' := hC' l
      rw [ih] at h'
      exact (cycle_unique hA h' (hC (k + l))).1
  have hH : ∀ l i j, j < m → i ≤ j + 1 → H' l i j = H (k + l) i j := by
    intro l
    have h' := hC' l
    rw [hy] at h'
    exact (cycle_unique hA h' (hC (k + l))).2
  intro l
  cases l with
  | zero => exact ensures_weaken (e' 0) fun c' t' j => ⟨fun u hu => by beta_reduce; rw [ext_mem hu, j.1 ⟨u, hu⟩, hy], fun h => absurd h (Nat.lt_irrefl _)⟩
  | succ l =>
    refine ensures_weaken (f' l) fun c' t' j => ⟨fun u hu => by beta_reduce; rw [ext_mem hu, j.1 ⟨u, hu⟩, hy], fun _ i j' hj hi => ?_⟩
    rw [j.2 i j' hj hi, hH l i j' hj hi]
    rfl

/-! ## Exact arithmetic -/

theorem exact_orderFree [Field V] (hA : A.Exact) : OrderFree A where
  comm a b := by rw [hA.add, hA.add, add_comm]
  assoc a b c := by simp only [hA.add, add_assoc]
  zero a := by rw [hA.add, hA.zero, zero_add]

/-- Exact arithmetic in which quotients by zero are undefined. -/
theorem partial_orderFree [Field V] [DecidableEq V] (root : V → V) : OrderFree (partialArith root) where
  comm a b := by cases a <;> cases b <;> simp [partialArith, add_comm]
  assoc a b c := by cases a <;> cases b <;> cases c <;> simp [partialArith, add_assoc]
  zero a := by cases a <;> simp [partialArith]

/-- **C89**, CG in exact arithmetic (whatever quotients by zero are): with the solution of `k` steps as the guess, `l` steps end at
`x_k + x_l - x_0`. -/
theorem c89_cg_exact [Field V] (hA : A.Exact) (hsys : ClientSystem G calls base) (n : Nat) :
    ∃ pl, Planner.empty.setupAll G calls = some pl ∧ ∃ x : Nat → (Σ _ : Nat, P) → V, Solution A G calls s (x 0) ∧ ∀ k,
      Ensures (cg A G pl base k) n s fun _ t => Solution A G calls t (x k) ∧
        ∀ n' s', Same G (sols calls) t s' → Same G (rhss calls) s s' → ∀ l,
          Ensures (cg A G pl base l) n' s' fun _ t' => Solution A G calls t' fun u => x k u + (x l u - x 0 u) := by
  obtain ⟨pl, hpl, α, ρ, d, x, h0, hx, e⟩ := c89_cg_again (s := s) (exact_orderFree hA) hsys n
  refine ⟨pl, hpl, x, h0, fun k => ensures_weaken (e k) fun c t q => ⟨q.1, fun n' s' hs hr l => ?_⟩⟩
  obtain ⟨y, hy0, hy, f⟩ := q.2.2.2 n' s' hs hr
  refine ensures_weaken (f l) fun c' t' j u hu => (j.1 u hu).trans ?_
  clear j f
  induction l with
  | zero => rw [hy0]; ring
  | succ l ih => beta_reduce at ih ⊢; rw [hy l u hu, hx l u hu, ih, hA.fma, hA.fma]; ring

/-- **C89**, BiCGStab in exact arithmetic. -/
theorem c89_bicgstab_exact [Field V] (hA : A.Exact) (hsys : ClientSystem G calls base) (n : Nat) :
    ∃ pl, Planner.empty.setupAll G calls = some pl ∧ ∃ x : Nat → (Σ _ : Nat, P) → V, Solution A G calls s (x 0) ∧ ∀ k,
      Ensures (biCGStab A G pl base k) n s fun _ t => Solution A G calls t (x k) ∧
        ∀ n' s', Same G (sols calls) t s' → Same G (rhss calls) s s' → ∀ l,
          Ensures (biCGStab A G pl base l) n' s' fun _ t' => Solution A G calls t' fun u => x k u + (x l u - x 0 u) := by
  obtain ⟨pl, hpl, ρ, α, ω, d, g, x, h0, hx, e⟩ := c89_bicgstab_again (s := s) (exact_orderFree hA) hsys n
  refine ⟨pl, hpl, x, h0, fun k => ensures_weaken (e k) fun c t q => ⟨q.1, fun n' s' hs hr l => ?_⟩⟩
  obtain ⟨y, hy0, hy, f⟩ := q.2.2.2 n' s' hs hr
  refine ensures_weaken (f l) fun c' t' j u hu => (j.1 u hu).trans ?_
  clear j f
  induction l with
  | zero => rw [hy0]; ring
  | succ l ih => beta_reduce at ih ⊢; rw [hy l u hu, hx l u hu, ih]; simp only [hA.fma]; ring

end Verif.Guess
