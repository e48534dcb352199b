import Verif.Rounding.Planner
import Verif.Solver.Props

/-! # C60: conjugate gradients in floating-point arithmetic

The residual vector is updated by a recurrence; the true residual `b - A x` drifts away from it.  The drift after `k` steps is bounded in
terms of the iterates. -/
set_option linter.dupNamespace false
set_option linter.unusedSectionVars false
namespace Verif.Rounding
open Verif.Runtime Verif.Vector Verif.Matrix Verif.Planner Verif.Solver
open scoped _root_.Matrix
variable {K P : Type} [DecidableEq P] [DecidableEq K] {u : ℝ} {A : Arith ℝ}
variable {G : Geometry P} {pl pl' : Planner K P ℝ} {nw : Nat}

/-! ## Planner operations -/
section
variable {s0 s : Cell P → ℝ} {x : Nat → pl.U G → ℝ} {n : Nat}
variable {Φ : Unit → Nat → (Cell P → ℝ) → Prop} {Ψ : Scalar → Nat → (Cell P → ℝ) → Prop}

theorem wp_matvec (hA : Rounded u A) (R : Ready G pl nw) {m : Nat} (hm : ∀ v : pl.U G, (pl.stored v.1.1 v.1.2).length ≤ m)
    (v : View G pl nw s0 s x) {d y : Nat} (hd : d < nw + 2) (hy : y < nw + 2) (hne : d ≠ y)
    (k : ∀ s' q, Ext n s n s' → View G pl nw s0 s' (Function.update x d q) →
      (∀ w, Near u (1 + m) (q w) ((pl.operator G *ᵥ x y) w) ((absOperator G pl *ᵥ vabs (x y)) w)) → Φ () n s') :
    WP (pl.matvec A G.toEnv d y) n s Φ := by
  obtain ⟨s', h1, q, h2, h3⟩ := near_matvec hA R hd hy hne n s
  rw [v.vec y hy] at h3
  exact ⟨_, _, s', h1, k s' (fun w => q w.1.1 w.1.2) (BlockSet.ext h2) (v.block R hd h2 _ fun _ => rfl)
    fun w => (h3 w).mono hA.nonneg (by have := hm w; omega) (le_refl _)⟩

theorem wp_dot (hA : Rounded u A) (R : Ready G pl nw) (hord : ∀ f l, (G.redOrder f l).Perm l) {L N : Nat} (hcut : Cut G pl L N)
    (hns : 0 < pl.spaces.length) (v : View G pl nw s0 s x) {y z : Nat} (hy : y < nw + 2) (hz : z < nw + 2)
    (k : ∀ a n' s' δ, Ext n s n' s' → View G pl nw s0 s' x → Den n' s' a δ →
      Near u (L + N + pl.spaces.length) δ (x y ⬝ᵥ x z) (vabs (x y) ⬝ᵥ vabs (x z)) → Ψ a n' s') :
    WP (pl.dot A G.toEnv y z) n s Ψ := by
  obtain ⟨a, n', s', h1, h2, h3, h4, h5, h6⟩ := near_pDot hA R hord hcut hns hy hz n s
  rw [v.vec y hy, v.vec z hz] at h4
  exact ⟨a, n', s', h1, k a n' s' _ ⟨by omega, h6⟩ (v.frame h5) ⟨h3, rfl⟩ h4⟩

theorem wp_axpy2 (A : Arith ℝ) (R : Ready G pl nw) (v : View G pl nw s0 s x) {d y : Nat} (hd : d < nw + 2) (hy : y < nw + 2)
    {a b : Scalar} {α β : ℝ} (da : Den n s a α) (db : Den n s b β)
    (k : ∀ s', Ext n s n s' → View G pl nw s0 s' (Function.update x d fun w => A.fma (A.div α β) (x y w) (x d w)) → Φ () n s') :
    WP (pl.axpy2 A G.toEnv d a b y) n s Φ := by
  obtain ⟨s', h1, h2⟩ := Runs.pAxpy2 R A hd hy a b n s
  refine ⟨_, _, s', h1, k s' (BlockSet.ext h2) (v.block R hd h2 _ (fun w => ?_))⟩
  show A.fma (A.div (s (.fut a.fut)) (s (.fut b.fut))) (pl.content G s y w) (pl.content G s d w) = _
  rw [da.2, db.2, v.vec d hd, v.vec y hy]

theorem wp_axpy3 (A : Arith ℝ) (R : Ready G pl nw) (v : View G pl nw s0 s x) {d y : Nat} (hd : d < nw + 2) (hy : y < nw + 2)
    {a b c : Scalar} {α β γ : ℝ} (da : Den n s a α) (db : Den n s b β) (dc : Den n s c γ)
    (k : ∀ s', Ext n s n s' → View G pl nw s0 s' (Function.update x d fun w => A.fma (A.div (A.mul α β) γ) (x y w) (x d w)) → Φ () n s') :
    WP (pl.axpy3 A G.toEnv d a b c y) n s Φ := by
  obtain ⟨s', h1, h2⟩ := Runs.pAxpy3 R A hd hy a b c n s
  refine ⟨_, _, s', h1, k s' (BlockSet.ext h2) (v.block R hd h2 _ (fun w => ?_))⟩
  show A.fma (A.div (A.mul (s (.fut a.fut)) (s (.fut b.fut))) (s (.fut c.fut))) (pl.content G s y w) (pl.content G s d w) = _
  rw [da.2, db.2, dc.2, v.vec d hd, v.vec y hy]

theorem wp_xpay2 (A : Arith ℝ) (R : Ready G pl nw) (v : View G pl nw s0 s x) {d y : Nat} (hd : d < nw + 2) (hy : y < nw + 2)
    {a b : Scalar} {α β : ℝ} (da : Den n s a α) (db : Den n s b β)
    (k : ∀ s', Ext n s n s' → View G pl nw s0 s' (Function.update x d fun w => A.fma (A.div α β) (x d w) (x y w)) → Φ () n s') :
    WP (pl.xpay2 A G.toEnv d a b y) n s Φ := by
  obtain ⟨s', h1, h2⟩ := Runs.pXpay2 R A hd hy a b n s
  refine ⟨_, _, s', h1, k s' (BlockSet.ext h2) (v.block R hd h2 _ (fun w => ?_))⟩
  show A.fma (A.div (s (.fut a.fut)) (s (.fut b.fut))) (pl.content G s d w) (pl.content G s y w) = _
  rw [da.2, db.2, v.vec d hd, v.vec y hy]

theorem abs_operator (i j : pl.U G) : |pl.operator G i j| ≤ absOperator G pl i j := by
  rw [operator_eq_collect]
  unfold absOperator Planner.collect
  generalize (pl.stored i.1.1 i.1.2).filter (fun t => decide (t.1 = j.1)) = l
  induction l with
  | nil => simp
  | cons t l ih =>
    rw [List.map_cons, List.map_cons, List.sum_cons, List.sum_cons]
    exact (abs_add_le _ _).trans (add_le_add (le_refl _) ih)

end

/-! ## One step -/

/-- The first two calls of a step: the product and the inner product `p · A p` by which the step divides. -/
def curvature (A : Arith ℝ) (G : Geometry P) (pl : Planner K P ℝ) : M P ℝ Scalar := do
  pl.matvec A G.toEnv 3 2
  pl.dot A G.toEnv 2 3

/-- An inner product with a vector that is itself near. -/
theorem near_dotProduct (hu : 0 ≤ u) {ι : Type} [Fintype ι] {c c' : Nat} {δ : ℝ} {p q e E : ι → ℝ}
    (h : Near u c δ (p ⬝ᵥ q) (vabs p ⬝ᵥ vabs q)) (hq : ∀ w, Near u c' (q w) (e w) (E w)) :
    Near u (c + c') δ (p ⬝ᵥ e) (vabs p ⬝ᵥ E) := by
  have h1 : vabs p ⬝ᵥ vabs q ≤ (1 + u) ^ c' * (vabs p ⬝ᵥ E) := by
    unfold dotProduct
    rw [Finset.mul_sum]
    refine Finset.sum_le_sum fun w _ => ?_
    have := mul_le_mul_of_nonneg_left (hq w).bound (abs_nonneg (p w))
    unfold vabs
    linarith
  have h2 : |p ⬝ᵥ q - p ⬝ᵥ e| ≤ ((1 + u) ^ c' - 1) * (vabs p ⬝ᵥ E) := by
    rw [← dotProduct_sub]
    unfold dotProduct
    rw [Finset.mul_sum]
    refine (Finset.abs_sum_le_sum_abs _ _).trans (Finset.sum_le_sum fun w _ => ?_)
    rw [abs_mul, Pi.sub_apply]
    have := mul_le_mul_of_nonneg_left (hq w).1 (abs_nonneg (p w))
    unfold vabs
    linarith
  have h3 : |p ⬝ᵥ e| ≤ vabs p ⬝ᵥ E := by
    unfold dotProduct
    refine (Finset.abs_sum_le_sum_abs _ _).trans (Finset.sum_le_sum fun w _ => ?_)
    rw [abs_mul]
    exact mul_le_mul_of_nonneg_left (hq w).2 (abs_nonneg (p w))
  refine ⟨?_, h3⟩
  have h4 : |δ - p ⬝ᵥ e| ≤ |δ - p ⬝ᵥ q| + |p ⬝ᵥ q - p ⬝ᵥ e| := by
    have := abs_add_le (δ - p ⬝ᵥ q) (p ⬝ᵥ q - p ⬝ᵥ e)
    simpa using this
  have h5 : 0 ≤ (1 + u) ^ c - 1 := by
    have : (1 : ℝ) ≤ (1 + u) ^ c := one_le_pow₀ (by linarith)
    linarith
  have h6 := mul_le_mul_of_nonneg_left h1 h5
  have h7 := h.1
  rw [pow_add]
  nlinarith

/-- What holds of the solver object between steps. -/
structure Alive (G : Geometry P) (pl : Planner K P ℝ) (b : pl.U G → ℝ) (k : Nat) (c : CG Scalar) (n : Nat) (s : Cell P → ℝ) : Prop where
  rhs : pl.content G s 1 = b
  neg : Den n s c.negOne (-1)
  len : c.older.length = k
  futs : ∀ a ∈ c.history, a.fut < n

theorem cg_step (hA : Rounded u A) (hu1 : u < 1) (R : Ready G pl 3) (hord : ∀ f l, (G.redOrder f l).Perm l) {L N : Nat}
    (hcut : Cut G pl L N) (hns : 0 < pl.spaces.length) {m : Nat} (hm : ∀ v : pl.U G, (pl.stored v.1.1 v.1.2).length ≤ m)
    {b : pl.U G → ℝ} {k : Nat} {c : CG Scalar} {n : Nat} {s : Cell P → ℝ} (I : Alive G pl b k c n s) :
    ∃ pn n1 s1, Runs (curvature A G pl) n s pn n1 s1 ∧
      Near u (L + N + pl.spaces.length + (1 + m)) (s1 (.fut pn.fut)) (pl.content G s 2 ⬝ᵥ pl.operator G *ᵥ pl.content G s 2)
        (vabs (pl.content G s 2) ⬝ᵥ absOperator G pl *ᵥ vabs (pl.content G s 2)) ∧
      WP (CG.step (plannerOps A G.toEnv pl) c) n s fun c' n' s' => Alive G pl b (k + 1) c' n' s' ∧ Ext n s n' s' ∧
        c'.history = c.history ++ [c'.last] ∧
        Near u (L + N + pl.spaces.length) (s' (.fut c'.last.fut)) (pl.content G s' 4 ⬝ᵥ pl.content G s' 4)
          (vabs (pl.content G s' 4) ⬝ᵥ vabs (pl.content G s' 4)) ∧
        (s1 (.fut pn.fut) ≠ 0 → ∀ v, |(pl.operator G *ᵥ (pl.content G s' 0 - pl.content G s 0)) v +
          (pl.content G s' 4 v - pl.content G s 4 v)| ≤
            gapTerm u m (absOperator G pl) (pl.content G s 0) (pl.content G s' 0) (pl.content G s' 4) v) := by
  obtain ⟨hb, hneg, hlen, hfuts⟩ := I
  have hlast : Den n s c.last (s (.fut c.last.fut)) := ⟨hfuts _ (by simp [CG.history]), rfl⟩
  generalize hρ : s (.fut c.last.fut) = ρ at hlast
  have v0 := (View.start G pl 3 s).toList
  generalize hx : pl.content G s 0 = x at v0 ⊢
  generalize hp : pl.content G s 2 = p at v0 ⊢
  generalize hr : pl.content G s 4 = r at v0 ⊢
  have v0 : View G pl 3 s s (vecs [x, b, p, pl.content G s 3, r]) := by
    rw [← hx, ← hb, ← hp, ← hr]
    exact (View.start G pl 3 s).toList
  -- the first two calls
  have hpre : WP (curvature A G pl) n s fun pn n1 s1 => ∃ q π, Ext n s n1 s1 ∧ View G pl 3 s s1 (vecs [x, b, p, q, r]) ∧
      Den n1 s1 pn π ∧ Near u (L + N + pl.spaces.length) π (p ⬝ᵥ q) (vabs p ⬝ᵥ vabs q) ∧
      ∀ w, Near u (1 + m) (q w) ((pl.operator G *ᵥ p) w) ((absOperator G pl *ᵥ vabs p) w) := by
    refine WP.bind (wp_matvec hA R hm v0 (by omega) (by omega) (by omega) fun s1 q e1 v1 hq => ?_)
    have v1 : View G pl 3 s s1 (vecs [x, b, p, q, r]) := v1.list (by simp)
    exact wp_dot hA R hord hcut hns v1 (by omega) (by omega) fun pn n2 s2 π e2 v2 d2 hd => ⟨q, π, e1.trans e2, v2, d2, hd, hq⟩
  obtain ⟨pn, n1, s1, hrun, q, π, e1, v1, d1, hπq, hq⟩ := hpre
  refine ⟨pn, n1, s1, hrun, by rw [d1.2]; exact near_dotProduct hA.nonneg hπq hq, ?_⟩
  have hrest : WP (curvature A G pl >>= fun pNorm => do
      (plannerOps A G.toEnv pl).axpy2 0 c.last pNorm 2
      (plannerOps A G.toEnv pl).axpy3 4 c.negOne c.last pNorm 3
      let new ← (plannerOps A G.toEnv pl).dot 4 4
      (plannerOps A G.toEnv pl).xpay2 2 new c.last 4
      pure { c with older := c.older ++ [c.last], last := new }) n s fun c' n' s' => Alive G pl b (k + 1) c' n' s' ∧ Ext n s n' s' ∧
        c'.history = c.history ++ [c'.last] ∧
        Near u (L + N + pl.spaces.length) (s' (.fut c'.last.fut)) (pl.content G s' 4 ⬝ᵥ pl.content G s' 4)
          (vabs (pl.content G s' 4) ⬝ᵥ vabs (pl.content G s' 4)) ∧
        (s1 (.fut pn.fut) ≠ 0 → ∀ v, |(pl.operator G *ᵥ (pl.content G s' 0 - x)) v + (pl.content G s' 4 v - r v)| ≤
            gapTerm u m (absOperator G pl) x (pl.content G s' 0) (pl.content G s' 4) v) := by
    refine WP.bind ⟨pn, n1, s1, hrun, ?_⟩
    refine WP.bind (wp_axpy2 A R v1 (by omega) (by omega) (show Den _ _ _ ρ by den) d1 fun s2 e2 v2 => ?_)
    have v2 := v2.list (by simp)
    refine WP.bind (wp_axpy3 A R v2 (by omega) (by omega) (show Den _ _ _ (-1) by den) (show Den _ _ _ ρ by den)
      (show Den _ _ _ π by den) fun s3 e3 v3 => ?_)
    have v3 := v3.list (by simp)
    refine WP.bind (wp_dot hA R hord hcut hns v3 (by omega) (by omega) fun rn n4 s4 δ e4 v4 d4 hδ => ?_)
    refine WP.bind (wp_xpay2 A R v4 (by omega) (by omega) d4 (show Den _ _ _ ρ by den) fun s5 e5 v5 => ?_)
    have v5 := v5.list (by simp)
    have E : Ext n s n4 s5 := e1.trans (e2.trans (e3.trans (e4.trans e5)))
    have h0 : pl.content G s5 0 = fun w => A.fma (A.div ρ π) (p w) (x w) := v5.vec 0 (by omega)
    have h4 : pl.content G s5 4 = fun w => A.fma (A.div (A.mul (-1) ρ) π) (q w) (r w) := v5.vec 4 (by omega)
    refine WP.pure ⟨⟨v5.vec 1 (by omega), E.den hneg, by simp [hlen], ?_⟩, E, by simp [CG.history], ?_, fun hπ v => ?_⟩
    · intro a ha
      simp only [CG.history, List.mem_append, List.mem_singleton] at ha
      rcases ha with (ha | rfl) | rfl
      · exact Nat.lt_of_lt_of_le (hfuts a (by simp [CG.history, ha])) E.le
      · exact (E.den hlast).1
      · exact (e5.den d4).1
    · rw [show s5 (.fut rn.fut) = δ from (e5.den d4).2, h4]
      exact hδ
    · rw [d1.2] at hπ
      have hα : |A.div ρ π - ρ / π| ≤ u * |ρ / π| := hA.div _ _ hπ
      have hβ : Near u 2 (A.div (A.mul (-1) ρ) π) (-(ρ / π)) |ρ / π| := by
        have := near_product_quotient hA (a := -1) (b := ρ) hπ
        rwa [neg_one_mul, neg_div, abs_neg] at this
      refine gap_step hA.nonneg hu1 abs_operator (α := A.div ρ π) (β := A.div (A.mul (-1) ρ) π) ?_ ?_ hα hβ hq v
      · intro w
        rw [h0]
        exact hA.fma _ _ _
      · intro w
        rw [h4]
        exact hA.fma _ _ _
  have hstep : CG.step (plannerOps A G.toEnv pl) c = (curvature A G pl >>= fun pNorm => do
      (plannerOps A G.toEnv pl).axpy2 0 c.last pNorm 2
      (plannerOps A G.toEnv pl).axpy3 4 c.negOne c.last pNorm 3
      let new ← (plannerOps A G.toEnv pl).dot 4 4
      (plannerOps A G.toEnv pl).xpay2 2 new c.last 4
      pure { c with older := c.older ++ [c.last], last := new }) := by
    unfold CG.step curvature
    simp only [bind_assoc]
    rfl
  rw [hstep]
  exact hrest

/-! ## The whole run -/

theorem exists_chain {X : Type} (Inv : Nat → X → Prop) (Rel : X → X → Prop) (x0 : X) (h0 : Inv 0 x0)
    (h : ∀ k x, Inv k x → ∃ y, Inv (k + 1) y ∧ Rel x y) : ∃ f : Nat → X, f 0 = x0 ∧ ∀ k, Inv k (f k) ∧ Rel (f k) (f (k + 1)) := by
  classical
  let f : ∀ k, {x // Inv k x} := fun k => Nat.rec ⟨x0, h0⟩ (fun k x => ⟨(h k x.1 x.2).choose, (h k x.1 x.2).choose_spec.1⟩) k
  exact ⟨fun k => (f k).1, rfl, fun k => ⟨(f k).2, (h k (f k).1 (f k).2).choose_spec.2⟩⟩

theorem cg_start (hA : Rounded u A) (R : Ready G pl 3) (hord : ∀ f l, (G.redOrder f l).Perm l) {L N : Nat} (hcut : Cut G pl L N)
    (hns : 0 < pl.spaces.length) (n : Nat) (s : Cell P → ℝ) :
    WP (CG.init (plannerOps A G.toEnv pl)) n s fun c n' s' => Alive G pl (pl.content G s 1) 0 c n' s' ∧
      pl.content G s' 0 = pl.content G s 0 ∧ pl.content G s' 2 = pl.content G s 1 ∧ pl.content G s' 4 = pl.content G s 1 ∧
      Near u (L + N + pl.spaces.length) (s' (.fut c.last.fut)) (pl.content G s' 4 ⬝ᵥ pl.content G s' 4)
        (vabs (pl.content G s' 4) ⬝ᵥ vabs (pl.content G s' 4)) := by
  have v0 := View.start G pl 3 s
  refine WP.bind (WP.newScalar (α := -1) (by
    show Runs (scalarOf (A.neg A.one)) n s _ _ _
    rw [hA.neg, hA.one]
    exact Runs.scalarOf _ n s) v0 fun m1 n1 s1 e1 v1 d1 => ?_)
  refine WP.bind (WP.copy R v1 (by omega) (by omega) fun s2 e2 v2 => ?_)
  refine WP.bind (WP.copy R v2 (by omega) (by omega) fun s3 e3 v3 => ?_)
  refine WP.bind (wp_dot hA R hord hcut hns v3 (by omega) (by omega) fun rr n4 s4 δ e4 v4 d4 hδ => ?_)
  have h4 := v4.vec 4 (by omega)
  refine WP.pure ⟨⟨?_, by den, rfl, ?_⟩, ?_, ?_, ?_, ?_⟩
  · rw [v4.vec 1 (by omega)]; simp
  · intro a ha
    simp only [CG.history, List.nil_append, List.mem_singleton] at ha
    subst ha
    exact d4.1
  · rw [v4.vec 0 (by omega)]; simp
  · rw [v4.vec 2 (by omega)]; simp
  · rw [h4]; simp
  · rw [d4.2, h4]
    exact hδ

/-- A user program: construct a `CGSolver`, call `step` `k` times, then compute `p · A p` for the search direction `p` - the number by
which the next step would divide. -/
def cgCurvature (A : Arith ℝ) (G : Geometry P) (pl : Planner K P ℝ) (base k : Nat) : M P ℝ Scalar := do
  let pl' ← allocate G pl base 3
  let _ ← CG.solve (plannerOps A G.toEnv pl') k
  curvature A G pl'

/-- **C60**: conjugate gradients with rounding errors, from any initial solution.  There are the solutions `x k`, the residual vectors
`r k`, the search directions `p k` and the recorded values `ρ k`, namely what the runs with `k` steps leave, and `π k`, the number by
which step `k + 1` divides, such that `π k` is `p k · A (p k)` up to the errors of a product and an inner product, the recorded values are the squared norms of the residual vectors up to the error of an inner product, and, as long as nothing was
divided by zero, the distance between `b - A (x k - x 0)` and the residual vector is at most the sum of the terms `gapTerm` over the steps
so far: the errors of the steps add up, but are not amplified. -/
theorem c60_cg (hA : Rounded u A) (hu1 : u < 1) {base : Nat} (S : SolverSetup G pl pl' base 3) {L N m : Nat} (hcut : Cut G pl' L N)
    (hm : ∀ v : pl'.U G, (pl'.stored v.1.1 v.1.2).length ≤ m) (n : Nat) (s : Cell P → ℝ) :
    ∃ (x r p : Nat → pl'.U G → ℝ) (ρ π : Nat → ℝ),
      (∀ k, Ensures (cg A G pl base k) n s fun c s' => pl'.content G s' 0 = x k ∧ pl'.content G s' 1 = pl'.content G s 1 ∧
        pl'.content G s' 4 = r k ∧ pl'.content G s' 2 = p k ∧ c.history.length = k + 1 ∧ ∀ (i : Nat) a, c.history[i]? = some a → s' (.fut a.fut) = ρ i) ∧
      (∀ k, Ensures (cgCurvature A G pl base k) n s fun a s' => s' (.fut a.fut) = π k) ∧
      x 0 = pl'.content G s 0 ∧ r 0 = pl'.content G s 1 ∧ p 0 = pl'.content G s 1 ∧
      (∀ k, |ρ k - r k ⬝ᵥ r k| ≤ ((1 + u) ^ (L + N + pl'.spaces.length) - 1) * (r k ⬝ᵥ r k)) ∧
      (∀ k, |π k - p k ⬝ᵥ pl'.operator G *ᵥ p k| ≤
        ((1 + u) ^ (L + N + pl'.spaces.length + (1 + m)) - 1) * (vabs (p k) ⬝ᵥ absOperator G pl' *ᵥ vabs (p k))) ∧
      ∀ k, (∀ j, j < k → π j ≠ 0) → ∀ v, |(pl'.content G s 1 - pl'.operator G *ᵥ (x k - x 0) - r k) v| ≤
        ∑ j ∈ Finset.range k, gapTerm u m (absOperator G pl') (x j) (x (j + 1)) (r (j + 1)) v := by
  obtain ⟨c0, n0, s0, hrun0, hal, hx0, hp0, hr0, hρ0⟩ := cg_start hA S.ready S.order hcut S.nonempty n s
  set b := pl'.content G s 1 with hb
  let good : CG Scalar × Nat × (Cell P → ℝ) → Prop := fun t =>
    Near u (L + N + pl'.spaces.length) (t.2.2 (.fut t.1.last.fut)) (pl'.content G t.2.2 4 ⬝ᵥ pl'.content G t.2.2 4)
        (vabs (pl'.content G t.2.2 4) ⬝ᵥ vabs (pl'.content G t.2.2 4))
  obtain ⟨f, hf0, hf⟩ := exists_chain (X := CG Scalar × Nat × (Cell P → ℝ))
    (fun k t => Alive G pl' b k t.1 t.2.1 t.2.2 ∧ good t)
    (fun t t' => Runs (CG.step (plannerOps A G.toEnv pl') t.1) t.2.1 t.2.2 t'.1 t'.2.1 t'.2.2 ∧ Ext t.2.1 t.2.2 t'.2.1 t'.2.2 ∧
      t'.1.history = t.1.history ++ [t'.1.last] ∧ ∃ pn n1 s1, Runs (curvature A G pl') t.2.1 t.2.2 pn n1 s1 ∧
        Near u (L + N + pl'.spaces.length + (1 + m)) (s1 (.fut pn.fut)) (pl'.content G t.2.2 2 ⬝ᵥ pl'.operator G *ᵥ pl'.content G t.2.2 2)
          (vabs (pl'.content G t.2.2 2) ⬝ᵥ absOperator G pl' *ᵥ vabs (pl'.content G t.2.2 2)) ∧
        (s1 (.fut pn.fut) ≠ 0 → ∀ v, |(pl'.operator G *ᵥ (pl'.content G t'.2.2 0 - pl'.content G t.2.2 0)) v +
          (pl'.content G t'.2.2 4 v - pl'.content G t.2.2 4 v)| ≤
            gapTerm u m (absOperator G pl') (pl'.content G t.2.2 0) (pl'.content G t'.2.2 0) (pl'.content G t'.2.2 4) v))
    (c0, n0, s0) ⟨hal, hρ0⟩ (by
      rintro k ⟨c, n1, s1⟩ ⟨I, -⟩
      obtain ⟨pn, n2, s2, h1, h8, c', n', s', h2, h3, h4, h5, h6, h7⟩ := cg_step hA hu1 S.ready S.order hcut S.nonempty hm I
      exact ⟨(c', n', s'), ⟨h3, h6⟩, h2, h4, h5, pn, n2, s2, h1, h8, h7⟩)
  have hfin : ∀ j i, Runs (repeatM (CG.step (plannerOps A G.toEnv pl')) j (f i).1) (f i).2.1 (f i).2.2 (f (i + j)).1 (f (i + j)).2.1
      (f (i + j)).2.2 := by
    intro j
    induction j with
    | zero => intro i; exact Runs.pure _ _ _
    | succ j ih =>
      intro i
      have h := (hf i).2.1.bind (ih (i + 1))
      rw [show i + 1 + j = i + (j + 1) by omega] at h
      exact h
  have hsolve : ∀ k, Runs (CG.solve (plannerOps A G.toEnv pl') k) n s (f k).1 (f k).2.1 (f k).2.2 := by
    intro k
    have h := hfin k 0
    rw [Nat.zero_add, hf0] at h
    exact hrun0.bind h
  choose pn n1 s1 hcurv hcurv' hgap using fun k => (hf k).2.2.2.2
  have hhist : ∀ k (i : Nat) a, (f k).1.history[i]? = some a → (f k).2.2 (.fut a.fut) = (f i).2.2 (.fut (f i).1.last.fut) := by
    intro k
    induction k with
    | zero =>
      intro i a ha
      have hlen := (hf 0).1.1.len
      unfold CG.history at ha
      rw [List.eq_nil_of_length_eq_zero hlen, List.nil_append] at ha
      cases i with
      | zero => cases ha; rfl
      | succ i => simp at ha
    | succ k ih =>
      intro i a ha
      obtain ⟨-, hext, hh, -⟩ := (hf k).2
      have hl : (f k).1.history.length = k + 1 := by unfold CG.history; rw [List.length_append, (hf k).1.1.len]; rfl
      rw [hh] at ha
      by_cases hi : i < k + 1
      · rw [List.getElem?_append_left (by omega)] at ha
        rw [hext.fut a.fut ((hf k).1.1.futs a (List.mem_of_getElem? ha))]
        exact ih i a ha
      · rw [List.getElem?_append_right (by omega), hl] at ha
        obtain rfl : i = k + 1 := by
          have := (List.getElem?_eq_some_iff.1 ha).1
          simp at this
          omega
        rw [Nat.sub_self] at ha
        cases ha
        rfl
  refine ⟨fun k => pl'.content G (f k).2.2 0, fun k => pl'.content G (f k).2.2 4, fun k => pl'.content G (f k).2.2 2,
    fun k => (f k).2.2 (.fut (f k).1.last.fut),
    fun k => s1 k (.fut (pn k).fut), ?_, ?_, ?_, ?_, ?_, ?_, ?_, ?_⟩
  · intro k
    refine WP.ensures (WP.allocate S.alloc ⟨_, _, _, hsolve k, rfl, (hf k).1.1.rhs, rfl, rfl, ?_, hhist k⟩)
    unfold CG.history
    rw [List.length_append, (hf k).1.1.len]
    rfl
  · intro k
    refine WP.ensures (WP.allocate S.alloc (WP.bind ⟨_, _, _, hsolve k, ?_⟩))
    exact ⟨_, _, _, hcurv k, rfl⟩
  · show pl'.content G (f 0).2.2 0 = _
    rw [hf0]; exact hx0
  · show pl'.content G (f 0).2.2 4 = _
    rw [hf0]; exact hr0
  · show pl'.content G (f 0).2.2 2 = _
    rw [hf0]; exact hp0
  · intro k
    have h := ((hf k).1.2).1
    have e : vabs (pl'.content G (f k).2.2 4) ⬝ᵥ vabs (pl'.content G (f k).2.2 4) = pl'.content G (f k).2.2 4 ⬝ᵥ pl'.content G (f k).2.2 4 :=
      Finset.sum_congr rfl fun w _ => abs_mul_abs_self _
    rw [e] at h
    exact h
  · exact fun k => (hcurv' k).1
  · intro k hπ v
    exact gap_sum (x := fun k => pl'.content G (f k).2.2 0) (r := fun k => pl'.content G (f k).2.2 4) (by rw [hf0]; exact hr0)
      (fun j hj => hgap j (hπ j hj)) v

end Verif.Rounding
