import Verif.Special.Wp
import Verif.Solver.SymmetryProps
import Verif.Rounding.CG

/-! # The recurrences that CG and BiCGStab evaluate, in an arbitrary arithmetic

`cg_recurrence` and `bi_recurrence`: whatever the arithmetic, the system, the schedule and the order of the reductions, the vectors of a
run satisfy the formulas of the method, evaluated with the operations of that arithmetic; inner products are sums in some order. -/
set_option linter.dupNamespace false
set_option linter.unusedSectionVars false
namespace Verif.Special
open Verif.Runtime Verif.Vector Verif.Matrix Verif.Planner Verif.Solver
variable {K P V : Type} [DecidableEq P] [DecidableEq K]

/-! ## The recurrences -/

/-- The recurrence of conjugate gradients: the solutions `x k`, the search directions `p k`, their products `q k`, the residuals `r k`,
the squared norms `ρ k` and the curvatures `π k`.  `mv` is the product with the matrix. -/
structure CGRun {ι : Type} [Fintype ι] (A : Arith V) (mv : (ι → V) → ι → V) (x0 b : ι → V) (x p q r : Nat → ι → V) (ρ π : Nat → V) :
    Prop where
  x_zero : x 0 = x0
  r_zero : r 0 = b
  p_zero : p 0 = b
  rho : ∀ k, Sums A (∑ u, {A.mul (r k u) (r k u)}) (ρ k)
  product : ∀ k, q k = mv (p k)
  curvature : ∀ k, Sums A (∑ u, {A.mul (p k u) (q k u)}) (π k)
  x_succ : ∀ k u, x (k + 1) u = A.fma (A.div (ρ k) (π k)) (p k u) (x k u)
  r_succ : ∀ k u, r (k + 1) u = A.fma (A.div (A.mul (A.neg A.one) (ρ k)) (π k)) (q k u) (r k u)
  p_succ : ∀ k u, p (k + 1) u = A.fma (A.div (ρ (k + 1)) (ρ k)) (p k u) (r (k + 1) u)

/-- The recurrence of BiCGStab: the solutions `x k`, the search directions `p k`, their products `v k`, the residuals `r k`, the
intermediate residuals `h k` and their products `t k`; the recorded scalars `ρ k`, `α k`, `ω k`; the denominators `τ k` of `α`, and
numerators `ν k` and denominators `η k` of `ω`.  Step `k + 1` computes everything with index `k + 1` and `h k`. -/
structure BiRun {ι : Type} [Fintype ι] (A : Arith V) (mv : (ι → V) → ι → V) (x0 b : ι → V) (x p v r h t : Nat → ι → V)
    (ρ α ω τ ν η : Nat → V) : Prop where
  x_zero : x 0 = x0
  r_zero : r 0 = b
  p_zero : p 0 = fun _ => A.zero
  v_zero : v 0 = fun _ => A.zero
  rho_zero : ρ 0 = A.one
  alpha_zero : α 0 = A.zero
  omega_zero : ω 0 = A.one
  rho : ∀ k, Sums A (∑ u, {A.mul (r k u) (b u)}) (ρ (k + 1))
  p_succ : ∀ k u, p (k + 1) u = A.fma (A.mul (A.div (ρ (k + 1)) (ρ k)) (A.div (α k) (ω k)))
    (A.fma (A.neg (ω k)) (v k u) (p k u)) (r k u)
  product : ∀ k, v (k + 1) = mv (p (k + 1))
  tau : ∀ k, Sums A (∑ u, {A.mul (b u) (v (k + 1) u)}) (τ k)
  half : ∀ k u, h k u = A.fma (A.div (A.mul (A.neg A.one) (ρ (k + 1))) (τ k)) (v (k + 1) u) (r k u)
  alpha : ∀ k, α (k + 1) = A.div (ρ (k + 1)) (τ k)
  half_product : ∀ k, t k = mv (h k)
  nu : ∀ k, Sums A (∑ u, {A.mul (h k u) (t k u)}) (ν k)
  eta : ∀ k, Sums A (∑ u, {A.mul (t k u) (t k u)}) (η k)
  omega : ∀ k, ω (k + 1) = A.div (ν k) (η k)
  x_succ : ∀ k u, x (k + 1) u = A.fma (ω (k + 1)) (h k u) (A.fma (α (k + 1)) (p (k + 1) u) (x k u))
  r_succ : ∀ k u, r (k + 1) u = A.fma (A.neg (ω (k + 1))) (t k u) (h k u)

/-! ## The planner's view -/

/-- Vectors given by a list. -/
def lst {X : Type} (d : X) (L : List X) : Nat → X := fun k => L.getD k d

theorem View.set {G : Geometry P} {pl : Planner K P V} {nw : Nat} {s0 s : Cell P → V} {D : pl.U G → V} {L : List (pl.U G → V)} {d : Nat}
    {g : pl.U G → V} (v : View G pl nw s0 s (Function.update (lst D L) d g)) (h : d < L.length) : View G pl nw s0 s (lst D (L.set d g)) := by
  have : Function.update (lst D L) d g = lst D (L.set d g) := by
    funext k
    unfold lst
    by_cases e : k = d
    · subst e
      rw [Function.update_self, List.getD_eq_getElem?_getD, List.getElem?_set_self h]
      rfl
    · rw [Function.update_of_ne e, List.getD_eq_getElem?_getD, List.getD_eq_getElem?_getD, List.getElem?_set_ne (fun h => e h.symm)]
  rw [← this]; exact v

theorem View.lst {G : Geometry P} {pl : Planner K P V} {nw : Nat} {s0 s : Cell P → V} {x : Nat → pl.U G → V} (D : pl.U G → V)
    (v : View G pl nw s0 s x) : View G pl nw s0 s (lst D ((List.range (nw + 2)).map x)) := by
  refine ⟨fun k hk => ?_, v.out⟩
  rw [v.vec k hk]
  unfold Special.lst
  rw [List.getD_eq_getElem?_getD, List.getElem?_map, List.getElem?_range hk]
  rfl

variable {G : Geometry P} {pl pl' : Planner K P V} {A : Arith V}

/-- The planner's product. -/
def plannerProduct (A : Arith V) (G : Geometry P) (pl : Planner K P V) (y : pl.U G → V) (w : pl.U G) : V :=
  rowValue A G pl y (pl.stored w.1.1 w.1.2) A.zero

/-! ## CG -/

/-- What holds of the solver object between steps. -/
structure CGAlive (A : Arith V) (k : Nat) (c : CG Scalar) (n : Nat) (s : Cell P → V) : Prop where
  neg : Den n s c.negOne (A.neg A.one)
  len : c.older.length = k
  futs : ∀ a ∈ c.history, a.fut < n

/-- What a step does. -/
structure CGStep (A : Arith V) (G : Geometry P) (pl : Planner K P V) (c : CG Scalar) (n : Nat) (s : Cell P → V) (c' : CG Scalar)
    (n' : Nat) (s' : Cell P → V) (π : V) : Prop where
  ext : Ext n s n' s'
  hist : c'.history = c.history ++ [c'.last]
  rhs : pl.content G s' 1 = pl.content G s 1
  product : pl.content G s' 3 = plannerProduct A G pl (pl.content G s 2)
  curvature : Sums A (∑ u : pl.U G, {A.mul (pl.content G s 2 u) (pl.content G s' 3 u)}) π
  x : pl.content G s' 0 = fun u => A.fma (A.div (s (.fut c.last.fut)) π) (pl.content G s 2 u) (pl.content G s 0 u)
  r : pl.content G s' 4 = fun u => A.fma (A.div (A.mul (A.neg A.one) (s (.fut c.last.fut))) π) (pl.content G s' 3 u) (pl.content G s 4 u)
  rho : Sums A (∑ u : pl.U G, {A.mul (pl.content G s' 4 u) (pl.content G s' 4 u)}) (s' (.fut c'.last.fut))
  p : pl.content G s' 2 = fun u => A.fma (A.div (s' (.fut c'.last.fut)) (s (.fut c.last.fut))) (pl.content G s 2 u) (pl.content G s' 4 u)

theorem cg_step (R : Ready G pl 3) (hord : ∀ f l, (G.redOrder f l).Perm l) (hns : 0 < pl.spaces.length) {k : Nat} {c : CG Scalar} {n : Nat}
    {s : Cell P → V} (I : CGAlive A k c n s) :
    WP (CG.step (plannerOps A G.toEnv pl) c) n s fun c' n' s' => CGAlive A (k + 1) c' n' s' ∧ ∃ π, CGStep A G pl c n s c' n' s' π := by
  obtain ⟨hneg, hlen, hfuts⟩ := I
  have hlast : Den n s c.last (s (.fut c.last.fut)) := ⟨hfuts _ (by simp [CG.history]), rfl⟩
  generalize hρ : s (.fut c.last.fut) = ρ at hlast
  have v0 := View.lst (pl.content G s 0) (View.start G pl 3 s)
  simp only [show List.range (3 + 2) = [0, 1, 2, 3, 4] from rfl, List.map_cons, List.map_nil] at v0
  refine WP.bind (wp_matvec R v0 (by omega) (by omega) (by omega) fun s1 e1 v1 => ?_)
  have v1 := View.set v1 (by simp)
  refine WP.bind (wp_dot R hord hns v1 (by omega) (by omega) fun pn n2 s2 π e2 v2 d2 hπ => ?_)
  refine WP.bind (wp_axpy2 R v2 (by omega) (by omega) (show Den _ _ _ ρ by den) d2 fun s3 e3 v3 => ?_)
  have v3 := View.set v3 (by simp)
  refine WP.bind (wp_axpy3 R v3 (by omega) (by omega) (show Den _ _ _ (A.neg A.one) by den) (show Den _ _ _ ρ by den)
    (show Den _ _ _ π by den) fun s4 e4 v4 => ?_)
  have v4 := View.set v4 (by simp)
  refine WP.bind (wp_dot R hord hns v4 (by omega) (by omega) fun rn n5 s5 δ e5 v5 d5 hδ => ?_)
  refine WP.bind (wp_xpay2 R v5 (by omega) (by omega) d5 (show Den _ _ _ ρ by den) fun s6 e6 v6 => ?_)
  have v6 := View.set v6 (by simp)
  have E : Ext n s n5 s6 := e1.trans (e2.trans (e3.trans (e4.trans (e5.trans e6))))
  have dδ : s6 (.fut rn.fut) = δ := (e6.den d5).2
  refine WP.pure ⟨⟨E.den hneg, by simp [hlen], ?_⟩, π, E, by simp [CG.history], v6.vec 1 (by omega), v6.vec 3 (by omega), ?_, ?_, ?_, ?_, ?_⟩
  · intro a ha
    simp only [CG.history, List.mem_append, List.mem_singleton] at ha
    rcases ha with (ha | rfl) | rfl
    · exact Nat.lt_of_lt_of_le (hfuts a (by simp [CG.history, ha])) E.le
    · exact (E.den hlast).1
    · exact (e6.den d5).1
  · rw [v6.vec 3 (by omega)]
    exact hπ
  · rw [v6.vec 0 (by omega), hρ]
    rfl
  · rw [v6.vec 4 (by omega), v6.vec 3 (by omega), hρ]
    rfl
  · rw [v6.vec 4 (by omega)]
    show Sums _ _ (s6 (.fut rn.fut))
    rw [dδ]
    exact hδ
  · rw [v6.vec 2 (by omega), v6.vec 4 (by omega), hρ]
    show _ = fun u => A.fma (A.div (s6 (.fut rn.fut)) ρ) _ _
    rw [dδ]
    rfl

theorem cg_start (R : Ready G pl 3) (hord : ∀ f l, (G.redOrder f l).Perm l) (hns : 0 < pl.spaces.length) (n : Nat) (s : Cell P → V) :
    WP (CG.init (plannerOps A G.toEnv pl)) n s fun c n' s' => CGAlive A 0 c n' s' ∧
      pl.content G s' 0 = pl.content G s 0 ∧ pl.content G s' 2 = pl.content G s 1 ∧ pl.content G s' 4 = pl.content G s 1 ∧
      pl.content G s' 1 = pl.content G s 1 ∧
      Sums A (∑ u : pl.U G, {A.mul (pl.content G s' 4 u) (pl.content G s' 4 u)}) (s' (.fut c.last.fut)) := by
  have v0 := View.lst (pl.content G s 0) (View.start G pl 3 s)
  simp only [show List.range (3 + 2) = [0, 1, 2, 3, 4] from rfl, List.map_cons, List.map_nil] at v0
  refine WP.bind (wp_negOne v0 fun m1 n1 s1 e1 v1 d1 => ?_)
  refine WP.bind (wp_copy R v1 (by omega) (by omega) fun s2 e2 v2 => ?_)
  have v2 := View.set v2 (by simp)
  refine WP.bind (wp_copy R v2 (by omega) (by omega) fun s3 e3 v3 => ?_)
  have v3 := View.set v3 (by simp)
  refine WP.bind (wp_dot R hord hns v3 (by omega) (by omega) fun rr n4 s4 δ e4 v4 d4 hδ => ?_)
  refine WP.pure ⟨⟨by den, rfl, ?_⟩, v4.vec 0 (by omega), v4.vec 2 (by omega), v4.vec 4 (by omega), v4.vec 1 (by omega), ?_⟩
  · intro a ha
    simp only [CG.history, List.nil_append, List.mem_singleton] at ha
    subst ha
    exact d4.1
  · rw [d4.2, v4.vec 4 (by omega)]
    exact hδ

theorem cg_planner (A : Arith V) {base : Nat} (S : SolverSetup G pl pl' base 3) (n : Nat) (s : Cell P → V) :
    ∃ x p q r ρ π, CGRun A (plannerProduct A G pl') (pl'.content G s 0) (pl'.content G s 1) x p q r ρ π ∧
      ∀ k, Ensures (cg A G pl base k) n s fun c s' => pl'.content G s' 0 = x k ∧ pl'.content G s' 1 = pl'.content G s 1 ∧
        c.history.length = k + 1 ∧ ∀ (i : Nat) a, c.history[i]? = some a → s' (.fut a.fut) = ρ i := by
  obtain ⟨c0, n0, s0, hrun0, hal, hx0, hp0, hr0, hb0, hρ0⟩ := cg_start (A := A) S.ready S.order S.nonempty n s
  obtain ⟨f, hf0, hf⟩ := Verif.Rounding.exists_chain (X := CG Scalar × Nat × (Cell P → V))
    (fun k t => CGAlive A k t.1 t.2.1 t.2.2 ∧ pl'.content G t.2.2 1 = pl'.content G s 1 ∧
      Sums A (∑ u : pl'.U G, {A.mul (pl'.content G t.2.2 4 u) (pl'.content G t.2.2 4 u)}) (t.2.2 (.fut t.1.last.fut)))
    (fun t t' => Runs (CG.step (plannerOps A G.toEnv pl') t.1) t.2.1 t.2.2 t'.1 t'.2.1 t'.2.2 ∧
      ∃ π, CGStep A G pl' t.1 t.2.1 t.2.2 t'.1 t'.2.1 t'.2.2 π)
    (c0, n0, s0) ⟨hal, hb0, hρ0⟩ (by
      rintro k ⟨c, n1, s1⟩ ⟨I, h1, h2⟩
      obtain ⟨c', n', s', g1, g2, π, g3⟩ := cg_step S.ready S.order S.nonempty I
      exact ⟨(c', n', s'), ⟨g2, g3.rhs.trans h1, g3.rho⟩, g1, π, g3⟩)
  have hfin : ∀ j i, Runs (repeatM (CG.step (plannerOps A G.toEnv pl')) j (f i).1) (f i).2.1 (f i).2.2 (f (i + j)).1 (f (i + j)).2.1
      (f (i + j)).2.2 := by
    intro j
    induction j with
    | zero => intro i; exact Runs.pure _ _ _
    | succ j ih =>
      intro i
      have h := (hf i).2.1.bind (ih (i + 1))
      rw [show i + 1 + j = i + (j + 1) by omega] at h
      exact h
  have hsolve : ∀ k, Runs (CG.solve (plannerOps A G.toEnv pl') k) n s (f k).1 (f k).2.1 (f k).2.2 := by
    intro k
    have h := hfin k 0
    rw [Nat.zero_add, hf0] at h
    exact hrun0.bind h
  choose π hπ using fun k => (hf k).2.2
  have hhist : ∀ k (i : Nat) a, (f k).1.history[i]? = some a → (f k).2.2 (.fut a.fut) = (f i).2.2 (.fut (f i).1.last.fut) := by
    intro k
    induction k with
    | zero =>
      intro i a ha
      have hlen := (hf 0).1.1.len
      unfold CG.history at ha
      rw [List.eq_nil_of_length_eq_zero hlen, List.nil_append] at ha
      cases i with
      | zero => cases ha; rfl
      | succ i => simp at ha
    | succ k ih =>
      intro i a ha
      have hext := (hπ k).ext
      have hh := (hπ k).hist
      have hl : (f k).1.history.length = k + 1 := by unfold CG.history; rw [List.length_append, (hf k).1.1.len]; rfl
      rw [hh] at ha
      by_cases hi : i < k + 1
      · rw [List.getElem?_append_left (by omega)] at ha
        rw [hext.fut a.fut ((hf k).1.1.futs a (List.mem_of_getElem? ha))]
        exact ih i a ha
      · rw [List.getElem?_append_right (by omega), hl] at ha
        obtain rfl : i = k + 1 := by
          have := (List.getElem?_eq_some_iff.1 ha).1
          simp at this
          omega
        rw [Nat.sub_self] at ha
        cases ha
        rfl
  refine ⟨fun k => pl'.content G (f k).2.2 0, fun k => pl'.content G (f k).2.2 2, fun k => pl'.content G (f (k + 1)).2.2 3,
    fun k => pl'.content G (f k).2.2 4, fun k => (f k).2.2 (.fut (f k).1.last.fut), π, ?_, fun k => ?_⟩
  · refine ⟨by simp only [hf0]; exact hx0, by simp only [hf0]; exact hr0, by simp only [hf0]; exact hp0, fun k => (hf k).1.2.2,
      fun k => (hπ k).product, fun k => (hπ k).curvature, fun k u => congrFun (hπ k).x u, fun k u => congrFun (hπ k).r u,
      fun k u => congrFun (hπ k).p u⟩
  · refine WP.ensures (WP.allocate S.alloc ⟨_, _, _, hsolve k, rfl, (hf k).1.2.1, ?_, hhist k⟩)
    unfold CG.history
    rw [List.length_append, (hf k).1.1.len]
    rfl

/-! ## BiCGStab -/

/-- All recorded values, oldest first. -/
structure BiAlive (A : Arith V) (G : Geometry P) (pl : Planner K P V) (k : Nat) (b : pl.U G → V) (c : BiCGStab Scalar) (n : Nat)
    (s : Cell P → V) : Prop where
  rhs : pl.content G s 1 = b
  shadow : pl.content G s 4 = b
  neg : Den n s c.negOne (A.neg A.one)
  len : c.rhos.length = k ∧ c.alphas.length = k ∧ c.omegas.length = k
  futs : ∀ a ∈ c.rhos ++ [c.rho] ++ (c.alphas ++ [c.alpha]) ++ (c.omegas ++ [c.omega]), a.fut < n

/-- What a step does. -/
structure BiStep (A : Arith V) (G : Geometry P) (pl : Planner K P V) (b : pl.U G → V) (c : BiCGStab Scalar) (n : Nat) (s : Cell P → V)
    (c' : BiCGStab Scalar) (n' : Nat) (s' : Cell P → V) (h : pl.U G → V) (τ ν η : V) : Prop where
  ext : Ext n s n' s'
  rhos : c'.rhos = c.rhos ++ [c.rho]
  alphas : c'.alphas = c.alphas ++ [c.alpha]
  omegas : c'.omegas = c.omegas ++ [c.omega]
  rho : Sums A (∑ u : pl.U G, {A.mul (pl.content G s 3 u) (b u)}) (s' (.fut c'.rho.fut))
  p : pl.content G s' 2 = fun u => A.fma (A.mul (A.div (s' (.fut c'.rho.fut)) (s (.fut c.rho.fut)))
    (A.div (s (.fut c.alpha.fut)) (s (.fut c.omega.fut)))) (A.fma (A.neg (s (.fut c.omega.fut))) (pl.content G s 6 u) (pl.content G s 2 u))
    (pl.content G s 3 u)
  product : pl.content G s' 6 = plannerProduct A G pl (pl.content G s' 2)
  tau : Sums A (∑ u : pl.U G, {A.mul (b u) (pl.content G s' 6 u)}) τ
  half : h = fun u => A.fma (A.div (A.mul (A.neg A.one) (s' (.fut c'.rho.fut))) τ) (pl.content G s' 6 u) (pl.content G s 3 u)
  alpha : s' (.fut c'.alpha.fut) = A.div (s' (.fut c'.rho.fut)) τ
  halfProduct : pl.content G s' 5 = plannerProduct A G pl h
  nu : Sums A (∑ u : pl.U G, {A.mul (h u) (pl.content G s' 5 u)}) ν
  eta : Sums A (∑ u : pl.U G, {A.mul (pl.content G s' 5 u) (pl.content G s' 5 u)}) η
  omega : s' (.fut c'.omega.fut) = A.div ν η
  x : pl.content G s' 0 = fun u => A.fma (s' (.fut c'.omega.fut)) (h u)
    (A.fma (s' (.fut c'.alpha.fut)) (pl.content G s' 2 u) (pl.content G s 0 u))
  r : pl.content G s' 3 = fun u => A.fma (A.neg (s' (.fut c'.omega.fut))) (pl.content G s' 5 u) (h u)

theorem bi_step (R : Ready G pl 5) (hord : ∀ f l, (G.redOrder f l).Perm l) (hns : 0 < pl.spaces.length) {k : Nat} {b : pl.U G → V}
    {c : BiCGStab Scalar} {n : Nat} {s : Cell P → V} (I : BiAlive A G pl k b c n s) :
    WP (BiCGStab.step (plannerOps A G.toEnv pl) c) n s fun c' n' s' => BiAlive A G pl (k + 1) b c' n' s' ∧
      ∃ h τ ν η, BiStep A G pl b c n s c' n' s' h τ ν η := by
  obtain ⟨hb, hb4, hneg, hlen, hfuts⟩ := I
  have drho : Den n s c.rho (s (.fut c.rho.fut)) := ⟨hfuts _ (by simp), rfl⟩
  have dalpha : Den n s c.alpha (s (.fut c.alpha.fut)) := ⟨hfuts _ (by simp), rfl⟩
  have domega : Den n s c.omega (s (.fut c.omega.fut)) := ⟨hfuts _ (by simp), rfl⟩
  generalize hρ : s (.fut c.rho.fut) = ρ at drho
  generalize hα : s (.fut c.alpha.fut) = α at dalpha
  generalize hω : s (.fut c.omega.fut) = ω at domega
  have v0 := View.lst (pl.content G s 0) (View.start G pl 5 s)
  simp only [show List.range (5 + 2) = [0, 1, 2, 3, 4, 5, 6] from rfl, List.map_cons, List.map_nil] at v0
  rw [hb, hb4] at v0
  refine WP.bind (wp_dot R hord hns v0 (by omega) (by omega) fun a1 n1 s1 ρ' e1 v1 d1 hρ' => ?_)
  refine WP.bind (wp_div v1 d1 (show Den _ _ _ ρ by den) fun a2 n2 s2 e2 v2 d2 => ?_)
  refine WP.bind (wp_div v2 (show Den _ _ _ α by den) (show Den _ _ _ ω by den) fun a3 n3 s3 e3 v3 d3 => ?_)
  refine WP.bind (wp_mul v3 (show Den _ _ _ (A.div ρ' ρ) by den) d3 fun a4 n4 s4 e4 v4 d4 => ?_)
  refine WP.bind (wp_neg v4 (show Den _ _ _ ω by den) fun a5 n5 s5 e5 v5 d5 => ?_)
  refine WP.bind (wp_axpy R v5 (by omega) (by omega) d5 fun s6 e6 v6 => ?_)
  have v6 := View.set v6 (by simp)
  refine WP.bind (wp_xpay R v6 (by omega) (by omega) (show Den _ _ _ (A.mul (A.div ρ' ρ) (A.div α ω)) by den) fun s7 e7 v7 => ?_)
  have v7 := View.set v7 (by simp)
  refine WP.bind (wp_matvec R v7 (by omega) (by omega) (by omega) fun s8 e8 v8 => ?_)
  have v8 := View.set v8 (by simp)
  refine WP.bind (wp_dot R hord hns v8 (by omega) (by omega) fun a9 n9 s9 τ e9 v9 d9 hτ => ?_)
  refine WP.bind (wp_axpy3 R v9 (by omega) (by omega) (show Den _ _ _ (A.neg A.one) by den) (show Den _ _ _ ρ' by den)
    (show Den _ _ _ τ by den) fun s10 e10 v10 => ?_)
  have v10 := View.set v10 (by simp)
  refine WP.bind (wp_div v10 (show Den _ _ _ ρ' by den) (show Den _ _ _ τ by den) fun a11 n11 s11 e11 v11 d11 => ?_)
  refine WP.bind (wp_matvec R v11 (by omega) (by omega) (by omega) fun s12 e12 v12 => ?_)
  have v12 := View.set v12 (by simp)
  refine WP.bind (wp_dot R hord hns v12 (by omega) (by omega) fun a13 n13 s13 ν e13 v13 d13 hν => ?_)
  refine WP.bind (wp_dot R hord hns v13 (by omega) (by omega) fun a14 n14 s14 η e14 v14 d14 hη => ?_)
  refine WP.bind (wp_div v14 (show Den _ _ _ ν by den) d14 fun a15 n15 s15 e15 v15 d15 => ?_)
  refine WP.bind (wp_axpy R v15 (by omega) (by omega) (show Den _ _ _ (A.div ρ' τ) by den) fun s16 e16 v16 => ?_)
  have v16 := View.set v16 (by simp)
  refine WP.bind (wp_axpy R v16 (by omega) (by omega) (show Den _ _ _ (A.div ν η) by den) fun s17 e17 v17 => ?_)
  have v17 := View.set v17 (by simp)
  refine WP.bind (wp_neg v17 (show Den _ _ _ (A.div ν η) by den) fun a18 n18 s18 e18 v18 d18 => ?_)
  refine WP.bind (wp_axpy R v18 (by omega) (by omega) d18 fun s19 e19 v19 => ?_)
  have v19 := View.set v19 (by simp)
  have dρ' : Den n18 s19 a1 ρ' := by den
  have dα' : Den n18 s19 a11 (A.div ρ' τ) := by den
  have dω' : Den n18 s19 a15 (A.div ν η) := by den
  have E : Ext n s n18 s19 := e1.trans (e2.trans (e3.trans (e4.trans (e5.trans (e6.trans (e7.trans (e8.trans (e9.trans (e10.trans
    (e11.trans (e12.trans (e13.trans (e14.trans (e15.trans (e16.trans (e17.trans (e18.trans e19)))))))))))))))))
  refine WP.pure ⟨⟨v19.vec 1 (by omega), v19.vec 4 (by omega), E.den hneg, by simp [hlen], ?_⟩,
    fun u => A.fma (A.div (A.mul (A.neg A.one) ρ') τ) (pl.content G s19 6 u) (pl.content G s 3 u), τ, ν, η, E, rfl, rfl, rfl, ?_, ?_, ?_, ?_, ?_,
      ?_, ?_, ?_, ?_, ?_, ?_, ?_⟩
  · intro a ha
    have h0 : ∀ a ∈ c.rhos ++ [c.rho] ++ (c.alphas ++ [c.alpha]) ++ (c.omegas ++ [c.omega]), a.fut < n18 := fun a ha =>
      Nat.lt_of_lt_of_le (hfuts a ha) E.le
    simp only [List.mem_append, List.mem_singleton] at ha h0
    rcases ha with ((h | rfl) | (h | rfl)) | (h | rfl)
    · exact h0 a (Or.inl (Or.inl h))
    · exact dρ'.1
    · exact h0 a (Or.inl (Or.inr h))
    · exact dα'.1
    · exact h0 a (Or.inr h)
    · exact dω'.1
  · show Sums _ _ (s19 (.fut a1.fut))
    rw [dρ'.2]
    exact hρ'
  · rw [v19.vec 2 (by omega), hρ, hα, hω]
    show _ = fun u => A.fma (A.mul (A.div (s19 (.fut a1.fut)) ρ) _) _ _
    rw [dρ'.2]
    rfl
  · rw [v19.vec 6 (by omega), v19.vec 2 (by omega)]
    rfl
  · rw [v19.vec 6 (by omega)]
    exact hτ
  · show _ = fun u => A.fma (A.div (A.mul (A.neg A.one) (s19 (.fut a1.fut))) τ) _ _
    rw [dρ'.2]
  · show s19 (.fut a11.fut) = A.div (s19 (.fut a1.fut)) τ
    rw [dρ'.2, dα'.2]
  · rw [v19.vec 5 (by omega), v19.vec 6 (by omega)]
    rfl
  · rw [v19.vec 5 (by omega), v19.vec 6 (by omega)]
    exact hν
  · rw [v19.vec 5 (by omega)]
    exact hη
  · exact dω'.2
  · show _ = fun u => A.fma (s19 (.fut a15.fut)) _ (A.fma (s19 (.fut a11.fut)) _ _)
    rw [dω'.2, dα'.2, v19.vec 0 (by omega), v19.vec 6 (by omega), v19.vec 2 (by omega)]
    rfl
  · show _ = fun u => A.fma (A.neg (s19 (.fut a15.fut))) _ _
    rw [dω'.2, v19.vec 3 (by omega), v19.vec 5 (by omega), v19.vec 6 (by omega)]
    rfl

theorem bi_start (R : Ready G pl 5) (n : Nat) (s : Cell P → V) :
    WP (BiCGStab.init (plannerOps A G.toEnv pl)) n s fun c n' s' => BiAlive A G pl 0 (pl.content G s 1) c n' s' ∧
      pl.content G s' 0 = pl.content G s 0 ∧ (pl.content G s' 2 = fun _ => A.zero) ∧ pl.content G s' 3 = pl.content G s 1 ∧
      (pl.content G s' 6 = fun _ => A.zero) ∧ s' (.fut c.rho.fut) = A.one ∧ s' (.fut c.alpha.fut) = A.zero ∧
      s' (.fut c.omega.fut) = A.one := by
  have v0 := View.lst (pl.content G s 0) (View.start G pl 5 s)
  simp only [show List.range (5 + 2) = [0, 1, 2, 3, 4, 5, 6] from rfl, List.map_cons, List.map_nil] at v0
  refine WP.bind (wp_negOne v0 fun m1 n1 s1 e1 v1 d1 => ?_)
  refine WP.bind (wp_zero v1 fun m2 n2 s2 e2 v2 d2 => ?_)
  refine WP.bind (wp_one v2 fun m3 n3 s3 e3 v3 d3 => ?_)
  refine WP.bind (wp_copy R v3 (by omega) (by omega) fun s4 e4 v4 => ?_)
  have v4 := View.set v4 (by simp)
  refine WP.bind (wp_copy R v4 (by omega) (by omega) fun s5 e5 v5 => ?_)
  have v5 := View.set v5 (by simp)
  refine WP.bind (wp_zeroFill R v5 (by omega) fun s6 e6 v6 => ?_)
  have v6 := View.set v6 (by simp)
  refine WP.bind (wp_zeroFill R v6 (by omega) fun s7 e7 v7 => ?_)
  have v7 := View.set v7 (by simp)
  have dz : Den n3 s7 m2 A.zero := by den
  have d1 : Den n3 s7 m3 A.one := by den
  refine WP.pure ⟨⟨v7.vec 1 (by omega), v7.vec 4 (by omega), by den, ⟨rfl, rfl, rfl⟩, ?_⟩, v7.vec 0 (by omega), v7.vec 2 (by omega),
    v7.vec 3 (by omega), v7.vec 6 (by omega), d1.2, dz.2, d1.2⟩
  intro a ha
  simp at ha
  rcases ha with rfl | rfl | rfl
  · exact d1.1
  · exact dz.1
  · exact d1.1

theorem recorded {X : Type} {f : Nat → X} {hist : X → List Scalar} {last : X → Scalar} {val : X → Scalar → V}
    (hlen : ∀ k, (hist (f k)).length = k) (hnext : ∀ k, hist (f (k + 1)) = hist (f k) ++ [last (f k)])
    (hkeep : ∀ k, ∀ a ∈ hist (f k) ++ [last (f k)], val (f (k + 1)) a = val (f k) a) :
    ∀ k (i : Nat) a, (hist (f k) ++ [last (f k)])[i]? = some a → val (f k) a = val (f i) (last (f i)) := by
  intro k
  induction k with
  | zero =>
    intro i a ha
    rw [List.eq_nil_of_length_eq_zero (hlen 0), List.nil_append] at ha
    cases i with
    | zero => cases ha; rfl
    | succ i => simp at ha
  | succ k ih =>
    intro i a ha
    have hl : (hist (f k) ++ [last (f k)]).length = k + 1 := by rw [List.length_append, hlen]; rfl
    rw [hnext] at ha
    by_cases hi : i < k + 1
    · rw [List.getElem?_append_left (by omega)] at ha
      rw [hkeep k a (List.mem_of_getElem? ha)]
      exact ih i a ha
    · rw [List.getElem?_append_right (by omega), hl] at ha
      obtain rfl : i = k + 1 := by
        have := (List.getElem?_eq_some_iff.1 ha).1
        simp at this
        omega
      rw [Nat.sub_self] at ha
      cases ha
      rfl

theorem bi_planner (A : Arith V) {base : Nat} (S : SolverSetup G pl pl' base 5) (n : Nat) (s : Cell P → V) :
    ∃ x p v r h t ρ α ω τ ν η,
      BiRun A (plannerProduct A G pl') (pl'.content G s 0) (pl'.content G s 1) x p v r h t ρ α ω τ ν η ∧
      ∀ k, Ensures (biCGStab A G pl base k) n s fun c s' => pl'.content G s' 0 = x k ∧ pl'.content G s' 1 = pl'.content G s 1 ∧
        (c.rhos.length = k ∧ c.alphas.length = k ∧ c.omegas.length = k) ∧
        (∀ (i : Nat) a, (c.rhos ++ [c.rho])[i]? = some a → s' (.fut a.fut) = ρ i) ∧
        (∀ (i : Nat) a, (c.alphas ++ [c.alpha])[i]? = some a → s' (.fut a.fut) = α i) ∧
        ∀ (i : Nat) a, (c.omegas ++ [c.omega])[i]? = some a → s' (.fut a.fut) = ω i := by
  obtain ⟨c0, n0, s0, hrun0, hal, hx0, hp0, hr0, hv0, hρ0, hα0, hω0⟩ := bi_start (A := A) S.ready n s
  obtain ⟨f, hf0, hf⟩ := Verif.Rounding.exists_chain (X := BiCGStab Scalar × Nat × (Cell P → V))
    (fun k t => BiAlive A G pl' k (pl'.content G s 1) t.1 t.2.1 t.2.2)
    (fun t t' => Runs (BiCGStab.step (plannerOps A G.toEnv pl') t.1) t.2.1 t.2.2 t'.1 t'.2.1 t'.2.2 ∧
      ∃ h τ ν η, BiStep A G pl' (pl'.content G s 1) t.1 t.2.1 t.2.2 t'.1 t'.2.1 t'.2.2 h τ ν η)
    (c0, n0, s0) hal (by
      rintro k ⟨c, n1, s1⟩ I
      obtain ⟨c', n', s', g1, g2, g3⟩ := bi_step S.ready S.order S.nonempty I
      exact ⟨(c', n', s'), g2, g1, g3⟩)
  have hfin : ∀ j i, Runs (repeatM (BiCGStab.step (plannerOps A G.toEnv pl')) j (f i).1) (f i).2.1 (f i).2.2 (f (i + j)).1 (f (i + j)).2.1
      (f (i + j)).2.2 := by
    intro j
    induction j with
    | zero => intro i; exact Runs.pure _ _ _
    | succ j ih =>
      intro i
      have h := (hf i).2.1.bind (ih (i + 1))
      rw [show i + 1 + j = i + (j + 1) by omega] at h
      exact h
  have hsolve : ∀ k, Runs (BiCGStab.solve (plannerOps A G.toEnv pl') k) n s (f k).1 (f k).2.1 (f k).2.2 := by
    intro k
    have h := hfin k 0
    rw [Nat.zero_add, hf0] at h
    exact hrun0.bind h
  choose h τ ν η hs using fun k => (hf k).2.2
  have hkeep : ∀ k, ∀ a ∈ (f k).1.rhos ++ [(f k).1.rho] ++ ((f k).1.alphas ++ [(f k).1.alpha]) ++ ((f k).1.omegas ++ [(f k).1.omega]),
      (f (k + 1)).2.2 (.fut a.fut) = (f k).2.2 (.fut a.fut) := fun k a ha => (hs k).ext.fut _ ((hf k).1.futs a ha)
  refine ⟨fun k => pl'.content G (f k).2.2 0, fun k => pl'.content G (f k).2.2 2, fun k => pl'.content G (f k).2.2 6,
    fun k => pl'.content G (f k).2.2 3, h, fun k => pl'.content G (f (k + 1)).2.2 5, fun k => (f k).2.2 (.fut (f k).1.rho.fut),
    fun k => (f k).2.2 (.fut (f k).1.alpha.fut), fun k => (f k).2.2 (.fut (f k).1.omega.fut), τ, ν, η, ?_, fun k => ?_⟩
  · refine ⟨?_, ?_, ?_, ?_, ?_, ?_, ?_, fun k => (hs k).rho, fun k u => congrFun (hs k).p u, fun k => (hs k).product, fun k => (hs k).tau,
      fun k u => congrFun (hs k).half u, fun k => (hs k).alpha, fun k => (hs k).halfProduct, fun k => (hs k).nu, fun k => (hs k).eta,
      fun k => (hs k).omega, fun k u => congrFun (hs k).x u, fun k u => congrFun (hs k).r u⟩
    all_goals simp only [hf0]; assumption
  · refine WP.ensures (WP.allocate S.alloc ⟨_, _, _, hsolve k, rfl, (hf k).1.rhs, (hf k).1.len, ?_, ?_, ?_⟩)
    · exact recorded (f := f) (hist := fun t => t.1.rhos) (last := fun t => t.1.rho) (val := fun t a => t.2.2 (.fut a.fut))
        (fun k => (hf k).1.len.1) (fun k => (hs k).rhos)
        (fun k a ha => hkeep k a (List.mem_append_left _ (List.mem_append_left _ ha))) k
    · exact recorded (f := f) (hist := fun t => t.1.alphas) (last := fun t => t.1.alpha) (val := fun t a => t.2.2 (.fut a.fut))
        (fun k => (hf k).1.len.2.1) (fun k => (hs k).alphas)
        (fun k a ha => hkeep k a (List.mem_append_left _ (List.mem_append_right _ ha))) k
    · exact recorded (f := f) (hist := fun t => t.1.omegas) (last := fun t => t.1.omega) (val := fun t a => t.2.2 (.fut a.fut))
        (fun k => (hf k).1.len.2.2) (fun k => (hs k).omegas)
        (fun k a ha => hkeep k a (List.mem_append_right _ ha)) k

end Verif.Special
