import Verif.Rounding.Client

/-! # C61: BiCGStab in floating-point arithmetic -/
set_option linter.dupNamespace false
set_option linter.unusedSectionVars false
namespace Verif.Rounding
open Verif.Runtime Verif.Vector Verif.Matrix Verif.Planner Verif.Solver
open scoped _root_.Matrix
variable {K P : Type} [DecidableEq P] [DecidableEq K] {u : ℝ} {A : Arith ℝ}
variable {G : Geometry P} {pl pl' : Planner K P ℝ} {nw : Nat}

section
variable {s0 s : Cell P → ℝ} {x : Nat → pl.U G → ℝ} {n : Nat}
variable {Φ : Unit → Nat → (Cell P → ℝ) → Prop} {Ψ : Scalar → Nat → (Cell P → ℝ) → Prop}

theorem wp_axpy (A : Arith ℝ) (R : Ready G pl nw) (v : View G pl nw s0 s x) {d y : Nat} (hd : d < nw + 2) (hy : y < nw + 2)
    {a : Scalar} {α : ℝ} (da : Den n s a α)
    (k : ∀ s', Ext n s n s' → View G pl nw s0 s' (Function.update x d fun w => A.fma α (x y w) (x d w)) → Φ () n s') :
    WP (pl.axpy A G.toEnv d a y) n s Φ := by
  obtain ⟨s', h1, h2⟩ := Runs.pAxpy R A hd hy a n s
  refine ⟨_, _, s', h1, k s' (BlockSet.ext h2) (v.block R hd h2 _ (fun w => ?_))⟩
  show A.fma (s (.fut a.fut)) (pl.content G s y w) (pl.content G s d w) = _
  rw [da.2, v.vec d hd, v.vec y hy]

theorem wp_xpay (A : Arith ℝ) (R : Ready G pl nw) (v : View G pl nw s0 s x) {d y : Nat} (hd : d < nw + 2) (hy : y < nw + 2)
    {a : Scalar} {α : ℝ} (da : Den n s a α)
    (k : ∀ s', Ext n s n s' → View G pl nw s0 s' (Function.update x d fun w => A.fma α (x d w) (x y w)) → Φ () n s') :
    WP (pl.xpay A G.toEnv d a y) n s Φ := by
  obtain ⟨s', h1, h2⟩ := Runs.pXpay R A hd hy a n s
  refine ⟨_, _, s', h1, k s' (BlockSet.ext h2) (v.block R hd h2 _ (fun w => ?_))⟩
  show A.fma (s (.fut a.fut)) (pl.content G s d w) (pl.content G s y w) = _
  rw [da.2, v.vec d hd, v.vec y hy]

theorem wp_zeroFill (A : Arith ℝ) (R : Ready G pl nw) (v : View G pl nw s0 s x) {d : Nat} (hd : d < nw + 2)
    (k : ∀ s', Ext n s n s' → View G pl nw s0 s' (Function.update x d fun _ => A.zero) → Φ () n s') :
    WP (pl.zeroFill A G.toEnv d) n s Φ := by
  obtain ⟨s', h1, h2⟩ := Runs.pZeroFill R A hd n s
  exact ⟨_, _, s', h1, k s' (BlockSet.ext h2) (v.block R hd h2 _ fun _ => rfl)⟩

end

/-! ## One step -/

/-- The step of the solver up to the new intermediate residual: returns the numerator and the denominator of `α`. -/
def biPrefix {m : Type → Type} [Monad m] {S : Type} (O : Ops m S) (c : BiCGStab S) : m (S × S) := do
  let rhoNew ← O.dot 3 4
  let q1 ← O.div rhoNew c.rho
  let q2 ← O.div c.alpha c.omega
  let beta ← O.mul q1 q2
  let negOmega ← O.neg c.omega
  O.axpy 2 negOmega 6
  O.xpay 2 beta 3
  O.matvec 6 2
  let temp ← O.dot 4 6
  O.axpy3 3 c.negOne rhoNew temp 6
  pure (rhoNew, temp)

/-- The rest of the step. -/
def biSuffix {m : Type → Type} [Monad m] {S : Type} (O : Ops m S) (c : BiCGStab S) (t : S × S) : m (BiCGStab S) := do
  let alpha ← O.div t.1 t.2
  O.matvec 5 3
  let rAnorm2 ← O.dot 3 5
  let uNorm2 ← O.dot 5 5
  let omega ← O.div rAnorm2 uNorm2
  O.axpy 0 alpha 2
  O.axpy 0 omega 3
  let negOmega' ← O.neg omega
  O.axpy 3 negOmega' 5
  pure { c with
    rhos := c.rhos ++ [c.rho], rho := t.1
    alphas := c.alphas ++ [c.alpha], alpha := alpha
    omegas := c.omegas ++ [c.omega], omega := omega }

/-- Half a step, with the first half of the update of the solution: returns the denominator of `α`. -/
def biHalfStep {m : Type → Type} [Monad m] {S : Type} (O : Ops m S) (c : BiCGStab S) : m S := do
  let t ← biPrefix O c
  let alpha ← O.div t.1 t.2
  O.axpy 0 alpha 2
  pure t.2

/-- What holds of the solver object between steps. -/
structure BiAlive (G : Geometry P) (pl : Planner K P ℝ) (b : pl.U G → ℝ) (c : BiCGStab Scalar) (n : Nat) (s : Cell P → ℝ) : Prop where
  rhs : pl.content G s 1 = b
  shadow : pl.content G s 4 = b
  neg : Den n s c.negOne (-1)
  rho : c.rho.fut < n
  alpha : c.alpha.fut < n
  omega : c.omega.fut < n

theorem bi_step (hA : Rounded u A) (hu1 : u < 1) (R : Ready G pl 5) (hord : ∀ f l, (G.redOrder f l).Perm l) {L N : Nat}
    (hcut : Cut G pl L N) (hns : 0 < pl.spaces.length) {m : Nat} (hm : ∀ v : pl.U G, (pl.stored v.1.1 v.1.2).length ≤ m)
    {b : pl.U G → ℝ} {c : BiCGStab Scalar} {n : Nat} {s : Cell P → ℝ} (I : BiAlive G pl b c n s) :
    ∃ t n1 s1, Runs (biHalfStep (plannerOps A G.toEnv pl) c) n s t n1 s1 ∧
      Near u (L + N + pl.spaces.length + (1 + m)) (s1 (.fut t.fut)) (b ⬝ᵥ pl.operator G *ᵥ pl.content G s1 2)
        (vabs b ⬝ᵥ absOperator G pl *ᵥ vabs (pl.content G s1 2)) ∧
      (pl.content G s 2 = 0 → pl.content G s 6 = 0 → ∀ v, |pl.content G s1 2 v - pl.content G s 3 v| ≤ u * |pl.content G s 3 v|) ∧
      WP (BiCGStab.step (plannerOps A G.toEnv pl) c) n s fun c' n' s' => BiAlive G pl b c' n' s' ∧ Ext n s n' s' ∧
        (s1 (.fut t.fut) ≠ 0 → ∀ v,
          |(pl.operator G *ᵥ (pl.content G s1 0 - pl.content G s 0)) v + (pl.content G s1 3 v - pl.content G s 3 v)| ≤
            gapTerm u m (absOperator G pl) (pl.content G s 0) (pl.content G s1 0) (pl.content G s1 3) v) ∧
        ∀ v, |(pl.operator G *ᵥ (pl.content G s' 0 - pl.content G s1 0)) v + (pl.content G s' 3 v - pl.content G s1 3 v)| ≤
            gapTerm u m (absOperator G pl) (pl.content G s1 0) (pl.content G s' 0) (pl.content G s' 3) v := by
  obtain ⟨hb, hb4, hneg, h1, h2, h3⟩ := I
  have drho : Den n s c.rho (s (.fut c.rho.fut)) := ⟨h1, rfl⟩
  have dalpha : Den n s c.alpha (s (.fut c.alpha.fut)) := ⟨h2, rfl⟩
  have domega : Den n s c.omega (s (.fut c.omega.fut)) := ⟨h3, rfl⟩
  generalize s (.fut c.rho.fut) = ρ at drho
  generalize s (.fut c.alpha.fut) = α at dalpha
  generalize s (.fut c.omega.fut) = ω at domega
  have v0 := (View.start G pl 5 s).toList
  generalize hx : pl.content G s 0 = x at v0 ⊢
  generalize hr : pl.content G s 3 = r at v0 ⊢
  have v0 : View G pl 5 s s (vecs [x, b, pl.content G s 2, r, b, pl.content G s 5, pl.content G s 6]) := by
    rw [← hx, ← hr]
    nth_rewrite 1 [← hb]
    rw [← hb4]
    exact (View.start G pl 5 s).toList
  have hpre : WP (biPrefix (plannerOps A G.toEnv pl) c) n s fun t n1 s1 => ∃ p q ρ' τ, Ext n s n1 s1 ∧
      View G pl 5 s s1 (vecs [x, b, p, fun w => A.fma (A.div (A.mul (-1) ρ') τ) (q w) (r w), b, pl.content G s 5, q]) ∧
      Den n1 s1 t.1 ρ' ∧ Den n1 s1 t.2 τ ∧ Near u (L + N + pl.spaces.length) τ (b ⬝ᵥ q) (vabs b ⬝ᵥ vabs q) ∧
      (pl.content G s 2 = 0 → pl.content G s 6 = 0 → ∀ w, |p w - r w| ≤ u * |r w|) ∧
      ∀ w, Near u (1 + m) (q w) ((pl.operator G *ᵥ p) w) ((absOperator G pl *ᵥ vabs p) w) := by
    refine WP.bind (wp_dot hA R hord hcut hns v0 (by omega) (by omega) fun rn n1 s1 ρ' e1 v1 d1 _ => ?_)
    refine WP.bind (WP.newScalar (Runs.binary A.div rn c.rho n1 s1) v1 fun q1 n2 s2 e2 v2 d2 => ?_)
    refine WP.bind (WP.newScalar (Runs.binary A.div c.alpha c.omega n2 s2) v2 fun q2 n3 s3 e3 v3 d3 => ?_)
    refine WP.bind (WP.newScalar (Runs.binary A.mul q1 q2 n3 s3) v3 fun be n4 s4 e4 v4 d4 => ?_)
    refine WP.bind (WP.newScalar (Runs.unary A.neg c.omega n4 s4) v4 fun no n5 s5 e5 v5 d5 => ?_)
    refine WP.bind (wp_axpy A R v5 (by omega) (by omega) d5 fun s6 e6 v6 => ?_)
    have v6 := v6.list (by simp)
    refine WP.bind (wp_xpay A R v6 (by omega) (by omega) (e6.den (e5.den d4)) fun s7 e7 v7 => ?_)
    have v7 := v7.list (by simp)
    refine WP.bind (wp_matvec hA R hm v7 (by omega) (by omega) (by omega) fun s8 q e8 v8 hq => ?_)
    have v8 := v8.list (by simp)
    refine WP.bind (wp_dot hA R hord hcut hns v8 (by omega) (by omega) fun te n9 s9 τ e9 v9 d9 hd9 => ?_)
    have dn : Den n9 s9 rn ρ' := e9.den (e8.den (e7.den (e6.den (e5.den (e4.den (e3.den (e2.den d1)))))))
    have E : Ext n s n9 s9 := e1.trans (e2.trans (e3.trans (e4.trans (e5.trans (e6.trans (e7.trans (e8.trans e9)))))))
    refine WP.bind (wp_axpy3 A R v9 (by omega) (by omega) (E.den hneg) dn d9 fun s10 e10 v10 => ?_)
    have v10 := v10.list (by simp)
    refine WP.pure ⟨_, q, ρ', τ, E.trans e10, v10, e10.den dn, e10.den d9, hd9, fun hz2 hz6 w => ?_, hq⟩
    have h5 : A.fma (A.neg (s4 (.fut c.omega.fut))) (pl.content G s 6 w) (pl.content G s 2 w) = 0 := by
      have h6 := hA.fma (A.neg (s4 (.fut c.omega.fut))) (pl.content G s 6 w) (pl.content G s 2 w)
      rw [hz2, hz6, Pi.zero_apply, mul_zero, add_zero, abs_zero, mul_zero, sub_zero] at h6
      rw [hz2, hz6]
      exact abs_nonpos_iff.1 h6
    have h7 := hA.fma (A.mul (s3 (.fut q1.fut)) (s3 (.fut q2.fut)))
      (A.fma (A.neg (s4 (.fut c.omega.fut))) (pl.content G s 6 w) (pl.content G s 2 w)) (r w)
    rw [h5, mul_zero, zero_add] at h7
    show |A.fma _ (A.fma _ (pl.content G s 6 w) (pl.content G s 2 w)) (r w) - r w| ≤ _
    rw [h5]
    exact h7
  obtain ⟨t, n1, s1, hrun, p, q, ρ', τ, E, v1, dn, dt, hnτ, hp1, hq⟩ := hpre
  set r1 : pl.U G → ℝ := fun w => A.fma (A.div (A.mul (-1) ρ') τ) (q w) (r w) with hr1
  have hhalf : WP (biHalfStep (plannerOps A G.toEnv pl) c) n s fun t' _ s' => s' (.fut t'.fut) = τ ∧
      pl.content G s' 0 = (fun w => A.fma (A.div ρ' τ) (p w) (x w)) ∧ pl.content G s' 2 = p ∧ pl.content G s' 3 = r1 := by
    refine WP.bind ⟨t, n1, s1, hrun, ?_⟩
    refine WP.bind (WP.newScalar (Runs.binary A.div t.1 t.2 n1 s1) v1 fun al n2 s2 e2 v2 d2 => ?_)
    rw [dn.2, dt.2] at d2
    refine WP.bind (wp_axpy A R v2 (by omega) (by omega) d2 fun s3 e3 v3 => ?_)
    have v3 := v3.list (by simp)
    exact WP.pure ⟨(e3.den (e2.den dt)).2, v3.vec 0 (by omega), v3.vec 2 (by omega), v3.vec 3 (by omega)⟩
  obtain ⟨t', nh, sh, hrunh, hτ, hx1, hp2, hs1⟩ := hhalf
  refine ⟨t', nh, sh, hrunh, by rw [hτ, hp2]; exact near_dotProduct hA.nonneg hnτ hq, by rw [hp2]; exact hp1, ?_⟩
  have hsplit : BiCGStab.step (plannerOps A G.toEnv pl) c =
      (biPrefix (plannerOps A G.toEnv pl) c >>= biSuffix (plannerOps A G.toEnv pl) c) := by
    unfold BiCGStab.step biPrefix biSuffix
    simp only [bind_assoc, pure_bind]
  rw [hsplit]
  refine WP.bind ⟨t, n1, s1, hrun, ?_⟩
  refine WP.bind (WP.newScalar (Runs.binary A.div t.1 t.2 n1 s1) v1 fun al n2 s2 e2 v2 d2 => ?_)
  rw [dn.2, dt.2] at d2
  refine WP.bind (wp_matvec hA R hm v2 (by omega) (by omega) (by omega) fun s3 z e3 v3 hz => ?_)
  have v3 := v3.list (by simp)
  refine WP.bind (wp_dot hA R hord hcut hns v3 (by omega) (by omega) fun ra n4 s4 δ4 e4 v4 d4 _ => ?_)
  refine WP.bind (wp_dot hA R hord hcut hns v4 (by omega) (by omega) fun un n5 s5 δ5 e5 v5 d5 _ => ?_)
  refine WP.bind (WP.newScalar (Runs.binary A.div ra un n5 s5) v5 fun om n6 s6 e6 v6 d6 => ?_)
  generalize A.div (s5 (.fut ra.fut)) (s5 (.fut un.fut)) = ω' at d6
  refine WP.bind (wp_axpy A R v6 (by omega) (by omega) (e6.den (e5.den (e4.den (e3.den d2)))) fun s7 e7 v7 => ?_)
  have v7 := v7.list (by simp)
  refine WP.bind (wp_axpy A R v7 (by omega) (by omega) (e7.den d6) fun s8 e8 v8 => ?_)
  have v8 := v8.list (by simp)
  refine WP.bind (WP.newScalar (Runs.unary A.neg om n6 s8) v8 fun no n9 s9 e9 v9 d9 => ?_)
  rw [(e8.den (e7.den d6)).2, hA.neg] at d9
  refine WP.bind (wp_axpy A R v9 (by omega) (by omega) d9 fun s10 e10 v10 => ?_)
  have v10 := v10.list (by simp)
  have E' : Ext n1 s1 n9 s10 := e2.trans (e3.trans (e4.trans (e5.trans (e6.trans (e7.trans (e8.trans (e9.trans e10)))))))
  have h0 : pl.content G s10 0 = fun w => A.fma ω' (r1 w) (A.fma (A.div ρ' τ) (p w) (x w)) := v10.vec 0 (by omega)
  have h3' : pl.content G s10 3 = fun w => A.fma (-ω') (z w) (r1 w) := v10.vec 3 (by omega)
  refine WP.pure ⟨⟨v10.vec 1 (by omega), v10.vec 4 (by omega), (E.trans E').den hneg, (E'.den dn).1, ?_, ?_⟩, E.trans E', fun hπ v => ?_, fun v => ?_⟩
  · exact (e10.den (e9.den (e8.den (e7.den (e6.den (e5.den (e4.den (e3.den d2)))))))).1
  · exact (e10.den (e9.den (e8.den (e7.den d6)))).1
  · rw [hτ] at hπ
    have hα : |A.div ρ' τ - ρ' / τ| ≤ u * |ρ' / τ| := hA.div _ _ hπ
    have hβ : Near u 2 (A.div (A.mul (-1) ρ') τ) (-(ρ' / τ)) |ρ' / τ| := by
      have := near_product_quotient hA (a := -1) (b := ρ') hπ
      rwa [neg_one_mul, neg_div, abs_neg] at this
    rw [hx1, hs1]
    exact gap_step hA.nonneg hu1 abs_operator (fun w => hA.fma _ _ _) (fun w => hA.fma _ _ _) hα hβ hq v
  · rw [hx1, hs1, h0, h3']
    have hβ : Near u 2 (-ω') (-ω') |ω'| := by
      have := (Near.exact (u := u) (-ω')).mono hA.nonneg (Nat.zero_le 2) (le_refl _)
      rwa [abs_neg] at this
    exact gap_step hA.nonneg hu1 abs_operator (θ := ω') (fun w => hA.fma _ _ _) (fun w => hA.fma _ _ _)
      (by rw [sub_self, abs_zero]; exact mul_nonneg hA.nonneg (abs_nonneg _)) hβ hz v

/-! ## The whole run -/

theorem bi_start (hA : Rounded u A) (R : Ready G pl 5) (n : Nat) (s : Cell P → ℝ) :
    WP (BiCGStab.init (plannerOps A G.toEnv pl)) n s fun c n' s' => BiAlive G pl (pl.content G s 1) c n' s' ∧
      pl.content G s' 0 = pl.content G s 0 ∧ pl.content G s' 3 = pl.content G s 1 ∧ pl.content G s' 2 = 0 ∧ pl.content G s' 6 = 0 := by
  have v0 := (View.start G pl 5 s).toList
  refine WP.bind (WP.newScalar (α := -1) (by
    show Runs (scalarOf (A.neg A.one)) n s _ _ _
    rw [hA.neg, hA.one]
    exact Runs.scalarOf _ n s) v0 fun m1 n1 s1 e1 v1 d1 => ?_)
  refine WP.bind (WP.newScalar (Runs.scalarOf A.zero n1 s1) v1 fun z n2 s2 e2 v2 d2 => ?_)
  refine WP.bind (WP.newScalar (Runs.scalarOf A.one n2 s2) v2 fun o n3 s3 e3 v3 d3 => ?_)
  refine WP.bind (WP.copy R v3 (by omega) (by omega) fun s4 e4 v4 => ?_)
  have v4 := v4.list (by simp)
  refine WP.bind (WP.copy R v4 (by omega) (by omega) fun s5 e5 v5 => ?_)
  have v5 := v5.list (by simp)
  refine WP.bind (wp_zeroFill A R v5 (by omega) fun s6 e6 v6 => ?_)
  have v6 := v6.list (by simp)
  refine WP.bind (wp_zeroFill A R v6 (by omega) fun s7 e7 v7 => ?_)
  have v7 := v7.list (by simp)
  have E : Ext n3 s3 n3 s7 := e4.trans (e5.trans (e6.trans e7))
  exact WP.pure ⟨⟨v7.vec 1 (by omega), v7.vec 4 (by omega), (e2.trans (e3.trans E)).den d1, (E.den d3).1, ((e3.trans E).den d2).1, (E.den d3).1⟩,
    v7.vec 0 (by omega), v7.vec 3 (by omega), (v7.vec 2 (by omega)).trans (funext fun _ => hA.zero),
    (v7.vec 6 (by omega)).trans (funext fun _ => hA.zero)⟩

/-- A user program: construct a `BiCGStabSolver`, call `step` `k` times, then half of a step: the search direction, the product and the
inner product by which `α` divides (returned), the intermediate residual, and the first update of the solution. -/
def biHalf (A : Arith ℝ) (G : Geometry P) (pl : Planner K P ℝ) (base k : Nat) : M P ℝ Scalar := do
  let pl' ← allocate G pl base 5
  let c ← BiCGStab.solve (plannerOps A G.toEnv pl') k
  biHalfStep (plannerOps A G.toEnv pl') c

/-- A user program: `k` steps, then the inner product of the residual vector with itself. -/
def biResidual (A : Arith ℝ) (G : Geometry P) (pl : Planner K P ℝ) (base k : Nat) : M P ℝ Scalar := do
  let pl' ← allocate G pl base 5
  let _ ← BiCGStab.solve (plannerOps A G.toEnv pl') k
  pl'.dot A G.toEnv 3 3

/-- The same half a step later. -/
def biHalfResidual (A : Arith ℝ) (G : Geometry P) (pl : Planner K P ℝ) (base k : Nat) : M P ℝ Scalar := do
  let pl' ← allocate G pl base 5
  let c ← BiCGStab.solve (plannerOps A G.toEnv pl') k
  let _ ← biHalfStep (plannerOps A G.toEnv pl') c
  pl'.dot A G.toEnv 3 3

theorem gap_sum_halves {ι : Type} [Fintype ι] {M Ma : _root_.Matrix ι ι ℝ} {m : Nat} {b : ι → ℝ} {x r xh rh : Nat → ι → ℝ} {k : Nat}
    (h0 : r 0 = b)
    (h : ∀ j, j < k → ∀ v, |(M *ᵥ (xh j - x j)) v + (rh j v - r j v)| ≤ gapTerm u m Ma (x j) (xh j) (rh j) v)
    (h' : ∀ j, j < k → ∀ v, |(M *ᵥ (x (j + 1) - xh j)) v + (r (j + 1) v - rh j v)| ≤ gapTerm u m Ma (xh j) (x (j + 1)) (r (j + 1)) v)
    (v : ι) : |(b - M *ᵥ (x k - x 0) - r k) v| ≤
      ∑ j ∈ Finset.range k, (gapTerm u m Ma (x j) (xh j) (rh j) v + gapTerm u m Ma (xh j) (x (j + 1)) (r (j + 1)) v) := by
  induction k with
  | zero => simp [h0]
  | succ k ih =>
    rw [Finset.sum_range_succ]
    have e : (b - M *ᵥ (x (k + 1) - x 0) - r (k + 1)) v = (b - M *ᵥ (x k - x 0) - r k) v -
        (((M *ᵥ (xh k - x k)) v + (rh k v - r k v)) + ((M *ᵥ (x (k + 1) - xh k)) v + (r (k + 1) v - rh k v))) := by
      simp only [_root_.Matrix.mulVec_sub, Pi.sub_apply]
      ring
    rw [e]
    exact (abs_sub _ _).trans (add_le_add (ih (fun j hj => h j (by omega)) fun j hj => h' j (by omega))
      ((abs_add_le _ _).trans (add_le_add (h k (by omega) v) (h' k (by omega) v))))

/-- **C61**: BiCGStab with rounding errors, from any initial solution.  `x k`, `r k`: the solution and the residual vector the runs with
`k` steps leave; `xh k`, `rh k`: those half a step later, `p k` the search direction there; `ρ k`, `ρh k`: the squared norms of `r k` and `rh k` as the planner computes
them; `τ k`: the number by which `α` divides in step `k + 1`.  As long as that was not zero, the distance between `b - A (x k - x 0)` and the residual vector is at most the sum of the terms `gapTerm` over the half steps. -/
theorem c61_bicgstab (hA : Rounded u A) (hu1 : u < 1) {base : Nat} (S : SolverSetup G pl pl' base 5) {L N m : Nat} (hcut : Cut G pl' L N)
    (hm : ∀ v : pl'.U G, (pl'.stored v.1.1 v.1.2).length ≤ m) (n : Nat) (s : Cell P → ℝ) :
    ∃ (x r xh rh p : Nat → pl'.U G → ℝ) (ρ ρh τ : Nat → ℝ),
      (∀ k, Ensures (biCGStab A G pl base k) n s fun _ s' => pl'.content G s' 0 = x k ∧ pl'.content G s' 1 = pl'.content G s 1 ∧
        pl'.content G s' 3 = r k) ∧
      (∀ k, Ensures (biHalf A G pl base k) n s fun t s' => pl'.content G s' 0 = xh k ∧ pl'.content G s' 3 = rh k ∧
        pl'.content G s' 2 = p k ∧ s' (.fut t.fut) = τ k) ∧
      (∀ k, Ensures (biResidual A G pl base k) n s fun a s' => s' (.fut a.fut) = ρ k) ∧
      (∀ k, Ensures (biHalfResidual A G pl base k) n s fun a s' => s' (.fut a.fut) = ρh k) ∧
      (∀ k, |ρ k - r k ⬝ᵥ r k| ≤ ((1 + u) ^ (L + N + pl'.spaces.length) - 1) * (r k ⬝ᵥ r k)) ∧
      (∀ k, |ρh k - rh k ⬝ᵥ rh k| ≤ ((1 + u) ^ (L + N + pl'.spaces.length) - 1) * (rh k ⬝ᵥ rh k)) ∧
      (∀ k, |τ k - pl'.content G s 1 ⬝ᵥ pl'.operator G *ᵥ p k| ≤
        ((1 + u) ^ (L + N + pl'.spaces.length + (1 + m)) - 1) * (vabs (pl'.content G s 1) ⬝ᵥ absOperator G pl' *ᵥ vabs (p k))) ∧
      x 0 = pl'.content G s 0 ∧ r 0 = pl'.content G s 1 ∧ (∀ v, |p 0 v - pl'.content G s 1 v| ≤ u * |pl'.content G s 1 v|) ∧
      ∀ k, (∀ j, j < k → τ j ≠ 0) → ∀ v, |(pl'.content G s 1 - pl'.operator G *ᵥ (x k - x 0) - r k) v| ≤
        ∑ j ∈ Finset.range k, (gapTerm u m (absOperator G pl') (x j) (xh j) (rh j) v +
          gapTerm u m (absOperator G pl') (xh j) (x (j + 1)) (r (j + 1)) v) := by
  obtain ⟨c0, n0, s0, hrun0, hal, hx0, hr0, hp0, hq0⟩ := bi_start hA S.ready n s
  set b := pl'.content G s 1 with hb
  obtain ⟨f, hf0, hf⟩ := exists_chain (X := BiCGStab Scalar × Nat × (Cell P → ℝ))
    (fun _ t => BiAlive G pl' b t.1 t.2.1 t.2.2)
    (fun t t' => Runs (BiCGStab.step (plannerOps A G.toEnv pl') t.1) t.2.1 t.2.2 t'.1 t'.2.1 t'.2.2 ∧
      ∃ pn n1 s1, Runs (biHalfStep (plannerOps A G.toEnv pl') t.1) t.2.1 t.2.2 pn n1 s1 ∧
        Near u (L + N + pl'.spaces.length + (1 + m)) (s1 (.fut pn.fut)) (b ⬝ᵥ pl'.operator G *ᵥ pl'.content G s1 2)
          (vabs b ⬝ᵥ absOperator G pl' *ᵥ vabs (pl'.content G s1 2)) ∧
        (pl'.content G t.2.2 2 = 0 → pl'.content G t.2.2 6 = 0 →
          ∀ v, |pl'.content G s1 2 v - pl'.content G t.2.2 3 v| ≤ u * |pl'.content G t.2.2 3 v|) ∧
        (s1 (.fut pn.fut) ≠ 0 → ∀ v,
          |(pl'.operator G *ᵥ (pl'.content G s1 0 - pl'.content G t.2.2 0)) v + (pl'.content G s1 3 v - pl'.content G t.2.2 3 v)| ≤
            gapTerm u m (absOperator G pl') (pl'.content G t.2.2 0) (pl'.content G s1 0) (pl'.content G s1 3) v) ∧
        ∀ v, |(pl'.operator G *ᵥ (pl'.content G t'.2.2 0 - pl'.content G s1 0)) v + (pl'.content G t'.2.2 3 v - pl'.content G s1 3 v)| ≤
            gapTerm u m (absOperator G pl') (pl'.content G s1 0) (pl'.content G t'.2.2 0) (pl'.content G t'.2.2 3) v)
    (c0, n0, s0) hal (by
      rintro k ⟨c, n1, s1⟩ I
      obtain ⟨pn, n2, s2, h1, h8, h9, c', n', s', h2, h3, -, h5, h6⟩ := bi_step hA hu1 S.ready S.order hcut S.nonempty hm I
      exact ⟨(c', n', s'), h3, h2, pn, n2, s2, h1, h8, h9, h5, h6⟩)
  have hfin : ∀ j i, Runs (repeatM (BiCGStab.step (plannerOps A G.toEnv pl')) j (f i).1) (f i).2.1 (f i).2.2 (f (i + j)).1 (f (i + j)).2.1
      (f (i + j)).2.2 := by
    intro j
    induction j with
    | zero => intro i; exact Runs.pure _ _ _
    | succ j ih =>
      intro i
      have h := (hf i).2.1.bind (ih (i + 1))
      rw [show i + 1 + j = i + (j + 1) by omega] at h
      exact h
  have hsolve : ∀ k, Runs (BiCGStab.solve (plannerOps A G.toEnv pl') k) n s (f k).1 (f k).2.1 (f k).2.2 := by
    intro k
    have h := hfin k 0
    rw [Nat.zero_add, hf0] at h
    exact hrun0.bind h
  choose pn n1 s1 hhalf hτ hfirst hgap hgap' using fun k => (hf k).2.2
  choose a na sa ha1 ha2 ha3 ha4 ha5 ha6 using fun k =>
    near_pDot hA S.ready S.order hcut S.nonempty (v := 3) (w := 3) (by omega) (by omega) (f k).2.1 (f k).2.2
  choose d nd sd hd1 hd2 hd3 hd4 hd5 hd6 using fun k =>
    near_pDot hA S.ready S.order hcut S.nonempty (v := 3) (w := 3) (by omega) (by omega) (n1 k) (s1 k)
  have hsq : ∀ z : pl'.U G → ℝ, vabs z ⬝ᵥ vabs z = z ⬝ᵥ z := fun z => Finset.sum_congr rfl fun w _ => abs_mul_abs_self _
  refine ⟨fun k => pl'.content G (f k).2.2 0, fun k => pl'.content G (f k).2.2 3, fun k => pl'.content G (s1 k) 0,
    fun k => pl'.content G (s1 k) 3, fun k => pl'.content G (s1 k) 2, fun k => sa k (.fut (a k).fut), fun k => sd k (.fut (d k).fut),
    fun k => s1 k (.fut (pn k).fut), ?_, ?_, ?_, ?_, ?_, ?_, ?_, ?_, ?_, ?_, ?_⟩
  · intro k
    exact WP.ensures (WP.allocate S.alloc ⟨_, _, _, hsolve k, rfl, (hf k).1.rhs, rfl⟩)
  · intro k
    refine WP.ensures (WP.allocate S.alloc (WP.bind ⟨_, _, _, hsolve k, ?_⟩))
    exact ⟨_, _, _, hhalf k, rfl, rfl, rfl, rfl⟩
  · intro k
    refine WP.ensures (WP.allocate S.alloc (WP.bind ⟨_, _, _, hsolve k, ?_⟩))
    exact ⟨_, _, _, ha1 k, rfl⟩
  · intro k
    refine WP.ensures (WP.allocate S.alloc (WP.bind ⟨_, _, _, hsolve k, WP.bind ⟨_, _, _, hhalf k, ?_⟩⟩))
    exact ⟨_, _, _, hd1 k, rfl⟩
  · intro k
    have h := (ha4 k).1
    rw [hsq] at h
    exact h
  · intro k
    have h := (hd4 k).1
    rw [hsq] at h
    exact h
  · exact fun k => (hτ k).1
  · show pl'.content G (f 0).2.2 0 = _
    rw [hf0]; exact hx0
  · show pl'.content G (f 0).2.2 3 = _
    rw [hf0]; exact hr0
  · intro v
    have h := hfirst 0
    rw [hf0] at h
    have h := h hp0 hq0 v
    rw [show pl'.content G (c0, n0, s0).2.2 3 = _ from hr0] at h
    exact h
  · intro k hπ v
    exact gap_sum_halves (x := fun k => pl'.content G (f k).2.2 0) (r := fun k => pl'.content G (f k).2.2 3)
      (xh := fun k => pl'.content G (s1 k) 0) (rh := fun k => pl'.content G (s1 k) 3) (by rw [hf0]; exact hr0)
      (fun j hj => hgap j (hπ j hj)) (fun j _ => hgap' j) v

/-- **C61** in terms of the calls: `x k`, `xh k` are what the runs leave in the solution vectors, `ρ k`, `ρh k` the squared norms of the
residual vector that the planner computes there. -/
theorem c61_client (hA : Rounded u A) (hu1 : u < 1) {calls : List (Setup K P ℝ)} {base : Nat} (h : ClientSystem G calls base) {L N m : Nat}
    (hcut : ClientCut G calls L N) (hm : ∀ v ∈ clientUnknowns G calls, (clientStored calls v).length ≤ m) (n : Nat) (s : Cell P → ℝ) :
    ∃ pl, Planner.empty.setupAll G calls = some pl ∧ ∃ (x r xh rh p : Nat → clientUnknowns G calls → ℝ) (ρ ρh τ : Nat → ℝ),
      (∀ k, Ensures (biCGStab A G pl base k) n s fun _ s' => clientSol G calls s' = x k ∧
        clientRhs G calls s' = clientRhs G calls s) ∧
      (∀ k, Ensures (biHalf A G pl base k) n s fun t s' => clientSol G calls s' = xh k ∧ s' (.fut t.fut) = τ k) ∧
      (∀ k, Ensures (biResidual A G pl base k) n s fun a s' => s' (.fut a.fut) = ρ k) ∧
      (∀ k, Ensures (biHalfResidual A G pl base k) n s fun a s' => s' (.fut a.fut) = ρh k) ∧
      (∀ k, |ρ k - r k ⬝ᵥ r k| ≤ ((1 + u) ^ (L + N + (sols calls).length) - 1) * (r k ⬝ᵥ r k)) ∧
      (∀ k, |ρh k - rh k ⬝ᵥ rh k| ≤ ((1 + u) ^ (L + N + (sols calls).length) - 1) * (rh k ⬝ᵥ rh k)) ∧
      (∀ k, |τ k - clientRhs G calls s ⬝ᵥ clientMatrix G calls *ᵥ p k| ≤
        ((1 + u) ^ (L + N + (sols calls).length + (1 + m)) - 1) * (vabs (clientRhs G calls s) ⬝ᵥ clientAbs G calls *ᵥ vabs (p k))) ∧
      x 0 = clientSol G calls s ∧ r 0 = clientRhs G calls s ∧ (∀ v, |p 0 v - clientRhs G calls s v| ≤ u * |clientRhs G calls s v|) ∧
      ∀ k, (∀ j, j < k → τ j ≠ 0) → ∀ v, |(clientRhs G calls s - clientMatrix G calls *ᵥ (x k - x 0) - r k) v| ≤
        ∑ j ∈ Finset.range k, (gapTerm u m (clientAbs G calls) (x j) (xh j) (rh j) v +
          gapTerm u m (clientAbs G calls) (xh j) (x (j + 1)) (r (j + 1)) v) := by
  obtain ⟨pl, pl', hpl, S, hcut', hlen, e, hop, habs, hst, h0, h1⟩ := client_stored h 5 hcut
  obtain ⟨x, r, xh, rh, p, ρ, ρh, τ, g1, g2, ga, gb, gc, gd, ge, g3, g4, g5, g6⟩ :=
    c61_bicgstab hA hu1 S hcut' (fun v => by rw [hst v]; exact hm _ (e v).2) n s
  have hc : ∀ f : pl'.U G → ℝ, (f ∘ e.symm) ∘ e = f := fun f => funext fun v => by simp
  obtain ⟨hdot, hmv, -⟩ := transport e (pl'.operator G) (clientMatrix G calls) hop
  refine ⟨pl, hpl, fun k => x k ∘ e.symm, fun k => r k ∘ e.symm, fun k => xh k ∘ e.symm, fun k => rh k ∘ e.symm,
    fun k => p k ∘ e.symm, ρ, ρh, τ, fun k => ?_, fun k => ?_, ga, gb, fun k => ?_, fun k => ?_, fun k => ?_, ?_, ?_, fun v => ?_, fun k hk v => ?_⟩
  · refine ensures_weaken (g1 k) ?_
    rintro c s' ⟨a1, a2, -⟩
    rw [h0] at a1
    rw [h1, h1] at a2
    refine ⟨comp_inj e ?_, comp_inj e a2⟩
    rw [a1, hc]
  · refine ensures_weaken (g2 k) ?_
    rintro c s' ⟨a1, -, -, a2⟩
    rw [h0] at a1
    refine ⟨comp_inj e ?_, a2⟩
    rw [a1, hc]
  · have h3 : (r k ∘ e.symm) ⬝ᵥ (r k ∘ e.symm) = r k ⬝ᵥ r k := by rw [← hdot, hc]
    rw [h3, ← hlen]
    exact gc k
  · have h3 : (rh k ∘ e.symm) ⬝ᵥ (rh k ∘ e.symm) = rh k ⬝ᵥ rh k := by rw [← hdot, hc]
    rw [h3, ← hlen]
    exact gd k
  · have h2 := ge k
    obtain ⟨hdot', hmv', -⟩ := transport e (absOperator G pl') (clientAbs G calls) habs
    have h3 : clientRhs G calls s ⬝ᵥ clientMatrix G calls *ᵥ (p k ∘ e.symm) = pl'.content G s 1 ⬝ᵥ pl'.operator G *ᵥ p k := by
      rw [← hdot, ← hmv, hc, h1]
    have h4 : vabs (clientRhs G calls s) ⬝ᵥ clientAbs G calls *ᵥ vabs (p k ∘ e.symm) =
        vabs (pl'.content G s 1) ⬝ᵥ absOperator G pl' *ᵥ vabs (p k) := by
      have h5 : vabs (p k ∘ e.symm) ∘ e = vabs (p k) := hc (vabs (p k))
      rw [← hdot', ← hmv', h5, h1]
      rfl
    rw [h3, h4, ← hlen]
    exact h2
  · refine comp_inj e ?_
    rw [hc, g3, h0]
  · refine comp_inj e ?_
    rw [hc, g4, h1]
  · have h2 := g5 (e.symm v)
    rw [h1] at h2
    simpa using h2
  · have h2 := g6 k hk (e.symm v)
    have h3 : pl'.content G s 1 - pl'.operator G *ᵥ (x k - x 0) - r k =
        (clientRhs G calls s - clientMatrix G calls *ᵥ (x k ∘ e.symm - x 0 ∘ e.symm) - r k ∘ e.symm) ∘ e := by
      have h4 := hmv (x k ∘ e.symm - x 0 ∘ e.symm)
      have h5 : (x k ∘ e.symm - x 0 ∘ e.symm) ∘ e = x k - x 0 := hc (x k - x 0)
      rw [h5] at h4
      rw [h4, h1]
      funext w
      simp
    rw [h3] at h2
    simp only [Function.comp, Equiv.apply_symm_apply] at h2
    refine h2.trans (le_of_eq (Finset.sum_congr rfl fun j _ => ?_))
    have h6 := gapTerm_rename (u := u) e habs m (x j ∘ e.symm) (xh j ∘ e.symm) (rh j ∘ e.symm) (e.symm v)
    have h7 := gapTerm_rename (u := u) e habs m (xh j ∘ e.symm) (x (j + 1) ∘ e.symm) (r (j + 1) ∘ e.symm) (e.symm v)
    rw [hc, hc, hc, Equiv.apply_symm_apply] at h6 h7
    exact congrArg₂ (· + ·) h6 h7

end Verif.Rounding
