import Verif.Interactive.Watch

/-! # C84: the iterates of a loop that checks the residual are those of the method -/
set_option linter.dupNamespace false
set_option linter.unusedSectionVars false
namespace Verif.Interactive
open Verif.Runtime Verif.Vector Verif.Solver Verif.Planner Verif.Special
variable {K P V : Type} [DecidableEq P] [DecidableEq K]
variable {G : Geometry P} {pl pl' : Planner K P V} {base : Nat}

/-- `b - A x` as the loop computes it. -/
def computedResidual {ι : Type} (A : Arith V) (mv : (ι → V) → ι → V) (b x : ι → V) (u : ι) : V := A.fma (A.neg A.one) (mv x u) (b u)

/-- The squared norm of `b - A x` as the loop computes it: some sum of the squares. -/
def ComputedNorm {ι : Type} [Fintype ι] (A : Arith V) (mv : (ι → V) → ι → V) (b x : ι → V) (δ : V) : Prop :=
  Sums A (∑ u, {A.mul (computedResidual A mv b x u) (computedResidual A mv b x u)}) δ

theorem trail_zero {C : Type} {A : Arith V} {nw w : Nat} {init : Planner K P V → M P V C} {n n1 n2 : Nat} {s s1 s2 : Cell P → V} {c : C} {y : Scalar}
    (h0 : pl.allocateWorkspace G base nw = some pl') (h1 : Runs (init pl') n s c n1 s1)
    (h2 : Runs (residualProbe A G w pl') n1 s1 y n2 s2) :
    Runs ((allocate G pl base nw >>= fun pl' => init pl' >>= fun c => pure (pl', c)) >>= fun t : Planner K P V × C =>
      residualProbe A G w t.1 >>= fun x => pure (t, x)) n s ((pl', c), y) n2 s2 :=
  Runs.bind (Runs.bind (Runs.allocate h0 n s) (Runs.bind h1 (Runs.pure _ _ _))) (Runs.bind h2 (Runs.pure _ _ _))

theorem trail_succ {C : Type} {A : Arith V} {w : Nat} {m : M P V C} {n n1 n2 : Nat} {s s1 s2 : Cell P → V} {c : C} {y : Scalar}
    (h1 : Runs m n s c n1 s1) (h2 : Runs (residualProbe A G w pl') n1 s1 y n2 s2) :
    Runs ((m >>= fun c => pure (pl', c)) >>= fun t : Planner K P V × C => residualProbe A G w t.1 >>= fun x => pure (t, x)) n s
      ((pl', c), y) n2 s2 :=
  Runs.bind (Runs.bind h1 (Runs.pure _ _ _)) (Runs.bind h2 (Runs.pure _ _ _))

theorem cg_trail (A : Arith V) (S : SolverSetup G pl pl' base 3) (n : Nat) (s : Cell P → V) :
    ∃ x p q r ρ π, CGRun A (plannerProduct A G pl') (pl'.content G s 0) (pl'.content G s 1) x p q r ρ π ∧
      ∃ t X N M, ∃ δ : Nat → V, Trail (do let pl' ← allocate G pl base 3; let c ← CG.init (plannerOps A G.toEnv pl'); pure (pl', c))
          (fun t => do let c ← CG.step (plannerOps A G.toEnv t.1) t.2; pure (t.1, c)) (fun t => residualProbe A G 3 t.1) n s t X N M ∧
        ∀ k, M k (.fut (X k).fut) = δ k ∧ ComputedNorm A (plannerProduct A G pl') (pl'.content G s 1) (x k) (δ k) ∧
          pl'.content G (M k) 0 = x k ∧ pl'.content G (M k) 1 = pl'.content G s 1 ∧ M k (.fut (t k).2.last.fut) = ρ k := by
  obtain ⟨c0, n0, s0, hrun0, hal, hx0, hp0, hr0, hb0, hρ0⟩ := cg_start (A := A) S.ready S.order S.nonempty n s
  obtain ⟨y0, n0', s0', hprobe0, P0⟩ := wp_probe (A := A) S.ready S.order S.nonempty (w := 3) (by omega) (by omega) n0 s0
  obtain ⟨f, hf0, hf⟩ := Verif.Rounding.exists_chain (X := CG Scalar × Scalar × Nat × (Cell P → V))
    (fun k t => CGAlive A k t.1 t.2.2.1 t.2.2.2 ∧ pl'.content G t.2.2.2 1 = pl'.content G s 1 ∧
      Sums A (∑ u : pl'.U G, {A.mul (pl'.content G t.2.2.2 4 u) (pl'.content G t.2.2.2 4 u)}) (t.2.2.2 (.fut t.1.last.fut)) ∧
      ComputedNorm A (plannerProduct A G pl') (pl'.content G s 1) (pl'.content G t.2.2.2 0) (t.2.2.2 (.fut t.2.1.fut)))
    (fun t t' => ∃ n1 s1 π, Runs (CG.step (plannerOps A G.toEnv pl') t.1) t.2.2.1 t.2.2.2 t'.1 n1 s1 ∧
      CGStep A G pl' t.1 t.2.2.1 t.2.2.2 t'.1 n1 s1 π ∧ Runs (residualProbe A G 3 pl') n1 s1 t'.2.1 t'.2.2.1 t'.2.2.2 ∧
      Probed A G pl' 3 3 n1 s1 t'.2.1 t'.2.2.1 t'.2.2.2 ∧ t'.1.last.fut < n1)
    (c0, y0, n0', s0') (by
      refine ⟨⟨P0.ext.den hal.neg, hal.len, fun a ha => Nat.lt_of_lt_of_le (hal.futs a ha) P0.ext.le⟩, ?_, ?_, ?_⟩
      · rw [P0.keep 1 (by omega) (by omega), hb0]
      · dsimp only
        rw [P0.keep 4 (by omega) (by omega), P0.ext.fut _ (hal.futs c0.last (by simp [CG.history]))]
        exact hρ0
      · have := P0.value
        rw [hb0] at this
        rw [P0.keep 0 (by omega) (by omega)]
        exact this) (by
      rintro k ⟨c, y, n1, s1⟩ ⟨I, h1, h2, -⟩
      obtain ⟨c', n2, s2, g1, g2, π, g3⟩ := cg_step S.ready S.order S.nonempty I
      obtain ⟨y', n3, s3, g4, Q⟩ := wp_probe (A := A) S.ready S.order S.nonempty (w := 3) (by omega) (by omega) n2 s2
      have hl := g2.futs c'.last (by simp [CG.history])
      refine ⟨(c', y', n3, s3), ⟨⟨Q.ext.den g2.neg, g2.len, fun a ha => Nat.lt_of_lt_of_le (g2.futs a ha) Q.ext.le⟩, ?_, ?_, ?_⟩,
        n2, s2, π, g1, g3, g4, Q, hl⟩
      · rw [Q.keep 1 (by omega) (by omega), g3.rhs]; exact h1
      · dsimp only
        rw [Q.keep 4 (by omega) (by omega), Q.ext.fut _ hl]
        exact g3.rho
      · have := Q.value
        rw [g3.rhs, h1] at this
        rw [Q.keep 0 (by omega) (by omega)]
        exact this)
  choose n1 s1 π hstep hcg hprobe hP hl using fun k => (hf k).2
  have keep : ∀ k j, j < 5 → j ≠ 3 → pl'.content G (f (k + 1)).2.2.2 j = pl'.content G (s1 k) j := fun k j hj hj3 =>
    (hP k).keep j (by omega) hj3
  have last : ∀ k, (f (k + 1)).2.2.2 (.fut (f (k + 1)).1.last.fut) = s1 k (.fut (f (k + 1)).1.last.fut) := fun k => (hP k).ext.fut _ (hl k)
  refine ⟨fun k => pl'.content G (f k).2.2.2 0, fun k => pl'.content G (f k).2.2.2 2,
    fun k => plannerProduct A G pl' (pl'.content G (f k).2.2.2 2), fun k => pl'.content G (f k).2.2.2 4,
    fun k => (f k).2.2.2 (.fut (f k).1.last.fut), π, ?_, fun k => (pl', (f k).1), fun k => (f k).2.1, fun k => (f k).2.2.1,
    fun k => (f k).2.2.2, fun k => (f k).2.2.2 (.fut (f k).2.1.fut), ⟨?_, fun k => ?_⟩, fun k => ⟨rfl, (hf k).1.2.2.2, rfl, (hf k).1.2.1, rfl⟩⟩
  · refine ⟨?_, ?_, ?_, fun k => (hf k).1.2.2.1, fun k => rfl, fun k => ?_, fun k u => ?_, fun k u => ?_, fun k u => ?_⟩
    · simp only [hf0]; rw [P0.keep 0 (by omega) (by omega)]; exact hx0
    · simp only [hf0]; rw [P0.keep 4 (by omega) (by omega)]; exact hr0
    · simp only [hf0]; rw [P0.keep 2 (by omega) (by omega)]; exact hp0
    · have := (hcg k).curvature
      rw [(hcg k).product] at this
      exact this
    · simp only [keep k 0 (by omega) (by omega)]
      exact congrFun (hcg k).x u
    · simp only [keep k 4 (by omega) (by omega)]
      rw [congrFun (hcg k).r u, (hcg k).product]
    · simp only [keep k 2 (by omega) (by omega), keep k 4 (by omega) (by omega), last k]
      exact congrFun (hcg k).p u
  · simp only [hf0]
    exact trail_zero S.alloc hrun0 hprobe0
  · exact trail_succ (hstep k) (hprobe k)

theorem bi_trail (A : Arith V) (S : SolverSetup G pl pl' base 5) (n : Nat) (s : Cell P → V) :
    ∃ x p v r h t ρ α ω τ ν η,
      BiRun A (plannerProduct A G pl') (pl'.content G s 0) (pl'.content G s 1) x p v r h t ρ α ω τ ν η ∧
      ∃ T X N M, ∃ δ : Nat → V, Trail (do let pl' ← allocate G pl base 5; let c ← BiCGStab.init (plannerOps A G.toEnv pl'); pure (pl', c))
          (fun t => do let c ← BiCGStab.step (plannerOps A G.toEnv t.1) t.2; pure (t.1, c)) (fun t => residualProbe A G 5 t.1) n s T X N M ∧
        ∀ k, M k (.fut (X k).fut) = δ k ∧ ComputedNorm A (plannerProduct A G pl') (pl'.content G s 1) (x k) (δ k) ∧
          pl'.content G (M k) 0 = x k ∧ pl'.content G (M k) 1 = pl'.content G s 1 := by
  obtain ⟨c0, n0, s0, hrun0, hal, hx0, hp0, hr0, hv0, hρ0, hα0, hω0⟩ := bi_start (A := A) S.ready n s
  obtain ⟨y0, n0', s0', hprobe0, P0⟩ := wp_probe (A := A) S.ready S.order S.nonempty (w := 5) (by omega) (by omega) n0 s0
  obtain ⟨f, hf0, hf⟩ := Verif.Rounding.exists_chain (X := BiCGStab Scalar × Scalar × Nat × (Cell P → V))
    (fun k t => BiAlive A G pl' k (pl'.content G s 1) t.1 t.2.2.1 t.2.2.2 ∧
      ComputedNorm A (plannerProduct A G pl') (pl'.content G s 1) (pl'.content G t.2.2.2 0) (t.2.2.2 (.fut t.2.1.fut)))
    (fun t t' => ∃ n1 s1 h τ ν η, Runs (BiCGStab.step (plannerOps A G.toEnv pl') t.1) t.2.2.1 t.2.2.2 t'.1 n1 s1 ∧
      BiStep A G pl' (pl'.content G s 1) t.1 t.2.2.1 t.2.2.2 t'.1 n1 s1 h τ ν η ∧
      Runs (residualProbe A G 5 pl') n1 s1 t'.2.1 t'.2.2.1 t'.2.2.2 ∧
      Probed A G pl' 5 5 n1 s1 t'.2.1 t'.2.2.1 t'.2.2.2 ∧ t'.1.rho.fut < n1 ∧ t'.1.alpha.fut < n1 ∧ t'.1.omega.fut < n1)
    (c0, y0, n0', s0') (by
      refine ⟨⟨?_, ?_, P0.ext.den hal.neg, hal.len, fun a ha => Nat.lt_of_lt_of_le (hal.futs a ha) P0.ext.le⟩, ?_⟩
      · rw [P0.keep 1 (by omega) (by omega), hal.rhs]
      · rw [P0.keep 4 (by omega) (by omega), hal.shadow]
      · have := P0.value
        rw [hal.rhs] at this
        rw [P0.keep 0 (by omega) (by omega)]
        exact this) (by
      rintro k ⟨c, y, n1, s1⟩ ⟨I, -⟩
      obtain ⟨c', n2, s2, g1, g2, h, τ, ν, η, g3⟩ := bi_step S.ready S.order S.nonempty I
      obtain ⟨y', n3, s3, g4, Q⟩ := wp_probe (A := A) S.ready S.order S.nonempty (w := 5) (by omega) (by omega) n2 s2
      refine ⟨(c', y', n3, s3), ⟨⟨?_, ?_, Q.ext.den g2.neg, g2.len, fun a ha => Nat.lt_of_lt_of_le (g2.futs a ha) Q.ext.le⟩, ?_⟩,
        n2, s2, h, τ, ν, η, g1, g3, g4, Q, g2.futs _ (by simp), g2.futs _ (by simp), g2.futs _ (by simp)⟩
      · rw [Q.keep 1 (by omega) (by omega), g2.rhs]
      · rw [Q.keep 4 (by omega) (by omega), g2.shadow]
      · have := Q.value
        rw [g2.rhs] at this
        rw [Q.keep 0 (by omega) (by omega)]
        exact this)
  choose n1 s1 h τ ν η hstep hbi hprobe hP l1 l2 l3 using fun k => (hf k).2
  have keep : ∀ k j, j < 7 → j ≠ 5 → pl'.content G (f (k + 1)).2.2.2 j = pl'.content G (s1 k) j := fun k j hj hj3 =>
    (hP k).keep j (by omega) hj3
  have hρ : ∀ k, (f (k + 1)).2.2.2 (.fut (f (k + 1)).1.rho.fut) = s1 k (.fut (f (k + 1)).1.rho.fut) := fun k => (hP k).ext.fut _ (l1 k)
  have hα : ∀ k, (f (k + 1)).2.2.2 (.fut (f (k + 1)).1.alpha.fut) = s1 k (.fut (f (k + 1)).1.alpha.fut) := fun k => (hP k).ext.fut _ (l2 k)
  have hω : ∀ k, (f (k + 1)).2.2.2 (.fut (f (k + 1)).1.omega.fut) = s1 k (.fut (f (k + 1)).1.omega.fut) := fun k => (hP k).ext.fut _ (l3 k)
  refine ⟨fun k => pl'.content G (f k).2.2.2 0, fun k => pl'.content G (f k).2.2.2 2, fun k => pl'.content G (f k).2.2.2 6,
    fun k => pl'.content G (f k).2.2.2 3, h, fun k => plannerProduct A G pl' (h k), fun k => (f k).2.2.2 (.fut (f k).1.rho.fut),
    fun k => (f k).2.2.2 (.fut (f k).1.alpha.fut), fun k => (f k).2.2.2 (.fut (f k).1.omega.fut), τ, ν, η, ?_,
    fun k => (pl', (f k).1), fun k => (f k).2.1, fun k => (f k).2.2.1,
    fun k => (f k).2.2.2, fun k => (f k).2.2.2 (.fut (f k).2.1.fut), ⟨?_, fun k => ?_⟩, fun k => ⟨rfl, (hf k).1.2, rfl, (hf k).1.1.rhs⟩⟩
  · have f0 : ∀ a ∈ c0.rhos ++ [c0.rho] ++ (c0.alphas ++ [c0.alpha]) ++ (c0.omegas ++ [c0.omega]), s0' (.fut a.fut) = s0 (.fut a.fut) :=
      fun a ha => P0.ext.fut _ (hal.futs a ha)
    refine ⟨?_, ?_, ?_, ?_, ?_, ?_, ?_, fun k => ?_, fun k u => ?_, fun k => ?_, fun k => ?_, fun k u => ?_, fun k => ?_, fun k => rfl,
      fun k => ?_, fun k => ?_, fun k => ?_, fun k u => ?_, fun k u => ?_⟩
    · simp only [hf0]; rw [P0.keep 0 (by omega) (by omega)]; exact hx0
    · simp only [hf0]; rw [P0.keep 3 (by omega) (by omega)]; exact hr0
    · simp only [hf0]; rw [P0.keep 2 (by omega) (by omega)]; exact hp0
    · simp only [hf0]; rw [P0.keep 6 (by omega) (by omega)]; exact hv0
    · simp only [hf0]; rw [f0 _ (by simp)]; exact hρ0
    · simp only [hf0]; rw [f0 _ (by simp)]; exact hα0
    · simp only [hf0]; rw [f0 _ (by simp)]; exact hω0
    · simp only [hρ k]; exact (hbi k).rho
    · simp only [keep k 2 (by omega) (by omega), hρ k]; exact congrFun (hbi k).p u
    · simp only [keep k 2 (by omega) (by omega), keep k 6 (by omega) (by omega)]; exact (hbi k).product
    · simp only [keep k 6 (by omega) (by omega)]; exact (hbi k).tau
    · simp only [keep k 6 (by omega) (by omega), hρ k]; exact congrFun (hbi k).half u
    · simp only [hα k, hρ k]; exact (hbi k).alpha
    · have := (hbi k).nu; rw [(hbi k).halfProduct] at this; exact this
    · have := (hbi k).eta; rw [(hbi k).halfProduct] at this; exact this
    · simp only [hω k]; exact (hbi k).omega
    · simp only [keep k 0 (by omega) (by omega), keep k 2 (by omega) (by omega), hω k, hα k]; exact congrFun (hbi k).x u
    · simp only [keep k 3 (by omega) (by omega), hω k]; rw [congrFun (hbi k).r u, (hbi k).halfProduct]
  · simp only [hf0]
    exact trail_zero S.alloc hrun0 hprobe0
  · exact trail_succ (hstep k) (hprobe k)

theorem gmres_trail (A : Arith V) {m : Nat} (S : SolverSetup G pl pl' base (m + 1)) (n : Nat) (s : Cell P → V) :
    ∃ (x : Nat → pl'.U G → V) (B : Nat → Nat → pl'.U G → V) (H : Nat → Nat → Nat → V), x 0 = pl'.content G s 0 ∧
      (∀ k, Cycle A (plannerProduct A G pl') m (pl'.content G s 1) (x k) (B k) (H k) (x (k + 1))) ∧
      ∃ T X N M, ∃ δ : Nat → V, Trail (do let pl' ← allocate G pl base (m + 1); let c ← GMRES.init (plannerOps A G.toEnv pl') m; pure (pl', c))
          (fun t => do let c ← GMRES.step (plannerOps A G.toEnv t.1) t.2; pure (t.1, c)) (fun t => residualProbe A G (basis 0) t.1)
          n s T X N M ∧
        ∀ k, M k (.fut (X k).fut) = δ k ∧ ComputedNorm A (plannerProduct A G pl') (pl'.content G s 1) (x k) (δ k) ∧
          pl'.content G (M k) 0 = x k ∧ pl'.content G (M k) 1 = pl'.content G s 1 := by
  have hb : basis 0 = 2 := rfl
  obtain ⟨c0, n0, s0, hrun0, hal, hx0⟩ := gmres_start (A := A) (G := G) (pl := pl') (m := m) n s
  obtain ⟨y0, n0', s0', hprobe0, P0⟩ := wp_probe (A := A) S.ready S.order S.nonempty (w := basis 0) (by omega) (by omega) n0 s0
  obtain ⟨f, hf0, hf⟩ := Verif.Rounding.exists_chain (X := GMRES Scalar × Scalar × Nat × (Cell P → V))
    (fun k t => GMAlive A G pl' m (pl'.content G s 1) t.1 t.2.2.1 t.2.2.2 ∧
      ComputedNorm A (plannerProduct A G pl') (pl'.content G s 1) (pl'.content G t.2.2.2 0) (t.2.2.2 (.fut t.2.1.fut)))
    (fun t t' => ∃ n1 s1 B H, Runs (GMRES.step (plannerOps A G.toEnv pl') t.1) t.2.2.1 t.2.2.2 t'.1 n1 s1 ∧
      Cycle A (plannerProduct A G pl') m (pl'.content G s 1) (pl'.content G t.2.2.2 0) B H (pl'.content G s1 0) ∧
      Runs (residualProbe A G (basis 0) pl') n1 s1 t'.2.1 t'.2.2.1 t'.2.2.2 ∧
      Probed A G pl' (m + 1) (basis 0) n1 s1 t'.2.1 t'.2.2.1 t'.2.2.2)
    (c0, y0, n0', s0') (by
      refine ⟨⟨?_, P0.ext.den hal.neg, hal.restart⟩, ?_⟩
      · rw [P0.keep 1 (by omega) (by omega), hal.rhs]
      · have := P0.value
        rw [hal.rhs] at this
        rw [P0.keep 0 (by omega) (by omega)]
        exact this) (by
      rintro k ⟨c, y, n1, s1⟩ ⟨I, -⟩
      obtain ⟨c', n2, s2, g1, g2, B, H, g3, -⟩ := gmres_step S.ready S.order S.nonempty I
      obtain ⟨y', n3, s3, g4, Q⟩ := wp_probe (A := A) S.ready S.order S.nonempty (w := basis 0) (by omega) (by omega) n2 s2
      refine ⟨(c', y', n3, s3), ⟨⟨?_, Q.ext.den g2.neg, g2.restart⟩, ?_⟩, n2, s2, B, H, g1, g3, g4, Q⟩
      · rw [Q.keep 1 (by omega) (by omega), g2.rhs]
      · have := Q.value
        rw [g2.rhs] at this
        rw [Q.keep 0 (by omega) (by omega)]
        exact this)
  choose n1 s1 B H hstep hcyc hprobe hP using fun k => (hf k).2
  refine ⟨fun k => pl'.content G (f k).2.2.2 0, B, H, ?_, fun k => ?_,
    fun k => (pl', (f k).1), fun k => (f k).2.1, fun k => (f k).2.2.1,
    fun k => (f k).2.2.2, fun k => (f k).2.2.2 (.fut (f k).2.1.fut), ⟨?_, fun k => ?_⟩, fun k => ⟨rfl, (hf k).1.2, rfl, (hf k).1.1.rhs⟩⟩
  · simp only [hf0]; rw [P0.keep 0 (by omega) (by omega)]; exact hx0
  · simp only [(hP k).keep 0 (by omega) (by omega)]; exact hcyc k
  · simp only [hf0]
    exact trail_zero S.alloc hrun0 hprobe0
  · exact trail_succ (hstep k) (hprobe k)

end Verif.Interactive
