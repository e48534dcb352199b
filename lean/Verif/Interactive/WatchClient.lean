import Verif.Interactive.WatchRun
import Verif.Special.Props

/-! # C84 in terms of the client's calls, in any arithmetic -/
set_option linter.dupNamespace false
set_option linter.unusedSectionVars false
namespace Verif.Interactive
open Verif.Runtime Verif.Vector Verif.Matrix Verif.Solver Verif.Planner Verif.Special
variable {K P V : Type} [DecidableEq P] [DecidableEq K]
variable {G : Geometry P} {calls : List (Setup K P V)} {base : Nat}

/-- What a loop `W` that checks the residual does, for every test, schedule and order of the reductions: it looks at the computed squared
norms of `b - A (x 0)`, `b - A (x 1)`, …; if `k` is the first number for which the test stops, every execution ends, has done `k` steps,
has seen the values up to that one and leaves the solution `x k` and the right-hand side as it was; if there is no such number, no
execution ends. -/
structure WatchSpec {τ : Type} (A : Arith V) (G : Geometry P) (calls : List (Setup K P V)) (W : (Nat → V → Bool) → Program P V (Watch τ))
    (n : Nat) (s : Cell P → V) (x : Nat → clientUnknowns G calls → V) (δ : Nat → V) : Prop where
  norm : ∀ k, ComputedNorm A (rowTimes A G calls) (fun u => valueAt A (rhss calls) s u.1) (x k) (δ k)
  ends : ∀ (goOn : Nat → V → Bool) k, (∀ j, j < k → goOn j (δ j) = true) → goOn k (δ k) = false →
    Ends (W goOn) .start n s fun ctl seen s' => (∃ t, ctl = .stop t k) ∧ seen = (List.range (k + 1)).map δ ∧
      (∀ u : clientUnknowns G calls, valueAt A (sols calls) s' u.1 = x k u) ∧
      ∀ u : clientUnknowns G calls, valueAt A (rhss calls) s' u.1 = valueAt A (rhss calls) s u.1
  forever : ∀ goOn : Nat → V → Bool, (∀ j, goOn j (δ j) = true) → RunsForever (W goOn) .start n s

theorem computedNorm_rename {ι κ : Type} [Fintype ι] [Fintype κ] {A : Arith V} (e : ι ≃ κ) {mv : (ι → V) → ι → V}
    {mv' : (κ → V) → κ → V} (hmv : ∀ y, mv (y ∘ e) = mv' y ∘ e) {b : κ → V} {x : ι → V} {δ : V} (h : ComputedNorm A mv (b ∘ e) x δ) :
    ComputedNorm A mv' b (x ∘ e.symm) δ := by
  have := sums_rename e h
  unfold ComputedNorm computedResidual
  rw [← mv_rename e hmv]
  unfold computedResidual at this
  simpa using this

theorem trail_spec {τ : Type} {A : Arith V} {pl' : Planner K P V} {init : M P V τ} {step : τ → M P V τ} {probe : τ → M P V Scalar} {n : Nat}
    {s : Cell P → V} {T : Nat → τ} {X : Nat → Scalar} {N : Nat → Nat} {M : Nat → Cell P → V} {x : Nat → pl'.U G → V} {δ : Nat → V}
    (e : pl'.U G ≃ clientUnknowns G calls) (hmv : ∀ y, plannerProduct A G pl' (y ∘ e) = rowTimes A G calls y ∘ e)
    (h0 : ∀ s : Cell P → V, pl'.content G s 0 = (fun u => valueAt A (sols calls) s u.1) ∘ e)
    (h1 : ∀ s : Cell P → V, pl'.content G s 1 = (fun u => valueAt A (rhss calls) s u.1) ∘ e)
    (hlib : ∀ goOn, UsesLibrary K A G (watchLoop init step probe goOn)) (t : Trail init step probe n s T X N M)
    (hk : ∀ k, M k (.fut (X k).fut) = δ k ∧ ComputedNorm A (plannerProduct A G pl') (pl'.content G s 1) (x k) (δ k) ∧
          pl'.content G (M k) 0 = x k ∧ pl'.content G (M k) 1 = pl'.content G s 1) :
    WatchSpec A G calls (watchLoop init step probe) n s (fun k => x k ∘ e.symm) δ := by
  refine ⟨fun k => ?_, fun goOn k hgo hstop => ?_, fun goOn hgo => t.forever (hlib goOn) (fun j => (hk j).1) hgo⟩
  · have := (hk k).2.1
    rw [h1] at this
    exact computedNorm_rename e hmv this
  · obtain ⟨g1, g2, g3⟩ := t.ends (hlib goOn) (fun j => (hk j).1) hgo hstop
    refine ⟨g1, g2, fun i w hw he => ?_⟩
    obtain ⟨f1, f2, f3⟩ := g3 i w hw he
    obtain ⟨-, -, k3, k4⟩ := hk k
    rw [h0] at k3
    rw [h1, h1] at k4
    refine ⟨⟨_, f1⟩, f2, fun u => ?_, fun u => ?_⟩
    · rw [f3]
      exact comp_eq e k3 u
    · rw [f3]
      have := congrFun k4 (e.symm u)
      simpa using this

/-- **C84**, conjugate gradients, any arithmetic. -/
theorem c84_cg (A : Arith V) (h : ClientSystem G calls base) (n : Nat) (s : Cell P → V) :
    ∃ pl, Planner.empty.setupAll G calls = some pl ∧ ∃ x p q r ρ π,
      CGRun A (rowTimes A G calls) (fun u => valueAt A (sols calls) s u.1) (fun u => valueAt A (rhss calls) s u.1) x p q r ρ π ∧
      ∃ δ : Nat → V, WatchSpec A G calls (cgWatch A G pl base) n s x δ := by
  obtain ⟨pl, pl', hpl, S, e, hmv, h0, h1, -⟩ := client_any A h 3
  obtain ⟨x, p, q, r, ρ, π, hrun, T, X, N, M, δ, ht, hk⟩ := cg_trail A S n s
  rw [h0, h1] at hrun
  exact ⟨pl, hpl, _, _, _, _, ρ, π, hrun.rename e hmv, δ, trail_spec e hmv h0 h1 (cgWatch_library A G pl base) ht
    fun k => ⟨(hk k).1, (hk k).2.1, (hk k).2.2.1, (hk k).2.2.2.1⟩⟩

/-- **C84**, BiCGStab, any arithmetic. -/
theorem c84_bicgstab (A : Arith V) (h : ClientSystem G calls base) (n : Nat) (s : Cell P → V) :
    ∃ pl, Planner.empty.setupAll G calls = some pl ∧ ∃ x p v r g t ρ α ω τ ν η,
      BiRun A (rowTimes A G calls) (fun u => valueAt A (sols calls) s u.1) (fun u => valueAt A (rhss calls) s u.1) x p v r g t ρ α ω τ ν η ∧
      ∃ δ : Nat → V, WatchSpec A G calls (biWatch A G pl base) n s x δ := by
  obtain ⟨pl, pl', hpl, S, e, hmv, h0, h1, -⟩ := client_any A h 5
  obtain ⟨x, p, v, r, g, t, ρ, α, ω, τ, ν, η, hrun, T, X, N, M, δ, ht, hk⟩ := bi_trail A S n s
  rw [h0, h1] at hrun
  exact ⟨pl, hpl, _, _, _, _, _, _, ρ, α, ω, τ, ν, η, hrun.rename e hmv, δ,
    trail_spec e hmv h0 h1 (biWatch_library A G pl base) ht hk⟩

/-- **C84**, GMRES, any arithmetic. -/
theorem c84_gmres (A : Arith V) (m : Nat) (h : ClientSystem G calls base) (n : Nat) (s : Cell P → V) :
    ∃ pl, Planner.empty.setupAll G calls = some pl ∧ ∃ (x : Nat → clientUnknowns G calls → V)
      (B : Nat → Nat → clientUnknowns G calls → V) (H : Nat → Nat → Nat → V), (∀ u, x 0 u = valueAt A (sols calls) s u.1) ∧
      (∀ k, Cycle A (rowTimes A G calls) m (fun u => valueAt A (rhss calls) s u.1) (x k) (B k) (H k) (x (k + 1))) ∧
      ∃ δ : Nat → V, WatchSpec A G calls (gmresWatch A G pl base m) n s x δ := by
  obtain ⟨pl, pl', hpl, S, e, hmv, h0, h1, -⟩ := client_any A h (m + 1)
  obtain ⟨x, B, H, hx, hcyc, T, X, N, M, δ, ht, hk⟩ := gmres_trail A S n s
  rw [h0] at hx
  rw [h1] at hcyc
  exact ⟨pl, hpl, fun k => x k ∘ e.symm, fun k i => B k i ∘ e.symm, H, fun u => by simp [hx], fun k => (hcyc k).rename e hmv, δ,
    trail_spec e hmv h0 h1 (gmresWatch_library A G pl base m) ht hk⟩

/-- **C84**: with a cap on the number of steps the loop always ends, within the cap, and for a reason: at the cap or at a value for which
the test stops. -/
theorem WatchSpec.capped {τ : Type} {A : Arith V} {W : (Nat → V → Bool) → Program P V (Watch τ)} {n : Nat} {s : Cell P → V}
    {x : Nat → clientUnknowns G calls → V} {δ : Nat → V} (w : WatchSpec A G calls W n s x δ) (cap : Nat) (test : V → Bool) :
    Ends (W fun i v => decide (i < cap) && test v) .start n s fun ctl seen _ =>
      ∃ t k, ctl = .stop t k ∧ k ≤ cap ∧ seen.length = k + 1 ∧ (∀ v ∈ seen.take k, test v = true) ∧
        (k < cap → ∃ v, seen[k]? = some v ∧ test v = false) := by
  have hex : ∃ k, k ≤ cap ∧ (decide (k < cap) && test (δ k)) = false ∧ ∀ j, j < k → (decide (j < cap) && test (δ j)) = true := by
    have hP : ∃ k, (decide (k < cap) && test (δ k)) = false := ⟨cap, by simp⟩
    refine ⟨Nat.find hP, Nat.find_le (by simp), Nat.find_spec hP, fun j hj => ?_⟩
    have := Nat.find_min hP hj
    simpa using this
  obtain ⟨k, hk, hstop, hgo⟩ := hex
  obtain ⟨g1, g2, g3⟩ := w.ends (fun i v => decide (i < cap) && test v) k hgo hstop
  refine ⟨g1, g2, fun i w hw he => ?_⟩
  obtain ⟨⟨t, f1⟩, f2, -⟩ := g3 i w hw he
  refine ⟨t, k, f1, hk, by rw [f2]; simp, fun v hv => ?_, fun hlt => ⟨δ k, by rw [f2]; simp, ?_⟩⟩
  · rw [f2, ← List.map_take, List.take_range, Nat.min_eq_left (by omega)] at hv
    obtain ⟨j, hj, rfl⟩ := List.mem_map.1 hv
    have := hgo j (List.mem_range.1 hj)
    simp only [Bool.and_eq_true] at this
    exact this.2
  · simpa [hlt] using hstop

/-- **C84**: the three loops with a cap always end. -/
theorem c84_capped (A : Arith V) (m : Nat) (h : ClientSystem G calls base) (n : Nat) (s : Cell P → V) (cap : Nat) (test : V → Bool) :
    ∃ pl, Planner.empty.setupAll G calls = some pl ∧
      Ends (cgWatch A G pl base fun i v => decide (i < cap) && test v) .start n s (fun ctl seen _ =>
        ∃ t k, ctl = .stop t k ∧ k ≤ cap ∧ seen.length = k + 1 ∧ (∀ v ∈ seen.take k, test v = true) ∧
          (k < cap → ∃ v, seen[k]? = some v ∧ test v = false)) ∧
      Ends (biWatch A G pl base fun i v => decide (i < cap) && test v) .start n s (fun ctl seen _ =>
        ∃ t k, ctl = .stop t k ∧ k ≤ cap ∧ seen.length = k + 1 ∧ (∀ v ∈ seen.take k, test v = true) ∧
          (k < cap → ∃ v, seen[k]? = some v ∧ test v = false)) ∧
      Ends (gmresWatch A G pl base m fun i v => decide (i < cap) && test v) .start n s (fun ctl seen _ =>
        ∃ t k, ctl = .stop t k ∧ k ≤ cap ∧ seen.length = k + 1 ∧ (∀ v ∈ seen.take k, test v = true) ∧
          (k < cap → ∃ v, seen[k]? = some v ∧ test v = false)) := by
  obtain ⟨pl, hpl, _, _, _, _, _, _, -, _, w1⟩ := c84_cg A h n s
  obtain ⟨pl2, hpl2, _, _, _, _, _, _, _, _, _, _, _, _, -, _, w2⟩ := c84_bicgstab A h n s
  obtain ⟨pl3, hpl3, _, _, _, -, -, _, w3⟩ := c84_gmres A m h n s
  cases hpl.symm.trans hpl2
  cases hpl.symm.trans hpl3
  exact ⟨pl, hpl, w1.capped cap test, w2.capped cap test, w3.capped cap test⟩

end Verif.Interactive
