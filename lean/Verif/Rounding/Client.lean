import Verif.Rounding.CG
import Verif.Solver.Independence
import Mathlib.Analysis.InnerProductSpace.PiL2

/-! # C59, C60 in terms of the calls of a client -/
set_option linter.dupNamespace false
set_option linter.unusedSectionVars false
namespace Verif.Rounding
open Verif.Runtime Verif.Vector Verif.Matrix Verif.Planner Verif.Solver
open scoped _root_.Matrix
variable {K P : Type} [DecidableEq P] [DecidableEq K] {u : ℝ} {A : Arith ℝ}
variable {G : Geometry P} {calls : List (Setup K P ℝ)} {base : Nat}

/-- The entries stored in row `v` of the client's system, in all the matrices it added: column and coefficient. -/
def clientStored (calls : List (Setup K P ℝ)) (v : Σ _ : Nat, P) : List ((Σ _ : Nat, P) × ℝ) :=
  (mats calls).flatMap fun t => if t.2.2 = v.1 then (t.1.stored v.2).map fun e => (⟨t.2.1, e.1⟩, e.2) else []

/-- The client's matrix with every stored entry replaced by its absolute value. -/
noncomputable def clientAbs (G : Geometry P) (calls : List (Setup K P ℝ)) :
    _root_.Matrix (clientUnknowns G calls) (clientUnknowns G calls) ℝ :=
  fun v v' => (((clientStored calls v.1).filter fun t => decide (t.1 = v'.1)).map fun t => |t.2|).sum

/-- Every vector of the client is cut into at most `N` pieces of at most `L` points. -/
def ClientCut (G : Geometry P) (calls : List (Setup K P ℝ)) (L N : Nat) : Prop :=
  ∀ v ∈ sols calls, (G.pieces v.part).length ≤ N ∧ ∀ l ∈ G.pieces v.part, l.length ≤ L

/-- The planner's view of a client's system, with the stored entries. -/
theorem client_stored (h : ClientSystem G calls base) (nw : Nat) {L N : Nat} (hcut : ClientCut G calls L N) :
    ∃ pl pl', Planner.empty.setupAll G calls = some pl ∧ SolverSetup G pl pl' base nw ∧ Cut G pl' L N ∧
      pl'.spaces.length = (sols calls).length ∧
      ∃ e : pl'.U G ≃ clientUnknowns G calls, (∀ v v', pl'.operator G v v' = clientMatrix G calls (e v) (e v')) ∧
        (∀ v v', absOperator G pl' v v' = clientAbs G calls (e v) (e v')) ∧
        (∀ v, pl'.stored v.1.1 v.1.2 = clientStored calls (e v).1) ∧
        (∀ s : Cell P → ℝ, pl'.content G s 0 = clientSol G calls s ∘ e) ∧
        ∀ s : Cell P → ℝ, pl'.content G s 1 = clientRhs G calls s ∘ e := by
  obtain ⟨pl, pl', hpl, S, hc⟩ := h.complete nw
  have hu := unknowns_eq hc
  have hcon := c31_consistent G _ hc.constructed pl' hc.accepted
  have hm := hcon.2.2.2.2.2.2.2.1
  rw [mats_alloc] at hm
  have hsol := hcon.1
  rw [sols_alloc] at hsol
  have hlen : pl'.spaces.length = (sols calls).length := by
    have := S.ready.sizes
    unfold Planner.sizesAgree at this
    simp at this
    rw [← hsol]
    omega
  have hstored : ∀ i p, pl'.stored i p = clientStored calls ⟨i, p⟩ := by
    intro i p
    unfold Planner.stored clientStored
    rw [← hm, List.flatMap_map]
  refine ⟨pl, pl', hpl, S, ?_, hlen, Equiv.subtypeEquivRight fun v => by rw [hu], fun v v' => ?_, fun v v' => ?_,
    fun v => hstored _ _, fun s => funext fun v => ?_, fun s => funext fun v => ?_⟩
  · intro i hi
    obtain ⟨hl, -, hpart, -⟩ := S.ready.lookup (k := 0) (by omega) hi
    rw [← hpart]
    apply hcut
    rw [← hsol]
    exact List.mem_of_getElem? hl
  · unfold Planner.operator clientMatrix clientCoef
    rw [← hm, List.map_map]
    rfl
  · unfold absOperator Planner.collect clientAbs
    rw [hstored]
    rfl
  · obtain ⟨w, h1, -, h3⟩ := (c33_client_vectors hc 0 (by omega)).1 v
    rw [given_alloc] at h1
    rw [h3]
    show _ = clientVec (given calls 0) s v.1
    unfold clientVec
    rw [h1]
    rfl
  · obtain ⟨w, h1, -, h3⟩ := (c33_client_vectors hc 1 (by omega)).1 v
    rw [given_alloc] at h1
    rw [h3]
    show _ = clientVec (given calls 1) s v.1
    unfold clientVec
    rw [h1]
    rfl

theorem gapTerm_rename {ι κ : Type} [Fintype ι] [Fintype κ] (e : ι ≃ κ) {Ma : _root_.Matrix ι ι ℝ} {Na : _root_.Matrix κ κ ℝ}
    (h : ∀ i j, Ma i j = Na (e i) (e j)) (m : Nat) (x x' r : κ → ℝ) (i : ι) :
    gapTerm u m Ma (x ∘ e) (x' ∘ e) (r ∘ e) i = gapTerm u m Na x x' r (e i) := by
  obtain ⟨-, hmv, -⟩ := transport e Ma Na h
  unfold gapTerm
  have h1 : Ma *ᵥ vabs (x' ∘ e) = (Na *ᵥ vabs x') ∘ e := hmv (vabs x')
  have h2 : (Ma *ᵥ fun w => |(x' ∘ e) w| / (1 - u) + |(x ∘ e) w|) = (Na *ᵥ fun w => |x' w| / (1 - u) + |x w|) ∘ e :=
    hmv fun w => |x' w| / (1 - u) + |x w|
  rw [h1, h2]
  rfl

/-- **C60** in terms of the calls: `x k` is what the run with `k` steps leaves in the solution vectors, `ρ k` the `k`-th recorded value,
`π k` the number by which step `k + 1` divides, `p k · A (p k)` up to rounding. -/
theorem c60_client (hA : Rounded u A) (hu1 : u < 1) (h : ClientSystem G calls base) {L N m : Nat} (hcut : ClientCut G calls L N)
    (hm : ∀ v ∈ clientUnknowns G calls, (clientStored calls v).length ≤ m) (n : Nat) (s : Cell P → ℝ) :
    ∃ pl, Planner.empty.setupAll G calls = some pl ∧ ∃ (x r p : Nat → clientUnknowns G calls → ℝ) (ρ π : Nat → ℝ),
      (∀ k, Ensures (cg A G pl base k) n s fun c s' => clientSol G calls s' = x k ∧ clientRhs G calls s' = clientRhs G calls s ∧
        c.history.length = k + 1 ∧ ∀ (i : Nat) a, c.history[i]? = some a → s' (.fut a.fut) = ρ i) ∧
      (∀ k, Ensures (cgCurvature A G pl base k) n s fun a s' => s' (.fut a.fut) = π k) ∧
      x 0 = clientSol G calls s ∧ r 0 = clientRhs G calls s ∧ p 0 = clientRhs G calls s ∧
      (∀ k, |ρ k - r k ⬝ᵥ r k| ≤ ((1 + u) ^ (L + N + (sols calls).length) - 1) * (r k ⬝ᵥ r k)) ∧
      (∀ k, |π k - p k ⬝ᵥ clientMatrix G calls *ᵥ p k| ≤
        ((1 + u) ^ (L + N + (sols calls).length + (1 + m)) - 1) * (vabs (p k) ⬝ᵥ clientAbs G calls *ᵥ vabs (p k))) ∧
      ∀ k, (∀ j, j < k → π j ≠ 0) → ∀ v, |(clientRhs G calls s - clientMatrix G calls *ᵥ (x k - x 0) - r k) v| ≤
        ∑ j ∈ Finset.range k, gapTerm u m (clientAbs G calls) (x j) (x (j + 1)) (r (j + 1)) v := by
  obtain ⟨pl, pl', hpl, S, hcut', hlen, e, hop, habs, hst, h0, h1⟩ := client_stored h 3 hcut
  obtain ⟨x, r, p, ρ, π, g1, g2, g3, g4, g4', g5, g5', g6⟩ := c60_cg hA hu1 S hcut' (fun v => by rw [hst v]; exact hm _ (e v).2) n s
  have hc : ∀ f : pl'.U G → ℝ, (f ∘ e.symm) ∘ e = f := fun f => funext fun v => by simp
  obtain ⟨hdot, hmv, -⟩ := transport e (pl'.operator G) (clientMatrix G calls) hop
  refine ⟨pl, hpl, fun k => x k ∘ e.symm, fun k => r k ∘ e.symm, fun k => p k ∘ e.symm, ρ, π, fun k => ?_, g2, ?_, ?_, ?_, fun k => ?_,
    fun k => ?_, fun k hk v => ?_⟩
  · refine ensures_weaken (g1 k) ?_
    rintro c s' ⟨a1, a2, -, -, a3, a4⟩
    rw [h0] at a1
    rw [h1, h1] at a2
    refine ⟨comp_inj e ?_, comp_inj e a2, a3, a4⟩
    rw [a1, hc]
  · refine comp_inj e ?_
    rw [hc, g3, h0]
  · refine comp_inj e ?_
    rw [hc, g4, h1]
  · refine comp_inj e ?_
    rw [hc, g4', h1]
  · have h2 := g5 k
    have h3 : (r k ∘ e.symm) ⬝ᵥ (r k ∘ e.symm) = r k ⬝ᵥ r k := by
      rw [← hdot, hc]
    rw [h3, ← hlen]
    exact h2
  · have h2 := g5' k
    obtain ⟨hdot', hmv', -⟩ := transport e (absOperator G pl') (clientAbs G calls) habs
    have h3 : (p k ∘ e.symm) ⬝ᵥ clientMatrix G calls *ᵥ (p k ∘ e.symm) = p k ⬝ᵥ pl'.operator G *ᵥ p k := by
      rw [← hdot, ← hmv, hc]
    have h4 : vabs (p k ∘ e.symm) ⬝ᵥ clientAbs G calls *ᵥ vabs (p k ∘ e.symm) = vabs (p k) ⬝ᵥ absOperator G pl' *ᵥ vabs (p k) := by
      have h5 : vabs (p k ∘ e.symm) ∘ e = vabs (p k) := hc (vabs (p k))
      rw [← hdot', ← hmv', h5]
    rw [h3, h4, ← hlen]
    exact h2
  · have h2 := g6 k hk (e.symm v)
    have h3 : pl'.content G s 1 - pl'.operator G *ᵥ (x k - x 0) - r k =
        (clientRhs G calls s - clientMatrix G calls *ᵥ (x k ∘ e.symm - x 0 ∘ e.symm) - r k ∘ e.symm) ∘ e := by
      have h4 := hmv (x k ∘ e.symm - x 0 ∘ e.symm)
      have h5 : (x k ∘ e.symm - x 0 ∘ e.symm) ∘ e = x k - x 0 := hc (x k - x 0)
      rw [h5] at h4
      rw [h4, h1]
      funext w
      simp
    rw [h3] at h2
    simp only [Function.comp, Equiv.apply_symm_apply] at h2
    refine h2.trans (le_of_eq (Finset.sum_congr rfl fun j _ => ?_))
    have h6 := gapTerm_rename (u := u) e habs m (x j ∘ e.symm) (x (j + 1) ∘ e.symm) (r (j + 1) ∘ e.symm) (e.symm v)
    rw [hc, hc, hc, Equiv.apply_symm_apply] at h6
    exact h6

/-! ## Norms -/

/-- The Euclidean norm. -/
noncomputable def norm2 {ι : Type} [Fintype ι] (z : ι → ℝ) : ℝ := √(z ⬝ᵥ z)

section
variable {ι : Type} [Fintype ι]

theorem norm2_eq (z : ι → ℝ) : norm2 z = ‖(WithLp.toLp 2 z : EuclideanSpace ℝ ι)‖ := by
  rw [EuclideanSpace.norm_eq]
  unfold norm2
  congr 1
  exact Finset.sum_congr rfl fun i _ => by simp [sq]

theorem norm2_add (z w : ι → ℝ) : norm2 (z + w) ≤ norm2 z + norm2 w := by
  rw [norm2_eq, norm2_eq, norm2_eq, WithLp.toLp_add]
  exact norm_add_le _ _

theorem norm2_mono {z w : ι → ℝ} (h : ∀ i, |z i| ≤ w i) : norm2 z ≤ norm2 w := by
  refine Real.sqrt_le_sqrt (Finset.sum_le_sum fun i _ => ?_)
  rw [← abs_mul_abs_self]
  exact mul_le_mul (h i) (h i) (abs_nonneg _) ((abs_nonneg _).trans (h i))

theorem norm2_neg (z : ι → ℝ) : norm2 (-z) = norm2 z := by
  unfold norm2
  rw [neg_dotProduct, dotProduct_neg, neg_neg]

end

/-- **C60**, norms, from zero: with `ε` the relative error of an inner product, the recorded value bounds the norm of the true residual
from both sides, up to the norm of the accumulated error. -/
theorem c60_recorded_values (hA : Rounded u A) (hu1 : u < 1) (h : ClientSystem G calls base) {L N m : Nat} (hcut : ClientCut G calls L N)
    (hm : ∀ v ∈ clientUnknowns G calls, (clientStored calls v).length ≤ m) (n : Nat) (s : Cell P → ℝ)
    (hx0 : clientSol G calls s = 0) (ε : ℝ) (hε : ε = (1 + u) ^ (L + N + (sols calls).length) - 1) (hε1 : ε < 1) :
    ∃ pl, Planner.empty.setupAll G calls = some pl ∧ ∃ (x r : Nat → clientUnknowns G calls → ℝ) (ρ π : Nat → ℝ),
      (∀ k, Ensures (cg A G pl base k) n s fun c s' => clientSol G calls s' = x k ∧ clientRhs G calls s' = clientRhs G calls s ∧
        c.history.length = k + 1 ∧ ∀ (i : Nat) a, c.history[i]? = some a → s' (.fut a.fut) = ρ i) ∧
      (∀ k, Ensures (cgCurvature A G pl base k) n s fun a s' => s' (.fut a.fut) = π k) ∧
      (∀ k, 0 ≤ ρ k ∧ norm2 (r k) ≤ √(ρ k / (1 - ε))) ∧
      ∀ k, (∀ j, j < k → π j ≠ 0) → ∀ Γ : clientUnknowns G calls → ℝ,
        (Γ = fun v => ∑ j ∈ Finset.range k, gapTerm u m (clientAbs G calls) (x j) (x (j + 1)) (r (j + 1)) v) →
        norm2 (clientRhs G calls s - clientMatrix G calls *ᵥ x k) ≤ √(ρ k / (1 - ε)) + norm2 Γ ∧
        √(ρ k / (1 + ε)) ≤ norm2 (clientRhs G calls s - clientMatrix G calls *ᵥ x k) + norm2 Γ := by
  obtain ⟨pl, hpl, x, r, p, ρ, π, h1, h2, h3, h4, -, h5, -, h6⟩ := c60_client hA hu1 h hcut hm n s
  have hε0 : 0 ≤ ε := by
    have : (1 : ℝ) ≤ (1 + u) ^ (L + N + (sols calls).length) := one_le_pow₀ (by have := hA.nonneg; linarith)
    linarith
  have hrr : ∀ k, 0 ≤ r k ⬝ᵥ r k := fun k => Finset.sum_nonneg fun v _ => mul_self_nonneg _
  have hup : ∀ k, (1 - ε) * (r k ⬝ᵥ r k) ≤ ρ k ∧ ρ k ≤ (1 + ε) * (r k ⬝ᵥ r k) := fun k => by
    have h7 := h5 k
    rw [← hε, abs_le] at h7
    constructor <;> nlinarith
  have hn1 : ∀ k, norm2 (r k) ≤ √(ρ k / (1 - ε)) := fun k => by
    refine Real.sqrt_le_sqrt ?_
    rw [le_div_iff₀ (by linarith)]
    have := (hup k).1
    linarith
  have hn2 : ∀ k, √(ρ k / (1 + ε)) ≤ norm2 (r k) := fun k => by
    refine Real.sqrt_le_sqrt ?_
    rw [div_le_iff₀ (by linarith)]
    have := (hup k).2
    linarith
  refine ⟨pl, hpl, x, r, ρ, π, h1, h2, fun k => ⟨?_, hn1 k⟩, fun k hk Γ hΓ => ?_⟩
  · have := (hup k).1
    have := mul_nonneg (show 0 ≤ 1 - ε by linarith) (hrr k)
    linarith
  · have hx : x 0 = 0 := h3.trans hx0
    have hg : norm2 (clientRhs G calls s - clientMatrix G calls *ᵥ x k - r k) ≤ norm2 Γ := by
      refine norm2_mono fun v => ?_
      have := h6 k hk v
      rw [hx, sub_zero] at this
      rw [hΓ]
      exact this
    set t := clientRhs G calls s - clientMatrix G calls *ᵥ x k with ht
    have h7 : norm2 t ≤ norm2 (r k) + norm2 (t - r k) := by
      have := norm2_add (r k) (t - r k)
      rwa [add_sub_cancel] at this
    have h8 : norm2 (r k) ≤ norm2 t + norm2 (t - r k) := by
      have := norm2_add t (-(t - r k))
      rw [norm2_neg] at this
      rwa [show t + -(t - r k) = r k by abel] at this
    have := hn1 k
    have := hn2 k
    constructor <;> linarith

/-- **C60**, attainable accuracy: if the iterates and residual vectors of the first `k` steps stay below `X` and `R`, the true residual is
within `k` times a fixed vector of order `u` of the residual vector, whose squared norm is recorded. -/
theorem c60_attainable (hA : Rounded u A) (hu1 : u < 1) (h : ClientSystem G calls base) {L N m : Nat} (hcut : ClientCut G calls L N)
    (hm : ∀ v ∈ clientUnknowns G calls, (clientStored calls v).length ≤ m) (n : Nat) (s : Cell P → ℝ) (hx0 : clientSol G calls s = 0) :
    ∃ pl, Planner.empty.setupAll G calls = some pl ∧ ∃ (x r : Nat → clientUnknowns G calls → ℝ) (ρ π : Nat → ℝ),
      (∀ k, Ensures (cg A G pl base k) n s fun c s' => clientSol G calls s' = x k ∧ clientRhs G calls s' = clientRhs G calls s ∧
        c.history.length = k + 1 ∧ ∀ (i : Nat) a, c.history[i]? = some a → s' (.fut a.fut) = ρ i) ∧
      (∀ k, Ensures (cgCurvature A G pl base k) n s fun a s' => s' (.fut a.fut) = π k) ∧
      (∀ k, |ρ k - r k ⬝ᵥ r k| ≤ ((1 + u) ^ (L + N + (sols calls).length) - 1) * (r k ⬝ᵥ r k)) ∧
      ∀ k (X R : clientUnknowns G calls → ℝ), (∀ j, j < k → π j ≠ 0) → (∀ j, j ≤ k → ∀ v, |x j v| ≤ X v ∧ |r j v| ≤ R v) →
        ∀ v, |(clientRhs G calls s - clientMatrix G calls *ᵥ x k - r k) v| ≤
          k * (u / (1 - u) * ((clientAbs G calls *ᵥ X) v + R v) +
            ((1 + u) ^ (m + 3) + u - 1) / (1 - u) * (clientAbs G calls *ᵥ fun w => X w / (1 - u) + X w) v) := by
  obtain ⟨pl, hpl, x, r, p, ρ, π, h1, h2, h3, h4, -, h5, -, h6⟩ := c60_client hA hu1 h hcut hm n s
  refine ⟨pl, hpl, x, r, ρ, π, h1, h2, h5, fun k X R hk hb v => ?_⟩
  have hx : x 0 = 0 := h3.trans hx0
  have h7 := h6 k hk v
  rw [hx, sub_zero] at h7
  have hMa : ∀ i j, 0 ≤ clientAbs G calls i j := fun i j => List.sum_nonneg fun a ha => by
    obtain ⟨t, -, rfl⟩ := List.mem_map.1 ha
    exact abs_nonneg _
  refine h7.trans ((Finset.sum_le_sum fun j hj => gapTerm_mono (X := X) (X' := X) (R := R) hA.nonneg hu1 hMa
    (fun w => (hb j (by have := Finset.mem_range.1 hj; omega) w).1) (fun w => (hb (j + 1) (by have := Finset.mem_range.1 hj; omega) w).1)
    (fun w => (hb (j + 1) (by have := Finset.mem_range.1 hj; omega) w).2) v).trans (le_of_eq ?_))
  rw [Finset.sum_const, Finset.card_range, nsmul_eq_mul]

end Verif.Rounding
