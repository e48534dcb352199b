import Verif.Special.GMRES
import Verif.Special.Client

/-! # Arithmetic in which the order of a sum does not matter: the recurrences determine their results -/
set_option linter.dupNamespace false
set_option linter.unusedSectionVars false
namespace Verif.Guess
open Verif.Runtime Verif.Vector Verif.Matrix Verif.Planner Verif.Solver Verif.Special
variable {V : Type} {A : Arith V}

/-- Sums may be evaluated in any order.  Nothing is said about products and quotients, which may be rounded, undefined or arbitrary. -/
structure OrderFree (A : Arith V) : Prop where
  comm : ∀ a b, A.add a b = A.add b a
  assoc : ∀ a b c, A.add (A.add a b) c = A.add a (A.add b c)
  zero : ∀ a, A.add A.zero a = a

theorem sums_unique (hA : OrderFree A) {l : Multiset V} {a b : V} (h : Sums A l a) (h' : Sums A l b) : a = b := by
  let _ : AddCommMonoid V :=
    { add := A.add, zero := A.zero, add_assoc := hA.assoc, add_comm := hA.comm, zero_add := hA.zero,
      add_zero := fun a => (hA.comm a A.zero).trans (hA.zero a), nsmul := @nsmulRec V ⟨A.zero⟩ ⟨A.add⟩ }
  have key : ∀ {l : Multiset V} {a : V}, Sums A l a → a = l.sum := by
    intro l a h
    induction h with
    | zero => exact Multiset.sum_zero.symm
    | one x => exact (Multiset.sum_singleton x).symm
    | @add l l' a b _ _ ih ih' =>
      rw [Multiset.sum_add, ← ih, ← ih']
      rfl
  rw [key h, key h']

variable {ι : Type} [Fintype ι] {mv : (ι → V) → ι → V} {x0 x0' b : ι → V}

theorem cg_unique (hA : OrderFree A) {x p q r : Nat → ι → V} {ρ π : Nat → V} (H : CGRun A mv x0 b x p q r ρ π)
    {x' p' q' r' : Nat → ι → V} {ρ' π' : Nat → V} (H' : CGRun A mv x0' b x' p' q' r' ρ' π') :
    ∀ k, r k = r' k ∧ p k = p' k ∧ ρ k = ρ' k ∧ π k = π' k := by
  have scalars : ∀ k, r k = r' k → p k = p' k → ρ k = ρ' k ∧ π k = π' k := by
    intro k hr hp
    refine ⟨sums_unique hA (H.rho k) (hr ▸ H'.rho k), sums_unique hA (H.curvature k) ?_⟩
    have := H'.curvature k
    rw [H'.product] at this
    rw [H.product, hp]
    exact this
  intro k
  induction k with
  | zero =>
    have hr : r 0 = r' 0 := H.r_zero.trans H'.r_zero.symm
    have hp : p 0 = p' 0 := H.p_zero.trans H'.p_zero.symm
    exact ⟨hr, hp, scalars 0 hr hp⟩
  | succ k ih =>
    obtain ⟨ir, ip, iρ, iπ⟩ := ih
    have hr : r (k + 1) = r' (k + 1) := by
      funext u
      rw [H.r_succ, H'.r_succ, iρ, iπ, ir, H.product, H'.product, ip]
    have hρ : ρ (k + 1) = ρ' (k + 1) := sums_unique hA (H.rho _) (hr ▸ H'.rho _)
    have hp : p (k + 1) = p' (k + 1) := by
      funext u
      rw [H.p_succ, H'.p_succ, hρ, iρ, ip, hr]
    exact ⟨hr, hp, scalars _ hr hp⟩

theorem bi_unique (hA : OrderFree A) {x p v r g t : Nat → ι → V} {ρ α ω τ ν η : Nat → V} (H : BiRun A mv x0 b x p v r g t ρ α ω τ ν η)
    {x' p' v' r' g' t' : Nat → ι → V} {ρ' α' ω' τ' ν' η' : Nat → V} (H' : BiRun A mv x0' b x' p' v' r' g' t' ρ' α' ω' τ' ν' η') :
    ∀ k, r k = r' k ∧ p k = p' k ∧ v k = v' k ∧ ρ k = ρ' k ∧ α k = α' k ∧ ω k = ω' k ∧ p (k + 1) = p' (k + 1) ∧ g k = g' k := by
  have step : ∀ k, r k = r' k → p k = p' k → v k = v' k → ρ k = ρ' k → α k = α' k → ω k = ω' k →
      p (k + 1) = p' (k + 1) ∧ g k = g' k ∧ r (k + 1) = r' (k + 1) ∧ v (k + 1) = v' (k + 1) ∧ ρ (k + 1) = ρ' (k + 1) ∧
        α (k + 1) = α' (k + 1) ∧ ω (k + 1) = ω' (k + 1) := by
    intro k ir ip iv iρ iα iω
    have hρ : ρ (k + 1) = ρ' (k + 1) := sums_unique hA (H.rho k) (ir ▸ H'.rho k)
    have hp : p (k + 1) = p' (k + 1) := by
      funext u
      rw [H.p_succ, H'.p_succ, hρ, iρ, iα, iω, iv, ip, ir]
    have hv : v (k + 1) = v' (k + 1) := by rw [H.product, H'.product, hp]
    have hτ : τ k = τ' k := sums_unique hA (H.tau k) (hv ▸ H'.tau k)
    have hg : g k = g' k := by
      funext u
      rw [H.half, H'.half, hρ, hτ, hv, ir]
    have ht : t k = t' k := by rw [H.half_product, H'.half_product, hg]
    have hω : ω (k + 1) = ω' (k + 1) := by
      rw [H.omega, H'.omega, sums_unique hA (H.nu k) (by rw [hg, ht]; exact H'.nu k), sums_unique hA (H.eta k) (by rw [ht]; exact H'.eta k)]
    refine ⟨hp, hg, ?_, hv, hρ, ?_, hω⟩
    · funext u
      rw [H.r_succ, H'.r_succ, hω, ht, hg]
    · rw [H.alpha, H'.alpha, hρ, hτ]
  intro k
  have inv : r k = r' k ∧ p k = p' k ∧ v k = v' k ∧ ρ k = ρ' k ∧ α k = α' k ∧ ω k = ω' k := by
    induction k with
    | zero =>
      exact ⟨H.r_zero.trans H'.r_zero.symm, H.p_zero.trans H'.p_zero.symm, H.v_zero.trans H'.v_zero.symm, H.rho_zero.trans H'.rho_zero.symm,
        H.alpha_zero.trans H'.alpha_zero.symm, H.omega_zero.trans H'.omega_zero.symm⟩
    | succ k ih =>
      obtain ⟨h1, h2, h3, h4, h5, h6⟩ := ih
      obtain ⟨g1, -, g3, g4, g5, g6, g7⟩ := step k h1 h2 h3 h4 h5 h6
      exact ⟨g3, g1, g4, g5, g6, g7⟩
  obtain ⟨h1, h2, h3, h4, h5, h6⟩ := inv
  obtain ⟨g1, g2, -⟩ := step k h1 h2 h3 h4 h5 h6
  exact ⟨h1, h2, h3, h4, h5, h6, g1, g2⟩

theorem column_unique (hA : OrderFree A) {m j : Nat} {B B' : Nat → ι → V} {H H' : Nat → V} (hB : ∀ i, i ≤ j → B i = B' i)
    (C : Column A mv m j B H) (C' : Column A mv m j B' H') :
    (∀ i, i ≤ j + 1 → H i = H' i) ∧ (j + 1 < m → B (j + 1) = B' (j + 1)) := by
  obtain ⟨W, D, w0, w1, w2, w3, w4⟩ := C
  obtain ⟨W', D', w0', w1', w2', w3', w4'⟩ := C'
  have hW : ∀ i, i ≤ j + 1 → W i = W' i ∧ ∀ i', i' < i → H i' = H' i' := by
    intro i
    induction i with
    | zero => exact fun _ => ⟨by rw [w0, w0', hB j (Nat.le_refl _)], fun _ h => absurd h (Nat.not_lt_zero _)⟩
    | succ i ih =>
      intro hi
      obtain ⟨iW, iH⟩ := ih (by omega)
      have hH : H i = H' i := sums_unique hA (w1 i (by omega)).1 (by rw [iW, hB i (by omega)]; exact (w1' i (by omega)).1)
      refine ⟨?_, fun i' h' => ?_⟩
      · funext u
        rw [(w1 i (by omega)).2, (w1' i (by omega)).2, hH, iW, hB i (by omega)]
      · by_cases he : i' = i
        · rw [he, hH]
        · exact iH i' (by omega)
  obtain ⟨hW1, hH⟩ := hW (j + 1) (Nat.le_refl _)
  have hD : D = D' := sums_unique hA w2 (by rw [hW1]; exact w2')
  refine ⟨fun i hi => ?_, fun hm => ?_⟩
  · by_cases he : i = j + 1
    · rw [he, w3, w3', hD]
    · exact hH i (by omega)
  · funext u
    rw [w4 hm, w4' hm, hD, hW1]

theorem cycle_unique (hA : OrderFree A) {m : Nat} {x y y' : ι → V} {B B' : Nat → ι → V} {H H' : Nat → Nat → V}
    (C : Cycle A mv m b x B H y) (C' : Cycle A mv m b x B' H' y') : y = y' ∧ ∀ i j, j < m → i ≤ j + 1 → H i j = H' i j := by
  have hB : ∀ j, j < m ∨ j = 0 → ∀ i, i ≤ j → B i = B' i := by
    intro j
    induction j with
    | zero =>
      intro _ i hi
      obtain rfl : i = 0 := by omega
      obtain ⟨D, h1, h2⟩ := C.start
      obtain ⟨D', h1', h2'⟩ := C'.start
      funext u
      rw [h2, h2', sums_unique hA h1 h1']
    | succ j ih =>
      intro hj i hi
      have ih := ih (Or.inl (by omega))
      by_cases he : i = j + 1
      · subst he
        exact (column_unique hA ih (C.column j (by omega)) (C'.column j (by omega))).2 (by omega)
      · exact ih i (by omega)
  refine ⟨?_, fun i j hj hi => (column_unique hA (hB j (Or.inl hj)) (C.column j hj) (C'.column j hj)).1 i hi⟩
  obtain ⟨Y, y0, y1, rfl⟩ := C.update
  obtain ⟨Y', y0', y1', rfl⟩ := C'.update
  have : ∀ j, j ≤ m → Y j = Y' j := by
    intro j
    induction j with
    | zero => exact fun _ => y0.trans y0'.symm
    | succ j ih =>
      intro hj
      funext u
      rw [y1 j (by omega), y1' j (by omega), hB j (Or.inl (by omega)) j (Nat.le_refl _), ih (by omega)]
  exact this m (Nat.le_refl _)

end Verif.Guess
