import Verif.Solver.Textbook
import Mathlib.Algebra.BigOperators.Ring.Finset
import Mathlib.Algebra.Order.BigOperators.Ring.Finset
import Mathlib.Tactic.Linarith
import Mathlib.Tactic.LinearCombination
import Mathlib.Logic.Equiv.Defs
import Mathlib.Algebra.Group.End

/-! # Discrete Laplacians are positive definite

A finite set `S` of points, shifts `T` (bijections of the ambient points, one per axis) with positive weights.  The operator is
`(L f) p = Σ w (2 f p - f (T p) - f (T⁻¹ p))` with `f = 0` outside `S`. -/
set_option linter.dupNamespace false
namespace Verif.EndToEnd
open scoped _root_.Matrix

variable {P V : Type} [DecidableEq P] [Field V]

/-- The coefficient of the operator of weighted shifts. -/
def shiftCoef (Ts : List (Equiv.Perm P × V)) (p q : P) : V :=
  (Ts.map fun t => t.2 * (2 * (if p = q then 1 else 0) - (if t.1 p = q then 1 else 0) - (if t.1 q = p then 1 else 0))).sum

theorem shiftCoef_symm (Ts : List (Equiv.Perm P × V)) (p q : P) : shiftCoef Ts p q = shiftCoef Ts q p := by
  unfold shiftCoef
  congr 1
  apply List.map_congr_left
  intro t _
  have : (if p = q then (1 : V) else 0) = if q = p then 1 else 0 := by simp [eq_comm]
  rw [this]
  ring

/-- Action on functions that vanish outside `S`. -/
theorem shiftCoef_apply (Ts : List (Equiv.Perm P × V)) (S : Finset P) (f : P → V) (hf : ∀ p, p ∉ S → f p = 0) (p : P) :
    ∑ q ∈ S, shiftCoef Ts p q * f q = (Ts.map fun t => t.2 * (2 * f p - f (t.1 p) - f (t.1.symm p))).sum := by
  have point : ∀ r, ∑ q ∈ S, (if r = q then (1 : V) else 0) * f q = f r := by
    intro r
    by_cases hr : r ∈ S
    · rw [Finset.sum_eq_single r]
      · simp
      · intro q _ hq; rw [if_neg (Ne.symm hq), zero_mul]
      · intro h; exact absurd hr h
    · rw [hf r hr]
      apply Finset.sum_eq_zero
      intro q hq
      rw [if_neg (by rintro rfl; exact hr hq), zero_mul]
  induction Ts with
  | nil => simp [shiftCoef]
  | cons t Ts ih =>
    rw [List.map_cons, List.sum_cons, ← ih]
    have h2 : ∀ q, shiftCoef (t :: Ts) p q * f q =
        t.2 * (2 * ((if p = q then 1 else 0) * f q) - (if t.1 p = q then 1 else 0) * f q -
          (if t.1.symm p = q then 1 else 0) * f q) + shiftCoef Ts p q * f q := by
      intro q
      have : (if t.1 q = p then (1 : V) else 0) = if t.1.symm p = q then 1 else 0 := by
        by_cases h : t.1 q = p
        · rw [if_pos h, if_pos (by rw [← h]; simp)]
        · rw [if_neg h, if_neg (fun h' => h (by rw [← h']; simp))]
      show ((t.2 * _) + (shiftCoef Ts p q)) * f q = _
      rw [this]
      ring
    rw [Finset.sum_congr rfl fun q _ => h2 q, Finset.sum_add_distrib, ← Finset.mul_sum, Finset.sum_sub_distrib,
      Finset.sum_sub_distrib, ← Finset.mul_sum, point p, point, point]

/-- Summation by parts along one shift. -/
theorem shift_by_parts (T : Equiv.Perm P) (S : Finset P) (f : P → V) (hf : ∀ p, p ∉ S → f p = 0) :
    ∑ p ∈ S, f p * (2 * f p - f (T p) - f (T.symm p)) = ∑ p ∈ S ∪ S.map T.symm.toEmbedding, (f p - f (T p)) ^ 2 := by
  set S' := S ∪ S.map T.symm.toEmbedding with hS'
  have sub : S ⊆ S' := Finset.subset_union_left
  have e1 : ∑ p ∈ S', f p * f p = ∑ p ∈ S, f p * f p :=
    (Finset.sum_subset sub fun p _ hp => by rw [hf p hp, zero_mul]).symm
  have e2 : ∑ p ∈ S', f p * f (T p) = ∑ p ∈ S, f p * f (T p) :=
    (Finset.sum_subset sub fun p _ hp => by rw [hf p hp, zero_mul]).symm
  have mem : ∀ p, T p ∈ S → p ∈ S' := fun p hp =>
    Finset.mem_union_right _ (Finset.mem_map.2 ⟨T p, hp, by simp⟩)
  have back : ∀ g : P → V, (∀ p, p ∉ S → g p = 0) → ∑ p ∈ S', g (T p) = ∑ p ∈ S, g p := by
    intro g hg
    have h1 : ∑ p ∈ S', g (T p) = ∑ p ∈ S.map T.symm.toEmbedding, g (T p) := by
      refine (Finset.sum_subset Finset.subset_union_right fun p _ hp => ?_).symm
      apply hg
      intro h
      exact hp (Finset.mem_map.2 ⟨T p, h, by simp⟩)
    rw [h1, Finset.sum_map]
    simp
  have e3 : ∑ p ∈ S', f (T p) * f (T p) = ∑ p ∈ S, f p * f p :=
    back (fun p => f p * f p) fun p hp => by rw [hf p hp, zero_mul]
  have e4 : ∑ p ∈ S', f (T p) * f p = ∑ p ∈ S, f p * f (T.symm p) := by
    have := back (fun p => f p * f (T.symm p)) fun p hp => by rw [hf p hp, zero_mul]
    simpa using this
  have e5 : ∑ p ∈ S', f (T p) * f p = ∑ p ∈ S', f p * f (T p) := Finset.sum_congr rfl fun p _ => mul_comm _ _
  have l : ∑ p ∈ S, f p * (2 * f p - f (T p) - f (T.symm p)) =
      2 * ∑ p ∈ S, f p * f p - ∑ p ∈ S, f p * f (T p) - ∑ p ∈ S, f p * f (T.symm p) := by
    rw [Finset.mul_sum, ← Finset.sum_sub_distrib, ← Finset.sum_sub_distrib]
    exact Finset.sum_congr rfl fun p _ => by ring
  have r : ∑ p ∈ S', (f p - f (T p)) ^ 2 =
      ∑ p ∈ S', f p * f p + ∑ p ∈ S', f (T p) * f (T p) - 2 * ∑ p ∈ S', f p * f (T p) := by
    rw [Finset.mul_sum, ← Finset.sum_add_distrib, ← Finset.sum_sub_distrib]
    exact Finset.sum_congr rfl fun p _ => by ring
  rw [l, r, e1, e3, ← e4, e5, ← e2]
  ring

variable [LinearOrder V] [IsStrictOrderedRing V]

theorem shift_form_nonneg (T : Equiv.Perm P) (S : Finset P) (f : P → V) (hf : ∀ p, p ∉ S → f p = 0) :
    0 ≤ ∑ p ∈ S, f p * (2 * f p - f (T p) - f (T.symm p)) := by
  rw [shift_by_parts T S f hf]
  exact Finset.sum_nonneg fun p _ => sq_nonneg _

/-- If some power of the shift leads out of `S` from every point, only `f = 0` has form zero. -/
theorem shift_form_pos (T : Equiv.Perm P) (S : Finset P) (hesc : ∀ p ∈ S, ∃ n : Nat, (T ^ n) p ∉ S) (f : P → V)
    (hf : ∀ p, p ∉ S → f p = 0) (p0 : P) (h0 : f p0 ≠ 0) :
    0 < ∑ p ∈ S, f p * (2 * f p - f (T p) - f (T.symm p)) := by
  rw [shift_by_parts T S f hf]
  apply lt_of_le_of_ne (Finset.sum_nonneg fun p _ => sq_nonneg _)
  intro heq
  have hz := (Finset.sum_eq_zero_iff_of_nonneg fun p _ => sq_nonneg (f p - f (T p))).1 heq.symm
  have hinv : ∀ p, f p = f (T p) := by
    intro p
    by_cases hp : p ∈ S ∪ S.map T.symm.toEmbedding
    · have := hz p hp
      rw [pow_eq_zero_iff (by decide)] at this
      exact sub_eq_zero.1 this
    · rw [Finset.mem_union, not_or] at hp
      rw [hf p hp.1, hf (T p) fun h => hp.2 (Finset.mem_map.2 ⟨T p, h, by simp⟩)]
  have hpow : ∀ n : Nat, f p0 = f ((T ^ n) p0) := by
    intro n
    induction n with
    | zero => rfl
    | succ n ih => rw [ih, hinv, pow_succ']; rfl
  have hmem : p0 ∈ S := by by_contra h; exact h0 (hf p0 h)
  obtain ⟨n, hn⟩ := hesc p0 hmem
  exact h0 ((hpow n).trans (hf _ hn))

/-- **The operator is symmetric positive definite** when all weights are positive, there is at least one shift, and the shifts lead
out of `S`. -/
theorem shift_SPD (Ts : List (Equiv.Perm P × V)) (hne : Ts ≠ []) (hw : ∀ t ∈ Ts, 0 < t.2) (S : Finset P)
    (hesc : ∀ t ∈ Ts, ∀ p ∈ S, ∃ n : Nat, (t.1 ^ n) p ∉ S) :
    Verif.Textbook.SPD (fun u u' : S => shiftCoef Ts u.1 u'.1) := by
  refine ⟨?_, fun x hx => ?_⟩
  · funext u u'
    exact shiftCoef_symm Ts u'.1 u.1
  · -- extend by zero
    set f : P → V := fun p => if h : p ∈ S then x ⟨p, h⟩ else 0 with hfdef
    have hf : ∀ p, p ∉ S → f p = 0 := fun p hp => by simp [hfdef, hp]
    have hfx : ∀ u : S, f u.1 = x u := fun u => by simp [hfdef]
    have hform : x ⬝ᵥ (fun u u' : S => shiftCoef Ts u.1 u'.1) *ᵥ x =
        (Ts.map fun t => t.2 * ∑ p ∈ S, f p * (2 * f p - f (t.1 p) - f (t.1.symm p))).sum := by
      have h1 : x ⬝ᵥ (fun u u' : S => shiftCoef Ts u.1 u'.1) *ᵥ x =
          ∑ p ∈ S, f p * ∑ q ∈ S, shiftCoef Ts p q * f q := by
        rw [← Finset.sum_attach S (fun p => f p * ∑ q ∈ S, shiftCoef Ts p q * f q)]
        show ∑ u : S, x u * ∑ u' : S, shiftCoef Ts u.1 u'.1 * x u' = _
        rw [Finset.univ_eq_attach]
        refine Finset.sum_congr rfl fun u _ => ?_
        rw [hfx u, ← Finset.sum_attach S (fun q => shiftCoef Ts u.1 q * f q)]
        congr 1
        exact Finset.sum_congr rfl fun u' _ => by rw [hfx u']
      rw [h1, Finset.sum_congr rfl fun p _ => by rw [shiftCoef_apply Ts S f hf p]]
      clear h1 hesc hw hne
      induction Ts with
      | nil => simp
      | cons t Ts ih =>
        simp only [List.map_cons, List.sum_cons]
        rw [← ih, Finset.mul_sum, ← Finset.sum_add_distrib]
        exact Finset.sum_congr rfl fun p _ => by ring
    rw [hform]
    obtain ⟨u, hu⟩ : ∃ u, x u ≠ 0 := by
      by_contra h
      apply hx
      funext u
      by_contra h'
      exact h ⟨u, h'⟩
    have hpos : ∀ t ∈ Ts, 0 < t.2 * ∑ p ∈ S, f p * (2 * f p - f (t.1 p) - f (t.1.symm p)) := fun t ht =>
      mul_pos (hw t ht) (shift_form_pos t.1 S (hesc t ht) f hf u.1 (by rw [hfx]; exact hu))
    clear hform hesc hw
    cases Ts with
    | nil => exact absurd rfl hne
    | cons t Ts =>
      rw [List.map_cons, List.sum_cons]
      refine add_pos_of_pos_of_nonneg (hpos t (by simp)) (List.sum_nonneg fun y hy => ?_)
      obtain ⟨t', ht', rfl⟩ := List.mem_map.1 hy
      exact (hpos t' (by simp [ht'])).le

end Verif.EndToEnd
