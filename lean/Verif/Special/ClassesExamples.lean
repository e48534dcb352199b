import Verif.Special.Classes
import Verif.Special.Examples

/-! # C73 applies: the matrix `[[2, 1], [1, 2]]`, right-hand side `(1, 1)`: two unknowns, one class -/
set_option linter.dupNamespace false
namespace Verif.Special
open Verif.Runtime Verif.Vector Verif.Matrix Verif.Planner Verif.Solver Verif.Textbook
open scoped _root_.Matrix

noncomputable section

/-- The entries of the matrix. -/
def twE : Nat → Option ℝ := fun k => some (if k = 0 ∨ k = 3 then 2 else 1)

/-- Initial solution 0, right-hand side 1. -/
def twStore : Cell Nat → Option ℝ := boxStore none (fun _ => some 0) fun _ => some 1

theorem tw_defined : Defined boxG (boxCalls twE) twStore where
  coefs := box_coefs fun _ _ => rfl
  rhs := box_rhs fun _ _ => rfl
  sol := box_sol fun _ _ => rfl

theorem tw_matrix (u u' : clientUnknowns boxG (boxCalls twE)) :
    exactMatrix boxG (boxCalls twE) u u' = if u = u' then 2 else 1 := by
  obtain ⟨u, hu⟩ := u
  obtain ⟨u', hu'⟩ := u'
  have h1 := hu
  have h2 := hu'
  rw [box_unknowns, Finset.mem_insert, Finset.mem_singleton] at h1 h2
  unfold exactMatrix
  rcases h1 with rfl | rfl <;> rcases h2 with rfl | rfl
  all_goals
    rw [box_stored _ (by decide)]
    simp [twE]

theorem tw_sum (f : clientUnknowns boxG (boxCalls twE) → ℝ) :
    ∑ u, f u = f ⟨⟨0, 0⟩, by rw [box_unknowns]; decide⟩ + f ⟨⟨0, 1⟩, by rw [box_unknowns]; decide⟩ := by
  have hu : (Finset.univ : Finset (clientUnknowns boxG (boxCalls twE))) =
      {⟨⟨0, 0⟩, by rw [box_unknowns]; decide⟩, ⟨⟨0, 1⟩, by rw [box_unknowns]; decide⟩} := by
    ext ⟨u, hu⟩
    have h1 := hu
    rw [box_unknowns, Finset.mem_insert, Finset.mem_singleton] at h1
    rcases h1 with rfl | rfl <;> simp
  rw [hu, Finset.sum_pair]
  simp

theorem tw_spd : SPD (exactMatrix boxG (boxCalls twE)) := by
  refine ⟨?_, fun x hx => ?_⟩
  · funext u u'
    show exactMatrix boxG (boxCalls twE) u' u = _
    rw [tw_matrix, tw_matrix]
    simp [eq_comm]
  · show 0 < ∑ u, x u * ∑ u', exactMatrix boxG (boxCalls twE) u u' * x u'
    rw [tw_sum, tw_sum, tw_sum]
    simp only [tw_matrix]
    simp only [if_true]
    rw [if_neg (by simp), if_neg (by simp)]
    generalize hp : x ⟨⟨0, 0⟩, _⟩ = p
    generalize hq : x ⟨⟨0, 1⟩, _⟩ = q
    have : p ≠ 0 ∨ q ≠ 0 := by
      refine Classical.byContradiction fun hn => hx ?_
      simp only [not_or, not_not] at hn
      funext ⟨u, hu⟩
      have h1 := hu
      rw [box_unknowns, Finset.mem_insert, Finset.mem_singleton] at h1
      rcases h1 with rfl | rfl
      · exact hp.trans hn.1
      · exact hq.trans hn.2
    rcases this with h | h
    · nlinarith [sq_nonneg (p + q), sq_nonneg q, sq_pos_of_ne_zero h]
    · nlinarith [sq_nonneg (p + q), sq_nonneg p, sq_pos_of_ne_zero h]

theorem tw_classes : Classes boxG (boxCalls twE) twStore (fun _ => ()) where
  rhs := by
    rintro ⟨u, hu⟩ ⟨u', hu'⟩ -
    have h1 := hu
    have h2 := hu'
    rw [box_unknowns, Finset.mem_insert, Finset.mem_singleton] at h1 h2
    rcases h1 with rfl | rfl <;> rcases h2 with rfl | rfl <;> rfl
  rows := by
    rintro ⟨u, hu⟩ ⟨u', hu'⟩ ⟨⟩ -
    simp only [if_true]
    rw [tw_sum, tw_sum]
    simp only [tw_matrix]
    have h1 := hu
    have h2 := hu'
    rw [box_unknowns, Finset.mem_insert, Finset.mem_singleton] at h1 h2
    rcases h1 with rfl | rfl <;> rcases h2 with rfl | rfl <;> norm_num

/-- Two steps of conjugate gradients on two unknowns are one too many. -/
theorem tw_cg (n : Nat) : ∃ pl, Planner.empty.setupAll boxG (boxCalls twE) = some pl ∧
    Ensures (cg (partialArith Real.sqrt) boxG pl 20 2) n twStore fun _ s' => SolutionUndefined boxG (boxCalls twE) s' := by
  obtain ⟨pl, hpl, k0, hk0, -, -, h⟩ := c73_cg boxSystem tw_defined Real.sqrt_zero n tw_spd tw_classes
  exact ⟨pl, hpl, h 2 (Nat.lt_of_le_of_lt hk0 (by decide))⟩

/-- So are two steps of BiCGStab. -/
theorem tw_bicgstab (n : Nat) : ∃ pl, Planner.empty.setupAll boxG (boxCalls twE) = some pl ∧
    Ensures (biCGStab (partialArith Real.sqrt) boxG pl 20 2) n twStore fun _ s' => SolutionUndefined boxG (boxCalls twE) s' := by
  obtain ⟨pl, hpl, h⟩ := c73_bicgstab boxSystem tw_defined Real.sqrt_zero n tw_classes
  exact ⟨pl, hpl, h 2 (by decide)⟩

/-- And GMRES with restart length 2. -/
theorem tw_gmres (n : Nat) : ∃ pl, Planner.empty.setupAll boxG (boxCalls twE) = some pl ∧
    Ensures (gmres (partialArith Real.sqrt) boxG pl 20 2 1) n twStore fun _ s' => SolutionUndefined boxG (boxCalls twE) s' := by
  obtain ⟨pl, hpl, h⟩ := c73_gmres boxSystem tw_defined Real.sqrt_zero n (fun a ha => Real.mul_self_sqrt ha) tw_classes (by
    rintro ⟨u, hu⟩ ⟨u', hu'⟩ -
    have h1 := hu
    have h2 := hu'
    rw [box_unknowns, Finset.mem_insert, Finset.mem_singleton] at h1 h2
    rcases h1 with rfl | rfl <;> rcases h2 with rfl | rfl <;> rfl) (m := 2) (by decide)
  exact ⟨pl, hpl, h 1 (Nat.le_refl 1)⟩

end
end Verif.Special
