import Verif.Solver.SymmetryProps
import Verif.Solver.ClientExamples

/-! # C67: two coupled blocks that cannot be told apart -/
set_option linter.dupNamespace false
namespace Verif.Solver
open Verif.Runtime Verif.Vector Verif.Matrix Verif.Planner

/-- Both right-hand sides are 1, 2; both solutions start at 5, 7; everything else holds 9. -/
def twinStore : Cell Nat → ℚ
  | .elem d p => if d < 2 then (if p = 0 then 5 else 7) else if d < 4 then p + 1 else 9
  | _ => 9

/-- The same point of the two blocks of `twoCalls`, of which one has its diagonal in CSR and the other in COO format. -/
def twins (u u' : Σ _ : Nat, Nat) : Prop := u.1 < 2 ∧ u.2 < 2 ∧ u'.1 = 1 - u.1 ∧ u'.2 = u.2

theorem twins_indistinguishable : Indistinguishable exG twoCalls twinStore twins := by
  have key : ∀ u u', twins u u' → (u = ⟨0, 0⟩ ∧ u' = ⟨1, 0⟩) ∨ (u = ⟨0, 1⟩ ∧ u' = ⟨1, 1⟩) ∨ (u = ⟨1, 0⟩ ∧ u' = ⟨0, 0⟩) ∨
      (u = ⟨1, 1⟩ ∧ u' = ⟨0, 1⟩) := by
    rintro ⟨i, p⟩ ⟨j, q⟩ ⟨h1, h2, h3, h4⟩
    simp only at h1 h2 h3 h4
    subst h3 h4
    rcases (by omega : i = 0 ∨ i = 1) with rfl | rfl <;> rcases (by omega : q = 0 ∨ q = 1) with rfl | rfl <;> simp
  refine ⟨fun u u' h => ?_, fun u u' h => ?_, fun u u' h => ?_, fun u u' h => ?_⟩
  · rcases key u u' h with ⟨rfl, rfl⟩ | ⟨rfl, rfl⟩ | ⟨rfl, rfl⟩ | ⟨rfl, rfl⟩ <;> decide
  · have e : ∀ i p, i < 2 → p < 2 → clientStored twoCalls ⟨i, p⟩ = [(⟨i, p⟩, 2), (⟨1 - i, p⟩, 1)] := by
      intro i p hi hp
      rcases (by omega : i = 0 ∨ i = 1) with rfl | rfl <;> rcases (by omega : p = 0 ∨ p = 1) with rfl | rfl <;> rfl
    obtain ⟨i, p⟩ := u
    obtain ⟨j, q⟩ := u'
    obtain ⟨h1, h2, h3, h4⟩ := h
    simp only at h1 h2 h3 h4
    subst h3 h4
    rw [e _ _ h1 h2, e _ _ (by omega) h2]
    exact .cons ⟨⟨h1, h2, rfl, rfl⟩, rfl⟩ (.cons ⟨⟨by show 1 - i < 2; omega, h2, rfl, rfl⟩, rfl⟩ .nil)
  · intro v v' hv hv'
    rcases key u u' h with ⟨rfl, rfl⟩ | ⟨rfl, rfl⟩ | ⟨rfl, rfl⟩ | ⟨rfl, rfl⟩ <;> cases hv <;> cases hv' <;> rfl
  · intro v v' hv hv'
    rcases key u u' h with ⟨rfl, rfl⟩ | ⟨rfl, rfl⟩ | ⟨rfl, rfl⟩ | ⟨rfl, rfl⟩ <;> cases hv <;> cases hv' <;> rfl

/-- `c67_cg` applies: whatever the arithmetic on ℚ, both blocks hold the same solution. -/
example (A : Arith ℚ) : ∃ pl, Planner.empty.setupAll exG twoCalls = some pl ∧ ∀ k n, Ensures (cg A exG pl 10 k) n twinStore fun _ s' =>
    s' (.elem 0 0) = s' (.elem 1 0) ∧ s' (.elem 0 1) = s' (.elem 1 1) := by
  obtain ⟨pl, hpl, h⟩ := c67_cg A twoSystem twins_indistinguishable
  refine ⟨pl, hpl, fun k n => ?_⟩
  obtain ⟨a, n', ts, q1, q2, q3⟩ := h k n
  refine ⟨a, n', ts, q1, q2, fun M' r1 r2 => ?_⟩
  have := q3 M' r1 r2
  exact ⟨this ⟨0, 0⟩ ⟨1, 0⟩ ⟨by decide, by decide, rfl, rfl⟩ ⟨0, 0, 0, 0⟩ ⟨1, 0, 0, 0⟩ rfl rfl,
    this ⟨0, 1⟩ ⟨1, 1⟩ ⟨by decide, by decide, rfl, rfl⟩ ⟨0, 0, 0, 0⟩ ⟨1, 0, 0, 0⟩ rfl rfl⟩


end Verif.Solver
