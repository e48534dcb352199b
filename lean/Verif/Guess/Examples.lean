import Verif.Guess.Again
import Verif.Units.Examples

/-! # C89: the theorems apply to concrete systems -/
set_option linter.dupNamespace false
set_option linter.unusedSectionVars false
namespace Verif.Guess
open Verif.Runtime Verif.Vector Verif.Matrix Verif.Planner Verif.Solver Verif.Special Verif.Units

/-- 53 binary digits: `[[3, 1], [1, 2]] x = (1, 7)` from the guess `(5, 0)`, and from a guess that is not a number. -/
theorem ex_guess_cg (n : Nat) : ∃ pl, Planner.empty.setupAll boxG (boxCalls fun i => Fp.num ([3, 1, 1, 2].getD i 0)) = some pl ∧
    ∃ ρ : Nat → Fp, ∀ k, (Ensures (cg (floatArith nearest 52) boxG pl 20 k) n
      (boxStore (.num 0) (fun p => .num ([5, 0].getD p 0)) fun p => .num ([1, 7].getD p 0)) fun c t => Records t c.history ρ) ∧
    Ensures (cg (floatArith nearest 52) boxG pl 20 k) n
      (boxStore .nan (fun _ => .nan) fun p => .num ([1, 7].getD p 0)) fun c t => Records t c.history ρ := by
  obtain ⟨hb, -⟩ := box_changed (e := fun i => Fp.num ([3, 1, 1, 2].getD i 0)) (d := .num 0) (d' := .nan)
    (x := fun p => .num ([5, 0].getD p 0)) (b := fun p => .num ([1, 7].getD p 0)) (x' := fun _ => .nan)
    (b' := fun p => .num ([1, 7].getD p 0)) (f := fun _ => .nan) (f' := fun a => a) (fun _ => rfl) (fun _ => rfl)
  obtain ⟨pl, h1, _, ρ, _, _, _, _, _, _, _, h⟩ := c89_cg (A := floatArith nearest 52) boxSystem hb n
  exact ⟨pl, h1, ρ, fun k => ⟨ensures_weaken (h k).1 fun _ _ q => q.2.2, ensures_weaken (h k).2 fun _ _ q => q.2.2⟩⟩

/-- The hypotheses of `c89_bicgstab` are the same; those of the other theorems are met by exact arithmetic, also with undefined quotients. -/
example : ClientSystem boxG (boxCalls (exE ℝ)) 20 ∧ OrderFree (partialArith Real.sqrt) ∧ OrderFree (exactArith ℚ qsqrt) :=
  ⟨boxSystem, partial_orderFree _, exact_orderFree (exactArith_exact ℚ qsqrt)⟩

/-- `2 x = (3, 4)` by CG from 0, in exact arithmetic, one step: the solution; starting again from it, one step: twice the solution. -/
theorem ex_again_cg : ∃ (pl pl' : Planner Nat Nat ℚ), SolverSetup Solver.exG pl pl' 10 3 ∧
    (Ensures (cg (exactArith ℚ qsqrt) Solver.exG pl 10 1) 0 (exMem 0 0 3 4) fun _ t =>
      ∀ u, pl'.content Solver.exG t 0 u = if u.1.2 = 0 then 3 / 2 else 2) ∧
    Ensures (cg (exactArith ℚ qsqrt) Solver.exG pl 10 1) 0 (exMem (3 / 2) 2 3 4) fun _ t =>
      ∀ u, pl'.content Solver.exG t 0 u = if u.1.2 = 0 then 3 else 4 := by
  refine ⟨exPl twoE, exPl' twoE 3, exSetup twoE 3, ?_, ?_⟩
  all_goals
    refine WP.ensures ((cg_wp (exactArith_exact ℚ qsqrt) (exSetup twoE 3) 1 0 _ (show Verif.Textbook.CGRegular _ _ _ _ by decide +kernel)).mono
      fun c n' s' h => ?_)
    obtain ⟨-, c0, -, -⟩ := h.1.contents
    rw [c0]
    decide +kernel

end Verif.Guess
