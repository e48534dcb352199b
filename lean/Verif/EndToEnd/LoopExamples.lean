import Verif.EndToEnd.Loop
import Verif.EndToEnd.RateExamples
import Verif.Solver.RateExamples

/-! # C80, C83: non-vacuity -/
namespace Verif.Interactive
open Verif.Runtime Verif.Vector Verif.Matrix Verif.Solver Verif.Planner Verif.Textbook
open scoped _root_.Matrix

/-- C80 on the system with two blocks and four unknowns whose matrix has the eigenvalues 1 and 3. -/
example (s : Cell Nat → ℝ) (h0 : ∀ p, s (.elem 0 p) = 0) (h1 : ∀ p, s (.elem 1 p) = 0) (ε : ℝ) (hε : 0 < ε) :
    ∃ pl, Planner.empty.setupAll Solver.exG pairCalls = some pl ∧
      Ends (cgLoop (exactArith ℝ Real.sqrt) Solver.exG pl 10 fun _ v =>
          decide (ε ^ 2 * (clientRhs Solver.exG pairCalls s ⬝ᵥ clientRhs Solver.exG pairCalls s) < v)) .start 0 s fun ctl _ _ =>
        ∃ pl' c k, ctl = .stop pl' c k ∧ k ≤ ⌈√(3 / 1) / 2 * Real.log (2 * √(3 / 1) / ε)⌉₊ ∧ k ≤ 4 := by
  obtain ⟨e, he, hcoef⟩ := pair_equiv
  obtain ⟨hdot, hmv, -⟩ := transport e (clientMatrix Solver.exG pairCalls) pairMatrix hcoef
  have hS := SPD_transfer e (clientMatrix Solver.exG pairCalls) pairMatrix hcoef (pair_between.spd pair_sym one_pos)
  obtain ⟨pl, hpl, g1, g2, g3⟩ := c80_rate (m := 1) (M := 3) (exactArith_exact ℝ Real.sqrt) pairSystem hS.1
    one_pos (by norm_num) (fun v => by
      have e1 : v = (v ∘ e.symm) ∘ e := by funext i; simp
      rw [e1, hmv, hdot, hdot]
      exact pair_between _) 0 s (pair_zero s h0 h1) ε hε _ (le_refl _)
  refine ⟨pl, hpl, g1, g2, fun i w hw he' => ?_⟩
  obtain ⟨⟨pl', c, k, f1, f2, f3, -⟩, -⟩ := g3 i w hw he'
  refine ⟨pl', c, k, f1, f2, f3.trans (le_of_eq ?_)⟩
  rw [← Fintype.card_coe, Fintype.card_congr e, Fintype.card_fin]

end Verif.Interactive

namespace Verif.EndToEnd
open Verif.Grid Verif.Stencil Verif.Runtime Verif.Vector Verif.Matrix Verif.Planner Verif.Textbook Verif.Solver Verif.Laplacian
open Verif.Interactive

/-- The line of three points, right-hand side one: squared norm of the residual at most `3/100`. -/
example (junk : COO Int Int ℝ) (s : Cell Int → ℝ) (h0 : ∀ p, s (.elem 0 p) = 0) (h1 : ∀ p, s (.elem 1 p) = 1) :
    ∃ pl, Planner.empty.setupAll lineG
      (singleCalls ⟨0, 0, 0, 0⟩ ⟨1, 0, 0, 0⟩
        (Op.coo (createCOOLaplacian (fun z : Int => (z : ℝ)) 3 [[4, 5, 6], [0, 1, 2, 3]] junk))) = some pl ∧
    Ends (cgLoop (exactArith ℝ Real.sqrt) lineG pl 10 fun _ v => decide (3 / 100 < v)) .start 0 s fun ctl _ s' =>
      (∃ pl' c k, ctl = .stop pl' c k ∧ k ≤ 3) ∧
      (1 - (2 * s' (.elem 0 0) - s' (.elem 0 1))) ^ 2 + (1 - (2 * s' (.elem 0 1) - s' (.elem 0 0) - s' (.elem 0 2))) ^ 2 +
        (1 - (2 * s' (.elem 0 2) - s' (.elem 0 1))) ^ 2 ≤ 3 / 100 := by
  have hI : Finset.Ico (0 : Int) 3 = {0, 1, 2} := by decide
  obtain ⟨pl, hpl, g1, g2, g3⟩ := c83_coo_laplacian (exactArith_exact ℝ Real.sqrt) 3 _ line_pieces junk lineG_vectors lineG_points 0 s
    (fun i _ _ => h0 i) (1 / 10) (by norm_num) (3 / 100) (by
      rw [hI]
      simp only [h1]
      norm_num)
  refine ⟨pl, hpl, g1, g2, fun i w hw he => ?_⟩
  obtain ⟨⟨pl', c, k, f1, -, f3, -⟩, f4, -⟩ := g3 i w hw he
  refine ⟨⟨pl', c, k, f1, f3⟩, ?_⟩
  unfold lineResidual at f4
  rw [hI, Finset.sum_insert (by decide), Finset.sum_insert (by decide), Finset.sum_singleton] at f4
  simp only [h1, onLine] at f4
  norm_num at f4
  linarith

/-- The same in CSR format, to any relative accuracy. -/
example (junk : CSR Int Int ℝ) (s : Cell Int → ℝ) (h0 : ∀ p, s (.elem 0 p) = 0) (ε : ℝ) (hε : 0 < ε) :
    ∃ pl, Planner.empty.setupAll lineG
      (singleCalls ⟨0, 0, 0, 0⟩ ⟨1, 0, 0, 0⟩
        (Op.csr (createCSRLaplacian (fun z : Int => (z : ℝ)) 3 [[4, 5, 6], [0, 1, 2, 3]] [[1, 2], [0]] junk))) = some pl ∧
    Ends (cgLoop (exactArith ℝ Real.sqrt) lineG pl 10 fun _ v =>
        decide (ε ^ 2 * ∑ i ∈ Finset.Ico (0 : Int) 3, s (.elem 1 i) ^ 2 < v)) .start 0 s fun _ _ s' =>
      lineResidual 3 (fun i => s (.elem 1 i)) (fun i => s' (.elem 0 i)) ≤ ε ^ 2 * ∑ i ∈ Finset.Ico (0 : Int) 3, s (.elem 1 i) ^ 2 := by
  obtain ⟨pl, hpl, g1, g2, g3⟩ := c83_csr_laplacian (exactArith_exact ℝ Real.sqrt) 3 (by decide) _ _ line_pieces line_rows junk
    lineG_vectors lineG_points 0 s (fun i _ _ => h0 i) ε hε _ (le_refl _)
  exact ⟨pl, hpl, g1, g2, fun i w hw he => (g3 i w hw he).2.1⟩

/-- The five-point stencil on a grid of two by two. -/
example (s : Cell Point → ℝ) (h0 : ∀ p, s (.elem 0 p) = 0) (ε : ℝ) (hε : 0 < ε) :
    ∃ F : Nat, ∀ fuel, F ≤ fuel → ∀ junk,
    ∃ m, createCOOStencil id .rowMajor sqB realOffsets [fun k => decide (k < 5), fun k => decide (5 ≤ k)] fuel junk = some m ∧
    ∃ pl, Planner.empty.setupAll sqG (singleCalls ⟨0, 0, 0, 0⟩ ⟨1, 0, 0, 0⟩ (Op.coo m)) = some pl ∧
      Ends (cgLoop (exactArith ℝ Real.sqrt) sqG pl 10 fun _ v => decide (ε ^ 2 * gridNorm sqB (fun p => s (.elem 1 p)) < v)) .start 0 s
        fun _ _ s' => gridResidual sqB realDirs (fun p => s (.elem 1 p)) (fun p => s' (.elem 0 p)) ≤
          ε ^ 2 * gridNorm sqB (fun p => s (.elem 1 p)) := by
  obtain ⟨F, hF⟩ := c83_coo_stencil (exactArith_exact ℝ Real.sqrt) id _ .rowMajor sqB realOffsets (by simp [sqB]) real_sort realDirs
    (by decide) (by simp [realDirs]) real_offsets real_crossed
  refine ⟨F, fun fuel hf junk => ?_⟩
  obtain ⟨m, g1, g2⟩ := hF fuel hf [fun k => decide (k < 5), fun k => decide (5 ≤ k)] (fun size _ k _ => by
    by_cases h : (k : Int) < 5
    · exact ⟨_, List.mem_cons_self, by simpa using h⟩
    · exact ⟨fun k => decide (5 ≤ k), by simp, by simpa using h⟩) junk
  obtain ⟨pl, hpl, f1, f2, f3⟩ := g2 sqG_vectors (fun p => mem_pointsOf .rowMajor sqB p) 0 s (fun p _ => h0 p) ε hε _ (le_refl _)
  exact ⟨m, g1, pl, hpl, f1, f2, fun i w hw he => (f3 i w hw he).2.1⟩

end Verif.EndToEnd
