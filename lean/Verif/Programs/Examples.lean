import Verif.Programs.Basic
import Verif.EndToEnd.Examples

/-! # Concrete cases of C65 and C66 -/
set_option linter.dupNamespace false
namespace Verif.Programs
open Verif.Runtime Verif.Vector Verif.Matrix Verif.Planner Verif.Solver Verif.EndToEnd Verif.Laplacian Verif.Rounding Verif.Stencil

/-! ## C65 -/

/-- What `Test05COOSolveCG` and `Test06CSRSolveCG` print with their default parameters (100 points, 10 iterations), in exact
arithmetic. -/
example : (List.range 11).map (fun j : Nat => lineResidual ℚ 100 j) =
    [100, 4900, 4704, 4512, 4324, 4140, 3960, 3784, 3612, 3444, 3280] := by
  decide +kernel

/-- The default number of iterations does not solve the default system. -/
example : ¬ SolvesLine 100 (fun i => lineIterate ℚ 100 10 i) (fun _ => (1 : ℚ)) := by
  have h := c65_solution (V := ℚ) 100 10
  exact fun h' => absurd (h.1 h') (by decide)

/-- Three points, two iterations, on the partitioned line of `Verif.EndToEnd.Examples`: prints `3`, `3/2`, `0` and finds the solution. -/
example (junk : COO Int Int ℚ) (s : Cell Int → ℚ) :
    EnsuresOutput (testSolveCG ratArith lineG 0 0 1 10
      (Op.coo (createCOOLaplacian (fun z : Int => (z : ℚ)) 3 [[4, 5, 6], [0, 1, 2, 3]] junk)) 2) 0 s
      fun _ out σ => out = [3, 3 / 2, 0] ∧ σ (.elem 0 0) = 3 / 2 ∧ σ (.elem 0 1) = 2 ∧ σ (.elem 0 2) = 3 / 2 := by
  refine (c65_coo (A := ratArith) (exactArith_exact ℚ _) 3 (by decide) _ line_pieces junk lineG_vectors lineG_points 0 s 2
    (by decide)).mono fun _ o σ h => ⟨?_, ?_, ?_, ?_⟩
  · rw [h.1]; decide +kernel
  · rw [h.2 0 (by decide) (by decide)]; decide +kernel
  · rw [h.2 1 (by decide) (by decide)]; decide +kernel
  · rw [h.2 2 (by decide) (by decide)]; decide +kernel

example (junk : CSR Int Int ℚ) (s : Cell Int → ℚ) :
    EnsuresOutput (testSolveCG ratArith lineG 0 0 1 10
      (Op.csr (createCSRLaplacian (fun z : Int => (z : ℚ)) 3 [[4, 5, 6], [0, 1, 2, 3]] [[1, 2], [0]] junk)) 2) 0 s
      fun _ out _ => out = [3, 3 / 2, 0] := by
  refine (c65_csr (A := ratArith) (exactArith_exact ℚ _) 3 (by decide) _ _ line_pieces line_rows junk lineG_vectors lineG_points 0 s 2
    (by decide)).mono fun _ o σ h => ?_
  rw [h.1]; decide +kernel

/-! ## C66 -/

/-- Truncation is a rounding mode, and so is rounding to nearest. -/
theorem floor_mode : RoundingMode fun x => ⌊x⌋ := fun z => Int.floor_intCast z
theorem round_mode : RoundingMode fun x => round x := fun z => round_intCast z

/-- `1.5` and the four-digit neighbour of `2.7`, `2.75`, with rounding to nearest and four digits. -/
example (s : Cell Int → ℝ) : EnsuresOutput (test02 (roundedArith (binaryRound 3 fun x => round x)) lineG 0 0 1 2 1 (-1) (-1 / 2)
    (3 / 2) (11 / 4)) 0 s fun _ out _ => out = [0] := by
  have h := lineG_vectors
  refine c66_vector round_mode h.valid h.order (u := ⟨0, 0, 0, 0⟩) (v := ⟨1, 0, 0, 0⟩) (w := ⟨2, 0, 0, 0⟩) (by decide) (by decide)
    (by decide) (by decide) (by decide) (by decide) ?_ ?_ (by norm_num) (by norm_num) 0 s
  · exact isBinary_of (m := 3) (e := -1) (by norm_num) (by norm_num [abs_of_pos])
  · exact isBinary_of (m := 11) (e := -2) (by norm_num) (by norm_num [abs_of_pos])

theorem binaryRound_at {p : Nat} {r : ℝ → ℤ} {x : ℝ} {e : ℤ} (h1 : (2 : ℝ) ^ e ≤ |x|) (h2 : |x| < (2 : ℝ) ^ (e + 1)) :
    binaryRound p r x = r (x / (2 : ℝ) ^ (e - p)) * (2 : ℝ) ^ (e - p) := by
  have hpos : 0 < |x| := lt_of_lt_of_le (zpow_pos two_pos _) h1
  have : Int.log 2 |x| = e := by
    apply le_antisymm
    · have h := (Int.lt_zpow_iff_log_lt (b := 2) (by norm_num) hpos (x := e + 1)).1 (by exact_mod_cast h2)
      omega
    · exact (Int.zpow_le_iff_le_log (b := 2) (by norm_num) hpos (x := e)).1 (by exact_mod_cast h1)
  unfold binaryRound
  rw [this]

/-- The hypothesis on the fill values is needed: with two digits, rounding down, and fill values `3` and `1/2` the element does not
vanish. -/
theorem c66_vector_needs_close :
    test02Elem (roundedArith (binaryRound 1 fun x => ⌊x⌋)) 1 (-1) (-1 / 2) 3 (1 / 2) = 1 / 2 := by
  have h35 : binaryRound 1 (fun x => ⌊x⌋) (7 / 2) = 3 := by
    rw [binaryRound_at (e := 1) (by norm_num) (by norm_num)]
    norm_num
  have h25 : binaryRound 1 (fun x => ⌊x⌋) (5 / 2) = 2 := by
    rw [binaryRound_at (e := 1) (by norm_num) (by norm_num)]
    norm_num
  have h2 : binaryRound 1 (fun x => ⌊x⌋) 2 = 2 := by
    rw [binaryRound_at (e := 1) (by norm_num) (by norm_num)]
    norm_num
  have h12 : binaryRound 1 (fun x => ⌊x⌋) (1 / 2) = 1 / 2 := by
    rw [binaryRound_at (e := -1) (by norm_num) (by norm_num)]
    norm_num
  show binaryRound 1 _ (-1 / 2 * binaryRound 1 _ (1 * (1 / 2) + 3) + binaryRound 1 _ (-1 / 2 * binaryRound 1 _ (-1 * (1 / 2) + 3) + 3)) = _
  rw [show (1 : ℝ) * (1 / 2) + 3 = 7 / 2 by norm_num, show (-1 : ℝ) * (1 / 2) + 3 = 5 / 2 by norm_num, h35, h25,
    show (-1 : ℝ) / 2 * 2 + 3 = 2 by norm_num, h2, show (-1 : ℝ) / 2 * 3 + 2 = 1 / 2 by norm_num, h12]

example (s : Cell Int → ℝ) : Ensures (test01 (roundedArith (binaryRound 23 fun x => round x)) 2 10) 0 s
    fun v s' => s' (.fut v.fut) = 1 := c66_scalar (by decide) round_mode 0 s

end Verif.Programs
