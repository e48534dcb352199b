import Verif.EndToEnd.Rate
import Verif.EndToEnd.Examples

/-! # C57 for a line of three points and a grid of two by two -/
namespace Verif.EndToEnd
open Verif.Grid Verif.Stencil Verif.Runtime Verif.Vector Verif.Matrix Verif.Planner Verif.Textbook Verif.Solver Verif.Laplacian

/-- Right-hand side one, `x = (3/2, 2, 3/2)`. -/
example (junk : COO Int Int ℝ) (s : Cell Int → ℝ) (h0 : ∀ p, s (.elem 0 p) = 0) (h1 : ∀ p, s (.elem 1 p) = 1) :
    ∃ pl, Planner.empty.setupAll lineG
      (singleCalls ⟨0, 0, 0, 0⟩ ⟨1, 0, 0, 0⟩
        (Op.coo (createCOOLaplacian (fun z : Int => (z : ℝ)) 3 [[4, 5, 6], [0, 1, 2, 3]] junk))) = some pl ∧
    ∃ j, j ≤ ⌈((3 : Int) : ℝ) * Real.log (2 / (1 / 10))⌉₊ ∧ Ensures (cg (exactArith ℝ Real.sqrt) lineG pl 10 j) 0 s fun _ s' =>
      lineEnergy 3 (fun i => ((i : ℝ) + 1) * (3 - i) / 2 - s' (.elem 0 i)) ≤
        (1 / 10) ^ 2 * lineEnergy 3 (fun i => ((i : ℝ) + 1) * (3 - i) / 2) := by
  refine c57_coo_laplacian (exactArith_exact ℝ Real.sqrt) 3 _ line_pieces junk lineG_vectors lineG_points 0 s (fun i _ _ => h0 i) _
    (fun i hi0 hi => ?_) (1 / 10) (by norm_num)
  show _ = s (.elem 1 i)
  rw [h1]
  have : i = 0 ∨ i = 1 ∨ i = 2 := by omega
  rcases this with rfl | rfl | rfl <;> norm_num [onLine]

example (junk : CSR Int Int ℝ) (s : Cell Int → ℝ) (h0 : ∀ p, s (.elem 0 p) = 0) (h1 : ∀ p, s (.elem 1 p) = 1) (ε : ℝ) (hε : 0 < ε) :
    ∃ pl, Planner.empty.setupAll lineG
      (singleCalls ⟨0, 0, 0, 0⟩ ⟨1, 0, 0, 0⟩
        (Op.csr (createCSRLaplacian (fun z : Int => (z : ℝ)) 3 [[4, 5, 6], [0, 1, 2, 3]] [[1, 2], [0]] junk))) = some pl ∧
    ∃ j, j ≤ ⌈((3 : Int) : ℝ) * Real.log (2 / ε)⌉₊ ∧ Ensures (cg (exactArith ℝ Real.sqrt) lineG pl 10 j) 0 s fun _ s' =>
      lineEnergy 3 (fun i => ((i : ℝ) + 1) * (3 - i) / 2 - s' (.elem 0 i)) ≤
        ε ^ 2 * lineEnergy 3 (fun i => ((i : ℝ) + 1) * (3 - i) / 2) := by
  refine c57_csr_laplacian (exactArith_exact ℝ Real.sqrt) 3 (by decide) _ _ line_pieces line_rows junk lineG_vectors lineG_points 0 s
    (fun i _ _ => h0 i) _ (fun i hi0 hi => ?_) ε hε
  show _ = s (.elem 1 i)
  rw [h1]
  have : i = 0 ∨ i = 1 ∨ i = 2 := by omega
  rcases this with rfl | rfl | rfl <;> norm_num [onLine]

/-- The directions of the five-point stencil. -/
def realDirs : List (Point × ℝ) := [([1, 0], 1), ([0, 1], 1)]

/-- Its offsets (`BenchmarkStencil.cpp` 50-54), listed in the order of the sort. -/
def realOffsets : List (Point × ℝ) := [([-1, 0], -1), ([0, -1], -1), ([0, 0], 4), ([0, 1], -1), ([1, 0], -1)]

theorem real_offsets : realOffsets.Perm (diffOffsets sqB.length realDirs) := by
  have h : fiveSorted.Perm fiveOffsets := five_sort.perm
  have h2 := h.map fun oe => (oe.1, (oe.2 : ℝ))
  have e1 : fiveSorted.map (fun oe => (oe.1, (oe.2 : ℝ))) = realOffsets := by norm_num [fiveSorted, realOffsets]
  have e2 : fiveOffsets.map (fun oe => (oe.1, (oe.2 : ℝ))) = diffOffsets sqB.length realDirs := by
    norm_num [fiveOffsets, diffOffsets, realDirs, sqB, negPoint, List.replicate]
  rwa [e1, e2] at h2

theorem real_sort : IsSort .rowMajor (fun _ _ : ℝ => false) realOffsets realOffsets := ⟨List.Perm.refl _, by decide⟩

theorem real_crossed : CrossedIn sqB realDirs 1 2 :=
  ⟨[1, 0], by simp [realDirs], 0, 0, 1, 1, rfl, rfl, by decide, by decide⟩

/-- C57 for the five-point stencil on the grid: right-hand side two, solution one, `2 √2 log (2/ε)` steps. -/
example (s : Cell Point → ℝ) (h0 : ∀ p, s (.elem 0 p) = 0) (h1 : ∀ p, s (.elem 1 p) = 2) (ε : ℝ) (hε : 0 < ε) :
    ∃ F : Nat, ∀ fuel, F ≤ fuel → ∀ junk,
    ∃ m, createCOOStencil id .rowMajor sqB realOffsets [fun k => decide (k < 5), fun k => decide (5 ≤ k)] fuel junk = some m ∧
    ∃ pl, Planner.empty.setupAll sqG (singleCalls ⟨0, 0, 0, 0⟩ ⟨1, 0, 0, 0⟩ (Op.coo m)) = some pl ∧
      ∃ j, j ≤ ⌈(2 : Nat) * √((realDirs.map Prod.snd).sum / 1) * Real.log (2 / ε)⌉₊ ∧
        Ensures (cg (exactArith ℝ Real.sqrt) sqG pl 10 j) 0 s fun _ s' =>
          gridEnergy sqB realDirs (fun p => 1 - s' (.elem 0 p)) ≤ ε ^ 2 * gridEnergy sqB realDirs fun _ => 1 := by
  obtain ⟨F, hF⟩ := c57_coo_stencil (exactArith_exact ℝ Real.sqrt) id _ .rowMajor sqB realOffsets (by simp [sqB]) real_sort realDirs
    (by decide) (by simp [realDirs]) real_offsets real_crossed
  refine ⟨F, fun fuel hf junk => ?_⟩
  obtain ⟨m, g1, g2⟩ := hF fuel hf [fun k => decide (k < 5), fun k => decide (5 ≤ k)] (fun size _ k _ => by
    by_cases h : (k : Int) < 5
    · exact ⟨_, List.mem_cons_self, by simpa using h⟩
    · exact ⟨fun k => decide (5 ≤ k), by simp, by simpa using h⟩) junk
  refine ⟨m, g1, g2 sqG_vectors (fun p => mem_pointsOf .rowMajor sqB p) 0 s (fun p _ => h0 p) (fun _ => 1) (fun p hp => ?_) ε hε⟩
  rw [h1]
  rw [← mem_pointsOf .rowMajor] at hp
  have hp : p ∈ [[(0 : Int), 5], [0, 6], [1, 5], [1, 6]] := hp
  simp only [List.mem_cons, List.not_mem_nil, or_false] at hp
  rcases hp with rfl | rfl | rfl | rfl <;> norm_num [diffOp, realDirs, zeroOutside, sqB, addPoint, negPoint, InBox]

end Verif.EndToEnd
