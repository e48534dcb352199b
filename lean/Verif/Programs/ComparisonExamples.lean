import Verif.Programs.ComparisonProps

/-! Examples for C77. -/
set_option linter.dupNamespace false
namespace Verif.Programs
open Verif.Runtime Verif.Vector Verif.Matrix Verif.Planner Verif.Solver Verif.EndToEnd Verif.Grid Verif.Stencil

variable {V : Type}

/-- The contract of `std::sort` can be met, whatever the comparison of values. -/
theorem sorted_sorts (A : Arith V) (lit : Int → V) {dim : Int} (h : dim = 1 ∨ dim = 2 ∨ dim = 3 ∨ dim = 4) (lt : V → V → Bool)
    (offsets : List (Point × V)) (ho : benchOffsets A lit dim = some offsets) :
    IsSort .rowMajor lt offsets ((sortedCodes dim).map fun t => (t.1, litOf A lit dim t.2)) := by
  rw [benchOffsets_eq h] at ho
  cases ho
  refine ⟨(sortedCodes_perm h).map _, ?_⟩
  rw [List.pairwise_map]
  refine (sortedCodes_ordered h).imp fun {s t} hst => ?_
  simp [offsetLess, Grid.compare, hst.1, hst.2]

/-- A grid of 3 × 4 × 5 points with the 27-point operator, as `bench_all_ls.py` would run it. -/
def box345 : Options := ⟨4, 1, 3, 4, 5, 200, 1⟩

/-- The hypotheses of C77 hold: two PETSc ranks with 22 and 38 rows, three Trilinos ranks of which one has no rows. -/
example : box345.Ok 1000 ∧ librarySizesLs 4 [3, 4, 5] = some ⟨3, 4, 5⟩ ∧ petscSizes 4 [3, 4, 5] = some ⟨3, 4, 5⟩ ∧ SameGrid box345 ⟨3, 4, 5⟩ ∧
    OwnedRanges (problemSize 3 4 5) [(0, 22), (22, 60)] ∧ OwnedRows (problemSize 3 4 5) [(indices 60).drop 30, [], (indices 60).take 30] := by
  refine ⟨⟨by decide, by decide, by decide, by decide, by decide⟩, rfl, rfl, ⟨rfl, rfl, rfl⟩, ?_, ?_⟩
  · unfold OwnedRanges; decide +kernel
  · unfold OwnedRows
    simp only [List.flatten_cons, List.flatten_nil, List.append_nil, List.nil_append]
    exact List.perm_append_comm.trans (by rw [List.take_append_drop]; exact List.Perm.refl _)

/-- An inner row has 27 entries and the first row 8; `bench_all.py` passes 4 for the third size. -/
example : (petscRow (⟨2, 4, 6, -1, 88, -6, -3, -2⟩ : Consts Int) 4 3 4 5 (20 + 5 + 1)).length = 27 ∧
    petscRow (⟨2, 4, 6, -1, 88, -6, -3, -2⟩ : Consts Int) 4 3 4 5 0 = [(0, 88), (1, -6), (5, -6), (6, -3), (20, -6), (21, -3), (25, -3), (26, -2)] ∧
    librarySizes 4 [3, 4, 5] = some ⟨3, 4, 4⟩ := by
  refine ⟨?_, ?_, rfl⟩ <;> decide +kernel

end Verif.Programs
