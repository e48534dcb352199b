import Verif.EndToEnd.Poisson
import Verif.EndToEnd.Line
import Mathlib.Algebra.Order.Field.Rat

/-! # Concrete cases: the hypotheses of C50 and C51 are met -/
set_option linter.dupNamespace false
namespace Verif.EndToEnd
open Verif.Grid Verif.Stencil Verif.Runtime Verif.Vector Verif.Matrix Verif.Planner Verif.Textbook Verif.Solver Verif.Laplacian

/-- Exact arithmetic on the rationals (the square root is not used by CG). -/
def ratArith : Arith ℚ := exactArith ℚ fun q => q

/-! ## The line -/

/-- Three points in two pieces; reductions are combined in reverse order. -/
def lineG : Geometry Int where
  pieces := fun _ => [[2], [0, 1]]
  redOrder := fun _ l => l.reverse
  points := fun _ => [0, 1, 2]
  parent := fun part => part
  colorSpace := fun part => part

theorem lineG_vectors : TwoVectors lineG 0 0 1 10 ⟨0, 0, 0, 0⟩ ⟨1, 0, 0, 0⟩ where
  valid := fun part p => by simp [lineG]; omega
  order := fun f l => List.reverse_perm l
  sol := by decide
  rhs := by decide
  distinct := by decide
  fresh0 := by decide
  fresh1 := by decide

theorem lineG_points (i : Int) : i ∈ lineG.points (lineG.parent 0) ↔ 0 ≤ i ∧ i < 3 := by
  simp [lineG]; omega

theorem line_pieces : Covers [[4, 5, 6], [0, 1, 2, 3]] (kernelSize 3) := by
  intro k
  have e : (∃ piece ∈ [[4, 5, 6], [(0 : Int), 1, 2, 3]], k ∈ piece) ↔
    (k = 4 ∨ k = 5 ∨ k = 6) ∨ (k = 0 ∨ k = 1 ∨ k = 2 ∨ k = 3) := by simp
  rw [e, kernelSize]; omega

theorem line_rows : Covers [[1, 2], [0]] 3 := by
  intro k
  have e : (∃ piece ∈ [[1, 2], [(0 : Int)]], k ∈ piece) ↔ (k = 1 ∨ k = 2) ∨ k = 0 := by simp
  rw [e]; omega

/-- Solution zero, right-hand side one. -/
def onesMem : Cell Int → ℚ
  | .elem 0 _ => 0
  | .elem 1 _ => 1
  | _ => 7

/-- C50 for the test programs with three points: the solution found is `3/2, 2, 3/2`. -/
example (junk : COO Int Int ℚ) : ∃ pl, Planner.empty.setupAll lineG
      (singleCalls ⟨0, 0, 0, 0⟩ ⟨1, 0, 0, 0⟩
        (Op.coo (createCOOLaplacian (fun z : Int => (z : ℚ)) 3 [[4, 5, 6], [0, 1, 2, 3]] junk))) = some pl ∧
    ∃ k, k ≤ 3 ∧ Ensures (cg ratArith lineG pl 10 k) 0 onesMem fun _ s' =>
      s' (.elem 0 0) = 3 / 2 ∧ s' (.elem 0 1) = 2 ∧ s' (.elem 0 2) = 3 / 2 := by
  obtain ⟨pl, h1, k, h2, a, n', ts, q1, q2, q3⟩ := c50_coo_laplacian (A := ratArith) (exactArith_exact ℚ _) 3 _ line_pieces junk
    lineG_vectors lineG_points 0 onesMem (fun i _ _ => rfl)
  refine ⟨pl, h1, k, h2, a, n', ts, q1, q2, fun M' h5 h6 => ?_⟩
  have h7 := c50_ones 3 _ _ (fun i _ _ => rfl) (q3 M' h5 h6).1
  have e0 := h7 0 (by decide) (by decide)
  have e1 := h7 1 (by decide) (by decide)
  have e2 := h7 2 (by decide) (by decide)
  norm_num at e0 e1 e2
  exact ⟨e0, e1, e2⟩

example (junk : CSR Int Int ℚ) : ∃ pl, Planner.empty.setupAll lineG
      (singleCalls ⟨0, 0, 0, 0⟩ ⟨1, 0, 0, 0⟩
        (Op.csr (createCSRLaplacian (fun z : Int => (z : ℚ)) 3 [[4, 5, 6], [0, 1, 2, 3]] [[1, 2], [0]] junk))) = some pl ∧
    ∃ k, k ≤ 3 ∧ Ensures (cg ratArith lineG pl 10 k) 0 onesMem fun _ s' => s' (.elem 0 1) = 2 := by
  obtain ⟨pl, h1, k, h2, a, n', ts, q1, q2, q3⟩ := c50_csr_laplacian (A := ratArith) (exactArith_exact ℚ _) 3 (by decide) _ _
    line_pieces line_rows junk lineG_vectors lineG_points 0 onesMem (fun i _ _ => rfl)
  refine ⟨pl, h1, k, h2, a, n', ts, q1, q2, fun M' h5 h6 => ?_⟩
  have e1 := c50_ones 3 _ _ (fun i _ _ => rfl) (q3 M' h5 h6).1 1 (by decide) (by decide)
  norm_num at e1
  exact e1

/-! ## A two-dimensional grid with the five-point stencil of the benchmark -/

/-- `2 × 2` grid with corner `(0, 5)`. -/
def sqB : Rect := [(0, 1), (5, 6)]

/-- The offsets as `BenchmarkStencil.cpp` 50-54 lists them. -/
def fiveOffsets : List (Point × ℚ) := [([0, 0], 4), ([-1, 0], -1), ([1, 0], -1), ([0, -1], -1), ([0, 1], -1)]

/-- The two directions. -/
def fiveDirs : List (Point × ℚ) := [([1, 0], 1), ([0, 1], 1)]

def fiveSorted : List (Point × ℚ) := [([-1, 0], -1), ([0, -1], -1), ([0, 0], 4), ([0, 1], -1), ([1, 0], -1)]

theorem five_dirs : fiveDirs ≠ [] ∧ (∀ t ∈ fiveDirs, t.1.length = sqB.length) ∧ (∀ t ∈ fiveDirs, ∃ c ∈ t.1, c ≠ 0) ∧
    (∀ t ∈ fiveDirs, 0 < t.2) ∧ fiveOffsets = diffOffsets sqB.length fiveDirs := by
  refine ⟨by simp [fiveDirs], by decide, by decide, by decide +kernel, by decide +kernel⟩

theorem five_sort : IsSort .rowMajor (fun a c : ℚ => decide (a < c)) fiveOffsets fiveSorted := by
  refine ⟨by decide +kernel, by decide +kernel⟩

theorem five_size : calculateStencilSize sqB fiveOffsets = some 12 := by
  rw [c04_closed_form _ _ (by simp [sqB]) (by decide)]; decide +kernel

/-- The 27-point stencil of the benchmark (`BenchmarkStencil.cpp` 82-125): 13 directions. -/
def dirs27 : List (Point × ℚ) :=
  [([1, 0, 0], 6 / 26), ([0, 1, 0], 6 / 26), ([0, 0, 1], 6 / 26),
   ([1, 1, 0], 3 / 26), ([1, -1, 0], 3 / 26), ([1, 0, 1], 3 / 26), ([1, 0, -1], 3 / 26), ([0, 1, 1], 3 / 26), ([0, 1, -1], 3 / 26),
   ([1, 1, 1], 2 / 26), ([1, 1, -1], 2 / 26), ([1, -1, 1], 2 / 26), ([1, -1, -1], 2 / 26)]

example : (diffOffsets 3 dirs27).length = 27 ∧ (diffOffsets 3 dirs27).head? = some ([0, 0, 0], 88 / 26) ∧
    (∀ t ∈ dirs27, t.1.length = 3) ∧ (∀ t ∈ dirs27, ∃ c ∈ t.1, c ≠ 0) ∧ (∀ t ∈ dirs27, 0 < t.2) := by
  refine ⟨by decide +kernel, by decide +kernel, by decide, by decide, by decide +kernel⟩

/-- The grid in two pieces. -/
def sqG : Geometry Point where
  pieces := fun _ => [[[0, 5], [1, 5]], [[0, 6], [1, 6]]]
  redOrder := fun _ l => l.reverse
  points := fun _ => pointsOf .rowMajor sqB
  parent := fun part => part
  colorSpace := fun part => part

theorem sqG_vectors : TwoVectors sqG 0 0 1 10 ⟨0, 0, 0, 0⟩ ⟨1, 0, 0, 0⟩ where
  valid := fun part p hp => by
    have hp : p ∈ [[(0 : Int), 5], [1, 5], [0, 6], [1, 6]] := hp
    have : ∀ p ∈ [[(0 : Int), 5], [1, 5], [0, 6], [1, 6]], p ∈ pointsOf .rowMajor sqB := by decide
    exact this p hp
  order := fun f l => List.reverse_perm l
  sol := by decide
  rhs := by decide
  distinct := by decide
  fresh0 := by decide
  fresh1 := by decide

/-- C50 and C51 for the five-point stencil on the grid, kernel space cut into two pieces. -/
example : ∃ N : Nat, ∀ fuel, N ≤ fuel → ∀ junk,
    ∃ m, createCOOStencil (fun _ => fiveSorted) .rowMajor sqB fiveOffsets [fun k => decide (k < 5), fun k => decide (5 ≤ k)] fuel junk =
      some m ∧
    ∃ pl, Planner.empty.setupAll sqG (singleCalls ⟨0, 0, 0, 0⟩ ⟨1, 0, 0, 0⟩ (Op.coo m)) = some pl ∧
      ∃ k, k ≤ 4 ∧ Ensures (cg ratArith sqG pl 10 k) 0 (fun c => match c with | .elem 1 _ => 1 | _ => 0) fun _ s' =>
        ∀ p, InBox sqB p → diffOp fiveDirs (zeroOutside sqB fun q => s' (.elem 0 q)) p = 1 := by
  obtain ⟨h1, h2, h3, h4, h5⟩ := five_dirs
  obtain ⟨N, hN⟩ := c50_coo_stencil (A := ratArith) (exactArith_exact ℚ _) (fun _ => fiveSorted) _ .rowMajor sqB fiveOffsets
    (by simp [sqB]) five_sort fiveDirs h1 h2 h3 h4 (by rw [h5])
  refine ⟨N, fun fuel hf junk => ?_⟩
  obtain ⟨m, g1, g2⟩ := hN fuel hf [fun k => decide (k < 5), fun k => decide (5 ≤ k)] (fun size _ k _ => by
    by_cases h : (k : Int) < 5
    · exact ⟨_, List.mem_cons_self, by simpa using h⟩
    · exact ⟨fun k => decide (5 ≤ k), by simp, by simpa using h⟩) junk
  refine ⟨m, g1, ?_⟩
  obtain ⟨pl, e1, k, e2, a, n', ts, q1, q2, q3⟩ := g2 sqG_vectors (fun p => mem_pointsOf .rowMajor sqB p) 0
    (fun c => match c with | .elem 1 _ => 1 | _ => 0) (fun p _ => rfl)
  exact ⟨pl, e1, k, e2, a, n', ts, q1, q2, fun M' h5 h6 => (q3 M' h5 h6).1⟩

/-- C51: the product of the five-point matrix with the constant one, added to zero, is 2 at every corner of the grid. -/
example : ∃ N : Nat, ∀ fuel, N ≤ fuel → ∀ junk,
    ∃ m, createCOOStencil (fun _ => fiveSorted) .rowMajor sqB fiveOffsets [fun k => decide (k < 5), fun k => decide (5 ≤ k)] fuel junk =
      some m ∧
    Ensures (m.matvec ratArith sqG.toEnv ⟨1, 0, 0, 0⟩ ⟨0, 0, 0, 0⟩ (m.kernelFromRange (sqG.pieces 0))
        (m.domainFromRange (pointsOf .rowMajor sqB) (sqG.pieces 0))) 0 (fun c => match c with | .elem 0 _ => 1 | _ => 0) fun _ s' =>
      ∀ p, InBox sqB p → s' (.elem 1 p) = 2 := by
  obtain ⟨h1, h2, h3, h4, h5⟩ := five_dirs
  obtain ⟨N, hN⟩ := c51_coo_product (fun _ => fiveSorted) _ .rowMajor sqB fiveOffsets (by simp [sqB]) (by decide) five_sort
  refine ⟨N, fun fuel hf junk => ?_⟩
  obtain ⟨m, g1, g2⟩ := hN fuel hf [fun k => decide (k < 5), fun k => decide (5 ≤ k)] (fun size _ k _ => by
    by_cases h : (k : Int) < 5
    · exact ⟨_, List.mem_cons_self, by simpa using h⟩
    · exact ⟨fun k => decide (5 ≤ k), by simp, by simpa using h⟩) junk
  refine ⟨m, g1, ?_⟩
  obtain ⟨a, n', ts, q1, q2, q3⟩ := g2 ratArith sqG.toEnv ⟨1, 0, 0, 0⟩ ⟨0, 0, 0, 0⟩ (pointsOf .rowMajor sqB) 0
    (fun c => match c with | .elem 0 _ => 1 | _ => 0) (by decide) (fun p => mem_pointsOf .rowMajor sqB p)
    ⟨by decide, by
      intro p
      have h1 : ∀ p ∈ (sqG.pieces 0).flatten, p ∈ pointsOf .rowMajor sqB := by decide
      have h2 : ∀ p ∈ pointsOf .rowMajor sqB, p ∈ (sqG.pieces 0).flatten := by decide
      exact ⟨h1 p, h2 p⟩⟩
  refine ⟨a, n', ts, q1, q2, fun M' h5 h6 p hp => ?_⟩
  rw [← mem_pointsOf .rowMajor] at hp
  rw [(q3 M' h5 h6).1 p hp]
  beta_reduce
  rw [c51_exact_row ratArith (exactArith_exact ℚ _) sqB fiveOffsets fiveSorted five_sort.perm]
  have : ∀ p ∈ pointsOf .rowMajor sqB, (0 : ℚ) +
      (fiveOffsets.map fun oe => if InBox sqB (addPoint p oe.1) then oe.2 * 1 else 0).sum = 2 := by decide +kernel
  exact this p hp

/-- CSR: kernel and rows cut into two pieces. -/
example : ∃ N : Nat, ∀ fuel, N ≤ fuel → ∀ junk,
    ∃ m, createCSRStencil (fun _ => fiveSorted) .rowMajor sqB fiveOffsets (pointsOf .rowMajor sqB)
      [(fun k => decide (k < 5), fun p => decide (p ∈ [[(0 : Int), 5], [0, 6]])),
       (fun k => decide (5 ≤ k), fun p => decide (p ∈ [[(1 : Int), 5], [1, 6]]))] fuel junk = some m ∧
    ∃ pl, Planner.empty.setupAll sqG (singleCalls ⟨0, 0, 0, 0⟩ ⟨1, 0, 0, 0⟩ (Op.csr m)) = some pl := by
  obtain ⟨h1, h2, h3, h4, h5⟩ := five_dirs
  obtain ⟨N, hN⟩ := c50_csr_stencil (A := ratArith) (exactArith_exact ℚ _) (fun _ => fiveSorted) _ .rowMajor sqB fiveOffsets
    (by simp [sqB]) five_sort fiveDirs h1 h2 h3 h4 (by rw [h5])
  refine ⟨N, fun fuel hf junk => ?_⟩
  obtain ⟨m, g1, g2⟩ := hN fuel hf (pointsOf .rowMajor sqB)
    [(fun k => decide (k < 5), fun p => decide (p ∈ [[(0 : Int), 5], [0, 6]])),
       (fun k => decide (5 ≤ k), fun p => decide (p ∈ [[(1 : Int), 5], [1, 6]]))] (fun p => mem_pointsOf .rowMajor sqB p)
    (fun size _ k _ => by
      by_cases h : (k : Int) < 5
      · exact ⟨_, List.mem_cons_self, by simpa using h⟩
      · exact ⟨fun k => decide (5 ≤ k), by simp, by simpa using h⟩)
    (fun D hD p hp => by
      rw [← mem_pointsOf .rowMajor]
      simp only [List.mem_cons, List.not_mem_nil, or_false] at hD
      rcases hD with rfl | rfl
      · exact (by decide : ∀ p ∈ [[(0 : Int), 5], [0, 6]], p ∈ pointsOf .rowMajor sqB) p (by simpa using hp)
      · exact (by decide : ∀ p ∈ [[(1 : Int), 5], [1, 6]], p ∈ pointsOf .rowMajor sqB) p (by simpa using hp))
    (fun p hp => by
      rw [← mem_pointsOf .rowMajor] at hp
      have := (by decide : ∀ p ∈ pointsOf .rowMajor sqB, p ∈ [[(0 : Int), 5], [0, 6]] ∨ p ∈ [[(1 : Int), 5], [1, 6]]) p hp
      rcases this with h | h
      · exact ⟨_, List.mem_cons_self, by simpa using h⟩
      · exact ⟨_, List.mem_cons_of_mem _ List.mem_cons_self, by simpa using h⟩) junk
  obtain ⟨pl, e1, -⟩ := g2 sqG_vectors (fun p => mem_pointsOf .rowMajor sqB p) 0 (fun _ => 0) (fun p _ => rfl)
  exact ⟨m, g1, pl, e1⟩

/-- Four numbers in two pieces. -/
def numG : Geometry Int where
  pieces := fun _ => [[3, 1], [0, 2]]
  redOrder := fun _ l => l.reverse
  points := fun _ => [0, 1, 2, 3]
  parent := fun part => part
  colorSpace := fun part => part

theorem numG_vectors : TwoVectors numG 0 0 1 10 ⟨0, 0, 0, 0⟩ ⟨1, 0, 0, 0⟩ where
  valid := fun part p => by simp [numG]; omega
  order := fun f l => List.reverse_perm l
  sol := by decide
  rhs := by decide
  distinct := by decide
  fresh0 := by decide
  fresh1 := by decide

/-- An interval of indices. -/
def seg (lo hi : Int) : Dom1 := ⟨fun k => decide (lo ≤ k) && decide (k ≤ hi), lo, hi⟩

/-- Linearised CSR. -/
example : ∃ N : Nat, ∀ fuel, N ≤ fuel → ∀ junk,
    ∃ m, createLinCSRStencil (fun _ => fiveSorted) .rowMajor sqB fiveOffsets [(seg 0 5, seg 0 1), (seg 6 11, seg 2 3)] fuel junk =
      some m ∧
    ∃ pl, Planner.empty.setupAll numG (singleCalls ⟨0, 0, 0, 0⟩ ⟨1, 0, 0, 0⟩ (Op.csr m)) = some pl := by
  obtain ⟨h1, h2, h3, h4, h5⟩ := five_dirs
  have hvol : Rect.volume sqB = 4 := by decide
  obtain ⟨N, hN⟩ := c50_linearized_stencil (A := ratArith) (exactArith_exact ℚ _) (fun _ => fiveSorted) _ .rowMajor sqB fiveOffsets
    (by simp [sqB]) five_sort fiveDirs h1 h2 h3 h4 (by rw [h5])
  refine ⟨N, fun fuel hf junk => ?_⟩
  obtain ⟨m, g1, g2⟩ := hN fuel hf [(seg 0 5, seg 0 1), (seg 6 11, seg 2 3)]
    (fun size hs k hk => by
      rw [five_size] at hs
      cases hs
      by_cases h : (k : Int) ≤ 5
      · exact ⟨(seg 0 5).contains, by simp, by simp [seg]; omega⟩
      · exact ⟨(seg 6 11).contains, by simp, by simp [seg]; omega⟩)
    (fun size hs D hD j hj => by
      rw [five_size] at hs
      cases hs
      simp only [List.mem_cons, List.not_mem_nil, or_false] at hD
      rcases hD with rfl | rfl <;> simp [seg] at hj ⊢ <;> omega)
    (fun D hD j hj => by
      rw [hvol]
      simp only [List.mem_cons, List.not_mem_nil, or_false] at hD
      rcases hD with rfl | rfl <;> simp [seg] at hj ⊢ <;> omega)
    (fun j h0 h1 => by
      rw [hvol] at h1
      by_cases h : j ≤ 1
      · exact ⟨_, List.mem_cons_self, by simp [seg]; omega⟩
      · exact ⟨_, List.mem_cons_of_mem _ List.mem_cons_self, by simp [seg]; omega⟩) junk
  obtain ⟨pl, e1, -⟩ := g2 numG_vectors (fun j => by rw [hvol]; simp [numG]; omega) 0 (fun _ => 0) (fun p _ => rfl)
  exact ⟨m, g1, pl, e1⟩

end Verif.EndToEnd
