import Verif.Solver.Calls
import Mathlib.Algebra.Order.Field.Rat

/-! # Concrete systems: the hypotheses of C34–C40 and C46 are met, and C38 and C39 are violated

Two unknowns in two pieces; reductions are combined in reverse order; a COO matrix with four entries. -/
set_option linter.dupNamespace false
namespace Verif.Solver
open Verif.Runtime Verif.Vector Verif.Matrix Verif.Planner Verif.Textbook
open scoped _root_.Matrix

/-- Two points, two pieces. -/
def exG : Geometry Nat where
  pieces := fun _ => [[0], [1]]
  redOrder := fun _ l => l.reverse
  points := fun _ => [0, 1]
  parent := fun part => part
  colorSpace := fun part => part

/-- The user's calls; the entries are `a 0`, `a 1`, `a 2`, `a 3`, row by row. -/
def exCalls (a : Nat → ℚ) : List (Setup Nat Nat ℚ) :=
  [.addSol ⟨0, 0, 0, 0⟩, .addRhs ⟨1, 0, 0, 0⟩, .addMatrix (.coo ⟨[0, 1, 2, 3], fun k => k / 2, fun k => k % 2, a⟩) 0 0]

/-- The user's planner. -/
def exPl (a : Nat → ℚ) : Planner Nat Nat ℚ := (Planner.empty.setupAll exG (exCalls a)).getD Planner.empty

/-- The planner with workspace. -/
def exPl' (a : Nat → ℚ) (nw : Nat) : Planner Nat Nat ℚ := ((exPl a).allocateWorkspace exG 10 nw).getD Planner.empty

theorem exSetup (a : Nat → ℚ) (nw : Nat) : SolverSetup exG (exPl a) (exPl' a nw) 10 nw := by
  have h0 : Planner.empty.setupAll exG (exCalls a) = some (exPl a) := rfl
  have hs : sols (exCalls a) = [⟨0, 0, 0, 0⟩] := rfl
  have hr : rhss (exCalls a) = [⟨1, 0, 0, 0⟩] := rfl
  obtain ⟨pl', S, -⟩ := solver_setup exG (fun part p => by simp [exG])
    (fun f l => List.reverse_perm l) (exCalls a) (by
      intro c hc
      simp only [exCalls, List.mem_cons, List.not_mem_nil, or_false] at hc
      rcases hc with rfl | rfl | rfl
      · rfl
      · rfl
      · trivial) (exPl a) h0 rfl 10 nw (by rw [hs, hr]; rfl) (by rw [hs]; decide) (by rw [hs, hr]; decide)
    (by rw [hs, hr]; decide) (by
      intro m d r hm vd vr _ _
      have hm : (m, d, r) ∈ [((Op.coo ⟨[0, 1, 2, 3], fun k => k / 2, fun k => k % 2, a⟩ : Op Nat Nat ℚ), 0, 0)] := hm
      rw [List.mem_singleton] at hm
      obtain ⟨rfl, -⟩ := Prod.mk.injEq .. ▸ hm
      show ∀ k ∈ [0, 1, 2, 3], k % 2 ∈ [0, 1]
      decide)
  have : exPl' a nw = pl' := by unfold exPl'; rw [S.alloc]; rfl
  rw [this]; exact S

/-- Memory with given initial solution and right-hand side. -/
def exMem (x0 x1 b0 b1 : ℚ) : Cell Nat → ℚ
  | .elem 0 p => if p = 0 then x0 else x1
  | .elem 1 p => if p = 0 then b0 else b1
  | _ => 0

/-- A square root function on the rationals that is exact on squares. -/
def qsqrt (q : ℚ) : ℚ := (Nat.sqrt q.num.natAbs : ℚ) / Nat.sqrt q.den

section
variable {ι : Type} [Fintype ι] (M : _root_.Matrix ι ι ℚ) (x b : ι → ℚ) (k m : Nat)
instance : Decidable (CGRegular M x b k) := by unfold CGRegular; infer_instance
instance : Decidable (BiRegular M x b k) := by unfold BiRegular; infer_instance
instance : Decidable (ArnoldiRegular qsqrt M x m) := by
  have : Decidable (∀ j, j < m - 1 → qsqrt (arnoldiRaw qsqrt M x (j + 1) ⬝ᵥ arnoldiRaw qsqrt M x (j + 1)) ≠ 0) := inferInstance
  unfold ArnoldiRegular
  refine decidable_of_iff (qsqrt (x ⬝ᵥ x) ≠ 0 ∧ ∀ j, j < m - 1 →
    qsqrt (arnoldiRaw qsqrt M x (j + 1) ⬝ᵥ arnoldiRaw qsqrt M x (j + 1)) ≠ 0) ?_
  exact ⟨fun h => ⟨h.1, fun j hj => h.2 j (by omega)⟩, fun h => ⟨h.1, fun j hj => h.2 j (by omega)⟩⟩
instance : Decidable (CycleRegular qsqrt M m x b k) := by unfold CycleRegular; infer_instance
instance : Decidable (RootsExact qsqrt M x m) := by unfold RootsExact; infer_instance
end

/-- Symmetric positive definite entries `2 1 1 3`. -/
def spdE : Nat → ℚ := fun k => if k = 0 then 2 else if k = 3 then 3 else 1

/-- C34: two steps from zero without division by zero, and what `c34_true_residual` then says. -/
example : (exPl' spdE 3).content exG (exMem 0 0 1 2) 0 = 0 ∧
    CGRegular ((exPl' spdE 3).operator exG) ((exPl' spdE 3).content exG (exMem 0 0 1 2) 0)
      ((exPl' spdE 3).content exG (exMem 0 0 1 2) 1) 2 := by
  constructor <;> decide +kernel

/-- The two unknowns. -/
def ex0 : (exPl' spdE 3).U exG := ⟨⟨0, 0⟩, by decide +kernel⟩
/-- The two unknowns. -/
def ex1 : (exPl' spdE 3).U exG := ⟨⟨0, 1⟩, by decide +kernel⟩

theorem spdE_SPD : SPD ((exPl' spdE 3).operator exG) := by
  have huniv : (Finset.univ : Finset ((exPl' spdE 3).U exG)) = {ex0, ex1} := by decide +kernel
  have hne : ex0 ≠ ex1 := by decide +kernel
  refine ⟨by decide +kernel, fun x hx => ?_⟩
  have e00 : (exPl' spdE 3).operator exG ex0 ex0 = 2 := by decide +kernel
  have e01 : (exPl' spdE 3).operator exG ex0 ex1 = 1 := by decide +kernel
  have e10 : (exPl' spdE 3).operator exG ex1 ex0 = 1 := by decide +kernel
  have e11 : (exPl' spdE 3).operator exG ex1 ex1 = 3 := by decide +kernel
  simp only [dotProduct, _root_.Matrix.mulVec, huniv, Finset.sum_pair hne, e00, e01, e10, e11]
  have hx' : x ex0 ≠ 0 ∨ x ex1 ≠ 0 := by
    by_contra h
    rw [not_or, not_not, not_not] at h
    apply hx
    funext u
    have hu : u ∈ (Finset.univ : Finset ((exPl' spdE 3).U exG)) := Finset.mem_univ u
    rw [huniv, Finset.mem_insert, Finset.mem_singleton] at hu
    rcases hu with rfl | rfl
    · exact h.1
    · exact h.2
  generalize x ex0 = p at hx' ⊢
  generalize x ex1 = q at hx' ⊢
  rcases hx' with h | h
  · have := sq_pos_of_ne_zero h
    nlinarith [sq_nonneg q, sq_nonneg (p + q)]
  · have := sq_pos_of_ne_zero h
    nlinarith [sq_nonneg p, sq_nonneg (p + q)]

/-- C35: CG solves this system in at most two steps, under every schedule. -/
example : ∃ k, k ≤ 2 ∧ Ensures (cg (exactArith ℚ qsqrt) exG (exPl spdE) 10 k) 0 (exMem 0 0 1 2) fun c s' =>
      (exPl' spdE 3).operator exG *ᵥ (exPl' spdE 3).content exG s' 0 = (exPl' spdE 3).content exG (exMem 0 0 1 2) 1 ∧
      c.history.length = k + 1 := by
  obtain ⟨k, h1, h2⟩ := c35_solves (exactArith_exact ℚ qsqrt) (exSetup spdE 3) spdE_SPD 0 (exMem 0 0 1 2) (by decide +kernel)
  refine ⟨k, h1.trans (by decide +kernel), ?_⟩
  obtain ⟨a, n', ts, q1, q2, q3⟩ := h2
  exact ⟨a, n', ts, q1, q2, fun M' hM hd => ⟨(q3 M' hM hd).1, (q3 M' hM hd).2.1⟩⟩

/-- Unsymmetric entries `2 1 0 3`. -/
def unsE : Nat → ℚ := fun k => if k = 0 then 2 else if k = 3 then 3 else if k = 1 then 1 else 0

/-- C36: one step of BiCGStab without breakdown, after which the residual is zero. -/
example : (exPl' unsE 5).content exG (exMem 0 0 1 (-1)) 0 = 0 ∧
    BiRegular ((exPl' unsE 5).operator exG) ((exPl' unsE 5).content exG (exMem 0 0 1 (-1)) 0)
      ((exPl' unsE 5).content exG (exMem 0 0 1 (-1)) 1) 1 ∧
    (bi ((exPl' unsE 5).operator exG) ((exPl' unsE 5).content exG (exMem 0 0 1 (-1)) 0)
      ((exPl' unsE 5).content exG (exMem 0 0 1 (-1)) 1) 1).r = 0 := by
  refine ⟨?_, ?_, ?_⟩ <;> decide +kernel

/-- C46: one step without breakdown for two unknowns, and the first half of the second step divides by nothing that is zero
(`c46_half_step_solves` expressed in the textbook state, see `c36_iterates`). -/
example : 1 + 1 = Fintype.card ((exPl' unsE 5).U exG) ∧
    BiRegular ((exPl' unsE 5).operator exG) ((exPl' unsE 5).content exG (exMem 0 0 1 2) 0)
      ((exPl' unsE 5).content exG (exMem 0 0 1 2) 1) 1 ∧
    ∃ st, st = (bi ((exPl' unsE 5).operator exG) ((exPl' unsE 5).content exG (exMem 0 0 1 2) 0)
      ((exPl' unsE 5).content exG (exMem 0 0 1 2) 1) 1) ∧ st.ρ ≠ 0 ∧ st.ω ≠ 0 ∧
      st.r ⬝ᵥ (exPl' unsE 5).content exG (exMem 0 0 1 2) 1 ≠ 0 ∧
      st.denom ((exPl' unsE 5).operator exG) ((exPl' unsE 5).content exG (exMem 0 0 1 2) 1) ≠ 0 := by
  refine ⟨?_, ?_, _, rfl, ?_, ?_, ?_, ?_⟩ <;> decide +kernel

/-- Rotation by a right angle. -/
def rotE : Nat → ℚ := fun k => if k = 1 then -1 else if k = 2 then 1 else 0

/-- C37: one cycle of restart length two, exact square roots. -/
example : CycleRegular qsqrt ((exPl' rotE 3).operator exG) 2 ((exPl' rotE 3).content exG (exMem 0 0 3 4) 0)
      ((exPl' rotE 3).content exG (exMem 0 0 3 4) 1) 1 ∧
    ∀ i, i ≤ 0 → RootsExact qsqrt ((exPl' rotE 3).operator exG) ((exPl' rotE 3).content exG (exMem 0 0 3 4) 1 -
      (exPl' rotE 3).operator exG *ᵥ sumCycle qsqrt ((exPl' rotE 3).operator exG) 2
        ((exPl' rotE 3).content exG (exMem 0 0 3 4) 0) ((exPl' rotE 3).content exG (exMem 0 0 3 4) 1) i) 2 := by
  constructor
  · decide +kernel
  · intro i hi
    obtain rfl : i = 0 := by omega
    decide +kernel

/-- The identity. -/
def idE : Nat → ℚ := fun k => if k = 0 ∨ k = 3 then 1 else 0

/-- **C38 is false.**  Exact rational arithmetic (all square roots involved are rational), the identity matrix, right-hand side
`(1/4, 0)`, solution started at zero, restart length 1: one cycle makes the squared residual norm grow from 1/16 to 9/16. -/
theorem c38_violated : ∃ (pl pl' : Planner Nat Nat ℚ) (s : Cell Nat → ℚ), SolverSetup exG pl pl' 10 2 ∧
    pl'.operator exG = 1 ∧ pl'.content exG s 0 = 0 ∧ pl'.content exG s 1 ⬝ᵥ pl'.content exG s 1 = 1 / 16 ∧
    CycleRegular qsqrt (pl'.operator exG) 1 (pl'.content exG s 0) (pl'.content exG s 1) 1 ∧
    Ensures (gmres (exactArith ℚ qsqrt) exG pl 10 1 1) 0 s fun _ s' =>
      (pl'.content exG s 1 - pl'.operator exG *ᵥ pl'.content exG s' 0) ⬝ᵥ
      (pl'.content exG s 1 - pl'.operator exG *ᵥ pl'.content exG s' 0) = 9 / 16 := by
  have hreg : CycleRegular qsqrt ((exPl' idE 2).operator exG) 1 ((exPl' idE 2).content exG (exMem 0 0 (1 / 4) 0) 0)
      ((exPl' idE 2).content exG (exMem 0 0 (1 / 4) 0) 1) 1 := by decide +kernel
  refine ⟨exPl idE, exPl' idE 2, exMem 0 0 (1 / 4) 0, exSetup idE 2, by decide +kernel, by decide +kernel, by decide +kernel,
    hreg, ?_⟩
  refine WP.ensures ((gmres_wp (exactArith_exact ℚ qsqrt) (exSetup idE 2) 1 0 _ hreg).mono fun c n' s' h => ?_)
  obtain ⟨y, w, -, h0, -⟩ := h.1.view
  rw [w.vec 0 (by omega), h0]
  decide +kernel

/-- Twice the identity. -/
def twoE : Nat → ℚ := fun k => if k = 0 ∨ k = 3 then 2 else 0

/-- **C39 is false.**  Twice the identity, right-hand side `(1, 0)`, solution started at `(1, 0)`: after one step CG records residual
zero, but the solution vector is `(3/2, 0)`, whose image is `(3, 0)`. -/
theorem c39_violated : ∃ (pl pl' : Planner Nat Nat ℚ) (s : Cell Nat → ℚ), SolverSetup exG pl pl' 10 3 ∧
    SPD (pl'.operator exG) ∧
    Ensures (cg (exactArith ℚ qsqrt) exG pl 10 1) 0 s fun c s' =>
      (∃ a, c.history[1]? = some a ∧ s' (.fut a.fut) = 0) ∧
      pl'.operator exG *ᵥ pl'.content exG s' 0 = 3 • pl'.content exG s 1 ∧ pl'.content exG s 1 ≠ 0 := by
  have hreg : CGRegular ((exPl' twoE 3).operator exG) ((exPl' twoE 3).content exG (exMem 1 0 1 0) 0)
      ((exPl' twoE 3).content exG (exMem 1 0 1 0) 1) 1 := by decide +kernel
  have hop : (exPl' twoE 3).operator exG = (2 : ℚ) • 1 := by decide +kernel
  refine ⟨exPl twoE, exPl' twoE 3, exMem 1 0 1 0, exSetup twoE 3, ?_, ?_⟩
  · rw [hop]
    refine ⟨by simp, fun x hx => ?_⟩
    rw [_root_.Matrix.smul_mulVec, _root_.Matrix.one_mulVec, dotProduct_smul, smul_eq_mul]
    exact mul_pos (by norm_num) (dot_self_pos hx)
  refine WP.ensures ((cg_wp (exactArith_exact ℚ qsqrt) (exSetup twoE 3) 1 0 _ hreg).mono fun c n' s' h => ?_)
  obtain ⟨c1, c0, -, c4⟩ := h.1.contents
  obtain ⟨a, ha, hd⟩ := h.1.hist 1 (le_refl 1)
  refine ⟨⟨a, ha, ?_⟩, ?_, by decide +kernel⟩
  · rw [hd.2]; decide +kernel
  · rw [c0]; decide +kernel

end Verif.Solver
