import Verif.Release.Props
import Verif.Solver.Examples

/-! # C86: concrete programs -/
set_option linter.dupNamespace false
namespace Verif.Release
open Verif.Runtime Verif.Vector Verif.Matrix Verif.Planner Verif.Solver Verif.Programs Verif.Textbook
open scoped _root_.Matrix

/-- Exact rational arithmetic. -/
abbrev qA : Arith ℚ := exactArith ℚ qsqrt

/-- A program in the debug build: two vectors, a matrix, a solver, two steps, an inner product of solution and right-hand side. -/
def debugProgram : M Nat ℚ Scalar :=
  lift (Planner.newVector Solver.exG 0 0) >>= fun x =>
  lift (Planner.newVector Solver.exG 0 1) >>= fun b =>
  lift ((Planner.empty : Planner Nat Nat ℚ).addSol Solver.exG x) >>= fun pl =>
  lift (pl.addRhs Solver.exG b) >>= fun pl =>
  lift (pl.addMatrix Solver.exG (.coo ⟨[0, 1, 2, 3], fun k => k / 2, fun k => k % 2, spdE⟩) 0 0) >>= fun pl =>
  Solver.allocate Solver.exG pl 10 3 >>= fun pl =>
  CG.init (plannerOps qA Solver.exG.toEnv pl) >>= fun c =>
  CG.step (plannerOps qA Solver.exG.toEnv pl) c >>= fun c =>
  CG.step (plannerOps qA Solver.exG.toEnv pl) c >>= fun _ =>
  Vector.dot qA Solver.exG.toEnv x b

/-- The same source in the release build. -/
def releaseProgram : M Nat ℚ Scalar :=
  pure (newVector Solver.exG 0 0) >>= fun x =>
  pure (newVector Solver.exG 0 1) >>= fun b =>
  pure ((RPlanner.empty : RPlanner Nat Nat ℚ).addSol x) >>= fun rp =>
  pure (rp.addRhs b) >>= fun rp =>
  lift (rp.addMatrix Solver.exG (.coo ⟨[0, 1, 2, 3], fun k => k / 2, fun k => k % 2, spdE⟩) 0 0) >>= fun rp =>
  allocate Solver.exG rp 10 3 >>= fun rp =>
  CG.init (releaseOps qA Solver.exG.toEnv rp.pl) >>= fun c =>
  CG.step (releaseOps qA Solver.exG.toEnv rp.pl) c >>= fun c =>
  CG.step (releaseOps qA Solver.exG.toEnv rp.pl) c >>= fun _ =>
  Release.dot qA Solver.exG.toEnv x b

theorem sameProgram : SameSource Nat qA Solver.exG Eq debugProgram releaseProgram := by
  refine .andThen (.newVector 0 0) ?_
  rintro x _ rfl
  refine .andThen (.newVector 0 1) ?_
  rintro b _ rfl
  refine .andThen (.addSol _ _ x ⟨rfl, rfl⟩) fun pl rp hm => ?_
  refine .andThen (.addRhs _ _ b hm) fun pl rp hm => ?_
  refine .andThen (.addMatrix _ _ _ 0 0 hm) fun pl rp hm => ?_
  refine .andThen (.allocate _ _ 10 3 hm) fun pl rp hm => ?_
  obtain ⟨rfl, -⟩ := hm
  refine .andThen (.cgInit rp.pl) ?_
  rintro c _ rfl
  refine .andThen (.cgStep rp.pl c) ?_
  rintro c _ rfl
  refine .andThen (.cgStep rp.pl c) ?_
  rintro _ _ rfl
  exact .dot x b

/-- The program of the debug build finishes; so `c86_same_tasks` applies. -/
example : (debugProgram ⟨0, []⟩).isSome = true := by decide +kernel

/-- Two partitions of the points 0, 1: one piece each, and the second one overlapping. -/
def twoParts : Env Nat := ⟨fun part => if part = 0 then [[0], [1]] else [[1, 0], [0, 1], [0]], fun _ l => l⟩

/-- `c86_vectors` applies to vectors the debug build rejects. -/
example : covers twoParts ⟨0, 0, 0, 0⟩ ⟨1, 0, 1, 1⟩ = true ∧ IsPartition [0, 1] (twoParts.pieces 0) ∧
    Aborts (Vector.axpy qA twoParts ⟨0, 0, 0, 0⟩ ⟨0⟩ ⟨1, 0, 1, 1⟩) :=
  ⟨by decide +kernel, ⟨by decide, by simp [twoParts]⟩, (c21_incompatible_rejected qA twoParts _ _ (by simp [Compatible]) ⟨0⟩ ⟨0⟩ ⟨0⟩).2.1⟩

/-- Three further solvers are possible in the release build, of any size up to three vectors. -/
example : ∃ rp, allocAll Solver.exG ⟨Solver.exPl spdE, []⟩ [(10, 3), (20, 3), (30, 1), (40, 3)] = some rp :=
  (c86_more_solvers (exSetup spdE 3).alloc [(20, 3), (30, 1), (40, 3)] (by simp)).1

/-- `c86_cg_twice`: two steps reach a zero residual; two CG solvers one after the other end with `A x = 2 b`. -/
theorem c86_cg_twice_example : Ensures (cg qA Solver.exG ⟨Solver.exPl spdE, []⟩ 10 2 >>= fun r => cg qA Solver.exG r.1 20 2) 0 (exMem 0 0 1 2)
    fun _ s' => (exPl' spdE 3).operator Solver.exG *ᵥ (exPl' spdE 3).content Solver.exG s' 0 ≠ (exPl' spdE 3).content Solver.exG s' 1 := by
  refine ensures_weaken (c86_cg_twice (exactArith_exact ℚ qsqrt) (exSetup spdE 3) 20 2 2 0 (exMem 0 0 1 2) (by decide +kernel)
    (by decide +kernel) (by decide +kernel) (by decide +kernel)) fun _ s' h => ?_
  rw [h.1, h.2]
  decide +kernel

/-- A CG solver makes one step; a second one is constructed and does not make any; then the first one continues with one step. -/
def interrupted : M Nat ℚ Unit :=
  cg qA Solver.exG ⟨Solver.exPl spdE, []⟩ 10 1 >>= fun r =>
  cg qA Solver.exG r.1 20 0 >>= fun r' =>
  CG.step (releaseOps qA Solver.exG.toEnv r'.1.pl) r.2 >>= fun _ => pure ()

/-- The first solver alone: two steps. -/
def uninterrupted : M Nat ℚ Unit := cg qA Solver.exG ⟨Solver.exPl spdE, []⟩ 10 2 >>= fun _ => pure ()

/-- The solution vector at the end. -/
def solutionAfter (m : M Nat ℚ Unit) : Option (ℚ × ℚ) :=
  (m ⟨0, []⟩).map fun r => (runTasks (exMem 0 0 1 2) r.2.out (.elem 0 0), runTasks (exMem 0 0 1 2) r.2.out (.elem 0 1))

/-- **C86**: the first solver cannot be used any more once a second one has been constructed, because they share their workspace.  Alone,
the first one reaches the solution of the system with two steps; if a second solver is merely constructed in between, the first one's
second step goes in the wrong direction. -/
theorem c86_first_solver_broken : solutionAfter uninterrupted = some (1 / 5, 3 / 5) ∧ solutionAfter interrupted ≠ solutionAfter uninterrupted ∧
    (solutionAfter interrupted).isSome = true := by
  decide +kernel

end Verif.Release
