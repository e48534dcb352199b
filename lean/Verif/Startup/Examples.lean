import Verif.Startup.Report

/-! # C87: concrete builds -/
set_option linter.dupNamespace false
namespace Verif.Startup
open Verif.Tasks Verif.Driver Verif.Programs

/-- The committed options, without CUDA; with CUDA; with CUDA and Kokkos; with a maximum dimension of 1 (`-DLEGION_SOLVERS_MAX_DIM=1`). -/
def cpuBuild : Build := ⟨Config.default, false, false⟩
@[inherit_doc cpuBuild]
def gpuBuild : Build := ⟨Config.default, true, false⟩
@[inherit_doc cpuBuild]
def kokkosBuild : Build := ⟨Config.default, true, true⟩
@[inherit_doc cpuBuild]
def flatBuild : Build := ⟨{ Config.default with maxDim := 1 }, false, false⟩

/-- All of them compile, so the theorems apply to them. -/
example : ∀ b ∈ [cpuBuild, gpuBuild, kokkosBuild, flatBuild], ∀ p q, (initLib b p q).isSome = true := by
  intro b hb p q
  rw [c87_compiles]
  simp only [List.mem_cons, List.not_mem_nil, or_false] at hb
  rcases hb with rfl | rfl | rfl | rfl <;> decide

/-- A build without single precision does not compile. -/
example : initLib ⟨{ Config.default with useF32 := false }, false, false⟩ false false = none := by
  rw [← Option.not_isSome_iff_eq_none, c87_compiles]
  decide

/-- How many variants there are: 215 for the CPU; 4 · 18 + 8 and the task that loads the libraries for GPUs. -/
example : ((initLib cpuBuild false false).map fun r => (r.1, r.2.length)) = some ([], 215) ∧
    ((initLib gpuBuild false false).map fun r => (r.2.length, (r.2.filter fun v => v.proc = .toc).length)) = some (296, 81) ∧
    ((initLib kokkosBuild false false).map fun r => r.2.length) = some 215 := by decide +kernel

/-- Lines of the log. -/
example : ((initLib gpuBuild false true).map fun r => r.1.take 2 ++ r.1.drop 294) = some
    [bytes "[LegionSolvers] Registering task print_scalar_float with ID 500001.",
     bytes "[LegionSolvers] Registering task negate_scalar_float with ID 505185.",
     bytes "[LegionSolvers] Registering task csr_print_double_133_longlong_longlong_longlong with ID 605344.",
     bytes "[LegionSolvers] Registering task load_cuda_libs with ID 500000."] := by decide +kernel

/-- Two tasks under one identifier. -/
example : flatBuild.cfg.staticId (mat64 .cooLaplacian .double 1 1 1) = flatBuild.cfg.staticId (mat64 .cooPrint .double 1 3 3) ∧
    flatBuild.cfg.staticId (mat64 .cooLaplacian .double 1 1 1) ≠ none := by decide +kernel

end Verif.Startup
