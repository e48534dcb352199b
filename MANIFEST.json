{
 "claims": [
  {
   "property": "C01",
   "status": "proved",
   "theorems": [
    "Verif.Grid.c01_traversal",
    "Verif.Grid.c01_successor"
   ],
   "note": "all dimensions, both orders; coordinates are mathematical integers"
  },
  {
   "property": "C02",
   "status": "proved",
   "theorems": [
    "Verif.Grid.c02_linearize_bijection",
    "Verif.Grid.c02_volume"
   ],
   "note": "machine-integer version: C43"
  },
  {
   "property": "C03",
   "status": "proved",
   "theorems": [
    "Verif.Grid.c03_compare_strict_total",
    "Verif.Grid.c03_compare_coordinates"
   ],
   "note": ""
  },
  {
   "property": "C04",
   "status": "proved",
   "theorems": [
    "Verif.Stencil.c04_stencil_size",
    "Verif.Stencil.c04_closed_form"
   ],
   "note": ""
  },
  {
   "property": "C05",
   "status": "proved",
   "theorems": [
    "Verif.Stencil.c05_sort_comparator",
    "Verif.Stencil.c05_sort_comparator_nan",
    "Verif.Stencil.c05_coo_fill",
    "Verif.Stencil.c05_coo_all_pieces"
   ],
   "note": "for entries without NaN; with NaN entries the sort comparator is not a strict weak order (finding, c05_sort_comparator_nan)"
  },
  {
   "property": "C06",
   "status": "proved",
   "theorems": [
    "Verif.Stencil.c06_entries_sorted",
    "Verif.Stencil.c06_csr_fill"
   ],
   "note": ""
  },
  {
   "property": "C07",
   "status": "proved",
   "theorems": [
    "Verif.Stencil.c07_fast_forward_is_plain"
   ],
   "note": ""
  },
  {
   "property": "C08",
   "status": "proved",
   "theorems": [
    "Verif.Stencil.c08_linearized_coo",
    "Verif.Stencil.c08_linearized_csr"
   ],
   "note": ""
  },
  {
   "property": "C09",
   "status": "proved",
   "theorems": [
    "Verif.Stencil.c09_argument_round_trip"
   ],
   "note": ""
  },
  {
   "property": "C10",
   "status": "proved",
   "theorems": [
    "Verif.Laplacian.c10_kernel_size_2d"
   ],
   "note": ""
  },
  {
   "property": "C100",
   "status": "proved",
   "theorems": [
    "Verif.Build.c100_commands",
    "Verif.Build.c100_stops",
    "Verif.Build.c100_found",
    "Verif.Build.c100_skip"
   ],
   "note": "External commands are arbitrary functions of directory, arguments and file system; the list of commands is a table of its own (dependencyCommands, kokkosOptions). That all commands succeed with working tools is shown for a concrete site only."
  },
  {
   "property": "C11",
   "status": "proved",
   "theorems": [
    "Verif.Laplacian.c11_coo_laplacian"
   ],
   "note": ""
  },
  {
   "property": "C12",
   "status": "partial",
   "theorems": [
    "Verif.Laplacian.c12_csr_laplacian_partial",
    "Verif.Laplacian.c12_violated_single_point"
   ],
   "note": "holds for n>=2; false for n=1: the row pointer of the single row covers kernel index -1..1 style range outside the kernel space (c12_violated_single_point)"
  },
  {
   "property": "C13",
   "status": "proved",
   "theorems": [
    "Verif.Gpu.c13_flatten_unflatten",
    "Verif.Gpu.c13_empty"
   ],
   "note": ""
  },
  {
   "property": "C14",
   "status": "proved",
   "theorems": [
    "Verif.Gpu.c14_grid_covers",
    "Verif.Gpu.c14_grid_tight",
    "Verif.Gpu.c14_xpay_gpu"
   ],
   "note": "hand-written kernels (xpay); cuBLAS-based kernels use the library's documented contract"
  },
  {
   "property": "C15",
   "status": "proved",
   "theorems": [
    "Verif.Tasks.c15_ids_injective",
    "Verif.Tasks.c15_ids_in_range",
    "Verif.Tasks.c15_default_fits_32_bits",
    "Verif.Tasks.c15_default_no_double_registration"
   ],
   "note": "for every library configuration; dimensions up to LEGION_SOLVERS_MAX_DIM"
  },
  {
   "property": "C16",
   "status": "partial",
   "theorems": [
    "Verif.Tasks.c16_dynamic_is_static",
    "Verif.Tasks.c16_vector_dispatch_exact_partial",
    "Verif.Tasks.c16_matrix_dispatch_exact_partial",
    "Verif.Tasks.c16_operation_dispatch_partial",
    "Verif.Tasks.c16_disabled_type_hits_nothing",
    "Verif.Tasks.c16_violated_above_max_dim"
   ],
   "note": "exact for dimensions up to LEGION_SOLVERS_MAX_DIM; above it (Legion may be built with a larger LEGION_MAX_DIM) a task for another dimension/type is selected silently"
  },
  {
   "property": "C17",
   "status": "partial",
   "theorems": [
    "Verif.Tasks.c17_launches_registered_partial",
    "Verif.Tasks.c17_violated_matvec"
   ],
   "note": "matrix products are registered only for 1-D 64-bit spaces, printing only for 64-bit: others launch unregistered tasks (proved violation)"
  },
  {
   "property": "C18",
   "status": "proved",
   "theorems": [
    "Verif.Tasks.c18_is_task"
   ],
   "note": ""
  },
  {
   "property": "C19",
   "status": "proved",
   "theorems": [
    "Verif.Tasks.c19_sharding",
    "Verif.Tasks.c19_rejects"
   ],
   "note": ""
  },
  {
   "property": "C20",
   "status": "proved",
   "theorems": [
    "Verif.Tasks.c20_flags",
    "Verif.Tasks.c20_registrar",
    "Verif.Tasks.c20_task_classes"
   ],
   "note": ""
  },
  {
   "property": "C21",
   "status": "proved",
   "theorems": [
    "Verif.Vector.c21_fill",
    "Verif.Vector.c21_zero_fill",
    "Verif.Vector.c21_fill_scalar",
    "Verif.Vector.c21_copy",
    "Verif.Vector.c21_scal",
    "Verif.Vector.c21_axpy",
    "Verif.Vector.c21_axpy_quotient",
    "Verif.Vector.c21_axpy_product_quotient",
    "Verif.Vector.c21_axpy_value",
    "Verif.Vector.c21_xpay",
    "Verif.Vector.c21_xpay_quotient",
    "Verif.Vector.c21_xpay_value",
    "Verif.Vector.c21_incompatible_rejected"
   ],
   "note": "any arithmetic, any schedule; also the cells of no other vector or scalar change"
  },
  {
   "property": "C22",
   "status": "proved",
   "theorems": [
    "Verif.Vector.c22_dot",
    "Verif.Vector.c22_partition_independent",
    "Verif.Vector.c22_symmetric",
    "Verif.Vector.c22_bilinear",
    "Verif.Vector.c22_value_any_arithmetic"
   ],
   "note": "exact arithmetic except c22_value_any_arithmetic"
  },
  {
   "property": "C23",
   "status": "proved",
   "theorems": [
    "Verif.Vector.c23_coefficient",
    "Verif.Vector.c23_operations",
    "Verif.Vector.c23_rejects",
    "Verif.Vector.c21_axpy",
    "Verif.Vector.c21_axpy_quotient",
    "Verif.Vector.c21_axpy_product_quotient",
    "Verif.Vector.c21_xpay",
    "Verif.Vector.c21_xpay_quotient"
   ],
   "note": ""
  },
  {
   "property": "C24",
   "status": "proved",
   "theorems": [
    "Verif.Vector.c24_scalar_programs",
    "Verif.Vector.c24_start",
    "Verif.Vector.c24_unset_use_rejected",
    "Verif.Vector.c24_assignment_local"
   ],
   "note": ""
  },
  {
   "property": "C25",
   "status": "proved",
   "theorems": [
    "Verif.Matrix.c25_row_first",
    "Verif.Matrix.c25_column_first",
    "Verif.Matrix.c25_kernel_partition",
    "Verif.Matrix.c25_kernel_partition_column_first"
   ],
   "note": ""
  },
  {
   "property": "C26",
   "status": "proved",
   "theorems": [
    "Verif.Matrix.c26_row_first",
    "Verif.Matrix.c26_kernel_partition",
    "Verif.Matrix.c26_range_from_kernel",
    "Verif.Matrix.c26_column_first"
   ],
   "note": ""
  },
  {
   "property": "C27",
   "status": "proved",
   "theorems": [
    "Verif.Matrix.c27_coo_matvec",
    "Verif.Matrix.c27_tasks_within_requirements",
    "Verif.Matrix.c27_coo_matvec_exact"
   ],
   "note": "every schedule; sum in kernel order, so partition-independent in any arithmetic"
  },
  {
   "property": "C28",
   "status": "proved",
   "theorems": [
    "Verif.Matrix.c28_csr_matvec",
    "Verif.Matrix.c28_csr_matvec_exact",
    "Verif.Matrix.c28_foreign_kernel_piece_aborts"
   ],
   "note": ""
  },
  {
   "property": "C29",
   "status": "proved",
   "theorems": [
    "Verif.Matrix.c29_coo_csr_agree"
   ],
   "note": "any arithmetic"
  },
  {
   "property": "C30",
   "status": "partial",
   "theorems": [
    "Verif.Matrix.c30_csr_gpu_partial",
    "Verif.Matrix.c30_kernel_lower_bound",
    "Verif.Matrix.c30_coo_gpu_partial",
    "Verif.Matrix.c30_violated_two_operators",
    "Verif.Matrix.c30_violated_noncontiguous"
   ],
   "note": "CSR: equal when the output was zero; false when a second operator accumulates (beta=0).  COO: equal for contiguous kernel pieces; false otherwise"
  },
  {
   "property": "C31",
   "status": "proved",
   "theorems": [
    "Verif.Planner.c31_accepts_exactly",
    "Verif.Planner.c31_consistent",
    "Verif.Planner.c31_closed_after_workspace",
    "Verif.Planner.c31_ready",
    "Verif.Planner.exReady"
   ],
   "note": ""
  },
  {
   "property": "C32",
   "status": "proved",
   "theorems": [
    "Verif.Planner.c32_matvec",
    "Verif.Planner.c32_client",
    "Verif.Planner.c32_registration_order"
   ],
   "note": "exact arithmetic, every schedule; c31_ready shows that set-up establishes the hypothesis"
  },
  {
   "property": "C33",
   "status": "proved",
   "theorems": [
    "Verif.Planner.c33_vectors_exist",
    "Verif.Planner.c33_client_vectors",
    "Verif.Planner.c33_zero_fill",
    "Verif.Planner.c33_copy",
    "Verif.Planner.c33_scal",
    "Verif.Planner.c33_axpy",
    "Verif.Planner.c33_axpy_quotient",
    "Verif.Planner.c33_axpy_product_quotient",
    "Verif.Planner.c33_xpay",
    "Verif.Planner.c33_xpay_quotient",
    "Verif.Planner.c33_dot"
   ],
   "note": "any arithmetic except dot; every schedule"
  },
  {
   "property": "C34",
   "status": "proved",
   "theorems": [
    "Verif.Solver.c34_client",
    "Verif.Solver.c34_true_residual",
    "Verif.Solver.c34_iterates",
    "Verif.Solver.c34_any_initial_guess"
   ],
   "note": "every schedule; solver_setup derives the hypothesis SolverSetup from the user's set-up calls; divisions by zero are outside (CGRegular)"
  },
  {
   "property": "C35",
   "status": "proved",
   "theorems": [
    "Verif.Solver.c35_client",
    "Verif.Solver.c35_solves",
    "Verif.Solver.c35_no_division_by_zero",
    "Verif.Solver.c35_optimality",
    "Verif.Solver.c35_next_step_divides_by_zero"
   ],
   "note": "every schedule, every ordered field"
  },
  {
   "property": "C36",
   "status": "proved",
   "theorems": [
    "Verif.Solver.c36_client",
    "Verif.Solver.c36_true_residual",
    "Verif.Solver.c36_local_minimum",
    "Verif.Solver.c36_iterates",
    "Verif.Solver.c36_any_initial_guess"
   ],
   "note": ""
  },
  {
   "property": "C37",
   "status": "proved",
   "theorems": [
    "Verif.Solver.c37_client",
    "Verif.Solver.c37_arnoldi"
   ],
   "note": "square roots taken are exact (hypothesis RootsExact)"
  },
  {
   "property": "C38",
   "status": "partial",
   "theorems": [
    "Verif.Solver.c38_condition_partial",
    "Verif.Solver.c38_violated",
    "Verif.Solver.c38_step_length",
    "Verif.Solver.c38_stays_away"
   ],
   "note": "the property is false of the code: every cycle adds the plain sum of the basis vectors (DummyTask returns 1), so the iterate always moves by sqrt(restart); proved: the violation, the exact condition for non-increase, and that iterates cannot converge"
  },
  {
   "property": "C39",
   "status": "partial",
   "theorems": [
    "Verif.Solver.c39_null_guess_partial",
    "Verif.Solver.c39_violated",
    "Verif.Solver.c39_violated_cg",
    "Verif.Solver.c39_violated_bicgstab"
   ],
   "note": "false of the code: CG and BiCGStab start the residual at b instead of b - A x0; holds iff A x0 = 0"
  },
  {
   "property": "C40",
   "status": "proved",
   "theorems": [
    "Verif.Solver.c40_cg",
    "Verif.Solver.c40_bicgstab",
    "Verif.Solver.c40_gmres",
    "Verif.Solver.c40_calls_cg",
    "Verif.Solver.c40_calls_bicgstab",
    "Verif.Solver.c40_calls_gmres"
   ],
   "note": "any arithmetic, every schedule; also the exact number of products per step"
  },
  {
   "property": "C41",
   "status": "proved",
   "theorems": [
    "Verif.Ownership.c41_safe",
    "Verif.Ownership.c41_counts",
    "Verif.Ownership.c41_no_leak",
    "Verif.Ownership.c41_needs_matrix",
    "Verif.Ownership.c41_needs_mine"
   ],
   "note": "every legal client program; std::vector reallocation (copies and destructions of the vectors in the buffer) included; Legion's reference counting modelled by its documented contract"
  },
  {
   "property": "C42",
   "status": "proved",
   "theorems": [
    "Verif.Runtime.c42_any_schedule",
    "Verif.Runtime.c42_progress",
    "Verif.Runtime.c42_terminates",
    "Verif.Runtime.c42_complete_execution_exists",
    "Verif.Vector.c42_program_any_arithmetic",
    "Verif.Vector.c42_program_inner_products",
    "Verif.Vector.c42_program_exact",
    "Verif.Solver.c42_every_client"
   ],
   "note": "the runtime model is Legion's documented contract"
  },
  {
   "property": "C43",
   "status": "partial",
   "theorems": [
    "Verif.Machine.c43_linearize",
    "Verif.Machine.c43_linearize_overflow",
    "Verif.Machine.c43_linearize_unsigned",
    "Verif.Machine.c43_laplacian_1d",
    "Verif.Machine.c43_laplacian_1d_violated",
    "Verif.Machine.c43_laplacian_2d_partial",
    "Verif.Machine.c43_laplacian_2d_violated",
    "Verif.Machine.c43_flat_index",
    "Verif.Machine.c43_grid_partial",
    "Verif.Machine.c43_grid_violated"
   ],
   "note": "point numbers are exact iff the volume fits (signed), flat indices exact; false at edges: 3n overflows although 3n-2 fits, a 1 x w 2-D Laplacian overflows in an intermediate result, 2^39 points launch zero blocks"
  },
  {
   "property": "C44",
   "status": "partial",
   "theorems": [
    "Verif.Print.c44_print_partial",
    "Verif.Print.c44_violated"
   ],
   "note": "holds iff colour space and partitioned space have the same dimension and coordinate type; otherwise (1-D colours of a 2-D grid) the call stops with a type error; any interleaving of the tasks' lines; Legion's dynamic type check by its documented contract; names with zero bytes excluded"
  },
  {
   "property": "C45",
   "status": "proved",
   "theorems": [
    "Verif.Vector.c45_frame",
    "Verif.Vector.c45_assign_copies",
    "Verif.Vector.c45_copy_shares"
   ],
   "note": "any arithmetic, also with inner products (whose reduction order is left open)"
  },
  {
   "property": "C46",
   "status": "proved",
   "theorems": [
    "Verif.Solver.c46_client",
    "Verif.Solver.c46_client_breaks_down",
    "Verif.Solver.c46_half_step_solves",
    "Verif.Solver.c46_breaks_down"
   ],
   "note": ""
  },
  {
   "property": "C47",
   "status": "partial",
   "theorems": [
    "Verif.Ownership.c47_print_partial",
    "Verif.Ownership.c47_laplacian_partial",
    "Verif.Ownership.c47_reachable",
    "Verif.Ownership.c47_stencil_coo_violated",
    "Verif.Ownership.c47_stencil_csr_violated",
    "Verif.Ownership.c47_derive_violated",
    "Verif.Ownership.c47_planner_copy_violated"
   ],
   "note": "false of the code: stencil builders leak 5 / 9 references per call, domain_partition_from_range_partition leaks the kernel partition, a copied planner releases twice; it holds for printing and the Laplacian builders"
  },
  {
   "property": "C48",
   "status": "proved",
   "theorems": [
    "Verif.Print.c48_coo_print",
    "Verif.Print.c48_csr_print",
    "Verif.Print.c48_csr_print_aborts",
    "Verif.Print.c48_coo_csr_agree",
    "Verif.Print.c48_wrong_space"
   ],
   "note": "registered types (1-D kernel, long long, rows and columns of dimension 1 to 3); other types are C17"
  },
  {
   "property": "C49",
   "status": "partial",
   "theorems": [
    "Verif.Solver.c49_reproducible_partial",
    "Verif.Solver.c49_reproducible_any_order",
    "Verif.Solver.c49_two_pieces",
    "Verif.Solver.c49_three_pieces",
    "Verif.Solver.c49_violated"
   ],
   "note": "holds for every schedule given the same reduction orders, with no law of arithmetic, and for all reduction orders when no partition has more than two pieces (addition commutative) or the terms of a sum can be exchanged; false otherwise: dot reduces through a non-deterministic index launch, and from three pieces on two orders give different results for every addition whose terms cannot be exchanged"
  },
  {
   "property": "C50",
   "status": "proved",
   "theorems": [
    "Verif.EndToEnd.c50_coo_stencil",
    "Verif.EndToEnd.c50_csr_stencil",
    "Verif.EndToEnd.c50_linearized_stencil",
    "Verif.EndToEnd.c50_coo_laplacian",
    "Verif.EndToEnd.c50_csr_laplacian",
    "Verif.EndToEnd.c50_ones"
   ],
   "note": "exact arithmetic, CPU tasks; CSR Laplacian with at least two points (one point: C12)"
  },
  {
   "property": "C51",
   "status": "proved",
   "theorems": [
    "Verif.EndToEnd.c51_coo_product",
    "Verif.EndToEnd.c51_csr_product",
    "Verif.EndToEnd.c51_linearized_product",
    "Verif.EndToEnd.c51_exact_row"
   ],
   "note": "any arithmetic; CPU tasks; the partition into pieces covers the kernel (Legion's create_equal_partition with at least one piece)"
  },
  {
   "property": "C52",
   "status": "partial",
   "theorems": [
    "Verif.Blas.c52_scal_partial",
    "Verif.Blas.c52_axpy_partial",
    "Verif.Blas.c52_dot_partial",
    "Verif.Blas.c52_scal_cpu",
    "Verif.Blas.c52_axpy_cpu",
    "Verif.Blas.c52_scal_only_slabs",
    "Verif.Blas.c52_one_dimension",
    "Verif.Blas.c52_exact_instance",
    "Verif.Blas.c52_violated_subrectangle",
    "Verif.Blas.c52_violated_count"
   ],
   "note": "holds exactly when the piece is a slab of its instance (always in one dimension and for an instance of the piece's own size) and has fewer than 2^31 elements; proved violated otherwise (the code's TODO comments suspect the former); xpay does not use cuBLAS (C14)"
  },
  {
   "property": "C53",
   "status": "proved",
   "theorems": [
    "Verif.Launch.c53_fill",
    "Verif.Launch.c53_scal",
    "Verif.Launch.c53_dot",
    "Verif.Launch.c53_axpy_iff",
    "Verif.Launch.c53_xpay_iff",
    "Verif.Launch.c53_copy_iff",
    "Verif.Launch.c53_product",
    "Verif.Launch.c53_calls",
    "Verif.Launch.c53_cg",
    "Verif.Launch.c53_bicgstab",
    "Verif.Launch.c53_gmres",
    "Verif.Launch.c53_independent",
    "Verif.Launch.c53_builders"
   ],
   "note": "the launches of a solver run are tied to the tasks of the operational model point task by point task (LawfulRun)"
  },
  {
   "property": "C54",
   "status": "partial",
   "theorems": [
    "Verif.Launch.c54_calls_partial",
    "Verif.Launch.c54_registration_partial",
    "Verif.Launch.c54_coo",
    "Verif.Launch.c54_two_csr",
    "Verif.Launch.c54_builders_own_spaces",
    "Verif.Launch.c54_fill",
    "Verif.Launch.c54_violated"
   ],
   "note": "holds exactly when the row pointers of every registered CSR matrix live on the index space of the solution vector at its range index; the planner does not check it, and two CSR matrices made by the library's builders never can share a row block"
  },
  {
   "property": "C55",
   "status": "proved",
   "theorems": [
    "Verif.Launch.c55_cg",
    "Verif.Launch.c55_bicgstab",
    "Verif.Launch.c55_gmres",
    "Verif.Launch.c55_any_state"
   ],
   "note": "steps correspond task by task (same requirements and computation up to renaming of futures; reductions up to the order of their operands)"
  },
  {
   "property": "C56",
   "status": "proved",
   "theorems": [
    "Verif.Solver.c56_rate",
    "Verif.Solver.c56_steps",
    "Verif.Solver.c56_distinct_eigenvalues",
    "Verif.Solver.c56_client",
    "Verif.Solver.c56_client_distinct_eigenvalues"
   ],
   "note": "exact arithmetic over the reals, solution vectors zero at first (the code ignores the initial guess, C39)"
  },
  {
   "property": "C57",
   "status": "proved",
   "theorems": [
    "Verif.EndToEnd.c57_coo_laplacian",
    "Verif.EndToEnd.c57_csr_laplacian",
    "Verif.EndToEnd.c57_coo_stencil",
    "Verif.EndToEnd.c57_csr_stencil",
    "Verif.EndToEnd.c57_linearized_stencil"
   ],
   "note": "exact arithmetic over the reals; built matrices registered with the planner and solved by the modelled CG"
  },
  {
   "property": "C58",
   "status": "proved",
   "theorems": [
    "Verif.Solver.c58_cg",
    "Verif.Solver.c58_bicgstab",
    "Verif.Solver.c58_gmres"
   ],
   "note": "exact arithmetic (a field); SameSystem relates the unknowns of the two clients by any bijection"
  },
  {
   "property": "C59",
   "status": "proved",
   "theorems": [
    "Verif.Rounding.c59_dot",
    "Verif.Rounding.c59_norm",
    "Verif.Rounding.c59_axpy",
    "Verif.Rounding.c59_axpy_quotient",
    "Verif.Rounding.c59_axpy_product_quotient",
    "Verif.Rounding.c59_xpay",
    "Verif.Rounding.c59_xpay_quotient",
    "Verif.Rounding.c59_coo_matvec",
    "Verif.Rounding.c59_csr_matvec",
    "Verif.Rounding.c59_planner_matvec",
    "Verif.Rounding.c59_planner_dot"
   ],
   "note": "standard model of rounding; CPU task bodies (fma in axpy/xpay, separate product and sum in dot and the matrix tasks); overflow and underflow outside"
  },
  {
   "property": "C60",
   "status": "proved",
   "theorems": [
    "Verif.Rounding.c60_cg",
    "Verif.Rounding.c60_client",
    "Verif.Rounding.c60_recorded_values",
    "Verif.Rounding.c60_attainable"
   ],
   "note": "standard model of rounding with u < 1"
  },
  {
   "property": "C61",
   "status": "proved",
   "theorems": [
    "Verif.Rounding.c61_bicgstab",
    "Verif.Rounding.c61_client"
   ],
   "note": "standard model of rounding with u < 1; the state in the middle of a step is that of the program stopped there"
  },
  {
   "property": "C62",
   "status": "proved",
   "theorems": [
    "Verif.Device.c62_client",
    "Verif.Device.c62_client_ensures",
    "Verif.Device.c62_matvec",
    "Verif.Device.c62_cg",
    "Verif.Device.c62_bicgstab",
    "Verif.Device.c62_gmres",
    "Verif.Device.c62_cg_solves",
    "Verif.Device.c62_coo_laplacian",
    "Verif.Device.c62_csr_laplacian",
    "Verif.Device.c62_linearized_stencil",
    "Verif.Device.c62_two_csr_violated",
    "Verif.Device.c62_csr_last_violated",
    "Verif.Device.c62_scattered_violated"
   ],
   "note": "exact arithmetic (a field); one dimension; cuBLAS and cuSPARSE by their documentation; products in place stay on the CPU; the conditions are needed (three violations)"
  },
  {
   "property": "C63",
   "status": "proved",
   "theorems": [
    "Verif.Cuda.c63_in_bounds",
    "Verif.Cuda.c63_calls_iff",
    "Verif.Cuda.c63_made_once",
    "Verif.Cuda.c63_load",
    "Verif.Cuda.c63_loaded",
    "Verif.Cuda.c63_power_of_two",
    "Verif.Cuda.c63_realm",
    "Verif.Cuda.c63_only_powers",
    "Verif.Cuda.c63_violated"
   ],
   "note": "a GPU runs one task at a time; creation of a handle is one step and does not fail; Realm's layout of processor numbers as documented"
  },
  {
   "property": "C64",
   "status": "proved",
   "theorems": [
    "Verif.Programs.c64_print_loop",
    "Verif.Programs.c64_print_only_prints",
    "Verif.Programs.c64_print_each",
    "Verif.Programs.c64_unchained_order_open"
   ],
   "note": "a printing task writes its line in one indivisible step"
  },
  {
   "property": "C65",
   "status": "proved",
   "theorems": [
    "Verif.Programs.c65_coo",
    "Verif.Programs.c65_csr",
    "Verif.Programs.c65_solution"
   ],
   "note": "exact arithmetic (a field of characteristic zero); command line and clean-up not modelled"
  },
  {
   "property": "C66",
   "status": "proved",
   "theorems": [
    "Verif.Programs.c66_scalar_exact",
    "Verif.Programs.c66_scalar",
    "Verif.Programs.c66_vector_exact",
    "Verif.Programs.c66_vector",
    "Verif.Programs.c66_vector_needs_close"
   ],
   "note": "binary formats without overflow and underflow; rounding mode: any function that keeps integers"
  },
  {
   "property": "C67",
   "status": "proved",
   "theorems": [
    "Verif.Solver.c67_cg",
    "Verif.Solver.c67_bicgstab",
    "Verif.Solver.c67_gmres",
    "Verif.Solver.c67_copies"
   ],
   "note": "any arithmetic; CPU kernels"
  },
  {
   "property": "C68",
   "status": "proved",
   "theorems": [
    "Verif.Solver.c68_cg",
    "Verif.Solver.c68_bicgstab",
    "Verif.Solver.c68_gmres_shrinks"
   ],
   "note": "exact arithmetic (a field of characteristic zero; for GMRES with a square root of c); the GMRES theorem shows how one cycle differs"
  },
  {
   "property": "C69",
   "status": "proved",
   "theorems": [
    "Verif.Special.c69_cg_zero_norm",
    "Verif.Special.c69_cg_zero_rhs",
    "Verif.Special.c69_bicgstab_zero_scalar",
    "Verif.Special.c69_bicgstab_zero_rhs",
    "Verif.Special.c69_gmres_zero_entry",
    "Verif.Special.c69_gmres_zero_residual",
    "Verif.Special.c69_gmres_zero_rhs"
   ],
   "note": "any arithmetic satisfying the IEEE 754 rules for zeros, infinities and NaN (structure IEEE; instance: every rounding); CPU kernels"
  },
  {
   "property": "C70",
   "status": "proved",
   "theorems": [
    "Verif.Special.c70_cg_input",
    "Verif.Special.c70_cg_norm",
    "Verif.Special.c70_bicgstab_input",
    "Verif.Special.c70_bicgstab_scalar",
    "Verif.Special.c70_gmres_input",
    "Verif.Special.c70_initial_solution"
   ],
   "note": "as C69"
  },
  {
   "property": "C71",
   "status": "proved",
   "theorems": [
    "Verif.Special.cg_recurrence",
    "Verif.Special.bi_recurrence",
    "Verif.Special.gmres_recurrence"
   ],
   "note": "any arithmetic; CPU kernels"
  },
  {
   "property": "C72",
   "status": "proved",
   "theorems": [
    "Verif.Special.c72_cg",
    "Verif.Special.c72_cg_overrun",
    "Verif.Special.c72_bicgstab",
    "Verif.Special.c72_bicgstab_overrun",
    "Verif.Special.c72_gmres",
    "Verif.Special.c72_gmres_restart"
   ],
   "note": "exact arithmetic of a field with undefined division by zero; for restart lengths exact square roots"
  },
  {
   "property": "C73",
   "status": "proved",
   "theorems": [
    "Verif.Special.c73_cg",
    "Verif.Special.c73_bicgstab",
    "Verif.Special.c73_gmres"
   ],
   "note": "exact arithmetic of a field with undefined division by zero; for GMRES exact square roots"
  },
  {
   "property": "C74",
   "status": "proved",
   "theorems": [
    "Verif.Programs.c74_copies",
    "Verif.Programs.c74_report",
    "Verif.Programs.c74_rejects",
    "Verif.Programs.c74_no_solver",
    "Verif.Programs.c74_cg",
    "Verif.Programs.c74_cg_line",
    "Verif.Programs.c74_overrun",
    "Verif.Programs.c74_defaults"
   ],
   "note": "test/BenchmarkStencil.cpp with the linearised CSR builder, two blocks, fences and timing left out; exact arithmetic parts with undefined division by zero; CPU kernels; grids from coordinate 0"
  },
  {
   "property": "C75",
   "status": "proved",
   "theorems": [
    "Verif.Programs.c75_coo",
    "Verif.Programs.c75_csr",
    "Verif.Programs.c75_blocks",
    "Verif.Programs.c75_once",
    "Verif.Programs.c75_some_screen",
    "Verif.Programs.c75_shipped"
   ],
   "note": "lines as records, not split; one shard of the top-level task; the pieces of create_equal_partition are a parameter"
  },
  {
   "property": "C76",
   "status": "proved",
   "theorems": [
    "Verif.Programs.c76_double",
    "Verif.Programs.c76_script",
    "Verif.Programs.c76_solves",
    "Verif.Programs.c76_library"
   ],
   "note": "exact arithmetic instead of float64; division by zero is a parameter (first part) or has no result (last part)"
  },
  {
   "property": "C77",
   "status": "proved",
   "theorems": [
    "Verif.Programs.c77_petsc",
    "Verif.Programs.c77_trilinos",
    "Verif.Programs.c77_scripts",
    "Verif.Programs.c77_bench_all"
   ],
   "note": "unbounded integers; PETSc insertion, Tpetra insertion and std::sort by their contracts; the solvers of PETSc and Trilinos are not modelled"
  },
  {
   "property": "C78",
   "status": "proved",
   "theorems": [
    "Verif.Machine.c78_fill_coo",
    "Verif.Machine.c78_fill_lin_coo",
    "Verif.Machine.c78_fill_csr",
    "Verif.Machine.c78_fill_lin_csr",
    "Verif.Machine.c78_size",
    "Verif.Machine.c78_create_coo",
    "Verif.Machine.c78_create_csr",
    "Verif.Machine.c78_create_lin_csr",
    "Verif.Machine.c78_coo_product",
    "Verif.Machine.c78_csr_product",
    "Verif.Machine.c78_linearized_product",
    "Verif.Machine.c78_fill_coo_overflow",
    "Verif.Machine.c78_fill_lin_coo_overflow",
    "Verif.Machine.c78_fill_csr_overflow",
    "Verif.Machine.c78_fill_lin_csr_overflow",
    "Verif.Machine.c78_create_lin_csr_overflow",
    "Verif.Machine.c78_create_coo_overflow",
    "Verif.Machine.c78_size_overflow"
   ],
   "note": "undefined behaviour (signed overflow) is modelled as having no result; std::sort by its contract; conversions between types as in the C++ standard"
  },
  {
   "property": "C79",
   "status": "proved",
   "theorems": [
    "Verif.Interactive.c79_values",
    "Verif.Interactive.c79_deterministic",
    "Verif.Interactive.c79_progress",
    "Verif.Interactive.c79_terminates",
    "Verif.Interactive.c79_runs_forever",
    "Verif.Interactive.c79_aborts",
    "Verif.Interactive.c79_assertion",
    "Verif.Interactive.c66_test01"
   ],
   "note": "a future's value is available once all tasks writing it have finished (Legion's contract for Future::get_result); the order in which a dot product is reduced is a fixed parameter of the run (see C49); a failed assertion stops the program"
  },
  {
   "property": "C80",
   "status": "proved",
   "theorems": [
    "Verif.Interactive.c80_loop",
    "Verif.Interactive.c80_never_ends",
    "Verif.Interactive.c80_client",
    "Verif.Interactive.c80_capped",
    "Verif.Interactive.c80_nan",
    "Verif.Interactive.c80_nan_input",
    "Verif.Interactive.c80_converges",
    "Verif.Interactive.c80_solves",
    "Verif.Interactive.c80_rate"
   ],
   "note": "the loop is a user program; exact arithmetic for convergence"
  },
  {
   "property": "C81",
   "status": "proved",
   "theorems": [
    "Verif.Driver.c81_item",
    "Verif.Driver.c81_entry",
    "Verif.Driver.c81_text",
    "Verif.Driver.c81_newline"
   ],
   "note": "Legion's formats of points are part of its contract; how floating-point numbers are written is a parameter"
  },
  {
   "property": "C82",
   "status": "proved",
   "theorems": [
    "Verif.Driver.c82_verdict",
    "Verif.Driver.c82_set",
    "Verif.Driver.c82_six",
    "Verif.Driver.c82_quiet",
    "Verif.Driver.c82_sees",
    "Verif.Driver.c82_partitions",
    "Verif.Driver.c82_coo",
    "Verif.Driver.c82_csr",
    "Verif.Driver.c82_zeros",
    "Verif.Driver.c82_torn"
   ],
   "note": "how programs are started and the loop over builds are not modelled; the CG tests in exact arithmetic; integers of at most six digits are written in full"
  },
  {
   "property": "C83",
   "status": "proved",
   "theorems": [
    "Verif.EndToEnd.c83_coo_stencil",
    "Verif.EndToEnd.c83_csr_stencil",
    "Verif.EndToEnd.c83_linearized_stencil",
    "Verif.EndToEnd.c83_coo_laplacian",
    "Verif.EndToEnd.c83_csr_laplacian"
   ],
   "note": "exact real arithmetic; the loop is a user program"
  },
  {
   "property": "C84",
   "status": "proved",
   "theorems": [
    "Verif.Interactive.c84_cg",
    "Verif.Interactive.c84_bicgstab",
    "Verif.Interactive.c84_gmres",
    "Verif.Interactive.c84_capped",
    "Verif.Interactive.c84_nan_input",
    "Verif.Interactive.c84_cg_exact",
    "Verif.Interactive.c84_bicgstab_exact",
    "Verif.Interactive.c84_gmres_exact",
    "Verif.Interactive.c84_cg_converges",
    "Verif.Interactive.c84_cg_warm",
    "Verif.Interactive.c84_bicgstab_ends_or_never",
    "Verif.Interactive.c84_bicgstab_never",
    "Verif.Interactive.c84_gmres_never",
    "Verif.Interactive.c84_gmres_whole"
   ],
   "note": "the loops are user programs; the never-ending cases record how the shipped solvers differ from the textbook methods (C38, C39)"
  },
  {
   "property": "C85",
   "status": "proved",
   "theorems": [
    "Verif.App.c85_application_tasks",
    "Verif.App.c85_application_sees",
    "Verif.App.c85_cg",
    "Verif.App.c85_bicgstab",
    "Verif.App.c85_gmres",
    "Verif.App.c85_cg_checkpoint",
    "Verif.App.c85_bicgstab_checkpoint",
    "Verif.App.c85_gmres_checkpoint",
    "Verif.App.c85_application_tasks_after",
    "Verif.App.c85_cg_rhs_free",
    "Verif.App.c85_bicgstab_rhs_free",
    "Verif.App.c85_gmres_rhs_needed"
   ],
   "note": "application tasks are arbitrary tasks that do only what they declare and deliver no futures; matrix data is constant"
  },
  {
   "property": "C86",
   "status": "proved",
   "theorems": [
    "Verif.Release.c86_same_tasks",
    "Verif.Release.c86_same_results",
    "Verif.Release.c86_vectors",
    "Verif.Release.c86_dot",
    "Verif.Release.c86_vectors_undefined",
    "Verif.Release.c86_more_solvers",
    "Verif.Release.c86_bigger_refused",
    "Verif.Release.c86_next_cg",
    "Verif.Release.c86_next_bicgstab",
    "Verif.Release.c86_next_gmres",
    "Verif.Release.c86_cg_again",
    "Verif.Release.c86_bicgstab_again",
    "Verif.Release.c86_gmres_again",
    "Verif.Release.c86_cg_after_others",
    "Verif.Release.c86_cg_twice",
    "Verif.Release.c86_first_solver_broken"
   ],
   "note": "undefined behaviour and requests the runtime refuses are outcomes about which nothing is claimed; a missing field is refused at construction instead of at first use"
  },
  {
   "property": "C87",
   "status": "proved",
   "theorems": [
    "Verif.Startup.c87_compiles",
    "Verif.Startup.c87_registered",
    "Verif.Startup.c87_ids",
    "Verif.Startup.c87_ids_clash",
    "Verif.Startup.c87_names",
    "Verif.Startup.c87_names_two_digits",
    "Verif.Startup.c87_meta_name",
    "Verif.Startup.c87_names_registered",
    "Verif.Startup.c87_info",
    "Verif.Startup.c87_truthful",
    "Verif.Startup.c87_matrices",
    "Verif.Startup.c87_kokkos",
    "Verif.Startup.c87_launch",
    "Verif.Startup.c87_log",
    "Verif.Startup.c87_silent",
    "Verif.Startup.c87_driver"
   ],
   "note": "initialize with its output byte for byte, names, identifiers and variants, for every build configuration; a clash of identifiers for maximum dimension 1 is proved. Identifiers are mathematical naturals (C15 shows the committed ones fit 32 bits)."
  },
  {
   "property": "C88",
   "status": "proved",
   "theorems": [
    "Verif.Units.c88_cg",
    "Verif.Units.c88_bicgstab",
    "Verif.Units.c88_gmres",
    "Verif.Units.c88_gmres_ignores_units",
    "Verif.Units.c88_gmres_violated",
    "Verif.Units.exact_units",
    "Verif.Units.real_units",
    "Verif.Units.real_root",
    "Verif.Units.float_units",
    "Verif.Units.float_root"
   ],
   "note": "two runs are related through one run on pairs of numbers; range of exponents unbounded; both runs combine reductions in the same order"
  },
  {
   "property": "C89",
   "status": "proved",
   "theorems": [
    "Verif.Guess.c89_cg",
    "Verif.Guess.c89_bicgstab",
    "Verif.Guess.c89_cg_again",
    "Verif.Guess.c89_bicgstab_again",
    "Verif.Guess.c89_gmres_again",
    "Verif.Guess.c89_cg_exact",
    "Verif.Guess.c89_bicgstab_exact",
    "Verif.Guess.exact_orderFree",
    "Verif.Guess.partial_orderFree"
   ],
   "note": "the second run is a new program: new planner, same description, any memory with the named vectors"
  },
  {
   "property": "C90",
   "status": "proved",
   "theorems": [
    "Verif.Build.c90_directories",
    "Verif.Build.c90_change_directory",
    "Verif.Build.c90_refresh",
    "Verif.Build.c90_refresh_new_scratch",
    "Verif.Build.c90_make_all",
    "Verif.Build.c90_arguments",
    "Verif.Build.c90_build_legion",
    "Verif.Build.c90_contradiction",
    "Verif.Build.c90_committed",
    "Verif.Build.c90_no_tests",
    "Verif.Build.c90_no_tests_ever",
    "Verif.Build.c90_benchmark_directory"
   ],
   "note": "external commands are any functions of directory, arguments and file system that change only their directory (and, for Legion, the library directory); links, permissions and concurrent processes are not modelled; build_dependencies.py only as far as its paths"
  },
  {
   "property": "C91",
   "status": "proved",
   "theorems": [
    "Verif.Replay.c91_replay",
    "Verif.Replay.c91_finishes",
    "Verif.Replay.c91_cg",
    "Verif.Replay.c91_bicgstab",
    "Verif.Replay.c91_gmres",
    "Verif.Replay.c91_benchmark",
    "Verif.Replay.c91_needed"
   ],
   "note": "what a replaying runtime may do is Legion's documented contract, in Replay/Model.lean; one trace id; the statements about what the steps compute without traces are those of the other claims (C13-C22, C40, C71, C74)"
  },
  {
   "property": "C92",
   "status": "proved",
   "theorems": [
    "Verif.Replay.c92_benchmark",
    "Verif.Replay.waits_obeyed",
    "Verif.Replay.fence_obeyed"
   ],
   "note": "mapping fences are left out; that the two futures are converted to milliseconds is not modelled"
  },
  {
   "property": "C93",
   "status": "proved",
   "theorems": [
    "Verif.Rounding.c93_client",
    "Verif.Rounding.c93_steps",
    "Verif.Rounding.c93_residual"
   ],
   "note": "standard model of rounding with u < 1; loss of orthogonality of the basis is not bounded (it cannot be in general)"
  },
  {
   "property": "C94",
   "status": "proved",
   "theorems": [
    "Verif.Sweep.c94_sizes",
    "Verif.Sweep.c94_petsc",
    "Verif.Sweep.c94_petsc_ends",
    "Verif.Sweep.c94_petsc_forever",
    "Verif.Sweep.c94_up_to",
    "Verif.Sweep.c94_bench_all",
    "Verif.Sweep.c94_bench_all_ends",
    "Verif.Sweep.c94_library",
    "Verif.Sweep.c94_count_fails",
    "Verif.Sweep.c94_run",
    "Verif.Sweep.c94_rivals"
   ],
   "note": "The machine is an arbitrary function from the history of runs and a command to how it ends; the sweeps are partial (none: they run forever). Realm's command line parser is modelled by what it is documented to do. Finding: the word ksp_gmres_modifiedgramschmidt on PETSc's command line lacks its dash; the library's 200 iterations include the five warm-up traces, which the other programs do not have."
  },
  {
   "property": "C95",
   "status": "proved",
   "theorems": [
    "Verif.Programs.c95_petsc",
    "Verif.Programs.c95_trilinos",
    "Verif.Programs.c95_wraps",
    "Verif.Sweep.c95_scripts"
   ],
   "note": "PetscInt is any signed type of at least 32 bits; Tpetra's types are its defaults (long long, size_t, int), conversions of out-of-range values are modular. Reading the options and everything inside PETSc and Trilinos (which reject some sizes earlier, e.g. when numbers of entries overflow) is not modelled. Finding: the comparison programs lose rows or have undefined behaviour on large grids, and petsc/main.cpp prints its sizes with %d, which is wrong for a PetscInt of 64 bits."
  },
  {
   "property": "C96",
   "status": "proved",
   "theorems": [
    "Verif.Restart.c96_every_client",
    "Verif.Restart.c96_as_if_once",
    "Verif.Restart.c96_store",
    "Verif.Restart.c96_completes",
    "Verif.Restart.c96_prints",
    "Verif.Restart.c96_prints_any",
    "Verif.Restart.c96_printing_classes",
    "Verif.Restart.c96_values",
    "Verif.Restart.c96_printed",
    "Verif.Restart.c96_printed_any",
    "Verif.Restart.c96_ends",
    "Verif.Restart.c96_forever",
    "Verif.Restart.client_covers"
   ],
   "note": "The runtime with restarts is a model of what the flags permit Legion to do, not code of this repository: when an attempt is given up, cells the task declares read and written are put back, cells it only declares written (WRITE_DISCARD) hold arbitrary values, which is harmless because every task assigns all of those (client_covers for the tasks of the library), and a task waits until earlier conflicting tasks have been committed. Which tasks are restartable follows from the flags of the classes (C20); prints are tasks reading the cell they print, as in C54 and C72. get_value returns once the task has made its last assignment, even if it is restarted afterwards. c96_ends carries over what is proved about the ends of executions without restarts (C79, C80, C84). Examples: a task given up twice, one restarted after its value has been looked at, and a line printed twice if printing were registered as idempotent."
  },
  {
   "property": "C97",
   "status": "proved",
   "theorems": [
    "Verif.Failure.c97_reports",
    "Verif.Failure.c97_stops",
    "Verif.Failure.c97_release",
    "Verif.Failure.c97_silent",
    "Verif.Failure.c97_debug",
    "Verif.Failure.c97_release_says_nothing",
    "Verif.Failure.c97_handles"
   ],
   "note": "The statuses of all calls and the fate of all work given to the GPU are arbitrary functions. Contract assumed of CUDA: synchronising reports failed work, peeking reports a refused launch, a null handle is refused, a call reporting a failure has put no work on the stream. What the calls compute is C52, which handle is used C63; assertions about regions are left out. c97_release_says_nothing shows why the work of release builds is excluded. The two backward products of matrices (CSR, COO rmatvec) only contain assert(false) on a GPU."
  },
  {
   "property": "C98",
   "status": "proved",
   "theorems": [
    "Verif.View.c98_checks",
    "Verif.View.c98_order",
    "Verif.View.c98_distinct",
    "Verif.View.c98_all",
    "Verif.View.c98_forgets",
    "Verif.View.c98_stream",
    "Verif.View.c98_release",
    "Verif.View.c98_builds"
   ],
   "note": "Programs are lists of operations; the fate of the duty to check a stream is a separate function of the rest of the program (Verif/View/Spec.lean). A failing check is C97's subject."
  },
  {
   "property": "C99",
   "status": "proved",
   "theorems": [
    "Verif.Random.c99_frame",
    "Verif.Random.c99_range",
    "Verif.Random.c99_draws",
    "Verif.Random.c99_not_zero",
    "Verif.Random.c99_value",
    "Verif.Random.c99_fair"
   ],
   "note": "std::mt19937 and std::uniform_real_distribution are modelled after the standard and libstdc++; the words seed_seq makes of the entropy are arbitrary; rounding is any function with Arith.Ok (Verif/Random/Spec.lean), met by rounding up to 1 (up_ok). The library registers this task but launches it nowhere."
  }
 ]
}