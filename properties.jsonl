{"id": "C01", "title": "Grid traversal visits every point exactly once", "statement": "Starting at the low corner of a non-empty rectangular grid and repeatedly advancing to the next point (row-major or column-major), every point of the grid is visited exactly once, the traversal never leaves the grid, it stops exactly at the high corner (where advancing reports 'no more points'), and the points come out in strictly increasing row-major (resp. column-major) order.", "quantifier": "every dimension, every non-empty rectangle with arbitrary (also negative) integer corners, both traversal orders", "why_tests_cant": "grids of every dimension and size; a test samples a few small boxes", "anchors": ["src/StencilGenerator.hpp:increment_row_major", "src/StencilGenerator.hpp:increment_column_major"]}
{"id": "C02", "title": "Linearised point numbers are a bijection onto 0..volume-1", "statement": "The row-major (column-major) number of a grid point lies in [0, volume); different points get different numbers; every number in the range belongs to some point; the numbering increases exactly with the row-major (column-major) order, and the next point in traversal order has the next number.", "quantifier": "every dimension, every rectangle, every point of it, both orders", "why_tests_cant": "unbounded family of rectangles and points", "anchors": ["src/StencilGenerator.hpp:linearize_row_major", "src/StencilGenerator.hpp:linearize_column_major", "src/StencilGenerator.hpp:increment_row_major", "src/StencilGenerator.hpp:increment_column_major"]}
{"id": "C03", "title": "Point comparison is a strict total order", "statement": "The two point comparisons used to sort stencil offsets are irreflexive, transitive and total (two points are incomparable only if equal), and they are the lexicographic order read from the first (row-major) or last (column-major) coordinate.", "quantifier": "all pairs and triples of points in every dimension", "why_tests_cant": "std::sort is undefined behaviour when the comparator is not a strict weak order; a test checks some triples only", "anchors": ["src/StencilGenerator.hpp:compare_row_major", "src/StencilGenerator.hpp:compare_column_major"]}
{"id": "C04", "title": "Computed stencil size equals the number of in-bounds entries", "statement": "The matrix size computed for a stencil on a grid equals the number of pairs (grid point, stencil offset) such that point plus offset lies inside the grid, counting repeated offsets separately, and the internal assertions of the computation never fire.", "quantifier": "every dimension >= 1, every rectangle (also empty), every finite list of offsets including duplicates and offsets larger than the grid", "why_tests_cant": "the computation uses a bulk shortcut whose validity depends on arbitrary offset/bounds combinations", "anchors": ["src/StencilGenerator.hpp:calculate_stencil_size", "src/StencilGenerator.hpp:leading_dimension_bounds", "src/StencilGenerator.hpp:tail"]}
{"id": "C05", "title": "COO stencil fill writes every entry exactly once, whatever the pieces", "statement": "After all pieces of a COO stencil matrix have been filled, every kernel index 0..size-1 has been written, no piece writes outside itself, the value at a kernel index does not depend on how the kernel space was cut into pieces, and the written triples (row, column, entry) are exactly the in-bounds (point, point+offset, entry) combinations, each as often as its offset is given.", "quantifier": "every grid, every offset list, every way of cutting the kernel index space into pieces (any number of pieces), both point orders", "why_tests_cant": "correctness must hold for each number of pieces and each grid; each piece recomputes the global numbering on its own", "anchors": ["src/StencilGenerator.cpp:FillCOOStencilTask", "src/StencilGenerator.hpp:create_coo_stencil_matrix"]}
{"id": "C06", "title": "CSR stencil row pointers tile the kernel space", "statement": "After filling a CSR stencil matrix every grid point's row pointer is the contiguous range of exactly the kernel indices holding that row's entries; the ranges are disjoint, increase in row order and cover the kernel space; within a row the columns are in sorted order; an empty row gets an empty range.", "quantifier": "every grid, offset list, cut of kernel and row spaces, both orders", "why_tests_cant": "must hold for every piece and every grid; off-by-one errors hide at boundary rows", "anchors": ["src/StencilGenerator.cpp:FillCSRStencilTask", "src/StencilGenerator.hpp:create_csr_stencil_matrix"]}
{"id": "C07", "title": "The fast-forward path of the linearised CSR fill changes nothing", "statement": "The linearised row-major CSR fill, which skips over repeated interior slices and stops early, writes into its piece exactly the same columns, entries and row pointers as plain enumeration of the whole grid would.", "quantifier": "every grid of every dimension, every offset list, every kernel piece interval and row piece interval", "why_tests_cant": "the skip depends on the relation of the piece to the grid's interior; only a proof covers all of them", "anchors": ["src/StencilGenerator.cpp:FillLinearizedCSRStencilTask"]}
{"id": "C08", "title": "Linearised stencil matrices are renumberings of the plain ones", "statement": "A linearised stencil matrix contains the same entries at the same kernel indices as the non-linearised one, with every row and column point replaced by its linear number.", "quantifier": "every grid, offset list and order", "why_tests_cant": "two independently written fill routines must agree on every input", "anchors": ["src/StencilGenerator.cpp:FillLinearizedCOOStencilTask", "src/StencilGenerator.cpp:FillLinearizedCSRStencilTask", "src/StencilGenerator.cpp:FillCOOStencilTask"]}
{"id": "C09", "title": "Stencil arguments survive the trip through the task argument buffer", "statement": "The bounds, order and list of offsets packed into a task's argument buffer are recovered unchanged by the fill task: same number of offsets, same contents, same sequence.", "quantifier": "every offset list (including the empty list) and every header", "why_tests_cant": "holds for any list length; a test fixes one", "anchors": ["src/StencilGenerator.hpp:create_coo_stencil_matrix", "src/StencilGenerator.cpp:FillCOOStencilTask"]}
{"id": "C10", "title": "2-D Laplacian kernel size", "statement": "The kernel size used for the 2-D Laplacian of an h by w grid equals the number of entries of the five-point matrix on that grid.", "quantifier": "every h >= 1 and w >= 1", "why_tests_cant": "unbounded family of grids", "anchors": ["src/ExampleSystems.hpp:laplacian_2d_kernel_size"]}
{"id": "C11", "title": "1-D COO Laplacian is the tridiagonal matrix", "statement": "The COO negative Laplacian on n points represents the matrix with 2 on the diagonal, -1 on the two neighbouring diagonals and 0 elsewhere; each nonzero is stored exactly once and every stored row and column lies in 0..n-1, no matter how the kernel space is cut into pieces.", "quantifier": "every n >= 1, every kernel index, every cut", "why_tests_cant": "division/modulo index formulas must be right at every index", "anchors": ["src/ExampleSystems.cpp:coo_negative_laplacian_1d", "src/ExampleSystems.cpp:FillCOONegativeLaplacianTask"]}
{"id": "C12", "title": "1-D CSR Laplacian represents the same matrix", "statement": "The CSR negative Laplacian on n points stores the same entries as the COO one, its row pointers are in-bounds contiguous ranges tiling the kernel space, and row r's range contains exactly the entries of row r.", "quantifier": "every n >= 1 and every row", "why_tests_cant": "boundary rows (first, last, single-row systems) are special cases", "anchors": ["src/ExampleSystems.cpp:csr_negative_laplacian_1d", "src/ExampleSystems.cpp:FillCSRNegativeLaplacianRowptrTask"]}
{"id": "C13", "title": "Flattening and unflattening GPU indices are inverse", "statement": "For a non-empty box, turning a point into a flat thread index and back gives the point, flat indices are exactly 0..volume-1, and unflattening any flat index yields a point of the box, in both memory orders and every dimension from one on (Pitches<DIM> serves boxes of dimension DIM + 1).", "quantifier": "every dimension, box, point and flat index", "why_tests_cant": "mixed-radix arithmetic over all shapes", "anchors": ["src/Pitches.hpp:Pitches"]}
{"id": "C14", "title": "GPU element kernels touch every element exactly once", "statement": "The GPU element-wise launch covers each of the domain's points by exactly one thread and no thread outside the domain does any work, so the result equals the CPU element-wise loop.", "quantifier": "every domain volume (not just multiples of the block size), every domain shape", "why_tests_cant": "block-count rounding must be right for all sizes", "anchors": ["src/LinearAlgebraTasks.cu:xpay_kernel", "src/CudaLibs.hpp:get_num_blocks_1d"]}
{"id": "C15", "title": "Task identifiers never collide", "statement": "Two task instantiations (kind, entry type, dimensions, coordinate types) have equal task identifiers only if they are the same instantiation; no identifier collides with the library's meta tasks and all identifiers lie in the library's reserved range.", "quantifier": "all task kinds and all template argument combinations, for any number of index/entry types and any maximal dimension", "why_tests_cant": "a collision would silently run the wrong kernel; combinatorial space", "anchors": ["src/TaskBaseClasses.hpp:TaskTDDDIII", "src/TaskBaseClasses.hpp:TaskTDI", "src/TaskBaseClasses.hpp:TaskT", "src/TaskIDs.hpp:TaskBlockID"]}
{"id": "C16", "title": "Run-time dispatch selects the task instantiated for the data's types", "statement": "The task identifier computed at run time from the dimensions and coordinate types of the index spaces involved is the identifier registered for exactly those dimensions and coordinate types.", "quantifier": "all dimensions 1..3, all supported coordinate types, all three spaces of a matrix", "why_tests_cant": "run-time and compile-time formulas are written separately", "anchors": ["src/TaskBaseClasses.hpp:task_id", "src/MetaprogrammingUtilities.hpp:ListIndex"]}
{"id": "C17", "title": "Every library operation launches a registered task", "statement": "Each operation offered on vectors, matrices, scalars and stencil builders launches a task that library initialisation has registered.", "quantifier": "all entry types, dimensions and coordinate types for which the API can be called", "why_tests_cant": "a missing registration only shows when that combination is used", "anchors": ["src/Initialize.cpp:preregister_tasks", "src/COOMatrix.cpp:matvec", "src/CSRMatrix.cpp:matvec"]}
{"id": "C18", "title": "The mapper recognises exactly the tasks of a kind", "statement": "The mapper's test 'is this task of kind K' answers yes for every instantiation of kind K and no for all other tasks of the library.", "quantifier": "all kinds, all task identifiers", "why_tests_cant": "block arithmetic over a large identifier range", "anchors": ["src/LegionSolversMapper.cpp:is_task"]}
{"id": "C19", "title": "Sharding assigns every launch point to an existing shard, in balanced contiguous blocks", "statement": "Each point of a launch space [0,V) is assigned to a shard in [0,S); the assignment is monotone, so each shard owns one contiguous block; no block exceeds ceil(V/S) points and every point has exactly one owner.", "quantifier": "every V >= 1, every S >= 1, every point", "why_tests_cant": "node counts and piece counts are unbounded", "anchors": ["src/LegionSolversMapper.cpp:BlockingShardingFunctor"]}
{"id": "C20", "title": "Task flag sets behave as sets", "statement": "Combining task property flags with '|' and testing with '&' behaves as set union and membership: a flag is reported set exactly if it was one of those combined, regardless of order or repetition.", "quantifier": "all combinations of flags, any number of them", "why_tests_cant": "all combinations and orders", "anchors": ["src/LegionUtilities.hpp:TaskFlags"]}
{"id": "C21", "title": "Piecewise vector operations equal global element-wise operations", "statement": "Filling, scaling, axpy, xpay and copying a partitioned vector change every element exactly as the same operation on the whole vector would, for every complete and disjoint partition, independent of the number of pieces and of the order in which the pieces' element updates are executed, without touching other vectors.", "quantifier": "every index space, every complete disjoint partition, every interleaving of the pieces, any (also floating-point) element arithmetic", "why_tests_cant": "piece counts and schedules cannot be enumerated", "anchors": ["src/PartitionedVector.cpp:axpy", "src/PartitionedVector.cpp:xpay", "src/PartitionedVector.cpp:scal", "src/PartitionedVector.cpp:constant_fill", "src/LinearAlgebraTasks.cpp:AxpyTask"]}
{"id": "C22", "title": "Dot product does not depend on the partition", "statement": "In exact arithmetic the dot product computed piece by piece and reduced in any order equals the sum of products over the whole index space, so it is independent of the partition and reduction order, symmetric and bilinear.", "quantifier": "every complete disjoint partition, reduction order and pair of vectors", "why_tests_cant": "reduction order is a run-time choice", "anchors": ["src/PartitionedVector.cpp:dot", "src/LinearAlgebraTasks.cpp:DotTask"]}
{"id": "C23", "title": "The scalar coefficient formed from futures is the documented product/quotient", "statement": "With zero to four scalar factors the coefficient used by a vector update is 1, f0, f0/f1, f0*f1/f2, f0*f1/(f2*f3); any other number of factors is rejected; each public overload delivers exactly the coefficient its name and signature promise.", "quantifier": "every number of futures and every value", "why_tests_cant": "covers all arities and values including the rejection branch", "anchors": ["src/LegionUtilities.cpp:get_alpha", "src/PartitionedVector.cpp:axpy", "src/SquarePlanner.hpp:axpy"]}
{"id": "C24", "title": "Deferred scalar expressions evaluate like ordinary arithmetic", "statement": "A program built from scalar operators (negate, +, -, *, /, sqrt, rsqrt) and scalar variables with assignment produces, whatever the order in which the deferred tasks run, the values ordinary sequential evaluation gives; assigning to a scalar never changes values already derived from it or other scalars copied from it.", "quantifier": "every scalar program and every execution order consistent with the data dependencies", "why_tests_cant": "arbitrary programs and schedules", "anchors": ["src/Scalar.hpp:Scalar", "src/Scalar.cpp", "src/UtilityTasks.cpp"]}
{"id": "C25", "title": "Derived COO partitions are sufficient", "statement": "For a partition of the rows, the derived kernel partition contains in each piece exactly the entries whose row lies in the piece (hence is complete/disjoint when the row partition is and all rows are in range), and the derived input partition contains exactly the columns these entries read; symmetrically for column-first derivation.", "quantifier": "every COO matrix, every partition of its range or domain", "why_tests_cant": "matrix sparsity patterns and partitions are unbounded", "anchors": ["src/COOMatrix.cpp:create_kernel_partition_from_range_partition", "src/COOMatrix.cpp:create_domain_partition_from_kernel_partition", "src/AbstractMatrix.cpp"]}
{"id": "C26", "title": "Derived CSR partitions are sufficient", "statement": "For a CSR matrix with well-formed row pointers the derived kernel partition contains in each piece exactly the entries of the piece's rows, the derived input partition exactly the columns read, and a derived range partition exactly the rows that own an entry of the piece.", "quantifier": "every well-formed CSR matrix, every partition", "why_tests_cant": "matrix sparsity patterns and partitions are unbounded", "anchors": ["src/CSRMatrix.cpp:create_kernel_partition_from_range_partition", "src/CSRMatrix.cpp:create_range_partition_from_kernel_partition"]}
{"id": "C27", "title": "COO matrix-vector product is exact for every partition", "statement": "With the library-derived partitions, the piecewise COO product adds to every output element the sum over all stored entries of that row of entry times input element (repeated entries add up), drops no entry, reads no input outside the ghost piece, and gives the same result for every partition of the output and every piece schedule; even the order of additions to one element is fixed by kernel order.", "quantifier": "every COO matrix with columns in range, input and (different) output vector, initial output, complete disjoint output partition and piece schedule", "why_tests_cant": "unbounded matrices and partitions", "anchors": ["src/COOMatrix.cpp:matvec", "src/COOMatrixTasks.cpp:COOMatvecTask"]}
{"id": "C28", "title": "CSR matrix-vector product is exact for every partition", "statement": "With well-formed row pointers and library-derived partitions the piecewise CSR product adds to every output element the sum over that row's entries, the internal 'row found' assertion never fires, and the result is independent of the output partition and schedule.", "quantifier": "every well-formed CSR matrix, input and (different) output vector, partition, schedule", "why_tests_cant": "unbounded matrices and partitions", "anchors": ["src/CSRMatrix.cpp:matvec", "src/CSRMatrixTasks.cpp:CSRMatvecTask"]}
{"id": "C29", "title": "COO and CSR forms of the same matrix multiply alike", "statement": "A CSR matrix and the COO matrix obtained by writing out each entry's row give identical products on every input, addition for addition.", "quantifier": "every well-formed CSR matrix, input and (different) output vector, and every pair of partitions", "why_tests_cant": "two separate kernels must agree on all inputs", "anchors": ["src/CSRMatrixTasks.cpp:CSRMatvecTask", "src/COOMatrixTasks.cpp:COOMatvecTask"]}
{"id": "C30", "title": "GPU matrix-vector product equals the CPU product", "statement": "The GPU CSR and COO products leave the same values in the output as the CPU ones.", "quantifier": "every matrix, every piece, every number of operators added to the planner", "why_tests_cant": "depends on the history of operators accumulated in one output", "anchors": ["src/CSRMatrixTasks.cu:CSRMatvecTask", "src/COOMatrixTasks.cu", "src/CuSPARSEHelpers.hpp:convertGlobalRowptrToLocalIndPtr"]}
{"id": "C31", "title": "The planner accepts exactly well-formed problem set-ups", "statement": "Under any sequence of set-up calls the planner either aborts with an assertion or stays consistent: solution and right-hand-side vectors with the same position share index space and partition, nothing can be added after the workspace exists, the workspace is created at most once, every registered matrix refers to existing positions; and no well-ordered sequence of compatible calls aborts.", "quantifier": "every sequence of planner calls", "why_tests_cant": "histories of calls are unbounded", "anchors": ["src/SquarePlanner.hpp:add_sol_vector", "src/SquarePlanner.hpp:add_rhs_vector", "src/SquarePlanner.hpp:allocate_workspace", "src/SquarePlanner.hpp:add_row_partitioned_matrix"]}
{"id": "C32", "title": "Planner product applies the full block operator", "statement": "The planner's product overwrites the destination with the sum, over all registered matrices, of matrix times the source block it refers to, independent of the destination's previous content and of the order in which the matrices were registered, as long as destination and source differ.", "quantifier": "every number of spaces and operators, every vector content", "why_tests_cant": "block structures are unbounded; stale destination data must not matter", "anchors": ["src/SquarePlanner.hpp:matvec"]}
{"id": "C33", "title": "Planner vector operations act on all blocks and nothing else", "statement": "Copy, scal, axpy, xpay, zero-fill and dot on planner vectors equal the operations on the concatenation of all blocks, touch only the destination vector, and address exactly the solution, right-hand side or allocated workspace vectors; any other vector index is outside the allocated set.", "quantifier": "every number of blocks, vector index, content", "why_tests_cant": "all block structures and call sequences", "anchors": ["src/SquarePlanner.hpp:axpy", "src/SquarePlanner.hpp:xpay", "src/SquarePlanner.hpp:dot_product", "src/SquarePlanner.hpp:get_vector"]}
{"id": "C34", "title": "CG keeps the true residual", "statement": "In exact arithmetic, after any number of CG steps from a zero initial solution the residual vector equals b - A x, and the i-th recorded residual norm squared is the squared norm of the residual after i steps (one record per step plus the initial one).", "quantifier": "every matrix, right-hand side, number of steps (as long as no division by zero occurs)", "why_tests_cant": "induction over an unbounded number of steps", "anchors": ["src/CGSolver.hpp:CGSolver"]}
{"id": "C35", "title": "CG solves symmetric positive definite systems in at most n steps", "statement": "In exact arithmetic on an SPD system with n unknowns, as long as the residual is non-zero no division by zero occurs, residuals stay mutually orthogonal and search directions mutually conjugate, the error in the energy norm strictly decreases, the iterate minimises the energy norm over the Krylov space, and the residual is zero after at most n steps.", "quantifier": "every dimension n, every SPD matrix and right-hand side", "why_tests_cant": "a statement over all real matrices", "anchors": ["src/CGSolver.hpp:step"]}
{"id": "C36", "title": "BiCGStab keeps the true residual and minimises locally", "statement": "In exact arithmetic, after any number of BiCGStab steps from a zero initial solution the residual vector equals b - A x; each stabilisation coefficient minimises the residual norm along its direction, and the intermediate residual is orthogonal to the shadow residual.", "quantifier": "every matrix, right-hand side, number of steps without breakdown", "why_tests_cant": "unbounded steps and matrices", "anchors": ["src/BiCGStabSolver.hpp:BiCGStabSolver"]}
{"id": "C37", "title": "GMRES builds an orthonormal Krylov basis", "statement": "In exact arithmetic one restart cycle of GMRES builds vectors that are orthonormal (all but the last, which is orthogonal to the others) and satisfy the Arnoldi relation with the recorded inner products, for every restart length as long as no vector vanishes.", "quantifier": "every restart length, matrix and right-hand side", "why_tests_cant": "induction over the basis length", "anchors": ["src/GMRESSolver.hpp:step"]}
{"id": "C38", "title": "GMRES reduces the residual", "statement": "A GMRES cycle never increases the residual norm.", "quantifier": "every system and restart length", "why_tests_cant": "a minimisation property over all systems", "anchors": ["src/GMRESSolver.hpp:step", "src/UtilityTasks.cpp:DummyTask"]}
{"id": "C39", "title": "Solvers honour a non-zero initial guess", "statement": "Starting a solver with a non-zero initial solution vector makes it converge to the solution of A x = b.", "quantifier": "every initial solution vector", "why_tests_cant": "tests only use zero initial solutions", "anchors": ["src/CGSolver.hpp:CGSolver", "src/BiCGStabSolver.hpp:BiCGStabSolver", "src/GMRESSolver.hpp:step"]}
{"id": "C40", "title": "Solvers stay inside their workspace and leave the right-hand side unchanged", "statement": "Each solver only uses vector positions it allocated, never modifies the right-hand side or the matrices, never multiplies a vector into itself, and records exactly one history value per step.", "quantifier": "every number of steps and restart length", "why_tests_cant": "all step counts and restart lengths", "anchors": ["src/CGSolver.hpp:step", "src/BiCGStabSolver.hpp:step", "src/GMRESSolver.hpp:step"]}
{"id": "C41", "title": "Shared runtime resources are released exactly once", "statement": "Under any sequence of creating, copying and destroying vectors, matrices and planners, a runtime resource is alive as long as some object uses it, is never used after release, is released exactly when its last owner goes, and nothing created by the objects is leaked; the Laplacian builders release their temporaries. (The caller destroys only its own references and keeps a matrix as long as a planner uses it; planners are not copied, see C47.)", "quantifier": "every history of construction, copy and destruction", "why_tests_cant": "histories and their interleavings are unbounded", "anchors": ["src/PartitionedVector.cpp", "src/COOMatrix.cpp", "src/CSRMatrix.cpp", "src/SquarePlanner.hpp", "src/ExampleSystems.cpp"]}
{"id": "C42", "title": "Parallel execution equals program order", "statement": "Any execution order of the launched tasks that respects dependences between tasks whose declared data requirements conflict gives every vector the same contents as executing the calls one after the other in program order, because each task reads and writes only what it declares.", "quantifier": "every program of library calls, every admissible schedule", "why_tests_cant": "schedules cannot be enumerated", "anchors": ["src/PartitionedVector.cpp:get_requirement", "src/COOMatrix.cpp:matvec", "src/CSRMatrix.cpp:matvec", "src/LinearAlgebraTasks.cpp"]}
{"id": "C43", "title": "Index arithmetic is exact whenever sizes fit the machine type", "statement": "Linear point numbers, Laplacian sizes and flat indices computed in the machine integer type equal the mathematical values whenever the total volume fits the type; in particular intermediate results do not overflow.", "quantifier": "every grid whose volume fits, every point", "why_tests_cant": "overflow shows only for huge sizes", "anchors": ["src/StencilGenerator.hpp:linearize_row_major", "src/ExampleSystems.hpp:laplacian_2d_kernel_size", "src/Pitches.hpp", "src/LinearAlgebraTasks.cu"]}
{"id": "C44", "title": "Diagnostic printing of partitions covers every piece correctly", "statement": "Printing an index partition prints, for each colour, exactly the points of that piece, for every combination of dimensions and coordinate types of colour space and index space.", "quantifier": "all dimension and coordinate type combinations", "why_tests_cant": "combinatorial type dispatch", "anchors": ["src/LegionUtilities.cpp:print_index_partition", "src/UtilityTasks.cpp:PrintIndexTask"]}
{"id": "C45", "title": "Vector assignment copies data, construction by copy shares it", "statement": "Assigning one partitioned vector to another makes all elements equal and later changes to either do not affect the other; a vector constructed as a copy denotes the same data, so changes through either are seen through both.", "quantifier": "every sequence of vector constructions, assignments and updates", "why_tests_cant": "aliasing histories are unbounded", "anchors": ["src/PartitionedVector.cpp:operator=", "src/PartitionedVector.cpp:PartitionedVector"]}
{"id": "C46", "title": "BiCGStab reaches the solution within n steps and then breaks down", "statement": "In exact arithmetic, on any system with n unknowns, the first half of the n-th BiCGStab step finds the exact solution unless the iteration has broken down before; the stabilisation coefficient of that step is then zero divided by zero; so no run makes more than n steps without dividing by zero, and stopping in time is left to the caller.", "quantifier": "every n, every matrix and right-hand side", "why_tests_cant": "exactness for all systems is a theorem about the recurrence", "anchors": ["src/BiCGStabSolver.hpp:step"]}
{"id": "C47", "title": "No library call leaks resources or releases those of others", "statement": "Every public call gives back all runtime resources it creates except those belonging to its result, and never releases references it does not hold: this includes the stencil matrix builders, the helpers deriving a domain partition from a range partition, partition printing, and copying a planner.", "quantifier": "every public call in every state reachable by legal client programs", "why_tests_cant": "leaks and double releases show only in the runtime's reference counts over whole histories", "anchors": ["src/StencilGenerator.hpp:create_coo_stencil_matrix", "src/StencilGenerator.hpp:create_csr_stencil_matrix", "src/StencilGenerator.hpp:create_linearized_csr_stencil_matrix", "src/AbstractMatrix.cpp:domain_partition_from_range_partition", "src/SquarePlanner.hpp:SquarePlanner", "src/LegionUtilities.cpp:print_index_partition"]}
{"id": "C48", "title": "Printing a matrix lists every stored entry once", "statement": "Printing a COO or CSR matrix prints every stored entry exactly once with its value, row and column; for CSR the printed row is the row whose range contains the entry, an entry outside every row aborts, and both formats of one matrix print the same lines.", "quantifier": "every matrix, every row partition of the stored entries, all types the library registers", "why_tests_cant": "the row search depends on all row ranges; the task is chosen by run-time types", "anchors": ["src/COOMatrix.cpp:print", "src/CSRMatrix.cpp:print", "src/COOMatrixTasks.cpp:COOPrintTask", "src/CSRMatrixTasks.cpp:CSRPrintTask"]}
{"id": "C49", "title": "Two runs of the same client program give bit-identical results", "statement": "Running the same program of vector, matrix, planner and solver calls twice leaves bit-identical data in every vector, whatever the floating-point rounding and whatever order the runtime executes the tasks in.", "quantifier": "every client program, every arithmetic (no algebraic laws assumed), every schedule of the tasks and every order of the reduction of partial dot products", "why_tests_cant": "the nondeterminism is in the runtime's schedule and the order it folds partial results; a test sees one of them", "anchors": ["src/PartitionedVector.cpp:dot", "src/LinearAlgebraTasks.cpp:DotTask", "src/CGSolver.hpp:step"]}
{"id": "C50", "title": "CG solves difference equations with matrices the library builds", "statement": "For every grid in every dimension and every difference operator (centre 2*sum of weights, pairs of opposite offsets with minus their weight, weights positive), building the matrix as COO, CSR or linearised CSR, registering it with a zero solution vector and a right-hand side, and running CG makes the solution vector satisfy the difference equation at every grid point after at most as many steps as there are points; for the 1-D negative Laplacian with right-hand side 1 the solution is (i+1)(n-i)/2.", "quantifier": "every grid, dimension, set of directions and weights, order of the offset list, cutting of kernel and vector into pieces, initial memory, schedule; exact arithmetic", "why_tests_cant": "a test runs one grid size, one partition and one schedule and compares with a tolerance; the statement composes all layers", "anchors": ["src/StencilGenerator.hpp: create_*_stencil_matrix", "src/ExampleSystems.cpp: *_negative_laplacian_1d", "src/SquarePlanner.hpp", "src/CGSolver.hpp", "test/Test05COOSolveCG.cpp", "test/BenchmarkStencil.cpp"]}
{"id": "C51", "title": "Products with stencil matrices are the stencil, in every format", "statement": "The product of a stencil matrix made by create_coo_stencil_matrix, create_csr_stencil_matrix or create_linearized_csr_stencil_matrix adds to output element p the products value * x(p + offset) over the offsets whose target lies in the grid, in the same order in all three formats (bit-identical results), and changes nothing else.", "quantifier": "every grid, dimension, offset list (repeats and far offsets included), index order, cutting of the matrix and of the vectors, arithmetic, schedule", "why_tests_cant": "composition of the fill tasks, the dependent partitions and the product tasks over all cuttings", "anchors": ["src/StencilGenerator.hpp", "src/StencilGenerator.cpp", "src/COOMatrix.cpp: matvec", "src/CSRMatrix.cpp: matvec"]}
{"id": "C52", "title": "Vector operations on a GPU equal those on the CPU", "statement": "When a piece of a vector is scaled, added to another or multiplied with another by the GPU variants, every element of the piece gets the value the CPU variant computes and no other memory changes, whatever memory layout and size of instance the runtime hands to the task.", "quantifier": "every piece (dense rectangle of any dimension), every instance that contains it in row- or column-major layout, all contents, every arithmetic for scal and axpy, exact arithmetic and any summation order for dot", "why_tests_cant": "which instance a task receives is a run-time choice of the mapper; sizes beyond 2^31 elements cannot be tested cheaply", "anchors": ["src/LinearAlgebraTasks.cu:ScalTask::cuda_task_body", "src/LinearAlgebraTasks.cu:AxpyTask::cuda_task_body", "src/LinearAlgebraTasks.cu:DotTask::cuda_task_body", "src/CUDAUtilities.hpp:cublas_scal"]}
{"id": "C53", "title": "Launched tasks never ask for interfering regions", "statement": "Every vector operation on different vectors, every planner operation on different vectors, every builder of a matrix and every run of CG, BiCGStab and GMRES launches only point tasks whose region requirements do not interfere (no two requirements of a launch with a writing privilege on a common element of a field); adding, copying or assigning a non-empty vector onto itself passes the library's assertions but always launches interfering requirements.", "quantifier": "every number of blocks and matrices, every partition into pieces, every ghost region, every number of iterations, every arithmetic", "why_tests_cant": "Legion checks interference only in debug builds and only for the partition of the run; the statement ranges over all systems and runs", "anchors": ["src/PartitionedVector.cpp:get_requirement", "src/PartitionedVector.cpp:axpy", "src/COOMatrix.cpp:matvec", "src/CSRMatrix.cpp:matvec", "src/SquarePlanner.hpp", "src/CGSolver.hpp", "src/BiCGStabSolver.hpp", "src/GMRESSolver.hpp"]}
{"id": "C54", "title": "Partitions are applied only to regions on the index space they partition", "statement": "In every launch of a planner operation and in every registration of a matrix the library accepts, each partition belongs to the very index space of the region it is applied to and is coloured by the launch space.", "quantifier": "every system accepted by the planner's assertions, every operation, every format of the registered matrices", "why_tests_cant": "index spaces with equal points but different handles look the same to the assertions and to the results of small tests", "anchors": ["src/CSRMatrix.cpp:matvec", "src/CSRMatrix.cpp:create_kernel_partition_from_range_partition", "src/SquarePlanner.hpp:add_row_partitioned_matrix", "src/ExampleSystems.cpp:csr_negative_laplacian_1d", "src/StencilGenerator.hpp:create_csr_stencil_matrix"]}
{"id": "C55", "title": "Every step of a solver launches the same operations", "statement": "After construction, each call of step() of CG, BiCGStab or GMRES launches the same sequence of operations as every other call: the same tasks with the same requirements on the same regions and the same computation, differing only in which futures they read and resolve and in the order in which the runtime folds partial results; so the steps can be recorded once and replayed as a Legion trace.", "quantifier": "every planner and system, every restart length, every number of steps, every arithmetic, every pair of steps", "why_tests_cant": "Legion's replay requires equality of all recorded iterations; a test exercises finitely many on one system", "anchors": ["src/CGSolver.hpp:step", "src/BiCGStabSolver.hpp:step", "src/GMRESSolver.hpp:step", "src/SquarePlanner.hpp", "test/BenchmarkStencil.cpp: begin_trace, end_trace"]}
{"id": "C56", "title": "Conjugate gradients converge at the textbook rate", "statement": "For a symmetric positive definite system with quadratic form between m and M, started at zero with exact arithmetic, k steps of CG reduce the energy of the error by at least 4 ((sqrt M - sqrt m)/(sqrt M + sqrt m))^(2k) (or an earlier step already has the exact solution); ceil(sqrt(M/m)/2 log(2/eps)) steps reduce its energy norm by eps; and if the matrix has only d different eigenvalues, d steps give the exact solution.", "quantifier": "every system described by the client's calls (any number of blocks, matrices, formats and partitions), every right-hand side, every k and eps, every schedule and reduction order", "why_tests_cant": "a rate is a statement about all steps and all right-hand sides; a test sees one system and rounding", "anchors": ["src/CGSolver.hpp", "src/SquarePlanner.hpp", "src/PartitionedVector.cpp", "src/COOMatrix.cpp", "src/CSRMatrix.cpp"]}
{"id": "C57", "title": "The number of CG steps needed for the library's own systems", "statement": "CG on the 1-D Laplacian with n points built by the library (COO or CSR) reduces the energy norm of the error by the factor eps in at most ceil(n log(2/eps)) steps; on a weighted-difference stencil matrix (COO, CSR or linearised CSR) in at most ceil(N sqrt(W/w) log(2/eps)) steps, W the total weight and w the weight of a direction that leaves the grid within N steps.", "quantifier": "every grid size and dimension, every list of directions and weights, every cutting of matrix and vectors, every right-hand side, every eps, every schedule", "why_tests_cant": "composition of builders, planner and solver with a spectral estimate for every grid size", "anchors": ["src/StencilGenerator.hpp: create_*_stencil_matrix", "src/ExampleSystems.cpp: *_negative_laplacian_1d", "src/CGSolver.hpp", "test/Test05COOSolveCG.cpp", "test/Test06CSRSolveCG.cpp", "test/BenchmarkStencil.cpp"]}
{"id": "C58", "title": "Solver results depend only on the linear system", "statement": "Two clients that describe the same linear system with the same initial guess in different ways (COO or CSR storage, one matrix or several whose entries add up, one block or several, other index spaces and names for the unknowns, other partitions, other registration order, other devices' reduction orders) get the same solution vectors and the same recorded values after any number of steps of CG, BiCGStab or GMRES, in exact arithmetic as long as nothing is divided by zero.", "quantifier": "every pair of descriptions accepted by the planner, every number of steps, every restart length, every schedule of either run", "why_tests_cant": "compares all pairs of descriptions; a test compares a few", "anchors": ["src/SquarePlanner.hpp", "src/CGSolver.hpp", "src/BiCGStabSolver.hpp", "src/GMRESSolver.hpp", "src/COOMatrix.cpp", "src/CSRMatrix.cpp", "src/PartitionedVector.cpp"]}
{"id": "C59", "title": "Rounding errors of vector operations and matrix products", "statement": "In floating-point arithmetic with relative error u per operation (no overflow or underflow), an inner product differs from the exact one by at most ((1+u)^(1+L+N)-1) times the sum of the absolute products, where N is the number of pieces of the vectors and L their largest length; the inner product over all blocks of a planner by the same with one more factor per block; axpy and xpay by at most u, and with a quotient of scalars as coefficient by at most (1+u)^2-1 ((1+u)^3-1 for a product over a quotient), relative to the absolute terms; element i of a matrix-vector product by at most ((1+u)^(1+m_i)-1) times (|A||x|)_i, m_i the number of stored entries in row i over all matrices added to the planner.", "quantifier": "every vector content, partition, piece order, reduction order and schedule; every sparsity pattern and storage format; every rounding rule with relative error u", "why_tests_cant": "error bounds quantify over all inputs and over the nondeterministic reduction orders", "anchors": ["src/LinearAlgebraTasks.cpp", "src/PartitionedVector.cpp: dot, axpy, xpay", "src/COOMatrixTasks.cpp", "src/CSRMatrixTasks.cpp", "src/SquarePlanner.hpp: dot_product, matvec"]}
{"id": "C60", "title": "Accuracy of conjugate gradients in floating-point arithmetic", "statement": "In floating-point arithmetic, as long as no step divided by zero, the recorded residual of CG is the squared norm of the residual vector up to the error of an inner product, and the residual vector differs from the true residual b - A x_k (x_0 = 0) by at most the sum over the steps of terms of order u (|A|(|x_j| + |x_(j+1)|) + |r_(j+1)|): the errors of the steps add up but are not amplified.  In particular the recorded value bounds the norm of the true residual from both sides up to that sum, and if iterates and residual vectors stay bounded the gap after k steps is at most k times a fixed vector of order u.", "quantifier": "every system described by the client's calls, every right-hand side, every number of steps, every partition, reduction order and schedule, every rounding rule with relative error u < 1", "why_tests_cant": "a statement about every rounding pattern and every number of steps", "anchors": ["src/CGSolver.hpp", "src/SquarePlanner.hpp", "src/LinearAlgebraTasks.cpp", "src/COOMatrixTasks.cpp", "src/CSRMatrixTasks.cpp"]}
{"id": "C61", "title": "Accuracy of BiCGStab in floating-point arithmetic", "statement": "In floating-point arithmetic, as long as no alpha was divided by zero, the residual vector of BiCGStab differs from the true residual b - A (x_k - x_0) by at most the sum, over the two halves of each step so far, of terms of order u in |A|, the solution before and after the half step and the residual vector after it - whatever omega is, even a division by zero; the squared norm of the residual vector that the planner computes is right up to the error of an inner product.", "quantifier": "every system described by the client's calls, every right-hand side and initial solution, every number of steps, every partition, reduction order and schedule, every rounding rule with relative error u < 1", "why_tests_cant": "a statement about every rounding pattern and every number of steps", "anchors": ["src/BiCGStabSolver.hpp", "src/SquarePlanner.hpp", "src/LinearAlgebraTasks.cpp", "src/COOMatrixTasks.cpp", "src/CSRMatrixTasks.cpp"]}
{"id": "C62", "title": "When results do not depend on the devices", "statement": "As long as the pieces of the vectors are intervals of fewer than 2^31 elements, each piece of a COO matrix is stored contiguously, and a CSR matrix has gapless row pointers and is the first matrix added to its block row, a one-dimensional client program leaves the same vectors, scalars and recorded values whichever of its point tasks the mapper sends to GPUs (exact arithmetic); this holds for every sequence of vector and planner operations and for CG, BiCGStab and GMRES, and for the library's own Laplacian and linearised stencil matrices.  Without the conditions on matrices it is false: two CSR matrices in one block row, a CSR matrix added after a COO matrix, and a COO piece that is not contiguous give different results on GPUs.", "quantifier": "every assignment of devices to point tasks, every order and bracketing in which a GPU adds up terms, every thread order, every system described by the client's calls, every number of steps, every schedule", "why_tests_cant": "the mapper's choice and the GPU's summation order are not under a test's control; a test without a GPU sees only the CPU variants", "anchors": ["src/LinearAlgebraTasks.cpp", "src/LinearAlgebraTasks.cu", "src/COOMatrixTasks.cpp", "src/COOMatrixTasks.cu", "src/CSRMatrixTasks.cpp", "src/CSRMatrixTasks.cu", "src/SquarePlanner.hpp: matvec", "src/CGSolver.hpp", "src/BiCGStabSolver.hpp", "src/GMRESSolver.hpp"]}
{"id": "C63", "title": "Every GPU works with its own library handles", "statement": "On a machine with several GPUs, every cuBLAS or cuSPARSE call of a task is made with a handle created on the GPU that runs the task and executes on the task's own stream, no GPU ever creates two handles of a library, and after loadCUDALibs none is created any more, exactly when different GPUs have different entries in the table of contexts; the index into the table is always in bounds; with a table whose size is a power of two (the default 4096) processors of one node have different entries, and for every other size two processor numbers share one.", "quantifier": "every table size, every set of processor numbers, every interleaving of tasks on different GPUs, every history of requests", "why_tests_cant": "races between GPUs and processor numbers are not under a test's control", "anchors": ["src/CUDAUtilities.cpp: get_cuda_library_context, get_cublas_handle, get_cusparse_handle", "src/CUDAUtilities.hpp", "src/CudaLibs.cu: LoadCUDALibsTask, loadCUDALibs", "src/LinearAlgebraTasks.cu", "src/COOMatrixTasks.cu", "src/CSRMatrixTasks.cu"]}
{"id": "C64", "title": "Chained prints appear once each, in order", "statement": "Scalars printed with the idiom dummy = x.print(dummy) appear in the output exactly once each, in program order, each with the value it has when the program is executed one call after the other, whatever was launched before and is launched after; printing changes no vector and no scalar.  Without the chain each value still appears exactly once, but the order is open (both orders of two prints are possible).", "quantifier": "every program before and after the prints, every list of scalars, every schedule, every memory", "why_tests_cant": "the order of output is decided by the schedule; a test sees one", "anchors": ["src/Scalar.cpp: print", "src/UtilityTasks.cpp: PrintScalarTask", "test/Test05COOSolveCG.cpp", "test/Test06CSRSolveCG.cpp"]}
{"id": "C65", "title": "What the shipped CG programs compute", "statement": "Test05COOSolveCG and Test06CSRSolveCG (right-hand side one, n points, k iterations, 2k <= n+1) print, in exact arithmetic, the squared residual norms n, then (n-2j)(n-2j+2)/2 for j = 1..k, in that order, and leave x_i = m(n+1-m)/2 in the solution, m the distance of point i from the boundary but at most k; the iterate solves the system if and only if n <= 2k, so the default run (100 points, 10 iterations) does not.", "quantifier": "every n (>= 2 for CSR), every k with 2k <= n+1, every cutting of kernel, rows and vectors, every reduction order and schedule, every initial memory", "why_tests_cant": "the programs assert nothing; a closed form for all sizes", "anchors": ["test/Test05COOSolveCG.cpp", "test/Test06CSRSolveCG.cpp", "src/ExampleSystems.cpp", "src/CGSolver.hpp"]}
{"id": "C66", "title": "The shipped self-checks hold in every binary floating-point format", "statement": "The value asserted by Test01ScalarOperations is exactly 1 and the value printed by Test02VectorOperations is exactly 0 in every binary floating-point format with every rounding mode (for Test02: fill values of the format within a factor two of each other; in exact arithmetic any fill values); the restriction is needed.", "quantifier": "every precision (at least two digits for Test01), every rounding mode, every index space, partition, reduction order and schedule, every fill values as described", "why_tests_cant": "a test runs one format, one rounding mode and one schedule", "anchors": ["test/Test01ScalarOperations.cpp", "test/Test02VectorOperations.cpp", "src/Scalar.cpp", "src/PartitionedVector.cpp"]}
{"id": "C67", "title": "Unknowns that cannot be told apart stay bit-identical", "statement": "If two unknowns have the same rows (the same coefficients, in the same storage order, in columns that again cannot be told apart), equal right-hand sides and equal initial values, then CG, BiCGStab and GMRES give both the same bits in the solution after every number of steps; in particular copies of a block that are added with the same matrices stay identical.", "quantifier": "every arithmetic (any function may stand for each operation), every system described by client calls, every such pairing of unknowns, every schedule, every order of reductions, every number of steps", "why_tests_cant": "a statement about every rounding behaviour and every schedule; a test sees one format and one schedule", "anchors": ["src/CGSolver.hpp", "src/BiCGStabSolver.hpp", "src/GMRESSolver.hpp", "src/SquarePlanner.hpp", "src/LinearAlgebraTasks.cpp", "src/COOMatrixTasks.cpp", "src/CSRMatrixTasks.cpp"]}
{"id": "C68", "title": "Solving a system made of copies", "statement": "A system in which every unknown of a smaller system occurs c times (the coefficients of all copies of an unknown adding up to its coefficient in the small system) is solved by CG and BiCGStab exactly as the small one: every copy has the value of its unknown after every number of steps, CG's recorded squared residuals and BiCGStab's rho are c times, alpha and omega equal to those of the small system.  GMRES does not have this property: one cycle moves every copy only 1/sqrt(c) as far.", "quantifier": "every pair of systems and every c, every number of steps as long as nothing is divided by zero on the small system, every schedule and reduction order (exact arithmetic)", "why_tests_cant": "relates two runs of arbitrary size and length", "anchors": ["src/CGSolver.hpp", "src/BiCGStabSolver.hpp", "src/GMRESSolver.hpp", "src/SquarePlanner.hpp", "test/BenchmarkStencil.cpp"]}
{"id": "C69", "title": "A breakdown never leaves a finite-looking solution", "statement": "The solvers have no convergence test and no guard against zero divisors; when a divisor becomes zero the whole solution shows it.  In every arithmetic that treats zeros, infinities and NaN like IEEE 754: if a squared residual norm recorded by CG is zero, every element of the solution is NaN from two steps later on; if a rho or omega recorded by BiCGStab is zero, every element is infinite or NaN from the next step on (NaN if any coefficient is stored); if a normalisation recorded by GMRES (other than the last of a cycle) is zero, every element is infinite or NaN after that step; if the residual computed at the start of a GMRES cycle is zero, every element is NaN from then on; a zero right-hand side (with finite coefficients; for GMRES with initial solution zero) gives NaN everywhere from the first step on.", "quantifier": "every arithmetic obeying the IEEE rules for special values, whatever its rounding, every system described by client calls, every number of steps and restart length, every schedule and order of reductions", "why_tests_cant": "a statement about every rounding behaviour, every history of the run and every schedule", "anchors": ["src/CGSolver.hpp", "src/BiCGStabSolver.hpp", "src/GMRESSolver.hpp", "src/Scalar.cpp", "src/LinearAlgebraTasks.cpp"]}
{"id": "C70", "title": "Infinite or NaN inputs never leave a finite-looking solution", "statement": "If one element of the right-hand side or one stored coefficient is infinite or NaN, every element of the solution is NaN after one step (for an infinite coefficient in CG after two, for GMRES with restart length at least two), also in blocks that are not connected with it; likewise for GMRES and an element of the initial solution that a stored coefficient multiplies.  A squared norm of CG that overflows makes every element infinite or NaN after the next step and NaN from then on; an infinite or NaN alpha or omega of BiCGStab makes every element infinite or NaN from that step on.  An element of the initial solution that is NaN (infinite or NaN) stays so in all solvers.", "quantifier": "every arithmetic obeying the IEEE rules for special values, every system described by client calls, every position of the bad value, every number of steps, every schedule and order of reductions", "why_tests_cant": "a statement about every input, every rounding behaviour and every schedule", "anchors": ["src/CGSolver.hpp", "src/BiCGStabSolver.hpp", "src/GMRESSolver.hpp", "src/SquarePlanner.hpp", "src/LinearAlgebraTasks.cpp", "src/COOMatrixTasks.cpp", "src/CSRMatrixTasks.cpp"]}
{"id": "C71", "title": "The solvers evaluate fixed formulas in every arithmetic", "statement": "Whatever the arithmetic (each operation may be any function), the solution after k steps and the recorded scalars are those of a fixed recurrence evaluated with that arithmetic: each element of an update is one fused multiply-add, each row of a product adds the stored entries in the order of the matrices and of storage, beginning with zero, each inner product is the sum of the elementwise products in some order and grouping; the right-hand side is not changed.", "quantifier": "every arithmetic, every system described by client calls, every initial memory, every number of steps and restart length, every schedule and order of reductions", "why_tests_cant": "a statement about every arithmetic and every schedule; tests see one of each", "anchors": ["src/CGSolver.hpp", "src/BiCGStabSolver.hpp", "src/GMRESSolver.hpp", "src/SquarePlanner.hpp", "src/LinearAlgebraTasks.cpp", "src/COOMatrixTasks.cpp", "src/CSRMatrixTasks.cpp"]}
{"id": "C72", "title": "When the solution is defined: running too long destroys it", "statement": "In exact arithmetic in which a division by zero has no result, the solution after k steps either is the textbook iterate in every element or is undefined in every element, exactly according to whether the textbook recurrence divides by zero.  On a symmetric positive definite system CG has the exact solution after some k0 steps, at most the number of unknowns, is defined until then and undefined in every element after any larger number of steps; BiCGStab is undefined, whatever the system, after more steps than there are unknowns; GMRES is undefined after its first step if the restart length exceeds the number of unknowns.", "quantifier": "every system described by client calls, every right-hand side and initial solution, every number of steps and restart length, every schedule and order of reductions", "why_tests_cant": "a statement about every system and every number of steps", "anchors": ["src/CGSolver.hpp", "src/BiCGStabSolver.hpp", "src/GMRESSolver.hpp", "src/SquarePlanner.hpp"]}
{"id": "C73", "title": "Classes of alike unknowns bound the number of useful steps", "statement": "Let the unknowns fall into c classes such that the right-hand side is constant on every class and the rows of a class have equal sums of coefficients over each class of columns (for instance by a symmetry of the problem).  In exact arithmetic with undefined division by zero, CG on a symmetric positive definite system has the exact solution after some k0 <= c steps, is defined until then and undefined in every element after any larger number of steps; BiCGStab is undefined, whatever the matrix, after more than c steps; GMRES with an initial solution constant on the classes is undefined after its first step if the restart length exceeds c.", "quantifier": "every system described by client calls, every compatible classification of its unknowns, every number of steps and restart length, every schedule and order of reductions", "why_tests_cant": "a statement about every system with the symmetry and every number of steps", "anchors": ["src/CGSolver.hpp", "src/BiCGStabSolver.hpp", "src/GMRESSolver.hpp", "src/SquarePlanner.hpp"]}
{"id": "C74", "title": "What the stencil benchmark computes and reports", "statement": "BenchmarkStencil runs the chosen solver for iterations-per-trace times max(5, number of traces) steps, where the number of traces is the least that covers the requested iterations; it reports 5 warm-up traces and the others as timed, which is right exactly from five traces on (with exactly five the time is divided by zero iterations; with fewer the printed count is a wrapped-around negative number although five traces run); it stops for an unknown operator and for zero iterations per trace, and for an unknown solver leaves the solutions zero and reports nothing.  Both copies of the system end with identical solutions in every arithmetic.  In exact arithmetic with undefined division by zero, with CG there is a k0, depending on the operator and the grid alone and at most the number of points of the half grid, such that runs of at most k0 steps leave everything defined, k0 steps solve the difference equation with right-hand side one and zero boundary values, and more steps leave no element defined; on a line k0 is half the number of points, rounded up, and all iterates are known in closed form; BiCGStab with more steps than the half grid has points, and GMRES(10) on a half grid of less than ten points, leave no element defined.  With the default parameters this happens for all three solvers.", "quantifier": "the four operators, every grid size, every solver, every number of iterations and of iterations per trace, every cutting of the spaces, every arithmetic (first part), every schedule and order of reductions", "why_tests_cant": "a statement about every grid, number of steps and schedule", "anchors": ["test/BenchmarkStencil.cpp", "src/StencilGenerator.hpp", "src/StencilGenerator.cpp", "src/SquarePlanner.hpp", "src/CGSolver.hpp", "src/BiCGStabSolver.hpp", "src/GMRESSolver.hpp"]}
{"id": "C75", "title": "What the partitioning programs print", "statement": "The programs that print partitions of the one-dimensional negative Laplacian (COO and CSR) run to their end for every grid size and every partition of the rows, and every screen they can produce has three headers with the number of pieces and, for every colour, the rows of its piece, the stored entries of exactly these rows (3i-1, 3i, 3i+1 as far as they exist) and exactly these rows and their neighbours as unknowns, in increasing order, and nothing else.  For a block of rows lo..hi these are the blocks 3lo-1..3hi+1 and lo-1..hi+1 cut off at the ends; if the row partition is disjoint and complete, every stored entry is shown once.  Both formats print the same, also for a grid of one point.", "quantifier": "every grid size, every partition of the rows, every cutting of the fill tasks, every interleaving of the printing tasks", "why_tests_cant": "a statement about every grid size, partition and schedule; the shipped programs run one size and check nothing", "anchors": ["test/Test03COOPartitioning.cpp", "test/Test04CSRPartitioning.cpp", "src/ExampleSystems.cpp", "src/COOMatrix.cpp", "src/CSRMatrix.cpp", "src/LegionUtilities.cpp", "src/UtilityTasks.cpp"]}
{"id": "C76", "title": "The reference script and the library compute the same iterates", "statement": "The variant of conjugate gradients in scripts/krylov.py that does two iterations per round returns the iterates of the plain variant as its first n (n unknowns), whatever division does; none more if n is even and one more if n is odd.  The plain variant returns n iterates, those of textbook conjugate gradients for the residual b - A x0; on a symmetric positive definite system and from every guess that is not the solution, one of them is the exact solution and nothing is divided by zero before.  The library's CG ignores the initial guess when it forms the residual: as long as its solution is defined, after k+1 steps it is the script's k-th iterate for the right-hand side b + A x0 (so for b itself if the initial solution is zero); otherwise it is undefined in every element.", "quantifier": "every square matrix, right-hand side and initial guess, every number of steps, every division operation (first part), every system described by client calls, every schedule and order of reductions (last part)", "why_tests_cant": "a statement about every system and number of steps; the script and the library are never run on the same system", "anchors": ["scripts/krylov.py", "src/CGSolver.hpp", "src/SquarePlanner.hpp"]}
{"id": "C77", "title": "The comparison programs assemble the library's benchmark matrix", "statement": "For each of the four difference operators and every grid, the programs for PETSc and Trilinos set exactly the entries that the matrix of the library's benchmark stores: the same columns and values in every row, in the same order, every place once, whatever the distribution of rows over ranks and whatever the arithmetic; so overwriting (PETSc) and adding (Trilinos) give the same matrix.  The script bench_all_ls.py runs the three programs on the same grid for every problem size; bench_all.py does exactly when the problem has at most two dimensions or its second and third sizes are equal, and otherwise runs the library with another number of unknowns.", "quantifier": "the four operators, every grid with at least one point in each direction, every distribution of the rows, every arithmetic, every problem size the scripts can pass", "why_tests_cant": "a statement about every grid and distribution; the programs need three different installations and nothing compares their matrices", "anchors": ["benchmarks/petsc/main.cpp", "benchmarks/trilinos/main.cpp", "bench_all.py", "bench_all_ls.py", "test/BenchmarkStencil.cpp", "src/StencilGenerator.hpp", "src/StencilGenerator.cpp"]}
{"id": "C78", "title": "Stencil builders with machine integers", "statement": "With coordinates of a signed type of at most 64 bits, the stencil builders (COO, CSR, linearised CSR) give the matrix of the stencil, without an overflow anywhere, as long as the grid is not empty, the sides, the ends shifted by every offset, the offsets' magnitudes and the number past each side fit in the coordinate type, points times offsets fit in 64 bits (with room for a factor four in the linearised CSR task) and, for the linearised formats, the number of points fits in the coordinate type.  The bounds matter: shifting a point beyond the coordinate type is undefined even if the shifted point lies outside the grid; the size computation of a grid of two or more dimensions is undefined if its first side reaches the largest coordinate; the linearised builder is undefined on every grid with more points than the coordinate type can count, where the unlinearised one may be fine.", "quantifier": "every signed coordinate type of at most 64 bits, every grid and stencil within the bounds, every cutting of the fill tasks, both orders, every sorting function; for the failures every grid beyond the bounds", "why_tests_cant": "a statement about every grid up to the limits of the types; grids near the limits cannot be built in a test", "anchors": ["src/StencilGenerator.hpp", "src/StencilGenerator.cpp"]}
{"id": "C79", "title": "Programs that look at values", "statement": "A program that calls get_value and decides what to do next from the values it sees (branches, loops of any length, assertions) behaves, under every schedule, as if each of its calls ran its tasks to the end before returning: at every moment the values it has seen and its own state are those of that sequential run; two executions that end have seen the same values and leave the same memory; no execution gets stuck while the program or a task has not ended; if the sequential run ends, all executions are of bounded length and end like it, if it goes on forever no execution ends, if it fails an assertion no execution gets past it.", "quantifier": "every program that uses the library's scalar, vector, matrix, planner and solver calls and get_value, every interleaving of program and tasks, every arithmetic, every initial memory", "why_tests_cant": "a statement about every program and schedule", "anchors": ["src/Scalar.hpp", "src/Scalar.cpp", "src/PartitionedVector.cpp", "src/SquarePlanner.hpp", "src/CGSolver.hpp", "test/Test01ScalarOperations.cpp"]}
{"id": "C80", "title": "Convergence loops on the recorded residual", "statement": "A program that calls CG's step while a test of the step number and the value last recorded says so does exactly as many steps as the first recorded value at which the test stops, in every execution and in every arithmetic, has seen exactly the recorded values up to there and leaves what that fixed number of steps leaves; if the test never stops it never ends; with a cap on the steps it always ends within the cap.  In exact arithmetic, on a symmetric positive definite system with zero initial solution and for every tolerance at least 0, the loop that goes on while the recorded value exceeds the tolerance ends after at most as many steps as there are unknowns with a solution whose squared residual norm is at most the tolerance (for tolerance 0: the exact solution); if the eigenvalues lie between m > 0 and M and the tolerance is at least eps^2 times the squared norm of the right-hand side, also after at most ceil(1/2 sqrt(M/m) log(2 sqrt(M/m)/eps)) steps.  In IEEE arithmetic, once a NaN is recorded all later records are NaN, so a loop that goes on for NaN never ends.", "quantifier": "every system described by client calls, every test, tolerance and cap, every schedule and order of reductions, every arithmetic (exact and IEEE where stated)", "why_tests_cant": "a statement about every system, test and schedule, and about loops that never end", "anchors": ["src/CGSolver.hpp", "src/Scalar.hpp", "src/SquarePlanner.hpp"]}
{"id": "C81", "title": "What is printed can be read back", "statement": "The text written by the partition and matrix printing functions is unambiguous: different lines have different texts, so a line shows whether it is a header, the name (any bytes), the number of pieces, the colour and the point, and a line of a matrix shows the index, the row, the column and the text of the value; if names contain no line ends, splitting the output into lines gives back exactly the lines that were printed, and the output determines all of them and their order.  A name with a line end can forge lines.", "quantifier": "every name, number of pieces, colour and point of every dimension, every matrix line, every way to write values, every sequence of lines", "why_tests_cant": "a statement about all texts that can be printed", "anchors": ["src/UtilityTasks.cpp", "src/LegionUtilities.cpp", "src/COOMatrixTasks.cpp", "src/CSRMatrixTasks.cpp"]}
{"id": "C82", "title": "What the test driver notices", "statement": "For the shipped test programs the driver test_all.py has nothing to complain about, whatever the schedule, the number of copies of the top-level task and the way fill tasks are cut, as long as lines are not torn (partitions: any arithmetic; CG: exact arithmetic; vectors: binary formats): its expected outputs are right.  Its comparison notices exactly whether an expected line is missing or another line is there, for tests 03 to 06 not the order of the lines nor repetitions; for test 01 it is silent exactly if every line is one the tests drop, part of the message of warning 1047, or empty; its verdict PASSED depends on the return code alone, whatever was printed.  If concurrent tasks write to the same stream, lines can be torn and the driver can complain although every task printed the right lines.", "quantifier": "every output and return code of a test program, every schedule, every number of shards, every interleaving with lines the driver drops, every interleaving of bytes (last part)", "why_tests_cant": "the driver is what runs the tests; its own verdicts are checked by nothing", "anchors": ["test_all.py", "test/Test02VectorOperations.cpp", "test/Test03COOPartitioning.cpp", "test/Test04CSRPartitioning.cpp", "test/Test05COOSolveCG.cpp", "test/Test06CSRSolveCG.cpp", "src/UtilityTasks.cpp"]}
{"id": "C83", "title": "The library's own systems solved to a tolerance", "statement": "A program that builds a difference-stencil matrix (COO, CSR or linearised CSR) or a 1-D Laplacian (COO or CSR) with the library, sets up a planner with zero initial solution and calls CG's step while the last recorded value exceeds tol, where tol is at least eps^2 times the squared norm of the right-hand side, ends in every execution, after at most as many steps as there are grid points and at most ceil(N sqrt(W/w) log(4 N sqrt(W/w)/eps)) steps (W the total weight, w the weight of a direction that leaves the grid within N steps; ceil(n log(4n/eps)) for the 1-D Laplacian with n points); what it leaves in the solution vector satisfies the difference equation up to tol (squared norm of the residual, zero values outside the grid), the last value it has seen is exactly that squared norm, and the right-hand side is unchanged.", "quantifier": "every grid, dimension and order, every list of directions and positive weights, every cutting of matrix and vectors, every right-hand side, eps and tolerance, every schedule, exact arithmetic", "why_tests_cant": "composition of builders, planner, solver, scheduling and a spectral estimate for every grid size", "anchors": ["src/StencilGenerator.hpp: create_*_stencil_matrix", "src/ExampleSystems.cpp: *_negative_laplacian_1d", "src/CGSolver.hpp", "src/Scalar.hpp: get_value", "src/SquarePlanner.hpp"]}
{"id": "C84", "title": "Loops that check the residual themselves", "statement": "A program that constructs any of the three solvers and calls step while a test of the step number and of the squared norm of b - A x says so, where it computes that norm before each step with the planner's own matvec, xpay and dot in a vector the solver overwrites, runs as if it did not interfere: in every arithmetic and every execution the iterates it leaves are those of the solver's recurrence, it does exactly as many steps as the first computed norm at which the test stops, leaves that iterate, the right-hand side unchanged, has seen exactly those norms, and never ends if the test never stops; with a cap it always ends within the cap; a NaN in the right-hand side keeps it going forever.  In exact arithmetic in which division by zero has no result, with the test !(value <= tol), it ends at the first iterate that is defined and within the tolerance and otherwise never: CG from zero on a symmetric positive definite system ends within as many steps as there are unknowns; CG from x0 never ends if x0 is not within tol and tol (b.b) < (b.A x0)^2; BiCGStab ends within as many steps as there are unknowns or never, and never if no defined iterate of fewer steps is within tol and the last of them has a nonzero product with b, although its next half step would be exact; GMRES with restart length 1 on the identity matrix never ends if (d - j)^2 exceeds tol for every integer j, d the length of the initial residual, and takes exactly m steps if d is the whole number m and 0 <= tol < 1.", "quantifier": "every system described by client calls, every initial solution, test, tolerance, cap and restart length, every schedule and order of reductions, every arithmetic (exact and IEEE where stated)", "why_tests_cant": "a statement about every system, test and schedule, and about loops that never end", "anchors": ["src/CGSolver.hpp", "src/BiCGStabSolver.hpp", "src/GMRESSolver.hpp", "src/Scalar.hpp: get_value", "src/SquarePlanner.hpp: matvec, xpay, dot"]}
{"id": "C85", "title": "A solver inside a larger application", "statement": "A program may launch tasks of its own anywhere between the library's calls. If they write none of the data the library's calls use (they may read all of it, including the vectors of a running solver and its recorded scalars), every call returns the same handles and every value the application does not write ends as without these tasks; a task launched after j steps sees exactly the solution and scalars that j steps produce, even if it runs while later steps are under way. Once a CG or BiCGStab solver is constructed its right-hand side may even be overwritten; GMRES reads it in every cycle.", "quantifier": "every program of library calls and application tasks, all positions and requirements of these tasks, every arithmetic and data, all schedules, all numbers of steps", "why_tests_cant": "the runtime overlaps the application's tasks with the solver's in ways a test neither controls nor enumerates", "anchors": ["README.md", "src/CGSolver.hpp:step", "src/BiCGStabSolver.hpp:step", "src/GMRESSolver.hpp:step", "src/SquarePlanner.hpp:SquarePlanner", "src/PartitionedVector.cpp:PartitionedVector"]}
{"id": "C86", "title": "Builds without assertions", "statement": "In a build with assertions compiled out (RelWithDebInfo), every program that runs to its end in the debug build returns the same handles, launches exactly the same tasks and so leaves the same values under every schedule. Where the debug build would stop: an operation on two vectors with different partitions has the element-wise meaning whenever each piece of the written vector lies in the piece of the other with the same number, and is undefined otherwise; any number of further solvers that need at most as many workspace vectors as the first can be constructed on the same planner (a larger one names fields that do not exist), and each behaves, from the memory as it then is, exactly like a first solver. But all share one workspace: the earlier solvers must not be stepped again, and a second CG on an unchanged planner solves for twice the right-hand side instead of continuing.", "quantifier": "every program of library calls, every arithmetic and data, all partitions, all numbers and sizes of further solvers, all schedules", "why_tests_cant": "the tests run one build at a time and none constructs two solvers on a planner; equality of two builds is a statement about all programs", "anchors": ["build_legion.py", "src/SquarePlanner.hpp:allocate_workspace", "src/PartitionedVector.cpp:PartitionedVector", "src/CGSolver.hpp:CGSolver", "src/BiCGStabSolver.hpp:BiCGStabSolver", "src/GMRESSolver.hpp:GMRESSolver", "src/LibraryOptions.hpp"]}
{"id": "C87", "title": "Start-up: what is registered and what is reported", "statement": "initialize compiles exactly with both entry types and 64-bit coordinates. It registers exactly the CPU variants of the tasks whose types and dimensions are in the build and, in builds with CUDA and without Kokkos, the GPU variants of the eight tasks that have them and the task that loads the CUDA libraries. With a maximum dimension of at least 2 no two registrations share an identifier and a kind of processor, and an identifier belongs to one task; with a maximum dimension of 1 this fails: the task that builds the COO Laplacian and one that prints matrices share an identifier. So with a maximum dimension of 2 or 3 every operation that initialisation covers runs the code of its own task, whatever variant Legion takes. Task names are unambiguous: different tasks have different names, in one build and across builds. The information printed at start-up announces exactly the features of the build, and is true of vector operations (registered exactly for the announced types and dimensions) but not of matrix operations (64-bit coordinates only) nor, with Kokkos, of GPUs. The verbose log has one line per registration and determines tasks, names and identifiers; initialize(false, false) prints nothing, and the log never changes what the test driver looks at.", "quantifier": "every build configuration (types, maximum dimension, identifier origin, CUDA, Kokkos), both arguments, every output of a program that follows", "why_tests_cant": "the tests use one configuration and print nothing; a clash or an ambiguous name shows only in the configuration that has it", "anchors": ["src/Initialize.cpp:initialize", "src/TaskBaseClasses.hpp:task_name", "src/LegionUtilities.hpp:preregister_task", "src/MetaprogrammingUtilities.hpp:ToString", "src/CudaLibs.cu:preregister", "test_all.py"]}
{"id": "C88", "title": "Change of units", "statement": "Expressing a linear system in other units changes the results by exactly these units. If the right-hand side is multiplied by h, the matrices by g and the initial guess by h/g, then after every number of steps and under every schedule (with reductions combined in the same order) the solutions of CG and BiCGStab are multiplied by exactly h/g, CG's recorded squared norms by h^2, BiCGStab's rho by h^2 and alpha and omega by 1/g. For GMRES this holds for the unit of the equations: multiplying matrices and right-hand side by the same g leaves the solution unchanged, and multiplies the recorded inner products by g. Units are all nonzero numbers in exact arithmetic (for GMRES the positive ones), and all powers of two in binary floating point with any rounding, fused operations, division by zero, infinities and NaN, as long as exponents do not overflow or underflow: there the results agree bit for bit. GMRES does not follow other changes of units: from a zero initial guess its first cycle computes the same solution whatever g and h.", "quantifier": "every system described by client calls, every initial guess, every unit, every number of steps, every schedule, exact arithmetic and floating point of every precision and rounding", "why_tests_cant": "a statement about pairs of runs, for all systems, units and schedules", "anchors": ["src/CGSolver.hpp", "src/BiCGStabSolver.hpp", "src/GMRESSolver.hpp", "src/SquarePlanner.hpp", "src/LinearAlgebraTasks.cpp", "src/Scalar.hpp"]}
{"id": "C89", "title": "What becomes of the initial guess, and starting again", "statement": "In any arithmetic, rounding and NaN included, CG and BiCGStab started on the same system with the same right-hand side and different initial guesses (and different contents of all other memory) use the same coefficients and the same directions and record exactly the same scalars (with reductions combined in the same order): the initial guess is only ever the number to which the steps are added, so it neither speeds up nor spoils the recorded residuals. Hence these solvers cannot be stopped and resumed: a second run that takes the solution reached as its guess goes through the same steps again from the first one on, and in exact arithmetic ends, after l steps from x_k, at x_k + x_l - x_0. GMRES can be resumed: whatever its earlier cycles did, a second run that takes the solution after k cycles as its guess has, after l cycles, the solution and the inner products that the first run has after k + l (in every arithmetic in which sums may be evaluated in any order, for instance exact arithmetic with or without undefined quotients).", "quantifier": "every system described by client calls, every pair of initial guesses and memories, every number of steps before and after stopping, every schedule", "why_tests_cant": "a statement about pairs of runs, for all systems and guesses; a test sees one guess, usually zero", "anchors": ["src/CGSolver.hpp:CGSolver", "src/BiCGStabSolver.hpp:BiCGStabSolver", "src/GMRESSolver.hpp:step"]}
{"id": "C90", "title": "The build and test scripts", "statement": "Different configurations (branch, CUDA, Kokkos, build type) have different library directories and different build directories, none inside another, whatever the tags of the branches. build_legion.py with working tools runs exactly: for every branch a clone and a checkout, and then for every configuration that agrees with all its arguments (none, if they contradict each other) configuring with the options of that configuration in a new build directory of its own after removing what was installed for it, building, and installing; it ends in the scratch directory. refresh_cmake.py, if the directory of all builds exists, configures exactly the configurations whose Legion library is installed, in order, each in an emptied build directory and against its own Legion and Kokkos; make_all.py builds exactly the build directories that are there. Both leave everything else alone, stop with an exception at the first command that fails, leaving later configurations as they were, and end in the directory they started in. Not so: in a scratch directory without the directory of all builds refresh_cmake.py raises an exception and runs nothing; test_all.py, as committed, raises an exception before any test is run, on every machine; and the benchmark scripts start a program in a directory that none of the committed configurations is built in.", "quantifier": "every site, file system and working directory, all lists of branches and build types, all arguments, all external commands and ways they can fail", "why_tests_cant": "the scripts are not tested at all; a configuration built in another's directory or against another's library shows up as a wrong benchmark", "anchors": ["build_utilities.py:cmake", "build_utilities.py:change_directory", "build_utilities.py:remove_directory", "build_legion.py:main", "build_legion.py:legion_library_path", "refresh_cmake.py:main", "refresh_cmake.py:legion_solvers_build_path", "make_all.py:main", "test_all.py:main", "bench_all.py"]}
{"id": "C91", "title": "Replaying traces changes nothing", "statement": "A program that makes its solver steps between begin_trace and end_trace, as the benchmark does (any number of steps per trace, any number of traces, CG, BiCGStab or GMRES with any restart length), obeys Legion's rule that all traces contain the same operations on the same regions, and so everything that holds of the same steps without traces, for every schedule, holds when the runtime records which operations wait for which in the first trace and replays this for all later ones, looking only at futures: same solutions, same histories, same printed report, for every schedule a replaying runtime may choose, with or without fences. For any program at all that obeys the rule, a complete execution with replayed traces leaves in memory what the tasks leave one after the other. The rule is needed: two traces with different operations, replayed, can leave a wrong value.", "quantifier": "all planners, data, arithmetics (rounding included), steps per trace, numbers of traces, all schedules of a runtime that replays traces", "why_tests_cant": "a replayed trace that misses a dependence is a race; it shows on some schedules only", "anchors": ["test/BenchmarkStencil.cpp:top_level_task", "src/CGSolver.hpp:CGSolver::step", "src/BiCGStabSolver.hpp:BiCGStabSolver::step", "src/GMRESSolver.hpp:GMRESSolver::step"]}
{"id": "C92", "title": "The benchmark times exactly the timed iterations", "statement": "On all options the benchmark accepts and for every schedule: the clock is read the first time after every task up to the last of the five warm-up traces has finished and before any task of the timed traces begins, and the second time after every task has finished; the tasks in between are those of iters_per_trace * (num_traces - 5) consecutive steps of the chosen solver (restart length 10 for GMRES), and with at least five traces the elapsed time is divided by exactly this number of steps. Without the execution fences the clock could be read before earlier tasks have run.", "quantifier": "all options the program accepts, all data and arithmetics, all schedules of a runtime that replays traces", "why_tests_cant": "a clock that is read too early or too late gives plausible times; which schedule happens is not under the control of a test", "anchors": ["test/BenchmarkStencil.cpp:top_level_task"]}
{"id": "C93", "title": "Accuracy of GMRES in floating-point arithmetic", "statement": "In floating-point arithmetic every step of GMRES is accurate with respect to the solution it starts from, so that errors of earlier steps are not carried on: it starts from b - A x_k up to terms of order u (|b| + |A||x_k|); the basis vectors are normalised up to explicit factors near one (unless a vector to be normalised is zero); the basis and the recorded inner products satisfy the Arnoldi relation, and the recorded entries are the inner products and lengths they stand for, up to terms of order u; the new solution is the old one plus the basis vectors up to terms of order u.  Hence the residual after a step is given by the quantities of the step up to an explicit error, a step moves the solution by about the restart length at most, and with restart length one it moves it by about one as long as the residual is not lost in rounding errors, however close the solution is.", "quantifier": "every system described by the client's calls, every right-hand side and initial solution, every restart length and number of steps, every partition, reduction order and schedule, every rounding rule with relative error u < 1 small enough for an inner product to have relative error below one", "why_tests_cant": "a statement about every rounding pattern and every number of steps", "anchors": ["src/GMRESSolver.hpp:GMRESSolver::step", "src/SquarePlanner.hpp", "src/LinearAlgebraTasks.cpp", "src/COOMatrixTasks.cpp", "src/CSRMatrixTasks.cpp"]}
{"id": "C94", "title": "The benchmark scripts compare the programs on the same problems", "statement": "bench_all.py runs, for each of the three solvers and each of the four operators, PETSc on grids of 4096 * 2^n points (sides doubled in turn, no side more than twice another), n = 0, 1, 2, ..., each size until a run succeeds but at most five times, and stops at the first size that runs out of memory or fails five times; it then runs Trilinos on the smaller sizes, in order, as long as they pass, and on no others. It ends if for each comparison PETSc fails at some size whatever happened before, and goes on forever if PETSc always succeeds. bench_all_ls.py runs the library's benchmark the same way below the sizes of its table for the number of nodes, ends whatever the runs do, with at most five runs per size, and raises an exception before any run if the number of nodes is not in the table. A run of the library's benchmark it starts for operator d, solver s and the n-th size reads from its command line exactly that operator, solver and grid, one piece per GPU, and 200 iterations (25 restart cycles for GMRES), and accepts them; the other programs read from theirs the same operator, solver and grid.", "quantifier": "every machine (how any command ends after any history of runs), every number of nodes, every size", "why_tests_cant": "A test runs the scripts on one machine with one sequence of failures; retries, failures that depend on the history and endless sweeps need all of them.", "anchors": ["bench_all.py:problem_size_iterator_1d", "bench_all.py:benchmark_petsc", "bench_all.py:benchmark_trilinos", "bench_all_ls.py:benchmark_legion_solvers", "bench_all_ls.py:MAX_PROBLEM_SIZE_DICT", "test/BenchmarkStencil.cpp:top_level_task"]}
{"id": "C95", "title": "Ranges of the comparison programs", "statement": "In the integer types of C++, with every conversion between them, the assembly of the comparison programs is right exactly as far as the types reach. PETSc, with a PetscInt of any width of at least 32 bits: if the number of grid points is in range, no operation overflows and the assembled matrix has that number of rows and the entries of the library's benchmark matrix; if the sizes are in range but the number of points is not, the program has undefined behaviour before it builds the matrix. On the grids of the benchmark scripts this happens from the 20th grid on with 32 bits and the 52nd with 64 bits. Trilinos: up to 2^63 - 1 points no operation on signed integers overflows and the number of rows is right; if every rank has less than 2^31 rows the matrix is the library's, and if some rank has more, rows are missing although the library's matrix has entries in them. The number of rows is in all cases the number of points modulo 2^64.", "quantifier": "all four operators, all grid sizes, all widths of PetscInt, all distributions of the rows over ranks, all arithmetics on the entries", "why_tests_cant": "A test of an overflow needs a machine with terabytes of memory; a test of small grids says nothing about the largest grid before it.", "anchors": ["benchmarks/petsc/main.cpp:main", "benchmarks/trilinos/main.cpp:main", "bench_all.py:petsc_args", "bench_all.py:trilinos_args"]}
{"id": "C96", "title": "Interrupted and restarted tasks", "statement": "The runtime may give up any attempt at a task registered as idempotent, before or after its last assignment, any number of times, as long as its effects have not been made final: memory the task declares read and written is put back, memory it only declares written may then contain anything; later conflicting tasks wait until they are. Whatever attempts are given up and when, a complete execution of any program made of calls of the library ends with the memory of making the calls one after the other, each once, and of some execution without restarts; every execution can be completed. The printing tasks, which are not registered as idempotent, print each line exactly once, and prints ordered among each other print, in launch order, the values of running everything before them one after the other. Prints of programs that look at values do the same. Such a program sees, whatever is restarted before or after, those it would see if each call ran its tasks once before returning, and everything that holds at the end of its executions without restarts holds with them.", "quantifier": "every program using the library, every arithmetic and data, every schedule and every pattern of restarts", "why_tests_cant": "Which attempts fail, and when, is not under a test's control; a test never sees a restart at all on a machine without failures.", "anchors": ["src/LegionUtilities.hpp:preregister_task", "src/UtilityTasks.hpp:PrintScalarTask", "src/LinearAlgebraTasks.hpp:AxpyTask", "src/COOMatrixTasks.hpp:COOPrintTask", "src/CSRMatrixTasks.hpp:CSRPrintTask"]}
{"id": "C97", "title": "GPU tasks and failures reported by CUDA", "statement": "Whatever tasks run one after the other on a GPU and whatever CUDA, cuBLAS and cuSPARSE report: for every checked call that fails one line with library, status and place is printed, in order, and nothing else. A debug build ends at the first failing call, with that line as the only one; if it comes to the end of the tasks, all work they gave to the GPU was done without error. A release build always goes on. If nothing was printed, in either build, every call succeeded, every inner product delivered is the inner product (zero for an empty piece) and not what was in memory before, no cuSPARSE descriptor was used that was not made, and each one made was destroyed. (In a release build the failure of a kernel or of work already accepted is not reported by the task, and after a reported failure the task goes on with undefined values.) A handle that could not be made is tried again by the next task that needs it; none is made twice.", "quantifier": "every sequence of tasks, both builds, every status of every call, every fate of the work given to the GPU", "why_tests_cant": "failures of CUDA cannot be provoked at every call in a test", "anchors": ["src/CUDAUtilities.hpp:CHECK_CUDA, CHECK_CUBLAS, CHECK_CUSPARSE, CHECK_CUDA_STREAM", "src/CUDAUtilities.cpp:check_cuda, check_cublas, check_cusparse, ~CUDAStreamView", "src/LinearAlgebraTasks.cu", "src/CSRMatrixTasks.cu", "src/COOMatrixTasks.cu", "src/CuSPARSEHelpers.hpp", "src/CudaLibs.cu"]}
{"id": "C98", "title": "Views of CUDA streams may be passed on", "statement": "In every program of making, moving, move-assigning and ending stream views that C++ allows, a debug build checks the stream of each view made from one at the end of the life of the view its content was moved to, in whatever order: never twice, never for another, and without fail if nothing is assigned to views and all of them end. A view that something is assigned to, be it itself, forgets its own stream, which is then not checked. Views keep the stream they convert to when moved from. A release build checks nothing, and allows and does the same otherwise.", "quantifier": "every sequence of operations on any number of views and streams, both builds", "why_tests_cant": "ways to pass views on are unlimited; whether a check was made cannot be observed when it succeeds", "anchors": ["src/CUDAUtilities.hpp:CUDAStreamView", "src/CUDAUtilities.cpp:CUDAStreamView::CUDAStreamView, CUDAStreamView::operator=, ~CUDAStreamView, get_cuda_stream"]}
{"id": "C99", "title": "Filling a vector with random numbers", "statement": "A task that fills a piece of a vector with random numbers writes the elements of its piece and nothing else; every element gets a number that is not negative and less than 1, whatever the entropy source delivers, whatever was in memory and however quotients are rounded. Every element has its own draws, in the order of the elements. Whatever the entropy source delivers, also if nothing but zeros: of 624 elements of type float, or 312 of type double, in succession, at least one is not 0, so no vector with pieces that long is filled with zeros.", "quantifier": "every entropy, every piece, every contents of memory, every rounding that keeps the order", "why_tests_cant": "the entropy differs in every run; bad seeds are too rare for a test ever to meet one", "anchors": ["src/UtilityTasks.cpp:RandomFillTask::task_body, seeded_mersenne_twister", "src/UtilityTasks.hpp:RandomFillTask"]}
{"id": "C100", "title": "The script that builds Kokkos", "statement": "Whatever the tools do and whatever is in the file system, build_dependencies.py runs, from the scratch directory and in fixed order, a download, an unpacking, and for Kokkos with CUDA and then without CUDA, each in a build directory of its own, configuring with that variant's options, building, testing and installing; it leaves none out before the point where it ends, and if it ends without exception it has run all of them and is in the scratch directory. If one of the commands other than the tests of Kokkos always fails, it raises an exception and runs nothing after that command; so where Kokkos cannot be built with CUDA, it is not tried without. What is installed is where the builds of Legion and of the library look for it. With --skip-kokkos nothing happens.", "quantifier": "every site, file system, working directory and arguments, every behaviour of the tools", "why_tests_cant": "failures of tools and leftovers of earlier runs are unlimited", "anchors": ["build_dependencies.py:main", "build_utilities.py:run, cmake, change_directory, create_directory, remove_directory, download"]}
