# Formal model of dzhang314/LegionSolvers in Lean 4

## Layout

`lean/Verif/<Area>/Model.lean` holds executable definitions that follow the C++ function by function (each cites
file and lines); `Spec.lean` (or the top of `Props.lean`) holds the small independent specification the properties
are stated against; `Lemmas.lean` holds helper lemmas; `Props.lean` holds only the property theorems, each followed by
an `example` that a concrete non-trivial case meets its hypotheses.  Theorem names start with the property id
(`c01_...`).  Where the code violates a property, a theorem `..._violated` proves the negation on a concrete witness
and a `..._partial` theorem proves the part that does hold.

## Trusted base

* Lean 4.33.0's kernel; the axioms `propext`, `Classical.choice`, `Quot.sound` (checked with `#print axioms`,
  recorded by `vcheck`).  No axioms of our own, no compiled evaluation.
* Our reading of the C++ (nothing is compiled or run here), as cited at each definition.
* The Legion runtime is *not* verified: it is modelled by its documented contract.  Index spaces are finite sets of
  integer points, partitions are maps from colours to subspaces, image/preimage partitioning operators are relational
  image/preimage, region requirements declare footprints, futures are write-once cells, an index launch runs one point
  task per colour in an order constrained only by conflicting requirements, and index-space/region/field-space handles are
  reference counted through `create_shared_ownership`/`destroy_*`.
* Ownership: a destroyed handle whose dependency is gone counts as misuse (stricter than Legion); logical partitions are not
  counted; `std::vector` growth copies and destroys `PartitionedVector`s because the class has no move constructor.
* Machine integers: only `Verif.Machine` (C43) models widths; the other areas use unbounded integers and C43 says when that is
  exact.  Signed overflow is undefined behaviour, unsigned arithmetic and conversions are modular; Fortran-order `Pitches` are not
  in the machine model.
* cuSPARSE/cuBLAS are modelled by their documented contract (y := alpha*A*x + beta*y and so on).
* Floating point: statements about element-wise operations and about the order of operations hold for an arbitrary element
  type with arbitrary operations (so also for IEEE floats).  Statements about sums, solvers and matrices are in exact
  arithmetic (a field or the reals) and say so, except C59-C61 and C93, which use the standard model of rounding (relative error `u` per
  operation, `Rounding/Spec.lean`; binary arithmetic with unbounded exponents is proved to satisfy it), and C69-C70, which use
  the IEEE 754 rules for zeros, infinities and NaN (`Special/Spec.lean`).  C71 holds for arbitrary operations.  The size of
  overflow and underflow errors, and contraction of `a * b + c` into a fused operation by the compiler, are outside the model.

## What is modelled and what is not

Modelled: StencilGenerator.{hpp,cpp}, ExampleSystems.{hpp,cpp}, Pitches.hpp, TaskIDs.hpp, TaskBaseClasses.hpp,
the list utilities of MetaprogrammingUtilities.hpp, Initialize.cpp (registration and output), LegionSolversMapper.cpp (task
identification, sharding), LegionUtilities.{hpp,cpp} (flags, get_alpha, print_index_partition's dispatch),
scripts/krylov.py, the assembly loops of benchmarks/*/main.cpp and bench_all*.py, the checks of test_all.py,
test/Test01-06 and test/BenchmarkStencil.cpp (top-level tasks; the command line in `Sweep`, the clock in `Replay`; without clean-up), Scalar.{hpp,cpp}, UtilityTasks.cpp, LinearAlgebraTasks.{cpp,cu}, CUDAUtilities.{hpp,cpp} (the cuBLAS wrappers, the table of handles), CudaLibs.cu, PartitionedVector.{hpp,cpp}, AbstractMatrix.cpp,
COOMatrix*.{cpp,cu}, CSRMatrix*.{cpp,cu}, CuSPARSEHelpers.hpp's index conversions, SquarePlanner.hpp, CGSolver.hpp,
BiCGStabSolver.hpp, GMRESSolver.hpp.  Areas by directory: `Grid`, `Stencil`, `Laplacian` (builders), `Gpu`, `Blas`, `Tasks` (task
bodies), `Runtime` (schedules), `Vector`, `Matrix`, `Planner`, `Solver` (also client programs, determinism and the relational
abstraction of solvers), `Ownership`, `Machine`, `Print`, `EndToEnd` (builders + planner + CG), `Launch` (region requirements), `Rounding` (floating-point error bounds), `Device` (programs with tasks on GPUs), `Cuda` (library handles and streams), `Programs` (the shipped test programs and printing; a printing task writes one indivisible line), `Special` (zeros, infinities, NaN; undefined division), `Interactive` (programs that call get_value), `Driver` (printed text and test_all.py), `App` (solvers inside applications), `Release` (builds without assertions), `Startup` (initialize and its output), `Units` (change of units; parametricity in the number type), `Guess` (initial guesses, resuming), `Build` (the build and test scripts), `Replay` (traces, fences and the clock of the benchmark), `Sweep` (the benchmark scripts), `Restart` (interrupted and restarted tasks), `Failure` (failures reported by CUDA), `View` (moves of stream views), `Random` (the random fill task with the generator of the standard library).
Not modelled: CMakeLists.txt, how `test_all.py` starts programs, mapping
policy beyond sharding and task identification, performance, memory layout beyond Pitches.hpp and the instances of C52.

## Plan per property

| id | model | proof |
|----|-------|-------|
| C01 | `increment_*`, do-while loop with fuel | chain lemma: the specification list of points is an increment-chain; induction on dimension |
| C02 | `linearize_*` with accumulator | induction on dimension, mixed-radix digits |
| C03 | `compare_*` | induction on dimension |
| C04 | `calculate_stencil_size` with assertion outcome | induction on dimension, loop invariant over the leading coordinate |
| C05 | fill task as fold over the loop with guarded writes | writes = indexed specification list restricted to the piece |
| C06 | CSR fill | prefix sums of row lengths |
| C07 | loop with skipping and early break | simulation: skipping preserves (point, kernel index) correspondence with plain enumeration |
| C08 | linearised fill tasks | refinement to C05 list mapped by linearisation |
| C09 | byte buffer of header and records | round trip for any fixed-size record codec |
| C10 | `laplacian_2d_kernel_size` | count of the five-point stencil via C04 |
| C11, C12 | Laplacian fill tasks | omega over the div/mod formulas; negation for n = 1 CSR |
| C13 | Pitches flatten/unflatten | mixed radix, induction on dimension |
| C14 | thread grid | division lemma plus C13 |
| C15, C16, C18 | task id formulas parametric in list sizes | mixed-radix injectivity |
| C17 | registration table | finite table, all combinations; negation for unregistered matvec |
| C19 | sharding functor | Nat division |
| C20 | flags as bit masks | BitVec / Nat bit lemmas |
| C21, C45 | store of cells; calls emit tasks with declared footprints and element assignments; client programs over handles | big-step relation for calls, simulation of a whole-vector reference program, C42 for schedules |
| C22 | per-piece fold then reduction | Finset sums |
| C23 | `get_alpha` with assertion outcome | case analysis |
| C24 | write-once futures | induction over programs; confluence of schedules |
| C25, C26 | image / preimage | set reasoning |
| C27, C28, C29 | task bodies as folds over kernel pieces | fold lemmas; sums |
| C30-C33 | planner state machine with assertion/UB outcomes | invariants by induction on call sequences |
| C34-C40, C46 | solver programs (templates over an operations record) run on the planner model; textbook recurrences in `Solver/Textbook.lean` | program logic: each call updates a view of the planner vectors; refinement to the recurrence by induction on steps; linear algebra over any field (finite termination through moments) |
| C41, C47 | reference-count heap; every constructor, copy constructor, destructor and builder as a program on it; client programs as action lists | invariant (counts = references held) by induction on histories through program rules; violations of C47 for every state (leaks) or by a concrete program (planner copy) |
| C42 | tasks with declared footprints, machine interleaving single assignments of non-conflicting tasks | commuting-steps argument; whole client programs via C21 |
| C43 | every C++ operation evaluated in its machine type (signed overflow undefined, unsigned and conversions modular) | refinement to the exact model of C02/C10/C11/C13/C14 by induction on dimension; violations by kernel computation on witnesses |
| C44, C48 | task chosen by identifier among the registered ones, typed iteration, lines as records, row search of the CSR print task | identifier injectivity (C15); filter of interleavings; violation for all mismatched types |
| C49 | `Client`: the programs built from all public vector, matrix, planner and solver calls; arithmetic an arbitrary structure without laws; the fold order of each reduction is chosen by the runtime | induction on `Client`; `DeterminismBound`: programs as functions of the geometry (`Program`), for at most two pieces or exchangeable terms the launched tasks are the same for all orders; violation: two fold orders of a rounding addition, at any number of pieces from three on |
| C50 | the builders of matrices (fill tasks of C05-C12 on all pieces, then the matrix objects of C27/C28), the set-up calls of the tests, CG of C35 | coefficients of the built matrix = weighted shifts; summation by parts and escape from the grid give positive definiteness; C35; uniqueness for the explicit solution |
| C51 | the same builders, any arithmetic | composition of C05-C07 with C27/C28: the fields hold the list of stencil triples |
| C52 | memory as addresses, an instance as a rectangle with a dimension order, cuBLAS loops with `int` element count | slabs of an instance are exactly the pieces with consecutive addresses (distance of the corners versus volume, induction on dimension); violations otherwise |
| C53 | index launches with privilege, field, index space and partition of every requirement; the launches of a planner operation | disjointness of pieces and distinctness of fields; the solvers' operation sequence (C40) and a relational abstraction theorem (`Solver/Relational`) tie the launches to the tasks of the operational model |
| C54 | handles of index spaces for vectors, kernels and row pointers | planner invariant of C31 gives all vector handles; the CSR condition is proved necessary and sufficient; violation with two built CSR matrices |
| C55 | the task streams of the runs of the three solvers (as in C53) | a logical relation between two executions of a step from different solver states (Relational.lean) whose relation on task lists is 'same operation up to renaming of futures'; statement over the difference between runs of k and k+1 steps |
| C56 | the CG program of C35 over the reals, and the system the client's calls describe | polynomial characterisation of the iterates (spectral theorem) with Chebyshev polynomials; the program's iterates are the textbook ones (C34), transported to the client's unknowns |
| C57 | builders, planner and CG as in C50 | discrete Poincaré inequality along one direction gives the spectral bounds, then C56 |
| C58 | the client systems of C35/C56 and the three solver programs | the textbook recurrences commute with a bijection of the unknowns; both runs refine the recurrence of the client's matrix |
| C59 | the vector, matrix and planner operations over the reals with any rounded arithmetic | induction over the accumulation loops with a relation "near up to c relative errors"; a permutation of the pieces does not change the bound |
| C60 | the CG program with rounded arithmetic | residual gap of one coupled update, summed over the steps; invariant on solver state; transport to the client's unknowns |
| C61 | the BiCGStab program with rounded arithmetic, also stopped in the middle of a step | as C60, with two coupled updates per step |
| C62 | the programs of `Vector`, `Planner`, `Solver` with a device (CPU, or a GPU with its own orders) per point task and the `.cu` bodies | simulation: each GPU task has the effect of the CPU task; lifted through launches, planner and solvers; counterexamples by evaluation |
| C63 | small-step model of the table of library contexts: test, create, return, SetStream, call, interleaved between GPUs | invariant over reachable states; executions for the converse; bit arithmetic |
| C64 | `Scalar::print` with and without a dummy as a task of the runtime model; executions with a log of the updates | dependences of the chain force the order in every log; a log is a permutation of launch order |
| C65 | the top-level tasks of Test05 and Test06 as programs over builder, planner, CG and print | closed form of the CG iterates on the line by induction, C50's refinement of the built matrices, C64 |
| C66 | Test01's and Test02's programs over the modelled API; binary formats with an arbitrary rounding mode | program logic in any arithmetic, then Sterbenz's lemma and scaling by two |
| C67 | rows of the client's matrices as lists of stored (column, coefficient) pairs; two unknowns are paired when those lists match | a Hoare logic for "paired unknowns are equal in vectors k ∈ S" over the solvers' programs, in an uninterpreted arithmetic |
| C68 | a map of unknowns onto the unknowns of a second client's system with fibres of size c | the textbook recurrences commute with composition by the map; lifted through the solver theorems |
| C69 | the recurrences of C71 in any arithmetic that obeys the IEEE 754 rules for zeros, infinities and NaN (`Special/Spec.lean`; floating point with any rounding is an instance) | a zero divisor gives an infinite or NaN direction, whose curvature is infinite or NaN, hence a coefficient 0 or NaN, hence NaN; invariants along the recurrence |
| C70 | the same | the same, starting from an infinite or NaN input |
| C71 | weakest preconditions of every planner operation in an arbitrary arithmetic (`Special/Wp.lean`); sums in some order as an inductive predicate | symbolic execution of the solvers, chained over the steps |
| C72 | exact arithmetic on `Option V`, division by zero giving `none` | simulation of the textbook recurrence up to the first zero divisor, C69 from there on; termination and breakdown theorems of C35 and C46 |
| C73 | as C72, with a classification of the unknowns | the vectors constant on the classes form a subspace closed under the matrix, of dimension at most the number of classes; termination and breakdown inside that subspace |
| C74 | `test/BenchmarkStencil.cpp` on top of the linearised stencil builder, planner and solvers | the loops collapse to `pt * max 5 nt` steps; the built matrix has the coefficients of a difference operator in two blocks; copies by C67, mirror classes and C73 for the number of steps, the closed form of C65 on a line |
| C75 | `test/Test03`, `test/Test04` on top of the Laplacian builders, dependent partitioning and the print model | the derived pieces computed in closed form; projection of interleavings on a name and colour |
| C76 | `scripts/krylov.py` `cg` and `double_cg`, statement by statement, over a commutative ring with any division | one round of `double_cg` = two of `cg`; `cg` against the textbook recurrence (`Textbook.cg`); the library through C72 |
| C77 | assembly loops of `benchmarks/petsc/main.cpp` and `benchmarks/trilinos/main.cpp`, sizes passed by the two scripts | one row at a time against the stencil specification of C08; sorting has one possible result; lists of guarded entries compared term by term |
| C78 | the same builders, fill tasks and size computation as C04, C08, C51, with every arithmetic operation in the C++ type it is done in (coordinate type, `int64`, `size_t`); signed overflow has no result | operation by operation the result is that of the model with unbounded integers as long as a counter stays below its bound (invariant over the loops); failing cases by exhibiting the operation that overflows in every run |
| C79 | a program as a state machine whose actions are library calls, `get_value` of a scalar, or the end; a world is its state, the values seen and the runtime's machine; calls append tasks, `get_value` waits for the tasks that write the future, tasks interleave with both | simulation: finishing the launched tasks in order commutes with every step (invariant), so every world maps to a state of the deterministic sequential run; bound on the length by induction over that run |
| C80 | the loop `while (goOn(i, residual_norm_squared.back().get_value())) step()` as such a program | the sequential run of the loop launches what `k` steps launch (induction on the steps); C79, the recurrence of C71 and C34/C35 |
| C81 | the printing functions' output as bytes (decimal numbers, points, headers, lines), Python's `splitlines` | the delimiters do not occur in numbers: split at the last one; decimal numbers by their value; lines by induction on the output |
| C82 | `test_all.py`: filters, `sorted(set(...))`, `assert_equal`, `assert_empty`, verdicts, the expected outputs as literals | `sorted(set(l))` is the increasing list with the members of `l`; expected lists computed by the kernel; C75, C65, C66 for the programs; a torn line by an explicit interleaving of bytes |
| C83 | builders, planner and CG as in C50/C57, the loop of C80 | C80 with the bounds of C57 on the quadratic form; the squared residual lies between `m` and `M` times the energy of the error (diagonal coordinates) |
| C84 | the user's loop over any solver with a residual check made of planner calls (`Interactive/WatchModel.lean`) | the check changes one work vector the solver overwrites, so the run is the solver's recurrence (C71); then C79; in exact arithmetic with undefined division (C72) the computed norm is defined exactly if the iterate is; orthogonality of CG residuals with Cauchy-Schwarz, finite termination of BiCGStab, the step length of the shipped GMRES |
| C85 | programs made of library calls and arbitrary honest application tasks, the same program with and without these tasks (`App/Model.lean`) | the launch list with the tasks is the one without them with tasks inserted; memories agree outside the written cells (induction on the list); the footprint of every library call (`App/Foot.lean`); C42 for the schedules |
| C86 | the calls that contain assertions once more, without them; programs compiled twice as an inductive relation (`Release/Model.lean`) | every accepted debug call is the same release call, lifted through programs by induction on the relation; after further allocations every operation of the planner has the effect of the first planner's (handles are appended behind the old ones, fills are repeated); reduction of two partitions to one; C42 for schedules; kernel evaluation for the broken first solver |
| C87 | `initialize`: the calls in source order, names, identifiers, variants, the lines printed, for every build configuration (`Startup/Model.lean`) | membership in the list of calls by cases; names split at the last underscore, log lines at the first space after the name; identifiers by C15 (dimension ≥ 3) and by kernel evaluation of the four shapes with dimension 2; C81 and the filter of C82 for the text |
| C88 | the solvers of C71 in an arithmetic whose operations commute with changes of units (`Units/Spec.lean`) | the programs are parametric in the number type (`Units/Param.lean`, a logical relation over every operation); two runs are the projections of one run on pairs, whose recurrence (C71) keeps track of the unit of each vector and scalar by induction; program order is one of the schedules (`Units/Order.lean`); exact fields and floating point with unbounded exponents as instances |
| C89 | two runs of the same client program from memories that agree on the right-hand sides (`Guess/Props.lean`), and a run started from what another one reached (`Guess/Again.lean`) | the run on pairs of C88 with a single unit: every quantity of the recurrence but the solution has equal halves; for runs started at different future numbers the recurrences of C71 determine their results if the order of sums does not matter (`Guess/Unique.lean`, induction over steps, columns and orthogonalisations) |
| C90 | the scripts as state transformers with exceptions over a file system, a working directory and a log of commands (`Build/Model.lean`), external commands arbitrary | induction over the list of configurations: the build directories are different and of the same depth, so a command inside one leaves the others alone (`Build/Refresh.lean`, `Build/Legion.lean`, `Build/Install.lean`); the three defects by evaluation for every site |
| C91 | the benchmark and traced solver programs issuing tasks, fences, clock readings and trace marks (`Replay/Model.lean`), and a runtime that inside a trace waits as recorded in the first trace | the same operations (C55) have the same requirements, so the recorded waiting covers every conflict (`Replay/Replay.lean`); every replayed execution projects to an execution of C42; the traced program launches what the program without traces launches, in traces that are pairwise the same (`Replay/Props.lean`, `Replay/Solvers.lean`, induction over traces and steps) |
| C92 | the same programs, with the reading of the clock as an event | an item that has begun has only finished items to wait for (invariant over steps of the runtime); the position of the fences and of the timed steps in what the loops issue (`Replay/Clock.lean`) |
| C93 | the GMRES program with rounded arithmetic | the recurrence of a cycle with products and inner products known up to rounding (`Rounding/GMRESRun.lean`); error terms of each loop by induction; bounds for normalisation; Euclidean norms of the update |
| C94 | `bench_all.py`, `bench_all_ls.py` with the machine as an arbitrary function of the history; the command line of `BenchmarkStencil.cpp` | `partial_fixpoint` for sweeps that may not end; induction on the size and on the number of tries; the log is cut into blocks of tries |
| C95 | the assembly loops of `benchmarks/petsc/main.cpp` and `benchmarks/trilinos/main.cpp` again, every operation in its C++ type (usual arithmetic conversions, signed overflow undefined, unsigned wrap, modular conversions) | every subexpression of a column that is computed is between 0 and the number of points; then C77 |
| C96 | a runtime which, in addition to interleaving, gives up attempts at tasks registered as idempotent, putting back cells declared read and written and leaving anything in cells only declared written (`Restart/Model.lean`), with a log | simulation: leaving the given-up attempts out of the schedule (as a list of launch numbers) gives a valid schedule with the same memory, except in cells a later attempt is still to assign, and the same reads of all other tasks; every task of the library assigns what it only declares written; then C42, the theorems on output and, launching tasks step by step, C79 |
| C97 | the GPU tasks as programs of checked calls, launches, descriptors and the destructor of the stream view, over arbitrary statuses and fates of the work (`Failure/Model.lean`) | a judgement "new lines = new failing calls" closed under sequencing; a Hoare logic for runs that print nothing, with an invariant (descriptors alive, work finished, pending or refused); induction over the tasks |
| C98 | views as named objects with both members, member-wise constructors, assignment and destructor (`View/Model.lean`); C++'s rules of lifetime as partiality | the fate of a duty to check as a function of the rest of the program; induction over programs with the state generalised; distinct holders stay distinct |
| C99 | the task's loop, the seeding, `std::mt19937` as the recurrence of the standard on 32-bit words, `std::uniform_real_distribution` as libstdc++ does it, with arbitrary rounding (`Random/Model.lean`) | twist and tempering make zero of nothing but zero, so a dead state has a dead predecessor (induction down to the seed, which is never dead); induction on the list of points |
| C100 | `build_dependencies.py` on the file systems and tools of C90 (`Build/Dependencies.lean`) | a judgement 'runs a prefix of these commands, all if it ends well, none after one that always fails' closed under sequencing and change of directory |
