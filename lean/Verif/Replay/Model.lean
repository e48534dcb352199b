import Verif.Launch.Steps
import Verif.Programs.BenchmarkModel

/-!
# Traces, fences and the clock

Models the calls `begin_trace`, `end_trace`, `issue_execution_fence` and `get_current_time_in_nanoseconds` in `test/BenchmarkStencil.cpp`
212-262, 266-316, 320-371, which `Verif.Programs.BenchmarkModel` leaves out, and what Legion does with them (Legion's documented contract, not
code of this repository):

* between `begin_trace` and `end_trace` the runtime records, the first time, which operations wait for which; from then on it does not look at
  the regions of the operations in the trace again but replays the recorded waiting: the operation at an offset in the trace waits for the
  operations at the offsets recorded;
* futures are not replayed: an operation waits for the futures it is given;
* what is not in the same trace waits as usual;
* an execution fence: what is issued after it waits for everything issued before it.

Simplifications: there is one trace id (the program uses 51 everywhere); `issue_mapping_fence` only delays the mapping of operations and is left
out; the futures of the clock readings are not modelled, only when the clock is read.
-/
set_option linter.dupNamespace false
set_option linter.unusedSectionVars false
namespace Verif.Replay
open Verif.Runtime Verif.Vector Verif.Matrix Verif.Planner Verif.Solver Verif.Programs Verif.Grid Verif.Stencil Verif.EndToEnd

variable {K P V α β : Type} [DecidableEq P] [DecidableEq K]

/-! ## What a program issues -/

/-- One call of the program on the runtime. -/
inductive Item (P V : Type)
  /-- a point task is launched -/
  | task (t : Task (Cell P) V)
  /-- `issue_execution_fence` (`BenchmarkStencil.cpp` 216, 225, 234, 243, 252) -/
  | fence
  /-- `get_current_time_in_nanoseconds` (`BenchmarkStencil.cpp` 228, 246) -/
  | clock
  /-- `begin_trace` (`BenchmarkStencil.cpp` 220, 238) -/
  | beginTrace
  /-- `end_trace` (`BenchmarkStencil.cpp` 222, 240) -/
  | endTrace

/-- The next free future and everything issued so far. -/
structure Issued (P V : Type) where
  next : Nat
  items : List (Item P V)

/-- A program that also issues traces, fences and clock readings. -/
abbrev T (P V : Type) := StateT (Issued P V) Option

/-- Library calls: the tasks they launch are issued. -/
def calls (m : M P V α) : T P V α := fun i =>
  (m ⟨i.next, []⟩).map fun z => (z.1, ⟨z.2.next, i.items ++ z.2.out.map .task⟩)

/-- A call on the runtime. -/
def issue (x : Item P V) : T P V Unit := fun i => some ((), ⟨i.next, i.items ++ [x]⟩)

/-- `begin_trace`, `pt` steps, `end_trace` (`BenchmarkStencil.cpp` 219-223, 237-241). -/
def tracedSteps (step : α → M P V α) (pt : Nat) (c : α) : T P V α := do
  issue .beginTrace
  let c ← calls (repeatM step pt c)
  issue .endTrace
  pure c

/-- The branch of one solver after its construction (`BenchmarkStencil.cpp` 212-262, 266-316, 320-371), as `benchLoops`, with traces, fences
and clock readings. -/
def tracedLoops (W it pt : Nat) (step : α → M P V α) (c : α) : T P V (α × Report) := do
  let nt ← calls (lift (numTraces W it pt))
  issue .fence
  let c ← repeatM (tracedSteps step pt) warmupTraces c
  issue .fence
  issue .clock
  issue .fence
  let c ← repeatM (tracedSteps step pt) (nt - warmupTraces) c
  issue .fence
  issue .clock
  issue .fence
  pure (c, report W pt nt)

/-- `solver == 1` (`BenchmarkStencil.cpp` 209-262). -/
def tracedCG (A : Arith V) (G : Geometry P) (pl : Planner K P V) (base W it pt : Nat) : T P V Report := do
  let pl' ← calls (allocate G pl base 3)
  let c ← calls (CG.init (plannerOps A G.toEnv pl'))
  let r ← tracedLoops W it pt (CG.step (plannerOps A G.toEnv pl')) c
  pure r.2

/-- `solver == 2` (`BenchmarkStencil.cpp` 263-316). -/
def tracedBiCGStab (A : Arith V) (G : Geometry P) (pl : Planner K P V) (base W it pt : Nat) : T P V Report := do
  let pl' ← calls (allocate G pl base 5)
  let c ← calls (BiCGStab.init (plannerOps A G.toEnv pl'))
  let r ← tracedLoops W it pt (BiCGStab.step (plannerOps A G.toEnv pl')) c
  pure r.2

/-- `solver == 3` (`BenchmarkStencil.cpp` 317-371): restart length 10. -/
def tracedGMRES (A : Arith V) (G : Geometry P) (pl : Planner K P V) (base W it pt : Nat) : T P V Report := do
  let pl' ← calls (allocate G pl base (10 + 1))
  let c ← calls (GMRES.init (plannerOps A G.toEnv pl') 10)
  let r ← tracedLoops W it pt (GMRES.step (plannerOps A G.toEnv pl')) c
  pure r.2

/-- The vectors, the planner (`BenchmarkStencil.cpp` 182-207): the part of `benchSolve` before the branch. -/
def benchSetup (A : Arith V) (G : Geometry P) (part : Nat) (d : Nat → Nat) (m : Op K P V) : M P V (Planner K P V) := do
  let rhs ← lift (newVector G part (d 0))
  constantFill G.toEnv rhs A.one
  let rhs1 ← lift (newVector G part (d 1))
  constantFill G.toEnv rhs1 A.one
  let sol ← lift (newVector G part (d 2))
  zeroFill A G.toEnv sol
  let sol1 ← lift (newVector G part (d 3))
  zeroFill A G.toEnv sol1
  lift (Planner.empty.setupAll G (benchCalls sol sol1 rhs rhs1 m))

/-- `top_level_task` from the equal partition on (`BenchmarkStencil.cpp` 182-372), as `benchSolve`. -/
def tracedSolve (A : Arith V) (G : Geometry P) (part : Nat) (d : Nat → Nat) (base : Nat) (m : Op K P V) (W : Nat) (o : Options) :
    T P V (Option Report) := do
  let pl ← calls (benchSetup A G part d m)
  if o.solver = 1 then do
    let r ← tracedCG A G pl base W o.it o.pt
    pure (some r)
  else if o.solver = 2 then do
    let r ← tracedBiCGStab A G pl base W o.it o.pt
    pure (some r)
  else if o.solver = 3 then do
    let r ← tracedGMRES A G pl base W o.it o.pt
    pure (some r)
  else pure none

/-- `top_level_task` (`BenchmarkStencil.cpp` 140-377), as `benchmark`. -/
def tracedBenchmark {V : Type} (A : Arith V) (lit : Int → V) (sort : List (Point × V) → List (Point × V)) (pieces : List (Dom1 × Dom1))
    (fuel : Nat) (junk : CSR Int Int V) (G : Geometry Int) (part : Nat) (d : Nat → Nat) (base W : Nat) (o : Options) :
    T Int V (Option Report) := do
  let m ← calls (lift (getLaplacian A lit sort o.dim o.nx o.ny o.nz pieces fuel junk))
  tracedSolve A G part d base (Op.csr m) W o

/-- A user program: construct a `CGSolver` and make `k` traces of `pt` steps. -/
def cgTraces (A : Arith V) (G : Geometry P) (pl : Planner K P V) (base pt k : Nat) : T P V (CG Scalar) := do
  let pl' ← calls (allocate G pl base 3)
  let c ← calls (CG.init (plannerOps A G.toEnv pl'))
  repeatM (tracedSteps (CG.step (plannerOps A G.toEnv pl')) pt) k c

/-- The same with a `BiCGStabSolver`. -/
def biCGStabTraces (A : Arith V) (G : Geometry P) (pl : Planner K P V) (base pt k : Nat) : T P V (BiCGStab Scalar) := do
  let pl' ← calls (allocate G pl base 5)
  let c ← calls (BiCGStab.init (plannerOps A G.toEnv pl'))
  repeatM (tracedSteps (BiCGStab.step (plannerOps A G.toEnv pl')) pt) k c

/-- The same with a `GMRESSolver`. -/
def gmresTraces (A : Arith V) (G : Geometry P) (pl : Planner K P V) (base restart pt k : Nat) : T P V (GMRES Scalar) := do
  let pl' ← calls (allocate G pl base (restart + 1))
  let c ← calls (GMRES.init (plannerOps A G.toEnv pl') restart)
  repeatM (tracedSteps (GMRES.step (plannerOps A G.toEnv pl')) pt) k c

/-! ## What the runtime does with it -/

/-- One of the two writes a vector element that the other reads or writes. -/
def RegionConflict (t u : Task (Cell P) V) : Prop :=
  ∃ d p, (t.writes (.elem d p) ∧ (u.reads (.elem d p) ∨ u.writes (.elem d p))) ∨
    (u.writes (.elem d p) ∧ (t.reads (.elem d p) ∨ t.writes (.elem d p)))

/-- One of the two delivers a scalar (or a part of one) that the other takes or delivers. -/
def FutureConflict (t u : Task (Cell P) V) : Prop :=
  ∃ c : Cell P, (∀ d p, c ≠ .elem d p) ∧ ((t.writes c ∧ (u.reads c ∨ u.writes c)) ∨ (u.writes c ∧ (t.reads c ∨ t.writes c)))

/-- The traces in a sequence, as the positions of their begin and end, the first one first; `open_`: where the trace was begun that is still
open. -/
def tracesFrom : Nat → Option Nat → List (Item P V) → List (Nat × Nat)
  | _, _, [] => []
  | p, _, .beginTrace :: l => tracesFrom (p + 1) (some p) l
  | p, some b, .endTrace :: l => (b, p) :: tracesFrom (p + 1) none l
  | p, o, _ :: l => tracesFrom (p + 1) o l

def traces (l : List (Item P V)) : List (Nat × Nat) := tracesFrom 0 none l

/-- Position `i` is between begin and end. -/
def Inside (i : Nat) (tr : Nat × Nat) : Prop := tr.1 < i ∧ i < tr.2

/-- Two tasks outside a common trace: they wait as their regions say. Two tasks in a trace: as the tasks at the same offsets of the first
trace. -/
def RegionWaits (l : List (Item P V)) (i j : Nat) (t u : Task (Cell P) V) : Prop :=
  ((∀ tr ∈ traces l, ¬ (Inside i tr ∧ Inside j tr)) ∧ RegionConflict t u) ∨
    ∃ tr ∈ traces l, Inside i tr ∧ Inside j tr ∧ ∃ first t0 u0, (traces l).head? = some first ∧
      l[first.1 + (i - tr.1)]? = some (.task t0) ∧ l[first.1 + (j - tr.1)]? = some (.task u0) ∧ RegionConflict t0 u0

/-- The item at `j` waits for the earlier item at `i`: there is a fence between them, or they are tasks of which one needs a future of the other, or
the runtime believes their regions conflict. -/
def Waits (l : List (Item P V)) (i j : Nat) : Prop :=
  (∃ k, i < k ∧ k < j ∧ l[k]? = some .fence) ∨
    ∃ t u, l[i]? = some (.task t) ∧ l[j]? = some (.task u) ∧ (FutureConflict t u ∨ RegionWaits l i j t u)

/-- An item in execution: the assignments a task still has to make; `none` is the reading of the clock. -/
structure Live (P V : Type) where
  item : Item P V
  todo : List (Option (Update (Cell P) V))

/-- An item nothing of which has been done. -/
def Live.fresh : Item P V → Live P V
  | .task t => ⟨.task t, t.body.map some⟩
  | .clock => ⟨.clock, [none]⟩
  | x => ⟨x, []⟩

/-- Memory and the issued items. -/
structure State (P V : Type) where
  store : Cell P → V
  live : List (Live P V)

/-- Everything issued, nothing done yet. -/
def State.start (s : Cell P → V) (l : List (Item P V)) : State P V := ⟨s, l.map .fresh⟩

/-- One step: some item makes its next assignment (or reads the clock), provided every earlier item it waits for has finished. -/
inductive State.Step : State P V → State P V → Prop
  | advance (s : Cell P → V) (before : List (Live P V)) (x : Item P V) (u : Option (Update (Cell P) V))
      (rest : List (Option (Update (Cell P) V))) (after : List (Live P V))
      (ready : ∀ i r, before[i]? = some r → r.todo = [] ∨
        ¬ Waits ((before ++ ⟨x, u :: rest⟩ :: after).map Live.item) i before.length) :
      Step ⟨s, before ++ ⟨x, u :: rest⟩ :: after⟩ ⟨u.elim s fun u => u.exec s, before ++ ⟨x, rest⟩ :: after⟩

/-- Any number of steps. -/
inductive State.Steps : State P V → State P V → Prop
  | refl (m) : Steps m m
  | tail {m m' m''} : Steps m m' → Step m' m'' → Steps m m''

/-- Everything has run. -/
def State.Done (m : State P V) : Prop := ∀ r ∈ m.live, r.todo = []

end Verif.Replay
