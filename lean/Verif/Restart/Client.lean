import Verif.Restart.Props
import Verif.Restart.Covering
import Verif.Tasks.Props

/-!
# C96: the programs using the library, with restarts

The runtime restarts only tasks registered as idempotent.
-/
set_option linter.unusedSectionVars false
namespace Verif.Restart
open Verif.Runtime Verif.Vector Verif.Matrix Verif.Planner Verif.Solver Verif.Tasks

section
variable {K P V : Type} [DecidableEq K] [DecidableEq P] [DecidableEq V]

/-- **C96** for every program made of calls of the library (scalars, vectors, matrices, planner, solvers), every arithmetic and all data: whichever
tasks are restarted, how often and when, a complete execution ends with the memory of making the calls one after the other, each once; and every
execution can be completed. -/
theorem c96_every_client (A : Arith V) (G : Geometry P) {α : Type} (m : M P V α) (h : Client K A G m) (n : Nat) (a : α)
    (e' : Emit P V) (hm : m ⟨n, []⟩ = some (a, e')) (s : Cell P → V) (may : Nat → Prop) (log : List (Nat × (Cell P → V)))
    (M' : State (Cell P) V) (h' : (State.start s e'.out).Logged may log M') :
    (M'.Done → M'.store = runTasks s e'.out) ∧
    ∃ log' M'', (State.start s e'.out).Logged may (log ++ log') M'' ∧ M''.Done ∧ M''.store = runTasks s e'.out := by
  obtain ⟨ts, e, ht, -⟩ := Hon.client h _ _ _ hm
  have he : e'.out = ts := by rw [e]; rfl
  have hon := he ▸ ht
  have hcov := client_covers h hm
  obtain ⟨log', M'', h1, h2⟩ := c96_completes may h'
  exact ⟨fun hd => c96_store hon hcov h' hd, log', M'', h1, h2, c96_store hon hcov h1 h2⟩

end

section
variable {C V : Type} [DecidableEq C]

/-- The tasks that may be restarted: those of the classes registered as idempotent (`c20_task_classes`). -/
def restartable (kinds : Nat → Block) (i : Nat) : Prop := (registrarOf (kinds i).flags).idempotent = true

/-- **C96, printing tasks**: with the flags of the library, tasks of the printing classes print each once, in launch order, the values of running the
tasks one after the other, whichever of the other tasks are restarted. -/
theorem c96_printing_classes (kinds : Nat → Block) {s : C → V} {ts : List (Task C V)} (hon : ∀ t ∈ ts, t.Honest) (hcov : ∀ t ∈ ts, Covers t)
    {log : List (Nat × (C → V))} {m : State C V} (h : (State.start s ts).Logged (restartable kinds) log m) (hd : m.Done) (jobs : List (PrintJob C)) (hch : PrintChain ts jobs)
    (hk : ∀ j ∈ jobs, kinds j.number ∈ [Block.printScalar, .printIndex, .cooPrint, .csrPrint]) :
    output jobs log = jobs.map fun j => runTasks s (ts.take j.number) j.cell := by
  refine c96_prints hon hcov h hd jobs hch fun j hj hm => ?_
  have hm := (c20_task_classes _).2.2.1.1 hm
  apply hm
  have := hk j hj
  revert this
  cases kinds j.number <;> decide

end

end Verif.Restart
