import Verif.View.Props

/-! # C98: examples -/
namespace Verif.View

/-- What a task does: a view is made and destroyed. -/
def task : List Op := [.make 0 7, .destroy 0]

example : (run .debug .start task).map State.checks = some [(1, 7)] := by decide

/-- A view moved out of the block it was made in, and another stream's view in between. -/
def moved : List Op := [.make 0 7, .moveMake 1 0, .destroy 0, .make 2 8, .destroy 2, .destroy 1]

example : (run .debug .start moved).map State.checks = some [(4, 8), (5, 7)] := by decide

example : ((run .debug .start moved).map fun st => (st.views 0, st.views 1, st.views 2)) = some (none, none, none) := by decide

example : NoAssign moved := by intro x y; simp [moved]

example : Duty moved 0 7 (.done 4) := ⟨0, rfl, by decide⟩

example : Duty moved 3 8 (.done 0) := ⟨2, rfl, by decide⟩

/-- Something is assigned to a view that has a stream to check. -/
def overwritten : List Op := [.make 0 7, .make 1 8, .moveAssign 0 1, .destroy 0, .destroy 1]

example : (run .debug .start overwritten).map State.checks = some [(3, 8)] := by decide

example : Duty overwritten 0 7 .lost := ⟨0, rfl, by decide⟩

/-- A view is assigned to itself. -/
example : (run .debug .start [.make 0 7, .moveAssign 0 0, .destroy 0]).map State.checks = some [] := by decide

/-- The stream of a view that was moved from. -/
example : ((run .debug .start [.make 0 7, .moveMake 1 0]).map fun st => st.streamOf 0) = some (some 7) := by decide

/-- A view used after its end. -/
example : (run .debug .start [.make 0 7, .destroy 0, .moveMake 1 0]).isSome = false := by decide

example : (run .release .start moved).map State.checks = some [] := by decide

end Verif.View
