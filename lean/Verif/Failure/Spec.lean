import Verif.Failure.Model

/-! # C97: what a user of GPUs relies on when CUDA reports failures -/
namespace Verif.Failure

/-- A call that failed. -/
def Call.Bad (c : Call) : Prop := c.status ≠ 0

instance : DecidablePred Call.Bad := fun _ => inferInstanceAs (Decidable (_ ≠ _))

/-- Between `w` and `w'`, the calls `cs` were made, and a line was printed for every one of them that failed, with its library, status and place. -/
def Made (w w' : World) (cs : List Call) : Prop := w'.calls = w.calls ++ cs ∧ w'.lines = w.lines ++ cs.filter (fun c => decide c.Bad)

/-- The value a task has to deliver. -/
def Task.right : Task → Option Value
  | .dot _ empty => some (if empty then .zero else .dot)
  | _ => none

/-- All work launched between `w` and `w'` was done, and the task has waited for it. -/
def AllDone (w w' : World) : Prop := w'.pending = [] ∧ ∀ i, w.launched ≤ i → i < w'.launched → w.outcome i = .ok

/-- Between `w` and `w'`, the calls `cs` were made.  Those that succeeded in making the handle for `l` are one, if the handle is new, or none;
if the handle was there, making it was not even tried. -/
structure Handled (l : Lib) (w w' : World) (cs : List Call) : Prop where
  calls : w'.calls = w.calls ++ cs
  made : cs.countP (fun c => decide (c.site = handleSite l ∧ ¬c.Bad)) + (w.handles l).toNat = (w'.handles l).toNat
  there : w.handles l = true → ∀ c ∈ cs, c.site ≠ handleSite l

end Verif.Failure
