import Verif.View.Model

/-!
# C98: what is said

Independent of the members of views: what becomes of the duty to check a stream, which comes into being with a view made from the
stream, read off the rest of the program.
-/
namespace Verif.View

/-- What becomes of the duty to check. -/
inductive Fate
  /-- The program is over and view `x` has it. -/
  | held (x : Name)
  /-- Done, by a destructor, this many operations later. -/
  | done (after : Nat)
  /-- Forgotten. -/
  | lost
  deriving DecidableEq

/-- One more operation before. -/
def Fate.later : Fate → Fate
  | .done n => .done (n + 1)
  | f => f

/-- What becomes of the duty that view `x` has: it moves with the view, is forgotten if something is assigned to the view, and is done by the
destructor. -/
def fate (x : Name) : List Op → Fate
  | [] => .held x
  | .make _ _ :: h => (fate x h).later
  | .moveMake a b :: h => (if x = b then fate a h else fate x h).later
  | .moveAssign a b :: h => if x = a then .lost else (if x = b then fate a h else fate x h).later
  | .destroy a :: h => if x = a then .done 0 else (fate x h).later

/-- What becomes of the duty made by the `i`-th operation of the program, and of which stream it is. -/
def Duty (h : List Op) (i : Nat) (s : Stream) (f : Fate) : Prop :=
  ∃ x, h[i]? = some (.make x s) ∧ fate x (h.drop (i + 1)) = f

/-- Nothing is assigned to a view. -/
def NoAssign (h : List Op) : Prop := ∀ x y, Op.moveAssign x y ∉ h

/-- The streams of views after an operation, from those before it. -/
def streamAfter (before : Name → Option Stream) : Op → Name → Option Stream
  | .make x s, z => if z = x then some s else before z
  | .moveMake x y, z => if z = x then before y else before z
  | .moveAssign x y, z => if z = x then before y else before z
  | .destroy x, z => if z = x then none else before z

end Verif.View
