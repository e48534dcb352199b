import Mathlib.Data.List.Basic
import Mathlib.Tactic.Basic

/-!
# C98: views of CUDA streams

Models `CUDAStreamView`: `src/CUDAUtilities.hpp` 69-90 and `src/CUDAUtilities.cpp` 94-121, 133-135.

Simplifications: a program is the sequence of things done to views, in the order in which they are done; views are named by numbers, and
the name of a destroyed view can be used again, as its storage can.  A check (`CHECK_CUDA_STREAM`) is one event; what a failing check does is C97's
subject.
-/
namespace Verif.View

/-- A `cudaStream_t`. -/
abbrev Stream := Nat

/-- The name of a view. -/
abbrev Name := Nat

/-- The members of `CUDAStreamView` (`CUDAUtilities.hpp` 71-72). -/
structure Obj where
  stream : Stream
  valid : Bool
  deriving DecidableEq

/-- What a program can do with views.  Copying is deleted (`CUDAUtilities.hpp` 80-81). -/
inductive Op
  /-- `CUDAStreamView x(stream);`, also `CUDAStreamView x = get_cuda_stream();`, which neither copies nor moves. -/
  | make (x : Name) (s : Stream)
  /-- `CUDAStreamView x(std::move(y));` -/
  | moveMake (x y : Name)
  /-- `x = std::move(y);` -/
  | moveAssign (x y : Name)
  /-- The end of the life of `x`. -/
  | destroy (x : Name)
  deriving DecidableEq

/-- `NDEBUG` not defined, or defined. -/
inductive Build
  | debug
  | release
  deriving DecidableEq

/-- The views alive with their members, the number of things done so far, and the checks made: when, and of which stream. -/
structure State where
  views : Name → Option Obj
  time : Nat
  checks : List (Nat × Stream)

/-- Before anything is done. -/
def State.start : State := ⟨fun _ => none, 0, []⟩

/-- A view gets the members `o`, or is gone. -/
def set (v : Name → Option Obj) (x : Name) (o : Option Obj) : Name → Option Obj := fun n => if n = x then o else v n

/-- The move constructor (`CUDAUtilities.cpp` 94-98). -/
def moveCtor (v : Name → Option Obj) (x y : Name) (src : Obj) : Name → Option Obj :=
  let v := set v x (some ⟨src.stream, src.valid⟩)
  set v y (some { src with valid := false })

/-- Move assignment (`CUDAUtilities.cpp` 101-107), member by member: `x` and `y` may be the same view. -/
def moveAssign (v : Name → Option Obj) (x y : Name) (dst src : Obj) : Name → Option Obj :=
  let v := set v x (some { dst with stream := src.stream })
  let v := set v x ((v x).map fun o => { o with valid := ((v y).map Obj.valid).getD false })
  set v y ((v y).map fun o => { o with valid := false })

/-- The destructor (`CUDAUtilities.cpp` 110-121): the stream that is checked, if any. -/
def dtor (b : Build) (o : Obj) : Option Stream :=
  if o.valid then
    match b with
    | .debug => some o.stream
    | .release => none
  else none

/-- One thing is done; `none`: C++ does not allow it (a view that is not alive is used, or one that is alive is made again). -/
def step (b : Build) (st : State) : Op → Option State
  | .make x s =>
    match st.views x with
    | none => some ⟨set st.views x (some ⟨s, true⟩), st.time + 1, st.checks⟩
    | some _ => none
  | .moveMake x y =>
    match st.views x, st.views y with
    | none, some src => some ⟨moveCtor st.views x y src, st.time + 1, st.checks⟩
    | _, _ => none
  | .moveAssign x y =>
    match st.views x, st.views y with
    | some dst, some src => some ⟨moveAssign st.views x y dst src, st.time + 1, st.checks⟩
    | _, _ => none
  | .destroy x =>
    match st.views x with
    | some o => some ⟨set st.views x none, st.time + 1, st.checks ++ ((dtor b o).map fun s => (st.time, s)).toList⟩
    | none => none

/-- A program. -/
def run (b : Build) : State → List Op → Option State
  | st, [] => some st
  | st, op :: h => (step b st op).bind fun st' => run b st' h

/-- The conversion to `cudaStream_t` (`CUDAUtilities.hpp` 88). -/
def State.streamOf (st : State) (x : Name) : Option Stream := (st.views x).map Obj.stream

end Verif.View
