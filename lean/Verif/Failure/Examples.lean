import Verif.Failure.Handles

/-! # C97: concrete runs -/
namespace Verif.Failure

/-- The beginning, with what CUDA will do. -/
def world (b : Build) (status : Nat → Nat) (outcome : Nat → Outcome) : World :=
  ⟨b, status, outcome, [], [], 0, [], false, fun _ => false, [], 0, false, .zero⟩

/-- Some of every kind. -/
def tasks : List Task := [.loadLibs, .scal .f64 false, .axpy .f32 true, .xpay false, .dot .f64 false, .csrMatvec false, .cooMatvec false, .dot .f32 true]

/-- The hypotheses of `c97_silent` and `c97_debug` hold, and a debug build in which CUDA does its work comes to its end. -/
example : (∀ d ∈ (world .debug (fun _ => 0) fun _ => .ok).live, d < (world .debug (fun _ => 0) fun _ => .ok).made) ∧
    (runAll tasks (world .debug (fun _ => 0) fun _ => .ok)).1 = some [none, none, none, none, some .dot, none, none, some .zero] ∧
    (runAll tasks (world .debug (fun _ => 0) fun _ => .ok)).2.launched = 6 := by decide +kernel

/-- A release build in which the inner product fails (status 13 of the fifth call): a line is printed and the value delivered is anything. -/
example : (runAll [.scal .f64 false, .dot .f64 false] (world .release (fun i => if i = 4 then 13 else 0) fun _ => .ok)).1 = some [none, some .unknown] ∧
    (runAll [.scal .f64 false, .dot .f64 false] (world .release (fun i => if i = 4 then 13 else 0) fun _ => .ok)).2.lines =
      [⟨.blas, 13, ⟨"CUDAUtilities.hpp", 116⟩⟩] := by decide +kernel

/-- The debug build of the same ends there. -/
example : (runAll [.dot .f64 false] (world .debug (fun i => if i = 2 then 13 else 0) fun _ => .ok)).1 = none := by decide +kernel

/-- Why `AllDone` is claimed for debug builds only: in a release build XPAY says nothing if its kernel is not even started, and AXPY
nothing if its work fails while running. -/
theorem c97_release_says_nothing : ∃ w : World, w.build = .release ∧
    (runAll [.xpay false, .axpy .f64 false] w).1 = some [none, none] ∧ (runAll [.xpay false, .axpy .f64 false] w).2.lines = [] ∧
    w.outcome 0 = .refused ∧ w.outcome 1 = .failed ∧ (runAll [.xpay false, .axpy .f64 false] w).2.launched = 2 :=
  ⟨world .release (fun _ => 0) fun i => if i = 0 then .refused else .failed, by decide +kernel⟩

/-- The debug build of XPAY ends in the destructor of the stream view. -/
example : (runAll [.xpay false] (world .debug (fun _ => 0) fun _ => .refused)).1 = none ∧
    (runAll [.xpay false] (world .debug (fun _ => 0) fun _ => .refused)).2.lines = [⟨.cuda, 98, ⟨"CUDAUtilities.cpp", 115⟩⟩] := by decide +kernel

/-- In a release build a descriptor that could not be made is used all the same, after a line about it, and those made are destroyed. -/
example : (runAll [.csrMatvec false] (world .release (fun i => if i = 2 then 3 else 0) fun _ => .ok)).2.misused = true ∧
    (runAll [.csrMatvec false] (world .release (fun i => if i = 2 then 3 else 0) fun _ => .ok)).2.live = [] ∧
    (runAll [.csrMatvec false] (world .release (fun i => if i = 2 then 3 else 0) fun _ => .ok)).2.lines.length = 1 := by decide +kernel

/-- A handle that could not be made the first time is made by the next task, and used by the third. -/
example : ((runAll [.scal .f64 true, .scal .f64 true, .scal .f64 true] (world .release (fun i => if i = 0 then 1 else 0) fun _ => .ok)).2.calls.map
      fun c => (c.site.line, c.status)) = [(80, 1), (20, 1), (80, 0), (20, 0), (20, 0)] ∧
    (runAll [.scal .f64 true, .scal .f64 true, .scal .f64 true] (world .release (fun i => if i = 0 then 1 else 0) fun _ => .ok)).2.handles .blas = true := by
  decide +kernel

end Verif.Failure
