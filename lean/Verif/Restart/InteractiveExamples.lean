import Verif.Restart.Interactive
import Verif.Interactive.Examples

/-! # Examples for C96: programs that look at values -/
namespace Verif.Restart.Example
open Verif.Runtime Verif.Vector Verif.Interactive Verif.Solver Verif.Matrix Verif.Planner

/-- The program of C79's example looks at a value, and the task that computed it is restarted afterwards: memory holds anything. -/
theorem seen_and_restarted (v : Vec) : ∃ w : Restart.World Nat ℚ Branch,
    Restart.World.Runs (branch v) (fun _ => True) (.start .start 0 fun _ => 0) w ∧ w.ctl = .fill v 7 ∧ w.seen = [4] ∧
    w.runtime.store (.fut 1) = 100 ∧ ¬w.runtime.Done := by
  let t0 : Runtime.Task (Cell Nat) ℚ := scalarTask 0 [] fun _ => 2
  let t1 : Runtime.Task (Cell Nat) ℚ := scalarTask 1 [0, 0] fun s => s (.fut 0) * s (.fut 0)
  let z : Cell Nat → ℚ := fun _ => 0
  have h0 : Restart.World.Runs (branch v) (fun _ => True) (.start .start 0 z)
      ⟨.look v ⟨1⟩, [], 2, ⟨z, [⟨t0, t0.body, none, false⟩, ⟨t1, t1.body, none, false⟩]⟩⟩ :=
    Restart.World.Runs.call (p := branch v) (c := .start) (ts := []) (e := ⟨2, [t0, t1]⟩) (Restart.World.Runs.refl (w₀ := Restart.World.start Branch.start 0 z)) rfl rfl
  let m := (⟨z, [⟨t0, t0.body, none, false⟩, ⟨t1, t1.body, none, false⟩]⟩ : State (Cell Nat) ℚ)
  have l0 : m.Logged (fun _ => True) [] m := .refl
  have l1 := State.Logged.advance (before := []) l0 (by simp)
  have l2 := State.Logged.commit (before := []) l1
  have l3 := State.Logged.advance (before := [_]) l2 (by
    intro r hr
    simp only [List.mem_cons, List.not_mem_nil, or_false] at hr
    subst hr
    exact Or.inl rfl)
  have h1 := Restart.World.Runs.tasks h0 l3
  have h2 := Restart.World.Runs.get (p := branch v) (c := .look v ⟨1⟩) h1 rfl (by
    intro r hr _
    have hr : r ∈ [_, _] := hr
    simp only [List.mem_cons, List.not_mem_nil, or_false] at hr
    rcases hr with rfl | rfl <;> rfl)
  have h3 := Restart.World.Runs.tasks h2 (State.Logged.restart (before := [_]) (s' := fun c => if c = .fut 0 then 2 else if c = .fut 1 then 100 else 0)
    State.Logged.refl trivial (by
      refine fun c => ⟨fun hc => ?_, fun hc hr => ?_⟩
      · have hc : c ≠ .fut 1 := hc
        simp [Update.exec, hc, z]
      · obtain ⟨a, ha, rfl⟩ := hr
        have hc : Cell.fut a = Cell.fut 1 := hc
        cases hc
        simp at ha))
  refine ⟨_, h3, ?_, ?_, ?_, ?_⟩
  · simp [z, Update.exec]
    norm_num
  · simp [z, Update.exec]
    norm_num
  · rfl
  · intro hd
    have := hd ⟨t1, t1.body, none, false⟩ (List.mem_cons_of_mem _ List.mem_cons_self)
    cases this

/-- Nevertheless every execution, restarted as it may be, can be continued to an end, and then the program has seen 4 and left 7 everywhere. -/
example (v : Vec) (s : Cell Nat → ℚ) :
    (∀ w, Restart.World.Runs (branch v) (fun _ => True) (.start .start 0 s) w → ∃ w', Restart.World.Runs (branch v) (fun _ => True) w w' ∧ w'.Ended (branch v)) ∧
    ∀ w, Restart.World.Runs (branch v) (fun _ => True) (.start .start 0 s) w → w.Ended (branch v) →
      w.ctl = .stop ∧ w.seen = [4] ∧ w.runtime.store (.elem v.data 0) = 7 := by
  obtain ⟨s', h1, h2, -⟩ := branch_alone v s
  obtain ⟨g1, g2⟩ := c96_ends (branch_library v) (fun _ => True) (c79_terminates (branch_library v) _ 0 s h1 rfl)
  exact ⟨g1, fun w hw he => by
    obtain ⟨f1, f2, f3⟩ := g2 w hw he
    exact ⟨f1, f2, by rw [f3]; exact h2⟩⟩

/-- `a = 2; a.print();`, where the print is a task with `a` as its argument whose result nobody uses (`dummyTask` in `Client`). -/
def printer : Program Nat ℚ Bool
  | true => .call do
      let a ← scalarOf 2
      let _ ← dummyTask (exactArith ℚ id) [a]
      pure false
  | false => .halt

theorem printer_library : UsesLibrary Nat (exactArith ℚ id) Solver.exG printer := by
  intro c m h
  cases c with
  | true => cases h; exact .andThen (.scalarOf _) fun _ => .andThen (.dummy _) fun _ => .done _
  | false => cases h

/-- The hypotheses of `c96_printed` hold of an execution in which the first task is given up once: three assignments are made, one line is
printed. -/
theorem printed_once : ∃ log w, Restart.World.Logged printer (fun i => i = 0) (.start true 0 fun _ => 0) log w ∧ w.runtime.Done ∧
    PrintChain (w.runtime.tasks.map Attempt.task) [⟨1, .fut 0⟩] ∧ log.length = 3 ∧ output [⟨1, .fut 0⟩] log = [2] := by
  let t0 : Runtime.Task (Cell Nat) ℚ := scalarTask 0 [] fun _ => 2
  let t1 : Runtime.Task (Cell Nat) ℚ := scalarTask 1 [0] fun _ => 1
  let z : Cell Nat → ℚ := fun _ => 0
  have h0 : Restart.World.Logged printer (fun i => i = 0) (.start true 0 z) []
      ⟨false, [], 2, ⟨z, [⟨t0, t0.body, none, false⟩, ⟨t1, t1.body, none, false⟩]⟩⟩ :=
    .call (p := printer) (c := true) (ts := []) (e := ⟨2, [t0, t1]⟩) (Restart.World.Logged.refl (w₀ := Restart.World.start true 0 z)) rfl rfl
  have l1 := State.Logged.advance (may := fun i => i = 0) (before := []) (State.Logged.refl (m₀ := (⟨z, [⟨t0, t0.body, none, false⟩, ⟨t1, t1.body, none, false⟩]⟩ : State (Cell Nat) ℚ))) (by simp)
  have l2 := State.Logged.restart (before := []) (s' := z) l1 rfl (fun c => ⟨fun hc => by
      have hc : c ≠ .fut 0 := hc
      simp [Update.exec, hc, z], fun _ _ => rfl⟩)
  have l3 := State.Logged.advance (before := []) l2 (by simp)
  have l4 := State.Logged.commit (before := []) l3
  have l5 := State.Logged.advance (before := [_]) l4 (by
    intro r hr
    simp only [List.mem_cons, List.not_mem_nil, or_false] at hr
    subst hr
    exact Or.inl rfl)
  have l6 := State.Logged.commit (before := [_]) l5
  refine ⟨_, _, .tasks h0 l6, ?_, ⟨?_, ?_⟩, rfl, ?_⟩
  · intro r hr
    have hr : r ∈ [_, _] := hr
    simp only [List.mem_cons, List.not_mem_nil, or_false] at hr
    rcases hr with rfl | rfl <;> rfl
  · intro j hj
    obtain rfl := List.mem_singleton.1 hj
    exact ⟨t1, _, rfl, rfl, 0, by simp, rfl⟩
  · intro i a b _ hb
    simp at hb
  · simp [output, Update.exec, z]

end Verif.Restart.Example
