import Verif.Interactive.Client
import Verif.Interactive.Test01
import Verif.Programs.Examples
import Verif.Solver.ClientExamples
import Verif.Special.Examples

/-! # Examples for C79 and C80 -/
set_option linter.dupNamespace false
namespace Verif.Interactive
open Verif.Runtime Verif.Vector Verif.Matrix Verif.Solver Verif.Planner Verif.Special

/-! ## A program that looks at a value -/

inductive Branch
  | start
  | look (v : Vec) (x : Scalar)
  | fill (v : Vec) (a : ℚ)
  | stop

/-- `a = 2; b = a * a; if (b.get_value() > 3) v = 7; else v = 8;` -/
def branch (v : Vec) : Program Nat ℚ Branch
  | .start => .call do
      let a ← scalarOf 2
      let b ← sMul (exactArith ℚ id) a a
      pure (.look v b)
  | .look v b => .get b fun y => if 3 < y then .fill v 7 else .fill v 8
  | .fill v a => .call do
      constantFill Solver.exG.toEnv v a
      pure .stop
  | .stop => .halt

theorem branch_library (v : Vec) : UsesLibrary Nat (exactArith ℚ id) Solver.exG (branch v) := by
  intro c m h
  cases c with
  | start => cases h; exact .andThen (.scalarOf _) fun _ => .andThen (.sMul _ _) fun _ => .done _
  | look => cases h
  | fill v a => cases h; exact .andThen (.fill v a) fun _ => .done _
  | stop => cases h

/-- Run alone, it sees 4 and fills the vector with 7. -/
theorem branch_alone (v : Vec) (s : Cell Nat → ℚ) : ∃ s', Alone.Steps (branch v) 3 ⟨.start, [], 0, s⟩ ⟨.stop, [4], 2, s'⟩ ∧
    s' (.elem v.data 0) = 7 ∧ s' (.elem v.data 1) = 7 := by
  have h1 : Alone.Step (branch v) ⟨.start, [], 0, s⟩ ⟨.look v ⟨1⟩, [], 2, runTasks s
      [scalarTask 0 [] fun _ => 2, scalarTask 1 [0, 0] fun s => s (.fut 0) * s (.fut 0)]⟩ :=
    Alone.Step.call (e := ⟨2, _⟩) rfl rfl
  have h2 := Alone.Step.get (p := branch v) (c := .look v ⟨1⟩) (l := []) (n := 2) (s := runTasks s
    [scalarTask 0 [] fun _ => 2, scalarTask 1 [0, 0] fun s => s (.fut 0) * s (.fut 0)]) rfl
  have hv : runTasks s [scalarTask 0 [] fun _ => 2, scalarTask 1 [0, 0] fun s => s (.fut 0) * s (.fut 0)] (.fut 1) = 4 := by
    simp [runTasks, runUpdates, scalarTask, Update.exec]
    norm_num
  rw [hv, if_pos (by norm_num)] at h2
  have h3 := Alone.Step.call (p := branch v) (c := .fill v 7) (l := [4]) (n := 2) (s := runTasks s
    [scalarTask 0 [] fun _ => 2, scalarTask 1 [0, 0] fun s => s (.fut 0) * s (.fut 0)]) rfl rfl
  refine ⟨_, ((Alone.Steps.refl _).tail h1).tail h2 |>.tail h3, ?_, ?_⟩ <;>
    simp [runTasks, runUpdates, fillValueTask, Update.exec, Solver.exG]

/-- C79 for it: every execution ends, has seen 4, and leaves 7 everywhere. -/
example (v : Vec) (s : Cell Nat → ℚ) : Ends (branch v) .start 0 s fun ctl seen s' => ctl = .stop ∧ seen = [4] ∧
    s' (.elem v.data 0) = 7 ∧ s' (.elem v.data 1) = 7 := by
  obtain ⟨s', h1, h2, h3⟩ := branch_alone v s
  obtain ⟨g1, g2, g3⟩ := c79_terminates (branch_library v) _ 0 s h1 rfl
  refine ⟨g1, g2, fun i w hw he => ?_⟩
  obtain ⟨f1, f2, f3⟩ := g3 i w hw he
  exact ⟨f1, f2, by rw [f3]; exact h2, by rw [f3]; exact h3⟩

/-- Waiting is necessary: when the program gets to `get_value` the value may not be there yet, and memory may hold something else. -/
example (v : Vec) : ∃ i, ∃ w : World Nat ℚ Branch, World.Steps (branch v) i (.start .start 0 fun _ => 0) w ∧
    w.ctl = .look v ⟨1⟩ ∧ ¬ Available w.machine ⟨1⟩ ∧ w.machine.store (.fut 1) = 0 := by
  refine ⟨1, _, .tail (.refl _) (.call rfl rfl), rfl, ?_, rfl⟩
  intro h
  have := h ⟨scalarTask 1 [0, 0] fun s => s (.fut 0) * s (.fut 0), _⟩ (List.mem_cons_of_mem _ (List.mem_cons_self ..)) rfl
  cases this

/-- `Test01ScalarOperations` in single precision, rounding to nearest. -/
example (s : Cell Nat → ℝ) : Ends (assertion (Programs.test01 (Rounding.roundedArith (Programs.binaryRound 23 fun x => round x)) 2 10)
    fun v => @decide (v = 1) (Classical.dec _)) .start 0 s fun ctl seen _ => ctl = .passed ∧ seen = [1] :=
  c66_test01 (by decide) Programs.round_mode Solver.exG 0 s _ fun v => by simp

/-- An assertion that fails: `assert(Scalar(2).get_value() == 3)`. -/
example (s : Cell Nat → ℚ) (i : Nat) (w : World Nat ℚ Assertion)
    (hw : World.Steps (assertion (scalarOf 2) fun v => decide (v = 3)) i (.start .start 0 s) w) : w.ctl ≠ .passed :=
  ((c79_assertion (K := Nat) (A := exactArith ℚ id) (G := Solver.exG) (.scalarOf 2) (fun v => decide (v = 3))
    (v := 2) ⟨_, _, _, rfl, c42_complete_execution_exists _, fun M' h1 h2 => by
      rw [c42_any_schedule s _ (by
        intro t ht
        obtain rfl := List.mem_singleton.1 ht
        exact Hon.scalarTask_honest _ _ _ fun _ _ _ => rfl) M' h1 h2]
      simp [runTasks, runUpdates, scalarTask, Update.exec]⟩).2 (by decide) i w hw).1

/-! ## The convergence loop -/

theorem two_spd : Textbook.SPD (clientMatrix Solver.exG twoCalls) := two_SPD

/-- C80 on the system with two blocks: within four steps, the squared norm of the residual is at most 1/100. -/
example (s : Cell Nat → ℚ) (h0 : ∀ p, s (.elem 0 p) = 0) (h1 : ∀ p, s (.elem 1 p) = 0) :
    ∃ pl, Planner.empty.setupAll Solver.exG twoCalls = some pl ∧
      Ends (cgLoop (exactArith ℚ qsqrt) Solver.exG pl 10 fun _ v => decide (1 / 100 < v)) .start 0 s fun ctl seen s' =>
        (∃ pl' c k, ctl = .stop pl' c k ∧ k ≤ 4 ∧ seen.length = k + 1) ∧
        clientResidual Solver.exG twoCalls s s' ⬝ᵥ clientResidual Solver.exG twoCalls s s' ≤ 1 / 100 := by
  obtain ⟨pl, hpl, g1, g2, g3⟩ := c80_converges (exactArith_exact ℚ qsqrt) twoSystem two_spd 0 s (by
    intro v hv p _
    have hv : v ∈ [(⟨0, 0, 0, 0⟩ : Vec), ⟨1, 0, 0, 0⟩] := hv
    simp only [List.mem_cons, List.not_mem_nil, or_false] at hv
    rcases hv with rfl | rfl
    · exact h0 p
    · exact h1 p) (1 / 100) (by norm_num)
  exact ⟨pl, hpl, g1, g2, fun i w hw he => ⟨(g3 i w hw he).1, (g3 i w hw he).2.1⟩⟩

/-- A floating-point test: `!(value <= 1)`. -/
def fpTest (v : Fp) : Bool := match v with
  | .num q => decide (¬ q ≤ 1)
  | .inf b => !b
  | .nan => true

/-- C80: with a NaN in the right-hand side this loop never ends. -/
example (n : Nat) : ∃ pl, Planner.empty.setupAll boxG (boxCalls fpE) = some pl ∧
    RunsForever (cgLoop (Fp.arith toyRound toyRoot) boxG pl 20 fun _ => fpTest) .start n
      (boxStore .nan (fun _ => .num 0) fun p => if p = 1 then .nan else .num 1) := by
  refine c80_nan_input toy_ieee boxSystem n _ ⟨⟨6, 0, 0, 0⟩, List.mem_cons_self .., 1, by decide, ?_⟩ _ fun i v hv => ?_
  · rfl
  · rw [show v = Fp.nan from hv]; rfl

end Verif.Interactive
