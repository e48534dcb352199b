import Verif.Interactive.Props
import Verif.Interactive.Loop
import Verif.Programs.Basic

/-! # `assert(x.get_value() == …)`, and `Test01ScalarOperations` with its assertion -/
set_option linter.dupNamespace false
set_option linter.unusedSectionVars false
namespace Verif.Interactive
open Verif.Runtime Verif.Vector Verif.Solver Verif.Planner Verif.Programs Verif.Rounding
variable {K P V : Type} [DecidableEq P] [DecidableEq K]

/-- The states of the program below. -/
inductive Assertion
  | start
  | look (x : Scalar)
  | passed
  | failed

/-- `Scalar x = m; assert(ok(x.get_value()));` (for example `Test01ScalarOperations.cpp` 18-23). -/
def assertion (m : M P V Scalar) (ok : V → Bool) : Program P V Assertion
  | .start => .call do
      let x ← m
      pure (.look x)
  | .look x => .get x fun v => if ok v then .passed else .failed
  | .passed => .halt
  | .failed => .call fun _ => none

theorem assertion_library {A : Arith V} {G : Geometry P} {m : M P V Scalar} (hm : Client K A G m) (ok : V → Bool) :
    UsesLibrary K A G (assertion m ok) := by
  intro c m' h
  cases c with
  | start => cases h; exact .andThen hm fun _ => .done _
  | look => cases h
  | passed => cases h
  | failed => cases h; exact .stop

/-- **C79**: an assertion on the value of a scalar passes in every execution if the value satisfies it under every schedule, and fails
in every execution (none gets past it) if the value does not. -/
theorem c79_assertion {A : Arith V} {G : Geometry P} {m : M P V Scalar} (hm : Client K A G m) (ok : V → Bool) {n : Nat} {s : Cell P → V}
    {v : V} (h : Ensures m n s fun x s' => s' (.fut x.fut) = v) :
    (ok v = true → Ends (assertion m ok) .start n s fun ctl seen _ => ctl = .passed ∧ seen = [v]) ∧
    (ok v = false → ∀ i w, World.Steps (assertion m ok) i (.start .start n s) w → w.ctl ≠ .passed ∧ ¬ w.Ended (assertion m ok)) := by
  obtain ⟨x, e, h1, h2⟩ := ensures_run (Hon.client hm) h
  have s1 : Alone.Step (assertion m ok) ⟨.start, [], n, s⟩ ⟨.look x, [], e.next, runTasks s e.out⟩ :=
    .call rfl (by rw [bind_eq h1]; rfl)
  have s2 := Alone.Step.get (p := assertion m ok) (c := .look x) (l := []) (n := e.next) (s := runTasks s e.out) rfl
  rw [h2] at s2
  constructor
  · intro hok
    rw [if_pos hok] at s2
    obtain ⟨g1, g2, g3⟩ := c79_terminates (assertion_library hm ok) _ n s (((Alone.Steps.refl _).tail s1).tail s2) rfl
    exact ⟨g1, g2, fun i w hw he => ⟨(g3 i w hw he).1, (g3 i w hw he).2.1⟩⟩
  · intro hok i w hw
    rw [if_neg (by rw [hok]; decide)] at s2
    have key := c79_aborts (assertion_library hm ok) _ n s (((Alone.Steps.refl _).tail s1).tail s2) rfl rfl i w hw
    refine ⟨fun hc => ?_, key⟩
    obtain ⟨M', q1, q2⟩ := c42_complete_execution_exists w.machine
    have hs : ∀ {M1 M2 : Machine (Cell P) V}, M1.Steps M2 → ∀ i, World.Steps (assertion m ok) i (.start .start n s) ⟨w.ctl, w.seen, w.next, M1⟩ →
        ∃ i', World.Steps (assertion m ok) i' (.start .start n s) ⟨w.ctl, w.seen, w.next, M2⟩ := by
      intro M1 M2 hM i hi
      induction hM with
      | refl => exact ⟨i, hi⟩
      | tail _ hst ih =>
        obtain ⟨i', hi'⟩ := ih
        exact ⟨i' + 1, .tail hi' (.task hst)⟩
    obtain ⟨i', hi'⟩ := hs q1 i hw
    exact c79_aborts (assertion_library hm ok) _ n s (((Alone.Steps.refl _).tail s1).tail s2) rfl rfl i' _ hi' ⟨by rw [hc]; rfl, q2⟩

theorem test01_client (A : Arith V) (G : Geometry P) (two ten : V) : Client K A G (test01 A two ten) :=
  .andThen (.scalarOf _) fun _ => .andThen (.scalarOf _) fun _ => .andThen (.sAdd _ _) fun _ => .andThen (.sAdd _ _) fun _ =>
    .andThen (.sDiv _ _) fun _ => .sSub _ _

/-- **C66**, `Test01ScalarOperations` with its assertion `v.get_value() == 1.0` (18-23, 26-31): in every binary floating-point format
with at least two digits and every rounding mode, every execution ends with the assertion passed. -/
theorem c66_test01 {p : Nat} (hp : 1 ≤ p) {r : ℝ → ℤ} (hr : RoundingMode r) (G : Geometry P) (n : Nat) (s : Cell P → ℝ) (ok : ℝ → Bool)
    (hok : ∀ v, ok v = true ↔ v = 1) :
    Ends (assertion (test01 (roundedArith (binaryRound p r)) 2 10) ok) .start n s fun ctl seen _ => ctl = .passed ∧ seen = [1] :=
  (c79_assertion (K := Nat) (test01_client _ G 2 10) ok (c66_scalar hp hr n s)).1 ((hok 1).2 rfl)

end Verif.Interactive
