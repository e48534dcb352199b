import Verif.Driver.Programs
import Mathlib.Data.Rat.Floor

/-! # C81, C82: non-vacuity -/
namespace Verif.Driver
open Verif.Print Verif.Programs

/-- A way to write numbers. -/
example : ShowsIntegers (V := ℚ) fun q => showInt ⌊q⌋ := ⟨fun z _ => by simp⟩

/-- Known warnings. -/
example : QuietErrors (inLines ignoredStderr) := by
  refine quiet_ignored.2 fun line h => ?_
  rw [splitlines_inLines _ (by decide +kernel)] at h
  exact h

/-- A program that prints nothing: the driver complains, and says `PASSED`. -/
example : (test0304 ⟨[], [], 0⟩).complaints = [.unequal] ∧ (test0304 ⟨[], [], 0⟩).passed = true := by decide +kernel

/-- Residuals printed in the wrong order and some of them twice: no complaint. -/
example : (test0506 ⟨inLines (expectedCGOutput ++ expectedCGOutput.reverse), [], 0⟩).complaints = [] := by decide +kernel

/-- A wrong residual. -/
example : (test0506 ⟨inLines (expectedCGOutput.map fun t => if t = bytes "4900" then bytes "4901" else t), [], 0⟩).complaints = [.unequal] := by
  decide +kernel

/-- Five zeros, seven zeros. -/
example : (test02 ⟨bytes "0\n0\n0\n0\n0\n", [], 0⟩).complaints = [.unequal] ∧ (test02 ⟨bytes "0\n0\n0\n0\n0\n0\n0\n", [], 0⟩).complaints = [.unequal] ∧
    (test02 ⟨bytes "0\n[LegionSolvers] Registering task x\n0\n0\n0\n0\n0\n", [], 0⟩).complaints = [] := by decide +kernel

/-- Test 01: a warning line is dropped, another line is not. -/
example : (test01 ⟨bytes "x [warning 1047] y\n\nFor more information see:\n", [], 0⟩).complaints = [] ∧
    (test01 ⟨bytes "hello\n", bytes "oops\n", 1⟩).complaints = [.notEmpty, .notEmpty] ∧ (test01 ⟨bytes "hello\n", bytes "oops\n", 1⟩).passed = false := by
  decide +kernel

/-- Output with a line the driver drops. -/
example : Output [bytes "a", bytes "b"] (bytes "a\n[LegionSolvers] Constructing v\nb\n") := by
  refine ⟨[bytes "[LegionSolvers] Constructing v"], [bytes "a", bytes "[LegionSolvers] Constructing v", bytes "b"], by decide +kernel, ?_, by decide +kernel⟩
  exact .step (pre := []) (.step (pre := [[bytes "b"]]) (.step (pre := []) (.done (by simp))))

/-- A screen with the headers written by three copies of the top-level task. -/
example : ∃ screen, Screens 3 (allLines 20 shippedRows) screen ∧ screen.length = 113 := ⟨_, Interleave.flatten _, by decide +kernel⟩

end Verif.Driver
