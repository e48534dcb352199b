import Verif.Programs.Print

/-! # C64: the order of prints that are not chained is open, and non-vacuity -/
set_option linter.dupNamespace false
set_option linter.unusedSectionVars false
namespace Verif.Programs
open Verif.Runtime Verif.Vector

variable {P V : Type} [DecidableEq P]

/-- `Scalar<T> a{…, x}, b{…, y}; a.print(); b.print();` -/
def twoPrints (A : Arith V) (x y : V) : M P V (Unit × List (PrintJob (Cell P))) := do
  let a ← scalarOf x
  let b ← scalarOf y
  let js ← printEach A [a, b]
  pure ((), js)

theorem twoPrints_eq (A : Arith V) (x y : V) : twoPrints (P := P) A x y ⟨0, []⟩ = some (((), [⟨2, .fut 0⟩, ⟨3, .fut 1⟩]),
    ⟨4, [scalarTask 0 [] fun _ => x, scalarTask 1 [] fun _ => y, scalarTask 2 [0] fun _ => A.zero, scalarTask 3 [1] fun _ => A.zero]⟩) :=
  rfl

/-- **C64, the limit.**  Two `print()` calls in a row: both orders of the two lines are possible. -/
theorem c64_unchained_order_open (A : Arith V) (x y : V) (s : Cell P → V) (swap : Bool) :
    ∃ jobs n' ts, twoPrints A x y ⟨0, []⟩ = some (((), jobs), ⟨n', ts⟩) ∧ ∃ log, ∃ M' : Machine (Cell P) V,
      (Machine.start s ts).Logged log M' ∧ M'.Done ∧ output jobs log = if swap then [y, x] else [x, y] := by
  refine ⟨_, _, _, twoPrints_eq A x y, ?_⟩
  let t0 : Task (Cell P) V := scalarTask 0 [] fun _ => x
  let t1 : Task (Cell P) V := scalarTask 1 [] fun _ => y
  let t2 : Task (Cell P) V := scalarTask 2 [0] fun _ => A.zero
  let t3 : Task (Cell P) V := scalarTask 3 [1] fun _ => A.zero
  let u0 : Update (Cell P) V := ⟨.fut 0, fun _ => x⟩
  let u1 : Update (Cell P) V := ⟨.fut 1, fun _ => y⟩
  let u2 : Update (Cell P) V := ⟨.fut 2, fun _ => A.zero⟩
  let u3 : Update (Cell P) V := ⟨.fut 3, fun _ => A.zero⟩
  have h0 : (Machine.start s [t0, t1, t2, t3]).Logged [] ⟨s, [⟨t0, [u0]⟩, ⟨t1, [u1]⟩, ⟨t2, [u2]⟩, ⟨t3, [u3]⟩]⟩ := .refl
  have h1 : (Machine.start s [t0, t1, t2, t3]).Logged _ _ :=
    Machine.Logged.advance (before := []) (t := t0) (u := u0) (rest := []) (after := [⟨t1, [u1]⟩, ⟨t2, [u2]⟩, ⟨t3, [u3]⟩]) h0
      (fun r hr => by cases hr)
  have h2 : (Machine.start s [t0, t1, t2, t3]).Logged _ _ :=
    Machine.Logged.advance (before := [⟨t0, []⟩]) (t := t1) (u := u1) (rest := []) (after := [⟨t2, [u2]⟩, ⟨t3, [u3]⟩]) h1
      (fun r hr => by rw [List.mem_singleton.1 hr]; exact Or.inl rfl)
  cases swap with
  | false =>
    have h3 : (Machine.start s [t0, t1, t2, t3]).Logged _ _ :=
      Machine.Logged.advance (before := [⟨t0, []⟩, ⟨t1, []⟩]) (t := t2) (u := u2) (rest := []) (after := [⟨t3, [u3]⟩]) h2
        (fun r hr => by
          simp only [List.mem_cons, List.not_mem_nil, or_false] at hr
          rcases hr with rfl | rfl <;> exact Or.inl rfl)
    have h4 : (Machine.start s [t0, t1, t2, t3]).Logged _ _ :=
      Machine.Logged.advance (before := [⟨t0, []⟩, ⟨t1, []⟩, ⟨t2, []⟩]) (t := t3) (u := u3) (rest := []) (after := []) h3
        (fun r hr => by
          simp only [List.mem_cons, List.not_mem_nil, or_false] at hr
          rcases hr with rfl | rfl | rfl <;> exact Or.inl rfl)
    refine ⟨_, _, h4, ?_, ?_⟩
    · intro r hr
      simp only [List.cons_append, List.nil_append, List.mem_cons, List.not_mem_nil, or_false] at hr
      rcases hr with rfl | rfl | rfl | rfl <;> rfl
    · simp [output, Update.exec, u0, u1, u2]
  | true =>
    have h3 : (Machine.start s [t0, t1, t2, t3]).Logged _ _ :=
      Machine.Logged.advance (before := [⟨t0, []⟩, ⟨t1, []⟩, ⟨t2, [u2]⟩]) (t := t3) (u := u3) (rest := []) (after := []) h2
        (fun r hr => by
          simp only [List.mem_cons, List.not_mem_nil, or_false] at hr
          rcases hr with rfl | rfl | rfl
          · exact Or.inl rfl
          · exact Or.inl rfl
          · refine Or.inr ?_
            rintro ⟨c, ⟨hw, h⟩ | ⟨hw, h⟩⟩
            · have hw : c = .fut 2 := hw
              subst hw
              rcases h with ⟨a, ha, e⟩ | e
              · rw [List.mem_singleton.1 ha] at e; cases e
              · cases e
            · have hw : c = .fut 3 := hw
              subst hw
              rcases h with ⟨a, ha, e⟩ | e
              · rw [List.mem_singleton.1 ha] at e; cases e
              · cases e)
    have h4 : (Machine.start s [t0, t1, t2, t3]).Logged _ _ :=
      Machine.Logged.advance (before := [⟨t0, []⟩, ⟨t1, []⟩]) (t := t2) (u := u2) (rest := []) (after := [⟨t3, []⟩]) h3
        (fun r hr => by
          simp only [List.mem_cons, List.not_mem_nil, or_false] at hr
          rcases hr with rfl | rfl <;> exact Or.inl rfl)
    refine ⟨_, _, h4, ?_, ?_⟩
    · intro r hr
      simp only [List.cons_append, List.nil_append, List.mem_cons, List.not_mem_nil, or_false] at hr
      rcases hr with rfl | rfl | rfl | rfl <;> rfl
    · simp [output, Update.exec, u0, u1, u3]

/-- The hypotheses of `c64_print_loop` are met: a program that makes three scalars, prints them backwards and then computes on. -/
example (A : Arith V) (x y : V) (s : Cell P → V) :
    EnsuresOutput (P := P) (printThen A (do let a ← scalarOf x; let b ← scalarOf y; let c ← sMul A a b; pure (a, b, c))
      (fun r => [r.2.2, r.2.1, r.1]) (fun r => sMul A r.1 r.1)) 0 s fun _ out _ => out = [A.mul x y, y, x] := by
  have h : Runs (P := P) (do let a ← scalarOf x; let b ← scalarOf y; let c ← sMul A a b; pure (a, b, c)) 0 s
      (⟨0⟩, ⟨1⟩, ⟨2⟩) 3 _ :=
    (Runs.scalarOf x 0 s).bind ((Runs.scalarOf y 1 _).bind ((Runs.binary A.mul ⟨0⟩ ⟨1⟩ 2 _).bind (Runs.pure _ _ _)))
  have := c64_print_loop (A := A) h (fun r => [r.2.2, r.2.1, r.1]) (by
    intro z hz
    simp only [List.mem_cons, List.not_mem_nil, or_false] at hz
    rcases hz with rfl | rfl | rfl <;> decide) (fun r => sMul A r.1 r.1) (fun σ _ => ⟨_, _, _, Runs.binary A.mul ⟨0⟩ ⟨0⟩ _ σ⟩)
  simpa [setFut_fut] using this

end Verif.Programs
