import Verif.Units.Param
import Verif.Vector.Spec

/-! # Executing in program order is one of the possible executions -/
set_option linter.dupNamespace false
set_option linter.unusedSectionVars false
namespace Verif.Units
open Verif.Runtime Verif.Vector
variable {P V W α : Type} [DecidableEq P]

theorem steps_trans {C V : Type} [DecidableEq C] {a b c : Machine C V} (h : a.Steps b) (h' : b.Steps c) : a.Steps c := by
  induction h' with
  | refl => exact h
  | tail _ hs ih => exact ih.tail hs

theorem steps_task {C V : Type} [DecidableEq C] (t : Task C V) (before after : List (Running C V)) (hb : ∀ r ∈ before, r.todo = []) :
    ∀ (us : List (Update C V)) (s : C → V), Machine.Steps ⟨s, before ++ ⟨t, us⟩ :: after⟩ ⟨runUpdates s us, before ++ ⟨t, []⟩ :: after⟩
  | [], _ => .refl _
  | u :: us, s => steps_trans (Machine.Steps.tail (.refl _) (.advance s before t u us after fun r hr => Or.inl (hb r hr)))
      (steps_task t before after hb us (u.exec s))

theorem steps_order {C V : Type} [DecidableEq C] : ∀ (ts : List (Task C V)) (s : C → V) (before : List (Running C V)),
    (∀ r ∈ before, r.todo = []) → ∃ M', Machine.Steps ⟨s, before ++ ts.map fun t => ⟨t, t.body⟩⟩ M' ∧ M'.Done ∧ M'.store = runTasks s ts
  | [], s, before, hb => ⟨_, .refl _, fun r hr => hb r (by simpa using hr), rfl⟩
  | t :: ts, s, before, hb => by
    have hb' : ∀ r ∈ before ++ [⟨t, []⟩], r.todo = [] := by
      intro r hr
      rcases List.mem_append.1 hr with hr | hr
      · exact hb r hr
      · rw [List.mem_singleton.1 hr]
    obtain ⟨M', h1, h2, h3⟩ := steps_order ts (runUpdates s t.body) (before ++ [⟨t, []⟩]) hb'
    refine ⟨M', steps_trans (steps_task t before _ hb t.body s) ?_, h2, h3⟩
    simpa using h1

/-- What every execution ensures holds of the one in program order. -/
theorem ensures_order {m : M P V α} {n : Nat} {s : Cell P → V} {Q : α → (Cell P → V) → Prop} (h : Ensures m n s Q) :
    ∃ a n' ts, m ⟨n, []⟩ = some (a, ⟨n', ts⟩) ∧ Q a (runTasks s ts) := by
  obtain ⟨a, n', ts, h1, -, h3⟩ := h
  obtain ⟨M', g1, g2, g3⟩ := steps_order ts s [] (by simp)
  exact ⟨a, n', ts, h1, g3 ▸ h3 M' (by simpa [Machine.start] using g1) g2⟩

/-- Two related programs started on related memories: what their executions ensure holds together of related results. -/
theorem ProgRel.together {R : V → W → Prop} {m : M P V α} {m' : M P W α} (hm : ProgRel R Eq m m') {n : Nat} {s : Cell P → V}
    {s' : Cell P → W} (hs : MemRel R s s') {Q : α → (Cell P → V) → Prop} {Q' : α → (Cell P → W) → Prop} (h : Ensures m n s Q)
    (h' : Ensures m' n s' Q') : ∃ a t t', MemRel R t t' ∧ Q a t ∧ Q' a t' := by
  obtain ⟨a, n1, ts, h1, h2⟩ := ensures_order h
  obtain ⟨a', n1', ts', h1', h2'⟩ := ensures_order h'
  have := hm ⟨n, []⟩ ⟨n, []⟩ ⟨rfl, .nil⟩
  rw [h1, h1'] at this
  cases this with
  | some hh =>
    obtain ⟨rfl, he⟩ := hh
    exact ⟨a, _, _, runTasks_rel he.out hs, h2, h2'⟩

end Verif.Units
