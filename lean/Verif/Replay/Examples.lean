import Verif.Replay.Clock
import Verif.Programs.BenchmarkExamples
import Verif.Solver.ClientExamples

/-! # Concrete cases of C91 and C92, and why their conditions are needed -/
set_option linter.dupNamespace false
namespace Verif.Replay
open Verif.Runtime Verif.Vector Verif.Matrix Verif.Planner Verif.Solver Verif.Programs Verif.Launch Verif.Grid Verif.Stencil Verif.EndToEnd Verif.Special

/-! ## Traces that are not the same -/

/-- Two vectors of one element. -/
def va : Vec := ⟨0, 0, 0, 0⟩
def vb : Vec := ⟨1, 0, 0, 0⟩

def fillA (a : Int) : Task (Cell Nat) Int := fillValueTask va a [0]
def fillB (a : Int) : Task (Cell Nat) Int := fillValueTask vb a [0]
def copyAB : Task (Cell Nat) Int := copyTask vb va [0]

/-- A program that breaks Legion's rule: in the first trace `a = 1; b = 2`, in the second `a = 3; b = a`. -/
def wrongTraces : List (Item Nat Int) :=
  [.beginTrace, .task (fillA 1), .task (fillB 2), .endTrace, .beginTrace, .task (fillA 3), .task copyAB, .endTrace]

theorem wrong_no_wait : ¬ Waits wrongTraces 5 6 := by
  have ht : traces wrongTraces = [(0, 3), (4, 7)] := rfl
  rintro (⟨k, h1, h2, -⟩ | ⟨t, u, h1, h2, h⟩)
  · omega
  · cases h1
    cases h2
    rcases h with ⟨c, hc, h⟩ | ⟨h, -⟩ | ⟨tr, htr, h1, -, first, t0, u0, hf, h2, h3, d, p, h⟩
    · rcases h with ⟨⟨p, -, h⟩, -⟩ | ⟨⟨p, -, h⟩, -⟩
      · exact hc _ _ h
      · exact hc _ _ h
    · exact h (4, 7) (by rw [ht]; simp) ⟨⟨by decide, by decide⟩, by decide, by decide⟩
    · rw [ht] at htr hf
      cases hf
      simp only [List.mem_cons, List.not_mem_nil, or_false] at htr
      rcases htr with rfl | rfl
      · exact absurd h1.2 (by decide)
      · cases h2
        cases h3
        rcases h with ⟨⟨p, -, h⟩, h' | ⟨p', -, h'⟩⟩ | ⟨⟨p, -, h⟩, h' | ⟨p', -, h'⟩⟩
        · exact h'
        · rw [h] at h'; cases h'
        · exact h'
        · rw [h] at h'; cases h'

/-- **C91**, the rule is needed: executed one after the other the tasks leave 3 in the second vector; replaying the first trace for the second, the
runtime may leave 1. -/
theorem c91_needed (s : Cell Nat → Int) : runTasks s (tasksOf wrongTraces) (.elem 1 0) = 3 ∧
    ∃ m : State Nat Int, (State.start s wrongTraces).Steps m ∧ m.Done ∧ m.store (.elem 1 0) = 1 := by
  refine ⟨rfl, ?_⟩
  let e : Item Nat Int → Live Nat Int := fun x => ⟨x, []⟩
  let f : Task (Cell Nat) Int → Live Nat Int := fun t => Live.fresh (.task t)
  let d : Task (Cell Nat) Int → Live Nat Int := fun t => ⟨.task t, []⟩
  have fin : ∀ before : List (Live Nat Int), (∀ r ∈ before, r.todo = []) → ∀ W : Nat → Prop, ∀ i r, before[i]? = some r → r.todo = [] ∨ ¬ W i :=
    fun before h W i r hi => .inl (h r (List.mem_of_getElem? hi))
  have s1 : (State.start s wrongTraces).Steps ⟨_, [e .beginTrace] ++ d (fillA 1) :: [f (fillB 2), e .endTrace, e .beginTrace, f (fillA 3),
      f copyAB, e .endTrace]⟩ :=
    .tail (.refl _) (.advance s [e .beginTrace] (.task (fillA 1)) (some ⟨.elem 0 0, fun _ => 1⟩) []
      [f (fillB 2), e .endTrace, e .beginTrace, f (fillA 3), f copyAB, e .endTrace] (fin _ (by simp [e]) _))
  have s2 := State.Steps.tail s1 (.advance _ [e .beginTrace, d (fillA 1)] (.task (fillB 2)) (some ⟨.elem 1 0, fun _ => 2⟩) []
      [e .endTrace, e .beginTrace, f (fillA 3), f copyAB, e .endTrace] (fin _ (by simp [e, d]) _))
  have s3 := State.Steps.tail s2 (.advance _ [e .beginTrace, d (fillA 1), d (fillB 2), e .endTrace, e .beginTrace, f (fillA 3)] (.task copyAB)
      (some ⟨.elem 1 0, fun s => s (.elem 0 0)⟩) [] [e .endTrace] (by
        intro i r hi
        match i, hi with
        | 0, hi => cases hi; exact .inl rfl
        | 1, hi => cases hi; exact .inl rfl
        | 2, hi => cases hi; exact .inl rfl
        | 3, hi => cases hi; exact .inl rfl
        | 4, hi => cases hi; exact .inl rfl
        | 5, hi => exact .inr wrong_no_wait
        | i + 6, hi => cases hi))
  have s4 := State.Steps.tail s3 (.advance _ [e .beginTrace, d (fillA 1), d (fillB 2), e .endTrace, e .beginTrace] (.task (fillA 3))
      (some ⟨.elem 0 0, fun _ => 3⟩) [] [d copyAB, e .endTrace] (fin _ (by simp [e, d]) _))
  refine ⟨_, s4, ?_, rfl⟩
  intro r hr
  simp only [List.cons_append, List.nil_append, List.mem_cons, List.not_mem_nil, or_false, e, d] at hr
  rcases hr with rfl | rfl | rfl | rfl | rfl | rfl | rfl | rfl <;> rfl

/-- So the traces are not valid. -/
example (A : Arith Int) : ¬ ValidTraces A wrongTraces := by
  intro h
  obtain ⟨h1, m, h2, h3, h4⟩ := c91_needed fun _ => 0
  have := c91_replay A wrongTraces h (fun t ht => by
    simp only [wrongTraces, List.mem_cons, reduceCtorEq, Item.task.injEq, List.not_mem_nil, or_false, false_or] at ht
    rcases ht with rfl | rfl | rfl | rfl
    · exact fillValueTask_honest va 1 [0]
    · exact fillValueTask_honest vb 2 [0]
    · exact fillValueTask_honest va 3 [0]
    · exact copyTask_honest vb va [0]) _ m h2 h3
  rw [this] at h4
  exact absurd (h1.symm.trans h4) (by decide)

/-! ## The clock without fences -/

/-- Without a fence the clock may be read before the task launched earlier runs. -/
example (s : Cell Nat → Int) : ∃ m : State Nat Int, (State.start s [.task (fillA 1), .clock]).Steps m ∧ m.Finished 1 ∧ ¬ m.Finished 0 := by
  refine ⟨_, .tail (.refl _) (.advance s [Live.fresh (.task (fillA 1))] .clock none [] [] ?_), ⟨_, rfl, rfl⟩, ?_⟩
  · intro i r hi
    right
    rintro (⟨k, h1, h2, -⟩ | ⟨t, u, -, h, -⟩)
    · have : k < 1 := h2
      match i, hi with
      | 0, _ => omega
      | i + 1, hi => cases hi
    · cases h
  · rintro ⟨r, hr, h⟩
    cases hr
    cases h

/-! ## Instances -/

/-- A CG run of the two-block system in three traces of two steps. -/
example : ∃ pl : Planner Nat Nat ℚ, ∀ n s, EnsuresTraced (exactArith ℚ qsqrt) (cgTraces (exactArith ℚ qsqrt) Verif.Solver.exG pl 10 2 3) n s
    fun c _ => c.history.length = 7 := by
  obtain ⟨pl, pl', -, S, -⟩ := twoSystem.complete 3
  exact ⟨pl, fun n s => c91_cg _ S.order 2 3 n s _ (ensures_weaken (c40_cg _ S (2 * 3) n s) fun c _ h => h.1)⟩

/-- The benchmark with eight iterations, as in `BenchmarkExamples`, traced: five recorded or replayed traces, the clock, three replayed traces, the
clock; value 36 in the middle. -/
example : ∃ N : Nat, ∀ fuel, N ≤ fuel → ∀ junk t s,
    EnsuresTraced (partialArith (id : ℚ → ℚ)) (tracedBenchmark (partialArith (id : ℚ → ℚ)) (exactLit ℚ) (sorted1 (exactLit ℚ)) benchPieces fuel junk
      benchG 0 (fun i => i) 10 1000 { defaultOptions with it := 8 }) t s fun r s' => r = some ⟨5, 3, 3⟩ ∧ s' (.elem 3 7) = some 36 := by
  obtain ⟨nt, hg, N, hN⟩ := c74_cg_line (root := (id : ℚ → ℚ)) rfl
    (bench_setting (partialArith id) (exactLit ℚ) 1 (by decide) 8 1 (by decide) 1000 (by decide)) rfl rfl
  have hnt : nt = 8 := hg.unique ⟨by show 8 ≤ 8 * 1; decide, fun j hj => by
    have hj : 8 ≤ j * 1 := hj
    omega⟩
  subst hnt
  refine ⟨N, fun fuel hf junk t s => c91_benchmark _ _ _ _ _ _ _ benchG_vectors.order _ _ _ _ _ _ _ _
    (ensures_weaken (hN fuel hf benchPieces (bench_covers _ _ _ ⟨rfl, rfl⟩) junk t s) fun r s' g => ⟨?_, ?_⟩)⟩
  · rw [g.1]; decide
  · exact (g.2.1 (by decide) 1 (by decide) 7 (by decide) (by decide)).trans (by decide +kernel)

/-- The clock readings of GMRES with 40 iterations, four per trace: 20 timed steps. -/
example (A : Arith ℚ) (lit : Int → ℚ) : ∃ N : Nat, ∀ fuel, N ≤ fuel → ∀ junk t, ∃ r n' l ts,
    tracedBenchmark A lit (sorted1 lit) benchPieces fuel junk benchG 0 (fun i => i) 10 1000
      { defaultOptions with solver := 3, it := 40, pt := 4 } ⟨t, []⟩ = some (some r, ⟨n', l⟩) ∧
    TimesExactly l ts ∧ SolverSteps A benchG Int 3 20 ts ∧ r.divisor = 20 := by
  obtain ⟨nt, hg, N, hN⟩ := c92_benchmark (bench_setting A lit 3 (by decide) 40 4 (by decide) 1000 (by decide))
  have hnt : nt = 10 := hg.unique ⟨by show 40 ≤ 10 * 4; decide, fun j hj => by
    have hj : 40 ≤ j * 4 := hj
    omega⟩
  subst hnt
  refine ⟨N, fun fuel hf junk t => ?_⟩
  obtain ⟨r, n', l, ts, h1, -, h3, h4, h5⟩ := hN fuel hf benchPieces (bench_covers _ _ _ ⟨rfl, rfl⟩) junk t
  exact ⟨r, n', l, ts, h1, h3, h4, h5 (by decide) (by decide) (by decide)⟩

end Verif.Replay
