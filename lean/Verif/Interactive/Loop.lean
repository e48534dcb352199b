import Verif.Interactive.Props

/-! # C80: the convergence loop launches what the fixed number of steps launches -/
set_option linter.unusedSectionVars false
namespace Verif.Interactive
open Verif.Runtime Verif.Vector Verif.Solver Verif.Planner
variable {K P V : Type} [DecidableEq P] [DecidableEq K]
variable {A : Arith V} {G : Geometry P} {pl : Planner K P V} {base : Nat} {goOn : Nat → V → Bool}

theorem cgLoop_library (A : Arith V) (G : Geometry P) (pl : Planner K P V) (base : Nat) (goOn : Nat → V → Bool) :
    UsesLibrary K A G (cgLoop A G pl base goOn) := by
  intro c m h
  cases c with
  | start =>
    cases h
    refine .andThen (.allocate pl base 3) fun pl' => .andThen ?_ fun _ => .done _
    unfold CG.init
    exact .andThen (.scalarOf _) fun _ => .andThen (.pCopy pl' _ _) fun _ => .andThen (.pCopy pl' _ _) fun _ =>
      .andThen (.pDot pl' _ _) fun _ => .done _
  | check => cases h
  | again pl' c i => cases h; exact .andThen (.cgStep pl' c) fun _ => .done _
  | stop => cases h

theorem repeatM_succ {α : Type} (f : α → M P V α) (k : Nat) (a : α) : repeatM f (k + 1) a = repeatM f k a >>= f := by
  induction k generalizing a with
  | zero =>
    show (f a >>= fun a' => pure a') = (pure a >>= f)
    rw [bind_pure, pure_bind]
  | succ k ih =>
    show (f a >>= fun a' => repeatM f (k + 1) a') = ((f a >>= fun a' => repeatM f k a') >>= f)
    rw [bind_assoc]
    congr 1
    funext a'
    exact ih a'

theorem bind_some {α β : Type} {m : M P V α} {f : α → M P V β} {e e' : Emit P V} {b : β} (h : (m >>= f) e = some (b, e')) :
    ∃ a e1, m e = some (a, e1) ∧ f a e1 = some (b, e') := by
  obtain ⟨⟨a, e1⟩, h1, h2⟩ := Option.bind_eq_some_iff.1 (show (m e).bind (fun p => f p.1 p.2) = some (b, e') from h)
  exact ⟨a, e1, h1, h2⟩

theorem bind_eq {α β : Type} {m : M P V α} {f : α → M P V β} {e e1 : Emit P V} {a : α} (h : m e = some (a, e1)) :
    (m >>= f) e = f a e1 := by
  show (m e).bind (fun p => f p.1 p.2) = _
  rw [h]; rfl

/-- The state of the loop run alone, when it is about to look at the value recorded after `k` steps. -/
theorem loop_alone {n : Nat} {s : Cell P → V} {pl' : Planner K P V} (hal : pl.allocateWorkspace G base 3 = some pl') {ρ : Nat → V} :
    ∀ (k : Nat) (c : CG Scalar) (e : Emit P V), CG.solve (plannerOps A G.toEnv pl') k ⟨n, []⟩ = some (c, e) →
    (∀ j, j < k → ∀ c e, CG.solve (plannerOps A G.toEnv pl') j ⟨n, []⟩ = some (c, e) → runTasks s e.out (.fut c.last.fut) = ρ j) →
    (∀ j, j < k → goOn j (ρ j) = true) →
    Alone.Steps (cgLoop A G pl base goOn) (1 + 2 * k) ⟨.start, [], n, s⟩
      ⟨.check pl' c k, (List.range k).map ρ, e.next, runTasks s e.out⟩
  | 0, c, e, h, _, _ => by
    obtain ⟨c0, e0, h1, h2⟩ := bind_some h
    obtain ⟨rfl, rfl⟩ := Prod.mk.inj (Option.some.inj h2)
    refine .tail (.refl _) (.call rfl ?_)
    rw [bind_eq (show allocate G pl base 3 ⟨n, []⟩ = some (pl', ⟨n, []⟩) by unfold allocate; rw [hal]; rfl), bind_eq h1]
    rfl
  | k + 1, c', e', h, hv, hgo => by
    have h' : (CG.solve (plannerOps A G.toEnv pl') k >>= CG.step (plannerOps A G.toEnv pl')) ⟨n, []⟩ = some (c', e') := by
      rw [← h]
      unfold CG.solve
      rw [bind_assoc]
      exact congrArg (fun g => (CG.init (plannerOps A G.toEnv pl') >>= g) ⟨n, []⟩) (funext fun a => (repeatM_succ _ k a).symm)
    obtain ⟨c, e, h1, h2⟩ := bind_some h'
    have ih := loop_alone hal k c e h1 (fun j hj => hv j (by omega)) (fun j hj => hgo j (by omega))
    obtain ⟨ts, t1, -, t2⟩ := Hon.cgStep (Hon.plannerOps A G.toEnv pl') c e c' e' h2
    have hρ := hv k (by omega) c e h1
    have s1 : Alone.Step (cgLoop A G pl base goOn) ⟨.check pl' c k, (List.range k).map ρ, e.next, runTasks s e.out⟩
        ⟨.again pl' c k, (List.range (k + 1)).map ρ, e.next, runTasks s e.out⟩ := by
      have := Alone.Step.get (p := cgLoop A G pl base goOn) (c := .check pl' c k) (l := (List.range k).map ρ) (n := e.next)
        (s := runTasks s e.out) rfl
      rw [hρ, if_pos (hgo k (by omega))] at this
      rw [List.range_succ, List.map_append]
      exact this
    have s2 : Alone.Step (cgLoop A G pl base goOn) ⟨.again pl' c k, (List.range (k + 1)).map ρ, e.next, runTasks s e.out⟩
        ⟨.check pl' c' (k + 1), (List.range (k + 1)).map ρ, e'.next, runTasks s e'.out⟩ := by
      rw [t1, runTasks_append]
      refine Alone.Step.call (e := ⟨e'.next, ts⟩) rfl ?_
      have := t2 []
      rw [List.nil_append] at this
      rw [bind_eq this]
      rfl
    exact .tail (.tail ih s1) s2

theorem ensures_run {α : Type} {m : M P V α} (hm : Hon m) {n : Nat} {s : Cell P → V} {Q : α → (Cell P → V) → Prop} (h : Ensures m n s Q) :
    ∃ a e, m ⟨n, []⟩ = some (a, e) ∧ Q a (runTasks s e.out) := by
  obtain ⟨a, n', ts, h1, ⟨M', h2, h3⟩, h4⟩ := h
  obtain ⟨us, u1, u2, -⟩ := hm _ _ _ h1
  refine ⟨a, ⟨n', ts⟩, h1, ?_⟩
  have := c42_any_schedule s ts (fun t ht => u2 t (by rw [show ts = [] ++ us from u1] at ht; exact ht)) M' h2 h3
  show Q a (runTasks s ts)
  rw [← this]
  exact h4 M' h2 h3

theorem cg_solve_of {n : Nat} {j : Nat} {c : CG Scalar} {e : Emit P V} (h : cg A G pl base j ⟨n, []⟩ = some (c, e)) :
    ∃ pl', pl.allocateWorkspace G base 3 = some pl' ∧ CG.solve (plannerOps A G.toEnv pl') j ⟨n, []⟩ = some (c, e) := by
  obtain ⟨pl', e1, h1, h2⟩ := bind_some h
  unfold allocate at h1
  obtain ⟨pl'', h3, h4⟩ := Option.map_eq_some_iff.1 h1
  cases h4
  exact ⟨pl', h3, h2⟩

theorem solve_cg {n : Nat} {j : Nat} {pl' : Planner K P V} (hal : pl.allocateWorkspace G base 3 = some pl') :
    cg A G pl base j ⟨n, []⟩ = CG.solve (plannerOps A G.toEnv pl') j ⟨n, []⟩ :=
  bind_eq (show allocate G pl base 3 ⟨n, []⟩ = some (pl', ⟨n, []⟩) by unfold allocate; rw [hal]; rfl)

theorem hon_cg (j : Nat) : Hon (cg A G pl base j) := Hon.client (.cg pl base j)

theorem loop_reaches {n : Nat} {s : Cell P → V} {ρ : Nat → V} {k : Nat}
    (hρ : ∀ j, j ≤ k → Ensures (cg A G pl base j) n s fun c s' => s' (.fut c.last.fut) = ρ j)
    (hgo : ∀ j, j < k → goOn j (ρ j) = true) : ∃ pl' c e, cg A G pl base k ⟨n, []⟩ = some (c, e) ∧ runTasks s e.out (.fut c.last.fut) = ρ k ∧
      Alone.Steps (cgLoop A G pl base goOn) (1 + 2 * k) ⟨.start, [], n, s⟩ ⟨.check pl' c k, (List.range k).map ρ, e.next, runTasks s e.out⟩ := by
  obtain ⟨c, e, h1, h2⟩ := ensures_run (hon_cg k) (hρ k (Nat.le_refl k))
  obtain ⟨pl', hal, h3⟩ := cg_solve_of h1
  refine ⟨pl', c, e, h1, h2, loop_alone hal k c e h3 (fun j hj c' e' h => ?_) hgo⟩
  obtain ⟨c2, e2, g1, g2⟩ := ensures_run (hon_cg j) (hρ j (by omega))
  rw [solve_cg hal, h] at g1
  cases g1
  exact g2

/-- **C80**: if a program with `j` steps finds the value `ρ j` recorded last, for every `j ≤ k`, and the test says to go on for the first
`k` of these values and to stop for `ρ k`, then every execution of the loop ends after exactly `k` steps, has looked at
`ρ 0, …, ρ k`, and leaves in memory what the program with `k` steps leaves there. -/
theorem c80_loop {n : Nat} {s : Cell P → V} {ρ : Nat → V} {k : Nat}
    (hρ : ∀ j, j ≤ k → Ensures (cg A G pl base j) n s fun c s' => s' (.fut c.last.fut) = ρ j)
    (hgo : ∀ j, j < k → goOn j (ρ j) = true) (hstop : goOn k (ρ k) = false)
    {Q : CG Scalar → (Cell P → V) → Prop} (hQ : Ensures (cg A G pl base k) n s Q) :
    Ends (cgLoop A G pl base goOn) .start n s fun ctl seen s' =>
      (∃ pl' c, ctl = .stop pl' c k ∧ Q c s') ∧ seen = (List.range (k + 1)).map ρ := by
  obtain ⟨pl', c, e, h1, h2, h3⟩ := loop_reaches (goOn := goOn) hρ hgo
  have s1 : Alone.Step (cgLoop A G pl base goOn) ⟨.check pl' c k, (List.range k).map ρ, e.next, runTasks s e.out⟩
      ⟨.stop pl' c k, (List.range (k + 1)).map ρ, e.next, runTasks s e.out⟩ := by
    have := Alone.Step.get (p := cgLoop A G pl base goOn) (c := .check pl' c k) (l := (List.range k).map ρ) (n := e.next)
      (s := runTasks s e.out) rfl
    rw [h2, if_neg (by rw [hstop]; decide)] at this
    rw [List.range_succ, List.map_append]
    exact this
  obtain ⟨g1, g2, g3⟩ := c79_terminates (cgLoop_library A G pl base goOn) _ n s (h3.tail s1) rfl
  refine ⟨g1, g2, fun i w hw he => ?_⟩
  obtain ⟨f1, f2, f3⟩ := g3 i w hw he
  obtain ⟨c', e', q1, q2⟩ := ensures_run (hon_cg k) hQ
  rw [h1] at q1
  cases q1
  refine ⟨⟨pl', c, f1, ?_⟩, f2⟩
  rw [f3]
  exact q2

/-- **C80**: if the test says to go on for every value recorded, the loop never ends. -/
theorem c80_never_ends {n : Nat} {s : Cell P → V} {ρ : Nat → V}
    (hρ : ∀ j, Ensures (cg A G pl base j) n s fun c s' => s' (.fut c.last.fut) = ρ j)
    (hgo : ∀ j, goOn j (ρ j) = true) : RunsForever (cgLoop A G pl base goOn) .start n s := by
  refine c79_runs_forever (cgLoop_library A G pl base goOn) _ n s fun j => ?_
  obtain ⟨pl', c, e, -, -, h3⟩ := loop_reaches (goOn := goOn) (k := j) (fun i _ => hρ i) (fun i _ => hgo i)
  obtain ⟨a, h4, -⟩ := h3.prefix j (by omega)
  exact ⟨a, h4⟩

end Verif.Interactive
