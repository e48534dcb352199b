import Verif.App.Foot
import Verif.Solver.Calls

/-! # C85: a solver inside an application that launches tasks of its own -/
set_option linter.unusedSectionVars false
namespace Verif.App
open Verif.Runtime Verif.Vector Verif.Matrix Verif.Planner Verif.Solver
variable {K P V : Type} [DecidableEq P] [DecidableEq K]

/-! ## With and without the application's tasks -/

/-- `ts` is `ts0` with tasks inserted that declare to write only `W`. -/
inductive Merge (W : Cell P → Prop) : List (Task (Cell P) V) → List (Task (Cell P) V) → Prop
  | nil : Merge W [] []
  | lib (t : Task (Cell P) V) {ts ts0} : t.Honest → Merge W ts ts0 → Merge W (t :: ts) (t :: ts0)
  | app (t : Task (Cell P) V) {ts ts0} : t.Honest → (∀ c, t.writes c → W c) → Merge W ts ts0 → Merge W (t :: ts) ts0

namespace Merge
variable {W : Cell P → Prop}

theorem refl : ∀ {ts : List (Task (Cell P) V)}, (∀ t ∈ ts, t.Honest) → Merge W ts ts
  | [], _ => .nil
  | t :: _, h => .lib t (h t (by simp)) (refl fun u hu => h u (by simp [hu]))

theorem append {a a0 b b0 : List (Task (Cell P) V)} (h : Merge W a a0) (h' : Merge W b b0) : Merge W (a ++ b) (a0 ++ b0) := by
  induction h with
  | nil => exact h'
  | lib t ht _ ih => exact .lib t ht ih
  | app t ht hw _ ih => exact .app t ht hw ih

theorem honest {a a0 : List (Task (Cell P) V)} (h : Merge W a a0) : (∀ t ∈ a, t.Honest) ∧ ∀ t ∈ a0, t.Honest := by
  induction h with
  | nil => exact ⟨by simp, by simp⟩
  | lib t ht _ ih =>
    refine ⟨fun u hu => ?_, fun u hu => ?_⟩ <;> rcases List.mem_cons.1 hu with rfl | hu
    · exact ht
    · exact ih.1 u hu
    · exact ht
    · exact ih.2 u hu
  | app t ht _ _ ih =>
    refine ⟨fun u hu => ?_, ih.2⟩
    rcases List.mem_cons.1 hu with rfl | hu
    · exact ht
    · exact ih.1 u hu

end Merge

/-- Assignments only change what they declare to write. -/
theorem runUpdates_writes {t : Task (Cell P) V} : ∀ {us : List (Update (Cell P) V)}, (∀ u ∈ us, u.Within t.reads t.writes) →
    ∀ (s : Cell P → V) (c : Cell P), ¬ t.writes c → runUpdates s us c = s c
  | [], _, _, _, _ => rfl
  | u :: us, h, s, c, hc => by
    show runUpdates (u.exec s) us c = _
    rw [runUpdates_writes (t := t) (fun v hv => h v (by simp [hv])) _ c hc]
    unfold Update.exec
    rw [if_neg]
    rintro rfl
    exact hc (h u (by simp)).1

/-- Assignments that do not read `W` have the same effect outside `W`. -/
theorem runUpdates_agree {W : Cell P → Prop} {t : Task (Cell P) V} (hr : ∀ c, W c → ¬ t.reads c) :
    ∀ {us : List (Update (Cell P) V)}, (∀ u ∈ us, u.Within t.reads t.writes) → ∀ (s s' : Cell P → V), (∀ c, ¬ W c → s c = s' c) →
      ∀ c, ¬ W c → runUpdates s us c = runUpdates s' us c
  | [], _, _, _, hs, c, hc => hs c hc
  | u :: us, h, s, s', hs, c, hc => by
    refine runUpdates_agree hr (us := us) (fun v hv => h v (by simp [hv])) (u.exec s) (u.exec s') (fun c hc => ?_) c hc
    unfold Update.exec
    split
    · exact (h u (by simp)).2 _ _ fun c' hc' => hs c' fun hw => hr c' hw hc'
    · exact hs c hc

theorem Merge.agree {W : Cell P → Prop} {ts ts0 : List (Task (Cell P) V)} (h : Merge W ts ts0)
    (h0 : ∀ t ∈ ts0, ∀ c, W c → ¬ t.reads c) : ∀ (s s' : Cell P → V), (∀ c, ¬ W c → s c = s' c) →
      ∀ c, ¬ W c → runTasks s ts c = runTasks s' ts0 c := by
  induction h with
  | nil => intro s s' hs c hc; exact hs c hc
  | lib t ht _ ih =>
    intro s s' hs c hc
    exact ih (fun u hu => h0 u (by simp [hu])) _ _ (runUpdates_agree (h0 t (by simp)) ht s s' hs) c hc
  | app t ht hw _ ih =>
    intro s s' hs c hc
    refine ih h0 _ s' (fun c hc => ?_) c hc
    beta_reduce
    rw [runUpdates_writes (t := t) ht s c fun h => hc (hw c h)]
    exact hs c hc

/-- What running a program with and without its tasks has in common. -/
def Sim {α : Type} (W : Cell P → Prop) (m : (Task (Cell P) V → M P V Unit) → M P V α) : Prop :=
  ∀ n, (∀ out, full m ⟨n, out⟩ = none ∧ bare m ⟨n, out⟩ = none) ∨
    ∃ a n' ts ts0, Merge W ts ts0 ∧ ∀ out, full m ⟨n, out⟩ = some (a, ⟨n', out ++ ts⟩) ∧ bare m ⟨n, out⟩ = some (a, ⟨n', out ++ ts0⟩)

theorem AppProgram.sim {A : Arith V} {G : Geometry P} {W : Cell P → Prop} {α : Type}
    {m : (Task (Cell P) V → M P V Unit) → M P V α} (h : AppProgram K A G W m) : Sim W m := by
  induction h with
  | call h =>
    rename_i m
    intro n
    have hh := Hon.client h
    cases hm : m ⟨n, []⟩ with
    | none =>
      left
      intro out
      have : m ⟨n, out⟩ = none := by
        cases hm' : m ⟨n, out⟩ with
        | none => rfl
        | some r =>
          obtain ⟨a, e'⟩ := r
          obtain ⟨ts, -, -, hu⟩ := hh _ _ _ hm'
          rw [hu []] at hm
          cases hm
      exact ⟨this, this⟩
    | some r =>
      obtain ⟨a, e'⟩ := r
      obtain ⟨ts, he, hon, hu⟩ := hh _ _ _ hm
      exact .inr ⟨a, e'.next, ts, ts, .refl hon, fun out => ⟨hu out, hu out⟩⟩
  | task t ht hw =>
    intro n
    exact .inr ⟨(), n, [t], [], .app t ht hw .nil, fun out => ⟨rfl, by rw [List.append_nil]; rfl⟩⟩
  | andThen _ _ ih ih' =>
    rename_i m f _ _
    intro n
    rcases ih n with h | ⟨a, n', ts, ts0, hm, h⟩
    · left
      intro out
      refine ⟨?_, ?_⟩
      · show (full m ⟨n, out⟩).bind _ = none
        rw [(h out).1]; rfl
      · show (bare m ⟨n, out⟩).bind _ = none
        rw [(h out).2]; rfl
    · rcases ih' a n' with h' | ⟨b, n'', us, us0, hm', h'⟩
      · left
        intro out
        refine ⟨?_, ?_⟩
        · show (full m ⟨n, out⟩).bind _ = none
          rw [(h out).1]; exact (h' _).1
        · show (bare m ⟨n, out⟩).bind _ = none
          rw [(h out).2]; exact (h' _).2
      · refine .inr ⟨b, n'', ts ++ us, ts0 ++ us0, hm.append hm', fun out => ⟨?_, ?_⟩⟩
        · show (full m ⟨n, out⟩).bind _ = _
          rw [(h out).1, ← List.append_assoc]; exact (h' _).1
        · show (bare m ⟨n, out⟩).bind _ = _
          rw [(h out).2, ← List.append_assoc]; exact (h' _).2

/-- **C85**: a program of library calls with tasks of the application launched anywhere in between behaves, for the library, like the
program without them: it stops at a failed assertion exactly when that does, its calls return the same handles, and if no task the library
launches reads a cell the application's tasks write, then, whatever the two schedules, every other cell ends with the same value. -/
theorem c85_application_tasks (A : Arith V) (G : Geometry P) (W : Cell P → Prop) {α : Type}
    (m : (Task (Cell P) V → M P V Unit) → M P V α) (h : AppProgram K A G W m) (n : Nat) :
    ((full m ⟨n, []⟩).isNone ↔ (bare m ⟨n, []⟩).isNone) ∧
    ∀ a e0, bare m ⟨n, []⟩ = some (a, e0) → (∀ t ∈ e0.out, ∀ c, W c → ¬ t.reads c) →
      ∃ e, full m ⟨n, []⟩ = some (a, e) ∧ ∀ (s : Cell P → V) (M M0 : Machine (Cell P) V), (Machine.start s e.out).Steps M → M.Done →
        (Machine.start s e0.out).Steps M0 → M0.Done → ∀ c, ¬ W c → M.store c = M0.store c := by
  rcases h.sim n with h | ⟨a, n', ts, ts0, hm, h⟩
  · rw [(h []).1, (h []).2]
    exact ⟨Iff.rfl, fun a e0 h => by cases h⟩
  · rw [(h []).1, (h []).2]
    refine ⟨by simp, fun a' e0 he h0 => ?_⟩
    obtain ⟨rfl, rfl⟩ := Prod.mk.inj (Option.some.inj he)
    refine ⟨_, rfl, fun s M M0 hs hd hs0 hd0 c hc => ?_⟩
    have e1 := c42_any_schedule s ([] ++ ts) (hm.honest.1) M hs hd
    have e2 := c42_any_schedule s ([] ++ ts0) (hm.honest.2) M0 hs0 hd0
    rw [e1, e2]
    exact hm.agree h0 s s (fun _ _ => rfl) c hc

/-- **C85**, what an application task sees: a task launched between two parts of a program works on memory that agrees, outside the
application's own data, with the end of the first part run alone, whatever the second part does and however the tasks are interleaved. -/
theorem c85_application_sees (A : Arith V) (G : Geometry P) (W W2 : Cell P → Prop) {α β : Type}
    (m1 : (Task (Cell P) V → M P V Unit) → M P V α) (h1 : AppProgram K A G W m1) (t : α → Task (Cell P) V) (ht : ∀ a, (t a).Honest)
    (m2 : α → (Task (Cell P) V → M P V Unit) → M P V β) (h2 : ∀ a, AppProgram K A G W2 (m2 a)) (n : Nat) (a : α) (e1 : Emit P V)
    (hm1 : bare m1 ⟨n, []⟩ = some (a, e1)) (hW : ∀ u ∈ e1.out, ∀ c, W c → ¬ u.reads c) (b : β) (e2 : Emit P V)
    (hm2 : bare (m2 a) ⟨e1.next, []⟩ = some (b, e2)) :
    ∃ e, full (fun L => m1 L >>= fun a => L (t a) >>= fun _ => m2 a L) ⟨n, []⟩ = some (b, e) ∧
      ∀ (s : Cell P → V) (M M1 : Machine (Cell P) V), (Machine.start s e.out).Steps M → M.Done →
        (Machine.start s e1.out).Steps M1 → M1.Done →
        ∃ seen : Cell P → V, (∀ c, ¬ W c → seen c = M1.store c) ∧
          ∀ c, (t a).writes c → ¬ W2 c → (∀ u ∈ e2.out, ¬ u.writes c) → M.store c = runUpdates seen (t a).body c := by
  rcases h1.sim n with h | ⟨a', n', ts, ts0, hm, h⟩
  · rw [(h []).2] at hm1; cases hm1
  rw [(h []).2] at hm1
  obtain ⟨rfl, rfl⟩ := Prod.mk.inj (Option.some.inj hm1)
  rcases (h2 a').sim n' with h' | ⟨b', n'', us, us0, hm', h'⟩
  · rw [(h' []).2] at hm2; cases hm2
  rw [(h' []).2] at hm2
  obtain ⟨rfl, rfl⟩ := Prod.mk.inj (Option.some.inj hm2)
  refine ⟨⟨n'', (ts ++ [t a']) ++ us⟩, ?_, fun s M M1 hs hd hs1 hd1 => ?_⟩
  · show (full m1 ⟨n, []⟩).bind _ = _
    rw [(h []).1]
    exact (h' _).1
  have e1 := c42_any_schedule s ((ts ++ [t a']) ++ us) (by
    intro u hu
    rcases List.mem_append.1 hu with hu | hu
    · rcases List.mem_append.1 hu with hu | hu
      · exact hm.honest.1 u hu
      · obtain rfl := List.mem_singleton.1 hu; exact ht a'
    · exact hm'.honest.1 u hu) M hs hd
  have e2 := c42_any_schedule s ([] ++ ts0) (hm.honest.2) M1 hs1 hd1
  refine ⟨runTasks s ts, fun c hc => ?_, fun c hc hc2 hu => ?_⟩
  · rw [e2]
    exact hm.agree hW s s (fun _ _ => rfl) c hc
  · rw [e1, runTasks_append, runTasks_append]
    have key : ∀ {us us0 : List (Task (Cell P) V)}, Merge W2 us us0 → (∀ u ∈ us0, ¬ u.writes c) → ∀ s : Cell P → V,
        runTasks s us c = s c := by
      intro us us0 hm
      induction hm with
      | nil => intro _ s; rfl
      | lib u hu _ ih =>
        intro h s
        rw [runTasks_cons, ih (fun v hv => h v (by simp [hv])), runUpdates_writes (t := u) hu s c (h u (by simp))]
      | app u hu hw _ ih =>
        intro h s
        rw [runTasks_cons, ih h, runUpdates_writes (t := u) hu s c fun h => hc2 (hw c h)]
    rw [key hm' hu]
    rfl

/-! ## Solvers -/

/-- The application's tasks do only what they declare, and write only elements of data that are not the planner's. -/
def Apart {α : Type} (pl : Planner K P V) (ts : Nat → α → List (Task (Cell P) V)) : Prop :=
  ∀ j c, ∀ t ∈ ts j c, t.Honest ∧ ∀ cell, t.writes cell → ∃ d p, cell = .elem d p ∧ ¬ Owns pl d

/-- The cells the application's tasks write. -/
def Written {α : Type} (ts : Nat → α → List (Task (Cell P) V)) (c : Cell P) : Prop := ∃ j a, ∃ t ∈ ts j a, t.writes c

theorem AppProgram.launchAll {A : Arith V} {G : Geometry P} {W : Cell P → Prop} : ∀ {ts : List (Task (Cell P) V)},
    (∀ t ∈ ts, t.Honest ∧ ∀ c, t.writes c → W c) → AppProgram K A G W fun L => launchAll L ts
  | [], _ => .call (.done ())
  | t :: ts, h => .andThen (f := fun _ L => App.launchAll L ts) (.task t (h t (by simp)).1 (h t (by simp)).2)
      fun _ => launchAll fun u hu => h u (by simp [hu])

theorem AppProgram.steps {A : Arith V} {G : Geometry P} {W : Cell P → Prop} {α : Type} {step : α → M P V α}
    (hs : ∀ c, Client K A G (step c)) {ts : Nat → α → List (Task (Cell P) V)}
    (h : ∀ j c, ∀ t ∈ ts j c, t.Honest ∧ ∀ c, t.writes c → W c) : ∀ k j c, AppProgram K A G W fun L => steps L step ts j k c
  | 0, _, c => .call (.done c)
  | k + 1, j, c => .andThen (f := fun c' L => App.launchAll L (ts (j + 1) c') >>= fun _ => App.steps L step ts (j + 1) k c') (.call (hs c))
      fun c' => .andThen (f := fun _ L => App.steps L step ts (j + 1) k c') (.launchAll (h (j + 1) c')) fun _ => steps hs h k (j + 1) c'

theorem bare_launchAll : ∀ ts : List (Task (Cell P) V), launchAll (fun _ => pure ()) ts = (pure () : M P V Unit)
  | [] => rfl
  | _ :: ts => bare_launchAll ts

theorem bare_steps {α : Type} (step : α → M P V α) (ts : Nat → α → List (Task (Cell P) V)) : ∀ k j c,
    steps (fun _ => pure ()) step ts j k c = Solver.repeatM step k c
  | 0, _, _ => rfl
  | k + 1, j, c => by
    unfold steps Solver.repeatM
    congr 1
    funext c'
    rw [bare_launchAll]
    exact bare_steps step ts k (j + 1) c'

/-- The constructors are client calls too. -/
theorem client_init {A : Arith V} {G : Geometry P} (pl : Planner K P V) : Client K A G (CG.init (plannerOps A G.toEnv pl)) ∧
    Client K A G (BiCGStab.init (plannerOps A G.toEnv pl)) ∧ ∀ r, Client K A G (GMRES.init (plannerOps A G.toEnv pl) r) := by
  refine ⟨?_, ?_, fun r => ?_⟩
  · exact .andThen (.scalarOf _) fun _ => .andThen (.pCopy pl _ _) fun _ => .andThen (.pCopy pl _ _) fun _ =>
      .andThen (.pDot pl _ _) fun _ => .done _
  · exact .andThen (.scalarOf _) fun _ => .andThen (.scalarOf _) fun _ => .andThen (.scalarOf _) fun _ =>
      .andThen (.pCopy pl _ _) fun _ => .andThen (.pCopy pl _ _) fun _ =>
      .andThen (.pZeroFill pl _) fun _ => .andThen (.pZeroFill pl _) fun _ => .done _
  · have hz : ∀ n, Client K A G (zeros (plannerOps A G.toEnv pl) n) := by
      intro n
      induction n with
      | zero => exact .done _
      | succ n ih => exact .andThen (.scalarOf _) fun _ => .andThen ih fun _ => .done _
    exact .andThen (.scalarOf _) fun _ => .andThen (hz _) fun _ => .andThen (hz _) fun _ => .andThen (hz _) fun _ => .done _

theorem app_cg (A : Arith V) (G : Geometry P) (pl : Planner K P V) (base k : Nat) (ts : Nat → CG Scalar → List (Task (Cell P) V))
    {W : Cell P → Prop} (h : ∀ j c, ∀ t ∈ ts j c, t.Honest ∧ ∀ c, t.writes c → W c) :
    AppProgram K A G W (cgWith A G pl base k ts) :=
  .andThen (f := fun pl' L => CG.init (plannerOps A G.toEnv pl') >>= fun c => launchAll L (ts 0 c) >>= fun _ =>
      steps L (CG.step (plannerOps A G.toEnv pl')) ts 0 k c) (.call (.allocate pl base 3)) fun pl' =>
    .andThen (f := fun c L => launchAll L (ts 0 c) >>= fun _ => steps L (CG.step (plannerOps A G.toEnv pl')) ts 0 k c)
      (.call (client_init pl').1) fun c =>
    .andThen (f := fun _ L => steps L (CG.step (plannerOps A G.toEnv pl')) ts 0 k c) (.launchAll (h 0 c)) fun _ =>
      .steps (fun c => .cgStep pl' c) h k 0 c

theorem app_bi (A : Arith V) (G : Geometry P) (pl : Planner K P V) (base k : Nat) (ts : Nat → BiCGStab Scalar → List (Task (Cell P) V))
    {W : Cell P → Prop} (h : ∀ j c, ∀ t ∈ ts j c, t.Honest ∧ ∀ c, t.writes c → W c) :
    AppProgram K A G W (biCGStabWith A G pl base k ts) :=
  .andThen (f := fun pl' L => BiCGStab.init (plannerOps A G.toEnv pl') >>= fun c => launchAll L (ts 0 c) >>= fun _ =>
      steps L (BiCGStab.step (plannerOps A G.toEnv pl')) ts 0 k c) (.call (.allocate pl base 5)) fun pl' =>
    .andThen (f := fun c L => launchAll L (ts 0 c) >>= fun _ => steps L (BiCGStab.step (plannerOps A G.toEnv pl')) ts 0 k c)
      (.call (client_init pl').2.1) fun c =>
    .andThen (f := fun _ L => steps L (BiCGStab.step (plannerOps A G.toEnv pl')) ts 0 k c) (.launchAll (h 0 c)) fun _ =>
      .steps (fun c => .biCGStabStep pl' c) h k 0 c

theorem app_gmres (A : Arith V) (G : Geometry P) (pl : Planner K P V) (base r k : Nat) (ts : Nat → GMRES Scalar → List (Task (Cell P) V))
    {W : Cell P → Prop} (h : ∀ j c, ∀ t ∈ ts j c, t.Honest ∧ ∀ c, t.writes c → W c) :
    AppProgram K A G W (gmresWith A G pl base r k ts) :=
  .andThen (f := fun pl' L => GMRES.init (plannerOps A G.toEnv pl') r >>= fun c => launchAll L (ts 0 c) >>= fun _ =>
      steps L (GMRES.step (plannerOps A G.toEnv pl')) ts 0 k c) (.call (.allocate pl base (r + 1))) fun pl' =>
    .andThen (f := fun c L => launchAll L (ts 0 c) >>= fun _ => steps L (GMRES.step (plannerOps A G.toEnv pl')) ts 0 k c)
      (.call ((client_init pl').2.2 r)) fun c =>
    .andThen (f := fun _ L => steps L (GMRES.step (plannerOps A G.toEnv pl')) ts 0 k c) (.launchAll (h 0 c)) fun _ =>
      .steps (fun c => .gmresStep pl' c) h k 0 c

theorem bare_cg (A : Arith V) (G : Geometry P) (pl : Planner K P V) (base k : Nat) (ts : Nat → CG Scalar → List (Task (Cell P) V)) :
    bare (cgWith A G pl base k ts) = cg A G pl base k := by
  unfold bare cgWith cg CG.solve
  congr 1; funext pl'; congr 1; funext c
  rw [bare_launchAll]
  exact bare_steps _ _ _ _ _

theorem bare_bi (A : Arith V) (G : Geometry P) (pl : Planner K P V) (base k : Nat)
    (ts : Nat → BiCGStab Scalar → List (Task (Cell P) V)) : bare (biCGStabWith A G pl base k ts) = biCGStab A G pl base k := by
  unfold bare biCGStabWith biCGStab BiCGStab.solve
  congr 1; funext pl'; congr 1; funext c
  rw [bare_launchAll]
  exact bare_steps _ _ _ _ _

theorem bare_gmres (A : Arith V) (G : Geometry P) (pl : Planner K P V) (base r k : Nat)
    (ts : Nat → GMRES Scalar → List (Task (Cell P) V)) : bare (gmresWith A G pl base r k ts) = gmres A G pl base r k := by
  unfold bare gmresWith gmres GMRES.solve
  congr 1; funext pl'; congr 1; funext c
  rw [bare_launchAll]
  exact bare_steps _ _ _ _ _

/-- A program that first allocates. -/
theorem foot_alloc {G : Geometry P} {pl pl' : Planner K P V} {base nw : Nat} (S : pl.allocateWorkspace G base nw = some pl') {α : Type}
    {f : Planner K P V → M P V α} (h : Foot (Owns pl') (f pl')) : Foot (Owns pl') (allocate G pl base nw >>= f) := by
  intro e b e'' hh
  obtain ⟨⟨p, e'⟩, h1, h2⟩ := Option.bind_eq_some_iff.1
    (show (allocate G pl base nw e).bind (fun p => f p.1 p.2) = some (b, e'') from hh)
  obtain ⟨q, hq, h3⟩ := Option.map_eq_some_iff.1 h1
  rw [S] at hq
  obtain rfl := Option.some.inj hq
  obtain ⟨rfl, rfl⟩ := Prod.mk.inj h3
  exact h e b e'' h2

theorem foot_cg {A : Arith V} {G : Geometry P} {pl pl' : Planner K P V} {base : Nat} (S : SolverSetup G pl pl' base 3) (k : Nat) :
    Foot (Owns pl') (cg A G pl base k) := by
  have H := Foot.plannerOps (I := fun _ => True) pl' A G.toEnv
  exact foot_alloc S.alloc ((Foot.cgInit H (fun _ => trivial)).bind fun c => Foot.repeatM (Foot.cgStep H (fun _ _ => trivial)) k c)

theorem foot_bi {A : Arith V} {G : Geometry P} {pl pl' : Planner K P V} {base : Nat} (S : SolverSetup G pl pl' base 5) (k : Nat) :
    Foot (Owns pl') (biCGStab A G pl base k) := by
  have H := Foot.plannerOps (I := fun _ => True) pl' A G.toEnv
  exact foot_alloc S.alloc ((Foot.biInit H (fun _ => trivial)).bind fun c => Foot.repeatM (Foot.biStep H (fun _ _ => trivial)) k c)

theorem foot_gmres {A : Arith V} {G : Geometry P} {pl pl' : Planner K P V} {base r : Nat} (S : SolverSetup G pl pl' base (r + 1)) (k : Nat) :
    Foot (Owns pl') (gmres A G pl base r k) := by
  have H := Foot.plannerOps (I := fun _ => True) pl' A G.toEnv
  exact foot_alloc S.alloc ((Foot.gmresInit H (fun _ => trivial) r).bind fun c => Foot.repeatM (Foot.gmresStep H (fun _ => trivial)) k c)

theorem apart_written {α : Type} {pl : Planner K P V} {ts : Nat → α → List (Task (Cell P) V)} (h : Apart pl ts) :
    ∀ j c, ∀ t ∈ ts j c, t.Honest ∧ ∀ c, t.writes c → Written ts c :=
  fun j c t ht => ⟨(h j c t ht).1, fun _ hc => ⟨j, c, t, ht, hc⟩⟩

theorem apart_touch {α β : Type} {pl : Planner K P V} {ts : Nat → α → List (Task (Cell P) V)} (h : Apart pl ts) {m : M P V β}
    (hf : Foot (Owns pl) m) {n : Nat} {b : β} {e : Emit P V} (he : m ⟨n, []⟩ = some (b, e)) :
    ∀ t ∈ e.out, ∀ c, Written ts c → ¬ t.reads c ∧ ¬ t.writes c := by
  intro t ht c ⟨j, a, u, hu, hc⟩
  obtain ⟨d, p, rfl, hd⟩ := (h j a u hu).2 c hc
  obtain ⟨us, e1, h1⟩ := hf _ _ _ he
  have := h1 t (by rw [e1] at ht; exact ht) d p
  exact ⟨fun h => hd (this (.inl h)), fun h => hd (this (.inr h))⟩

/-- **C85** for CG, any arithmetic and data: whatever tasks the application launches after the construction and between the steps (they may
read anything, also the solver's vectors and recorded scalars), as long as they write only data that is not the planner's, the solver
returns the same handles and every cell the application does not write (solution, right-hand side, workspace, recorded scalars, all other
data) ends, under every schedule, as in the run of the solver alone. -/
theorem c85_cg (A : Arith V) {G : Geometry P} {pl pl' : Planner K P V} {base : Nat} (S : SolverSetup G pl pl' base 3)
    (ts : Nat → CG Scalar → List (Task (Cell P) V)) (hts : Apart pl' ts) (k n : Nat) :
    ∃ c e0 e, cg A G pl base k ⟨n, []⟩ = some (c, e0) ∧ full (cgWith A G pl base k ts) ⟨n, []⟩ = some (c, e) ∧
      ∀ (s : Cell P → V) (M M0 : Machine (Cell P) V), (Machine.start s e.out).Steps M → M.Done →
        (Machine.start s e0.out).Steps M0 → M0.Done → ∀ cell, ¬ Written ts cell → M.store cell = M0.store cell := by
  obtain ⟨c, n', us, h0, -⟩ := c40_cg A S k n (fun _ => A.zero)
  obtain ⟨e, he, hh⟩ := (c85_application_tasks A G (Written ts) _ (app_cg A G pl base k ts (apart_written hts)) n).2 c _
    (by rw [bare_cg]; exact h0) (fun t ht c hc => (apart_touch hts (foot_cg S k) h0 t ht c hc).1)
  exact ⟨c, _, e, h0, he, hh⟩

/-- The same for BiCGStab. -/
theorem c85_bicgstab (A : Arith V) {G : Geometry P} {pl pl' : Planner K P V} {base : Nat} (S : SolverSetup G pl pl' base 5)
    (ts : Nat → BiCGStab Scalar → List (Task (Cell P) V)) (hts : Apart pl' ts) (k n : Nat) :
    ∃ c e0 e, biCGStab A G pl base k ⟨n, []⟩ = some (c, e0) ∧ full (biCGStabWith A G pl base k ts) ⟨n, []⟩ = some (c, e) ∧
      ∀ (s : Cell P → V) (M M0 : Machine (Cell P) V), (Machine.start s e.out).Steps M → M.Done →
        (Machine.start s e0.out).Steps M0 → M0.Done → ∀ cell, ¬ Written ts cell → M.store cell = M0.store cell := by
  obtain ⟨c, n', us, h0, -⟩ := c40_bicgstab A S k n (fun _ => A.zero)
  obtain ⟨e, he, hh⟩ := (c85_application_tasks A G (Written ts) _ (app_bi A G pl base k ts (apart_written hts)) n).2 c _
    (by rw [bare_bi]; exact h0) (fun t ht c hc => (apart_touch hts (foot_bi S k) h0 t ht c hc).1)
  exact ⟨c, _, e, h0, he, hh⟩

/-- The same for GMRES. -/
theorem c85_gmres (A : Arith V) {G : Geometry P} {pl pl' : Planner K P V} {base r : Nat} (S : SolverSetup G pl pl' base (r + 1))
    (ts : Nat → GMRES Scalar → List (Task (Cell P) V)) (hts : Apart pl' ts) (k n : Nat) :
    ∃ c e0 e, gmres A G pl base r k ⟨n, []⟩ = some (c, e0) ∧ full (gmresWith A G pl base r k ts) ⟨n, []⟩ = some (c, e) ∧
      ∀ (s : Cell P → V) (M M0 : Machine (Cell P) V), (Machine.start s e.out).Steps M → M.Done →
        (Machine.start s e0.out).Steps M0 → M0.Done → ∀ cell, ¬ Written ts cell → M.store cell = M0.store cell := by
  obtain ⟨c, n', us, h0, -⟩ := c40_gmres A S k n (fun _ => A.zero)
  obtain ⟨e, he, hh⟩ := (c85_application_tasks A G (Written ts) _ (app_gmres A G pl base r k ts (apart_written hts)) n).2 c _
    (by rw [bare_gmres]; exact h0) (fun t ht c hc => (apart_touch hts (foot_gmres S k) h0 t ht c hc).1)
  exact ⟨c, _, e, h0, he, hh⟩

/-! ## Checkpoints -/

theorem repeatM_split {α : Type} (f : α → M P V α) : ∀ (j k : Nat) (c : α),
    Solver.repeatM f (j + k) c = Solver.repeatM f j c >>= Solver.repeatM f k
  | 0, k, c => by rw [Nat.zero_add]; rfl
  | j + 1, k, c => by
    rw [Nat.add_right_comm]
    funext e
    show (f c e).bind _ = ((f c e).bind _).bind _
    rw [Option.bind_assoc]
    congr 1
    funext r
    exact congrFun (repeatM_split f j k r.1) r.2

/-- The application's checkpoint task does only what it declares and writes only elements of data that are not the planner's and that
the tasks launched later do not write. -/
def Checkpoint {α : Type} (pl : Planner K P V) (later : Nat → α → List (Task (Cell P) V)) (snap : α → Task (Cell P) V) : Prop :=
  ∀ c, (snap c).Honest ∧ ∀ cell, (snap c).writes cell → (∃ d p, cell = .elem d p ∧ ¬ Owns pl d) ∧ ¬ Written later cell

theorem checkpoint {A : Arith V} {G : Geometry P} {pl' : Planner K P V} {α : Type} {step : α → M P V α}
    (hstep : ∀ c, Client K A G (step c)) (hfs : ∀ c, Foot (Owns pl') (step c)) {sv : M P V α}
    {svw : (Task (Cell P) V → M P V Unit) → M P V α} {ts ts' : Nat → α → List (Task (Cell P) V)} (hts : Apart pl' ts) (hts' : Apart pl' ts')
    (happ : AppProgram K A G (Written ts) svw) (hbare : bare svw = sv) (hf : Foot (Owns pl') sv) {n k : Nat}
    {r : α × Emit P V} (htot : (sv >>= Solver.repeatM step k) ⟨n, []⟩ = some r) {snap : α → Task (Cell P) V}
    (hsnap : Checkpoint pl' ts' snap) :
    ∃ c1 e1 e, sv ⟨n, []⟩ = some (c1, e1) ∧
      full (fun L => svw L >>= fun c => L (snap c) >>= fun _ => steps L step ts' 0 k c) ⟨n, []⟩ = some (r.1, e) ∧
      ∀ (s : Cell P → V) (M M1 : Machine (Cell P) V), (Machine.start s e.out).Steps M → M.Done →
        (Machine.start s e1.out).Steps M1 → M1.Done →
        ∃ seen : Cell P → V, (∀ cell, ¬ Written ts cell → seen cell = M1.store cell) ∧
          ∀ cell, (snap c1).writes cell → M.store cell = runUpdates seen (snap c1).body cell := by
  obtain ⟨⟨c1, e1⟩, h1, h2⟩ := Option.bind_eq_some_iff.1
    (show (sv ⟨n, []⟩).bind (fun p => Solver.repeatM step k p.1 p.2) = some r from htot)
  obtain ⟨us, -, -, hu⟩ := Hon.repeatM (fun c => Hon.client (hstep c)) k c1 e1 r.1 r.2 h2
  obtain ⟨e, he, hh⟩ := c85_application_sees A G (Written ts) (Written ts') svw happ snap (fun c => (hsnap c).1)
    (fun c L => steps L step ts' 0 k c) (fun c => .steps hstep (apart_written hts') k 0 c) n c1 e1 (by rw [hbare]; exact h1)
    (fun t ht c hc => (apart_touch hts hf h1 t ht c hc).1) r.1 _ (by
      show steps (fun _ => pure ()) step ts' 0 k c1 ⟨e1.next, []⟩ = _
      rw [bare_steps]
      exact hu [])
  refine ⟨c1, e1, e, h1, he, fun s M M1 a b c d => ?_⟩
  obtain ⟨seen, q1, q2⟩ := hh s M M1 a b c d
  refine ⟨seen, q1, fun cell hc => q2 cell hc ((hsnap c1).2 cell hc).2 fun u hu' hw => ?_⟩
  obtain ⟨⟨d, p, rfl, hd⟩, -⟩ := (hsnap c1).2 cell hc
  obtain ⟨vs, e3, h3⟩ := Foot.repeatM hfs k c1 ⟨e1.next, []⟩ _ _ (hu [])
  exact hd (h3 u (by rw [← List.nil_append vs, ← e3]; exact hu') d p (.inr hw))

/-- **C85**, checkpoints of CG: a task the application launches after `j` steps, followed by `k` more steps and other tasks, sees in every
cell the application does not write (so in the solution and the recorded scalars) what a run of `j` steps ends with, and what it computes
from that is there at the end, although the runtime may run it while later steps are already under way. -/
theorem c85_cg_checkpoint (A : Arith V) {G : Geometry P} {pl pl' : Planner K P V} {base : Nat} (S : SolverSetup G pl pl' base 3)
    (ts ts' : Nat → CG Scalar → List (Task (Cell P) V)) (hts : Apart pl' ts) (hts' : Apart pl' ts') (snap : CG Scalar → Task (Cell P) V)
    (hsnap : Checkpoint pl' ts' snap) (j k n : Nat) :
    ∃ c1 e1 c e, cg A G pl base j ⟨n, []⟩ = some (c1, e1) ∧
      full (fun L => cgWith A G pl base j ts L >>= fun c => L (snap c) >>= fun _ =>
        steps L (CG.step (plannerOps A G.toEnv pl')) ts' 0 k c) ⟨n, []⟩ = some (c, e) ∧
      ∀ (s : Cell P → V) (M M1 : Machine (Cell P) V), (Machine.start s e.out).Steps M → M.Done →
        (Machine.start s e1.out).Steps M1 → M1.Done →
        ∃ seen : Cell P → V, (∀ cell, ¬ Written ts cell → seen cell = M1.store cell) ∧
          ∀ cell, (snap c1).writes cell → M.store cell = runUpdates seen (snap c1).body cell := by
  obtain ⟨c, n', us, h0, -⟩ := c40_cg A S (j + k) n (fun _ => A.zero)
  have hadd : (cg A G pl base j >>= Solver.repeatM (CG.step (plannerOps A G.toEnv pl')) k) ⟨n, []⟩ = cg A G pl base (j + k) ⟨n, []⟩ := by
    show ((allocate G pl base 3 ⟨n, []⟩).bind _).bind _ = (allocate G pl base 3 ⟨n, []⟩).bind _
    rw [show allocate G pl base 3 ⟨n, []⟩ = some (pl', (⟨n, []⟩ : Emit P V)) by unfold allocate; rw [S.alloc]; rfl]
    show ((CG.init (plannerOps A G.toEnv pl') _).bind _).bind _ = (CG.init (plannerOps A G.toEnv pl') _).bind _
    rw [Option.bind_assoc]
    congr 1
    funext r
    exact (congrFun (repeatM_split _ j k r.1) r.2).symm
  have H := Foot.plannerOps (I := fun _ => True) pl' A G.toEnv
  obtain ⟨c1, e1, e, h1, h2, h3⟩ := checkpoint (fun c => .cgStep pl' c) (Foot.cgStep H (fun _ _ => trivial)) hts hts'
    (app_cg A G pl base j ts (apart_written hts)) (bare_cg A G pl base j ts) (foot_cg S j) (k := k)
    (hadd.trans h0) hsnap
  exact ⟨c1, e1, _, e, h1, h2, h3⟩

/-- The same for BiCGStab. -/
theorem c85_bicgstab_checkpoint (A : Arith V) {G : Geometry P} {pl pl' : Planner K P V} {base : Nat} (S : SolverSetup G pl pl' base 5)
    (ts ts' : Nat → BiCGStab Scalar → List (Task (Cell P) V)) (hts : Apart pl' ts) (hts' : Apart pl' ts')
    (snap : BiCGStab Scalar → Task (Cell P) V) (hsnap : Checkpoint pl' ts' snap) (j k n : Nat) :
    ∃ c1 e1 c e, biCGStab A G pl base j ⟨n, []⟩ = some (c1, e1) ∧
      full (fun L => biCGStabWith A G pl base j ts L >>= fun c => L (snap c) >>= fun _ =>
        steps L (BiCGStab.step (plannerOps A G.toEnv pl')) ts' 0 k c) ⟨n, []⟩ = some (c, e) ∧
      ∀ (s : Cell P → V) (M M1 : Machine (Cell P) V), (Machine.start s e.out).Steps M → M.Done →
        (Machine.start s e1.out).Steps M1 → M1.Done →
        ∃ seen : Cell P → V, (∀ cell, ¬ Written ts cell → seen cell = M1.store cell) ∧
          ∀ cell, (snap c1).writes cell → M.store cell = runUpdates seen (snap c1).body cell := by
  obtain ⟨c, n', us, h0, -⟩ := c40_bicgstab A S (j + k) n (fun _ => A.zero)
  have hadd : (biCGStab A G pl base j >>= Solver.repeatM (BiCGStab.step (plannerOps A G.toEnv pl')) k) ⟨n, []⟩ =
      biCGStab A G pl base (j + k) ⟨n, []⟩ := by
    show ((allocate G pl base 5 ⟨n, []⟩).bind _).bind _ = (allocate G pl base 5 ⟨n, []⟩).bind _
    rw [show allocate G pl base 5 ⟨n, []⟩ = some (pl', (⟨n, []⟩ : Emit P V)) by unfold allocate; rw [S.alloc]; rfl]
    show ((BiCGStab.init (plannerOps A G.toEnv pl') _).bind _).bind _ = (BiCGStab.init (plannerOps A G.toEnv pl') _).bind _
    rw [Option.bind_assoc]
    congr 1
    funext r
    exact (congrFun (repeatM_split _ j k r.1) r.2).symm
  have H := Foot.plannerOps (I := fun _ => True) pl' A G.toEnv
  obtain ⟨c1, e1, e, h1, h2, h3⟩ := checkpoint (fun c => .biCGStabStep pl' c) (Foot.biStep H (fun _ _ => trivial)) hts hts'
    (app_bi A G pl base j ts (apart_written hts)) (bare_bi A G pl base j ts) (foot_bi S j) (k := k)
    (hadd.trans h0) hsnap
  exact ⟨c1, e1, _, e, h1, h2, h3⟩

/-- The same for GMRES. -/
theorem c85_gmres_checkpoint (A : Arith V) {G : Geometry P} {pl pl' : Planner K P V} {base r : Nat}
    (S : SolverSetup G pl pl' base (r + 1)) (ts ts' : Nat → GMRES Scalar → List (Task (Cell P) V)) (hts : Apart pl' ts)
    (hts' : Apart pl' ts') (snap : GMRES Scalar → Task (Cell P) V) (hsnap : Checkpoint pl' ts' snap) (j k n : Nat) :
    ∃ c1 e1 c e, gmres A G pl base r j ⟨n, []⟩ = some (c1, e1) ∧
      full (fun L => gmresWith A G pl base r j ts L >>= fun c => L (snap c) >>= fun _ =>
        steps L (GMRES.step (plannerOps A G.toEnv pl')) ts' 0 k c) ⟨n, []⟩ = some (c, e) ∧
      ∀ (s : Cell P → V) (M M1 : Machine (Cell P) V), (Machine.start s e.out).Steps M → M.Done →
        (Machine.start s e1.out).Steps M1 → M1.Done →
        ∃ seen : Cell P → V, (∀ cell, ¬ Written ts cell → seen cell = M1.store cell) ∧
          ∀ cell, (snap c1).writes cell → M.store cell = runUpdates seen (snap c1).body cell := by
  obtain ⟨c, n', us, h0, -⟩ := c40_gmres A S (j + k) n (fun _ => A.zero)
  have hadd : (gmres A G pl base r j >>= Solver.repeatM (GMRES.step (plannerOps A G.toEnv pl')) k) ⟨n, []⟩ =
      gmres A G pl base r (j + k) ⟨n, []⟩ := by
    show ((allocate G pl base (r + 1) ⟨n, []⟩).bind _).bind _ = (allocate G pl base (r + 1) ⟨n, []⟩).bind _
    rw [show allocate G pl base (r + 1) ⟨n, []⟩ = some (pl', (⟨n, []⟩ : Emit P V)) by unfold allocate; rw [S.alloc]; rfl]
    show ((GMRES.init (plannerOps A G.toEnv pl') r _).bind _).bind _ = (GMRES.init (plannerOps A G.toEnv pl') r _).bind _
    rw [Option.bind_assoc]
    congr 1
    funext q
    exact (congrFun (repeatM_split _ j k q.1) q.2).symm
  have H := Foot.plannerOps (I := fun _ => True) pl' A G.toEnv
  obtain ⟨c1, e1, e, h1, h2, h3⟩ := checkpoint (fun c => .gmresStep pl' c) (Foot.gmresStep H (fun _ => trivial)) hts hts'
    (app_gmres A G pl base r j ts (apart_written hts)) (bare_gmres A G pl base r j ts) (foot_gmres S j) (k := k)
    (hadd.trans h0) hsnap
  exact ⟨c1, e1, _, e, h1, h2, h3⟩

/-! ## The right-hand side after the construction -/

/-- The same as `c85_application_tasks` for a program that begins with library calls only: what the application's later tasks write may
have been read by these. -/
theorem c85_application_tasks_after (A : Arith V) (G : Geometry P) (W : Cell P → Prop) {α β : Type} (m0 : M P V α)
    (h0 : Client K A G m0) (m : α → (Task (Cell P) V → M P V Unit) → M P V β) (h : ∀ a, AppProgram K A G W (m a)) (n : Nat)
    (a : α) (e0 : Emit P V) (hm0 : m0 ⟨n, []⟩ = some (a, e0)) (b : β) (e1 : Emit P V) (hm : bare (m a) ⟨e0.next, []⟩ = some (b, e1))
    (hW : ∀ t ∈ e1.out, ∀ c, W c → ¬ t.reads c) :
    ∃ e2 e, (m0 >>= fun a => bare (m a)) ⟨n, []⟩ = some (b, e2) ∧ full (fun L => m0 >>= fun a => m a L) ⟨n, []⟩ = some (b, e) ∧
      ∀ (s : Cell P → V) (M M0 : Machine (Cell P) V), (Machine.start s e.out).Steps M → M.Done →
        (Machine.start s e2.out).Steps M0 → M0.Done → ∀ c, ¬ W c → M.store c = M0.store c := by
  obtain ⟨ts, ho, hon, hu⟩ := Hon.client h0 _ _ _ hm0
  rcases (h a).sim e0.next with h' | ⟨b', n', us, us0, hmm, h'⟩
  · rw [(h' []).2] at hm; cases hm
  rw [(h' []).2] at hm
  obtain ⟨rfl, rfl⟩ := Prod.mk.inj (Option.some.inj hm)
  refine ⟨⟨n', ts ++ us0⟩, ⟨n', ts ++ us⟩, ?_, ?_, fun s M M0 hs hd hs0 hd0 c hc => ?_⟩
  · show (m0 ⟨n, []⟩).bind _ = _
    rw [hu []]; exact (h' _).2
  · show (m0 ⟨n, []⟩).bind _ = _
    rw [hu []]; exact (h' _).1
  have q1 := c42_any_schedule s (ts ++ us) (fun t ht => (List.mem_append.1 ht).elim (hon t) (hmm.honest.1 t)) M hs hd
  have q2 := c42_any_schedule s (ts ++ us0) (fun t ht => (List.mem_append.1 ht).elim (hon t) (hmm.honest.2 t)) M0 hs0 hd0
  rw [q1, q2, runTasks_append, runTasks_append]
  exact hmm.agree hW _ _ (fun _ _ => rfl) c hc

/-- The application's tasks do only what they declare, and write only elements of data that are not the planner's, except perhaps
right-hand sides. -/
def ApartButRhs {α : Type} (pl : Planner K P V) (ts : Nat → α → List (Task (Cell P) V)) : Prop :=
  ∀ j c, ∀ t ∈ ts j c, t.Honest ∧ ∀ cell, t.writes cell → ∃ d p, cell = .elem d p ∧ ¬ OwnsAt (· ≠ 1) pl d

theorem after {A : Arith V} {G : Geometry P} {pl' : Planner K P V} {α : Type} {step : α → M P V α}
    (hstep : ∀ c, Client K A G (step c)) (hfs : ∀ c, Foot (OwnsAt (· ≠ 1) pl') (step c)) {m0 : M P V α} (h0 : Client K A G m0)
    {ts : Nat → α → List (Task (Cell P) V)} (hts : ApartButRhs pl' ts) {n k : Nat}
    {r : α × Emit P V} (htot : (m0 >>= Solver.repeatM step k) ⟨n, []⟩ = some r) :
    ∃ e, full (fun L => m0 >>= fun c => launchAll L (ts 0 c) >>= fun _ => steps L step ts 0 k c) ⟨n, []⟩ = some (r.1, e) ∧
      ∀ (s : Cell P → V) (M M0 : Machine (Cell P) V), (Machine.start s e.out).Steps M → M.Done →
        (Machine.start s r.2.out).Steps M0 → M0.Done → ∀ cell, ¬ Written ts cell → M.store cell = M0.store cell := by
  obtain ⟨⟨c1, e1⟩, h1, h2⟩ := Option.bind_eq_some_iff.1
    (show (m0 ⟨n, []⟩).bind (fun p => Solver.repeatM step k p.1 p.2) = some r from htot)
  obtain ⟨us, -, -, hu⟩ := Hon.repeatM (fun c => Hon.client (hstep c)) k c1 e1 r.1 r.2 h2
  have hb : ∀ c, bare (fun L => launchAll L (ts 0 c) >>= fun _ => steps L step ts 0 k c) = Solver.repeatM step k c := by
    intro c
    show launchAll (fun _ => pure ()) (ts 0 c) >>= _ = _
    rw [bare_launchAll]
    exact bare_steps _ _ _ _ _
  have hw : ∀ j c, ∀ t ∈ ts j c, t.Honest ∧ ∀ c, t.writes c → Written ts c :=
    fun j c t ht => ⟨(hts j c t ht).1, fun _ hc => ⟨j, c, t, ht, hc⟩⟩
  obtain ⟨e2, e, q1, q2, q3⟩ := c85_application_tasks_after A G (Written ts) m0 h0
    (fun c L => launchAll L (ts 0 c) >>= fun _ => steps L step ts 0 k c)
    (fun c => .andThen (f := fun _ L => steps L step ts 0 k c) (.launchAll (hw 0 c)) fun _ => .steps hstep hw k 0 c) n c1 e1 h1 r.1 _
    (by rw [hb]; exact hu []) (by
      intro t ht c ⟨j, a, u, hu', hc⟩ hr
      obtain ⟨d, p, rfl, hd⟩ := (hts j a u hu').2 c hc
      obtain ⟨vs, e3, h3⟩ := Foot.repeatM hfs k c1 ⟨e1.next, []⟩ _ _ (hu [])
      exact hd (h3 t (by rw [← List.nil_append vs, ← e3]; exact ht) d p (.inl hr)))
  have : e2 = r.2 := by
    have : (m0 >>= fun c => bare (fun L => launchAll L (ts 0 c) >>= fun _ => steps L step ts 0 k c)) = m0 >>= Solver.repeatM step k := by
      congr 1; funext c; exact hb c
    rw [this, htot] at q1
    exact (Prod.mk.inj (Option.some.inj q1)).2.symm
  subst this
  exact ⟨e, q2, q3⟩

/-- **C85**, the right-hand side: once a CG solver has been constructed, the application may overwrite the right-hand side; the steps give
the same solution, workspace and recorded scalars. -/
theorem c85_cg_rhs_free (A : Arith V) {G : Geometry P} {pl pl' : Planner K P V} {base : Nat} (S : SolverSetup G pl pl' base 3)
    (ts : Nat → CG Scalar → List (Task (Cell P) V)) (hts : ApartButRhs pl' ts) (k n : Nat) :
    ∃ c e0 e, cg A G pl base k ⟨n, []⟩ = some (c, e0) ∧ full (cgWith A G pl base k ts) ⟨n, []⟩ = some (c, e) ∧
      ∀ (s : Cell P → V) (M M0 : Machine (Cell P) V), (Machine.start s e.out).Steps M → M.Done →
        (Machine.start s e0.out).Steps M0 → M0.Done → ∀ cell, ¬ Written ts cell → M.store cell = M0.store cell := by
  obtain ⟨c, n', us, h0, -⟩ := c40_cg A S k n (fun _ => A.zero)
  have ha : allocate G pl base 3 ⟨n, []⟩ = some (pl', (⟨n, []⟩ : Emit P V)) := by unfold allocate; rw [S.alloc]; rfl
  have hb : (CG.init (plannerOps A G.toEnv pl') >>= Solver.repeatM (CG.step (plannerOps A G.toEnv pl')) k) ⟨n, []⟩ =
      cg A G pl base k ⟨n, []⟩ := by
    show _ = (allocate G pl base 3 ⟨n, []⟩).bind _
    rw [ha]; rfl
  obtain ⟨e, he, hh⟩ := after (fun c => .cgStep pl' c) (Foot.cgStep (Foot.plannerOps pl' A G.toEnv) fun _ h => h)
    (client_init pl').1 hts (hb.trans h0)
  refine ⟨c, _, e, h0, ?_, hh⟩
  show (allocate G pl base 3 ⟨n, []⟩).bind _ = _
  rw [ha]; exact he

/-- The same for BiCGStab. -/
theorem c85_bicgstab_rhs_free (A : Arith V) {G : Geometry P} {pl pl' : Planner K P V} {base : Nat} (S : SolverSetup G pl pl' base 5)
    (ts : Nat → BiCGStab Scalar → List (Task (Cell P) V)) (hts : ApartButRhs pl' ts) (k n : Nat) :
    ∃ c e0 e, biCGStab A G pl base k ⟨n, []⟩ = some (c, e0) ∧ full (biCGStabWith A G pl base k ts) ⟨n, []⟩ = some (c, e) ∧
      ∀ (s : Cell P → V) (M M0 : Machine (Cell P) V), (Machine.start s e.out).Steps M → M.Done →
        (Machine.start s e0.out).Steps M0 → M0.Done → ∀ cell, ¬ Written ts cell → M.store cell = M0.store cell := by
  obtain ⟨c, n', us, h0, -⟩ := c40_bicgstab A S k n (fun _ => A.zero)
  have ha : allocate G pl base 5 ⟨n, []⟩ = some (pl', (⟨n, []⟩ : Emit P V)) := by unfold allocate; rw [S.alloc]; rfl
  have hb : (BiCGStab.init (plannerOps A G.toEnv pl') >>= Solver.repeatM (BiCGStab.step (plannerOps A G.toEnv pl')) k) ⟨n, []⟩ =
      biCGStab A G pl base k ⟨n, []⟩ := by
    show _ = (allocate G pl base 5 ⟨n, []⟩).bind _
    rw [ha]; rfl
  obtain ⟨e, he, hh⟩ := after (fun c => .biCGStabStep pl' c) (Foot.biStep (Foot.plannerOps pl' A G.toEnv) fun _ h => h)
    (client_init pl').2.1 hts (hb.trans h0)
  refine ⟨c, _, e, h0, ?_, hh⟩
  show (allocate G pl base 5 ⟨n, []⟩).bind _ = _
  rw [ha]; exact he

end Verif.App
