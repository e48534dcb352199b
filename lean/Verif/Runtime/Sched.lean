import Verif.Runtime.Model

/-! # C42: any parallel execution equals program order -/
namespace Verif.Runtime
variable {C V : Type} [DecidableEq C]

theorem runUpdates_append (s : C → V) (a b : List (Update C V)) :
    runUpdates s (a ++ b) = runUpdates (runUpdates s a) b := by simp [runUpdates]

theorem runTasks_append (s : C → V) (a b : List (Task C V)) : runTasks s (a ++ b) = runTasks (runTasks s a) b := by
  simp [runTasks]

theorem runTasks_cons (s : C → V) (t : Task C V) (b : List (Task C V)) :
    runTasks s (t :: b) = runTasks (runUpdates s t.body) b := rfl

/-- Assignments within non-conflicting requirements commute. -/
theorem exec_comm {u v : Update C V} {t t' : Task C V} (hu : u.Within t.reads t.writes) (hv : v.Within t'.reads t'.writes)
    (hc : ¬ Conflict t t') (s : C → V) : v.exec (u.exec s) = u.exec (v.exec s) := by
  have h1 : ∀ c, t.writes c → ¬ (t'.reads c ∨ t'.writes c) := fun c h h' => hc ⟨c, Or.inl ⟨h, h'⟩⟩
  have h2 : ∀ c, t'.writes c → ¬ (t.reads c ∨ t.writes c) := fun c h h' => hc ⟨c, Or.inr ⟨h, h'⟩⟩
  have hne : u.dst ≠ v.dst := fun e => h1 _ hu.1 (Or.inr (e ▸ hv.1))
  have e1 : v.f (u.exec s) = v.f s := by
    apply hv.2
    intro c hc'
    have : c ≠ u.dst := fun e => h1 _ hu.1 (Or.inl (e ▸ hc'))
    simp [Update.exec, this]
  have e2 : u.f (v.exec s) = u.f s := by
    apply hu.2
    intro c hc'
    have : c ≠ v.dst := fun e => h2 _ hv.1 (Or.inl (e ▸ hc'))
    simp [Update.exec, this]
  funext c
  unfold Update.exec at *
  by_cases h3 : c = u.dst
  · subst h3
    simp [hne, e2]
  · by_cases h4 : c = v.dst
    · subst h4
      simp [h3, e1]
    · simp [h3, h4]

theorem exec_runUpdates_comm {u : Update C V} {t t' : Task C V} (hu : u.Within t.reads t.writes)
    (hc : ¬ Conflict t' t) (us : List (Update C V)) (hus : ∀ v ∈ us, v.Within t'.reads t'.writes) (s : C → V) :
    runUpdates (u.exec s) us = u.exec (runUpdates s us) := by
  induction us generalizing s with
  | nil => rfl
  | cons v us ih =>
    show runUpdates (v.exec (u.exec s)) us = u.exec (runUpdates (v.exec s) us)
    rw [← exec_comm (hus v (List.mem_cons_self ..)) hu hc]
    exact ih (fun w hw => hus w (List.mem_cons_of_mem _ hw)) _

/-- Finish all running tasks in launch order. -/
def finish (m : Machine C V) : C → V := m.tasks.foldl (fun s r => runUpdates s r.todo) m.store

/-- The remaining assignments are part of an honest body. -/
def Machine.Ok (m : Machine C V) : Prop := ∀ r ∈ m.tasks, ∀ u ∈ r.todo, u.Within r.task.reads r.task.writes

theorem finish_before {u : Update C V} {t : Task C V} (hu : u.Within t.reads t.writes) (before : List (Running C V))
    (ready : ∀ r ∈ before, r.todo = [] ∨ ¬ Conflict r.task t)
    (ok : ∀ r ∈ before, ∀ u ∈ r.todo, u.Within r.task.reads r.task.writes) (s : C → V) :
    before.foldl (fun s r => runUpdates s r.todo) (u.exec s) = u.exec (before.foldl (fun s r => runUpdates s r.todo) s) := by
  induction before generalizing s with
  | nil => rfl
  | cons r l ih =>
    rw [List.foldl_cons, List.foldl_cons]
    have hr := ready r (List.mem_cons_self ..)
    have : runUpdates (u.exec s) r.todo = u.exec (runUpdates s r.todo) := by
      rcases hr with h | h
      · rw [h]; rfl
      · exact exec_runUpdates_comm hu h _ (ok r (List.mem_cons_self ..)) s
    rw [this]
    exact ih (fun r h => ready r (List.mem_cons_of_mem _ h)) (fun r h => ok r (List.mem_cons_of_mem _ h)) _

theorem step_ok {m m' : Machine C V} (h : m.Step m') (ok : m.Ok) : m'.Ok ∧ finish m' = finish m := by
  cases h with
  | advance s before t u rest after ready =>
    constructor
    · intro r hr v hv
      rcases List.mem_append.1 hr with h | h
      · exact ok r (List.mem_append_left _ h) v hv
      · rcases List.mem_cons.1 h with rfl | h
        · exact ok ⟨t, u :: rest⟩ (List.mem_append_right _ (List.mem_cons_self ..)) v (List.mem_cons_of_mem _ hv)
        · exact ok r (List.mem_append_right _ (List.mem_cons_of_mem _ h)) v hv
    · have hu : u.Within t.reads t.writes :=
        ok ⟨t, u :: rest⟩ (List.mem_append_right _ (List.mem_cons_self ..)) u (List.mem_cons_self ..)
      unfold finish
      rw [List.foldl_append, List.foldl_append, List.foldl_cons, List.foldl_cons]
      rw [finish_before hu before ready (fun r h => ok r (List.mem_append_left _ h))]
      rfl

theorem steps_ok {m m' : Machine C V} (h : m.Steps m') (ok : m.Ok) : m'.Ok ∧ finish m' = finish m := by
  induction h with
  | refl => exact ⟨ok, rfl⟩
  | tail _ hs ih => exact ⟨(step_ok hs ih.1).1, (step_ok hs ih.1).2.trans ih.2⟩

theorem finish_done {m : Machine C V} (h : m.Done) : finish m = m.store := by
  obtain ⟨s, l⟩ := m
  unfold finish
  unfold Machine.Done at h
  induction l with
  | nil => rfl
  | cons r l ih =>
    simp only [List.foldl_cons]
    rw [h r (List.mem_cons_self ..)]
    exact ih (fun r hr => h r (List.mem_cons_of_mem _ hr))

/-- **C42**: if every launched task does only what it declares, then every complete parallel execution, however the
assignments of the tasks interleave, leaves memory exactly as running the tasks one after the other in launch order. -/
theorem c42_any_schedule (s : C → V) (ts : List (Task C V)) (hon : ∀ t ∈ ts, t.Honest) (m : Machine C V)
    (h : (Machine.start s ts).Steps m) (hd : m.Done) : m.store = runTasks s ts := by
  have ok : (Machine.start s ts).Ok := by
    intro r hr u hu
    obtain ⟨t, ht, rfl⟩ := List.mem_map.1 hr
    exact hon t ht u hu
  rw [← finish_done hd, (steps_ok h ok).2]
  unfold finish Machine.start runTasks
  rw [List.foldl_map]

/-- The first unfinished task (in launch order) may always advance: the runtime never deadlocks. -/
theorem c42_progress (m : Machine C V) (h : ¬ m.Done) : ∃ m', m.Step m' := by
  obtain ⟨s, l⟩ := m
  unfold Machine.Done at h
  have key : ∀ l : List (Running C V), (¬ ∀ r ∈ l, r.todo = []) →
      ∃ before r after, l = before ++ r :: after ∧ r.todo ≠ [] ∧ ∀ r ∈ before, r.todo = [] := by
    intro l
    induction l with
    | nil => intro h; exact absurd (fun r hr => by cases hr) h
    | cons r l ih =>
      intro h
      by_cases hr : r.todo = []
      · obtain ⟨b, r', a, e, h1, h2⟩ := ih (fun h' => h (by
          intro x hx
          rcases List.mem_cons.1 hx with rfl | hx
          · exact hr
          · exact h' x hx))
        refine ⟨r :: b, r', a, by rw [e]; rfl, h1, ?_⟩
        intro x hx
        rcases List.mem_cons.1 hx with rfl | hx
        · exact hr
        · exact h2 x hx
      · exact ⟨[], r, l, rfl, hr, fun x hx => by cases hx⟩
  obtain ⟨b, ⟨t, td⟩, a, e, h1, h2⟩ := key l h
  obtain ⟨u, rest, rfl⟩ := List.exists_cons_of_ne_nil h1
  subst e
  exact ⟨_, Machine.Step.advance s b t u rest a (fun r hr => Or.inl (h2 r hr))⟩

/-- Number of assignments left. -/
def Machine.left (m : Machine C V) : Nat := (m.tasks.map fun r => r.todo.length).sum

/-- Every step makes one of finitely many assignments: executions terminate. -/
theorem c42_terminates {m m' : Machine C V} (h : m.Step m') : m'.left + 1 = m.left := by
  cases h with
  | advance s before t u rest after ready =>
    simp [Machine.left]
    omega

/-- A complete execution exists (so `c42_any_schedule` is not vacuous). -/
theorem c42_complete_execution_exists (m : Machine C V) : ∃ m', m.Steps m' ∧ m'.Done := by
  have key : ∀ n, ∀ m₀ m : Machine C V, m.left = n → m₀.Steps m → ∃ m', m₀.Steps m' ∧ m'.Done := by
    intro n
    induction n with
    | zero =>
      intro m₀ m hn hs
      refine ⟨m, hs, ?_⟩
      intro r hr
      have : r.todo.length ≤ m.left := by
        unfold Machine.left
        obtain ⟨a, b, e⟩ := List.append_of_mem hr
        rw [e]
        simp
        omega
      exact List.length_eq_zero_iff.1 (by omega)
    | succ n ih =>
      intro m₀ m hn hs
      by_cases hd : m.Done
      · exact ⟨m, hs, hd⟩
      · obtain ⟨m', hm'⟩ := c42_progress m hd
        have := c42_terminates hm'
        exact ih m₀ m' (by omega) (.tail hs hm')
  exact key m.left m m rfl (.refl m)

end Verif.Runtime
