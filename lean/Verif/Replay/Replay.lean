import Verif.Replay.Spec
import Verif.Runtime.Sched

/-! # C91: replaying valid traces executes nothing that ordinary execution would not -/
set_option linter.dupNamespace false
set_option linter.unusedSectionVars false
namespace Verif.Replay
open Verif.Runtime Verif.Vector Verif.Matrix Verif.Planner Verif.Solver Verif.Programs Verif.Launch

variable {P V α : Type} [DecidableEq P] {A : Arith V}

/-! ## The recorded waiting is enough -/

theorem instance_elem {ρ : Nat → Nat} {t0 t : Task (Cell P) V} (h : InstanceOf ρ t0 t) (d : Nat) (p : P) :
    (t.reads (.elem d p) ↔ t0.reads (.elem d p)) ∧ (t.writes (.elem d p) ↔ t0.writes (.elem d p)) := by
  constructor
  · rw [h.reads]
    constructor
    · rintro ⟨c0, h1, h2⟩
      cases c0 with
      | elem d' p' => exact h2 ▸ h1
      | part => cases h2
      | fut => cases h2
    · exact fun h1 => ⟨_, h1, rfl⟩
  · rw [h.writes]
    constructor
    · rintro ⟨c0, h1, h2⟩
      cases c0 with
      | elem d' p' => exact h2 ▸ h1
      | part => cases h2
      | fut => cases h2
    · exact fun h1 => ⟨_, h1, rfl⟩

/-- The same operations have the same requirements on vectors. -/
theorem same_elem {t t' : Task (Cell P) V} (h : SameOperation A t t') (d : Nat) (p : P) :
    (t.reads (.elem d p) ↔ t'.reads (.elem d p)) ∧ (t.writes (.elem d p) ↔ t'.writes (.elem d p)) := by
  rcases h with ⟨t0, ρ, ρ', h1, h2⟩ | ⟨f, f', o, o', -, rfl, rfl⟩
  · exact ⟨(instance_elem h1 d p).1.trans (instance_elem h2 d p).1.symm, (instance_elem h1 d p).2.trans (instance_elem h2 d p).2.symm⟩
  · refine ⟨⟨?_, ?_⟩, ⟨?_, ?_⟩⟩
    · rintro ⟨_, _, h⟩; cases h
    · rintro ⟨_, _, h⟩; cases h
    · intro h; cases (show Cell.elem d p = Cell.fut f from h)
    · intro h; cases (show Cell.elem d p = Cell.fut f' from h)

theorem regionConflict_same {t u t' u' : Task (Cell P) V} (ht : SameOperation A t t') (hu : SameOperation A u u')
    (h : RegionConflict t' u') : RegionConflict t u := by
  obtain ⟨d, p, h⟩ := h
  refine ⟨d, p, ?_⟩
  rwa [(same_elem ht d p).1, (same_elem ht d p).2, (same_elem hu d p).1, (same_elem hu d p).2]

theorem conflict_split {t u : Task (Cell P) V} (h : Conflict t u) : RegionConflict t u ∨ FutureConflict t u := by
  obtain ⟨c, h⟩ := h
  cases c with
  | elem d p => exact .inl ⟨d, p, h⟩
  | part f k => exact .inr ⟨_, fun _ _ => by simp, h⟩
  | fut f => exact .inr ⟨_, fun _ _ => by simp, h⟩

theorem inside_get {l : List (Item P V)} {tr : Nat × Nat} {i : Nat} (h : Inside i tr) : (inside l tr)[i - tr.1 - 1]? = l[i]? := by
  obtain ⟨h1, h2⟩ := h
  unfold inside
  rw [List.getElem?_take_of_lt (by omega), List.getElem?_drop]
  congr 1
  omega

theorem getElem_of_inside {l : List (Item P V)} {tr : Nat × Nat} {k : Nat} {x : Item P V} (h : (inside l tr)[k]? = some x) :
    l[tr.1 + (k + 1)]? = some x := by
  unfold inside at h
  rw [List.getElem?_take] at h
  split at h
  · rw [List.getElem?_drop] at h
    rw [← h]
    congr 1
    omega
  · cases h

theorem forall₂_get {γ δ : Type} {R : γ → δ → Prop} {l : List γ} {l' : List δ} (h : List.Forall₂ R l l') :
    ∀ {i : Nat} {y : δ}, l'[i]? = some y → ∃ x, l[i]? = some x ∧ R x y := by
  induction h with
  | nil => intro i y hy; simp at hy
  | cons hr _ ih =>
    intro i y hy
    cases i with
    | zero =>
      simp only [List.getElem?_cons_zero, Option.some.injEq] at hy
      exact ⟨_, rfl, hy ▸ hr⟩
    | succ i => simpa using ih (by simpa using hy)

theorem item_of_map {ts : List (Task (Cell P) V)} {i : Nat} {t : Task (Cell P) V} (h : (ts.map Item.task)[i]? = some (.task t)) :
    ts[i]? = some t := by
  rw [List.getElem?_map] at h
  cases hi : ts[i]? with
  | none => rw [hi] at h; cases h
  | some t' => rw [hi] at h; cases h; rfl

/-- In a sequence that obeys the rule for traces, tasks that conflict wait for each other. -/
theorem waits_of_conflict {l : List (Item P V)} (hv : ValidTraces A l) {i j : Nat} {t u : Task (Cell P) V}
    (hi : l[i]? = some (.task t)) (hj : l[j]? = some (.task u)) (h : Conflict t u) : Waits l i j := by
  refine .inr ⟨t, u, hi, hj, ?_⟩
  rcases conflict_split h with h | h
  · right
    by_cases hc : ∃ tr ∈ traces l, Inside i tr ∧ Inside j tr
    · obtain ⟨tr, htr, h1, h2⟩ := hc
      right
      cases hf : (traces l).head? with
      | none => rw [List.head?_eq_none_iff.1 hf] at htr; cases htr
      | some first =>
        obtain ⟨ts0, ts, e0, e1, hs⟩ := hv tr htr first hf
        have g1 := inside_get (l := l) h1
        have g2 := inside_get (l := l) h2
        rw [e1, hi] at g1
        rw [e1, hj] at g2
        obtain ⟨t0, q1, r1⟩ := forall₂_get hs (item_of_map g1)
        obtain ⟨u0, q2, r2⟩ := forall₂_get hs (item_of_map g2)
        have k1 : (inside l first)[i - tr.1 - 1]? = some (.task t0) := by rw [e0, List.getElem?_map, q1]; rfl
        have k2 : (inside l first)[j - tr.1 - 1]? = some (.task u0) := by rw [e0, List.getElem?_map, q2]; rfl
        have a1 := getElem_of_inside k1
        have a2 := getElem_of_inside k2
        have b1 : i - tr.1 - 1 + 1 = i - tr.1 := by have := h1.1; omega
        have b2 : j - tr.1 - 1 + 1 = j - tr.1 := by have := h2.1; omega
        rw [b1] at a1
        rw [b2] at a2
        exact ⟨tr, htr, h1, h2, first, t0, u0, rfl, a1, a2, regionConflict_same r1 r2 h⟩
    · left
      exact ⟨fun tr htr hh => hc ⟨tr, htr, hh⟩, h⟩
  · exact .inl h

/-! ## Projection to the machine without traces -/

/-- The tasks issued. -/
def tasksOf (l : List (Item P V)) : List (Task (Cell P) V) := l.filterMap fun x => match x with | .task t => some t | _ => none

/-- The tasks in execution. -/
def running (l : List (Live P V)) : List (Running (Cell P) V) :=
  l.filterMap fun r => match r.item with | .task t => some ⟨t, r.todo.filterMap id⟩ | _ => none

/-- What is not a task makes no assignments. -/
def Live.Ok (r : Live P V) : Prop := (∃ t, r.item = .task t) ∨ ∀ u ∈ r.todo, u = none

theorem fresh_ok (x : Item P V) : (Live.fresh x).Ok := by
  cases x with
  | task t => exact .inl ⟨t, rfl⟩
  | clock => exact .inr fun u hu => by simpa [Live.fresh] using hu
  | fence => exact .inr fun u hu => by simp [Live.fresh] at hu
  | beginTrace => exact .inr fun u hu => by simp [Live.fresh] at hu
  | endTrace => exact .inr fun u hu => by simp [Live.fresh] at hu

theorem fresh_item (x : Item P V) : (Live.fresh x).item = x := by cases x <;> rfl

theorem start_items (s : Cell P → V) (l : List (Item P V)) : (State.start s l).live.map Live.item = l := by
  show (l.map Live.fresh).map Live.item = l
  rw [List.map_map]
  conv => rhs; rw [← List.map_id l]
  exact List.map_congr_left fun x _ => fresh_item x

theorem start_running (s : Cell P → V) (l : List (Item P V)) :
    (⟨(State.start s l).store, running (State.start s l).live⟩ : Machine (Cell P) V) = Machine.start s (tasksOf l) := by
  unfold State.start Machine.start running tasksOf
  congr 1
  show (l.map Live.fresh).filterMap _ = _
  rw [List.filterMap_map, List.map_filterMap]
  refine List.filterMap_congr fun x _ => ?_
  cases x with
  | task t => simp [Live.fresh, Function.comp, List.filterMap_map]
  | _ => simp [Live.fresh, Function.comp]

theorem running_append (a b : List (Live P V)) : running (a ++ b) = running a ++ running b := List.filterMap_append

theorem running_task (t : Task (Cell P) V) (us : List (Option (Update (Cell P) V))) (b : List (Live P V)) :
    running (⟨.task t, us⟩ :: b) = ⟨t, us.filterMap id⟩ :: running b := rfl

theorem mem_running {l : List (Live P V)} {r : Running (Cell P) V} (h : r ∈ running l) :
    ∃ (i : Nat) (y : Live P V), l[i]? = some y ∧ y.item = .task r.task ∧ r.todo = y.todo.filterMap id := by
  obtain ⟨y, hy, he⟩ := List.mem_filterMap.1 h
  obtain ⟨i, hi⟩ := List.mem_iff_getElem?.1 hy
  refine ⟨i, y, hi, ?_⟩
  cases hx : y.item with
  | task t => rw [hx] at he; cases he; exact ⟨rfl, rfl⟩
  | _ => rw [hx] at he; cases he

theorem machine_steps_trans {a b c : Machine (Cell P) V} (h : a.Steps b) (h' : b.Step c ∨ b = c) : a.Steps c := by
  rcases h' with h' | rfl
  · exact .tail h h'
  · exact h

/-- A step of the replaying runtime is a step of the runtime without traces, or changes nothing. -/
theorem step_project {l : List (Item P V)} (hv : ValidTraces A l) {m m' : State P V} (h : m.Step m') (hl : m.live.map Live.item = l)
    (hok : ∀ r ∈ m.live, r.Ok) :
    m'.live.map Live.item = l ∧ (∀ r ∈ m'.live, r.Ok) ∧
      ((⟨m.store, running m.live⟩ : Machine (Cell P) V).Step ⟨m'.store, running m'.live⟩ ∨
        (⟨m.store, running m.live⟩ : Machine (Cell P) V) = ⟨m'.store, running m'.live⟩) := by
  obtain ⟨s, before, x, u, rest, after, ready⟩ := h
  refine ⟨?_, ?_, ?_⟩
  · rw [← hl]; simp
  · intro r hr
    rcases List.mem_append.1 hr with hr | hr
    · exact hok r (List.mem_append.2 (.inl hr))
    · rcases List.mem_cons.1 hr with rfl | hr
      · rcases hok ⟨x, u :: rest⟩ (by simp) with h | h
        · exact .inl h
        · exact .inr fun v hv => h v (List.mem_cons_of_mem _ hv)
      · exact hok r (by simp [hr])
  · cases x with
    | task t =>
      simp only [running_append, running_task]
      cases u with
      | none => exact .inr rfl
      | some u =>
        left
        refine Machine.Step.advance s (running before) t u _ (running after) fun r hr => ?_
        obtain ⟨i, y, hi, hy, ht⟩ := mem_running hr
        rcases ready i y hi with h | h
        · left; rw [ht, h]; rfl
        · right
          intro hc
          apply h
          have hlt : i < before.length := (List.getElem?_eq_some_iff.1 hi).1
          refine waits_of_conflict (A := A) (t := r.task) (u := t) (hl ▸ hv) ?_ ?_ hc
          · rw [List.getElem?_map, List.getElem?_append_left hlt, hi]
            simp [hy]
          · rw [List.getElem?_map, List.getElem?_append_right (Nat.le_refl _)]
            simp
    | _ =>
      right
      have hu : u = none := by
        rcases hok _ (List.mem_append.2 (.inr (List.mem_cons_self ..))) with ⟨t, h⟩ | h
        · cases h
        · exact h u (by simp)
      subst hu
      simp only [running_append]
      rfl

/-- Whatever the replaying runtime can reach, the runtime without traces can reach. -/
theorem steps_project {l : List (Item P V)} (hv : ValidTraces A l) {s : Cell P → V} {m : State P V} (h : (State.start s l).Steps m) :
    m.live.map Live.item = l ∧ (∀ r ∈ m.live, r.Ok) ∧ (Machine.start s (tasksOf l)).Steps ⟨m.store, running m.live⟩ := by
  generalize hm0 : State.start s l = m0 at h
  induction h with
  | refl =>
    subst hm0
    refine ⟨start_items s l, ?_, ?_⟩
    · intro r hr
      obtain ⟨x, -, rfl⟩ := List.mem_map.1 hr
      exact fresh_ok x
    · rw [start_running]; exact .refl _
  | tail _ hs ih =>
    obtain ⟨h1, h2, h3⟩ := ih
    obtain ⟨k1, k2, k3⟩ := step_project hv hs h1 h2
    exact ⟨k1, k2, machine_steps_trans h3 k3⟩

theorem done_project {m : State P V} (h : m.Done) : (⟨m.store, running m.live⟩ : Machine (Cell P) V).Done := by
  intro r hr
  obtain ⟨i, y, hi, -, ht⟩ := mem_running hr
  rw [ht, h y (List.mem_of_getElem? hi)]
  rfl

/-! ## Nothing is blocked -/

/-- The first unfinished item never waits. -/
theorem progress (m : State P V) (h : ¬ m.Done) :
    ∃ m', m.Step m' ∧ (m'.live.map fun r => r.todo.length).sum < (m.live.map fun r => r.todo.length).sum := by
  obtain ⟨s, l⟩ := m
  have key : ∀ l : List (Live P V), (¬ ∀ r ∈ l, r.todo = []) →
      ∃ before r after, l = before ++ r :: after ∧ r.todo ≠ [] ∧ ∀ r ∈ before, r.todo = [] := by
    intro l
    induction l with
    | nil => intro h; exact absurd (fun r hr => by cases hr) h
    | cons r l ih =>
      intro h
      by_cases hr : r.todo = []
      · obtain ⟨b, r', a, e, h1, h2⟩ := ih fun h' => h fun r' hr' => by
          rcases List.mem_cons.1 hr' with rfl | hr'
          · exact hr
          · exact h' r' hr'
        refine ⟨r :: b, r', a, by rw [e]; rfl, h1, fun r'' hr'' => ?_⟩
        rcases List.mem_cons.1 hr'' with rfl | hr''
        · exact hr
        · exact h2 _ hr''
      · exact ⟨[], r, l, rfl, hr, fun _ h => by cases h⟩
  obtain ⟨before, ⟨x, todo⟩, after, rfl, h1, h2⟩ := key l h
  cases todo with
  | nil => exact absurd rfl h1
  | cons u rest =>
    exact ⟨_, .advance s before x u rest after fun i r hi => .inl (h2 r (List.mem_of_getElem? hi)), by simp⟩

theorem can_finish : ∀ (N : Nat) (m0 m : State P V), m0.Steps m → (m.live.map fun r => r.todo.length).sum ≤ N →
    ∃ m', m0.Steps m' ∧ m'.Done := by
  intro N
  induction N with
  | zero =>
    intro m0 m h hN
    by_cases hd : m.Done
    · exact ⟨m, h, hd⟩
    · obtain ⟨m', _, h2⟩ := progress m hd
      omega
  | succ N ih =>
    intro m0 m h hN
    by_cases hd : m.Done
    · exact ⟨m, h, hd⟩
    · obtain ⟨m', h1, h2⟩ := progress m hd
      exact ih m0 m' (.tail h h1) (by omega)

/-- **C91**, what the runtime guarantees: whatever is issued can be executed to the end, traces or not. -/
theorem c91_finishes (s : Cell P → V) (l : List (Item P V)) : ∃ m : State P V, (State.start s l).Steps m ∧ m.Done :=
  can_finish _ _ _ (.refl _) (Nat.le_refl _)

/-- **C91** for any sequence of calls that obeys Legion's rule for traces: whatever a complete execution with replayed traces leaves in memory
is what the tasks leave when executed one after the other in program order. -/
theorem c91_replay (A : Arith V) (l : List (Item P V)) (hv : ValidTraces A l) (hon : ∀ t, .task t ∈ l → t.Honest) (s : Cell P → V)
    (m : State P V) (h : (State.start s l).Steps m) (hd : m.Done) : m.store = runTasks s (tasksOf l) := by
  obtain ⟨-, -, h3⟩ := steps_project hv h
  refine c42_any_schedule s (tasksOf l) (fun t ht => ?_) _ h3 (done_project hd)
  obtain ⟨x, hx, he⟩ := List.mem_filterMap.1 ht
  cases x with
  | task t' => cases he; exact hon _ hx
  | _ => cases he

end Verif.Replay
