import Verif.Restart.Client
import Verif.Interactive.Props

/-!
# C96: programs that look at values, with restarts

As `Interactive/Model.lean`, with the runtime of `Restart/Model.lean`.  `get_value` (`Scalar.hpp` 50) returns as soon as the task computing the value
has made its last assignment, even if it is restarted later.
-/
set_option linter.unusedSectionVars false
namespace Verif.Restart
open Verif.Runtime Verif.Vector Verif.Interactive Verif.Solver Verif.Matrix Verif.Planner
variable {K P V σ : Type} [DecidableEq K] [DecidableEq P]

/-- A program in execution: its state, the values it has looked at so far, the next free future, and the runtime with all tasks launched so far. -/
structure World (P V σ : Type) where
  ctl : σ
  seen : List V
  next : Nat
  runtime : State (Cell P) V

/-- The program starts. -/
def World.start (c : σ) (n : Nat) (s : Cell P → V) : World P V σ := ⟨c, [], n, ⟨s, []⟩⟩

/-- Every task that computes the future has made its last assignment. -/
def Available (m : State (Cell P) V) (x : Scalar) : Prop := ∀ r ∈ m.tasks, r.task.writes (.fut x.fut) → r.todo = []

/-- Executions of the program (`Interactive/Model.lean`, `World.Step`) with their logs: the runtime does some of its work, restarts included, or the
program goes on. -/
inductive World.Logged (p : Program P V σ) (may : Nat → Prop) (w₀ : World P V σ) : List (Nat × (Cell P → V)) → World P V σ → Prop
  | refl : Logged p may w₀ [] w₀
  | tasks {log log' c l n m m'} : Logged p may w₀ log ⟨c, l, n, m⟩ → State.Logged may m log' m' → Logged p may w₀ (log ++ log') ⟨c, l, n, m'⟩
  | call {log c c' l n m e s ts} : Logged p may w₀ log ⟨c, l, n, ⟨s, ts⟩⟩ → p c = .call m → m ⟨n, []⟩ = some (c', e) →
      Logged p may w₀ log ⟨c', l, e.next, ⟨s, ts ++ e.out.map fun t => ⟨t, t.body, none, false⟩⟩⟩
  | get {log c x k l n m} : Logged p may w₀ log ⟨c, l, n, m⟩ → p c = .get x k → Available m x →
      Logged p may w₀ log ⟨k (m.store (.fut x.fut)), l ++ [m.store (.fut x.fut)], n, m⟩

/-- Executions, whatever their logs. -/
def World.Runs (p : Program P V σ) (may : Nat → Prop) (w₀ w : World P V σ) : Prop := ∃ log, World.Logged p may w₀ log w

section
variable {p : Program P V σ} {may : Nat → Prop} {w₀ : World P V σ}

theorem World.Runs.refl : World.Runs p may w₀ w₀ := ⟨_, .refl⟩

theorem World.Runs.tasks {c : σ} {l : List V} {n : Nat} {m m' : State (Cell P) V} {log : List (Nat × (Cell P → V))} (h : World.Runs p may w₀ ⟨c, l, n, m⟩)
    (h' : State.Logged may m log m') : World.Runs p may w₀ ⟨c, l, n, m'⟩ := h.imp' _ fun _ h => .tasks h h'

theorem World.Runs.call {c c' : σ} {l : List V} {n : Nat} {m : M P V σ} {e : Emit P V} {s : Cell P → V} {ts : List (Attempt (Cell P) V)}
    (h : World.Runs p may w₀ ⟨c, l, n, ⟨s, ts⟩⟩) (h1 : p c = .call m) (h2 : m ⟨n, []⟩ = some (c', e)) :
    World.Runs p may w₀ ⟨c', l, e.next, ⟨s, ts ++ e.out.map fun t => ⟨t, t.body, none, false⟩⟩⟩ := h.imp fun _ h => .call h h1 h2

theorem World.Runs.get {c : σ} {x : Scalar} {k : V → σ} {l : List V} {n : Nat} {m : State (Cell P) V} (h : World.Runs p may w₀ ⟨c, l, n, m⟩)
    (h1 : p c = .get x k) (h2 : Available m x) : World.Runs p may w₀ ⟨k (m.store (.fut x.fut)), l ++ [m.store (.fut x.fut)], n, m⟩ :=
  h.imp fun _ h => .get h h1 h2

end

/-- The program has ended, and all tasks have been committed. -/
def World.Ended (p : Program P V σ) (w : World P V σ) : Prop := p w.ctl = .halt ∧ w.runtime.Done

/-! ## Launching more tasks -/

section
variable {C W : Type} [DecidableEq C] {s : C → W} {ts : List (Task C W)}

theorem valid_lt : ∀ {L : List Nat}, Valid ts L → ∀ i ∈ L, i < ts.length
  | [], _, i, h => by cases h
  | _ :: _, ⟨⟨t, u, ht, _⟩, _, hv⟩, i, h => by
    rcases List.mem_cons.1 h with rfl | h
    · exact (List.getElem?_eq_some_iff.1 ht).1
    · exact valid_lt hv i h

theorem more (new : List (Task C W)) : ∀ {L : List Nat}, (∀ i ∈ L, i < ts.length) → storeOf s (ts ++ new) L = storeOf s ts L ∧
    entries s (ts ++ new) L = entries s ts L ∧ (Valid ts L → Valid (ts ++ new) L)
  | [], _ => ⟨rfl, rfl, fun _ => trivial⟩
  | i :: L, h => by
    obtain ⟨h1, h2, h3⟩ := more new (L := L) fun i hi => h i (List.mem_cons_of_mem _ hi)
    have hi := h i List.mem_cons_self
    have e : ∀ {j : Nat}, j ≤ i → (ts ++ new)[j]? = ts[j]? := fun hj => List.getElem?_append_left (by omega)
    refine ⟨?_, ?_, fun hv => ?_⟩
    · unfold storeOf
      rw [e (Nat.le_refl i), h1]
    · unfold entries
      rw [h1, h2]
    · obtain ⟨⟨t, u, ht, hu⟩, hready, hv⟩ := hv
      exact ⟨⟨t, u, by rw [e (Nat.le_refl i)]; exact ht, hu⟩,
        fun j t t' hj ht' ht => hready j t t' hj (by rw [← e (Nat.le_of_lt hj)]; exact ht') (by rw [← e (Nat.le_refl i)]; exact ht), h3 hv⟩

theorem Sim.more {may : Nat → Prop} {log : List (Nat × (C → W))} {m : State C W} {L : List Nat} {D : Nat → C → Prop}
    (h : Sim may s ts log m L D) (new : List (Task C W)) :
    Sim may s (ts ++ new) log ⟨m.store, m.tasks ++ new.map fun t => ⟨t, t.body, none, false⟩⟩ L D := by
  have hlt := valid_lt h.valid
  obtain ⟨h1, h2, h3⟩ := Restart.more (s := s) new hlt
  have old : ∀ {i : Nat} {a}, (m.tasks ++ new.map fun t => (⟨t, t.body, none, false⟩ : Attempt C W))[i]? = some a →
      (i < ts.length ∧ m.tasks[i]? = some a) ∨ (ts.length ≤ i ∧ ∃ t, new[i - ts.length]? = some t ∧ a = ⟨t, t.body, none, false⟩) := by
    intro i a ha
    by_cases hi : i < ts.length
    · rw [List.getElem?_append_left (by rw [h.length]; exact hi)] at ha
      exact Or.inl ⟨hi, ha⟩
    · rw [List.getElem?_append_right (by rw [h.length]; omega), h.length, List.getElem?_map] at ha
      obtain ⟨t, ht, rfl⟩ := Option.map_eq_some_iff.1 ha
      exact Or.inr ⟨by omega, t, ht, rfl⟩
  refine ⟨h3 h.valid, by simp [h.length], fun i a ha => ?_, by rw [h1]; exact h.store, fun i a s₀ ha hs hc => ?_, fun i j a b hij ha hb hc hs => ?_,
    fun i c hD => ?_, fun jobs hr hm => ?_⟩
  · rcases old ha with ⟨hi, ha⟩ | ⟨hi, t, ht, rfl⟩
    · obtain ⟨g1, g2⟩ := h.task i a ha
      exact ⟨by rw [List.getElem?_append_left hi]; exact g1, g2⟩
    · have hn : i ∉ L := fun hm => by have := hlt i hm; omega
      refine ⟨by rw [List.getElem?_append_right hi]; exact ht, by rw [List.count_eq_zero.2 hn, List.drop_zero], ?_, fun _ => hn⟩
      intro h
      cases (show false = true from h)
  · rcases old ha with ⟨hi, ha⟩ | ⟨hi, t, ht, rfl⟩
    · obtain ⟨g0, Q, L₁, g1, g2, g3, g4⟩ := h.begun i a s₀ ha hs hc
      refine ⟨g0, Q, L₁, g1, g2, fun j hj hne t ht => g3 j hj hne t ?_, fun c hc => ?_⟩
      · rw [← List.getElem?_append_left (l₂ := new) (hlt j (by rw [g1]; exact List.mem_append_left _ hj))]
        exact ht
      · rw [g4 c hc, (Restart.more (s := s) new (L := L₁) fun j hj => hlt j (by rw [g1]; exact List.mem_append_right _ hj)).1]
    · cases hs
  · rcases old hb with ⟨hj, hb⟩ | ⟨hj, t, ht, rfl⟩
    · rcases old ha with ⟨hi, ha⟩ | ⟨hi, -⟩
      · exact h.clear i j a b hij ha hb hc hs
      · omega
    · rcases hs with hs | ⟨c, hs⟩
      · exact absurd rfl hs
      · obtain ⟨a, g, -⟩ := h.dirty j c hs
        have := (List.getElem?_eq_some_iff.1 g).1
        rw [h.length] at this
        omega
  · obtain ⟨a, g1, g2⟩ := h.dirty i c hD
    exact ⟨a, by rw [List.getElem?_append_left (List.getElem?_eq_some_iff.1 g1).1]; exact g1, g2⟩
  · rw [h2]
    refine h.output jobs (fun j hj t ht => hr j hj t ?_) hm
    rw [List.getElem?_append_left (List.getElem?_eq_some_iff.1 ht).1]
    exact ht

/-- Finishing what is left gives the memory of running the tasks one after the other; a value whose tasks have made their last assignments is final. -/
theorem Sim.final {may : Nat → Prop} {log : List (Nat × (C → W))} {m : State C W} {L : List Nat} {D : Nat → C → Prop}
    (h : Sim may s ts log m L D) (hon : ∀ t ∈ ts, t.Honest) : (stateOf s ts L).Ok ∧ finish (stateOf s ts L) = runTasks s ts := by
  have hok : (Machine.start s ts).Ok := by
    intro r hr u hu
    obtain ⟨t, ht, rfl⟩ := List.mem_map.1 hr
    exact hon t ht u hu
  obtain ⟨h1, h2⟩ := steps_ok (valid_logged (s := s) h.valid).steps hok
  refine ⟨h1, ?_⟩
  rw [h2]
  unfold finish Machine.start runTasks
  rw [List.foldl_map]

end

/-- The state of the sequential run a state of an execution corresponds to. -/
structure Mirrors (may : Nat → Prop) (s : Cell P → V) (log : List (Nat × (Cell P → V))) (w : World P V σ) (a : Alone P V σ) : Prop where
  ctl : a.ctl = w.ctl
  seen : a.seen = w.seen
  next : a.next = w.next
  store : ∃ ts L D, (∀ t ∈ ts, t.Honest) ∧ (∀ t ∈ ts, Covers t) ∧ Sim may s ts log w.runtime L D ∧ a.store = runTasks s ts

theorem Mirrors.available {may : Nat → Prop} {s : Cell P → V} {log : List (Nat × (Cell P → V))} {w : World P V σ} {a : Alone P V σ} (h : Mirrors may s log w a) {x : Scalar}
    (hx : Available w.runtime x) : a.store (.fut x.fut) = w.runtime.store (.fut x.fut) := by
  obtain ⟨ts, L, D, hon, hcov, hS, e⟩ := h.store
  obtain ⟨h1, h2⟩ := hS.final hon
  have := available_final h1 (x := x) (by
    intro r hr hw
    obtain ⟨i, hi⟩ := List.getElem?_of_mem hr
    simp only [stateOf, List.getElem?_mapIdx] at hi
    obtain ⟨t, ht, rfl⟩ := Option.map_eq_some_iff.1 hi
    have hil : i < w.runtime.tasks.length := by
      rw [hS.length]
      exact (List.getElem?_eq_some_iff.1 ht).1
    obtain ⟨g1, g2, -⟩ := hS.task i _ (List.getElem?_eq_getElem hil)
    rw [ht] at g1
    cases g1
    show List.drop _ _ = _
    rw [← g2]
    exact hx _ (List.getElem_mem hil) hw)
  rw [e, ← h2, this, hS.store]
  · rfl
  intro i hD
  obtain ⟨b, g1, -, g2, -⟩ := hS.dirty i _ hD
  exact hS.clean hcov g1 (hx b (List.mem_of_getElem? g1) g2) _ hD

theorem Mirrors.done {may : Nat → Prop} {s : Cell P → V} {log : List (Nat × (Cell P → V))} {w : World P V σ} {a : Alone P V σ} (h : Mirrors may s log w a) (hd : w.runtime.Done) :
    a.store = w.runtime.store := by
  obtain ⟨ts, L, D, hon, hcov, hS, e⟩ := h.store
  obtain ⟨h1, h2⟩ := hS.final hon
  have hst : w.runtime.store = (stateOf s ts L).store := funext fun c => hS.store c fun i hD => by
    obtain ⟨b, g1, g2, -⟩ := hS.dirty i c hD
    rw [hd b (List.mem_of_getElem? g1)] at g2
    cases g2
  rw [e, ← h2, hst]
  refine finish_done fun r hr => ?_
  obtain ⟨i, hi⟩ := List.getElem?_of_mem hr
  simp only [stateOf, List.getElem?_mapIdx] at hi
  obtain ⟨t, ht, rfl⟩ := Option.map_eq_some_iff.1 hi
  have hil : i < w.runtime.tasks.length := by
    rw [hS.length]
    exact (List.getElem?_eq_some_iff.1 ht).1
  obtain ⟨g1, g2, g3, -⟩ := hS.task i _ (List.getElem?_eq_getElem hil)
  rw [ht] at g1
  cases g1
  show List.drop _ _ = _
  rw [← g2]
  exact g3 (hd _ (List.getElem_mem hil))

theorem Mirrors.call {A : Arith V} {G : Geometry P} {p : Program P V σ} (hp : UsesLibrary K A G p) {may : Nat → Prop} {s : Cell P → V} {log : List (Nat × (Cell P → V))}
    {c c' : σ} {l : List V} {n : Nat} {m : M P V σ} {e : Emit P V} {r : State (Cell P) V} {a : Alone P V σ} (h : Mirrors may s log ⟨c, l, n, r⟩ a)
    (h1 : p c = .call m) (h2 : m ⟨n, []⟩ = some (c', e)) :
    ∃ a', Alone.Step p a a' ∧ Mirrors may s log ⟨c', l, e.next, ⟨r.store, r.tasks ++ e.out.map fun t => ⟨t, t.body, none, false⟩⟩⟩ a' := by
  obtain ⟨ac, al, an, as⟩ := a
  obtain ⟨g1, g2, g3, ts, L, D, hon, hcov, hS, g4⟩ := h
  have g1 : ac = c := g1
  have g2 : al = l := g2
  have g3 : an = n := g3
  have g4 : as = runTasks s ts := g4
  subst ac al an as
  obtain ⟨us, u1, u2, -⟩ := Hon.client (hp _ _ h1) _ _ _ h2
  rw [show (⟨n, []⟩ : Emit P V).out = [] from rfl, List.nil_append] at u1
  refine ⟨_, .call h1 h2, rfl, rfl, rfl, ts ++ e.out, L, D, fun t ht => ?_, fun t ht => ?_, hS.more e.out, ?_⟩
  · rcases List.mem_append.1 ht with ht | ht
    · exact hon t ht
    · exact u2 t (u1 ▸ ht)
  · rcases List.mem_append.1 ht with ht | ht
    · exact hcov t ht
    · exact client_covers (hp _ _ h1) h2 t ht
  · unfold runTasks
    rw [List.foldl_append]

theorem mirror {A : Arith V} {G : Geometry P} {p : Program P V σ} (hp : UsesLibrary K A G p) {may : Nat → Prop} {c : σ} {n : Nat} {s : Cell P → V}
    {log : List (Nat × (Cell P → V))} {w : World P V σ} (h : World.Logged p may (.start c n s) log w) : ∃ j a, Alone.Steps p j ⟨c, [], n, s⟩ a ∧ Mirrors may s log w a := by
  induction h with
  | refl => exact ⟨0, _, .refl _, rfl, rfl, rfl, [], [], _, fun t ht => (by cases ht), fun t ht => (by cases ht), sim_start may s [], rfl⟩
  | tasks _ hl ih =>
    obtain ⟨j, a, h1, h2⟩ := ih
    obtain ⟨ts, L, D, hon, hcov, hS, e⟩ := h2.store
    obtain ⟨L', D', hS'⟩ := sim_from hon hcov hS hl
    exact ⟨j, a, h1, h2.ctl, h2.seen, h2.next, ts, L', D', hon, hcov, hS', e⟩
  | call _ e1 e2 ih =>
    obtain ⟨j, a, h1, h2⟩ := ih
    obtain ⟨a', h3, h4⟩ := h2.call hp e1 e2
    exact ⟨j + 1, a', .tail h1 h3, h4⟩
  | @get log c x k l n m _ e1 e2 ih =>
    obtain ⟨j, a, h1, h2⟩ := ih
    have hv : a.store (.fut x.fut) = m.store (.fut x.fut) := h2.available e2
    obtain ⟨ac, al, an, as⟩ := a
    obtain ⟨rfl, rfl, rfl, h5⟩ := h2
    refine ⟨j + 1, _, .tail h1 (.get e1), ?_⟩
    rw [show as (.fut x.fut) = m.store (.fut x.fut) from hv]
    exact ⟨rfl, rfl, rfl, h5⟩

/-- **C96, values**: whatever is restarted, at every moment of every execution the program is in a state, and has looked at values, that it would also
reach if each of its calls ran its tasks to the end, once, before returning; and when all tasks have been committed memory is that run's. -/
theorem c96_values {A : Arith V} {G : Geometry P} {p : Program P V σ} (hp : UsesLibrary K A G p) {may : Nat → Prop} {c : σ} {n : Nat}
    {s : Cell P → V} {w : World P V σ} (h : World.Runs p may (.start c n s) w) :
    ∃ j s', Alone.Steps p j ⟨c, [], n, s⟩ ⟨w.ctl, w.seen, w.next, s'⟩ ∧ (w.runtime.Done → w.runtime.store = s') := by
  obtain ⟨log, h⟩ := h
  obtain ⟨j, a, h1, h2⟩ := mirror hp h
  refine ⟨j, a.store, ?_, fun hd => (h2.done hd).symm⟩
  rw [← h2.ctl, ← h2.seen, ← h2.next]
  exact h1

theorem Alone.Steps.not_beyond {p : Program P V σ} {j j' : Nat} {a b b' : Alone P V σ} (h1 : Alone.Steps p j a b) (h2 : Alone.Steps p j' a b')
    (hb : p b.ctl = .halt) : j' ≤ j := by
  apply Nat.le_of_not_lt
  intro hlt
  obtain ⟨x, g1, g2⟩ := h2.prefix (j + 1) hlt
  cases g1 with
  | tail g3 g4 =>
    obtain rfl := h1.unique g3
    exact g4.not_halt hb

theorem ended_of {A : Arith V} {G : Geometry P} {p : Program P V σ} (hp : UsesLibrary K A G p) {may : Nat → Prop} {c : σ} {n : Nat}
    {s : Cell P → V} {j : Nat} {b : Alone P V σ} (hb : Alone.Steps p j ⟨c, [], n, s⟩ b) (he : p b.ctl = .halt) :
    ∀ (d j' : Nat) (log : List (Nat × (Cell P → V))) (w : World P V σ) (a : Alone P V σ), j - j' = d → World.Logged p may (.start c n s) log w → Alone.Steps p j' ⟨c, [], n, s⟩ a →
    Mirrors may s log w a → ∃ w', World.Runs p may w w' ∧ w'.Ended p := by
  intro d
  induction d with
  | zero =>
    intro j' log w a hd hw ha hm
    have hj' := Alone.Steps.not_beyond hb ha he
    obtain rfl : j = j' := by omega
    obtain rfl := hb.unique ha
    obtain ⟨log', r, g1, g2⟩ := c96_completes may (State.Logged.refl (may := may) (m₀ := w.runtime))
    exact ⟨⟨w.ctl, w.seen, w.next, r⟩, .tasks .refl g1, by show p w.ctl = _; rw [← hm.ctl]; exact he, g2⟩
  | succ d ih =>
    intro j' log w a hd hw ha hm
    obtain ⟨log', r, g1, g2⟩ := c96_completes may (State.Logged.refl (may := may) (m₀ := w.runtime))
    obtain ⟨wc, wl, wn, wr⟩ := w
    have hw1 : World.Logged p may (.start c n s) (log ++ log') ⟨wc, wl, wn, r⟩ := .tasks hw g1
    have hw2 : World.Runs p may ⟨wc, wl, wn, wr⟩ ⟨wc, wl, wn, r⟩ := .tasks .refl g1
    obtain ⟨ts, L, D, hon, hcov, hS, e⟩ := hm.store
    obtain ⟨L', D', hS'⟩ := sim_from hon hcov hS g1
    have hm1 : Mirrors may s (log ++ log') ⟨wc, wl, wn, r⟩ a := ⟨hm.ctl, hm.seen, hm.next, ts, L', D', hon, hcov, hS', e⟩
    obtain ⟨x, y1, y2⟩ := hb.prefix (j' + 1) (by omega)
    have trans : ∀ {w' w'' : World P V σ}, World.Runs p may ⟨wc, wl, wn, wr⟩ w' → World.Runs p may w' w'' → World.Runs p may ⟨wc, wl, wn, wr⟩ w'' := by
      intro w' w'' h1 h2
      obtain ⟨_, h2⟩ := h2
      induction h2 with
      | refl => exact h1
      | tasks _ h ih => exact .tasks (ih) h
      | call _ h h' ih => exact .call (ih) h h'
      | get _ h h' ih => exact .get (ih) h h'
    cases y1 with
    | tail g3 g4 =>
      obtain rfl := ha.unique g3
      have key : ∃ w', World.Runs p may ⟨wc, wl, wn, wr⟩ w' ∧ World.Logged p may (.start c n s) (log ++ log') w' ∧ Mirrors may s (log ++ log') w' x := by
        cases g4 with
        | @call c1 c2 l1 n1 m1 e1 s1 k1 k2 =>
          have f1 : c1 = wc := hm1.ctl
          have f2 : l1 = wl := hm1.seen
          have f3 : n1 = wn := hm1.next
          subst c1 l1 n1
          obtain ⟨rs, rt⟩ := r
          obtain ⟨x', q1, q2⟩ := hm1.call hp k1 k2
          exact ⟨_, .call hw2 k1 k2, .call hw1 k1 k2, (Alone.Step.unique q1 (.call k1 k2)) ▸ q2⟩
        | @get c1 x1 k1 l1 n1 s1 q =>
          have hav : Available r x1 := fun t ht _ => by
            obtain ⟨i, hi⟩ := List.getElem?_of_mem ht
            exact (hS'.task i t hi).2.2.1 (g2 t ht)
          have hv := hm1.available hav
          obtain ⟨rfl, rfl, rfl, h5⟩ := hm1
          refine ⟨_, .get hw2 q hav, .get hw1 q hav, ?_⟩
          rw [← show s1 (.fut x1.fut) = r.store (.fut x1.fut) from hv]
          exact ⟨rfl, rfl, rfl, h5⟩
      obtain ⟨w', q1, q2, q3⟩ := key
      obtain ⟨w'', z1, z2⟩ := ih (j' + 1) _ w' x (by omega) q2 (.tail ha g4) q3
      exact ⟨w'', trans q1 z1, z2⟩

/-- **C96, programs that end**: everything that has been proved about how all executions of a program end (`Ends`, for example C80 and C84) holds with
restarts as well: every execution can be continued to an end, and there the program's state, the values it has looked at and memory are as
without. -/
theorem c96_ends {A : Arith V} {G : Geometry P} {p : Program P V σ} (hp : UsesLibrary K A G p) (may : Nat → Prop) {c : σ} {n : Nat}
    {s : Cell P → V} {Q : σ → List V → (Cell P → V) → Prop} (h : Ends p c n s Q) :
    (∀ w, World.Runs p may (.start c n s) w → ∃ w', World.Runs p may w w' ∧ w'.Ended p) ∧
    ∀ w, World.Runs p may (.start c n s) w → w.Ended p → Q w.ctl w.seen w.runtime.store := by
  obtain ⟨-, h2, h3⟩ := h
  obtain ⟨i, v, hv, he⟩ := h2 0 _ (.refl _)
  obtain ⟨j, s', h5, h6⟩ := c79_values hp c n s hv
  have hq := h3 i v hv he
  rw [h6 he.2] at hq
  refine ⟨fun w hw => ?_, fun w hw hw' => ?_⟩
  · obtain ⟨log, hw⟩ := hw
    obtain ⟨j', a, h7, h8⟩ := mirror hp hw
    exact ended_of hp h5 he.1 _ j' _ w a rfl hw h7 h8
  · obtain ⟨j', s'', h7, h8⟩ := c96_values hp hw
    obtain rfl : j = j' := Nat.le_antisymm (Alone.Steps.not_beyond h7 h5 hw'.1) (Alone.Steps.not_beyond h5 h7 he.1)
    have := h5.unique h7
    injection this with e1 e2 e3 e4
    rw [← e1, ← e2, h8 hw'.2, ← e4]
    exact hq

/-- **C96, programs that go on forever** (`RunsForever`) do so with restarts as well. -/
theorem c96_forever {A : Arith V} {G : Geometry P} {p : Program P V σ} (hp : UsesLibrary K A G p) (may : Nat → Prop) {c : σ} {n : Nat}
    {s : Cell P → V} (h : RunsForever p c n s) (w : World P V σ) (hw : World.Runs p may (.start c n s) w) : ¬w.Ended p := by
  intro he
  obtain ⟨j, s', h1, -⟩ := c96_values hp hw
  obtain ⟨-, h2, -⟩ := c79_terminates hp c n s h1 he.1
  obtain ⟨i', w', h3, h4⟩ := h2 0 _ (.refl _)
  exact (h i' w' h3).1 h4

theorem tasks_of_sim {may : Nat → Prop} {s : Cell P → V} {ts : List (Task (Cell P) V)} {log : List (Nat × (Cell P → V))} {m : State (Cell P) V} {L : List Nat}
    {D : Nat → Cell P → Prop} (hS : Sim may s ts log m L D) : m.tasks.map Attempt.task = ts := by
  refine List.ext_getElem? fun i => ?_
  rw [List.getElem?_map]
  rcases hi : m.tasks[i]? with _ | t
  · rw [List.getElem?_eq_none_iff, hS.length] at hi
    exact (List.getElem?_eq_none_iff.2 hi).symm
  · exact (hS.task i t hi).1.symm

/-- **C96, output of programs that look at values**: prints among the tasks launched so far that are not restarted, ordered among each other, have printed,
when all tasks have been committed, each once, in launch order, what running everything launched before, once and one after the other, leaves. -/
theorem c96_printed {A : Arith V} {G : Geometry P} {p : Program P V σ} (hp : UsesLibrary K A G p) {may : Nat → Prop} {c : σ} {n : Nat}
    {s : Cell P → V} {log : List (Nat × (Cell P → V))} {w : World P V σ} (h : World.Logged p may (.start c n s) log w) (hd : w.runtime.Done)
    (jobs : List (PrintJob (Cell P))) (hch : PrintChain (w.runtime.tasks.map Attempt.task) jobs) (hm : ∀ j ∈ jobs, ¬may j.number) :
    output jobs log = jobs.map fun j => runTasks s ((w.runtime.tasks.map Attempt.task).take j.number) j.cell := by
  obtain ⟨_, a, -, h2⟩ := mirror hp h
  obtain ⟨ts, L, D, hon, hcov, hS, -⟩ := h2.store
  rw [tasks_of_sim hS] at hch ⊢
  exact prints_of_sim hS hon hd jobs hch hm

/-- **C96, output of programs that look at values, in any order**: the same for prints that are not ordered among each other. -/
theorem c96_printed_any {A : Arith V} {G : Geometry P} {p : Program P V σ} (hp : UsesLibrary K A G p) {may : Nat → Prop} {c : σ} {n : Nat}
    {s : Cell P → V} {log : List (Nat × (Cell P → V))} {w : World P V σ} (h : World.Logged p may (.start c n s) log w) (hd : w.runtime.Done)
    (jobs : List (PrintJob (Cell P))) (hch : Prints (w.runtime.tasks.map Attempt.task) jobs) (hm : ∀ j ∈ jobs, ¬may j.number) :
    (output jobs log).Perm (jobs.map fun j => runTasks s ((w.runtime.tasks.map Attempt.task).take j.number) j.cell) := by
  obtain ⟨_, a, -, h2⟩ := mirror hp h
  obtain ⟨ts, L, D, hon, hcov, hS, -⟩ := h2.store
  rw [tasks_of_sim hS] at hch ⊢
  exact prints_any_of_sim hS hon hd jobs hch hm

end Verif.Restart
