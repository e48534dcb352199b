import Verif.Interactive.Spec

/-! # C79: programs that look at values behave as if everything ran in program order -/
set_option linter.unusedSectionVars false
namespace Verif.Interactive
open Verif.Runtime Verif.Vector Verif.Solver Verif.Planner
variable {K P V σ : Type} [DecidableEq P] [DecidableEq K]

/-! ## Sequential runs are deterministic -/

theorem Alone.Step.unique {p : Program P V σ} {a b b' : Alone P V σ} (h : Alone.Step p a b) (h' : Alone.Step p a b') : b = b' := by
  cases h with
  | call e1 e2 =>
    cases h' with
    | call f1 f2 =>
      rw [e1] at f1; cases f1
      rw [e2] at f2; cases f2
      rfl
    | get f1 => rw [e1] at f1; cases f1
  | get e1 =>
    cases h' with
    | call f1 f2 => rw [e1] at f1; cases f1
    | get f1 => rw [e1] at f1; cases f1; rfl

theorem Alone.Steps.unique {p : Program P V σ} {i : Nat} {a b b' : Alone P V σ} (h : Alone.Steps p i a b) (h' : Alone.Steps p i a b') :
    b = b' := by
  induction h generalizing b' with
  | refl => cases h'; rfl
  | tail _ hs ih =>
    cases h' with
    | tail h1 h2 =>
      obtain rfl := ih h1
      exact hs.unique h2

theorem Alone.Step.not_halt {p : Program P V σ} {a b : Alone P V σ} (h : Alone.Step p a b) : p a.ctl ≠ .halt := by
  cases h with
  | call e1 e2 => rw [e1]; intro h; cases h
  | get e1 => rw [e1]; intro h; cases h

theorem Alone.Step.not_aborted {p : Program P V σ} {a b : Alone P V σ} (h : Alone.Step p a b) {m : M P V σ} (h1 : p a.ctl = .call m)
    (h2 : m ⟨a.next, []⟩ = none) : False := by
  cases h with
  | call e1 e2 =>
    rw [e1] at h1; cases h1
    rw [e2] at h2; cases h2
  | get e1 => rw [e1] at h1; cases h1

theorem Alone.Steps.append {p : Program P V σ} {i j : Nat} {a b c : Alone P V σ} (h : Alone.Steps p i a b) (h' : Alone.Steps p j b c) :
    Alone.Steps p (i + j) a c := by
  induction h' with
  | refl => exact h
  | tail _ hs ih => exact .tail (ih h) hs

theorem Alone.Steps.prefix {p : Program P V σ} {i : Nat} {a b : Alone P V σ} (h : Alone.Steps p i a b) (j : Nat) (hj : j ≤ i) :
    ∃ c, Alone.Steps p j a c ∧ Alone.Steps p (i - j) c b := by
  induction h generalizing j with
  | refl w => obtain rfl : j = 0 := by omega
              exact ⟨_, .refl _, .refl _⟩
  | @tail i a' b' c' h1 hs ih =>
    by_cases hji : j = i + 1
    · subst hji
      exact ⟨_, .tail h1 hs, by rw [Nat.sub_self]; exact .refl _⟩
    · obtain ⟨c, g1, g2⟩ := ih j (by omega)
      refine ⟨c, g1, ?_⟩
      rw [show i + 1 - j = (i - j) + 1 by omega]
      exact .tail g2 hs

/-! ## Simulation -/

theorem finish_append (s : Cell P → V) (l : List (Running (Cell P) V)) (ts : List (Task (Cell P) V)) :
    finish ⟨s, l ++ ts.map fun t => ⟨t, t.body⟩⟩ = runTasks (finish ⟨s, l⟩) ts := by
  unfold finish runTasks
  rw [List.foldl_append, List.foldl_map]

theorem runUpdates_other {us : List (Update (Cell P) V)} {x : Cell P} (h : ∀ u ∈ us, u.dst ≠ x) (s : Cell P → V) :
    runUpdates s us x = s x := by
  induction us generalizing s with
  | nil => rfl
  | cons u us ih =>
    show runUpdates (u.exec s) us x = s x
    rw [ih (fun v hv => h v (List.mem_cons_of_mem _ hv))]
    unfold Update.exec
    rw [if_neg fun e => h u (List.mem_cons_self ..) e.symm]

/-- When a value is available, finishing the remaining tasks does not change it. -/
theorem available_final {m : Machine (Cell P) V} {x : Scalar} (ok : m.Ok) (h : Available m x) : finish m (.fut x.fut) = m.store (.fut x.fut) := by
  obtain ⟨s, l⟩ := m
  unfold finish
  show List.foldl _ s l (.fut x.fut) = s (.fut x.fut)
  have ok' : ∀ r ∈ l, ∀ u ∈ r.todo, u.Within r.task.reads r.task.writes := ok
  have h' : ∀ r ∈ l, r.task.writes (.fut x.fut) → r.todo = [] := h
  clear ok h
  induction l generalizing s with
  | nil => rfl
  | cons r l ih =>
    rw [List.foldl_cons, ih _ (fun r hr => ok' r (List.mem_cons_of_mem _ hr)) (fun r hr => h' r (List.mem_cons_of_mem _ hr))]
    apply runUpdates_other
    intro u hu e
    have hw := (ok' r (List.mem_cons_self ..) u hu).1
    rw [e] at hw
    rw [h' r (List.mem_cons_self ..) hw] at hu
    cases hu

/-- What an execution has done, seen from the sequential run. -/
def World.alone (w : World P V σ) : Alone P V σ := ⟨w.ctl, w.seen, w.next, finish w.machine⟩

theorem step_alone {A : Arith V} {G : Geometry P} {p : Program P V σ} (hp : UsesLibrary K A G p) {w w' : World P V σ}
    (ok : w.machine.Ok) (h : World.Step p w w') :
    w'.machine.Ok ∧ ((w'.alone = w.alone ∧ w.machine.Step w'.machine) ∨
      (Alone.Step p w.alone w'.alone ∧ ∃ ts, w'.machine.tasks = w.machine.tasks ++ ts)) := by
  cases h with
  | task hs =>
    obtain ⟨h1, h2⟩ := step_ok hs ok
    refine ⟨h1, Or.inl ⟨?_, hs⟩⟩
    unfold World.alone
    rw [h2]
  | @call c c' l n m e s ts e1 e2 =>
    have hon := Hon.client (hp _ _ e1)
    obtain ⟨us, u1, u2, -⟩ := hon _ _ _ e2
    rw [show (⟨n, []⟩ : Emit P V).out = [] from rfl, List.nil_append] at u1
    refine ⟨?_, Or.inr ⟨?_, _, rfl⟩⟩
    · intro r hr u hu
      rcases List.mem_append.1 hr with hr | hr
      · exact ok r hr u hu
      · obtain ⟨t, ht, rfl⟩ := List.mem_map.1 hr
        exact u2 t (u1 ▸ ht) u hu
    · show Alone.Step p ⟨c, l, n, _⟩ ⟨c', l, e.next, finish ⟨s, ts ++ e.out.map fun t => ⟨t, t.body⟩⟩⟩
      rw [finish_append]
      exact .call e1 e2
  | @get c x k l n m e1 e2 =>
    refine ⟨ok, Or.inr ⟨?_, [], (List.append_nil _).symm⟩⟩
    unfold World.alone
    rw [← available_final ok e2]
    exact .get e1

theorem ok_start (c : σ) (n : Nat) (s : Cell P → V) : (World.start c n s).machine.Ok := fun r hr => by cases hr

theorem simulates {A : Arith V} {G : Geometry P} {p : Program P V σ} (hp : UsesLibrary K A G p) {i : Nat} {w w' : World P V σ}
    (ok : w.machine.Ok) (h : World.Steps p i w w') :
    w'.machine.Ok ∧ ∃ j, j ≤ i ∧ Alone.Steps p j w.alone w'.alone := by
  induction h with
  | refl => exact ⟨ok, 0, Nat.le_refl _, .refl _⟩
  | tail _ hs ih =>
    obtain ⟨ok', j, hj, h⟩ := ih ok
    obtain ⟨ok'', h'⟩ := step_alone hp ok' hs
    refine ⟨ok'', ?_⟩
    rcases h' with ⟨e, -⟩ | ⟨e, -⟩
    · exact ⟨j, by omega, by rw [e]; exact h⟩
    · exact ⟨j + 1, by omega, .tail h e⟩

/-! ## C79 -/

/-- **C79**: whatever the schedule, at every moment of every execution the program is in a state, and has looked at values, that it
would also reach if each of its calls ran its tasks to the end before returning. -/
theorem c79_values {A : Arith V} {G : Geometry P} {p : Program P V σ} (hp : UsesLibrary K A G p) (c : σ) (n : Nat) (s : Cell P → V)
    {i : Nat} {w : World P V σ} (h : World.Steps p i (.start c n s) w) :
    ∃ j s', Alone.Steps p j ⟨c, [], n, s⟩ ⟨w.ctl, w.seen, w.next, s'⟩ ∧ (w.machine.Done → w.machine.store = s') := by
  obtain ⟨-, j, -, hj⟩ := simulates hp (ok_start c n s) h
  exact ⟨j, finish w.machine, hj, fun hd => (finish_done hd).symm⟩

/-- **C79**: two executions that run to the end have looked at the same values and leave the same memory. -/
theorem c79_deterministic {A : Arith V} {G : Geometry P} {p : Program P V σ} (hp : UsesLibrary K A G p) (c : σ) (n : Nat) (s : Cell P → V)
    {i i' : Nat} {w w' : World P V σ} (h : World.Steps p i (.start c n s) w) (h' : World.Steps p i' (.start c n s) w')
    (hw : w.Ended p) (hw' : w'.Ended p) :
    w'.ctl = w.ctl ∧ w'.seen = w.seen ∧ w'.next = w.next ∧ w'.machine.store = w.machine.store := by
  obtain ⟨-, j, -, hj⟩ := simulates hp (ok_start c n s) h
  obtain ⟨-, j', -, hj'⟩ := simulates hp (ok_start c n s) h'
  have key : ∀ {j j' : Nat} {a b b' : Alone P V σ}, Alone.Steps p j a b → Alone.Steps p j' a b' → p b.ctl = .halt → j' ≤ j := by
    intro j j' a b b' h1 h2 hb
    apply Nat.le_of_not_lt
    intro hlt
    obtain ⟨x, g1, g2⟩ := h2.prefix (j + 1) hlt
    cases g1 with
    | tail g3 g4 =>
      obtain rfl := h1.unique g3
      exact g4.not_halt hb
  have e : j = j' := Nat.le_antisymm (key hj' hj hw'.1) (key hj hj' hw.1)
  subst e
  have hh := hj.unique hj'
  unfold World.alone at hh
  injection hh with h1 h2 h3 h4
  exact ⟨h1.symm, h2.symm, h3.symm, by rw [← finish_done hw'.2, ← finish_done hw.2, h4]⟩

/-- **C79**: no execution gets stuck: unless the program has ended and all tasks with it, or a call has failed an assertion, some
task or the program can go on. -/
theorem c79_progress (p : Program P V σ) (w : World P V σ) (h : ¬ w.Ended p) (h' : ¬ w.Aborted p) : ∃ w', World.Step p w w' := by
  obtain ⟨c, l, n, s, ts⟩ := w
  by_cases hd : (⟨s, ts⟩ : Machine (Cell P) V).Done
  · cases hc : p c with
    | halt => exact absurd ⟨hc, hd⟩ h
    | call m =>
      cases hm : m ⟨n, []⟩ with
      | none => exact absurd ⟨m, hc, hm⟩ h'
      | some r => exact ⟨_, .call hc hm⟩
    | get x k => exact ⟨_, .get hc fun r hr _ => hd r hr⟩
  · obtain ⟨m', hm'⟩ := c42_progress _ hd
    exact ⟨_, .task hm'⟩

theorem World.Steps.head {p : Program P V σ} {i : Nat} {w w'' : World P V σ} (h : World.Steps p (i + 1) w w'') :
    ∃ w', World.Step p w w' ∧ World.Steps p i w' w'' := by
  induction i generalizing w'' with
  | zero =>
    cases h with
    | tail h1 h2 => cases h1; exact ⟨_, h2, .refl _⟩
  | succ i ih =>
    cases h with
    | tail h1 h2 =>
      obtain ⟨w', g1, g2⟩ := ih h1
      exact ⟨w', g1, .tail g2 h2⟩

theorem bounded {A : Arith V} {G : Geometry P} {p : Program P V σ} (hp : UsesLibrary K A G p) {a : Alone P V σ} (ha : p a.ctl = .halt) :
    ∀ j (b : Alone P V σ), Alone.Steps p j b a → ∃ B, ∀ i (w w' : World P V σ), w.machine.Ok → w.alone = b →
      World.Steps p i w w' → i ≤ B + w.machine.left := by
  intro j
  induction j with
  | zero =>
    intro b hb
    cases hb
    refine ⟨0, fun i => ?_⟩
    induction i with
    | zero => intros; omega
    | succ i ih =>
      intro w w' ok hw h
      obtain ⟨w1, g1, g2⟩ := h.head
      obtain ⟨ok1, h1⟩ := step_alone hp ok g1
      rcases h1 with ⟨e, hs⟩ | ⟨e, -⟩
      · have := ih w1 w' ok1 (e.trans hw) g2
        have := c42_terminates hs
        omega
      · rw [hw] at e
        exact absurd ha e.not_halt
  | succ j ih =>
    intro b hb
    obtain ⟨b', h1, h2⟩ := hb.prefix 1 (by omega)
    cases h1 with
    | tail h0 hstep =>
      cases h0
      obtain ⟨B, hB⟩ := ih b' h2
      -- what the next step of the program launches
      have hextra : ∃ extra, ∀ w w1 : World P V σ, w.alone = b → World.Step p w w1 → w.machine.Ok →
          (w1.alone = b ∧ w1.machine.left + 1 = w.machine.left) ∨ (w1.alone = b' ∧ w1.machine.left ≤ w.machine.left + extra) := by
        cases hc : p b.ctl with
        | halt => exact absurd hc hstep.not_halt
        | get x k =>
          refine ⟨0, fun w w1 hw h ok => ?_⟩
          have hs := step_alone hp ok h
          cases h with
          | task h3 =>
            rcases hs.2 with ⟨e, -⟩ | ⟨e, -⟩
            · exact Or.inl ⟨e.trans hw, c42_terminates h3⟩
            · rw [hw] at e
              exact Or.inr ⟨e.unique hstep, (c42_terminates h3).symm ▸ (by dsimp only; omega)⟩
          | call e1 e2 =>
            subst hw
            cases (show _ = _ from hc).symm.trans e1
          | get e1 e2 =>
            rcases hs.2 with ⟨e, h4⟩ | ⟨e, -⟩
            · exact Or.inl ⟨e.trans hw, c42_terminates h4⟩
            · rw [hw] at e
              exact Or.inr ⟨e.unique hstep, Nat.le_refl _⟩
        | call m =>
          cases hm : m ⟨b.next, []⟩ with
          | none => exact (hstep.not_aborted hc hm).elim
          | some r =>
            refine ⟨(r.2.out.map fun t => t.body.length).sum, fun w w1 hw h ok => ?_⟩
            have hs := step_alone hp ok h
            cases h with
            | task h3 =>
              rcases hs.2 with ⟨e, -⟩ | ⟨e, -⟩
              · exact Or.inl ⟨e.trans hw, c42_terminates h3⟩
              · rw [hw] at e
                exact Or.inr ⟨e.unique hstep, (c42_terminates h3).symm ▸ (by dsimp only; omega)⟩
            | get e1 e2 =>
              subst hw
              cases (show _ = _ from hc).symm.trans e1
            | call e1 e2 =>
              rcases hs.2 with ⟨e, h4⟩ | ⟨e, -⟩
              · exact Or.inl ⟨e.trans hw, c42_terminates h4⟩
              · rw [hw] at e
                refine Or.inr ⟨e.unique hstep, ?_⟩
                subst hw
                cases (show _ = _ from hc).symm.trans e1
                cases (show _ = _ from hm).symm.trans e2
                simp [Machine.left, Function.comp_def]
      obtain ⟨extra, hx⟩ := hextra
      refine ⟨B + 1 + extra, fun i => ?_⟩
      induction i with
      | zero => intros; omega
      | succ i ih' =>
        intro w w' ok hw h
        obtain ⟨w1, g1, g2⟩ := h.head
        obtain ⟨ok1, -⟩ := step_alone hp ok g1
        rcases hx w w1 hw g1 ok with ⟨e, hl⟩ | ⟨e, hl⟩
        · have := ih' w1 w' ok1 e g2
          omega
        · have := hB i w1 w' ok1 e g2
          omega

/-- **C79**: if the program ends when its calls take effect at once, then all its executions are of bounded length, and they all end
with what that run sees and leaves. -/
theorem c79_terminates {A : Arith V} {G : Geometry P} {p : Program P V σ} (hp : UsesLibrary K A G p) (c : σ) (n : Nat) (s : Cell P → V)
    {j : Nat} {a : Alone P V σ} (h : Alone.Steps p j ⟨c, [], n, s⟩ a) (ha : p a.ctl = .halt) :
    Ends p c n s fun ctl seen s' => ctl = a.ctl ∧ seen = a.seen ∧ s' = a.store := by
  obtain ⟨B, hB⟩ := bounded hp ha j _ h
  have hbound : ∀ i w, World.Steps p i (.start c n s) w → i ≤ B := fun i w hw => by
    have := hB i _ w (ok_start c n s) rfl hw
    simpa [World.start, Machine.left] using this
  have happ : ∀ {i i' : Nat} {w w' w'' : World P V σ}, World.Steps p i w w' → World.Steps p i' w' w'' → World.Steps p (i + i') w w'' := by
    intro i i' w w' w'' h1 h2
    induction h2 with
    | refl => exact h1
    | tail _ hs ih => exact .tail (ih h1) hs
  have hpre : ∀ i w, World.Steps p i (.start c n s) w → ∃ j', j' ≤ j ∧ Alone.Steps p j' ⟨c, [], n, s⟩ w.alone ∧
      Alone.Steps p (j - j') w.alone a := by
    intro i w hw
    obtain ⟨-, j', -, hj'⟩ := simulates hp (ok_start c n s) hw
    have hle : j' ≤ j := by
      apply Nat.le_of_not_lt
      intro hlt
      obtain ⟨x, g1, g2⟩ := hj'.prefix (j + 1) hlt
      cases g1 with
      | tail g3 g4 =>
        obtain rfl := h.unique g3
        exact g4.not_halt ha
    obtain ⟨x, g1, g2⟩ := h.prefix j' hle
    obtain rfl := hj'.unique g1
    exact ⟨j', hle, hj', g2⟩
  have hend : ∀ d i w, World.Steps p i (.start c n s) w → B - i ≤ d → ∃ i' w', World.Steps p i' w w' ∧ w'.Ended p := by
    intro d
    induction d with
    | zero =>
      intro i w hw hd
      by_cases he : w.Ended p
      · exact ⟨0, w, .refl w, he⟩
      · obtain ⟨w', hw'⟩ := c79_progress p w he (by
          rintro ⟨m, h1, h2⟩
          obtain ⟨j', hle, -, g⟩ := hpre i w hw
          by_cases hjj : j - j' = 0
          · rw [hjj] at g
            cases hww : w.alone with
            | mk => cases g; rw [show p w.ctl = .halt from ha] at h1; cases h1
          · obtain ⟨x, g1, -⟩ := g.prefix 1 (by omega)
            cases g1 with
            | tail g3 g4 => cases g3; exact g4.not_aborted h1 h2)
        have := hbound _ _ (.tail hw hw')
        omega
    | succ d ih =>
      intro i w hw hd
      by_cases he : w.Ended p
      · exact ⟨0, w, .refl w, he⟩
      · obtain ⟨w', hw'⟩ := c79_progress p w he (by
          rintro ⟨m, h1, h2⟩
          obtain ⟨j', hle, -, g⟩ := hpre i w hw
          by_cases hjj : j - j' = 0
          · rw [hjj] at g
            cases hww : w.alone with
            | mk => cases g; rw [show p w.ctl = .halt from ha] at h1; cases h1
          · obtain ⟨x, g1, -⟩ := g.prefix 1 (by omega)
            cases g1 with
            | tail g3 g4 => cases g3; exact g4.not_aborted h1 h2)
        obtain ⟨i', w'', g1, g2⟩ := ih _ _ (.tail hw hw') (by omega)
        exact ⟨_, w'', happ (.tail (.refl w) hw') g1, g2⟩
  refine ⟨⟨B, hbound⟩, fun i w hw => hend _ i w hw (Nat.le_refl _), fun i w hw he => ?_⟩
  obtain ⟨j', hle, -, g⟩ := hpre i w hw
  by_cases hjj : j - j' = 0
  · rw [hjj] at g
    have e : w.alone = a := by cases g; rfl
    subst e
    exact ⟨rfl, rfl, (finish_done he.2).symm⟩
  · obtain ⟨x, g1, -⟩ := g.prefix 1 (by omega)
    cases g1 with
    | tail g3 g4 => cases g3; exact absurd he.1 g4.not_halt

/-- **C79**: if the program goes on forever when its calls take effect at once, no execution ends or gets stuck. -/
theorem c79_runs_forever {A : Arith V} {G : Geometry P} {p : Program P V σ} (hp : UsesLibrary K A G p) (c : σ) (n : Nat) (s : Cell P → V)
    (h : ∀ j, ∃ a, Alone.Steps p j ⟨c, [], n, s⟩ a) : RunsForever p c n s := by
  intro i w hw
  obtain ⟨-, j, -, hj⟩ := simulates hp (ok_start c n s) hw
  obtain ⟨a, ha⟩ := h (j + 1)
  cases ha with
  | tail g1 g2 =>
    obtain rfl := hj.unique g1
    have hne : ¬ w.Ended p := fun he => g2.not_halt he.1
    exact ⟨hne, c79_progress p w hne fun ⟨m, h1, h2⟩ => g2.not_aborted h1 h2⟩

/-- **C79**: if the program fails an assertion when its calls take effect at once, no execution ends. -/
theorem c79_aborts {A : Arith V} {G : Geometry P} {p : Program P V σ} (hp : UsesLibrary K A G p) (c : σ) (n : Nat) (s : Cell P → V)
    {j : Nat} {a : Alone P V σ} (h : Alone.Steps p j ⟨c, [], n, s⟩ a) {m : M P V σ} (h1 : p a.ctl = .call m) (h2 : m ⟨a.next, []⟩ = none)
    (i : Nat) (w : World P V σ) (hw : World.Steps p i (.start c n s) w) : ¬ w.Ended p := by
  intro he
  obtain ⟨-, j', -, hj'⟩ := simulates hp (ok_start c n s) hw
  rcases Nat.lt_trichotomy j j' with hlt | rfl | hlt
  · obtain ⟨x, g1, -⟩ := hj'.prefix (j + 1) hlt
    cases g1 with
    | tail g3 g4 =>
      obtain rfl := h.unique g3
      exact g4.not_aborted h1 h2
  · obtain rfl := h.unique hj'
    cases h1.symm.trans he.1
  · obtain ⟨x, g1, -⟩ := h.prefix (j' + 1) hlt
    cases g1 with
    | tail g3 g4 =>
      obtain rfl := hj'.unique g3
      exact g4.not_halt he.1

end Verif.Interactive
