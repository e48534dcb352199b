import Verif.Replay.Solvers
import Verif.Programs.BenchmarkProps

/-! # C92: the clock is read exactly before and after the timed iterations -/
set_option linter.dupNamespace false
set_option linter.unusedSectionVars false
namespace Verif.Replay
open Verif.Runtime Verif.Vector Verif.Matrix Verif.Planner Verif.Solver Verif.Programs Verif.Launch Verif.Grid Verif.Stencil Verif.EndToEnd

/-! ## Specification -/
section
variable {K P V α : Type} [DecidableEq P] [DecidableEq K]

/-- Nothing of the item at position `i` is left to do (a clock has been read). -/
def State.Finished (m : State P V) (i : Nat) : Prop := ∃ r, m.live[i]? = some r ∧ r.todo = []

/-- Something of the item at position `i` has been done. -/
def State.Begun (m : State P V) (i : Nat) : Prop := ∃ r, m.live[i]? = some r ∧ r ≠ Live.fresh r.item

/-- The sequence is: `before`, a clock reading, `between`, a clock reading, and no tasks after it; the tasks in between are `timed`.  However it is
executed: when the clock is read the first time all tasks before have finished; no task in between begins before that; when the clock is read the
second time all tasks have finished. -/
def TimesExactly (l : List (Item P V)) (timed : List (Task (Cell P) V)) : Prop :=
  ∃ before between after, l = before ++ .clock :: (between ++ .clock :: after) ∧ tasksOf between = timed ∧ tasksOf after = [] ∧
    ∀ s m, (State.start s l).Steps m →
      (m.Finished before.length → ∀ i t, before[i]? = some (.task t) → m.Finished i) ∧
      (∀ i t, between[i]? = some (.task t) → m.Begun (before.length + 1 + i) → m.Finished before.length) ∧
      (m.Finished (before.length + 1 + between.length) → ∀ i t, l[i]? = some (.task t) → m.Finished i)

/-- `ts` is what `k` consecutive steps of the solver chosen on the command line launch, on some planner and from some solver object. -/
def SolverSteps (A : Arith V) (G : Geometry P) (K : Type) [DecidableEq K] (solver : Int) (k : Nat) (ts : List (Task (Cell P) V)) : Prop :=
  ∃ (pl : Planner K P V) (n n' : Nat),
    (solver = 1 ∧ ∃ c c', repeatM (CG.step (plannerOps A G.toEnv pl)) k c ⟨n, []⟩ = some (c', ⟨n', ts⟩)) ∨
    (solver = 2 ∧ ∃ c c', repeatM (BiCGStab.step (plannerOps A G.toEnv pl)) k c ⟨n, []⟩ = some (c', ⟨n', ts⟩)) ∨
    (solver = 3 ∧ ∃ c c', c.restart = 10 ∧ repeatM (GMRES.step (plannerOps A G.toEnv pl)) k c ⟨n, []⟩ = some (c', ⟨n', ts⟩))

end

/-! ## Waiting is obeyed -/
section
variable {P V α : Type} [DecidableEq P] {A : Arith V}

/-- If the item at `j` waits for that at `i` and has begun, the one at `i` has finished. -/
theorem waits_obeyed {l : List (Item P V)} {s : Cell P → V} {m : State P V} (h : (State.start s l).Steps m) :
    m.live.map Live.item = l ∧ ∀ i j, i < j → Waits l i j → m.Begun j → m.Finished i := by
  generalize hm0 : State.start s l = m0 at h
  induction h with
  | refl =>
    subst hm0
    refine ⟨start_items s l, fun i j _ _ hb => ?_⟩
    obtain ⟨r, hr, hn⟩ := hb
    have hr : (l.map Live.fresh)[j]? = some r := hr
    rw [List.getElem?_map] at hr
    cases hx : l[j]? with
    | none => rw [hx] at hr; cases hr
    | some x =>
      rw [hx] at hr
      cases hr
      exact absurd (by rw [fresh_item]) hn
  | tail _ hs ih =>
    obtain ⟨h1, h2⟩ := ih
    obtain ⟨s, before, x, u, rest, after, ready⟩ := hs
    refine ⟨by rw [← h1]; simp, fun i j hij hw hb => ?_⟩
    -- positions other than the one that advanced are unchanged
    have same : ∀ k, k ≠ before.length →
        (before ++ ⟨x, rest⟩ :: after)[k]? = (before ++ (⟨x, u :: rest⟩ : Live P V) :: after)[k]? := by
      intro k hk
      by_cases hlt : k < before.length
      · rw [List.getElem?_append_left hlt, List.getElem?_append_left hlt]
      · have h1 : before.length ≤ k := by omega
        rw [List.getElem?_append_right h1, List.getElem?_append_right h1]
        obtain ⟨k', hk'⟩ : ∃ k', k - before.length = k' + 1 := ⟨k - before.length - 1, by omega⟩
        rw [hk', List.getElem?_cons_succ, List.getElem?_cons_succ]
    have fin : (⟨s, before ++ ⟨x, u :: rest⟩ :: after⟩ : State P V).Finished i →
        (⟨u.elim s fun u => u.exec s, before ++ ⟨x, rest⟩ :: after⟩ : State P V).Finished i := by
      rintro ⟨r, hr, ht⟩
      refine ⟨r, ?_, ht⟩
      show (before ++ ⟨x, rest⟩ :: after)[i]? = _
      rw [same i (fun hi => ?_)]
      · exact hr
      · subst hi
        have hr : (before ++ (⟨x, u :: rest⟩ : Live P V) :: after)[before.length]? = some r := hr
        simp only [List.getElem?_append_right (Nat.le_refl _), Nat.sub_self, List.getElem?_cons_zero] at hr
        cases hr
        cases ht
    by_cases hj : j = before.length
    · subst hj
      apply fin
      have hi : i < before.length := hij
      have hget : before[i]? = some before[i] := List.getElem?_eq_getElem hi
      refine ⟨before[i], ?_, ?_⟩
      · show (before ++ _)[i]? = _
        rw [List.getElem?_append_left hi, hget]
      · rcases ready i _ hget with h | h
        · exact h
        · exact absurd (h1 ▸ hw) h
    · refine fin (h2 i j hij hw ?_)
      obtain ⟨r, hr, hn⟩ := hb
      exact ⟨r, (same j hj) ▸ hr, hn⟩

/-- A fence separates what is before it from what is after it. -/
theorem fence_obeyed {l : List (Item P V)} {s : Cell P → V} {m : State P V} (h : (State.start s l).Steps m) {i k j : Nat} (hik : i < k)
    (hkj : k < j) (hk : l[k]? = some .fence) (hb : m.Begun j) : m.Finished i :=
  (waits_obeyed h).2 i j (by omega) (.inl ⟨k, hik, hkj, hk⟩) hb

/-- A clock that has been read has begun. -/
theorem clock_begun {l : List (Item P V)} {s : Cell P → V} {m : State P V} (h : (State.start s l).Steps m) {i : Nat}
    (hi : l[i]? = some .clock) (hf : m.Finished i) : m.Begun i := by
  obtain ⟨r, hr, ht⟩ := hf
  refine ⟨r, hr, fun he => ?_⟩
  have : (m.live.map Live.item)[i]? = some .clock := by rw [(waits_obeyed h).1, hi]
  rw [List.getElem?_map, hr] at this
  have hx : r.item = .clock := by simpa using this
  rw [he, hx] at ht
  cases ht

/-- Fences around clock readings. -/
theorem times_of_fences {pre mid : List (Item P V)} {timed : List (Task (Cell P) V)} (ht : tasksOf mid = timed) :
    TimesExactly (pre ++ [.fence, .clock, .fence] ++ mid ++ [.fence, .clock, .fence]) timed := by
  refine ⟨pre ++ [.fence], .fence :: (mid ++ [.fence]), [.fence], by simp, ?_, rfl, fun s m hm => ?_⟩
  · show tasksOf (mid ++ [.fence]) = timed
    rw [tasksOf_append, ht]
    exact List.append_nil _
  generalize hl : pre ++ [.fence, .clock, .fence] ++ mid ++ [.fence, .clock, .fence] = l at hm
  have len : (pre ++ [(.fence : Item P V)]).length = pre.length + 1 := by simp
  have len2 : ((.fence : Item P V) :: (mid ++ [.fence])).length = mid.length + 2 := by simp
  rw [len, len2]
  have g0 : l[pre.length]? = some .fence := by
    rw [← hl, List.append_assoc, List.append_assoc, List.getElem?_append_right (Nat.le_refl _)]; simp
  have g1 : l[pre.length + 1]? = some .clock := by
    rw [← hl, List.append_assoc, List.append_assoc, List.getElem?_append_right (by omega)]; simp
  have g2 : l[pre.length + 2]? = some .fence := by
    rw [← hl, List.append_assoc, List.append_assoc, List.getElem?_append_right (by omega)]; simp
  have e3 : (pre ++ [(.fence : Item P V), .clock, .fence] ++ mid).length = pre.length + 3 + mid.length := by simp; omega
  have g3 : l[pre.length + 3 + mid.length]? = some .fence := by
    rw [← hl, ← e3, List.getElem?_append_right (Nat.le_refl _)]; simp
  have g4 : l[pre.length + 1 + 1 + (mid.length + 2)]? = some .clock := by
    rw [← hl, List.getElem?_append_right (by rw [e3]; omega), e3,
      show pre.length + 1 + 1 + (mid.length + 2) - (pre.length + 3 + mid.length) = 1 by omega]
    rfl
  refine ⟨fun hf i t hi => ?_, fun i t hi hb => ?_, fun hf i t hi => ?_⟩
  · refine fence_obeyed hm (k := pre.length) ?_ (by omega) g0 (clock_begun hm g1 hf)
    by_cases hlt : i < pre.length
    · exact hlt
    · rw [List.getElem?_append_right (by omega)] at hi
      cases hz : i - pre.length with
      | zero => rw [hz] at hi; cases hi
      | succ z => rw [hz] at hi; cases hi
  · cases i with
    | zero => cases hi
    | succ i => exact fence_obeyed hm (k := pre.length + 2) (by omega) (by omega) g2 hb
  · refine fence_obeyed hm (k := pre.length + 3 + mid.length) ?_ (by omega) g3 (clock_begun hm g4 hf)
    by_cases hlt : i < pre.length + 3 + mid.length
    · exact hlt
    · rw [← hl, List.getElem?_append_right (by rw [e3]; omega), e3] at hi
      match hz : i - (pre.length + 3 + mid.length) with
      | 0 => rw [hz] at hi; cases hi
      | 1 => rw [hz] at hi; cases hi
      | 2 => rw [hz] at hi; cases hi
      | z + 3 => rw [hz] at hi; cases hi

/-! ## What the loops issue -/

theorem calls_eq {m : M P V α} {n : Nat} {items : List (Item P V)} {a : α} {i : Issued P V}
    (h : calls m ⟨n, items⟩ = some (a, i)) : ∃ ts, m ⟨n, []⟩ = some (a, ⟨i.next, ts⟩) ∧ i.items = items ++ ts.map .task := by
  unfold calls at h
  cases hm' : m ⟨n, []⟩ with
  | none => rw [hm'] at h; cases h
  | some z =>
    rw [hm'] at h
    cases h
    exact ⟨z.2.out, rfl, rfl⟩

theorem groups_issue {step : α → M P V α} (hs : ∀ c, Hon (step c)) (pt : Nat) : ∀ (k : Nat) (c : α) (n : Nat) (items : List (Item P V)) (c' : α)
    (i : Issued P V), repeatM (tracedSteps step pt) k c ⟨n, items⟩ = some (c', i) →
      ∃ new, i.items = items ++ new ∧ repeatM step (pt * k) c ⟨n, []⟩ = some (c', ⟨i.next, tasksOf new⟩) := by
  have hon : ∀ k c, Hon (repeatM step k c) := fun k => by
    induction k with
    | zero => intro c; exact Hon.pure c
    | succ k ih => intro c; exact (hs c).bind ih
  intro k
  induction k with
  | zero =>
    intro c n items c' i h
    cases h
    exact ⟨[], by simp, rfl⟩
  | succ k ih =>
    intro c n items c' i h
    obtain ⟨⟨c1, i1⟩, h1, h2⟩ := Option.bind_eq_some_iff.1
      (show (tracedSteps step pt c ⟨n, items⟩).bind (fun p => repeatM (tracedSteps step pt) k p.1 p.2) = some (c', i) from h)
    have h1 : (calls (repeatM step pt c) ⟨n, items ++ [.beginTrace]⟩).bind
      (fun p => some (p.1, (⟨p.2.next, p.2.items ++ [.endTrace]⟩ : Issued P V))) = some (c1, i1) := h1
    obtain ⟨⟨c2, i2⟩, h3, h4⟩ := Option.bind_eq_some_iff.1 h1
    cases h4
    obtain ⟨ts, q1, q2⟩ := calls_eq h3
    obtain ⟨new, r1, r2⟩ := ih _ _ _ _ _ h2
    refine ⟨[.beginTrace] ++ ts.map .task ++ [.endTrace] ++ new, ?_, ?_⟩
    · rw [r1, q2]; simp
    · rw [Nat.mul_succ, Nat.add_comm, repeatM_add]
      rw [q1]
      show repeatM step (pt * k) c2 ⟨i2.next, ts⟩ = _
      obtain ⟨us, t1, -, t2⟩ := hon (pt * k) c2 _ _ _ r2
      rw [t2 ts]
      have t1 : tasksOf new = us := t1
      rw [tasksOf_append, tasksOf_append, tasksOf_append, tasksOf_map, t1]
      show some (c', (⟨i.next, ts ++ us⟩ : Emit P V)) = some (c', ⟨i.next, [] ++ ts ++ [] ++ us⟩)
      simp

/-- The loops: the warm-up steps, a clock reading, the timed steps, a clock reading, with fences. -/
theorem loops_issue {step : α → M P V α} (hs : ∀ c, Hon (step c)) {W it pt n : Nat} {c : α} {items : List (Item P V)} {r : α × Report}
    {i : Issued P V} (h : tracedLoops W it pt step c ⟨n, items⟩ = some (r, i)) :
    ∃ nt c1 n1 warm timed, numTraces W it pt = some nt ∧ r.2 = report W pt nt ∧
      i.items = (items ++ [.fence] ++ warm) ++ [.fence, .clock, .fence] ++ timed ++ [.fence, .clock, .fence] ∧
      repeatM step (pt * warmupTraces) c ⟨n, []⟩ = some (c1, ⟨n1, tasksOf warm⟩) ∧
      repeatM step (pt * (nt - warmupTraces)) c1 ⟨n1, []⟩ = some (r.1, ⟨i.next, tasksOf timed⟩) := by
  cases hnt : numTraces W it pt with
  | none =>
    have : tracedLoops W it pt step c ⟨n, items⟩ = none := by
      show (Option.bind ((lift (numTraces W it pt) ⟨n, []⟩ : Option (Nat × Emit P V)).map _) _) = none
      unfold lift
      rw [hnt]
      rfl
    rw [this] at h
    cases h
  | some nt =>
    have e : tracedLoops W it pt step c ⟨n, items⟩ =
        (repeatM (tracedSteps step pt) warmupTraces c ⟨n, items ++ [.fence]⟩).bind fun p =>
          (repeatM (tracedSteps step pt) (nt - warmupTraces) p.1 ⟨p.2.next, p.2.items ++ [.fence] ++ [.clock] ++ [.fence]⟩).bind fun q =>
            some ((q.1, report W pt nt), ⟨q.2.next, q.2.items ++ [.fence] ++ [.clock] ++ [.fence]⟩) := by
      show (Option.bind ((lift (numTraces W it pt) ⟨n, []⟩ : Option (Nat × Emit P V)).map _) _) = _
      unfold lift
      rw [hnt]
      show (repeatM (tracedSteps step pt) warmupTraces c ⟨n, items ++ [] ++ [.fence]⟩).bind _ = _
      rw [List.append_nil]
      rfl
    rw [e] at h
    obtain ⟨⟨c1, i1⟩, h1, h2⟩ := Option.bind_eq_some_iff.1 h
    obtain ⟨⟨c2, i2⟩, h3, h4⟩ := Option.bind_eq_some_iff.1 h2
    cases h4
    obtain ⟨warm, q1, q2⟩ := groups_issue hs pt _ _ _ _ _ _ h1
    obtain ⟨timed, r1, r2⟩ := groups_issue hs pt _ _ _ _ _ _ h3
    refine ⟨nt, c1, i1.next, warm, timed, rfl, rfl, ?_, q2, r2⟩
    show i2.items ++ [.fence] ++ [.clock] ++ [.fence] = _
    rw [r1]
    show i1.items ++ [.fence] ++ [.clock] ++ [.fence] ++ timed ++ _ ++ _ ++ _ = _
    rw [q1]
    simp

end

/-! ## The solver branches -/
section
variable {K P V α : Type} [DecidableEq P] [DecidableEq K] {A : Arith V} {G : Geometry P} {pl : Planner K P V} {base W it pt n : Nat}
  {items : List (Item P V)} {r : Report} {i : Issued P V}

theorem branch_issue {nw : Nat} {init : Planner K P V → M P V α} {step : Planner K P V → α → M P V α}
    (hs : ∀ pl c, Hon (step pl c))
    (h : (do let pl' ← calls (allocate G pl base nw); let c ← calls (init pl'); let r ← tracedLoops W it pt (step pl') c
             pure r.2 : T P V Report) ⟨n, items⟩ = some (r, i)) :
    ∃ pl' c c1 c2 n0 n1 n2 nt ts, (∃ e, init pl' ⟨n, []⟩ = some (c, e)) ∧ numTraces W it pt = some nt ∧ r = report W pt nt ∧
      TimesExactly i.items ts ∧ repeatM (step pl') (pt * warmupTraces) c ⟨n0, []⟩ = some (c1, n1) ∧
      repeatM (step pl') (pt * (nt - warmupTraces)) c1 ⟨n1.next, []⟩ = some (c2, ⟨n2, ts⟩) := by
  obtain ⟨⟨pl', i1⟩, h1, h2⟩ := Option.bind_eq_some_iff.1 h
  obtain ⟨⟨c, i2⟩, h3, h4⟩ := Option.bind_eq_some_iff.1 h2
  obtain ⟨⟨r', i3⟩, h5, h6⟩ := Option.bind_eq_some_iff.1 h4
  cases h6
  obtain ⟨ts1, q1, -⟩ := calls_eq h1
  obtain ⟨ts2, q2, -⟩ := calls_eq h3
  have hn : i1.next = n := by
    have : (pl.allocateWorkspace G base nw).map (fun pl' => (pl', (⟨n, []⟩ : Emit P V))) = some (pl', ⟨i1.next, ts1⟩) := q1
    cases ha : pl.allocateWorkspace G base nw with
    | none => rw [ha] at this; cases this
    | some p => rw [ha] at this; cases this; rfl
  obtain ⟨nt, c1, n1, warm, timed, k1, k2, k3, k4, k5⟩ := loops_issue (hs pl') h5
  refine ⟨pl', c, c1, r'.1, i2.next, ⟨n1, tasksOf warm⟩, i.next, nt, tasksOf timed, ⟨_, hn ▸ q2⟩, k1, k2, ?_, k4, k5⟩
  rw [k3]
  exact times_of_fences rfl

theorem gmres_restart (horder : ∀ f l, (G.redOrder f l).Perm l) (pl : Planner K P V) {m : Nat} : ∀ (k : Nat) (c : GMRES Scalar) (e : Emit P V) (c' : GMRES Scalar) (e' : Emit P V),
    c.restart = m → repeatM (GMRES.step (plannerOps A G.toEnv pl)) k c e = some (c', e') → c'.restart = m := by
  intro k
  induction k with
  | zero => intro c e c' e' hc h; cases (Option.some.inj h : (c, e) = (c', e')); exact hc
  | succ k ih =>
    intro c e c' e' hc h
    obtain ⟨⟨c1, e1⟩, h1, h2⟩ := Option.bind_eq_some_iff.1
      (show (GMRES.step (plannerOps A G.toEnv pl) c e).bind (fun p => repeatM (GMRES.step (plannerOps A G.toEnv pl)) k p.1 p.2) = some (c', e')
        from h)
    exact ih c1 e1 c' e' (inv_of_same (Inv := fun c => c.restart = m) (A := A) (fun c c' hc hc' => gmres_same horder c c' hc hc') c hc e c1 e1 h1) h2

/-- `top_level_task` from the equal partition on, whatever was issued before it. -/
theorem times_solve (horder : ∀ f l, (G.redOrder f l).Perm l) {part : Nat} {d : Nat → Nat} {m : Op K P V} {o : Options} {x : Option Report}
    (ho : o.solver = 1 ∨ o.solver = 2 ∨ o.solver = 3)
    (h : tracedSolve A G part d base m W o ⟨n, items⟩ = some (x, i)) :
    ∃ nt ts, numTraces W o.it o.pt = some nt ∧ x = some (report W o.pt nt) ∧ TimesExactly i.items ts ∧
      SolverSteps A G K o.solver (o.pt * (nt - warmupTraces)) ts := by
  obtain ⟨⟨pl, i1⟩, -, h2⟩ := Option.bind_eq_some_iff.1 h
  dsimp only at h2
  rcases ho with ho | ho | ho
  · rw [if_pos ho] at h2
    obtain ⟨⟨r, i2⟩, h3, h4⟩ := Option.bind_eq_some_iff.1 h2
    cases h4
    obtain ⟨pl', c, c1, c2, n0, n1, n2, nt, ts, -, k1, k2, k3, -, k5⟩ :=
      branch_issue (init := fun pl' => CG.init (plannerOps A G.toEnv pl')) (step := fun pl' => CG.step (plannerOps A G.toEnv pl'))
        (fun pl c => Hon.cgStep (Hon.plannerOps A G.toEnv pl) c) h3
    exact ⟨nt, ts, k1, by rw [k2], k3, pl', _, _, .inl ⟨ho, _, _, k5⟩⟩
  · rw [if_neg (by omega), if_pos ho] at h2
    obtain ⟨⟨r, i2⟩, h3, h4⟩ := Option.bind_eq_some_iff.1 h2
    cases h4
    obtain ⟨pl', c, c1, c2, n0, n1, n2, nt, ts, -, k1, k2, k3, -, k5⟩ :=
      branch_issue (init := fun pl' => BiCGStab.init (plannerOps A G.toEnv pl')) (step := fun pl' => BiCGStab.step (plannerOps A G.toEnv pl'))
        (fun pl c => Hon.biStep (Hon.plannerOps A G.toEnv pl) c) h3
    exact ⟨nt, ts, k1, by rw [k2], k3, pl', _, _, .inr (.inl ⟨ho, _, _, k5⟩)⟩
  · rw [if_neg (by omega), if_neg (by omega), if_pos ho] at h2
    obtain ⟨⟨r, i2⟩, h3, h4⟩ := Option.bind_eq_some_iff.1 h2
    cases h4
    obtain ⟨pl', c, c1, c2, n0, n1, n2, nt, ts, ⟨e, k0⟩, k1, k2, k3, k4, k5⟩ :=
      branch_issue (init := fun pl' => GMRES.init (plannerOps A G.toEnv pl') 10) (step := fun pl' => GMRES.step (plannerOps A G.toEnv pl'))
        (fun pl c => Hon.gmresStep (Hon.plannerOps A G.toEnv pl) c) h3
    exact ⟨nt, ts, k1, by rw [k2], k3, pl', _, _, .inr (.inr ⟨ho, _, _, gmres_restart horder pl' _ _ _ _ _ (gmres_init_restart k0) k4, k5⟩)⟩

end
/-- **C92**: on all options the program accepts, however it is scheduled and with traces replayed, the clock is read the first time after
everything up to the last warm-up iteration has finished and before any timed iteration begins, and the second time after everything has finished;
the program launches what it launches without traces, and the tasks in between are those of `pt * (nt - 5)` consecutive steps of the chosen solver, and, if there are at least five traces, the time is divided
by this number of steps. -/
theorem c92_benchmark {V : Type} {A : Arith V} {lit : Int → V} {sort : List (Point × V) → List (Point × V)} {G : Geometry Int} {part : Nat}
    {d : Nat → Nat} {base W : Nat} {o : Options} (h : Setting A lit sort G part d base W o) :
    ∃ nt, Groups o.it o.pt nt ∧ ∃ N : Nat, ∀ fuel, N ≤ fuel → ∀ pieces, CoversMatrix A lit o pieces → ∀ junk t, ∃ r n' l ts,
      tracedBenchmark A lit sort pieces fuel junk G part d base W o ⟨t, []⟩ = some (some r, ⟨n', l⟩) ∧
      benchmark A lit sort pieces fuel junk G part d base W o ⟨t, []⟩ = some (some r, ⟨n', tasksOf l⟩) ∧ TimesExactly l ts ∧
      SolverSteps A G Int o.solver (o.pt * (nt - 5)) ts ∧ (5 ≤ nt → nt < W → o.pt * (nt - 5) < W → r.divisor = o.pt * (nt - 5)) := by
  obtain ⟨nt, hnt, hg⟩ := numTraces_groups (W := W) h.options.pt h.options.range
  obtain ⟨nt', -, N, hN⟩ := c74_copies h
  refine ⟨nt, hg, N, fun fuel hf pieces hc junk t => ?_⟩
  obtain ⟨a, n', all, h0, -⟩ := hN fuel hf pieces hc junk t fun _ => A.zero
  obtain ⟨Γ, -, hfol⟩ := Traced.option (A := A) (o := getLaplacian A lit sort o.dim o.nx o.ny o.nz pieces fuel junk)
    fun m _ => traced_solve (base := base) h.vectors.order part d (Op.csr m) W o
  obtain ⟨l, h1, h1', -⟩ := hfol ⟨t, []⟩ [] a ⟨n', all⟩ h0
  have h1' : all = tasksOf l := h1'
  subst h1'
  obtain ⟨⟨m, i1⟩, -, h2⟩ := Option.bind_eq_some_iff.1 (show (calls (lift (getLaplacian A lit sort o.dim o.nx o.ny o.nz pieces fuel junk))
    ⟨t, []⟩).bind (fun p => tracedSolve A G part d base (Op.csr p.1) W o p.2) = some (a, ⟨n', l⟩) from h1)
  obtain ⟨nt2, ts, k1, k2, k3, k4⟩ := times_solve h.vectors.order h.options.solver h2
  rw [hnt] at k1
  cases k1
  subst k2
  exact ⟨_, n', l, ts, h1, h0, k3, k4, fun h5 hW hp => ((c74_report W o.pt nt hW).1 h5).2.1 hp⟩

end Verif.Replay
