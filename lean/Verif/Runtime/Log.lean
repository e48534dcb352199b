import Verif.Runtime.Sched

/-! # Executions with a log

What an observer of the program sees besides the final memory: which task makes its next assignment when, and what memory holds at
that moment.  Tasks that print (`PrintScalarTask`, `UtilityTasks.cpp` 25-31) print at that moment. -/
set_option linter.unusedSectionVars false
namespace Verif.Runtime
variable {C V : Type} [DecidableEq C]

/-- An execution from `m₀` together with its log: for every step the launch number of the task that advanced and the memory before. -/
inductive Machine.Logged (m₀ : Machine C V) : List (Nat × (C → V)) → Machine C V → Prop
  | refl : Logged m₀ [] m₀
  | advance {log : List (Nat × (C → V))} {s : C → V} {before : List (Running C V)} {t : Task C V} {u : Update C V}
      {rest : List (Update C V)} {after : List (Running C V)} (h : Logged m₀ log ⟨s, before ++ ⟨t, u :: rest⟩ :: after⟩)
      (ready : ∀ r ∈ before, r.todo = [] ∨ ¬ Conflict r.task t) :
      Logged m₀ (log ++ [(before.length, s)]) ⟨u.exec s, before ++ ⟨t, rest⟩ :: after⟩

theorem Machine.Logged.steps {m₀ m : Machine C V} {log : List (Nat × (C → V))} (h : m₀.Logged log m) : m₀.Steps m := by
  induction h with
  | refl => exact .refl _
  | advance h ready ih => exact .tail ih (.advance _ _ _ _ _ _ ready)

/-- Every execution has a log. -/
theorem Machine.Steps.logged {m₀ m : Machine C V} (h : m₀.Steps m) : ∃ log, m₀.Logged log m := by
  induction h with
  | refl => exact ⟨[], .refl⟩
  | tail h hs ih =>
    obtain ⟨log, hl⟩ := ih
    cases hs with
    | advance s before t u rest after ready => exact ⟨_, hl.advance ready⟩

/-- Where the tasks stand. -/
theorem Machine.Logged.tasks {s : C → V} {ts : List (Task C V)} {m : Machine C V} {log : List (Nat × (C → V))}
    (h : (Machine.start s ts).Logged log m) : m.tasks.map Running.task = ts ∧ ∀ r ∈ m.tasks, r.todo <:+ r.task.body := by
  induction h with
  | refl =>
    refine ⟨?_, ?_⟩
    · simp [Machine.start, Function.comp_def]
    · intro r hr
      obtain ⟨t, -, rfl⟩ := List.mem_map.1 hr
      exact List.suffix_refl _
  | @advance log s' before t u rest after h ready ih =>
    obtain ⟨h1, h2⟩ := ih
    refine ⟨by simpa using h1, ?_⟩
    intro r hr
    rcases List.mem_append.1 hr with h | h
    · exact h2 r (List.mem_append_left _ h)
    · rcases List.mem_cons.1 h with rfl | h
      · exact (List.suffix_cons u rest).trans (h2 ⟨t, u :: rest⟩ (List.mem_append_right _ (List.mem_cons_self ..)))
      · exact h2 r (List.mem_append_right _ (List.mem_cons_of_mem _ h))

/-- The cells a task may touch. -/
def Touches (t : Task C V) (c : C) : Prop := t.reads c ∨ t.writes c

/-- The tasks launched before task `i` run as if task `i` and the later ones did not exist, as far as unfinished tasks can tell. -/
theorem Machine.Logged.project {s : C → V} {ts : List (Task C V)} (hon : ∀ t ∈ ts, t.Honest) {m : Machine C V}
    {log : List (Nat × (C → V))} (h : (Machine.start s ts).Logged log m) (i : Nat) :
    ∃ si, (Machine.start s (ts.take i)).Steps ⟨si, m.tasks.take i⟩ ∧
      (∀ r ∈ m.tasks.take i, r.todo ≠ [] → ∀ c, Touches r.task c → m.store c = si c) ∧
      ∀ r, m.tasks[i]? = some r → r.todo ≠ [] → r.todo = r.task.body → ∀ c, Touches r.task c → m.store c = si c := by
  induction h with
  | refl =>
    refine ⟨s, ?_, fun _ _ _ _ _ => rfl, fun _ _ _ _ _ _ => rfl⟩
    have : (Machine.start s (ts.take i)) = ⟨s, (Machine.start s ts).tasks.take i⟩ := by
      simp [Machine.start, List.map_take]
    rw [this]
    exact .refl _
  | @advance log s' before t u rest after h ready ih =>
    obtain ⟨si, h1, h2, h3⟩ := ih
    have hT := h.tasks
    have hmem : (⟨t, u :: rest⟩ : Running C V) ∈ before ++ ⟨t, u :: rest⟩ :: after := by simp
    have ht : t ∈ ts := by rw [← hT.1]; exact List.mem_map.2 ⟨_, hmem, rfl⟩
    have hu : u.Within t.reads t.writes := hon t ht u ((hT.2 _ hmem).subset (List.mem_cons_self ..))
    -- a cell touched by an unfinished earlier task is not the one written
    have hother : ∀ r : Running C V, r ∈ before → r.todo ≠ [] → ∀ c, Touches r.task c → c ≠ u.dst := by
      intro r hr hne c hc e
      rcases ready r hr with h | h
      · exact hne h
      · exact h ⟨c, Or.inr ⟨e ▸ hu.1, hc⟩⟩
    by_cases hi : before.length < i
    · -- the task belongs to the projection
      obtain ⟨k, hk⟩ : ∃ k, i = before.length + (k + 1) := ⟨i - before.length - 1, by omega⟩
      have etake : ∀ x : Running C V, (before ++ x :: after).take i = before ++ x :: after.take k := by
        intro x
        rw [hk, List.take_length_add_append]
        rfl
      simp only [etake] at h1 h2 ⊢
      have hval : u.f s' = u.f si := hu.2 _ _ fun c hc => h2 ⟨t, u :: rest⟩ (by simp) (by simp) c (Or.inl hc)
      have hagree : ∀ c, s' c = si c → u.exec s' c = u.exec si c := by
        intro c hc
        unfold Update.exec
        rw [hval, hc]
      refine ⟨u.exec si, .tail h1 (.advance _ _ _ _ _ _ ready), ?_, ?_⟩
      · intro r hr hne c hc
        apply hagree
        rcases List.mem_append.1 hr with h | h
        · exact h2 r (List.mem_append_left _ h) hne c hc
        · rcases List.mem_cons.1 h with rfl | h
          · exact h2 ⟨t, u :: rest⟩ (by simp) (by simp) c hc
          · exact h2 r (List.mem_append_right _ (List.mem_cons_of_mem _ h)) hne c hc
      · intro r hr hne hb c hc
        apply hagree
        refine h3 r ?_ hne hb c hc
        rw [List.getElem?_append_right (by omega)] at hr ⊢
        rw [hk, Nat.add_sub_cancel_left, List.getElem?_cons_succ] at hr ⊢
        exact hr
    · have hi : i ≤ before.length := by omega
      have etake : ∀ x : Running C V, (before ++ x :: after).take i = before.take i := by
        intro x; rw [List.take_append_of_le_length hi]
      simp only [etake] at h1 h2 ⊢
      refine ⟨si, h1, ?_, ?_⟩
      · intro r hr hne c hc
        have hrb : r ∈ before := List.mem_of_mem_take hr
        show u.exec s' c = si c
        rw [show u.exec s' c = s' c from by unfold Update.exec; rw [if_neg (hother r hrb hne c hc)]]
        exact h2 r hr hne c hc
      · intro r hr hne hb c hc
        by_cases e : i = before.length
        · subst e
          rw [List.getElem?_append_right (Nat.le_refl _), Nat.sub_self] at hr
          cases hr
          have h5 := (hT.2 _ hmem).length_le
          have h6 : rest.length = t.body.length := congrArg List.length hb
          simp only [List.length_cons] at h5
          omega
        · have hlt : i < before.length := by omega
          rw [List.getElem?_append_left hlt] at hr
          have hrb : r ∈ before := List.mem_of_getElem? hr
          show u.exec s' c = si c
          rw [show u.exec s' c = s' c from by unfold Update.exec; rw [if_neg (hother r hrb hne c hc)]]
          refine h3 r ?_ hne hb c hc
          rw [List.getElem?_append_left hlt]
          exact hr

/-- A task that starts sees, in the cells it reads, what running all tasks launched before it one after the other would have left. -/
theorem Machine.Logged.sees {s : C → V} {ts : List (Task C V)} (hon : ∀ t ∈ ts, t.Honest) {log : List (Nat × (C → V))}
    {s' : C → V} {before after : List (Running C V)} {t : Task C V} (hne : t.body ≠ [])
    (h : (Machine.start s ts).Logged log ⟨s', before ++ ⟨t, t.body⟩ :: after⟩)
    (ready : ∀ r ∈ before, r.todo = [] ∨ ¬ Conflict r.task t) (c : C) (hc : t.reads c) :
    s' c = runTasks s (ts.take before.length) c := by
  obtain ⟨si, h1, -, h3⟩ := h.project hon before.length
  have h3 : s' c = si c := h3 ⟨t, t.body⟩ (by rw [List.getElem?_append_right (Nat.le_refl _), Nat.sub_self]; rfl) hne rfl c (Or.inl hc)
  simp only [List.take_left] at h1
  have hon' : ∀ t ∈ ts.take before.length, t.Honest := fun t ht => hon t (List.mem_of_mem_take ht)
  have ok : (Machine.start s (ts.take before.length)).Ok := by
    intro r hr u hu
    obtain ⟨t, ht, rfl⟩ := List.mem_map.1 hr
    exact hon' t ht u hu
  obtain ⟨ok', hf⟩ := steps_ok h1 ok
  have hfin : finish (Machine.start s (ts.take before.length)) = runTasks s (ts.take before.length) := by
    unfold finish Machine.start runTasks
    rw [List.foldl_map]
  rw [← hfin, ← hf, h3]
  unfold finish
  simp only
  -- the rest of the earlier tasks does not write `c`
  clear h h1 h3 hf hfin
  have gen : ∀ (l : List (Running C V)) (σ : C → V), (∀ r ∈ l, r.todo = [] ∨ ¬ Conflict r.task t) →
      (∀ r ∈ l, ∀ u ∈ r.todo, u.Within r.task.reads r.task.writes) →
      σ c = l.foldl (fun s r => runUpdates s r.todo) σ c := by
    intro l
    induction l with
    | nil => intro σ _ _; rfl
    | cons r l ih =>
      intro σ hr hok
      rw [List.foldl_cons, ← ih _ (fun r h => hr r (List.mem_cons_of_mem _ h)) (fun r h => hok r (List.mem_cons_of_mem _ h))]
      rcases hr r (List.mem_cons_self ..) with h | h
      · rw [h]; rfl
      · have hw : ∀ us : List (Update C V), (∀ u ∈ us, u.dst ≠ c) → ∀ σ : C → V, runUpdates σ us c = σ c := by
          intro us
          induction us with
          | nil => intro _ σ; rfl
          | cons u us ih =>
            intro hus σ
            show runUpdates (u.exec σ) us c = σ c
            rw [ih (fun u h => hus u (List.mem_cons_of_mem _ h))]
            unfold Update.exec
            rw [if_neg fun e => hus u (List.mem_cons_self ..) e.symm]
        refine (hw _ (fun u hu e => ?_) σ).symm
        exact h ⟨c, Or.inl ⟨e ▸ (hok r (List.mem_cons_self ..) u hu).1, Or.inl hc⟩⟩
  exact gen before si ready ok'

/-! ## Output -/

/-- A task that prints one cell: its launch number and the cell. -/
structure PrintJob (C : Type) where
  number : Nat
  cell : C

/-- What is printed during an execution: each time a printing task runs, the content of its cell at that moment. -/
def output (jobs : List (PrintJob C)) (log : List (Nat × (C → V))) : List V :=
  log.filterMap fun e => (jobs.find? fun j => j.number = e.1).map fun j => e.2 j.cell

/-- The jobs are one-assignment tasks of the launch sequence reading the cell they print, launched in this order, each
conflicting with the one before (as when it takes the other's result as an argument). -/
structure PrintChain (ts : List (Task C V)) (jobs : List (PrintJob C)) : Prop where
  task : ∀ j ∈ jobs, ∃ t u, ts[j.number]? = some t ∧ t.body = [u] ∧ t.reads j.cell
  order : ∀ (i : Nat) a b, jobs[i]? = some a → jobs[i + 1]? = some b → a.number < b.number ∧
    ∀ t t', ts[a.number]? = some t → ts[b.number]? = some t' → Conflict t t'

theorem PrintChain.lt {ts : List (Task C V)} {jobs : List (PrintJob C)} (h : PrintChain ts jobs) (i : Nat) :
    ∀ (d : Nat) (a b : PrintJob C), jobs[i]? = some a → jobs[i + (d + 1)]? = some b → a.number < b.number := by
  intro d
  induction d with
  | zero => intro a b ha hb; exact (h.order i a b ha hb).1
  | succ d ih =>
    intro a b ha hb
    have hlen : i + (d + 1) < jobs.length := by
      have := (List.getElem?_eq_some_iff.1 hb).1
      omega
    have h1 := ih a _ ha (List.getElem?_eq_getElem hlen)
    have h2 := (h.order (i + (d + 1)) _ b (List.getElem?_eq_getElem hlen) hb).1
    omega

theorem PrintChain.inj {ts : List (Task C V)} {jobs : List (PrintJob C)} (h : PrintChain ts jobs) {i k : Nat} {a b : PrintJob C}
    (ha : jobs[i]? = some a) (hb : jobs[k]? = some b) (e : a.number = b.number) : i = k := by
  rcases Nat.lt_trichotomy i k with hlt | heq | hlt
  · have := h.lt i (k - i - 1) a b ha (by rw [show i + (k - i - 1 + 1) = k from by omega]; exact hb)
    omega
  · exact heq
  · have := h.lt k (i - k - 1) b a hb (by rw [show k + (i - k - 1 + 1) = i from by omega]; exact ha)
    omega

theorem PrintChain.find {ts : List (Task C V)} {jobs : List (PrintJob C)} (h : PrintChain ts jobs) {i : Nat} {a : PrintJob C}
    (ha : jobs[i]? = some a) : jobs.find? (fun j => j.number = a.number) = some a := by
  have hmem := List.mem_of_getElem? ha
  cases hf : jobs.find? (fun j => j.number = a.number) with
  | none =>
    have := List.find?_eq_none.1 hf a hmem
    simp at this
  | some b =>
    have h1 : b.number = a.number := by simpa using List.find?_some hf
    obtain ⟨k, hk⟩ := List.getElem?_of_mem (List.mem_of_find?_eq_some hf)
    have := h.inj hk ha h1
    subst this
    rw [ha] at hk
    exact hk.symm

/-- The state of the chain during an execution: the first `q` jobs have printed, in this order, what sequential execution would have
left in their cells; the others have not. -/
theorem Machine.Logged.chain {s : C → V} {ts : List (Task C V)} (hon : ∀ t ∈ ts, t.Honest) {jobs : List (PrintJob C)}
    (hch : PrintChain ts jobs) {m : Machine C V} {log : List (Nat × (C → V))} (h : (Machine.start s ts).Logged log m) :
    ∃ q, output jobs log = (jobs.take q).map (fun j => runTasks s (ts.take j.number) j.cell) ∧
      ∀ (i : Nat) a, jobs[i]? = some a → ∀ r, m.tasks[a.number]? = some r → (r.todo = [] ↔ i < q) := by
  induction h with
  | refl =>
    refine ⟨0, rfl, fun i a ha r hr => ?_⟩
    obtain ⟨t, u, h1, h2, -⟩ := hch.task a (List.mem_of_getElem? ha)
    have : r = ⟨t, t.body⟩ := by
      simp only [Machine.start, List.getElem?_map, h1, Option.map_some, Option.some.injEq] at hr
      exact hr.symm
    rw [this, h2]
    simp
  | @advance log s' before t u rest after h ready ih =>
    obtain ⟨q, h1, h2⟩ := ih
    have hT := h.tasks
    have hat : ∀ x : Running C V, (before ++ x :: after)[before.length]? = some x := by
      intro x; rw [List.getElem?_append_right (Nat.le_refl _), Nat.sub_self]; rfl
    have hne : ∀ (x y : Running C V) (n : Nat), n ≠ before.length → (before ++ x :: after)[n]? = (before ++ y :: after)[n]? := by
      intro x y n hn
      by_cases hlt : n < before.length
      · rw [List.getElem?_append_left hlt, List.getElem?_append_left hlt]
      · obtain ⟨k, hk⟩ : ∃ k, n = before.length + (k + 1) := ⟨n - before.length - 1, by omega⟩
        rw [List.getElem?_append_right (by omega), List.getElem?_append_right (by omega), hk, Nat.add_sub_cancel_left,
          List.getElem?_cons_succ, List.getElem?_cons_succ]
    have htask : ts[before.length]? = some t := by
      rw [← hT.1, List.getElem?_map]
      show ((before ++ ⟨t, u :: rest⟩ :: after)[before.length]?).map _ = _
      rw [hat]; rfl
    have hout : output jobs (log ++ [(before.length, s')]) = output jobs log ++
        ((jobs.find? fun j => j.number = before.length).map fun j => s' j.cell).toList := by
      unfold output
      rw [List.filterMap_append]
      congr 1
    cases hf : jobs.find? (fun j => j.number = before.length) with
    | none =>
      refine ⟨q, ?_, fun i a ha r hr => ?_⟩
      · rw [hout, hf, h1]; simp
      · have hn : a.number ≠ before.length := by
          have := List.find?_eq_none.1 hf a (List.mem_of_getElem? ha)
          simpa using this
        refine h2 i a ha r ?_
        rw [← hr]
        exact hne _ _ _ hn
    | some a =>
      have hnum : a.number = before.length := by simpa using List.find?_some hf
      obtain ⟨k, hk⟩ := List.getElem?_of_mem (List.mem_of_find?_eq_some hf)
      obtain ⟨t', u', g1, g2, g3⟩ := hch.task a (List.mem_of_getElem? hk)
      rw [hnum, htask] at g1
      cases g1
      -- the task was about to make its only assignment
      have hsuf := hT.2 ⟨t, u :: rest⟩ (by simp)
      simp only [g2] at hsuf
      have hrest : rest = [] := by
        have := hsuf.length_le
        simp only [List.length_cons, List.length_nil] at this
        exact List.length_eq_zero_iff.1 (by omega)
      subst hrest
      have hb : [u] = t.body := by rw [g2]; exact hsuf.eq_of_length rfl
      have hnotq : ¬ k < q := by
        intro hlt
        have := (h2 k a hk ⟨t, [u]⟩ (by rw [hnum]; exact hat _)).2 hlt
        cases this
      -- so all earlier ones have printed
      have hq : q = k := by
        rcases Nat.lt_or_ge q k with hlt | hge
        · obtain ⟨b, hb'⟩ : ∃ b, jobs[k - 1]? = some b := by
            have := (List.getElem?_eq_some_iff.1 hk).1
            exact ⟨_, List.getElem?_eq_getElem (by omega)⟩
          have ho := hch.order (k - 1) b a hb' (by rw [show k - 1 + 1 = k from by omega]; exact hk)
          obtain ⟨tb, ub, e1, e2, -⟩ := hch.task b (List.mem_of_getElem? hb')
          have hcf := ho.2 tb t e1 (by rw [hnum]; exact htask)
          have hlt' : b.number < before.length := by have := ho.1; omega
          have hrb : before[b.number]? = some before[b.number] := List.getElem?_eq_getElem hlt'
          have hrt : before[b.number].task = tb := by
            have := hT.1
            rw [← this, List.getElem?_map] at e1
            rw [show (before ++ (⟨t, [u]⟩ : Running C V) :: after)[b.number]? = before[b.number]? from
              List.getElem?_append_left hlt', hrb] at e1
            simpa using e1
          rcases ready before[b.number] (List.getElem_mem hlt') with hd | hd
          · have := (h2 (k - 1) b hb' before[b.number] (by rw [← hrb]; exact List.getElem?_append_left hlt')).1 hd
            omega
          · rw [hrt] at hd
            exact absurd hcf hd
        · omega
      subst hq
      refine ⟨q + 1, ?_, fun i a' ha' r hr => ?_⟩
      · rw [hout, hf, h1, List.take_add_one, hk]
        simp only [Option.map_some, Option.toList_some, List.map_append, List.map_cons, List.map_nil]
        congr 2
        rw [hnum]
        have h := h
        rw [hb] at h
        exact h.sees hon (by rw [g2]; simp) ready a.cell g3
      · by_cases e : a'.number = before.length
        · have hi : i = q := hch.inj ha' hk (by rw [e, hnum])
          rw [e] at hr
          have hr : (before ++ (⟨t, []⟩ : Running C V) :: after)[before.length]? = some r := hr
          rw [hat] at hr
          cases hr
          simp [hi]
        · have hi : i ≠ q := by
            intro hi
            rw [hi, hk] at ha'
            cases ha'
            exact e hnum
          rw [h2 i a' ha' r (by rw [← hr]; exact hne _ _ _ e)]
          omega

/-- **Output of a chain of prints**: however the launched tasks are scheduled, once all have run the chain has printed its cells in
launch order, each with the value that running everything launched before it one after the other would have left there. -/
theorem chain_output (s : C → V) (ts : List (Task C V)) (hon : ∀ t ∈ ts, t.Honest) (jobs : List (PrintJob C))
    (hch : PrintChain ts jobs) (log : List (Nat × (C → V))) (m : Machine C V) (h : (Machine.start s ts).Logged log m)
    (hd : m.Done) : output jobs log = jobs.map fun j => runTasks s (ts.take j.number) j.cell := by
  obtain ⟨q, h1, h2⟩ := h.chain hon hch
  rw [h1]
  congr 1
  apply List.take_of_length_le
  refine Nat.le_of_not_lt fun hq => ?_
  have ha := List.getElem?_eq_getElem hq
  obtain ⟨t, u, e1, -, -⟩ := hch.task _ (List.getElem_mem hq)
  have hlen : jobs[q].number < m.tasks.length := by
    have h3 := (List.getElem?_eq_some_iff.1 e1).1
    rw [← h.tasks.1, List.length_map] at h3
    exact h3
  have := (h2 q _ ha _ (List.getElem?_eq_getElem hlen)).1 (hd _ (List.getElem_mem hlen))
  omega

/-! ### Prints that need not be ordered -/

/-- The jobs are distinct one-assignment tasks of the launch sequence, each reading the cell it prints. -/
structure Prints (ts : List (Task C V)) (jobs : List (PrintJob C)) : Prop where
  task : ∀ j ∈ jobs, ∃ t u, ts[j.number]? = some t ∧ t.body = [u] ∧ t.reads j.cell
  inj : ∀ j ∈ jobs, ∀ j' ∈ jobs, j.number = j'.number → j = j'
  nodup : jobs.Nodup

theorem Prints.find {ts : List (Task C V)} {jobs : List (PrintJob C)} (h : Prints ts jobs) {a : PrintJob C}
    (ha : a ∈ jobs) : jobs.find? (fun j => j.number = a.number) = some a := by
  cases hf : jobs.find? (fun j => j.number = a.number) with
  | none =>
    have := List.find?_eq_none.1 hf a ha
    simp at this
  | some b =>
    have h1 : b.number = a.number := by simpa using List.find?_some hf
    rw [h.inj b (List.mem_of_find?_eq_some hf) a ha h1]

/-- The state of the prints during an execution: those that have run have printed what sequential execution would have left. -/
theorem Machine.Logged.prints {s : C → V} {ts : List (Task C V)} (hon : ∀ t ∈ ts, t.Honest) {jobs : List (PrintJob C)}
    (hp : Prints ts jobs) {m : Machine C V} {log : List (Nat × (C → V))} (h : (Machine.start s ts).Logged log m) :
    ∃ gone : List (PrintJob C), gone.Nodup ∧ (∀ j ∈ gone, j ∈ jobs) ∧
      output jobs log = gone.map (fun j => runTasks s (ts.take j.number) j.cell) ∧
      ∀ j ∈ jobs, ∀ r, m.tasks[j.number]? = some r → (r.todo = [] ↔ j ∈ gone) := by
  induction h with
  | refl =>
    refine ⟨[], List.nodup_nil, fun _ h => (by cases h), rfl, fun a ha r hr => ?_⟩
    obtain ⟨t, u, h1, h2, -⟩ := hp.task a ha
    have : r = ⟨t, t.body⟩ := by
      simp only [Machine.start, List.getElem?_map, h1, Option.map_some, Option.some.injEq] at hr
      exact hr.symm
    rw [this, h2]
    simp
  | @advance log s' before t u rest after h ready ih =>
    obtain ⟨gone, h0, hsub, h1, h2⟩ := ih
    have hT := h.tasks
    have hat : ∀ x : Running C V, (before ++ x :: after)[before.length]? = some x := by
      intro x; rw [List.getElem?_append_right (Nat.le_refl _), Nat.sub_self]; rfl
    have hne : ∀ (x y : Running C V) (n : Nat), n ≠ before.length → (before ++ x :: after)[n]? = (before ++ y :: after)[n]? := by
      intro x y n hn
      by_cases hlt : n < before.length
      · rw [List.getElem?_append_left hlt, List.getElem?_append_left hlt]
      · obtain ⟨k, hk⟩ : ∃ k, n = before.length + (k + 1) := ⟨n - before.length - 1, by omega⟩
        rw [List.getElem?_append_right (by omega), List.getElem?_append_right (by omega), hk, Nat.add_sub_cancel_left,
          List.getElem?_cons_succ, List.getElem?_cons_succ]
    have htask : ts[before.length]? = some t := by
      rw [← hT.1, List.getElem?_map]
      show ((before ++ ⟨t, u :: rest⟩ :: after)[before.length]?).map _ = _
      rw [hat]; rfl
    have hout : output jobs (log ++ [(before.length, s')]) = output jobs log ++
        ((jobs.find? fun j => j.number = before.length).map fun j => s' j.cell).toList := by
      unfold output
      rw [List.filterMap_append]
      congr 1
    cases hf : jobs.find? (fun j => j.number = before.length) with
    | none =>
      refine ⟨gone, h0, hsub, ?_, fun a ha r hr => ?_⟩
      · rw [hout, hf, h1]; simp
      · have hn : a.number ≠ before.length := by
          have := List.find?_eq_none.1 hf a ha
          simpa using this
        refine h2 a ha r ?_
        rw [← hr]
        exact hne _ _ _ hn
    | some a =>
      have hnum : a.number = before.length := by simpa using List.find?_some hf
      have hk := List.mem_of_find?_eq_some hf
      obtain ⟨t', u', g1, g2, g3⟩ := hp.task a hk
      rw [hnum, htask] at g1
      cases g1
      have hsuf := hT.2 ⟨t, u :: rest⟩ (by simp)
      simp only [g2] at hsuf
      have hrest : rest = [] := by
        have := hsuf.length_le
        simp only [List.length_cons, List.length_nil] at this
        exact List.length_eq_zero_iff.1 (by omega)
      subst hrest
      have hb : [u] = t.body := by rw [g2]; exact hsuf.eq_of_length rfl
      have hnot : a ∉ gone := by
        intro hlt
        have := (h2 a hk ⟨t, [u]⟩ (by rw [hnum]; exact hat _)).2 hlt
        cases this
      refine ⟨gone ++ [a], ?_, ?_, ?_, fun a' ha' r hr => ?_⟩
      · rw [List.nodup_append]
        refine ⟨h0, List.nodup_cons.2 ⟨(by simp), List.nodup_nil⟩, ?_⟩
        intro x hx y hy e
        rw [List.mem_singleton] at hy
        exact hnot (hy ▸ e ▸ hx)
      · intro j hj
        rcases List.mem_append.1 hj with hj | hj
        · exact hsub j hj
        · rw [List.mem_singleton.1 hj]; exact hk
      · rw [hout, hf, h1]
        simp only [Option.map_some, Option.toList_some, List.map_append, List.map_cons, List.map_nil]
        congr 2
        rw [hnum]
        have h := h
        rw [hb] at h
        exact h.sees hon (by rw [g2]; simp) ready a.cell g3
      · by_cases e : a'.number = before.length
        · have hi : a' = a := hp.inj a' ha' a hk (by rw [e, hnum])
          rw [e] at hr
          have hr : (before ++ (⟨t, []⟩ : Running C V) :: after)[before.length]? = some r := hr
          rw [hat] at hr
          cases hr
          simp [hi]
        · have hi : a' ≠ a := fun hi => e (by rw [hi, hnum])
          rw [h2 a' ha' r (by rw [← hr]; exact hne _ _ _ e)]
          simp [hi]

/-- **Output of any prints**: however the launched tasks are scheduled, once all have run every job has printed exactly once, and its
line is the value that running everything launched before it one after the other would have left in its cell. -/
theorem prints_output (s : C → V) (ts : List (Task C V)) (hon : ∀ t ∈ ts, t.Honest) (jobs : List (PrintJob C))
    (hp : Prints ts jobs) (log : List (Nat × (C → V))) (m : Machine C V) (h : (Machine.start s ts).Logged log m)
    (hd : m.Done) : (output jobs log).Perm (jobs.map fun j => runTasks s (ts.take j.number) j.cell) := by
  obtain ⟨gone, h0, hsub, h1, h2⟩ := h.prints hon hp
  rw [h1]
  refine ((List.perm_ext_iff_of_nodup h0 hp.nodup).2 fun j => ⟨hsub j, fun hj => ?_⟩).map _
  obtain ⟨t, u, e1, -, -⟩ := hp.task j hj
  have hlen : j.number < m.tasks.length := by
    have h3 := (List.getElem?_eq_some_iff.1 e1).1
    rw [← h.tasks.1, List.length_map] at h3
    exact h3
  exact (h2 j hj _ (List.getElem?_eq_getElem hlen)).1 (hd _ (List.getElem_mem hlen))

end Verif.Runtime
