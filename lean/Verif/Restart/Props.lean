import Verif.Restart.Schedule

/-! # C96: restarts change nothing -/
set_option linter.unusedSectionVars false
namespace Verif.Restart
open Verif.Runtime
variable {C V : Type} [DecidableEq C]

/-- A state of an execution with restarts, the schedule that is left when the attempts that were given up are left out, and the cells whose content
is undefined until the task (given by its number) assigns them again. -/
structure Sim (may : Nat → Prop) (s : C → V) (ts : List (Task C V)) (log : List (Nat × (C → V))) (m : State C V) (L : List Nat)
    (D : Nat → C → Prop) : Prop where
  valid : Valid ts L
  length : m.tasks.length = ts.length
  task : ∀ (i : Nat) a, m.tasks[i]? = some a → ts[i]? = some a.task ∧ a.todo = a.task.body.drop (L.count i) ∧ (a.committed = true → a.todo = []) ∧
    (a.saved = none → i ∉ L)
  store : ∀ c, (∀ i, ¬D i c) → m.store c = storeOf s ts L c
  begun : ∀ (i : Nat) a s₀, m.tasks[i]? = some a → a.saved = some s₀ → a.committed = false → i ∈ L ∧ ∃ P L₁, L = P ++ L₁ ∧ i ∉ L₁ ∧
    (∀ j ∈ P, j ≠ i → ∀ t, ts[j]? = some t → ¬Conflict t a.task) ∧ ∀ c, a.task.reads c → s₀ c = storeOf s ts L₁ c
  clear : ∀ (i j : Nat) a b, i < j → m.tasks[i]? = some a → m.tasks[j]? = some b → a.committed = false → (b.saved ≠ none ∨ ∃ c, D j c) →
    ¬Conflict a.task b.task
  dirty : ∀ (i : Nat) c, D i c → ∃ a, m.tasks[i]? = some a ∧ a.committed = false ∧ a.task.writes c ∧ ¬a.task.reads c ∧
    ∀ u ∈ a.task.body.take (L.count i), u.dst ≠ c
  output : ∀ jobs, Reading ts jobs → (∀ j ∈ jobs, ¬may j.number) → output jobs (entries s ts L) = output jobs log

/-- When a task has made its last assignment, nothing of it is undefined. -/
theorem Sim.clean {may : Nat → Prop} {s : C → V} {ts : List (Task C V)} {log : List (Nat × (C → V))} {m : State C V} {L : List Nat}
    {D : Nat → C → Prop} (h : Sim may s ts log m L D) (hcov : ∀ t ∈ ts, Covers t) {i : Nat} {a : Attempt C V} (ha : m.tasks[i]? = some a)
    (ht : a.todo = []) (c : C) : ¬D i c := by
  intro hD
  obtain ⟨a', h1, -, h2, h3, h4⟩ := h.dirty i c hD
  rw [ha] at h1
  cases h1
  obtain ⟨g1, g2, -⟩ := h.task i a ha
  rcases hcov _ (List.mem_of_getElem? g1) c h2 with g | ⟨u, hu, e⟩
  · exact h3 g
  · rw [ht] at g2
    have hlen := List.drop_eq_nil_iff.1 g2.symm
    rw [List.take_of_length_le hlen] at h4
    exact h4 u hu e

theorem middle_cases {α : Type} {before after : List α} {y a : α} {j : Nat} (h : (before ++ y :: after)[j]? = some a) :
    (j = before.length ∧ a = y) ∨ (j ≠ before.length ∧ ∀ x, (before ++ x :: after)[j]? = some a) := by
  by_cases hj : j = before.length
  · subst hj
    rw [getElem?_middle] at h
    exact Or.inl ⟨rfl, (Option.some.inj h).symm⟩
  · exact Or.inr ⟨hj, fun x => by rw [getElem?_other before after x y hj]; exact h⟩

theorem mem_before {α : Type} {before after : List α} {x a : α} {j : Nat} (h : (before ++ x :: after)[j]? = some a) (hj : j < before.length) :
    a ∈ before := by
  rw [List.getElem?_append_left hj] at h
  exact List.mem_of_getElem? h

theorem valid_suffix {ts : List (Task C V)} : ∀ {P L : List Nat}, Valid ts (P ++ L) → Valid ts L
  | [], _, h => h
  | _ :: _, _, h => valid_suffix h.2.2

theorem sim_start (may : Nat → Prop) (s : C → V) (ts : List (Task C V)) : Sim may s ts [] (State.start s ts) [] fun _ _ => False := by
  refine ⟨trivial, by simp [State.start], fun i a ha => ?_, fun _ _ => rfl, fun i a s₀ ha hs => ?_, fun i j a b _ _ hb _ hs => ?_,
    fun _ _ h => h.elim, fun _ _ _ => rfl⟩
  · simp only [State.start, List.getElem?_map] at ha
    obtain ⟨t, ht, rfl⟩ := Option.map_eq_some_iff.1 ha
    refine ⟨ht, rfl, ?_, fun _ => List.not_mem_nil⟩
    intro h
    cases (show false = true from h)
  · simp only [State.start, List.getElem?_map] at ha
    obtain ⟨t, ht, rfl⟩ := Option.map_eq_some_iff.1 ha
    cases hs
  · simp only [State.start, List.getElem?_map] at hb
    obtain ⟨t, ht, rfl⟩ := Option.map_eq_some_iff.1 hb
    rcases hs with hs | ⟨c, hs⟩
    · exact absurd rfl hs
    · exact hs.elim

theorem sim_from {may : Nat → Prop} {s : C → V} {ts : List (Task C V)} (hon : ∀ t ∈ ts, t.Honest) (hcov : ∀ t ∈ ts, Covers t)
    {log₀ : List (Nat × (C → V))} {m₀ : State C V} {L₀ : List Nat} {D₀ : Nat → C → Prop} (h₀ : Sim may s ts log₀ m₀ L₀ D₀) {log : List (Nat × (C → V))} {m : State C V} (h : m₀.Logged may log m) :
    ∃ L D, Sim may s ts (log₀ ++ log) m L D := by
  induction h with
  | refl => exact ⟨L₀, D₀, by rw [List.append_nil]; exact h₀⟩
  | @advance log s' before t u rest saved after h ready ih =>
    obtain ⟨L, D, hS⟩ := ih
    have hmid := getElem?_middle before after (⟨t, u :: rest, saved, false⟩ : Attempt C V)
    obtain ⟨hti, htodo, -, hnone⟩ := hS.task _ _ hmid
    have hti : ts[before.length]? = some t := hti
    have htodo : u :: rest = t.body.drop (L.count before.length) := htodo
    have hnone : saved = none → before.length ∉ L := hnone
    have hu : t.body[L.count before.length]? = some u := by
      have : (t.body.drop (L.count before.length))[0]? = some u := by rw [← htodo]; rfl
      rwa [List.getElem?_drop, Nat.add_zero] at this
    have hrest : rest = t.body.drop (L.count before.length + 1) := by
      rw [← List.tail_drop, ← htodo]
      rfl
    have hwu := next_within hon hti hu
    -- what holds of every task that began and every task that is not committed
    have hother : ∀ (j : Nat) a, j ≠ before.length → (before ++ ⟨t, u :: rest, saved, false⟩ :: after)[j]? = some a → a.committed = false →
        a.saved ≠ none → ¬Conflict t a.task := by
      intro j a hj ha hc hs
      rcases Nat.lt_or_gt_of_ne hj with hlt | hgt
      · rcases ready a (mem_before ha hlt) with h | h
        · rw [h] at hc; cases hc
        · exact fun h' => h (conflict_symm h')
      · exact hS.clear _ _ _ _ hgt hmid ha rfl (Or.inl hs)
    have hclean : ∀ c, t.reads c → ∀ j, ¬D j c := by
      intro c hc j hD
      obtain ⟨a, h1, h2, h3, h4, -⟩ := hS.dirty j c hD
      rcases Nat.lt_trichotomy j before.length with hlt | rfl | hgt
      · rcases ready a (mem_before h1 hlt) with h | h
        · rw [h] at h2; cases h2
        · exact h ⟨c, Or.inl ⟨h3, Or.inl hc⟩⟩
      · rw [hmid] at h1
        cases h1
        exact h4 hc
      · exact hS.clear _ _ _ _ hgt hmid h1 rfl (Or.inr ⟨c, hD⟩) ⟨c, Or.inr ⟨h3, Or.inl hc⟩⟩
    have hstore : ∀ c, t.reads c → s' c = storeOf s ts L c := fun c hc => hS.store c (hclean c hc)
    have hval : u.f s' = u.f (storeOf s ts L) := hwu.2 _ _ hstore
    refine ⟨before.length :: L, fun j c => D j c ∧ ¬(j = before.length ∧ c = u.dst), ⟨⟨t, u, hti, hu⟩, fun j t₁ t' hj ht' ht₁ => ?_, hS.valid⟩, ?_, fun i a ha => ?_, fun c hD => ?_, fun i a s₀ ha hs hc => ?_,
      fun i j a b hij ha hb hc hs => ?_, fun i c hD => ?_, fun jobs hr hm => ?_⟩
    · rw [hti] at ht₁
      cases ht₁
      have hjl : j < (before ++ (⟨t, u :: rest, saved, false⟩ : Attempt C V) :: after).length := by
        rw [List.length_append]; omega
      obtain ⟨h1, h2, h3, -⟩ := hS.task j _ (List.getElem?_eq_getElem hjl)
      rw [ht'] at h1
      cases h1
      rw [← h2]
      rcases ready _ (mem_before (List.getElem?_eq_getElem hjl) hj) with h | h
      · exact Or.inl (h3 h)
      · exact Or.inr h
    · have := hS.length
      simpa using this
    · rcases middle_cases ha with ⟨rfl, rfl⟩ | ⟨hi, ha⟩
      · refine ⟨hti, by rw [List.count_cons_self]; exact hrest, ?_, ?_⟩
        · intro h
          cases (show false = true from h)
        · intro h
          cases (show some (saved.getD s') = none from h)
      · obtain ⟨h1, h2, h3, h4⟩ := hS.task i a (ha _)
        refine ⟨h1, by rw [List.count_cons_of_ne (fun h => hi h.symm)]; exact h2, h3, fun h => ?_⟩
        rw [List.mem_cons]
        exact fun h' => h'.elim hi (h4 h)
    · show u.exec s' c = _
      simp only [storeOf, hti, Option.bind_some, hu]
      unfold Update.exec
      by_cases e : c = u.dst
      · rw [if_pos e, if_pos e, hval]
      · rw [if_neg e, if_neg e]
        exact hS.store c fun i h => hD i ⟨h, fun h' => e h'.2⟩
    · rcases middle_cases ha with ⟨rfl, rfl⟩ | ⟨hi, ha⟩
      · refine ⟨List.mem_cons_self, ?_⟩
        cases saved with
        | none =>
          cases hs
          exact ⟨[before.length], L, rfl, hnone rfl, fun j hj hne => absurd (List.mem_singleton.1 hj) hne, hstore⟩
        | some x =>
          cases hs
          obtain ⟨-, P, L₁, h1, h2, h3, h4⟩ := hS.begun _ _ x hmid rfl rfl
          refine ⟨before.length :: P, L₁, by rw [h1]; rfl, h2, fun j hj hne => ?_, h4⟩
          rcases List.mem_cons.1 hj with hj | hj
          · exact absurd hj hne
          · exact h3 j hj hne
      · obtain ⟨h0, P, L₁, h1, h2, h3, h4⟩ := hS.begun i a s₀ (ha _) hs hc
        refine ⟨List.mem_cons_of_mem _ h0, before.length :: P, L₁, by rw [h1]; rfl, h2, fun j hj hne t₁ ht₁ => ?_, h4⟩
        rcases List.mem_cons.1 hj with rfl | hj
        · rw [hti] at ht₁
          cases ht₁
          exact hother i a hi (ha _) hc (by rw [hs]; exact Option.some_ne_none _)
        · exact h3 j hj hne t₁ ht₁
    · rcases middle_cases hb with ⟨rfl, rfl⟩ | ⟨hj, hb⟩
      · rcases middle_cases ha with ⟨hi, -⟩ | ⟨hi, ha⟩
        · omega
        · rcases ready a (mem_before (ha ⟨t, u :: rest, saved, false⟩) hij) with h | h
          · rw [h] at hc; cases hc
          · exact h
      · rcases middle_cases ha with ⟨rfl, rfl⟩ | ⟨hi, ha⟩
        · exact hS.clear _ j ⟨t, u :: rest, saved, false⟩ b hij hmid (hb _) rfl (hs.imp_right fun ⟨c, h⟩ => ⟨c, h.1⟩)
        · exact hS.clear i j a b hij (ha _) (hb _) hc (hs.imp_right fun ⟨c, h⟩ => ⟨c, h.1⟩)
    · obtain ⟨a, g1, g2, g3, g4, g5⟩ := hS.dirty i c hD.1
      rcases middle_cases g1 with ⟨rfl, rfl⟩ | ⟨hi, g1⟩
      · refine ⟨_, getElem?_middle _ _ _, rfl, g3, g4, fun v hv => ?_⟩
        rw [List.count_cons_self, List.take_add_one, hu] at hv
        rcases List.mem_append.1 hv with hv | hv
        · exact g5 v hv
        · rw [Option.toList_some, List.mem_singleton] at hv
          subst hv
          exact fun e => hD.2 ⟨rfl, e.symm⟩
      · exact ⟨a, g1 _, g2, g3, g4, by rw [List.count_cons_of_ne (fun h => hi h.symm)]; exact g5⟩
    · rw [← List.append_assoc, entries, output_snoc, output_snoc, hS.output jobs hr hm]
      congr 1
      cases hf : jobs.find? (fun j => j.number = before.length) with
      | none => simp
      | some a =>
        have hnum : a.number = before.length := by simpa using List.find?_some hf
        have := hr a (List.mem_of_find?_eq_some hf) t (by rw [hnum]; exact hti)
        simp only [Option.map_some]
        rw [hstore _ this]
  | @commit log s' before t saved after h ih =>
    obtain ⟨L, D, hS⟩ := ih
    have hmid := getElem?_middle before after (⟨t, [], saved, false⟩ : Attempt C V)
    refine ⟨L, D, hS.valid, ?_, fun i a ha => ?_, hS.store, fun i a s₀ ha hs hc => ?_, fun i j a b hij ha hb hc hs => ?_, fun i c hD => ?_,
      hS.output⟩
    · have := hS.length
      simpa using this
    · rcases middle_cases ha with ⟨rfl, rfl⟩ | ⟨hi, ha⟩
      · obtain ⟨h1, h2, -, h4⟩ := hS.task _ _ hmid
        exact ⟨h1, h2, fun _ => rfl, h4⟩
      · exact hS.task i a (ha _)
    · rcases middle_cases ha with ⟨rfl, rfl⟩ | ⟨hi, ha⟩
      · cases hc
      · exact hS.begun i a s₀ (ha _) hs hc
    · rcases middle_cases ha with ⟨rfl, rfl⟩ | ⟨hi, ha⟩
      · cases hc
      · rcases middle_cases hb with ⟨rfl, rfl⟩ | ⟨hj, hb⟩
        · exact hS.clear i _ a ⟨t, [], saved, false⟩ hij (ha _) hmid hc hs
        · exact hS.clear i j a b hij (ha _) (hb _) hc hs
    · obtain ⟨a, g1, g2, g3, g4, g5⟩ := hS.dirty i c hD
      rcases middle_cases g1 with ⟨rfl, rfl⟩ | ⟨hi, g1⟩
      · exact absurd hD (hS.clean hcov hmid rfl c)
      · exact ⟨a, g1 _, g2, g3, g4, g5⟩
  | @restart log s' s'' before t todo saved after h allowed back ih =>
    obtain ⟨L, D, hS⟩ := ih
    have hmid := getElem?_middle before after (⟨t, todo, some saved, false⟩ : Attempt C V)
    obtain ⟨hti, -, -, -⟩ := hS.task _ _ hmid
    have hti : ts[before.length]? = some t := hti
    obtain ⟨hmem, P, L₁, hL, h2, h3, h4⟩ := hS.begun _ _ saved hmid rfl rfl
    have h3 : ∀ j ∈ P, j ≠ before.length → ∀ t', ts[j]? = some t' → ¬Conflict t' t := h3
    have h4 : ∀ c, t.reads c → saved c = storeOf s ts L₁ c := h4
    obtain ⟨e1, e2, e3⟩ := erase (s := s) hon hti h2 h3 (hL ▸ hS.valid)
    have hnot : before.length ∉ P.filter (· ≠ before.length) ++ L₁ := by
      rw [List.mem_append, List.mem_filter]
      rintro (⟨-, h⟩ | h)
      · simp at h
      · exact h2 h
    have hcount : ∀ j, j ≠ before.length → (P.filter (· ≠ before.length) ++ L₁).count j = L.count j := by
      intro j hj
      rw [hL, List.count_append, List.count_append, List.count_filter (by simpa using hj)]
    have hmem' : ∀ j, j ≠ before.length → (j ∈ P.filter (· ≠ before.length) ++ L₁ ↔ j ∈ L) := by
      intro j hj
      rw [← List.count_pos_iff, ← List.count_pos_iff, hcount j hj]
    refine ⟨P.filter (· ≠ before.length) ++ L₁, fun j c => (j = before.length ∧ t.writes c ∧ ¬t.reads c) ∨ (j ≠ before.length ∧ D j c), e1, ?_,
      fun i a ha => ?_, fun c hD => ?_, fun i a s₀ ha hs hc => ?_, fun i j a b hij ha hb hc hs => ?_, fun i c hD => ?_, fun jobs hr hm => ?_⟩
    · have := hS.length
      simpa using this
    · rcases middle_cases ha with ⟨rfl, rfl⟩ | ⟨hi, ha⟩
      · refine ⟨hti, by rw [List.count_eq_zero.2 hnot, List.drop_zero], ?_, fun _ => hnot⟩
        intro h
        cases (show false = true from h)
      · obtain ⟨g1, g2, g3, g4⟩ := hS.task i a (ha _)
        exact ⟨g1, by rw [hcount i hi]; exact g2, g3, fun h => by rw [hmem' i hi]; exact g4 h⟩
    · show s'' c = _
      by_cases hc : t.writes c
      · have hr : t.reads c := Classical.byContradiction fun h => hD before.length (Or.inl ⟨rfl, hc, h⟩)
        rw [(back c).2 hc hr, (e2 c).1 hc, h4 c hr]
      · rw [(back c).1 hc, (e2 c).2 hc, ← hL]
        refine hS.store c fun i h => ?_
        by_cases hi : i = before.length
        · subst hi
          obtain ⟨a, g1, -, g3, -⟩ := hS.dirty _ c h
          rw [hmid] at g1
          cases g1
          exact hc g3
        · exact hD i (Or.inr ⟨hi, h⟩)
    · rcases middle_cases ha with ⟨rfl, rfl⟩ | ⟨hi, ha⟩
      · cases hs
      · obtain ⟨g0, P', L', g1, g2, g3, g4⟩ := hS.begun i a s₀ (ha _) hs hc
        refine ⟨(hmem' i hi).2 g0, ?_⟩
        rw [hL] at g1
        rcases List.append_eq_append_iff.1 g1 with ⟨x, hx1, hx2⟩ | ⟨x, hx1, hx2⟩
        · -- the other task began earlier
          refine ⟨P.filter (· ≠ before.length) ++ x, L', by rw [hx2, List.append_assoc], g2, fun j hj hne => g3 j ?_ hne, g4⟩
          rw [hx1, List.mem_append]
          exact (List.mem_append.1 hj).imp_left fun h => (List.mem_filter.1 h).1
        · -- the other task began later
          have hiP : i ∈ P' := by
            have : i ∈ P' ++ L' := by rw [← g1, ← hL]; exact g0
            exact (List.mem_append.1 this).resolve_right g2
          have hcon : ¬Conflict a.task t := h3 i (by rw [hx1]; exact List.mem_append_left _ hiP) hi _ (hS.task i a (ha _)).1
          have hval : Valid ts (x ++ L₁) := by
            have := hS.valid
            rw [hL, hx1, List.append_assoc] at this
            exact valid_suffix this
          obtain ⟨-, f2, -⟩ := erase (s := s) (P := x) hon hti h2 (fun j hj => h3 j (by rw [hx1]; exact List.mem_append_right _ hj)) hval
          refine ⟨P'.filter (· ≠ before.length), x.filter (· ≠ before.length) ++ L₁, by rw [hx1, List.filter_append, List.append_assoc], ?_,
            fun j hj hne => g3 j ((List.mem_filter.1 hj).1) hne, fun c hc' => ?_⟩
          · intro hi'
            apply g2
            rw [hx2]
            exact List.mem_append.2 ((List.mem_append.1 hi').imp_left fun h => (List.mem_filter.1 h).1)
          · rw [g4 c hc', hx2, (f2 c).2]
            intro hw
            exact hcon ⟨c, Or.inr ⟨hw, Or.inl hc'⟩⟩
    · rcases middle_cases hb with ⟨rfl, rfl⟩ | ⟨hj, hb⟩
      · rcases middle_cases ha with ⟨hi, -⟩ | ⟨hi, ha⟩
        · omega
        · exact hS.clear i _ a ⟨t, todo, some saved, false⟩ hij (ha _) hmid hc (Or.inl (Option.some_ne_none _))
      · have hs : b.saved ≠ none ∨ ∃ c, D j c := hs.imp_right fun ⟨c, h⟩ => ⟨c, (h.resolve_left fun h => hj h.1).2⟩
        rcases middle_cases ha with ⟨rfl, rfl⟩ | ⟨hi, ha⟩
        · exact hS.clear _ j ⟨t, todo, some saved, false⟩ b hij hmid (hb _) rfl hs
        · exact hS.clear i j a b hij (ha _) (hb _) hc hs
    · rcases hD with ⟨rfl, g1, g2⟩ | ⟨hi, hD⟩
      · refine ⟨_, getElem?_middle _ _ _, rfl, g1, g2, fun u hu => ?_⟩
        rw [List.count_eq_zero.2 hnot, List.take_zero] at hu
        cases hu
      · obtain ⟨a, g1, g2, g3, g4, g5⟩ := hS.dirty i c hD
        rcases middle_cases g1 with ⟨hi', -⟩ | ⟨-, g1⟩
        · exact absurd hi' hi
        · exact ⟨a, g1 _, g2, g3, g4, by rw [hcount i hi]; exact g5⟩
    · rw [e3 jobs hr fun j hj h => hm j hj (h ▸ allowed), ← hL]
      exact hS.output jobs hr hm

theorem sim {may : Nat → Prop} {s : C → V} {ts : List (Task C V)} (hon : ∀ t ∈ ts, t.Honest) (hcov : ∀ t ∈ ts, Covers t)
    {log : List (Nat × (C → V))} {m : State C V} (h : (State.start s ts).Logged may log m) : ∃ L D, Sim may s ts log m L D :=
  sim_from hon hcov (sim_start may s ts) h

/-- The execution without restarts. -/
theorem once_of_sim {may : Nat → Prop} {s : C → V} {ts : List (Task C V)} {log : List (Nat × (C → V))} {m : State C V} {L : List Nat} {D : Nat → C → Prop}
    (hS : Sim may s ts log m L D) (hd : m.Done) :
    ∃ log' m', (Machine.start s ts).Logged log' m' ∧ m'.Done ∧ m'.store = m.store ∧
      ∀ jobs : List (PrintJob C), (∀ j ∈ jobs, ¬may j.number ∧ ∀ t, ts[j.number]? = some t → t.reads j.cell) → output jobs log' = output jobs log := by
  refine ⟨_, _, valid_logged hS.valid, ?_, funext fun c => (hS.store c fun i hD => ?_).symm, fun jobs hj => hS.output jobs (fun j h => (hj j h).2) fun j h => (hj j h).1⟩
  rotate_left
  · obtain ⟨a, g1, g2, -⟩ := hS.dirty i c hD
    rw [hd a (List.mem_of_getElem? g1)] at g2
    cases g2
  intro r hr
  obtain ⟨i, hi⟩ := List.getElem?_of_mem hr
  simp only [stateOf, List.getElem?_mapIdx] at hi
  obtain ⟨t, ht, rfl⟩ := Option.map_eq_some_iff.1 hi
  have hil : i < m.tasks.length := by
    rw [hS.length]
    exact (List.getElem?_eq_some_iff.1 ht).1
  obtain ⟨h1, h2, h3, -⟩ := hS.task i _ (List.getElem?_eq_getElem hil)
  rw [ht] at h1
  cases h1
  show List.drop _ _ = _
  rw [← h2]
  exact h3 (hd _ (List.getElem_mem hil))

/-- **C96**: whatever attempts are given up, a complete execution ends with the memory of some execution of the same tasks in which every task is
executed once, and tasks that are not restarted print the same in both. -/
theorem c96_as_if_once {may : Nat → Prop} {s : C → V} {ts : List (Task C V)} (hon : ∀ t ∈ ts, t.Honest) (hcov : ∀ t ∈ ts, Covers t)
    {log : List (Nat × (C → V))} {m : State C V} (h : (State.start s ts).Logged may log m) (hd : m.Done) :
    ∃ log' m', (Machine.start s ts).Logged log' m' ∧ m'.Done ∧ m'.store = m.store ∧
      ∀ jobs : List (PrintJob C), (∀ j ∈ jobs, ¬may j.number ∧ ∀ t, ts[j.number]? = some t → t.reads j.cell) → output jobs log' = output jobs log := by
  obtain ⟨L, D, hS⟩ := sim hon hcov h
  exact once_of_sim hS hd

/-- **C96, memory**: every complete execution, whatever attempts are given up, ends with the memory of running the tasks one after the other. -/
theorem c96_store {may : Nat → Prop} {s : C → V} {ts : List (Task C V)} (hon : ∀ t ∈ ts, t.Honest) (hcov : ∀ t ∈ ts, Covers t)
    {log : List (Nat × (C → V))} {m : State C V} (h : (State.start s ts).Logged may log m) (hd : m.Done) : m.store = runTasks s ts := by
  obtain ⟨log', m', h1, h2, h3, -⟩ := c96_as_if_once hon hcov h hd
  rw [← h3, c42_any_schedule s ts hon m' h1.steps h2]

/-! ## Progress -/

/-- Assignments and commitments left. -/
def State.left (m : State C V) : Nat := (m.tasks.map fun r => r.todo.length + if r.committed then 0 else 1).sum

theorem progress (may : Nat → Prop) {m₀ : State C V} {log : List (Nat × (C → V))} {m : State C V} (h : m₀.Logged may log m) (hd : ¬m.Done) :
    ∃ log' m', m₀.Logged may (log ++ log') m' ∧ m'.left + 1 = m.left := by
  obtain ⟨s, l⟩ := m
  have key : ∀ l : List (Attempt C V), (¬∀ r ∈ l, r.committed = true) →
      ∃ before r after, l = before ++ r :: after ∧ r.committed = false ∧ ∀ r ∈ before, r.committed = true := by
    intro l
    induction l with
    | nil => intro h; exact absurd (fun r hr => by cases hr) h
    | cons r l ih =>
      intro h
      cases hr : r.committed with
      | false => exact ⟨[], r, l, rfl, hr, fun x hx => by cases hx⟩
      | true =>
        obtain ⟨b, r', a, e, h1, h2⟩ := ih (fun h' => h (by
          intro x hx
          rcases List.mem_cons.1 hx with rfl | hx
          · exact hr
          · exact h' x hx))
        refine ⟨r :: b, r', a, by rw [e]; rfl, h1, ?_⟩
        intro x hx
        rcases List.mem_cons.1 hx with rfl | hx
        · exact hr
        · exact h2 x hx
  obtain ⟨b, ⟨t, td, sv, cm⟩, a, e, h1, h2⟩ := key l hd
  have h1 : cm = false := h1
  subst h1 e
  cases td with
  | nil =>
    refine ⟨[], _, by rw [List.append_nil]; exact .commit h, ?_⟩
    simp [State.left]
    omega
  | cons u rest =>
    refine ⟨_, _, .advance h fun r hr => Or.inl (h2 r hr), ?_⟩
    simp [State.left]
    omega

/-- **C96, progress**: after any execution, whatever attempts were given up, the runtime can always go on, and comes to an end when it gives up no
more attempts. -/
theorem c96_completes (may : Nat → Prop) {m₀ : State C V} {log : List (Nat × (C → V))} {m : State C V} (h : m₀.Logged may log m) :
    ∃ log' m', m₀.Logged may (log ++ log') m' ∧ m'.Done := by
  obtain ⟨n, hn⟩ : ∃ n, n = m.left := ⟨_, rfl⟩
  induction n generalizing log m with
  | zero =>
    by_cases hd : m.Done
    · exact ⟨[], m, by rw [List.append_nil]; exact h, hd⟩
    · obtain ⟨_, _, -, h'⟩ := progress may h hd
      omega
  | succ n ih =>
    by_cases hd : m.Done
    · exact ⟨[], m, by rw [List.append_nil]; exact h, hd⟩
    · obtain ⟨l, m', h1, h2⟩ := progress may h hd
      obtain ⟨l', m'', h3, h4⟩ := ih h1 (by omega)
      exact ⟨l ++ l', m'', by rw [← List.append_assoc]; exact h3, h4⟩

/-! ## Prints -/

theorem prints_of_sim {may : Nat → Prop} {s : C → V} {ts : List (Task C V)} {log : List (Nat × (C → V))} {m : State C V} {L : List Nat}
    {D : Nat → C → Prop} (hS : Sim may s ts log m L D) (hon : ∀ t ∈ ts, t.Honest) (hd : m.Done) (jobs : List (PrintJob C)) (hch : PrintChain ts jobs)
    (hm : ∀ j ∈ jobs, ¬may j.number) : output jobs log = jobs.map fun j => runTasks s (ts.take j.number) j.cell := by
  obtain ⟨log', m', h1, h2, -, h4⟩ := once_of_sim hS hd
  rw [← h4 jobs fun j hj => ⟨hm j hj, fun t ht => ?_⟩, chain_output s ts hon jobs hch log' m' h1 h2]
  obtain ⟨t', u, e, -, hr⟩ := hch.task j hj
  rw [ht] at e
  cases e
  exact hr

/-- **C96, output in order**: tasks printing one after the other that are not restarted print, whatever attempts of other tasks are given up, each
once, in launch order, what running everything launched before one after the other would have left. -/
theorem c96_prints {may : Nat → Prop} {s : C → V} {ts : List (Task C V)} (hon : ∀ t ∈ ts, t.Honest) (hcov : ∀ t ∈ ts, Covers t)
    {log : List (Nat × (C → V))} {m : State C V} (h : (State.start s ts).Logged may log m) (hd : m.Done) (jobs : List (PrintJob C)) (hch : PrintChain ts jobs)
    (hm : ∀ j ∈ jobs, ¬may j.number) : output jobs log = jobs.map fun j => runTasks s (ts.take j.number) j.cell := by
  obtain ⟨L, D, hS⟩ := sim hon hcov h
  exact prints_of_sim hS hon hd jobs hch hm

theorem prints_any_of_sim {may : Nat → Prop} {s : C → V} {ts : List (Task C V)} {log : List (Nat × (C → V))} {m : State C V} {L : List Nat}
    {D : Nat → C → Prop} (hS : Sim may s ts log m L D) (hon : ∀ t ∈ ts, t.Honest) (hd : m.Done) (jobs : List (PrintJob C)) (hp : Prints ts jobs)
    (hm : ∀ j ∈ jobs, ¬may j.number) : (output jobs log).Perm (jobs.map fun j => runTasks s (ts.take j.number) j.cell) := by
  obtain ⟨log', m', h1, h2, -, h4⟩ := once_of_sim hS hd
  rw [← h4 jobs fun j hj => ⟨hm j hj, fun t ht => ?_⟩]
  · exact prints_output s ts hon jobs hp log' m' h1 h2
  · obtain ⟨t', u, e, -, hr⟩ := hp.task j hj
    rw [ht] at e
    cases e
    exact hr

/-- **C96, output in any order**: the same for prints that are not ordered among each other. -/
theorem c96_prints_any {may : Nat → Prop} {s : C → V} {ts : List (Task C V)} (hon : ∀ t ∈ ts, t.Honest) (hcov : ∀ t ∈ ts, Covers t)
    {log : List (Nat × (C → V))} {m : State C V} (h : (State.start s ts).Logged may log m) (hd : m.Done) (jobs : List (PrintJob C)) (hp : Prints ts jobs)
    (hm : ∀ j ∈ jobs, ¬may j.number) : (output jobs log).Perm (jobs.map fun j => runTasks s (ts.take j.number) j.cell) := by
  obtain ⟨L, D, hS⟩ := sim hon hcov h
  exact prints_any_of_sim hS hon hd jobs hp hm

end Verif.Restart
