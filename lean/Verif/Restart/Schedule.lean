import Verif.Restart.Model

/-! # Executions without restarts, as lists of launch numbers (the most recent first) -/
set_option linter.unusedSectionVars false
namespace Verif.Restart
open Verif.Runtime
variable {C V : Type} [DecidableEq C] (s : C → V) (ts : List (Task C V))

/-- Memory after a schedule. -/
def storeOf : List Nat → C → V
  | [] => s
  | i :: L => match (ts[i]?).bind fun t => t.body[L.count i]? with
    | some u => u.exec (storeOf L)
    | none => storeOf L

/-- The log of a schedule. -/
def entries : List Nat → List (Nat × (C → V))
  | [] => []
  | i :: L => entries L ++ [(i, storeOf s ts L)]

/-- The state after a schedule. -/
def stateOf (L : List Nat) : Machine C V := ⟨storeOf s ts L, ts.mapIdx fun i t => ⟨t, t.body.drop (L.count i)⟩⟩

/-- Every step of the schedule is allowed. -/
def Valid : List Nat → Prop
  | [] => True
  | i :: L => (∃ t u, ts[i]? = some t ∧ t.body[L.count i]? = some u) ∧
      (∀ j t t', j < i → ts[j]? = some t' → ts[i]? = some t → t'.body.drop (L.count j) = [] ∨ ¬Conflict t' t) ∧ Valid L

variable {s ts}

theorem getElem?_middle {α : Type} (before after : List α) (x : α) : (before ++ x :: after)[before.length]? = some x := by
  rw [List.getElem?_append_right (Nat.le_refl _), Nat.sub_self]; rfl

theorem getElem?_other {α : Type} (before after : List α) (x y : α) {n : Nat} (hn : n ≠ before.length) :
    (before ++ x :: after)[n]? = (before ++ y :: after)[n]? := by
  by_cases hlt : n < before.length
  · rw [List.getElem?_append_left hlt, List.getElem?_append_left hlt]
  · obtain ⟨k, hk⟩ : ∃ k, n = before.length + (k + 1) := ⟨n - before.length - 1, by omega⟩
    rw [List.getElem?_append_right (by omega), List.getElem?_append_right (by omega), hk, Nat.add_sub_cancel_left,
      List.getElem?_cons_succ, List.getElem?_cons_succ]

theorem valid_logged : ∀ {L : List Nat}, Valid ts L → (Machine.start s ts).Logged (entries s ts L) (stateOf s ts L)
  | [], _ => by
    have : stateOf s ts [] = Machine.start s ts := by
      unfold stateOf Machine.start storeOf
      congr 1
      apply List.ext_getElem?
      intro j
      simp [List.getElem?_mapIdx]
    rw [this]
    exact .refl
  | i :: L, ⟨⟨t, u, ht, hu⟩, hready, hv⟩ => by
    have ih := valid_logged hv
    have hi : i < ts.length := (List.getElem?_eq_some_iff.1 ht).1
    obtain ⟨l, hl⟩ : ∃ l, l = (stateOf s ts L).tasks := ⟨_, rfl⟩
    have hget : ∀ j : Nat, l[j]? = (ts[j]?).map fun t => ⟨t, t.body.drop (L.count j)⟩ := by
      intro j
      rw [hl]
      simp [stateOf, List.getElem?_mapIdx]
    have hlen : l.length = ts.length := by rw [hl]; simp [stateOf]
    have hcount : L.count i < t.body.length := (List.getElem?_eq_some_iff.1 hu).1
    have hdrop : t.body.drop (L.count i) = u :: t.body.drop (L.count i + 1) := by
      rw [List.drop_eq_getElem_cons hcount, (List.getElem?_eq_some_iff.1 hu).2]
    have hsplit : l = l.take i ++ ⟨t, u :: t.body.drop (L.count i + 1)⟩ :: l.drop (i + 1) := by
      have hli : l[i]? = some ⟨t, u :: t.body.drop (L.count i + 1)⟩ := by rw [hget, ht, Option.map_some, hdrop]
      have h1 : i < l.length := by omega
      rw [← (List.getElem?_eq_some_iff.1 hli).2, ← List.drop_eq_getElem_cons h1, List.take_append_drop]
    have hti : (l.take i).length = i := by rw [List.length_take]; omega
    have e : stateOf s ts L = ⟨storeOf s ts L, l.take i ++ ⟨t, u :: t.body.drop (L.count i + 1)⟩ :: l.drop (i + 1)⟩ := by
      rw [← hsplit, hl]
      rfl
    rw [e] at ih
    have step := Machine.Logged.advance ih (by
      intro r hr
      obtain ⟨j, hj⟩ := List.getElem?_of_mem hr
      have hji : j < i := by
        have := (List.getElem?_eq_some_iff.1 hj).1
        omega
      rw [List.getElem?_take_of_lt hji, hget] at hj
      obtain ⟨t', ht', rfl⟩ := Option.map_eq_some_iff.1 hj
      exact hready j t t' hji ht' ht)
    rw [hti] at step
    have e' : stateOf s ts (i :: L) = ⟨u.exec (storeOf s ts L), l.take i ++ ⟨t, t.body.drop (L.count i + 1)⟩ :: l.drop (i + 1)⟩ := by
      have h1 : storeOf s ts (i :: L) = u.exec (storeOf s ts L) := by simp only [storeOf, ht, Option.bind_some, hu]
      unfold stateOf
      rw [h1]
      congr 1
      apply List.ext_getElem?
      intro j
      rw [List.getElem?_mapIdx]
      by_cases hj : j = i
      · subst hj
        have := getElem?_middle (l.take j) (l.drop (j + 1)) ⟨t, t.body.drop (L.count j + 1)⟩
        rw [hti] at this
        rw [this, ht, Option.map_some, List.count_cons_self]
      · rw [getElem?_other (l.take i) (l.drop (i + 1)) ⟨t, t.body.drop (L.count i + 1)⟩ ⟨t, u :: t.body.drop (L.count i + 1)⟩ (by rw [hti]; exact hj),
          ← hsplit, hget, List.count_cons_of_ne (fun h => hj h.symm)]
    rw [e']
    exact step

theorem conflict_symm {t u : Task C V} (h : Conflict t u) : Conflict u t := by
  obtain ⟨c, h | h⟩ := h
  · exact ⟨c, Or.inr h⟩
  · exact ⟨c, Or.inl h⟩

/-- The jobs read what they print. -/
def Reading (ts : List (Task C V)) (jobs : List (PrintJob C)) : Prop := ∀ j ∈ jobs, ∀ t, ts[j.number]? = some t → t.reads j.cell

theorem output_snoc (jobs : List (PrintJob C)) (log : List (Nat × (C → V))) (e : Nat × (C → V)) :
    output jobs (log ++ [e]) = output jobs log ++ ((jobs.find? fun j => j.number = e.1).map fun j => e.2 j.cell).toList := by
  unfold output
  rw [List.filterMap_append]
  congr 1

/-- The next assignment of a task stays within its declarations. -/
theorem next_within (hon : ∀ t ∈ ts, t.Honest) {i n : Nat} {t : Task C V} {u : Update C V} (ht : ts[i]? = some t) (hu : t.body[n]? = some u) :
    u.Within t.reads t.writes := hon t (List.mem_of_getElem? ht) u (List.mem_of_getElem? hu)

/-- Leaving out a task `k` from a schedule in which, since it began, nothing has advanced that conflicts with it. -/
theorem erase (hon : ∀ t ∈ ts, t.Honest) {k : Nat} {tk : Task C V} (hk : ts[k]? = some tk) {L : List Nat} (hL : k ∉ L) :
    ∀ {P : List Nat}, (∀ j ∈ P, j ≠ k → ∀ t, ts[j]? = some t → ¬Conflict t tk) → Valid ts (P ++ L) →
    Valid ts (P.filter (· ≠ k) ++ L) ∧
    (∀ c, (tk.writes c → storeOf s ts (P.filter (· ≠ k) ++ L) c = storeOf s ts L c) ∧
      (¬tk.writes c → storeOf s ts (P.filter (· ≠ k) ++ L) c = storeOf s ts (P ++ L) c)) ∧
    ∀ jobs, Reading ts jobs → (∀ j ∈ jobs, j.number ≠ k) →
      output jobs (entries s ts (P.filter (· ≠ k) ++ L)) = output jobs (entries s ts (P ++ L))
  | [], _, hv => ⟨hv, fun _ => ⟨fun _ => rfl, fun _ => rfl⟩, fun _ _ _ => rfl⟩
  | i :: P, hP, hv => by
    obtain ⟨⟨t, u, ht, hu⟩, hready, hv'⟩ : Valid ts (i :: (P ++ L)) := hv
    obtain ⟨h1, h2, h3⟩ := erase hon hk hL (P := P) (fun j hj => hP j (List.mem_cons_of_mem _ hj)) hv'
    have hw := next_within hon ht hu
    have hstore : storeOf s ts (i :: (P ++ L)) = u.exec (storeOf s ts (P ++ L)) := by simp only [storeOf, ht, Option.bind_some, hu]
    have hcount : ∀ j, j ≠ k → (P.filter (· ≠ k) ++ L).count j = (P ++ L).count j := by
      intro j hj
      rw [List.count_append, List.count_append, List.count_filter (by simpa using hj)]
    by_cases hi : i = k
    · subst hi
      rw [hk] at ht
      cases ht
      have e : (i :: P).filter (· ≠ i) = P.filter (· ≠ i) := by simp
      rw [e, List.cons_append]
      refine ⟨h1, fun c => ⟨(h2 c).1, fun hc => ?_⟩, fun jobs hj hjk => ?_⟩
      · rw [(h2 c).2 hc, hstore]
        unfold Update.exec
        rw [if_neg fun (e : c = u.dst) => hc (e ▸ hw.1)]
      · rw [h3 jobs hj hjk, entries, output_snoc]
        have : (jobs.find? fun j => j.number = i) = none := by
          rw [List.find?_eq_none]
          intro j hj
          simpa using hjk j hj
        rw [this]
        simp
    · have e : (i :: P).filter (· ≠ k) = i :: P.filter (· ≠ k) := by simp [hi]
      have hc := hP i List.mem_cons_self hi t ht
      have hread : ∀ c, t.reads c → ¬tk.writes c := fun c hr hw => hc ⟨c, Or.inr ⟨hw, Or.inl hr⟩⟩
      have hwrite : ∀ c, t.writes c → ¬tk.writes c := fun c hr hw => hc ⟨c, Or.inl ⟨hr, Or.inr hw⟩⟩
      have hu' : t.body[(P.filter (· ≠ k) ++ L).count i]? = some u := by rw [hcount i hi]; exact hu
      have hstore' : storeOf s ts (i :: (P.filter (· ≠ k) ++ L)) = u.exec (storeOf s ts (P.filter (· ≠ k) ++ L)) := by
        simp only [storeOf, ht, Option.bind_some, hu']
      have hval : u.f (storeOf s ts (P.filter (· ≠ k) ++ L)) = u.f (storeOf s ts (P ++ L)) := hw.2 _ _ fun c hc => (h2 c).2 (hread c hc)
      rw [e, List.cons_append, List.cons_append]
      refine ⟨⟨⟨t, u, ht, hu'⟩, fun j t₁ t' hji ht' ht₁ => ?_, h1⟩, fun c => ⟨fun hck => ?_, fun hck => ?_⟩, fun jobs hj hjk => ?_⟩
      · by_cases hjk : j = k
        · subst hjk
          rw [hk] at ht'
          rw [ht] at ht₁
          cases ht'
          cases ht₁
          exact Or.inr fun h => hc (conflict_symm h)
        · rw [hcount j hjk]
          exact hready j t₁ t' hji ht' ht₁
      · rw [hstore']
        unfold Update.exec
        rw [if_neg fun (e : c = u.dst) => hwrite c (e ▸ hw.1) hck]
        exact (h2 c).1 hck
      · rw [hstore', hstore]
        unfold Update.exec
        rw [hval, (h2 c).2 hck]
      · rw [entries, entries, output_snoc, output_snoc, h3 jobs hj hjk]
        congr 1
        cases hf : jobs.find? (fun j => j.number = i) with
        | none => simp
        | some a =>
          have hnum : a.number = i := by simpa using List.find?_some hf
          have := hj a (List.mem_of_find?_eq_some hf) t (by rw [hnum]; exact ht)
          simp only [Option.map_some]
          rw [(h2 a.cell).2 (hread _ this)]

end Verif.Restart
