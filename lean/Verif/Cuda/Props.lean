import Verif.Cuda.Spec

/-! # C63: every GPU works with its own library handles -/
namespace Verif.Cuda

variable {maxProcs : Nat} {gpu : Nat → Prop}

theorem upd_same {α β : Type} [DecidableEq α] (f : α → β) (a : α) (b : β) : upd f a b a = b := if_pos rfl
theorem upd_other {α β : Type} [DecidableEq α] (f : α → β) {a x : α} (b : β) (h : x ≠ a) : upd f a b x = f x := if_neg h

theorem Steps.trans {s s' s'' : State} (h : Steps maxProcs gpu s s') (h' : Steps maxProcs gpu s' s'') : Steps maxProcs gpu s s'' := by
  induction h' with
  | refl => exact h
  | tail _ b ih => exact .tail ih b

/-! ## The table -/

/-- The index is within the table, whatever the processor. -/
theorem slot_lt (h : 0 < maxProcs) (id : Nat) : slot maxProcs id < maxProcs := by
  have : slot maxProcs id ≤ maxProcs - 1 := Nat.and_le_right
  omega

theorem slot_two_pow (k id : Nat) : slot (2 ^ k) id = id % 2 ^ k := Nat.and_two_pow_sub_one_eq_mod id k

/-! ## The invariant -/

/-- What holds when GPUs have their own entries. -/
structure Inv (maxProcs : Nat) (gpu : Nat → Prop) (s : State) : Prop where
  /-- the entry of a processor holds its own handle -/
  table : ∀ p, gpu p → ∀ l h, s.table (slot maxProcs p) l = some h → s.made[h]? = some (l, p)
  /-- a handle made is in the entry of the processor -/
  kept : ∀ l p (h : Nat), s.made[h]? = some (l, p) → gpu p ∧ s.table (slot maxProcs p) l = some h
  busy : ∀ p, s.pc p ≠ .idle → gpu p
  create : ∀ p l st, s.pc p = .create l st → s.table (slot maxProcs p) l = none
  ret : ∀ p l st, s.pc p = .ret l st → s.table (slot maxProcs p) l ≠ none
  setStream : ∀ p l st h, s.pc p = .setStream l st h → s.made[h]? = some (l, p)
  ready : ∀ p l st h, s.pc p = .ready l st h → s.made[h]? = some (l, p) ∧ s.stream h = some st
  got : ∀ p l h, (p, l, h) ∈ s.got → s.made[h]? = some (l, p)
  calls : CallsRight s

theorem inv_init : Inv maxProcs gpu init :=
  ⟨fun _ _ _ _ h => by simp [init] at h, fun _ _ _ h => by simp [init] at h, fun _ h => by simp [init] at h,
    fun _ _ _ h => by simp [init] at h, fun _ _ _ h => by simp [init] at h, fun _ _ _ _ h => by simp [init] at h,
    fun _ _ _ _ h => by simp [init] at h, fun _ _ _ h => by simp [init] at h, fun _ h => by simp [init] at h⟩

/-- Changing only where one processor is. -/
theorem Inv.move {s : State} (I : Inv maxProcs gpu s) (p : Nat) (c : Pc) (hg : c ≠ .idle → gpu p)
    (h1 : ∀ l st, c = .create l st → s.table (slot maxProcs p) l = none)
    (h2 : ∀ l st, c = .ret l st → s.table (slot maxProcs p) l ≠ none)
    (h3 : ∀ l st h, c = .setStream l st h → s.made[h]? = some (l, p))
    (h4 : ∀ l st h, c = .ready l st h → s.made[h]? = some (l, p) ∧ s.stream h = some st) :
    Inv maxProcs gpu { s with pc := upd s.pc p c } where
  table := I.table
  kept := I.kept
  busy := fun q hq => by
    by_cases e : q = p
    · subst e; simp only [upd_same] at hq; exact hg hq
    · simp only [upd_other _ _ e] at hq; exact I.busy q hq
  create := fun q l st hq => by
    by_cases e : q = p
    · subst e; simp only [upd_same] at hq; exact h1 l st hq
    · simp only [upd_other _ _ e] at hq; exact I.create q l st hq
  ret := fun q l st hq => by
    by_cases e : q = p
    · subst e; simp only [upd_same] at hq; exact h2 l st hq
    · simp only [upd_other _ _ e] at hq; exact I.ret q l st hq
  setStream := fun q l st h hq => by
    by_cases e : q = p
    · subst e; simp only [upd_same] at hq; exact h3 l st h hq
    · simp only [upd_other _ _ e] at hq; exact I.setStream q l st h hq
  ready := fun q l st h hq => by
    by_cases e : q = p
    · subst e; simp only [upd_same] at hq; exact h4 l st h hq
    · simp only [upd_other _ _ e] at hq; exact I.ready q l st h hq
  got := I.got
  calls := I.calls

theorem getElem?_append_of {α : Type} {l : List α} {i : Nat} {a : α} (h : l[i]? = some a) (b : List α) : (l ++ b)[i]? = some a := by
  rw [List.getElem?_append_left (List.getElem?_eq_some_iff.1 h).1, h]

theorem inv_step (own : OwnSlots maxProcs gpu) {s s' : State} (I : Inv maxProcs gpu s) (h : Step maxProcs gpu s s') :
    Inv maxProcs gpu s' := by
  cases h with
  | start p l st hg hp => exact I.move p _ (fun _ => hg) (by simp) (by simp) (by simp) (by simp)
  | null p l st hp hn =>
    refine I.move p _ (fun _ => I.busy p (by simp [hp])) (fun l' st' e => ?_) (by simp) (by simp) (by simp)
    cases e; exact hn
  | notNull p l st h hp hn =>
    refine I.move p _ (fun _ => I.busy p (by simp [hp])) (by simp) (fun l' st' e => ?_) (by simp) (by simp)
    cases e; simp [hn]
  | ret p l st h hp hn =>
    have hg := I.busy p (by simp [hp])
    have hm := I.table p hg l h hn
    have J := I.move p (.setStream l st h) (fun _ => hg) (by simp) (by simp) (fun l' st' h' e => by cases e; exact hm) (by simp)
    refine ⟨J.table, J.kept, J.busy, J.create, J.ret, J.setStream, J.ready, fun q l' h' hq => ?_, J.calls⟩
    rcases List.mem_cons.1 hq with e | hq
    · cases e; exact hm
    · exact I.got q l' h' hq
  | finish p l st h hp => exact I.move p _ (by simp) (by simp) (by simp) (by simp) (by simp)
  | call p l st h hp =>
    obtain ⟨h1, h2⟩ := I.ready p l st h hp
    refine ⟨I.table, I.kept, I.busy, I.create, I.ret, I.setStream, I.ready, I.got, fun c hc => ?_⟩
    rcases List.mem_cons.1 hc with e | hc
    · cases e; exact ⟨h1, h2⟩
    · exact I.calls c hc
  | setStream p l st h hp =>
    have hm := I.setStream p l st h hp
    have hg := I.busy p (by simp [hp])
    refine ⟨I.table, I.kept, fun q hq => ?_, fun q l' st' hq => ?_, fun q l' st' hq => ?_, fun q l' st' h' hq => ?_,
      fun q l' st' h' hq => ?_, I.got, I.calls⟩
    · by_cases e : q = p
      · exact e ▸ hg
      · simp only [upd_other _ _ e] at hq; exact I.busy q hq
    · by_cases e : q = p
      · subst e; simp [upd_same] at hq
      · simp only [upd_other _ _ e] at hq; exact I.create q l' st' hq
    · by_cases e : q = p
      · subst e; simp [upd_same] at hq
      · simp only [upd_other _ _ e] at hq; exact I.ret q l' st' hq
    · by_cases e : q = p
      · subst e; simp [upd_same] at hq
      · simp only [upd_other _ _ e] at hq; exact I.setStream q l' st' h' hq
    · by_cases e : q = p
      · subst e
        simp only [upd_same] at hq
        cases hq
        exact ⟨hm, upd_same _ _ _⟩
      · simp only [upd_other _ _ e] at hq
        obtain ⟨h1, h2⟩ := I.ready q l' st' h' hq
        refine ⟨h1, ?_⟩
        have hh : h' ≠ h := by
          intro e'
          subst e'
          rw [hm] at h1
          cases h1
          exact e rfl
        exact (upd_other _ _ hh).trans h2
  | create p l st hp =>
    have hg := I.busy p (by simp [hp])
    have hn := I.create p l st hp
    have hnew : (s.made ++ [(l, p)])[s.made.length]? = some (l, p) := by simp
    have htab : ∀ q, gpu q → ∀ l', ¬ (q = p ∧ l' = l) →
        upd s.table (slot maxProcs p) (upd (s.table (slot maxProcs p)) l (some s.made.length)) (slot maxProcs q) l' =
          s.table (slot maxProcs q) l' := by
      intro q hq l' hne
      by_cases e : slot maxProcs q = slot maxProcs p
      · have := own q p hq hg e
        subst this
        rw [upd_same, upd_other _ _ (fun e' => hne ⟨rfl, e'⟩)]
      · rw [upd_other _ _ e]
    have htab' : upd s.table (slot maxProcs p) (upd (s.table (slot maxProcs p)) l (some s.made.length)) (slot maxProcs p) l =
        some s.made.length := by rw [upd_same, upd_same]
    refine ⟨fun q hq l' h' e => ?_, fun l' q h' e => ?_, fun q hq => ?_, fun q l' st' hq => ?_, fun q l' st' hq => ?_,
      fun q l' st' h' hq => ?_, fun q l' st' h' hq => ?_, fun q l' h' hq => ?_, fun c hc => ?_⟩
    · by_cases hne : q = p ∧ l' = l
      · obtain ⟨rfl, rfl⟩ := hne
        simp only at e
        rw [htab'] at e
        cases e
        exact hnew
      · simp only at e
        rw [htab q hq l' hne] at e
        exact getElem?_append_of (I.table q hq l' h' e) _
    · have e : (s.made ++ [(l, p)])[h']? = some (l', q) := e
      rw [List.getElem?_append] at e
      split at e
      · obtain ⟨g1, g2⟩ := I.kept l' q h' e
        refine ⟨g1, ?_⟩
        have hne : ¬ (q = p ∧ l' = l) := by
          rintro ⟨rfl, rfl⟩
          rw [hn] at g2
          cases g2
        exact (htab q g1 l' hne).trans g2
      · rename_i hlt
        obtain ⟨e1, e2⟩ := List.getElem?_eq_some_iff.1 e
        simp only [List.length_singleton] at e1
        have : h' = s.made.length := by omega
        subst this
        simp only [Nat.sub_self, List.getElem_cons_zero] at e2
        cases e2
        exact ⟨hg, htab'⟩
    · by_cases e : q = p
      · exact e ▸ hg
      · simp only [upd_other _ _ e] at hq; exact I.busy q hq
    · by_cases e : q = p
      · subst e; simp [upd_same] at hq
      · simp only [upd_other _ _ e] at hq
        exact (htab q (I.busy q (by simp [hq])) l' (fun h => e h.1)).trans (I.create q l' st' hq)
    · by_cases e : q = p
      · subst e
        simp only [upd_same] at hq
        cases hq
        simp only
        rw [htab']
        simp
      · simp only [upd_other _ _ e] at hq
        simp only
        rw [htab q (I.busy q (by simp [hq])) l' (fun h => e h.1)]
        exact I.ret q l' st' hq
    · by_cases e : q = p
      · subst e; simp [upd_same] at hq
      · simp only [upd_other _ _ e] at hq
        exact getElem?_append_of (I.setStream q l' st' h' hq) _
    · by_cases e : q = p
      · subst e; simp [upd_same] at hq
      · simp only [upd_other _ _ e] at hq
        obtain ⟨h1, h2⟩ := I.ready q l' st' h' hq
        exact ⟨getElem?_append_of h1 _, h2⟩
    · exact getElem?_append_of (I.got q l' h' hq) _
    · obtain ⟨h1, h2⟩ := I.calls c hc
      exact ⟨getElem?_append_of h1 _, h2⟩

theorem inv_steps (own : OwnSlots maxProcs gpu) {s s' : State} (h : Steps maxProcs gpu s s') (I : Inv maxProcs gpu s) :
    Inv maxProcs gpu s' := by
  induction h with
  | refl => exact I
  | tail _ b ih => exact inv_step own ih b

theorem Inv.madeOnce {s : State} (I : Inv maxProcs gpu s) : MadeOnce s := by
  constructor
  · rw [List.nodup_iff_pairwise_ne, List.pairwise_iff_getElem]
    intro i j hi hj hij e
    obtain ⟨-, h1⟩ := I.kept _ _ _ ((List.getElem?_eq_getElem hi).trans (congrArg some e))
    obtain ⟨-, h2⟩ := I.kept _ _ _ (List.getElem?_eq_getElem hj)
    rw [h1] at h2
    have : i = j := by simpa using h2
    omega
  · intro p l h h' h1 h2
    obtain ⟨-, e1⟩ := I.kept _ _ _ (I.got _ _ _ h1)
    obtain ⟨-, e2⟩ := I.kept _ _ _ (I.got _ _ _ h2)
    rw [e1] at e2
    simpa using e2

/-! ## Executions with a shared entry -/

/-- A task on `p` gets a handle, sets its stream and calls the library once. -/
theorem run_task (s : State) (p : Nat) (l : Lib) (st h : Nat) (hg : gpu p) (hi : s.pc p = .idle)
    (ht : s.table (slot maxProcs p) l = some h) : ∃ s', Steps maxProcs gpu s s' ∧ s'.made = s.made ∧ s'.table = s.table ∧
      (∀ q, q ≠ p → s'.pc q = s.pc q) ∧ ⟨p, l, st, h, some st⟩ ∈ s'.calls := by
  let s1 : State := { s with pc := upd s.pc p (.check l st) }
  let s2 : State := { s1 with pc := upd s1.pc p (.ret l st) }
  let s3 : State := { s2 with pc := upd s2.pc p (.setStream l st h), got := (p, l, h) :: s2.got }
  let s4 : State := { s3 with stream := upd s3.stream h (some st), pc := upd s3.pc p (.ready l st h) }
  let s5 : State := { s4 with calls := ⟨p, l, st, h, s4.stream h⟩ :: s4.calls }
  refine ⟨s5, (((((Steps.refl s).tail (.start s p l st hg hi)).tail (.notNull s1 p l st h (upd_same _ _ _) ht)).tail
    (.ret s2 p l st h (upd_same _ _ _) ht)).tail (.setStream s3 p l st h (upd_same _ _ _))).tail
    (.call s4 p l st h (upd_same _ _ _)), rfl, rfl, fun q hq => ?_, ?_⟩
  · simp only [s5, s4, s3, s2, s1]
    rw [upd_other _ _ hq, upd_other _ _ hq, upd_other _ _ hq, upd_other _ _ hq]
  · have : s4.stream h = some st := upd_same _ _ _
    simp [s5, this]

/-- The first request on `p` makes the first handle. -/
theorem run_create (p : Nat) (l : Lib) (st : Nat) (hg : gpu p) : ∃ s, Steps maxProcs gpu init s ∧ s.made = [(l, p)] ∧
    s.table (slot maxProcs p) l = some 0 ∧ ∀ q, q ≠ p → s.pc q = .idle := by
  let s1 : State := { init with pc := upd init.pc p (.check l st) }
  let s2 : State := { s1 with pc := upd s1.pc p (.create l st) }
  let s3 : State := { s2 with
    table := upd s2.table (slot maxProcs p) (upd (s2.table (slot maxProcs p)) l (some s2.made.length))
    made := s2.made ++ [(l, p)]
    pc := upd s2.pc p (.ret l st) }
  refine ⟨s3, (((Steps.refl init).tail (.start init p l st hg rfl)).tail (.null s1 p l st (upd_same _ _ _) rfl)).tail
    (.create s2 p l st (upd_same _ _ _)), rfl, ?_, fun q hq => ?_⟩
  · simp only [s3]
    rw [upd_same, upd_same]
    rfl
  · simp only [s3, s2, s1]
    rw [upd_other _ _ hq, upd_other _ _ hq, upd_other _ _ hq]
    rfl

/-! ## The theorems -/

/-- **C63**: the processor's entry is inside the table. -/
theorem c63_in_bounds (h : 0 < maxProcs) (id : Nat) : slot maxProcs id < maxProcs := slot_lt h id

/-- **C63**: in every execution every library call uses a handle of the task's own GPU and runs on the task's stream, exactly when
different GPUs have different entries of the table. -/
theorem c63_calls_iff : (∀ s, Steps maxProcs gpu init s → CallsRight s) ↔ OwnSlots maxProcs gpu := by
  constructor
  · intro hr p q hp hq he
    apply Classical.byContradiction
    intro hne
    obtain ⟨s, h1, h2, h3, h4⟩ := run_create (maxProcs := maxProcs) p .blas 0 hp
    obtain ⟨s', g1, g2, -, -, g4⟩ := run_task s q .blas 0 0 hq (h4 q (fun e => hne e.symm)) (he ▸ h3)
    have := (hr s' (h1.trans g1) _ g4).1
    rw [g2, h2] at this
    simp at this
    exact hne this
  · exact fun own s h => (inv_steps own h inv_init).calls

/-- **C63**: with different entries, no GPU ever makes a second handle of a library and every request on it gets the same one. -/
theorem c63_made_once (own : OwnSlots maxProcs gpu) {s : State} (h : Steps maxProcs gpu init s) : MadeOnce s :=
  (inv_steps own h inv_init).madeOnce

theorem table_grows {s s' : State} (h : Steps maxProcs gpu s s') (i : Nat) (l : Lib) (hs : s.table i l ≠ none) : s'.table i l ≠ none := by
  induction h with
  | refl => exact hs
  | tail _ b ih =>
    cases b with
    | create p l' st hp =>
      by_cases e : i = slot maxProcs p
      · subst e
        simp only [upd_same]
        by_cases e' : l = l'
        · rw [e', upd_same]; simp
        · rw [upd_other _ _ e']; exact ih
      · simp only [upd_other _ _ e]; exact ih
    | _ => exact ih

/-- **C63**: once every GPU has got both handles (after `loadCUDALibs`), no library is initialised any more. -/
theorem c63_loaded (own : OwnSlots maxProcs gpu) {s s' : State} (h : Steps maxProcs gpu init s) (hl : Loaded gpu s)
    (h' : Steps maxProcs gpu s s') : s'.made = s.made := by
  have I := inv_steps own h inv_init
  have full : ∀ p, gpu p → ∀ l, s.table (slot maxProcs p) l ≠ none := fun p hp l => by
    obtain ⟨k, hk⟩ := hl p hp l
    rw [(I.kept _ _ _ (I.got _ _ _ hk)).2]
    simp
  induction h' with
  | refl => rfl
  | tail a b ih =>
    have J := inv_steps own a I
    cases b with
    | create p l st hp =>
      exact absurd (J.create p l st hp) (table_grows a _ _ (full p (J.busy p (by simp [hp])) l))
    | _ => exact ih

/-- A task that only gets a handle. -/
theorem run_get (s : State) (p : Nat) (l : Lib) (hg : gpu p) (hi : ∀ q, s.pc q = .idle) :
    ∃ s', Steps maxProcs gpu s s' ∧ (∀ q, s'.pc q = .idle) ∧ (∃ h, (p, l, h) ∈ s'.got) ∧ ∀ x ∈ s.got, x ∈ s'.got := by
  -- the end of the task
  have fin : ∀ t : State, (∀ q, q ≠ p → t.pc q = .idle) → t.pc p = .ret l 0 → ∀ h, t.table (slot maxProcs p) l = some h →
      ∃ s', Steps maxProcs gpu t s' ∧ (∀ q, s'.pc q = .idle) ∧ (∃ h, (p, l, h) ∈ s'.got) ∧ ∀ x ∈ t.got, x ∈ s'.got := by
    intro t h1 h2 h h3
    let t1 : State := { t with pc := upd t.pc p (.setStream l 0 h), got := (p, l, h) :: t.got }
    refine ⟨{ t1 with pc := upd t1.pc p .idle }, ((Steps.refl t).tail (.ret t p l 0 h h2 h3)).tail
      (.finish t1 p l 0 h (Or.inr (upd_same _ _ _))), fun q => ?_, ⟨h, List.mem_cons_self⟩, fun x hx => List.mem_cons_of_mem _ hx⟩
    by_cases e : q = p
    · subst e; exact upd_same _ _ _
    · simp only [t1]
      rw [upd_other _ _ e, upd_other _ _ e]
      exact h1 q e
  let s1 : State := { s with pc := upd s.pc p (.check l 0) }
  have st1 : Steps maxProcs gpu s s1 := (Steps.refl s).tail (.start s p l 0 hg (hi p))
  match ht : s.table (slot maxProcs p) l with
  | some h =>
    let s2 : State := { s1 with pc := upd s1.pc p (.ret l 0) }
    obtain ⟨s', g1, g2⟩ := fin s2 (fun q hq => by
      simp only [s2, s1]
      rw [upd_other _ _ hq, upd_other _ _ hq]; exact hi q) (upd_same _ _ _) h ht
    exact ⟨s', (st1.tail (.notNull s1 p l 0 h (upd_same _ _ _) ht)).trans g1, g2⟩
  | none =>
    let s2 : State := { s1 with pc := upd s1.pc p (.create l 0) }
    let s3 : State := { s2 with
      table := upd s2.table (slot maxProcs p) (upd (s2.table (slot maxProcs p)) l (some s2.made.length))
      made := s2.made ++ [(l, p)]
      pc := upd s2.pc p (.ret l 0) }
    obtain ⟨s', g1, g2⟩ := fin s3 (fun q hq => by
      simp only [s3, s2, s1]
      rw [upd_other _ _ hq, upd_other _ _ hq, upd_other _ _ hq]; exact hi q) (upd_same _ _ _) s2.made.length (by
        simp only [s3]; rw [upd_same, upd_same])
    exact ⟨s', ((st1.tail (.null s1 p l 0 (upd_same _ _ _) ht)).tail (.create s2 p l 0 (upd_same _ _ _))).trans g1, g2⟩

/-- **C63**: `loadCUDALibs` (`CudaLibs.cu` 39-66), one task on each of the GPUs, leads to such a state. -/
theorem c63_load (gpus : List Nat) (hg : ∀ p, gpu p ↔ p ∈ gpus) : ∃ s, Steps maxProcs gpu init s ∧ Loaded gpu s := by
  have : ∀ l : List Nat, (∀ p ∈ l, gpu p) → ∃ s, Steps maxProcs gpu init s ∧ (∀ q, s.pc q = .idle) ∧
      ∀ p ∈ l, ∀ b, ∃ h, (p, b, h) ∈ s.got := by
    intro l
    induction l with
    | nil => exact fun _ => ⟨init, .refl _, fun _ => rfl, by simp⟩
    | cons p l ih =>
      intro hl
      obtain ⟨s, h1, h2, h3⟩ := ih fun q hq => hl q (List.mem_cons_of_mem _ hq)
      obtain ⟨s', g1, g2, g3, g4⟩ := run_get s p .blas (hl p List.mem_cons_self) h2
      obtain ⟨s'', k1, k2, k3, k4⟩ := run_get s' p .sparse (hl p List.mem_cons_self) g2
      refine ⟨s'', (h1.trans g1).trans k1, k2, fun q hq b => ?_⟩
      rcases List.mem_cons.1 hq with rfl | hq
      · cases b
        · obtain ⟨h, hh⟩ := g3
          exact ⟨h, k4 _ hh⟩
        · exact k3
      · obtain ⟨h, hh⟩ := h3 q hq b
        exact ⟨h, k4 _ (g4 _ hh)⟩
  obtain ⟨s, h1, -, h3⟩ := this gpus fun p hp => (hg p).2 hp
  exact ⟨s, h1, fun p hp l => h3 p ((hg p).1 hp) l⟩

/-- **C63**: if the size of the table is a power of two (Legion's default is 4096), GPUs whose numbers differ in the low bits have
different entries. -/
theorem c63_power_of_two (k : Nat) (h : ∀ p q, gpu p → gpu q → p % 2 ^ k = q % 2 ^ k → p = q) : OwnSlots (2 ^ k) gpu := by
  intro p q hp hq e
  rw [slot_two_pow, slot_two_pow] at e
  exact h p q hp hq e

/-- Realm's processor numbers: a tag, the node and the index of the processor on its node, in the lowest 12 bits. -/
def realmId (tag node idx : Nat) : Nat := tag * 2 ^ 56 + node * 2 ^ 40 + idx

/-- **C63**: with a table of 4096 entries the processors of one node have different entries. -/
theorem c63_realm (tag node : Nat) (gpu : Nat → Prop) (h : ∀ p, gpu p → ∃ idx, idx < 4096 ∧ p = realmId tag node idx) :
    OwnSlots 4096 gpu := by
  refine c63_power_of_two 12 fun p q hp hq e => ?_
  obtain ⟨i, hi, rfl⟩ := h p hp
  obtain ⟨j, hj, rfl⟩ := h q hq
  unfold realmId at e ⊢
  omega

/-- **C63**: a table of any other size does not do: two processor numbers below it share an entry. -/
theorem c63_only_powers (h : 0 < maxProcs) (own : OwnSlots maxProcs fun p => p < maxProcs) : ∃ k, maxProcs = 2 ^ k := by
  refine ⟨Nat.log2 maxProcs, Classical.byContradiction fun hne => ?_⟩
  have h1 : 2 ^ Nat.log2 maxProcs ≤ maxProcs := Nat.log2_self_le (by omega)
  have h2 : maxProcs < 2 ^ (Nat.log2 maxProcs + 1) := Nat.lt_log2_self
  -- every bit of `maxProcs - 1` up to the highest is set
  have bits : ∀ i, i < Nat.log2 maxProcs + 1 → (maxProcs - 1).testBit i = true := by
    intro i hi
    apply Classical.byContradiction
    intro hb
    have h3 : 2 ^ i < maxProcs := by
      have : 2 ^ i ≤ 2 ^ Nat.log2 maxProcs := Nat.pow_le_pow_right (by omega) (by omega)
      omega
    have h4 : slot maxProcs (2 ^ i) = slot maxProcs 0 := by
      unfold slot
      apply Nat.eq_of_testBit_eq
      intro j
      rw [Nat.testBit_and, Nat.testBit_and, Nat.testBit_two_pow, Nat.zero_testBit]
      by_cases e : i = j
      · subst e; simp at hb; simp [hb]
      · simp [e]
    have := own _ _ h3 (by omega) h4
    have := Nat.two_pow_pos i
    omega
  have h5 : maxProcs - 1 = 2 ^ (Nat.log2 maxProcs + 1) - 1 := by
    apply Nat.eq_of_testBit_eq
    intro j
    rw [Nat.testBit_two_pow_sub_one]
    by_cases hj : j < Nat.log2 maxProcs + 1
    · simp [bits j hj, hj]
    · simp only [hj, decide_false]
      apply Nat.testBit_lt_two_pow
      have : 2 ^ (Nat.log2 maxProcs + 1) ≤ 2 ^ j := Nat.pow_le_pow_right (by omega) (by omega)
      omega
  omega

/-! ## Concrete cases -/

/-- Two GPUs of node 3. -/
def twoGpus (p : Nat) : Prop := p = realmId 29 3 5 ∨ p = realmId 29 3 6

example : OwnSlots 4096 twoGpus := c63_realm 29 3 twoGpus fun p h => by
  rcases h with rfl | rfl
  · exact ⟨5, by decide, rfl⟩
  · exact ⟨6, by decide, rfl⟩

/-- A reachable state with a library call. -/
example : ∃ s, Steps 4096 twoGpus init s ∧ s.calls.length = 1 ∧ CallsRight s := by
  refine ⟨_, (((((((Steps.refl init).tail (.start _ (realmId 29 3 5) .blas 7 (Or.inl rfl) rfl)).tail
    (.null _ _ .blas 7 (upd_same _ _ _) rfl)).tail (.create _ _ .blas 7 (upd_same _ _ _))).tail
    (.ret _ _ .blas 7 0 (upd_same _ _ _) ?_)).tail (.setStream _ _ .blas 7 0 (upd_same _ _ _))).tail
    (.call _ _ .blas 7 0 (upd_same _ _ _))), rfl, ?_⟩
  · simp only [upd_same]; rfl
  · intro c hc
    simp only [List.mem_cons] at hc
    rcases hc with rfl | hc
    · exact ⟨rfl, rfl⟩
    · simp [init] at hc

example : ∃ s, Steps 4096 twoGpus init s ∧ Loaded twoGpus s :=
  c63_load [realmId 29 3 5, realmId 29 3 6] fun p => by simp [twoGpus]

/-- A table of 1000 entries: processors 1 and 9 share one, so some execution uses a handle on the wrong GPU. -/
theorem c63_violated : ¬ ∀ s, Steps 1000 (fun p => p = 1 ∨ p = 9) init s → CallsRight s := by
  rw [c63_calls_iff]
  intro h
  exact absurd (h 1 9 (Or.inl rfl) (Or.inr rfl) (by decide)) (by decide)

end Verif.Cuda
