import Verif.View.Spec
import Mathlib.Tactic.Linarith

/-!
# C98: views of CUDA streams: proofs
-/
set_option linter.unusedSimpArgs false
set_option linter.unusedVariables false
set_option linter.unnecessarySeqFocus false
set_option linter.unusedTactic false
set_option linter.unreachableTactic false
namespace Verif.View

theorem later_done {f : Fate} {n : Nat} : f.later = .done n ↔ ∃ m, f = .done m ∧ n = m + 1 := by
  cases f <;> simp [Fate.later, eq_comm]

theorem moveAssign_same (v : Name → Option Obj) (x : Name) (o : Obj) :
    moveAssign v x x o o = set v x (some ⟨o.stream, false⟩) := by
  funext n
  simp only [moveAssign, set]
  split_ifs <;> simp

theorem moveAssign_ne (v : Name → Option Obj) (x y : Name) (dst src : Obj) (hxy : x ≠ y) (hy : v y = some src) :
    moveAssign v x y dst src = set (set v x (some src)) y (some ⟨src.stream, false⟩) := by
  funext n
  by_cases h1 : n = y
  · subst h1; simp [moveAssign, set, hy, Ne.symm hxy]
  · by_cases h2 : n = x
    · subst h2; simp [moveAssign, set, hy, h1, Ne.symm hxy]
    · simp [moveAssign, set, h1, h2]

/-- One operation: which views have duties afterwards, which checks were made. -/
theorem step_checks {st st' : State} {op : Op} (h : step .debug st op = some st') (t : Nat) (s : Stream) :
    (t, s) ∈ st'.checks ↔ (t, s) ∈ st.checks ∨ ∃ x, op = .destroy x ∧ st.views x = some ⟨s, true⟩ ∧ t = st.time := by
  cases op with
  | make x s0 => simp only [step] at h; split at h <;> simp_all; subst h; simp
  | moveMake x y => simp only [step] at h; split at h <;> simp_all; subst h; simp
  | moveAssign x y => simp only [step] at h; split at h <;> simp_all; subst h; simp
  | destroy x =>
    simp only [step] at h
    split at h
    · rename_i o ho
      cases h
      rcases o with ⟨so, _ | _⟩
      · simp [dtor, ho]
      · simp [dtor, ho, eq_comm, and_comm]
    · cases h

theorem step_time {b : Build} {st st' : State} {op : Op} (h : step b st op = some st') : st'.time = st.time + 1 := by
  cases op <;> simp only [step] at h <;> split at h <;> cases h <;> rfl

/-- The view that has the duty `x` had, after one operation. -/
def next (x : Name) : Op → Option Name
  | .make _ _ => some x
  | .moveMake a b => if x = b then some a else some x
  | .moveAssign a b => if x = a then none else if x = b then some a else some x
  | .destroy a => if x = a then none else some x

theorem fate_cons (x : Name) (op : Op) (h : List Op) (m : Nat) :
    fate x (op :: h) = .done m ↔ (m = 0 ∧ op = .destroy x) ∨ ∃ z k, next x op = some z ∧ fate z h = .done k ∧ m = k + 1 := by
  cases op with
  | make a s => simp [fate, next, later_done]
  | moveMake a b => by_cases hb : x = b <;> simp [fate, next, later_done, hb]
  | moveAssign a b => by_cases ha : x = a <;> by_cases hb : x = b <;> simp_all [fate, next, later_done]
  | destroy a =>
    by_cases ha : x = a
    · subst ha; simp [fate, next, eq_comm]
    · have hne : Op.destroy a ≠ Op.destroy x := by simpa using Ne.symm ha
      simp [fate, next, later_done, ha, hne]

theorem step_holds {b : Build} {st st' : State} {op : Op} (h : step b st op = some st') (z : Name) (s : Stream) :
    st'.views z = some ⟨s, true⟩ ↔ op = .make z s ∨ ∃ x, next x op = some z ∧ st.views x = some ⟨s, true⟩ := by
  cases op with
  | make x s0 =>
    simp only [step] at h; split at h
    · rename_i hx; cases h
      by_cases hz : z = x
      · subst hz; simp [set, next, hx]
      · simp [set, next, hz, Ne.symm hz]
    · cases h
  | moveMake x y =>
    simp only [step] at h; split at h
    · rename_i src hx hy; cases h
      have hxy : x ≠ y := by rintro rfl; simp [hx] at hy
      by_cases hz : z = x
      · subst hz
        simp only [moveCtor, set, hxy, if_false, if_true, next]
        constructor
        · intro e; right; exact ⟨y, by simp, by cases src; simp_all⟩
        · rintro (e | ⟨w, hw, e⟩)
          · cases e
          · by_cases hwy : w = y
            · subst hwy; rw [hy] at e; cases e; rfl
            · simp [hwy] at hw; subst hw; simp [hx] at e
      · by_cases hzy : z = y
        · subst hzy
          simp only [moveCtor, set, if_true, next]
          constructor
          · intro e; simp at e
          · rintro (e | ⟨w, hw, e⟩)
            · cases e
            · by_cases hwy : w = z
              · simp [hwy] at hw; exact absurd hw.symm hz
              · simp [hwy] at hw
        · simp only [moveCtor, set, hz, hzy, if_false, next]
          constructor
          · intro e; right; exact ⟨z, by simp [hzy], e⟩
          · rintro (e | ⟨w, hw, e⟩)
            · cases e
            · by_cases hwy : w = y
              · simp [hwy] at hw; exact absurd hw.symm hz
              · simp [hwy] at hw; subst hw; exact e
    · cases h
  | moveAssign x y =>
    simp only [step] at h; split at h
    · rename_i dst src hx hy; cases h
      by_cases hxy : x = y
      · subst hxy
        rw [hx] at hy; cases hy
        rw [moveAssign_same]
        by_cases hz : z = x
        · subst hz
          simp only [set, if_true, next]
          constructor
          · intro e; simp at e
          · rintro (e | ⟨w, hw, e⟩)
            · cases e
            · by_cases hwy : w = z <;> simp [hwy] at hw
        · simp only [set, hz, if_false, next]
          constructor
          · intro e; right; exact ⟨z, by simp [hz], e⟩
          · rintro (e | ⟨w, hw, e⟩)
            · cases e
            · by_cases hwy : w = x <;> simp [hwy] at hw
              subst hw; exact e
      · rw [moveAssign_ne _ _ _ _ _ hxy hy]
        by_cases hz : z = x
        · subst hz
          simp only [set, hxy, if_false, if_true, next]
          constructor
          · intro e; right; exact ⟨y, by simp [Ne.symm hxy], by simpa [hy] using e⟩
          · rintro (e | ⟨w, hw, e⟩)
            · cases e
            · by_cases hwx : w = z
              · simp [hwx] at hw
              · by_cases hwy : w = y
                · subst hwy; rw [hy] at e; cases e; rfl
                · simp [hwx, hwy] at hw
        · by_cases hzy : z = y
          · subst hzy
            simp only [set, if_true, next]
            constructor
            · intro e; simp at e
            · rintro (e | ⟨w, hw, e⟩)
              · cases e
              · by_cases hwx : w = x
                · simp [hwx] at hw
                · by_cases hwy : w = z
                  · simp [hwx, hwy] at hw; simp [hwy] at hwx; simp [hwx] at hw; exact absurd hw.symm hz
                  · simp [hwx, hwy] at hw
          · simp only [set, hz, hzy, if_false, next]
            constructor
            · intro e; right; exact ⟨z, by simp [hz, hzy], e⟩
            · rintro (e | ⟨w, hw, e⟩)
              · cases e
              · by_cases hwx : w = x
                · simp [hwx] at hw
                · by_cases hwy : w = y
                  · simp [hwx] at hw; simp [hwy] at hw; exact absurd hw.symm hz
                  · simp [hwx, hwy] at hw; subst hw; exact e
    · cases h
  | destroy x =>
    simp only [step] at h; split at h
    · rename_i o ho; cases h
      by_cases hz : z = x
      · subst hz
        simp only [set, if_true, next]
        constructor
        · intro e; simp at e
        · rintro (e | ⟨w, hw, e⟩)
          · cases e
          · by_cases hwy : w = z <;> simp [hwy] at hw
      · simp only [set, hz, if_false, next]
        constructor
        · intro e; right; exact ⟨z, by simp [hz], e⟩
        · rintro (e | ⟨w, hw, e⟩)
          · cases e
          · by_cases hwy : w = x <;> simp [hwy] at hw
            subst hw; exact e
    · cases h

theorem checks_from (h : List Op) : ∀ st st' : State, run .debug st h = some st' → ∀ t s,
    ((t, s) ∈ st'.checks ↔ (t, s) ∈ st.checks
      ∨ (∃ x m, st.views x = some ⟨s, true⟩ ∧ fate x h = .done m ∧ t = st.time + m)
      ∨ ∃ i m, Duty h i s (.done m) ∧ t = st.time + (i + 1 + m)) := by
  induction h with
  | nil =>
    intro st st' hr t s
    cases hr
    simp [fate, Duty]
  | cons op h ih =>
    intro st st' hr t s
    simp only [run, Option.bind_eq_some_iff] at hr
    obtain ⟨st1, h1, hr⟩ := hr
    rw [ih st1 st' hr t s, step_checks h1, step_time h1]
    constructor
    · rintro ((hc | ⟨x, rfl, hx, rfl⟩) | ⟨z, m, hz, hm, rfl⟩ | ⟨i, m, ⟨x, hi, hm⟩, rfl⟩)
      · exact .inl hc
      · exact .inr (.inl ⟨x, 0, hx, by simp [fate], rfl⟩)
      · rcases (step_holds h1 z s).1 hz with rfl | ⟨x, hn, hx⟩
        · exact .inr (.inr ⟨0, m, ⟨z, rfl, by simpa using hm⟩, by omega⟩)
        · exact .inr (.inl ⟨x, m + 1, hx, (fate_cons x op h _).2 (.inr ⟨z, m, hn, hm, rfl⟩), by omega⟩)
      · exact .inr (.inr ⟨i + 1, m, ⟨x, by simpa using hi, by simpa using hm⟩, by omega⟩)
    · rintro (hc | ⟨x, m, hx, hm, rfl⟩ | ⟨i, m, ⟨x, hi, hm⟩, rfl⟩)
      · exact .inl (.inl hc)
      · rcases (fate_cons x op h m).1 hm with ⟨rfl, rfl⟩ | ⟨z, k, hn, hk, rfl⟩
        · exact .inl (.inr ⟨x, rfl, hx, rfl⟩)
        · exact .inr (.inl ⟨z, k, (step_holds h1 z s).2 (.inr ⟨x, hn, hx⟩), hk, by omega⟩)
      · cases i with
        | zero =>
          simp at hi hm
          subst hi
          exact .inr (.inl ⟨x, m, (step_holds h1 x s).2 (.inl rfl), hm, by omega⟩)
        | succ i =>
          exact .inr (.inr ⟨i, m, ⟨x, by simpa using hi, by simpa using hm⟩, by omega⟩)

/-- **C98**: the checks a program makes in a debug build are those that the duties made by its views lead to. -/
theorem c98_checks {h : List Op} {st : State} (hr : run .debug .start h = some st) (t : Nat) (s : Stream) :
    (t, s) ∈ st.checks ↔ ∃ i m, Duty h i s (.done m) ∧ t = i + 1 + m := by
  rw [checks_from h _ _ hr t s]
  simp [State.start]

theorem sorted_from (b : Build) (h : List Op) : ∀ st st' : State, run b st h = some st' →
    st.checks.Pairwise (fun p q => p.1 < q.1) → (∀ p ∈ st.checks, p.1 < st.time) →
    st'.checks.Pairwise (fun p q => p.1 < q.1) ∧ st'.time = st.time + h.length := by
  induction h with
  | nil => intro st st' hr h1 _; cases hr; exact ⟨h1, rfl⟩
  | cons op h ih =>
    intro st st' hr h1 h2
    simp only [run, Option.bind_eq_some_iff] at hr
    obtain ⟨st1, hs, hr⟩ := hr
    have ht := step_time hs
    have hc : st1.checks = st.checks ∨ ∃ s, st1.checks = st.checks ++ [(st.time, s)] := by
      cases op with
      | destroy x =>
        simp only [step] at hs
        split at hs
        · cases hs
          rename_i o _
          cases hd : dtor b o with
          | none => left; simp
          | some s => right; exact ⟨s, by simp⟩
        · cases hs
      | _ => simp only [step] at hs; split at hs <;> cases hs; exact .inl rfl
    have := ih st1 st' hr ?_ ?_
    · exact ⟨this.1, by rw [this.2, ht]; simp; omega⟩
    · rcases hc with e | ⟨s, e⟩ <;> rw [e]
      · exact h1
      · rw [List.pairwise_append]
        exact ⟨h1, by simp, fun a ha b hb => by simp at hb; subst hb; exact h2 a ha⟩
    · rw [ht]
      rcases hc with e | ⟨s, e⟩ <;> rw [e]
      · intro p hp; have := h2 p hp; omega
      · intro p hp
        rcases List.mem_append.1 hp with hp | hp
        · have := h2 p hp; omega
        · simp at hp; subst hp; simp

/-- **C98**: they are made one after the other, each when a view's life ends. -/
theorem c98_order {h : List Op} {st : State} (hr : run .debug .start h = some st) :
    st.checks.Pairwise (fun p q => p.1 < q.1) ∧ ∀ p ∈ st.checks, ∃ x, h[p.1]? = some (.destroy x) := by
  refine ⟨(sorted_from .debug h _ _ hr .nil (by simp [State.start])).1, ?_⟩
  rintro ⟨t, s⟩ hp
  obtain ⟨i, m, ⟨x, _, hm⟩, rfl⟩ := (c98_checks hr t s).1 hp
  have key : ∀ (h : List Op) (x : Name) (m : Nat), fate x h = .done m → ∃ y, h[m]? = some (.destroy y) := by
    intro h
    induction h with
    | nil => intro x m e; simp [fate] at e
    | cons op h ih =>
      intro x m e
      rcases (fate_cons x op h m).1 e with ⟨rfl, rfl⟩ | ⟨z, k, _, hk, rfl⟩
      · exact ⟨x, rfl⟩
      · simpa using ih z k hk
  obtain ⟨y, hy⟩ := key _ x m hm
  exact ⟨y, by simpa using hy⟩

theorem alive_next {b : Build} {st st' : State} {op : Op} (h : step b st op = some st') {x z : Name} (hn : next x op = some z)
    (hx : (st.views x).isSome) : (st'.views z).isSome := by
  cases op with
  | make a s =>
    simp only [step] at h; split at h <;> cases h
    simp [next] at hn; subst hn
    simp only [set]; split_ifs <;> simp [hx]
  | moveMake a b =>
    simp only [step] at h; split at h <;> cases h
    simp only [moveCtor, set]
    split_ifs <;> try simp
    rename_i h1 h2
    simp only [next] at hn; split_ifs at hn <;> simp at hn
    · exact absurd hn.symm h2
    · subst hn; exact hx
  | moveAssign a b =>
    simp only [step] at h; split at h <;> cases h
    rename_i dst src hd hs
    by_cases hab : a = b
    · subst hab
      rw [hd] at hs; cases hs
      rw [moveAssign_same]
      simp only [next] at hn; split_ifs at hn; simp at hn; subst hn
      simp only [set]; split_ifs <;> simp [hx]
    · rw [moveAssign_ne _ _ _ _ _ hab hs]
      simp only [set]
      split_ifs <;> try simp
      rename_i h1 h2
      simp only [next] at hn; split_ifs at hn <;> simp at hn
      · exact absurd hn.symm h2
      · subst hn; exact hx
  | destroy a =>
    simp only [step] at h; split at h <;> cases h
    simp only [next] at hn; split_ifs at hn; simp at hn; subst hn
    simp only [set]; split_ifs; exact hx

/-- Views that have different duties stay different. -/
theorem next_ne {b : Build} {st st' : State} {op : Op} (h : step b st op = some st') {x y z : Name} (hxy : x ≠ y)
    (hx : (st.views x).isSome) (hy : (st.views y).isSome) (h1 : next x op = some z) (h2 : next y op = some z) : False := by
  cases op with
  | make a s => simp [next] at h1 h2; exact hxy (h1.trans h2.symm)
  | moveMake a b =>
    simp only [step] at h; split at h <;> cases h
    rename_i ha _
    simp only [next] at h1 h2
    split_ifs at h1 h2 <;> simp_all
  | moveAssign a b =>
    simp only [next] at h1 h2
    split_ifs at h1 h2 <;> simp_all
  | destroy a =>
    simp only [next] at h1 h2
    split_ifs at h1 h2 <;> simp_all

theorem fate_ne (b : Build) (h : List Op) : ∀ st st' : State, run b st h = some st' → ∀ x y m, x ≠ y → (st.views x).isSome → (st.views y).isSome →
    fate x h = .done m → fate y h ≠ .done m := by
  induction h with
  | nil => intro st st' _ x y m _ _ _ e; simp [fate] at e
  | cons op h ih =>
    intro st st' hr x y m hxy hx hy e e'
    simp only [run, Option.bind_eq_some_iff] at hr
    obtain ⟨st1, hs, hr⟩ := hr
    rcases (fate_cons x op h m).1 e with ⟨rfl, rfl⟩ | ⟨z, k, hn, hk, rfl⟩
    · rcases (fate_cons y _ h 0).1 e' with ⟨_, e2⟩ | ⟨_, _, _, _, e2⟩
      · exact hxy (by simpa using e2)
      · omega
    · rcases (fate_cons y op h _).1 e' with ⟨e2, _⟩ | ⟨z', k', hn', hk', e2⟩
      · omega
      · obtain rfl : k = k' := by omega
        by_cases hz : z = z'
        · subst hz; exact next_ne hs hxy hx hy hn hn'
        · exact ih st1 st' hr z z' k hz (alive_next hs hn hx) (alive_next hs hn' hy) hk hk'

theorem make_new {b : Build} {st st' : State} {x : Name} {s : Stream} (h : step b st (.make x s) = some st') :
    st.views x = none ∧ (st'.views x).isSome := by
  simp only [step] at h; split at h <;> cases h
  rename_i hx
  exact ⟨hx, by simp [set]⟩

theorem duty_meets (b : Build) (h : List Op) : ∀ st st' : State, run b st h = some st' → ∀ x m i m' s', (st.views x).isSome →
    fate x h = .done m → Duty h i s' (.done m') → m ≠ i + 1 + m' := by
  induction h with
  | nil => intro st st' _ x m i m' s' _ e; simp [fate] at e
  | cons op h ih =>
    rintro st st' hr x m i m' s' hx e ⟨y, hy, hm'⟩ hm
    simp only [run, Option.bind_eq_some_iff] at hr
    obtain ⟨st1, hs, hr⟩ := hr
    rcases (fate_cons x op h m).1 e with ⟨rfl, rfl⟩ | ⟨z, k, hn, hk, rfl⟩
    · omega
    · cases i with
      | zero =>
        simp at hy hm'
        subst hy
        obtain ⟨h1, h2⟩ := make_new hs
        have hzx : z = x := by simpa [next, eq_comm] using hn
        subst hzx
        have hzy : z ≠ y := by rintro rfl; simp [h1] at hx
        exact fate_ne b h st1 st' hr z y k hzy (alive_next hs hn hx) h2 hk (by rw [hm']; congr 1; omega)
      | succ i => exact ih st1 st' hr z k i m' s' (alive_next hs hn hx) hk ⟨y, by simpa using hy, by simpa using hm'⟩ (by omega)

theorem duties_apart (b : Build) (h : List Op) : ∀ st st' : State, run b st h = some st' → ∀ i j s s' m m', i < j →
    Duty h i s (.done m) → Duty h j s' (.done m') → i + 1 + m ≠ j + 1 + m' := by
  induction h with
  | nil => rintro st st' _ i j s s' m m' _ ⟨x, hx, _⟩; simp at hx
  | cons op h ih =>
    rintro st st' hr i j s s' m m' hij ⟨x, hx, hm⟩ ⟨y, hy, hm'⟩
    simp only [run, Option.bind_eq_some_iff] at hr
    obtain ⟨st1, hs, hr⟩ := hr
    cases j with
    | zero => omega
    | succ j =>
      have dj : Duty h j s' (.done m') := ⟨y, by simpa using hy, by simpa using hm'⟩
      cases i with
      | zero =>
        simp at hx hm
        subst hx
        have := duty_meets b h st1 st' hr x m j m' s' (make_new hs).2 hm dj
        omega
      | succ i =>
        have := ih st1 st' hr i j s s' m m' (by omega) ⟨x, by simpa using hx, by simpa using hm⟩ dj
        omega

/-- **C98**: no check serves for two views that were made from streams, however views were moved. -/
theorem c98_distinct {h : List Op} {st : State} (hr : run .debug .start h = some st) {i j : Nat} {s s' : Stream} {m m' : Nat}
    (hi : Duty h i s (.done m)) (hj : Duty h j s' (.done m')) (he : i + 1 + m = j + 1 + m') : i = j := by
  rcases Nat.lt_trichotomy i j with h1 | h1 | h1
  · exact absurd he (duties_apart _ h _ _ hr i j s s' m m' h1 hi hj)
  · exact h1
  · exact absurd he.symm (duties_apart _ h _ _ hr j i s' s m' m h1 hj hi)

theorem held_alive (b : Build) (h : List Op) : ∀ st st' : State, run b st h = some st' → ∀ x z, (st.views x).isSome → fate x h = .held z →
    (st'.views z).isSome := by
  induction h with
  | nil => intro st st' hr x z hx e; cases hr; simp [fate] at e; subst e; exact hx
  | cons op h ih =>
    intro st st' hr x z hx e
    simp only [run, Option.bind_eq_some_iff] at hr
    obtain ⟨st1, hs, hr⟩ := hr
    have : ∃ w, next x op = some w ∧ fate w h = .held z := by
      have hl : ∀ f : Fate, f.later = .held z ↔ f = .held z := by intro f; cases f <;> simp [Fate.later]
      cases op <;> simp only [fate] at e <;> simp only [next] <;> (try split_ifs at e ⊢) <;> simp_all
    obtain ⟨w, hw, e'⟩ := this
    exact ih st1 st' hr w z (alive_next hs hw hx) e'

theorem fate_kept (h : List Op) (hn : NoAssign h) : ∀ x, fate x h ≠ .lost := by
  have hl : ∀ f : Fate, f.later = .lost ↔ f = .lost := by intro f; cases f <;> simp [Fate.later]
  induction h with
  | nil => intro x; simp [fate]
  | cons op h ih =>
    have hn' : NoAssign h := fun x y hm => hn x y (List.mem_cons_of_mem _ hm)
    intro x
    cases op with
    | moveAssign a b => exact absurd List.mem_cons_self (hn a b)
    | make a s => simp only [fate, ne_eq, hl]; exact ih hn' x
    | moveMake a b => simp only [fate]; split_ifs <;> simp only [ne_eq, hl] <;> exact ih hn' _
    | destroy a => simp only [fate]; split_ifs <;> simp [hl, ih hn' _]

theorem run_suffix (b : Build) (h : List Op) : ∀ st st' : State, run b st h = some st' → ∀ i x s, h[i]? = some (.make x s) →
    ∃ st1, (st1.views x).isSome ∧ run b st1 (h.drop (i + 1)) = some st' := by
  induction h with
  | nil => intro st st' _ i x s e; simp at e
  | cons op h ih =>
    intro st st' hr i x s e
    simp only [run, Option.bind_eq_some_iff] at hr
    obtain ⟨st1, hs, hr⟩ := hr
    cases i with
    | zero => simp at e; subst e; exact ⟨st1, (make_new hs).2, by simpa using hr⟩
    | succ i => simpa using ih st1 st' hr i x s (by simpa using e)

/-- **C98**: if nothing is assigned to views and all views are gone at the end, the stream of every view made from a stream has been checked, at the
end of some view's life after the view was made. -/
theorem c98_all {h : List Op} {st : State} (hr : run .debug .start h = some st) (hn : NoAssign h) (hg : ∀ x, st.views x = none) {i : Nat}
    {x : Name} {s : Stream} (hi : h[i]? = some (.make x s)) : ∃ m, Duty h i s (.done m) ∧ (i + 1 + m, s) ∈ st.checks := by
  obtain ⟨st1, hx, hr1⟩ := run_suffix _ h _ _ hr i x s hi
  cases hf : fate x (h.drop (i + 1)) with
  | held z =>
    have := held_alive _ _ _ _ hr1 x z hx hf
    rw [hg z] at this
    cases this
  | done m => exact ⟨m, ⟨x, hi, hf⟩, (c98_checks hr _ _).2 ⟨i, m, ⟨x, hi, hf⟩, rfl⟩⟩
  | lost => exact absurd hf (fate_kept _ (fun a b hm => hn a b (List.mem_of_mem_drop hm)) x)

/-- **C98**: a view that something is assigned to, be it itself, forgets the stream it had to check: the checks of that stream, if any, are
due to other views made from it. -/
theorem c98_forgets {h : List Op} {st : State} (hr : run .debug .start h = some st) {i : Nat} {s : Stream} (hi : Duty h i s .lost) {t : Nat}
    (ht : (t, s) ∈ st.checks) : ∃ j, j ≠ i ∧ ∃ m, Duty h j s (.done m) ∧ t = j + 1 + m := by
  obtain ⟨j, m, ⟨x, hx, hm⟩, e⟩ := (c98_checks hr t s).1 ht
  refine ⟨j, ?_, m, ⟨x, hx, hm⟩, e⟩
  rintro rfl
  obtain ⟨y, hy, hl⟩ := hi
  rw [hx] at hy
  cases hy
  rw [hm] at hl
  cases hl

/-- **C98**: a view keeps its stream as long as nothing is assigned to it, also after it was moved from; a view made or assigned from another has
that one's stream. -/
theorem c98_stream {b : Build} {st st' : State} {op : Op} (h : step b st op = some st') (z : Name) :
    st'.streamOf z = streamAfter st.streamOf op z := by
  cases op with
  | make x s => simp only [step] at h; split at h <;> cases h; simp only [State.streamOf, streamAfter, set]; split_ifs <;> rfl
  | destroy x => simp only [step] at h; split at h <;> cases h; simp only [State.streamOf, streamAfter, set]; split_ifs <;> rfl
  | moveMake x y =>
    simp only [step] at h; split at h <;> cases h
    rename_i hx hy
    have hxy : x ≠ y := by rintro rfl; simp [hx] at hy
    simp only [State.streamOf, streamAfter, moveCtor, set]
    by_cases h1 : z = y
    · subst h1; simp [Ne.symm hxy, hy]
    · by_cases h2 : z = x <;> simp [h1, h2, hy, hxy]
  | moveAssign x y =>
    simp only [step] at h; split at h <;> cases h
    rename_i dst src hx hy
    by_cases hxy : x = y
    · subst hxy
      rw [hx] at hy; cases hy
      rw [moveAssign_same]
      simp only [State.streamOf, streamAfter, set]
      by_cases h1 : z = x <;> simp [h1, hx]
    · rw [moveAssign_ne _ _ _ _ _ hxy hy]
      simp only [State.streamOf, streamAfter, set]
      by_cases h1 : z = y
      · subst h1; simp [Ne.symm hxy, hy]
      · by_cases h2 : z = x <;> simp [h1, h2, hy, hxy]

/-- **C98**: a release build checks nothing. -/
theorem c98_release {h : List Op} {st : State} (hr : run .release .start h = some st) : st.checks = [] := by
  have key : ∀ (h : List Op) (st st' : State), run .release st h = some st' → st'.checks = st.checks := by
    intro h
    induction h with
    | nil => intro st st' e; cases e; rfl
    | cons op h ih =>
      intro st st' e
      simp only [run, Option.bind_eq_some_iff] at e
      obtain ⟨st1, hs, e⟩ := e
      rw [ih st1 st' e]
      cases op <;> simp only [step] at hs <;> split at hs <;> cases hs <;> first | rfl | skip
      rename_i o _
      simp [dtor]
  exact key h _ _ hr

/-- **C98**: which programs C++ allows, and the members of views, do not depend on the build. -/
theorem c98_builds (h : List Op) : ∀ st st1 : State, st.views = st1.views →
    (run .release st h).map State.views = (run .debug st1 h).map State.views := by
  induction h with
  | nil => intro st st1 e; simp [run, e]
  | cons op h ih =>
    intro st st1 e
    cases op <;> simp only [run, step, e] <;> split <;> simp only [Option.bind_some, Option.bind_none] <;> first | exact ih _ _ rfl | rfl

end Verif.View
