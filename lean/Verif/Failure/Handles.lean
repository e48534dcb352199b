import Verif.Failure.Props

/-! # C97: handles are made once, and again if that failed -/
set_option linter.unusedSectionVars false
namespace Verif.Failure
variable {α β : Type}

def Hand (l : Lib) (m : G α) : Prop := ∀ w, ∃ cs, Handled l w (m w).2 cs

theorem Handled.same {l : Lib} {w w' : World} (h1 : w'.calls = w.calls) (h2 : w'.handles = w.handles) : Handled l w w' [] :=
  ⟨by simp [h1], by simp [h2], by simp⟩

theorem Handled.trans {l : Lib} {w w₁ w₂ : World} {cs ds : List Call} (h : Handled l w w₁ cs) (h' : Handled l w₁ w₂ ds) :
    Handled l w w₂ (cs ++ ds) where
  calls := by rw [h'.calls, h.calls, List.append_assoc]
  made := by have := h.made; have := h'.made; rw [List.countP_append]; omega
  there e c hc := by
    rcases List.mem_append.1 hc with hc | hc
    · exact h.there e c hc
    · refine h'.there ?_ c hc
      have := h.made
      rw [e] at this
      cases h1 : w₁.handles l
      · rw [h1] at this; simp at this
      · rfl

theorem Hand.pure {l : Lib} (a : α) : Hand l (pure a : G α) := fun _ => ⟨[], .same rfl rfl⟩

theorem Hand.look {l : Lib} (f : World → α) : Hand l (look f) := fun _ => ⟨[], .same rfl rfl⟩

theorem Hand.act {l : Lib} {f : World → World} (h : ∀ w, (f w).calls = w.calls ∧ (f w).handles = w.handles) : Hand l (act f) :=
  fun w => ⟨[], .same (h w).1 (h w).2⟩

theorem Hand.bind {l : Lib} {m : G α} {f : α → G β} (h : Hand l m) (h' : ∀ a, Hand l (f a)) : Hand l (m >>= f) := by
  intro w
  obtain ⟨cs, h1⟩ := h w
  rw [bind_def]
  rcases hm : m w with ⟨_ | a, w₁⟩ <;> rw [hm] at h1
  · exact ⟨cs, h1⟩
  · obtain ⟨ds, h2⟩ := h' a w₁
    exact ⟨cs ++ ds, h1.trans h2⟩

theorem call_world (l : Lib) (s : Site) (must : Nat) (w : World) :
    ∃ st, (call l s must w).2.calls = w.calls ++ [⟨l, st, s⟩] ∧ (call l s must w).2.handles = w.handles ∧
      ((call l s must w).1 = some st ∨ (call l s must w).1 = none ∧ st ≠ 0) := by
  refine ⟨if w.status w.calls.length = 0 then must else w.status w.calls.length, ?_⟩
  unfold Failure.call
  generalize (if w.status w.calls.length = 0 then must else w.status w.calls.length) = st
  by_cases h0 : st = 0
  · subst h0; simp
  · simp only [if_neg h0]
    rcases hb : w.build with _ | _ <;> simp [h0]

theorem Hand.call {l : Lib} (l' : Lib) (s : Site) (must : Nat) (h : s ≠ handleSite l) : Hand l (call l' s must) := by
  intro w
  obtain ⟨st, h1, h2, _⟩ := call_world l' s must w
  exact ⟨_, h1, by simp [h, h2], fun _ c hc => by simp at hc; subst hc; exact h⟩

theorem Hand.before {l : Lib} {m : G α} (h : Hand l m) (f : World → World) (hf : ∀ w, (f w).calls = w.calls ∧ (f w).handles = w.handles) :
    Hand l (fun w => m (f w)) := by
  intro w
  obtain ⟨cs, h1⟩ := h (f w)
  exact ⟨[] ++ cs, (Handled.same (hf w).1 (hf w).2).trans h1⟩

theorem Hand.sync {l : Lib} (s : Site) (h : s ≠ handleSite l) : Hand l (sync s) := fun w =>
  (Hand.bind (Hand.call .cuda s _ h) fun _ => Hand.pure ()).before
    (fun w => { w with pending := [], result := if w.pending.any fun p => p.2 && decide (w.outcome p.1 = Outcome.ok) then .dot else w.result })
    (fun _ => ⟨rfl, rfl⟩) w

theorem Hand.peek {l : Lib} (s : Site) (h : s ≠ handleSite l) : Hand l (peek s) := fun w =>
  (Hand.bind (Hand.call .cuda s _ h) fun _ => Hand.pure ()) w

theorem Hand.ite {l : Lib} {c : Prop} [Decidable c] {m m' : G α} (h : Hand l m) (h' : Hand l m') : Hand l (if c then m else m') := by
  split <;> assumption

theorem site_ne {l : Lib} {f : String} {n : Nat} (h : f ≠ "CUDAUtilities.cpp" ∨ (n ≠ 80 ∧ n ≠ 88)) : (⟨f, n⟩ : Site) ≠ handleSite l := by
  cases l <;> simp only [handleSite, ne_eq, Site.mk.injEq, not_and] <;> rcases h with h | h <;> grind

theorem Hand.endView {l : Lib} : Hand l endView :=
  .bind (.look _) fun b => by
    cases b
    · exact .bind (.sync _ (site_ne (by simp))) fun _ => .peek _ (site_ne (by simp))
    · exact .pure ()

theorem Hand.getHandle {l : Lib} (l' : Lib) (hl : l ≠ .cuda) (hl' : l' ≠ .cuda) : Hand l (getHandle l') := by
  by_cases he : l' = l
  · subst he
    intro w
    have hu : Failure.getHandle l' w = (if w.handles l' then (some true, w) else
        match Failure.call l' (handleSite l') 0 w with
        | (none, w') => (none, w')
        | (some st, w') => if st = 0 then (some true, { w' with handles := fun k => if k = l' then true else w'.handles k })
          else (some (w'.handles l'), w')) := by
      unfold Failure.getHandle
      rw [bind_def]
      simp only [Failure.look]
      cases hh : w.handles l'
      · simp only [Bool.false_eq_true, if_false]
        rw [bind_def]
        rcases Failure.call l' (handleSite l') 0 w with ⟨_ | st, w'⟩
        · rfl
        · by_cases hst : st = 0
          · simp only [hst, if_true, bind_def, Failure.act]; simp [Failure.look]
          · simp only [hst, if_false]; rfl
      · rfl
    rw [hu]
    cases hh : w.handles l'
    · obtain ⟨st, h1, h2, h3⟩ := call_world l' (handleSite l') 0 w
      refine ⟨[⟨l', st, handleSite l'⟩], ?_⟩
      rcases hc : Failure.call l' (handleSite l') 0 w with ⟨_ | st', w'⟩ <;> rw [hc] at h1 h2 h3 <;> simp only at h1 h2 h3
      · have h0 : st ≠ 0 := by simpa using h3
        exact ⟨by simpa using h1, by simp [Call.Bad, h0, h2, hh], by simp [hh]⟩
      · obtain rfl : st' = st := by simpa using h3
        by_cases h0 : st' = 0
        · subst h0
          exact ⟨by simpa using h1, by simp [Call.Bad, hh], by simp [hh]⟩
        · exact ⟨by simpa [h0] using h1, by simp [Call.Bad, h0, h2, hh], by simp [hh]⟩
    · exact ⟨[], by simp; exact .same rfl rfl⟩
  · have hs : handleSite l' ≠ handleSite l := by cases l <;> cases l' <;> simp_all [handleSite]
    intro w
    have key : Hand l (Failure.call l' (handleSite l') 0 >>= fun st => do
        if st = 0 then Failure.act (fun w => { w with handles := fun k => if k = l' then true else w.handles k })
        Failure.look (World.handles · l')) := by
      intro w
      obtain ⟨st, h1, h2, h3⟩ := call_world l' (handleSite l') 0 w
      refine ⟨[⟨l', st, handleSite l'⟩], ?_⟩
      have hne : ∀ k, (if l = l' then true else k) = k := fun k => if_neg (Ne.symm he)
      rw [bind_def]
      rcases hc : Failure.call l' (handleSite l') 0 w with ⟨_ | st', w'⟩ <;> rw [hc] at h1 h2 h3 <;> simp only at h1 h2 h3
      · exact ⟨by simpa using h1, by simp [hs, h2], by simp [hs]⟩
      · by_cases h0 : st' = 0
        · simp only [h0, if_true, bind_def, Failure.act, Failure.look]
          exact ⟨by simpa using h1, by simp [hs, hne, h2], by simp [hs]⟩
        · simp only [h0, if_false, Failure.look]
          exact ⟨by simpa [Pure.pure] using h1, by simp [hs, h2], by simp [hs]⟩
    exact (Hand.bind (.look _) fun b => .ite (.pure _) key) w

theorem Hand.setStream {l : Lib} (l' : Lib) (h : Bool) (s : Site) (hs : s ≠ handleSite l) : Hand l (setStream l' h s) :=
  .bind (.call _ _ _ hs) fun _ => .pure _

theorem Hand.use {l : Lib} (d : Option Nat) : Hand l (use d) := .act fun _ => ⟨rfl, rfl⟩

theorem Hand.work {l : Lib} (l' : Lib) (h : Bool) (s : Site) (b : Bool) (hs : s ≠ handleSite l) : Hand l (work l' h s b) :=
  .bind (.call _ _ _ hs) fun _ => .act fun w => by split <;> exact ⟨rfl, rfl⟩

theorem Hand.launch {l : Lib} : Hand l launch := .act fun w => by split <;> exact ⟨rfl, rfl⟩

theorem Hand.create {l : Lib} (s : Site) (hs : s ≠ handleSite l) : Hand l (create s) :=
  .bind (.call _ _ _ hs) fun _ => .ite (.bind (.look _) fun _ => .bind (.act fun _ => ⟨rfl, rfl⟩) fun _ => .pure _) (.pure _)

theorem Hand.destroy {l : Lib} (d : Option Nat) (s : Site) (hs : s ≠ handleSite l) : Hand l (destroy d s) :=
  .bind (.use d) fun _ => .bind (.call _ _ _ hs) fun _ => .act fun w => by split <;> exact ⟨rfl, rfl⟩

/-- Finds the parts of a task. -/
macro "hands" : tactic => `(tactic| repeat' first
  | with_reducible exact Hand.call _ _ _ (site_ne (by simp))
  | with_reducible exact Hand.getHandle _ (by assumption) (by simp)
  | with_reducible exact Hand.setStream _ _ _ (site_ne (by simp))
  | with_reducible exact Hand.work _ _ _ _ (site_ne (by simp))
  | with_reducible exact Hand.create _ (site_ne (by simp))
  | with_reducible exact Hand.destroy _ _ (site_ne (by simp))
  | with_reducible exact Hand.use _
  | with_reducible exact Hand.sync _ (site_ne (by simp))
  | with_reducible exact Hand.endView
  | with_reducible exact Hand.launch
  | with_reducible exact Hand.pure _
  | with_reducible exact Hand.look _
  | exact Hand.act fun _ => ⟨rfl, rfl⟩
  | with_reducible refine Hand.bind ?_ fun _ => ?_
  | with_reducible refine Hand.ite ?_ ?_)

theorem Hand.body {l : Lib} (hl : l ≠ .cuda) (t : Task) : Hand l t.body := by
  cases t with
  | scal e b => unfold Task.body Failure.scal; hands
  | axpy e b => unfold Task.body Failure.axpy; hands
  | xpay b => unfold Task.body Failure.xpay; hands
  | dot e b => unfold Task.body Failure.dot; hands
  | csrMatvec b => unfold Task.body Failure.csrMatvec; hands
  | cooMatvec b => unfold Task.body Failure.cooMatvec; hands
  | loadLibs => unfold Task.body Failure.loadLibs; hands

theorem Hand.runAll {l : Lib} (hl : l ≠ .cuda) (ts : List Task) : Hand l (runAll ts) := by
  induction ts with
  | nil => exact .pure _
  | cons t ts ih => exact .bind (.body hl t) fun _ => .bind ih fun _ => .pure _

/-- **C97.** Whatever tasks run on a GPU and whatever CUDA reports: a handle of cuBLAS or cuSPARSE is there afterwards exactly if it was before
or a call that makes it succeeded; only one such call ever succeeds, and none is made if the handle is there.  So a failure to make it is tried again,
and nothing is made twice. -/
theorem c97_handles (ts : List Task) (w : World) (l : Lib) (hl : l ≠ .cuda) : ∃ cs, Handled l w (runAll ts w).2 cs :=
  Hand.runAll hl ts w

end Verif.Failure
