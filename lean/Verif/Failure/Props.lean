import Verif.Failure.Spec
import Mathlib.Order.Basic
import Mathlib.Tactic.Push

/-! # C97: every failing call is reported; nothing else goes wrong unnoticed -/
set_option linter.unusedSectionVars false
namespace Verif.Failure
variable {α β : Type}

theorem bind_def (m : G α) (f : α → G β) (w : World) :
    (m >>= f) w = match m w with | (none, w') => (none, w') | (some a, w') => f a w' := rfl

/-! ## Reports -/

/-- What holds of every part of a task. -/
structure Rep (w w' : World) (some? : Bool) (cs : List Call) : Prop where
  made : Made w w' cs
  build : w'.build = w.build
  status : w'.status = w.status
  outcome : w'.outcome = w.outcome
  good : some? = true → w.build = .debug → ∀ c ∈ cs, ¬c.Bad
  bad : some? = false → w.build = .debug ∧ ∃ cs' c, cs = cs' ++ [c] ∧ (∀ c ∈ cs', ¬c.Bad) ∧ c.Bad

def Reports (m : G α) : Prop := ∀ w, ∃ cs, Rep w (m w).2 (m w).1.isSome cs

/-- A world that differs in nothing `Rep` speaks about. -/
theorem Rep.same {w w' : World} (h1 : w'.calls = w.calls) (h2 : w'.lines = w.lines) (h3 : w'.build = w.build) (h4 : w'.status = w.status)
    (h5 : w'.outcome = w.outcome) : Rep w w' true [] :=
  ⟨⟨by simp [h1], by simp [h2]⟩, h3, h4, h5, by simp, by simp⟩

theorem Rep.trans {w w₁ w₂ : World} {b : Bool} {cs ds : List Call} (h : Rep w w₁ true cs) (h' : Rep w₁ w₂ b ds) : Rep w w₂ b (cs ++ ds) where
  made := ⟨by rw [h'.made.1, h.made.1, List.append_assoc], by rw [h'.made.2, h.made.2, List.filter_append, List.append_assoc]⟩
  build := h'.build.trans h.build
  status := h'.status.trans h.status
  outcome := h'.outcome.trans h.outcome
  good e hb c hc := by
    rcases List.mem_append.1 hc with hc | hc
    · exact h.good rfl hb c hc
    · exact h'.good e (h.build.trans hb) c hc
  bad e := by
    obtain ⟨hb, cs', c, rfl, hg, hc⟩ := h'.bad e
    have hb : w.build = .debug := h.build ▸ hb
    refine ⟨hb, cs ++ cs', c, (List.append_assoc ..).symm, fun d hd => ?_, hc⟩
    rcases List.mem_append.1 hd with hd | hd
    · exact h.good rfl hb d hd
    · exact hg d hd

theorem Reports.pure (a : α) : Reports (pure a : G α) := fun _ => ⟨[], .same rfl rfl rfl rfl rfl⟩

theorem Reports.look (f : World → α) : Reports (look f) := fun _ => ⟨[], .same rfl rfl rfl rfl rfl⟩

theorem Reports.act {f : World → World}
    (h : ∀ w, (f w).calls = w.calls ∧ (f w).lines = w.lines ∧ (f w).build = w.build ∧ (f w).status = w.status ∧ (f w).outcome = w.outcome) :
    Reports (act f) := fun w => ⟨[], .same (h w).1 (h w).2.1 (h w).2.2.1 (h w).2.2.2.1 (h w).2.2.2.2⟩

theorem Reports.bind {m : G α} {f : α → G β} (h : Reports m) (h' : ∀ a, Reports (f a)) : Reports (m >>= f) := by
  intro w
  obtain ⟨cs, h1⟩ := h w
  rw [bind_def]
  rcases hm : m w with ⟨_ | a, w₁⟩ <;> rw [hm] at h1
  · exact ⟨cs, h1⟩
  · obtain ⟨ds, h2⟩ := h' a w₁
    exact ⟨cs ++ ds, h1.trans h2⟩

theorem Reports.call (l : Lib) (s : Site) (must : Nat) : Reports (call l s must) := by
  intro w
  refine ⟨[⟨l, if w.status w.calls.length = 0 then must else w.status w.calls.length, s⟩], ?_⟩
  unfold Failure.call
  generalize hst : (if w.status w.calls.length = 0 then must else w.status w.calls.length) = st
  by_cases h0 : st = 0
  · subst h0
    simp only [if_true]
    exact ⟨⟨rfl, by simp [Call.Bad]⟩, rfl, rfl, rfl, fun _ _ c hc => by simp at hc; subst hc; simp [Call.Bad], by simp⟩
  · have hbad : (⟨l, st, s⟩ : Call).Bad := h0
    simp only [if_neg h0]
    rcases hb : w.build with _ | _ <;> simp only
    · exact ⟨⟨rfl, by simp [hbad]⟩, hb.symm, rfl, rfl, by simp, fun _ => ⟨hb, [], _, rfl, by simp, hbad⟩⟩
    · exact ⟨⟨rfl, by simp [hbad]⟩, hb.symm, rfl, rfl, fun _ e => (by rw [hb] at e; cases e), by simp⟩

/-- Changing the world beforehand. -/
theorem Reports.before {m : G α} (h : Reports m) (f : World → World)
    (hf : ∀ w, (f w).calls = w.calls ∧ (f w).lines = w.lines ∧ (f w).build = w.build ∧ (f w).status = w.status ∧ (f w).outcome = w.outcome) :
    Reports (fun w => m (f w)) := by
  intro w
  obtain ⟨cs, h1⟩ := h (f w)
  exact ⟨[] ++ cs, (Rep.same (hf w).1 (hf w).2.1 (hf w).2.2.1 (hf w).2.2.2.1 (hf w).2.2.2.2).trans h1⟩

theorem Reports.sync (s : Site) : Reports (sync s) := fun w =>
  (Reports.bind (Reports.call .cuda s _) fun _ => Reports.pure ()).before
    (fun w => { w with pending := [], result := if w.pending.any fun p => p.2 && decide (w.outcome p.1 = Outcome.ok) then .dot else w.result })
    (fun _ => ⟨rfl, rfl, rfl, rfl, rfl⟩) w

theorem Reports.peek (s : Site) : Reports (peek s) := fun w => (Reports.bind (Reports.call .cuda s _) fun _ => Reports.pure ()) w

theorem Reports.ite {c : Prop} [Decidable c] {m m' : G α} (h : Reports m) (h' : Reports m') : Reports (if c then m else m') := by
  split <;> assumption

theorem Reports.endView : Reports endView :=
  .bind (.look _) fun b => by
    cases b
    · exact .bind (.sync _) fun _ => .peek _
    · exact .pure ()

theorem Reports.getHandle (l : Lib) : Reports (getHandle l) :=
  .bind (.look _) fun b => .ite (.pure _) (.bind (.call _ _ _) fun st => by
    split
    · exact .bind (.act fun _ => ⟨rfl, rfl, rfl, rfl, rfl⟩) fun _ => .look _
    · exact .look _)

theorem Reports.setStream (l : Lib) (h : Bool) (s : Site) : Reports (setStream l h s) := .bind (.call _ _ _) fun _ => .pure _

theorem Reports.use (d : Option Nat) : Reports (use d) := .act fun _ => ⟨rfl, rfl, rfl, rfl, rfl⟩

theorem Reports.work (l : Lib) (h : Bool) (s : Site) (b : Bool) : Reports (work l h s b) :=
  .bind (.call _ _ _) fun _ => .act fun w => by split <;> exact ⟨rfl, rfl, rfl, rfl, rfl⟩

theorem Reports.launch : Reports launch := .act fun w => by split <;> exact ⟨rfl, rfl, rfl, rfl, rfl⟩

theorem Reports.create (s : Site) : Reports (create s) :=
  .bind (.call _ _ _) fun _ => .ite (.bind (.look _) fun _ => .bind (.act fun _ => ⟨rfl, rfl, rfl, rfl, rfl⟩) fun _ => .pure _) (.pure _)

theorem Reports.destroy (d : Option Nat) (s : Site) : Reports (destroy d s) :=
  .bind (.use d) fun _ => .bind (.call _ _ _) fun _ => .act fun w => by split <;> exact ⟨rfl, rfl, rfl, rfl, rfl⟩

/-- Finds the parts of a task. -/
macro "reports" : tactic => `(tactic| repeat' first
  | with_reducible exact Reports.call _ _ _
  | with_reducible exact Reports.getHandle _
  | with_reducible exact Reports.setStream _ _ _
  | with_reducible exact Reports.work _ _ _ _
  | with_reducible exact Reports.create _
  | with_reducible exact Reports.destroy _ _
  | with_reducible exact Reports.use _
  | with_reducible exact Reports.sync _
  | with_reducible exact Reports.endView
  | with_reducible exact Reports.launch
  | with_reducible exact Reports.pure _
  | with_reducible exact Reports.look _
  | exact Reports.act fun _ => ⟨rfl, rfl, rfl, rfl, rfl⟩
  | with_reducible refine Reports.bind ?_ fun _ => ?_
  | with_reducible refine Reports.ite ?_ ?_)

theorem Reports.scal (e : Entry) (b : Bool) : Reports (scal e b) := by unfold Failure.scal; reports
theorem Reports.axpy (e : Entry) (b : Bool) : Reports (axpy e b) := by unfold Failure.axpy; reports
theorem Reports.xpay (b : Bool) : Reports (xpay b) := by unfold Failure.xpay; reports
theorem Reports.dot (e : Entry) (b : Bool) : Reports (dot e b) := by unfold Failure.dot; reports
theorem Reports.csrMatvec (b : Bool) : Reports (csrMatvec b) := by unfold Failure.csrMatvec; reports
theorem Reports.cooMatvec (b : Bool) : Reports (cooMatvec b) := by unfold Failure.cooMatvec; reports
theorem Reports.loadLibs : Reports loadLibs := by unfold Failure.loadLibs; reports

theorem Reports.body (t : Task) : Reports t.body := by
  cases t with
  | scal e b => exact .bind (.scal e b) fun _ => .pure _
  | axpy e b => exact .bind (.axpy e b) fun _ => .pure _
  | xpay b => exact .bind (.xpay b) fun _ => .pure _
  | dot e b => exact .bind (.dot e b) fun _ => .pure _
  | csrMatvec b => exact .bind (.csrMatvec b) fun _ => .pure _
  | cooMatvec b => exact .bind (.cooMatvec b) fun _ => .pure _
  | loadLibs => exact .bind .loadLibs fun _ => .pure _

theorem Reports.runAll (ts : List Task) : Reports (runAll ts) := by
  induction ts with
  | nil => exact .pure _
  | cons t ts ih => exact .bind (.body t) fun _ => .bind ih fun _ => .pure _

/-! ## Without a line printed -/

/-- If nothing is printed, `P` before implies `Q` afterwards. -/
def Quiet (m : G α) (P : World → Prop) (Q : α → World → Prop) : Prop :=
  ∀ w a w', m w = (some a, w') → w'.lines = w.lines → P w → Q a w'

theorem Reports.lines {m : G α} (h : Reports m) {w : World} : ∃ l, (m w).2.lines = w.lines ++ l :=
  let ⟨_, h⟩ := h w; ⟨_, h.made.2⟩

theorem Quiet.bind {m : G α} {f : α → G β} {P : World → Prop} {R : α → World → Prop} {Q : β → World → Prop} (hm : Reports m)
    (hf : ∀ a, Reports (f a)) (h : Quiet m P R) (h' : ∀ a, Quiet (f a) (R a) Q) : Quiet (m >>= f) P Q := by
  intro w b w' e hl hP
  rw [bind_def] at e
  rcases h1 : m w with ⟨_ | a, w₁⟩ <;> rw [h1] at e
  · cases e
  · have e : f a w₁ = (some b, w') := e
    obtain ⟨l1, e1⟩ := hm.lines (w := w)
    obtain ⟨l2, e2⟩ := (hf a).lines (w := w₁)
    rw [h1] at e1
    rw [e] at e2
    simp only at e1 e2
    have hl1 : l1 = [] ∧ l2 = [] := by
      rw [e2, e1, List.append_assoc] at hl
      exact List.append_eq_nil_iff.1 (List.append_right_eq_self.1 hl)
    obtain ⟨rfl, rfl⟩ := hl1
    exact h' a _ _ _ e (by simpa using e2) (h _ _ _ h1 (by simpa using e1) hP)

theorem Quiet.pure (a : α) {P : World → Prop} : Quiet (pure a : G α) P (fun b w => b = a ∧ P w) := by
  intro w b w' e _ hP
  obtain ⟨h1, rfl⟩ := Prod.mk.inj e
  exact ⟨(Option.some.inj h1).symm, hP⟩

theorem Quiet.look (f : World → α) {P : World → Prop} : Quiet (look f) P (fun b w => b = f w ∧ P w) := by
  intro w b w' e _ hP
  obtain ⟨h1, rfl⟩ := Prod.mk.inj e
  exact ⟨(Option.some.inj h1).symm, hP⟩

theorem Quiet.act {f : World → World} {P Q : World → Prop} (h : ∀ w, P w → Q (f w)) : Quiet (act f) P (fun _ w => Q w) := by
  intro w b w' e _ hP
  obtain ⟨-, rfl⟩ := Prod.mk.inj e
  exact h w hP

theorem Quiet.mono {m : G α} {P P' : World → Prop} {Q Q' : α → World → Prop} (h : Quiet m P Q) (hP : ∀ w, P' w → P w)
    (hQ : ∀ a w, Q a w → Q' a w) : Quiet m P' Q' := fun w a w' e hl hp => hQ _ _ (h w a w' e hl (hP w hp))

/-- A call after which nothing was printed succeeded. -/
theorem call_quiet (l : Lib) (s : Site) (must : Nat) {w : World} {a : Nat} {w' : World} (e : call l s must w = (some a, w'))
    (hl : w'.lines = w.lines) : a = 0 ∧ must = 0 ∧ w' = { w with calls := w.calls ++ [⟨l, 0, s⟩] } := by
  unfold call at e
  by_cases h0 : (if w.status w.calls.length = 0 then must else w.status w.calls.length) = 0
  · simp only [h0, if_true] at e
    obtain ⟨h1, rfl⟩ := Prod.mk.inj e
    refine ⟨(Option.some.inj h1).symm, ?_, rfl⟩
    split at h0
    · exact h0
    · exact absurd h0 ‹_›
  · simp only [if_neg h0] at e
    cases hb : w.build <;> simp only [hb] at e
    · cases (Prod.mk.inj e).1
    · obtain ⟨-, rfl⟩ := Prod.mk.inj e
      simp at hl

theorem Quiet.call (l : Lib) (s : Site) (must : Nat) {P : World → Prop} (h : ∀ w cs, P w → P { w with calls := cs }) :
    Quiet (call l s must) P (fun a w => a = 0 ∧ must = 0 ∧ P w) := by
  intro w a w' e hl hP
  obtain ⟨h1, h2, rfl⟩ := call_quiet l s must e hl
  exact ⟨h1, h2, h w _ hP⟩

/-- What holds inside a task begun in world `w₀`, with descriptors `l` alive and `n` made. -/
structure In (w₀ : World) (l : List Nat) (n : Nat) (w : World) : Prop where
  live : w.live = l
  made : w.made = n
  misused : w.misused = false
  build : w.build = w₀.build
  outcome : w.outcome = w₀.outcome
  more : w₀.launched ≤ w.launched
  known : ∀ i, w₀.launched ≤ i → i < w.launched → w₀.outcome i = .ok ∨ (∃ b, (i, b) ∈ w.pending) ∨ w.lastError = true

variable {w₀ : World} {l : List Nat} {n : Nat}

theorem In.calls {w : World} (h : In w₀ l n w) (cs : List Call) : In w₀ l n { w with calls := cs } :=
  ⟨h.live, h.made, h.misused, h.build, h.outcome, h.more, h.known⟩

theorem Quiet.callIn (lib : Lib) (s : Site) (must : Nat) : Quiet (Failure.call lib s must) (In w₀ l n) (fun _ => In w₀ l n) :=
  (Quiet.call lib s must fun _ cs h => h.calls cs).mono (fun _ h => h) fun _ _ h => h.2.2

theorem Quiet.setStream (lib : Lib) (h : Bool) (s : Site) : Quiet (setStream lib h s) (In w₀ l n) (fun _ => In w₀ l n) :=
  .bind (.call _ _ _) (fun _ => .pure _) (.callIn _ _ _) fun _ => (Quiet.pure _).mono (fun _ h => h) fun _ _ h => h.2

theorem Quiet.getHandle (lib : Lib) {P : World → Prop} (h1 : ∀ w cs, P w → P { w with calls := cs })
    (h2 : ∀ w hs, P w → P { w with handles := hs }) : Quiet (getHandle lib) P (fun _ => P) := by
  have hl : Quiet (Failure.look (World.handles · lib)) P (fun _ => P) := (Quiet.look _).mono (fun _ h => h) fun _ _ h => h.2
  unfold Failure.getHandle
  refine .bind (.look _) (fun b => ?_) hl fun b => ?_
  · exact .ite (.pure _) (.bind (.call _ _ _) fun st => by
      split
      · exact .bind (.act fun _ => ⟨rfl, rfl, rfl, rfl, rfl⟩) fun _ => .look _
      · exact .look _)
  · split
    · exact (Quiet.pure _).mono (fun _ h => h) fun _ _ h => h.2
    · refine .bind (.call _ _ _) (fun st => ?_) ((Quiet.call lib _ _ h1).mono (fun _ h => h) fun _ _ h => h.2.2) fun st => ?_
      · split
        · exact .bind (.act fun _ => ⟨rfl, rfl, rfl, rfl, rfl⟩) fun _ => .look _
        · exact .look _
      · split
        · exact .bind (.act fun _ => ⟨rfl, rfl, rfl, rfl, rfl⟩) (fun _ => .look _) (Quiet.act (Q := P) fun w h => h2 w _ h) fun _ => hl
        · exact hl

theorem Quiet.getHandleIn (lib : Lib) : Quiet (Failure.getHandle lib) (In w₀ l n) (fun _ => In w₀ l n) :=
  .getHandle lib (fun _ _ h => h.calls _) fun _ _ h => ⟨h.live, h.made, h.misused, h.build, h.outcome, h.more, h.known⟩

theorem Quiet.use {d : Nat} (hd : d ∈ l) : Quiet (use (some d)) (In w₀ l n) (fun _ => In w₀ l n) :=
  Quiet.act fun w h => ⟨h.live, h.made, by simp [h.misused, h.live, hd], h.build, h.outcome, h.more, h.known⟩

theorem In.launched {w : World} (h : In w₀ l n w) (b : Bool) :
    In w₀ l n { w with launched := w.launched + 1, pending := w.pending ++ [(w.launched, b)] } where
  live := h.live
  made := h.made
  misused := h.misused
  build := h.build
  outcome := h.outcome
  more := Nat.le_succ_of_le h.more
  known i h1 h2 := by
    rcases Nat.lt_succ_iff_lt_or_eq.1 h2 with h2 | rfl
    · rcases h.known i h1 h2 with h | ⟨b, h⟩ | h
      · exact .inl h
      · exact .inr (.inl ⟨b, List.mem_append_left _ h⟩)
      · exact .inr (.inr h)
    · exact .inr (.inl ⟨b, by simp⟩)

theorem Quiet.work (lib : Lib) (h : Bool) (s : Site) (b : Bool) : Quiet (work lib h s b) (In w₀ l n)
    (fun _ w => In w₀ l n w ∧ (b = true → ∃ i, (i, true) ∈ w.pending)) := by
  refine .bind (.call _ _ _) (fun _ => .act fun w => by split <;> exact ⟨rfl, rfl, rfl, rfl, rfl⟩)
    (Quiet.call lib s _ fun _ cs h => h.calls cs) fun st => ?_
  refine Quiet.act fun w hw => ?_
  obtain ⟨h0, -, hw⟩ := hw
  rw [if_pos h0]
  exact ⟨hw.launched b, fun e => ⟨w.launched, by simp [e]⟩⟩

theorem Quiet.launch : Quiet launch (In w₀ l n) (fun _ => In w₀ l n) := by
  refine Quiet.act fun w h => ?_
  split
  · exact ⟨h.live, h.made, h.misused, h.build, h.outcome, Nat.le_succ_of_le h.more, fun _ _ _ => .inr (.inr rfl)⟩
  · exact h.launched false

theorem Quiet.create (s : Site) : Quiet (create s) (In w₀ l n) (fun d w => d = some n ∧ In w₀ (l ++ [n]) (n + 1) w) := by
  unfold Failure.create
  refine .bind (.call _ _ _) (fun st => ?_) (Quiet.call .sparse s _ fun _ cs h => h.calls cs) fun st => ?_
  · exact .ite (.bind (.look _) fun _ => .bind (.act fun _ => ⟨rfl, rfl, rfl, rfl, rfl⟩) fun _ => .pure _) (.pure _)
  · split
    · refine .bind (.look _) (fun _ => .bind (.act fun _ => ⟨rfl, rfl, rfl, rfl, rfl⟩) fun _ => .pure _)
        ((Quiet.look (P := In w₀ l n) _).mono (fun _ h => h.2.2) fun _ _ h => h) fun d => ?_
      refine .bind (.act fun _ => ⟨rfl, rfl, rfl, rfl, rfl⟩) (fun _ => .pure _)
        (Quiet.act (Q := fun w => d = n ∧ In w₀ (l ++ [n]) (n + 1) w) fun w h => ?_) fun _ => ?_
      · obtain ⟨rfl, h⟩ := h
        exact ⟨h.made, ⟨by rw [h.live, h.made], by rw [h.made], h.misused, h.build, h.outcome, h.more, h.known⟩⟩
      · refine (Quiet.pure _).mono (fun _ h => h) fun a w h => ⟨?_, h.2.2⟩
        rw [h.1, h.2.1]
    · next h0 => exact fun w a w' _ _ h => absurd h.1 h0

theorem Quiet.destroy {d : Nat} (hd : d ∈ l) (s : Site) :
    Quiet (destroy (some d) s) (In w₀ l n) (fun _ => In w₀ (l.filter fun k => decide (k ≠ d)) n) := by
  unfold Failure.destroy
  refine .bind (.use _) (fun _ => .bind (.call _ _ _) fun _ => .act fun w => by split <;> exact ⟨rfl, rfl, rfl, rfl, rfl⟩) (.use hd) fun _ => ?_
  refine .bind (.call _ _ _) (fun _ => .act fun w => by split <;> exact ⟨rfl, rfl, rfl, rfl, rfl⟩)
    (Quiet.call .sparse s _ fun _ cs h => h.calls cs) fun st => ?_
  refine Quiet.act fun w hw => ?_
  obtain ⟨h0, -, h⟩ := hw
  rw [if_pos h0]
  exact ⟨by simp [h.live], h.made, h.misused, h.build, h.outcome, h.more, h.known⟩

/-- After waiting without complaint. -/
structure Waited (w₀ : World) (l : List Nat) (n : Nat) (w : World) : Prop extends In w₀ l n w where
  nothing : w.pending = []

theorem sync_quiet (s : Site) {w : World} {a : Unit} {w' : World} (e : sync s w = (some a, w')) (hl : w'.lines = w.lines) (h : In w₀ l n w) :
    Waited w₀ l n w' ∧ ∀ i, (i, true) ∈ w.pending → w'.result = .dot := by
  unfold sync at e
  rw [bind_def] at e
  rcases h1 : call .cuda s (if w.pending.any fun p => decide (w.outcome p.1 ≠ Outcome.ok) then 719 else 0)
      { w with pending := [], result := if w.pending.any fun p => p.2 && decide (w.outcome p.1 = Outcome.ok) then .dot else w.result }
    with ⟨_ | st, w₁⟩ <;> rw [h1] at e
  · cases e
  · obtain ⟨-, rfl⟩ := Prod.mk.inj e
    obtain ⟨-, h2, rfl⟩ := call_quiet _ _ _ h1 hl
    have hall : ∀ p ∈ w.pending, w.outcome p.1 = .ok := by
      intro p hp
      by_contra hc
      rw [if_pos (List.any_eq_true.2 ⟨p, hp, by simpa using hc⟩)] at h2
      cases h2
    refine ⟨⟨⟨h.live, h.made, h.misused, h.build, h.outcome, h.more, fun i hi hj => ?_⟩, rfl⟩, fun i hi => ?_⟩
    · rcases h.known i hi hj with h3 | ⟨b, h3⟩ | h3
      · exact .inl h3
      · exact .inl (h.outcome ▸ hall _ h3)
      · exact .inr (.inr h3)
    · exact if_pos (List.any_eq_true.2 ⟨_, hi, by simp [hall _ hi]⟩)

theorem Quiet.sync (s : Site) : Quiet (sync s) (In w₀ l n) (fun _ => Waited w₀ l n) := fun _ _ _ e hl h => (sync_quiet s e hl h).1

theorem Quiet.peek (s : Site) {r : Value → Prop} : Quiet (peek s) (fun w => Waited w₀ l n w ∧ r w.result)
    (fun _ w => Waited w₀ l n w ∧ r w.result ∧ w.lastError = false) := by
  intro w a w' e hl ⟨h, hr⟩
  unfold Failure.peek at e
  rw [bind_def] at e
  rcases h1 : Failure.call .cuda s (if w.lastError then 98 else 0) w with ⟨_ | st, w₁⟩ <;> rw [h1] at e
  · cases e
  · obtain ⟨-, rfl⟩ := Prod.mk.inj e
    obtain ⟨-, h2, rfl⟩ := call_quiet _ _ _ h1 hl
    refine ⟨⟨h.toIn.calls _, h.nothing⟩, hr, ?_⟩
    cases hb : w.lastError
    · rfl
    · rw [hb] at h2; cases h2

/-- At the end of a task. -/
structure End (w₀ : World) (l : List Nat) (n : Nat) (w : World) : Prop where
  live : w.live = l
  made : w.made = n
  misused : w.misused = false
  more : w₀.launched ≤ w.launched
  done : w₀.build = .debug → AllDone w₀ w

theorem Quiet.endView : Quiet endView (In w₀ l n) (fun _ => End w₀ l n) := by
  unfold Failure.endView
  refine .bind (.look _) (fun b => ?_) (Quiet.look (P := In w₀ l n) World.build) fun b => ?_
  · cases b
    · exact .bind (.sync _) fun _ => .peek _
    · exact Reports.pure ()
  · cases b
    · refine .bind (.sync _) (fun _ => .peek _) ((Quiet.sync _).mono (fun _ h => h.2) fun _ w h => (⟨h, trivial⟩ : _ ∧ True)) fun _ => ?_
      refine (Quiet.peek (w₀ := w₀) (l := l) (n := n) _ (r := fun _ => True)).mono (fun _ h => h) fun _ w h => ?_
      refine ⟨h.1.live, h.1.made, h.1.misused, h.1.more, fun _ => ⟨h.1.nothing, fun i h1 h2 => ?_⟩⟩
      rcases h.1.known i h1 h2 with h3 | ⟨b, h3⟩ | h3
      · exact h3
      · rw [h.1.nothing] at h3; cases h3
      · rw [h.2.2] at h3; cases h3
    · refine (Quiet.pure ()).mono (fun _ h => h) fun _ w h => ?_
      have h := h.2
      refine ⟨h.2.live, h.2.made, h.2.misused, h.2.more, fun e => ?_⟩
      have := h.1
      rw [h.2.build, e] at this
      cases this

/-! ## The tasks -/

theorem Quiet.const {m : G α} {P : World → Prop} {Q : α → World → Prop} (c : Prop) (h : Quiet m P Q) :
    Quiet m (fun w => c ∧ P w) (fun a w => c ∧ Q a w) := fun w a w' e hl hp => ⟨hp.1, h w a w' e hl hp.2⟩

theorem Quiet.workIn (lib : Lib) (h : Bool) (s : Site) (b : Bool) : Quiet (Failure.work lib h s b) (In w₀ l n) (fun _ => In w₀ l n) :=
  (Quiet.work lib h s b).mono (fun _ h => h) fun _ _ h => h.1

/-- The world before a task. -/
structure Ready (w : World) : Prop where
  live : ∀ d ∈ w.live, d < w.made
  misused : w.misused = false
  pending : w.build = .debug → w.pending = []

theorem Ready.in (h : Ready w₀) : In w₀ w₀.live w₀.made w₀ :=
  ⟨rfl, rfl, h.misused, rfl, rfl, Nat.le_refl _, fun i h1 h2 => absurd h2 (by omega)⟩

/-- A task that does nothing. -/
theorem Quiet.nothing (h : Ready w₀) : Quiet (Pure.pure () : G Unit) (· = w₀) (fun _ => End w₀ w₀.live w₀.made) := by
  refine (Quiet.pure ()).mono (fun _ h => h) fun _ w e => ?_
  obtain ⟨-, rfl⟩ := e
  exact ⟨rfl, rfl, h.misused, Nat.le_refl _, fun hb => ⟨h.pending hb, fun i h1 h2 => absurd h2 (by omega)⟩⟩

theorem Quiet.scal (e : Entry) (b : Bool) : Quiet (scal e b) (In w₀ l n) (fun _ => End w₀ l n) := by
  unfold Failure.scal
  refine .bind (.getHandle _) (fun _ => by reports) (.getHandleIn _) fun h => .bind (.setStream _ _ _) (fun _ => by reports) (.setStream _ _ _) fun _ => ?_
  split
  · exact .endView
  · exact .bind (.work _ _ _ _) (fun _ => .endView) (.workIn _ _ _ _) fun _ => .endView

theorem Quiet.axpy (e : Entry) (b : Bool) : Quiet (axpy e b) (In w₀ l n) (fun _ => End w₀ l n) := by
  unfold Failure.axpy
  refine .bind (.getHandle _) (fun _ => by reports) (.getHandleIn _) fun h => .bind (.setStream _ _ _) (fun _ => by reports) (.setStream _ _ _) fun _ => ?_
  split
  · exact .endView
  · exact .bind (.work _ _ _ _) (fun _ => .endView) (.workIn _ _ _ _) fun _ => .endView

theorem Quiet.xpay (h : Ready w₀) (b : Bool) : Quiet (xpay b) (· = w₀) (fun _ => End w₀ w₀.live w₀.made) := by
  unfold Failure.xpay
  split
  · exact .nothing h
  · exact .bind .launch (fun _ => .endView) (Quiet.launch.mono (fun _ e => e ▸ h.in) fun _ _ h => h) fun _ => .endView

theorem In.result {w : World} (h : In w₀ l n w) (v : Value) : In w₀ l n { w with result := v } :=
  ⟨h.live, h.made, h.misused, h.build, h.outcome, h.more, h.known⟩

theorem Quiet.dot (e : Entry) (b : Bool) : Quiet (dot e b) (In w₀ l n)
    (fun v w => v = (if b then Value.zero else Value.dot) ∧ End w₀ l n w) := by
  unfold Failure.dot
  refine .bind (.getHandle _) (fun _ => by reports) (.getHandleIn _) fun h => .bind (.setStream _ _ _) (fun _ => by reports) (.setStream _ _ _) fun _ => ?_
  refine .bind (.act fun _ => ⟨rfl, rfl, rfl, rfl, rfl⟩) (fun _ => by reports)
    (Quiet.act (Q := fun w => w.result = .zero ∧ In w₀ l n w) fun w h => ⟨rfl, h.result _⟩) fun _ => ?_
  have last (v : Value) : Quiet (do
        let r ← Failure.look World.result
        Failure.endView
        Pure.pure r) (fun w => w.result = v ∧ In w₀ l n w) (fun a w => a = v ∧ End w₀ l n w) := by
    refine .bind (.look _) (fun _ => by reports) (Quiet.look _) fun r => ?_
    refine .bind .endView (fun _ => .pure _) ((Quiet.endView.const (r = v)).mono (fun w h => ⟨h.1.trans h.2.1, h.2.2⟩) fun _ _ h => h) fun _ => ?_
    exact (Quiet.pure r).mono (fun _ h => h) fun a w h => ⟨h.1.trans h.2.1, h.2.2⟩
  cases b
  · refine .bind (.act fun _ => ⟨rfl, rfl, rfl, rfl, rfl⟩) (fun _ => by reports) (Quiet.act (Q := In w₀ l n) fun w h => h.2.result _) fun _ => ?_
    refine .bind (.work _ _ _ _) (fun _ => by reports) (.work _ _ _ _) fun _ => ?_
    refine .bind (.sync _) (fun _ => by reports) (?_ : Quiet _ _ fun _ w => w.result = .dot ∧ In w₀ l n w) fun _ => last _
    intro w a w' e hl hw
    obtain ⟨i, hi⟩ := hw.2 rfl
    obtain ⟨h1, h2⟩ := sync_quiet _ e hl hw.1
    exact ⟨h2 i hi, h1.toIn⟩
  · exact last _

/-- The common part of the two matrix products: two vectors and a matrix are described, used and destroyed. -/
theorem filter_away (hl : ∀ d ∈ l, d < n) : ((((l ++ [n]) ++ [n + 1]) ++ [n + 2]).filter (fun k => decide (k ≠ n + 1)) |>.filter
    (fun k => decide (k ≠ n + 2)) |>.filter (fun k => decide (k ≠ n))) = l := by
  have : ∀ k ∈ l, k ≠ n ∧ k ≠ n + 1 ∧ k ≠ n + 2 := fun k hk => by have := hl k hk; omega
  simp only [List.filter_append, List.filter_filter]
  simp
  exact fun k hk => by have := this k hk; omega

theorem Quiet.csrMatvec (h : Ready w₀) (b : Bool) : Quiet (csrMatvec b) (· = w₀)
    (fun _ w => End w₀ w₀.live (if b then w₀.made else w₀.made + 3) w) := by
  unfold Failure.csrMatvec
  cases b
  · refine Quiet.mono (P := In w₀ w₀.live w₀.made) (Q := fun _ => End w₀ w₀.live (w₀.made + 3)) ?_ (fun _ e => e ▸ h.in) fun _ _ h => h
    refine .bind (.getHandle _) (fun _ => by reports) (.getHandleIn _) fun hd => .bind (.setStream _ _ _) (fun _ => by reports) (.setStream _ _ _) fun _ => ?_
    refine .bind .launch (fun _ => by reports) .launch fun _ => ?_
    refine .bind (.create _) (fun _ => by reports) (.create _) fun a => ?_
    refine .bind (.create _) (fun _ => by reports) ((Quiet.create _).const (a = some w₀.made)) fun x => ?_
    refine .bind (.create _) (fun _ => by reports)
      (((Quiet.create _).const (a = some w₀.made ∧ x = some (w₀.made + 1))).mono (fun _ h => ⟨⟨h.1, h.2.1⟩, h.2.2⟩) fun _ _ h => h) fun y => ?_
    by_cases hc : a = some w₀.made ∧ x = some (w₀.made + 1) ∧ y = some (w₀.made + 2)
    · obtain ⟨rfl, rfl, rfl⟩ := hc
      refine Quiet.mono (P := In w₀ (((w₀.live ++ [w₀.made]) ++ [w₀.made + 1]) ++ [w₀.made + 2]) (w₀.made + 3)) ?_ (fun _ h => h.2.2) fun _ _ h => h
      refine .bind (.use _) (fun _ => by reports) (.use (by simp)) fun _ => ?_
      refine .bind (.use _) (fun _ => by reports) (.use (by simp)) fun _ => ?_
      refine .bind (.use _) (fun _ => by reports) (.use (by simp)) fun _ => ?_
      refine .bind (.call _ _ _) (fun _ => by reports) (.callIn _ _ _) fun _ => ?_
      refine .bind (.use _) (fun _ => by reports) (.use (by simp)) fun _ => ?_
      refine .bind (.use _) (fun _ => by reports) (.use (by simp)) fun _ => ?_
      refine .bind (.use _) (fun _ => by reports) (.use (by simp)) fun _ => ?_
      refine .bind (.work _ _ _ _) (fun _ => by reports) (.workIn _ _ _ _) fun _ => ?_
      refine .bind (.destroy _ _) (fun _ => by reports) (.destroy (by simp) _) fun _ => ?_
      refine .bind (.destroy _ _) (fun _ => by reports) (.destroy (by simp) _) fun _ => ?_
      refine .bind (.destroy _ _) (fun _ => by reports) (.destroy (by simp) _) fun _ => ?_
      rw [filter_away h.live]
      exact .endView
    · exact fun w _ _ _ _ h => absurd ⟨h.1.1, h.1.2, h.2.1⟩ hc
  · exact .nothing h

theorem Quiet.cooMatvec (h : Ready w₀) (b : Bool) : Quiet (cooMatvec b) (In w₀ w₀.live w₀.made)
    (fun _ w => End w₀ w₀.live (if b then w₀.made else w₀.made + 3) w) := by
  unfold Failure.cooMatvec
  refine .bind (.getHandle _) (fun _ => by reports) (.getHandleIn _) fun hd => .bind (.setStream _ _ _) (fun _ => by reports) (.setStream _ _ _) fun _ => ?_
  cases b
  · refine Quiet.mono (P := In w₀ w₀.live w₀.made) (Q := fun _ => End w₀ w₀.live (w₀.made + 3)) ?_ (fun _ h => h) fun _ _ h => h
    refine .bind (.create _) (fun _ => by reports) (.create _) fun a => ?_
    refine .bind (.create _) (fun _ => by reports) ((Quiet.create _).const (a = some w₀.made)) fun x => ?_
    refine .bind (.create _) (fun _ => by reports)
      (((Quiet.create _).const (a = some w₀.made ∧ x = some (w₀.made + 1))).mono (fun _ h => ⟨⟨h.1, h.2.1⟩, h.2.2⟩) fun _ _ h => h) fun y => ?_
    by_cases hc : a = some w₀.made ∧ x = some (w₀.made + 1) ∧ y = some (w₀.made + 2)
    · obtain ⟨rfl, rfl, rfl⟩ := hc
      refine Quiet.mono (P := In w₀ (((w₀.live ++ [w₀.made]) ++ [w₀.made + 1]) ++ [w₀.made + 2]) (w₀.made + 3)) ?_ (fun _ h => h.2.2) fun _ _ h => h
      refine .bind (.use _) (fun _ => by reports) (.use (by simp)) fun _ => ?_
      refine .bind (.use _) (fun _ => by reports) (.use (by simp)) fun _ => ?_
      refine .bind (.use _) (fun _ => by reports) (.use (by simp)) fun _ => ?_
      refine .bind (.call _ _ _) (fun _ => by reports) (.callIn _ _ _) fun _ => ?_
      refine .bind (.use _) (fun _ => by reports) (.use (by simp)) fun _ => ?_
      refine .bind (.use _) (fun _ => by reports) (.use (by simp)) fun _ => ?_
      refine .bind (.use _) (fun _ => by reports) (.use (by simp)) fun _ => ?_
      refine .bind (.work _ _ _ _) (fun _ => by reports) (.workIn _ _ _ _) fun _ => ?_
      refine .bind (.destroy _ _) (fun _ => by reports) (.destroy (by simp) _) fun _ => ?_
      refine .bind (.destroy _ _) (fun _ => by reports) (.destroy (by simp) _) fun _ => ?_
      refine .bind (.destroy _ _) (fun _ => by reports) (.destroy (by simp) _) fun _ => ?_
      rw [filter_away h.live]
      exact .endView
    · exact fun w _ _ _ _ h => absurd ⟨h.1.1, h.1.2, h.2.1⟩ hc
  · exact .endView

theorem Quiet.loadLibs : Quiet loadLibs (In w₀ l n) (fun _ => End w₀ l n) := by
  unfold Failure.loadLibs
  have hg (lib : Lib) : Quiet (Failure.getHandle lib) (End w₀ l n) (fun _ => End w₀ l n) :=
    .getHandle lib (fun _ _ h => ⟨h.live, h.made, h.misused, h.more, h.done⟩) fun _ _ h => ⟨h.live, h.made, h.misused, h.more, h.done⟩
  refine .bind .endView (fun _ => by reports) .endView fun _ => .bind (.getHandle _) (fun _ => by reports) (hg _) fun _ => ?_
  exact .bind (.getHandle _) (fun _ => .pure _) (hg _) fun _ => (Quiet.pure _).mono (fun _ h => h) fun _ _ h => h.2

/-- After a task. -/
structure After (w w' : World) : Prop where
  live : w'.live = w.live
  made : w.made ≤ w'.made
  misused : w'.misused = false
  more : w.launched ≤ w'.launched
  done : w.build = .debug → AllDone w w'

theorem End.after {w : World} {k : Nat} (h : End w₀ w₀.live (w₀.made + k) w) : After w₀ w :=
  ⟨h.live, by rw [h.made]; omega, h.misused, h.more, h.done⟩

theorem Quiet.body (h : Ready w₀) (t : Task) : Quiet t.body (· = w₀) (fun v w => v = t.right ∧ After w₀ w) := by
  have fin {m : G Unit} (hm : Reports m) (hq : Quiet m (· = w₀) (fun _ => After w₀)) :
      Quiet (m >>= fun _ => Pure.pure (none : Option Value)) (· = w₀) (fun v w => v = none ∧ After w₀ w) :=
    .bind hm (fun _ => .pure _) hq fun _ => Quiet.pure _
  cases t with
  | scal e b => exact fin (.scal e b) ((Quiet.scal e b).mono (fun _ e => e ▸ h.in) fun _ _ h => h.after (k := 0))
  | axpy e b => exact fin (.axpy e b) ((Quiet.axpy e b).mono (fun _ e => e ▸ h.in) fun _ _ h => h.after (k := 0))
  | xpay b => exact fin (.xpay b) ((Quiet.xpay h b).mono (fun _ e => e) fun _ _ h => h.after (k := 0))
  | dot e b =>
    refine .bind (.dot e b) (fun _ => .pure _) ((Quiet.dot (l := w₀.live) (n := w₀.made) e b).mono (fun _ e => by rw [e]; exact h.in) fun _ _ h => h) fun v => ?_
    refine (Quiet.pure _).mono (fun _ h => h) fun a w h => ⟨?_, h.2.2.after (k := 0)⟩
    rw [h.1, h.2.1]; rfl
  | csrMatvec b =>
    refine fin (.csrMatvec b) ((Quiet.csrMatvec h b).mono (fun _ e => e) fun _ _ h => ?_)
    cases b
    · exact h.after (k := 3)
    · exact h.after (k := 0)
  | cooMatvec b =>
    refine fin (.cooMatvec b) ((Quiet.cooMatvec h b).mono (fun _ e => by rw [e]; exact h.in) fun _ _ h => ?_)
    cases b
    · exact h.after (k := 3)
    · exact h.after (k := 0)
  | loadLibs => exact fin .loadLibs ((Quiet.loadLibs (l := w₀.live) (n := w₀.made)).mono (fun _ e => by rw [e]; exact h.in) fun _ _ h => h.after (k := 0))

theorem After.ready {w w' : World} (h : After w w') (hr : Ready w) (hb : w'.build = w.build) : Ready w' :=
  ⟨fun d hd => Nat.lt_of_lt_of_le (hr.live d (h.live ▸ hd)) h.made, h.misused, fun e => (h.done (hb ▸ e)).1⟩

theorem After.trans {w₁ w₂ w₃ : World} (h : After w₁ w₂) (h' : After w₂ w₃) (hb : w₂.build = w₁.build) (ho : w₂.outcome = w₁.outcome) :
    After w₁ w₃ := by
  refine ⟨h'.live.trans h.live, Nat.le_trans h.made h'.made, h'.misused, Nat.le_trans h.more h'.more, fun e => ?_⟩
  obtain ⟨-, h1⟩ := h.done e
  obtain ⟨h2, h3⟩ := h'.done (hb.trans e)
  refine ⟨h2, fun i hi hj => ?_⟩
  by_cases hlt : i < w₂.launched
  · exact h1 i hi hlt
  · exact ho ▸ h3 i (by omega) hj

theorem Quiet.runAll (ts : List Task) : ∀ {w₀ : World}, Ready w₀ → Quiet (runAll ts) (· = w₀) (fun vs w => vs = ts.map Task.right ∧ After w₀ w) := by
  induction ts with
  | nil =>
    intro w₀ h
    refine (Quiet.pure _).mono (fun _ h => h) fun _ w e => ⟨e.1, ?_⟩
    obtain ⟨-, rfl⟩ := e
    exact ⟨rfl, Nat.le_refl _, h.misused, Nat.le_refl _, fun hb => ⟨h.pending hb, fun i h1 h2 => absurd h2 (by omega)⟩⟩
  | cons t ts ih =>
    intro w₀ h
    have hsame : Quiet t.body (· = w₀) (fun v w => (v = t.right ∧ After w₀ w) ∧ w.build = w₀.build ∧ w.outcome = w₀.outcome) := by
      intro w v w' e hl hw
      obtain ⟨cs, hr⟩ := Reports.body t w
      rw [e] at hr
      exact ⟨Quiet.body h t w v w' e hl hw, hw ▸ hr.build, hw ▸ hr.outcome⟩
    refine .bind (.body t) (fun _ => .bind (.runAll ts) fun _ => .pure _) hsame fun v => ?_
    intro w vs w' e hl hw
    obtain ⟨⟨rfl, ha⟩, hb, ho⟩ := hw
    refine Quiet.bind (P := (· = w)) (Q := fun vs w => vs = (t :: ts).map Task.right ∧ After w₀ w) (.runAll ts) (fun _ => .pure _)
      (ih (ha.ready h hb)) (fun us => ?_) w vs w' e hl rfl
    refine (Quiet.pure _).mono (fun _ h => h) fun _ w h => ⟨?_, ha.trans h.2.2 hb ho⟩
    rw [h.1, h.2.1]; rfl

/-! ## What is claimed -/

/-- **C97.** Whatever tasks run on a GPU, in whichever build and whatever CUDA reports: for every call that fails a line is printed, in order, with
library, status and place, and nothing else is printed. -/
theorem c97_reports (ts : List Task) (w : World) : ∃ cs, Made w (runAll ts w).2 cs :=
  let ⟨cs, h⟩ := Reports.runAll ts w; ⟨cs, h.made⟩

/-- **C97.** A release build always goes on. -/
theorem c97_release (ts : List Task) (w : World) (hb : w.build = .release) : ∃ vs, (runAll ts w).1 = some vs := by
  obtain ⟨cs, h⟩ := Reports.runAll ts w
  cases hr : (runAll ts w).1
  · exact absurd (h.bad (by rw [hr]; rfl)).1 (by rw [hb]; decide)
  · exact ⟨_, rfl⟩

/-- **C97.** A debug build ends at the first call that fails, and its line is the only one printed. -/
theorem c97_stops (ts : List Task) (w : World) (h : (runAll ts w).1 = none) :
    w.build = .debug ∧ ∃ cs c, (runAll ts w).2.calls = w.calls ++ cs ++ [c] ∧ (∀ c' ∈ cs, ¬c'.Bad) ∧ c.Bad ∧ (runAll ts w).2.lines = w.lines ++ [c] := by
  obtain ⟨ds, hr⟩ := Reports.runAll ts w
  obtain ⟨hb, cs, c, rfl, hg, hc⟩ := hr.bad (by rw [h]; rfl)
  refine ⟨hb, cs, c, by rw [hr.made.1, List.append_assoc], hg, hc, ?_⟩
  rw [hr.made.2, List.filter_append, List.filter_eq_nil_iff.2 (by simpa using hg)]
  simp [hc]

/-- **C97.** If nothing was printed, in either build: every call succeeded, every inner product delivered is the inner product (zero for an empty
piece), no descriptor was used that did not exist, and all descriptors made have been destroyed. -/
theorem c97_silent (ts : List Task) (w : World) (vs : List (Option Value)) (hw : ∀ d ∈ w.live, d < w.made) (hm : w.misused = false)
    (hp : w.build = .debug → w.pending = []) (hv : (runAll ts w).1 = some vs) (hl : (runAll ts w).2.lines = w.lines) :
    (∃ cs, (runAll ts w).2.calls = w.calls ++ cs ∧ ∀ c ∈ cs, ¬c.Bad) ∧ vs = ts.map Task.right ∧ (runAll ts w).2.misused = false ∧
      (runAll ts w).2.live = w.live := by
  obtain ⟨h1, h2⟩ := Quiet.runAll ts ⟨hw, hm, hp⟩ w vs _ (Prod.ext hv rfl) hl rfl
  refine ⟨?_, h1, h2.misused, h2.live⟩
  obtain ⟨cs, hr⟩ := Reports.runAll ts w
  refine ⟨cs, hr.made.1, fun c hc hbad => ?_⟩
  have := hr.made.2
  rw [hl] at this
  have := List.append_right_eq_self.1 this.symm
  exact absurd (List.mem_filter.2 ⟨hc, decide_eq_true hbad⟩) (by rw [this]; simp)

/-- **C97.** If the tasks of a debug build come to their end, nothing was printed, so `c97_silent` applies, and all work for the GPU was done. -/
theorem c97_debug (ts : List Task) (w : World) (vs : List (Option Value)) (hw : ∀ d ∈ w.live, d < w.made) (hm : w.misused = false)
    (hb : w.build = .debug) (hp : w.pending = []) (hv : (runAll ts w).1 = some vs) :
    (runAll ts w).2.lines = w.lines ∧ AllDone w (runAll ts w).2 := by
  obtain ⟨cs, hr⟩ := Reports.runAll ts w
  have hl : (runAll ts w).2.lines = w.lines := by
    rw [hr.made.2, List.filter_eq_nil_iff.2 (by simpa using hr.good (by rw [hv]; rfl) hb), List.append_nil]
  exact ⟨hl, (Quiet.runAll ts ⟨hw, hm, fun _ => hp⟩ w vs _ (Prod.ext hv rfl) hl rfl).2.done hb⟩

end Verif.Failure
