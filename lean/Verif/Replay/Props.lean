import Verif.Replay.Replay
import Verif.Programs.BenchmarkLoops

/-! # C91: the solvers and the benchmark obey the rule for traces -/
set_option linter.dupNamespace false
set_option linter.unusedSectionVars false
namespace Verif.Replay
open Verif.Runtime Verif.Vector Verif.Matrix Verif.Planner Verif.Solver Verif.Programs Verif.Launch Verif.Grid Verif.Stencil Verif.EndToEnd

/-! ## Sequences made of traces -/
section
variable {P V α β : Type} [DecidableEq P] {A : Arith V}

/-- Tasks, fences and clock readings, with traces whose tasks satisfy `Γ` in between. -/
inductive Grouped (Γ : List (Task (Cell P) V) → Prop) : List (Item P V) → Prop
  | nil : Grouped Γ []
  | item {x l} : (x ≠ .beginTrace) → (x ≠ .endTrace) → Grouped Γ l → Grouped Γ (x :: l)
  | group {ts l} : Γ ts → Grouped Γ l → Grouped Γ (.beginTrace :: (ts.map .task ++ .endTrace :: l))

namespace Grouped
variable {Γ Γ' : List (Task (Cell P) V) → Prop}

theorem append {a b : List (Item P V)} (h : Grouped Γ a) (h' : Grouped Γ b) : Grouped Γ (a ++ b) := by
  induction h with
  | nil => exact h'
  | item h1 h2 _ ih => exact .item h1 h2 ih
  | @group ts l h1 _ ih =>
    have : (Item.beginTrace :: (ts.map Item.task ++ .endTrace :: l) ++ b) = Item.beginTrace :: (ts.map Item.task ++ .endTrace :: (l ++ b)) := by
      simp
    rw [this]
    exact .group h1 ih

theorem tasks (ts : List (Task (Cell P) V)) : Grouped Γ (ts.map .task) := by
  induction ts with
  | nil => exact .nil
  | cons t ts ih => exact .item (by simp) (by simp) ih

theorem one {x : Item P V} (h : x ≠ .beginTrace) (h' : x ≠ .endTrace) : Grouped Γ [x] := .item h h' .nil

theorem mono (hΓ : ∀ ts, Γ ts → Γ' ts) {l : List (Item P V)} (h : Grouped Γ l) : Grouped Γ' l := by
  induction h with
  | nil => exact .nil
  | item h1 h2 _ ih => exact .item h1 h2 ih
  | group h1 _ ih => exact .group (hΓ _ h1) ih

end Grouped

theorem tracesFrom_tasks (ts : List (Task (Cell P) V)) (l : List (Item P V)) (b : Nat) : ∀ q,
    tracesFrom q (some b) (ts.map .task ++ .endTrace :: l) = (b, q + ts.length) :: tracesFrom (q + ts.length + 1) none l := by
  induction ts with
  | nil => intro q; rfl
  | cons t ts ih =>
    intro q
    have : tracesFrom q (some b) ((t :: ts).map .task ++ .endTrace :: l) = tracesFrom (q + 1) (some b) (ts.map .task ++ .endTrace :: l) := rfl
    rw [this, ih]
    simp [Nat.add_assoc, Nat.add_comm]

theorem traces_grouped {Γ : List (Task (Cell P) V) → Prop} {l : List (Item P V)} (h : Grouped Γ l) : ∀ pre : List (Item P V),
    ∀ tr ∈ tracesFrom pre.length none l, ∃ ts, Γ ts ∧ inside (pre ++ l) tr = ts.map .task := by
  induction h with
  | nil => intro pre tr htr; cases htr
  | @item x l h1 h2 _ ih =>
    intro pre tr htr
    have e : tracesFrom pre.length none (x :: l) = tracesFrom (pre ++ [x]).length none l := by
      rw [List.length_append]
      cases x with
      | beginTrace => exact absurd rfl h1
      | endTrace => exact absurd rfl h2
      | _ => rfl
    rw [e] at htr
    obtain ⟨ts, g, hi⟩ := ih (pre ++ [x]) tr htr
    exact ⟨ts, g, by rw [← hi]; simp⟩
  | @group ts l h1 _ ih =>
    intro pre tr htr
    have e : tracesFrom pre.length none (.beginTrace :: (ts.map .task ++ .endTrace :: l)) =
        (pre.length, pre.length + 1 + ts.length) :: tracesFrom (pre.length + 1 + ts.length + 1) none l :=
      tracesFrom_tasks ts l pre.length (pre.length + 1)
    rw [e] at htr
    rcases List.mem_cons.1 htr with rfl | htr
    · refine ⟨ts, h1, ?_⟩
      unfold inside
      show ((pre ++ _).drop (pre.length + 1)).take (pre.length + 1 + ts.length - (pre.length + 1)) = _
      have e1 : pre ++ Item.beginTrace :: (ts.map Item.task ++ .endTrace :: l) = (pre ++ [Item.beginTrace]) ++ (ts.map Item.task ++ .endTrace :: l) := by
        simp
      have e2 : pre.length + 1 = (pre ++ [(Item.beginTrace : Item P V)]).length := by simp
      have e3 : pre.length + 1 + ts.length - (pre.length + 1) = (ts.map (Item.task (P := P) (V := V))).length := by
        rw [List.length_map]; omega
      rw [e3, e1, e2, List.drop_left, List.take_left]
    · have e2 : pre.length + 1 + ts.length + 1 = (pre ++ Item.beginTrace :: (ts.map Item.task ++ [Item.endTrace])).length := by
        simp; omega
      rw [e2] at htr
      obtain ⟨us, g, hi⟩ := ih _ tr htr
      exact ⟨us, g, by rw [← hi]; simp⟩

/-- If the traces contain the same operations, the sequence obeys the rule. -/
theorem valid_of_grouped {Γ : List (Task (Cell P) V) → Prop} (hΓ : ∀ ts ts', Γ ts → Γ ts' → List.Forall₂ (SameOperation A) ts ts')
    {l : List (Item P V)} (h : Grouped Γ l) : ValidTraces A l := by
  intro tr htr first hf
  obtain ⟨ts, g, e⟩ := traces_grouped h [] tr htr
  obtain ⟨ts0, g0, e0⟩ := traces_grouped h [] first (List.mem_of_mem_head? hf)
  exact ⟨ts0, ts, e0, e, hΓ _ _ g0 g⟩

end

/-! ## Programs with and without traces -/
section
variable {P V α β : Type} [DecidableEq P] {A : Arith V}

theorem tasksOf_append (a b : List (Item P V)) : tasksOf (a ++ b) = tasksOf a ++ tasksOf b := List.filterMap_append

theorem tasksOf_map (ts : List (Task (Cell P) V)) : tasksOf (ts.map Item.task) = ts := by
  unfold tasksOf
  rw [List.filterMap_map]
  exact List.filterMap_some

/-- Whenever `m` runs to the end, `mt` issues the tasks that `m` launches, in traces whose tasks satisfy `Γ`, and the result satisfies `R`. -/
def Follows (Γ : List (Task (Cell P) V) → Prop) (R : α → Prop) (mt : T P V α) (m : M P V α) : Prop :=
  ∀ (e : Emit P V) (items : List (Item P V)) (a : α) (e' : Emit P V), m e = some (a, e') → ∃ new,
    mt ⟨e.next, items⟩ = some (a, ⟨e'.next, items ++ new⟩) ∧ e'.out = e.out ++ tasksOf new ∧ Grouped Γ new ∧ R a

namespace Follows
variable {Γ : List (Task (Cell P) V) → Prop} {R : α → Prop} {R' : β → Prop}

theorem pure {a : α} (h : R a) : Follows Γ R (pure a) (pure a) := by
  intro e items b e' hb
  obtain ⟨rfl, rfl⟩ := Prod.mk.inj (Option.some.inj hb)
  exact ⟨[], by rw [List.append_nil]; rfl, (List.append_nil _).symm, .nil, h⟩

theorem bind {mt : T P V α} {m : M P V α} {ft : α → T P V β} {f : α → M P V β} (h : Follows Γ R mt m)
    (h' : ∀ a, R a → Follows Γ R' (ft a) (f a)) : Follows Γ R' (mt >>= ft) (m >>= f) := by
  intro e items b e'' hb
  obtain ⟨⟨a, e'⟩, h1, h2⟩ := Option.bind_eq_some_iff.1 (show (m e).bind (fun p => f p.1 p.2) = some (b, e'') from hb)
  obtain ⟨new, k1, k2, k3, k4⟩ := h e items a e' h1
  obtain ⟨new', l1, l2, l3, l4⟩ := h' a k4 e' (items ++ new) b e'' h2
  refine ⟨new ++ new', ?_, ?_, k3.append l3, l4⟩
  · show (mt _).bind (fun p => ft p.1 p.2) = _
    rw [k1, ← List.append_assoc]
    exact l1
  · rw [l2, k2, tasksOf_append, List.append_assoc]

theorem weaken {R1 : α → Prop} {mt : T P V α} {m : M P V α} (h : Follows Γ R mt m) (h' : ∀ a, R a → R1 a) : Follows Γ R1 mt m := by
  intro e items a e' hb
  obtain ⟨new, k1, k2, k3, k4⟩ := h e items a e' hb
  exact ⟨new, k1, k2, k3, h' _ k4⟩

/-- Library calls, anywhere outside traces. -/
theorem calls {m : M P V α} (hm : Hon m) (hR : ∀ e a e', m e = some (a, e') → R a) : Follows Γ R (calls m) m := by
  intro e items a e' hb
  obtain ⟨ts, h1, -, h2⟩ := hm e a e' hb
  refine ⟨ts.map .task, ?_, by rw [tasksOf_map, h1], Grouped.tasks ts, hR e a e' hb⟩
  unfold Replay.calls
  show (m ⟨e.next, []⟩).map _ = _
  rw [h2 []]
  rfl

/-- Fences and clock readings launch nothing. -/
theorem issue {x : Item P V} (h1 : x ≠ .beginTrace) (h2 : x ≠ .endTrace) (h3 : ∀ t, x ≠ .task t) {mt : T P V α} {m : M P V α}
    (h : Follows Γ R mt m) : Follows Γ R (issue x >>= fun _ => mt) m := by
  intro e items a e' hb
  obtain ⟨new, k1, k2, k3, k4⟩ := h e (items ++ [x]) a e' hb
  refine ⟨x :: new, ?_, ?_, .item h1 h2 k3, k4⟩
  · show mt ⟨e.next, items ++ [x]⟩ = _
    rw [k1]
    simp
  · rw [k2]
    congr 1
    cases x with
    | task t => exact absurd rfl (h3 t)
    | _ => rfl

/-- One trace. -/
theorem steps {step : α → M P V α} {Inv : α → Prop} (hs : ∀ c, Hon (step c))
    (hinv : ∀ c, Inv c → ∀ e c' e', step c e = some (c', e') → Inv c') (pt : Nat)
    (hΓ : ∀ c e c' e' ts, Inv c → repeatM step pt c e = some (c', e') → e'.out = e.out ++ ts → Γ ts) {c : α} (hc : Inv c) :
    Follows Γ Inv (tracedSteps step pt c) (repeatM step pt c) := by
  have hon : ∀ k c, Hon (repeatM step k c) := fun k => by
    induction k with
    | zero => intro c; exact Hon.pure c
    | succ k ih => intro c; exact (hs c).bind ih
  have hi : ∀ k c, Inv c → ∀ e c' e', repeatM step k c e = some (c', e') → Inv c' := fun k => by
    induction k with
    | zero => intro c hc e c' e' h; cases (Option.some.inj h : (c, e) = (c', e')); exact hc
    | succ k ih =>
      intro c hc e c' e' h
      obtain ⟨⟨c1, e1⟩, h1, h2⟩ := Option.bind_eq_some_iff.1 (show (step c e).bind (fun p => repeatM step k p.1 p.2) = some (c', e') from h)
      exact ih c1 (hinv c hc _ _ _ h1) _ _ _ h2
  intro e items a e' hb
  obtain ⟨ts, h1, -, h2⟩ := hon pt c e a e' hb
  refine ⟨.beginTrace :: (ts.map .task ++ .endTrace :: []), ?_, ?_, .group (hΓ c e a e' ts hc hb h1) .nil, hi pt c hc _ _ _ hb⟩
  · show ((repeatM step pt c ⟨e.next, []⟩).map _).bind _ = _
    rw [h2 []]
    show some (a, (⟨e'.next, _⟩ : Issued P V)) = _
    congr 3
    simp
  · rw [h1]
    congr 1
    show ts = tasksOf (ts.map Item.task ++ [.endTrace])
    rw [tasksOf_append, tasksOf_map]
    exact (List.append_nil _).symm

theorem repeat_ {ft : α → T P V α} {f : α → M P V α} (h : ∀ a, R a → Follows Γ R (ft a) (f a)) (k : Nat) : ∀ a, R a →
    Follows Γ R (repeatM ft k a) (repeatM f k a) := by
  induction k with
  | zero => intro a ha; exact pure ha
  | succ k ih => intro a ha; exact (h a ha).bind ih

/-- The loops of the benchmark. -/
theorem loops {step : α → M P V α} {Inv : α → Prop} (hs : ∀ c, Hon (step c))
    (hinv : ∀ c, Inv c → ∀ e c' e', step c e = some (c', e') → Inv c') (W it pt : Nat)
    (hΓ : ∀ c e c' e' ts, Inv c → repeatM step pt c e = some (c', e') → e'.out = e.out ++ ts → Γ ts) {c : α} (hc : Inv c) :
    Follows Γ (fun _ => True) (tracedLoops W it pt step c) (benchLoops W it pt step c) := by
  refine (calls (R := fun _ => True) (Hon.option _) (fun _ _ _ _ => trivial)).bind fun nt _ => ?_
  refine issue (by simp) (by simp) (by simp) ?_
  refine (repeat_ (fun a ha => steps hs hinv pt hΓ ha) warmupTraces c hc).bind fun c hc => ?_
  refine issue (by simp) (by simp) (by simp) ?_
  refine issue (by simp) (by simp) (by simp) ?_
  refine issue (by simp) (by simp) (by simp) ?_
  refine (repeat_ (fun a ha => steps hs hinv pt hΓ ha) _ c hc).bind fun c hc => ?_
  refine issue (by simp) (by simp) (by simp) ?_
  refine issue (by simp) (by simp) (by simp) ?_
  refine issue (by simp) (by simp) (by simp) ?_
  exact pure trivial

end Follows

/-- A program with traces all of which contain the same operations. -/
def Traced (A : Arith V) (mt : T P V α) (m : M P V α) : Prop :=
  ∃ Γ : List (Task (Cell P) V) → Prop, (∀ ts ts', Γ ts → Γ ts' → List.Forall₂ (SameOperation A) ts ts') ∧ Follows Γ (fun _ => True) mt m

namespace Traced

theorem plain {mt : T P V α} {m : M P V α} (h : Follows (fun _ => False) (fun _ => True) mt m) : Traced A mt m :=
  ⟨_, fun _ _ h => h.elim, h⟩

/-- Traces in the last part only, of which the operations may depend on what an option delivers. -/
theorem option {o : Option α} {ft : α → T P V β} {f : α → M P V β} (h : ∀ a, o = some a → Traced A (ft a) (f a)) :
    Traced A (calls (lift o) >>= ft) (lift o >>= f) := by
  cases o with
  | none =>
    refine plain ?_
    intro e items a e' hb
    cases hb
  | some a =>
    obtain ⟨Γ, hΓ, hf⟩ := h a rfl
    refine ⟨Γ, hΓ, ?_⟩
    refine (Follows.calls (R := fun b => b = a) (Hon.option _) (fun e b e' hb => ?_)).bind fun b hb => hb ▸ hf
    cases hb
    rfl

theorem after {m : M P V α} (hm : Hon m) {ft : α → T P V β} {f : α → M P V β} {a : α} (ha : ∀ e b e', m e = some (b, e') → b = a)
    (h : Traced A (ft a) (f a)) : Traced A (calls m >>= ft) (m >>= f) := by
  obtain ⟨Γ, hΓ, hf⟩ := h
  exact ⟨Γ, hΓ, (Follows.calls (R := fun b => b = a) hm ha).bind fun b hb => hb ▸ hf⟩

theorem result {mt : T P V α} {m : M P V α} (h : Traced A mt m) (g : α → β) :
    Traced A (do let r ← mt; pure (g r)) (do let r ← m; pure (g r)) := by
  obtain ⟨Γ, hΓ, hf⟩ := h
  exact ⟨Γ, hΓ, hf.bind fun _ _ => .pure trivial⟩

/-- Whatever the program without traces ensures, the program with traces ensures. -/
theorem ensures {mt : T P V α} {m : M P V α} (h : Traced A mt m) {n : Nat} {s : Cell P → V} {Q : α → (Cell P → V) → Prop}
    (he : Ensures m n s Q) : EnsuresTraced A mt n s Q := by
  obtain ⟨a, n', ts, hm, -, hall⟩ := he
  obtain ⟨Γ, hΓ, hf⟩ := h
  obtain ⟨new, h1, h2, h3, -⟩ := hf _ [] _ _ hm
  have hv := valid_of_grouped hΓ h3
  simp only [List.nil_append] at h1 h2
  subst h2
  refine ⟨a, n', new, h1, hv, c91_finishes s new, fun m' hm' hd => ?_⟩
  obtain ⟨-, -, h5⟩ := steps_project hv hm'
  exact hall _ h5 (done_project hd)

end Traced

/-! ## Steps that launch the same operations -/

/-- Launched by `pt` steps from some state that satisfies `Inv`. -/
def StepsFrom (step : α → M P V α) (Inv : α → Prop) (pt : Nat) (ts : List (Task (Cell P) V)) : Prop :=
  ∃ c e c' e', Inv c ∧ repeatM step pt c e = some (c', e') ∧ e'.out = e.out ++ ts

theorem same_repeat {step : α → M P V α} {Inv : α → Prop}
    (h : ∀ c c', Inv c → Inv c' → Same A (fun d d' => Inv d ∧ Inv d') (step c) (step c')) (k : Nat) : ∀ c c', Inv c → Inv c' →
    Same A (fun d d' => Inv d ∧ Inv d') (repeatM step k c) (repeatM step k c') := by
  induction k with
  | zero => intro c c' hc hc'; exact (sameLift A).pure ⟨hc, hc'⟩
  | succ k ih => intro c c' hc hc'; exact (sameLift A).bind (h c c' hc hc') fun d d' hd => ih d d' hd.1 hd.2

theorem same_groups {step : α → M P V α} {Inv : α → Prop}
    (h : ∀ c c', Inv c → Inv c' → Same A (fun d d' => Inv d ∧ Inv d') (step c) (step c')) {pt : Nat} {ts ts' : List (Task (Cell P) V)}
    (ht : StepsFrom step Inv pt ts) (ht' : StepsFrom step Inv pt ts') : List.Forall₂ (SameOperation A) ts ts' := by
  obtain ⟨c, e, d, f, hc, h1, h2⟩ := ht
  obtain ⟨c', e', d', f', hc', h1', h2'⟩ := ht'
  obtain ⟨b', g', us, us', k1, k2, k3, k4, -⟩ := same_repeat h pt c c' hc hc' e d f e' h1
  rw [h1'] at k1
  cases k1
  rw [h2] at k2
  rw [h2'] at k3
  rw [List.append_cancel_left k2, List.append_cancel_left k3]
  exact k4

theorem inv_of_same {step : α → M P V α} {Inv : α → Prop}
    (h : ∀ c c', Inv c → Inv c' → Same A (fun d d' => Inv d ∧ Inv d') (step c) (step c')) (c : α) (hc : Inv c) (e : Emit P V) (c' : α)
    (e' : Emit P V) (hb : step c e = some (c', e')) : Inv c' := by
  obtain ⟨_, _, _, _, -, -, -, -, k⟩ := h c c hc hc e c' e' e hb
  exact k.1

theorem traced_loops {step : α → M P V α} {Inv : α → Prop} (hs : ∀ c, Hon (step c))
    (h : ∀ c c', Inv c → Inv c' → Same A (fun d d' => Inv d ∧ Inv d') (step c) (step c')) (W it pt : Nat) {c : α} (hc : Inv c) :
    Follows (StepsFrom step Inv pt) (fun _ => True) (tracedLoops W it pt step c) (benchLoops W it pt step c) :=
  Follows.loops hs (inv_of_same h) W it pt (fun c e c' e' _ hc hb he => ⟨c, e, c', e', hc, hb, he⟩) hc

theorem traced_groups {step : α → M P V α} {Inv : α → Prop} (hs : ∀ c, Hon (step c))
    (h : ∀ c c', Inv c → Inv c' → Same A (fun d d' => Inv d ∧ Inv d') (step c) (step c')) (pt k : Nat) {c : α} (hc : Inv c) :
    Follows (StepsFrom step Inv pt) (fun _ => True) (repeatM (tracedSteps step pt) k c) (repeatM (fun c => repeatM step pt c) k c) :=
  (Follows.repeat_ (fun _ ha => Follows.steps hs (inv_of_same h) pt
    (fun c e c' e' _ hc hb he => ⟨c, e, c', e', hc, hb, he⟩) ha) k c hc).weaken fun _ _ => trivial

end
end Verif.Replay
