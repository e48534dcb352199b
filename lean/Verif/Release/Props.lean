import Verif.Release.Second
import Verif.Solver.Calls
import Verif.Solver.Rate

/-!
# C86: the release build

What a program does when the assertions are compiled out: programs the debug build accepts behave the same; and what happens in cases the
debug build rejects - a second solver on a planner, vectors with different partitions.
-/
set_option linter.dupNamespace false
set_option linter.unusedSectionVars false
namespace Verif.Release
open Verif.Runtime Verif.Vector Verif.Matrix Verif.Planner Verif.Solver Verif.Programs Verif.Textbook
open scoped _root_.Matrix

section
variable {K P V : Type} [DecidableEq P] [DecidableEq K]

/-! ## Programs the debug build accepts -/

/-- **C86**: a program (any sequence of library calls) that the debug build runs without stopping makes the release build return handles
that stand for the same objects, number the futures alike and launch exactly the same tasks in the same order. -/
theorem c86_same_tasks {A : Arith V} {G : Geometry P} {α β : Type} {R : α → β → Prop} {m : M P V α} {m' : M P V β}
    (h : SameSource K A G R m m') (e : Emit P V) (a : α) (e' : Emit P V) (he : m e = some (a, e')) :
    ∃ b, m' e = some (b, e') ∧ R a b := h.sound e a e' he

/-- So everything proved about the debug build's results and memory, under every schedule, is true of the release build's. -/
theorem c86_same_results {A : Arith V} {G : Geometry P} {α β : Type} {R : α → β → Prop} {m : M P V α} {m' : M P V β}
    (h : SameSource K A G R m m') {n : Nat} {s : Cell P → V} {Q : α → (Cell P → V) → Prop} (hQ : Ensures m n s Q) :
    Ensures m' n s fun b s' => ∃ a, R a b ∧ Q a s' := by
  obtain ⟨a, n', ts, h1, h2, h3⟩ := hQ
  obtain ⟨b, h4, h5⟩ := h.sound _ _ _ h1
  exact ⟨b, n', ts, h4, h2, fun M' p q => ⟨a, h5, h3 M' p q⟩⟩

/-! ## Vectors with different partitions -/

theorem Eff.runs {α : Type} {m m' : M P V α} (h : Eff m m') {n : Nat} {s : Cell P → V} {Q : α → (Cell P → V) → Prop} (hQ : Ensures m n s Q) :
    ∃ a n' s', Runs m' n s a n' s' ∧ Q a s' := by
  obtain ⟨a, n', ts, h1, ⟨M, h2, h2'⟩, h3⟩ := hQ
  obtain ⟨us, us', e1, e2, e3, e4, e5⟩ := h _ _ _ _ h1
  have : ts = us := e1
  subst this
  have hM := c42_any_schedule s ts e2 M h2 h2'
  exact ⟨a, n', runTasks s us', ⟨us', e5, e3, rfl⟩, by rw [← e4, ← hM]; exact h3 M h2 h2'⟩

theorem Eff.ensures {α : Type} {m m' : M P V α} (h : Eff m m') {n : Nat} {s : Cell P → V} {Q : α → (Cell P → V) → Prop}
    (hQ : Ensures m n s Q) : Ensures m' n s Q := by
  obtain ⟨a, n', s', h1, h2⟩ := h.runs hQ
  exact h1.ensures h2

/-- `x` seen through the partition of `y`. -/
def through (y x : Vec) : Vec := { y with data := x.data }

theorem runTasks_bodies : ∀ (ts us : List (Task (Cell P) V)), ts.map Task.body = us.map Task.body → ∀ s, runTasks s ts = runTasks s us
  | [], [], _, _ => rfl
  | [], _ :: _, h, _ => by simp at h
  | _ :: _, [], h, _ => by simp at h
  | t :: ts, u :: us, h, s => by
    rw [List.map_cons, List.map_cons] at h
    obtain ⟨h1, h2⟩ := List.cons.inj h
    rw [runTasks_cons, runTasks_cons, h1]
    exact runTasks_bodies ts us h2 _

theorem zipWith_bodies {α : Type} {f : α → α → Task (Cell P) V} {g : α → Task (Cell P) V} (h : ∀ a b, (f a b).body = (g a).body) :
    ∀ (l l' : List α), l.length ≤ l'.length → (List.zipWith f l l').map Task.body = (l.map g).map Task.body
  | [], _, _ => rfl
  | _ :: _, [], hl => by simp at hl
  | a :: l, b :: l', hl => by
    rw [List.zipWith_cons_cons, List.map_cons, List.map_cons, List.map_cons, h,
      zipWith_bodies h l l' (by simpa using hl)]

theorem mapIdx_bodies {α : Type} {f : Nat → α → α → Task (Cell P) V} {g : Nat → α → Task (Cell P) V} (h : ∀ k a b, (f k a b).body = (g k a).body)
    (l l' : List α) (hl : l.length ≤ l'.length) :
    ((l.zip l').mapIdx fun k p => f k p.1 p.2).map Task.body = (l.mapIdx g).map Task.body := by
  apply List.ext_getElem?
  intro i
  rw [List.getElem?_map, List.getElem?_map, List.getElem?_mapIdx, List.getElem?_mapIdx, List.zip, List.getElem?_zipWith]
  by_cases hi : i < l.length
  · rw [List.getElem?_eq_getElem hi, List.getElem?_eq_getElem (Nat.lt_of_lt_of_le hi hl)]
    exact congrArg some (h _ _ _)
  · rw [List.getElem?_eq_none (by omega)]
    rfl

theorem covers_length {E : Env P} {y x : Vec} (h : covers E y x = true) : (E.pieces y.part).length ≤ (E.pieces x.part).length := by
  unfold covers at h
  rw [Bool.and_eq_true] at h
  exact of_decide_eq_true h.1

theorem covers_mem {E : Env P} {y x : Vec} (h : covers E y x = true) {a b : List P} (hab : (a, b) ∈ (E.pieces y.part).zip (E.pieces x.part))
    {p : P} (hp : p ∈ a) : p ∈ b := by
  unfold covers at h
  rw [Bool.and_eq_true] at h
  exact of_decide_eq_true (List.all_eq_true.1 (List.all_eq_true.1 h.2 _ hab) p hp)

theorem zipWith_honest {E : Env P} {y x : Vec} (h : covers E y x = true) {f : List P → List P → Task (Cell P) V}
    (hf : ∀ a b, (∀ p ∈ a, p ∈ b) → (f a b).Honest) : ∀ t ∈ List.zipWith f (E.pieces y.part) (E.pieces x.part), t.Honest := by
  intro t ht
  rw [← List.map_uncurry_zip_eq_zipWith] at ht
  obtain ⟨⟨a, b⟩, hab, rfl⟩ := List.mem_map.1 ht
  exact hf a b fun p hp => covers_mem h hab hp

/-- Launching tasks with the same bodies. -/
theorem Eff.launched {ts us : List (Task (Cell P) V)} (h1 : ∀ t ∈ ts, t.Honest) (h2 : ∀ t ∈ us, t.Honest)
    (h : us.map Task.body = ts.map Task.body) : Eff (launch ts : M P V Unit) (launch us) := by
  intro n out a e' he
  obtain ⟨-, rfl⟩ := Prod.mk.inj (Option.some.inj he)
  exact ⟨ts, us, rfl, h1, h2, fun s => (runTasks_bodies us ts h s).symm, fun out' => rfl⟩

theorem Eff.require_right {α : Type} {b : Bool} (hb : b = true) {m m' : M P V α} (h : Eff m m') : Eff m (require b >>= fun _ => m') := by
  subst hb; exact h

theorem Eff.checked_left {α : Type} {y x : Vec} {m m' : M P V α} (hs : y.space = x.space ∧ y.colors = x.colors ∧ y.part = x.part)
    (h : Eff m m') : Eff (checkCompatible y x >>= fun _ => m) m' := by
  have : ∀ e, (checkCompatible y x >>= fun _ => m) e = m e := by
    intro e
    unfold checkCompatible require
    simp [hs.1, hs.2.1, hs.2.2]
    rfl
  intro n out a e' he
  rw [this] at he
  exact h n out a e' he

theorem eff_assign {E : Env P} {y x : Vec} (h : covers E y x = true) : Eff (Vector.assign E y (through y x) : M P V Unit) (assign E y x) :=
  .checked_left ⟨rfl, rfl, rfl⟩ <| .require_right h <| .launched
    (fun t ht => by obtain ⟨pts, -, rfl⟩ := List.mem_map.1 ht; exact Vector.copyTask_honest _ _ _)
    (zipWith_honest h fun a b hab u hu => by
      obtain ⟨p, hp, rfl⟩ := List.mem_map.1 hu
      exact ⟨⟨p, hp, rfl⟩, fun s s' hs => hs _ ⟨p, hab p hp, rfl⟩⟩)
    (zipWith_bodies (f := copyTask y x) (g := Vector.copyTask y (through y x)) (fun _ _ => rfl) _ _ (covers_length h))

theorem eff_axpy (A : Arith V) {E : Env P} {y x : Vec} (h : covers E y x = true) (l : List Nat) :
    Eff (checkCompatible y (through y x) >>= fun _ => launch ((E.pieces y.part).map (Vector.axpyTask A y (through y x) l)))
      (axpyGen A E y x l) :=
  .checked_left ⟨rfl, rfl, rfl⟩ <| .require_right h <| .launched
    (fun t ht => by obtain ⟨pts, -, rfl⟩ := List.mem_map.1 ht; exact Vector.axpyTask_honest _ _ _ _ _)
    (zipWith_honest h fun a b hab u hu => by
      obtain ⟨p, hp, rfl⟩ := List.mem_map.1 hu
      refine ⟨⟨p, hp, rfl⟩, fun s s' hs => ?_⟩
      show A.fma (alphaOf A l s) _ _ = A.fma (alphaOf A l s') _ _
      rw [alphaOf_congr A l s s' (fun f hf => hs _ (Or.inr (Or.inr ⟨f, hf, rfl⟩))), hs _ (Or.inl ⟨p, hp, rfl⟩),
        hs _ (Or.inr (Or.inl ⟨p, hab p hp, rfl⟩))])
    (zipWith_bodies (f := axpyTask A y x l) (g := Vector.axpyTask A y (through y x) l) (fun _ _ => rfl) _ _ (covers_length h))

theorem eff_xpay (A : Arith V) {E : Env P} {y x : Vec} (h : covers E y x = true) (l : List Nat) :
    Eff (checkCompatible y (through y x) >>= fun _ => launch ((E.pieces y.part).map (Vector.xpayTask A y (through y x) l)))
      (xpayGen A E y x l) :=
  .checked_left ⟨rfl, rfl, rfl⟩ <| .require_right h <| .launched
    (fun t ht => by obtain ⟨pts, -, rfl⟩ := List.mem_map.1 ht; exact Vector.xpayTask_honest _ _ _ _ _)
    (zipWith_honest h fun a b hab u hu => by
      obtain ⟨p, hp, rfl⟩ := List.mem_map.1 hu
      refine ⟨⟨p, hp, rfl⟩, fun s s' hs => ?_⟩
      show A.fma (alphaOf A l s) _ _ = A.fma (alphaOf A l s') _ _
      rw [alphaOf_congr A l s s' (fun f hf => hs _ (Or.inr (Or.inr ⟨f, hf, rfl⟩))), hs _ (Or.inl ⟨p, hp, rfl⟩),
        hs _ (Or.inr (Or.inl ⟨p, hab p hp, rfl⟩))])
    (zipWith_bodies (f := xpayTask A y x l) (g := Vector.xpayTask A y (through y x) l) (fun _ _ => rfl) _ _ (covers_length h))

theorem eff_dot (A : Arith V) {E : Env P} {y x : Vec} (h : covers E y x = true) :
    Eff (Vector.dot A E y (through y x)) (Release.dot A E y x) := by
  refine .checked_left ⟨rfl, rfl, rfl⟩ <| .require_right h <| .bind (.of_le .fresh (.refl _)) fun f => .bind (.launched ?_ ?_
    (by exact mapIdx_bodies (f := fun k a b => dotTask A y x f k a b) (fun _ _ _ => rfl) _ _ (covers_length h))) fun _ => .bind (.of_le (.launch ?_) (.refl _)) fun _ => .of_le (.pure _) (.refl _)
  · intro t ht
    obtain ⟨i, hi, rfl⟩ := List.mem_mapIdx.1 ht
    exact Vector.dotTask_honest _ _ _ _ _ _
  · intro t ht
    obtain ⟨i, hi, rfl⟩ := List.mem_mapIdx.1 ht
    intro u hu
    rcases List.mem_cons.1 hu with rfl | hu
    · exact ⟨rfl, fun _ _ _ => rfl⟩
    · obtain ⟨p, hp, rfl⟩ := List.mem_map.1 hu
      refine ⟨rfl, fun s s' hs => ?_⟩
      show A.add _ (A.mul _ _) = A.add _ (A.mul _ _)
      rw [hs _ (Or.inr (Or.inr rfl)), hs _ (Or.inl ⟨p, hp, rfl⟩),
        hs _ (Or.inr (Or.inl ⟨p, covers_mem h (List.getElem_mem hi) hp, rfl⟩))]
  · intro t ht
    obtain rfl := List.mem_singleton.1 ht
    exact reduceTask_honest _ _ _

/-- **C86**: an operation on two vectors with different partitions (or even index spaces), which the debug build rejects: if every element
of `y`'s pieces lies in the piece of `x` of the same number, the release build's operation has the element-wise meaning. -/
theorem c86_vectors (A : Arith V) (E : Env P) (y x : Vec) (a b c : Scalar) (h : covers E y x = true) (space : List P)
    (hp : IsPartition space (E.pieces y.part)) (n : Nat) (s : Cell P → V) :
    Ensures (assign E y x) n s (fun _ s' => OnlyChanged s s' y space fun p => s (.elem x.data p)) ∧
    Ensures (axpyGen A E y x [a.fut]) n s (fun _ s' =>
      OnlyChanged s s' y space fun p => A.fma (s (.fut a.fut)) (s (.elem x.data p)) (s (.elem y.data p))) ∧
    Ensures (axpyGen A E y x [a.fut, b.fut]) n s (fun _ s' =>
      OnlyChanged s s' y space fun p => A.fma (A.div (s (.fut a.fut)) (s (.fut b.fut))) (s (.elem x.data p)) (s (.elem y.data p))) ∧
    Ensures (axpyGen A E y x [a.fut, b.fut, c.fut]) n s (fun _ s' => OnlyChanged s s' y space fun p =>
      A.fma (A.div (A.mul (s (.fut a.fut)) (s (.fut b.fut))) (s (.fut c.fut))) (s (.elem x.data p)) (s (.elem y.data p))) ∧
    Ensures (xpayGen A E y x [a.fut]) n s (fun _ s' =>
      OnlyChanged s s' y space fun p => A.fma (s (.fut a.fut)) (s (.elem y.data p)) (s (.elem x.data p))) ∧
    Ensures (xpayGen A E y x [a.fut, b.fut]) n s (fun _ s' =>
      OnlyChanged s s' y space fun p => A.fma (A.div (s (.fut a.fut)) (s (.fut b.fut))) (s (.elem y.data p)) (s (.elem x.data p))) :=
  have hc : Compatible y (through y x) := ⟨rfl, rfl, rfl⟩
  ⟨(eff_assign h).ensures (c21_copy E y (through y x) hc space hp n s),
   (eff_axpy A h _).ensures (c21_axpy A E y a (through y x) hc space hp n s),
   (eff_axpy A h _).ensures (c21_axpy_quotient A E y a b (through y x) hc space hp n s),
   (eff_axpy A h _).ensures (c21_axpy_product_quotient A E y a b c (through y x) hc space hp n s),
   (eff_xpay A h _).ensures (c21_xpay A E y a (through y x) hc space hp n s),
   (eff_xpay A h _).ensures (c21_xpay_quotient A E y a b (through y x) hc space hp n s)⟩

/-- The inner product in exact arithmetic. -/
theorem c86_dot [Field V] (A : Arith V) (hA : A.Exact) (E : Env P) (v w : Vec) (h : covers E v w = true) (space : List P)
    (hs : space.Nodup) (hp : IsPartition space (E.pieces v.part)) (ho : ∀ f l, (E.redOrder f l).Perm l) (n : Nat) (s : Cell P → V) :
    Ensures (Release.dot A E v w) n s fun r s' =>
      s' (.fut r.fut) = (space.map fun p => s (.elem v.data p) * s (.elem w.data p)).sum ∧
      (∀ d p, s' (.elem d p) = s (.elem d p)) ∧ ∀ f < n, s' (.fut f) = s (.fut f) :=
  (eff_dot A h).ensures (c22_dot A hA E v (through v w) ⟨rfl, rfl, rfl⟩ space hs hp ho n s)

/-- If some element of `y`'s pieces is missing from the piece of `x` with the same number, the operation is undefined: nothing useful can be
said about the release build. -/
theorem c86_vectors_undefined (A : Arith V) (E : Env P) (y x : Vec) (i : Nat) (a b : List P) (ha : (E.pieces y.part)[i]? = some a)
    (hb : (E.pieces x.part)[i]? = some b) (p : P) (hpa : p ∈ a) (hpb : p ∉ b) (l : List Nat) :
    Aborts (assign E y x : M P V Unit) ∧ Aborts (axpyGen A E y x l) ∧ Aborts (xpayGen A E y x l) ∧ Aborts (Release.dot A E y x) := by
  have h : covers E y x = false := by
    cases hc : covers E y x with
    | false => rfl
    | true =>
      refine absurd (covers_mem hc (List.mem_of_getElem? (i := i) ?_) hpa) hpb
      rw [List.zip, List.getElem?_zipWith, ha, hb]
  have key : ∀ {β : Type} (f : Unit → M P V β), Aborts (require (covers E y x) >>= f) := by
    intro β f e; rw [h]; rfl
  exact ⟨key _, key _, key _, key _⟩

/-! ## More solvers on the same planner -/

theorem allocAll_reused {G : Geometry P} {pl pl' : Planner K P V} {base n : Nat} (h : pl.allocateWorkspace G base n = some pl')
    (l : List (Nat × Nat)) (hl : ∀ b ∈ l, b.2 ≤ n) : ∃ rp, allocAll G ⟨pl, []⟩ ((base, n) :: l) = some rp ∧ Reused pl' n rp := by
  obtain ⟨rp, h1, -, h3⟩ := Reused.first h
  obtain ⟨rp', h4, h5⟩ := Reused.allocAll (allocated h) l hl rp h3
  exact ⟨rp', by show (RPlanner.allocateWorkspace G ⟨pl, []⟩ base n).bind _ = _; rw [h1]; exact h4, h5⟩

/-- **C86**: on a planner on which the first solver was constructed with `n` workspace vectors, the release build allows any number of
further solvers with at most `n` vectors each; the debug build allows none. -/
theorem c86_more_solvers {G : Geometry P} {pl pl' : Planner K P V} {base n : Nat} (h : pl.allocateWorkspace G base n = some pl')
    (l : List (Nat × Nat)) (hl : ∀ b ∈ l, b.2 ≤ n) :
    (∃ rp, allocAll G ⟨pl, []⟩ ((base, n) :: l) = some rp) ∧ ∀ b n', pl'.allocateWorkspace G b n' = none := by
  obtain ⟨rp, h1, -⟩ := allocAll_reused h l hl
  refine ⟨⟨rp, h1⟩, fun b n' => ?_⟩
  have hf : pl'.hasFields = true := by
    unfold Planner.allocateWorkspace at h
    split at h
    · obtain ⟨ws, -, he⟩ := Option.bind_eq_some_iff.1 h
      obtain rfl := Option.some.inj he
      rfl
    · cases h
  unfold Planner.allocateWorkspace
  rw [if_neg]
  simp [Planner.noWorkspace, hf]

theorem allocated_again {G : Geometry P} {pl pl' : Planner K P V} {base n : Nat} (h : pl.allocateWorkspace G base n = some pl')
    {l : List (Nat × Nat)} (hl : ∀ b ∈ l, b.2 ≤ n) {rp : RPlanner K P V} (hrp : allocAll G ⟨pl, []⟩ ((base, n) :: l) = some rp)
    (base' : Nat) {n' : Nat} (hn : n' ≤ n) : ∃ rp', rp.allocateWorkspace G base' n' = some rp' ∧ Reused pl' n rp' := by
  obtain ⟨rp1, h1, h2⟩ := allocAll_reused h l hl
  obtain rfl := Option.some.inj (hrp.symm.trans h1)
  exact h2.allocate (allocated h) base' hn

/-- **C86**: a further solver that needs more workspace vectors than the first names fields that do not exist. -/
theorem c86_bigger_refused {G : Geometry P} {pl pl' : Planner K P V} {base n : Nat} (h : pl.allocateWorkspace G base n = some pl')
    (hs : 0 < pl'.spaces.length) (l : List (Nat × Nat)) (hl : ∀ b ∈ l, b.2 ≤ n) (rp : RPlanner K P V)
    (hrp : allocAll G ⟨pl, []⟩ ((base, n) :: l) = some rp) (base' n' : Nat) (hn : n < n') : rp.allocateWorkspace G base' n' = none := by
  obtain ⟨rp1, h1, H⟩ := allocAll_reused h l hl
  obtain rfl := Option.some.inj (hrp.symm.trans h1)
  obtain ⟨fm, hf⟩ := H.fields
  cases hr : rp.allocateWorkspace G base' n' with
  | none => rfl
  | some rp' =>
    unfold RPlanner.allocateWorkspace at hr
    split at hr
    · obtain ⟨hs', hm, -⟩ := Option.bind_eq_some_iff.1 hr
      obtain ⟨b, -, hb⟩ := mapM_get hm n n (by rw [List.getElem?_range hn])
      obtain ⟨v, -, hv⟩ := mapM_get hb 0 0 (by rw [List.getElem?_range (by rw [H.spaces]; exact hs)])
      unfold workVector at hv
      obtain ⟨q, -, hq⟩ := Option.bind_eq_some_iff.1 hv
      rw [if_neg] at hq
      · cases hq
      · rw [hf, List.append_assoc, List.getD_eq_getElem?_getD, List.getElem?_append_left (by rw [List.length_replicate]; exact hs),
          List.getElem?_replicate, if_pos hs]
        simp
    · cases hr

theorem Eff.after_allocate {G : Geometry P} {rp rp' : RPlanner K P V} {base n : Nat} (h : rp.allocateWorkspace G base n = some rp')
    {α : Type} {m : M P V α} {f : M P V α} (hf : Eff m f) : Eff (m >>= fun c => pure (rp', c)) (allocate G rp base n >>= fun rp' => f >>= fun c => pure (rp', c)) := by
  have : (allocate G rp base n >>= fun rp' => f >>= fun c => pure (rp', c)) = (f >>= fun c => pure (rp', c) : M P V (RPlanner K P V × α)) := by
    funext e
    show ((rp.allocateWorkspace G base n).map fun v => (v, e)).bind _ = _
    rw [h]; rfl
  rw [this]
  exact .bind hf fun _ => .of_le (.pure _) (.refl _)

theorem ensures_pair {α β : Type} {m : M P V α} {n : Nat} {s : Cell P → V} {Q : α → (Cell P → V) → Prop} (h : Ensures m n s Q) (b : β) :
    Ensures (m >>= fun c => pure (b, c)) n s fun r s' => r.1 = b ∧ Q r.2 s' := by
  obtain ⟨a, n', ts, h1, h2, h3⟩ := h
  refine ⟨(b, a), n', ts, ?_, h2, fun M' p q => ⟨rfl, h3 M' p q⟩⟩
  show (m ⟨n, []⟩).bind _ = _
  rw [h1]; rfl

/-- A further solver, as a relation between programs. -/
theorem second {G : Geometry P} {pl pl' : Planner K P V} {base n : Nat} (h : pl.allocateWorkspace G base n = some pl')
    {l : List (Nat × Nat)} (hl : ∀ b ∈ l, b.2 ≤ n) {rp : RPlanner K P V} (hrp : allocAll G ⟨pl, []⟩ ((base, n) :: l) = some rp)
    (base' : Nat) {n' : Nat} (hn : n' ≤ n) {α : Type} {m : M P V α} {f : Planner K P V → M P V α}
    (hf : ∀ rp', Reused pl' n rp' → Eff m (f rp'.pl)) {j : Nat} {s : Cell P → V} {Q : α → (Cell P → V) → Prop} (hQ : Ensures m j s Q) :
    ∃ rp', rp.allocateWorkspace G base' n' = some rp' ∧ Eff (m >>= fun c => pure (rp', c))
      (allocate G rp base' n' >>= fun rp' => f rp'.pl >>= fun c => pure (rp', c)) ∧
      Ensures (allocate G rp base' n' >>= fun rp' => f rp'.pl >>= fun c => pure (rp', c)) j s fun r s' =>
      allocAll G ⟨pl, []⟩ ((base, n) :: l ++ [(base', n')]) = some r.1 ∧ Q r.2 s' := by
  obtain ⟨rp', h1, h2⟩ := allocated_again h hl hrp base' hn
  have he := Eff.after_allocate (α := α) h1 (hf rp' h2)
  have hEq : (allocate G rp base' n' >>= fun rp' => f rp'.pl >>= fun c => pure (rp', c) : M P V (RPlanner K P V × α)) =
      (allocate G rp base' n' >>= fun x => f rp'.pl >>= fun c => pure (x, c)) := by
    funext e
    show ((rp.allocateWorkspace G base' n').map fun v => (v, e)).bind _ = ((rp.allocateWorkspace G base' n').map fun v => (v, e)).bind _
    rw [h1]; rfl
  have happ : ∀ (l : List (Nat × Nat)) (r r' : RPlanner K P V), allocAll G r l = some r' → ∀ c : Nat × Nat,
      allocAll G r (l ++ [c]) = r'.allocateWorkspace G c.1 c.2 := by
    intro l
    induction l with
    | nil =>
      intro r r' hr c
      obtain rfl := Option.some.inj hr
      show (r.allocateWorkspace G c.1 c.2).bind (fun x => some x) = _
      cases r.allocateWorkspace G c.1 c.2 <;> rfl
    | cons b l ih =>
      intro r r' hr c
      obtain ⟨r1, q1, q2⟩ := Option.bind_eq_some_iff.1 (show (r.allocateWorkspace G b.1 b.2).bind _ = _ from hr)
      show (r.allocateWorkspace G b.1 b.2).bind _ = _
      rw [q1]
      exact ih r1 r' q2 c
  refine ⟨rp', h1, by rw [hEq]; exact he, ?_⟩
  rw [hEq]
  refine ensures_weaken (he.ensures (ensures_pair hQ rp')) fun r s' hr => ⟨?_, hr.2⟩
  rw [hr.1, happ _ _ _ hrp]
  exact h1

/-- **C86**: after any number of solvers - each of at most `n` workspace vectors, run for any time - a further `CGSolver` starts from what
memory is now and does exactly what a CG iteration on the planner of the first solver does: whatever is true of that, under every
schedule, is true of the further solver. -/
theorem c86_next_cg (A : Arith V) {G : Geometry P} {pl pl' : Planner K P V} {base n : Nat} (h : pl.allocateWorkspace G base n = some pl')
    (l : List (Nat × Nat)) (hl : ∀ b ∈ l, b.2 ≤ n) (rp : RPlanner K P V) (hrp : allocAll G ⟨pl, []⟩ ((base, n) :: l) = some rp)
    (base' : Nat) (hn : 3 ≤ n) (k j : Nat) (s : Cell P → V) (Q : CG Scalar → (Cell P → V) → Prop)
    (hQ : Ensures (CG.solve (plannerOps A G.toEnv pl') k) j s Q) :
    Ensures (cg A G rp base' k) j s fun r s' => allocAll G ⟨pl, []⟩ ((base, n) :: l ++ [(base', 3)]) = some r.1 ∧ Q r.2 s' :=
  (second h hl hrp base' hn (f := fun p => CG.solve (releaseOps A G.toEnv p) k)
    (fun _ hr => OpsRel.cgSolve Eff.walk (hr.opsRel A G.toEnv) k) hQ).choose_spec.2.2

/-- The same for a further `BiCGStabSolver`. -/
theorem c86_next_bicgstab (A : Arith V) {G : Geometry P} {pl pl' : Planner K P V} {base n : Nat}
    (h : pl.allocateWorkspace G base n = some pl') (l : List (Nat × Nat)) (hl : ∀ b ∈ l, b.2 ≤ n) (rp : RPlanner K P V)
    (hrp : allocAll G ⟨pl, []⟩ ((base, n) :: l) = some rp) (base' : Nat) (hn : 5 ≤ n) (k j : Nat) (s : Cell P → V)
    (Q : BiCGStab Scalar → (Cell P → V) → Prop) (hQ : Ensures (BiCGStab.solve (plannerOps A G.toEnv pl') k) j s Q) :
    Ensures (biCGStab A G rp base' k) j s fun r s' => allocAll G ⟨pl, []⟩ ((base, n) :: l ++ [(base', 5)]) = some r.1 ∧ Q r.2 s' :=
  (second h hl hrp base' hn (f := fun p => BiCGStab.solve (releaseOps A G.toEnv p) k)
    (fun _ hr => OpsRel.biSolve Eff.walk (hr.opsRel A G.toEnv) k) hQ).choose_spec.2.2

/-- The same for a further `GMRESSolver`. -/
theorem c86_next_gmres (A : Arith V) {G : Geometry P} {pl pl' : Planner K P V} {base n : Nat}
    (h : pl.allocateWorkspace G base n = some pl') (l : List (Nat × Nat)) (hl : ∀ b ∈ l, b.2 ≤ n) (rp : RPlanner K P V)
    (hrp : allocAll G ⟨pl, []⟩ ((base, n) :: l) = some rp) (base' m : Nat) (hn : m + 1 ≤ n) (k j : Nat) (s : Cell P → V)
    (Q : GMRES Scalar → (Cell P → V) → Prop) (hQ : Ensures (GMRES.solve (plannerOps A G.toEnv pl') m k) j s Q) :
    Ensures (gmres A G rp base' m k) j s fun r s' => allocAll G ⟨pl, []⟩ ((base, n) :: l ++ [(base', m + 1)]) = some r.1 ∧ Q r.2 s' :=
  (second h hl hrp base' hn (f := fun p => GMRES.solve (releaseOps A G.toEnv p) m k)
    (fun _ hr => OpsRel.gmresSolve Eff.walk (hr.opsRel A G.toEnv) m k) hQ).choose_spec.2.2

theorem ensures_of_allocate {G : Geometry P} {pl pl' : Planner K P V} {base n : Nat} (h : pl.allocateWorkspace G base n = some pl')
    {α : Type} {f : Planner K P V → M P V α} {j : Nat} {s : Cell P → V} {Q : α → (Cell P → V) → Prop}
    (hQ : Ensures (Solver.allocate G pl base n >>= f) j s Q) : Ensures (f pl') j s Q := by
  obtain ⟨a, n', ts, h1, h2⟩ := hQ
  refine ⟨a, n', ts, ?_, h2⟩
  have : ((pl.allocateWorkspace G base n).map fun v => (v, (⟨j, []⟩ : Emit P V))).bind (fun p => f p.1 p.2) = some (a, ⟨n', ts⟩) := h1
  rw [h] at this
  exact this

/-- **C86**: in particular a further `CGSolver` after others of its kind does, from the memory as it is now, exactly what the first one of
the debug build would do. -/
theorem c86_cg_again (A : Arith V) {G : Geometry P} {pl pl' : Planner K P V} {base : Nat} (h : pl.allocateWorkspace G base 3 = some pl')
    (l : List (Nat × Nat)) (hl : ∀ b ∈ l, b.2 ≤ 3) (rp : RPlanner K P V) (hrp : allocAll G ⟨pl, []⟩ ((base, 3) :: l) = some rp)
    (base' k j : Nat) (s : Cell P → V) (Q : CG Scalar → (Cell P → V) → Prop) (hQ : Ensures (Solver.cg A G pl base k) j s Q) :
    Ensures (cg A G rp base' k) j s fun r s' => Q r.2 s' :=
  ensures_weaken (c86_next_cg A h l hl rp hrp base' (Nat.le_refl _) k j s Q (ensures_of_allocate h hQ)) fun _ _ h => h.2

/-- The same for `BiCGStabSolver`. -/
theorem c86_bicgstab_again (A : Arith V) {G : Geometry P} {pl pl' : Planner K P V} {base : Nat}
    (h : pl.allocateWorkspace G base 5 = some pl') (l : List (Nat × Nat)) (hl : ∀ b ∈ l, b.2 ≤ 5) (rp : RPlanner K P V)
    (hrp : allocAll G ⟨pl, []⟩ ((base, 5) :: l) = some rp) (base' k j : Nat) (s : Cell P → V)
    (Q : BiCGStab Scalar → (Cell P → V) → Prop) (hQ : Ensures (Solver.biCGStab A G pl base k) j s Q) :
    Ensures (biCGStab A G rp base' k) j s fun r s' => Q r.2 s' :=
  ensures_weaken (c86_next_bicgstab A h l hl rp hrp base' (Nat.le_refl _) k j s Q (ensures_of_allocate h hQ)) fun _ _ h => h.2

/-- The same for `GMRESSolver`. -/
theorem c86_gmres_again (A : Arith V) {G : Geometry P} {pl pl' : Planner K P V} {base m : Nat}
    (h : pl.allocateWorkspace G base (m + 1) = some pl') (l : List (Nat × Nat)) (hl : ∀ b ∈ l, b.2 ≤ m + 1) (rp : RPlanner K P V)
    (hrp : allocAll G ⟨pl, []⟩ ((base, m + 1) :: l) = some rp) (base' k j : Nat) (s : Cell P → V)
    (Q : GMRES Scalar → (Cell P → V) → Prop) (hQ : Ensures (Solver.gmres A G pl base m k) j s Q) :
    Ensures (gmres A G rp base' m k) j s fun r s' => Q r.2 s' :=
  ensures_weaken (c86_next_gmres A h l hl rp hrp base' m (Nat.le_refl _) k j s Q (ensures_of_allocate h hQ)) fun _ _ h => h.2

/-! ### Solvers of different kinds -/

/-- The planner with fewer workspace vectors. -/
def takeWork (pl : Planner K P V) (n : Nat) : Planner K P V := { pl with workspace := pl.workspace.take n }

theorem lookup_take {pl : Planner K P V} {n k i : Nat} (hk : k < n + 2) : (takeWork pl n).lookup k i = pl.lookup k i := by
  unfold Planner.lookup
  split
  · rfl
  · split
    · rfl
    · show ((pl.workspace.take n)[k - 2]?).bind _ = (pl.workspace[k - 2]?).bind _
      rw [List.getElem?_take_of_lt (by omega)]

theorem ready_take {G : Geometry P} {pl : Planner K P V} {n m : Nat} (h : Ready G pl n) (hm : m ≤ n) : Ready G (takeWork pl m) m := by
  have hv : ∀ k i, k < m + 2 → (takeWork pl m).vec k i = pl.vec k i := by
    intro k i hk
    unfold Planner.vec
    rw [lookup_take hk]
  have hsz : (takeWork pl m).sizesAgree = true := by
    have := h.sizes
    simp only [Planner.sizesAgree, Bool.and_eq_true] at this ⊢
    refine ⟨this.1, ?_⟩
    rw [List.all_eq_true]
    exact fun v hv => List.all_eq_true.1 this.2 v (List.mem_of_mem_take hv)
  refine ⟨hsz, ?_, fun k i hk hi => ?_, h.partition, fun k i k' i' hk hi hk' hi' he => ?_, h.ops⟩
  · show (pl.workspace.take m).length = m
    rw [List.length_take, h.workspace]; omega
  · rw [lookup_take hk]
    exact h.blocks k i (by omega) hi
  · rw [hv k i hk, hv k' i' hk'] at he
    exact h.distinct k i k' i' (by omega) hi (by omega) hi' he

theorem Reused.take {pl' : Planner K P V} {n m : Nat} {rp : RPlanner K P V} (h : Reused pl' n rp) : Reused (takeWork pl' m) n rp :=
  ⟨h.spaces, h.parts, h.sol, h.rhs, h.ops, h.wParts, h.fields, fun j l hl => h.blocks j l (by
    have : (pl'.workspace.take m)[j]? = some l := hl
    rw [List.getElem?_take] at this
    split at this
    · exact this
    · cases this)⟩

theorem content_take {G : Geometry P} {pl : Planner K P V} {m : Nat} (s : Cell P → V) {k : Nat} (hk : k < m + 2) :
    (takeWork pl m).content G s k = pl.content G s k := by
  funext u
  unfold Planner.content Planner.vec
  rw [lookup_take hk]

/-- **C86**: a CG solver constructed after a solver with more workspace (GMRES, say), in the release build: every step finishes under every
schedule, one more value is recorded per step, the right-hand side stays, and nothing outside the solution and the first three workspace
vectors changes. -/
theorem c86_cg_after_others (A : Arith V) {G : Geometry P} {pl pl' : Planner K P V} {base n : Nat} (S : SolverSetup G pl pl' base n)
    (l : List (Nat × Nat)) (hl : ∀ b ∈ l, b.2 ≤ n) (rp : RPlanner K P V) (hrp : allocAll G ⟨pl, []⟩ ((base, n) :: l) = some rp)
    (base' : Nat) (hn : 3 ≤ n) (k j : Nat) (s : Cell P → V) :
    Ensures (cg A G rp base' k) j s fun r s' => r.2.history.length = k + 1 ∧ pl'.content G s' 1 = pl'.content G s 1 ∧
      ∀ d p, (∀ j, j = 0 ∨ 2 ≤ j ∧ j < 5 → ∀ u : pl'.U G, (d, p) ≠ ((pl'.vec j u.1.1).data, u.1.2)) → s' (.elem d p) = s (.elem d p) := by
  have R := ready_take S.ready hn
  obtain ⟨a, n', s', h1, h2, h3⟩ := safe_cg A R S.order S.nonempty k j s
  have hQ := h1.ensures (Q := fun c s' => c.history.length = k + 1 ∧ (takeWork pl' 3).content G s' 1 = (takeWork pl' 3).content G s 1 ∧
    ∀ d p, (∀ j, j = 0 ∨ 2 ≤ j ∧ j < 5 → ∀ u : pl'.U G, (d, p) ≠ (((takeWork pl' 3).vec j u.1.1).data, u.1.2)) → s' (.elem d p) = s (.elem d p))
    ⟨h2, outside_rhs R h3.elem, fun d p hd => h3.elem d p fun j hj hj1 => hd j (by omega)⟩
  refine ensures_weaken (second S.alloc hl hrp base' hn (f := fun p => CG.solve (releaseOps A G.toEnv p) k)
    (fun _ hr => OpsRel.cgSolve Eff.walk (hr.take.opsRel A G.toEnv) k) hQ).choose_spec.2.2 fun r t hr => ⟨hr.2.1, ?_, fun d p hd => ?_⟩
  · have := hr.2.2.1
    rw [content_take s (by omega), content_take t (by omega)] at this
    exact this
  · refine hr.2.2.2 d p fun j hj u he => hd j hj u ?_
    have : (takeWork pl' 3).vec j u.1.1 = pl'.vec j u.1.1 := by
      unfold Planner.vec; rw [lookup_take (by omega)]
    rw [this] at he
    exact he

end

/-! ## Solving again -/

section
variable {K P V : Type} [DecidableEq P] [DecidableEq K] [Field V] {A : Arith V} {G : Geometry P} {pl pl' : Planner K P V} {base : Nat}

theorem textbook_cg_shift {ι : Type} [Fintype ι] (M : _root_.Matrix ι ι V) (x x' b : ι → V) : ∀ k,
    (Textbook.cg M x b k).r = (Textbook.cg M x' b k).r ∧ (Textbook.cg M x b k).p = (Textbook.cg M x' b k).p
  | 0 => ⟨rfl, rfl⟩
  | k + 1 => by
    obtain ⟨h1, h2⟩ := textbook_cg_shift M x x' b k
    unfold Textbook.cg Textbook.cgStep
    simp only [h1, h2, and_self]

theorem regular_shift {ι : Type} [Fintype ι] {M : _root_.Matrix ι ι V} {x x' b : ι → V} {k : Nat} (h : CGRegular M x b k) :
    CGRegular M x' b k := by
  intro i hi
  obtain ⟨h1, h2⟩ := textbook_cg_shift M x x' b i
  rw [← h1, ← h2]
  exact h i hi

/-- What one CG solver leaves. -/
theorem cg_leaves (hA : A.Exact) (S : SolverSetup G pl pl' base 3) (k n : Nat) (s : Cell P → V)
    (hreg : CGRegular (pl'.operator G) (pl'.content G s 0) (pl'.content G s 1) k)
    (hk : (Textbook.cg (pl'.operator G) (pl'.content G s 0) (pl'.content G s 1) k).r = 0) :
    Ensures (Solver.cg A G pl base k) n s fun _ s' => pl'.content G s' 1 = pl'.content G s 1 ∧
      pl'.operator G *ᵥ pl'.content G s' 0 = pl'.content G s 1 + pl'.operator G *ᵥ pl'.content G s 0 := by
  refine WP.ensures ((cg_wp hA S k n s hreg).mono fun c n' s' h => ?_)
  obtain ⟨c1, c0, -, -⟩ := h.1.contents
  refine ⟨c1, ?_⟩
  rw [cg_residual, ← c0, _root_.Matrix.mulVec_sub] at hk
  rw [sub_eq_zero.1 hk]; simp

/-- **C86**: in the release build, constructing a second `CGSolver` on the planner to continue does not continue: when both have reached a
zero residual of their own, the solution vector solves the system with *twice* the right-hand side (plus the contribution of the initial
guess), so it solves the system only if `b + A x0 = 0`. -/
theorem c86_cg_twice (hA : A.Exact) (S : SolverSetup G pl pl' base 3) (base' k k' n : Nat) (s : Cell P → V)
    (hreg : CGRegular (pl'.operator G) (pl'.content G s 0) (pl'.content G s 1) k)
    (hreg' : CGRegular (pl'.operator G) (pl'.content G s 0) (pl'.content G s 1) k')
    (hk : (Textbook.cg (pl'.operator G) (pl'.content G s 0) (pl'.content G s 1) k).r = 0)
    (hk' : (Textbook.cg (pl'.operator G) (pl'.content G s 0) (pl'.content G s 1) k').r = 0) :
    Ensures (cg A G ⟨pl, []⟩ base k >>= fun r => cg A G r.1 base' k') n s fun _ s' =>
      pl'.operator G *ᵥ pl'.content G s' 0 = pl'.content G s 1 + (pl'.content G s 1 + pl'.operator G *ᵥ pl'.content G s 0) ∧
      pl'.content G s' 1 = pl'.content G s 1 := by
  obtain ⟨rp, h1, h2, h3⟩ := Reused.first S.alloc
  have hE := Eff.after_allocate h1 (OpsRel.cgSolve Eff.walk (h3.opsRel A G.toEnv) k)
  obtain ⟨a, n1, s1, r1, ha, q1, q2⟩ := hE.runs (ensures_pair (ensures_of_allocate S.alloc (cg_leaves hA S k n s hreg hk)) rp)
  have r1' : Runs (cg A G ⟨pl, []⟩ base k) n s a n1 s1 := by
    have : cg A G ⟨pl, []⟩ base k = (allocate G ⟨pl, []⟩ base 3 >>= fun x => CG.solve (releaseOps A G.toEnv rp.pl) k >>= fun c => pure (x, c)) := by
      funext e
      show ((RPlanner.allocateWorkspace G ⟨pl, []⟩ base 3).map fun v => (v, e)).bind _ =
        ((RPlanner.allocateWorkspace G ⟨pl, []⟩ base 3).map fun v => (v, e)).bind _
      rw [h1]; rfl
    rw [this]; exact r1
  have hrp : allocAll G ⟨pl, []⟩ ((base, 3) :: []) = some rp := by
    show (RPlanner.allocateWorkspace G ⟨pl, []⟩ base 3).bind _ = _
    rw [h1]; rfl
  have hb : CGRegular (pl'.operator G) (pl'.content G s1 0) (pl'.content G s1 1) k' := by rw [q1]; exact regular_shift hreg'
  have hk1 : (Textbook.cg (pl'.operator G) (pl'.content G s1 0) (pl'.content G s1 1) k').r = 0 := by
    rw [q1, ← (textbook_cg_shift _ (pl'.content G s 0) _ _ k').1]; exact hk'
  obtain ⟨rp', -, e2, -⟩ := second S.alloc (l := []) (by simp) hrp base' (Nat.le_refl 3) (f := fun p => CG.solve (releaseOps A G.toEnv p) k')
    (fun _ hr => OpsRel.cgSolve Eff.walk (hr.opsRel A G.toEnv) k') (ensures_of_allocate S.alloc (cg_leaves hA S k' n1 s1 hb hk1))
  obtain ⟨b, n2, s2, r2, -, p1, p2⟩ := e2.runs (ensures_pair (ensures_of_allocate S.alloc (cg_leaves hA S k' n1 s1 hb hk1)) rp')
  have r2' : Runs (cg A G a.1 base' k') n1 s1 b n2 s2 := by rw [ha]; exact r2
  have hR := r1'.bind (f := fun r => cg A G r.1 base' k') r2'
  refine hR.ensures ?_
  refine ⟨?_, p1.trans q1⟩
  rw [p2, q2, q1]

end

end Verif.Release
