import Verif.Vector.Model
import Verif.Vector.Spec
import Verif.Runtime.Sched

/-! Helper lemmas about task bodies and the launch monad. -/
set_option linter.unusedSectionVars false
namespace Verif.Vector
open Verif.Runtime

section generic
variable {C V ι : Type} [DecidableEq C]

/-- A loop of assignments to pairwise different cells, none of which reads a cell another one writes, is a simultaneous
assignment. -/
theorem runUpdates_map (d : ι → C) (g : ι → (C → V) → V) (pts : List ι) (s : C → V)
    (hnd : pts.Pairwise fun p q => d p ≠ d q)
    (hind : ∀ p ∈ pts, ∀ q ∈ pts, d p ≠ d q → ∀ s : C → V, ∀ v, g q (fun c => if c = d p then v else s c) = g q s) :
    (∀ p ∈ pts, runUpdates s (pts.map fun p => ⟨d p, g p⟩) (d p) = g p s) ∧
    (∀ c, (∀ p ∈ pts, c ≠ d p) → runUpdates s (pts.map fun p => ⟨d p, g p⟩) c = s c) := by
  induction pts generalizing s with
  | nil => exact ⟨fun p hp => by (cases hp), fun _ _ => rfl⟩
  | cons q l ih =>
    obtain ⟨hq, hl⟩ := List.pairwise_cons.1 hnd
    have ih' := ih (Update.exec s ⟨d q, g q⟩) hl
      (fun p hp q hq => hind p (List.mem_cons_of_mem _ hp) q (List.mem_cons_of_mem _ hq))
    have hrun : runUpdates s ((q :: l).map fun p => ⟨d p, g p⟩) =
        runUpdates (Update.exec s ⟨d q, g q⟩) (l.map fun p => ⟨d p, g p⟩) := rfl
    rw [hrun]
    constructor
    · intro p hp
      rcases List.mem_cons.1 hp with rfl | hp
      · rw [ih'.2 _ hq]
        simp [Update.exec]
      · rw [ih'.1 p hp]
        exact hind q (List.mem_cons_self ..) p (List.mem_cons_of_mem _ hp) (hq p hp) s _
    · intro c hc
      rw [ih'.2 c (fun p hp => hc p (List.mem_cons_of_mem _ hp))]
      simp [Update.exec, hc q (List.mem_cons_self ..)]

end generic

variable {P V : Type} [DecidableEq P]

/-- Set the elements of `v` at the points of `space`. -/
def setVec (s : Cell P → V) (v : Vec) (space : List P) (g : P → V) : Cell P → V
  | .elem d p => if d = v.data ∧ p ∈ space then g p else s (.elem d p)
  | c => s c

/-- Set a future. -/
def setFut (s : Cell P → V) (f : Nat) (a : V) : Cell P → V
  | .fut g => if g = f then a else s (.fut g)
  | c => s c

@[simp] theorem setVec_elem (s : Cell P → V) (v : Vec) (space : List P) (g : P → V) (d : Nat) (p : P) :
    setVec s v space g (.elem d p) = if d = v.data ∧ p ∈ space then g p else s (.elem d p) := rfl
@[simp] theorem setVec_fut (s : Cell P → V) (v : Vec) (space : List P) (g : P → V) (f : Nat) :
    setVec s v space g (.fut f) = s (.fut f) := rfl
@[simp] theorem setVec_part (s : Cell P → V) (v : Vec) (space : List P) (g : P → V) (f k : Nat) :
    setVec s v space g (.part f k) = s (.part f k) := rfl
@[simp] theorem setFut_elem (s : Cell P → V) (f : Nat) (a : V) (d : Nat) (p : P) :
    setFut s f a (.elem d p) = s (.elem d p) := rfl
@[simp] theorem setFut_fut (s : Cell P → V) (f : Nat) (a : V) (g : Nat) :
    setFut s f a (.fut g) = if g = f then a else s (.fut g) := rfl
@[simp] theorem setFut_part (s : Cell P → V) (f : Nat) (a : V) (g k : Nat) :
    setFut s f a (.part g k) = s (.part g k) := rfl

/-- An element-wise loop over one vector's piece. -/
theorem run_piece (v : Vec) (g : P → (Cell P → V) → V) (pts : List P) (s : Cell P → V) (hnd : pts.Nodup)
    (hind : ∀ p q, p ≠ q → ∀ s : Cell P → V, ∀ a, g q (fun c => if c = .elem v.data p then a else s c) = g q s) :
    runUpdates s (pts.map fun p => ⟨.elem v.data p, g p⟩) = setVec s v pts (fun p => g p s) := by
  have h := runUpdates_map (fun p => Cell.elem v.data p) g pts s
    (hnd.imp (fun h e => h (by injection e)))
    (fun p _ q _ hne s a => hind p q (fun e => hne (by rw [e])) s a)
  funext c
  cases c with
  | elem d p =>
    rw [setVec_elem]
    split
    · next h' =>
      obtain ⟨rfl, hp⟩ := h'
      exact h.1 p hp
    · next h' =>
      refine h.2 _ ?_
      intro q hq e
      injection e with e1 e2
      exact h' ⟨e1, e2 ▸ hq⟩
  | part f k => exact h.2 _ (fun _ _ e => by cases e)
  | fut f => exact h.2 _ (fun _ _ e => by cases e)

/-- An index launch of an element-wise loop, piece by piece, is the loop over the whole space. -/
theorem run_pieces (v : Vec) (mk : List P → Task (Cell P) V) (g : P → (Cell P → V) → V)
    (hb : ∀ pts, (mk pts).body = pts.map fun p => ⟨.elem v.data p, g p⟩)
    (pieces : List (List P)) (s : Cell P → V) (hnd : pieces.flatten.Nodup)
    (hind : ∀ p q, p ≠ q → ∀ s : Cell P → V, ∀ a, g q (fun c => if c = .elem v.data p then a else s c) = g q s) :
    runTasks s (pieces.map mk) = setVec s v pieces.flatten (fun p => g p s) := by
  have h1 : runTasks s (pieces.map mk) = runUpdates s (pieces.flatten.map fun p => ⟨.elem v.data p, g p⟩) := by
    clear hnd hind
    induction pieces generalizing s with
    | nil => rfl
    | cons pts l ih =>
      rw [List.map_cons, runTasks_cons, ih, hb, List.flatten_cons, List.map_append, runUpdates_append]
  rw [h1, run_piece v g _ s hnd hind]

theorem setVec_congr (s : Cell P → V) (v : Vec) {l l' : List P} (g g' : P → V) (h : ∀ p, p ∈ l ↔ p ∈ l')
    (hg : ∀ p ∈ l', g p = g' p) : setVec s v l g = setVec s v l' g' := by
  funext c
  cases c with
  | elem d p =>
    rw [setVec_elem, setVec_elem]
    by_cases h' : d = v.data ∧ p ∈ l'
    · rw [if_pos h', if_pos ⟨h'.1, (h p).2 h'.2⟩, hg p h'.2]
    · rw [if_neg h', if_neg (fun hh => h' ⟨hh.1, (h p).1 hh.2⟩)]
  | _ => rfl

/-! ## The launch monad -/

variable {α β : Type}

/-- Big-step meaning of an API call: with next free future `n` and (as-if-sequential) memory `s` the call does not abort,
returns `a`, leaves next free future `n'`, launches only tasks that do what they declare, and running these in launch order
turns memory into `s'`. -/
def Runs (m : M P V α) (n : Nat) (s : Cell P → V) (a : α) (n' : Nat) (s' : Cell P → V) : Prop :=
  ∃ ts : List (Task (Cell P) V), (∀ out, m ⟨n, out⟩ = some (a, ⟨n', out ++ ts⟩)) ∧ (∀ t ∈ ts, t.Honest) ∧ runTasks s ts = s'

theorem Runs.pure (a : α) (n : Nat) (s : Cell P → V) : Runs (pure a : M P V α) n s a n s :=
  ⟨[], fun out => by rw [List.append_nil]; rfl, (fun t ht => by cases ht), rfl⟩

theorem Runs.bind {m : M P V α} {f : α → M P V β} {n n' n'' : Nat} {s s' s'' : Cell P → V} {a : α} {b : β}
    (h1 : Runs m n s a n' s') (h2 : Runs (f a) n' s' b n'' s'') : Runs (m >>= f) n s b n'' s'' := by
  obtain ⟨ts, e1, o1, r1⟩ := h1
  obtain ⟨us, e2, o2, r2⟩ := h2
  refine ⟨ts ++ us, ?_, ?_, ?_⟩
  · intro out
    show (m ⟨n, out⟩ >>= fun x => f x.1 x.2) = _
    rw [e1]
    show f a ⟨n', out ++ ts⟩ = _
    rw [e2, List.append_assoc]
  · intro t ht
    rcases List.mem_append.1 ht with h | h
    · exact o1 t h
    · exact o2 t h
  · rw [runTasks_append, r1, r2]

theorem Runs.require {b : Bool} (hb : b = true) (n : Nat) (s : Cell P → V) : Runs (require b : M P V Unit) n s () n s :=
  ⟨[], fun out => by rw [List.append_nil]; simp [Verif.Vector.require, hb], (fun t ht => by cases ht), rfl⟩

theorem Runs.fresh (n : Nat) (s : Cell P → V) : Runs (fresh : M P V Nat) n s n (n + 1) s :=
  ⟨[], fun out => by rw [List.append_nil]; rfl, (fun t ht => by cases ht), rfl⟩

theorem Runs.launch (ts : List (Task (Cell P) V)) (n : Nat) (s : Cell P → V) (h : ∀ t ∈ ts, t.Honest) :
    Runs (launch ts : M P V Unit) n s () n (runTasks s ts) :=
  ⟨ts, fun _ => rfl, h, rfl⟩

theorem Runs.cast {m : M P V α} {n n' : Nat} {s s' s'' : Cell P → V} {a : α} (h : Runs m n s a n' s') (e : s' = s'') :
    Runs m n s a n' s'' := e ▸ h

theorem Runs.check {y x : Vec} (h1 : y.space = x.space) (h2 : y.colors = x.colors) (h3 : y.part = x.part) (n : Nat)
    (s : Cell P → V) : Runs (checkCompatible y x : M P V Unit) n s () n s := by
  unfold checkCompatible
  exact (Runs.require (by simpa using h1) n s).bind ((Runs.require (by simpa using h2) n s).bind
    (Runs.require (by simpa using h3) n s))

/-- The meaning of a call holds for every parallel execution of what it launched. -/
theorem Runs.any_schedule {m : M P V α} {n n' : Nat} {s s' : Cell P → V} {a : α} (h : Runs m n s a n' s') :
    ∃ ts, m ⟨n, []⟩ = some (a, ⟨n', ts⟩) ∧
      ∀ M' : Machine (Cell P) V, (Machine.start s ts).Steps M' → M'.Done → M'.store = s' := by
  obtain ⟨ts, e, o, r⟩ := h
  refine ⟨ts, by rw [e]; rfl, fun M' h1 h2 => ?_⟩
  rw [c42_any_schedule s ts o M' h1 h2, r]

/-! ## Honesty of the point tasks -/

theorem alphaOf_congr (A : Arith V) (futs : List Nat) (s s' : Cell P → V) (h : ∀ f ∈ futs, s (.fut f) = s' (.fut f)) :
    alphaOf A futs s = alphaOf A futs s' := by
  unfold alphaOf
  rw [List.map_congr_left h]

theorem scalTask_honest (A : Arith V) (x : Vec) (futs : List Nat) (pts : List P) : (scalTask A x futs pts).Honest := by
  intro u hu
  obtain ⟨p, hp, rfl⟩ := List.mem_map.1 hu
  refine ⟨⟨p, hp, rfl⟩, fun s s' h => ?_⟩
  show A.mul (alphaOf A futs s) _ = A.mul (alphaOf A futs s') _
  rw [alphaOf_congr A futs s s' (fun f hf => h _ (Or.inr ⟨f, hf, rfl⟩)), h _ (Or.inl ⟨p, hp, rfl⟩)]

theorem axpyTask_honest (A : Arith V) (y x : Vec) (futs : List Nat) (pts : List P) : (axpyTask A y x futs pts).Honest := by
  intro u hu
  obtain ⟨p, hp, rfl⟩ := List.mem_map.1 hu
  refine ⟨⟨p, hp, rfl⟩, fun s s' h => ?_⟩
  show A.fma (alphaOf A futs s) _ _ = A.fma (alphaOf A futs s') _ _
  rw [alphaOf_congr A futs s s' (fun f hf => h _ (Or.inr (Or.inr ⟨f, hf, rfl⟩))), h _ (Or.inl ⟨p, hp, rfl⟩),
    h _ (Or.inr (Or.inl ⟨p, hp, rfl⟩))]

theorem xpayTask_honest (A : Arith V) (y x : Vec) (futs : List Nat) (pts : List P) : (xpayTask A y x futs pts).Honest := by
  intro u hu
  obtain ⟨p, hp, rfl⟩ := List.mem_map.1 hu
  refine ⟨⟨p, hp, rfl⟩, fun s s' h => ?_⟩
  show A.fma (alphaOf A futs s) _ _ = A.fma (alphaOf A futs s') _ _
  rw [alphaOf_congr A futs s s' (fun f hf => h _ (Or.inr (Or.inr ⟨f, hf, rfl⟩))), h _ (Or.inl ⟨p, hp, rfl⟩),
    h _ (Or.inr (Or.inl ⟨p, hp, rfl⟩))]

theorem fillTask_honest (v : Vec) (f : Nat) (pts : List P) : (fillTask (V := V) v f pts).Honest := by
  intro u hu
  obtain ⟨p, hp, rfl⟩ := List.mem_map.1 hu
  exact ⟨⟨p, hp, rfl⟩, fun s s' h => h _ rfl⟩

theorem fillValueTask_honest (v : Vec) (a : V) (pts : List P) : (fillValueTask v a pts).Honest := by
  intro u hu
  obtain ⟨p, hp, rfl⟩ := List.mem_map.1 hu
  exact ⟨⟨p, hp, rfl⟩, fun s s' h => rfl⟩

theorem copyTask_honest (d x : Vec) (pts : List P) : (copyTask (V := V) d x pts).Honest := by
  intro u hu
  obtain ⟨p, hp, rfl⟩ := List.mem_map.1 hu
  exact ⟨⟨p, hp, rfl⟩, fun s s' h => h _ ⟨p, hp, rfl⟩⟩

theorem dotTask_honest (A : Arith V) (v w : Vec) (f k : Nat) (pts : List P) : (dotTask A v w f k pts).Honest := by
  intro u hu
  rcases List.mem_cons.1 hu with rfl | hu
  · exact ⟨rfl, fun _ _ _ => rfl⟩
  · obtain ⟨p, hp, rfl⟩ := List.mem_map.1 hu
    refine ⟨rfl, fun s s' h => ?_⟩
    show A.add _ (A.mul _ _) = A.add _ (A.mul _ _)
    rw [h _ (Or.inr (Or.inr rfl)), h _ (Or.inl ⟨p, hp, rfl⟩), h _ (Or.inr (Or.inl ⟨p, hp, rfl⟩))]

theorem reduceTask_honest (A : Arith V) (f : Nat) (order : List Nat) : (reduceTask (P := P) A f order).Honest := by
  intro u hu
  rw [reduceTask, List.mem_singleton] at hu
  subst hu
  refine ⟨rfl, fun s s' h => ?_⟩
  show order.foldl _ _ = order.foldl _ _
  have : ∀ (l : List Nat) (a : V), (∀ k ∈ l, k ∈ order) →
      l.foldl (fun a k => A.add a (s (.part f k))) a = l.foldl (fun a k => A.add a (s' (.part f k))) a := by
    intro l
    induction l with
    | nil => intro a _; rfl
    | cons k l ih =>
      intro a hl
      rw [List.foldl_cons, List.foldl_cons, h (.part f k) ⟨k, hl k (List.mem_cons_self ..), rfl⟩]
      exact ih _ (fun k hk => hl k (List.mem_cons_of_mem _ hk))
  exact this order _ (fun _ h => h)

/-! ## Meaning of the vector operations, as store transformers -/

theorem upd_ne {v : Nat} {p q : P} (h : p ≠ q) (s : Cell P → V) (a : V) (d : Nat) :
    (fun c => if c = Cell.elem v p then a else s c) (.elem d q) = s (.elem d q) := by
  have : Cell.elem d q ≠ Cell.elem v p := fun e => h (by injection e with _ e; exact e.symm)
  simp [this]

theorem alphaOf_upd (A : Arith V) (futs : List Nat) (s : Cell P → V) (v : Nat) (p : P) (a : V) :
    alphaOf A futs (fun c => if c = Cell.elem v p then a else s c) = alphaOf A futs s := by
  apply alphaOf_congr
  intro f _
  simp

theorem Runs.constantFill (E : Env P) (v : Vec) (a : V) (space : List P) (hp : IsPartition space (E.pieces v.part))
    (n : Nat) (s : Cell P → V) : Runs (constantFill E v a) n s () n (setVec s v space fun _ => a) := by
  refine (Runs.launch _ n s ?_).cast ?_
  · intro t ht; obtain ⟨pts, -, rfl⟩ := List.mem_map.1 ht; exact fillValueTask_honest v a pts
  · rw [run_pieces v _ (fun _ _ => a) (fun _ => rfl) _ s hp.1 (fun _ _ _ _ _ => rfl)]
    exact setVec_congr _ _ _ _ hp.2 (fun _ _ => rfl)

theorem Runs.constantFillScalar (E : Env P) (v : Vec) (a : Scalar) (space : List P)
    (hp : IsPartition space (E.pieces v.part)) (n : Nat) (s : Cell P → V) :
    Runs (constantFillScalar E v a) n s () n (setVec s v space fun _ => s (.fut a.fut)) := by
  refine (Runs.launch _ n s ?_).cast ?_
  · intro t ht; obtain ⟨pts, -, rfl⟩ := List.mem_map.1 ht; exact fillTask_honest v _ pts
  · rw [run_pieces v _ (fun _ s => s (.fut a.fut)) (fun _ => rfl) _ s hp.1 (fun p q _ s b => by simp)]
    exact setVec_congr _ _ _ _ hp.2 (fun _ _ => rfl)

theorem Runs.scal (A : Arith V) (E : Env P) (x : Vec) (a : Scalar) (space : List P)
    (hp : IsPartition space (E.pieces x.part)) (n : Nat) (s : Cell P → V) :
    Runs (scal A E x a) n s () n (setVec s x space fun p => A.mul (s (.fut a.fut)) (s (.elem x.data p))) := by
  refine (Runs.launch _ n s ?_).cast ?_
  · intro t ht; obtain ⟨pts, -, rfl⟩ := List.mem_map.1 ht; exact scalTask_honest A x _ pts
  · rw [run_pieces x _ (fun p s => A.mul (alphaOf A [a.fut] s) (s (.elem x.data p))) (fun _ => rfl) _ s hp.1 ?_]
    · exact setVec_congr _ _ _ _ hp.2 (fun _ _ => rfl)
    · intro p q hne s b
      rw [alphaOf_upd, upd_ne hne]

/-- General axpy with any list of futures, distinct data. -/
theorem Runs.axpyGen (A : Arith V) (E : Env P) (y x : Vec) (futs : List Nat) (space : List P)
    (hp : IsPartition space (E.pieces y.part)) (n : Nat) (s : Cell P → V) :
    Runs (Verif.Vector.launch ((E.pieces y.part).map (axpyTask A y x futs)) : M P V Unit) n s () n
      (setVec s y space fun p => A.fma (alphaOf A futs s) (s (.elem x.data p)) (s (.elem y.data p))) := by
  refine (Runs.launch _ n s ?_).cast ?_
  · intro t ht; obtain ⟨pts, -, rfl⟩ := List.mem_map.1 ht; exact axpyTask_honest A y x _ pts
  · rw [run_pieces y _ (fun p s => A.fma (alphaOf A futs s) (s (.elem x.data p)) (s (.elem y.data p)))
      (fun _ => rfl) _ s hp.1 ?_]
    · exact setVec_congr _ _ _ _ hp.2 (fun _ _ => rfl)
    · intro p q hne s b
      rw [alphaOf_upd, upd_ne hne, upd_ne hne]

theorem Runs.xpayGen (A : Arith V) (E : Env P) (y x : Vec) (futs : List Nat) (space : List P)
    (hp : IsPartition space (E.pieces y.part)) (n : Nat) (s : Cell P → V) :
    Runs (Verif.Vector.launch ((E.pieces y.part).map (xpayTask A y x futs)) : M P V Unit) n s () n
      (setVec s y space fun p => A.fma (alphaOf A futs s) (s (.elem y.data p)) (s (.elem x.data p))) := by
  refine (Runs.launch _ n s ?_).cast ?_
  · intro t ht; obtain ⟨pts, -, rfl⟩ := List.mem_map.1 ht; exact xpayTask_honest A y x _ pts
  · rw [run_pieces y _ (fun p s => A.fma (alphaOf A futs s) (s (.elem y.data p)) (s (.elem x.data p)))
      (fun _ => rfl) _ s hp.1 ?_]
    · exact setVec_congr _ _ _ _ hp.2 (fun _ _ => rfl)
    · intro p q hne s b
      rw [alphaOf_upd, upd_ne hne, upd_ne hne]

theorem Runs.axpy (A : Arith V) (E : Env P) (y : Vec) (a : Scalar) (x : Vec) (h1 : y.space = x.space)
    (h2 : y.colors = x.colors) (h3 : y.part = x.part) (space : List P)
    (hp : IsPartition space (E.pieces y.part)) (n : Nat) (s : Cell P → V) :
    Runs (axpy A E y a x) n s () n
      (setVec s y space fun p => A.fma (s (.fut a.fut)) (s (.elem x.data p)) (s (.elem y.data p))) :=
  (Runs.check h1 h2 h3 n s).bind (Runs.axpyGen A E y x _ space hp n s)

theorem Runs.axpy2 (A : Arith V) (E : Env P) (y : Vec) (a b : Scalar) (x : Vec) (h1 : y.space = x.space)
    (h2 : y.colors = x.colors) (h3 : y.part = x.part) (space : List P)
    (hp : IsPartition space (E.pieces y.part)) (n : Nat) (s : Cell P → V) :
    Runs (axpy2 A E y a b x) n s () n
      (setVec s y space fun p => A.fma (A.div (s (.fut a.fut)) (s (.fut b.fut))) (s (.elem x.data p)) (s (.elem y.data p))) :=
  (Runs.check h1 h2 h3 n s).bind (Runs.axpyGen A E y x _ space hp n s)

theorem Runs.axpy3 (A : Arith V) (E : Env P) (y : Vec) (a b c : Scalar) (x : Vec) (h1 : y.space = x.space)
    (h2 : y.colors = x.colors) (h3 : y.part = x.part) (space : List P)
    (hp : IsPartition space (E.pieces y.part)) (n : Nat) (s : Cell P → V) :
    Runs (axpy3 A E y a b c x) n s () n
      (setVec s y space fun p => A.fma (A.div (A.mul (s (.fut a.fut)) (s (.fut b.fut))) (s (.fut c.fut)))
        (s (.elem x.data p)) (s (.elem y.data p))) :=
  (Runs.check h1 h2 h3 n s).bind (Runs.axpyGen A E y x _ space hp n s)

theorem Runs.xpay (A : Arith V) (E : Env P) (y : Vec) (a : Scalar) (x : Vec) (h1 : y.space = x.space)
    (h2 : y.colors = x.colors) (h3 : y.part = x.part) (space : List P)
    (hp : IsPartition space (E.pieces y.part)) (n : Nat) (s : Cell P → V) :
    Runs (xpay A E y a x) n s () n
      (setVec s y space fun p => A.fma (s (.fut a.fut)) (s (.elem y.data p)) (s (.elem x.data p))) :=
  (Runs.check h1 h2 h3 n s).bind (Runs.xpayGen A E y x _ space hp n s)

theorem Runs.xpay2 (A : Arith V) (E : Env P) (y : Vec) (a b : Scalar) (x : Vec) (h1 : y.space = x.space)
    (h2 : y.colors = x.colors) (h3 : y.part = x.part) (space : List P)
    (hp : IsPartition space (E.pieces y.part)) (n : Nat) (s : Cell P → V) :
    Runs (xpay2 A E y a b x) n s () n
      (setVec s y space fun p => A.fma (A.div (s (.fut a.fut)) (s (.fut b.fut))) (s (.elem y.data p)) (s (.elem x.data p))) :=
  (Runs.check h1 h2 h3 n s).bind (Runs.xpayGen A E y x _ space hp n s)

theorem Runs.assign (E : Env P) (d x : Vec) (h1 : d.space = x.space) (h2 : d.colors = x.colors) (h3 : d.part = x.part)
    (space : List P) (hp : IsPartition space (E.pieces d.part)) (n : Nat) (s : Cell P → V) :
    Runs (assign E d x) n s () n (setVec s d space fun p => s (.elem x.data p)) := by
  refine (Runs.check h1 h2 h3 n s).bind ((Runs.launch _ n s ?_).cast ?_)
  · intro t ht; obtain ⟨pts, -, rfl⟩ := List.mem_map.1 ht; exact copyTask_honest d x pts
  · rw [run_pieces d _ (fun p s => s (.elem x.data p)) (fun _ => rfl) _ s hp.1
      (fun p q hne s b => upd_ne hne s b _)]
    exact setVec_congr _ _ _ _ hp.2 (fun _ _ => rfl)

/-! Scalars -/

theorem run_scalarTask (f : Nat) (args : List Nat) (g : (Cell P → V) → V) (s : Cell P → V) :
    runTasks s [scalarTask f args g] = setFut s f (g s) := by
  funext c
  show (if c = Cell.fut f then g s else s c) = _
  cases c with
  | elem d p => simp
  | part d k => simp
  | fut h => simp

theorem Runs.scalarTask1 (args : List Nat) (g : (Cell P → V) → V) (n f : Nat) (s : Cell P → V)
    (hg : ∀ s s' : Cell P → V, (∀ a ∈ args, s (.fut a) = s' (.fut a)) → g s = g s') :
    Runs (Verif.Vector.launch [scalarTask f args g] : M P V Unit) n s () n (setFut s f (g s)) := by
  refine (Runs.launch _ n s ?_).cast (run_scalarTask f args g s)
  intro t ht
  rw [List.mem_singleton] at ht
  subst ht
  intro u hu
  rw [scalarTask, List.mem_singleton] at hu
  subst hu
  exact ⟨rfl, fun s s' h => hg s s' (fun a ha => h _ ⟨a, ha, rfl⟩)⟩

theorem Runs.scalarOf (a : V) (n : Nat) (s : Cell P → V) :
    Runs (scalarOf a : M P V Scalar) n s ⟨n⟩ (n + 1) (setFut s n a) :=
  (Runs.fresh n s).bind ((Runs.scalarTask1 [] (fun _ => a) (n + 1) n s (fun _ _ _ => rfl)).bind (Runs.pure _ _ _))

theorem Runs.unary (g : V → V) (a : Scalar) (n : Nat) (s : Cell P → V) :
    Runs (unary g a : M P V Scalar) n s ⟨n⟩ (n + 1) (setFut s n (g (s (.fut a.fut)))) :=
  (Runs.fresh n s).bind ((Runs.scalarTask1 [a.fut] (fun s => g (s (.fut a.fut))) (n + 1) n s
    (fun s s' h => by rw [h a.fut (List.mem_singleton.2 rfl)])).bind (Runs.pure _ _ _))

theorem Runs.binary (g : V → V → V) (a b : Scalar) (n : Nat) (s : Cell P → V) :
    Runs (binary g a b : M P V Scalar) n s ⟨n⟩ (n + 1) (setFut s n (g (s (.fut a.fut)) (s (.fut b.fut)))) :=
  (Runs.fresh n s).bind ((Runs.scalarTask1 [a.fut, b.fut] (fun s => g (s (.fut a.fut)) (s (.fut b.fut))) (n + 1) n s
    (fun s s' h => by rw [h a.fut (by simp), h b.fut (by simp)])).bind (Runs.pure _ _ _))

/-! Dot product -/

/-- What one point task of `dot` computes: products added in iteration order, starting from 0. -/
def dotPiece (A : Arith V) (v w : P → V) (pts : List P) : V := pts.foldl (fun a p => A.add a (A.mul (v p) (w p))) A.zero

/-- The value `dot` delivers: partial results of the pieces added in the reduction order, starting from 0. -/
def dotValue (A : Arith V) (v w : P → V) (pieces : List (List P)) (order : List Nat) : V :=
  order.foldl (fun a k => A.add a (dotPiece A v w (pieces.getD k []))) A.zero

/-- Memory after `dot`: the future holds the value, scratch cells of the reduction are set. -/
def setDot (A : Arith V) (s : Cell P → V) (f : Nat) (v w : P → V) (pieces : List (List P)) (order : List Nat) : Cell P → V
  | .fut g => if g = f then dotValue A v w pieces order else s (.fut g)
  | .part g k => if g = f ∧ k < pieces.length then dotPiece A v w (pieces.getD k []) else s (.part g k)
  | c => s c

@[simp] theorem setDot_elem (A : Arith V) (s : Cell P → V) (f : Nat) (v w : P → V) (pieces : List (List P))
    (order : List Nat) (d : Nat) (p : P) : setDot A s f v w pieces order (.elem d p) = s (.elem d p) := rfl
@[simp] theorem setDot_fut (A : Arith V) (s : Cell P → V) (f : Nat) (v w : P → V) (pieces : List (List P))
    (order : List Nat) (g : Nat) :
    setDot A s f v w pieces order (.fut g) = if g = f then dotValue A v w pieces order else s (.fut g) := rfl

theorem run_dotTask (A : Arith V) (v w : Vec) (f k : Nat) (pts : List P) (s : Cell P → V) (c : Cell P) :
    runUpdates s (dotTask A v w f k pts).body c =
      if c = .part f k then dotPiece A (fun p => s (.elem v.data p)) (fun p => s (.elem w.data p)) pts else s c := by
  have key : ∀ (pts : List P) (s : Cell P → V) (c : Cell P),
      runUpdates s (pts.map fun p => ⟨.part f k, fun s =>
        A.add (s (.part f k)) (A.mul (s (.elem v.data p)) (s (.elem w.data p)))⟩) c =
      if c = .part f k then pts.foldl (fun a p => A.add a (A.mul (s (.elem v.data p)) (s (.elem w.data p)))) (s (.part f k))
      else s c := by
    intro pts
    induction pts with
    | nil => intro s c; simp only [List.map_nil, List.foldl_nil]; split
             · next h => rw [h]; rfl
             · rfl
    | cons p l ih =>
      intro s c
      rw [List.map_cons]
      show runUpdates (Update.exec s _) _ c = _
      rw [ih]
      simp only [Update.exec, List.foldl_cons]
      split
      · simp
      · rfl
  show runUpdates (Update.exec s ⟨.part f k, fun _ => A.zero⟩) _ c = _
  rw [key]
  simp only [Update.exec, dotPiece]
  split
  · simp
  · rfl

theorem run_dotTasks (A : Arith V) (v w : Vec) (f : Nat) (s : Cell P → V) (pieces : List (List P)) :
    ∀ (off : Nat) (s' : Cell P → V), (∀ d p, s' (.elem d p) = s (.elem d p)) →
    ∀ c, runTasks s' (pieces.mapIdx fun k pts => dotTask A v w f (k + off) pts) c =
      match c with
      | .part g k => if g = f ∧ off ≤ k ∧ k < off + pieces.length then
          dotPiece A (fun p => s (.elem v.data p)) (fun p => s (.elem w.data p)) (pieces.getD (k - off) []) else s' c
      | c => s' c := by
  induction pieces with
  | nil =>
    intro off s' hs c
    cases c with
    | part g k => simp only [List.mapIdx_nil, List.length_nil]; rw [if_neg (by omega)]; rfl
    | elem => rfl
    | fut => rfl
  | cons pts l ih =>
    intro off s' hs c
    rw [List.mapIdx_cons, runTasks_cons]
    have hfun : (l.mapIdx fun i => (fun k pts => dotTask A v w f (k + off) pts) (i + 1)) =
        l.mapIdx fun k pts => dotTask A v w f (k + (off + 1)) pts := by
      have : (fun (i : Nat) => (fun (k : Nat) (pts : List P) => dotTask A v w f (k + off) pts) (i + 1)) =
          fun (k : Nat) (pts : List P) => dotTask A v w f (k + (off + 1)) pts := by
        funext i pts
        show dotTask A v w f (i + 1 + off) pts = _
        rw [show i + 1 + off = i + (off + 1) by omega]
      rw [this]
    rw [hfun, ih (off + 1)]
    · cases c with
      | part g k =>
        simp only [List.length_cons]
        rw [run_dotTask]
        by_cases hg : g = f
        · subst hg
          by_cases hk : k = 0 + off
          · subst hk
            rw [if_neg (by omega), if_pos rfl, if_pos (by omega)]
            have : 0 + off - off = 0 := by omega
            rw [this]
            simp [hs]
          · have : ¬ (Cell.part (P := P) g k = .part g (0 + off)) := fun e => hk (by injection e)
            rw [if_neg this]
            by_cases h2 : off + 1 ≤ k ∧ k < off + 1 + l.length
            · rw [if_pos ⟨rfl, h2⟩, if_pos (by omega)]
              congr 1
              have : k - off = (k - (off + 1)) + 1 := by omega
              rw [this, List.getD_cons_succ]
            · rw [if_neg (by omega), if_neg (by omega)]
        · rw [if_neg (by simp [hg]), if_neg (by simp [hg]), if_neg (by simp [hg])]
      | elem d p => simp [run_dotTask]
      | fut g => simp [run_dotTask]
    · intro d p
      rw [run_dotTask]
      simp [hs]

theorem Runs.dot (A : Arith V) (E : Env P) (v w : Vec) (h1 : v.space = w.space) (h2 : v.colors = w.colors)
    (h3 : v.part = w.part) (n : Nat) (s : Cell P → V)
    (hord : (E.redOrder n (List.range (E.pieces v.part).length)).Perm (List.range (E.pieces v.part).length)) :
    Runs (dot A E v w) n s ⟨n⟩ (n + 1) (setDot A s n (fun p => s (.elem v.data p)) (fun p => s (.elem w.data p))
      (E.pieces v.part) (E.redOrder n (List.range (E.pieces v.part).length))) := by
  refine (Runs.check h1 h2 h3 n s).bind ((Runs.fresh n s).bind ?_)
  refine (Runs.launch _ (n + 1) s ?_).bind ?_
  · intro t ht
    obtain ⟨k, hk, rfl⟩ := List.mem_mapIdx.1 ht
    exact dotTask_honest A v w n k _
  refine ((Runs.launch (P := P) (V := V) [reduceTask A n (E.redOrder n (List.range (E.pieces v.part).length))] (n + 1)
    (runTasks s ((E.pieces v.part).mapIdx fun k pts => dotTask A v w n k pts)) ?_).bind
    (f := fun _ => Pure.pure (Scalar.mk n)) (Runs.pure _ _ _)).cast ?_
  · intro t ht
    rw [List.mem_singleton] at ht
    subst ht
    exact reduceTask_honest A n _
  · have hrun := run_dotTasks A v w n s (E.pieces v.part) 0 s (fun _ _ => rfl)
    simp only [Nat.add_zero] at hrun
    generalize hs' : runTasks s ((E.pieces v.part).mapIdx fun k pts => dotTask A v w n k pts) = s' at hrun ⊢
    funext c
    show (if c = Cell.fut n then _ else s' c) = _
    have hpart : ∀ k, k < (E.pieces v.part).length → s' (.part n k) =
        dotPiece A (fun p => s (.elem v.data p)) (fun p => s (.elem w.data p)) ((E.pieces v.part).getD k []) := by
      intro k hk
      rw [hrun]
      simp only
      rw [if_pos ⟨trivial, Nat.zero_le _, by omega⟩]
      rfl
    cases c with
    | elem d p => rw [if_neg (by simp), hrun]; rfl
    | part g k =>
      rw [if_neg (by simp), hrun]
      simp only [setDot]
      by_cases h : g = n ∧ k < (E.pieces v.part).length
      · rw [if_pos h, if_pos (by omega)]; rfl
      · rw [if_neg h, if_neg (by omega)]
    | fut g =>
      rw [setDot_fut]
      by_cases h : g = n
      · subst h
        rw [if_pos rfl, if_pos rfl]
        unfold dotValue
        have : ∀ (l : List Nat) (a : V), (∀ k ∈ l, k < (E.pieces v.part).length) →
            l.foldl (fun a k => A.add a (s' (.part g k))) a =
            l.foldl (fun a k => A.add a (dotPiece A (fun p => s (.elem v.data p)) (fun p => s (.elem w.data p))
              ((E.pieces v.part).getD k []))) a := by
          intro l
          induction l with
          | nil => intro a _; rfl
          | cons k l ih =>
            intro a hl
            rw [List.foldl_cons, List.foldl_cons, hpart k (hl k (List.mem_cons_self ..))]
            exact ih _ (fun k hk => hl k (List.mem_cons_of_mem _ hk))
        exact this _ _ (fun k hk => List.mem_range.1 (hord.mem_iff.1 hk))
      · rw [if_neg (by simpa using h), if_neg h, hrun]

end Verif.Vector
