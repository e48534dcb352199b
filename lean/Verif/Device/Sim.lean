import Verif.Device.Spec
import Verif.Solver.Determinism
import Verif.Solver.Relational

/-! # Programs that leave the same memory -/
set_option linter.dupNamespace false
set_option linter.unusedSectionVars false
namespace Verif.Device
open Verif.Runtime Verif.Vector Verif.Matrix Verif.Planner Verif.Solver

variable {V α β γ δ : Type}

/-- No condition on memory. -/
abbrev Any : (Cell Int → V) → Prop := fun _ => True

/-- The two programs abort together or return related values and the same next future, and what they launch does only what it
declares and has the same effect on every memory satisfying `Z`, leaving one satisfying `Z'`. -/
def Sim (Z Z' : (Cell Int → V) → Prop) (R : α → β → Prop) (m : M Int V α) (m' : M Int V β) : Prop :=
  ∀ n out out', (m ⟨n, out⟩ = none ∧ m' ⟨n, out'⟩ = none) ∨
    ∃ a b k ts ts', R a b ∧ m ⟨n, out⟩ = some (a, ⟨k, out ++ ts⟩) ∧ m' ⟨n, out'⟩ = some (b, ⟨k, out' ++ ts'⟩) ∧
      (∀ t ∈ ts, t.Honest) ∧ (∀ t ∈ ts', t.Honest) ∧ ∀ s, Z s → runTasks s ts' = runTasks s ts ∧ Z' (runTasks s ts)

theorem Sim.pure {Z : (Cell Int → V) → Prop} {R : α → β → Prop} {a : α} {b : β} (h : R a b) :
    Sim Z Z R (pure a : M Int V α) (pure b : M Int V β) := fun n out out' =>
  Or.inr ⟨a, b, n, [], [], h, by rw [List.append_nil]; rfl, by rw [List.append_nil]; rfl, by simp, by simp,
    fun _ hs => ⟨rfl, hs⟩⟩

theorem Sim.bind {Z Y W : (Cell Int → V) → Prop} {R : α → β → Prop} {Q : γ → δ → Prop} {m : M Int V α} {m' : M Int V β}
    {f : α → M Int V γ} {f' : β → M Int V δ} (h : Sim Z Y R m m') (h' : ∀ a b, R a b → Sim Y W Q (f a) (f' b)) :
    Sim Z W Q (m >>= f) (m' >>= f') := by
  intro n out out'
  rcases h n out out' with ⟨h1, h2⟩ | ⟨a, b, k, ts, ts', hr, h1, h2, o1, o2, e⟩
  · left
    constructor
    · show (m ⟨n, out⟩).bind _ = none
      rw [h1]; rfl
    · show (m' ⟨n, out'⟩).bind _ = none
      rw [h2]; rfl
  · have e1 : (m >>= f) ⟨n, out⟩ = f a ⟨k, out ++ ts⟩ := by
      show (m ⟨n, out⟩).bind _ = _
      rw [h1]; rfl
    have e2 : (m' >>= f') ⟨n, out'⟩ = f' b ⟨k, out' ++ ts'⟩ := by
      show (m' ⟨n, out'⟩).bind _ = _
      rw [h2]; rfl
    rcases h' a b hr k (out ++ ts) (out' ++ ts') with ⟨g1, g2⟩ | ⟨c, d, j, us, us', hq, g1, g2, p1, p2, e'⟩
    · exact Or.inl ⟨by rw [e1, g1], by rw [e2, g2]⟩
    · refine Or.inr ⟨c, d, j, ts ++ us, ts' ++ us', hq, by rw [e1, g1, List.append_assoc], by rw [e2, g2, List.append_assoc],
        fun t ht => ?_, fun t ht => ?_, fun s hs => ?_⟩
      · rcases List.mem_append.1 ht with ht | ht
        · exact o1 t ht
        · exact p1 t ht
      · rcases List.mem_append.1 ht with ht | ht
        · exact o2 t ht
        · exact p2 t ht
      · rw [runTasks_append, runTasks_append, (e s hs).1]
        exact e' _ (e s hs).2

theorem Sim.weaken {Z Z' Y : (Cell Int → V) → Prop} {R : α → β → Prop} {m : M Int V α} {m' : M Int V β} (h : Sim Z Z' R m m')
    (hy : ∀ s, Y s → Z s) : Sim Y Any R m m' := by
  intro n out out'
  rcases h n out out' with h | ⟨a, b, k, ts, ts', hr, h1, h2, o1, o2, e⟩
  · exact Or.inl h
  · exact Or.inr ⟨a, b, k, ts, ts', hr, h1, h2, o1, o2, fun s hs => ⟨(e s (hy s hs)).1, trivial⟩⟩

/-- `Sim` is a relation between programs that respects `pure` and `bind`. -/
def simLift (V : Type) : Lift (M Int V) (M Int V) where
  rel := fun R m m' => Sim Any Any R m m'
  pure := Sim.pure
  bind := Sim.bind

/-! ## The same call on both sides -/

abbrev Same (m m' : M Int V α) : Prop := Sim Any Any (fun a b => a = b) m m'

theorem Same.pure (a : α) : Same (pure a : M Int V α) (pure a) := Sim.pure rfl

theorem Same.bind {m m' : M Int V α} {f f' : α → M Int V β} (h : Same m m') (h' : ∀ a, Same (f a) (f' a)) :
    Same (m >>= f) (m' >>= f') := Sim.bind h fun a _ e => e ▸ h' a

theorem Same.launch {ts : List (Task (Cell Int) V)} (h : ∀ t ∈ ts, t.Honest) : Same (launch ts) (launch ts) := fun n _ _ =>
  Or.inr ⟨(), (), n, ts, ts, rfl, rfl, rfl, h, h, fun _ _ => ⟨rfl, trivial⟩⟩

theorem Same.fresh : Same (fresh : M Int V Nat) fresh := fun n out out' =>
  Or.inr ⟨n, n, n + 1, [], [], rfl, by rw [List.append_nil]; rfl, by rw [List.append_nil]; rfl, by simp, by simp,
    fun _ _ => ⟨rfl, trivial⟩⟩

theorem Same.require (b : Bool) : Same (require b : M Int V Unit) (require b) := by
  intro n out out'
  cases b with
  | false => exact Or.inl ⟨rfl, rfl⟩
  | true => exact Or.inr ⟨(), (), n, [], [], rfl, by rw [List.append_nil]; rfl, by rw [List.append_nil]; rfl, by simp, by simp,
      fun _ _ => ⟨rfl, trivial⟩⟩

theorem Same.option (o : Option α) : Same (fun e => o.map fun v => (v, e) : M Int V α) (fun e => o.map fun v => (v, e)) := by
  intro n out out'
  cases o with
  | none => exact Or.inl ⟨rfl, rfl⟩
  | some v => exact Or.inr ⟨v, v, n, [], [], rfl, by rw [List.append_nil]; rfl, by rw [List.append_nil]; rfl, by simp, by simp,
      fun _ _ => ⟨rfl, trivial⟩⟩

theorem Same.stop : Same (fun _ => none : M Int V α) (fun _ => none) := fun _ _ _ => Or.inl ⟨rfl, rfl⟩

theorem Same.check (y x : Vec) : Same (checkCompatible y x : M Int V Unit) (checkCompatible y x) :=
  (Same.require _).bind fun _ => (Same.require _).bind fun _ => Same.require _

theorem Same.scalarOf (a : V) : Same (scalarOf a : M Int V Scalar) (scalarOf a) :=
  Same.fresh.bind fun _ => (Same.launch (by
    intro t ht; obtain rfl := List.mem_singleton.1 ht
    exact Hon.scalarTask_honest _ _ _ fun _ _ _ => rfl)).bind fun _ => Same.pure _

theorem Same.unary (g : V → V) (a : Scalar) : Same (unary g a : M Int V Scalar) (unary g a) :=
  Same.fresh.bind fun _ => (Same.launch (by
    intro t ht; obtain rfl := List.mem_singleton.1 ht
    exact Hon.scalarTask_honest _ _ _ fun s s' h => by rw [h a.fut (by simp)])).bind fun _ => Same.pure _

theorem Same.binary (g : V → V → V) (a b : Scalar) : Same (binary g a b : M Int V Scalar) (binary g a b) :=
  Same.fresh.bind fun _ => (Same.launch (by
    intro t ht; obtain rfl := List.mem_singleton.1 ht
    exact Hon.scalarTask_honest _ _ _ fun s s' h => by rw [h a.fut (by simp), h b.fut (by simp)])).bind fun _ => Same.pure _

theorem Same.dummyTask (A : Arith V) (l : List Scalar) : Same (dummyTask A l : M Int V Scalar) (dummyTask A l) :=
  Same.fresh.bind fun _ => (Same.launch (by
    intro t ht; obtain rfl := List.mem_singleton.1 ht
    exact Hon.scalarTask_honest _ _ _ fun _ _ _ => rfl)).bind fun _ => Same.pure _

theorem Same.pieces {f : List Int → Task (Cell Int) V} (l : List (List Int)) (h : ∀ pts, (f pts).Honest) :
    Same (Vector.launch (l.map f)) (Vector.launch (l.map f)) :=
  Same.launch fun t ht => by obtain ⟨pts, -, rfl⟩ := List.mem_map.1 ht; exact h pts

theorem Same.constantFill (E : Env Int) (v : Vec) (a : V) : Same (constantFill E v a) (constantFill E v a) :=
  Same.pieces _ (fillValueTask_honest v a)
theorem Same.constantFillScalar (E : Env Int) (v : Vec) (a : Scalar) :
    Same (constantFillScalar E v a : M Int V Unit) (constantFillScalar E v a) := Same.pieces _ (fillTask_honest v a.fut)
theorem Same.assign (E : Env Int) (d x : Vec) : Same (assign E d x : M Int V Unit) (assign E d x) :=
  (Same.check d x).bind fun _ => Same.pieces _ (copyTask_honest d x)

theorem Same.loop {ι : Type} (l : List ι) {f f' : ι → M Int V Unit} (h : ∀ i ∈ l, Same (f i) (f' i)) :
    Same (loop l f) (loop l f') := by
  induction l with
  | nil => exact Same.pure _
  | cons i l ih => exact (h i (List.mem_cons_self ..)).bind fun _ => ih fun j hj => h j (List.mem_cons_of_mem _ hj)

theorem Same.numSpaces (pl : Planner Int Int V) : Same (pl.numSpaces : M Int V Nat) pl.numSpaces :=
  (Same.require _).bind fun _ => Same.pure _

theorem Same.getVector (pl : Planner Int Int V) (k i : Nat) : Same (pl.getVector k i) (pl.getVector k i) := Same.option _

theorem Same.zeroFill (A : Arith V) (E : Env Int) (pl : Planner Int Int V) (d : Nat) :
    Same (pl.zeroFill A E d) (pl.zeroFill A E d) := by
  unfold Planner.zeroFill
  cases pl.blocksOf d with
  | none => exact Same.stop
  | some l => exact Same.loop l fun v _ => Same.constantFill E v _

theorem Same.copy (E : Env Int) (pl : Planner Int Int V) (d x : Nat) : Same (pl.copy E d x) (pl.copy E d x) :=
  (Same.numSpaces pl).bind fun _ => Same.loop _ fun i _ => (Same.getVector pl d i).bind fun _ =>
    (Same.getVector pl x i).bind fun _ => Same.assign E _ _

theorem Same.allocate (G : Geometry Int) (pl : Planner Int Int V) (base n : Nat) :
    Same (allocate G pl base n) (allocate G pl base n) := Same.option _

/-- What a program ensures it also ensures on other devices. -/
theorem Same.ensures {m m' : M Int V α} (h : Same m m') {n : Nat} {s : Cell Int → V} {Q : α → (Cell Int → V) → Prop}
    (hm : Ensures m n s Q) : Ensures m' n s Q := by
  obtain ⟨a, n', ts, h1, h2, h3⟩ := hm
  rcases h n [] [] with ⟨g1, -⟩ | ⟨a', b, k, us, us', rfl, g1, g2, o1, o2, e⟩
  · rw [g1] at h1; cases h1
  · rw [g1] at h1
    obtain ⟨rfl, h4⟩ := Prod.mk.inj (Option.some.inj h1)
    injection h4 with h5 h6
    subst h5
    rw [List.nil_append] at h6
    subst h6
    refine ⟨a', k, us', by rw [g2]; rfl, c42_complete_execution_exists _, fun M' s1 d1 => ?_⟩
    obtain ⟨M, sm, dm⟩ := c42_complete_execution_exists (Machine.start s us)
    have h7 := h3 M sm dm
    rw [c42_any_schedule s us o1 M sm dm] at h7
    rw [c42_any_schedule s us' o2 M' s1 d1, (e s trivial).1]
    exact h7

theorem Same.symm {m m' : M Int V α} (h : Same m m') : Same m' m := by
  intro n out out'
  rcases h n out' out with ⟨h1, h2⟩ | ⟨a, b, k, ts, ts', rfl, h1, h2, o1, o2, e⟩
  · exact Or.inl ⟨h2, h1⟩
  · exact Or.inr ⟨a, a, k, ts', ts, rfl, h2, h1, o2, o1, fun s _ => ⟨(e s trivial).1.symm, trivial⟩⟩

/-! ## Index launches on any devices -/

/-- Launch on any devices: if each point task's GPU variant does the same as its CPU variant on memory satisfying a condition, and
the point tasks launched before keep the condition, the launch does the same. -/
theorem launchOn_run {ι : Type} {dev : Devices} (hdev : dev.Ok) (mk : ι → PointTask V) (cpu : ι → Task (Cell Int) V)
    (Z : ι → (Cell Int → V) → Prop) (items : List ι)
    (h : ∀ i ∈ items, (mk i).cpu = some (cpu i) ∧ (cpu i).Honest ∧ ∀ g : Gpu, g.Ok → ∃ c, (mk i).gpu g = some c ∧ c.Honest ∧
      ∀ s, Z i s → runUpdates s c.body = runUpdates s (cpu i).body)
    (hz : items.Pairwise fun i j => ∀ s, Z j s → Z j (runUpdates s (cpu i).body)) (k : Nat) :
    ∃ ts', ((items.map mk).mapIdx fun j (t : PointTask V) => t.on (dev (k + j))).mapM id = some ts' ∧ (∀ t ∈ ts', t.Honest) ∧
      ∀ s, (∀ i ∈ items, Z i s) → runTasks s ts' = runTasks s (items.map cpu) := by
  induction items generalizing k with
  | nil => exact ⟨[], rfl, by simp, fun _ _ => rfl⟩
  | cons i l ih =>
    obtain ⟨hz1, hz2⟩ := List.pairwise_cons.1 hz
    obtain ⟨ts', e, o, r⟩ := ih (fun j hj => h j (List.mem_cons_of_mem _ hj)) hz2 (k + 1)
    obtain ⟨h1, h2, h3⟩ := h i (List.mem_cons_self ..)
    have key : ∃ c, (mk i).on (dev (k + 0)) = some c ∧ c.Honest ∧ ∀ s, Z i s → runUpdates s c.body = runUpdates s (cpu i).body := by
      cases hd : dev (k + 0) with
      | none => exact ⟨cpu i, h1, h2, fun _ _ => rfl⟩
      | some g => exact h3 g (hdev _ g hd)
    obtain ⟨c, hc, oc, rc⟩ := key
    have hidx : ((l.map mk).mapIdx fun j (t : PointTask V) => t.on (dev (k + (j + 1)))) =
        ((l.map mk).mapIdx fun j (t : PointTask V) => t.on (dev (k + 1 + j))) := by
      congr 1
      funext j t
      rw [show k + (j + 1) = k + 1 + j by omega]
    refine ⟨c :: ts', ?_, ?_, fun s hs => ?_⟩
    · rw [List.map_cons, List.mapIdx_cons, hidx, List.mapM_cons, hc, e]
      rfl
    · intro t ht
      rcases List.mem_cons.1 ht with rfl | ht
      · exact oc
      · exact o t ht
    · rw [List.map_cons, runTasks_cons, runTasks_cons, rc s (hs i (List.mem_cons_self ..))]
      exact r _ fun j hj => hz1 j hj s (hs j (List.mem_cons_of_mem _ hj))

theorem launchOn_sim {ι : Type} {dev : Devices} (hdev : dev.Ok) (mk : ι → PointTask V) (cpu : ι → Task (Cell Int) V)
    (Z : ι → (Cell Int → V) → Prop) (Y Y' : (Cell Int → V) → Prop) (items : List ι)
    (h : ∀ i ∈ items, (mk i).cpu = some (cpu i) ∧ (cpu i).Honest ∧ ∀ g : Gpu, g.Ok → ∃ c, (mk i).gpu g = some c ∧ c.Honest ∧
      ∀ s, Z i s → runUpdates s c.body = runUpdates s (cpu i).body)
    (hz : items.Pairwise fun i j => ∀ s, Z j s → Z j (runUpdates s (cpu i).body))
    (hy : ∀ s, Y s → ∀ i ∈ items, Z i s) (hy' : ∀ s, Y s → Y' (runTasks s (items.map cpu))) :
    Sim Y Y' (fun _ _ => True) (launch (items.map cpu)) (launchOn dev (items.map mk)) := by
  intro n out out'
  obtain ⟨ts', e, o, r⟩ := launchOn_run hdev mk cpu Z items h hz out'.length
  refine Or.inr ⟨(), (), n, items.map cpu, ts', trivial, rfl, ?_, ?_, o, fun s hs => ⟨r s (hy s hs), hy' s hs⟩⟩
  · show (Option.bind _ _) = _
    rw [e]; rfl
  · intro t ht
    obtain ⟨i, hi, rfl⟩ := List.mem_map.1 ht
    exact (h i hi).2.1

/-- Without conditions on memory. -/
theorem launchOn_same {ι : Type} {dev : Devices} (hdev : dev.Ok) (mk : ι → PointTask V) (cpu : ι → Task (Cell Int) V)
    (items : List ι)
    (h : ∀ i ∈ items, (mk i).cpu = some (cpu i) ∧ (cpu i).Honest ∧ ∀ g : Gpu, g.Ok → ∃ c, (mk i).gpu g = some c ∧ c.Honest ∧
      ∀ s, runUpdates s c.body = runUpdates s (cpu i).body) : Same (launch (items.map cpu)) (launchOn dev (items.map mk)) := by
  have := launchOn_sim hdev mk cpu (fun _ => Any) Any Any items
    (fun i hi => ⟨(h i hi).1, (h i hi).2.1, fun g hg => by
      obtain ⟨c, h1, h2, h3⟩ := (h i hi).2.2 g hg
      exact ⟨c, h1, h2, fun s _ => h3 s⟩⟩)
    (List.pairwise_of_forall fun _ _ _ _ => trivial) (fun _ _ _ _ => trivial) (fun _ _ => trivial)
  intro n out out'
  rcases this n out out' with h | ⟨a, b, k, ts, ts', -, r⟩
  · exact Or.inl h
  · exact Or.inr ⟨a, b, k, ts, ts', rfl, r⟩

end Verif.Device
