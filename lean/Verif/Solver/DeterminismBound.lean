import Verif.Solver.Determinism

/-!
# C49: exactly when the order of the reductions matters

`c49_violated` uses three pieces.  Here: with at most two pieces per partition, or with an addition whose terms can be exchanged, the
order in which the runtime adds partial inner products changes nothing, for every client program; and from three pieces on, every
addition whose terms cannot be exchanged gives different results for some data.
-/
set_option linter.unusedSectionVars false
namespace Verif.Solver
open Verif.Runtime Verif.Vector Verif.Matrix Verif.Planner
variable {K P V : Type} [DecidableEq P] [DecidableEq K]

/-- The same index spaces and partitions, with a runtime that reduces in other orders. -/
def withOrder (G : Geometry P) (o : Nat → List Nat → List Nat) : Geometry P := { G with redOrder := o }

/-- Programs of library calls, written without knowing the orders in which the runtime will reduce: the calls of `Client`, each as a
function of the index spaces and partitions it runs on. -/
inductive Program (K : Type) [DecidableEq K] (A : Arith V) : {α : Type} → (Geometry P → M P V α) → Prop
  | done {α : Type} (a : α) : Program K A fun _ => pure a
  | stop {α : Type} : Program K A fun _ => (fun _ => none : M P V α)
  | andThen {α β : Type} {m : Geometry P → M P V α} {f : α → Geometry P → M P V β} :
      Program K A m → (∀ a, Program K A (f a)) → Program K A fun G => m G >>= fun a => f a G
  -- scalars
  | scalarOf (a : V) : Program K A fun _ => scalarOf a
  | sNeg (a : Scalar) : Program K A fun _ => sNeg A a
  | sAdd (a b : Scalar) : Program K A fun _ => sAdd A a b
  | sSub (a b : Scalar) : Program K A fun _ => sSub A a b
  | sMul (a b : Scalar) : Program K A fun _ => sMul A a b
  | sDiv (a b : Scalar) : Program K A fun _ => sDiv A a b
  | sSqrt (a : Scalar) : Program K A fun _ => sSqrt A a
  | sRsqrt (a : Scalar) : Program K A fun _ => sRsqrt A a
  | dummy (l : List Scalar) : Program K A fun _ => dummyTask A l
  -- vectors
  | fill (v : Vec) (a : V) : Program K A fun G => constantFill G.toEnv v a
  | fillScalar (v : Vec) (a : Scalar) : Program K A fun G => constantFillScalar G.toEnv v a
  | assign (d x : Vec) : Program K A fun G => assign G.toEnv d x
  | scal (x : Vec) (a : Scalar) : Program K A fun G => Vector.scal A G.toEnv x a
  | axpy (y : Vec) (a : Scalar) (x : Vec) : Program K A fun G => Vector.axpy A G.toEnv y a x
  | axpy2 (y : Vec) (a b : Scalar) (x : Vec) : Program K A fun G => Vector.axpy2 A G.toEnv y a b x
  | axpy3 (y : Vec) (a b c : Scalar) (x : Vec) : Program K A fun G => Vector.axpy3 A G.toEnv y a b c x
  | xpay (y : Vec) (a : Scalar) (x : Vec) : Program K A fun G => Vector.xpay A G.toEnv y a x
  | xpay2 (y : Vec) (a b : Scalar) (x : Vec) : Program K A fun G => Vector.xpay2 A G.toEnv y a b x
  | dot (v w : Vec) : Program K A fun G => Vector.dot A G.toEnv v w
  -- matrices, with any partitions
  | matvec (o : Op K P V) (d x : Vec) (kp : List (List K)) (ghost : List (List P)) :
      Program K A fun G => o.matvec A G.toEnv d x kp ghost
  -- planners
  | pZeroFill (pl : Planner K P V) (d : Nat) : Program K A fun G => pl.zeroFill A G.toEnv d
  | pCopy (pl : Planner K P V) (d x : Nat) : Program K A fun G => pl.copy G.toEnv d x
  | pScal (pl : Planner K P V) (d : Nat) (a : Scalar) : Program K A fun G => pl.scal A G.toEnv d a
  | pAxpy (pl : Planner K P V) (d : Nat) (a : Scalar) (x : Nat) : Program K A fun G => pl.axpy A G.toEnv d a x
  | pAxpy2 (pl : Planner K P V) (d : Nat) (a b : Scalar) (x : Nat) : Program K A fun G => pl.axpy2 A G.toEnv d a b x
  | pAxpy3 (pl : Planner K P V) (d : Nat) (a b c : Scalar) (x : Nat) : Program K A fun G => pl.axpy3 A G.toEnv d a b c x
  | pXpay (pl : Planner K P V) (d : Nat) (a : Scalar) (x : Nat) : Program K A fun G => pl.xpay A G.toEnv d a x
  | pXpay2 (pl : Planner K P V) (d : Nat) (a b : Scalar) (x : Nat) : Program K A fun G => pl.xpay2 A G.toEnv d a b x
  | pDot (pl : Planner K P V) (v w : Nat) : Program K A fun G => pl.dot A G.toEnv v w
  | pMatvec (pl : Planner K P V) (d x : Nat) : Program K A fun G => pl.matvec A G.toEnv d x
  | allocate (pl : Planner K P V) (base n : Nat) : Program K A fun G => allocate G pl base n
  -- solvers
  | cg (pl : Planner K P V) (base k : Nat) : Program K A fun G => Solver.cg A G pl base k
  | biCGStab (pl : Planner K P V) (base k : Nat) : Program K A fun G => Solver.biCGStab A G pl base k
  | gmres (pl : Planner K P V) (base restart k : Nat) : Program K A fun G => Solver.gmres A G pl base restart k
  | cgStep (pl : Planner K P V) (c : CG Scalar) : Program K A fun G => CG.step (plannerOps A G.toEnv pl) c
  | biCGStabStep (pl : Planner K P V) (c : BiCGStab Scalar) : Program K A fun G => BiCGStab.step (plannerOps A G.toEnv pl) c
  | gmresStep (pl : Planner K P V) (c : GMRES Scalar) : Program K A fun G => GMRES.step (plannerOps A G.toEnv pl) c

/-- On every geometry such a program is a client program. -/
theorem Program.client {A : Arith V} {α : Type} {m : Geometry P → M P V α} (h : Program K A m) (G : Geometry P) :
    Client K A G (m G) := by
  induction h with
  | done a => exact .done a
  | stop => exact .stop
  | andThen _ _ h1 h2 => exact .andThen h1 h2
  | scalarOf a => exact .scalarOf a
  | sNeg a => exact .sNeg a
  | sAdd a b => exact .sAdd a b
  | sSub a b => exact .sSub a b
  | sMul a b => exact .sMul a b
  | sDiv a b => exact .sDiv a b
  | sSqrt a => exact .sSqrt a
  | sRsqrt a => exact .sRsqrt a
  | dummy l => exact .dummy l
  | fill v a => exact .fill v a
  | fillScalar v a => exact .fillScalar v a
  | assign d x => exact .assign d x
  | scal x a => exact .scal x a
  | axpy y a x => exact .axpy y a x
  | axpy2 y a b x => exact .axpy2 y a b x
  | axpy3 y a b c x => exact .axpy3 y a b c x
  | xpay y a x => exact .xpay y a x
  | xpay2 y a b x => exact .xpay2 y a b x
  | dot v w => exact .dot v w
  | matvec o d x kp ghost => exact .matvec o d x kp ghost
  | pZeroFill pl d => exact .pZeroFill pl d
  | pCopy pl d x => exact .pCopy pl d x
  | pScal pl d a => exact .pScal pl d a
  | pAxpy pl d a x => exact .pAxpy pl d a x
  | pAxpy2 pl d a b x => exact .pAxpy2 pl d a b x
  | pAxpy3 pl d a b c x => exact .pAxpy3 pl d a b c x
  | pXpay pl d a x => exact .pXpay pl d a x
  | pXpay2 pl d a b x => exact .pXpay2 pl d a b x
  | pDot pl v w => exact .pDot pl v w
  | pMatvec pl d x => exact .pMatvec pl d x
  | allocate pl base n => exact .allocate pl base n
  | cg pl base k => exact .cg pl base k
  | biCGStab pl base k => exact .biCGStab pl base k
  | gmres pl base r k => exact .gmres pl base r k
  | cgStep pl c => exact .cgStep pl c
  | biCGStabStep pl c => exact .biCGStabStep pl c
  | gmresStep pl c => exact .gmresStep pl c

/-- Adding up `n` values from zero gives the same sum in every order. -/
def OrderFree (A : Arith V) (n : Nat) : Prop :=
  ∀ (x : Nat → V) (l l' : List Nat), l.Perm (List.range n) → l'.Perm (List.range n) →
    l.foldl (fun a k => A.add a (x k)) A.zero = l'.foldl (fun a k => A.add a (x k)) A.zero

/-- Two values: their sum from zero does not depend on which comes first (IEEE addition: yes, up to the payload of a NaN). -/
theorem OrderFree.two (A : Arith V) (h : ∀ a b, A.add (A.add A.zero a) b = A.add (A.add A.zero b) a) : ∀ n ≤ 2, OrderFree A n
  | 0, _, x, l, l', hl, hl' => by rw [List.perm_nil.1 hl, List.perm_nil.1 hl']
  | 1, _, x, l, l', hl, hl' => by
    rw [List.perm_singleton.1 (show l.Perm [0] from hl), List.perm_singleton.1 (show l'.Perm [0] from hl')]
  | 2, _, x, l, l', hl, hl' => by
    have key : ∀ l : List Nat, l.Perm [0, 1] → l = [0, 1] ∨ l = [1, 0] := by
      intro l h
      match l, h.length_eq with
      | [a, b], _ =>
        have hm := fun c => h.mem_iff (a := c)
        have hn := h.nodup_iff.2 (by decide)
        simp only [List.mem_cons, List.not_mem_nil, or_false] at hm
        have ha := (hm a).1 (.inl rfl)
        have hb := (hm b).1 (.inr rfl)
        simp at hn
        rcases ha with rfl | rfl <;> rcases hb with rfl | rfl <;> simp_all
    rcases key l hl with rfl | rfl <;> rcases key l' hl' with rfl | rfl <;> simp [h (x 0) (x 1)]

/-- An addition whose terms can be exchanged (exact arithmetic, integers modulo 2^k, minimum, …). -/
theorem OrderFree.exchange (A : Arith V) (h : ∀ a b c, A.add (A.add a b) c = A.add (A.add a c) b) (n : Nat) : OrderFree A n := by
  intro x l l' hl hl'
  exact (hl.trans hl'.symm).foldl_eq' (fun _ _ _ _ _ => h _ _ _) _

/-- Nothing a program launches depends on the orders. -/
theorem dot_order (A : Arith V) (G : Geometry P) (hA : ∀ p, OrderFree A (G.pieces p).length) (o o' : Nat → List Nat → List Nat)
    (ho : ∀ f l, (o f l).Perm l) (ho' : ∀ f l, (o' f l).Perm l) (v w : Vec) :
    Vector.dot A (withOrder G o).toEnv v w = Vector.dot A (withOrder G o').toEnv v w := by
  have key : ∀ f n, OrderFree A n → (reduceTask A f (o f (List.range n)) : Task (Cell P) V) = reduceTask A f (o' f (List.range n)) := by
    intro f n h
    unfold reduceTask
    congr 1
    · funext c
      refine propext ⟨?_, ?_⟩ <;> rintro ⟨k, hk, rfl⟩
      · exact ⟨k, (ho' f _).mem_iff.2 ((ho f _).mem_iff.1 hk), rfl⟩
      · exact ⟨k, (ho f _).mem_iff.2 ((ho' f _).mem_iff.1 hk), rfl⟩
    · congr 2
      funext s
      exact h (fun k => s (.part f k)) _ _ (ho f _) (ho' f _)
  unfold Vector.dot
  congr 1
  funext _
  congr 1
  funext f
  congr 1
  funext _
  exact congrArg (fun t => Vector.launch [t] >>= fun _ => (pure ⟨f⟩ : M P V Scalar)) (key f _ (hA v.part))

theorem plannerOps_order (A : Arith V) (G : Geometry P) (hA : ∀ p, OrderFree A (G.pieces p).length)
    (o o' : Nat → List Nat → List Nat) (ho : ∀ f l, (o f l).Perm l) (ho' : ∀ f l, (o' f l).Perm l) (pl : Planner K P V) :
    plannerOps A (withOrder G o).toEnv pl = plannerOps A (withOrder G o').toEnv pl := by
  have hd := fun v w => dot_order A G hA o o' ho ho' v w
  have hl : ∀ (v w : Nat) (l : List Nat) (r : Scalar),
      pl.dotLoop A (withOrder G o).toEnv v w l r = pl.dotLoop A (withOrder G o').toEnv v w l r := by
    intro v w l
    induction l with
    | nil => intro r; rfl
    | cons i l ih =>
      intro r
      unfold Planner.dotLoop
      simp only [hd, ih]
  have hp : ∀ v w, pl.dot A (withOrder G o).toEnv v w = pl.dot A (withOrder G o').toEnv v w := by
    intro v w
    unfold Planner.dot
    simp only [hd, hl]
  unfold plannerOps
  congr 1
  funext v w
  exact hp v w

theorem program_order {A : Arith V} {α : Type} {m : Geometry P → M P V α} (h : Program K A m) (G : Geometry P)
    (hA : ∀ p, OrderFree A (G.pieces p).length)
    (o o' : Nat → List Nat → List Nat) (ho : ∀ f l, (o f l).Perm l) (ho' : ∀ f l, (o' f l).Perm l) :
    m (withOrder G o) = m (withOrder G o') := by
  have hp := fun pl : Planner K P V => plannerOps_order A G hA o o' ho ho' pl
  induction h with
  | andThen _ _ h1 h2 =>
    show _ >>= _ = _ >>= _
    rw [h1]; congr 1; funext a; exact h2 a
  | dot v w => exact dot_order A G hA o o' ho ho' v w
  | pDot pl v w => exact congrFun (congrFun (congrArg (·.dot) (hp pl)) v) w
  | cg pl base k => show _ >>= _ = _ >>= _; simp only [hp]; rfl
  | biCGStab pl base k => show _ >>= _ = _ >>= _; simp only [hp]; rfl
  | gmres pl base r k => show _ >>= _ = _ >>= _; simp only [hp]; rfl
  | cgStep pl c => exact congrArg (fun O => CG.step O c) (hp pl)
  | biCGStabStep pl c => exact congrArg (fun O => BiCGStab.step O c) (hp pl)
  | gmresStep pl c => exact congrArg (fun O => GMRES.step O c) (hp pl)
  | _ => rfl

/-- **C49**, all orders of the reductions: when sums over the pieces of each partition do not depend on the order, two runs of the same
program, with any two families of reduction orders and any two schedules, return the same handles and leave the same memory, bit for
bit (or both stop at the same failed assertion). -/
theorem c49_reproducible_any_order {A : Arith V} {α : Type} (m : Geometry P → M P V α) (h : Program K A m) (G : Geometry P)
    (hA : ∀ p, OrderFree A (G.pieces p).length) (o o' : Nat → List Nat → List Nat)
    (ho : ∀ f l, (o f l).Perm l) (ho' : ∀ f l, (o' f l).Perm l) (n : Nat) :
    ((m (withOrder G o) ⟨n, []⟩).isNone ↔ (m (withOrder G o') ⟨n, []⟩).isNone) ∧
    ∀ a e a' e', m (withOrder G o) ⟨n, []⟩ = some (a, e) → m (withOrder G o') ⟨n, []⟩ = some (a', e') → a = a' ∧
      ∀ (s : Cell P → V) (M' M'' : Machine (Cell P) V), (Machine.start s e.out).Steps M' → M'.Done →
        (Machine.start s e'.out).Steps M'' → M''.Done → M'.store = M''.store := by
  have hm := program_order h G hA o o' ho ho'
  refine ⟨by rw [hm], fun a e a' e' h1 h2 => ?_⟩
  have h3 := h2
  rw [← hm, h1] at h3
  obtain ⟨rfl, rfl⟩ := Prod.mk.inj (Option.some.inj h3)
  exact ⟨rfl, fun s M' M'' r1 d1 r2 d2 => (c49_reproducible_partial A _ _ (h.client _) n a e h2 s M' M'' r1 d1 r2 d2).1⟩

/-- At most two pieces per partition, and an addition for which `(0 + a) + b = (0 + b) + a`: bit-identical results in every order. -/
theorem c49_two_pieces {A : Arith V} (hA : ∀ a b, A.add (A.add A.zero a) b = A.add (A.add A.zero b) a) {α : Type}
    (m : Geometry P → M P V α) (h : Program K A m) (G : Geometry P) (hG : ∀ p, (G.pieces p).length ≤ 2)
    (o o' : Nat → List Nat → List Nat) (ho : ∀ f l, (o f l).Perm l) (ho' : ∀ f l, (o' f l).Perm l) (n : Nat) (a a' : α)
    (e e' : Emit P V) (h1 : m (withOrder G o) ⟨n, []⟩ = some (a, e)) (h2 : m (withOrder G o') ⟨n, []⟩ = some (a', e')) :
    a = a' ∧ ∀ (s : Cell P → V) (M' M'' : Machine (Cell P) V), (Machine.start s e.out).Steps M' → M'.Done →
        (Machine.start s e'.out).Steps M'' → M''.Done → M'.store = M''.store :=
  (c49_reproducible_any_order m h G (fun p => OrderFree.two A hA _ (hG p)) o o' ho ho' n).2 a e a' e' h1 h2

/-- `n` pieces with one point each. -/
def singles (n : Nat) (o : Nat → List Nat → List Nat) : Geometry Nat where
  pieces _ := (List.range n).map fun k => [k]
  redOrder := o
  points _ := List.range n
  parent _ := 0
  colorSpace _ := 0

/-- From three pieces on it fails for every addition in which some `(a + b) + c` and `(a + c) + b` differ: one inner product, of a
vector with a vector of ones, and two orders the runtime may choose. -/
theorem c49_three_pieces (A : Arith V) (h0 : ∀ a, A.add A.zero a = a) (h0' : ∀ a, A.add a A.zero = a)
    (h1 : ∀ a, A.mul a A.one = a) (a b c : V)
    (hne : A.add (A.add a b) c ≠ A.add (A.add a c) b) (n : Nat) (hn : 3 ≤ n) :
    ∃ (o o' : Nat → List Nat → List Nat) (s : Cell Nat → V) (r r' : V), (∀ f l, (o f l).Perm l) ∧ (∀ f l, (o' f l).Perm l) ∧ r ≠ r' ∧
      Ensures (Vector.dot A (singles n o).toEnv ⟨0, 0, 0, 0⟩ ⟨1, 0, 0, 0⟩) 0 s (fun d s' => s' (.fut d.fut) = r) ∧
      Ensures (Vector.dot A (singles n o').toEnv ⟨0, 0, 0, 0⟩ ⟨1, 0, 0, 0⟩) 0 s (fun d s' => s' (.fut d.fut) = r') := by
  let s : Cell Nat → V := fun
    | .elem 0 0 => a
    | .elem 0 1 => b
    | .elem 0 2 => c
    | .elem 0 _ => A.zero
    | .elem _ _ => A.one
    | _ => A.zero
  let sw : Nat → List Nat → List Nat := fun _ l => match l with
    | x :: y :: z :: l => x :: z :: y :: l
    | l => l
  have hsw : ∀ f l, (sw f l).Perm l := by
    intro f l
    match l with
    | [] => exact .rfl
    | [x] => exact .rfl
    | [x, y] => exact .rfl
    | x :: y :: z :: l => exact (List.Perm.swap y z l).cons x
  have hval : ∀ k, k < n → (((List.range n).map fun k => [k]).getD k []).foldl
      (fun acc p => A.add acc (A.mul (s (.elem 0 p)) (s (.elem 1 p)))) A.zero = s (.elem 0 k) := by
    intro k hk
    have : ((List.range n).map fun k => [k]).getD k [] = [k] := by
      simp [List.getD_eq_getElem?_getD, hk]
    rw [this]
    show A.add A.zero (A.mul (s (.elem 0 k)) A.one) = _
    rw [h0, h1]
  have hfold : ∀ l : List Nat, l.Perm (List.range n) → l.foldl (fun acc k => A.add acc
        ((((List.range n).map fun k => [k]).getD k []).foldl
          (fun acc p => A.add acc (A.mul (s (.elem 0 p)) (s (.elem 1 p)))) A.zero)) A.zero =
      l.foldl (fun acc k => A.add acc (s (.elem 0 k))) A.zero := by
    intro l hl
    have : ∀ (l : List Nat) (z : V), (∀ k ∈ l, k < n) → l.foldl (fun acc k => A.add acc
        ((((List.range n).map fun k => [k]).getD k []).foldl
          (fun acc p => A.add acc (A.mul (s (.elem 0 p)) (s (.elem 1 p)))) A.zero)) z =
      l.foldl (fun acc k => A.add acc (s (.elem 0 k))) z := by
      intro l
      induction l with
      | nil => intro z _; rfl
      | cons k l ih =>
        intro z hk
        rw [List.foldl_cons, List.foldl_cons, hval k (hk k (by simp)), ih _ fun j hj => hk j (by simp [hj])]
    exact this l _ fun k hk => List.mem_range.1 (hl.mem_iff.1 hk)
  obtain ⟨m, rfl⟩ : ∃ m, n = m + 3 := ⟨n - 3, by omega⟩
  have hr : List.range (m + 3) = 0 :: 1 :: 2 :: (List.range m).map (· + 3) := by
    rw [List.range_succ_eq_map, List.range_succ_eq_map, List.range_succ_eq_map]
    simp [Function.comp_def]
  have hz : ∀ (l : List Nat) (z : V), (l.map (· + 3)).foldl (fun acc k => A.add acc (s (.elem 0 k))) z = z := by
    intro l
    induction l with
    | nil => intro z; rfl
    | cons k l ih =>
      intro z
      rw [List.map_cons, List.foldl_cons, show s (.elem 0 (k + 3)) = A.zero from rfl, h0', ih]
  refine ⟨fun _ l => l, sw, s, A.add (A.add a b) c, A.add (A.add a c) b, fun _ _ => .rfl, hsw, hne, ?_, ?_⟩
  · obtain ⟨d, n', ts, q1, q2, q3⟩ := c22_value_any_arithmetic A (singles (m + 3) fun _ l => l).toEnv ⟨0, 0, 0, 0⟩ ⟨1, 0, 0, 0⟩
      ⟨rfl, rfl, rfl⟩ (fun _ _ => .rfl) 0 s
    refine ⟨d, n', ts, q1, q2, fun M' hs hd => (q3 M' hs hd).trans ?_⟩
    have hlen : ((singles (m + 3) fun _ l => l).pieces 0).length = m + 3 := by simp [singles]
    show (List.range ((singles (m + 3) fun _ l => l).pieces 0).length).foldl _ _ = _
    rw [hlen]
    refine (hfold _ .rfl).trans ?_
    rw [hr, List.foldl_cons, List.foldl_cons, List.foldl_cons, hz]
    show A.add (A.add (A.add A.zero a) b) c = _
    rw [h0]
  · obtain ⟨d, n', ts, q1, q2, q3⟩ := c22_value_any_arithmetic A (singles (m + 3) sw).toEnv ⟨0, 0, 0, 0⟩ ⟨1, 0, 0, 0⟩
      ⟨rfl, rfl, rfl⟩ hsw 0 s
    refine ⟨d, n', ts, q1, q2, fun M' hs hd => (q3 M' hs hd).trans ?_⟩
    have hlen : ((singles (m + 3) sw).pieces 0).length = m + 3 := by simp [singles]
    show (sw 0 (List.range ((singles (m + 3) sw).pieces 0).length)).foldl _ _ = _
    rw [hlen]
    refine (hfold _ (hsw 0 _)).trans ?_
    rw [hr]
    show (0 :: 2 :: 1 :: _).foldl _ _ = _
    rw [List.foldl_cons, List.foldl_cons, List.foldl_cons, hz]
    show A.add (A.add (A.add A.zero a) c) b = _
    rw [h0]

/-- Decimal arithmetic that keeps only the tens of a sum (rounding down), with zero neutral. -/
def coarse : Arith Int where
  zero := 0
  one := 1
  neg a := -a
  add a b := if a = 0 then b else if b = 0 then a else (a + b) / 10 * 10
  sub a b := a - b
  mul a b := a * b
  div a b := a / b
  sqrt a := a
  fma a b c := a * b + c

/-- A program that scales a vector by the square of its norm. -/
def normalise (A : Arith Int) (G : Geometry Nat) : M Nat Int Unit :=
  Vector.dot A G.toEnv ⟨0, 0, 0, 0⟩ ⟨0, 0, 0, 0⟩ >>= fun d => Vector.scal A G.toEnv ⟨0, 0, 0, 0⟩ d

/-- Instances: with an addition that is not associative, the hypotheses of `c49_two_pieces` hold on two pieces, and those of
`c49_three_pieces` on five. -/
example : ∀ a b, coarse.add (coarse.add coarse.zero a) b = coarse.add (coarse.add coarse.zero b) a := by
  intro a b
  simp only [coarse]
  split <;> split <;> simp_all
  omega
example : Program (P := Nat) Nat coarse (normalise coarse) := .andThen (.dot _ _) fun _ => .scal _ _
example : ∀ p, ((singles 2 fun _ l => l).pieces p).length ≤ 2 := fun _ => Nat.le_refl 2
example (o : Nat → List Nat → List Nat) : (normalise coarse (withOrder (singles 2 fun _ l => l) o) ⟨0, []⟩).isSome = true := rfl
example : ∃ (o o' : Nat → List Nat → List Nat) (s : Cell Nat → Int) (r r' : Int),
    (∀ f l, (o f l).Perm l) ∧ (∀ f l, (o' f l).Perm l) ∧ r ≠ r' ∧
      Ensures (Vector.dot coarse (singles 5 o).toEnv ⟨0, 0, 0, 0⟩ ⟨1, 0, 0, 0⟩) 0 s (fun d s' => s' (.fut d.fut) = r) ∧
      Ensures (Vector.dot coarse (singles 5 o').toEnv ⟨0, 0, 0, 0⟩ ⟨1, 0, 0, 0⟩) 0 s (fun d s' => s' (.fut d.fut) = r') :=
  c49_three_pieces coarse (fun a => by simp [coarse]) (fun a => by simp only [coarse]; split <;> simp_all)
    (fun a => Int.mul_one a) 5 5 10 (by decide) 5 (by decide)

end Verif.Solver
