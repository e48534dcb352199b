import Verif.Solver.Model
import Verif.Matrix.Lemmas
import Verif.Vector.Props
import Verif.Runtime.Sched

/-! # C49: runs are reproducible, whatever the arithmetic -/
set_option linter.dupNamespace false
set_option linter.unusedSectionVars false
namespace Verif.Solver
open Verif.Runtime Verif.Vector Verif.Matrix Verif.Planner
variable {K P V : Type} [DecidableEq P] [DecidableEq K]

/-- Client programs: any sequence of calls of the library on scalars, vectors, matrices and planners, later calls depending in any way
on the handles returned by earlier ones; a program may stop at any point (assertions, undefined accesses). -/
inductive Client (K : Type) [DecidableEq K] (A : Arith V) (G : Geometry P) : {α : Type} → M P V α → Prop
  | done {α : Type} (a : α) : Client K A G (pure a)
  | stop {α : Type} : Client K A G (fun _ => none : M P V α)
  | andThen {α β : Type} {m : M P V α} {f : α → M P V β} : Client K A G m → (∀ a, Client K A G (f a)) → Client K A G (m >>= f)
  -- scalars
  | scalarOf (a : V) : Client K A G (scalarOf a)
  | sNeg (a : Scalar) : Client K A G (sNeg A a)
  | sAdd (a b : Scalar) : Client K A G (sAdd A a b)
  | sSub (a b : Scalar) : Client K A G (sSub A a b)
  | sMul (a b : Scalar) : Client K A G (sMul A a b)
  | sDiv (a b : Scalar) : Client K A G (sDiv A a b)
  | sSqrt (a : Scalar) : Client K A G (sSqrt A a)
  | sRsqrt (a : Scalar) : Client K A G (sRsqrt A a)
  | dummy (l : List Scalar) : Client K A G (dummyTask A l)
  -- vectors
  | fill (v : Vec) (a : V) : Client K A G (constantFill G.toEnv v a)
  | fillScalar (v : Vec) (a : Scalar) : Client K A G (constantFillScalar G.toEnv v a)
  | assign (d x : Vec) : Client K A G (assign G.toEnv d x)
  | scal (x : Vec) (a : Scalar) : Client K A G (Vector.scal A G.toEnv x a)
  | axpy (y : Vec) (a : Scalar) (x : Vec) : Client K A G (Vector.axpy A G.toEnv y a x)
  | axpy2 (y : Vec) (a b : Scalar) (x : Vec) : Client K A G (Vector.axpy2 A G.toEnv y a b x)
  | axpy3 (y : Vec) (a b c : Scalar) (x : Vec) : Client K A G (Vector.axpy3 A G.toEnv y a b c x)
  | xpay (y : Vec) (a : Scalar) (x : Vec) : Client K A G (Vector.xpay A G.toEnv y a x)
  | xpay2 (y : Vec) (a b : Scalar) (x : Vec) : Client K A G (Vector.xpay2 A G.toEnv y a b x)
  | dot (v w : Vec) : Client K A G (Vector.dot A G.toEnv v w)
  -- matrices, with any partitions
  | matvec (o : Op K P V) (d x : Vec) (kp : List (List K)) (ghost : List (List P)) :
      Client K A G (o.matvec A G.toEnv d x kp ghost)
  -- planners
  | pZeroFill (pl : Planner K P V) (d : Nat) : Client K A G (pl.zeroFill A G.toEnv d)
  | pCopy (pl : Planner K P V) (d x : Nat) : Client K A G (pl.copy G.toEnv d x)
  | pScal (pl : Planner K P V) (d : Nat) (a : Scalar) : Client K A G (pl.scal A G.toEnv d a)
  | pAxpy (pl : Planner K P V) (d : Nat) (a : Scalar) (x : Nat) : Client K A G (pl.axpy A G.toEnv d a x)
  | pAxpy2 (pl : Planner K P V) (d : Nat) (a b : Scalar) (x : Nat) : Client K A G (pl.axpy2 A G.toEnv d a b x)
  | pAxpy3 (pl : Planner K P V) (d : Nat) (a b c : Scalar) (x : Nat) : Client K A G (pl.axpy3 A G.toEnv d a b c x)
  | pXpay (pl : Planner K P V) (d : Nat) (a : Scalar) (x : Nat) : Client K A G (pl.xpay A G.toEnv d a x)
  | pXpay2 (pl : Planner K P V) (d : Nat) (a b : Scalar) (x : Nat) : Client K A G (pl.xpay2 A G.toEnv d a b x)
  | pDot (pl : Planner K P V) (v w : Nat) : Client K A G (pl.dot A G.toEnv v w)
  | pMatvec (pl : Planner K P V) (d x : Nat) : Client K A G (pl.matvec A G.toEnv d x)
  | allocate (pl : Planner K P V) (base n : Nat) : Client K A G (allocate G pl base n)
  -- solvers
  | cg (pl : Planner K P V) (base k : Nat) : Client K A G (Solver.cg A G pl base k)
  | biCGStab (pl : Planner K P V) (base k : Nat) : Client K A G (Solver.biCGStab A G pl base k)
  | gmres (pl : Planner K P V) (base restart k : Nat) : Client K A G (Solver.gmres A G pl base restart k)
  /-- single steps, so that the program can do other things between them -/
  | cgStep (pl : Planner K P V) (c : CG Scalar) : Client K A G (CG.step (plannerOps A G.toEnv pl) c)
  | biCGStabStep (pl : Planner K P V) (c : BiCGStab Scalar) : Client K A G (BiCGStab.step (plannerOps A G.toEnv pl) c)
  | gmresStep (pl : Planner K P V) (c : GMRES Scalar) : Client K A G (GMRES.step (plannerOps A G.toEnv pl) c)

/-! ## Everything launched does only what it declares -/

/-- The program only appends tasks, which do only what they declare, and does not depend on what has been launched before. -/
def Hon {α : Type} (m : M P V α) : Prop :=
  ∀ e a e', m e = some (a, e') → ∃ ts, e'.out = e.out ++ ts ∧ (∀ t ∈ ts, t.Honest) ∧
    ∀ out, m ⟨e.next, out⟩ = some (a, ⟨e'.next, out ++ ts⟩)

namespace Hon
variable {α β : Type}

theorem pure (a : α) : Hon (pure a : M P V α) := by
  intro e b e' h
  obtain ⟨rfl, rfl⟩ := Prod.mk.inj (Option.some.inj h)
  exact ⟨[], by simp, by simp, fun out => by rw [List.append_nil]; rfl⟩

theorem stop : Hon (fun _ => none : M P V α) := by
  intro e b e' h; cases h

theorem bind {m : M P V α} {f : α → M P V β} (h : Hon m) (h' : ∀ a, Hon (f a)) : Hon (m >>= f) := by
  intro e b e'' hh
  obtain ⟨⟨a, e'⟩, h1, h2⟩ := Option.bind_eq_some_iff.1 (show (m e).bind (fun p => f p.1 p.2) = some (b, e'') from hh)
  obtain ⟨ts, e1, t1, u1⟩ := h e a e' h1
  obtain ⟨ts', e2, t2, u2⟩ := h' a e' b e'' h2
  refine ⟨ts ++ ts', by rw [e2, e1, List.append_assoc], fun t ht => ?_, fun out => ?_⟩
  rotate_left
  · show (m _).bind (fun p => f p.1 p.2) = _
    rw [u1 out, ← List.append_assoc]
    exact u2 _
  rcases List.mem_append.1 ht with ht | ht
  · exact t1 t ht
  · exact t2 t ht

theorem launch {ts : List (Task (Cell P) V)} (h : ∀ t ∈ ts, t.Honest) : Hon (launch ts) := by
  intro e b e' hh
  obtain ⟨rfl, rfl⟩ := Prod.mk.inj (Option.some.inj hh)
  exact ⟨ts, rfl, h, fun out => rfl⟩

theorem fresh : Hon (fresh : M P V Nat) := by
  intro e b e' hh
  obtain ⟨rfl, rfl⟩ := Prod.mk.inj (Option.some.inj hh)
  exact ⟨[], by simp, by simp, fun out => by rw [List.append_nil]; rfl⟩

theorem require (b : Bool) : Hon (require b : M P V Unit) := by
  intro e u e' hh
  unfold Vector.require at hh ⊢
  split at hh
  · next h =>
    obtain ⟨rfl, rfl⟩ := Prod.mk.inj (Option.some.inj hh)
    exact ⟨[], by simp, by simp, fun out => by rw [List.append_nil, if_pos h]⟩
  · cases hh

/-- Looking something up. -/
theorem option (o : Option α) : Hon (fun e => o.map fun v => (v, e) : M P V α) := by
  intro e u e' hh
  obtain ⟨v, hv, h⟩ := Option.map_eq_some_iff.1 hh
  obtain ⟨rfl, rfl⟩ := Prod.mk.inj h
  exact ⟨[], by simp, by simp, fun out => by rw [List.append_nil, hv]; rfl⟩

/-- Looking something up, then going on. -/
theorem lookup (o : Option α) {f : α → M P V β} (h : ∀ a, Hon (f a)) : Hon (fun e => o.bind fun v => f v e : M P V β) := by
  intro e u e' hh
  obtain ⟨v, hv, h2⟩ := Option.bind_eq_some_iff.1 hh
  obtain ⟨ts, e1, t1, u1⟩ := h v e u e' h2
  exact ⟨ts, e1, t1, fun out => by rw [hv]; exact u1 out⟩

theorem scalarTask_honest (f : Nat) (args : List Nat) (g : (Cell P → V) → V)
    (h : ∀ s s' : Cell P → V, (∀ a ∈ args, s (.fut a) = s' (.fut a)) → g s = g s') : (scalarTask f args g).Honest := by
  intro u hu
  obtain rfl := List.mem_singleton.1 hu
  exact ⟨rfl, fun s s' hs => h s s' fun a ha => hs _ ⟨a, ha, rfl⟩⟩

theorem scalarOf (a : V) : Hon (scalarOf a : M P V Scalar) :=
  fresh.bind fun _ => (launch (by
    intro t ht; obtain rfl := List.mem_singleton.1 ht
    exact scalarTask_honest _ _ _ fun _ _ _ => rfl)).bind fun _ => pure _

theorem unary (g : V → V) (a : Scalar) : Hon (unary g a : M P V Scalar) :=
  fresh.bind fun _ => (launch (by
    intro t ht; obtain rfl := List.mem_singleton.1 ht
    exact scalarTask_honest _ _ _ fun s s' h => by rw [h a.fut (by simp)])).bind fun _ => pure _

theorem binary (g : V → V → V) (a b : Scalar) : Hon (binary g a b : M P V Scalar) :=
  fresh.bind fun _ => (launch (by
    intro t ht; obtain rfl := List.mem_singleton.1 ht
    exact scalarTask_honest _ _ _ fun s s' h => by rw [h a.fut (by simp), h b.fut (by simp)])).bind fun _ => pure _

theorem dummyTask (A : Arith V) (l : List Scalar) : Hon (dummyTask A l : M P V Scalar) :=
  fresh.bind fun _ => (launch (by
    intro t ht; obtain rfl := List.mem_singleton.1 ht
    exact scalarTask_honest _ _ _ fun _ _ _ => rfl)).bind fun _ => pure _

theorem pieces {f : List P → Task (Cell P) V} (l : List (List P)) (h : ∀ pts, (f pts).Honest) : Hon (Vector.launch (l.map f)) :=
  launch fun t ht => by obtain ⟨pts, -, rfl⟩ := List.mem_map.1 ht; exact h pts

theorem check (y x : Vec) : Hon (checkCompatible y x : M P V Unit) :=
  (require _).bind fun _ => (require _).bind fun _ => require _

theorem constantFill (E : Env P) (v : Vec) (a : V) : Hon (constantFill E v a) := pieces _ (fillValueTask_honest v a)
theorem constantFillScalar (E : Env P) (v : Vec) (a : Scalar) : Hon (constantFillScalar E v a : M P V Unit) :=
  pieces _ (fillTask_honest v a.fut)
theorem assign (E : Env P) (d x : Vec) : Hon (assign E d x : M P V Unit) := (check d x).bind fun _ => pieces _ (copyTask_honest d x)
theorem scal (A : Arith V) (E : Env P) (x : Vec) (a : Scalar) : Hon (Vector.scal A E x a) := pieces _ (scalTask_honest A x _)
theorem axpy (A : Arith V) (E : Env P) (y : Vec) (a : Scalar) (x : Vec) : Hon (Vector.axpy A E y a x) :=
  (check y x).bind fun _ => pieces _ (axpyTask_honest A y x _)
theorem axpy2 (A : Arith V) (E : Env P) (y : Vec) (a b : Scalar) (x : Vec) : Hon (Vector.axpy2 A E y a b x) :=
  (check y x).bind fun _ => pieces _ (axpyTask_honest A y x _)
theorem axpy3 (A : Arith V) (E : Env P) (y : Vec) (a b c : Scalar) (x : Vec) : Hon (Vector.axpy3 A E y a b c x) :=
  (check y x).bind fun _ => pieces _ (axpyTask_honest A y x _)
theorem xpay (A : Arith V) (E : Env P) (y : Vec) (a : Scalar) (x : Vec) : Hon (Vector.xpay A E y a x) :=
  (check y x).bind fun _ => pieces _ (xpayTask_honest A y x _)
theorem xpay2 (A : Arith V) (E : Env P) (y : Vec) (a b : Scalar) (x : Vec) : Hon (Vector.xpay2 A E y a b x) :=
  (check y x).bind fun _ => pieces _ (xpayTask_honest A y x _)
theorem dot (A : Arith V) (E : Env P) (v w : Vec) : Hon (Vector.dot A E v w) :=
  (check v w).bind fun _ => fresh.bind fun f => (launch fun t ht => by
    obtain ⟨i, hi, rfl⟩ := List.mem_mapIdx.1 ht
    exact dotTask_honest A v w f i _).bind fun _ => (launch fun t ht => by
      obtain rfl := List.mem_singleton.1 ht
      exact reduceTask_honest A f _).bind fun _ => pure _

theorem zipWith {γ δ : Type} {g : γ → δ → Task (Cell P) V} (h : ∀ a b, (g a b).Honest) : ∀ (l : List γ) (l' : List δ),
    ∀ t ∈ List.zipWith g l l', t.Honest
  | [], _, t, ht => by simp at ht
  | _ :: _, [], t, ht => by simp at ht
  | a :: l, b :: l', t, ht => by
    rcases List.mem_cons.1 ht with rfl | ht
    · exact h a b
    · exact zipWith h l l' t ht

theorem csrTask_honest (A : Arith V) (m : CSR K P V) (d x : Vec) (out : List P) (kp : List K) (inp : List P)
    (t : Task (Cell P) V) (h : csrTask A m d x out kp inp = some t) : t.Honest := by
  unfold csrTask at h
  split at h
  · obtain rfl := Option.some.inj h
    intro u hu
    obtain ⟨k, -, hk⟩ := List.mem_filterMap.1 hu
    split at hk
    · next row _ =>
      split at hk
      · next hin =>
        obtain rfl := Option.some.inj hk
        refine ⟨⟨row, hin.2, rfl⟩, fun s s' hs => ?_⟩
        show A.add _ _ = A.add _ _
        rw [hs (.elem d.data row) (Or.inl ⟨row, hin.2, rfl⟩), hs (.elem x.data (m.col k)) (Or.inr ⟨_, hin.1, rfl⟩)]
      · cases hk
    · cases hk
  · cases h

theorem mapM_id {ts : List (Task (Cell P) V)} : ∀ {l : List (Option (Task (Cell P) V))}, l.mapM id = some ts →
    (∀ o ∈ l, ∀ t, o = some t → t.Honest) → ∀ t ∈ ts, t.Honest := by
  induction ts with
  | nil => intro l _ _ t ht; cases ht
  | cons a ts ih =>
    intro l h hl t ht
    cases l with
    | nil => simp at h
    | cons o l =>
      simp only [List.mapM_cons, id, Option.pure_def, Option.bind_eq_bind, Option.bind_eq_some_iff, Option.some.injEq] at h
      obtain ⟨a', ha, ts', hts, he⟩ := h
      obtain ⟨rfl, rfl⟩ := List.cons.inj he
      rcases List.mem_cons.1 ht with rfl | ht
      · exact hl o (by simp) _ ha
      · exact ih hts (fun o ho => hl o (by simp [ho])) t ht

theorem matvec (A : Arith V) (E : Env P) (o : Op K P V) (d x : Vec) (kp : List (List K)) (ghost : List (List P)) :
    Hon (o.matvec A E d x kp ghost) := by
  cases o with
  | coo m => exact launch (zipWith (fun _ _ => cooTask_honest A m d x _ _ _) _ _)
  | csr m =>
    intro e u e' hh
    obtain ⟨ts, h1, h2⟩ := Option.bind_eq_some_iff.1 hh
    have hon : ∀ t ∈ ts, t.Honest := by
      refine mapM_id h1 fun o ho t ht => ?_
      have key : ∀ (l : List (List P)) (l' : List (List K × List P)), ∀ o ∈ List.zipWith (fun out ki => csrTask A m d x out ki.1 ki.2) l l',
          ∀ t, o = some t → t.Honest := by
        intro l
        induction l with
        | nil => intro l' o ho; simp at ho
        | cons a l ih =>
          intro l' o ho t ht
          cases l' with
          | nil => simp at ho
          | cons b l' =>
            rcases List.mem_cons.1 ho with rfl | ho
            · exact csrTask_honest A m d x _ _ _ t ht
            · exact ih l' o ho t ht
      exact key _ _ o ho t ht
    obtain ⟨ts', q1, q2, q3⟩ := launch (P := P) (V := V) (ts := ts) hon e u e' h2
    exact ⟨ts', q1, q2, fun out => by
      show Option.bind _ _ = _
      rw [h1]; exact q3 out⟩

/-! ### Planner -/
theorem loop {ι : Type} {f : ι → M P V Unit} (h : ∀ i, Hon (f i)) : ∀ l : List ι, Hon (loop l f)
  | [] => pure ()
  | i :: l => (h i).bind fun _ => loop h l

theorem getVector (pl : Planner K P V) (k i : Nat) : Hon (pl.getVector k i) := option _
theorem numSpaces (pl : Planner K P V) : Hon (pl.numSpaces) := (require _).bind fun _ => pure _

theorem pZeroFill (A : Arith V) (E : Env P) (pl : Planner K P V) (d : Nat) : Hon (pl.zeroFill A E d) := by
  exact lookup _ fun l => loop (fun v => constantFill E v A.zero) l

theorem pairs (pl : Planner K P V) (d x : Nat) {f : Vec → Vec → M P V Unit} (h : ∀ y x, Hon (f y x)) :
    Hon (do let ns ← pl.numSpaces
            Planner.loop (List.range ns) fun i => do
              let y ← pl.getVector d i; let x ← pl.getVector x i
              f y x) :=
  (numSpaces pl).bind fun _ => loop (fun i => (getVector pl d i).bind fun y => (getVector pl x i).bind fun x => h y x) _

theorem pScal (A : Arith V) (E : Env P) (pl : Planner K P V) (d : Nat) (a : Scalar) : Hon (pl.scal A E d a) :=
  (numSpaces pl).bind fun _ => loop (fun i => (getVector pl d i).bind fun y => scal A E y a) _

theorem dotLoop (A : Arith V) (E : Env P) (pl : Planner K P V) (v w : Nat) : ∀ (l : List Nat) (r : Scalar),
    Hon (pl.dotLoop A E v w l r)
  | [], r => pure r
  | i :: l, r => (getVector pl v i).bind fun x => (getVector pl w i).bind fun y => (dot A E x y).bind fun d =>
      (binary A.add r d).bind fun r' => dotLoop A E pl v w l r'

theorem pDot (A : Arith V) (E : Env P) (pl : Planner K P V) (v w : Nat) : Hon (pl.dot A E v w) :=
  (numSpaces pl).bind fun _ => (getVector pl v 0).bind fun x => (getVector pl w 0).bind fun y =>
    (dot A E x y).bind fun r => dotLoop A E pl v w _ r

theorem pMatvec (A : Arith V) (E : Env P) (pl : Planner K P V) (d x : Nat) : Hon (pl.matvec A E d x) :=
  (pZeroFill A E pl d).bind fun _ => loop (fun r : Registered K P V => (getVector pl d r.rng).bind fun y => (getVector pl x r.dom).bind fun x =>
    matvec A E r.matrix y x _ _) _

/-! ### Solvers -/
theorem repeatM {f : α → M P V α} (h : ∀ a, Hon (f a)) : ∀ (k : Nat) (a : α), Hon (repeatM f k a)
  | 0, a => pure a
  | k + 1, a => (h a).bind fun a' => repeatM h k a'

/-- All operations of a record. -/
structure Ops (O : Solver.Ops (M P V) Scalar) : Prop where
  negOne : Hon O.negOne
  zero : Hon O.zero
  one : Hon O.one
  neg : ∀ a, Hon (O.neg a)
  mul : ∀ a b, Hon (O.mul a b)
  div : ∀ a b, Hon (O.div a b)
  sqrt : ∀ a, Hon (O.sqrt a)
  rsqrt : ∀ a, Hon (O.rsqrt a)
  zeroFill : ∀ d, Hon (O.zeroFill d)
  copy : ∀ d x, Hon (O.copy d x)
  scal : ∀ d a, Hon (O.scal d a)
  axpy : ∀ d a x, Hon (O.axpy d a x)
  axpy2 : ∀ d a b x, Hon (O.axpy2 d a b x)
  axpy3 : ∀ d a b c x, Hon (O.axpy3 d a b c x)
  xpay : ∀ d a x, Hon (O.xpay d a x)
  xpay2 : ∀ d a b x, Hon (O.xpay2 d a b x)
  dot : ∀ v w, Hon (O.dot v w)
  matvec : ∀ d x, Hon (O.matvec d x)
  dummy : ∀ l, Hon (O.dummy l)

theorem plannerOps (A : Arith V) (E : Env P) (pl : Planner K P V) : Ops (plannerOps A E pl) where
  negOne := scalarOf _
  zero := scalarOf _
  one := scalarOf _
  neg := unary _
  mul := binary _
  div := binary _
  sqrt := unary _
  rsqrt a := unary (fun x => A.div A.one (A.sqrt x)) a
  zeroFill := pZeroFill A E pl
  copy d x := pairs pl d x fun y x => assign E y x
  scal := pScal A E pl
  axpy d a x := pairs pl d x fun y x => axpy A E y a x
  axpy2 d a b x := pairs pl d x fun y x => axpy2 A E y a b x
  axpy3 d a b c x := pairs pl d x fun y x => axpy3 A E y a b c x
  xpay d a x := pairs pl d x fun y x => xpay A E y a x
  xpay2 d a b x := pairs pl d x fun y x => xpay2 A E y a b x
  dot := pDot A E pl
  matvec := pMatvec A E pl
  dummy := dummyTask A

section
variable {O : Solver.Ops (M P V) Scalar} (H : Ops O)
include H

theorem cgStep (c : CG Scalar) : Hon (CG.step O c) := by
  unfold CG.step
  exact (H.matvec _ _).bind fun _ => (H.dot _ _).bind fun _ => (H.axpy2 _ _ _ _).bind fun _ => (H.axpy3 _ _ _ _ _).bind fun _ =>
    (H.dot _ _).bind fun _ => (H.xpay2 _ _ _ _).bind fun _ => pure _

theorem cgSolve (k : Nat) : Hon (CG.solve O k) := by
  unfold CG.solve CG.init
  exact (H.negOne.bind fun _ => (H.copy _ _).bind fun _ => (H.copy _ _).bind fun _ => (H.dot _ _).bind fun _ => pure _).bind
    fun _ => repeatM (cgStep H) _ _

theorem biStep (c : BiCGStab Scalar) : Hon (BiCGStab.step O c) := by
  unfold BiCGStab.step
  exact (H.dot _ _).bind fun _ => (H.div _ _).bind fun _ => (H.div _ _).bind fun _ => (H.mul _ _).bind fun _ => (H.neg _).bind fun _ =>
    (H.axpy _ _ _).bind fun _ => (H.xpay _ _ _).bind fun _ => (H.matvec _ _).bind fun _ => (H.dot _ _).bind fun _ =>
    (H.axpy3 _ _ _ _ _).bind fun _ => (H.div _ _).bind fun _ => (H.matvec _ _).bind fun _ => (H.dot _ _).bind fun _ =>
    (H.dot _ _).bind fun _ => (H.div _ _).bind fun _ => (H.axpy _ _ _).bind fun _ => (H.axpy _ _ _).bind fun _ =>
    (H.neg _).bind fun _ => (H.axpy _ _ _).bind fun _ => pure _

theorem biSolve (k : Nat) : Hon (BiCGStab.solve O k) := by
  unfold BiCGStab.solve BiCGStab.init
  exact (H.negOne.bind fun _ => H.zero.bind fun _ => H.one.bind fun _ => (H.copy _ _).bind fun _ => (H.copy _ _).bind fun _ =>
    (H.zeroFill _).bind fun _ => (H.zeroFill _).bind fun _ => pure _).bind fun _ => repeatM (biStep H) _ _

theorem zeros : ∀ n, Hon (zeros O n)
  | 0 => pure _
  | n + 1 => H.zero.bind fun _ => (zeros n).bind fun _ => pure _

theorem orthogonalise (j : Nat) : ∀ (l : List Nat) (h : Nat → Nat → Scalar), Hon (GMRES.orthogonalise O j l h)
  | [], h => pure h
  | _ :: l, _ => (H.dot _ _).bind fun _ => (H.neg _).bind fun _ => (H.axpy _ _ _).bind fun _ => orthogonalise j l _

theorem column (r j : Nat) (h : Nat → Nat → Scalar) : Hon (GMRES.column O r j h) := by
  unfold GMRES.column
  refine (H.matvec _ _).bind fun _ => (orthogonalise H j _ _).bind fun _ => (H.dot _ _).bind fun _ => (H.sqrt _).bind fun _ => ?_
  dsimp only
  split
  · exact (H.rsqrt _).bind fun _ => (H.scal _ _).bind fun _ => pure _
  · exact pure _

theorem columns (r : Nat) : ∀ (l : List Nat) (h : Nat → Nat → Scalar), Hon (GMRES.columns O r l h)
  | [], h => pure h
  | j :: l, h => (column H r j h).bind fun _ => columns r l _

theorem update (c : Scalar) : ∀ l : List Nat, Hon (GMRES.update O c l)
  | [] => pure _
  | _ :: l => (H.axpy _ _ _).bind fun _ => update c l

theorem gmresStep (c : GMRES Scalar) : Hon (GMRES.step O c) := by
  unfold GMRES.step GMRES.build GMRES.start GMRES.finish
  exact (((H.matvec _ _).bind fun _ => (H.xpay _ _ _).bind fun _ => (H.dot _ _).bind fun _ => (H.rsqrt _).bind fun _ => H.scal _ _).bind
    fun _ => (columns H _ _ _).bind fun _ => pure _).bind fun _ => ((H.dummy _).bind fun _ => update H _ _).bind fun _ => pure _

theorem gmresSolve (r k : Nat) : Hon (GMRES.solve O r k) := by
  unfold GMRES.solve GMRES.init
  exact (H.negOne.bind fun _ => (zeros H _).bind fun _ => (zeros H _).bind fun _ => (zeros H _).bind fun _ => pure _).bind
    fun _ => repeatM (gmresStep H) _ _
end

theorem client {A : Arith V} {G : Geometry P} {α : Type} {m : M P V α} (h : Client K A G m) : Hon m := by
  induction h with
  | done a => exact pure a
  | stop => exact stop
  | andThen _ _ h1 h2 => exact h1.bind h2
  | scalarOf a => exact scalarOf a
  | sNeg a => exact unary _ a
  | sAdd a b => exact binary _ a b
  | sSub a b => exact binary _ a b
  | sMul a b => exact binary _ a b
  | sDiv a b => exact binary _ a b
  | sSqrt a => exact unary _ a
  | sRsqrt a => exact unary _ a
  | dummy l => exact dummyTask A l
  | fill v a => exact constantFill _ v a
  | fillScalar v a => exact constantFillScalar _ v a
  | assign d x => exact assign _ d x
  | scal x a => exact scal A _ x a
  | axpy y a x => exact axpy A _ y a x
  | axpy2 y a b x => exact axpy2 A _ y a b x
  | axpy3 y a b c x => exact axpy3 A _ y a b c x
  | xpay y a x => exact xpay A _ y a x
  | xpay2 y a b x => exact xpay2 A _ y a b x
  | dot v w => exact dot A _ v w
  | matvec o d x kp ghost => exact matvec A _ o d x kp ghost
  | pZeroFill pl d => exact (plannerOps A _ pl).zeroFill d
  | pCopy pl d x => exact (plannerOps A _ pl).copy d x
  | pScal pl d a => exact (plannerOps A _ pl).scal d a
  | pAxpy pl d a x => exact (plannerOps A _ pl).axpy d a x
  | pAxpy2 pl d a b x => exact (plannerOps A _ pl).axpy2 d a b x
  | pAxpy3 pl d a b c x => exact (plannerOps A _ pl).axpy3 d a b c x
  | pXpay pl d a x => exact (plannerOps A _ pl).xpay d a x
  | pXpay2 pl d a b x => exact (plannerOps A _ pl).xpay2 d a b x
  | pDot pl v w => exact (plannerOps A _ pl).dot v w
  | pMatvec pl d x => exact (plannerOps A _ pl).matvec d x
  | allocate pl base n => exact option _
  | cg pl base k => exact (option (P := P) (V := V) _).bind fun pl' => cgSolve (plannerOps A _ pl') k
  | biCGStab pl base k => exact (option (P := P) (V := V) _).bind fun pl' => biSolve (plannerOps A _ pl') k
  | gmres pl base r k => exact (option (P := P) (V := V) _).bind fun pl' => gmresSolve (plannerOps A _ pl') r k
  | cgStep pl c => exact cgStep (plannerOps A _ pl) c
  | biCGStabStep pl c => exact biStep (plannerOps A _ pl) c
  | gmresStep pl c => exact gmresStep (plannerOps A _ pl) c

end Hon

/-- **C49** as far as it holds: whatever the arithmetic (rounding, infinities, NaN), whatever the data and however the tasks of a client
program are interleaved, all complete executions with the same reduction orders end with the same memory, bit for bit,
namely that of running the calls one after the other. -/
theorem c49_reproducible_partial (A : Arith V) (G : Geometry P) {α : Type} (m : M P V α) (h : Client K A G m) (n : Nat) (a : α)
    (e' : Emit P V) (hm : m ⟨n, []⟩ = some (a, e')) (s : Cell P → V) (M' M'' : Machine (Cell P) V)
    (h' : (Machine.start s e'.out).Steps M') (d' : M'.Done) (h'' : (Machine.start s e'.out).Steps M'') (d'' : M''.Done) :
    M'.store = M''.store ∧ M'.store = runTasks s e'.out := by
  obtain ⟨ts, e, ht, -⟩ := Hon.client h _ _ _ hm
  have he : e'.out = ts := by rw [e]; rfl
  have h1 := c42_any_schedule s e'.out (he ▸ ht) M' h' d'
  have h2 := c42_any_schedule s e'.out (he ▸ ht) M'' h'' d''
  exact ⟨h1.trans h2.symm, h1⟩

/-- **C42** for every client program (scalars, vectors, matrices, planner, solvers), every arithmetic and all data: however its tasks
are interleaved, a complete execution ends with the memory of running the calls one after the other; no execution gets stuck;
and a complete one exists (`c42_terminates`: every execution ends). -/
theorem c42_every_client (A : Arith V) (G : Geometry P) {α : Type} (m : M P V α) (h : Client K A G m) (n : Nat) (a : α)
    (e' : Emit P V) (hm : m ⟨n, []⟩ = some (a, e')) (s : Cell P → V) :
    (∀ M', (Machine.start s e'.out).Steps M' → M'.Done → M'.store = runTasks s e'.out) ∧
    (∀ M', (Machine.start s e'.out).Steps M' → ¬ M'.Done → ∃ M'', M'.Step M'') ∧
    ∃ M', (Machine.start s e'.out).Steps M' ∧ M'.Done ∧ M'.store = runTasks s e'.out := by
  obtain ⟨ts, e, ht, -⟩ := Hon.client h _ _ _ hm
  have he : e'.out = ts := by rw [e]; rfl
  have ht' := he ▸ ht
  refine ⟨fun M' h1 h2 => c42_any_schedule s e'.out ht' M' h1 h2, fun M' h1 h2 => ?_, ?_⟩
  · exact c42_progress M' h2
  · obtain ⟨M', h1, h2⟩ := c42_complete_execution_exists (Machine.start s e'.out)
    exact ⟨M', h1, h2, c42_any_schedule s e'.out ht' M' h1 h2⟩

/-- Decimal arithmetic with two significant digits for results from 100 on (rounding down). -/
def twoDigits : Arith Int where
  zero := 0
  one := 1
  neg a := -a
  add a b := if a + b < 100 then a + b else (a + b) / 10 * 10
  sub a b := a - b
  mul a b := a * b
  div a b := a / b
  sqrt a := a
  fma a b c := a * b + c

/-- A vector of three pieces with one point each. -/
def threePieces (order : Nat → List Nat → List Nat) : Geometry Nat where
  pieces _ := [[0], [1], [2]]
  redOrder := order
  points _ := [0, 1, 2]
  parent _ := 0
  colorSpace _ := 0

/-- Reproducibility fails for inner products: the reduction is requested without asking for a deterministic order
(`PartitionedVector.cpp` 353-357), and two orders the runtime may choose give different scalars in an arithmetic with rounding. -/
theorem c49_violated : ∃ (o o' : Nat → List Nat → List Nat) (v w : Vec) (s : Cell Nat → Int),
    (∀ f l, (o f l).Perm l) ∧ (∀ f l, (o' f l).Perm l) ∧
    Ensures (Vector.dot twoDigits (threePieces o).toEnv v w) 0 s (fun r s' => s' (.fut r.fut) = 100) ∧
    Ensures (Vector.dot twoDigits (threePieces o').toEnv v w) 0 s (fun r s' => s' (.fut r.fut) = 110) := by
  refine ⟨fun _ l => l, fun _ l => l.reverse, ⟨0, 0, 0, 0⟩, ⟨1, 0, 0, 0⟩,
    fun | .elem 0 0 => 100 | .elem 0 _ => 5 | .elem _ _ => 1 | _ => 0, fun _ _ => .rfl, fun _ l => List.reverse_perm l, ?_, ?_⟩
  · obtain ⟨a, n', ts, h1, h2, h3⟩ := c22_value_any_arithmetic twoDigits (threePieces fun _ l => l).toEnv ⟨0, 0, 0, 0⟩ ⟨1, 0, 0, 0⟩
      ⟨rfl, rfl, rfl⟩ (fun _ _ => .rfl) 0 _
    exact ⟨a, n', ts, h1, h2, fun M' hs hd => (h3 M' hs hd).trans (by decide)⟩
  · obtain ⟨a, n', ts, h1, h2, h3⟩ := c22_value_any_arithmetic twoDigits (threePieces fun _ l => l.reverse).toEnv ⟨0, 0, 0, 0⟩
      ⟨1, 0, 0, 0⟩ ⟨rfl, rfl, rfl⟩ (fun _ l => List.reverse_perm l) 0 _
    exact ⟨a, n', ts, h1, h2, fun M' hs hd => (h3 M' hs hd).trans (by decide)⟩

/-- Instance: a client program that computes a norm and scales by it, running to the end. -/
example : Client Nat twoDigits (threePieces fun _ l => l)
    (Vector.dot twoDigits (threePieces fun _ l => l).toEnv ⟨0, 0, 0, 0⟩ ⟨0, 0, 0, 0⟩ >>= fun d =>
      Vector.scal twoDigits (threePieces fun _ l => l).toEnv ⟨0, 0, 0, 0⟩ d) :=
  .andThen (.dot _ _) fun _ => .scal _ _
example : ((Vector.dot twoDigits (threePieces fun _ l => l).toEnv ⟨0, 0, 0, 0⟩ ⟨0, 0, 0, 0⟩ >>= fun d =>
      Vector.scal twoDigits (threePieces fun _ l => l).toEnv ⟨0, 0, 0, 0⟩ d) ⟨0, []⟩).isSome = true := rfl

end Verif.Solver
