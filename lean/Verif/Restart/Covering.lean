import Verif.Restart.Model
import Verif.Solver.Determinism

/-! # C96: what the tasks of the library assign -/
set_option linter.dupNamespace false
set_option linter.unusedSectionVars false
namespace Verif.Restart
open Verif.Runtime Verif.Vector Verif.Matrix Verif.Planner Verif.Solver
variable {K P V : Type} [DecidableEq P] [DecidableEq K]

/-! ## Every task of the library assigns what it declares written but not read -/

/-- The program only appends tasks, which assign what they declare written but not read. -/
def Cov {α : Type} (m : M P V α) : Prop :=
  ∀ e a e', m e = some (a, e') → ∃ ts, e'.out = e.out ++ ts ∧ (∀ t ∈ ts, Covers t) ∧
    ∀ out, m ⟨e.next, out⟩ = some (a, ⟨e'.next, out ++ ts⟩)

namespace Cov
variable {α β : Type}

theorem pure (a : α) : Cov (pure a : M P V α) := by
  intro e b e' h
  obtain ⟨rfl, rfl⟩ := Prod.mk.inj (Option.some.inj h)
  exact ⟨[], by simp, by simp, fun out => by rw [List.append_nil]; rfl⟩

theorem stop : Cov (fun _ => none : M P V α) := by
  intro e b e' h; cases h

theorem bind {m : M P V α} {f : α → M P V β} (h : Cov m) (h' : ∀ a, Cov (f a)) : Cov (m >>= f) := by
  intro e b e'' hh
  obtain ⟨⟨a, e'⟩, h1, h2⟩ := Option.bind_eq_some_iff.1 (show (m e).bind (fun p => f p.1 p.2) = some (b, e'') from hh)
  obtain ⟨ts, e1, t1, u1⟩ := h e a e' h1
  obtain ⟨ts', e2, t2, u2⟩ := h' a e' b e'' h2
  refine ⟨ts ++ ts', by rw [e2, e1, List.append_assoc], fun t ht => ?_, fun out => ?_⟩
  rotate_left
  · show (m _).bind (fun p => f p.1 p.2) = _
    rw [u1 out, ← List.append_assoc]
    exact u2 _
  rcases List.mem_append.1 ht with ht | ht
  · exact t1 t ht
  · exact t2 t ht

theorem launch {ts : List (Task (Cell P) V)} (h : ∀ t ∈ ts, Covers t) : Cov (launch ts) := by
  intro e b e' hh
  obtain ⟨rfl, rfl⟩ := Prod.mk.inj (Option.some.inj hh)
  exact ⟨ts, rfl, h, fun out => rfl⟩

theorem fresh : Cov (fresh : M P V Nat) := by
  intro e b e' hh
  obtain ⟨rfl, rfl⟩ := Prod.mk.inj (Option.some.inj hh)
  exact ⟨[], by simp, by simp, fun out => by rw [List.append_nil]; rfl⟩

theorem require (b : Bool) : Cov (require b : M P V Unit) := by
  intro e u e' hh
  unfold Vector.require at hh ⊢
  split at hh
  · next h =>
    obtain ⟨rfl, rfl⟩ := Prod.mk.inj (Option.some.inj hh)
    exact ⟨[], by simp, by simp, fun out => by rw [List.append_nil, if_pos h]⟩
  · cases hh

/-- Looking something up. -/
theorem option (o : Option α) : Cov (fun e => o.map fun v => (v, e) : M P V α) := by
  intro e u e' hh
  obtain ⟨v, hv, h⟩ := Option.map_eq_some_iff.1 hh
  obtain ⟨rfl, rfl⟩ := Prod.mk.inj h
  exact ⟨[], by simp, by simp, fun out => by rw [List.append_nil, hv]; rfl⟩

/-- Looking something up, then going on. -/
theorem lookup (o : Option α) {f : α → M P V β} (h : ∀ a, Cov (f a)) : Cov (fun e => o.bind fun v => f v e : M P V β) := by
  intro e u e' hh
  obtain ⟨v, hv, h2⟩ := Option.bind_eq_some_iff.1 hh
  obtain ⟨ts, e1, t1, u1⟩ := h v e u e' h2
  exact ⟨ts, e1, t1, fun out => by rw [hv]; exact u1 out⟩

theorem scalarTask_covers (f : Nat) (args : List Nat) (g : (Cell P → V) → V)
    (_ : ∀ s s' : Cell P → V, (∀ a ∈ args, s (.fut a) = s' (.fut a)) → g s = g s') : Covers (scalarTask f args g) :=
  fun _ hc => Or.inr ⟨_, List.mem_singleton.2 rfl, hc.symm⟩

theorem piece_covers {v : Vec} {pts : List P} {f : P → (Cell P → V) → V} {c : Cell P} (h : inPiece v pts c) :
    ∃ u ∈ pts.map fun p => (⟨.elem v.data p, f p⟩ : Update (Cell P) V), u.dst = c := by
  obtain ⟨p, hp, rfl⟩ := h
  exact ⟨_, List.mem_map_of_mem hp, rfl⟩

theorem fillValueTask_covers (v : Vec) (a : V) (pts : List P) : Covers (fillValueTask v a pts) := fun _ h => Or.inr (piece_covers h)
theorem fillTask_covers (v : Vec) (f : Nat) (pts : List P) : Covers (fillTask v f pts : Task (Cell P) V) := fun _ h => Or.inr (piece_covers h)
theorem copyTask_covers (d x : Vec) (pts : List P) : Covers (copyTask d x pts : Task (Cell P) V) := fun _ h => Or.inr (piece_covers h)
theorem scalTask_covers (A : Arith V) (x : Vec) (fs : List Nat) (pts : List P) : Covers (scalTask A x fs pts) := fun _ h => Or.inl (Or.inl h)
theorem axpyTask_covers (A : Arith V) (y x : Vec) (fs : List Nat) (pts : List P) : Covers (axpyTask A y x fs pts) := fun _ h => Or.inl (Or.inl h)
theorem xpayTask_covers (A : Arith V) (y x : Vec) (fs : List Nat) (pts : List P) : Covers (xpayTask A y x fs pts) := fun _ h => Or.inl (Or.inl h)
theorem dotTask_covers (A : Arith V) (v w : Vec) (f i : Nat) (pts : List P) : Covers (dotTask A v w f i pts) :=
  fun _ h => Or.inl (Or.inr (Or.inr h))
theorem reduceTask_covers (A : Arith V) (f : Nat) (l : List Nat) : Covers (reduceTask A f l : Task (Cell P) V) :=
  fun _ h => Or.inr ⟨_, List.mem_singleton.2 rfl, Eq.symm h⟩
theorem cooTask_covers (A : Arith V) (m : COO K P V) (d x : Vec) (out : List P) (kp : List K) (inp : List P) : Covers (cooTask A m d x out kp inp) :=
  fun _ h => Or.inl (Or.inl h)

theorem scalarOf (a : V) : Cov (scalarOf a : M P V Scalar) :=
  fresh.bind fun _ => (launch (by
    intro t ht; obtain rfl := List.mem_singleton.1 ht
    exact scalarTask_covers _ _ _ fun _ _ _ => rfl)).bind fun _ => pure _

theorem unary (g : V → V) (a : Scalar) : Cov (unary g a : M P V Scalar) :=
  fresh.bind fun _ => (launch (by
    intro t ht; obtain rfl := List.mem_singleton.1 ht
    exact scalarTask_covers _ _ _ fun s s' h => by rw [h a.fut (by simp)])).bind fun _ => pure _

theorem binary (g : V → V → V) (a b : Scalar) : Cov (binary g a b : M P V Scalar) :=
  fresh.bind fun _ => (launch (by
    intro t ht; obtain rfl := List.mem_singleton.1 ht
    exact scalarTask_covers _ _ _ fun s s' h => by rw [h a.fut (by simp), h b.fut (by simp)])).bind fun _ => pure _

theorem dummyTask (A : Arith V) (l : List Scalar) : Cov (dummyTask A l : M P V Scalar) :=
  fresh.bind fun _ => (launch (by
    intro t ht; obtain rfl := List.mem_singleton.1 ht
    exact scalarTask_covers _ _ _ fun _ _ _ => rfl)).bind fun _ => pure _

theorem pieces {f : List P → Task (Cell P) V} (l : List (List P)) (h : ∀ pts, Covers (f pts)) : Cov (Vector.launch (l.map f)) :=
  launch fun t ht => by obtain ⟨pts, -, rfl⟩ := List.mem_map.1 ht; exact h pts

theorem check (y x : Vec) : Cov (checkCompatible y x : M P V Unit) :=
  (require _).bind fun _ => (require _).bind fun _ => require _

theorem constantFill (E : Env P) (v : Vec) (a : V) : Cov (constantFill E v a) := pieces _ (fillValueTask_covers v a)
theorem constantFillScalar (E : Env P) (v : Vec) (a : Scalar) : Cov (constantFillScalar E v a : M P V Unit) :=
  pieces _ (fillTask_covers v a.fut)
theorem assign (E : Env P) (d x : Vec) : Cov (assign E d x : M P V Unit) := (check d x).bind fun _ => pieces _ (copyTask_covers d x)
theorem scal (A : Arith V) (E : Env P) (x : Vec) (a : Scalar) : Cov (Vector.scal A E x a) := pieces _ (scalTask_covers A x _)
theorem axpy (A : Arith V) (E : Env P) (y : Vec) (a : Scalar) (x : Vec) : Cov (Vector.axpy A E y a x) :=
  (check y x).bind fun _ => pieces _ (axpyTask_covers A y x _)
theorem axpy2 (A : Arith V) (E : Env P) (y : Vec) (a b : Scalar) (x : Vec) : Cov (Vector.axpy2 A E y a b x) :=
  (check y x).bind fun _ => pieces _ (axpyTask_covers A y x _)
theorem axpy3 (A : Arith V) (E : Env P) (y : Vec) (a b c : Scalar) (x : Vec) : Cov (Vector.axpy3 A E y a b c x) :=
  (check y x).bind fun _ => pieces _ (axpyTask_covers A y x _)
theorem xpay (A : Arith V) (E : Env P) (y : Vec) (a : Scalar) (x : Vec) : Cov (Vector.xpay A E y a x) :=
  (check y x).bind fun _ => pieces _ (xpayTask_covers A y x _)
theorem xpay2 (A : Arith V) (E : Env P) (y : Vec) (a b : Scalar) (x : Vec) : Cov (Vector.xpay2 A E y a b x) :=
  (check y x).bind fun _ => pieces _ (xpayTask_covers A y x _)
theorem dot (A : Arith V) (E : Env P) (v w : Vec) : Cov (Vector.dot A E v w) :=
  (check v w).bind fun _ => fresh.bind fun f => (launch fun t ht => by
    obtain ⟨i, hi, rfl⟩ := List.mem_mapIdx.1 ht
    exact dotTask_covers A v w f i _).bind fun _ => (launch fun t ht => by
      obtain rfl := List.mem_singleton.1 ht
      exact reduceTask_covers A f _).bind fun _ => pure _

theorem zipWith {γ δ : Type} {g : γ → δ → Task (Cell P) V} (h : ∀ a b, Covers (g a b)) : ∀ (l : List γ) (l' : List δ),
    ∀ t ∈ List.zipWith g l l', Covers t
  | [], _, t, ht => by simp at ht
  | _ :: _, [], t, ht => by simp at ht
  | a :: l, b :: l', t, ht => by
    rcases List.mem_cons.1 ht with rfl | ht
    · exact h a b
    · exact zipWith h l l' t ht

theorem csrTask_covers (A : Arith V) (m : CSR K P V) (d x : Vec) (out : List P) (kp : List K) (inp : List P)
    (t : Task (Cell P) V) (h : csrTask A m d x out kp inp = some t) : Covers t := by
  unfold csrTask at h
  split at h
  · obtain rfl := Option.some.inj h
    exact fun _ h => Or.inl (Or.inl h)
  · cases h

theorem mapM_id {ts : List (Task (Cell P) V)} : ∀ {l : List (Option (Task (Cell P) V))}, l.mapM id = some ts →
    (∀ o ∈ l, ∀ t, o = some t → Covers t) → ∀ t ∈ ts, Covers t := by
  induction ts with
  | nil => intro l _ _ t ht; cases ht
  | cons a ts ih =>
    intro l h hl t ht
    cases l with
    | nil => simp at h
    | cons o l =>
      simp only [List.mapM_cons, id, Option.pure_def, Option.bind_eq_bind, Option.bind_eq_some_iff, Option.some.injEq] at h
      obtain ⟨a', ha, ts', hts, he⟩ := h
      obtain ⟨rfl, rfl⟩ := List.cons.inj he
      rcases List.mem_cons.1 ht with rfl | ht
      · exact hl o (by simp) _ ha
      · exact ih hts (fun o ho => hl o (by simp [ho])) t ht

theorem matvec (A : Arith V) (E : Env P) (o : Op K P V) (d x : Vec) (kp : List (List K)) (ghost : List (List P)) :
    Cov (o.matvec A E d x kp ghost) := by
  cases o with
  | coo m => exact launch (zipWith (fun _ _ => cooTask_covers A m d x _ _ _) _ _)
  | csr m =>
    intro e u e' hh
    obtain ⟨ts, h1, h2⟩ := Option.bind_eq_some_iff.1 hh
    have hon : ∀ t ∈ ts, Covers t := by
      refine mapM_id h1 fun o ho t ht => ?_
      have key : ∀ (l : List (List P)) (l' : List (List K × List P)), ∀ o ∈ List.zipWith (fun out ki => csrTask A m d x out ki.1 ki.2) l l',
          ∀ t, o = some t → Covers t := by
        intro l
        induction l with
        | nil => intro l' o ho; simp at ho
        | cons a l ih =>
          intro l' o ho t ht
          cases l' with
          | nil => simp at ho
          | cons b l' =>
            rcases List.mem_cons.1 ho with rfl | ho
            · exact csrTask_covers A m d x _ _ _ t ht
            · exact ih l' o ho t ht
      exact key _ _ o ho t ht
    obtain ⟨ts', q1, q2, q3⟩ := launch (P := P) (V := V) (ts := ts) hon e u e' h2
    exact ⟨ts', q1, q2, fun out => by
      show Option.bind _ _ = _
      rw [h1]; exact q3 out⟩

/-! ### Planner -/
theorem loop {ι : Type} {f : ι → M P V Unit} (h : ∀ i, Cov (f i)) : ∀ l : List ι, Cov (loop l f)
  | [] => pure ()
  | i :: l => (h i).bind fun _ => loop h l

theorem getVector (pl : Planner K P V) (k i : Nat) : Cov (pl.getVector k i) := option _
theorem numSpaces (pl : Planner K P V) : Cov (pl.numSpaces) := (require _).bind fun _ => pure _

theorem pZeroFill (A : Arith V) (E : Env P) (pl : Planner K P V) (d : Nat) : Cov (pl.zeroFill A E d) := by
  exact lookup _ fun l => loop (fun v => constantFill E v A.zero) l

theorem pairs (pl : Planner K P V) (d x : Nat) {f : Vec → Vec → M P V Unit} (h : ∀ y x, Cov (f y x)) :
    Cov (do let ns ← pl.numSpaces
            Planner.loop (List.range ns) fun i => do
              let y ← pl.getVector d i; let x ← pl.getVector x i
              f y x) :=
  (numSpaces pl).bind fun _ => loop (fun i => (getVector pl d i).bind fun y => (getVector pl x i).bind fun x => h y x) _

theorem pScal (A : Arith V) (E : Env P) (pl : Planner K P V) (d : Nat) (a : Scalar) : Cov (pl.scal A E d a) :=
  (numSpaces pl).bind fun _ => loop (fun i => (getVector pl d i).bind fun y => scal A E y a) _

theorem dotLoop (A : Arith V) (E : Env P) (pl : Planner K P V) (v w : Nat) : ∀ (l : List Nat) (r : Scalar),
    Cov (pl.dotLoop A E v w l r)
  | [], r => pure r
  | i :: l, r => (getVector pl v i).bind fun x => (getVector pl w i).bind fun y => (dot A E x y).bind fun d =>
      (binary A.add r d).bind fun r' => dotLoop A E pl v w l r'

theorem pDot (A : Arith V) (E : Env P) (pl : Planner K P V) (v w : Nat) : Cov (pl.dot A E v w) :=
  (numSpaces pl).bind fun _ => (getVector pl v 0).bind fun x => (getVector pl w 0).bind fun y =>
    (dot A E x y).bind fun r => dotLoop A E pl v w _ r

theorem pMatvec (A : Arith V) (E : Env P) (pl : Planner K P V) (d x : Nat) : Cov (pl.matvec A E d x) :=
  (pZeroFill A E pl d).bind fun _ => loop (fun r : Registered K P V => (getVector pl d r.rng).bind fun y => (getVector pl x r.dom).bind fun x =>
    matvec A E r.matrix y x _ _) _

/-! ### Solvers -/
theorem repeatM {f : α → M P V α} (h : ∀ a, Cov (f a)) : ∀ (k : Nat) (a : α), Cov (repeatM f k a)
  | 0, a => pure a
  | k + 1, a => (h a).bind fun a' => repeatM h k a'

/-- All operations of a record. -/
structure Ops (O : Solver.Ops (M P V) Scalar) : Prop where
  negOne : Cov O.negOne
  zero : Cov O.zero
  one : Cov O.one
  neg : ∀ a, Cov (O.neg a)
  mul : ∀ a b, Cov (O.mul a b)
  div : ∀ a b, Cov (O.div a b)
  sqrt : ∀ a, Cov (O.sqrt a)
  rsqrt : ∀ a, Cov (O.rsqrt a)
  zeroFill : ∀ d, Cov (O.zeroFill d)
  copy : ∀ d x, Cov (O.copy d x)
  scal : ∀ d a, Cov (O.scal d a)
  axpy : ∀ d a x, Cov (O.axpy d a x)
  axpy2 : ∀ d a b x, Cov (O.axpy2 d a b x)
  axpy3 : ∀ d a b c x, Cov (O.axpy3 d a b c x)
  xpay : ∀ d a x, Cov (O.xpay d a x)
  xpay2 : ∀ d a b x, Cov (O.xpay2 d a b x)
  dot : ∀ v w, Cov (O.dot v w)
  matvec : ∀ d x, Cov (O.matvec d x)
  dummy : ∀ l, Cov (O.dummy l)

theorem plannerOps (A : Arith V) (E : Env P) (pl : Planner K P V) : Ops (plannerOps A E pl) where
  negOne := scalarOf _
  zero := scalarOf _
  one := scalarOf _
  neg := unary _
  mul := binary _
  div := binary _
  sqrt := unary _
  rsqrt a := unary (fun x => A.div A.one (A.sqrt x)) a
  zeroFill := pZeroFill A E pl
  copy d x := pairs pl d x fun y x => assign E y x
  scal := pScal A E pl
  axpy d a x := pairs pl d x fun y x => axpy A E y a x
  axpy2 d a b x := pairs pl d x fun y x => axpy2 A E y a b x
  axpy3 d a b c x := pairs pl d x fun y x => axpy3 A E y a b c x
  xpay d a x := pairs pl d x fun y x => xpay A E y a x
  xpay2 d a b x := pairs pl d x fun y x => xpay2 A E y a b x
  dot := pDot A E pl
  matvec := pMatvec A E pl
  dummy := dummyTask A

section
variable {O : Solver.Ops (M P V) Scalar} (H : Ops O)
include H

theorem cgStep (c : CG Scalar) : Cov (CG.step O c) := by
  unfold CG.step
  exact (H.matvec _ _).bind fun _ => (H.dot _ _).bind fun _ => (H.axpy2 _ _ _ _).bind fun _ => (H.axpy3 _ _ _ _ _).bind fun _ =>
    (H.dot _ _).bind fun _ => (H.xpay2 _ _ _ _).bind fun _ => pure _

theorem cgSolve (k : Nat) : Cov (CG.solve O k) := by
  unfold CG.solve CG.init
  exact (H.negOne.bind fun _ => (H.copy _ _).bind fun _ => (H.copy _ _).bind fun _ => (H.dot _ _).bind fun _ => pure _).bind
    fun _ => repeatM (cgStep H) _ _

theorem biStep (c : BiCGStab Scalar) : Cov (BiCGStab.step O c) := by
  unfold BiCGStab.step
  exact (H.dot _ _).bind fun _ => (H.div _ _).bind fun _ => (H.div _ _).bind fun _ => (H.mul _ _).bind fun _ => (H.neg _).bind fun _ =>
    (H.axpy _ _ _).bind fun _ => (H.xpay _ _ _).bind fun _ => (H.matvec _ _).bind fun _ => (H.dot _ _).bind fun _ =>
    (H.axpy3 _ _ _ _ _).bind fun _ => (H.div _ _).bind fun _ => (H.matvec _ _).bind fun _ => (H.dot _ _).bind fun _ =>
    (H.dot _ _).bind fun _ => (H.div _ _).bind fun _ => (H.axpy _ _ _).bind fun _ => (H.axpy _ _ _).bind fun _ =>
    (H.neg _).bind fun _ => (H.axpy _ _ _).bind fun _ => pure _

theorem biSolve (k : Nat) : Cov (BiCGStab.solve O k) := by
  unfold BiCGStab.solve BiCGStab.init
  exact (H.negOne.bind fun _ => H.zero.bind fun _ => H.one.bind fun _ => (H.copy _ _).bind fun _ => (H.copy _ _).bind fun _ =>
    (H.zeroFill _).bind fun _ => (H.zeroFill _).bind fun _ => pure _).bind fun _ => repeatM (biStep H) _ _

theorem zeros : ∀ n, Cov (zeros O n)
  | 0 => pure _
  | n + 1 => H.zero.bind fun _ => (zeros n).bind fun _ => pure _

theorem orthogonalise (j : Nat) : ∀ (l : List Nat) (h : Nat → Nat → Scalar), Cov (GMRES.orthogonalise O j l h)
  | [], h => pure h
  | _ :: l, _ => (H.dot _ _).bind fun _ => (H.neg _).bind fun _ => (H.axpy _ _ _).bind fun _ => orthogonalise j l _

theorem column (r j : Nat) (h : Nat → Nat → Scalar) : Cov (GMRES.column O r j h) := by
  unfold GMRES.column
  refine (H.matvec _ _).bind fun _ => (orthogonalise H j _ _).bind fun _ => (H.dot _ _).bind fun _ => (H.sqrt _).bind fun _ => ?_
  dsimp only
  split
  · exact (H.rsqrt _).bind fun _ => (H.scal _ _).bind fun _ => pure _
  · exact pure _

theorem columns (r : Nat) : ∀ (l : List Nat) (h : Nat → Nat → Scalar), Cov (GMRES.columns O r l h)
  | [], h => pure h
  | j :: l, h => (column H r j h).bind fun _ => columns r l _

theorem update (c : Scalar) : ∀ l : List Nat, Cov (GMRES.update O c l)
  | [] => pure _
  | _ :: l => (H.axpy _ _ _).bind fun _ => update c l

theorem gmresStep (c : GMRES Scalar) : Cov (GMRES.step O c) := by
  unfold GMRES.step GMRES.build GMRES.start GMRES.finish
  exact (((H.matvec _ _).bind fun _ => (H.xpay _ _ _).bind fun _ => (H.dot _ _).bind fun _ => (H.rsqrt _).bind fun _ => H.scal _ _).bind
    fun _ => (columns H _ _ _).bind fun _ => pure _).bind fun _ => ((H.dummy _).bind fun _ => update H _ _).bind fun _ => pure _

theorem gmresSolve (r k : Nat) : Cov (GMRES.solve O r k) := by
  unfold GMRES.solve GMRES.init
  exact (H.negOne.bind fun _ => (zeros H _).bind fun _ => (zeros H _).bind fun _ => (zeros H _).bind fun _ => pure _).bind
    fun _ => repeatM (gmresStep H) _ _
end

theorem client {A : Arith V} {G : Geometry P} {α : Type} {m : M P V α} (h : Client K A G m) : Cov m := by
  induction h with
  | done a => exact pure a
  | stop => exact stop
  | andThen _ _ h1 h2 => exact h1.bind h2
  | scalarOf a => exact scalarOf a
  | sNeg a => exact unary _ a
  | sAdd a b => exact binary _ a b
  | sSub a b => exact binary _ a b
  | sMul a b => exact binary _ a b
  | sDiv a b => exact binary _ a b
  | sSqrt a => exact unary _ a
  | sRsqrt a => exact unary _ a
  | dummy l => exact dummyTask A l
  | fill v a => exact constantFill _ v a
  | fillScalar v a => exact constantFillScalar _ v a
  | assign d x => exact assign _ d x
  | scal x a => exact scal A _ x a
  | axpy y a x => exact axpy A _ y a x
  | axpy2 y a b x => exact axpy2 A _ y a b x
  | axpy3 y a b c x => exact axpy3 A _ y a b c x
  | xpay y a x => exact xpay A _ y a x
  | xpay2 y a b x => exact xpay2 A _ y a b x
  | dot v w => exact dot A _ v w
  | matvec o d x kp ghost => exact matvec A _ o d x kp ghost
  | pZeroFill pl d => exact (plannerOps A _ pl).zeroFill d
  | pCopy pl d x => exact (plannerOps A _ pl).copy d x
  | pScal pl d a => exact (plannerOps A _ pl).scal d a
  | pAxpy pl d a x => exact (plannerOps A _ pl).axpy d a x
  | pAxpy2 pl d a b x => exact (plannerOps A _ pl).axpy2 d a b x
  | pAxpy3 pl d a b c x => exact (plannerOps A _ pl).axpy3 d a b c x
  | pXpay pl d a x => exact (plannerOps A _ pl).xpay d a x
  | pXpay2 pl d a b x => exact (plannerOps A _ pl).xpay2 d a b x
  | pDot pl v w => exact (plannerOps A _ pl).dot v w
  | pMatvec pl d x => exact (plannerOps A _ pl).matvec d x
  | allocate pl base n => exact option _
  | cg pl base k => exact (option (P := P) (V := V) _).bind fun pl' => cgSolve (plannerOps A _ pl') k
  | biCGStab pl base k => exact (option (P := P) (V := V) _).bind fun pl' => biSolve (plannerOps A _ pl') k
  | gmres pl base r k => exact (option (P := P) (V := V) _).bind fun pl' => gmresSolve (plannerOps A _ pl') r k
  | cgStep pl c => exact cgStep (plannerOps A _ pl) c
  | biCGStabStep pl c => exact biStep (plannerOps A _ pl) c
  | gmresStep pl c => exact gmresStep (plannerOps A _ pl) c

end Cov

/-- The tasks launched by a program made of calls of the library assign what they declare written but not read. -/
theorem client_covers {A : Arith V} {G : Geometry P} {α : Type} {m : M P V α} (h : Client K A G m) {n : Nat} {a : α} {e' : Emit P V}
    (hm : m ⟨n, []⟩ = some (a, e')) : ∀ t ∈ e'.out, Covers t := by
  obtain ⟨ts, e, ht, -⟩ := Cov.client h _ _ _ hm
  have he : e'.out = ts := by rw [e]; rfl
  exact he ▸ ht

end Verif.Restart
