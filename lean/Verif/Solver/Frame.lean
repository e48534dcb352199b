import Verif.Solver.Wp

/-! What the solvers can touch, in any arithmetic (rounding, infinities and NaN included). -/
set_option linter.dupNamespace false
set_option linter.unusedSectionVars false
namespace Verif.Solver
open Verif.Runtime Verif.Vector Verif.Matrix Verif.Planner
variable {K P V α β : Type} [DecidableEq P] [DecidableEq K]
variable {G : Geometry P} {pl : Planner K P V} {nw : Nat} {A : Arith V}

/-- Between two states, scalars that existed and all elements outside the solution and the workspace are unchanged. -/
structure Touches (G : Geometry P) (pl : Planner K P V) (nw n : Nat) (s : Cell P → V) (n' : Nat) (s' : Cell P → V) : Prop where
  le : n ≤ n'
  fut : ∀ f, f < n → s' (.fut f) = s (.fut f)
  elem : ∀ d p, (∀ k, k < nw + 2 → k ≠ 1 → ∀ u : pl.U G, (d, p) ≠ ((pl.vec k u.1.1).data, u.1.2)) →
    s' (.elem d p) = s (.elem d p)

/-- The program runs to the end from every state, returns a value satisfying `Q` and touches only solution and workspace. -/
def Safe (G : Geometry P) (pl : Planner K P V) (nw : Nat) (m : M P V α) (Q : α → Prop) : Prop :=
  ∀ n s, ∃ a n' s', Runs m n s a n' s' ∧ Q a ∧ Touches G pl nw n s n' s'

theorem Touches.refl (n : Nat) (s : Cell P → V) : Touches G pl nw n s n s := ⟨Nat.le_refl n, fun _ _ => rfl, fun _ _ _ => rfl⟩

theorem Touches.trans {n n' n'' : Nat} {s s' s'' : Cell P → V} (h : Touches G pl nw n s n' s') (h' : Touches G pl nw n' s' n'' s'') :
    Touches G pl nw n s n'' s'' :=
  ⟨Nat.le_trans h.le h'.le, fun f hf => (h'.fut f (Nat.lt_of_lt_of_le hf h.le)).trans (h.fut f hf),
    fun d p hd => (h'.elem d p hd).trans (h.elem d p hd)⟩

theorem Safe.pure {a : α} {Q : α → Prop} (h : Q a) : Safe G pl nw (pure a : M P V α) Q :=
  fun n s => ⟨a, n, s, Runs.pure a n s, h, Touches.refl n s⟩

theorem Safe.bind {m : M P V α} {f : α → M P V β} {Q : α → Prop} {S : β → Prop} (h : Safe G pl nw m Q)
    (h' : ∀ a, Q a → Safe G pl nw (f a) S) : Safe G pl nw (m >>= f) S := by
  intro n s
  obtain ⟨a, n1, s1, r1, q1, t1⟩ := h n s
  obtain ⟨b, n2, s2, r2, q2, t2⟩ := h' a q1 n1 s1
  exact ⟨b, n2, s2, r1.bind r2, q2, t1.trans t2⟩

theorem Safe.block {m : M P V Unit} {d : Nat} (hd : d < nw + 2) (hd1 : d ≠ 1)
    (h : ∀ n s, ∃ s' g, Runs m n s () n s' ∧ BlockSet G pl s s' d g) : Safe G pl nw m fun _ => True := by
  intro n s
  obtain ⟨s', g, r, hb⟩ := h n s
  obtain ⟨-, h2, h3⟩ := hb.only n (fun u => g u.1.1 u.1.2) (fun _ => rfl)
  exact ⟨(), n, s', r, trivial, ⟨Nat.le_refl n, h3, fun e p he => h2 e p (fun u => he d hd hd1 u)⟩⟩

theorem Safe.newScalar {m : M P V Scalar} (h : ∀ n s, ∃ v, Runs m n s ⟨n⟩ (n + 1) (setFut s n v)) :
    Safe G pl nw m fun _ => True := by
  intro n s
  obtain ⟨v, r⟩ := h n s
  refine ⟨_, _, _, r, trivial, ⟨Nat.le_succ n, fun f hf => ?_, fun _ _ _ => rfl⟩⟩
  rw [setFut_fut, if_neg (by omega)]

/-! ## Inner products and products, any arithmetic -/

theorem safe_blockDot (A : Arith V) (R : Ready G pl nw) (hord : ∀ f l, (G.redOrder f l).Perm l) {v w i : Nat} (hv : v < nw + 2)
    (hw : w < nw + 2) (hi : i < pl.spaces.length) : Safe G pl nw (do
      let x ← pl.getVector v i; let y ← pl.getVector w i
      Verif.Vector.dot A G.toEnv x y : M P V Scalar) fun _ => True := by
  intro n s
  obtain ⟨a, b, c⟩ := R.compat hv hw hi
  refine ⟨_, _, _, (Runs.getVector R hv hi n s).bind ((Runs.getVector R hw hi n s).bind
    (Runs.dot A G.toEnv _ _ a b c n s (hord _ _))), trivial, ⟨by omega, fun f hf => ?_, fun _ _ _ => rfl⟩⟩
  rw [setDot_fut, if_neg (by omega)]

theorem bind_assoc3 {m1 : M P V α} {γ δ : Type} (f : α → M P V β) (g : α → β → M P V γ) (h : γ → M P V δ) :
    (m1 >>= fun x => f x >>= fun y => g x y >>= h) = ((m1 >>= fun x => f x >>= fun y => g x y) >>= h) := by
  funext e
  show (m1 e >>= fun x => (f x.1 x.2 >>= fun y => (g x.1 y.1 y.2 >>= fun z => h z.1 z.2))) = _
  show _ = ((m1 e >>= fun x => (f x.1 x.2 >>= fun y => g x.1 y.1 y.2)) >>= fun z => h z.1 z.2)
  simp only [bind_assoc]

theorem safe_dotLoop (A : Arith V) (R : Ready G pl nw) (hord : ∀ f l, (G.redOrder f l).Perm l) {v w : Nat} (hv : v < nw + 2)
    (hw : w < nw + 2) (l : List Nat) (hl : ∀ i ∈ l, i < pl.spaces.length) :
    ∀ r, Safe G pl nw (pl.dotLoop A G.toEnv v w l r) fun _ => True := by
  induction l with
  | nil => intro r; exact Safe.pure trivial
  | cons i l ih =>
    intro r
    unfold Planner.dotLoop
    rw [bind_assoc3]
    refine Safe.bind (safe_blockDot A R hord hv hw (hl i (List.mem_cons_self ..))) fun d _ => ?_
    refine Safe.bind (Safe.newScalar fun n s => ⟨_, Runs.binary A.add r d n s⟩) fun r' _ => ?_
    exact ih (fun j hj => hl j (List.mem_cons_of_mem _ hj)) r'

theorem Safe.dot (A : Arith V) (R : Ready G pl nw) (hord : ∀ f l, (G.redOrder f l).Perm l) (hns : 0 < pl.spaces.length)
    {v w : Nat} (hv : v < nw + 2) (hw : w < nw + 2) : Safe G pl nw ((plannerOps A G.toEnv pl).dot v w) fun _ => True := by
  show Safe G pl nw (pl.dot A G.toEnv v w) _
  unfold Planner.dot
  refine Safe.bind (Q := fun ns => ns = pl.spaces.length)
    (fun n s => ⟨_, n, s, Runs.numSpaces R n s, rfl, Touches.refl n s⟩) fun ns hns' => ?_
  subst hns'
  rw [bind_assoc3]
  refine Safe.bind (safe_blockDot A R hord hv hw hns) fun r _ => ?_
  refine safe_dotLoop A R hord hv hw _ (fun i hi => ?_) r
  have := List.mem_range'_1.1 hi
  omega

theorem safe_opMatvec (A : Arith V) (m : Op K P V) (dst src : Vec) (hne : src.data ≠ dst.data)
    (rspace dspace : List P) (hp : IsPartition rspace (G.pieces dst.part)) (hfit : m.Fits rspace dspace) (n : Nat)
    (s : Cell P → V) : ∃ g, Runs (m.matvec A G.toEnv dst src (m.kernelFromRange (G.pieces dst.part))
      (m.domainFromKernel dspace (m.kernelFromRange (G.pieces dst.part)))) n s () n (setVec s dst rspace g) := by
  cases m with
  | coo m => exact ⟨_, Runs.cooMatvec A G.toEnv m dst src hne rspace dspace hp hfit n s⟩
  | csr m =>
    obtain ⟨h1, h2, h3⟩ := hfit
    have hp' : IsPartition m.rows (G.pieces dst.part) := ⟨hp.1, fun p => (hp.2 p).trans (h2 p).symm⟩
    exact ⟨_, (Runs.csrMatvec A G.toEnv m h3 dst src hne dspace hp' h1 n s).cast
      (setVec_congr s dst _ _ h2 (fun p _ => rfl))⟩

theorem Safe.matvec (A : Arith V) (R : Ready G pl nw) {d x : Nat} (hd : d < nw + 2) (hx : x < nw + 2) (hd1 : d ≠ 1)
    (hne : d ≠ x) : Safe G pl nw ((plannerOps A G.toEnv pl).matvec d x) fun _ => True := by
  show Safe G pl nw (pl.matvec A G.toEnv d x) _
  unfold Planner.matvec
  refine Safe.bind (Safe.block hd hd1 fun n s => ?_) fun _ _ => ?_
  · obtain ⟨s', h1, h2⟩ := Runs.pZeroFill R A hd n s
    exact ⟨s', _, h1, h2⟩
  · have gen : ∀ rs : List (Registered K P V), (∀ r ∈ rs, r ∈ pl.ops) → Safe G pl nw (loop rs fun r => do
        let y ← pl.getVector d r.rng; let x ← pl.getVector x r.dom
        r.matrix.matvec A G.toEnv y x r.kernel r.ghost : M P V Unit) fun _ => True := by
      intro rs
      induction rs with
      | nil => intro _; exact Safe.pure trivial
      | cons r rs ih =>
        intro hrs
        refine Safe.bind (Q := fun _ => True) (fun n s => ?_) fun _ _ => ih (fun r hr => hrs r (List.mem_cons_of_mem _ hr))
        obtain ⟨h1, h2, h3, h4, h5⟩ := R.ops r (hrs r (List.mem_cons_self ..))
        have hsrc : (pl.vec x r.dom).data ≠ (pl.vec d r.rng).data := fun e =>
          hne ((R.distinct x r.dom d r.rng hx h1 hd h2 e).1).symm
        have hpart : (pl.vec d r.rng).part = pl.parts.getD r.rng 0 := (R.lookup hd h2).2.2.1
        obtain ⟨g, hrun⟩ := safe_opMatvec (G := G) A r.matrix (pl.vec d r.rng) (pl.vec x r.dom) hsrc _ _ (R.part hd h2) h5 n s
        rw [hpart, ← h3, ← h4] at hrun
        refine ⟨(), n, _, (Runs.getVector R hd h2 n s).bind ((Runs.getVector R hx h1 n s).bind hrun), trivial,
          ⟨Nat.le_refl n, fun _ _ => rfl, fun e p he => ?_⟩⟩
        rw [setVec_elem, if_neg]
        rintro ⟨rfl, hp⟩
        exact he d hd hd1 ⟨⟨r.rng, p⟩, Finset.mem_sigma.2 ⟨Finset.mem_range.2 h2, List.mem_toFinset.2 hp⟩⟩ rfl
    exact gen pl.ops (fun r hr => hr)

/-! ## The other operations -/

theorem Safe.copy (A : Arith V) (R : Ready G pl nw) {d x : Nat} (hd : d < nw + 2) (hx : x < nw + 2) (hd1 : d ≠ 1) :
    Safe G pl nw ((plannerOps A G.toEnv pl).copy d x) fun _ => True :=
  Safe.block hd hd1 fun n s => by obtain ⟨s', h1, h2⟩ := Runs.pCopy R hd hx n s; exact ⟨s', _, h1, h2⟩

theorem Safe.zeroFill (A : Arith V) (R : Ready G pl nw) {d : Nat} (hd : d < nw + 2) (hd1 : d ≠ 1) :
    Safe G pl nw ((plannerOps A G.toEnv pl).zeroFill d) fun _ => True :=
  Safe.block hd hd1 fun n s => by obtain ⟨s', h1, h2⟩ := Runs.pZeroFill R A hd n s; exact ⟨s', _, h1, h2⟩

theorem Safe.scal (A : Arith V) (R : Ready G pl nw) {d : Nat} (hd : d < nw + 2) (hd1 : d ≠ 1) (a : Scalar) :
    Safe G pl nw ((plannerOps A G.toEnv pl).scal d a) fun _ => True :=
  Safe.block hd hd1 fun n s => by obtain ⟨s', h1, h2⟩ := Runs.pScal R A hd a n s; exact ⟨s', _, h1, h2⟩

theorem Safe.axpy (A : Arith V) (R : Ready G pl nw) {d x : Nat} (hd : d < nw + 2) (hx : x < nw + 2) (hd1 : d ≠ 1) (a : Scalar) :
    Safe G pl nw ((plannerOps A G.toEnv pl).axpy d a x) fun _ => True :=
  Safe.block hd hd1 fun n s => by obtain ⟨s', h1, h2⟩ := Runs.pAxpy R A hd hx a n s; exact ⟨s', _, h1, h2⟩

theorem Safe.axpy2 (A : Arith V) (R : Ready G pl nw) {d x : Nat} (hd : d < nw + 2) (hx : x < nw + 2) (hd1 : d ≠ 1) (a b : Scalar) :
    Safe G pl nw ((plannerOps A G.toEnv pl).axpy2 d a b x) fun _ => True :=
  Safe.block hd hd1 fun n s => by obtain ⟨s', h1, h2⟩ := Runs.pAxpy2 R A hd hx a b n s; exact ⟨s', _, h1, h2⟩

theorem Safe.axpy3 (A : Arith V) (R : Ready G pl nw) {d x : Nat} (hd : d < nw + 2) (hx : x < nw + 2) (hd1 : d ≠ 1)
    (a b c : Scalar) : Safe G pl nw ((plannerOps A G.toEnv pl).axpy3 d a b c x) fun _ => True :=
  Safe.block hd hd1 fun n s => by obtain ⟨s', h1, h2⟩ := Runs.pAxpy3 R A hd hx a b c n s; exact ⟨s', _, h1, h2⟩

theorem Safe.xpay (A : Arith V) (R : Ready G pl nw) {d x : Nat} (hd : d < nw + 2) (hx : x < nw + 2) (hd1 : d ≠ 1) (a : Scalar) :
    Safe G pl nw ((plannerOps A G.toEnv pl).xpay d a x) fun _ => True :=
  Safe.block hd hd1 fun n s => by obtain ⟨s', h1, h2⟩ := Runs.pXpay R A hd hx a n s; exact ⟨s', _, h1, h2⟩

theorem Safe.xpay2 (A : Arith V) (R : Ready G pl nw) {d x : Nat} (hd : d < nw + 2) (hx : x < nw + 2) (hd1 : d ≠ 1) (a b : Scalar) :
    Safe G pl nw ((plannerOps A G.toEnv pl).xpay2 d a b x) fun _ => True :=
  Safe.block hd hd1 fun n s => by obtain ⟨s', h1, h2⟩ := Runs.pXpay2 R A hd hx a b n s; exact ⟨s', _, h1, h2⟩

theorem Safe.const (v : V) : Safe G pl nw (scalarOf v) fun _ => True := Safe.newScalar fun n s => ⟨_, Runs.scalarOf v n s⟩
theorem Safe.neg (a : Scalar) : Safe G pl nw ((plannerOps A G.toEnv pl).neg a) fun _ => True :=
  Safe.newScalar fun n s => ⟨_, Runs.unary A.neg a n s⟩
theorem Safe.mul (a b : Scalar) : Safe G pl nw ((plannerOps A G.toEnv pl).mul a b) fun _ => True :=
  Safe.newScalar fun n s => ⟨_, Runs.binary A.mul a b n s⟩
theorem Safe.div (a b : Scalar) : Safe G pl nw ((plannerOps A G.toEnv pl).div a b) fun _ => True :=
  Safe.newScalar fun n s => ⟨_, Runs.binary A.div a b n s⟩
theorem Safe.sqrt (a : Scalar) : Safe G pl nw ((plannerOps A G.toEnv pl).sqrt a) fun _ => True :=
  Safe.newScalar fun n s => ⟨_, Runs.unary A.sqrt a n s⟩
theorem Safe.rsqrt (a : Scalar) : Safe G pl nw ((plannerOps A G.toEnv pl).rsqrt a) fun _ => True :=
  Safe.newScalar fun n s => ⟨_, Runs.unary (fun x => A.div A.one (A.sqrt x)) a n s⟩
theorem Safe.dummy (l : List Scalar) : Safe G pl nw ((plannerOps A G.toEnv pl).dummy l) fun _ => True :=
  Safe.newScalar fun n s => ⟨_, (Runs.fresh n s).bind ((Runs.scalarTask1 (l.map Scalar.fut) (fun _ => A.one) (n + 1) n s
      (fun _ _ _ => rfl)).bind (Runs.pure _ _ _))⟩

theorem Safe.repeat {f : α → M P V α} {Q : Nat → α → Prop} (h : ∀ k a, Q k a → Safe G pl nw (f a) (Q (k + 1))) :
    ∀ (j k : Nat) (a : α), Q k a → Safe G pl nw (repeatM f j a) (Q (k + j)) := by
  intro j
  induction j with
  | zero => intro k a ha; exact Safe.pure ha
  | succ j ih =>
    intro k a ha
    refine Safe.bind (h k a ha) fun a' ha' => ?_
    have := ih (k + 1) a' ha'
    rw [show k + (j + 1) = k + 1 + j by omega]
    exact this

/-! ## The solvers -/
section
variable (A) (R3 : Ready G pl 3) (R5 : Ready G pl 5) (hord : ∀ f l, (G.redOrder f l).Perm l) (hns : 0 < pl.spaces.length)
include R3 hord hns in
theorem safe_cg (k : Nat) : Safe G pl 3 (CG.solve (plannerOps A G.toEnv pl) k) fun c => c.history.length = k + 1 := by
  refine Safe.bind (Q := fun c => c.older.length = 0) ?_ fun c hc => ?_
  · refine Safe.bind (Safe.const _) fun _ _ => ?_
    refine Safe.bind (Safe.copy A R3 (by omega) (by omega) (by omega)) fun _ _ => ?_
    refine Safe.bind (Safe.copy A R3 (by omega) (by omega) (by omega)) fun _ _ => ?_
    refine Safe.bind (Safe.dot A R3 hord hns (by omega) (by omega)) fun _ _ => ?_
    exact Safe.pure rfl
  · have := Safe.repeat (G := G) (pl := pl) (nw := 3) (f := CG.step (plannerOps A G.toEnv pl))
      (Q := fun j c => c.older.length = j) (fun j c hc => ?_) k 0 c hc
    · intro n s
      obtain ⟨a, n', s', h1, h2, h3⟩ := this n s
      exact ⟨a, n', s', h1, by unfold CG.history; simp at h2 ⊢; exact h2, h3⟩
    · refine Safe.bind (Safe.matvec A R3 (by omega) (by omega) (by omega) (by omega)) fun _ _ => ?_
      refine Safe.bind (Safe.dot A R3 hord hns (by omega) (by omega)) fun _ _ => ?_
      refine Safe.bind (Safe.axpy2 A R3 (by omega) (by omega) (by omega) _ _) fun _ _ => ?_
      refine Safe.bind (Safe.axpy3 A R3 (by omega) (by omega) (by omega) _ _ _) fun _ _ => ?_
      refine Safe.bind (Safe.dot A R3 hord hns (by omega) (by omega)) fun _ _ => ?_
      refine Safe.bind (Safe.xpay2 A R3 (by omega) (by omega) (by omega) _ _) fun _ _ => ?_
      exact Safe.pure (by simp [hc])

include R5 hord hns in
theorem safe_bi (k : Nat) : Safe G pl 5 (BiCGStab.solve (plannerOps A G.toEnv pl) k) fun c =>
    (c.rhos ++ [c.rho]).length = k + 1 ∧ (c.alphas ++ [c.alpha]).length = k + 1 ∧ (c.omegas ++ [c.omega]).length = k + 1 := by
  refine Safe.bind (Q := fun c => c.rhos.length = 0 ∧ c.alphas.length = 0 ∧ c.omegas.length = 0) ?_ fun c hc => ?_
  · refine Safe.bind (Safe.const _) fun _ _ => ?_
    refine Safe.bind (Safe.const _) fun _ _ => ?_
    refine Safe.bind (Safe.const _) fun _ _ => ?_
    refine Safe.bind (Safe.copy A R5 (by omega) (by omega) (by omega)) fun _ _ => ?_
    refine Safe.bind (Safe.copy A R5 (by omega) (by omega) (by omega)) fun _ _ => ?_
    refine Safe.bind (Safe.zeroFill A R5 (by omega) (by omega)) fun _ _ => ?_
    refine Safe.bind (Safe.zeroFill A R5 (by omega) (by omega)) fun _ _ => ?_
    exact Safe.pure ⟨rfl, rfl, rfl⟩
  · have := Safe.repeat (G := G) (pl := pl) (nw := 5) (f := BiCGStab.step (plannerOps A G.toEnv pl))
      (Q := fun j c => c.rhos.length = j ∧ c.alphas.length = j ∧ c.omegas.length = j) (fun j c hc => ?_) k 0 c hc
    · intro n s
      obtain ⟨a, n', s', h1, h2, h3⟩ := this n s
      exact ⟨a, n', s', h1, by simp at h2 ⊢; exact h2, h3⟩
    · refine Safe.bind (Safe.dot A R5 hord hns (by omega) (by omega)) fun _ _ => ?_
      refine Safe.bind (Safe.div _ _) fun _ _ => ?_
      refine Safe.bind (Safe.div _ _) fun _ _ => ?_
      refine Safe.bind (Safe.mul _ _) fun _ _ => ?_
      refine Safe.bind (Safe.neg _) fun _ _ => ?_
      refine Safe.bind (Safe.axpy A R5 (by omega) (by omega) (by omega) _) fun _ _ => ?_
      refine Safe.bind (Safe.xpay A R5 (by omega) (by omega) (by omega) _) fun _ _ => ?_
      refine Safe.bind (Safe.matvec A R5 (by omega) (by omega) (by omega) (by omega)) fun _ _ => ?_
      refine Safe.bind (Safe.dot A R5 hord hns (by omega) (by omega)) fun _ _ => ?_
      refine Safe.bind (Safe.axpy3 A R5 (by omega) (by omega) (by omega) _ _ _) fun _ _ => ?_
      refine Safe.bind (Safe.div _ _) fun _ _ => ?_
      refine Safe.bind (Safe.matvec A R5 (by omega) (by omega) (by omega) (by omega)) fun _ _ => ?_
      refine Safe.bind (Safe.dot A R5 hord hns (by omega) (by omega)) fun _ _ => ?_
      refine Safe.bind (Safe.dot A R5 hord hns (by omega) (by omega)) fun _ _ => ?_
      refine Safe.bind (Safe.div _ _) fun _ _ => ?_
      refine Safe.bind (Safe.axpy A R5 (by omega) (by omega) (by omega) _) fun _ _ => ?_
      refine Safe.bind (Safe.axpy A R5 (by omega) (by omega) (by omega) _) fun _ _ => ?_
      refine Safe.bind (Safe.neg _) fun _ _ => ?_
      refine Safe.bind (Safe.axpy A R5 (by omega) (by omega) (by omega) _) fun _ _ => ?_
      exact Safe.pure (by simp [hc])

end

section
variable {m : Nat} (A) (R : Ready G pl (m + 1)) (hord : ∀ f l, (G.redOrder f l).Perm l) (hns : 0 < pl.spaces.length)

theorem safe_zeros (l : Nat) : Safe G pl nw (zeros (plannerOps A G.toEnv pl) l) fun L => L.length = l := by
  induction l with
  | zero => exact Safe.pure rfl
  | succ l ih =>
    unfold zeros
    refine Safe.bind (Safe.const _) fun _ _ => ?_
    exact Safe.bind ih fun L hL => Safe.pure (by simp [hL])

include R hord hns in
theorem safe_orthogonalise (j : Nat) (hj : j < m) (l : List Nat) (hl : ∀ k ∈ l, k ≤ j) : ∀ h,
    Safe G pl (m + 1) (GMRES.orthogonalise (plannerOps A G.toEnv pl) j l h) fun _ => True := by
  induction l with
  | nil => intro h; exact Safe.pure trivial
  | cons k l ih =>
    intro h
    have hk := hl k (List.mem_cons_self ..)
    unfold GMRES.orthogonalise
    refine Safe.bind (Safe.dot A R hord hns (by unfold basis; omega) (by unfold basis; omega)) fun d _ => ?_
    refine Safe.bind (Safe.neg _) fun _ _ => ?_
    refine Safe.bind (Safe.axpy A R (by unfold basis; omega) (by unfold basis; omega) (by unfold basis; omega) _) fun _ _ => ?_
    exact ih (fun k hk => hl k (List.mem_cons_of_mem _ hk)) _

include R hord hns in
theorem safe_columns (l : List Nat) (hl : ∀ j ∈ l, j < m) : ∀ h,
    Safe G pl (m + 1) (GMRES.columns (plannerOps A G.toEnv pl) m l h) fun _ => True := by
  induction l with
  | nil => intro h; exact Safe.pure trivial
  | cons j l ih =>
    intro h
    have hj := hl j (List.mem_cons_self ..)
    unfold GMRES.columns
    refine Safe.bind (Q := fun _ => True) ?_ fun _ _ => ih (fun k hk => hl k (List.mem_cons_of_mem _ hk)) _
    unfold GMRES.column
    refine Safe.bind (Safe.matvec A R (by unfold basis; omega) (by unfold basis; omega) (by unfold basis; omega)
      (by unfold basis; omega)) fun _ _ => ?_
    refine Safe.bind (safe_orthogonalise A R hord hns j hj _ (fun k hk => by have := List.mem_range.1 hk; omega) _) fun _ _ => ?_
    refine Safe.bind (Safe.dot A R hord hns (by unfold basis; omega) (by unfold basis; omega)) fun d _ => ?_
    refine Safe.bind (Safe.sqrt _) fun _ _ => ?_
    split
    · refine Safe.bind (Safe.rsqrt _) fun _ _ => ?_
      refine Safe.bind (Safe.scal A R (by unfold basis; omega) (by unfold basis; omega) _) fun _ _ => ?_
      exact Safe.pure trivial
    · exact Safe.pure trivial

include R in
theorem safe_update (c : Scalar) (l : List Nat) (hl : ∀ j ∈ l, j < m) :
    Safe G pl (m + 1) (GMRES.update (plannerOps A G.toEnv pl) c l) fun _ => True := by
  induction l with
  | nil => exact Safe.pure trivial
  | cons j l ih =>
    have hj := hl j (List.mem_cons_self ..)
    unfold GMRES.update
    refine Safe.bind (Safe.axpy A R (by omega) (by unfold basis; omega) (by omega) _) fun _ _ => ?_
    exact ih (fun k hk => hl k (List.mem_cons_of_mem _ hk))

include R hord hns in
theorem safe_gmres (k : Nat) : Safe G pl (m + 1) (GMRES.solve (plannerOps A G.toEnv pl) m k) fun _ => True := by
  refine Safe.bind (Q := fun c => c.restart = m) ?_ fun c hc => ?_
  · refine Safe.bind (Safe.const _) fun _ _ => ?_
    refine Safe.bind (safe_zeros A _) fun _ _ => ?_
    refine Safe.bind (safe_zeros A _) fun _ _ => ?_
    refine Safe.bind (safe_zeros A _) fun _ _ => ?_
    exact Safe.pure rfl
  · have := Safe.repeat (G := G) (pl := pl) (nw := m + 1) (f := GMRES.step (plannerOps A G.toEnv pl))
      (Q := fun _ c => c.restart = m) (fun j c hc => ?_) k 0 c hc
    · intro n s
      obtain ⟨a, n', s', h1, h2, h3⟩ := this n s
      exact ⟨a, n', s', h1, trivial, h3⟩
    · subst hc
      refine Safe.bind (Q := fun c' => c'.restart = c.restart) ?_ fun c' hc' => ?_
      · refine Safe.bind (Q := fun _ => True) ?_ fun _ _ => ?_
        · refine Safe.bind (Safe.matvec A R (by unfold basis; omega) (by omega) (by unfold basis; omega)
            (by unfold basis; omega)) fun _ _ => ?_
          refine Safe.bind (Safe.xpay A R (by unfold basis; omega) (by omega) (by unfold basis; omega) _) fun _ _ => ?_
          refine Safe.bind (Safe.dot A R hord hns (by unfold basis; omega) (by unfold basis; omega)) fun d _ => ?_
          refine Safe.bind (Safe.rsqrt _) fun _ _ => ?_
          exact Safe.scal A R (by unfold basis; omega) (by unfold basis; omega) _
        · refine Safe.bind (safe_columns A R hord hns _ (fun j hj => List.mem_range.1 hj) _) fun _ _ => ?_
          exact Safe.pure rfl
      · refine Safe.bind (Q := fun _ => True) ?_ fun _ _ => Safe.pure hc'
        unfold GMRES.finish
        rw [hc']
        refine Safe.bind (Safe.dummy _) fun _ _ => ?_
        exact safe_update A R _ _ (fun j hj => List.mem_range.1 hj)

end
end Verif.Solver
