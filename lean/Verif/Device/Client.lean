import Verif.Device.Planner
import Verif.Solver.Client

/-! # Solvers and client programs on any devices -/
set_option linter.dupNamespace false
set_option linter.unusedSectionVars false
namespace Verif.Device
open Verif.Runtime Verif.Vector Verif.Matrix Verif.Planner Verif.Solver

variable {V α β γ : Type}

theorem Sim.imp {Z Z' : (Cell Int → V) → Prop} {R Q : α → β → Prop} {m : M Int V α} {m' : M Int V β} (h : Sim Z Z' R m m')
    (hi : ∀ a b, R a b → Q a b) : Sim Z Z' Q m m' := by
  intro n out out'
  rcases h n out out' with h | ⟨a, b, k, ts, ts', hr, h⟩
  · exact Or.inl h
  · exact Or.inr ⟨a, b, k, ts, ts', hi a b hr, h⟩

section
variable {rp : RowPtr V} {G : Geometry Int} {pl : Planner Int Int V} {nw : Nat} {dev : Devices}

/-- The solvers' operations on any devices. -/
theorem ops_same [Field V] (hdev : dev.Ok) {A : Arith V} (hA : A.Exact) (R : Ready G pl nw) (H : GpuReady rp G pl) :
    OpsRel (simLift V) Eq (plannerOps A G.toEnv pl) (deviceOps dev rp A G.toEnv pl) := by
  have hu : ∀ {m m' : M Int V Unit}, Same m m' → (simLift V).rel UU m m' := fun h => Sim.imp h fun _ _ _ => trivial
  constructor
  · exact Same.scalarOf _
  · exact Same.scalarOf _
  · exact Same.scalarOf _
  · rintro a _ rfl; exact Same.unary _ a
  · rintro a _ b _ rfl rfl; exact Same.binary _ a b
  · rintro a _ b _ rfl rfl; exact Same.binary _ a b
  · rintro a _ rfl; exact Same.unary _ a
  · rintro a _ rfl; exact Same.unary (fun x => A.div A.one (A.sqrt x)) a
  · exact fun d => hu (Same.zeroFill A _ pl d)
  · exact fun d x => hu (Same.copy _ pl d x)
  · rintro d a _ rfl; exact hu (Same.pScal hdev A R H d a)
  · rintro d a _ x rfl; exact hu (Same.pairs d x fun _ _ _ h _ => Same.axpyWith hdev A _ _ _ _ (ready_gpuPieces' R H h))
  · rintro d a _ b _ x rfl rfl; exact hu (Same.pairs d x fun _ _ _ h _ => Same.axpyWith hdev A _ _ _ _ (ready_gpuPieces' R H h))
  · rintro d a _ b _ c _ x rfl rfl rfl; exact hu (Same.pairs d x fun _ _ _ h _ => Same.axpyWith hdev A _ _ _ _ (ready_gpuPieces' R H h))
  · rintro d a _ x rfl; exact hu (Same.pairs d x fun _ _ _ h _ => Same.xpayWith hdev A _ _ _ _ (ready_gpuPieces' R H h))
  · rintro d a _ b _ x rfl rfl; exact hu (Same.pairs d x fun _ _ _ h _ => Same.xpayWith hdev A _ _ _ _ (ready_gpuPieces' R H h))
  · exact fun v w => Same.pDot hdev hA R H v w
  · exact fun d x => hu (Same.pMatvec hdev hA R H d x)
  · intro l l' h
    obtain rfl : l = l' := List.forall₂_eq_eq_eq ▸ h
    exact Same.dummyTask A l

theorem CG.Rel.eq {S : Type} {c c' : CG S} (h : CG.Rel Eq c c') : c = c' := by
  obtain ⟨h1, h2, h3⟩ := h
  rw [List.forall₂_eq_eq_eq] at h1
  cases c; cases c'
  simp only at h1 h2 h3
  rw [h1, h2, h3]

theorem BiCGStab.Rel.eq {S : Type} {c c' : BiCGStab S} (h : BiCGStab.Rel Eq c c') : c = c' := by
  obtain ⟨h1, h2, h3, h4, h5, h6, h7, h8, h9⟩ := h
  rw [List.forall₂_eq_eq_eq] at h1 h3 h5
  cases c; cases c'
  simp only at h1 h2 h3 h4 h5 h6 h7 h8 h9
  rw [h1, h2, h3, h4, h5, h6, h7, h8, h9]

theorem GMRES.Rel.eq {S : Type} {c c' : GMRES S} (h : GMRES.Rel Eq c c') : c = c' := by
  obtain ⟨h1, h2, h3, h4, h5⟩ := h
  rw [List.forall₂_eq_eq_eq] at h4 h5
  have h3 : c.inner = c'.inner := by funext i j; exact h3 i j
  cases c; cases c'
  simp only at h1 h2 h3 h4 h5
  rw [h1, h2, h3, h4, h5]

theorem rel_refl {S : Type} (l : List S) : List.Forall₂ Eq l l := by
  rw [List.forall₂_eq_eq_eq]

/-- Construction and steps, after the workspace has been allocated. -/
theorem Same.cgSolve [Field V] (hdev : dev.Ok) {A : Arith V} (hA : A.Exact) (R : Ready G pl nw) (H : GpuReady rp G pl) (k : Nat) :
    Same (CG.solve (plannerOps A G.toEnv pl) k) (CG.solve (deviceOps dev rp A G.toEnv pl) k) :=
  Sim.imp (rel_cg (ops_same hdev hA R H) k) fun _ _ h => CG.Rel.eq h

theorem Same.bicgstabSolve [Field V] (hdev : dev.Ok) {A : Arith V} (hA : A.Exact) (R : Ready G pl nw) (H : GpuReady rp G pl)
    (k : Nat) : Same (BiCGStab.solve (plannerOps A G.toEnv pl) k) (BiCGStab.solve (deviceOps dev rp A G.toEnv pl) k) :=
  Sim.imp (rel_bicgstab (ops_same hdev hA R H) k) fun _ _ h => BiCGStab.Rel.eq h

theorem Same.gmresSolve [Field V] (hdev : dev.Ok) {A : Arith V} (hA : A.Exact) (R : Ready G pl nw) (H : GpuReady rp G pl)
    (m k : Nat) : Same (GMRES.solve (plannerOps A G.toEnv pl) m k) (GMRES.solve (deviceOps dev rp A G.toEnv pl) m k) :=
  Sim.imp (rel_gmres (ops_same hdev hA R H) m k) fun _ _ h => GMRES.Rel.eq h

end

section
variable {m m' : Type → Type} [Monad m] [Monad m'] {S S' : Type} {L : Lift m m'} {R : S → S' → Prop} {O : Ops m S} {O' : Ops m' S'}

theorem rel_cg_full (H : OpsRel L R O O') {c : CG S} {c' : CG S'} (hc : CG.Rel R c c') :
    L.rel (CG.Rel R) (CG.step O c) (CG.step O' c') := by
  refine L.bind (H.matvec 3 2) fun _ _ _ => L.bind (H.dot 2 3) fun _ _ h1 =>
      L.bind (H.axpy2 0 _ _ _ _ 2 hc.last h1) fun _ _ _ => L.bind (H.axpy3 4 _ _ _ _ _ _ 3 hc.negOne hc.last h1) fun _ _ _ =>
      L.bind (H.dot 4 4) fun _ _ h2 => L.bind (H.xpay2 2 _ _ _ _ 4 h2 hc.last) fun _ _ _ =>
      L.pure ⟨forall₂_snoc hc.older hc.last, h2, hc.negOne⟩

theorem rel_bicgstab_full (H : OpsRel L R O O') {c : BiCGStab S} {c' : BiCGStab S'} (hc : BiCGStab.Rel R c c') :
    L.rel (BiCGStab.Rel R) (BiCGStab.step O c) (BiCGStab.step O' c') := by
  refine L.bind (H.dot 3 4) fun _ _ h1 => L.bind (H.div _ _ _ _ h1 hc.rho) fun _ _ h2 =>
      L.bind (H.div _ _ _ _ hc.alpha hc.omega) fun _ _ h3 => L.bind (H.mul _ _ _ _ h2 h3) fun _ _ h4 =>
      L.bind (H.neg _ _ hc.omega) fun _ _ h5 => L.bind (H.axpy 2 _ _ 6 h5) fun _ _ _ => L.bind (H.xpay 2 _ _ 3 h4) fun _ _ _ =>
      L.bind (H.matvec 6 2) fun _ _ _ => L.bind (H.dot 4 6) fun _ _ h6 =>
      L.bind (H.axpy3 3 _ _ _ _ _ _ 6 hc.negOne h1 h6) fun _ _ _ => L.bind (H.div _ _ _ _ h1 h6) fun _ _ h7 =>
      L.bind (H.matvec 5 3) fun _ _ _ => L.bind (H.dot 3 5) fun _ _ h8 => L.bind (H.dot 5 5) fun _ _ h9 =>
      L.bind (H.div _ _ _ _ h8 h9) fun _ _ h10 => L.bind (H.axpy 0 _ _ 2 h7) fun _ _ _ => L.bind (H.axpy 0 _ _ 3 h10) fun _ _ _ =>
      L.bind (H.neg _ _ h10) fun _ _ h11 => L.bind (H.axpy 3 _ _ 5 h11) fun _ _ _ =>
      L.pure ⟨forall₂_snoc hc.rhos hc.rho, h1, forall₂_snoc hc.alphas hc.alpha, h7, forall₂_snoc hc.omegas hc.omega, h10,
        hc.negOne, hc.zero, hc.one⟩

theorem rel_gmres_full (H : OpsRel L R O O') {c : GMRES S} {c' : GMRES S'} (hc : GMRES.Rel R c c') :
    L.rel (GMRES.Rel R) (GMRES.step O c) (GMRES.step O' c') := by
  refine L.bind (R := GMRES.Rel R) ?_ fun c c' hc => ?_
  · refine L.bind (R := UU) ?_ fun _ _ _ => ?_
    · exact L.bind (H.matvec _ _) fun _ _ _ => L.bind (H.xpay _ _ _ _ hc.negOne) fun _ _ _ => L.bind (H.dot _ _) fun _ _ hd =>
        L.bind (H.rsqrt _ _ hd) fun _ _ hr => H.scal _ _ _ hr
    · rw [hc.restart]
      exact L.bind (rel_columns H _ _ _ _ hc.inner) fun h h' hh => L.pure ⟨rfl, hc.negOne, hh, hc.triangular, hc.coefficients⟩
  · refine L.bind (R := UU) ?_ fun _ _ _ => L.pure hc
    unfold GMRES.finish
    rw [hc.restart]
    refine L.bind (H.dummy _ _ ?_) fun _ _ ha => rel_update H ha _
    generalize List.range (c'.restart + 1) = l
    induction l with
    | nil => exact .nil
    | cons i l ih =>
      rw [List.flatMap_cons, List.flatMap_cons]
      refine forall₂_append ?_ ih
      generalize List.range c'.restart = l'
      induction l' with
      | nil => exact .nil
      | cons j l' ih' => exact .cons (hc.inner i j) ih'
end

/-! ## The effect of a program -/

/-- The two programs have the same effect, whatever ran before and however the runtime schedules their tasks: they abort together;
otherwise they return the same value, the same futures exist afterwards, both can be executed to the end, and every complete execution
of one leaves the same memory (vectors and futures) as every complete execution of the other. -/
def SameEffect (m m' : M Int V α) : Prop :=
  ∀ e e' : Emit Int V, e.next = e'.next → (m e = none ∧ m' e' = none) ∨
    ∃ a k ts ts', m e = some (a, ⟨k, e.out ++ ts⟩) ∧ m' e' = some (a, ⟨k, e'.out ++ ts'⟩) ∧
      ∀ s : Cell Int → V,
        (∃ x, (Machine.start s ts).Steps x ∧ x.Done) ∧ (∃ x, (Machine.start s ts').Steps x ∧ x.Done) ∧
        ∀ x x', (Machine.start s ts).Steps x → x.Done → (Machine.start s ts').Steps x' → x'.Done → x.store = x'.store

theorem Same.effect {m m' : M Int V α} (h : Same m m') : SameEffect m m' := by
  rintro ⟨n, out⟩ ⟨n', out'⟩ hn
  obtain rfl : n = n' := hn
  rcases h n out out' with h | ⟨a, b, k, ts, ts', rfl, h1, h2, o1, o2, e⟩
  · exact Or.inl h
  · refine Or.inr ⟨a, k, ts, ts', h1, h2, fun s => ⟨c42_complete_execution_exists _, c42_complete_execution_exists _,
      fun x x' s1 d1 s2 d2 => ?_⟩⟩
    rw [c42_any_schedule s ts o1 x s1 d1, c42_any_schedule s ts' o2 x' s2 d2, (e s trivial).1]

/-! ## Client programs -/

/-- The matrices and workspace of the planner, once allocated, suit the GPU tasks. -/
def SolverReady (rp : RowPtr V) (G : Geometry Int) (pl : Planner Int Int V) (base nw : Nat) : Prop :=
  ∀ pl', pl.allocateWorkspace G base nw = some pl' → Ready G pl' nw ∧ GpuReady rp G pl'

/-- `OnDevices dev rp A G m m'`: `m` is a client program, any sequence of calls of the library, later calls depending in any way on the
handles returned by earlier ones; `m'` is the same program when its point tasks run on the devices `dev`. -/
inductive OnDevices [Field V] (dev : Devices) (rp : RowPtr V) (A : Arith V) (G : Geometry Int) :
    {α : Type} → M Int V α → M Int V α → Prop
  | done {α : Type} (a : α) : OnDevices dev rp A G (pure a) (pure a)
  | stop {α : Type} : OnDevices dev rp A G (fun _ => none : M Int V α) (fun _ => none)
  | andThen {α β : Type} {m m' : M Int V α} {f f' : α → M Int V β} : OnDevices dev rp A G m m' →
      (∀ a, OnDevices dev rp A G (f a) (f' a)) → OnDevices dev rp A G (m >>= f) (m' >>= f')
  -- scalars
  | scalarOf (a : V) : OnDevices dev rp A G (scalarOf a) (scalarOf a)
  | sNeg (a : Scalar) : OnDevices dev rp A G (sNeg A a) (sNeg A a)
  | sAdd (a b : Scalar) : OnDevices dev rp A G (sAdd A a b) (sAdd A a b)
  | sSub (a b : Scalar) : OnDevices dev rp A G (sSub A a b) (sSub A a b)
  | sMul (a b : Scalar) : OnDevices dev rp A G (sMul A a b) (sMul A a b)
  | sDiv (a b : Scalar) : OnDevices dev rp A G (sDiv A a b) (sDiv A a b)
  | sSqrt (a : Scalar) : OnDevices dev rp A G (sSqrt A a) (sSqrt A a)
  | sRsqrt (a : Scalar) : OnDevices dev rp A G (sRsqrt A a) (sRsqrt A a)
  | dummy (l : List Scalar) : OnDevices dev rp A G (dummyTask A l) (dummyTask A l)
  -- vectors
  | fill (v : Vec) (a : V) : OnDevices dev rp A G (constantFill G.toEnv v a) (constantFill G.toEnv v a)
  | fillScalar (v : Vec) (a : Scalar) : OnDevices dev rp A G (constantFillScalar G.toEnv v a) (constantFillScalar G.toEnv v a)
  | assign (d x : Vec) : OnDevices dev rp A G (assign G.toEnv d x) (assign G.toEnv d x)
  | scal (x : Vec) (a : Scalar) : OnDevices dev rp A G (Vector.scal A G.toEnv x a) (Device.scal dev A G.toEnv x a)
  | axpy (y : Vec) (a : Scalar) (x : Vec) :
      OnDevices dev rp A G (Vector.axpy A G.toEnv y a x) (axpyWith dev A G.toEnv y [a.fut] x)
  | axpy2 (y : Vec) (a b : Scalar) (x : Vec) :
      OnDevices dev rp A G (Vector.axpy2 A G.toEnv y a b x) (axpyWith dev A G.toEnv y [a.fut, b.fut] x)
  | axpy3 (y : Vec) (a b c : Scalar) (x : Vec) :
      OnDevices dev rp A G (Vector.axpy3 A G.toEnv y a b c x) (axpyWith dev A G.toEnv y [a.fut, b.fut, c.fut] x)
  | xpay (y : Vec) (a : Scalar) (x : Vec) :
      OnDevices dev rp A G (Vector.xpay A G.toEnv y a x) (xpayWith dev A G.toEnv y [a.fut] x)
  | xpay2 (y : Vec) (a b : Scalar) (x : Vec) :
      OnDevices dev rp A G (Vector.xpay2 A G.toEnv y a b x) (xpayWith dev A G.toEnv y [a.fut, b.fut] x)
  | dot (v w : Vec) : OnDevices dev rp A G (Vector.dot A G.toEnv v w) (Device.dot dev A G.toEnv v w)
  -- planners
  | pZeroFill (pl : Planner Int Int V) (d : Nat) : OnDevices dev rp A G (pl.zeroFill A G.toEnv d) (pl.zeroFill A G.toEnv d)
  | pCopy (pl : Planner Int Int V) (d x : Nat) : OnDevices dev rp A G (pl.copy G.toEnv d x) (pl.copy G.toEnv d x)
  | pScal (pl : Planner Int Int V) (d : Nat) (a : Scalar) :
      OnDevices dev rp A G (pl.scal A G.toEnv d a) (Device.pScal dev A G.toEnv pl d a)
  | pAxpy (pl : Planner Int Int V) (d : Nat) (a : Scalar) (x : Nat) :
      OnDevices dev rp A G (pl.axpy A G.toEnv d a x) (pAxpyWith dev A G.toEnv pl d [a.fut] x)
  | pAxpy2 (pl : Planner Int Int V) (d : Nat) (a b : Scalar) (x : Nat) :
      OnDevices dev rp A G (pl.axpy2 A G.toEnv d a b x) (pAxpyWith dev A G.toEnv pl d [a.fut, b.fut] x)
  | pAxpy3 (pl : Planner Int Int V) (d : Nat) (a b c : Scalar) (x : Nat) :
      OnDevices dev rp A G (pl.axpy3 A G.toEnv d a b c x) (pAxpyWith dev A G.toEnv pl d [a.fut, b.fut, c.fut] x)
  | pXpay (pl : Planner Int Int V) (d : Nat) (a : Scalar) (x : Nat) :
      OnDevices dev rp A G (pl.xpay A G.toEnv d a x) (pXpayWith dev A G.toEnv pl d [a.fut] x)
  | pXpay2 (pl : Planner Int Int V) (d : Nat) (a b : Scalar) (x : Nat) :
      OnDevices dev rp A G (pl.xpay2 A G.toEnv d a b x) (pXpayWith dev A G.toEnv pl d [a.fut, b.fut] x)
  | pDot (pl : Planner Int Int V) (v w : Nat) : OnDevices dev rp A G (pl.dot A G.toEnv v w) (Device.pDot dev A G.toEnv pl v w)
  | allocate (pl : Planner Int Int V) (base n : Nat) : OnDevices dev rp A G (allocate G pl base n) (allocate G pl base n)
  -- operations that multiply by the system's matrices: these must suit the GPU tasks
  | pMatvec (pl : Planner Int Int V) (nw : Nat) (R : Ready G pl nw) (H : GpuReady rp G pl) (d x : Nat) :
      OnDevices dev rp A G (pl.matvec A G.toEnv d x) (Device.pMatvec dev rp A G.toEnv pl d x)
  | cg (pl : Planner Int Int V) (base k : Nat) (H : SolverReady rp G pl base 3) :
      OnDevices dev rp A G (Solver.cg A G pl base k) (Device.cg dev rp A G pl base k)
  | biCGStab (pl : Planner Int Int V) (base k : Nat) (H : SolverReady rp G pl base 5) :
      OnDevices dev rp A G (Solver.biCGStab A G pl base k) (Device.biCGStab dev rp A G pl base k)
  | gmres (pl : Planner Int Int V) (base restart k : Nat) (H : SolverReady rp G pl base (restart + 1)) :
      OnDevices dev rp A G (Solver.gmres A G pl base restart k) (Device.gmres dev rp A G pl base restart k)
  /-- single steps, so that the program can do other things between them -/
  | cgStep (pl : Planner Int Int V) (nw : Nat) (R : Ready G pl nw) (H : GpuReady rp G pl) (c : CG Scalar) :
      OnDevices dev rp A G (CG.step (plannerOps A G.toEnv pl) c) (CG.step (deviceOps dev rp A G.toEnv pl) c)
  | biCGStabStep (pl : Planner Int Int V) (nw : Nat) (R : Ready G pl nw) (H : GpuReady rp G pl) (c : BiCGStab Scalar) :
      OnDevices dev rp A G (BiCGStab.step (plannerOps A G.toEnv pl) c) (BiCGStab.step (deviceOps dev rp A G.toEnv pl) c)
  | gmresStep (pl : Planner Int Int V) (nw : Nat) (R : Ready G pl nw) (H : GpuReady rp G pl) (c : GMRES Scalar) :
      OnDevices dev rp A G (GMRES.step (plannerOps A G.toEnv pl) c) (GMRES.step (deviceOps dev rp A G.toEnv pl) c)

section
variable [Field V] {dev : Devices} {rp : RowPtr V} {A : Arith V} {G : Geometry Int}

theorem Same.allocBind (pl : Planner Int Int V) (base nw : Nat) {f f' : Planner Int Int V → M Int V α}
    (h : ∀ pl', pl.allocateWorkspace G base nw = some pl' → Same (f pl') (f' pl')) :
    Same (Solver.allocate G pl base nw >>= f) (Solver.allocate G pl base nw >>= f') := by
  cases hl : pl.allocateWorkspace G base nw with
  | none =>
    intro n out out'
    left
    constructor <;>
    · show Option.bind _ _ = none
      unfold Solver.allocate
      rw [hl]; rfl
  | some v =>
    have e : ∀ {γ : Type} (g : Planner Int Int V → M Int V γ), (Solver.allocate G pl base nw >>= g) = g v := by
      intro γ g
      funext e
      show Option.bind _ _ = _
      unfold Solver.allocate
      rw [hl]; rfl
    rw [e f, e f']
    exact h v hl

theorem Same.cg (hdev : dev.Ok) (hA : A.Exact) (pl : Planner Int Int V) (base k : Nat) (H : SolverReady rp G pl base 3) :
    Same (Solver.cg A G pl base k) (Device.cg dev rp A G pl base k) :=
  Same.allocBind pl base 3 fun pl' h => Same.cgSolve hdev hA (H pl' h).1 (H pl' h).2 k

theorem Same.biCGStab (hdev : dev.Ok) (hA : A.Exact) (pl : Planner Int Int V) (base k : Nat) (H : SolverReady rp G pl base 5) :
    Same (Solver.biCGStab A G pl base k) (Device.biCGStab dev rp A G pl base k) :=
  Same.allocBind pl base 5 fun pl' h => Same.bicgstabSolve hdev hA (H pl' h).1 (H pl' h).2 k

theorem Same.gmres (hdev : dev.Ok) (hA : A.Exact) (pl : Planner Int Int V) (base restart k : Nat)
    (H : SolverReady rp G pl base (restart + 1)) :
    Same (Solver.gmres A G pl base restart k) (Device.gmres dev rp A G pl base restart k) :=
  Same.allocBind pl base (restart + 1) fun pl' h => Same.gmresSolve hdev hA (H pl' h).1 (H pl' h).2 restart k

theorem Same.client (hdev : dev.Ok) (hA : A.Exact) (hG : ∀ part, GpuPieces (G.pieces part)) {m m' : M Int V α}
    (h : OnDevices dev rp A G m m') : Same m m' := by
  induction h with
  | done a => exact Same.pure a
  | stop => exact Same.stop
  | andThen _ _ ih1 ih2 => exact ih1.bind ih2
  | scalarOf a => exact Same.scalarOf a
  | sNeg a => exact Same.unary _ a
  | sAdd a b => exact Same.binary _ a b
  | sSub a b => exact Same.binary _ a b
  | sMul a b => exact Same.binary _ a b
  | sDiv a b => exact Same.binary _ a b
  | sSqrt a => exact Same.unary _ a
  | sRsqrt a => exact Same.unary (fun x => A.div A.one (A.sqrt x)) a
  | dummy l => exact Same.dummyTask A l
  | fill v a => exact Same.constantFill _ v a
  | fillScalar v a => exact Same.constantFillScalar _ v a
  | assign d x => exact Same.assign _ d x
  | scal x a => exact Same.scal hdev A _ x a (hG _)
  | axpy y a x => exact Same.axpyWith hdev A _ y _ x (hG _)
  | axpy2 y a b x => exact Same.axpyWith hdev A _ y _ x (hG _)
  | axpy3 y a b c x => exact Same.axpyWith hdev A _ y _ x (hG _)
  | xpay y a x => exact Same.xpayWith hdev A _ y _ x (hG _)
  | xpay2 y a b x => exact Same.xpayWith hdev A _ y _ x (hG _)
  | dot v w => exact Same.dot hdev hA _ v w (hG _)
  | pZeroFill pl d => exact Same.zeroFill A _ pl d
  | pCopy pl d x => exact Same.copy _ pl d x
  | pScal pl d a =>
    exact (Same.numSpaces pl).bind fun _ => Same.loop _ fun _ _ => Same.getBind fun _ _ => Same.scal hdev A _ _ a (hG _)
  | pAxpy pl d a x => exact Same.pairs d x fun _ _ _ _ _ => Same.axpyWith hdev A _ _ _ _ (hG _)
  | pAxpy2 pl d a b x => exact Same.pairs d x fun _ _ _ _ _ => Same.axpyWith hdev A _ _ _ _ (hG _)
  | pAxpy3 pl d a b c x => exact Same.pairs d x fun _ _ _ _ _ => Same.axpyWith hdev A _ _ _ _ (hG _)
  | pXpay pl d a x => exact Same.pairs d x fun _ _ _ _ _ => Same.xpayWith hdev A _ _ _ _ (hG _)
  | pXpay2 pl d a b x => exact Same.pairs d x fun _ _ _ _ _ => Same.xpayWith hdev A _ _ _ _ (hG _)
  | pDot pl v w =>
    have key : ∀ (l : List Nat) (r : Scalar), Same (pl.dotLoop A G.toEnv v w l r) (Device.pDotLoop dev A G.toEnv pl v w l r) := by
      intro l
      induction l with
      | nil => exact fun r => Same.pure r
      | cons i l ih => exact fun r => Same.getBind fun _ _ => Same.getBind fun _ _ => (Same.dot hdev hA _ _ _ (hG _)).bind fun d =>
          (Same.binary A.add r d).bind fun r' => ih r'
    exact (Same.numSpaces pl).bind fun _ => Same.getBind fun _ _ => Same.getBind fun _ _ =>
      (Same.dot hdev hA _ _ _ (hG _)).bind fun r => key _ r
  | allocate pl base n => exact Same.allocate G pl base n
  | pMatvec pl nw R H d x => exact Same.pMatvec hdev hA R H d x
  | cg pl base k H => exact Same.cg hdev hA pl base k H
  | biCGStab pl base k H => exact Same.biCGStab hdev hA pl base k H
  | gmres pl base restart k H => exact Same.gmres hdev hA pl base restart k H
  | cgStep pl nw R H c =>
    exact Sim.imp (rel_cg_full (ops_same hdev hA R H) ⟨rel_refl _, rfl, rfl⟩) fun _ _ h => CG.Rel.eq h
  | biCGStabStep pl nw R H c =>
    exact Sim.imp (rel_bicgstab_full (ops_same hdev hA R H) ⟨rel_refl _, rfl, rel_refl _, rfl, rel_refl _, rfl, rfl, rfl, rfl⟩)
      fun _ _ h => BiCGStab.Rel.eq h
  | gmresStep pl nw R H c =>
    exact Sim.imp (rel_gmres_full (ops_same hdev hA R H) ⟨rfl, rfl, fun _ _ => rfl, rel_refl _, rel_refl _⟩)
      fun _ _ h => GMRES.Rel.eq h

end

end Verif.Device
