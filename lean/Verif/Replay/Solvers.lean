import Verif.Replay.Props

/-! # C91 for the solvers and the benchmark program -/
set_option linter.dupNamespace false
set_option linter.unusedSectionVars false
namespace Verif.Replay
open Verif.Runtime Verif.Vector Verif.Matrix Verif.Planner Verif.Solver Verif.Programs Verif.Launch Verif.Grid Verif.Stencil Verif.EndToEnd

section
variable {P V α β : Type} [DecidableEq P] {A : Arith V}

/-- The result does not depend on what has been launched. -/
def Det (m : M P V α) : Prop := ∀ e b e' f c f', m e = some (b, e') → m f = some (c, f') → b = c

theorem Det.option (o : Option α) : Det (lift o : M P V α) := by
  intro e b e' f c f' h h'
  cases o with
  | none => cases h
  | some a => cases h; cases h'; rfl

theorem Det.unit (m : M P V Unit) : Det m := fun _ _ _ _ _ _ _ _ => rfl

theorem Det.bind {m : M P V α} {f : α → M P V β} (h : Det m) (h' : ∀ a, Det (f a)) : Det (m >>= f) := by
  intro e b e' g c g' hb hc
  obtain ⟨⟨a, e1⟩, h1, h2⟩ := Option.bind_eq_some_iff.1 (show (m e).bind (fun p => f p.1 p.2) = some (b, e') from hb)
  obtain ⟨⟨a', g1⟩, k1, k2⟩ := Option.bind_eq_some_iff.1 (show (m g).bind (fun p => f p.1 p.2) = some (c, g') from hc)
  cases h _ _ _ _ _ _ h1 k1
  exact h' a _ _ _ _ _ _ h2 k2

theorem Traced.after_det {m : M P V α} (hm : Hon m) (hd : Det m) {ft : α → T P V β} {f : α → M P V β}
    (h : ∀ a, Traced A (ft a) (f a)) : Traced A (calls m >>= ft) (m >>= f) := by
  by_cases hs : ∃ e a e', m e = some (a, e')
  · obtain ⟨e, a, e', he⟩ := hs
    exact Traced.after hm (fun f b f' hb => hd _ _ _ _ _ _ hb he) (h a)
  · refine Traced.plain ?_
    intro e items b e' hb
    obtain ⟨⟨a, e1⟩, h1, -⟩ := Option.bind_eq_some_iff.1 (show (m e).bind (fun p => f p.1 p.2) = some (b, e') from hb)
    exact absurd ⟨e, a, e1, h1⟩ hs

end

section
variable {K P V : Type} [DecidableEq P] [DecidableEq K] {A : Arith V} {G : Geometry P} {pl : Planner K P V} {base : Nat}

/-! ## The steps -/

theorem cg_same (horder : ∀ f l, (G.redOrder f l).Perm l) (c c' : CG Scalar) :
    Same A (fun _ _ => True ∧ True) (CG.step (plannerOps A G.toEnv pl) c) (CG.step (plannerOps A G.toEnv pl) c') := by
  intro e b f e' hb
  obtain ⟨b', f', ts, ts', h1, h2, h3, h4, -⟩ := rel_cg_step (sameOps G pl horder) (c := c) (c' := c') trivial trivial e b f e' hb
  exact ⟨b', f', ts, ts', h1, h2, h3, h4, trivial, trivial⟩

theorem bicgstab_same (horder : ∀ f l, (G.redOrder f l).Perm l) (c c' : BiCGStab Scalar) :
    Same A (fun _ _ => True ∧ True) (BiCGStab.step (plannerOps A G.toEnv pl) c) (BiCGStab.step (plannerOps A G.toEnv pl) c') := by
  intro e b f e' hb
  obtain ⟨b', f', ts, ts', h1, h2, h3, h4, -⟩ :=
    rel_bicgstab_step (sameOps G pl horder) (c := c) (c' := c') trivial trivial trivial trivial e b f e' hb
  exact ⟨b', f', ts, ts', h1, h2, h3, h4, trivial, trivial⟩

theorem gmres_same (horder : ∀ f l, (G.redOrder f l).Perm l) {m : Nat} (c c' : GMRES Scalar) (hc : c.restart = m) (hc' : c'.restart = m) :
    Same A (fun d d' => d.restart = m ∧ d'.restart = m) (GMRES.step (plannerOps A G.toEnv pl) c)
      (GMRES.step (plannerOps A G.toEnv pl) c') := by
  intro e b f e' hb
  obtain ⟨b', f', ts, ts', h1, h2, h3, h4, h5, h6, -⟩ :=
    rel_gmres_step (sameOps G pl horder) (c := c) (c' := c') (hc.trans hc'.symm) trivial (fun _ _ => trivial) e b f e' hb
  exact ⟨b', f', ts, ts', h1, h2, h3, h4, h5.trans hc, h6.trans hc'⟩

theorem hon_cg_init : Hon (CG.init (plannerOps A G.toEnv pl)) := by
  have H := Hon.plannerOps A G.toEnv pl
  unfold CG.init
  exact H.negOne.bind fun _ => (H.copy _ _).bind fun _ => (H.copy _ _).bind fun _ => (H.dot _ _).bind fun _ => Hon.pure _

theorem hon_bicgstab_init : Hon (BiCGStab.init (plannerOps A G.toEnv pl)) := by
  have H := Hon.plannerOps A G.toEnv pl
  unfold BiCGStab.init
  exact H.negOne.bind fun _ => H.zero.bind fun _ => H.one.bind fun _ => (H.copy _ _).bind fun _ => (H.copy _ _).bind fun _ =>
    (H.zeroFill _).bind fun _ => (H.zeroFill _).bind fun _ => Hon.pure _

theorem hon_gmres_init (m : Nat) : Hon (GMRES.init (plannerOps A G.toEnv pl) m) := by
  have H := Hon.plannerOps A G.toEnv pl
  unfold GMRES.init
  exact H.negOne.bind fun _ => (Hon.zeros H _).bind fun _ => (Hon.zeros H _).bind fun _ => (Hon.zeros H _).bind fun _ => Hon.pure _

theorem gmres_init_restart {m : Nat} {e : Emit P V} {c : GMRES Scalar} {e' : Emit P V}
    (h : GMRES.init (plannerOps A G.toEnv pl) m e = some (c, e')) : c.restart = m := by
  obtain ⟨_, _, -, h3⟩ := run_init h
  obtain ⟨_, _, -, h4⟩ := run_init h3
  obtain ⟨_, _, -, h5⟩ := run_init h4
  obtain ⟨_, _, -, h6⟩ := run_init h5
  have := (Prod.mk.inj (Option.some.inj h6)).1
  rw [← this]

/-! ## The solver branches and user programs -/

theorem traced_cg (horder : ∀ f l, (G.redOrder f l).Perm l) (W it pt : Nat) :
    Traced A (tracedCG A G pl base W it pt) (benchCG A G pl base W it pt) := by
  refine Traced.option (o := pl.allocateWorkspace G base 3) fun pl' _ => ?_
  exact ⟨_, fun _ _ => same_groups (Inv := fun _ => True) fun c c' _ _ => cg_same horder c c',
    (Follows.calls (R := fun _ => True) hon_cg_init (fun _ _ _ _ => trivial)).bind fun c _ =>
      (traced_loops (fun c => Hon.cgStep (Hon.plannerOps A G.toEnv pl') c) (fun c c' _ _ => cg_same horder c c') W it pt trivial).bind
        fun _ _ => .pure trivial⟩

theorem traced_bicgstab (horder : ∀ f l, (G.redOrder f l).Perm l) (W it pt : Nat) :
    Traced A (tracedBiCGStab A G pl base W it pt) (benchBiCGStab A G pl base W it pt) := by
  refine Traced.option (o := pl.allocateWorkspace G base 5) fun pl' _ => ?_
  exact ⟨_, fun _ _ => same_groups (Inv := fun _ => True) fun c c' _ _ => bicgstab_same horder c c',
    (Follows.calls (R := fun _ => True) hon_bicgstab_init (fun _ _ _ _ => trivial)).bind fun c _ =>
      (traced_loops (fun c => Hon.biStep (Hon.plannerOps A G.toEnv pl') c) (fun c c' _ _ => bicgstab_same horder c c') W it pt trivial).bind
        fun _ _ => .pure trivial⟩

theorem traced_gmres (horder : ∀ f l, (G.redOrder f l).Perm l) (W it pt : Nat) :
    Traced A (tracedGMRES A G pl base W it pt) (benchGMRES A G pl base W it pt) := by
  refine Traced.option (o := pl.allocateWorkspace G base (10 + 1)) fun pl' _ => ?_
  exact ⟨_, fun _ _ => same_groups (Inv := fun c => c.restart = 10) fun c c' hc hc' => gmres_same horder c c' hc hc',
    (Follows.calls (R := fun c => c.restart = 10) (hon_gmres_init 10) (fun _ _ _ h => gmres_init_restart h)).bind fun c hc =>
      (traced_loops (fun c => Hon.gmresStep (Hon.plannerOps A G.toEnv pl') c) (fun c c' hc hc' => gmres_same horder c c' hc hc') W it pt
        hc).bind fun _ _ => .pure trivial⟩

/-- Steps in groups are steps. -/
theorem Traced.steps {α : Type} {mt : T P V α} {m : M P V α} {m' : M P V α} (h : Traced A mt m) (he : ∀ e, m e = m' e) : Traced A mt m' :=
  (funext he : m = m') ▸ h

/-- **C91** for CG: whatever the solver, run for `pt * k` steps, ensures, it ensures when the steps are made in `k` traces of `pt` steps that the
runtime records and replays. -/
theorem c91_cg (A : Arith V) (horder : ∀ f l, (G.redOrder f l).Perm l) (pt k n : Nat) (s : Cell P → V)
    (Q : CG Scalar → (Cell P → V) → Prop) (h : Ensures (cg A G pl base (pt * k)) n s Q) :
    EnsuresTraced A (cgTraces A G pl base pt k) n s Q := by
  refine Traced.ensures (m := cg A G pl base (pt * k)) ?_ h
  refine Traced.option (o := pl.allocateWorkspace G base 3)
    (f := fun pl' => CG.solve (plannerOps A G.toEnv pl') (pt * k)) fun pl' _ => ?_
  refine Traced.steps (m := CG.init (plannerOps A G.toEnv pl') >>= fun c =>
    repeatM (fun c => repeatM (CG.step (plannerOps A G.toEnv pl')) pt c) k c) ?_ fun e => ?_
  · exact ⟨_, fun _ _ => same_groups (Inv := fun _ => True) fun c c' _ _ => cg_same horder c c',
      (Follows.calls (R := fun _ => True) hon_cg_init (fun _ _ _ _ => trivial)).bind fun c _ =>
        traced_groups (fun c => Hon.cgStep (Hon.plannerOps A G.toEnv pl') c) (fun c c' _ _ => cg_same horder c c') pt k trivial⟩
  · show (CG.init (plannerOps A G.toEnv pl') e).bind _ = (CG.init (plannerOps A G.toEnv pl') e).bind _
    exact congrArg _ (funext fun z => repeatM_mul _ pt k z.1 z.2)

/-- **C91** for BiCGStab. -/
theorem c91_bicgstab (A : Arith V) (horder : ∀ f l, (G.redOrder f l).Perm l) (pt k n : Nat) (s : Cell P → V)
    (Q : BiCGStab Scalar → (Cell P → V) → Prop) (h : Ensures (biCGStab A G pl base (pt * k)) n s Q) :
    EnsuresTraced A (biCGStabTraces A G pl base pt k) n s Q := by
  refine Traced.ensures (m := biCGStab A G pl base (pt * k)) ?_ h
  refine Traced.option (o := pl.allocateWorkspace G base 5)
    (f := fun pl' => BiCGStab.solve (plannerOps A G.toEnv pl') (pt * k)) fun pl' _ => ?_
  refine Traced.steps (m := BiCGStab.init (plannerOps A G.toEnv pl') >>= fun c =>
    repeatM (fun c => repeatM (BiCGStab.step (plannerOps A G.toEnv pl')) pt c) k c) ?_ fun e => ?_
  · exact ⟨_, fun _ _ => same_groups (Inv := fun _ => True) fun c c' _ _ => bicgstab_same horder c c',
      (Follows.calls (R := fun _ => True) hon_bicgstab_init (fun _ _ _ _ => trivial)).bind fun c _ =>
        traced_groups (fun c => Hon.biStep (Hon.plannerOps A G.toEnv pl') c) (fun c c' _ _ => bicgstab_same horder c c') pt k trivial⟩
  · show (BiCGStab.init (plannerOps A G.toEnv pl') e).bind _ = (BiCGStab.init (plannerOps A G.toEnv pl') e).bind _
    exact congrArg _ (funext fun z => repeatM_mul _ pt k z.1 z.2)

/-- **C91** for GMRES with any restart length. -/
theorem c91_gmres (A : Arith V) (horder : ∀ f l, (G.redOrder f l).Perm l) (m pt k n : Nat) (s : Cell P → V)
    (Q : GMRES Scalar → (Cell P → V) → Prop) (h : Ensures (gmres A G pl base m (pt * k)) n s Q) :
    EnsuresTraced A (gmresTraces A G pl base m pt k) n s Q := by
  refine Traced.ensures (m := gmres A G pl base m (pt * k)) ?_ h
  refine Traced.option (o := pl.allocateWorkspace G base (m + 1))
    (f := fun pl' => GMRES.solve (plannerOps A G.toEnv pl') m (pt * k)) fun pl' _ => ?_
  refine Traced.steps (m := GMRES.init (plannerOps A G.toEnv pl') m >>= fun c =>
    repeatM (fun c => repeatM (GMRES.step (plannerOps A G.toEnv pl')) pt c) k c) ?_ fun e => ?_
  · exact ⟨_, fun _ _ => same_groups (Inv := fun c => c.restart = m) fun c c' hc hc' => gmres_same horder c c' hc hc',
      (Follows.calls (R := fun c => c.restart = m) (hon_gmres_init m) (fun _ _ _ h => gmres_init_restart h)).bind fun c hc =>
        traced_groups (fun c => Hon.gmresStep (Hon.plannerOps A G.toEnv pl') c) (fun c c' hc hc' => gmres_same horder c c' hc hc') pt k hc⟩
  · show (GMRES.init (plannerOps A G.toEnv pl') m e).bind _ = (GMRES.init (plannerOps A G.toEnv pl') m e).bind _
    exact congrArg _ (funext fun z => repeatM_mul _ pt k z.1 z.2)

/-! ## The benchmark -/

theorem hon_benchSetup (part : Nat) (d : Nat → Nat) (m : Op K P V) : Hon (benchSetup A G part d m) := by
  unfold benchSetup
  exact (Hon.option _).bind fun _ => (Hon.constantFill G.toEnv _ _).bind fun _ => (Hon.option _).bind fun _ =>
    (Hon.constantFill G.toEnv _ _).bind fun _ => (Hon.option _).bind fun _ => (Hon.constantFill G.toEnv _ _).bind fun _ =>
    (Hon.option _).bind fun _ => (Hon.constantFill G.toEnv _ _).bind fun _ => Hon.option _

theorem det_benchSetup (part : Nat) (d : Nat → Nat) (m : Op K P V) : Det (benchSetup A G part d m) := by
  unfold benchSetup
  exact (Det.option _).bind fun _ => (Det.unit _).bind fun _ => (Det.option _).bind fun _ => (Det.unit _).bind fun _ =>
    (Det.option _).bind fun _ => (Det.unit _).bind fun _ => (Det.option _).bind fun _ => (Det.unit _).bind fun _ => Det.option _

theorem benchSolve_eq (part : Nat) (d : Nat → Nat) (m : Op K P V) (W : Nat) (o : Options) :
    benchSolve A G part d base m W o = benchSetup A G part d m >>= fun pl =>
      if o.solver = 1 then do
        let r ← benchCG A G pl base W o.it o.pt
        pure (some r)
      else if o.solver = 2 then do
        let r ← benchBiCGStab A G pl base W o.it o.pt
        pure (some r)
      else if o.solver = 3 then do
        let r ← benchGMRES A G pl base W o.it o.pt
        pure (some r)
      else pure none := by
  unfold benchSolve benchSetup
  simp only [bind_assoc]

theorem traced_solve (horder : ∀ f l, (G.redOrder f l).Perm l) (part : Nat) (d : Nat → Nat) (m : Op K P V) (W : Nat) (o : Options) :
    Traced A (tracedSolve A G part d base m W o) (benchSolve A G part d base m W o) := by
  rw [benchSolve_eq]
  refine Traced.after_det (hon_benchSetup part d m) (det_benchSetup part d m) fun pl => ?_
  split
  · exact (traced_cg horder W o.it o.pt).result some
  · split
    · exact (traced_bicgstab horder W o.it o.pt).result some
    · split
      · exact (traced_gmres horder W o.it o.pt).result some
      · exact Traced.plain (.pure trivial)

end

/-- **C91** for the benchmark: whatever the program without traces and fences ensures (the statements of C74), the program as it is, with recorded
and replayed traces, fences and clock readings, ensures. -/
theorem c91_benchmark {V : Type} (A : Arith V) (lit : Int → V) (sort : List (Point × V) → List (Point × V)) (pieces : List (Dom1 × Dom1))
    (fuel : Nat) (junk : CSR Int Int V) (G : Geometry Int) (horder : ∀ f l, (G.redOrder f l).Perm l) (part : Nat) (d : Nat → Nat)
    (base W : Nat) (o : Options) (t : Nat) (s : Cell Int → V) (Q : Option Report → (Cell Int → V) → Prop)
    (h : Ensures (benchmark A lit sort pieces fuel junk G part d base W o) t s Q) :
    EnsuresTraced A (tracedBenchmark A lit sort pieces fuel junk G part d base W o) t s Q :=
  (Traced.option fun m _ => traced_solve horder part d (Op.csr m) W o).ensures h

end Verif.Replay
