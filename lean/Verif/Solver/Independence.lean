import Verif.Solver.Rate

/-! # C58: the results of the solvers depend only on the linear system

Two clients may describe the same system in different ways: other storage formats, other partitions, other index spaces for the
unknowns, more or fewer blocks, matrices split into several or merged into one, registered in another order.  In exact arithmetic they
get the same iterates and the same recorded values. -/
set_option linter.dupNamespace false
set_option linter.unusedSectionVars false
namespace Verif.Textbook
open _root_.Matrix
variable {ι κ V : Type} [Fintype ι] [Fintype κ] [Field V]

/-! ## The recurrences do not depend on the names of the unknowns -/

section
variable (e : ι ≃ κ) {M : Matrix ι ι V} {N : Matrix κ κ V} (h : ∀ i j, M i j = N (e i) (e j))
include h

theorem cg_rename (x0 b : κ → V) (k : Nat) : (cg M (x0 ∘ e) (b ∘ e) k).x = (cg N x0 b k).x ∘ e ∧
    (cg M (x0 ∘ e) (b ∘ e) k).r = (cg N x0 b k).r ∘ e ∧ (cg M (x0 ∘ e) (b ∘ e) k).p = (cg N x0 b k).p ∘ e := by
  obtain ⟨hdot, hmv, -⟩ := Verif.Solver.transport e M N h
  induction k with
  | zero => exact ⟨rfl, rfl, rfl⟩
  | succ k ih =>
    obtain ⟨h1, h2, h3⟩ := ih
    have er : (cg M (x0 ∘ e) (b ∘ e) (k + 1)).r = (cg N x0 b (k + 1)).r ∘ e := by
      show (cg M (x0 ∘ e) (b ∘ e) k).r - _ • _ = _
      rw [h2, h3, hmv, hdot, hdot]
      rfl
    refine ⟨?_, er, ?_⟩
    · show (cg M (x0 ∘ e) (b ∘ e) k).x + _ • (cg M (x0 ∘ e) (b ∘ e) k).p = _
      rw [h1, h2, h3, hmv, hdot, hdot]
      rfl
    · show (cg M (x0 ∘ e) (b ∘ e) (k + 1)).r + (((cg M (x0 ∘ e) (b ∘ e) (k + 1)).r ⬝ᵥ (cg M (x0 ∘ e) (b ∘ e) (k + 1)).r) / _) • _ = _
      rw [er, h2, h3, hdot, hdot]
      rfl

theorem cg_regular_rename {x0 b : κ → V} {k : Nat} (hr : CGRegular N x0 b k) : CGRegular M (x0 ∘ e) (b ∘ e) k := by
  obtain ⟨hdot, hmv, -⟩ := Verif.Solver.transport e M N h
  intro i hi
  obtain ⟨-, h2, h3⟩ := cg_rename e h x0 b i
  rw [h2, h3, hmv, hdot, hdot]
  exact hr i hi

theorem bi_dir_rename (rt : κ → V) {c : BiState ι V} {d : BiState κ V} (hr : c.r = d.r ∘ e) (hp : c.p = d.p ∘ e) (hv : c.v = d.v ∘ e)
    (hρ : c.ρ = d.ρ) (hα : c.α = d.α) (hω : c.ω = d.ω) : c.dir (rt ∘ e) = d.dir rt ∘ e ∧
      c.denom M (rt ∘ e) = d.denom N rt ∧ c.alpha M (rt ∘ e) = d.alpha N rt ∧ c.mid M (rt ∘ e) = d.mid N rt ∘ e ∧
      c.omega M (rt ∘ e) = d.omega N rt := by
  obtain ⟨hdot, hmv, -⟩ := Verif.Solver.transport e M N h
  have e1 : c.dir (rt ∘ e) = d.dir rt ∘ e := by
    unfold BiState.dir
    rw [hr, hp, hv, hρ, hα, hω, hdot]
    rfl
  have e2 : c.denom M (rt ∘ e) = d.denom N rt := by
    unfold BiState.denom
    rw [e1, hmv, hdot]
  have e3 : c.alpha M (rt ∘ e) = d.alpha N rt := by
    unfold BiState.alpha
    rw [e2, hr, hdot]
  have e4 : c.mid M (rt ∘ e) = d.mid N rt ∘ e := by
    unfold BiState.mid
    rw [e3, hr, e1, hmv]
    rfl
  refine ⟨e1, e2, e3, e4, ?_⟩
  unfold BiState.omega
  rw [e4, hmv, hdot, hdot]

theorem bi_rename (x0 b : κ → V) (k : Nat) : (bi M (x0 ∘ e) (b ∘ e) k).x = (bi N x0 b k).x ∘ e ∧
    (bi M (x0 ∘ e) (b ∘ e) k).r = (bi N x0 b k).r ∘ e ∧ (bi M (x0 ∘ e) (b ∘ e) k).p = (bi N x0 b k).p ∘ e ∧
    (bi M (x0 ∘ e) (b ∘ e) k).v = (bi N x0 b k).v ∘ e ∧ (bi M (x0 ∘ e) (b ∘ e) k).ρ = (bi N x0 b k).ρ ∧
    (bi M (x0 ∘ e) (b ∘ e) k).α = (bi N x0 b k).α ∧ (bi M (x0 ∘ e) (b ∘ e) k).ω = (bi N x0 b k).ω := by
  obtain ⟨hdot, hmv, -⟩ := Verif.Solver.transport e M N h
  induction k with
  | zero => exact ⟨rfl, rfl, rfl, rfl, rfl, rfl, rfl⟩
  | succ k ih =>
    obtain ⟨h1, h2, h3, h4, h5, h6, h7⟩ := ih
    obtain ⟨g1, g2, g3, g4, g5⟩ := bi_dir_rename e h b h2 h3 h4 h5 h6 h7
    refine ⟨?_, ?_, g1, ?_, ?_, g3, g5⟩
    · show (bi M (x0 ∘ e) (b ∘ e) k).x + _ • _ + _ • _ = _
      rw [h1, g1, g3, g4, g5]
      rfl
    · show BiState.mid M (b ∘ e) (bi M (x0 ∘ e) (b ∘ e) k) - _ • (M *ᵥ BiState.mid M (b ∘ e) (bi M (x0 ∘ e) (b ∘ e) k)) = _
      rw [g4, g5, hmv]
      rfl
    · show M *ᵥ BiState.dir (b ∘ e) (bi M (x0 ∘ e) (b ∘ e) k) = _
      rw [g1, hmv]
      rfl
    · show (bi M (x0 ∘ e) (b ∘ e) k).r ⬝ᵥ (b ∘ e) = _
      rw [h2, hdot]
      rfl

theorem bi_regular_rename {x0 b : κ → V} {k : Nat} (hr : BiRegular N x0 b k) : BiRegular M (x0 ∘ e) (b ∘ e) k := by
  obtain ⟨hdot, hmv, -⟩ := Verif.Solver.transport e M N h
  intro i hi
  obtain ⟨h1, h2, h3, h4, h5, h6, h7⟩ := bi_rename e h x0 b i
  obtain ⟨g1, g2, g3, g4, g5⟩ := bi_dir_rename e h b h2 h3 h4 h5 h6 h7
  rw [h5, h7, g2, g4, hmv, hdot]
  exact hr i hi

omit h in
theorem mgs_rename (v : Nat → κ → V) (w : κ → V) (k : Nat) :
    mgs (fun i => v i ∘ e) (w ∘ e) k = mgs v w k ∘ e := by
  induction k with
  | zero => rfl
  | succ k ih =>
    have hdot : ∀ v w : κ → V, (v ∘ e) ⬝ᵥ (w ∘ e) = v ⬝ᵥ w := fun v w => by
      show ∑ i, v (e i) * w (e i) = _
      rw [e.sum_comp fun i => v i * w i]
      rfl
    show mgs (fun i => v i ∘ e) (w ∘ e) k - ((v k ∘ e) ⬝ᵥ mgs (fun i => v i ∘ e) (w ∘ e) k) • (v k ∘ e) = _
    rw [ih, hdot]
    rfl

theorem arnoldiUpTo_rename (sqrt : V → V) (r : κ → V) (j : Nat) :
    arnoldiUpTo sqrt M (r ∘ e) j = fun i => arnoldiUpTo sqrt N r j i ∘ e := by
  obtain ⟨hdot, hmv, -⟩ := Verif.Solver.transport e M N h
  induction j with
  | zero =>
    funext i
    show (1 / sqrt ((r ∘ e) ⬝ᵥ (r ∘ e))) • (r ∘ e) = _
    rw [hdot]
    rfl
  | succ j ih =>
    funext i
    show Function.update (arnoldiUpTo sqrt M (r ∘ e) j) (j + 1)
      (normalise sqrt (mgs (arnoldiUpTo sqrt M (r ∘ e) j) (M *ᵥ arnoldiUpTo sqrt M (r ∘ e) j j) (j + 1))) i =
      Function.update (arnoldiUpTo sqrt N r j) (j + 1)
      (normalise sqrt (mgs (arnoldiUpTo sqrt N r j) (N *ᵥ arnoldiUpTo sqrt N r j j) (j + 1))) i ∘ e
    by_cases hi : i = j + 1
    · subst hi
      rw [Function.update_self, Function.update_self, ih, hmv, mgs_rename]
      unfold normalise
      rw [hdot]
      rfl
    · rw [Function.update_of_ne hi, Function.update_of_ne hi, ih]

theorem arnoldi_rename (sqrt : V → V) (r : κ → V) (j : Nat) :
    arnoldi sqrt M (r ∘ e) j = arnoldi sqrt N r j ∘ e := by
  unfold arnoldi
  rw [arnoldiUpTo_rename e h]

theorem arnoldiRaw_rename (sqrt : V → V) (r : κ → V) (j : Nat) :
    arnoldiRaw sqrt M (r ∘ e) j = arnoldiRaw sqrt N r j ∘ e := by
  obtain ⟨hdot, hmv, -⟩ := Verif.Solver.transport e M N h
  have ha : arnoldi sqrt M (r ∘ e) = fun i => arnoldi sqrt N r i ∘ e := funext fun i => arnoldi_rename e h sqrt r i
  cases j with
  | zero => rfl
  | succ j =>
    show mgs (arnoldi sqrt M (r ∘ e)) (M *ᵥ arnoldi sqrt M (r ∘ e) j) (j + 1) = _
    rw [ha, hmv, mgs_rename]
    rfl

theorem hess_rename (sqrt : V → V) (r : κ → V) (i j : Nat) : hess sqrt M (r ∘ e) i j = hess sqrt N r i j := by
  obtain ⟨hdot, hmv, -⟩ := Verif.Solver.transport e M N h
  have ha : arnoldi sqrt M (r ∘ e) = fun i => arnoldi sqrt N r i ∘ e := funext fun i => arnoldi_rename e h sqrt r i
  unfold hess
  rw [arnoldiRaw_rename e h, hdot, ha, hmv, mgs_rename, hdot]

theorem sumCycle_rename (sqrt : V → V) (m : Nat) (x0 b : κ → V) (k : Nat) :
    sumCycle sqrt M m (x0 ∘ e) (b ∘ e) k = sumCycle sqrt N m x0 b k ∘ e := by
  obtain ⟨hdot, hmv, -⟩ := Verif.Solver.transport e M N h
  induction k with
  | zero => rfl
  | succ k ih =>
    show sumCycle sqrt M m (x0 ∘ e) (b ∘ e) k +
      ((List.range m).map (arnoldi sqrt M (b ∘ e - M *ᵥ sumCycle sqrt M m (x0 ∘ e) (b ∘ e) k))).sum = _
    have hr : b ∘ e - (N *ᵥ sumCycle sqrt N m x0 b k) ∘ e = (b - N *ᵥ sumCycle sqrt N m x0 b k) ∘ e := rfl
    have ha : arnoldi sqrt M ((b - N *ᵥ sumCycle sqrt N m x0 b k) ∘ e) = fun i => arnoldi sqrt N (b - N *ᵥ sumCycle sqrt N m x0 b k) i ∘ e :=
      funext fun i => arnoldi_rename e h sqrt _ i
    have hs : ∀ (l : List Nat) (f : Nat → κ → V), (l.map fun i => f i ∘ e).sum = (l.map f).sum ∘ e := by
      intro l f
      induction l with
      | nil => rfl
      | cons a l ih =>
        rw [List.map_cons, List.sum_cons, ih, List.map_cons, List.sum_cons]
        rfl
    rw [ih, hmv, hr, ha, hs]
    rfl

theorem cycle_regular_rename {sqrt : V → V} {m : Nat} {x0 b : κ → V} {k : Nat} (hr : CycleRegular sqrt N m x0 b k) :
    CycleRegular sqrt M m (x0 ∘ e) (b ∘ e) k := by
  obtain ⟨hdot, hmv, -⟩ := Verif.Solver.transport e M N h
  intro i hi
  have hr' : b ∘ e - (N *ᵥ sumCycle sqrt N m x0 b i) ∘ e = (b - N *ᵥ sumCycle sqrt N m x0 b i) ∘ e := rfl
  obtain ⟨h1, h2⟩ := hr i hi
  rw [sumCycle_rename e h, hmv, hr']
  refine ⟨by rw [hdot]; exact h1, fun j hj => ?_⟩
  rw [arnoldiRaw_rename e h, hdot]
  exact h2 j hj

end
end Verif.Textbook

namespace Verif.Solver
open Verif.Runtime Verif.Vector Verif.Matrix Verif.Planner Verif.Textbook
open scoped _root_.Matrix
variable {K P V : Type} [DecidableEq P] [DecidableEq K] [Field V] {A : Arith V}
variable {G : Geometry P} {calls : List (Setup K P V)} {base : Nat}

/-! ## The solvers, in terms of the calls of the client -/

/-- The matrix of the client's system. -/
def clientMatrix (G : Geometry P) (calls : List (Setup K P V)) :
    _root_.Matrix (clientUnknowns G calls) (clientUnknowns G calls) V := fun u u' => clientCoef calls u.1 u'.1

/-- What the client's solution vectors contain. -/
def clientSol (G : Geometry P) (calls : List (Setup K P V)) (s : Cell P → V) : clientUnknowns G calls → V :=
  fun u => clientVec (sols calls) s u.1

/-- What the client's right-hand side vectors contain. -/
def clientRhs (G : Geometry P) (calls : List (Setup K P V)) (s : Cell P → V) : clientUnknowns G calls → V :=
  fun u => clientVec (rhss calls) s u.1

/-- The planner's view of a client's system, as equations between functions. -/
theorem client_functions (h : ClientSystem G calls base) (nw : Nat) :
    ∃ pl pl', Planner.empty.setupAll G calls = some pl ∧ SolverSetup G pl pl' base nw ∧
      ∃ e : pl'.U G ≃ clientUnknowns G calls, (∀ u u', pl'.operator G u u' = clientMatrix G calls (e u) (e u')) ∧
        (∀ s : Cell P → V, pl'.content G s 0 = clientSol G calls s ∘ e) ∧
        ∀ s : Cell P → V, pl'.content G s 1 = clientRhs G calls s ∘ e := by
  obtain ⟨pl, pl', hpl, S, e, hop, hcont⟩ := client_view h nw
  exact ⟨pl, pl', hpl, S, e, hop, fun s => funext fun u => hcont 0 (by omega) s u, fun s => funext fun u => hcont 1 (by omega) s u⟩

theorem comp_inj {ι κ : Type} (e : ι ≃ κ) {f g : κ → V} (h : f ∘ e = g ∘ e) : f = g := by
  funext u
  have := congrFun h (e.symm u)
  simpa using this

/-- CG on the client's system: the solution vectors and the recorded values. -/
theorem cg_client (hA : A.Exact) (h : ClientSystem G calls base) (k n : Nat) (s : Cell P → V)
    (hreg : CGRegular (clientMatrix G calls) (clientSol G calls s) (clientRhs G calls s) k) :
    ∃ pl, Planner.empty.setupAll G calls = some pl ∧ Ensures (cg A G pl base k) n s fun c s' =>
      clientSol G calls s' = (Textbook.cg (clientMatrix G calls) (clientSol G calls s) (clientRhs G calls s) k).x ∧
      clientRhs G calls s' = clientRhs G calls s ∧
      c.history.length = k + 1 ∧ ∀ (i : Nat) a, c.history[i]? = some a → s' (.fut a.fut) =
        (Textbook.cg (clientMatrix G calls) (clientSol G calls s) (clientRhs G calls s) i).r ⬝ᵥ
          (Textbook.cg (clientMatrix G calls) (clientSol G calls s) (clientRhs G calls s) i).r := by
  obtain ⟨pl, pl', hpl, S, e, hop, h0, h1⟩ := client_functions h 3
  refine ⟨pl, hpl, WP.ensures ((cg_wp hA S k n s ?_).mono fun c n' s' hI => ?_)⟩
  · rw [h0, h1]
    exact cg_regular_rename e hop hreg
  · obtain ⟨c1, c0, -, c4⟩ := hI.1.contents
    have hlen : c.history.length = k + 1 := by unfold CG.history; rw [List.length_append, hI.1.len]; rfl
    rw [h0, h0, h1, (cg_rename e hop _ _ k).1] at c0
    rw [h1, h1] at c1
    refine ⟨comp_inj e c0, comp_inj e c1, hlen, fun i a ha => ?_⟩
    have hi : i < k + 1 := by rw [← hlen]; exact (List.getElem?_eq_some_iff.1 ha).1
    obtain ⟨a', ha', hd⟩ := hI.1.hist i (by omega)
    rw [ha] at ha'
    cases ha'
    rw [hd.2, h0, h1, (cg_rename e hop _ _ i).2.1, (transport e _ _ hop).1]

/-- BiCGStab on the client's system: the solution vectors and the three sequences of recorded values. -/
theorem bi_client (hA : A.Exact) (h : ClientSystem G calls base) (k n : Nat) (s : Cell P → V)
    (hreg : BiRegular (clientMatrix G calls) (clientSol G calls s) (clientRhs G calls s) k) :
    ∃ pl, Planner.empty.setupAll G calls = some pl ∧ Ensures (biCGStab A G pl base k) n s fun c s' =>
      clientSol G calls s' = (bi (clientMatrix G calls) (clientSol G calls s) (clientRhs G calls s) k).x ∧
      clientRhs G calls s' = clientRhs G calls s ∧
      c.rhos.length = k ∧ c.alphas.length = k ∧ c.omegas.length = k ∧
      (∀ (i : Nat) a, (c.rhos ++ [c.rho])[i]? = some a →
        s' (.fut a.fut) = (bi (clientMatrix G calls) (clientSol G calls s) (clientRhs G calls s) i).ρ) ∧
      (∀ (i : Nat) a, (c.alphas ++ [c.alpha])[i]? = some a →
        s' (.fut a.fut) = (bi (clientMatrix G calls) (clientSol G calls s) (clientRhs G calls s) i).α) ∧
      ∀ (i : Nat) a, (c.omegas ++ [c.omega])[i]? = some a →
        s' (.fut a.fut) = (bi (clientMatrix G calls) (clientSol G calls s) (clientRhs G calls s) i).ω := by
  obtain ⟨pl, pl', hpl, S, e, hop, h0, h1⟩ := client_functions h 5
  refine ⟨pl, hpl, WP.ensures ((bi_wp hA S k n s ?_).mono fun c n' s' hI => ?_)⟩
  · rw [h0, h1]
    exact bi_regular_rename e hop hreg
  · obtain ⟨c1, -, c0, -, -⟩ := hI.1.contents
    rw [h0, h0, h1, (bi_rename e hop _ _ k).1] at c0
    rw [h1, h1] at c1
    obtain ⟨l1, l2, l3⟩ := hI.1.len
    have hi : ∀ (i : Nat) (l : List Scalar) (x a : Scalar), l.length = k → (l ++ [x])[i]? = some a → i ≤ k := by
      intro i l x a hl ha
      have := (List.getElem?_eq_some_iff.1 ha).1
      simp at this
      omega
    have hh : ∀ i, i ≤ k → _ := hI.1.hist
    simp only [h0, h1] at hh
    refine ⟨comp_inj e c0, comp_inj e c1, l1, l2, l3, fun i a ha => ?_, fun i a ha => ?_, fun i a ha => ?_⟩
    · obtain ⟨a1, a2, a3, q1, q2, q3, r1, r2, r3⟩ := hh i (hi i _ _ _ l1 ha)
      rw [ha] at q1
      cases q1
      rw [r1.2, (bi_rename e hop _ _ i).2.2.2.2.1]
    · obtain ⟨a1, a2, a3, q1, q2, q3, r1, r2, r3⟩ := hh i (hi i _ _ _ l2 ha)
      rw [ha] at q2
      cases q2
      rw [r2.2, (bi_rename e hop _ _ i).2.2.2.2.2.1]
    · obtain ⟨a1, a2, a3, q1, q2, q3, r1, r2, r3⟩ := hh i (hi i _ _ _ l3 ha)
      rw [ha] at q3
      cases q3
      rw [r3.2, (bi_rename e hop _ _ i).2.2.2.2.2.2]

/-- GMRES on the client's system: the solution vectors, and the inner products recorded in the last cycle. -/
theorem gmres_client (hA : A.Exact) (h : ClientSystem G calls base) (m k n : Nat) (s : Cell P → V)
    (hreg : CycleRegular A.sqrt (clientMatrix G calls) m (clientSol G calls s) (clientRhs G calls s) k) :
    ∃ pl, Planner.empty.setupAll G calls = some pl ∧ Ensures (gmres A G pl base m k) n s fun c s' =>
      clientSol G calls s' = sumCycle A.sqrt (clientMatrix G calls) m (clientSol G calls s) (clientRhs G calls s) k ∧
      clientRhs G calls s' = clientRhs G calls s ∧
      ∀ i, k = i + 1 → ∀ a b, b < m → a ≤ b + 1 → s' (.fut (c.inner a b).fut) = hess A.sqrt (clientMatrix G calls)
        (clientRhs G calls s - clientMatrix G calls *ᵥ
          sumCycle A.sqrt (clientMatrix G calls) m (clientSol G calls s) (clientRhs G calls s) i) a b := by
  obtain ⟨pl, pl', hpl, S, e, hop, h0, h1⟩ := client_functions h (m + 1)
  refine ⟨pl, hpl, WP.ensures ((gmres_wp hA S k n s ?_).mono fun c n' s' hI => ?_)⟩
  · rw [h0, h1]
    exact cycle_regular_rename e hop hreg
  · obtain ⟨y, w, g1, g0, hb⟩ := hI.1.view
    have c0 := (w.vec 0 (by omega)).trans g0
    have c1 := (w.vec 1 (by omega)).trans g1
    rw [h0, h0, h1, sumCycle_rename e hop] at c0
    rw [h1, h1] at c1
    refine ⟨comp_inj e c0, comp_inj e c1, fun i hi a b hb' ha => ?_⟩
    have := ((hb i hi _ rfl).2.2 a b hb' ha).2
    rw [this, h0, h1, sumCycle_rename e hop, (transport e _ _ hop).2.1]
    exact hess_rename e hop A.sqrt (clientRhs G calls s - clientMatrix G calls *ᵥ
      sumCycle A.sqrt (clientMatrix G calls) m (clientSol G calls s) (clientRhs G calls s) i) a b

/-! ## Two descriptions of the same system -/

/-- Two clients (with their own index spaces, partitions, kernels and memory) describe the same linear system with the same initial
guess; `σ` says which unknown of the one is which unknown of the other. -/
structure SameSystem {K P K' P' V : Type} [DecidableEq P] [DecidableEq P'] [Field V] (G : Geometry P) (calls : List (Setup K P V))
    (s : Cell P → V) (G' : Geometry P') (calls' : List (Setup K' P' V)) (s' : Cell P' → V)
    (σ : clientUnknowns G calls ≃ clientUnknowns G' calls') : Prop where
  matrix : ∀ u u', clientCoef calls u.1 u'.1 = clientCoef calls' (σ u).1 (σ u').1
  sol : ∀ u, clientVec (sols calls) s u.1 = clientVec (sols calls') s' (σ u).1
  rhs : ∀ u, clientVec (rhss calls) s u.1 = clientVec (rhss calls') s' (σ u).1

section
variable {K' P' : Type} [DecidableEq P'] [DecidableEq K'] {A' : Arith V} {G' : Geometry P'} {calls' : List (Setup K' P' V)} {base' : Nat}
variable {s : Cell P → V} {s' : Cell P' → V} {σ : clientUnknowns G calls ≃ clientUnknowns G' calls'}

theorem SameSystem.functions (h : SameSystem G calls s G' calls' s' σ) :
    (∀ u u', clientMatrix G calls u u' = clientMatrix G' calls' (σ u) (σ u')) ∧ clientSol G calls s = clientSol G' calls' s' ∘ σ ∧
      clientRhs G calls s = clientRhs G' calls' s' ∘ σ :=
  ⟨h.matrix, funext h.sol, funext h.rhs⟩

/-- **C58**, CG: as long as nothing is divided by zero, after any number of steps the two clients' solution vectors have the same
contents and their recorded values are the same; `x` and `rec` are the common values. -/
theorem c58_cg (hA : A.Exact) (hA' : A'.Exact) (h : ClientSystem G calls base) (h' : ClientSystem G' calls' base')
    (hs : SameSystem G calls s G' calls' s' σ) (k n n' : Nat)
    (hreg : CGRegular (clientMatrix G' calls') (clientSol G' calls' s') (clientRhs G' calls' s') k) :
    ∃ pl pl', Planner.empty.setupAll G calls = some pl ∧ Planner.empty.setupAll G' calls' = some pl' ∧
      ∃ (x : clientUnknowns G calls → V) (rec : Nat → V),
        (Ensures (cg A G pl base k) n s fun c t => (∀ u, clientVec (sols calls) t u.1 = x u) ∧
          c.history.length = k + 1 ∧ ∀ (i : Nat) a, c.history[i]? = some a → t (.fut a.fut) = rec i) ∧
        Ensures (cg A' G' pl' base' k) n' s' fun c t => (∀ u, clientVec (sols calls') t (σ u).1 = x u) ∧
          c.history.length = k + 1 ∧ ∀ (i : Nat) a, c.history[i]? = some a → t (.fut a.fut) = rec i := by
  obtain ⟨e1, e2, e3⟩ := hs.functions
  obtain ⟨pl', hpl', E'⟩ := cg_client hA' h' k n' s' hreg
  have hreg' := cg_regular_rename σ e1 hreg
  rw [← e2, ← e3] at hreg'
  obtain ⟨pl, hpl, E⟩ := cg_client hA h k n s hreg'
  refine ⟨pl, pl', hpl, hpl', _, _, ensures_weaken E fun c t ⟨q1, _, q2, q3⟩ => ⟨fun u => congrFun q1 u, q2, q3⟩,
    ensures_weaken E' fun c t ⟨q1, _, q2, q3⟩ => ⟨fun u => ?_, q2, fun i a ha => ?_⟩⟩
  · rw [e2, e3, (cg_rename σ e1 _ _ k).1]
    exact congrFun q1 (σ u)
  · rw [q3 i a ha, e2, e3, (cg_rename σ e1 _ _ i).2.1, (transport σ _ _ e1).1]

/-- **C58**, BiCGStab. -/
theorem c58_bicgstab (hA : A.Exact) (hA' : A'.Exact) (h : ClientSystem G calls base) (h' : ClientSystem G' calls' base')
    (hs : SameSystem G calls s G' calls' s' σ) (k n n' : Nat)
    (hreg : BiRegular (clientMatrix G' calls') (clientSol G' calls' s') (clientRhs G' calls' s') k) :
    ∃ pl pl', Planner.empty.setupAll G calls = some pl ∧ Planner.empty.setupAll G' calls' = some pl' ∧
      ∃ (x : clientUnknowns G calls → V) (ρ α ω : Nat → V),
        (Ensures (biCGStab A G pl base k) n s fun c t => (∀ u, clientVec (sols calls) t u.1 = x u) ∧
          (∀ (i : Nat) a, (c.rhos ++ [c.rho])[i]? = some a → t (.fut a.fut) = ρ i) ∧
          (∀ (i : Nat) a, (c.alphas ++ [c.alpha])[i]? = some a → t (.fut a.fut) = α i) ∧
          ∀ (i : Nat) a, (c.omegas ++ [c.omega])[i]? = some a → t (.fut a.fut) = ω i) ∧
        Ensures (biCGStab A' G' pl' base' k) n' s' fun c t => (∀ u, clientVec (sols calls') t (σ u).1 = x u) ∧
          (∀ (i : Nat) a, (c.rhos ++ [c.rho])[i]? = some a → t (.fut a.fut) = ρ i) ∧
          (∀ (i : Nat) a, (c.alphas ++ [c.alpha])[i]? = some a → t (.fut a.fut) = α i) ∧
          ∀ (i : Nat) a, (c.omegas ++ [c.omega])[i]? = some a → t (.fut a.fut) = ω i := by
  obtain ⟨e1, e2, e3⟩ := hs.functions
  obtain ⟨pl', hpl', E'⟩ := bi_client hA' h' k n' s' hreg
  have hreg' := bi_regular_rename σ e1 hreg
  rw [← e2, ← e3] at hreg'
  obtain ⟨pl, hpl, E⟩ := bi_client hA h k n s hreg'
  refine ⟨pl, pl', hpl, hpl', _, _, _, _,
    ensures_weaken E fun c t ⟨q1, _, _, _, _, q2, q3, q4⟩ => ⟨fun u => congrFun q1 u, q2, q3, q4⟩,
    ensures_weaken E' fun c t ⟨q1, _, _, _, _, q2, q3, q4⟩ => ⟨fun u => ?_, fun i a ha => ?_, fun i a ha => ?_, fun i a ha => ?_⟩⟩
  · rw [e2, e3, (bi_rename σ e1 _ _ k).1]
    exact congrFun q1 (σ u)
  · rw [q2 i a ha, e2, e3, (bi_rename σ e1 _ _ i).2.2.2.2.1]
  · rw [q3 i a ha, e2, e3, (bi_rename σ e1 _ _ i).2.2.2.2.2.1]
  · rw [q4 i a ha, e2, e3, (bi_rename σ e1 _ _ i).2.2.2.2.2.2]

/-- **C58**, GMRES with the same restart length and the same square root. -/
theorem c58_gmres (hA : A.Exact) (hA' : A'.Exact) (hsqrt : A.sqrt = A'.sqrt) (h : ClientSystem G calls base)
    (h' : ClientSystem G' calls' base') (hs : SameSystem G calls s G' calls' s' σ) (m k n n' : Nat)
    (hreg : CycleRegular A'.sqrt (clientMatrix G' calls') m (clientSol G' calls' s') (clientRhs G' calls' s') k) :
    ∃ pl pl', Planner.empty.setupAll G calls = some pl ∧ Planner.empty.setupAll G' calls' = some pl' ∧
      ∃ (x : clientUnknowns G calls → V) (ip : Nat → Nat → V),
        (Ensures (gmres A G pl base m k) n s fun c t => (∀ u, clientVec (sols calls) t u.1 = x u) ∧
          (0 < k → ∀ a b, b < m → a ≤ b + 1 → t (.fut (c.inner a b).fut) = ip a b)) ∧
        Ensures (gmres A' G' pl' base' m k) n' s' fun c t => (∀ u, clientVec (sols calls') t (σ u).1 = x u) ∧
          (0 < k → ∀ a b, b < m → a ≤ b + 1 → t (.fut (c.inner a b).fut) = ip a b) := by
  obtain ⟨e1, e2, e3⟩ := hs.functions
  obtain ⟨pl', hpl', E'⟩ := gmres_client hA' h' m k n' s' hreg
  have hreg' := cycle_regular_rename σ e1 hreg
  rw [← e2, ← e3, ← hsqrt] at hreg'
  obtain ⟨pl, hpl, E⟩ := gmres_client hA h m k n s hreg'
  refine ⟨pl, pl', hpl, hpl', _, _,
    ensures_weaken E fun c t ⟨q1, _, q2⟩ => ⟨fun u => congrFun q1 u, fun hk => q2 (k - 1) (by omega)⟩,
    ensures_weaken E' fun c t ⟨q1, _, q2⟩ => ⟨fun u => ?_, fun hk a b hb ha => ?_⟩⟩
  · rw [e2, e3, hsqrt, sumCycle_rename σ e1]
    exact congrFun q1 (σ u)
  · rw [q2 (k - 1) (by omega) a b hb ha, e2, e3, hsqrt, sumCycle_rename σ e1, (transport σ _ _ e1).2.1]
    exact (hess_rename σ e1 A'.sqrt (clientRhs G' calls' s' - clientMatrix G' calls' *ᵥ
      sumCycle A'.sqrt (clientMatrix G' calls') m (clientSol G' calls' s') (clientRhs G' calls' s') (k - 1)) a b).symm

end
end Verif.Solver
