import Verif.Solver.Independence

/-! # C34, C36, C37, C38, C46 in terms of the client's calls

The client sees its own solution and right-hand-side vectors and the recorded scalars, not the planner's workspace. -/
set_option linter.dupNamespace false
set_option linter.unusedSectionVars false
namespace Verif.Solver
open Verif.Runtime Verif.Vector Verif.Matrix Verif.Planner Verif.Textbook
open scoped _root_.Matrix
variable {K P V : Type} [DecidableEq P] [DecidableEq K] [Field V] {A : Arith V}
variable {G : Geometry P} {calls : List (Setup K P V)} {base : Nat}

/-- The residual of the client's system in memory `s'`, for the right-hand side in memory `s`. -/
def clientResidual (G : Geometry P) (calls : List (Setup K P V)) (s s' : Cell P → V) : clientUnknowns G calls → V :=
  clientRhs G calls s - clientMatrix G calls *ᵥ clientSol G calls s'

theorem clientSol_zero {s : Cell P → V} (hx0 : ∀ v ∈ sols calls, ∀ p ∈ G.points v.space, s (.elem v.data p) = 0) :
    clientSol G calls s = 0 := funext fun u => clientVec_zero hx0 u

/-- **C34** in terms of the calls: if the solution vectors are zero and `k` steps of CG on the client's system divide by nothing that
is zero, then the solver records `k + 1` values, and the `i`-th one is the squared norm of `b - A x`, where `x` is what a run of `i`
steps leaves in the client's solution vectors. -/
theorem c34_client (hA : A.Exact) (h : ClientSystem G calls base) (k n : Nat) (s : Cell P → V)
    (hx0 : ∀ v ∈ sols calls, ∀ p ∈ G.points v.space, s (.elem v.data p) = 0)
    (hreg : CGRegular (clientMatrix G calls) 0 (clientRhs G calls s) k) :
    ∃ pl, Planner.empty.setupAll G calls = some pl ∧ ∃ norms : Nat → V,
      (∀ i, i ≤ k → Ensures (cg A G pl base i) n s fun _ s' =>
        clientResidual G calls s s' ⬝ᵥ clientResidual G calls s s' = norms i ∧ clientRhs G calls s' = clientRhs G calls s) ∧
      Ensures (cg A G pl base k) n s fun c s' => c.history.length = k + 1 ∧
        ∀ (i : Nat) a, c.history[i]? = some a → s' (.fut a.fut) = norms i := by
  have hz := clientSol_zero hx0
  have hres := fun i => cg_residual (clientMatrix G calls) 0 (clientRhs G calls s) i
  simp only [sub_zero] at hres
  rw [← hz] at hreg
  obtain ⟨pl, hpl, hk⟩ := cg_client hA h k n s hreg
  refine ⟨pl, hpl, fun i => (Textbook.cg (clientMatrix G calls) 0 (clientRhs G calls s) i).r ⬝ᵥ
    (Textbook.cg (clientMatrix G calls) 0 (clientRhs G calls s) i).r, fun i hi => ?_, ?_⟩
  · obtain ⟨pl2, hpl2, hi⟩ := cg_client hA h i n s (fun j hj => hreg j (by omega))
    rw [hpl] at hpl2
    cases hpl2
    refine ensures_weaken hi fun c s' hc => ⟨?_, hc.2.1⟩
    unfold clientResidual
    rw [hc.1, hz]
    beta_reduce
    rw [hres]
  · refine ensures_weaken hk fun c s' hc => ⟨hc.2.2.1, fun i a ha => ?_⟩
    rw [hc.2.2.2 i a ha, hz]

/-- **C36** in terms of the calls: if the solution vectors are zero and `k + 1` steps divide by nothing that is zero, the last step
moves the client's solution from `x` to `x + α p + ω m`, where `α` and `ω` are the recorded coefficients, `m` is the true residual of
`x + α p`, orthogonal to the right-hand side (the shadow residual), and `ω` is the best coefficient: no other multiple of `m` gives a
smaller residual. -/
theorem c36_client [LinearOrder V] [IsStrictOrderedRing V] (hA : A.Exact) (h : ClientSystem G calls base) (k n : Nat) (s : Cell P → V)
    (hx0 : ∀ v ∈ sols calls, ∀ p ∈ G.points v.space, s (.elem v.data p) = 0)
    (hreg : BiRegular (clientMatrix G calls) 0 (clientRhs G calls s) (k + 1)) :
    ∃ pl, Planner.empty.setupAll G calls = some pl ∧ ∃ x p m : clientUnknowns G calls → V,
      (Ensures (biCGStab A G pl base k) n s fun _ s' => clientSol G calls s' = x) ∧
      Ensures (biCGStab A G pl base (k + 1)) n s fun c s' => ∃ α ω : V,
        s' (.fut c.alpha.fut) = α ∧ s' (.fut c.omega.fut) = ω ∧
        clientSol G calls s' = x + α • p + ω • m ∧
        m = clientRhs G calls s - clientMatrix G calls *ᵥ (x + α • p) ∧
        clientRhs G calls s ⬝ᵥ m = 0 ∧
        (∀ t : V, clientResidual G calls s s' ⬝ᵥ clientResidual G calls s s' ≤
          (clientRhs G calls s - clientMatrix G calls *ᵥ (x + α • p + t • m)) ⬝ᵥ
            (clientRhs G calls s - clientMatrix G calls *ᵥ (x + α • p + t • m))) ∧
        clientRhs G calls s' = clientRhs G calls s := by
  have hz := clientSol_zero hx0
  obtain ⟨g1, g2, g3, g4⟩ := hreg k (by omega)
  rw [← hz] at hreg
  obtain ⟨pl, hpl, hk⟩ := bi_client hA h (k + 1) n s hreg
  obtain ⟨pl2, hpl2, hk0⟩ := bi_client hA h k n s (fun j hj => hreg j (by omega))
  rw [hpl] at hpl2
  cases hpl2
  rw [hz] at hk hk0
  have hres := bi_residual (clientMatrix G calls) 0 (clientRhs G calls s) k
  rw [sub_zero] at hres
  have hstep : bi (clientMatrix G calls) 0 (clientRhs G calls s) (k + 1) =
    biStep (clientMatrix G calls) (clientRhs G calls s) (bi (clientMatrix G calls) 0 (clientRhs G calls s) k) := rfl
  rw [hstep] at hk
  generalize hst : bi (clientMatrix G calls) 0 (clientRhs G calls s) k = st at hk hk0 g1 g2 g3 g4 hres
  have hm : st.mid (clientMatrix G calls) (clientRhs G calls s) = clientRhs G calls s - clientMatrix G calls *ᵥ
      (st.x + st.alpha (clientMatrix G calls) (clientRhs G calls s) • st.dir (clientRhs G calls s)) := by
    unfold BiState.mid
    rw [hres, _root_.Matrix.mulVec_add, _root_.Matrix.mulVec_smul]
    abel
  refine ⟨pl, hpl, st.x, st.dir (clientRhs G calls s), st.mid (clientMatrix G calls) (clientRhs G calls s),
    ensures_weaken hk0 fun c s' hc => hc.1, ensures_weaken hk fun c s' hc => ?_⟩
  obtain ⟨c0, c1, l1, l2, l3, q1, q2, q3⟩ := hc
  have ha : s' (.fut c.alpha.fut) = st.alpha (clientMatrix G calls) (clientRhs G calls s) := by
    rw [q2 (k + 1) c.alpha (by rw [List.getElem?_append_right (by omega), l2]; simp), hstep, hst]
    rfl
  have ho : s' (.fut c.omega.fut) = st.omega (clientMatrix G calls) (clientRhs G calls s) := by
    rw [q3 (k + 1) c.omega (by rw [List.getElem?_append_right (by omega), l3]; simp), hstep, hst]
    rfl
  have hline : ∀ t : V, clientRhs G calls s - clientMatrix G calls *ᵥ (st.x + st.alpha (clientMatrix G calls) (clientRhs G calls s) •
      st.dir (clientRhs G calls s) + t • st.mid (clientMatrix G calls) (clientRhs G calls s)) =
      st.mid (clientMatrix G calls) (clientRhs G calls s) -
        t • (clientMatrix G calls *ᵥ st.mid (clientMatrix G calls) (clientRhs G calls s)) := by
    intro t
    rw [_root_.Matrix.mulVec_add, _root_.Matrix.mulVec_smul, ← sub_sub, ← hm]
  refine ⟨_, _, ha, ho, c0, hm, bi_mid_orth _ _ st g3, fun t => ?_, c1⟩
  unfold clientResidual
  rw [c0]
  have e : (biStep (clientMatrix G calls) (clientRhs G calls s) st).x = st.x + st.alpha (clientMatrix G calls) (clientRhs G calls s) •
      st.dir (clientRhs G calls s) + st.omega (clientMatrix G calls) (clientRhs G calls s) •
        st.mid (clientMatrix G calls) (clientRhs G calls s) := rfl
  rw [e, hline, hline]
  exact line_min _ _ g4 t

/-- What Arnoldi's process computes, in one statement. -/
theorem arnoldi_cycle {ι : Type} [Fintype ι] {sqrt : V → V} {M : _root_.Matrix ι ι V} {r : ι → V} {m : Nat} (hm : 0 < m)
    (hreg : ArnoldiRegular sqrt M r m) (hroots : RootsExact sqrt M r m) :
    ∃ v : Nat → ι → V, (∀ j, j < m → v j = arnoldi sqrt M r j) ∧
      (∀ i j, i < m → j < m → v i ⬝ᵥ v j = if i = j then 1 else 0) ∧
      (∀ i, i < m → v i ⬝ᵥ v m = 0) ∧
      (∀ j, j + 1 < m → M *ᵥ v j = ∑ i ∈ Finset.range (j + 2), hess sqrt M r i j • v i) ∧
      M *ᵥ v (m - 1) = ∑ i ∈ Finset.range m, hess sqrt M r i (m - 1) • v i + v m ∧
      hess sqrt M r m (m - 1) = sqrt (v m ⬝ᵥ v m) ∧
      r = sqrt (r ⬝ᵥ r) • v 0 ∧
      ∀ j, j ≤ m → Submodule.span V {w | ∃ i, i < j ∧ w = v i} = krylov M r j := by
  have horth := arnoldi_orthonormal hroots hreg
  refine ⟨fun j => if j < m then arnoldi sqrt M r j else arnoldiRaw sqrt M r m, ?_, ?_, ?_, ?_, ?_, ?_, ?_, ?_⟩
  · intro j hj; exact if_pos hj
  · intro i j hi hj
    simp only [if_pos hi, if_pos hj]
    rcases Nat.lt_trichotomy i j with e | e | e
    · rw [if_neg (by omega), (horth j hj).2 i e]
    · subst e; rw [if_pos rfl, (horth i hi).1]
    · rw [if_neg (by omega), dotProduct_comm, (horth i hi).2 j e]
  · intro i hi
    simp only [if_pos hi, if_neg (lt_irrefl m)]
    exact arnoldi_last_orth hroots hreg hm i hi
  · intro j hj
    simp only [if_pos (show j < m by omega)]
    rw [arnoldi_relation _ _ _ _ (hreg.2 j hj)]
    apply Finset.sum_congr rfl
    intro i hi
    have := Finset.mem_range.1 hi
    simp only [if_pos (show i < m by omega)]
  · simp only [if_pos (show m - 1 < m by omega), if_neg (lt_irrefl m)]
    rw [arnoldi_relation_raw, show m - 1 + 1 = m by omega]
    congr 1
    apply Finset.sum_congr rfl
    intro i hi
    have := Finset.mem_range.1 hi
    simp only [if_pos (show i < m by omega)]
  · simp only [if_neg (lt_irrefl m)]
    unfold hess
    rw [if_neg (by omega), show m - 1 + 1 = m by omega]
  · simp only [if_pos hm]
    exact raw_eq sqrt M r 0 hreg.1
  · intro j hj
    rw [← basisSpan_eq hreg j hj]
    unfold basisSpan
    congr 1
    ext w
    constructor
    · rintro ⟨i, hi, rfl⟩; exact ⟨i, hi, by simp only [if_pos (show i < m by omega)]⟩
    · rintro ⟨i, hi, rfl⟩; exact ⟨i, hi, by simp only [if_pos (show i < m by omega)]⟩

/-- **C37** (and what C38 is about) in terms of the calls: after `k + 1` cycles of restart length `m ≥ 1` in which no vector that is
scaled vanishes, with exact square roots: there are vectors `v 0, …, v m`, the first `m` orthonormal and the last orthogonal to them,
that satisfy the Arnoldi relation for the client's matrix with the recorded inner products, start with the scaled residual `r` of the
solution `x` before the cycle, and span its Krylov spaces; the cycle moved the client's solution by their plain sum, hence by the
square root of `m` in length, whatever the residual was. -/
theorem c37_client (hA : A.Exact) {m : Nat} (hm : 0 < m) (h : ClientSystem G calls base) (k n : Nat) (s : Cell P → V)
    (hreg : CycleRegular A.sqrt (clientMatrix G calls) m (clientSol G calls s) (clientRhs G calls s) (k + 1))
    (hroots : RootsExact A.sqrt (clientMatrix G calls) (clientRhs G calls s - clientMatrix G calls *ᵥ
      sumCycle A.sqrt (clientMatrix G calls) m (clientSol G calls s) (clientRhs G calls s) k) m) :
    ∃ pl, Planner.empty.setupAll G calls = some pl ∧ ∃ x r : clientUnknowns G calls → V,
      (Ensures (gmres A G pl base m k) n s fun _ s' => clientSol G calls s' = x ∧ clientResidual G calls s s' = r) ∧
      Ensures (gmres A G pl base m (k + 1)) n s fun c s' =>
        ∃ (v : Nat → clientUnknowns G calls → V) (h : Nat → Nat → V),
          (∀ i j, j < m → i ≤ j + 1 → h i j = s' (.fut (c.inner i j).fut)) ∧
          (∀ i j, i < m → j < m → v i ⬝ᵥ v j = if i = j then 1 else 0) ∧
          (∀ i, i < m → v i ⬝ᵥ v m = 0) ∧
          (∀ j, j + 1 < m → clientMatrix G calls *ᵥ v j = ∑ i ∈ Finset.range (j + 2), h i j • v i) ∧
          clientMatrix G calls *ᵥ v (m - 1) = ∑ i ∈ Finset.range m, h i (m - 1) • v i + v m ∧
          h m (m - 1) = A.sqrt (v m ⬝ᵥ v m) ∧
          r = A.sqrt (r ⬝ᵥ r) • v 0 ∧
          (∀ j, j ≤ m → Submodule.span V {w | ∃ i, i < j ∧ w = v i} = krylov (clientMatrix G calls) r j) ∧
          clientSol G calls s' = x + ∑ j ∈ Finset.range m, v j ∧
          (clientSol G calls s' - x) ⬝ᵥ (clientSol G calls s' - x) = m ∧
          clientRhs G calls s' = clientRhs G calls s := by
  obtain ⟨pl, hpl, hk⟩ := gmres_client hA h m (k + 1) n s hreg
  obtain ⟨pl2, hpl2, hk0⟩ := gmres_client hA h m k n s (fun j hj => hreg j (by omega))
  rw [hpl] at hpl2
  cases hpl2
  have hreg' := hreg k (by omega)
  obtain ⟨v, v0, v1, v2, v3, v4, v5, v6, v7⟩ := arnoldi_cycle hm hreg' hroots
  refine ⟨pl, hpl, _, _, ensures_weaken hk0 fun c s' hc => ⟨hc.1, by unfold clientResidual; rw [hc.1]⟩,
    ensures_weaken hk fun c s' hc => ?_⟩
  obtain ⟨c0, c1, c2⟩ := hc
  refine ⟨v, hess A.sqrt (clientMatrix G calls) (clientRhs G calls s - clientMatrix G calls *ᵥ
      sumCycle A.sqrt (clientMatrix G calls) m (clientSol G calls s) (clientRhs G calls s) k),
    fun i j hj hi => (c2 k rfl i j hj hi).symm, v1, v2, v3, v4, v5, v6, v7, ?_, ?_, c1⟩
  · rw [c0]
    show sumCycle _ _ _ _ _ k + _ = _
    congr 1
    rw [Finset.sum_range, ← List.sum_ofFn]
    apply congrArg List.sum
    apply List.ext_getElem
    · simp
    · intro i hi1 hi2
      have hi : i < m := by simpa using hi1
      simp [v0 i hi]
  · rw [c0]
    exact sumCycle_distance hroots hreg'

/-- **C46** in terms of the calls: if BiCGStab, started with zero solution vectors on a system with `m + 1` unknowns, makes `m` steps
without dividing by zero, leaving `x`, and the first half of the next step divides by nothing that is zero either, then that half step
finds the exact solution of the client's system: `A (x + α p) = b` for the direction `p` and coefficient `α` it computes. -/
theorem c46_client (hA : A.Exact) (h : ClientSystem G calls base) (n : Nat) (s : Cell P → V) (m : Nat)
    (hm : m + 1 = (clientUnknowns G calls).card)
    (hx0 : ∀ v ∈ sols calls, ∀ p ∈ G.points v.space, s (.elem v.data p) = 0)
    (hreg : BiRegular (clientMatrix G calls) 0 (clientRhs G calls s) m) (c : BiState (clientUnknowns G calls) V)
    (hc : c = bi (clientMatrix G calls) 0 (clientRhs G calls s) m) (h1 : c.ρ ≠ 0) (h2 : c.ω ≠ 0)
    (h3 : c.denom (clientMatrix G calls) (clientRhs G calls s) ≠ 0) (h4 : c.r ⬝ᵥ clientRhs G calls s ≠ 0) :
    ∃ pl, Planner.empty.setupAll G calls = some pl ∧ ∃ (x p : clientUnknowns G calls → V) (α : V),
      (Ensures (biCGStab A G pl base m) n s fun _ s' => clientSol G calls s' = x) ∧
      p = c.dir (clientRhs G calls s) ∧ α = c.alpha (clientMatrix G calls) (clientRhs G calls s) ∧
      clientMatrix G calls *ᵥ (x + α • p) = clientRhs G calls s := by
  have hz := clientSol_zero hx0
  have hreg0 := hreg
  rw [← hz] at hreg
  obtain ⟨pl, hpl, hk⟩ := bi_client hA h m n s hreg
  rw [hz] at hk
  subst hc
  refine ⟨pl, hpl, _, _, _, ensures_weaken hk fun c s' hc => hc.1, rfl, rfl, ?_⟩
  have hhalf := bi_half (A := clientMatrix G calls) (x0 := 0) (b := clientRhs G calls s) m
    (by rw [Fintype.card_coe]; exact hm) hreg0 ⟨h1, h2, h3⟩ h4
  have hres := bi_residual (clientMatrix G calls) 0 (clientRhs G calls s) m
  rw [sub_zero] at hres
  rw [_root_.Matrix.mulVec_add, _root_.Matrix.mulVec_smul]
  unfold BiState.mid at hhalf
  rw [hres, sub_sub] at hhalf
  exact (sub_eq_zero.1 hhalf).symm

/-- **C46**, the other half: on the client's system BiCGStab cannot make more steps than there are unknowns without dividing by zero,
whatever the solution vectors contain at the start. -/
theorem c46_client_breaks_down (G : Geometry P) (calls : List (Setup K P V)) (s : Cell P → V) :
    ¬ BiRegular (clientMatrix G calls) (clientSol G calls s) (clientRhs G calls s) ((clientUnknowns G calls).card + 1) :=
  bi_breaks_down _ (by rw [Fintype.card_coe])

end Verif.Solver
