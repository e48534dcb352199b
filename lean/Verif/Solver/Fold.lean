import Verif.Solver.Independence

/-! # C68: solving a system made of copies

A system whose unknowns fall into classes of equal size, such that the equations of two unknowns of a class are the same once the
unknowns of each class are identified, is solved by CG and BiCGStab exactly as the smaller system with one unknown per class. -/
set_option linter.dupNamespace false
set_option linter.unusedSectionVars false
namespace Verif.Textbook
open _root_.Matrix
variable {ι κ V : Type} [Fintype ι] [Fintype κ] [Field V]

section
variable (π : ι → κ) {c : V} {M : Matrix ι ι V} {N : Matrix κ κ V} (hsum : ∀ f : κ → V, ∑ i, f (π i) = c * ∑ j, f j) (hc : c ≠ 0)
  (hmv : ∀ x : κ → V, M *ᵥ (x ∘ π) = (N *ᵥ x) ∘ π)

include hsum in
theorem dot_fold (v w : κ → V) : (v ∘ π) ⬝ᵥ (w ∘ π) = c * (v ⬝ᵥ w) := hsum fun j => v j * w j

include hsum hc hmv

theorem cg_fold (x0 b : κ → V) (k : Nat) : (cg M (x0 ∘ π) (b ∘ π) k).x = (cg N x0 b k).x ∘ π ∧
    (cg M (x0 ∘ π) (b ∘ π) k).r = (cg N x0 b k).r ∘ π ∧ (cg M (x0 ∘ π) (b ∘ π) k).p = (cg N x0 b k).p ∘ π := by
  have hdot := dot_fold π hsum
  induction k with
  | zero => exact ⟨rfl, rfl, rfl⟩
  | succ k ih =>
    obtain ⟨h1, h2, h3⟩ := ih
    have er : (cg M (x0 ∘ π) (b ∘ π) (k + 1)).r = (cg N x0 b (k + 1)).r ∘ π := by
      show (cg M (x0 ∘ π) (b ∘ π) k).r - _ • _ = _
      rw [h2, h3, hmv, hdot, hdot, mul_div_mul_left _ _ hc]
      rfl
    refine ⟨?_, er, ?_⟩
    · show (cg M (x0 ∘ π) (b ∘ π) k).x + _ • (cg M (x0 ∘ π) (b ∘ π) k).p = _
      rw [h1, h2, h3, hmv, hdot, hdot, mul_div_mul_left _ _ hc]
      rfl
    · show (cg M (x0 ∘ π) (b ∘ π) (k + 1)).r + (((cg M (x0 ∘ π) (b ∘ π) (k + 1)).r ⬝ᵥ (cg M (x0 ∘ π) (b ∘ π) (k + 1)).r) / _) • _ = _
      rw [er, h2, h3, hdot, hdot, mul_div_mul_left _ _ hc]
      rfl

theorem cg_regular_fold {x0 b : κ → V} {k : Nat} (hr : CGRegular N x0 b k) : CGRegular M (x0 ∘ π) (b ∘ π) k := by
  have hdot := dot_fold π hsum
  intro i hi
  obtain ⟨-, h2, h3⟩ := cg_fold π hsum hc hmv x0 b i
  rw [h2, h3, hmv, hdot, hdot]
  exact ⟨mul_ne_zero hc (hr i hi).1, mul_ne_zero hc (hr i hi).2⟩

/-- The states of BiCGStab correspond: only the recorded `ρ` is multiplied by `c`, and not at the start. -/
structure BiFold (π : ι → κ) (c : V) (s : BiState ι V) (t : BiState κ V) : Prop where
  x : s.x = t.x ∘ π
  r : s.r = t.r ∘ π
  p : s.p = t.p ∘ π
  v : s.v = t.v ∘ π
  α : s.α = t.α
  ω : s.ω = t.ω
  ρ : s.ρ = c * t.ρ ∨ t.α = 0 ∧ s.ρ = t.ρ

theorem bi_fold_step (rt : κ → V) {s : BiState ι V} {t : BiState κ V} (h : BiFold π c s t) : s.dir (rt ∘ π) = t.dir rt ∘ π ∧
      s.denom M (rt ∘ π) = c * t.denom N rt ∧ s.alpha M (rt ∘ π) = t.alpha N rt ∧ s.mid M (rt ∘ π) = t.mid N rt ∘ π ∧
      s.omega M (rt ∘ π) = t.omega N rt := by
  have hdot := dot_fold π hsum
  have e1 : s.dir (rt ∘ π) = t.dir rt ∘ π := by
    unfold BiState.dir
    rw [h.r, h.p, h.v, h.α, h.ω, hdot]
    rcases h.ρ with hρ | ⟨hα, -⟩
    · rw [hρ, mul_div_mul_left _ _ hc]
      rfl
    · rw [hα, zero_div, mul_zero, mul_zero, zero_smul, zero_smul, add_zero, add_zero]
  have e2 : s.denom M (rt ∘ π) = c * t.denom N rt := by
    unfold BiState.denom
    rw [e1, hmv, hdot]
  have e3 : s.alpha M (rt ∘ π) = t.alpha N rt := by
    unfold BiState.alpha
    rw [e2, h.r, hdot, mul_div_mul_left _ _ hc]
  have e4 : s.mid M (rt ∘ π) = t.mid N rt ∘ π := by
    unfold BiState.mid
    rw [e3, h.r, e1, hmv]
    rfl
  refine ⟨e1, e2, e3, e4, ?_⟩
  unfold BiState.omega
  rw [e4, hmv, hdot, hdot, mul_div_mul_left _ _ hc]

theorem bi_fold (x0 b : κ → V) (k : Nat) : BiFold π c (bi M (x0 ∘ π) (b ∘ π) k) (bi N x0 b k) := by
  have hdot := dot_fold π hsum
  induction k with
  | zero => exact ⟨rfl, rfl, rfl, rfl, rfl, rfl, Or.inr ⟨rfl, rfl⟩⟩
  | succ k ih =>
    obtain ⟨g1, g2, g3, g4, g5⟩ := bi_fold_step π hsum hc hmv b ih
    refine ⟨?_, ?_, g1, ?_, g3, g5, Or.inl ?_⟩
    · show (bi M (x0 ∘ π) (b ∘ π) k).x + _ • _ + _ • _ = _
      rw [ih.x, g1, g3, g4, g5]
      rfl
    · show BiState.mid M (b ∘ π) (bi M (x0 ∘ π) (b ∘ π) k) - _ • (M *ᵥ BiState.mid M (b ∘ π) (bi M (x0 ∘ π) (b ∘ π) k)) = _
      rw [g4, g5, hmv]
      rfl
    · show M *ᵥ BiState.dir (b ∘ π) (bi M (x0 ∘ π) (b ∘ π) k) = _
      rw [g1, hmv]
      rfl
    · show (bi M (x0 ∘ π) (b ∘ π) k).r ⬝ᵥ (b ∘ π) = _
      rw [ih.r, hdot]
      rfl

/-- The first recorded `ρ` is 1, the others are multiplied by `c`. -/
theorem bi_fold_rho (x0 b : κ → V) (k : Nat) : (bi M (x0 ∘ π) (b ∘ π) (k + 1)).ρ = c * (bi N x0 b (k + 1)).ρ := by
  show (bi M (x0 ∘ π) (b ∘ π) k).r ⬝ᵥ (b ∘ π) = _
  rw [(bi_fold π hsum hc hmv x0 b k).r, dot_fold π hsum]
  rfl

theorem bi_regular_fold {x0 b : κ → V} {k : Nat} (hr : BiRegular N x0 b k) : BiRegular M (x0 ∘ π) (b ∘ π) k := by
  have hdot := dot_fold π hsum
  intro i hi
  have F := bi_fold π hsum hc hmv x0 b i
  obtain ⟨g1, g2, g3, g4, g5⟩ := bi_fold_step π hsum hc hmv b F
  obtain ⟨r1, r2, r3, r4⟩ := hr i hi
  refine ⟨?_, by rw [F.ω]; exact r2, by rw [g2]; exact mul_ne_zero hc r3, by rw [g4, hmv, hdot]; exact mul_ne_zero hc r4⟩
  rcases F.ρ with hρ | ⟨-, hρ⟩
  · rw [hρ]; exact mul_ne_zero hc r1
  · rw [hρ]; exact r1

omit hmv in
/-- Gram-Schmidt on vectors spread over `c` copies and scaled by `1 / d`, with `d² = c`. -/
theorem mgs_fold {d : V} (hd : d * d = c) (v : Nat → κ → V) (w : κ → V) (k : Nat) :
    mgs (fun i => (1 / d) • (v i ∘ π)) ((1 / d) • (w ∘ π)) k = (1 / d) • (mgs v w k ∘ π) := by
  have hdot := dot_fold π hsum
  have hd0 : d ≠ 0 := by rintro rfl; exact hc (by rw [← hd, zero_mul])
  induction k with
  | zero => rfl
  | succ k ih =>
    show mgs (fun i => (1 / d) • (v i ∘ π)) ((1 / d) • (w ∘ π)) k -
      (((1 / d) • (v k ∘ π)) ⬝ᵥ mgs (fun i => (1 / d) • (v i ∘ π)) ((1 / d) • (w ∘ π)) k) • ((1 / d) • (v k ∘ π)) = _
    rw [ih, smul_dotProduct, dotProduct_smul, hdot]
    have : (1 / d) • (1 / d) • (c * (v k ⬝ᵥ mgs v w k)) = v k ⬝ᵥ mgs v w k := by
      rw [← hd, smul_eq_mul, smul_eq_mul]
      field_simp
    rw [this]
    show _ = (1 / d) • ((mgs v w k - (v k ⬝ᵥ mgs v w k) • v k) ∘ π)
    have e : (mgs v w k - (v k ⬝ᵥ mgs v w k) • v k) ∘ π = mgs v w k ∘ π - (v k ⬝ᵥ mgs v w k) • (v k ∘ π) := rfl
    rw [e, smul_sub, smul_comm]

/-- The Arnoldi vectors of the copies are `1 / d` times the copied Arnoldi vectors. -/
theorem arnoldiUpTo_fold {d : V} (hd : d * d = c) (sqrt : V → V) (hs : ∀ y, sqrt (c * y) = d * sqrt y) (r : κ → V) (j : Nat) :
    arnoldiUpTo sqrt M (r ∘ π) j = fun i => (1 / d) • (arnoldiUpTo sqrt N r j i ∘ π) := by
  have hdot := dot_fold π hsum
  have hd0 : d ≠ 0 := by rintro rfl; exact hc (by rw [← hd, zero_mul])
  induction j with
  | zero =>
    funext i
    show (1 / sqrt ((r ∘ π) ⬝ᵥ (r ∘ π))) • (r ∘ π) = (1 / d) • (((1 / sqrt (r ⬝ᵥ r)) • r) ∘ π)
    rw [hdot, hs]
    have e : ((1 / sqrt (r ⬝ᵥ r)) • r) ∘ π = (1 / sqrt (r ⬝ᵥ r)) • (r ∘ π) := rfl
    rw [e, smul_smul, one_div_mul_one_div]
  | succ j ih =>
    funext i
    show Function.update (arnoldiUpTo sqrt M (r ∘ π) j) (j + 1)
      (normalise sqrt (mgs (arnoldiUpTo sqrt M (r ∘ π) j) (M *ᵥ arnoldiUpTo sqrt M (r ∘ π) j j) (j + 1))) i =
      (1 / d) • (Function.update (arnoldiUpTo sqrt N r j) (j + 1)
      (normalise sqrt (mgs (arnoldiUpTo sqrt N r j) (N *ᵥ arnoldiUpTo sqrt N r j j) (j + 1))) i ∘ π)
    by_cases hi : i = j + 1
    · subst hi
      rw [Function.update_self, Function.update_self, ih, mulVec_smul, hmv, mgs_fold π hsum hc hd]
      unfold normalise
      rw [smul_dotProduct, dotProduct_smul, hdot]
      have : ∀ y : V, (1 / d) • (1 / d) • (c * y) = y := by
        intro y
        rw [← hd, smul_eq_mul, smul_eq_mul]
        field_simp
      rw [this, smul_comm]
      rfl
    · rw [Function.update_of_ne hi, Function.update_of_ne hi, ih]

theorem arnoldi_fold {d : V} (hd : d * d = c) (sqrt : V → V) (hs : ∀ y, sqrt (c * y) = d * sqrt y) (r : κ → V) (j : Nat) :
    arnoldi sqrt M (r ∘ π) j = (1 / d) • (arnoldi sqrt N r j ∘ π) := by
  unfold arnoldi
  rw [arnoldiUpTo_fold π hsum hc hmv hd sqrt hs]

theorem arnoldiRaw_fold {d : V} (hd : d * d = c) (sqrt : V → V) (hs : ∀ y, sqrt (c * y) = d * sqrt y) (r : κ → V) (j : Nat) :
    arnoldiRaw sqrt M (r ∘ π) (j + 1) = (1 / d) • (arnoldiRaw sqrt N r (j + 1) ∘ π) := by
  have ha : arnoldi sqrt M (r ∘ π) = fun i => (1 / d) • (arnoldi sqrt N r i ∘ π) :=
    funext fun i => arnoldi_fold π hsum hc hmv hd sqrt hs r i
  show mgs (arnoldi sqrt M (r ∘ π)) (M *ᵥ arnoldi sqrt M (r ∘ π) j) (j + 1) = _
  rw [ha, mulVec_smul, hmv, mgs_fold π hsum hc hd]
  rfl

theorem cycle_regular_fold {d : V} (hd : d * d = c) {sqrt : V → V} (hs : ∀ y, sqrt (c * y) = d * sqrt y) {m : Nat} {x0 b : κ → V}
    (hr : CycleRegular sqrt N m x0 b 1) : CycleRegular sqrt M m (x0 ∘ π) (b ∘ π) 1 := by
  have hdot := dot_fold π hsum
  have hd0 : d ≠ 0 := by rintro rfl; exact hc (by rw [← hd, zero_mul])
  intro i hi
  obtain rfl : i = 0 := by omega
  obtain ⟨h1, h2⟩ := hr 0 hi
  have hr' : b ∘ π - M *ᵥ sumCycle sqrt M m (x0 ∘ π) (b ∘ π) 0 = (b - N *ᵥ sumCycle sqrt N m x0 b 0) ∘ π := by
    show b ∘ π - M *ᵥ (x0 ∘ π) = _
    rw [hmv]
    rfl
  rw [hr']
  refine ⟨by rw [hdot, hs]; exact mul_ne_zero hd0 h1, fun j hj => ?_⟩
  rw [arnoldiRaw_fold π hsum hc hmv hd sqrt hs, smul_dotProduct, dotProduct_smul, hdot]
  have : ∀ y : V, (1 / d) • (1 / d) • (c * y) = y := by
    intro y
    rw [← hd, smul_eq_mul, smul_eq_mul]
    field_simp
  rw [this]
  exact h2 j hj

/-- One cycle adds `1 / d` times what it adds to the single system. -/
theorem sumCycle_fold {d : V} (hd : d * d = c) (sqrt : V → V) (hs : ∀ y, sqrt (c * y) = d * sqrt y) (m : Nat) (x0 b : κ → V) :
    sumCycle sqrt M m (x0 ∘ π) (b ∘ π) 1 = (x0 + (1 / d) • (sumCycle sqrt N m x0 b 1 - x0)) ∘ π := by
  show x0 ∘ π + ((List.range m).map (arnoldi sqrt M (b ∘ π - M *ᵥ (x0 ∘ π)))).sum =
    (x0 + (1 / d) • ((x0 + ((List.range m).map (arnoldi sqrt N (b - N *ᵥ x0))).sum) - x0)) ∘ π
  have hr : b ∘ π - M *ᵥ (x0 ∘ π) = (b - N *ᵥ x0) ∘ π := by rw [hmv]; rfl
  rw [hr, add_sub_cancel_left]
  have hl : ∀ (l : List Nat) (f : Nat → κ → V) (g : Nat → ι → V), (∀ j, g j = (1 / d) • (f j ∘ π)) →
      (l.map g).sum = (1 / d) • ((l.map f).sum ∘ π) := by
    intro l f g hg
    induction l with
    | nil => simp
    | cons a l ih =>
      rw [List.map_cons, List.sum_cons, ih, List.map_cons, List.sum_cons, hg, ← smul_add]
      rfl
  rw [hl _ (arnoldi sqrt N (b - N *ᵥ x0)) _ fun j => arnoldi_fold π hsum hc hmv hd sqrt hs _ j]
  rfl

end
end Verif.Textbook

namespace Verif.Solver
open Verif.Runtime Verif.Vector Verif.Matrix Verif.Planner Verif.Textbook
open scoped _root_.Matrix
variable {K P K' P' V : Type} [DecidableEq P] [DecidableEq K] [DecidableEq P'] [DecidableEq K'] [Field V]

/-- The first client's system consists of `c` copies of the second's: every unknown `v` of the second has `c` copies, the unknowns `u`
with `π u = v`; in the equation of a copy, the coefficients of all copies of an unknown add up to the coefficient of that unknown in the
second system; right-hand sides and initial guesses are copied. -/
structure CopiesOf (c : Nat) (G : Geometry P) (calls : List (Setup K P V)) (s : Cell P → V) (G' : Geometry P')
    (calls' : List (Setup K' P' V)) (s' : Cell P' → V) (π : clientUnknowns G calls → clientUnknowns G' calls') : Prop where
  fibre : ∀ v, (Finset.univ.filter fun u => π u = v).card = c
  rows : ∀ u v, ∑ u' with π u' = v, clientCoef calls u.1 u'.1 = clientCoef calls' (π u).1 v.1
  sol : ∀ u, clientVec (sols calls) s u.1 = clientVec (sols calls') s' (π u).1
  rhs : ∀ u, clientVec (rhss calls) s u.1 = clientVec (rhss calls') s' (π u).1

variable {A A' : Arith V} {G : Geometry P} {calls : List (Setup K P V)} {base : Nat} {G' : Geometry P'} {calls' : List (Setup K' P' V)}
  {base' : Nat} {s : Cell P → V} {s' : Cell P' → V} {c : Nat} {π : clientUnknowns G calls → clientUnknowns G' calls'}

theorem CopiesOf.functions (h : CopiesOf c G calls s G' calls' s' π) :
    (∀ f : clientUnknowns G' calls' → V, ∑ u, f (π u) = (c : V) * ∑ v, f v) ∧
    (∀ x : clientUnknowns G' calls' → V, clientMatrix G calls *ᵥ (x ∘ π) = (clientMatrix G' calls' *ᵥ x) ∘ π) ∧
    clientSol G calls s = clientSol G' calls' s' ∘ π ∧ clientRhs G calls s = clientRhs G' calls' s' ∘ π := by
  refine ⟨fun f => ?_, fun x => ?_, funext h.sol, funext h.rhs⟩
  · rw [← Finset.sum_fiberwise_of_maps_to (g := π) (t := Finset.univ) (fun _ _ => Finset.mem_univ _), Finset.mul_sum]
    refine Finset.sum_congr rfl fun v _ => ?_
    rw [Finset.sum_congr rfl (g := fun _ => f v) fun u hu => by rw [(Finset.mem_filter.1 hu).2], Finset.sum_const, h.fibre v,
      nsmul_eq_mul]
  · funext u
    show ∑ u', clientCoef calls u.1 u'.1 * x (π u') = ∑ v, clientCoef calls' (π u).1 v.1 * x v
    rw [← Finset.sum_fiberwise_of_maps_to (g := π) (t := Finset.univ) (fun _ _ => Finset.mem_univ _)]
    refine Finset.sum_congr rfl fun v _ => ?_
    rw [← h.rows u v, Finset.sum_mul]
    exact Finset.sum_congr rfl fun u' hu' => by rw [(Finset.mem_filter.1 hu').2]

/-- **C68**, CG: in exact arithmetic, as long as nothing is divided by zero on the single system, every copy of an unknown has the value
this unknown has in the single system, after any number of steps and under every schedule; the recorded squared residual norms are `c`
times those of the single system. -/
theorem c68_cg [CharZero V] (hA : A.Exact) (hA' : A'.Exact) (h : ClientSystem G calls base) (h' : ClientSystem G' calls' base')
    (hc : c ≠ 0) (hs : CopiesOf c G calls s G' calls' s' π) (k n n' : Nat)
    (hreg : CGRegular (clientMatrix G' calls') (clientSol G' calls' s') (clientRhs G' calls' s') k) :
    ∃ pl pl', Planner.empty.setupAll G calls = some pl ∧ Planner.empty.setupAll G' calls' = some pl' ∧
      ∃ (x : clientUnknowns G' calls' → V) (rec : Nat → V),
        (Ensures (cg A' G' pl' base' k) n' s' fun r t => (∀ v, clientVec (sols calls') t v.1 = x v) ∧
          r.history.length = k + 1 ∧ ∀ (i : Nat) a, r.history[i]? = some a → t (.fut a.fut) = rec i) ∧
        Ensures (cg A G pl base k) n s fun r t => (∀ u, clientVec (sols calls) t u.1 = x (π u)) ∧
          r.history.length = k + 1 ∧ ∀ (i : Nat) a, r.history[i]? = some a → t (.fut a.fut) = c * rec i := by
  obtain ⟨e1, e2, e3, e4⟩ := hs.functions
  have hc' : (c : V) ≠ 0 := Nat.cast_ne_zero.2 hc
  obtain ⟨pl', hpl', E'⟩ := cg_client hA' h' k n' s' hreg
  have hreg' := cg_regular_fold π e1 hc' e2 hreg
  rw [← e3, ← e4] at hreg'
  obtain ⟨pl, hpl, E⟩ := cg_client hA h k n s hreg'
  refine ⟨pl, pl', hpl, hpl', _, _, ensures_weaken E' fun r t ⟨q1, _, q2, q3⟩ => ⟨fun v => congrFun q1 v, q2, q3⟩,
    ensures_weaken E fun r t ⟨q1, _, q2, q3⟩ => ⟨fun u => ?_, q2, fun i a ha => ?_⟩⟩
  · have := congrFun q1 u
    rw [e3, e4, (cg_fold π e1 hc' e2 _ _ k).1] at this
    exact this
  · rw [q3 i a ha, e3, e4, (cg_fold π e1 hc' e2 _ _ i).2.1, dot_fold π e1]

/-- **C68**, BiCGStab: the recorded α and ω are those of the single system, the recorded ρ (after the initial 1) `c` times. -/
theorem c68_bicgstab [CharZero V] (hA : A.Exact) (hA' : A'.Exact) (h : ClientSystem G calls base) (h' : ClientSystem G' calls' base')
    (hc : c ≠ 0) (hs : CopiesOf c G calls s G' calls' s' π) (k n n' : Nat)
    (hreg : BiRegular (clientMatrix G' calls') (clientSol G' calls' s') (clientRhs G' calls' s') k) :
    ∃ pl pl', Planner.empty.setupAll G calls = some pl ∧ Planner.empty.setupAll G' calls' = some pl' ∧
      ∃ (x : clientUnknowns G' calls' → V) (ρ α ω : Nat → V),
        (Ensures (biCGStab A' G' pl' base' k) n' s' fun r t => (∀ v, clientVec (sols calls') t v.1 = x v) ∧
          (∀ (i : Nat) a, (r.rhos ++ [r.rho])[i + 1]? = some a → t (.fut a.fut) = ρ i) ∧
          (∀ (i : Nat) a, (r.alphas ++ [r.alpha])[i]? = some a → t (.fut a.fut) = α i) ∧
          ∀ (i : Nat) a, (r.omegas ++ [r.omega])[i]? = some a → t (.fut a.fut) = ω i) ∧
        Ensures (biCGStab A G pl base k) n s fun r t => (∀ u, clientVec (sols calls) t u.1 = x (π u)) ∧
          (∀ (i : Nat) a, (r.rhos ++ [r.rho])[i + 1]? = some a → t (.fut a.fut) = c * ρ i) ∧
          (∀ (i : Nat) a, (r.alphas ++ [r.alpha])[i]? = some a → t (.fut a.fut) = α i) ∧
          ∀ (i : Nat) a, (r.omegas ++ [r.omega])[i]? = some a → t (.fut a.fut) = ω i := by
  obtain ⟨e1, e2, e3, e4⟩ := hs.functions
  have hc' : (c : V) ≠ 0 := Nat.cast_ne_zero.2 hc
  obtain ⟨pl', hpl', E'⟩ := bi_client hA' h' k n' s' hreg
  have hreg' := bi_regular_fold π e1 hc' e2 hreg
  rw [← e3, ← e4] at hreg'
  obtain ⟨pl, hpl, E⟩ := bi_client hA h k n s hreg'
  refine ⟨pl, pl', hpl, hpl', _, (fun i => _), _, _,
    ensures_weaken E' fun r t ⟨q1, _, _, _, _, q2, q3, q4⟩ => ⟨fun v => congrFun q1 v, fun i a ha => q2 (i + 1) a ha, q3, q4⟩,
    ensures_weaken E fun r t ⟨q1, _, _, _, _, q2, q3, q4⟩ => ⟨fun u => ?_, fun i a ha => ?_, fun i a ha => ?_, fun i a ha => ?_⟩⟩
  · have := congrFun q1 u
    rw [e3, e4, (bi_fold π e1 hc' e2 _ _ k).x] at this
    exact this
  · rw [q2 (i + 1) a ha, e3, e4, bi_fold_rho π e1 hc' e2]
  · rw [q3 i a ha, e3, e4, (bi_fold π e1 hc' e2 _ _ i).α]
  · rw [q4 i a ha, e3, e4, (bi_fold π e1 hc' e2 _ _ i).ω]

/-- **C68** fails for the library's GMRES: one cycle on `c` copies adds to every copy only `1 / √c` times what it adds to the unknown of
the single system (`d` is the square root of `c`). -/
theorem c68_gmres_shrinks [CharZero V] (hA : A.Exact) (hA' : A'.Exact) (hsq : A.sqrt = A'.sqrt) (h : ClientSystem G calls base)
    (h' : ClientSystem G' calls' base') (hc : c ≠ 0) {d : V} (hd : d * d = c) (hroot : ∀ y, A'.sqrt (c * y) = d * A'.sqrt y)
    (hs : CopiesOf c G calls s G' calls' s' π) (m n n' : Nat)
    (hreg : CycleRegular A'.sqrt (clientMatrix G' calls') m (clientSol G' calls' s') (clientRhs G' calls' s') 1) :
    ∃ pl pl', Planner.empty.setupAll G calls = some pl ∧ Planner.empty.setupAll G' calls' = some pl' ∧
      ∃ Δ : clientUnknowns G' calls' → V,
        (Ensures (gmres A' G' pl' base' m 1) n' s' fun _ t =>
          ∀ v, clientVec (sols calls') t v.1 = clientVec (sols calls') s' v.1 + Δ v) ∧
        Ensures (gmres A G pl base m 1) n s fun _ t =>
          ∀ u, clientVec (sols calls) t u.1 = clientVec (sols calls) s u.1 + 1 / d * Δ (π u) := by
  obtain ⟨e1, e2, e3, e4⟩ := hs.functions
  have hc' : (c : V) ≠ 0 := Nat.cast_ne_zero.2 hc
  obtain ⟨pl', hpl', E'⟩ := gmres_client hA' h' m 1 n' s' hreg
  have hreg' := cycle_regular_fold π e1 hc' e2 hd hroot hreg
  rw [← e3, ← e4, ← hsq] at hreg'
  obtain ⟨pl, hpl, E⟩ := gmres_client hA h m 1 n s hreg'
  refine ⟨pl, pl', hpl, hpl', sumCycle A'.sqrt (clientMatrix G' calls') m (clientSol G' calls' s') (clientRhs G' calls' s') 1 -
    clientSol G' calls' s', ensures_weaken E' fun r t ⟨q1, _, _⟩ => fun v => ?_, ensures_weaken E fun r t ⟨q1, _, _⟩ => fun u => ?_⟩
  · have := congrFun q1 v
    show clientSol G' calls' t v = clientSol G' calls' s' v + (_ - clientSol G' calls' s' v)
    rw [this]
    ring
  · have := congrFun q1 u
    rw [e3, e4, hsq, sumCycle_fold π e1 hc' e2 hd _ hroot] at this
    show clientSol G calls t u = clientSol G calls s u + _
    rw [this, e3]
    rfl

end Verif.Solver
