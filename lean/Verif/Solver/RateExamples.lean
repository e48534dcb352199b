import Verif.Solver.Rate
import Verif.Solver.Examples
import Mathlib.Tactic.FinCases
import Mathlib.Tactic.Positivity

/-! # A two-block system with eigenvalues 1 and 3 for C56 -/
set_option linter.dupNamespace false
namespace Verif.Solver
open Verif.Runtime Verif.Vector Verif.Matrix Verif.Planner Verif.Textbook
open scoped _root_.Matrix

/-- Two blocks of two points: `2 I` on the diagonal blocks (one CSR, one COO), `I` coupling them. -/
def pairCalls : List (Setup Nat Nat ℝ) :=
  [.addSol ⟨0, 0, 0, 0⟩, .addSol ⟨1, 0, 0, 0⟩, .addRhs ⟨2, 0, 0, 0⟩, .addRhs ⟨3, 0, 0, 0⟩,
   .addMatrix (.csr ⟨[0, 1], [0, 1], fun p k => decide (p = k), id, fun _ => 2⟩) 0 0,
   .addMatrix (.coo ⟨[0, 1], id, id, fun _ => 2⟩) 1 1,
   .addMatrix (.coo ⟨[0, 1], id, id, fun _ => 1⟩) 0 1, .addMatrix (.coo ⟨[0, 1], id, id, fun _ => 1⟩) 1 0]

theorem pairSystem : ClientSystem exG pairCalls 10 where
  valid := fun part p => by simp [exG]
  order := fun f l => List.reverse_perm l
  constructed := by
    intro c hc
    simp only [pairCalls, List.mem_cons, List.not_mem_nil, or_false] at hc
    rcases hc with rfl | rfl | rfl | rfl | rfl | rfl | rfl | rfl
    all_goals first | rfl | trivial
  legal := by
    have hc : ∀ c ∈ pairCalls, c.Constructed exG := by
      intro c hc
      simp only [pairCalls, List.mem_cons, List.not_mem_nil, or_false] at hc
      rcases hc with rfl | rfl | rfl | rfl | rfl | rfl | rfl | rfl
      all_goals first | rfl | trivial
    exact (c31_accepts_exactly exG pairCalls hc).1 ⟨_, rfl⟩
  noWorkspace := rfl
  lengths := rfl
  nonempty := Nat.succ_pos _
  data := by decide
  fresh := by decide
  fits := by
    intro m d r hm vd vr h1 h2
    simp [mats, pairCalls] at hm
    rcases hm with ⟨rfl, rfl, rfl⟩ | ⟨rfl, rfl, rfl⟩ | ⟨rfl, rfl, rfl⟩ | ⟨rfl, rfl, rfl⟩
    · refine ⟨(by decide : ∀ k ∈ [0, 1], id k ∈ [0, 1]), fun p => Iff.rfl, ?_⟩
      intro k _ p q _ _ h3 h4
      simp at h3 h4
      omega
    all_goals
      show ∀ k ∈ [0, 1], id k ∈ [0, 1]
      decide

/-- The unknowns in order. -/
def pairEnum : Fin 4 → Σ _ : Nat, Nat := ![⟨0, 0⟩, ⟨0, 1⟩, ⟨1, 0⟩, ⟨1, 1⟩]

/-- Its matrix. -/
def pairMatrix : _root_.Matrix (Fin 4) (Fin 4) ℝ := !![2, 0, 1, 0; 0, 2, 0, 1; 1, 0, 2, 0; 0, 1, 0, 2]

theorem pair_equiv : ∃ e : clientUnknowns exG pairCalls ≃ Fin 4, (∀ i, (e.symm i).1 = pairEnum i) ∧
    ∀ u u' : clientUnknowns exG pairCalls, clientCoef pairCalls u.1 u'.1 = pairMatrix (e u) (e u') := by
  have hmem : ∀ i, pairEnum i ∈ clientUnknowns exG pairCalls := by decide
  have hbij : Function.Bijective fun i => (⟨pairEnum i, hmem i⟩ : clientUnknowns exG pairCalls) := by
    have hi : ∀ i j, pairEnum i = pairEnum j → i = j := by decide
    have hs : ∀ u ∈ clientUnknowns exG pairCalls, ∃ i, pairEnum i = u := by decide
    refine ⟨fun i j h => hi i j (congrArg Subtype.val h), fun u => ?_⟩
    obtain ⟨i, h⟩ := hs u.1 u.2
    exact ⟨i, Subtype.ext h⟩
  let e := (Equiv.ofBijective _ hbij).symm
  refine ⟨e, fun i => rfl, fun u u' => ?_⟩
  obtain ⟨i, rfl⟩ := e.symm.surjective u
  obtain ⟨j, rfl⟩ := e.symm.surjective u'
  rw [Equiv.apply_symm_apply, Equiv.apply_symm_apply]
  show clientCoef pairCalls (pairEnum i) (pairEnum j) = _
  have key : ∀ i j : Fin 4, clientCoef pairCalls (pairEnum i) (pairEnum j) = pairMatrix i j := by
    intro i j
    fin_cases i <;> fin_cases j <;> simp [clientCoef, pairCalls, mats, pairEnum, Op.coef, pairMatrix]
  exact key i j

theorem pair_form (x : Fin 4 → ℝ) : x ⬝ᵥ pairMatrix *ᵥ x =
    2 * (x 0 ^ 2 + x 1 ^ 2 + x 2 ^ 2 + x 3 ^ 2) + 2 * (x 0 * x 2 + x 1 * x 3) := by
  simp [dotProduct, _root_.Matrix.mulVec, Fin.sum_univ_four, pairMatrix]
  ring

theorem pair_between : Between pairMatrix 1 3 := by
  intro x
  rw [pair_form]
  simp only [dotProduct, Fin.sum_univ_four]
  constructor
  · nlinarith [sq_nonneg (x 0 + x 2), sq_nonneg (x 1 + x 3)]
  · nlinarith [sq_nonneg (x 0 - x 2), sq_nonneg (x 1 - x 3)]

theorem pair_sym : pairMatrixᵀ = pairMatrix := by
  funext i j
  fin_cases i <;> fin_cases j <;> rfl

theorem pair_eigenvalues (l : ℝ) (h : Eigenvalue pairMatrix l) : l ∈ ({1, 3} : Finset ℝ) := by
  obtain ⟨v, hv, e⟩ := h
  have e0 := congrFun e 0
  have e1 := congrFun e 1
  have e2 := congrFun e 2
  have e3 := congrFun e 3
  simp [_root_.Matrix.mulVec, dotProduct, Fin.sum_univ_four, pairMatrix] at e0 e1 e2 e3
  have k0 : (l - 1) * (l - 3) * v 0 = 0 := by linear_combination (2 - l) * e0 - e2
  have k1 : (l - 1) * (l - 3) * v 1 = 0 := by linear_combination (2 - l) * e1 - e3
  have k2 : (l - 1) * (l - 3) * v 2 = 0 := by linear_combination (2 - l) * e2 - e0
  have k3 : (l - 1) * (l - 3) * v 3 = 0 := by linear_combination (2 - l) * e3 - e1
  by_cases hl : (l - 1) * (l - 3) = 0
  · rcases mul_eq_zero.1 hl with h | h
    · have : l = 1 := by linarith
      simp [this]
    · have : l = 3 := by linarith
      simp [this]
  · refine absurd ?_ hv
    funext i
    fin_cases i
    · exact (mul_eq_zero.1 k0).resolve_left hl
    · exact (mul_eq_zero.1 k1).resolve_left hl
    · exact (mul_eq_zero.1 k2).resolve_left hl
    · exact (mul_eq_zero.1 k3).resolve_left hl

/-- The solution for the right-hand side in `s`. -/
noncomputable def pairSol (s : Cell Nat → ℝ) : Fin 4 → ℝ :=
  ![(2 * s (.elem 2 0) - s (.elem 3 0)) / 3, (2 * s (.elem 2 1) - s (.elem 3 1)) / 3,
    (2 * s (.elem 3 0) - s (.elem 2 0)) / 3, (2 * s (.elem 3 1) - s (.elem 2 1)) / 3]

theorem pairSol_solves (s : Cell Nat → ℝ) :
    pairMatrix *ᵥ pairSol s = ![s (.elem 2 0), s (.elem 2 1), s (.elem 3 0), s (.elem 3 1)] := by
  funext i
  fin_cases i <;> simp [_root_.Matrix.mulVec, dotProduct, Fin.sum_univ_four, pairMatrix, pairSol] <;> ring

theorem pair_rhs (s : Cell Nat → ℝ) (i : Fin 4) :
    clientVec (rhss pairCalls) s (pairEnum i) = ![s (.elem 2 0), s (.elem 2 1), s (.elem 3 0), s (.elem 3 1)] i := by
  fin_cases i <;> rfl

theorem pair_zero (s : Cell Nat → ℝ) (h0 : ∀ p, s (.elem 0 p) = 0) (h1 : ∀ p, s (.elem 1 p) = 0) :
    ∀ v ∈ sols pairCalls, ∀ p ∈ exG.points v.space, s (.elem v.data p) = 0 := by
  intro v hv p _
  have hv : v ∈ [(⟨0, 0, 0, 0⟩ : Vec), ⟨1, 0, 0, 0⟩] := hv
  simp only [List.mem_cons, List.not_mem_nil, or_false] at hv
  rcases hv with rfl | rfl
  · exact h0 p
  · exact h1 p

/-- C56: four unknowns, two eigenvalues, hence at most two steps of CG. -/
example (s : Cell Nat → ℝ) (h0 : ∀ p, s (.elem 0 p) = 0) (h1 : ∀ p, s (.elem 1 p) = 0) :
    ∃ pl, Planner.empty.setupAll exG pairCalls = some pl ∧
      ∃ j, j ≤ 2 ∧ Ensures (cg (exactArith ℝ Real.sqrt) exG pl 10 j) 0 s fun _ s' =>
        s' (.elem 0 0) = (2 * s (.elem 2 0) - s (.elem 3 0)) / 3 ∧ s' (.elem 1 1) = (2 * s (.elem 3 1) - s (.elem 2 1)) / 3 := by
  obtain ⟨e, he, hcoef⟩ := pair_equiv
  obtain ⟨hdot, hmv, -⟩ := transport e (fun u u' : clientUnknowns exG pairCalls => clientCoef pairCalls u.1 u'.1) pairMatrix hcoef
  obtain ⟨pl, g1, j, g2, g3⟩ := c56_client_distinct_eigenvalues (exactArith_exact ℝ Real.sqrt) pairSystem _ (fun u u' => rfl)
    (SPD_transfer e _ pairMatrix hcoef (pair_between.spd pair_sym one_pos)) {1, 3} (fun l hl => by
      obtain ⟨v, hv, hAv⟩ := hl
      refine pair_eigenvalues l ⟨v ∘ e.symm, fun h0 => hv ?_, ?_⟩
      · funext i
        have := congrFun h0 (e i)
        simpa using this
      · have e1 : v = (v ∘ e.symm) ∘ e := by funext i; simp
        rw [e1, hmv] at hAv
        funext u
        have := congrFun hAv (e.symm u)
        simpa using this) 0 s (pair_zero s h0 h1) (pairSol s ∘ e) (by
      rw [hmv, pairSol_solves]
      funext u
      obtain ⟨i, rfl⟩ := e.symm.surjective u
      rw [he, pair_rhs]
      simp)
  refine ⟨pl, g1, j, g2.trans (Finset.card_le_two), ensures_weaken g3 fun _ s' h => ⟨?_, ?_⟩⟩
  · have := h (e.symm 0)
    rw [he, Function.comp_apply, Equiv.apply_symm_apply] at this
    simpa [clientVec, pairEnum, sols, pairCalls, pairSol] using this
  · have := h (e.symm 3)
    rw [he, Function.comp_apply, Equiv.apply_symm_apply] at this
    simpa [clientVec, pairEnum, sols, pairCalls, pairSol] using this

/-- C56: the rate for the same system; the factor is `(√3 - 1)/(√3 + 1) < 0.27`. -/
example (s : Cell Nat → ℝ) (h0 : ∀ p, s (.elem 0 p) = 0) (h1 : ∀ p, s (.elem 1 p) = 0) (k : Nat) :
    ∃ pl, Planner.empty.setupAll exG pairCalls = some pl ∧ ∃ z : clientUnknowns exG pairCalls → ℝ,
      ∃ j, j ≤ k ∧ Ensures (cg (exactArith ℝ Real.sqrt) exG pl 10 j) 0 s fun _ s' =>
        energy (fun u u' : clientUnknowns exG pairCalls => clientCoef pairCalls u.1 u'.1)
          (z - fun u => clientVec (sols pairCalls) s' u.1) ≤ 4 * ((√3 - √1) / (√3 + √1)) ^ (2 * k) *
        energy (fun u u' : clientUnknowns exG pairCalls => clientCoef pairCalls u.1 u'.1) z := by
  obtain ⟨e, he, hcoef⟩ := pair_equiv
  obtain ⟨hdot, hmv, -⟩ := transport e (fun u u' : clientUnknowns exG pairCalls => clientCoef pairCalls u.1 u'.1) pairMatrix hcoef
  have hS := SPD_transfer e _ pairMatrix hcoef (pair_between.spd pair_sym one_pos)
  obtain ⟨pl, g1, j, g2, g3⟩ := c56_client (m := 1) (M := 3) (exactArith_exact ℝ Real.sqrt) pairSystem _ (fun u u' => rfl) hS.1
    one_pos (by norm_num) (fun v => by
      have e1 : v = (v ∘ e.symm) ∘ e := by funext i; simp
      rw [e1, hmv, hdot, hdot]
      exact pair_between _) 0 s (pair_zero s h0 h1) (pairSol s ∘ e) (by
      rw [hmv, pairSol_solves]
      funext u
      obtain ⟨i, rfl⟩ := e.symm.surjective u
      rw [he, pair_rhs]
      simp) k
  exact ⟨pl, g1, _, j, g2, ensures_weaken g3 fun _ s' h => h.1⟩

end Verif.Solver
