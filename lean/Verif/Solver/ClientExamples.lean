import Verif.Solver.Client
import Verif.Solver.Examples
import Mathlib.Tactic.FinCases
import Mathlib.Tactic.Positivity

/-! # A two-block system for `c35_client` -/
set_option linter.dupNamespace false
namespace Verif.Solver
open Verif.Runtime Verif.Vector Verif.Matrix Verif.Planner Verif.Textbook
open scoped _root_.Matrix

/-- Two blocks of two points: `2 I` on the diagonal blocks (one CSR, one COO), `I` coupling them. -/
def twoCalls : List (Setup Nat Nat ℚ) :=
  [.addSol ⟨0, 0, 0, 0⟩, .addSol ⟨1, 0, 0, 0⟩, .addRhs ⟨2, 0, 0, 0⟩, .addRhs ⟨3, 0, 0, 0⟩,
   .addMatrix (.csr ⟨[0, 1], [0, 1], fun p k => decide (p = k), id, fun _ => 2⟩) 0 0,
   .addMatrix (.coo ⟨[0, 1], id, id, fun _ => 2⟩) 1 1,
   .addMatrix (.coo ⟨[0, 1], id, id, fun _ => 1⟩) 0 1, .addMatrix (.coo ⟨[0, 1], id, id, fun _ => 1⟩) 1 0]

theorem twoSystem : ClientSystem exG twoCalls 10 where
  valid := fun part p => by simp [exG]
  order := fun f l => List.reverse_perm l
  constructed := by
    intro c hc
    simp only [twoCalls, List.mem_cons, List.not_mem_nil, or_false] at hc
    rcases hc with rfl | rfl | rfl | rfl | rfl | rfl | rfl | rfl
    all_goals first | rfl | trivial
  legal := by
    have hc : ∀ c ∈ twoCalls, c.Constructed exG := by
      intro c hc
      simp only [twoCalls, List.mem_cons, List.not_mem_nil, or_false] at hc
      rcases hc with rfl | rfl | rfl | rfl | rfl | rfl | rfl | rfl
      all_goals first | rfl | trivial
    exact (c31_accepts_exactly exG twoCalls hc).1 ⟨_, rfl⟩
  noWorkspace := rfl
  lengths := rfl
  nonempty := Nat.succ_pos _
  data := by decide
  fresh := by decide
  fits := by
    intro m d r hm vd vr h1 h2
    simp [mats, twoCalls] at hm
    rcases hm with ⟨rfl, rfl, rfl⟩ | ⟨rfl, rfl, rfl⟩ | ⟨rfl, rfl, rfl⟩ | ⟨rfl, rfl, rfl⟩
    · refine ⟨(by decide : ∀ k ∈ [0, 1], id k ∈ [0, 1]), fun p => Iff.rfl, ?_⟩
      intro k _ p q _ _ h3 h4
      simp at h3 h4
      omega
    all_goals
      show ∀ k ∈ [0, 1], id k ∈ [0, 1]
      decide

/-- The unknowns in order. -/
def twoEnum : Fin 4 → Σ _ : Nat, Nat := ![⟨0, 0⟩, ⟨0, 1⟩, ⟨1, 0⟩, ⟨1, 1⟩]

theorem two_SPD : SPD (fun u u' : clientUnknowns exG twoCalls => clientCoef twoCalls u.1 u'.1) := by
  have hmem : ∀ i, twoEnum i ∈ clientUnknowns exG twoCalls := by decide
  have hbij : Function.Bijective fun i => (⟨twoEnum i, hmem i⟩ : clientUnknowns exG twoCalls) := by
    have hi : ∀ i j, twoEnum i = twoEnum j → i = j := by decide
    have hs : ∀ u ∈ clientUnknowns exG twoCalls, ∃ i, twoEnum i = u := by decide
    refine ⟨fun i j h => hi i j (congrArg Subtype.val h), fun u => ?_⟩
    obtain ⟨i, h⟩ := hs u.1 u.2
    exact ⟨i, Subtype.ext h⟩
  let e := (Equiv.ofBijective _ hbij).symm
  refine SPD_transfer e _ !![2, 0, 1, 0; 0, 2, 0, 1; 1, 0, 2, 0; 0, 1, 0, 2] (fun u u' => ?_) ⟨?_, ?_⟩
  · obtain ⟨i, rfl⟩ := e.symm.surjective u
    obtain ⟨j, rfl⟩ := e.symm.surjective u'
    rw [Equiv.apply_symm_apply, Equiv.apply_symm_apply]
    show clientCoef twoCalls (twoEnum i) (twoEnum j) = _
    have key : ∀ i j : Fin 4, clientCoef twoCalls (twoEnum i) (twoEnum j) =
        (!![2, 0, 1, 0; 0, 2, 0, 1; 1, 0, 2, 0; 0, 1, 0, (2 : ℚ)] : _root_.Matrix (Fin 4) (Fin 4) ℚ) i j := by
      intro i j
      fin_cases i <;> fin_cases j <;> simp [clientCoef, twoCalls, mats, twoEnum, Op.coef]
    exact key i j
  · decide +kernel
  · intro x hx
    have h : x ⬝ᵥ !![2, 0, 1, 0; 0, 2, 0, 1; 1, 0, 2, 0; 0, 1, 0, (2 : ℚ)] *ᵥ x =
        x 0 ^ 2 + x 1 ^ 2 + x 2 ^ 2 + x 3 ^ 2 + (x 0 + x 2) ^ 2 + (x 1 + x 3) ^ 2 := by
      simp [dotProduct, _root_.Matrix.mulVec, Fin.sum_univ_four]
      ring
    rw [h]
    by_contra hn
    apply hx
    have e0 : x 0 = 0 := by nlinarith [sq_nonneg (x 0), sq_nonneg (x 1), sq_nonneg (x 2), sq_nonneg (x 3), sq_nonneg (x 0 + x 2), sq_nonneg (x 1 + x 3)]
    have e1 : x 1 = 0 := by nlinarith [sq_nonneg (x 0), sq_nonneg (x 1), sq_nonneg (x 2), sq_nonneg (x 3), sq_nonneg (x 0 + x 2), sq_nonneg (x 1 + x 3)]
    have e2 : x 2 = 0 := by nlinarith [sq_nonneg (x 0), sq_nonneg (x 1), sq_nonneg (x 2), sq_nonneg (x 3), sq_nonneg (x 0 + x 2), sq_nonneg (x 1 + x 3)]
    have e3 : x 3 = 0 := by nlinarith [sq_nonneg (x 0), sq_nonneg (x 1), sq_nonneg (x 2), sq_nonneg (x 3), sq_nonneg (x 0 + x 2), sq_nonneg (x 1 + x 3)]
    funext i
    fin_cases i <;> assumption

/-- C35 for it: four unknowns, right-hand sides arbitrary. -/
example (s : Cell Nat → ℚ) (h0 : ∀ p, s (.elem 0 p) = 0) (h1 : ∀ p, s (.elem 1 p) = 0) :
    ∃ pl, Planner.empty.setupAll exG twoCalls = some pl ∧
      ∃ k, k ≤ 4 ∧ Ensures (cg (exactArith ℚ qsqrt) exG pl 10 k) 0 s fun _ s' =>
        2 * s' (.elem 0 0) + s' (.elem 1 0) = s (.elem 2 0) ∧ 2 * s' (.elem 1 1) + s' (.elem 0 1) = s (.elem 3 1) := by
  obtain ⟨pl, g1, k, g2, a, n', ts, q1, q2, q3⟩ := c35_client (exactArith_exact ℚ qsqrt) twoSystem two_SPD 0 s (by
    intro v hv p _
    have hv : v ∈ [(⟨0, 0, 0, 0⟩ : Vec), ⟨1, 0, 0, 0⟩] := hv
    simp only [List.mem_cons, List.not_mem_nil, or_false] at hv
    rcases hv with rfl | rfl
    · exact h0 p
    · exact h1 p)
  refine ⟨pl, g1, k, g2, a, n', ts, q1, q2, fun M' h5 h6 => ?_⟩
  have h7 := (q3 M' h5 h6).1
  have r0 := h7 0 ⟨2, 0, 0, 0⟩ rfl 0 (by decide)
  have r1 := h7 1 ⟨3, 0, 0, 0⟩ rfl 1 (by decide)
  simp [clientRow, given, mats, sols, twoCalls, exG, Op.coef] at r0 r1
  constructor <;> linarith
end Verif.Solver
