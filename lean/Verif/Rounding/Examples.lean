import Verif.Rounding.BiCGStab
import Verif.Solver.ClientExamples
import Mathlib.Tactic.NormNum

/-! # C59, C60, C61 for a two-block system, in binary arithmetic with eleven digits -/
set_option linter.dupNamespace false
namespace Verif.Rounding
open Verif.Runtime Verif.Vector Verif.Matrix Verif.Planner Verif.Solver
open scoped _root_.Matrix

/-- The system of `twoCalls` over the reals. -/
noncomputable def realCalls : List (Setup Nat Nat ℝ) :=
  [.addSol ⟨0, 0, 0, 0⟩, .addSol ⟨1, 0, 0, 0⟩, .addRhs ⟨2, 0, 0, 0⟩, .addRhs ⟨3, 0, 0, 0⟩,
   .addMatrix (.csr ⟨[0, 1], [0, 1], fun p k => decide (p = k), id, fun _ => 2⟩) 0 0,
   .addMatrix (.coo ⟨[0, 1], id, id, fun _ => 2⟩) 1 1,
   .addMatrix (.coo ⟨[0, 1], id, id, fun _ => 1⟩) 0 1, .addMatrix (.coo ⟨[0, 1], id, id, fun _ => 1⟩) 1 0]

theorem realSystem : ClientSystem Solver.exG realCalls 10 where
  valid := fun part p => by simp [Solver.exG]
  order := fun f l => List.reverse_perm l
  constructed := by
    intro c hc
    simp only [realCalls, List.mem_cons, List.not_mem_nil, or_false] at hc
    rcases hc with rfl | rfl | rfl | rfl | rfl | rfl | rfl | rfl
    all_goals first | rfl | trivial
  legal := by
    have hc : ∀ c ∈ realCalls, c.Constructed Solver.exG := by
      intro c hc
      simp only [realCalls, List.mem_cons, List.not_mem_nil, or_false] at hc
      rcases hc with rfl | rfl | rfl | rfl | rfl | rfl | rfl | rfl
      all_goals first | rfl | trivial
    exact (c31_accepts_exactly Solver.exG realCalls hc).1 ⟨_, rfl⟩
  noWorkspace := rfl
  lengths := rfl
  nonempty := Nat.succ_pos _
  data := by decide
  fresh := by decide
  fits := by
    intro m d r hm vd vr h1 h2
    simp [mats, realCalls] at hm
    rcases hm with ⟨rfl, rfl, rfl⟩ | ⟨rfl, rfl, rfl⟩ | ⟨rfl, rfl, rfl⟩ | ⟨rfl, rfl, rfl⟩
    · refine ⟨(by decide : ∀ k ∈ [0, 1], id k ∈ [0, 1]), fun p => Iff.rfl, ?_⟩
      intro k _ p q _ _ h3 h4
      simp at h3 h4
      omega
    all_goals
      show ∀ k ∈ [0, 1], id k ∈ [0, 1]
      decide

theorem real_cut : ClientCut Solver.exG realCalls 1 2 := by
  intro v hv
  simp [sols, realCalls] at hv
  rcases hv with rfl | rfl <;> decide

theorem real_mem : ∀ v ∈ clientUnknowns Solver.exG realCalls, v = ⟨0, 0⟩ ∨ v = ⟨0, 1⟩ ∨ v = ⟨1, 0⟩ ∨ v = ⟨1, 1⟩ := by
  intro v hv
  have h : v ∈ clientUnknowns Solver.exG twoCalls := hv
  revert v
  decide

theorem real_rows : ∀ v ∈ clientUnknowns Solver.exG realCalls, (clientStored realCalls v).length ≤ 2 := by
  intro v hv
  rcases real_mem v hv with rfl | rfl | rfl | rfl <;> simp [clientStored, realCalls, mats, Op.stored]

theorem real_abs : clientAbs Solver.exG realCalls = clientMatrix Solver.exG realCalls := by
  funext v v'
  obtain ⟨v, hv⟩ := v
  obtain ⟨v', hv'⟩ := v'
  show (((clientStored realCalls v).filter fun t => decide (t.1 = v')).map fun t => |t.2|).sum = clientCoef realCalls v v'
  rcases real_mem v hv with rfl | rfl | rfl | rfl <;> rcases real_mem v' hv' with rfl | rfl | rfl | rfl <;>
    simp [clientStored, clientCoef, realCalls, mats, Op.stored, Op.coef]

theorem real_pos {z w : clientUnknowns Solver.exG realCalls → ℝ} (hz : ∀ v, 0 < z v) (hw : ∀ v, 0 < w v) :
    0 < z ⬝ᵥ clientMatrix Solver.exG realCalls *ᵥ w := by
  have hM : ∀ v v', 0 ≤ clientMatrix Solver.exG realCalls v v' := fun v v' => by
    rw [← real_abs]
    exact List.sum_nonneg fun a ha => by
      obtain ⟨t, -, rfl⟩ := List.mem_map.1 ha
      exact abs_nonneg _
  have hd : ∀ v, 0 < clientMatrix Solver.exG realCalls v v := by
    rintro ⟨v, hv⟩
    show 0 < clientCoef realCalls v v
    rcases real_mem v hv with rfl | rfl | rfl | rfl <;> simp [clientCoef, realCalls, mats, Op.coef]
  have hv0 : (⟨0, 0⟩ : Σ _ : Nat, Nat) ∈ clientUnknowns Solver.exG realCalls := (by decide : _ ∈ clientUnknowns Solver.exG twoCalls)
  refine Finset.sum_pos (fun v _ => mul_pos (hz v) ?_) ⟨⟨⟨0, 0⟩, hv0⟩, Finset.mem_univ _⟩
  exact Finset.sum_pos' (fun w' _ => mul_nonneg (hM v w') (hw w').le) ⟨v, Finset.mem_univ _, mul_pos (hd v) (hw v)⟩

/-- A positive right-hand side. -/
theorem real_rhs (s : Cell Nat → ℝ) (hb : ∀ d p, (d = 2 ∨ d = 3) → 0 < s (.elem d p)) (v : clientUnknowns Solver.exG realCalls) :
    0 < clientRhs Solver.exG realCalls s v := by
  obtain ⟨v, hv⟩ := v
  rcases real_mem v hv with rfl | rfl | rfl | rfl
  · exact hb 2 0 (Or.inl rfl)
  · exact hb 2 1 (Or.inl rfl)
  · exact hb 3 0 (Or.inr rfl)
  · exact hb 3 1 (Or.inr rfl)

/-- Eleven binary digits. -/
theorem small : Rounded ((1 / 2) ^ 10) (roundedArith (chop 10)) := chop_rounded 10

/-- C59 (inner product) for it: the value computed for `v · w` in two pieces of one point, added in reverse order. -/
example (s : Cell Nat → ℝ) : Ensures (dot (roundedArith (chop 10)) Solver.exG.toEnv ⟨0, 0, 0, 0⟩ ⟨1, 0, 0, 0⟩) 0 s fun r s' =>
    |s' (.fut r.fut) - (s (.elem 0 0) * s (.elem 1 0) + s (.elem 0 1) * s (.elem 1 1))| ≤
      ((1 + (1 / 2) ^ 10) ^ 4 - 1) * (|s (.elem 0 0) * s (.elem 1 0)| + |s (.elem 0 1) * s (.elem 1 1)|) := by
  have h := c59_dot small Solver.exG.toEnv ⟨0, 0, 0, 0⟩ ⟨1, 0, 0, 0⟩ ⟨rfl, rfl, rfl⟩ [0, 1] (by decide)
    ⟨by decide, fun p => by simp [Solver.exG]⟩ (fun f l => List.reverse_perm l) 1 (by decide) 0 s
  have e : (Solver.exG.toEnv.pieces (⟨0, 0, 0, 0⟩ : Vec).part).length = 2 := rfl
  rw [e] at h
  simpa using h

/-- C59 (COO product): two rows of three entries, `y 0 += 3 x 0 + 4 x 1`, `y 1 += 5 x 1`. -/
example (s : Cell Nat → ℝ) : Ensures ((⟨[0, 1, 2], fun k => k / 2, fun k => (k + 1) / 2, fun k => k + 3⟩ : COO Nat Nat ℝ).matvec
      (roundedArith (chop 10)) Solver.exG.toEnv ⟨0, 0, 0, 0⟩ ⟨1, 0, 0, 0⟩ [[0, 1], [2]] [[0, 1], [1]]) 0 s fun _ s' =>
    |s' (.elem 0 0) - (s (.elem 0 0) + (3 * s (.elem 1 0) + 4 * s (.elem 1 1)))| ≤
      ((1 + (1 / 2) ^ 10) ^ 3 - 1) * (|s (.elem 0 0)| + (|3 * s (.elem 1 0)| + |4 * s (.elem 1 1)|)) := by
  have h := c59_coo_matvec small Solver.exG.toEnv (⟨[0, 1, 2], fun k => k / 2, fun k => (k + 1) / 2, fun k => k + 3⟩ : COO Nat Nat ℝ)
    ⟨0, 0, 0, 0⟩ ⟨1, 0, 0, 0⟩ (by decide) [0, 1] [0, 1] ⟨by decide, fun p => by simp [Solver.exG]⟩
    (by intro k hk; simp at hk; rcases hk with rfl | rfl | rfl <;> simp) 0 s
  refine ensures_weaken h fun _ s' h => ?_
  have h1 := h 0 (by simp) [0, 1] (by simp [List.filter])
  norm_num at h1 ⊢
  exact h1

/-- The planner's vectors for it, as in `c59_planner_matvec` and `c59_planner_dot`. -/
example : ∃ pl : Planner Nat Nat ℝ, Ready Solver.exG pl 3 ∧ Cut Solver.exG pl 1 2 ∧ 0 < pl.spaces.length := by
  obtain ⟨pl, pl', h1, S, h2, h3, -⟩ := client_stored realSystem 3 real_cut
  exact ⟨pl', S.ready, h2, S.nonempty⟩

/-- C60 for it, one step from zero with a positive right-hand side: the step does not divide by zero, and the recorded value after the step
is the squared norm of the true residual up to the accumulated errors. -/
example (s : Cell Nat → ℝ) (h0 : ∀ p, s (.elem 0 p) = 0) (h1 : ∀ p, s (.elem 1 p) = 0) (hb : ∀ d p, (d = 2 ∨ d = 3) → 0 < s (.elem d p)) :
    ∃ pl, Planner.empty.setupAll Solver.exG realCalls = some pl ∧ ∃ (x r : Nat → clientUnknowns Solver.exG realCalls → ℝ) (ρ : Nat → ℝ),
      (∀ k, Ensures (cg (roundedArith (chop 10)) Solver.exG pl 10 k) 0 s fun c s' => clientSol Solver.exG realCalls s' = x k ∧
        ∀ (i : Nat) a, c.history[i]? = some a → s' (.fut a.fut) = ρ i) ∧
      |ρ 1 - r 1 ⬝ᵥ r 1| ≤ ((1 + (1 / 2) ^ 10) ^ 5 - 1) * (r 1 ⬝ᵥ r 1) ∧
      ∀ v, |(clientRhs Solver.exG realCalls s - clientMatrix Solver.exG realCalls *ᵥ x 1 - r 1) v| ≤
        gapTerm ((1 / 2) ^ 10) 2 (clientMatrix Solver.exG realCalls) (x 0) (x 1) (r 1) v := by
  obtain ⟨pl, g1, x, r, p, ρ, π, g2, g3, g4, g5, g6, g7, g8, g9⟩ := c60_client small (by norm_num) realSystem real_cut real_rows 0 s
  have hx0 : x 0 = 0 := by
    rw [g4]
    funext v
    obtain ⟨v, hv⟩ := v
    rcases real_mem v hv with rfl | rfl | rfl | rfl
    · exact h0 0
    · exact h0 1
    · exact h1 0
    · exact h1 1
  have hpos : ∀ v, 0 < p 0 v := fun v => by rw [g6]; exact real_rhs s hb v
  have hπ : π 0 ≠ 0 := by
    have h2 := g8 0
    have h3 : vabs (p 0) = p 0 := funext fun v => abs_of_pos (hpos v)
    rw [real_abs, h3] at h2
    have h4 := real_pos hpos hpos
    intro h5
    rw [h5, zero_sub, abs_neg, abs_of_pos h4] at h2
    have h6 : ((1 : ℝ) + (1 / 2) ^ 10) ^ (1 + 2 + (sols realCalls).length + (1 + 2)) - 1 < 1 := by
      show ((1 : ℝ) + (1 / 2) ^ 10) ^ 8 - 1 < 1
      norm_num
    nlinarith
  refine ⟨pl, g1, x, r, ρ, fun k => ensures_weaken (g2 k) fun c s' h => ⟨h.1, h.2.2.2⟩, g7 1, fun v => ?_⟩
  have h2 := g9 1 (fun j hj => (by omega : j = 0) ▸ hπ) v
  rw [hx0, sub_zero, Finset.sum_range_one, hx0, real_abs] at h2
  rw [hx0]
  exact h2

/-- C61 for it: the first step of BiCGStab does not divide by zero, and its residual vector is the true residual up to the errors of the
two half steps. -/
example (s : Cell Nat → ℝ) (hb : ∀ d p, (d = 2 ∨ d = 3) → 0 < s (.elem d p)) :
    ∃ pl, Planner.empty.setupAll Solver.exG realCalls = some pl ∧ ∃ (x r xh rh : Nat → clientUnknowns Solver.exG realCalls → ℝ)
      (ρ ρh : Nat → ℝ),
      (∀ k, Ensures (biCGStab (roundedArith (chop 10)) Solver.exG pl 10 k) 0 s fun _ s' => clientSol Solver.exG realCalls s' = x k) ∧
      (∀ k, Ensures (biResidual (roundedArith (chop 10)) Solver.exG pl 10 k) 0 s fun a s' => s' (.fut a.fut) = ρ k) ∧
      (∀ k, Ensures (biHalfResidual (roundedArith (chop 10)) Solver.exG pl 10 k) 0 s fun a s' => s' (.fut a.fut) = ρh k) ∧
      |ρ 1 - r 1 ⬝ᵥ r 1| ≤ ((1 + (1 / 2) ^ 10) ^ 5 - 1) * (r 1 ⬝ᵥ r 1) ∧
      |ρh 0 - rh 0 ⬝ᵥ rh 0| ≤ ((1 + (1 / 2) ^ 10) ^ 5 - 1) * (rh 0 ⬝ᵥ rh 0) ∧
      ∀ v, |(clientRhs Solver.exG realCalls s - clientMatrix Solver.exG realCalls *ᵥ (x 1 - x 0) - r 1) v| ≤
        gapTerm ((1 / 2) ^ 10) 2 (clientMatrix Solver.exG realCalls) (x 0) (xh 0) (rh 0) v +
          gapTerm ((1 / 2) ^ 10) 2 (clientMatrix Solver.exG realCalls) (xh 0) (x 1) (r 1) v := by
  obtain ⟨pl, g1, x, r, xh, rh, p, ρ, ρh, τ, g2, g3, g4, g5, g6, g7, g8, g9, g10, g11, g12⟩ :=
    c61_client small (by norm_num) realSystem real_cut real_rows 0 s
  have hpos : ∀ v, 0 < p 0 v := fun v => by
    have h1 := g11 v
    have h2 := real_rhs s hb v
    rw [abs_of_pos h2, abs_le] at h1
    have h3 : ((1 : ℝ) / 2) ^ 10 < 1 := by norm_num
    nlinarith [h1.1]
  have hτ : τ 0 ≠ 0 := by
    have h2 := g8 0
    have h3 : vabs (p 0) = p 0 := funext fun v => abs_of_pos (hpos v)
    have h3' : vabs (clientRhs Solver.exG realCalls s) = clientRhs Solver.exG realCalls s := funext fun v => abs_of_pos (real_rhs s hb v)
    rw [real_abs, h3, h3'] at h2
    have h4 := real_pos (real_rhs s hb) hpos
    intro h5
    rw [h5, zero_sub, abs_neg, abs_of_pos h4] at h2
    have h6 : ((1 : ℝ) + (1 / 2) ^ 10) ^ (1 + 2 + (sols realCalls).length + (1 + 2)) - 1 < 1 := by
      show ((1 : ℝ) + (1 / 2) ^ 10) ^ 8 - 1 < 1
      norm_num
    nlinarith
  refine ⟨pl, g1, x, r, xh, rh, ρ, ρh, fun k => ensures_weaken (g2 k) fun c s' h => h.1, g4, g5, g6 1, g7 0, fun v => ?_⟩
  have h2 := g12 1 (fun j hj => (by omega : j = 0) ▸ hτ) v
  rw [Finset.sum_range_one, real_abs] at h2
  exact h2

end Verif.Rounding
