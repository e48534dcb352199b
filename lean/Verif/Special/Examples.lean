import Verif.Special.Undefined
import Verif.Solver.ClientExamples
import Mathlib.Tactic.NormNum
import Mathlib.Analysis.Real.Sqrt

/-! # C69 - C72: the theorems apply to concrete systems -/
set_option linter.dupNamespace false
set_option linter.unusedSectionVars false
namespace Verif.Special
open Verif.Runtime Verif.Vector Verif.Matrix Verif.Planner Verif.Solver Verif.Textbook
open scoped _root_.Matrix

/-- Two points in two pieces; reductions add the last piece first. -/
def boxG : Geometry Nat where
  pieces := fun _ => [[0], [1]]
  redOrder := fun _ l => l.reverse
  points := fun _ => [0, 1]
  parent := fun part => part
  colorSpace := fun part => part

/-- One block of two points; the matrix has two entries per row, stored in COO format: `[[e 0, e 1], [e 2, e 3]]`. -/
def boxCalls {V : Type} (e : Nat → V) : List (Setup Nat Nat V) :=
  [.addSol ⟨5, 0, 0, 0⟩, .addRhs ⟨6, 0, 0, 0⟩, .addMatrix (.coo ⟨[0, 1, 2, 3], fun k => k / 2, fun k => k % 2, e⟩) 0 0]

section
variable {V : Type} {e : Nat → V}

theorem boxSystem : ClientSystem boxG (boxCalls e) 20 where
  valid := fun part p => by simp [boxG]
  order := fun f l => List.reverse_perm l
  constructed := by
    intro c hc
    simp only [boxCalls, List.mem_cons, List.not_mem_nil, or_false] at hc
    rcases hc with rfl | rfl | rfl
    all_goals first | rfl | trivial
  legal := by
    have hc : ∀ c ∈ boxCalls e, c.Constructed boxG := by
      intro c hc
      simp only [boxCalls, List.mem_cons, List.not_mem_nil, or_false] at hc
      rcases hc with rfl | rfl | rfl
      all_goals first | rfl | trivial
    exact (c31_accepts_exactly boxG (boxCalls e) hc).1 ⟨_, rfl⟩
  noWorkspace := rfl
  lengths := rfl
  nonempty := Nat.succ_pos _
  data := by show List.Nodup [5, 6]; decide
  fresh := by show ∀ v ∈ [(⟨5, 0, 0, 0⟩ : Vec), ⟨6, 0, 0, 0⟩], v.data < 20; decide
  fits := by
    intro m d r hm vd vr h1 h2
    simp [mats, boxCalls] at hm
    obtain ⟨rfl, rfl, rfl⟩ := hm
    have hs : sols (boxCalls e) = [⟨5, 0, 0, 0⟩] := rfl
    rw [hs] at h1 h2
    cases h1
    cases h2
    show ∀ k ∈ [0, 1, 2, 3], k % 2 ∈ [0, 1]
    decide

theorem box_unknowns : clientUnknowns boxG (boxCalls e) = {⟨0, 0⟩, ⟨0, 1⟩} := by
  show ((Finset.range 1).sigma fun i => (((sols (boxCalls e))[i]?).elim [] fun v => boxG.points v.space).toFinset) = _
  have : (sols (boxCalls e)) = [⟨5, 0, 0, 0⟩] := rfl
  rw [this]
  decide

theorem box_stored (p : Nat) (hp : p < 2) : clientStored (boxCalls e) ⟨0, p⟩ = [(⟨0, 0⟩, e (2 * p)), (⟨0, 1⟩, e (2 * p + 1))] := by
  match p, hp with
  | 0, _ => rfl
  | 1, _ => rfl

theorem box_coefs {C : V → Prop} (h : ∀ k, k < 4 → C (e k)) : AllCoefs boxG (boxCalls e) C := by
  intro u hu t ht
  rw [box_unknowns, Finset.mem_insert, Finset.mem_singleton] at hu
  rcases hu with rfl | rfl
  all_goals
    rw [box_stored _ (by decide)] at ht
    simp only [List.mem_cons, List.not_mem_nil, or_false] at ht
    rcases ht with rfl | rfl
    all_goals exact h _ (by decide)

theorem box_some {C : V → Prop} (k : Nat) (hk : k < 4) (h : C (e k)) : SomeCoef boxG (boxCalls e) C := by
  refine ⟨⟨0, k / 2⟩, ?_, (⟨0, k % 2⟩, e k), ?_, h⟩
  · rw [box_unknowns]
    have : k / 2 = 0 ∨ k / 2 = 1 := by omega
    rcases this with h | h <;> rw [h] <;> decide
  · match k, hk with
    | 0, _ => exact List.mem_cons_self ..
    | 1, _ => exact List.mem_cons_of_mem _ (List.mem_cons_self ..)
    | 2, _ => exact List.mem_cons_self ..
    | 3, _ => exact List.mem_cons_of_mem _ (List.mem_cons_self ..)

/-- Initial solution `x`, right-hand side `b`. -/
def boxStore (d : V) (x b : Nat → V) : Cell Nat → V
  | .elem 5 p => x p
  | .elem 6 p => b p
  | _ => d

theorem box_rhs {d : V} {x b : Nat → V} {C : V → Prop} (h : ∀ p, p < 2 → C (b p)) : Everywhere boxG (rhss (boxCalls e)) (boxStore d x b) C := by
  intro v hv p hp
  have hr : rhss (boxCalls e) = [⟨6, 0, 0, 0⟩] := rfl
  rw [hr, List.mem_singleton] at hv
  subst hv
  have hp' : p ∈ [0, 1] := hp
  simp only [List.mem_cons, List.not_mem_nil, or_false] at hp'
  exact h p (by omega)

theorem box_sol {d : V} {x b : Nat → V} {C : V → Prop} (h : ∀ p, p < 2 → C (x p)) : Everywhere boxG (sols (boxCalls e)) (boxStore d x b) C := by
  intro v hv p hp
  have hr : sols (boxCalls e) = [⟨5, 0, 0, 0⟩] := rfl
  rw [hr, List.mem_singleton] at hv
  subst hv
  have hp' : p ∈ [0, 1] := hp
  simp only [List.mem_cons, List.not_mem_nil, or_false] at hp'
  exact h p (by omega)

end

/-! ## Floating point -/

/-- A rounding: to multiples of 1/16 towards zero, everything of size 1000 and more overflows. -/
def toyRound (q : ℚ) : Fp :=
  if 1000 ≤ q then .inf false else if q ≤ -1000 then .inf true else .num (Int.tdiv (16 * q.num) q.den / 16)

/-- A rounded square root: exact for 25, 0 for 0, otherwise 1 (nothing is assumed about it). -/
def toyRoot (q : ℚ) : ℚ := if q = 25 then 5 else if q = 0 then 0 else 1

theorem toy_ieee : IEEE (Fp.arith toyRound toyRoot) Fp.IsFin Fp.IsZero Fp.IsNaN :=
  Fp.ieee _ _ (by decide +kernel) (by decide +kernel)

/-- The matrix `[[2, 1], [1, 2]]`. -/
def fpE : Nat → Fp := fun k => if k = 0 ∨ k = 3 then .num 2 else .num 1

/-- C69: right-hand side and initial solution 0 - the exact solution is there from the start. -/
theorem fp_zero (k : Nat) (hk : 1 ≤ k) (n : Nat) : ∃ pl, Planner.empty.setupAll boxG (boxCalls fpE) = some pl ∧
    (Ensures (cg (Fp.arith toyRound toyRoot) boxG pl 20 k) n (boxStore .nan (fun _ => .num 0) fun _ => .num 0) fun _ s' =>
      Everywhere boxG (sols (boxCalls fpE)) s' Fp.IsNaN) ∧
    (Ensures (biCGStab (Fp.arith toyRound toyRoot) boxG pl 20 k) n (boxStore .nan (fun _ => .num 0) fun _ => .num 0) fun _ s' =>
      Everywhere boxG (sols (boxCalls fpE)) s' Fp.IsNaN) ∧
    Ensures (gmres (Fp.arith toyRound toyRoot) boxG pl 20 10 k) n (boxStore .nan (fun _ => .num 0) fun _ => .num 0) fun _ s' =>
      Everywhere boxG (sols (boxCalls fpE)) s' Fp.IsNaN := by
  have hb : Everywhere boxG (rhss (boxCalls fpE)) (boxStore .nan (fun _ => .num 0) fun _ => .num 0) Fp.IsZero := box_rhs fun _ _ => rfl
  have hx : Everywhere boxG (sols (boxCalls fpE)) (boxStore .nan (fun _ => .num 0) fun _ => .num 0) Fp.IsZero := box_sol fun _ _ => rfl
  have hc : AllCoefs boxG (boxCalls fpE) Fp.IsFin := box_coefs fun k _ => by unfold fpE; split <;> exact ⟨_, rfl⟩
  obtain ⟨pl, hpl, h1⟩ := c69_cg_zero_rhs toy_ieee boxSystem n _ k hk hb hc
  obtain ⟨pl2, hpl2, h2⟩ := c69_bicgstab_zero_rhs toy_ieee boxSystem n _ k hk hb hc
  obtain ⟨pl3, hpl3, h3⟩ := c69_gmres_zero_rhs toy_ieee boxSystem n _ 10 (by decide) k hk hb hx hc
  rw [hpl] at hpl2 hpl3
  cases hpl2
  cases hpl3
  exact ⟨pl, hpl, h1, h2, h3⟩

/-- C70: one infinite element in the right-hand side (3, ∞). -/
theorem fp_inf (k : Nat) (hk : 1 ≤ k) (n : Nat) : ∃ pl, Planner.empty.setupAll boxG (boxCalls fpE) = some pl ∧
    (Ensures (cg (Fp.arith toyRound toyRoot) boxG pl 20 k) n (boxStore .nan (fun _ => .num 0) fun p => if p = 0 then .num 3 else .inf false)
      fun _ s' => Everywhere boxG (sols (boxCalls fpE)) s' Fp.IsNaN) ∧
    (Ensures (biCGStab (Fp.arith toyRound toyRoot) boxG pl 20 k) n
      (boxStore .nan (fun _ => .num 0) fun p => if p = 0 then .num 3 else .inf false) fun _ s' =>
      Everywhere boxG (sols (boxCalls fpE)) s' Fp.IsNaN) ∧
    Ensures (gmres (Fp.arith toyRound toyRoot) boxG pl 20 10 k) n
      (boxStore .nan (fun _ => .num 0) fun p => if p = 0 then .num 3 else .inf false) fun _ s' =>
      Everywhere boxG (sols (boxCalls fpE)) s' Fp.IsNaN := by
  have hb : Somewhere boxG (rhss (boxCalls fpE)) (boxStore .nan (fun _ => .num 0) fun p => if p = 0 then .num 3 else .inf false)
      fun v => ¬Fp.IsFin v := ⟨⟨6, 0, 0, 0⟩, List.mem_singleton_self _, 1, List.mem_cons_of_mem _ (List.mem_singleton_self _), by
        rintro ⟨q, h⟩
        cases h⟩
  obtain ⟨pl, hpl, h1⟩ := c70_cg_input toy_ieee boxSystem n _ k hk (Or.inl hb)
  obtain ⟨pl2, hpl2, h2⟩ := c70_bicgstab_input toy_ieee boxSystem n _ k hk (Or.inl hb)
  obtain ⟨pl3, hpl3, h3⟩ := c70_gmres_input toy_ieee boxSystem n _ 10 (by decide) k hk (Or.inl hb)
  rw [hpl] at hpl2 hpl3
  cases hpl2
  cases hpl3
  exact ⟨pl, hpl, h1, h2, h3⟩

/-- C70: one infinite coefficient; the hypotheses of all theorems about coefficients hold. -/
theorem fp_coef : SomeCoef boxG (boxCalls fun k => if k = 2 then Fp.inf true else .num 2) fun v => ¬Fp.IsFin v :=
  box_some 2 (by decide) (by rintro ⟨q, h⟩; cases h)

/-! ## Exact arithmetic with undefined division -/

section
variable {V : Type} [Field V]

/-- The matrix `[[2, 1], [1, 2]]`. -/
def exE (V : Type) [Field V] : Nat → Option V := fun k => some (if k = 0 ∨ k = 3 then 2 else 1)

/-- The matrix `[[2, 0], [0, 2]]` (zeros are stored). -/
def diE (V : Type) [Field V] : Nat → Option V := fun k => some (if k = 0 ∨ k = 3 then 2 else 0)

/-- Initial solution 0, right-hand side (3, 4). -/
def exStore (V : Type) [Field V] : Cell Nat → Option V := boxStore none (fun _ => some 0) fun p => some (if p = 0 then 3 else 4)

theorem ex_defined : Defined boxG (boxCalls (exE V)) (exStore V) where
  coefs := box_coefs fun _ _ => rfl
  rhs := box_rhs fun _ _ => rfl
  sol := box_sol fun _ _ => rfl

theorem di_defined : Defined boxG (boxCalls (diE V)) (exStore V) where
  coefs := box_coefs fun _ _ => rfl
  rhs := box_rhs fun _ _ => rfl
  sol := box_sol fun _ _ => rfl

theorem box_card {e : Nat → V} : (clientUnknowns boxG (boxCalls e)).card = 2 := by rw [box_unknowns]; decide

def boxEnum : Fin 2 → Σ _ : Nat, Nat := fun i => ⟨0, i⟩

theorem ex_spd : SPD (exactMatrix boxG (boxCalls (exE ℝ))) := by
  have hmem : ∀ i, boxEnum i ∈ clientUnknowns boxG (boxCalls (exE ℝ)) := by rw [box_unknowns]; decide
  have hbij : Function.Bijective fun i => (⟨boxEnum i, hmem i⟩ : clientUnknowns boxG (boxCalls (exE ℝ))) := by
    have hi : ∀ i j, boxEnum i = boxEnum j → i = j := by decide
    have hs : ∀ u ∈ clientUnknowns boxG (boxCalls (exE ℝ)), ∃ i, boxEnum i = u := by rw [box_unknowns]; decide
    refine ⟨fun i j h => hi i j (congrArg Subtype.val h), fun u => ?_⟩
    obtain ⟨i, h⟩ := hs u.1 u.2
    exact ⟨i, Subtype.ext h⟩
  let e := (Equiv.ofBijective _ hbij).symm
  refine SPD_transfer e _ !![2, 1; 1, 2] (fun u u' => ?_) ⟨?_, ?_⟩
  · obtain ⟨i, rfl⟩ := e.symm.surjective u
    obtain ⟨j, rfl⟩ := e.symm.surjective u'
    rw [Equiv.apply_symm_apply, Equiv.apply_symm_apply]
    show ((clientStored (boxCalls (exE ℝ)) ⟨0, i⟩).map fun t => if t.1 = ⟨0, j⟩ then t.2.getD 0 else 0).sum = _
    rw [box_stored _ i.2]
    fin_cases i <;> fin_cases j <;> simp [exE]
  · ext i j
    fin_cases i <;> fin_cases j <;> rfl
  · intro x hx
    have h : x ⬝ᵥ !![2, 1; 1, (2 : ℝ)] *ᵥ x = x 0 ^ 2 + x 1 ^ 2 + (x 0 + x 1) ^ 2 := by
      simp [dotProduct, _root_.Matrix.mulVec, Fin.sum_univ_two]
      ring
    rw [h]
    by_contra hn
    apply hx
    have e0 : x 0 = 0 := by nlinarith [sq_nonneg (x 0), sq_nonneg (x 1), sq_nonneg (x 0 + x 1)]
    have e1 : x 1 = 0 := by nlinarith [sq_nonneg (x 0), sq_nonneg (x 1), sq_nonneg (x 0 + x 1)]
    funext i
    fin_cases i <;> assumption

/-- C72 for `[[2, 1], [1, 2]] x = (3, 4)` from 0, in exact real arithmetic: CG has the exact solution after at most two steps, after three
or more nothing is defined; BiCGStab is undefined after three steps, GMRES with restart length 10 after one. -/
theorem ex_overrun (n : Nat) : ∃ pl, Planner.empty.setupAll boxG (boxCalls (exE ℝ)) = some pl ∧
    (∃ k0, k0 ≤ 2 ∧ ∃ y, exactMatrix boxG (boxCalls (exE ℝ)) *ᵥ y = exactVector boxG (boxCalls (exE ℝ)) (rhss (boxCalls (exE ℝ))) (exStore ℝ) ∧
      (Ensures (cg (partialArith Real.sqrt) boxG pl 20 k0) n (exStore ℝ) fun _ s' => ∃ y, SolutionIs boxG (boxCalls (exE ℝ)) s' y) ∧
      ∀ k, k0 < k → Ensures (cg (partialArith Real.sqrt) boxG pl 20 k) n (exStore ℝ) fun _ s' =>
        SolutionUndefined boxG (boxCalls (exE ℝ)) s') ∧
    (Ensures (biCGStab (partialArith Real.sqrt) boxG pl 20 3) n (exStore ℝ) fun _ s' => SolutionUndefined boxG (boxCalls (exE ℝ)) s') ∧
    Ensures (gmres (partialArith Real.sqrt) boxG pl 20 10 1) n (exStore ℝ) fun _ s' => SolutionUndefined boxG (boxCalls (exE ℝ)) s' := by
  have hroot : Real.sqrt 0 = 0 := Real.sqrt_zero
  obtain ⟨pl, hpl, k0, h1, h2, ⟨y, h3, -⟩, h5⟩ := c72_cg_overrun (boxSystem (e := exE ℝ)) ex_defined hroot n ex_spd
  obtain ⟨pl2, hpl2, h6⟩ := c72_bicgstab_overrun (boxSystem (e := exE ℝ)) ex_defined hroot n
  obtain ⟨pl3, hpl3, h7⟩ := c72_gmres_restart (boxSystem (e := exE ℝ)) ex_defined hroot n (fun a ha => Real.mul_self_sqrt ha) (m := 10)
    (by rw [box_unknowns]; decide)
  rw [hpl] at hpl2 hpl3
  cases hpl2
  cases hpl3
  refine ⟨pl, hpl, ⟨k0, ?_, y, h3, h2 k0 (Nat.le_refl _), h5⟩, h6 3 (by rw [box_unknowns]; decide), h7 1 (Nat.le_refl 1)⟩
  rw [box_unknowns] at h1
  exact h1

variable [DecidableEq V]

theorem di_mulVec (z : clientUnknowns boxG (boxCalls (diE V)) → V) : exactMatrix boxG (boxCalls (diE V)) *ᵥ z = (2 : V) • z := by
  funext u
  have h := congrFun (exact_product (root := id) boxSystem (di_defined (V := V)).coefs z) u
  have h2 : ∀ u : clientUnknowns boxG (boxCalls (diE V)), rowTimes (partialArith id) boxG (boxCalls (diE V)) (fun u => some (z u)) u = some (2 * z u) := by
    rintro ⟨u, hu⟩
    have hu' := hu
    have m0 : (⟨0, 0⟩ : Σ _ : Nat, Nat) ∈ clientUnknowns boxG (boxCalls (diE V)) := by rw [box_unknowns]; decide
    have m1 : (⟨0, 1⟩ : Σ _ : Nat, Nat) ∈ clientUnknowns boxG (boxCalls (diE V)) := by rw [box_unknowns]; decide
    rw [box_unknowns, Finset.mem_insert, Finset.mem_singleton] at hu'
    unfold rowTimes
    rcases hu' with rfl | rfl
    all_goals
      rw [box_stored _ (by decide)]
      simp only [List.foldl_cons, List.foldl_nil, dif_pos m0, dif_pos m1]
      simp [partialArith, diE]
  rw [h2] at h
  exact (Option.some.inj h).symm

theorem di_rhs : exactVector boxG (boxCalls (diE V)) (rhss (boxCalls (diE V))) (exStore V) = fun u => if u.1.2 = 0 then 3 else 4 := by
  funext ⟨u, hu⟩
  rw [box_unknowns, Finset.mem_insert, Finset.mem_singleton] at hu
  rcases hu with rfl | rfl <;> rfl

theorem di_dot : (exactVector boxG (boxCalls (diE V)) (rhss (boxCalls (diE V))) (exStore V)) ⬝ᵥ
    (exactVector boxG (boxCalls (diE V)) (rhss (boxCalls (diE V))) (exStore V)) = 25 := by
  rw [di_rhs]
  unfold dotProduct
  rw [Finset.sum_coe_sort (clientUnknowns boxG (boxCalls (diE V))) fun u => (if u.2 = 0 then (3 : V) else 4) * if u.2 = 0 then 3 else 4,
    box_unknowns, Finset.sum_insert (by decide), Finset.sum_singleton]
  norm_num

end

/-- C69: with the matrix `2 I` and the right-hand side (3, 4), CG finds the solution in one step: the second recorded squared norm is 0,
so that after three steps nothing is left. -/
theorem di_cg_norm (n : Nat) : ∃ pl, Planner.empty.setupAll boxG (boxCalls (diE ℚ)) = some pl ∧
    Ensures (cg (partialArith toyRoot) boxG pl 20 3) n (exStore ℚ) fun c s' =>
      (∃ a, c.history[1]? = some a ∧ s' (.fut a.fut) = some 0) ∧ Everywhere boxG (sols (boxCalls (diE ℚ))) s' fun v => v = none := by
  have hroot : toyRoot 0 = 0 := by decide +kernel
  obtain ⟨pl, hpl, x, p, q, r, ρ, π, R, hens⟩ := cg_recurrence (partialArith toyRoot) (boxSystem (e := diE ℚ)) n (exStore ℚ)
  obtain ⟨pl2, hpl2, h2⟩ := c69_cg_zero_norm (partial_ieee hroot) (boxSystem (e := diE ℚ)) n (exStore ℚ) 3
  rw [hpl] at hpl2
  cases hpl2
  refine ⟨pl, hpl, ?_⟩
  rw [exact_rhs boxSystem di_defined.rhs, exact_sol di_defined.sol] at R
  set b := exactVector boxG (boxCalls (diE ℚ)) (rhss (boxCalls (diE ℚ))) (exStore ℚ) with hb
  set x0 := exactVector boxG (boxCalls (diE ℚ)) (sols (boxCalls (diE ℚ))) (exStore ℚ) with hx0
  have hbb : b ⬝ᵥ b = 25 := di_dot
  have hcurv : b ⬝ᵥ exactMatrix boxG (boxCalls (diE ℚ)) *ᵥ b = 50 := by
    rw [di_mulVec, dotProduct_smul, hbb]; norm_num
  have hreg : CGRegular (exactMatrix boxG (boxCalls (diE ℚ))) x0 b 1 := by
    intro i hi
    obtain rfl : i = 0 := by omega
    show b ⬝ᵥ b ≠ 0 ∧ b ⬝ᵥ exactMatrix boxG (boxCalls (diE ℚ)) *ᵥ b ≠ 0
    rw [hbb, hcurv]
    norm_num
  obtain ⟨g1, g2⟩ := (cg_partial (exact_product boxSystem di_defined.coefs) R 1).2 hreg
  have hr1 : (Textbook.cg (exactMatrix boxG (boxCalls (diE ℚ))) x0 b 1).r = 0 := by
    rw [cg_r]
    show b - ((b ⬝ᵥ b) / (b ⬝ᵥ exactMatrix boxG (boxCalls (diE ℚ)) *ᵥ b)) • (exactMatrix boxG (boxCalls (diE ℚ)) *ᵥ b) = 0
    rw [hbb, hcurv, di_mulVec, smul_smul]
    norm_num
  have hrho := (cg_scalars (exact_product boxSystem di_defined.coefs) R g1 g2).1
  rw [hr1] at hrho
  simp only [dotProduct_zero] at hrho
  have h3 : Ensures (cg (partialArith toyRoot) boxG pl 20 3) n (exStore ℚ) fun c s' => ∃ a, c.history[1]? = some a ∧ s' (.fut a.fut) = some 0 := by
    refine ensures_weaken (hens 3) ?_
    rintro c s' ⟨-, -, hl, hr⟩
    have h1 : 1 < c.history.length := by omega
    exact ⟨_, List.getElem?_eq_getElem h1, (hr 1 _ (List.getElem?_eq_getElem h1)).trans hrho⟩
  obtain ⟨c, n', ts, q1, q2, q3⟩ := h3
  obtain ⟨c', n'', ts', q1', q2', q3'⟩ := h2
  rw [q1] at q1'
  cases q1'
  refine ⟨c, n', ts, q1, q2, fun M' hs hd => ?_⟩
  obtain ⟨a, ha, hz⟩ := q3 M' hs hd
  exact ⟨⟨a, ha, hz⟩, q3' M' hs hd 1 a ha hz (by omega)⟩

/-- C69: GMRES on the same system: the second basis vector vanishes, its recorded length is 0, and with restart length 2 nothing of the
solution is left. -/
theorem di_gmres_entry (n : Nat) : ∃ pl, Planner.empty.setupAll boxG (boxCalls (diE ℚ)) = some pl ∧
    Ensures (gmres (partialArith toyRoot) boxG pl 20 2 1) n (exStore ℚ) fun c s' =>
      s' (.fut (c.inner 1 0).fut) = some 0 ∧ Everywhere boxG (sols (boxCalls (diE ℚ))) s' fun v => ¬v.isSome = true := by
  have hroot : toyRoot 0 = 0 := by decide +kernel
  obtain ⟨pl, hpl, x, B, H, h0, R, -, hens⟩ := gmres_recurrence (partialArith toyRoot) 2 (boxSystem (e := diE ℚ)) n (exStore ℚ)
  obtain ⟨pl2, hpl2, h2⟩ := c69_gmres_zero_entry (partial_ieee hroot) (boxSystem (e := diE ℚ)) n (exStore ℚ) 2 0
  rw [hpl] at hpl2
  cases hpl2
  refine ⟨pl, hpl, ?_⟩
  have R0 := R 0
  rw [exact_rhs boxSystem di_defined.rhs] at R0
  have h0' : x 0 = fun u => some (0 : ℚ) := by
    funext ⟨u, hu⟩
    rw [h0]
    rw [box_unknowns, Finset.mem_insert, Finset.mem_singleton] at hu
    rcases hu with rfl | rfl <;> rfl
  rw [h0'] at R0
  set b := exactVector boxG (boxCalls (diE ℚ)) (rhss (boxCalls (diE ℚ))) (exStore ℚ) with hb
  have hbb : b ⬝ᵥ b = 25 := di_dot
  set N := exactMatrix boxG (boxCalls (diE ℚ)) with hN
  have hres : b - N *ᵥ (fun _ => (0 : ℚ)) = b := by
    rw [show (fun _ => (0 : ℚ)) = (0 : clientUnknowns boxG (boxCalls (diE ℚ)) → ℚ) from rfl, _root_.Matrix.mulVec_zero, sub_zero]
  have hr25 : toyRoot 25 = 5 := by decide +kernel
  have hB := gm_basis (j := 0) (exact_product boxSystem di_defined.coefs) R0 (by omega) (by
    intro i hi
    obtain rfl : i = 0 := by omega
    show toyRoot ((b - N *ᵥ fun _ => (0 : ℚ)) ⬝ᵥ (b - N *ᵥ fun _ => (0 : ℚ))) ≠ 0
    rw [hres, hbb, hr25]
    norm_num)
  have hent := (gm_column (exact_product boxSystem di_defined.coefs) R0 (j := 0) (by omega) hB).1 1 (Nat.le_refl 1)
  have hz : hess toyRoot N (b - N *ᵥ fun _ => (0 : ℚ)) 1 0 = 0 := by
    rw [hres]
    have ha0 : arnoldi toyRoot N b 0 = (1 / 5 : ℚ) • b := by
      show (1 / toyRoot (b ⬝ᵥ b)) • b = _
      rw [hbb, hr25]
    have hraw : arnoldiRaw toyRoot N b 1 = 0 := by
      show N *ᵥ arnoldi toyRoot N b 0 - (arnoldi toyRoot N b 0 ⬝ᵥ N *ᵥ arnoldi toyRoot N b 0) • arnoldi toyRoot N b 0 = 0
      rw [ha0, di_mulVec, smul_dotProduct, dotProduct_smul, dotProduct_smul, hbb, smul_smul, smul_smul]
      norm_num
    show (if (1 : Nat) ≤ 0 then _ else toyRoot (arnoldiRaw toyRoot N b 1 ⬝ᵥ arnoldiRaw toyRoot N b 1)) = 0
    rw [if_neg (by omega), hraw, dotProduct_zero, hroot]
  have h3 := hens 0
  obtain ⟨c, n', ts, q1, q2, q3⟩ := h3
  obtain ⟨c', n'', ts', q1', q2', q3'⟩ := h2
  rw [q1] at q1'
  cases q1'
  refine ⟨c, n', ts, q1, q2, fun M' hs hd => ?_⟩
  have he := ((q3 M' hs hd).2 1 0 (by omega) (by omega)).trans (hent.trans (by rw [hz]))
  exact ⟨he, q3' M' hs hd 0 (by omega) he⟩

end Verif.Special
