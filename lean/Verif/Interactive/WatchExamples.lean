import Verif.Interactive.WatchProps
import Verif.Interactive.Examples
import Mathlib.Data.Rat.Sqrt

/-! # Examples for C84 -/
set_option linter.dupNamespace false
set_option linter.unusedSectionVars false
namespace Verif.Interactive
open Verif.Runtime Verif.Vector Verif.Matrix Verif.Solver Verif.Planner Verif.Special Verif.Textbook
open _root_.Matrix (mulVec_zero mulVec_sub)
open scoped _root_.Matrix

section
variable {V : Type} [Field V] [DecidableEq V] {e : Nat → Option V}

/-- A vector with two elements. -/
def vec2 (e : Nat → Option V) (a c : V) : clientUnknowns boxG (boxCalls e) → V := fun u => if u.1.2 = 0 then a else c

theorem box_mem (p : Nat) (hp : p < 2) : (⟨0, p⟩ : Σ _ : Nat, Nat) ∈ clientUnknowns boxG (boxCalls e) := by
  rw [box_unknowns]
  obtain rfl | rfl : p = 0 ∨ p = 1 := by omega
  all_goals decide

theorem box_forall {C : clientUnknowns boxG (boxCalls e) → Prop} (h : ∀ p, ∀ hp : p < 2, C ⟨⟨0, p⟩, box_mem p hp⟩) : ∀ u, C u := by
  rintro ⟨u, hu⟩
  have hu' := hu
  rw [box_unknowns, Finset.mem_insert, Finset.mem_singleton] at hu'
  rcases hu' with rfl | rfl
  · exact h 0 (by decide)
  · exact h 1 (by decide)

theorem vec2_dot (a c a' c' : V) : vec2 e a c ⬝ᵥ vec2 e a' c' = a * a' + c * c' := by
  unfold dotProduct vec2
  rw [Finset.sum_coe_sort (clientUnknowns boxG (boxCalls e)) fun u => (if u.2 = 0 then a else c) * if u.2 = 0 then a' else c',
    box_unknowns, Finset.sum_insert (by decide), Finset.sum_singleton]
  simp

theorem vec2_smul (t a c : V) : t • vec2 e a c = vec2 e (t * a) (t * c) := by
  funext u; unfold vec2; simp only [Pi.smul_apply, smul_eq_mul]; split <;> rfl

theorem vec2_add (a c a' c' : V) : vec2 e a c + vec2 e a' c' = vec2 e (a + a') (c + c') := by
  funext u; unfold vec2; simp only [Pi.add_apply]; split <;> rfl

theorem vec2_sub (a c a' c' : V) : vec2 e a c - vec2 e a' c' = vec2 e (a - a') (c - c') := by
  funext u; unfold vec2; simp only [Pi.sub_apply]; split <;> rfl

theorem vec2_zero : (0 : clientUnknowns boxG (boxCalls e) → V) = vec2 e 0 0 := by
  funext u; unfold vec2; split <;> rfl

theorem vec2_mul (a c : V) : exactMatrix boxG (boxCalls e) *ᵥ vec2 e a c =
    vec2 e ((e 0).getD 0 * a + (e 1).getD 0 * c) ((e 2).getD 0 * a + (e 3).getD 0 * c) := by
  funext u
  refine box_forall (C := fun u => (exactMatrix boxG (boxCalls e) *ᵥ vec2 e a c) u = vec2 e _ _ u) (fun p hp => ?_) u
  have h1 : ∀ u', exactMatrix boxG (boxCalls e) ⟨⟨0, p⟩, box_mem p hp⟩ u' = vec2 e ((e (2 * p)).getD 0) ((e (2 * p + 1)).getD 0) u' :=
    box_forall fun q hq => by
      show ((clientStored (boxCalls e) ⟨0, p⟩).map fun t => if t.1 = ⟨0, q⟩ then t.2.getD 0 else 0).sum = if q = 0 then _ else _
      rw [box_stored _ hp]
      obtain rfl | rfl : q = 0 ∨ q = 1 := by omega
      all_goals simp
  show (fun u' => exactMatrix boxG (boxCalls e) ⟨⟨0, p⟩, box_mem p hp⟩ u') ⬝ᵥ vec2 e a c = if p = 0 then _ else _
  rw [funext h1, vec2_dot]
  obtain rfl | rfl : p = 0 ∨ p = 1 := by omega
  all_goals simp

theorem box_rhs_eq {d : Option V} {x : Nat → Option V} {a c : V} :
    exactVector boxG (boxCalls e) (rhss (boxCalls e)) (boxStore d x fun p => some (if p = 0 then a else c)) = vec2 e a c :=
  funext (box_forall fun p hp => by obtain rfl | rfl : p = 0 ∨ p = 1 := by omega
                                    all_goals rfl)

theorem box_sol_eq {d : Option V} {b : Nat → Option V} {a c : V} :
    exactVector boxG (boxCalls e) (sols (boxCalls e)) (boxStore d (fun p => some (if p = 0 then a else c)) b) = vec2 e a c :=
  funext (box_forall fun p hp => by obtain rfl | rfl : p = 0 ∨ p = 1 := by omega
                                    all_goals rfl)

/-- Initial solution `(x, y)`, right-hand side `(a, c)`. -/
def abStore (x y a c : V) : Cell Nat → Option V := boxStore none (fun p => some (if p = 0 then x else y)) fun p => some (if p = 0 then a else c)

theorem ab_defined (he : ∀ k, k < 4 → (e k).isSome = true) (x y a c : V) : Defined boxG (boxCalls e) (abStore x y a c) where
  coefs := box_coefs he
  rhs := box_rhs fun _ _ => rfl
  sol := box_sol fun _ _ => rfl

theorem box_stores : ∃ u ∈ clientUnknowns boxG (boxCalls e), clientStored (boxCalls e) u ≠ [] :=
  ⟨⟨0, 0⟩, box_mem 0 (by decide), by rw [box_stored _ (by decide)]; simp⟩

end

/-- C84: CG on `[[2, 1], [1, 2]] x = (3, 4)` from 0 with the tolerance 1/100 ends within two steps. -/
theorem ex_watch_cg (n : Nat) : ∃ pl, Planner.empty.setupAll boxG (boxCalls (exE ℝ)) = some pl ∧
    Ends (cgWatch (partialArith Real.sqrt) boxG pl 20 (above (1 / 100))) .start n (abStore 0 0 3 4) fun ctl seen s' => ∃ t k z,
      ctl = .stop t k ∧ k ≤ 2 ∧ seen.length = k + 1 ∧ SolutionIs boxG (boxCalls (exE ℝ)) s' z ∧
      residualSq (exactMatrix boxG (boxCalls (exE ℝ))) (vec2 _ 3 4) z ≤ 1 / 100 := by
  obtain ⟨pl, hpl, g1, g2, g3⟩ := c84_cg_converges (boxSystem (e := exE ℝ)) (ab_defined (fun _ _ => rfl) 0 0 3 4) Real.sqrt_zero box_stores n
    ex_spd (box_sol_eq.trans vec2_zero.symm) (1 / 100) (by norm_num)
  refine ⟨pl, hpl, g1, g2, fun i w hw he => ?_⟩
  obtain ⟨t, k, z, f1, f2, f3, f4, f5, -⟩ := g3 i w hw he
  refine ⟨t, k, z, f1, by rw [box_unknowns] at f2; exact f2, f3, f4, ?_⟩
  rw [show exactVector boxG (boxCalls (exE ℝ)) (rhss (boxCalls (exE ℝ))) (abStore 0 0 3 4) = vec2 _ 3 4 from box_rhs_eq] at f5
  exact f5

/-- C84: from `(1, 1)` instead, which is nearer to the solution `(2/3, 5/3)`, and with the tolerance 1/2, it never ends. -/
theorem ex_watch_warm (n : Nat) : ∃ pl, Planner.empty.setupAll boxG (boxCalls (exE ℝ)) = some pl ∧
    RunsForever (cgWatch (partialArith Real.sqrt) boxG pl 20 (above (1 / 2))) .start n (abStore 1 1 3 4) := by
  refine c84_cg_warm (boxSystem (e := exE ℝ)) (ab_defined (fun _ _ => rfl) 1 1 3 4) Real.sqrt_zero box_stores n ex_spd (1 / 2) _
    (vec2 _ 1 1) (vec2 _ 3 4) rfl box_sol_eq.symm box_rhs_eq.symm ?_ ?_
  · unfold residualSq
    rw [vec2_mul, vec2_sub, vec2_dot]
    norm_num [exE]
  · rw [vec2_mul, vec2_dot, vec2_dot]
    norm_num [exE]

/-- The first step of BiCGStab on `[[2, 1], [1, 2]] x = (3, 4)` from 0. -/
theorem ex_bi_one : (bi (exactMatrix boxG (boxCalls (exE ℚ))) (vec2 _ 0 0) (vec2 _ 3 4) 1).r = vec2 _ (49 / 1073) (245 / 2146) := by
  show (biStep _ _ (bi (exactMatrix boxG (boxCalls (exE ℚ))) (vec2 _ 0 0) (vec2 _ 3 4) 0)).r = _
  unfold biStep BiState.omega BiState.mid BiState.alpha BiState.denom BiState.dir bi
  simp only [vec2_zero, vec2_mul, vec2_dot, vec2_smul, vec2_sub, vec2_add]
  congr 1 <;> norm_num [exE]

/-- C84: BiCGStab on the same system from 0 with the tolerance 1/100 never ends. -/
theorem ex_watch_bi (n : Nat) : ∃ pl, Planner.empty.setupAll boxG (boxCalls (exE ℚ)) = some pl ∧
    RunsForever (biWatch (partialArith toyRoot) boxG pl 20 (above (1 / 100))) .start n (abStore 0 0 3 4) := by
  have hres : ∀ k, (bi (exactMatrix boxG (boxCalls (exE ℚ))) (vec2 _ 0 0) (vec2 _ 3 4) k).r =
      vec2 _ 3 4 - exactMatrix boxG (boxCalls (exE ℚ)) *ᵥ (bi (exactMatrix boxG (boxCalls (exE ℚ))) (vec2 _ 0 0) (vec2 _ 3 4) k).x := by
    intro k
    rw [bi_residual, mulVec_sub, ← vec2_zero, mulVec_zero, sub_zero]
  refine c84_bicgstab_never (boxSystem (e := exE ℚ)) (ab_defined (fun _ _ => rfl) 0 0 3 4) (by decide +kernel) box_stores n (1 / 100) 1
    (by rw [box_unknowns]; rfl) _ (vec2 _ 0 0) (vec2 _ 3 4) rfl box_sol_eq.symm box_rhs_eq.symm (fun k hk _ => ?_) ?_
  · unfold residualSq
    rw [← hres]
    obtain rfl | rfl : k = 0 ∨ k = 1 := by omega
    · show _ < vec2 _ 3 4 ⬝ᵥ vec2 _ 3 4
      rw [vec2_dot]
      norm_num
    · rw [ex_bi_one, vec2_dot]
      norm_num
  · rw [ex_bi_one, vec2_dot]
    norm_num

/-- The identity matrix. -/
def idE : Nat → Option ℚ := fun k => some (if k = 0 ∨ k = 3 then 1 else 0)

theorem id_one : exactMatrix boxG (boxCalls idE) = 1 := by
  have h : ∀ u v, exactMatrix boxG (boxCalls idE) u v = (1 : _root_.Matrix _ _ ℚ) u v :=
    box_forall fun p hp => box_forall fun q hq => by
      show ((clientStored (boxCalls idE) ⟨0, p⟩).map fun t => if t.1 = ⟨0, q⟩ then t.2.getD 0 else 0).sum = _
      rw [box_stored _ hp, _root_.Matrix.one_apply]
      obtain rfl | rfl : p = 0 ∨ p = 1 := by omega
      all_goals
        obtain rfl | rfl : q = 0 ∨ q = 1 := by omega
        all_goals simp [idE]
  ext u v
  exact h u v

/-- C84: GMRES with restart length 1 on `I x = (3/2, 2)` from 0 with the tolerance 1/5 never ends. -/
theorem ex_watch_gmres (n : Nat) : ∃ pl, Planner.empty.setupAll boxG (boxCalls idE) = some pl ∧
    RunsForever (gmresWatch (partialArith Rat.sqrt) boxG pl 20 1 (above (1 / 5))) .start n (abStore 0 0 (3 / 2) 2) := by
  refine c84_gmres_never (boxSystem (e := idE)) (ab_defined (fun _ _ => rfl) 0 0 (3 / 2) 2) (by decide +kernel) box_stores n
    (fun c => by rw [pow_two, Rat.sqrt_eq]) id_one (1 / 5) (5 / 2) ?_ fun j => ?_
  · unfold residualSq
    rw [← id_one, show exactVector boxG (boxCalls idE) (rhss (boxCalls idE)) (abStore 0 0 (3 / 2) 2) = vec2 _ (3 / 2) 2 from box_rhs_eq,
      show exactVector boxG (boxCalls idE) (sols (boxCalls idE)) (abStore 0 0 (3 / 2) 2) = vec2 _ 0 0 from box_sol_eq, vec2_mul, vec2_sub,
      vec2_dot]
    norm_num [idE]
  · have h : (1 : ℤ) ≤ (5 - 2 * j) ^ 2 := by
      have : (5 - 2 * j) ≠ 0 := by omega
      have := sq_pos_of_ne_zero this
      omega
    have h2 : (1 : ℚ) ≤ (5 - 2 * j) ^ 2 := by exact_mod_cast h
    nlinarith

/-- C84: on `I x = (3, 4)` from 0 it ends, after exactly five steps. -/
theorem ex_watch_gmres_whole (n : Nat) : ∃ pl, Planner.empty.setupAll boxG (boxCalls idE) = some pl ∧
    Ends (gmresWatch (partialArith Rat.sqrt) boxG pl 20 1 (above (1 / 5))) .start n (abStore 0 0 3 4) fun ctl seen s' =>
      (∃ t, ctl = .stop t 5) ∧ seen.length = 6 ∧
      SolutionIs boxG (boxCalls idE) s' (exactVector boxG (boxCalls idE) (rhss (boxCalls idE)) (abStore 0 0 3 4)) := by
  refine c84_gmres_whole (boxSystem (e := idE)) (ab_defined (fun _ _ => rfl) 0 0 3 4) (by decide +kernel) box_stores n
    (fun c => by rw [pow_two, Rat.sqrt_eq]) id_one (1 / 5) 5 ?_ (by norm_num) (by norm_num)
  unfold residualSq
  rw [← id_one, show exactVector boxG (boxCalls idE) (rhss (boxCalls idE)) (abStore 0 0 3 4) = vec2 _ 3 4 from box_rhs_eq,
    show exactVector boxG (boxCalls idE) (sols (boxCalls idE)) (abStore 0 0 3 4) = vec2 _ 0 0 from box_sol_eq, vec2_mul, vec2_sub, vec2_dot]
  norm_num [idE]

/-- C84: with a NaN in the right-hand side none of the three loops ends. -/
example (n : Nat) : ∃ pl, Planner.empty.setupAll boxG (boxCalls fpE) = some pl ∧
    RunsForever (cgWatch (Fp.arith toyRound toyRoot) boxG pl 20 fun _ => fpTest) .start n
      (boxStore .nan (fun _ => .num 0) fun p => if p = 1 then .nan else .num 1) ∧
    RunsForever (biWatch (Fp.arith toyRound toyRoot) boxG pl 20 fun _ => fpTest) .start n
      (boxStore .nan (fun _ => .num 0) fun p => if p = 1 then .nan else .num 1) ∧
    RunsForever (gmresWatch (Fp.arith toyRound toyRoot) boxG pl 20 3 fun _ => fpTest) .start n
      (boxStore .nan (fun _ => .num 0) fun p => if p = 1 then .nan else .num 1) := by
  refine c84_nan_input toy_ieee boxSystem n _ 3 ⟨⟨6, 0, 0, 0⟩, List.mem_cons_self .., 1, by decide, ?_⟩ _ fun i v hv => ?_
  · rfl
  · rw [show v = Fp.nan from hv]; rfl

end Verif.Interactive
