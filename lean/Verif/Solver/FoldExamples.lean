import Verif.Solver.Fold
import Verif.Solver.ClientExamples
import Mathlib.Analysis.Real.Sqrt
import Mathlib.Tactic.LinearCombination
import Mathlib.Tactic.NormNum

/-! # C68: two coupled blocks are two copies of one block -/
set_option linter.dupNamespace false
namespace Verif.Solver
open Verif.Runtime Verif.Vector Verif.Matrix Verif.Planner Verif.Textbook
open scoped _root_.Matrix
variable {V : Type} [Field V]

/-- Two blocks of two points: `2 I` on the diagonal blocks (one CSR, one COO), `I` coupling them. -/
def coupledCalls (V : Type) [Field V] : List (Setup Nat Nat V) :=
  [.addSol ⟨0, 0, 0, 0⟩, .addSol ⟨1, 0, 0, 0⟩, .addRhs ⟨2, 0, 0, 0⟩, .addRhs ⟨3, 0, 0, 0⟩,
   .addMatrix (.csr ⟨[0, 1], [0, 1], fun p k => decide (p = k), id, fun _ => 2⟩) 0 0,
   .addMatrix (.coo ⟨[0, 1], id, id, fun _ => 2⟩) 1 1,
   .addMatrix (.coo ⟨[0, 1], id, id, fun _ => 1⟩) 0 1, .addMatrix (.coo ⟨[0, 1], id, id, fun _ => 1⟩) 1 0]

/-- One block of two points with matrix `3 I`. -/
def soloCalls (V : Type) [Field V] : List (Setup Nat Nat V) :=
  [.addSol ⟨5, 0, 0, 0⟩, .addRhs ⟨6, 0, 0, 0⟩, .addMatrix (.coo ⟨[0, 1], id, id, fun _ => 3⟩) 0 0]

theorem coupledSystem : ClientSystem exG (coupledCalls V) 10 where
  valid := fun part p => by simp [exG]
  order := fun f l => List.reverse_perm l
  constructed := by
    intro c hc
    simp only [coupledCalls, List.mem_cons, List.not_mem_nil, or_false] at hc
    rcases hc with rfl | rfl | rfl | rfl | rfl | rfl | rfl | rfl
    all_goals first | rfl | trivial
  legal := by
    have hc : ∀ c ∈ coupledCalls V, c.Constructed exG := by
      intro c hc
      simp only [coupledCalls, List.mem_cons, List.not_mem_nil, or_false] at hc
      rcases hc with rfl | rfl | rfl | rfl | rfl | rfl | rfl | rfl
      all_goals first | rfl | trivial
    exact (c31_accepts_exactly exG (coupledCalls V) hc).1 ⟨_, rfl⟩
  noWorkspace := rfl
  lengths := rfl
  nonempty := Nat.succ_pos _
  data := by show List.Nodup [0, 1, 2, 3]; decide
  fresh := by show ∀ v ∈ [(⟨0, 0, 0, 0⟩ : Vec), ⟨1, 0, 0, 0⟩, ⟨2, 0, 0, 0⟩, ⟨3, 0, 0, 0⟩], v.data < 10; decide
  fits := by
    intro m d r hm vd vr h1 h2
    simp [mats, coupledCalls] at hm
    rcases hm with ⟨rfl, rfl, rfl⟩ | ⟨rfl, rfl, rfl⟩ | ⟨rfl, rfl, rfl⟩ | ⟨rfl, rfl, rfl⟩
    · refine ⟨(by decide : ∀ k ∈ [0, 1], id k ∈ [0, 1]), fun p => Iff.rfl, ?_⟩
      intro k _ p q _ _ h3 h4
      simp at h3 h4
      omega
    all_goals
      show ∀ k ∈ [0, 1], id k ∈ [0, 1]
      decide

theorem soloSystem : ClientSystem exG (soloCalls V) 20 where
  valid := fun part p => by simp [exG]
  order := fun f l => List.reverse_perm l
  constructed := by
    intro c hc
    simp only [soloCalls, List.mem_cons, List.not_mem_nil, or_false] at hc
    rcases hc with rfl | rfl | rfl
    all_goals first | rfl | trivial
  legal := by
    have hc : ∀ c ∈ soloCalls V, c.Constructed exG := by
      intro c hc
      simp only [soloCalls, List.mem_cons, List.not_mem_nil, or_false] at hc
      rcases hc with rfl | rfl | rfl
      all_goals first | rfl | trivial
    exact (c31_accepts_exactly exG (soloCalls V) hc).1 ⟨_, rfl⟩
  noWorkspace := rfl
  lengths := rfl
  nonempty := Nat.succ_pos _
  data := by show List.Nodup [5, 6]; decide
  fresh := by show ∀ v ∈ [(⟨5, 0, 0, 0⟩ : Vec), ⟨6, 0, 0, 0⟩], v.data < 20; decide
  fits := by
    intro m d r hm vd vr h1 h2
    simp [mats, soloCalls] at hm
    obtain ⟨rfl, rfl, rfl⟩ := hm
    show ∀ k ∈ [0, 1], id k ∈ [0, 1]
    decide

def coupledEnum : Fin 2 × Fin 2 → Σ _ : Nat, Nat := fun i => ⟨i.1, i.2⟩
def soloEnum : Fin 2 → Σ _ : Nat, Nat := fun i => ⟨0, i⟩

theorem pair_unknowns : clientUnknowns exG (coupledCalls V) = Finset.univ.image coupledEnum := by
  show ((Finset.range 2).sigma fun i => (((sols (coupledCalls V))[i]?).elim [] fun v => exG.points v.space).toFinset) = _
  have : (sols (coupledCalls V)) = [⟨0, 0, 0, 0⟩, ⟨1, 0, 0, 0⟩] := rfl
  rw [this]
  decide

theorem solo_unknowns : clientUnknowns exG (soloCalls V) = Finset.univ.image soloEnum := by
  show ((Finset.range 1).sigma fun i => (((sols (soloCalls V))[i]?).elim [] fun v => exG.points v.space).toFinset) = _
  have : (sols (soloCalls V)) = [⟨5, 0, 0, 0⟩] := rfl
  rw [this]
  decide

noncomputable def coupledEquiv : Fin 2 × Fin 2 ≃ clientUnknowns exG (coupledCalls V) :=
  Equiv.ofBijective (fun i => ⟨coupledEnum i, by rw [pair_unknowns]; exact Finset.mem_image_of_mem _ (Finset.mem_univ _)⟩)
    ⟨fun i j h => (by decide : ∀ i j, coupledEnum i = coupledEnum j → i = j) i j (congrArg Subtype.val h), fun ⟨u, hu⟩ => by
      rw [pair_unknowns] at hu
      obtain ⟨i, -, rfl⟩ := Finset.mem_image.1 hu
      exact ⟨i, rfl⟩⟩
noncomputable def soloEquiv : Fin 2 ≃ clientUnknowns exG (soloCalls V) :=
  Equiv.ofBijective (fun i => ⟨soloEnum i, by rw [solo_unknowns]; exact Finset.mem_image_of_mem _ (Finset.mem_univ _)⟩)
    ⟨fun i j h => (by decide : ∀ i j, soloEnum i = soloEnum j → i = j) i j (congrArg Subtype.val h), fun ⟨u, hu⟩ => by
      rw [solo_unknowns] at hu
      obtain ⟨i, -, rfl⟩ := Finset.mem_image.1 hu
      exact ⟨i, rfl⟩⟩

/-- Point `p` of either block is a copy of point `p` of the single block. -/
noncomputable def coupledFold (u : clientUnknowns exG (coupledCalls V)) : clientUnknowns exG (soloCalls V) := soloEquiv (coupledEquiv.symm u).2

/-- Initial guesses 0, right-hand sides (3, 4), wherever they are. -/
def coupledStore (V : Type) [Field V] : Cell Nat → V
  | .elem d p => if d < 2 ∨ d = 5 then 0 else if p = 0 then 3 else 4
  | _ => 0

theorem pair_copies : CopiesOf 2 exG (coupledCalls V) (coupledStore V) exG (soloCalls V) (coupledStore V) coupledFold where
  fibre := by
    intro v
    obtain ⟨j, rfl⟩ := soloEquiv.surjective v
    have : (Finset.univ.filter fun u => coupledFold (V := V) u = soloEquiv j) =
        (Finset.univ.filter fun i : Fin 2 × Fin 2 => i.2 = j).map coupledEquiv.toEmbedding := by
      ext u
      obtain ⟨i, rfl⟩ := coupledEquiv.surjective u
      simp [coupledFold]
    rw [this, Finset.card_map]
    clear this
    revert j
    decide
  rows := by
    intro u v
    obtain ⟨i, rfl⟩ := coupledEquiv.surjective u
    obtain ⟨j, rfl⟩ := soloEquiv.surjective v
    rw [Finset.sum_filter, ← coupledEquiv.sum_comp, Fintype.sum_prod_type]
    simp only [coupledFold, Equiv.symm_apply_apply, EmbeddingLike.apply_eq_iff_eq, Fin.sum_univ_two]
    obtain ⟨i, p⟩ := i
    show (_ + _ + (_ + _) : V) = clientCoef (soloCalls V) (soloEnum p) (soloEnum j)
    have e : ∀ i, (coupledEquiv (V := V) i).1 = coupledEnum i := fun _ => rfl
    simp only [e]
    fin_cases i <;> fin_cases p <;> fin_cases j <;> simp [clientCoef, coupledCalls, soloCalls, mats, coupledEnum, soloEnum, Op.coef] <;> norm_num
  sol := by
    intro u
    obtain ⟨⟨i, p⟩, rfl⟩ := coupledEquiv.surjective u
    simp only [coupledFold, Equiv.symm_apply_apply]
    show clientVec (sols (coupledCalls V)) _ (coupledEnum (i, p)) = clientVec (sols (soloCalls V)) _ (soloEnum p)
    fin_cases i <;> fin_cases p <;> rfl
  rhs := by
    intro u
    obtain ⟨⟨i, p⟩, rfl⟩ := coupledEquiv.surjective u
    simp only [coupledFold, Equiv.symm_apply_apply]
    show clientVec (rhss (coupledCalls V)) _ (coupledEnum (i, p)) = clientVec (rhss (soloCalls V)) _ (soloEnum p)
    fin_cases i <;> fin_cases p <;> rfl

theorem solo_mulVec (x : clientUnknowns exG (soloCalls V) → V) : clientMatrix exG (soloCalls V) *ᵥ x = (3 : V) • x := by
  funext v
  obtain ⟨j, rfl⟩ := soloEquiv.surjective v
  show ∑ w, clientCoef (soloCalls V) (soloEquiv j).1 w.1 * x w = _
  rw [← soloEquiv.sum_comp, Fin.sum_univ_two]
  have e : ∀ i, (soloEquiv (V := V) i).1 = soloEnum i := fun _ => rfl
  simp only [e]
  fin_cases j <;> simp [clientCoef, soloCalls, mats, soloEnum, Op.coef] <;> rfl

theorem solo_dot : clientRhs exG (soloCalls V) (coupledStore V) ⬝ᵥ clientRhs exG (soloCalls V) (coupledStore V) = 25 := by
  show ∑ w, clientRhs exG (soloCalls V) (coupledStore V) w * clientRhs exG (soloCalls V) (coupledStore V) w = _
  rw [← soloEquiv.sum_comp, Fin.sum_univ_two]
  have e0 : clientRhs exG (soloCalls V) (coupledStore V) (soloEquiv 0) = 3 := rfl
  have e1 : clientRhs exG (soloCalls V) (coupledStore V) (soloEquiv 1) = 4 := rfl
  rw [e0, e1]
  norm_num

theorem solo_sol : clientSol exG (soloCalls V) (coupledStore V) = 0 := by
  funext v
  obtain ⟨j, rfl⟩ := soloEquiv.surjective v
  rfl

/-- `c68_cg` applies to one step: both blocks get what the single block gets. -/
example [CharZero V] {A A' : Arith V} (hA : A.Exact) (hA' : A'.Exact) : ∃ pl pl', Planner.empty.setupAll exG (coupledCalls V) = some pl ∧
    Planner.empty.setupAll exG (soloCalls V) = some pl' ∧ ∃ x y : V,
      (Ensures (cg A' exG pl' 20 1) 0 (coupledStore V) fun _ t => t (.elem 5 0) = x ∧ t (.elem 5 1) = y) ∧
      Ensures (cg A exG pl 10 1) 0 (coupledStore V) fun _ t => (t (.elem 0 0) = x ∧ t (.elem 0 1) = y) ∧ t (.elem 1 0) = x ∧ t (.elem 1 1) = y := by
  obtain ⟨pl, pl', h1, h2, x, rec, E', E⟩ := c68_cg hA hA' coupledSystem soloSystem two_ne_zero pair_copies 1 0 0 (by
    intro i hi
    obtain rfl : i = 0 := by omega
    have hr : (Textbook.cg (clientMatrix exG (soloCalls V)) (clientSol exG (soloCalls V) (coupledStore V))
        (clientRhs exG (soloCalls V) (coupledStore V)) 0).r = clientRhs exG (soloCalls V) (coupledStore V) := rfl
    have hp : (Textbook.cg (clientMatrix exG (soloCalls V)) (clientSol exG (soloCalls V) (coupledStore V))
        (clientRhs exG (soloCalls V) (coupledStore V)) 0).p = clientRhs exG (soloCalls V) (coupledStore V) := rfl
    rw [hr, hp, solo_mulVec, dotProduct_smul, solo_dot]
    norm_num)
  refine ⟨pl, pl', h1, h2, x (soloEquiv 0), x (soloEquiv 1), ensures_weaken E' fun _ t h => ⟨h.1 (soloEquiv 0), h.1 (soloEquiv 1)⟩,
    ensures_weaken E fun _ t h => ⟨⟨?_, ?_⟩, ?_, ?_⟩⟩
  · exact (h.1 (coupledEquiv (0, 0))).trans (by rw [coupledFold, Equiv.symm_apply_apply])
  · exact (h.1 (coupledEquiv (0, 1))).trans (by rw [coupledFold, Equiv.symm_apply_apply])
  · exact (h.1 (coupledEquiv (1, 0))).trans (by rw [coupledFold, Equiv.symm_apply_apply])
  · exact (h.1 (coupledEquiv (1, 1))).trans (by rw [coupledFold, Equiv.symm_apply_apply])

/-- `c68_gmres_shrinks` applies over ℝ: the same cycle brings the two coupled blocks only `1 / √2` as far. -/
example {A A' : Arith ℝ} (hA : A.Exact) (hA' : A'.Exact) (hs : A.sqrt = Real.sqrt) (hs' : A'.sqrt = Real.sqrt) :
    ∃ pl pl', Planner.empty.setupAll exG (coupledCalls ℝ) = some pl ∧ Planner.empty.setupAll exG (soloCalls ℝ) = some pl' ∧ ∃ x : ℝ,
      (Ensures (gmres A' exG pl' 20 1 1) 0 (coupledStore ℝ) fun _ t => t (.elem 5 0) = x) ∧
      Ensures (gmres A exG pl 10 1 1) 0 (coupledStore ℝ) fun _ t => t (.elem 1 0) = 1 / √2 * x := by
  obtain ⟨pl, pl', h1, h2, Δ, E', E⟩ := c68_gmres_shrinks (d := √2) (c := 2) hA hA' (hs.trans hs'.symm) coupledSystem soloSystem
    two_ne_zero (by rw [Real.mul_self_sqrt (by norm_num)]; norm_num)
    (fun y => by rw [hs', Real.sqrt_mul (by positivity)]; norm_num) pair_copies 1 0 0 (by
      intro i hi
      obtain rfl : i = 0 := by omega
      have hr : clientRhs exG (soloCalls ℝ) (coupledStore ℝ) - clientMatrix exG (soloCalls ℝ) *ᵥ sumCycle A'.sqrt
          (clientMatrix exG (soloCalls ℝ)) 1 (clientSol exG (soloCalls ℝ) (coupledStore ℝ)) (clientRhs exG (soloCalls ℝ) (coupledStore ℝ)) 0 =
          clientRhs exG (soloCalls ℝ) (coupledStore ℝ) := by
        show _ - _ *ᵥ clientSol exG (soloCalls ℝ) (coupledStore ℝ) = _
        rw [solo_sol, _root_.Matrix.mulVec_zero, sub_zero]
      rw [hr]
      refine ⟨?_, fun j hj => absurd hj (by omega)⟩
      rw [solo_dot, hs']
      exact (Real.sqrt_pos.2 (by norm_num)).ne')
  refine ⟨pl, pl', h1, h2, Δ (soloEquiv 0), ensures_weaken E' fun _ t h => ?_, ensures_weaken E fun _ t h => ?_⟩
  · have := h (soloEquiv 0)
    rw [show clientVec (sols (soloCalls ℝ)) (coupledStore ℝ) (soloEquiv 0).1 = 0 from rfl, zero_add] at this
    exact this
  · have := h (coupledEquiv (1, 0))
    rw [show clientVec (sols (coupledCalls ℝ)) (coupledStore ℝ) (coupledEquiv (1, 0)).1 = 0 from rfl, zero_add] at this
    exact this.trans (by rw [coupledFold, Equiv.symm_apply_apply])

end Verif.Solver
