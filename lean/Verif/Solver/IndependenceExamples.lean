import Verif.Solver.Independence
import Verif.Solver.ClientExamples

/-! # C58: the same system described twice -/
set_option linter.dupNamespace false
namespace Verif.Solver
open Verif.Runtime Verif.Vector Verif.Matrix Verif.Planner Verif.Textbook
open scoped _root_.Matrix

/-- One space of four points, cut into pieces of three and one. -/
def fourG : Geometry Nat where
  pieces := fun _ => [[0, 1, 2], [3]]
  redOrder := fun _ l => l
  points := fun _ => [0, 1, 2, 3]
  parent := fun part => part
  colorSpace := fun part => part

/-- The system of `twoCalls` as a single block: one COO matrix, right-hand side first; its eight entries carry names 10, …, 17. -/
def fourCalls : List (Setup Nat Nat ℚ) :=
  [.addRhs ⟨7, 0, 0, 0⟩, .addSol ⟨5, 0, 0, 0⟩,
   .addMatrix (.coo ⟨[17, 16, 15, 14, 13, 12, 11, 10], fun k => (k - 10) % 4, fun k => if k < 14 then k - 10 else (k - 10 + 2) % 4,
     fun k => if k < 14 then 2 else 1⟩) 0 0]

theorem fourSystem : ClientSystem fourG fourCalls 20 where
  valid := fun part p => by simp [fourG]
  order := fun f l => List.Perm.refl l
  constructed := by
    intro c hc
    simp only [fourCalls, List.mem_cons, List.not_mem_nil, or_false] at hc
    rcases hc with rfl | rfl | rfl
    all_goals first | rfl | trivial
  legal := by
    have hc : ∀ c ∈ fourCalls, c.Constructed fourG := by
      intro c hc
      simp only [fourCalls, List.mem_cons, List.not_mem_nil, or_false] at hc
      rcases hc with rfl | rfl | rfl
      all_goals first | rfl | trivial
    exact (c31_accepts_exactly fourG fourCalls hc).1 ⟨_, rfl⟩
  noWorkspace := rfl
  lengths := rfl
  nonempty := Nat.succ_pos _
  data := by decide
  fresh := by decide
  fits := by
    intro m d r hm vd vr h1 h2
    simp [mats, fourCalls] at hm
    obtain ⟨rfl, rfl, rfl⟩ := hm
    show ∀ k ∈ [17, 16, 15, 14, 13, 12, 11, 10], (if k < 14 then k - 10 else (k - 10 + 2) % 4) ∈ [0, 1, 2, 3]
    decide

/-- Point `p` of block `i` is called `2 i + p`. -/
def fourEnum : Fin 4 → Σ _ : Nat, Nat := ![⟨0, 0⟩, ⟨0, 1⟩, ⟨0, 2⟩, ⟨0, 3⟩]

theorem enum_equiv {G : Geometry Nat} {calls : List (Setup Nat Nat ℚ)} (f : Fin 4 → Σ _ : Nat, Nat)
    (hmem : ∀ i, f i ∈ clientUnknowns G calls) (hi : ∀ i j, f i = f j → i = j) (hs : ∀ u ∈ clientUnknowns G calls, ∃ i, f i = u) :
    ∃ e : Fin 4 ≃ clientUnknowns G calls, ∀ i, (e i).1 = f i :=
  ⟨Equiv.ofBijective (fun i => ⟨f i, hmem i⟩) ⟨fun i j h => hi i j (congrArg Subtype.val h), fun u => by
    obtain ⟨i, h⟩ := hs u.1 u.2
    exact ⟨i, Subtype.ext h⟩⟩, fun _ => rfl⟩

/-- The two clients describe the same system, if the vectors agree. -/
theorem two_same_four (s s' : Cell Nat → ℚ) (hx : ∀ i p, i < 2 → p < 2 → s (.elem i p) = s' (.elem 5 (2 * i + p)))
    (hb : ∀ i p, i < 2 → p < 2 → s (.elem (2 + i) p) = s' (.elem 7 (2 * i + p))) :
    ∃ σ : clientUnknowns exG twoCalls ≃ clientUnknowns fourG fourCalls,
      (∀ u, (σ u).1.2 = 2 * u.1.1 + u.1.2) ∧ SameSystem exG twoCalls s fourG fourCalls s' σ := by
  obtain ⟨e, he⟩ := enum_equiv (G := exG) (calls := twoCalls) twoEnum (by decide) (by decide) (by decide)
  obtain ⟨e', he'⟩ := enum_equiv (G := fourG) (calls := fourCalls) fourEnum (by decide) (by decide) (by decide)
  refine ⟨e.symm.trans e', fun u => ?_, fun u u' => ?_, fun u => ?_, fun u => ?_⟩
  · obtain ⟨i, rfl⟩ := e.surjective u
    rw [Equiv.trans_apply, Equiv.symm_apply_apply, he, he']
    revert i
    decide
  · obtain ⟨i, rfl⟩ := e.surjective u
    obtain ⟨j, rfl⟩ := e.surjective u'
    rw [Equiv.trans_apply, Equiv.trans_apply, Equiv.symm_apply_apply, Equiv.symm_apply_apply, he, he, he', he']
    fin_cases i <;> fin_cases j <;> simp [clientCoef, twoCalls, fourCalls, mats, twoEnum, fourEnum, Op.coef]
  · obtain ⟨i, rfl⟩ := e.surjective u
    rw [Equiv.trans_apply, Equiv.symm_apply_apply, he, he']
    fin_cases i
    · exact hx 0 0 (by decide) (by decide)
    · exact hx 0 1 (by decide) (by decide)
    · exact hx 1 0 (by decide) (by decide)
    · exact hx 1 1 (by decide) (by decide)
  · obtain ⟨i, rfl⟩ := e.surjective u
    rw [Equiv.trans_apply, Equiv.symm_apply_apply, he, he']
    fin_cases i
    · exact hb 0 0 (by decide) (by decide)
    · exact hb 0 1 (by decide) (by decide)
    · exact hb 1 0 (by decide) (by decide)
    · exact hb 1 1 (by decide) (by decide)

/-- C58 (CG) for them: one step from a non-zero right-hand side. -/
example (s s' : Cell Nat → ℚ) (hx : ∀ i p, i < 2 → p < 2 → s (.elem i p) = s' (.elem 5 (2 * i + p)))
    (hb : ∀ i p, i < 2 → p < 2 → s (.elem (2 + i) p) = s' (.elem 7 (2 * i + p))) (h1 : s' (.elem 7 0) ≠ 0) :
    ∃ pl pl', Planner.empty.setupAll exG twoCalls = some pl ∧ Planner.empty.setupAll fourG fourCalls = some pl' ∧ ∃ y : ℚ,
      (Ensures (cg (exactArith ℚ qsqrt) exG pl 10 1) 0 s fun _ t => t (.elem 1 0) = y) ∧
      Ensures (cg (exactArith ℚ qsqrt) fourG pl' 20 1) 0 s' fun _ t => t (.elem 5 2) = y := by
  obtain ⟨σ, hσ, hs⟩ := two_same_four s s' hx hb
  have hspd : SPD (clientMatrix fourG fourCalls) := by
    refine SPD_transfer σ.symm _ _ (fun u u' => ?_) two_SPD
    have := hs.matrix (σ.symm u) (σ.symm u')
    rw [Equiv.apply_symm_apply, Equiv.apply_symm_apply] at this
    exact this.symm
  have h2 : (⟨0, 2⟩ : Σ _ : Nat, Nat) ∈ clientUnknowns fourG fourCalls := by decide
  obtain ⟨pl, pl', g1, g2, x, rec, E, E'⟩ := c58_cg (exactArith_exact ℚ qsqrt) (exactArith_exact ℚ qsqrt) twoSystem fourSystem hs 1 0 0
    (cg_regular hspd 1 (by
      intro i hi h
      obtain rfl : i = 0 := by omega
      exact h1 (congrFun h ⟨⟨0, 0⟩, by decide⟩)))
  let u : clientUnknowns exG twoCalls := ⟨⟨1, 0⟩, by decide⟩
  refine ⟨pl, pl', g1, g2, x u, ensures_weaken E fun _ t h => h.1 u, ensures_weaken E' fun _ t h => ?_⟩
  have h3 := h.1 u
  have h4 : (σ u).1 = ⟨0, 2⟩ := by
    have h5 := hσ u
    have h6 : ∀ v ∈ clientUnknowns fourG fourCalls, v.2 = 2 → v = ⟨0, 2⟩ := by decide
    exact h6 _ (σ u).2 h5
  rw [h4] at h3
  exact h3

end Verif.Solver
