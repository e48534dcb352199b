import Verif.Solver.ClientResidual
import Verif.Solver.ClientExamples

/-! # The hypotheses of the theorems of ClientResidual.lean are met by concrete systems -/
set_option linter.dupNamespace false
namespace Verif.Solver
open Verif.Runtime Verif.Vector Verif.Matrix Verif.Planner Verif.Textbook
open scoped _root_.Matrix

/-- Memory for the two-block system: right-hand side `(1, 2 | 0, 3)`. -/
def twoMem : Cell Nat → ℚ
  | .elem 2 0 => 1
  | .elem 2 1 => 2
  | .elem 3 1 => 3
  | _ => 0

theorem two_zero (s : Cell Nat → ℚ) (h0 : ∀ p, s (.elem 0 p) = 0) (h1 : ∀ p, s (.elem 1 p) = 0) :
    ∀ v ∈ sols twoCalls, ∀ p ∈ exG.points v.space, s (.elem v.data p) = 0 := by
  intro v hv p _
  have hv : v ∈ [(⟨0, 0, 0, 0⟩ : Vec), ⟨1, 0, 0, 0⟩] := hv
  simp only [List.mem_cons, List.not_mem_nil, or_false] at hv
  rcases hv with rfl | rfl
  · exact h0 p
  · exact h1 p

/-- C34: two steps on the two-block system record three values. -/
example : ∃ pl, Planner.empty.setupAll exG twoCalls = some pl ∧ ∃ norms : Nat → ℚ,
    (∀ i, i ≤ 2 → Ensures (cg (exactArith ℚ qsqrt) exG pl 10 i) 0 twoMem fun _ s' =>
      clientResidual exG twoCalls twoMem s' ⬝ᵥ clientResidual exG twoCalls twoMem s' = norms i ∧
        clientRhs exG twoCalls s' = clientRhs exG twoCalls twoMem) ∧
    Ensures (cg (exactArith ℚ qsqrt) exG pl 10 2) 0 twoMem fun c s' => c.history.length = 2 + 1 ∧
      ∀ (i : Nat) a, c.history[i]? = some a → s' (.fut a.fut) = norms i :=
  c34_client (exactArith_exact ℚ qsqrt) twoSystem 2 0 twoMem (two_zero twoMem (fun _ => rfl) fun _ => rfl)
    (by unfold CGRegular; decide +kernel)

example : clientRhs exG twoCalls twoMem ⬝ᵥ clientRhs exG twoCalls twoMem = 14 := by decide +kernel

/-- C36: the first step on the two-block system. -/
example : BiRegular (clientMatrix exG twoCalls) 0 (clientRhs exG twoCalls twoMem) 1 := by
  unfold BiRegular; decide +kernel

/-- Memory with right-hand side `(3, 4 | 0, 0)`: the norms Arnoldi's process takes are rational. -/
def rootMem : Cell Nat → ℚ
  | .elem 2 0 => 3
  | .elem 2 1 => 4
  | _ => 0

/-- C37: restart length 2, the first cycle. -/
example : CycleRegular qsqrt (clientMatrix exG twoCalls) 2 (clientSol exG twoCalls rootMem) (clientRhs exG twoCalls rootMem) 1 ∧
    RootsExact qsqrt (clientMatrix exG twoCalls) (clientRhs exG twoCalls rootMem - clientMatrix exG twoCalls *ᵥ
      sumCycle qsqrt (clientMatrix exG twoCalls) 2 (clientSol exG twoCalls rootMem) (clientRhs exG twoCalls rootMem) 0) 2 := by
  constructor
  · unfold CycleRegular; decide +kernel
  · unfold RootsExact; decide +kernel

/-- One block, the matrix `(1 2; 0 3)` (not symmetric), right-hand side `(1, 2)`. -/
def oneCalls : List (Setup Nat Nat ℚ) :=
  [.addSol ⟨0, 0, 0, 0⟩, .addRhs ⟨1, 0, 0, 0⟩,
   .addMatrix (.coo ⟨[0, 1, 2], fun k => k / 2, fun k => if k = 0 then 0 else 1, fun k => (k : ℚ) + 1⟩) 0 0]

def oneMem : Cell Nat → ℚ
  | .elem 1 0 => 1
  | .elem 1 1 => 2
  | _ => 0

theorem oneSystem : ClientSystem exG oneCalls 10 where
  valid := fun part p => by simp [exG]
  order := fun f l => List.reverse_perm l
  constructed := by
    intro c hc
    simp only [oneCalls, List.mem_cons, List.not_mem_nil, or_false] at hc
    rcases hc with rfl | rfl | rfl
    all_goals first | rfl | trivial
  legal := by
    have hc : ∀ c ∈ oneCalls, c.Constructed exG := by
      intro c hc
      simp only [oneCalls, List.mem_cons, List.not_mem_nil, or_false] at hc
      rcases hc with rfl | rfl | rfl
      all_goals first | rfl | trivial
    exact (c31_accepts_exactly exG oneCalls hc).1 ⟨_, rfl⟩
  noWorkspace := rfl
  lengths := rfl
  nonempty := Nat.succ_pos _
  data := by decide
  fresh := by decide
  fits := by
    intro m d r hm vd vr h1 h2
    simp [mats, oneCalls] at hm
    obtain ⟨rfl, rfl, rfl⟩ := hm
    cases h1
    cases h2
    show ∀ k ∈ [0, 1, 2], (if k = 0 then 0 else 1) ∈ [0, 1]
    decide

/-- C46 for it: two unknowns, so the first half of the second step solves the system. -/
example : ∃ pl, Planner.empty.setupAll exG oneCalls = some pl ∧ ∃ (x p : clientUnknowns exG oneCalls → ℚ) (α : ℚ),
    (Ensures (biCGStab (exactArith ℚ qsqrt) exG pl 10 1) 0 oneMem fun _ s' => clientSol exG oneCalls s' = x) ∧
    clientMatrix exG oneCalls *ᵥ (x + α • p) = clientRhs exG oneCalls oneMem := by
  obtain ⟨pl, hpl, x, p, α, h1, -, -, h2⟩ := c46_client (exactArith_exact ℚ qsqrt) oneSystem 0 oneMem 1 (by decide)
    (by
      intro v hv q _
      have hv : v ∈ [(⟨0, 0, 0, 0⟩ : Vec)] := hv
      rw [List.mem_singleton] at hv
      subst hv
      rfl)
    (by unfold BiRegular; decide +kernel) _ rfl (by decide +kernel) (by decide +kernel) (by decide +kernel) (by decide +kernel)
  exact ⟨pl, hpl, x, p, α, h1, h2⟩

end Verif.Solver
