import Verif.Solver.CGMath
import Verif.Special.Undefined

/-!
# C76: the reference script `scripts/krylov.py`

Simplifications: numbers are elements of a commutative ring with any function for division (numpy's `float64` rounds); the assertions on shapes
(10-13, 49-52) are the types; a vector that is changed in place is a new value of the same variable.
-/
set_option linter.dupNamespace false
set_option linter.unusedSectionVars false
namespace Verif.Programs
open _root_.Matrix Verif.Runtime Verif.Vector Verif.Planner Verif.Solver Verif.Special

variable {ι V : Type} [Fintype ι]

/-! ## Model -/

/-- The variables of `cg` that live from one round to the next (`krylov.py` 15-24). -/
structure PyCG (ι V : Type) where
  x : ι → V
  p : ι → V
  r : ι → V
  rNorm2 : V

/-- `krylov.py` 20-24 and 60-64: copy, subtract, norm, copy. -/
def pyInit [CommRing V] (A : Matrix ι ι V) (b x : ι → V) : PyCG ι V :=
  let r := b
  let r := r - A *ᵥ x
  let rNorm2 := r ⬝ᵥ r
  let p := r
  ⟨x, p, r, rNorm2⟩

/-- The body of the loop of `cg` (`krylov.py` 28-37): the new variables and the iterate that is appended. -/
def pyBody [CommRing V] (div : V → V → V) (A : Matrix ι ι V) (s : PyCG ι V) : PyCG ι V × (ι → V) :=
  let q := A *ᵥ s.p
  let alpha := div s.rNorm2 (s.p ⬝ᵥ q)
  let x := s.x + alpha • s.p
  let out := x
  let r := s.r - alpha • q
  let old := s.rNorm2
  let rNorm2 := r ⬝ᵥ r
  let beta := div rNorm2 old
  let p := beta • s.p
  let p := p + r
  (⟨x, p, r, rNorm2⟩, out)

/-- `for _ in range(k)` with `iterates.append`. -/
def pyLoop {S T : Type} (body : S → S × T) : Nat → S → List T
  | 0, _ => []
  | k + 1, s => (body s).2 :: pyLoop body k (body s).1

/-- `cg(A, b, x)` (`krylov.py` 5-39). -/
def pyCg [CommRing V] (div : V → V → V) (A : Matrix ι ι V) (b x : ι → V) : List (ι → V) :=
  pyLoop (pyBody div A) (Fintype.card ι) (pyInit A b x)

/-- The body of the loop of `double_cg` (`krylov.py` 68-91): the new variables and the two iterates that are appended. -/
def pyDoubleBody [CommRing V] (div : V → V → V) (A : Matrix ι ι V) (v : PyCG ι V) : PyCG ι V × ((ι → V) × (ι → V)) :=
  let q := A *ᵥ v.p
  let s := A *ᵥ v.r
  let t := A *ᵥ q
  let alpha := div v.rNorm2 (v.p ⬝ᵥ q)
  let x := v.x + alpha • v.p
  let out1 := x
  let r := v.r - alpha • q
  let old := v.rNorm2
  let rNorm2 := r ⬝ᵥ r
  let beta := div rNorm2 old
  let p := beta • v.p
  let p := p + r
  let q := beta • q
  let q := q + s
  let q := q - alpha • t
  let alphaNext := div rNorm2 (p ⬝ᵥ q)
  let x := x + alphaNext • p
  let out2 := x
  let r := r - alphaNext • q
  let rNorm2Next := r ⬝ᵥ r
  let betaNext := div rNorm2Next rNorm2
  let p := r + betaNext • p
  let rNorm2 := rNorm2Next
  (⟨x, p, r, rNorm2⟩, (out1, out2))

/-- `double_cg(A, b, x)` (`krylov.py` 42-93): `(n + 1) // 2` rounds, two iterates each. -/
def pyDoubleCg [CommRing V] (div : V → V → V) (A : Matrix ι ι V) (b x : ι → V) : List (ι → V) :=
  (pyLoop (pyDoubleBody div A) ((Fintype.card ι + 1) / 2) (pyInit A b x)).flatMap fun t => [t.1, t.2]

/-! ## The two variants agree -/

section
variable [CommRing V] (div : V → V → V) (A : Matrix ι ι V)

/-- One round of `double_cg` is two rounds of `cg`: the product with the second direction is put together from three earlier ones. -/
theorem double_body (v : PyCG ι V) :
    pyDoubleBody div A v = ((pyBody div A (pyBody div A v).1).1, ((pyBody div A v).2, (pyBody div A (pyBody div A v).1).2)) := by
  have hq : ∀ (α β : V), β • (A *ᵥ v.p) + A *ᵥ v.r - α • (A *ᵥ (A *ᵥ v.p)) = A *ᵥ (β • v.p + (v.r - α • (A *ᵥ v.p))) := by
    intro α β
    rw [mulVec_add, mulVec_sub, mulVec_smul, mulVec_smul]
    module
  simp only [pyDoubleBody, pyBody, hq]
  rw [add_comm (_ - _) (div _ (_ ⬝ᵥ _) • (_ + _))]

theorem double_loop (k : Nat) : ∀ v : PyCG ι V,
    (pyLoop (pyDoubleBody div A) k v).flatMap (fun t => [t.1, t.2]) = pyLoop (pyBody div A) (2 * k) v := by
  induction k with
  | zero => intro v; rfl
  | succ k ih =>
    intro v
    rw [show 2 * (k + 1) = 2 * k + 1 + 1 by omega]
    simp only [pyLoop, List.flatMap_cons, double_body, ih]
    rfl

theorem pyLoop_take {S T : Type} (body : S → S × T) (m : Nat) : ∀ (k : Nat) (s : S), (pyLoop body (k + m) s).take k = pyLoop body k s
  | 0, _ => by simp [pyLoop]
  | k + 1, s => by
    rw [show k + 1 + m = k + m + 1 by omega]
    simp [pyLoop, pyLoop_take body m k]

theorem pyLoop_length {S T : Type} (body : S → S × T) : ∀ (k : Nat) (s : S), (pyLoop body k s).length = k
  | 0, _ => rfl
  | k + 1, s => by simp [pyLoop, pyLoop_length body k]

/-- **C76**: whatever division does, the first `n` iterates of `double_cg` are those of `cg` (`n` unknowns); there are no others if `n` is
even, and one more if `n` is odd. -/
theorem c76_double (b x : ι → V) :
    (pyDoubleCg div A b x).take (Fintype.card ι) = pyCg div A b x ∧
    (pyDoubleCg div A b x).length = (if Fintype.card ι % 2 = 0 then Fintype.card ι else Fintype.card ι + 1) ∧
    (Fintype.card ι % 2 = 0 → pyDoubleCg div A b x = pyCg div A b x) := by
  have e : pyDoubleCg div A b x = pyLoop (pyBody div A) (2 * ((Fintype.card ι + 1) / 2)) (pyInit A b x) := double_loop div A _ _
  refine ⟨?_, ?_, ?_⟩
  · rw [e, show 2 * ((Fintype.card ι + 1) / 2) = Fintype.card ι + (2 * ((Fintype.card ι + 1) / 2) - Fintype.card ι) by omega]
    exact pyLoop_take _ _ _ _
  · rw [e, pyLoop_length]
    split <;> omega
  · intro h
    rw [e, show 2 * ((Fintype.card ι + 1) / 2) = Fintype.card ι by omega]
    rfl

end

/-! ## The script and the textbook -/

section
variable [Field V]

/-- The variables of the script after `k` rounds. -/
def pyState (A : Matrix ι ι V) (x0 b : ι → V) (k : Nat) : PyCG ι V :=
  let c := Textbook.cg A x0 (b - A *ᵥ x0) k
  ⟨c.x, c.p, c.r, c.r ⬝ᵥ c.r⟩

theorem pyState_succ (A : Matrix ι ι V) (x0 b : ι → V) (k : Nat) :
    pyBody (· / ·) A (pyState A x0 b k) = (pyState A x0 b (k + 1), (Textbook.cg A x0 (b - A *ᵥ x0) (k + 1)).x) := by
  simp only [pyBody, pyState, Textbook.cg, Textbook.cgStep]
  rw [add_comm (_ • _) (_ - _)]

theorem pyLoop_cg (A : Matrix ι ι V) (x0 b : ι → V) (m : Nat) : ∀ k,
    pyLoop (pyBody (· / ·) A) m (pyState A x0 b k) = (List.range m).map fun i => (Textbook.cg A x0 (b - A *ᵥ x0) (k + i + 1)).x := by
  induction m with
  | zero => intro k; rfl
  | succ m ih =>
    intro k
    rw [List.range_succ_eq_map]
    simp only [pyLoop, pyState_succ, List.map_cons, List.map_map, ih]
    congr 1
    apply List.map_congr_left
    intro i _
    simp only [Function.comp]
    rw [show k + 1 + i + 1 = k + (i + 1) + 1 by omega]

/-- **C76**: the iterates of the script are those of textbook conjugate gradients with residual started at `b - A x0`, `n` of them. -/
theorem c76_script (A : Matrix ι ι V) (b x0 : ι → V) :
    pyCg (· / ·) A b x0 = (List.range (Fintype.card ι)).map fun k => (Textbook.cg A x0 (b - A *ᵥ x0) (k + 1)).x := by
  have h := pyLoop_cg A x0 b (Fintype.card ι) 0
  have e : pyCg (· / ·) A b x0 = pyLoop (pyBody (· / ·) A) (Fintype.card ι) (pyState A x0 b 0) := rfl
  rw [e, h]
  simp only [Nat.zero_add]

/-- **C76**: on a symmetric positive definite system the script solves `A x = b` from every initial guess that is not the solution already:
one of its iterates does, and until then no divisor (squared norm or curvature) is zero. -/
theorem c76_solves [LinearOrder V] [IsStrictOrderedRing V] (A : Matrix ι ι V) (hA : Textbook.SPD A) (b x0 : ι → V) (hx : A *ᵥ x0 ≠ b) :
    ∃ k, ∃ hk : k < (pyCg (· / ·) A b x0).length, A *ᵥ (pyCg (· / ·) A b x0)[k] = b ∧ Textbook.CGRegular A x0 (b - A *ᵥ x0) (k + 1) := by
  obtain ⟨k0, h0, hr, hn⟩ := Textbook.cg_terminates (A := A) (x0 := x0) (b := b - A *ᵥ x0) hA
  have hlen : (pyCg (· / ·) A b x0).length = Fintype.card ι := by rw [c76_script]; simp
  cases k0 with
  | zero =>
    exfalso
    apply hx
    have : b - A *ᵥ x0 = 0 := hr
    exact (sub_eq_zero.1 this).symm
  | succ k =>
    refine ⟨k, by omega, ?_, Textbook.cg_regular hA _ hn⟩
    have e : (pyCg (· / ·) A b x0)[k]'(by omega) = (Textbook.cg A x0 (b - A *ᵥ x0) (k + 1)).x := by
      simp only [c76_script, List.getElem_map, List.getElem_range]
    rw [e]
    have := Textbook.cg_residual A x0 (b - A *ᵥ x0) (k + 1)
    rw [hr, mulVec_sub] at this
    have h2 : b - A *ᵥ (Textbook.cg A x0 (b - A *ᵥ x0) (k + 1)).x = 0 := by rw [this]; abel
    exact (sub_eq_zero.1 h2).symm

end

/-! ## The script and the library -/

section
variable {K P : Type} [DecidableEq P] [DecidableEq K] [Field V] [DecidableEq V]
variable {G : Geometry P} {calls : List (Setup K P (Option V))} {base : Nat} {root : V → V} {s : Cell P → Option V}

/-- **C76**: the library's solution after `k + 1` steps is, as long as it is defined, the `k`-th iterate of the script for the right-hand side
`b + A x0`, the same matrix and the same initial guess; so for the right-hand side itself if the initial solution is zero (or `A x0 = 0`). -/
theorem c76_library (h : ClientSystem G calls base) (hd : Defined G calls s) (hroot : root 0 = 0) (n : Nat) :
    ∃ pl, Planner.empty.setupAll G calls = some pl ∧
    ∀ N x0 b, N = exactMatrix G calls → x0 = exactVector G calls (sols calls) s → b = exactVector G calls (rhss calls) s →
    ∀ k, ∀ hk : k < (pyCg (· / ·) N (b + N *ᵥ x0) x0).length,
      Ensures (cg (partialArith root) G pl base (k + 1)) n s fun _ s' =>
        (CGDefined N x0 b (k + 1) → SolutionIs G calls s' (pyCg (· / ·) N (b + N *ᵥ x0) x0)[k]) ∧
        (¬CGDefined N x0 b (k + 1) → SolutionUndefined G calls s') := by
  obtain ⟨pl, hpl, hcg⟩ := c72_cg h hd hroot n
  refine ⟨pl, hpl, fun N x0 b hN hx hb k hk => ?_⟩
  have e : (pyCg (· / ·) N (b + N *ᵥ x0) x0)[k] = (Textbook.cg N x0 b (k + 1)).x := by
    simp only [c76_script, List.getElem_map, List.getElem_range, add_sub_cancel_right]
  rw [e]
  exact hcg N x0 b hN hx hb (k + 1)

end

end Verif.Programs
