import Mathlib.Data.Matrix.Mul
import Mathlib.Algebra.Field.Defs
import Mathlib.Algebra.Order.Field.Basic
import Mathlib.LinearAlgebra.Span.Basic

/-! The solvers as mathematical recurrences, independent of the code. -/
namespace Verif.Textbook
open _root_.Matrix

variable {ι V : Type} [Fintype ι] [Field V]

/-! ## Conjugate gradients -/

/-- Iterate, residual, search direction. -/
structure CGState (ι V : Type) where
  x : ι → V
  r : ι → V
  p : ι → V

/-- One step of conjugate gradients. -/
def cgStep (A : Matrix ι ι V) (c : CGState ι V) : CGState ι V :=
  let α := (c.r ⬝ᵥ c.r) / (c.p ⬝ᵥ A *ᵥ c.p)
  let r' := c.r - α • (A *ᵥ c.p)
  ⟨c.x + α • c.p, r', r' + ((r' ⬝ᵥ r') / (c.r ⬝ᵥ c.r)) • c.p⟩

/-- Conjugate gradients with iterate started at `x0` and residual and direction started at `b`. -/
def cg (A : Matrix ι ι V) (x0 b : ι → V) : Nat → CGState ι V
  | 0 => ⟨x0, b, b⟩
  | k + 1 => cgStep A (cg A x0 b k)

/-- In the first `k` steps nothing is divided by zero. -/
def CGRegular (A : Matrix ι ι V) (x0 b : ι → V) (k : Nat) : Prop :=
  ∀ i, i < k → (cg A x0 b i).r ⬝ᵥ (cg A x0 b i).r ≠ 0 ∧ (cg A x0 b i).p ⬝ᵥ A *ᵥ (cg A x0 b i).p ≠ 0

/-! ## BiCGStab -/

/-- Iterate, residual, search direction, its image, and the last three coefficients. -/
structure BiState (ι V : Type) where
  x : ι → V
  r : ι → V
  p : ι → V
  v : ι → V
  ρ : V
  α : V
  ω : V

/-- New direction, given the shadow residual. -/
def BiState.dir (rt : ι → V) (c : BiState ι V) : ι → V :=
  c.r + (((c.r ⬝ᵥ rt) / c.ρ) * (c.α / c.ω)) • (c.p - c.ω • c.v)

/-- `r̃ · A p` for the new direction. -/
def BiState.denom (A : Matrix ι ι V) (rt : ι → V) (c : BiState ι V) : V := rt ⬝ᵥ A *ᵥ c.dir rt

/-- The new `α`. -/
def BiState.alpha (A : Matrix ι ι V) (rt : ι → V) (c : BiState ι V) : V := (c.r ⬝ᵥ rt) / c.denom A rt

/-- The intermediate residual `s = r - α A p`. -/
def BiState.mid (A : Matrix ι ι V) (rt : ι → V) (c : BiState ι V) : ι → V := c.r - c.alpha A rt • (A *ᵥ c.dir rt)

/-- The new `ω = (s · A s) / (A s · A s)`. -/
def BiState.omega (A : Matrix ι ι V) (rt : ι → V) (c : BiState ι V) : V :=
  (c.mid A rt ⬝ᵥ A *ᵥ c.mid A rt) / ((A *ᵥ c.mid A rt) ⬝ᵥ (A *ᵥ c.mid A rt))

/-- One step of BiCGStab. -/
def biStep (A : Matrix ι ι V) (rt : ι → V) (c : BiState ι V) : BiState ι V where
  x := c.x + c.alpha A rt • c.dir rt + c.omega A rt • c.mid A rt
  r := c.mid A rt - c.omega A rt • (A *ᵥ c.mid A rt)
  p := c.dir rt
  v := A *ᵥ c.dir rt
  ρ := c.r ⬝ᵥ rt
  α := c.alpha A rt
  ω := c.omega A rt

/-- BiCGStab with iterate started at `x0`, residual and shadow residual at `b`. -/
def bi (A : Matrix ι ι V) (x0 b : ι → V) : Nat → BiState ι V
  | 0 => ⟨x0, b, 0, 0, 1, 0, 1⟩
  | k + 1 => biStep A b (bi A x0 b k)

/-- In the first `k` steps nothing is divided by zero. -/
def BiRegular (A : Matrix ι ι V) (x0 b : ι → V) (k : Nat) : Prop :=
  ∀ i, i < k → (bi A x0 b i).ρ ≠ 0 ∧ (bi A x0 b i).ω ≠ 0 ∧ (bi A x0 b i).denom A b ≠ 0 ∧
    (A *ᵥ (bi A x0 b i).mid A b) ⬝ᵥ (A *ᵥ (bi A x0 b i).mid A b) ≠ 0

/-! ## GMRES -/

/-- Modified Gram-Schmidt: subtract from `w` its components along the first `k` vectors, one after the other. -/
def mgs (v : Nat → ι → V) (w : ι → V) : Nat → ι → V
  | 0 => w
  | k + 1 => mgs v w k - (v k ⬝ᵥ mgs v w k) • v k

/-- Scale to length one. -/
def normalise (sqrt : V → V) (w : ι → V) : ι → V := (1 / sqrt (w ⬝ᵥ w)) • w

/-- The first `j + 1` Arnoldi vectors for `A`, started from `r`. -/
def arnoldiUpTo (sqrt : V → V) (A : Matrix ι ι V) (r : ι → V) : Nat → Nat → ι → V
  | 0 => fun _ => normalise sqrt r
  | j + 1 => Function.update (arnoldiUpTo sqrt A r j) (j + 1)
      (normalise sqrt (mgs (arnoldiUpTo sqrt A r j) (A *ᵥ arnoldiUpTo sqrt A r j j) (j + 1)))

/-- The `j`-th Arnoldi vector. -/
def arnoldi (sqrt : V → V) (A : Matrix ι ι V) (r : ι → V) (j : Nat) : ι → V := arnoldiUpTo sqrt A r j j

/-- The `j`-th Arnoldi vector before scaling. -/
def arnoldiRaw (sqrt : V → V) (A : Matrix ι ι V) (r : ι → V) : Nat → ι → V
  | 0 => r
  | j + 1 => mgs (arnoldi sqrt A r) (A *ᵥ arnoldi sqrt A r j) (j + 1)

/-- The Hessenberg matrix. -/
def hess (sqrt : V → V) (A : Matrix ι ι V) (r : ι → V) (i j : Nat) : V :=
  if i ≤ j then arnoldi sqrt A r i ⬝ᵥ mgs (arnoldi sqrt A r) (A *ᵥ arnoldi sqrt A r j) i
  else sqrt (arnoldiRaw sqrt A r (j + 1) ⬝ᵥ arnoldiRaw sqrt A r (j + 1))

/-- The vectors that get scaled have non-zero length. -/
def ArnoldiRegular (sqrt : V → V) (A : Matrix ι ι V) (r : ι → V) (m : Nat) : Prop :=
  sqrt (r ⬝ᵥ r) ≠ 0 ∧ ∀ j, j + 1 < m → sqrt (arnoldiRaw sqrt A r (j + 1) ⬝ᵥ arnoldiRaw sqrt A r (j + 1)) ≠ 0

/-- The square roots taken in a cycle of length `m` are exact (for instance because all square roots are). -/
def RootsExact (sqrt : V → V) (A : Matrix ι ι V) (r : ι → V) (m : Nat) : Prop :=
  ∀ j, j < m → sqrt (arnoldiRaw sqrt A r j ⬝ᵥ arnoldiRaw sqrt A r j) * sqrt (arnoldiRaw sqrt A r j ⬝ᵥ arnoldiRaw sqrt A r j) =
    arnoldiRaw sqrt A r j ⬝ᵥ arnoldiRaw sqrt A r j

/-- The iterates of a solver that in each cycle of length `m` adds the sum of the Arnoldi vectors of the current residual
(this is what the library's GMRES does; textbook GMRES adds a least-squares combination). -/
def sumCycle (sqrt : V → V) (A : Matrix ι ι V) (m : Nat) (x0 b : ι → V) : Nat → ι → V
  | 0 => x0
  | k + 1 => sumCycle sqrt A m x0 b k +
      ((List.range m).map (arnoldi sqrt A (b - A *ᵥ sumCycle sqrt A m x0 b k))).sum

/-- In the first `k` cycles no vector that gets scaled is zero. -/
def CycleRegular (sqrt : V → V) (A : Matrix ι ι V) (m : Nat) (x0 b : ι → V) (k : Nat) : Prop :=
  ∀ i, i < k → ArnoldiRegular sqrt A (b - A *ᵥ sumCycle sqrt A m x0 b i) m

/-! ## Symmetric positive definite matrices -/

/-- Symmetric, and positive on non-zero vectors. -/
def SPD [LinearOrder V] (A : Matrix ι ι V) : Prop := Aᵀ = A ∧ ∀ x : ι → V, x ≠ 0 → 0 < x ⬝ᵥ A *ᵥ x

/-- The squared energy norm. -/
def energy (A : Matrix ι ι V) (e : ι → V) : V := e ⬝ᵥ A *ᵥ e

/-- The Krylov space spanned by `b, A b, …, A^(k-1) b`. -/
def krylov (A : Matrix ι ι V) (b : ι → V) (k : Nat) : Submodule V (ι → V) :=
  Submodule.span V {v | ∃ i, i < k ∧ v = (fun y => A *ᵥ y)^[i] b}

end Verif.Textbook
