import Verif.Programs.Print
import Verif.Programs.TestCG
import Verif.Programs.Binary

/-! # C66: the self-checks `Test01ScalarOperations` and `Test02VectorOperations` -/
set_option linter.dupNamespace false
set_option linter.unusedSectionVars false
namespace Verif.Programs
open Verif.Runtime Verif.Vector Verif.Planner Verif.Solver Verif.EndToEnd Verif.Rounding

variable {P V : Type} [DecidableEq P]

/-! ## Models -/

/-- One block of `Test01ScalarOperations.cpp` (18-23, 26-31), up to the assertion; `two`, `ten`: the literals `2.0`, `10.0`. -/
def test01 (A : Arith V) (two ten : V) : M P V Scalar := do
  let x ← scalarOf two
  let y ← scalarOf ten
  let z ← sAdd A x y
  let xx ← sAdd A x x
  let w ← sDiv A z xx
  sSub A w x

/-- `test_task` of `Test02VectorOperations.cpp` (120-142) without the print; `a`, `b`: the fill values `1.5`, `2.7`; `one`, `negOne`,
`negHalf`: the literals `1.0`, `-1.0`, `-0.5`. -/
def test02Body (A : Arith V) (G : Geometry P) (part d0 d1 d2 : Nat) (one negOne negHalf a b : V) : M P V Scalar := do
  let u ← lift (newVector G part d0)
  let v ← lift (newVector G part d1)
  let w ← lift (newVector G part d2)
  constantFill G.toEnv u a
  constantFill G.toEnv v b
  assign G.toEnv w u
  axpyValue A G.toEnv w one v
  xpayValue A G.toEnv v negOne u
  axpyValue A G.toEnv u negHalf v
  axpyValue A G.toEnv u negHalf w
  dot A G.toEnv u u

/-- `test_task` (`Test02VectorOperations.cpp` 120-142): the last statement is `u.dot(u).print()`. -/
def test02 (A : Arith V) (G : Geometry P) (part d0 d1 d2 : Nat) (one negOne negHalf a b : V) :
    M P V (Scalar × List (PrintJob (Cell P))) := do
  let d ← test02Body A G part d0 d1 d2 one negOne negHalf a b
  let jobs ← printEach A [d]
  pure (d, jobs)

/-! ## What they compute, in any arithmetic -/

theorem Runs.test01 (A : Arith V) (two ten : V) (n : Nat) (s : Cell P → V) :
    WP (test01 A two ten) n s fun v _ s' => s' (.fut v.fut) = A.sub (A.div (A.add two ten) (A.add two two)) two := by
  refine ⟨_, _, _, (Runs.scalarOf two n s).bind ((Runs.scalarOf ten _ _).bind ((Runs.binary A.add _ _ _ _).bind
    ((Runs.binary A.add _ _ _ _).bind ((Runs.binary A.div _ _ _ _).bind (Runs.binary A.sub _ _ _ _))))), ?_⟩
  have h1 : ¬ n = n + 1 + 1 := by omega
  have h2 : ¬ n = n + 1 + 1 + 1 := by omega
  have h3 : ¬ n = n + 1 + 1 + 1 + 1 := by omega
  simp only [setFut_fut]
  simp [h1, h2, h3]

/-- The element value of `u` at the end of `Test02VectorOperations`. -/
def test02Elem (A : Arith V) (one negOne negHalf a b : V) : V :=
  A.fma negHalf (A.fma one b a) (A.fma negHalf (A.fma negOne b a) a)

theorem Runs.test02Body (A : Arith V) {G : Geometry P} (hG : G.Valid) (hord : ∀ f l, (G.redOrder f l).Perm l) {part d0 d1 d2 : Nat}
    {u v w : Vec} (hu : newVector G part d0 = some u) (hv : newVector G part d1 = some v) (hw : newVector G part d2 = some w)
    (h01 : d0 ≠ d1) (h02 : d0 ≠ d2) (h12 : d1 ≠ d2) (one negOne negHalf a b : V) (n : Nat) (s : Cell P → V) :
    WP (Programs.test02Body A G part d0 d1 d2 one negOne negHalf a b) n s fun d n' s' => d.fut < n' ∧
      (∀ p ∈ G.points (G.parent part), s' (.elem d0 p) = test02Elem A one negOne negHalf a b) ∧
      s' (.fut d.fut) = dotValue A (fun _ => test02Elem A one negOne negHalf a b) (fun _ => test02Elem A one negOne negHalf a b)
        (G.pieces part) (G.redOrder d.fut (List.range (G.pieces part).length)) := by
  have pu := newVector_partition hG hu
  have pv := newVector_partition hG hv
  have pw := newVector_partition hG hw
  have eu := newVector_eq hu
  have ev := newVector_eq hv
  have ew := newVector_eq hw
  subst eu ev ew
  refine WP.lift hu (WP.lift hv (WP.lift hw ?_))
  let U : Vec := ⟨d0, G.parent part, G.colorSpace part, part⟩
  let V' : Vec := ⟨d1, G.parent part, G.colorSpace part, part⟩
  let W : Vec := ⟨d2, G.parent part, G.colorSpace part, part⟩
  refine WP.bind ⟨(), _, _, Runs.constantFill G.toEnv U a _ pu _ _, ?_⟩
  refine WP.bind ⟨(), _, _, Runs.constantFill G.toEnv V' b _ pv _ _, ?_⟩
  refine WP.bind ⟨(), _, _, Runs.assign G.toEnv W U rfl rfl rfl _ pw _ _, ?_⟩
  refine WP.bind ⟨(), _, _, (Runs.scalarOf one _ _).bind (Runs.axpy A G.toEnv W _ V' rfl rfl rfl _ pw _ _), ?_⟩
  refine WP.bind ⟨(), _, _, (Runs.scalarOf negOne _ _).bind (Runs.xpay A G.toEnv V' _ U rfl rfl rfl _ pv _ _), ?_⟩
  refine WP.bind ⟨(), _, _, (Runs.scalarOf negHalf _ _).bind (Runs.axpy A G.toEnv U _ V' rfl rfl rfl _ pu _ _), ?_⟩
  refine WP.bind ⟨(), _, _, (Runs.scalarOf negHalf _ _).bind (Runs.axpy A G.toEnv U _ W rfl rfl rfl _ pu _ _), ?_⟩
  have hlast : ∀ σ : Cell P → V, (∀ p ∈ G.points (G.parent part), σ (.elem d0 p) = test02Elem A one negOne negHalf a b) → ∀ n,
      WP (Vector.dot A G.toEnv ⟨d0, G.parent part, G.colorSpace part, part⟩ ⟨d0, G.parent part, G.colorSpace part, part⟩) n σ
        fun d n' s' => d.fut < n' ∧
      (∀ p ∈ G.points (G.parent part), s' (.elem d0 p) = test02Elem A one negOne negHalf a b) ∧
      s' (.fut d.fut) = dotValue A (fun _ => test02Elem A one negOne negHalf a b) (fun _ => test02Elem A one negOne negHalf a b)
        (G.pieces part) (G.redOrder d.fut (List.range (G.pieces part).length)) := by
    intro σ hσ n
    refine ⟨_, _, _, Runs.dot A G.toEnv _ _ rfl rfl rfl n σ (hord _ _), Nat.lt_succ_self n, fun p hp => by rw [setDot_elem]; exact hσ p hp, ?_⟩
    rw [setDot_fut, if_pos rfl]
    exact dotValue_congr A _ _ (fun p hp => hσ p ((pu.2 p).1 hp)) (fun p hp => hσ p ((pu.2 p).1 hp))
  refine hlast _ (fun p hp => ?_) _
  simp [U, V', W, hp, h01, h02, h12, h01.symm, h02.symm, h12.symm, test02Elem]

/-- The dot product of a vector of zeros with itself. -/
theorem dotValue_zero {A : Arith V} {e : V} (h1 : A.mul e e = A.zero) (h2 : A.add A.zero A.zero = A.zero) (pieces : List (List P))
    (order : List Nat) : dotValue A (fun _ => e) (fun _ => e) pieces order = A.zero := by
  have hp : ∀ l : List P, dotPiece A (fun _ => e) (fun _ => e) l = A.zero := by
    intro l
    unfold dotPiece
    induction l with
    | nil => rfl
    | cons p l ih => rw [List.foldl_cons, h1, h2]; exact ih
  unfold dotValue
  induction order with
  | nil => rfl
  | cons k l ih => rw [List.foldl_cons, hp, h2]; exact ih

theorem test02_prints (A : Arith V) {G : Geometry P} (hG : G.Valid) (hord : ∀ f l, (G.redOrder f l).Perm l) {part d0 d1 d2 : Nat}
    {u v w : Vec} (hu : newVector G part d0 = some u) (hv : newVector G part d1 = some v) (hw : newVector G part d2 = some w)
    (h01 : d0 ≠ d1) (h02 : d0 ≠ d2) (h12 : d1 ≠ d2) (one negOne negHalf a b : V) (n : Nat) (s : Cell P → V)
    (h1 : A.mul (test02Elem A one negOne negHalf a b) (test02Elem A one negOne negHalf a b) = A.zero)
    (h2 : A.add A.zero A.zero = A.zero) :
    EnsuresOutput (test02 A G part d0 d1 d2 one negOne negHalf a b) n s fun _ out _ => out = [A.zero] := by
  obtain ⟨d, n', s', hr, hd, -, hv⟩ := Runs.test02Body A hG hord hu hv hw h01 h02 h12 one negOne negHalf a b n s
  have := c64_print_each (A := A) hr (fun d => [d]) (by simpa using hd)
  refine EnsuresOutput.mono this fun _ o _ h => ?_
  rw [List.map_singleton, hv, dotValue_zero h1 h2] at h
  exact List.perm_singleton.1 h.2

/-! ## C66 -/

/-- **C66**, `Test01ScalarOperations`: in exact arithmetic the asserted value is one, under every schedule, from any memory. -/
theorem c66_scalar_exact [Field V] [CharZero V] {A : Arith V} (hA : A.Exact) (n : Nat) (s : Cell P → V) :
    Ensures (test01 A 2 10) n s fun v s' => s' (.fut v.fut) = 1 := by
  refine WP.ensures ((Runs.test01 A 2 10 n s).mono fun v _ s' h => ?_)
  rw [h, hA.sub, hA.add, hA.add, hA.div _ _ (by norm_num)]
  norm_num

/-- **C66**, `Test01ScalarOperations`: the assertion holds exactly in every binary floating-point format with at least two digits and
every rounding mode. -/
theorem c66_scalar {p : Nat} (hp : 1 ≤ p) {r : ℝ → ℤ} (hr : RoundingMode r) (n : Nat) (s : Cell P → ℝ) :
    Ensures (test01 (roundedArith (binaryRound p r)) 2 10) n s fun v s' => s' (.fut v.fut) = 1 := by
  refine WP.ensures ((Runs.test01 _ 2 10 n s).mono fun v _ s' h => ?_)
  rw [h]
  have h4 : (4 : ℤ) ≤ 2 ^ (p + 1) := by
    calc (4 : ℤ) = 2 ^ (1 + 1) := by norm_num
      _ ≤ 2 ^ (p + 1) := pow_le_pow_right₀ (by norm_num) (by omega)
  have b4 : IsBinary p 4 := isBinary_of (m := 1) (e := 2) (by norm_num) (by
    rw [abs_of_pos (by norm_num)]
    calc (4 : ℝ) < 2 ^ (3 : ℤ) := by norm_num
      _ ≤ 2 ^ ((2 : ℤ) + p + 1) := zpow_le_zpow_right₀ (by norm_num) (by omega))
  have b12 : IsBinary p 12 := isBinary_of (m := 3) (e := 2) (by norm_num) (by
    rw [abs_of_pos (by norm_num)]
    calc (12 : ℝ) < 2 ^ (4 : ℤ) := by norm_num
      _ ≤ 2 ^ ((2 : ℤ) + p + 1) := zpow_le_zpow_right₀ (by norm_num) (by omega))
  have b3 : IsBinary p 3 := by exact_mod_cast isBinary_int (p := p) (z := 3) (by rw [abs_of_pos (by norm_num)]; omega)
  have b1 : IsBinary p 1 := by exact_mod_cast isBinary_int (p := p) (z := 1) (by rw [abs_of_pos (by norm_num)]; omega)
  show binaryRound p r (binaryRound p r (binaryRound p r (2 + 10) / binaryRound p r (2 + 2)) - 2) = 1
  rw [show (2 : ℝ) + 10 = 12 by norm_num, show (2 : ℝ) + 2 = 4 by norm_num, binaryRound_eq hr b12, binaryRound_eq hr b4,
    show (12 : ℝ) / 4 = 3 by norm_num, binaryRound_eq hr b3, show (3 : ℝ) - 2 = 1 by norm_num, binaryRound_eq hr b1]

/-- **C66**, `Test02VectorOperations`: in exact arithmetic the program prints zero, whatever the two fill values, for every index space,
every partition, every reduction order and every schedule, from any memory. -/
theorem c66_vector_exact [Field V] [CharZero V] {A : Arith V} (hA : A.Exact) {G : Geometry P} (hG : G.Valid)
    (hord : ∀ f l, (G.redOrder f l).Perm l) {part d0 d1 d2 : Nat} {u v w : Vec} (hu : newVector G part d0 = some u)
    (hv : newVector G part d1 = some v) (hw : newVector G part d2 = some w) (h01 : d0 ≠ d1) (h02 : d0 ≠ d2) (h12 : d1 ≠ d2)
    (a b : V) (n : Nat) (s : Cell P → V) :
    EnsuresOutput (test02 A G part d0 d1 d2 1 (-1) (-1 / 2) a b) n s fun _ out _ => out = [0] := by
  have e : test02Elem A 1 (-1) (-1 / 2) a b = 0 := by
    simp only [test02Elem, hA.fma]
    ring
  have := test02_prints A hG hord hu hv hw h01 h02 h12 1 (-1) (-1 / 2) a b n s (by rw [e, hA.mul, hA.zero, mul_zero])
    (by rw [hA.add, hA.zero, add_zero])
  rw [hA.zero] at this
  exact this

/-- **C66**, `Test02VectorOperations`: in every binary floating-point format with every rounding mode the program prints exactly zero
when the fill values, numbers of the format, are within a factor two of each other (`1.5` and `2.7` are). -/
theorem c66_vector {p : Nat} {r : ℝ → ℤ} (hr : RoundingMode r) {G : Geometry P} (hG : G.Valid)
    (hord : ∀ f l, (G.redOrder f l).Perm l) {part d0 d1 d2 : Nat} {u v w : Vec} (hu : newVector G part d0 = some u)
    (hv : newVector G part d1 = some v) (hw : newVector G part d2 = some w) (h01 : d0 ≠ d1) (h02 : d0 ≠ d2) (h12 : d1 ≠ d2)
    {a b : ℝ} (ha : IsBinary p a) (hb : IsBinary p b) (hab : a ≤ 2 * b) (hba : b ≤ 2 * a) (n : Nat) (s : Cell P → ℝ) :
    EnsuresOutput (test02 (roundedArith (binaryRound p r)) G part d0 d1 d2 1 (-1) (-1 / 2) a b) n s fun _ out _ => out = [0] := by
  have z : binaryRound p r 0 = 0 := binaryRound_eq hr isBinary_zero
  have e : test02Elem (roundedArith (binaryRound p r)) 1 (-1) (-1 / 2) a b = 0 := by
    show binaryRound p r (-1 / 2 * binaryRound p r (1 * b + a) + binaryRound p r (-1 / 2 * binaryRound p r (-1 * b + a) + a)) = 0
    rw [show -1 * b + a = a - b by ring, binaryRound_eq hr (isBinary_sub ha hb hab hba),
      show -1 / 2 * (a - b) + a = (a + b) / 2 by ring, binaryRound_half hr, show 1 * b + a = a + b by ring,
      show -1 / 2 * binaryRound p r (a + b) + binaryRound p r (a + b) / 2 = 0 by ring, z]
  exact test02_prints _ hG hord hu hv hw h01 h02 h12 1 (-1) (-1 / 2) a b n s
    (by rw [e]; show binaryRound p r (0 * 0) = 0; rw [mul_zero, z]) (by show binaryRound p r (0 + 0) = 0; rw [add_zero, z])

end Verif.Programs
