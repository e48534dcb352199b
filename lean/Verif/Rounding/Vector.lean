import Verif.Rounding.Spec
import Verif.Matrix.Props
import Verif.Vector.Props

/-! # C59: rounding errors of vector operations and matrix-vector products

For every partition, reduction order and schedule, the computed values are within explicit relative bounds of the exact ones. -/
set_option linter.dupNamespace false
set_option linter.unusedSectionVars false
namespace Verif.Rounding
open Verif.Runtime Verif.Vector Verif.Matrix
variable {K P : Type} [DecidableEq P] [DecidableEq K] {u : ℝ} {A : Arith ℝ}

/-! ## Inner products -/

theorem sum_pieces (g : P → ℝ) (space : List P) (hs : space.Nodup) (pieces : List (List P)) (hp : IsPartition space pieces)
    (order : List Nat) (ho : order.Perm (List.range pieces.length)) :
    (order.map fun k => ((pieces.getD k []).map g).sum).sum = (space.map g).sum := by
  have h := dotValue_exact (exactArith_exact ℝ Real.sqrt) g (fun _ => 1) space hs pieces hp order ho
  have h1 : ∀ (l : List P), dotPiece (exactArith ℝ Real.sqrt) g (fun _ => 1) l = (l.map g).sum := fun l => by
    rw [dotPiece_exact (exactArith_exact ℝ Real.sqrt)]
    simp
  unfold dotValue at h
  simp only [h1, mul_one] at h
  rw [← h]
  have h2 : ∀ (l : List Nat) (a : ℝ), l.foldl (fun a k => (exactArith ℝ Real.sqrt).add a ((pieces.getD k []).map g).sum) a =
      a + (l.map fun k => ((pieces.getD k []).map g).sum).sum := by
    intro l
    induction l with
    | nil => intro a; simp
    | cons k l ih =>
      intro a
      rw [List.foldl_cons, ih, List.map_cons, List.sum_cons, ← add_assoc]
      rfl
  rw [h2]
  exact (zero_add _).symm

theorem near_dot (hA : Rounded u A) (v w : P → ℝ) (space : List P) (hs : space.Nodup) (pieces : List (List P))
    (hp : IsPartition space pieces) (order : List Nat) (ho : order.Perm (List.range pieces.length)) (L : Nat)
    (hL : ∀ l ∈ pieces, l.length ≤ L) :
    Near u (1 + L + pieces.length) (dotValue A v w pieces order) (space.map fun p => v p * w p).sum
      (space.map fun p => |v p * w p|).sum := by
  have hpiece : ∀ k, Near u (1 + L) (dotPiece A v w (pieces.getD k [])) ((pieces.getD k []).map fun p => v p * w p).sum
      ((pieces.getD k []).map fun p => |v p * w p|).sum := by
    intro k
    have hlen : (pieces.getD k []).length ≤ L := by
      by_cases hk : k < pieces.length
      · rw [List.getD_eq_getElem _ _ hk]
        exact hL _ (List.getElem_mem hk)
      · rw [List.getD_eq_default _ _ (by omega)]
        exact Nat.zero_le _
    have h := Near.fold hA (fun p => A.mul (v p) (w p)) (fun p => v p * w p) (fun p => |v p * w p|) (pieces.getD k [])
      (c := 1) (a := A.zero) (e := 0) (E := 0) ⟨by rw [hA.zero]; simp, by simp⟩ fun p _ => by
        have h := (Near.exact (u := u) (v p * w p)).round hA.nonneg (hA.mul (v p) (w p))
        exact h
    rw [zero_add, zero_add] at h
    exact h.mono hA.nonneg (by omega) (le_refl _)
  have h := Near.fold hA (fun k => dotPiece A v w (pieces.getD k [])) (fun k => ((pieces.getD k []).map fun p => v p * w p).sum)
    (fun k => ((pieces.getD k []).map fun p => |v p * w p|).sum) order (c := 1 + L) (a := A.zero) (e := 0) (E := 0)
    ⟨by rw [hA.zero]; simp, by simp⟩ fun k _ => hpiece k
  rw [zero_add, zero_add, sum_pieces _ space hs pieces hp order ho, sum_pieces _ space hs pieces hp order ho] at h
  refine h.mono hA.nonneg ?_ (le_refl _)
  rw [ho.length_eq, List.length_range]

/-- **C59**, inner product: with at most `L` points per piece and `N` pieces the error is at most `(1 + u)^(1 + L + N) - 1` times the
sum of the absolute products, whatever the partition, the reduction order and the schedule. -/
theorem c59_dot (hA : Rounded u A) (E : Env P) (v w : Vec) (hc : Compatible v w) (space : List P)
    (hs : space.Nodup) (hp : IsPartition space (E.pieces v.part)) (ho : ∀ f l, (E.redOrder f l).Perm l) (L : Nat)
    (hL : ∀ l ∈ E.pieces v.part, l.length ≤ L) (n : Nat) (s : Cell P → ℝ) :
    Ensures (dot A E v w) n s fun r s' =>
      |s' (.fut r.fut) - (space.map fun p => s (.elem v.data p) * s (.elem w.data p)).sum| ≤
        ((1 + u) ^ (1 + L + (E.pieces v.part).length) - 1) * (space.map fun p => |s (.elem v.data p) * s (.elem w.data p)|).sum := by
  refine (Runs.dot A E v w hc.1 hc.2.1 hc.2.2 n s (ho _ _)).ensures ?_
  rw [setDot_fut, if_pos rfl]
  exact (near_dot hA _ _ space hs _ hp _ (ho _ _) L hL).1

/-- Squared norms have small relative error. -/
theorem c59_norm (hA : Rounded u A) (E : Env P) (v : Vec) (space : List P)
    (hs : space.Nodup) (hp : IsPartition space (E.pieces v.part)) (ho : ∀ f l, (E.redOrder f l).Perm l) (L : Nat)
    (hL : ∀ l ∈ E.pieces v.part, l.length ≤ L) (n : Nat) (s : Cell P → ℝ) :
    Ensures (dot A E v v) n s fun r s' =>
      |s' (.fut r.fut) - (space.map fun p => s (.elem v.data p) ^ 2).sum| ≤
        ((1 + u) ^ (1 + L + (E.pieces v.part).length) - 1) * (space.map fun p => s (.elem v.data p) ^ 2).sum := by
  have h := c59_dot hA E v v ⟨rfl, rfl, rfl⟩ space hs hp ho L hL n s
  have h1 : (space.map fun p => |s (.elem v.data p) * s (.elem v.data p)|).sum = (space.map fun p => s (.elem v.data p) ^ 2).sum := by
    congr 1
    exact List.map_congr_left fun p _ => by rw [abs_mul_self, sq]
  have h2 : (space.map fun p => s (.elem v.data p) * s (.elem v.data p)).sum = (space.map fun p => s (.elem v.data p) ^ 2).sum := by
    congr 1
    exact List.map_congr_left fun p _ => (sq _).symm
  rw [h1, h2] at h
  exact h

/-! ## Element-wise operations -/

theorem near_quotient (hA : Rounded u A) {a b : ℝ} (hb : b ≠ 0) : Near u 1 (A.div a b) (a / b) |a / b| :=
  (Near.exact (a / b)).round hA.nonneg (hA.div a b hb)

theorem near_product_quotient (hA : Rounded u A) {a b c : ℝ} (hc : c ≠ 0) : Near u 2 (A.div (A.mul a b) c) (a * b / c) |a * b / c| := by
  have h1 : Near u 1 (A.mul a b) (a * b) |a * b| := (Near.exact (a * b)).round hA.nonneg (hA.mul a b)
  have h2 : Near u 1 (A.mul a b / c) (a * b / c) |a * b / c| := by
    have h := h1.times hA.nonneg (Near.exact (u := u) (1 / c))
    rw [← abs_mul, mul_one_div, mul_one_div] at h
    exact h
  exact h2.round hA.nonneg (hA.div _ _ hc)

theorem near_fma (hA : Rounded u A) {c : Nat} {a α : ℝ} (h : Near u c a α |α|) (x y : ℝ) :
    Near u (c + 1) (A.fma a x y) (y + α * x) (|y| + |α * x|) := by
  have h1 := h.times hA.nonneg (Near.exact (u := u) x)
  have h2 := ((Near.exact (u := u) y).mono hA.nonneg (Nat.zero_le _) (le_refl _)).plus h1
  refine (h2.round (a := A.fma a x y) hA.nonneg ?_).mono hA.nonneg (by omega) (by rw [abs_mul])
  have := hA.fma a x y
  rwa [add_comm (a * x)] at this

/-- **C59**, `y += α x`: the error of each element is at most `u` times the exact result. -/
theorem c59_axpy (hA : Rounded u A) (E : Env P) (y : Vec) (a : Scalar) (x : Vec) (hc : Compatible y x) (space : List P)
    (hp : IsPartition space (E.pieces y.part)) (n : Nat) (s : Cell P → ℝ) :
    Ensures (axpy A E y a x) n s fun _ s' => ∀ p ∈ space,
      |s' (.elem y.data p) - (s (.elem y.data p) + s (.fut a.fut) * s (.elem x.data p))| ≤
        u * |s (.elem y.data p) + s (.fut a.fut) * s (.elem x.data p)| := by
  obtain ⟨r, n', ts, h1, h2, h3⟩ := c21_axpy A E y a x hc space hp n s
  refine ⟨r, n', ts, h1, h2, fun M' a1 a2 p hp => ?_⟩
  rw [(h3 M' a1 a2).1 p hp]
  have := hA.fma (s (.fut a.fut)) (s (.elem x.data p)) (s (.elem y.data p))
  rwa [add_comm (s (.fut a.fut) * s (.elem x.data p))] at this

/-- `y += (α / β) x`. -/
theorem c59_axpy_quotient (hA : Rounded u A) (E : Env P) (y : Vec) (a b : Scalar) (x : Vec) (hc : Compatible y x)
    (space : List P) (hp : IsPartition space (E.pieces y.part)) (n : Nat) (s : Cell P → ℝ) (hb : s (.fut b.fut) ≠ 0) :
    Ensures (axpy2 A E y a b x) n s fun _ s' => ∀ p ∈ space,
      |s' (.elem y.data p) - (s (.elem y.data p) + s (.fut a.fut) / s (.fut b.fut) * s (.elem x.data p))| ≤
        ((1 + u) ^ 2 - 1) * (|s (.elem y.data p)| + |s (.fut a.fut) / s (.fut b.fut) * s (.elem x.data p)|) := by
  obtain ⟨r, n', ts, h1, h2, h3⟩ := c21_axpy_quotient A E y a b x hc space hp n s
  refine ⟨r, n', ts, h1, h2, fun M' a1 a2 p hp => ?_⟩
  rw [(h3 M' a1 a2).1 p hp]
  exact (near_fma hA (near_quotient hA hb) _ _).1

/-- `y += (α β / γ) x`. -/
theorem c59_axpy_product_quotient (hA : Rounded u A) (E : Env P) (y : Vec) (a b c : Scalar) (x : Vec) (hc : Compatible y x)
    (space : List P) (hp : IsPartition space (E.pieces y.part)) (n : Nat) (s : Cell P → ℝ) (hb : s (.fut c.fut) ≠ 0) :
    Ensures (axpy3 A E y a b c x) n s fun _ s' => ∀ p ∈ space,
      |s' (.elem y.data p) - (s (.elem y.data p) + s (.fut a.fut) * s (.fut b.fut) / s (.fut c.fut) * s (.elem x.data p))| ≤
        ((1 + u) ^ 3 - 1) * (|s (.elem y.data p)| + |s (.fut a.fut) * s (.fut b.fut) / s (.fut c.fut) * s (.elem x.data p)|) := by
  obtain ⟨r, n', ts, h1, h2, h3⟩ := c21_axpy_product_quotient A E y a b c x hc space hp n s
  refine ⟨r, n', ts, h1, h2, fun M' a1 a2 p hp => ?_⟩
  rw [(h3 M' a1 a2).1 p hp]
  exact (near_fma hA (near_product_quotient hA hb) _ _).1

/-- `y := x + α y`. -/
theorem c59_xpay (hA : Rounded u A) (E : Env P) (y : Vec) (a : Scalar) (x : Vec) (hc : Compatible y x) (space : List P)
    (hp : IsPartition space (E.pieces y.part)) (n : Nat) (s : Cell P → ℝ) :
    Ensures (xpay A E y a x) n s fun _ s' => ∀ p ∈ space,
      |s' (.elem y.data p) - (s (.elem x.data p) + s (.fut a.fut) * s (.elem y.data p))| ≤
        u * |s (.elem x.data p) + s (.fut a.fut) * s (.elem y.data p)| := by
  obtain ⟨r, n', ts, h1, h2, h3⟩ := c21_xpay A E y a x hc space hp n s
  refine ⟨r, n', ts, h1, h2, fun M' a1 a2 p hp => ?_⟩
  rw [(h3 M' a1 a2).1 p hp]
  have := hA.fma (s (.fut a.fut)) (s (.elem y.data p)) (s (.elem x.data p))
  rwa [add_comm (s (.fut a.fut) * s (.elem y.data p))] at this

/-- `y := x + (α / β) y`. -/
theorem c59_xpay_quotient (hA : Rounded u A) (E : Env P) (y : Vec) (a b : Scalar) (x : Vec) (hc : Compatible y x)
    (space : List P) (hp : IsPartition space (E.pieces y.part)) (n : Nat) (s : Cell P → ℝ) (hb : s (.fut b.fut) ≠ 0) :
    Ensures (xpay2 A E y a b x) n s fun _ s' => ∀ p ∈ space,
      |s' (.elem y.data p) - (s (.elem x.data p) + s (.fut a.fut) / s (.fut b.fut) * s (.elem y.data p))| ≤
        ((1 + u) ^ 2 - 1) * (|s (.elem x.data p)| + |s (.fut a.fut) / s (.fut b.fut) * s (.elem y.data p)|) := by
  obtain ⟨r, n', ts, h1, h2, h3⟩ := c21_xpay_quotient A E y a b x hc space hp n s
  refine ⟨r, n', ts, h1, h2, fun M' a1 a2 p hp => ?_⟩
  rw [(h3 M' a1 a2).1 p hp]
  exact (near_fma hA (near_quotient hA hb) _ _).1

/-! ## Matrix-vector products -/

theorem near_row (hA : Rounded u A) {X : Type} (e x : X → ℝ) (y : ℝ) (l : List X) :
    Near u (1 + l.length) (l.foldl (fun acc k => A.add acc (A.mul (e k) (x k))) y) (y + (l.map fun k => e k * x k).sum)
      (|y| + (l.map fun k => |e k * x k|).sum) :=
  Near.fold hA (fun k => A.mul (e k) (x k)) (fun k => e k * x k) (fun k => |e k * x k|) l (c := 1)
    ((Near.exact y).mono hA.nonneg (Nat.zero_le _) (le_refl _))
    fun k _ => (Near.exact (u := u) (e k * x k)).round hA.nonneg (hA.mul (e k) (x k))

/-- **C59**, COO product: the error of row `p` is at most `(1 + u)^(1 + m) - 1` times `|y p|` plus the sum of the absolute products, `m` the
number of stored entries of the row, whatever the partition and the schedule. -/
theorem c59_coo_matvec (hA : Rounded u A) (E : Env P) (m : COO K P ℝ) (dst src : Vec) (hne : src.data ≠ dst.data)
    (space dspace : List P) (hp : IsPartition space (E.pieces dst.part)) (hcol : ∀ k ∈ m.kernel, m.col k ∈ dspace)
    (n : Nat) (s : Cell P → ℝ) :
    Ensures (m.matvec A E dst src (m.kernelFromRange (E.pieces dst.part)) (m.domainFromRange dspace (E.pieces dst.part)))
      n s fun _ s' => ∀ p ∈ space, ∀ row, row = m.kernel.filter (fun k => decide (m.row k = p)) →
        |s' (.elem dst.data p) - (s (.elem dst.data p) + (row.map fun k => m.entry k * s (.elem src.data (m.col k))).sum)| ≤
          ((1 + u) ^ (1 + row.length) - 1) *
            (|s (.elem dst.data p)| + (row.map fun k => |m.entry k * s (.elem src.data (m.col k))|).sum) := by
  obtain ⟨r, n', ts, h1, h2, h3⟩ := c27_coo_matvec A E m dst src hne space dspace hp hcol n s
  refine ⟨r, n', ts, h1, h2, fun M' a1 a2 p hp row hrow => ?_⟩
  rw [(h3 M' a1 a2).1 p hp]
  subst hrow
  exact (near_row hA _ _ _ _).1

/-- CSR product. -/
theorem c59_csr_matvec (hA : Rounded u A) (E : Env P) (m : CSR K P ℝ) (hd : m.RowsDisjoint) (dst src : Vec)
    (hne : src.data ≠ dst.data) (dspace : List P) (hp : IsPartition m.rows (E.pieces dst.part))
    (hcol : ∀ k ∈ m.kernel, m.col k ∈ dspace) (n : Nat) (s : Cell P → ℝ) :
    Ensures (m.matvec A E dst src (m.kernelFromRange (E.pieces dst.part)) (m.domainFromRange dspace (E.pieces dst.part)))
      n s fun _ s' => ∀ p ∈ m.rows, ∀ row, row = m.kernel.filter (fun k => m.range p k) →
        |s' (.elem dst.data p) - (s (.elem dst.data p) + (row.map fun k => m.entry k * s (.elem src.data (m.col k))).sum)| ≤
          ((1 + u) ^ (1 + row.length) - 1) *
            (|s (.elem dst.data p)| + (row.map fun k => |m.entry k * s (.elem src.data (m.col k))|).sum) := by
  obtain ⟨r, n', ts, h1, h2, h3⟩ := c28_csr_matvec A E m hd dst src hne dspace hp hcol n s
  refine ⟨r, n', ts, h1, h2, fun M' a1 a2 p hp row hrow => ?_⟩
  rw [(h3 M' a1 a2).1 p hp]
  subst hrow
  exact (near_row hA _ _ _ _).1

end Verif.Rounding
