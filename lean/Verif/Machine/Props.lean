import Verif.Machine.Model
import Verif.Gpu.Props
import Verif.Laplacian.Props
import Mathlib.Data.Int.ModEq
import Mathlib.Tactic.Linarith
import Mathlib.Tactic.Ring
/-! # C43: machine-integer index arithmetic -/
namespace Verif.Machine
open Verif.Grid

theorem ev_fits {t : CType} {z : Int} (h : t.Fits z) : t.ev z = some z := by
  unfold CType.ev
  by_cases s : t.signed = true
  · simp [s, h]
  · simp only [Bool.not_eq_true] at s
    unfold CType.Fits CType.min CType.max at h
    simp only [s, Bool.false_eq_true, if_false] at h ⊢
    rw [Int.emod_eq_of_lt (by omega) (by omega)]

theorem ev_signed {t : CType} (s : t.signed = true) {z y : Int} (h : t.ev z = some y) : y = z ∧ t.Fits z := by
  unfold CType.ev at h
  simp only [s, if_true] at h
  split at h
  · rename_i f
    injection h with h
    exact ⟨h.symm, f⟩
  · cases h

theorem conv_fits {t : CType} (hb : 1 ≤ t.bits) {z : Int} (h : t.Fits z) : t.conv z = z := by
  unfold CType.Fits CType.min CType.max at h
  unfold CType.conv
  have e : (2 : Int) ^ t.bits = 2 * 2 ^ (t.bits - 1) := by
    obtain ⟨k, hk⟩ : ∃ k, t.bits = k + 1 := ⟨t.bits - 1, by omega⟩
    rw [hk, Nat.add_sub_cancel, pow_succ]; ring
  by_cases s : t.signed = true
  · simp only [s, if_true] at h ⊢
    rw [Int.emod_eq_of_lt (by omega) (by omega)]
    omega
  · simp only [Bool.not_eq_true] at s
    simp only [s, Bool.false_eq_true, if_false] at h ⊢
    exact Int.emod_eq_of_lt (by omega) (by omega)

theorem min_nonpos (t : CType) : t.min ≤ 0 := by
  unfold CType.min
  split
  · have := pow_pos (show (0 : Int) < 2 by omega) (t.bits - 1)
    omega
  · exact le_refl _

theorem fits_of_nonneg {t : CType} {z : Int} (h0 : 0 ≤ z) (h1 : z ≤ t.max) : t.Fits z :=
  ⟨le_trans (min_nonpos t) h0, h1⟩

theorem linStep_exact {t : CType} {r a l h x : Int} (h0 : 0 ≤ r) (h1 : r < a) (hl : l ≤ x) (hh : x ≤ h)
    (hv : a * (h - l + 1) ≤ t.max) :
    linStep t (r, a) l h x = some (r + a * (x - l), a * (h - l + 1)) ∧ 0 ≤ r + a * (x - l) ∧
      r + a * (x - l) < a * (h - l + 1) := by
  have ha : 0 < a := by omega
  have p1 : 0 ≤ a * (x - l) := mul_nonneg (by omega) (by omega)
  have p2 : a * (x - l) ≤ a * (h - l) := mul_le_mul_of_nonneg_left (by omega) (by omega)
  have p3 : a * (h - l + 1) = a * (h - l) + a := by ring
  have p4 : h - l + 1 ≤ a * (h - l + 1) := le_mul_of_one_le_left (by omega) (by omega)
  refine ⟨?_, by omega, by omega⟩
  simp only [linStep]
  rw [ev_fits (fits_of_nonneg (t := t) (z := x - l) (by omega) (by omega))]
  simp only [Option.bind_eq_bind, Option.bind_some]
  rw [ev_fits (fits_of_nonneg (t := t) p1 (by omega))]
  simp only [Option.bind_some]
  rw [ev_fits (fits_of_nonneg (t := t) (z := r + a * (x - l)) (by omega) (by omega))]
  simp only [Option.bind_some]
  rw [ev_fits (fits_of_nonneg (t := t) (z := h - l) (by omega) (by omega))]
  simp only [Option.bind_some]
  rw [ev_fits (fits_of_nonneg (t := t) (z := h - l + 1) (by omega) (by omega))]
  simp only [Option.bind_some]
  rw [ev_fits (fits_of_nonneg (t := t) (z := a * (h - l + 1)) (by omega) (by omega))]
  rfl

theorem volume_cons {l h : Int} {b : Rect} (hlh : l ≤ h) :
    (Rect.volume ((l, h) :: b) : Int) = Rect.volume b * (h - l + 1) := by
  rw [Rect.volume, Nat.cast_mul, Int.toNat_of_nonneg (by omega)]; ring

theorem linRowAux_exact {t : CType} {b : Rect} {p : Point} (hp : InBox b p) (hv : (Rect.volume b : Int) ≤ t.max) :
    linRowAux t b p = some (linearizeRowMajorAux b p) := by
  induction hp with
  | nil => rfl
  | @cons lh x b p hx hp ih =>
    obtain ⟨l, h⟩ := lh
    simp only at hx
    have hp' : InBox b p := hp
    have hn := nonempty_of_inBox hp'
    have hvp : (0 : Int) < Rect.volume b := by exact_mod_cast volume_pos hn
    rw [volume_cons (by omega)] at hv
    have hb := linRM_bounds b p hp'
    have hle : (Rect.volume b : Int) ≤ Rect.volume b * (h - l + 1) := le_mul_of_one_le_right (by omega) (by omega)
    simp only [linRowAux, ih (by omega), Option.bind_eq_bind, Option.bind_some]
    have e : linearizeRowMajorAux b p = (linearizeRowMajor b p, (Rect.volume b : Int)) := by
      rw [← linAux_snd b p hn hp'.length_eq]; rfl
    rw [e, (linStep_exact hb.1 hb.2 hx.1 hx.2 hv).1]
    simp only [linearizeRowMajorAux, e]

theorem linColAux_exact {t : CType} {b : Rect} {p : Point} (hp : InBox b p) : ∀ {r a : Int}, 0 ≤ r → r < a →
    a * Rect.volume b ≤ t.max → linColAux t (r, a) b p = some (linearizeColumnMajorAux (r, a) b p) := by
  induction hp with
  | nil => intro r a _ _ _; rfl
  | @cons lh x b p hx hp ih =>
    obtain ⟨l, h⟩ := lh
    simp only at hx
    intro r a h0 h1 hv
    have hn := nonempty_of_inBox (b := b) (p := p) hp
    have hvp : (1 : Int) ≤ Rect.volume b := by exact_mod_cast volume_pos hn
    rw [volume_cons (by omega)] at hv
    have e : a * (Rect.volume b * (h - l + 1)) = a * (h - l + 1) * Rect.volume b := by ring
    rw [e] at hv
    have p0 : 0 ≤ a * (h - l + 1) := mul_nonneg (by omega) (by omega)
    have := le_mul_of_one_le_right p0 hvp
    obtain ⟨s, s0, s1⟩ := linStep_exact (t := t) h0 h1 hx.1 hx.2 (by omega)
    simp only [linColAux, s, Option.bind_eq_bind, Option.bind_some, linearizeColumnMajorAux]
    exact ih s0 s1 hv

/-- **C43**, point numbers: if the number of points of the rectangle fits the coordinate type, the linear number of every point is
computed exactly in that type, without overflow in any intermediate result. -/
theorem c43_linearize (t : CType) (o : IndexOrder) (b : Rect) (p : Point) (hp : InBox b p)
    (hv : (Rect.volume b : Int) ≤ t.max) : linearize t o b p = some (Grid.linearize o b p) := by
  cases o with
  | rowMajor => simp only [linearize, linRowAux_exact hp hv, Option.map_some]; rfl
  | columnMajor =>
    simp only [linearize, linColAux_exact hp (le_refl 0) (Int.one_pos) (by rw [one_mul]; exact hv), Option.map_some]; rfl

theorem linStep_signed {t : CType} (s : t.signed = true) {r a l h x : Int} {y : Int × Int} (e : linStep t (r, a) l h x = some y) :
    y = (r + a * (x - l), a * (h - l + 1)) ∧ a * (h - l + 1) ≤ t.max := by
  simp only [linStep, Option.bind_eq_bind, Option.bind_eq_some_iff] at e
  obtain ⟨d, hd, m, hm, r', hr, e1, he1, e2, he2, a', ha, hy⟩ := e
  obtain ⟨rfl, -⟩ := ev_signed s hd
  obtain ⟨rfl, -⟩ := ev_signed s hm
  obtain ⟨rfl, -⟩ := ev_signed s hr
  obtain ⟨rfl, -⟩ := ev_signed s he1
  obtain ⟨rfl, -⟩ := ev_signed s he2
  obtain ⟨rfl, f⟩ := ev_signed s ha
  injection hy with hy
  exact ⟨hy.symm, f.2⟩

/-- The condition is exact for signed types: if the number of points does not fit, the computation has undefined behaviour, for
every point (also when the point's number itself would fit). -/
theorem c43_linearize_overflow (t : CType) (s : t.signed = true) (o : IndexOrder) (b : Rect) (hb : b ≠ []) (p : Point) (hp : InBox b p)
    (hv : t.max < Rect.volume b) : linearize t o b p = none := by
  have hn := nonempty_of_inBox hp
  cases o with
  | rowMajor =>
    have key : ∀ {b : Rect} {p : Point}, InBox b p → ∀ y, linRowAux t b p = some y → y = linearizeRowMajorAux b p ∧
        (b ≠ [] → (Rect.volume b : Int) ≤ t.max) := by
      intro b p hp
      induction hp with
      | nil => intro y e; injection e with e; exact ⟨e.symm, fun h => absurd rfl h⟩
      | @cons lh x b p hx hp ih =>
        obtain ⟨l, h⟩ := lh
        intro y e
        simp only [linRowAux, Option.bind_eq_bind, Option.bind_eq_some_iff] at e
        obtain ⟨z, hz, e⟩ := e
        obtain ⟨rfl, -⟩ := ih z hz
        obtain ⟨rfl, hm⟩ := linStep_signed s e
        refine ⟨rfl, fun _ => ?_⟩
        have hp' : InBox b p := hp
        simp only at hx
        rw [volume_cons (by omega), ← linAux_snd b p (nonempty_of_inBox hp') hp'.length_eq]
        exact hm
    cases e : linearize t .rowMajor b p with
    | none => rfl
    | some y =>
      simp only [linearize, Option.map_eq_some_iff] at e
      obtain ⟨z, hz, -⟩ := e
      have := (key hp z hz).2 hb
      omega
  | columnMajor =>
    have key : ∀ {b : Rect} {p : Point}, InBox b p → ∀ r a y, linColAux t (r, a) b p = some y →
        (b ≠ [] → a * (Rect.volume b : Int) ≤ t.max) := by
      intro b p hp
      induction hp with
      | nil => intro r a y e h; exact absurd rfl h
      | @cons lh x b p hx hp ih =>
        obtain ⟨l, h⟩ := lh
        intro r a y e _
        simp only [linColAux, Option.bind_eq_bind, Option.bind_eq_some_iff] at e
        obtain ⟨z, hz, e⟩ := e
        obtain ⟨rfl, hm⟩ := linStep_signed s hz
        simp only at hx
        rw [volume_cons (by omega)]
        have e' : a * (Rect.volume b * (h - l + 1)) = a * (h - l + 1) * Rect.volume b := by ring
        rw [e']
        by_cases hb : b = []
        · subst hb; simpa [Rect.volume] using hm
        · exact ih _ _ _ e hb
    cases e : linearize t .columnMajor b p with
    | none => rfl
    | some y =>
      simp only [linearize, Option.map_eq_some_iff] at e
      obtain ⟨z, hz, -⟩ := e
      have := key hp _ _ _ hz hb
      omega

theorem linStep_unsigned {t : CType} (s : t.signed = false) {r a r' a' l h x : Int} (hr : r ≡ r' [ZMOD 2 ^ t.bits])
    (ha : a ≡ a' [ZMOD 2 ^ t.bits]) :
    ∃ u v, linStep t (r, a) l h x = some (u, v) ∧ u ≡ r' + a' * (x - l) [ZMOD 2 ^ t.bits] ∧
      v ≡ a' * (h - l + 1) [ZMOD 2 ^ t.bits] ∧ 0 ≤ u ∧ u < 2 ^ t.bits := by
  have hpos : (0 : Int) < 2 ^ t.bits := pow_pos (by omega) _
  simp only [linStep, CType.ev, s, Bool.false_eq_true, if_false, Option.bind_eq_bind, Option.bind_some]
  refine ⟨_, _, rfl, ?_, ?_, Int.emod_nonneg _ (by omega), Int.emod_lt_of_pos _ hpos⟩
  · refine (Int.mod_modEq _ _).trans (hr.add ((Int.mod_modEq _ _).trans (ha.mul (Int.mod_modEq _ _))))
  · refine (Int.mod_modEq _ _).trans (ha.mul ((Int.mod_modEq _ _).trans ((Int.mod_modEq _ _).add_right 1)))

/-- For unsigned coordinate types the numbers are exact even if the number of points exceeds the largest value by one. -/
theorem c43_linearize_unsigned (t : CType) (s : t.signed = false) (o : IndexOrder) (b : Rect) (p : Point) (hp : InBox b p)
    (hv : (Rect.volume b : Int) ≤ 2 ^ t.bits) : linearize t o b p = some (Grid.linearize o b p) := by
  have hbd := linearize_bounds o b p hp
  have fin : ∀ {u : Int}, u ≡ Grid.linearize o b p [ZMOD 2 ^ t.bits] → 0 ≤ u → u < 2 ^ t.bits → u = Grid.linearize o b p := by
    intro u hu h0 h1
    unfold Int.ModEq at hu
    rw [Int.emod_eq_of_lt h0 h1, Int.emod_eq_of_lt hbd.1 (by omega)] at hu
    exact hu
  have hpos : (0 : Int) < 2 ^ t.bits := pow_pos (by omega) _
  cases o with
  | rowMajor =>
    have key : ∀ {b : Rect} {p : Point}, InBox b p → ∃ u v, linRowAux t b p = some (u, v) ∧
        u ≡ (linearizeRowMajorAux b p).1 [ZMOD 2 ^ t.bits] ∧ v ≡ (linearizeRowMajorAux b p).2 [ZMOD 2 ^ t.bits] ∧
        0 ≤ u ∧ u < 2 ^ t.bits := by
      intro b p hp
      induction hp with
      | nil => exact ⟨0, 1, rfl, Int.ModEq.refl _, Int.ModEq.refl _, le_refl _, hpos⟩
      | @cons lh x b p hx hp ih =>
        obtain ⟨l, h⟩ := lh
        obtain ⟨u, v, e, h1, h2, -, -⟩ := ih
        simp only [linRowAux, e, Option.bind_eq_bind, Option.bind_some]
        exact linStep_unsigned s h1 h2
    obtain ⟨u, v, e, h1, -, h2, h3⟩ := key hp
    simp only [linearize, e, Option.map_some]
    rw [fin h1 h2 h3]
  | columnMajor =>
    have key : ∀ {b : Rect} {p : Point}, InBox b p → ∀ r a r' a', r ≡ r' [ZMOD 2 ^ t.bits] → a ≡ a' [ZMOD 2 ^ t.bits] →
        0 ≤ r → r < 2 ^ t.bits → ∃ u v, linColAux t (r, a) b p = some (u, v) ∧
        u ≡ (linearizeColumnMajorAux (r', a') b p).1 [ZMOD 2 ^ t.bits] ∧ 0 ≤ u ∧ u < 2 ^ t.bits := by
      intro b p hp
      induction hp with
      | nil => intro r a r' a' h1 _ h3 h4; exact ⟨r, a, rfl, h1, h3, h4⟩
      | @cons lh x b p hx hp ih =>
        obtain ⟨l, h⟩ := lh
        intro r a r' a' h1 h2 _ _
        obtain ⟨u, v, e, h1, h2, h3, h4⟩ := linStep_unsigned (l := l) (h := h) (x := x) s h1 h2
        simp only [linColAux, e, Option.bind_eq_bind, Option.bind_some]
        exact ih u v _ _ h1 h2 h3 h4
    obtain ⟨u, v, e, h1, h2, h3⟩ := key hp 0 1 0 1 (Int.ModEq.refl _) (Int.ModEq.refl _) (le_refl _) hpos
    simp only [linearize, e, Option.map_some]
    rw [fin h1 h2 h3]

/-! ## Laplacian sizes and entries -/

theorem bind_ev {α : Type} {t : CType} {z : Int} (h : t.Fits z) (f : Int → Option α) : (t.ev z >>= f) = f z := by
  rw [ev_fits h]; rfl

/-- **C43**, one-dimensional Laplacian: if three times the grid size fits, the kernel size, the row and column of every entry and
the row ranges are exact. -/
theorem c43_laplacian_1d (t r c : CType) (n : Int) (hn : 1 ≤ n) (h : 3 * n ≤ t.max) (hb : 1 ≤ r.bits) (hc : 1 ≤ c.bits)
    (hr : n ≤ r.max) (hcm : n ≤ c.max) :
    kernelSize t n = some (Laplacian.kernelSize n) ∧
    (∀ k, 0 ≤ k → k < Laplacian.kernelSize n →
      rowOf t r k = some (Laplacian.rowOf k) ∧ colOf t c k = some (Laplacian.colOf k)) ∧
    ∀ k, 0 ≤ k → k < n → (2 ≤ n ∨ k = 0) → rowptrOf t n k = some (Laplacian.rowptrOf n k) := by
  have f : ∀ {z : Int}, 0 ≤ z → z ≤ 3 * n → t.Fits z := fun h0 h1 => fits_of_nonneg h0 (by omega)
  refine ⟨?_, fun k h0 h1 => ?_, fun k h0 h1 h2 => ?_⟩
  · simp only [kernelSize, Laplacian.kernelSize]
    rw [bind_ev (f (by omega) (by omega)), ev_fits (f (by omega) (by omega))]
  · unfold Laplacian.kernelSize at h1
    have hq : (k + 1).tdiv 3 = (k + 1) / 3 := Int.tdiv_eq_ediv_of_nonneg (by omega)
    constructor
    · simp only [rowOf, Laplacian.rowOf]
      rw [bind_ev (f (by omega) (by omega)), bind_ev (f (by omega) (by omega)),
        conv_fits hb (fits_of_nonneg (by omega) (by omega))]
      rfl
    · simp only [colOf, Laplacian.colOf]
      rw [bind_ev (f (by omega) (by omega)), bind_ev (f (by omega) (by omega)), bind_ev (f (by omega) (by omega)),
        bind_ev (f (by omega) (by omega)), conv_fits hc (fits_of_nonneg (by omega) (by omega))]
      rfl
  · simp only [rowptrOf, Laplacian.rowptrOf]
    rw [bind_ev (f (by omega) (by omega))]
    by_cases e0 : k = 0
    · simp only [e0, if_true]; rfl
    · by_cases e1 : k = n - 1
      · simp only [e1, if_true]
        rw [if_neg (by omega), if_neg (by omega), bind_ev (f (by omega) (by omega)), bind_ev (f (by omega) (by omega)),
          bind_ev (f (by omega) (by omega))]
        rfl
      · simp only [e0, e1, if_false]
        rw [bind_ev (f (by omega) (by omega)), bind_ev (f (by omega) (by omega)), bind_ev (f (by omega) (by omega))]
        rfl

/-- Violation at the edge: for one grid size the kernel size `3n - 2` fits the coordinate type `coord_t`, but `3n` does not, and
the computation overflows. -/
theorem c43_laplacian_1d_violated :
    int64.Fits (Laplacian.kernelSize 3074457345618258603) ∧ kernelSize int64 3074457345618258603 = none := by
  decide +kernel

/-- **C43**, two-dimensional Laplacian with both sides at least two: the size is exact whenever it fits. -/
theorem c43_laplacian_2d_partial (t : CType) (h w : Int) (hh : 2 ≤ h) (hw : 2 ≤ w)
    (hv : Laplacian.laplacian2dKernelSize h w ≤ t.max) :
    laplacian2dKernelSize t h w = some (Laplacian.laplacian2dKernelSize h w) := by
  unfold Laplacian.laplacian2dKernelSize at hv ⊢
  have p1 : 0 ≤ (h - 2) * (w - 2) := mul_nonneg (by omega) (by omega)
  have p2 : 0 ≤ w * h := mul_nonneg (by omega) (by omega)
  have f : ∀ {z : Int}, 0 ≤ z → z ≤ 4 * 2 + (h - 2) * 2 * 3 + (w - 2) * 2 * 3 + (h - 2) * (w - 2) * 4 + w * h → t.Fits z :=
    fun h0 h1 => fits_of_nonneg h0 (by omega)
  simp only [laplacian2dKernelSize]
  rw [bind_ev (f (by omega) (by omega)), bind_ev (f (by omega) (by omega)), bind_ev (f (by omega) (by omega)),
    bind_ev (f (by omega) (by omega)), bind_ev (f (by omega) (by omega)), bind_ev (f (by omega) (by omega)),
    bind_ev (f (by omega) (by omega)), bind_ev (f (by omega) (by omega)), bind_ev (f (by omega) (by omega)),
    bind_ev (f (by omega) (by omega)), bind_ev (f (by omega) (by omega)), bind_ev (f (by omega) (by omega)),
    ev_fits (f (by omega) (by omega))]
  rfl

/-- Violation: for a grid one point high the result can fit while an intermediate sum overflows. -/
theorem c43_laplacian_2d_violated :
    int32.Fits (Laplacian.laplacian2dKernelSize 1 400000000) ∧ laplacian2dKernelSize int32 1 400000000 = none := by
  decide +kernel

/-! ## Flat indices -/

theorem conv_mod {t : CType} (h : t.bits ≤ 64) {a b : Int} (e : a ≡ b [ZMOD 2 ^ 64]) : t.conv a = t.conv b := by
  have e' : a ≡ b [ZMOD 2 ^ t.bits] := e.of_dvd (pow_dvd_pow 2 h)
  unfold CType.conv
  split
  · rw [(e'.add_right _ : a + 2 ^ (t.bits - 1) ≡ b + 2 ^ (t.bits - 1) [ZMOD 2 ^ t.bits])]
  · exact e'

theorem addIndex_exact {t : CType} (h : t.bits ≤ 64) (hb : 1 ≤ t.bits) {x q : Int} (f : t.Fits (x + q)) :
    addIndex t x q = some (x + q) := by
  simp only [addIndex, CType.ev, sizeT, Bool.false_eq_true, if_false, Option.bind_eq_bind, Option.bind_some]
  show some (t.conv _) = _
  rw [← conv_fits hb f, conv_mod h (a := x + q) (b := t.conv (x + q)) (by rw [conv_fits hb f])]
  refine congrArg some ?_
  rw [conv_fits hb f]
  refine conv_mod h ((Int.mod_modEq _ _).trans (Int.ModEq.add_right _ ?_))
  simp only [CType.conv, Bool.false_eq_true, if_false]
  exact Int.mod_modEq _ _

theorem diff_exact {t : CType} {l h : Int} (hlh : l ≤ h) (f : h - l + 1 ≤ t.max) (g : h - l + 1 ≤ sizeT.max) :
    diff t l h = some (h - l + 1) := by
  simp only [diff]
  rw [bind_ev (fits_of_nonneg (by omega) (by omega)), bind_ev (fits_of_nonneg (by omega) (by omega))]
  rw [conv_fits (by decide) (fits_of_nonneg (by omega) g)]
  rfl

/-- Every side of the rectangle fits the coordinate type. -/
def SidesFit (t : CType) (b : Rect) : Prop := ∀ lh ∈ b, t.Fits lh.1 ∧ t.Fits lh.2 ∧ lh.2 - lh.1 + 1 ≤ t.max

theorem volume_tail_le {l h : Int} {b : Rect} (hlh : l ≤ h) : (Rect.volume b : Int) ≤ Rect.volume ((l, h) :: b) := by
  rw [volume_cons hlh]
  exact le_mul_of_one_le_right (by omega) (by omega)

theorem side_le {l h : Int} {b : Rect} (hlh : l ≤ h) (hb : Nonempty b) : h - l + 1 ≤ Rect.volume ((l, h) :: b) := by
  rw [volume_cons hlh]
  have : (1 : Int) ≤ Rect.volume b := by exact_mod_cast volume_pos hb
  exact le_mul_of_one_le_left (by omega) this

theorem sizeT_max : sizeT.max = 18446744073709551615 := by decide +kernel

theorem uint32_max : uint32.max = 4294967295 := by decide +kernel

theorem sizeT_fits {z : Int} (h0 : 0 ≤ z) (h1 : z ≤ sizeT.max) : sizeT.Fits z :=
  fits_of_nonneg h0 h1

theorem flattenCAux_exact {t : CType} : ∀ {b : Rect}, Nonempty b → SidesFit t b → (Rect.volume b : Int) ≤ sizeT.max →
    ∃ ps, Gpu.flattenCAux b = some (Rect.volume b, ps) ∧ flattenCAux t b = some (some ((Rect.volume b : Int), ps.map Int.ofNat))
  | [], _, _, _ => ⟨[], rfl, rfl⟩
  | (l, h) :: b, hn, hs, hv => by
    have hlh : l ≤ h := hn (l, h) (by simp)
    have hnt := nonempty_tail hn
    have h1 := volume_tail_le (b := b) hlh
    obtain ⟨ps, e1, e2⟩ := flattenCAux_exact (t := t) hnt (fun x hx => hs x (by simp [hx])) (by omega)
    have ev : Rect.volume b * (h - l + 1).toNat = Rect.volume ((l, h) :: b) := by rw [Rect.volume, Nat.mul_comm]
    have hside := side_le (b := b) hlh hnt
    refine ⟨Rect.volume ((l, h) :: b) :: ps, ?_, ?_⟩
    · simp only [Gpu.flattenCAux, e1]
      rw [if_neg (by omega), ev]
    · simp only [flattenCAux, e2, Option.bind_eq_bind, Option.bind_some]
      rw [if_neg (by omega), diff_exact hlh (hs (l, h) (by simp)).2.2 (by omega)]
      simp only [Option.bind_some]
      rw [← volume_cons hlh, ev_fits (sizeT_fits (by omega) hv)]
      rfl

theorem unflattenC_exact {t : CType} (h : t.bits ≤ 64) (hb : 1 ≤ t.bits) : ∀ {ps : List Nat} {x : Nat} {p : Point},
    (∀ y ∈ Gpu.unflattenC ps x p, t.Fits y) → unflattenC t (ps.map Int.ofNat) x p = some (Gpu.unflattenC ps x p)
  | q :: qs, x, y :: p, f => by
    have ih := unflattenC_exact h hb (ps := qs) (x := x % q) (p := p) fun z hz => f z (by simp [Gpu.unflattenC, hz])
    simp only [List.map_cons, unflattenC]
    have e1 : (x : Int) / Int.ofNat q = ((x / q : Nat) : Int) := by simp
    have e2 : (x : Int) % Int.ofNat q = ((x % q : Nat) : Int) := by simp
    rw [e1, e2, addIndex_exact h hb (f _ (by simp [Gpu.unflattenC])), ih]
    rfl
  | [], x, y :: p, f => by
    simp only [List.map_nil, unflattenC]
    rw [addIndex_exact h hb (f _ (by simp [Gpu.unflattenC]))]
    rfl
  | [], _, [], _ => rfl
  | _ :: _, _, [], _ => rfl

theorem inBox_fits {t : CType} {b : Rect} (hs : SidesFit t b) {p : Point} (hp : InBox b p) : ∀ y ∈ p, t.Fits y := by
  induction hp with
  | nil => simp
  | @cons lh x b p hx hp ih =>
    intro y hy
    rcases List.mem_cons.1 hy with rfl | hy
    · have := hs lh (by simp)
      exact ⟨le_trans this.1.1 hx.1, le_trans hx.2 this.2.1.2⟩
    · exact ih (fun z hz => hs z (by simp [hz])) y hy

/-- **C43**, flat indices on the device (C order, the order the kernels use): if every side of the rectangle fits the coordinate
type and the number of points fits `size_t`, the volume, the pitches and every point computed from a flat index are exact. -/
theorem c43_flat_index (t : CType) (h64 : t.bits ≤ 64) (h1 : 1 ≤ t.bits) (b : Rect) (hb : b ≠ []) (hn : Nonempty b) (hs : SidesFit t b)
    (hv : (Rect.volume b : Int) ≤ sizeT.max) :
    ∃ ps : List Nat, Gpu.flatten .rowMajor b = (Rect.volume b, some ps) ∧
      flatten t b = some ((Rect.volume b : Int), some (ps.map Int.ofNat)) ∧
      ∀ x : Nat, x < Rect.volume b →
        unflattenC t (ps.map Int.ofNat) x (Rect.lo b) = some (Gpu.unflatten .rowMajor ps x (Rect.lo b)) := by
  have un : ∀ {ps : List Nat}, Gpu.flatten .rowMajor b = (Rect.volume b, some ps) → ∀ x : Nat, x < Rect.volume b →
        unflattenC t (ps.map Int.ofNat) x (Rect.lo b) = some (Gpu.unflatten .rowMajor ps x (Rect.lo b)) := by
    intro ps e x hx
    obtain ⟨ps', e', hin, -⟩ := Gpu.c13_flatten_unflatten .rowMajor b hb hn
    rw [e] at e'
    injection e' with _ e'
    injection e' with e'
    subst e'
    have hfit := inBox_fits hs (hin x hx)
    have eu : Gpu.unflatten .rowMajor ps x (Rect.lo b) = Gpu.unflattenC ps x (Rect.lo b) := by
      unfold Gpu.unflatten
      split
      · rename_i y hy
        match b, hb with
        | [(l, h)], _ =>
          simp only [Gpu.flatten] at e
          injection e with _ e
          injection e with e
          subst e
          injection hy with hy _
          subst hy
          rfl
        | _ :: _ :: _, _ => simp [Rect.lo] at hy
      · rfl
    rw [eu] at hfit ⊢
    exact unflattenC_exact h64 h1 hfit
  match b, hb with
  | [(l, h)], _ =>
    have hlh : l ≤ h := hn (l, h) (by simp)
    have e : Gpu.flatten .rowMajor [(l, h)] = (Rect.volume [(l, h)], some []) := by
      simp only [Gpu.flatten, Gpu.flatten0, Rect.volume, Nat.mul_one]; rw [if_neg (by omega)]
    refine ⟨[], e, ?_, un e⟩
    have hvol : (Rect.volume [(l, h)] : Int) = h - l + 1 := by rw [volume_cons hlh]; simp [Rect.volume]
    simp only [flatten]
    rw [if_neg (by omega), diff_exact hlh (hs (l, h) (by simp)).2.2 (by omega), hvol]
    rfl
  | (l, h) :: lh :: b, _ =>
    have hlh : l ≤ h := hn (l, h) (by simp)
    have hnt := nonempty_tail hn
    have h1 := volume_tail_le (b := lh :: b) hlh
    have hside := side_le (b := lh :: b) hlh hnt
    obtain ⟨ps, e1, e2⟩ := flattenCAux_exact (t := t) hnt (fun x hx => hs x (List.mem_cons_of_mem _ hx)) (by omega)
    have e : Gpu.flatten .rowMajor ((l, h) :: lh :: b) = (Rect.volume ((l, h) :: lh :: b), some ps) := by
      simp only [Gpu.flatten, Gpu.flattenC, e1]
      rw [if_neg (by omega), Nat.mul_comm]; rfl
    refine ⟨ps, e, ?_, un e⟩
    simp only [flatten, flattenC, e2, Option.bind_eq_bind, Option.bind_some]
    rw [if_neg (by omega), diff_exact hlh (hs (l, h) (by simp)).2.2 (by omega)]
    simp only [Option.bind_some]
    rw [← volume_cons hlh, ev_fits (sizeT_fits (by omega) hv)]
    rfl

/-- **C43**, thread numbers: if the number of blocks fits 32 bits, the number of blocks launched and every thread's number are exact. -/
theorem c43_grid_partial (v : Nat) (hv : v ≤ 128 * (2 ^ 32 - 1)) :
    launchedBlocks v = some (Gpu.numBlocks v : Int) ∧
    ∀ t ∈ Gpu.launchGrid v, globalTid t.1 t.2 = some (Gpu.globalTid t : Int) := by
  have e : (((v : Int) + 128 - 1) / 128) = ((Gpu.numBlocks v : Nat) : Int) := by
    unfold Gpu.numBlocks Gpu.threadsPerBlock
    omega
  have hm := sizeT_max
  constructor
  · simp only [launchedBlocks]
    rw [bind_ev (sizeT_fits (by omega) (by omega)), bind_ev (sizeT_fits (by omega) (by omega)), e, conv_fits (by decide)]
    · rfl
    · refine fits_of_nonneg (by omega) ?_
      rw [uint32_max]
      unfold Gpu.numBlocks Gpu.threadsPerBlock
      omega
  · intro t ht
    rw [Gpu.mem_launchGrid] at ht
    unfold Gpu.numBlocks Gpu.threadsPerBlock at ht
    simp only [globalTid, Gpu.globalTid, Gpu.threadsPerBlock]
    rw [bind_ev (sizeT_fits (by omega) (by omega)), ev_fits (sizeT_fits (by omega) (by omega))]
    simp

/-- Violation: with 2^39 points the number of blocks is truncated to zero when the kernel is launched, although the number of points fits
`size_t`. -/
theorem c43_grid_violated : launchedBlocks (2 ^ 39) = some 0 ∧ (2 ^ 39 : Int) < 2 ^ 64 ∧ Gpu.numBlocks (2 ^ 39) = 2 ^ 32 := by
  decide +kernel

/-! ## Concrete cases -/

example : InBox [(-5, 1000), (0, 46339)] [7, 12] ∧ (Rect.volume [(-5, 1000), (0, 46339)] : Int) ≤ int32.max ∧
    linearize int32 .rowMajor [(-5, 1000), (0, 46339)] [7, 12] = some 556092 := by
  refine ⟨?_, by decide, by decide⟩
  exact .cons (by decide) (.cons (by decide) .nil)

example : linearize int32 .rowMajor [(0, 65535), (0, 65535)] [0, 0] = none ∧
    int32.max < (Rect.volume [(0, 65535), (0, 65535)] : Int) := by decide +kernel

example : linearize uint32 .columnMajor [(0, 65535), (0, 65535)] [65535, 65535] = some (2 ^ 32 - 1) := by decide +kernel

example : 3 * 1000000 ≤ int64.max ∧ (1000000 : Int) ≤ int64.max ∧ rowOf int64 int64 2999997 = some 999999 := by decide +kernel

example : SidesFit int32 [(-2, 5), (3, 9), (0, 1)] ∧ Nonempty [(-2, 5), (3, 9), (0, 1)] ∧
    unflattenC int32 [14, 2] 45 [-2, 3, 0] = some [1, 4, 1] := by
  refine ⟨?_, by decide, by decide⟩
  intro lh hlh
  simp at hlh
  rcases hlh with rfl | rfl | rfl <;> decide

end Verif.Machine
