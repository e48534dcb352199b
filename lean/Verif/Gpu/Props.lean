import Verif.Gpu.Model
import Verif.Grid.Props
import Mathlib.Tactic.LinearCombination
import Mathlib.Tactic.Linarith
import Mathlib.Data.List.ProdSigma
import Mathlib.Data.List.Nodup
/-
Property theorems C13, C14 about flat indices and the element-wise GPU kernel.
-/
namespace Verif.Gpu
open Verif.Grid

theorem nonempty_cons {l h : Int} {b : Rect} (hlh : l ≤ h) (hb : Nonempty b) : Nonempty ((l, h) :: b) := by
  intro x hx
  rcases List.mem_cons.1 hx with rfl | hx
  · exact hlh
  · exact hb x hx

theorem flattenCAux_eq (b : Rect) (hb : Nonempty b) :
    ∃ ps, flattenCAux b = some (Rect.volume b, ps) ∧
      ∀ (l h : Int) (x : Nat), x < (h - l + 1).toNat * Rect.volume b →
        InBox ((l, h) :: b) (unflattenC ps x (l :: Rect.lo b)) ∧
        linearizeRowMajor ((l, h) :: b) (unflattenC ps x (l :: Rect.lo b)) = x := by
  induction b with
  | nil =>
    refine ⟨[], rfl, ?_⟩
    intro l h x hx
    simp only [Rect.volume, Nat.mul_one] at hx
    refine ⟨List.Forall₂.cons ⟨by simp, by simp; omega⟩ List.Forall₂.nil, ?_⟩
    simp [unflattenC, Rect.lo, linearizeRowMajor, linearizeRowMajorAux]
  | cons lh b ih =>
    obtain ⟨l', h'⟩ := lh
    have hlh : l' ≤ h' := hb (l', h') (by simp)
    obtain ⟨ps, h1, h2⟩ := ih (nonempty_tail hb)
    refine ⟨Rect.volume b * (h' - l' + 1).toNat :: ps, ?_, ?_⟩
    · simp only [flattenCAux, h1]
      rw [if_neg (by omega), Rect.volume, Nat.mul_comm]
    · intro l h x hx
      have hv : 0 < Rect.volume b * (h' - l' + 1).toNat := by
        have := volume_pos (nonempty_tail hb)
        apply Nat.mul_pos this; omega
      have hm := Nat.mod_lt x hv
      obtain ⟨h3, h4⟩ := h2 l' h' (x % (Rect.volume b * (h' - l' + 1).toNat)) (by rw [Nat.mul_comm (h' - l' + 1).toNat]; exact hm)
      have hd : x / (Rect.volume b * (h' - l' + 1).toNat) < (h - l + 1).toNat := by
        rw [Nat.div_lt_iff_lt_mul hv]
        simp only [Rect.volume] at hx
        rw [Nat.mul_comm (Rect.volume b)]; exact hx
      have hcons : unflattenC (Rect.volume b * (h' - l' + 1).toNat :: ps) x (l :: Rect.lo ((l', h') :: b)) =
          (l + (x / (Rect.volume b * (h' - l' + 1).toNat) : Nat)) ::
            unflattenC ps (x % (Rect.volume b * (h' - l' + 1).toNat)) (l' :: Rect.lo b) := rfl
      rw [hcons]
      refine ⟨List.Forall₂.cons ⟨Int.le_add_of_nonneg_right (Int.natCast_nonneg _), ?_⟩ h3, ?_⟩
      · generalize x / (Rect.volume b * (h' - l' + 1).toNat) = q at hd
        simp only []; omega
      · rw [linRM_cons _ _ _ _ _ hb h3.length_eq, h4]
        have e : (Rect.volume ((l', h') :: b)) = Rect.volume b * (h' - l' + 1).toNat := by
          rw [Rect.volume, Nat.mul_comm]
        rw [e, add_sub_cancel_left]
        exact_mod_cast Nat.mod_add_div x _

/-- cumulative products `P, P d0, P d0 d1, ...` (as many as dimensions) -/
def cum : Nat → Rect → List Nat
  | _, [] => []
  | P, (l, h) :: b => P :: cum (P * (h - l + 1).toNat) b

theorem flattenFAux_eq (P : Nat) (l h : Int) (b : Rect) (hb : Nonempty ((l, h) :: b)) :
    flattenFAux P ((l, h) :: b) =
      some (P * Rect.volume ((l, h) :: b), cum (P * (h - l + 1).toNat) b) := by
  induction b generalizing P l h with
  | nil =>
    have hlh : l ≤ h := hb (l, h) (by simp)
    simp only [flattenFAux, cum, Rect.volume, Nat.mul_one]
    rw [if_neg (by omega)]
  | cons lh b ih =>
    obtain ⟨l', h'⟩ := lh
    have hlh : l ≤ h := hb (l, h) (by simp)
    simp only [flattenFAux]
    rw [if_neg (by omega), ih _ _ _ (nonempty_tail hb)]
    simp only [cum, Rect.volume, Nat.mul_assoc]

theorem linCM_cons (l h x : Int) (b : Rect) (p : Point) (hl : b.length = p.length) :
    linearizeColumnMajor ((l, h) :: b) (x :: p) = (x - l) + (h - l + 1) * linearizeColumnMajor b p := by
  unfold linearizeColumnMajor
  simp only [linearizeColumnMajorAux]
  rw [linCMAux_eq _ _ _ _ hl, linCMAux_eq _ _ _ _ hl]
  simp

theorem unflattenFAux_eq (P : Nat) (hP : 0 < P) (b : Rect) (hb : Nonempty b) (x : Nat) (hx : x < P * Rect.volume b) :
    (unflattenFAux (cum P b) x (Rect.lo b)).1 < P ∧ InBox b (unflattenFAux (cum P b) x (Rect.lo b)).2 ∧
    P * linearizeColumnMajor b (unflattenFAux (cum P b) x (Rect.lo b)).2 +
      (unflattenFAux (cum P b) x (Rect.lo b)).1 = x := by
  induction b generalizing P with
  | nil =>
    simp only [Rect.volume, Nat.mul_one] at hx
    refine ⟨hx, List.Forall₂.nil, ?_⟩
    simp [unflattenFAux, cum, Rect.lo, linearizeColumnMajor, linearizeColumnMajorAux]
  | cons lh b ih =>
    obtain ⟨l, h⟩ := lh
    have hlh : l ≤ h := hb (l, h) (by simp)
    obtain ⟨d, hd⟩ : ∃ d : Nat, (h - l + 1) = d := ⟨(h - l + 1).toNat, by omega⟩
    have hd0 : 0 < d := by omega
    have hdn : (h - l + 1).toNat = d := by omega
    obtain ⟨h1, h2, h3⟩ := ih (P * d) (Nat.mul_pos hP hd0) (nonempty_tail hb)
      (by rw [Rect.volume, hdn] at hx; rw [Nat.mul_assoc]; exact hx)
    have hstep : unflattenFAux (cum P ((l, h) :: b)) x (Rect.lo ((l, h) :: b)) =
        ((unflattenFAux (cum (P * d) b) x (Rect.lo b)).1 % P,
          (l + ((unflattenFAux (cum (P * d) b) x (Rect.lo b)).1 / P : Nat)) ::
            (unflattenFAux (cum (P * d) b) x (Rect.lo b)).2) := by
      rw [← hdn]; rfl
    rw [hstep]
    generalize unflattenFAux (cum (P * d) b) x (Rect.lo b) = r at h1 h2 h3
    refine ⟨Nat.mod_lt _ hP, List.Forall₂.cons ⟨Int.le_add_of_nonneg_right (Int.natCast_nonneg _), ?_⟩ h2, ?_⟩
    · have : r.1 / P < d := by rw [Nat.div_lt_iff_lt_mul hP, Nat.mul_comm]; exact h1
      generalize r.1 / P = q at this
      simp only []; omega
    · simp only []
      rw [linCM_cons _ _ _ _ _ h2.length_eq, hd, add_sub_cancel_left]
      have e := Nat.mod_add_div r.1 P
      have e' : ((r.1 % P : Nat) : Int) + P * ((r.1 / P : Nat) : Int) = r.1 := by exact_mod_cast e
      push_cast at h3
      linear_combination h3 + e'

/-- Core fact: unflattening index `x` gives the point whose linear number is `x`. -/
theorem unflatten_spec (o : IndexOrder) (b : Rect) (hb : b ≠ []) (hne : Nonempty b) :
    ∃ ps, flatten o b = (Rect.volume b, some ps) ∧
      ∀ x : Nat, x < Rect.volume b →
        InBox b (unflatten o ps x (Rect.lo b)) ∧ linearize o b (unflatten o ps x (Rect.lo b)) = x := by
  match b, hb with
  | [(l, h)], _ =>
    have hlh : l ≤ h := hne (l, h) (by simp)
    refine ⟨[], ?_, ?_⟩
    · simp only [flatten, flatten0, Rect.volume, Nat.mul_one]; rw [if_neg (by omega)]
    · intro x hx
      simp only [Rect.volume, Nat.mul_one] at hx
      refine ⟨List.Forall₂.cons ⟨by simp [unflatten0], by simp [unflatten0]; omega⟩ List.Forall₂.nil, ?_⟩
      cases o <;> simp [unflatten, unflatten0, Rect.lo, linearize, linearizeRowMajor, linearizeRowMajorAux,
        linearizeColumnMajor, linearizeColumnMajorAux]
  | (l, h) :: lh2 :: b', _ =>
    have hlh : l ≤ h := hne (l, h) (by simp)
    cases o with
    | rowMajor =>
      obtain ⟨ps, h1, h2⟩ := flattenCAux_eq (lh2 :: b') (nonempty_tail hne)
      refine ⟨ps, ?_, ?_⟩
      · simp only [flatten, flattenC, h1]
        rw [if_neg (by omega), Nat.mul_comm]; rfl
      · intro x hx
        exact h2 l h x hx
    | columnMajor =>
      refine ⟨cum (1 * (h - l + 1).toNat) (lh2 :: b'), ?_, ?_⟩
      · simp only [flatten, flattenF]
        rw [flattenFAux_eq 1 l h (lh2 :: b') hne]
        simp
      · intro x hx
        obtain ⟨d, hd⟩ : ∃ d : Nat, (h - l + 1) = d := ⟨(h - l + 1).toNat, by omega⟩
        have hdn : (h - l + 1).toNat = d := by omega
        have hd0 : 0 < d := by omega
        obtain ⟨h1, h2, h3⟩ := unflattenFAux_eq d hd0 (lh2 :: b') (nonempty_tail hne) x
          (by rw [Rect.volume, hdn] at hx; exact hx)
        have hstep : unflatten .columnMajor (cum (1 * (h - l + 1).toNat) (lh2 :: b')) x (Rect.lo ((l, h) :: lh2 :: b')) =
            (l + ((unflattenFAux (cum d (lh2 :: b')) x (Rect.lo (lh2 :: b'))).1 : Int)) ::
              (unflattenFAux (cum d (lh2 :: b')) x (Rect.lo (lh2 :: b'))).2 := by
          rw [hdn, Nat.one_mul]; rfl
        rw [hstep]
        generalize unflattenFAux (cum d (lh2 :: b')) x (Rect.lo (lh2 :: b')) = r at h1 h2 h3
        refine ⟨List.Forall₂.cons ⟨by simp, by simp only []; omega⟩ h2, ?_⟩
        simp only [linearize]
        rw [linCM_cons _ _ _ _ _ h2.length_eq, hd, add_sub_cancel_left]
        linarith

/-- **C13**: for every non-empty box of dimension at least one and both memory orders, `flatten` returns the volume and
sets the pitches; unflattening `0 .. volume-1` yields points of the box, different ones for different indices, every point
of the box, in row-major (C) resp. column-major (Fortran) order; and the index that unflattens to a point is its linear
number. -/
theorem c13_flatten_unflatten (o : IndexOrder) (b : Rect) (hb : b ≠ []) (hne : Nonempty b) :
    ∃ ps, flatten o b = (Rect.volume b, some ps) ∧
      (∀ x : Nat, x < Rect.volume b → InBox b (unflatten o ps x (Rect.lo b))) ∧
      (∀ x y : Nat, x < y → y < Rect.volume b →
        Before o (unflatten o ps x (Rect.lo b)) (unflatten o ps y (Rect.lo b))) ∧
      (∀ p, InBox b p → ∃ x : Nat, x < Rect.volume b ∧ unflatten o ps x (Rect.lo b) = p) ∧
      (∀ (p : Point) (x : Nat), InBox b p → x < Rect.volume b →
        (unflatten o ps x (Rect.lo b) = p ↔ linearize o b p = x)) := by
  obtain ⟨ps, h1, h2⟩ := unflatten_spec o b hb hne
  have key : ∀ (p : Point) (x : Nat), InBox b p → x < Rect.volume b →
      (unflatten o ps x (Rect.lo b) = p ↔ linearize o b p = x) := by
    intro p x hp hx
    constructor
    · rintro rfl; exact (h2 x hx).2
    · intro h; exact linearize_inj o (h2 x hx).1 hp (by rw [(h2 x hx).2, h])
  refine ⟨ps, h1, fun x hx => (h2 x hx).1, ?_, ?_, key⟩
  · intro x y hxy hy
    rw [← linearize_lt_iff o (h2 x (by omega)).1 (h2 y hy).1, (h2 x (by omega)).2, (h2 y hy).2]
    exact_mod_cast hxy
  · intro p hp
    obtain ⟨h3, h4⟩ := linearize_bounds o b p hp
    exact ⟨(linearize o b p).toNat, by omega, (key p _ hp (by omega)).2 (by omega)⟩

/-- An empty box flattens to volume 0 in both orders (and then no index is unflattened). -/
theorem c13_empty (o : IndexOrder) (b : Rect) (hne : ¬ Nonempty b) : (flatten o b).1 = 0 := by
  have hC : ∀ b : Rect, ¬ Nonempty b → flattenCAux b = none := by
    intro b
    induction b with
    | nil => intro h; exact absurd (fun x hx => by simp at hx) h
    | cons lh b ih =>
      obtain ⟨l, h⟩ := lh
      intro hn
      by_cases hb : Nonempty b
      · obtain ⟨ps, h1, -⟩ := flattenCAux_eq b hb
        have : l > h := by
          by_contra hc
          exact hn (nonempty_cons (by simpa using hc) hb)
        simp [flattenCAux, h1, this]
      · simp [flattenCAux, ih hb]
  have hF : ∀ (b : Rect) (P : Nat), ¬ Nonempty b → flattenFAux P b = none := by
    intro b
    induction b with
    | nil => intro P h; exact absurd (fun x hx => by simp at hx) h
    | cons lh b ih =>
      obtain ⟨l, h⟩ := lh
      intro P hn
      by_cases hlh : l > h
      · cases b with
        | nil => simp [flattenFAux, hlh]
        | cons _ _ => simp [flattenFAux, hlh]
      · have hb : ¬ Nonempty b := by
          intro hb
          exact hn (nonempty_cons (by simpa using hlh) hb)
        cases b with
        | nil => exact absurd (fun x hx => by simp at hx) hb
        | cons lh2 b2 => simp [flattenFAux, hlh, ih _ hb]
  match b, hne with
  | [], hn => exact absurd (fun x hx => by simp at hx) hn
  | [(l, h)], hn =>
    have : l > h := by
      by_contra hc
      exact hn (fun x hx => by simp only [List.mem_singleton] at hx; subst hx; simpa using hc)
    simp [flatten, flatten0, this]
  | (l, h) :: lh2 :: b, hn =>
    cases o with
    | rowMajor =>
      simp only [flatten, flattenC]
      cases hb : flattenCAux (lh2 :: b) with
      | none => rfl
      | some r =>
        have hb' : Nonempty (lh2 :: b) := by by_contra hc; rw [hC _ hc] at hb; simp at hb
        have : l > h := by
          by_contra hc
          exact hn (nonempty_cons (by simpa using hc) hb')
        simp [this]
    | columnMajor => simp [flatten, flattenF, hF _ 1 hn]

-- a 2 x 3 x 2 box with negative corner
example : Nonempty [(-1, 0), (5, 7), (0, 1)] ∧
    flatten .rowMajor [(-1, 0), (5, 7), (0, 1)] = (12, some [6, 2]) ∧
    flatten .columnMajor [(-1, 0), (5, 7), (0, 1)] = (12, some [2, 6]) ∧
    unflatten .rowMajor [6, 2] 9 [-1, 5, 0] = [0, 6, 1] ∧ unflatten .columnMajor [2, 6] 9 [-1, 5, 0] = [0, 6, 1] := by
  decide

/-! ## C14 -/

theorem mem_launchGrid (v : Nat) (t : Nat × Nat) : t ∈ launchGrid v ↔ t.1 < numBlocks v ∧ t.2 < threadsPerBlock := by
  obtain ⟨a, c⟩ := t
  simp [launchGrid]

/-- **C14** (thread grid): every index below the volume is the global thread id of exactly one launched thread. -/
theorem c14_grid_covers (v : Nat) (i : Nat) (hi : i < v) :
    ∃ t ∈ launchGrid v, globalTid t = i ∧ ∀ t' ∈ launchGrid v, globalTid t' = i → t' = t := by
  have h1 := Nat.div_add_mod i threadsPerBlock
  have h2 := Nat.mod_lt i (show 0 < threadsPerBlock by decide)
  refine ⟨(i / threadsPerBlock, i % threadsPerBlock), ?_, ?_, ?_⟩
  · rw [mem_launchGrid]
    refine ⟨?_, h2⟩
    unfold numBlocks threadsPerBlock
    simp only []
    omega
  · unfold globalTid; simp only []; rw [Nat.mul_comm]; exact h1
  · rintro ⟨a, c⟩ ht hg
    rw [mem_launchGrid] at ht
    unfold globalTid threadsPerBlock at *
    simp only [] at *
    rw [Prod.mk.injEq]; omega

/-- No block is superfluous: fewer than one block's worth of threads have an id at or beyond the volume. -/
theorem c14_grid_tight (v : Nat) : (launchGrid v).length < v + threadsPerBlock := by
  have : (launchGrid v).length = numBlocks v * threadsPerBlock := by
    simp [launchGrid, List.length_flatMap]
  rw [this]; unfold numBlocks threadsPerBlock; omega

theorem foldl_update {E : Type _} (f : Point → E → E) (pts : List Point) (hn : pts.Nodup) (y : Point → E) (p : Point) :
    pts.foldl (fun y q => fun r => if r = q then f q (y q) else y r) y p = if p ∈ pts then f p (y p) else y p := by
  induction pts generalizing y with
  | nil => simp
  | cons a as ih =>
    rw [List.nodup_cons] at hn
    rw [List.foldl_cons, ih hn.2]
    by_cases h : p = a
    · subst h; simp [hn.1]
    · by_cases h2 : p ∈ as <;> simp [h, h2]

/-- **C14**: for every box of dimension at least one, every order in which the GPU threads execute, every coefficient and
all vector contents, the GPU kernel finishes, changes each element of the box to `fma(alpha, y, x)` (once) and nothing
outside, and agrees with the CPU loop over the box's points in any order. -/
theorem c14_xpay_gpu {E : Type _} (fma : E → E → E → E) (alpha : E) (b : Rect) (hb : b ≠ []) (sched : List (Nat × Nat))
    (hs : sched.Perm (launchGrid (Rect.volume b))) (x y : Point → E) :
    ∃ y', xpayGpu fma alpha b sched x y = some y' ∧
      (∀ p, InBox b p → y' p = fma alpha (y p) (x p)) ∧ (∀ p, ¬ InBox b p → y' p = y p) ∧
      (∀ pts : List Point, pts.Nodup → (∀ p, p ∈ pts ↔ InBox b p) → y' = xpayCpu fma alpha pts x y) := by
  have hcpu : ∀ pts : List Point, pts.Nodup → (∀ p, p ∈ pts ↔ InBox b p) → ∀ p,
      ((InBox b p → xpayCpu fma alpha pts x y p = fma alpha (y p) (x p)) ∧
       (¬ InBox b p → xpayCpu fma alpha pts x y p = y p)) := by
    intro pts hn hm p
    unfold xpayCpu
    rw [foldl_update (fun q e => fma alpha e (x q)) pts hn y p]
    constructor
    · intro h; rw [if_pos ((hm p).2 h)]
    · intro h; rw [if_neg (fun h2 => h ((hm p).1 h2))]
  by_cases hne : Nonempty b
  · obtain ⟨ps, h1, h2⟩ := unflatten_spec .rowMajor b hb hne
    have hv : Rect.volume b ≠ 0 := (volume_pos hne).ne'
    set g : Nat → Point := fun i => unflatten .rowMajor ps i (Rect.lo b) with hg
    set pts := ((sched.map globalTid).filter (fun i => decide (i < Rect.volume b))).map g with hpts
    have hfold : sched.foldl (xpayThread fma (Rect.volume b) alpha ps (Rect.lo b) x) y = xpayCpu fma alpha pts x y := by
      rw [hpts]; clear hs hpts
      induction sched generalizing y with
      | nil => rfl
      | cons t ts ih =>
        rw [List.foldl_cons, ih]
        · by_cases ht : globalTid t < Rect.volume b
          · simp only [xpayThread, List.map_cons]
            rw [if_neg (by omega), List.filter_cons_of_pos (by simpa using ht)]
            rfl
          · simp only [xpayThread, List.map_cons]
            rw [if_pos (by omega), List.filter_cons_of_neg (by simpa using ht)]
        · intro pts hn hm p
          unfold xpayCpu
          rw [foldl_update (fun q e => fma alpha e (x q)) pts hn _ p]
          constructor
          · intro h; rw [if_pos ((hm p).2 h)]
          · intro h; rw [if_neg (fun h2 => h ((hm p).1 h2))]
    have hginj : ∀ i j, i < Rect.volume b → j < Rect.volume b → g i = g j → i = j := by
      intro i j hi hj he
      have e1 := (h2 i hi).2
      have e2 := (h2 j hj).2
      have : linearize .rowMajor b (g i) = linearize .rowMajor b (g j) := by rw [he]
      simp only [hg] at this
      rw [e1, e2] at this
      exact_mod_cast this
    have hnd : pts.Nodup := by
      rw [hpts]
      refine List.Nodup.map_on ?_ ?_
      · intro i hi j hj he
        simp only [List.mem_filter, decide_eq_true_eq] at hi hj
        exact hginj i j hi.2 hj.2 he
      · apply List.Nodup.filter
        refine List.Nodup.map_on ?_ (hs.nodup_iff.2 ?_)
        · intro s hs1 t ht1 he
          have hs2 := (mem_launchGrid _ _).1 (hs.mem_iff.1 hs1)
          have ht2 := (mem_launchGrid _ _).1 (hs.mem_iff.1 ht1)
          obtain ⟨a, c⟩ := s
          obtain ⟨a', c'⟩ := t
          unfold globalTid threadsPerBlock at *
          simp only [] at *
          rw [Prod.mk.injEq]; omega
        · exact List.Nodup.product List.nodup_range List.nodup_range
    have hmem : ∀ p, p ∈ pts ↔ InBox b p := by
      intro p
      rw [hpts]
      simp only [List.mem_map, List.mem_filter, decide_eq_true_eq]
      constructor
      · rintro ⟨i, ⟨-, hi⟩, rfl⟩; exact (h2 i hi).1
      · intro hp
        obtain ⟨h3, h4⟩ := linearize_bounds .rowMajor b p hp
        refine ⟨(linearize .rowMajor b p).toNat, ⟨?_, by omega⟩, ?_⟩
        · obtain ⟨t, ht, ht2, -⟩ := c14_grid_covers (Rect.volume b) (linearize .rowMajor b p).toNat (by omega)
          exact ⟨t, hs.mem_iff.2 ht, ht2⟩
        · exact linearize_inj .rowMajor (h2 _ (by omega)).1 hp (by rw [(h2 _ (by omega)).2]; omega)
    refine ⟨xpayCpu fma alpha pts x y, ?_, fun p => (hcpu pts hnd hmem p).1, fun p => (hcpu pts hnd hmem p).2, ?_⟩
    · unfold xpayGpu
      rw [if_neg hv, h1]
      simp only [hfold]
    · intro pts' hn' hm'
      funext p
      by_cases hp : InBox b p
      · rw [(hcpu pts hnd hmem p).1 hp, (hcpu pts' hn' hm' p).1 hp]
      · rw [(hcpu pts hnd hmem p).2 hp, (hcpu pts' hn' hm' p).2 hp]
  · have hno : ∀ p, ¬ InBox b p := fun p hp => hne (nonempty_of_inBox hp)
    refine ⟨y, by unfold xpayGpu; rw [if_pos (volume_eq_zero hne)], fun p hp => absurd hp (hno p), fun _ _ => rfl, ?_⟩
    intro pts hn hm
    funext p
    exact ((hcpu pts hn hm p).2 (hno p)).symm

-- 200 elements need two blocks of 128 threads
example : numBlocks 200 = 2 ∧ numBlocks 128 = 1 ∧ numBlocks 129 = 2 ∧ numBlocks 0 = 0 := by decide

end Verif.Gpu
