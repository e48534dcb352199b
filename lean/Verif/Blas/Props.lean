import Verif.Blas.Model
import Verif.Machine.Props
import Verif.Grid.Linear
import Mathlib.Data.List.Perm.Basic
import Mathlib.Algebra.BigOperators.Group.List.Basic

/-!
# C52: vector operations on the GPU are those on the CPU

Specification: a task that scales a piece must change exactly the memory cells of the piece's elements (`ScaledPiece`), and
similarly for the others.  Which pieces cuBLAS handles correctly is described by `Slab`.
-/
set_option linter.dupNamespace false
namespace Verif.Blas
open Verif.Grid

/-! ## Specification -/

/-- The piece lies inside the instance's rectangle. -/
def Sub (B P : Rect) : Prop := List.Forall₂ (fun b p => b.1 ≤ p.1 ∧ p.2 ≤ b.2) B P

/-- Dimension `j` varies more slowly in memory than dimension `k`. -/
def Slower : IndexOrder → Nat → Nat → Prop
  | .rowMajor, j, k => j < k
  | .columnMajor, j, k => k < j

/-- The piece is a slab of the instance: there is a dimension `k` such that the piece spans the instance completely in every
dimension that varies faster in memory than `k`, and is a single coordinate in every dimension that varies more slowly. -/
def Slab (o : IndexOrder) (B P : Rect) : Prop :=
  ∃ k : Nat, ∀ (j : Nat) (s : Int × Int), P[j]? = some s →
    (Slower o j k → s.1 = s.2) ∧ (Slower o k j → B[j]? = some s)

/-- What scaling the piece `P` must do to memory: every element of the piece is multiplied, no other cell changes. -/
def ScaledPiece {E : Type} (mul : E → E → E) (alpha : E) (I : Inst) (P : Rect) (mem mem' : Int → E) : Prop :=
  (∀ p, InBox P p → mem' (I.ptr p) = mul alpha (mem (I.ptr p))) ∧
  (∀ a, (∀ p, InBox P p → a ≠ I.ptr p) → mem' a = mem a)

/-- What `axpy` must do to memory. -/
def AxpyPiece {E : Type} (fma : E → E → E → E) (alpha : E) (Y X : Inst) (P : Rect) (mem mem' : Int → E) : Prop :=
  (∀ p, InBox P p → mem' (Y.ptr p) = fma alpha (mem (X.ptr p)) (mem (Y.ptr p))) ∧
  (∀ a, (∀ p, InBox P p → a ≠ Y.ptr p) → mem' a = mem a)

/-! ## Slabs and addresses -/

/-- `Slab` for row-major order as a recursion. -/
def SlabRM : Rect → Rect → Prop
  | b :: B, p :: P => (p.1 = p.2 ∧ SlabRM B P) ∨ (P = B ∧ b.1 ≤ p.1)
  | _, _ => True

theorem slab_row {B P : Rect} (hs : Sub B P) : Slab .rowMajor B P ↔ SlabRM B P := by
  induction hs with
  | nil => simp [SlabRM, Slab]
  | @cons b p B P hb hs ih =>
    simp only [SlabRM]
    constructor
    · rintro ⟨k, hk⟩
      cases k with
      | zero =>
        right
        refine ⟨?_, hb.1⟩
        apply List.ext_getElem?
        intro j
        cases hj : P[j]? with
        | none =>
          rw [List.getElem?_eq_none_iff] at hj
          rw [eq_comm, List.getElem?_eq_none_iff, List.Forall₂.length_eq hs]; exact hj
        | some s =>
          have := (hk (j + 1) s (by simpa using hj)).2 (by simp [Slower])
          simpa using this.symm
      | succ k =>
        left
        refine ⟨(hk 0 p (by simp)).1 (by simp [Slower]), ih.1 ⟨k, fun j s hj => ?_⟩⟩
        have := hk (j + 1) s (by simpa using hj)
        exact ⟨fun h => this.1 (by simp only [Slower] at h ⊢; omega),
          fun h => by simpa using this.2 (by simp only [Slower] at h ⊢; omega)⟩
    · rintro (⟨h1, h2⟩ | ⟨h1, -⟩)
      · obtain ⟨k, hk⟩ := ih.2 h2
        refine ⟨k + 1, fun j s hj => ?_⟩
        cases j with
        | zero =>
          simp only [List.getElem?_cons_zero, Option.some.injEq] at hj
          subst hj
          exact ⟨fun _ => h1, fun h => by simp [Slower] at h⟩
        | succ j =>
          simp only [List.getElem?_cons_succ] at hj ⊢
          have := hk j s hj
          exact ⟨fun h => this.1 (by simp only [Slower] at h ⊢; omega),
            fun h => this.2 (by simp only [Slower] at h ⊢; omega)⟩
      · subst h1
        refine ⟨0, fun j s hj => ⟨fun h => by simp [Slower] at h, fun h => ?_⟩⟩
        cases j with
        | zero => simp [Slower] at h
        | succ j => simpa using hj

theorem sub_reverse {B P : Rect} (hs : Sub B P) : Sub B.reverse P.reverse := List.rel_reverse hs

theorem slab_reverse {B P : Rect} (hs : Sub B P) : Slab .columnMajor B P ↔ Slab .rowMajor B.reverse P.reverse := by
  have hl : B.length = P.length := List.Forall₂.length_eq hs
  have key : ∀ (L : Rect) (j : Nat) (s : Int × Int), j < L.length → (L.reverse[j]? = some s ↔ L[L.length - 1 - j]? = some s) :=
    fun L j s hj => by rw [List.getElem?_reverse hj]
  constructor
  · rintro ⟨k, hk⟩
    by_cases hkl : k < P.length
    · refine ⟨P.length - 1 - k, fun j s hj => ?_⟩
      have hjl : j < P.length := by
        have := (List.getElem?_eq_some_iff.1 hj).1
        simpa using this
      have := hk (P.length - 1 - j) s ((key P j s hjl).1 hj)
      refine ⟨fun h => this.1 (by simp only [Slower] at h ⊢; omega), fun h => ?_⟩
      rw [key B j s (by omega), hl]
      exact this.2 (by simp only [Slower] at h ⊢; omega)
    · refine ⟨0, fun j s hj => ?_⟩
      have hjl : j < P.length := by
        have := (List.getElem?_eq_some_iff.1 hj).1
        simpa using this
      have := hk (P.length - 1 - j) s ((key P j s hjl).1 hj)
      refine ⟨fun h => by simp [Slower] at h, fun h => ?_⟩
      rw [key B j s (by omega), hl]
      exact this.2 (by simp only [Slower] at h ⊢; omega)
  · rintro ⟨k, hk⟩
    by_cases hkl : k < P.length
    · refine ⟨P.length - 1 - k, fun j s hj => ?_⟩
      have hjl : j < P.length := (List.getElem?_eq_some_iff.1 hj).1
      have := hk (P.length - 1 - j) s ((key P _ s (by omega)).2 (by rwa [show P.length - 1 - (P.length - 1 - j) = j by omega]))
      refine ⟨fun h => this.1 (by simp only [Slower] at h ⊢; omega), fun h => ?_⟩
      have h2 := this.2 (by simp only [Slower] at h ⊢; omega)
      rw [key B _ s (by omega), hl] at h2
      rwa [show P.length - 1 - (P.length - 1 - j) = j by omega] at h2
    · refine ⟨0, fun j s hj => ?_⟩
      have hjl : j < P.length := (List.getElem?_eq_some_iff.1 hj).1
      have := hk (P.length - 1 - j) s ((key P _ s (by omega)).2 (by rwa [show P.length - 1 - (P.length - 1 - j) = j by omega]))
      refine ⟨fun h => this.1 (by simp only [Slower] at h ⊢; omega), fun h => ?_⟩
      simp [Slower] at h

theorem sub_inBox {B P : Rect} (hs : Sub B P) {p : Point} (hp : InBox P p) : InBox B p := by
  induction hs generalizing p with
  | nil => exact hp
  | cons hb hs ih =>
    cases hp with
    | cons h1 h2 => exact List.Forall₂.cons ⟨by omega, by omega⟩ (ih h2)

theorem sub_nonempty {B P : Rect} (hs : Sub B P) (hp : Nonempty P) : Nonempty B :=
  nonempty_of_inBox (sub_inBox hs (inBox_lo hp))

/-- Inside a slab the memory offset from the lower corner is the element's number in the piece. -/
theorem slab_offset_row {B P : Rect} (hs : Sub B P) (hP : Nonempty P) (hr : SlabRM B P) {p : Point} (hp : InBox P p) :
    linearizeRowMajor B p = linearizeRowMajor B (Rect.lo P) + linearizeRowMajor P p := by
  induction hs generalizing p with
  | nil => cases hp; rfl
  | @cons b q B P hb hs ih =>
    obtain ⟨bl, bh⟩ := b
    obtain ⟨l, h⟩ := q
    have hP' : Nonempty P := nonempty_tail hP
    have hB' : Nonempty B := sub_nonempty hs hP'
    have hl : B.length = P.length := List.Forall₂.length_eq hs
    cases hp with
    | @cons _ x _ p h1 h2 =>
      have hlp : P.length = p.length := h2.length_eq
      have e1 := linRM_cons bl bh x B p hB' (by omega)
      have e2 := linRM_cons bl bh l B (Rect.lo P) hB' (by simp [Rect.lo, hl])
      have e3 := linRM_cons l h x P p hP' hlp
      show linearizeRowMajor ((bl, bh) :: B) (x :: p) = linearizeRowMajor ((bl, bh) :: B) (l :: Rect.lo P) + _
      rw [e1, e2, e3]
      simp only [SlabRM] at hr
      rcases hr with ⟨h3, h4⟩ | ⟨h3, -⟩
      · simp only [] at h1 h3
        have : x = l := by omega
        subst this
        rw [ih hP' h4 h2]; ring
      · subst h3
        rw [linRM_lo]; ring

theorem volume_mono {B P : Rect} (hs : Sub B P) (hP : Nonempty P) : Rect.volume P ≤ Rect.volume B := by
  induction hs with
  | nil => exact Nat.le_refl _
  | @cons b q B P hb hs ih =>
    obtain ⟨bl, bh⟩ := b
    obtain ⟨l, h⟩ := q
    have := hP (l, h) (by simp)
    exact Nat.mul_le_mul (by simp only [] at *; omega) (ih (nonempty_tail hP))

theorem eq_of_volume {B P : Rect} (hs : Sub B P) (hP : Nonempty P) (hv : Rect.volume P = Rect.volume B) : P = B := by
  induction hs with
  | nil => rfl
  | @cons b q B P hb hs ih =>
    obtain ⟨bl, bh⟩ := b
    obtain ⟨l, h⟩ := q
    have hq := hP (l, h) (by simp)
    have hP' := nonempty_tail hP
    have h1 := volume_mono hs hP'
    have h2 := volume_pos hP'
    simp only [Rect.volume] at hv
    simp only [] at hb hq
    have h3 : (h - l + 1).toNat ≤ (bh - bl + 1).toNat := by omega
    have h4 : (h - l + 1).toNat = (bh - bl + 1).toNat := by
      by_contra hc
      have : (h - l + 1).toNat * Rect.volume P < (bh - bl + 1).toNat * Rect.volume B :=
        Nat.mul_lt_mul_of_lt_of_le (by omega) h1 (by omega)
      omega
    have h5 : Rect.volume P = Rect.volume B := by
      rw [h4] at hv
      exact Nat.eq_of_mul_eq_mul_left (by omega) hv
    rw [ih hP' h5]
    have : l = bl ∧ h = bh := by omega
    rw [this.1, this.2]

/-- The distance between the two corners in memory is at least the volume less one, with equality only for slabs. -/
theorem span_row {B P : Rect} (hs : Sub B P) (hP : Nonempty P) :
    (Rect.volume P : Int) ≤ linearizeRowMajor B (Rect.hi P) - linearizeRowMajor B (Rect.lo P) + 1 ∧
    (linearizeRowMajor B (Rect.hi P) - linearizeRowMajor B (Rect.lo P) + 1 ≤ Rect.volume P → SlabRM B P) := by
  induction hs with
  | nil => simp [Rect.volume, SlabRM, linearizeRowMajor, linearizeRowMajorAux]
  | @cons b q B P hb hs ih =>
    obtain ⟨bl, bh⟩ := b
    obtain ⟨l, h⟩ := q
    have hq := hP (l, h) (by simp)
    have hP' : Nonempty P := nonempty_tail hP
    have hB' : Nonempty B := sub_nonempty hs hP'
    have hl : B.length = P.length := List.Forall₂.length_eq hs
    obtain ⟨i1, i2⟩ := ih hP'
    have e1 := linRM_cons bl bh h B (Rect.hi P) hB' (by simp [Rect.hi, hl])
    have e2 := linRM_cons bl bh l B (Rect.lo P) hB' (by simp [Rect.lo, hl])
    have hvol := volume_mono hs hP'
    have hvp := volume_pos hP'
    have e3 : linearizeRowMajor ((bl, bh) :: B) (Rect.hi ((l, h) :: P)) =
      linearizeRowMajor ((bl, bh) :: B) (h :: Rect.hi P) := rfl
    have e4 : linearizeRowMajor ((bl, bh) :: B) (Rect.lo ((l, h) :: P)) =
      linearizeRowMajor ((bl, bh) :: B) (l :: Rect.lo P) := rfl
    rw [e3, e4, e1, e2]
    simp only [] at hq hb
    obtain ⟨d, hd⟩ : ∃ d : Nat, h - l = d := ⟨(h - l).toNat, by omega⟩
    have hv : (Rect.volume ((l, h) :: P) : Int) = (d + 1) * Rect.volume P := by
      have : Rect.volume ((l, h) :: P) = (d + 1) * Rect.volume P := by
        simp only [Rect.volume]; congr 1; omega
      rw [this]; push_cast; ring
    rw [hv]
    set s := linearizeRowMajor B (Rect.hi P) - linearizeRowMajor B (Rect.lo P) with hsdef
    have e5 : (Rect.volume B : Int) * (h - bl) + linearizeRowMajor B (Rect.hi P) -
        ((Rect.volume B : Int) * (l - bl) + linearizeRowMajor B (Rect.lo P)) = Rect.volume B * (d : Int) + s := by
      rw [← hd, hsdef]; ring
    have e6 : linearizeRowMajor B (Rect.hi P) + (Rect.volume B : Int) * (h - bl) -
        (linearizeRowMajor B (Rect.lo P) + (Rect.volume B : Int) * (l - bl)) = Rect.volume B * (d : Int) + s := by
      rw [← hd, hsdef]; ring
    first | rw [e5] | rw [e6]
    have h7 : (Rect.volume P : Int) * d ≤ Rect.volume B * (d : Int) :=
      mul_le_mul_of_nonneg_right (by exact_mod_cast hvol) (by positivity)
    refine ⟨by nlinarith, fun hle => ?_⟩
    simp only [SlabRM]
    have h8 : s + 1 ≤ Rect.volume P := by nlinarith
    have h9 : Rect.volume B * (d : Int) ≤ Rect.volume P * (d : Int) := by nlinarith
    by_cases hd0 : d = 0
    · left; exact ⟨by omega, i2 h8⟩
    · right
      refine ⟨eq_of_volume hs hP' ?_, hb.1⟩
      have : (Rect.volume B : Int) ≤ Rect.volume P := le_of_mul_le_mul_right h9 (by omega)
      omega

/-! ## Either order -/

theorem lo_reverse (P : Rect) : Rect.lo P.reverse = (Rect.lo P).reverse := by simp [Rect.lo]
theorem hi_reverse (P : Rect) : Rect.hi P.reverse = (Rect.hi P).reverse := by simp [Rect.hi]

theorem slab_offset (o : IndexOrder) {B P : Rect} (hs : Sub B P) (hP : Nonempty P) (hr : Slab o B P) {p : Point}
    (hp : InBox P p) : linearize o B p = linearize o B (Rect.lo P) + linearize o P p := by
  have hl : B.length = P.length := List.Forall₂.length_eq hs
  cases o with
  | rowMajor => exact slab_offset_row hs hP ((slab_row hs).1 hr) hp
  | columnMajor =>
    have hr' := (slab_row (sub_reverse hs)).1 ((slab_reverse hs).1 hr)
    have := slab_offset_row (sub_reverse hs) (nonempty_reverse hP) hr' (inBox_reverse.2 hp)
    simp only [linearize]
    rw [linCM_eq B p (by rw [hl]; exact hp.length_eq), linCM_eq B (Rect.lo P) (by simp [Rect.lo, hl]),
      linCM_eq P p hp.length_eq, this, lo_reverse]

theorem span (o : IndexOrder) {B P : Rect} (hs : Sub B P) (hP : Nonempty P)
    (h : linearize o B (Rect.hi P) - linearize o B (Rect.lo P) + 1 ≤ Rect.volume P) : Slab o B P := by
  have hl : B.length = P.length := List.Forall₂.length_eq hs
  cases o with
  | rowMajor => exact (slab_row hs).2 ((span_row hs hP).2 h)
  | columnMajor =>
    refine (slab_reverse hs).2 ((slab_row (sub_reverse hs)).2 ((span_row (sub_reverse hs) (nonempty_reverse hP)).2 ?_))
    rw [lo_reverse, hi_reverse, volume_reverse]
    simp only [linearize] at h
    rwa [linCM_eq B _ (by simp [Rect.hi, hl]), linCM_eq B _ (by simp [Rect.lo, hl])] at h

/-- The address of the piece's `i`-th element, for a slab. -/
theorem ptr_getElem (I : Inst) {P : Rect} (hs : Sub I.bounds P) (hP : Nonempty P) (hr : Slab I.order I.bounds P) (i : Nat)
    (hi : i < (pointsOf I.order P).length) : I.ptr (pointsOf I.order P)[i] = I.ptr (Rect.lo P) + i := by
  have hp : InBox P (pointsOf I.order P)[i] := (mem_pointsOf I.order P _).1 (List.getElem_mem hi)
  simp only [Inst.ptr]
  rw [slab_offset I.order hs hP hr hp, linearize_getElem I.order P i hi]
  ring

/-- The addresses of a slab's elements, in order, are consecutive. -/
theorem map_ptr (I : Inst) {P : Rect} (hs : Sub I.bounds P) (hP : Nonempty P) (hr : Slab I.order I.bounds P) :
    (pointsOf I.order P).map I.ptr = (List.range (Rect.volume P)).map fun i : Nat => I.ptr (Rect.lo P) + i := by
  apply List.ext_getElem
  · simp [length_pointsOf]
  · intro i h1 h2
    simp only [List.getElem_map, List.getElem_range]
    exact ptr_getElem I hs hP hr i (by simpa using h1)

theorem ptr_inj (I : Inst) {P : Rect} (hs : Sub I.bounds P) {p q : Point} (hp : InBox P p) (hq : InBox P q)
    (h : I.ptr p = I.ptr q) : p = q :=
  linearize_inj I.order (sub_inBox hs hp) (sub_inBox hs hq) (by simp only [Inst.ptr] at h; omega)

theorem intArg_fits {v : Nat} (h : v < 2 ^ 31) : intArg v = v := by
  apply Verif.Machine.conv_fits (by decide)
  simp only [Verif.Machine.CType.Fits, Verif.Machine.CType.min, Verif.Machine.CType.max, Verif.Machine.int32]
  norm_num
  have : (v : Int) < 2 ^ 31 := by exact_mod_cast h
  norm_num at this
  omega

/-! ## Loops over memory -/

/-- A loop that updates each of a list of distinct cells from its old value and from cells outside the list. -/
theorem foldl_store {E K : Type} (f : (Int → E) → K → E → E) (a : K → Int) (ks : List K)
    (hn : (ks.map a).Nodup) (hf : ∀ (m m' : Int → E) k e, (∀ c, c ∉ ks.map a → m c = m' c) → k ∈ ks → f m k e = f m' k e)
    (mem : Int → E) :
    (∀ k ∈ ks, ks.foldl (fun m k => store m (a k) (f m k (m (a k)))) mem (a k) = f mem k (mem (a k))) ∧
    (∀ c, c ∉ ks.map a → ks.foldl (fun m k => store m (a k) (f m k (m (a k)))) mem c = mem c) := by
  suffices H : ∀ (l : List K) (m : Int → E), (∀ k ∈ l, k ∈ ks) → (l.map a).Nodup → (∀ c, c ∉ ks.map a → m c = mem c) →
      (∀ k ∈ l, m (a k) = mem (a k)) →
      (∀ k ∈ l, l.foldl (fun m k => store m (a k) (f m k (m (a k)))) m (a k) = f mem k (mem (a k))) ∧
      (∀ c, c ∉ l.map a → l.foldl (fun m k => store m (a k) (f m k (m (a k)))) m c = m c) from
    H ks mem (fun _ h => h) hn (fun _ _ => rfl) (fun _ _ => rfl)
  intro l
  induction l with
  | nil => intro m _ _ _ _; exact ⟨fun k hk => by simp at hk, fun c _ => rfl⟩
  | cons x l ih =>
    intro m hsub hnd hout hin
    simp only [List.map_cons, List.nodup_cons] at hnd
    have hx : x ∈ ks := hsub x (by simp)
    have hne : ∀ k ∈ l, a k ≠ a x := fun k hk e => hnd.1 (e ▸ List.mem_map_of_mem hk)
    set m1 := store m (a x) (f m x (m (a x))) with hm1
    have h1 : ∀ c, c ∉ ks.map a → m1 c = mem c := by
      intro c hc
      have : c ≠ a x := fun e => hc (e ▸ List.mem_map_of_mem hx)
      simp only [hm1, store, if_neg this]; exact hout c hc
    have h2 : ∀ k ∈ l, m1 (a k) = mem (a k) := by
      intro k hk
      simp only [hm1, store, if_neg (hne k hk)]; exact hin k (by simp [hk])
    obtain ⟨i1, i2⟩ := ih m1 (fun k hk => hsub k (by simp [hk])) hnd.2 h1 h2
    refine ⟨fun k hk => ?_, fun c hc => ?_⟩
    · rw [List.foldl_cons]
      by_cases hkl : k ∈ l
      · exact i1 k hkl
      · have : k = x := by simpa [hkl] using hk
        subst this
        rw [← hm1, i2 _ hnd.1]
        simp only [hm1, store, if_true]
        rw [hin k (by simp)]
        exact hf m mem k _ hout hx
    · simp only [List.map_cons, List.mem_cons, not_or] at hc
      rw [List.foldl_cons, ← hm1, i2 c hc.2]
      simp only [hm1, store, if_neg hc.1]

/-! ## C52 -/

/-- **C52** (CPU side): the CPU task scales the piece, whatever the instance and the order of the points. -/
theorem c52_scal_cpu {E : Type} (mul : E → E → E) (alpha : E) (I : Inst) (P : Rect) (hs : Sub I.bounds P) (pts : List Point)
    (hn : pts.Nodup) (hm : ∀ p, p ∈ pts ↔ InBox P p) (mem : Int → E) :
    ScaledPiece mul alpha I P mem (scalCpu mul alpha I pts mem) := by
  have hnd : (pts.map I.ptr).Nodup :=
    List.Nodup.map_on (fun p hp q hq h => ptr_inj I hs ((hm p).1 hp) ((hm q).1 hq) h) hn
  obtain ⟨h1, h2⟩ := foldl_store (fun _ _ e => mul alpha e) I.ptr pts hnd (fun _ _ _ _ _ _ => rfl) mem
  refine ⟨fun p hp => h1 p ((hm p).2 hp), fun a ha => h2 a ?_⟩
  rintro h
  obtain ⟨p, hp, rfl⟩ := List.mem_map.1 h
  exact ha p ((hm p).1 hp) rfl

/-- **C52** (`scal`): on the GPU the piece is scaled correctly, for every instance of which the piece is a slab, every
memory contents and every element arithmetic, as long as the number of elements fits `int`. -/
theorem c52_scal_partial {E : Type} (mul : E → E → E) (alpha : E) (I : Inst) (P : Rect) (hs : Sub I.bounds P)
    (hr : Slab I.order I.bounds P) (hv : Rect.volume P < 2 ^ 31) (mem : Int → E) :
    ScaledPiece mul alpha I P mem (scalGpu mul alpha I P mem) := by
  by_cases hP : Nonempty P
  · rw [scalGpu, if_neg (volume_pos hP).ne', intArg_fits hv]
    have hmap := map_ptr I hs hP hr
    have hnd : ((List.range (Rect.volume P)).map fun i : Nat => I.ptr (Rect.lo P) + i).Nodup :=
      List.Nodup.map (fun a b h => by simpa using h) List.nodup_range
    have key := foldl_store (fun _ _ e => mul alpha e) (fun i : Nat => I.ptr (Rect.lo P) + i)
      (List.range (Rect.volume P)) hnd (fun _ _ _ _ _ _ => rfl) mem
    have heq : cublasScal mul (Rect.volume P : Int) alpha (I.ptr (Rect.lo P)) 1 mem =
        (List.range (Rect.volume P)).foldl (fun m (i : Nat) => store m (I.ptr (Rect.lo P) + i)
          (mul alpha (m (I.ptr (Rect.lo P) + i)))) mem := by
      simp only [cublasScal, Int.toNat_natCast, mul_one]
    rw [heq]
    refine ⟨fun p hp => ?_, fun a ha => key.2 a ?_⟩
    · have : I.ptr p ∈ (pointsOf I.order P).map I.ptr := List.mem_map_of_mem ((mem_pointsOf I.order P p).2 hp)
      rw [hmap] at this
      obtain ⟨i, hi, he⟩ := List.mem_map.1 this
      rw [← he]; exact key.1 i hi
    · rw [← hmap]
      rintro h
      obtain ⟨p, hp, rfl⟩ := List.mem_map.1 h
      exact ha p ((mem_pointsOf I.order P p).1 hp) rfl
  · rw [scalGpu, if_pos (volume_eq_zero hP)]
    exact ⟨fun p hp => absurd (nonempty_of_inBox hp) hP, fun a _ => rfl⟩

/-- **C52** (exactly the slabs): a non-empty piece is scaled correctly for every memory contents only if it is a slab of its
instance, provided multiplying by the coefficient changes some value at all. -/
theorem c52_scal_only_slabs {E : Type} (mul : E → E → E) (alpha : E) (e : E) (he : mul alpha e ≠ e) (I : Inst) (P : Rect)
    (hs : Sub I.bounds P) (hP : Nonempty P) (hv : Rect.volume P < 2 ^ 31)
    (h : ∀ mem, ScaledPiece mul alpha I P mem (scalGpu mul alpha I P mem)) : Slab I.order I.bounds P := by
  apply span I.order hs hP
  by_contra hc
  have h1 := (h fun _ => e).1 (Rect.hi P) (inBox_hi hP)
  rw [scalGpu, if_neg (volume_pos hP).ne', intArg_fits hv] at h1
  have hnd : ((List.range (Rect.volume P)).map fun i : Nat => I.ptr (Rect.lo P) + i).Nodup :=
    List.Nodup.map (fun a b h => by simpa using h) List.nodup_range
  have key := foldl_store (fun _ _ e => mul alpha e) (fun i : Nat => I.ptr (Rect.lo P) + i)
    (List.range (Rect.volume P)) hnd (fun _ _ _ _ _ _ => rfl) (fun _ => e)
  have heq : cublasScal mul (Rect.volume P : Int) alpha (I.ptr (Rect.lo P)) 1 (fun _ => e) =
      (List.range (Rect.volume P)).foldl (fun m (i : Nat) => store m (I.ptr (Rect.lo P) + i)
        (mul alpha (m (I.ptr (Rect.lo P) + i)))) (fun _ => e) := by
    simp only [cublasScal, Int.toNat_natCast, mul_one]
  rw [heq, key.2 _ ?_] at h1
  · exact he h1.symm
  · intro hmem
    obtain ⟨i, hi, hi2⟩ := List.mem_map.1 hmem
    rw [List.mem_range] at hi
    simp only [Inst.ptr] at hi2
    omega

/-- **C52** (`axpy`): on the GPU `y` of the piece becomes `alpha x + y`, if the piece is a slab of both instances, which are
laid out in the same order and do not overlap. -/
theorem c52_axpy_partial {E : Type} (fma : E → E → E → E) (alpha : E) (Y X : Inst) (P : Rect) (hY : Sub Y.bounds P)
    (hX : Sub X.bounds P) (ho : X.order = Y.order) (hrY : Slab Y.order Y.bounds P) (hrX : Slab X.order X.bounds P)
    (hv : Rect.volume P < 2 ^ 31) (hd : ∀ p q, InBox P p → InBox P q → X.ptr p ≠ Y.ptr q) (mem : Int → E) :
    AxpyPiece fma alpha Y X P mem (axpyGpu fma alpha Y X P mem) := by
  by_cases hP : Nonempty P
  · rw [axpyGpu, if_neg (volume_pos hP).ne', intArg_fits hv]
    have hmY := map_ptr Y hY hP hrY
    have hmX := map_ptr X hX hP hrX
    have hnd : ((List.range (Rect.volume P)).map fun i : Nat => Y.ptr (Rect.lo P) + i).Nodup :=
      List.Nodup.map (fun a b h => by simpa using h) List.nodup_range
    have hXi : ∀ i < Rect.volume P, ∃ p, InBox P p ∧ X.ptr p = X.ptr (Rect.lo P) + i ∧ Y.ptr p = Y.ptr (Rect.lo P) + i := by
      intro i hi
      have hl : i < (pointsOf X.order P).length := by rw [length_pointsOf]; exact hi
      have hl' : i < (pointsOf Y.order P).length := by rw [length_pointsOf]; exact hi
      refine ⟨(pointsOf X.order P)[i], (mem_pointsOf _ _ _).1 (List.getElem_mem hl), ptr_getElem X hX hP hrX i hl, ?_⟩
      have := ptr_getElem Y hY hP hrY i hl'
      simp only [← ho] at this
      exact this
    have key := foldl_store (fun m (i : Nat) e => fma alpha (m (X.ptr (Rect.lo P) + i)) e)
      (fun i : Nat => Y.ptr (Rect.lo P) + i) (List.range (Rect.volume P)) hnd (by
        intro m m' i e hm hi
        rw [List.mem_range] at hi
        obtain ⟨p, hp, hp2, -⟩ := hXi i hi
        show fma alpha (m _) e = fma alpha (m' _) e
        rw [hm (X.ptr (Rect.lo P) + i) ?_]
        rw [← hmY, ← hp2]
        rintro h
        obtain ⟨q, hq, hq2⟩ := List.mem_map.1 h
        exact hd p q hp ((mem_pointsOf _ _ _).1 hq) hq2.symm) mem
    have heq : cublasAxpy fma (Rect.volume P : Int) alpha (X.ptr (Rect.lo P)) 1 (Y.ptr (Rect.lo P)) 1 mem =
        (List.range (Rect.volume P)).foldl (fun m (i : Nat) => store m (Y.ptr (Rect.lo P) + i)
          (fma alpha (m (X.ptr (Rect.lo P) + i)) (m (Y.ptr (Rect.lo P) + i)))) mem := by
      simp only [cublasAxpy, Int.toNat_natCast, mul_one]
    rw [heq]
    refine ⟨fun p hp => ?_, fun a ha => key.2 a ?_⟩
    · have : Y.ptr p ∈ (pointsOf Y.order P).map Y.ptr := List.mem_map_of_mem ((mem_pointsOf Y.order P p).2 hp)
      rw [hmY] at this
      obtain ⟨i, hi, hi2⟩ := List.mem_map.1 this
      obtain ⟨q, hq, hq2, hq3⟩ := hXi i (List.mem_range.1 hi)
      have hpq : q = p := ptr_inj Y hY hq hp (by rw [hq3, ← hi2])
      subst hpq
      have := key.1 i hi
      rw [hq2, ← hi2]; exact this
    · rw [← hmY]
      rintro h
      obtain ⟨p, hp, rfl⟩ := List.mem_map.1 h
      exact ha p ((mem_pointsOf Y.order P p).1 hp) rfl
  · rw [axpyGpu, if_pos (volume_eq_zero hP)]
    exact ⟨fun p hp => absurd (nonempty_of_inBox hp) hP, fun a _ => rfl⟩

/-- **C52** (CPU side of `axpy`). -/
theorem c52_axpy_cpu {E : Type} (fma : E → E → E → E) (alpha : E) (Y X : Inst) (P : Rect) (hY : Sub Y.bounds P)
    (hd : ∀ p q, InBox P p → InBox P q → X.ptr p ≠ Y.ptr q) (pts : List Point)
    (hn : pts.Nodup) (hm : ∀ p, p ∈ pts ↔ InBox P p) (mem : Int → E) :
    AxpyPiece fma alpha Y X P mem (axpyCpu fma alpha Y X pts mem) := by
  have hnd : (pts.map Y.ptr).Nodup :=
    List.Nodup.map_on (fun p hp q hq h => ptr_inj Y hY ((hm p).1 hp) ((hm q).1 hq) h) hn
  obtain ⟨h1, h2⟩ := foldl_store (fun m p e => fma alpha (m (X.ptr p)) e) Y.ptr pts hnd (by
    intro m m' p e hmm hp
    show fma alpha (m _) e = fma alpha (m' _) e
    rw [hmm (X.ptr p)]
    rintro h
    obtain ⟨q, hq, hq2⟩ := List.mem_map.1 h
    exact hd p q ((hm p).1 hp) ((hm q).1 hq) hq2.symm) mem
  refine ⟨fun p hp => h1 p ((hm p).2 hp), fun a ha => h2 a ?_⟩
  rintro h
  obtain ⟨p, hp, rfl⟩ := List.mem_map.1 h
  exact ha p ((hm p).1 hp) rfl

theorem foldl_add {E K : Type} [AddCommMonoid E] (f : K → E) (l : List K) (z : E) :
    l.foldl (fun s k => s + f k) z = z + (l.map f).sum := by
  induction l generalizing z with
  | nil => simp
  | cons a l ih => rw [List.foldl_cons, ih, List.map_cons, List.sum_cons, add_assoc]

/-- **C52** (`dot`): in exact arithmetic the GPU result is the sum of the products over the piece, in whatever order cuBLAS
adds, if the piece is a slab of both instances and they are laid out in the same order; so it is the CPU result. -/
theorem c52_dot_partial {E : Type} [AddCommMonoid E] [Mul E] (order : Int → List Nat)
    (hord : ∀ n, (order n).Perm (List.range n.toNat)) (V W : Inst) (P : Rect) (hV : Sub V.bounds P) (hW : Sub W.bounds P)
    (ho : V.order = W.order) (hrV : Slab V.order V.bounds P) (hrW : Slab W.order W.bounds P) (hv : Rect.volume P < 2 ^ 31)
    (pts : List Point) (hn : pts.Nodup) (hm : ∀ p, p ∈ pts ↔ InBox P p) (mem : Int → E) :
    dotGpu 0 (· + ·) (· * ·) order V W P mem = (pts.map fun p => mem (V.ptr p) * mem (W.ptr p)).sum ∧
    dotCpu 0 (· + ·) (· * ·) V W pts mem = (pts.map fun p => mem (V.ptr p) * mem (W.ptr p)).sum := by
  refine ⟨?_, by rw [dotCpu, foldl_add (fun p => mem (V.ptr p) * mem (W.ptr p)), zero_add]⟩
  have hperm : pts.Perm (pointsOf V.order P) :=
    (List.perm_ext_iff_of_nodup hn (pointsOf_nodup _ _)).2 fun p => by rw [hm, mem_pointsOf]
  rw [(hperm.map _).sum_eq]
  by_cases hP : Nonempty P
  · rw [dotGpu, if_neg (volume_pos hP).ne', intArg_fits hv, cublasDot,
      foldl_add (fun i : Nat => mem (V.ptr (Rect.lo P) + i * 1) * mem (W.ptr (Rect.lo P) + i * 1)), zero_add,
      ((hord _).map _).sum_eq]
    congr 1
    apply List.ext_getElem
    · simp [length_pointsOf]
    · intro i h1 h2
      have hl : i < (pointsOf V.order P).length := by simpa using h2
      have hl' : i < (pointsOf W.order P).length := by rw [length_pointsOf] at hl ⊢; exact hl
      simp only [List.getElem_map, List.getElem_range, mul_one]
      rw [ptr_getElem V hV hP hrV i hl]
      have := ptr_getElem W hW hP hrW i hl'
      simp only [← ho] at this
      rw [this]
  · have : pointsOf V.order P = [] := List.eq_nil_iff_forall_not_mem.2 fun p hp =>
      hP (nonempty_of_inBox ((mem_pointsOf _ _ _).1 hp))
    rw [dotGpu, if_pos (volume_eq_zero hP), this]; rfl

/-- Every piece of a one-dimensional vector is a slab of every instance. -/
theorem c52_one_dimension (o : IndexOrder) (b p : Int × Int) : Slab o [b] [p] := by
  refine ⟨0, fun j s hj => ?_⟩
  cases j with
  | zero => cases o <;> simp [Slower]
  | succ j => simp at hj

/-- A piece with an instance of its own is a slab of it. -/
theorem c52_exact_instance (o : IndexOrder) (P : Rect) : Slab o P P := by
  cases o with
  | rowMajor => exact ⟨0, fun j s hj => ⟨fun h => by simp [Slower] at h, fun _ => hj⟩⟩
  | columnMajor =>
    exact ⟨P.length, fun j s hj => ⟨fun h => by
      have := (List.getElem?_eq_some_iff.1 hj).1
      simp only [Slower] at h; omega, fun _ => hj⟩⟩

/-- **C52 violated** (instance larger than the piece): scaling the 2 × 2 piece at the corner of a 3 × 3 instance changes an
element outside the piece and leaves one inside unscaled, in either order. -/
theorem c52_violated_subrectangle {E : Type} (mul : E → E → E) (alpha e : E) (he : mul alpha e ≠ e) (o : IndexOrder)
    (base : Int) : ¬ ∀ mem, ScaledPiece mul alpha ⟨[(0, 2), (0, 2)], o, base⟩ [(0, 1), (0, 1)] mem
      (scalGpu mul alpha ⟨[(0, 2), (0, 2)], o, base⟩ [(0, 1), (0, 1)] mem) := by
  intro h
  have hsl := c52_scal_only_slabs mul alpha e he ⟨[(0, 2), (0, 2)], o, base⟩ [(0, 1), (0, 1)]
    (by simp [Sub]) (by decide) (by decide) h
  obtain ⟨k, hk⟩ := hsl
  have h0 := hk 0 (0, 1) rfl
  have h1 := hk 1 (0, 1) rfl
  cases o <;> simp [Slower] at h0 h1 <;> omega

theorem intArg_neg {v : Nat} (h1 : 2 ^ 31 ≤ v) (h2 : v < 2 ^ 32) : intArg v < 0 := by
  simp only [intArg, Verif.Machine.CType.conv, Verif.Machine.int32, if_true]
  norm_num at h1 h2 ⊢
  omega

/-- **C52 violated** (number of elements): with at least `2^31` and fewer than `2^32` elements in the piece the GPU scales
nothing at all. -/
theorem c52_violated_count {E : Type} (mul : E → E → E) (alpha : E) (I : Inst) (P : Rect) (h1 : 2 ^ 31 ≤ Rect.volume P)
    (h2 : Rect.volume P < 2 ^ 32) (mem : Int → E) : scalGpu mul alpha I P mem = mem := by
  rw [scalGpu, if_neg (by omega), cublasScal, Int.toNat_of_nonpos (intArg_neg h1 h2).le]
  rfl

/-! ## The hypotheses are satisfiable -/

-- a slab that is neither the whole instance nor one-dimensional: columns 1-2 of a 3 x 4 column-major instance
example : Sub [(0, 2), (0, 3)] [(0, 2), (1, 2)] ∧ Slab .columnMajor [(0, 2), (0, 3)] [(0, 2), (1, 2)] ∧
    Rect.volume [(0, 2), (1, 2)] = 6 :=
  ⟨by simp [Sub], ⟨1, fun j s hj => by
    match j, hj with
    | 0, hj => simp at hj; subst hj; simp [Slower]
    | 1, hj => simp at hj; subst hj; simp [Slower]
    | (j + 2), hj => simp at hj⟩, rfl⟩

-- it is scaled correctly: cells 103 .. 108 of an instance at address 100
example (mem : Int → Int) : scalGpu (· * ·) 5 ⟨[(0, 2), (0, 3)], .columnMajor, 100⟩ [(0, 2), (1, 2)] mem 104 = 5 * mem 104 ∧
    scalGpu (· * ·) 5 ⟨[(0, 2), (0, 3)], .columnMajor, 100⟩ [(0, 2), (1, 2)] mem 109 = mem 109 := ⟨rfl, rfl⟩

-- a piece of 2^31 elements
example : Rect.volume [(0, 2147483647)] = 2 ^ 31 := by norm_num [Rect.volume]; rfl

end Verif.Blas
