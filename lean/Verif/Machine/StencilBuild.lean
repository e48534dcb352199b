import Verif.Machine.StencilBulk
import Verif.Stencil.SizeLemmas
/-! # C78: stencil sizes and builders in machine integers -/
set_option linter.dupNamespace false
set_option linter.unusedSectionVars false
namespace Verif.Machine
open Verif.Grid Verif.Stencil Verif.Matrix Verif.EndToEnd

variable {E : Type}

/-! ## Size -/

theorem subOffsets_exact {t : CType} {l h i : Int} (h1 : l ≤ i) (h2 : i ≤ h) (offs : List (Point × E))
    (hs : ∀ o ∈ offs, t.Fits (l + headCoord o.1) ∧ t.Fits (h + headCoord o.1)) :
    subOffsets t l h i offs = some (Stencil.subOffsets l h i offs) := by
  induction offs with
  | nil => rfl
  | cons o os ih =>
    have hf : t.Fits (i + headCoord o.1) :=
      fits_between (hs o (by simp)).1 (hs o (by simp)).2 (by omega) (by omega)
    simp only [subOffsets, ih (fun a ha => hs a (by simp [ha]))]
    rw [bind_ev hf]
    by_cases c1 : l ≤ i + headCoord o.1
    · rw [if_pos c1, bind_ev hf]
      by_cases c2 : i + headCoord o.1 ≤ h
      · simp [Stencil.subOffsets, c1, c2]
      · simp [Stencil.subOffsets, c1, c2]
    · rw [if_neg c1]
      simp [Stencil.subOffsets, c1]

theorem sizeLoop_le (sub : List (Point × E) → Option Nat) (l h : Int) (offs : List (Point × E)) (n : Nat) (i : Int) (r R : Nat)
    (hn : (h + 1 - i).toNat = n) (e : Stencil.sizeLoop sub l h offs i r = some R) : r ≤ R := by
  induction n using Nat.strongRecOn generalizing i r with
  | ind n ih =>
    unfold Stencil.sizeLoop at e
    by_cases hi : i ≤ h
    · rw [if_pos hi] at e
      simp only [] at e
      split at e
      · split at e
        · split at e
          · rename_i hge
            split at e
            · cases e
            · have := ih _ (by omega) _ _ rfl e
              omega
          · cases e
        · cases e
      · split at e
        · cases e
        · have := ih _ (by omega) _ _ rfl e
          omega
    · rw [if_neg hi] at e
      injection e with e
      omega

theorem fits_sizeT {z : Int} (h0 : 0 ≤ z) (h1 : z ≤ sizeT.max) : sizeT.Fits z := fits_of_nonneg h0 h1

theorem max_le_sizeT {t : CType} (hb : t.bits ≤ 64) : t.max ≤ sizeT.max := by
  have e : sizeT.max = 2 ^ 64 - 1 := rfl
  rw [e]
  unfold CType.max
  have h1 : (2 : Int) ^ t.bits ≤ 2 ^ 64 := pow_le_pow_right₀ (by omega) hb
  split
  · have : (2 : Int) ^ (t.bits - 1) ≤ 2 ^ 64 := pow_le_pow_right₀ (by omega) (by omega)
    omega
  · omega

theorem conv_sizeT {z : Int} (h0 : 0 ≤ z) (h1 : z ≤ sizeT.max) : sizeT.conv z = z :=
  conv_fits (by decide) (fits_sizeT h0 h1)

theorem sizeLoop_exact {t : CType} (hbits : t.bits ≤ 64) {l h : Int} {offs : List (Point × E)} (hl : t.Fits l) (hh : t.Fits (h + 1))
    (hlen : t.Fits (h - l + 1)) (hs : ∀ o ∈ offs, t.Fits (l + headCoord o.1) ∧ t.Fits (h + headCoord o.1))
    (sub : List (Point × E) → Option Nat) (msub : List (Point × E) → Option Int)
    (hsub : ∀ x S, l ≤ x → x ≤ h → sub (Stencil.subOffsets l h x offs) = some S → (S : Int) ≤ sizeT.max →
      msub (Stencil.subOffsets l h x offs) = some (S : Int)) (fuel : Nat) (i : Int) (r R : Nat) (h1 : l ≤ i) (hi : i ≤ h + 1)
    (hf : h + 2 - i ≤ fuel) (hR : (R : Int) ≤ sizeT.max) (e : Stencil.sizeLoop sub l h offs i r = some R) :
    sizeLoop t msub l h offs fuel i r = some (R : Int) := by
  have hmn : minOffset offs ≤ 0 := ((le_minOffset offs _).1 (le_refl _)).1
  have hmx : 0 ≤ maxOffset offs := ((maxOffset_le offs _).1 (le_refl _)).1
  induction fuel generalizing i r with
  | zero => exfalso; simp at hf; omega
  | succ fuel ih =>
    unfold Stencil.sizeLoop at e
    by_cases hih : i ≤ h
    · rw [if_pos hih] at e
      simp only [] at e
      simp only [sizeLoop, if_pos hih, subOffsets_exact h1 hih offs hs, Option.bind_eq_bind, Option.bind_some]
      by_cases c1 : (Stencil.subOffsets l h i offs).length = offs.length
      · have hav := (all_valid_iff l h i offs h1 hih).1 c1
        rw [if_pos c1] at e ⊢
        rw [ev_fits (fits_between hl hh (z := l - minOffset offs) (by omega) (by omega))]
        simp only [Option.bind_some]
        by_cases c2 : i = l - minOffset offs
        · rw [if_pos c2] at e ⊢
          rw [ev_fits (fits_between hl hh (z := h - maxOffset offs) (by omega) (by omega))]
          simp only [Option.bind_some]
          by_cases c3 : h - maxOffset offs ≥ i
          · rw [dif_pos c3] at e
            rw [if_pos c3]
            cases hsb : sub (Stencil.subOffsets l h i offs) with
            | none => rw [hsb] at e; cases e
            | some S =>
              rw [hsb] at e
              simp only [] at e
              have hle := sizeLoop_le sub l h offs _ _ _ _ rfl e
              have hpos : 1 ≤ (h - maxOffset offs - i + 1).toNat := by omega
              have hSle : S ≤ (h - maxOffset offs - i + 1).toNat * S := Nat.le_mul_of_pos_left _ hpos
              rw [hsub i S h1 hih hsb (by omega)]
              have f1 : t.Fits (h - maxOffset offs - i) := fits_of_nonneg (by omega) (le_trans (by omega) hlen.2)
              have f2 : t.Fits (h - maxOffset offs - i + 1) := fits_of_nonneg (by omega) (le_trans (by omega) hlen.2)
              rw [ev_fits f1]
              simp only [Option.bind_some]
              rw [ev_fits f2]
              simp only [Option.bind_some]
              rw [conv_sizeT (by omega) (le_trans f2.2 (max_le_sizeT hbits))]
              have ep : (h - maxOffset offs - i + 1) * (S : Int) = (((h - maxOffset offs - i + 1).toNat * S : Nat) : Int) := by
                rw [Nat.cast_mul, Int.toNat_of_nonneg (by omega)]
              rw [ep, ev_fits (fits_sizeT (by omega) (by omega))]
              simp only [Option.bind_some]
              rw [ev_fits (fits_sizeT (by omega) (by omega))]
              simp only [Option.bind_some]
              rw [ev_fits (fits_between hl hh (z := h - maxOffset offs + 1) (by omega) (by omega))]
              simp only [Option.bind_some]
              have := ih (h - maxOffset offs + 1) _ (by omega) (by omega) (by push_cast at hf; omega) e
              rw [Nat.cast_add] at this
              exact this
          · rw [dif_neg c3] at e; cases e
        · rw [if_neg c2] at e; cases e
      · rw [if_neg c1] at e ⊢
        cases hsb : sub (Stencil.subOffsets l h i offs) with
        | none => rw [hsb] at e; cases e
        | some S =>
          rw [hsb] at e
          simp only [] at e
          have hle := sizeLoop_le sub l h offs _ _ _ _ rfl e
          rw [hsub i S h1 hih hsb (by omega)]
          simp only [Option.bind_some]
          rw [ev_fits (fits_sizeT (by omega) (by omega))]
          simp only [Option.bind_some]
          rw [ev_fits (fits_between hl hh (z := i + 1) (by omega) (by omega))]
          simp only [Option.bind_some]
          have := ih (i + 1) _ (by omega) (by omega) (by push_cast at hf; omega) e
          rw [Nat.cast_add] at this
          exact this
    · rw [if_neg hih] at e
      injection e with e
      subst e
      simp only [sizeLoop, if_neg hih]

theorem size1_exact {t : CType} (hbits : t.bits ≤ 64) (length : Nat) (offs : List (Point × E))
    (hs : ∀ o ∈ offs, t.Fits |headCoord o.1|) (r : Nat) :
    let R := offs.foldl (fun result o => if (headCoord o.1).natAbs ≤ length then result + (length - (headCoord o.1).natAbs)
      else result) r
    (R : Int) ≤ sizeT.max → size1 t length offs r = some (R : Int) := by
  have mono : ∀ (offs : List (Point × E)) (r : Nat), r ≤ offs.foldl (fun result o => if (headCoord o.1).natAbs ≤ length then
      result + (length - (headCoord o.1).natAbs) else result) r := by
    intro offs
    induction offs with
    | nil => intro r; exact le_refl _
    | cons o os ih =>
      intro r
      refine le_trans ?_ (ih _)
      simp only []
      split <;> omega
  induction offs generalizing r with
  | nil => intro R _; rfl
  | cons o os ih =>
    intro R hR
    have hf := hs o (by simp)
    have ea : |headCoord o.1| = ((headCoord o.1).natAbs : Int) := Int.abs_eq_natAbs _
    have hm := mono os (if (headCoord o.1).natAbs ≤ length then r + (length - (headCoord o.1).natAbs) else r)
    have hR' : R = os.foldl (fun result o => if (headCoord o.1).natAbs ≤ length then
      result + (length - (headCoord o.1).natAbs) else result)
      (if (headCoord o.1).natAbs ≤ length then r + (length - (headCoord o.1).natAbs) else r) := rfl
    have hi := ih (fun a ha => hs a (by simp [ha]))
      (if (headCoord o.1).natAbs ≤ length then r + (length - (headCoord o.1).natAbs) else r)
    rw [← hR'] at hm hi
    have hi := hi hR
    simp only [size1]
    rw [bind_ev hf, conv_sizeT (abs_nonneg _) (le_trans hf.2 (max_le_sizeT hbits)), ea]
    by_cases c : (headCoord o.1).natAbs ≤ length
    · rw [if_pos c] at hm hi
      rw [if_pos (by exact_mod_cast c), bind_ev (fits_sizeT (by omega) (by omega)), bind_ev (fits_sizeT (by omega) (by omega))]
      have e : (r : Int) + ((length : Int) - (headCoord o.1).natAbs) = ((r + (length - (headCoord o.1).natAbs) : Nat) : Int) := by
        omega
      rw [e]
      exact hi
    · rw [if_neg c] at hm hi
      rw [if_neg (by exact_mod_cast c)]
      exact hi

theorem Representable.sub {t : CType} {l h x : Int} {b : Rect} {offs : List (Point × E)} (hr : Representable t ((l, h) :: b) offs) :
    Representable t b (Stencil.subOffsets l h x offs) := by
  refine ⟨fun lh hm => hr.side lh (by simp [hm]), ?_⟩
  intro oe hm
  unfold Stencil.subOffsets at hm
  rw [List.mem_filterMap] at hm
  obtain ⟨a, ha, he⟩ := hm
  split at he
  · simp only [Option.some.injEq] at he
    subst he
    have := hr.shift a ha
    cases e : a.1 with
    | nil => rw [e] at this; cases this
    | cons y q => rw [e] at this; exact (List.forall₂_cons.1 this).2
  · cases he

theorem Representable.head {t : CType} {l h : Int} {b : Rect} {offs : List (Point × E)} (hr : Representable t ((l, h) :: b) offs) :
    ∀ o ∈ offs, t.Fits (l + headCoord o.1) ∧ t.Fits (h + headCoord o.1) ∧ t.Fits |headCoord o.1| := by
  intro o ho
  have := hr.shift o ho
  cases e : o.1 with
  | nil => rw [e] at this; cases this
  | cons y q =>
    rw [e] at this
    exact (List.forall₂_cons.1 this).1

theorem stencilSizeAux_exact {t : CType} (hbits : t.bits ≤ 64) (fuel : Nat) (b : Rect) (offs : List (Point × E))
    (hr : Representable t b offs) (hb : Grid.Nonempty b) (hf : ∀ lh ∈ b, lh.2 + 2 - lh.1 ≤ fuel) (R : Nat)
    (hR : (R : Int) ≤ sizeT.max) (e : Stencil.calculateStencilSize b offs = some R) :
    stencilSizeAux t fuel b offs = some (R : Int) := by
  induction b generalizing offs R with
  | nil =>
    cases offs with
    | nil => rw [Stencil.calculateStencilSize] at e; injection e with e; subst e; simp [stencilSizeAux]
    | cons o os => simp [Stencil.calculateStencilSize] at e
  | cons lh b ih =>
    obtain ⟨l, h⟩ := lh
    have hd := hr.head
    have hsd := hr.side (l, h) (by simp)
    have hlh := hb (l, h) (by simp)
    have hfh := hf (l, h) (by simp)
    simp only at hsd hlh hfh
    cases offs with
    | nil => rw [Stencil.calculateStencilSize] at e; injection e with e; subst e; simp [stencilSizeAux]
    | cons o os =>
      cases b with
      | nil =>
        rw [Stencil.calculateStencilSize] at e
        injection e with e
        subst e
        simp only [stencilSizeAux]
        exact size1_exact hbits (h - l + 1).toNat (o :: os) (fun a ha => (hd a ha).2.2) 0 hR
      | cons b2 b =>
        rw [Stencil.calculateStencilSize] at e
        simp only [stencilSizeAux]
        refine sizeLoop_exact hbits hsd.1 hsd.2.1 hsd.2.2 (fun a ha => ⟨(hd a ha).1, (hd a ha).2.1⟩) _ _ ?_ fuel l 0 R (le_refl _)
          (by omega) (by omega) hR e
        intro x S _ _ e1 e2
        exact ih _ hr.sub (nonempty_tail hb) (fun lh hm => hf lh (by simp [hm])) S e2 e1

theorem pairCount_le (b : Rect) (offs : List (Point × E)) : pairCount b offs ≤ Rect.volume b * offs.length := by
  unfold pairCount
  rw [← length_points]
  generalize points b = ps
  induction ps with
  | nil => simp
  | cons p ps ih =>
    simp only [List.map_cons, List.sum_cons, List.length_cons, Nat.add_mul, Nat.one_mul]
    have := List.countP_le_length (p := fun o : Point × E => Rect.contains b (Grid.addPoint p o.1)) (l := offs)
    omega

theorem side_le_volume {b : Rect} (hb : Grid.Nonempty b) : ∀ lh ∈ b, lh.2 + 1 - lh.1 ≤ Rect.volume b := by
  induction b with
  | nil => intro lh h; cases h
  | cons a b ih =>
    obtain ⟨l, h⟩ := a
    have hlh := hb (l, h) (by simp)
    simp only at hlh
    intro lh hm
    rw [volume_cons hlh]
    have hvp : (1 : Int) ≤ Rect.volume b := by exact_mod_cast volume_pos (nonempty_tail hb)
    rcases List.mem_cons.1 hm with rfl | hm
    · have := le_mul_of_one_le_left (a := (Rect.volume b : Int)) (b := h - l + 1) (by omega) hvp
      simp only; omega
    · have h1 := ih (nonempty_tail hb) lh hm
      have := le_mul_of_one_le_right (a := (Rect.volume b : Int)) (b := h - l + 1) (by omega) (by omega)
      omega

theorem Representable.lengths {t : CType} {b : Rect} {offs : List (Point × E)} (hr : Representable t b offs) :
    ∀ oe ∈ offs, oe.1.length = b.length := fun oe ho => (hr.shift oe ho).length_eq.symm

/-- **C78**, size: for a signed coordinate type of at most 64 bits the number of entries is computed exactly. -/
theorem c78_size (t : CType) (hsg : t.signed = true) (hbits : t.bits ≤ 64) (b : Rect) (offs : List (Point × E)) (hb0 : b ≠ [])
    (hr : Representable t b offs) (hb : Grid.Nonempty b) (hk : (Rect.volume b * offs.length : Nat) ≤ sizeT.max) (fuel : Nat)
    (hf : Rect.volume b < fuel) :
    calculateStencilSize t fuel b offs = (Stencil.calculateStencilSize b offs).map Int.ofNat := by
  have e := calculateStencilSize_eq b offs hb0 hr.lengths
  have hle := pairCount_le b offs
  unfold calculateStencilSize
  rw [if_pos hsg, stencilSizeAux_exact hbits fuel b offs hr hb ?_ _ (by omega) e, e]
  · rfl
  · intro lh hm
    have := side_le_volume hb lh hm
    omega

/-! ## Builders -/

theorem kernelPoints_exact {n : Nat} (h : (n : Int) ≤ int64.max) : kernelPoints (n : Int) = some n := by
  unfold kernelPoints
  have e : sizeT.ev ((n : Int) - 1) = some (((n : Int) - 1) % 2 ^ 64) := rfl
  rw [e]
  simp only [Option.bind_eq_bind, Option.bind_some]
  have e2 : int64.max = 2 ^ 63 - 1 := rfl
  have hc : int64.conv (((n : Int) - 1) % 2 ^ 64) = (n : Int) - 1 := by
    have h1 : int64.conv (((n : Int) - 1) % 2 ^ 64) = int64.conv ((n : Int) - 1) :=
      conv_mod (t := int64) (by decide) (Int.mod_modEq _ _)
    rw [h1]
    exact conv_fits (by decide) (int64_fits (by omega) (by omega))
  rw [hc]
  congr 1
  omega

theorem rowPoints_exact {t : CType} (hb1 : 1 ≤ t.bits) (hbits : t.bits ≤ 64) {b : Rect} (hb : Grid.Nonempty b)
    (hv : (Rect.volume b : Int) ≤ t.max) : rowPoints t b = some (Rect.volume b) := by
  have hvp : (1 : Int) ≤ Rect.volume b := by exact_mod_cast volume_pos hb
  unfold rowPoints
  have := max_le_sizeT hbits
  rw [bind_ev (fits_sizeT (by omega) (by omega)), conv_fits hb1 (fits_of_nonneg (by omega) (by omega))]
  change some _ = _
  congr 1
  omega

/-- **C78**: `create_coo_stencil_matrix` builds, in machine integers, exactly the matrix it builds in mathematical integers. -/
theorem c78_create_coo (t : CType) (hsg : t.signed = true) (hbits : t.bits ≤ 64) (sort : List (Point × E) → List (Point × E))
    (o : IndexOrder) (b : Rect) (offs : List (Point × E)) (hb0 : b ≠ []) (hsort : (sort offs).Perm offs)
    (hr : Representable t b offs) (hb : Grid.Nonempty b) (hk : (Rect.volume b * offs.length : Nat) ≤ int64.max)
    (pieces : List (Int → Bool)) (fuel : Nat) (hf : Rect.volume b < fuel) (junk : COO Int Point E) :
    createCOOStencil t sort o b offs pieces fuel junk = EndToEnd.createCOOStencil sort o b offs pieces fuel junk := by
  have hm : int64.max ≤ sizeT.max := max_le_sizeT (by decide)
  have e := calculateStencilSize_eq b offs hb0 hr.lengths
  have hle := pairCount_le b offs
  have hpc : ∀ (ds : List (Int → Bool)) (s : COOState Point Point E),
      runPieces (fun D (s : COOState Point Point E) => fillCOO t sort o b offs D fuel s.row s.col s.entry) ds s =
        fillCOOPieces sort o b offs fuel ds s := by
    intro ds
    induction ds with
    | nil => intro s; rfl
    | cons d ds ih =>
      intro s
      simp only [runPieces, fillCOOPieces, c78_fill_coo t sort o b offs hsort hr hb hk d fuel (by omega)]
      cases Stencil.fillCOO sort o b offs d fuel s.row s.col s.entry with
      | none => rfl
      | some s' => exact ih s'
  simp only [createCOOStencil, EndToEnd.createCOOStencil, c78_size t hsg hbits b offs hb0 hr hb (by omega) fuel hf, e, Option.map_some,
    Option.bind_eq_bind, Option.bind_some]
  change (kernelPoints ((pairCount b offs : Nat) : Int)).bind _ = _
  rw [kernelPoints_exact (by omega), hpc]
  simp only [Option.bind_some]
  cases fillCOOPieces sort o b offs fuel pieces ⟨0, fun _ => none, fun _ => none, fun _ => none⟩ <;> rfl

/-- **C78**: `create_csr_stencil_matrix`. -/
theorem c78_create_csr (t : CType) (hsg : t.signed = true) (hbits : t.bits ≤ 64) (sort : List (Point × E) → List (Point × E))
    (o : IndexOrder) (b : Rect) (offs : List (Point × E)) (hb0 : b ≠ []) (hsort : (sort offs).Perm offs)
    (hr : Representable t b offs) (hb : Grid.Nonempty b) (hk : (Rect.volume b * offs.length : Nat) ≤ int64.max) (rows : List Point)
    (pieces : List ((Int → Bool) × (Point → Bool))) (fuel : Nat) (hf : Rect.volume b < fuel) (junk : CSR Int Point E) :
    createCSRStencil t sort o b offs rows pieces fuel junk = EndToEnd.createCSRStencil sort o b offs rows pieces fuel junk := by
  have hm : int64.max ≤ sizeT.max := max_le_sizeT (by decide)
  have e := calculateStencilSize_eq b offs hb0 hr.lengths
  have hle := pairCount_le b offs
  have hpc : ∀ (ds : List ((Int → Bool) × (Point → Bool))) (s : CSRState Point Point E),
      runPieces (fun D (s : CSRState Point Point E) => fillCSR t sort o b offs D.1 D.2 fuel s.col s.entry s.rowptr) ds s =
        fillCSRPieces sort o b offs fuel ds s := by
    intro ds
    induction ds with
    | nil => intro s; rfl
    | cons d ds ih =>
      intro s
      simp only [runPieces, fillCSRPieces, c78_fill_csr t sort o b offs hsort hr hb hk d.1 d.2 fuel (by omega)]
      cases Stencil.fillCSR sort o b offs d.1 d.2 fuel s.col s.entry s.rowptr with
      | none => rfl
      | some s' => exact ih s'
  simp only [createCSRStencil, EndToEnd.createCSRStencil, c78_size t hsg hbits b offs hb0 hr hb (by omega) fuel hf, e, Option.map_some,
    Option.bind_eq_bind, Option.bind_some]
  change (kernelPoints ((pairCount b offs : Nat) : Int)).bind _ = _
  rw [kernelPoints_exact (by omega), hpc]
  simp only [Option.bind_some]
  cases fillCSRPieces sort o b offs fuel pieces ⟨0, fun _ => none, fun _ => none, fun _ => none⟩ <;> rfl

/-- **C78**: `create_linearized_csr_stencil_matrix`. -/
theorem c78_create_lin_csr (t : CType) (hsg : t.signed = true) (hbits : t.bits ≤ 64) (sort : List (Point × E) → List (Point × E))
    (o : IndexOrder) (b : Rect) (offs : List (Point × E)) (hb0 : b ≠ []) (hsort : (sort offs).Perm offs)
    (hr : Representable t b offs) (hb : Grid.Nonempty b) (hv : (Rect.volume b : Int) ≤ t.max)
    (hk : 4 * (Rect.volume b * offs.length + 1 : Nat) ≤ int64.max) (pieces : List (Dom1 × Dom1))
    (hp : ∀ D ∈ pieces, D.1.lo ≤ (Rect.volume b * offs.length + 1 : Nat) ∧ D.2.lo ≤ Rect.volume b) (fuel : Nat)
    (hf : Rect.volume b < fuel) (junk : CSR Int Int E) :
    createLinCSRStencil t sort o b offs pieces fuel junk = EndToEnd.createLinCSRStencil sort o b offs pieces fuel junk := by
  have hm : int64.max ≤ sizeT.max := max_le_sizeT (by decide)
  have hb1 : 1 ≤ t.bits := by
    by_contra hc
    have e0 : t.bits = 0 := by omega
    have hvp : (1 : Int) ≤ Rect.volume b := by exact_mod_cast volume_pos hb
    unfold CType.max at hv
    rw [if_pos hsg, e0] at hv
    simp at hv
    omega
  have e := calculateStencilSize_eq b offs hb0 hr.lengths
  have hle := pairCount_le b offs
  have hpc : ∀ (ds : List (Dom1 × Dom1)), (∀ D ∈ ds, D.1.lo ≤ (Rect.volume b * offs.length + 1 : Nat) ∧ D.2.lo ≤ Rect.volume b) →
      ∀ (s : CSRState Int Int E),
      runPieces (fun D (s : CSRState Int Int E) => fillLinCSR t sort o b offs D.1 D.2 fuel s.col s.entry s.rowptr) ds s =
        fillLinCSRPieces sort o b offs fuel ds s := by
    intro ds
    induction ds with
    | nil => intro _ s; rfl
    | cons d ds ih =>
      intro hds s
      have hd := hds d (by simp)
      simp only [runPieces, fillLinCSRPieces, c78_fill_lin_csr t sort o b offs hb0 hsort hr hb hv hk d.1 d.2 hd.1 hd.2 fuel (by omega)]
      cases Stencil.fillLinCSR sort o b offs d.1 d.2 fuel s.col s.entry s.rowptr with
      | none => rfl
      | some s' => exact ih (fun D hD => hds D (by simp [hD])) s'
  simp only [createLinCSRStencil, EndToEnd.createLinCSRStencil, c78_size t hsg hbits b offs hb0 hr hb (by omega) fuel hf, e,
    Option.map_some, Option.bind_eq_bind, Option.bind_some]
  change (kernelPoints ((pairCount b offs : Nat) : Int)).bind _ = _
  rw [kernelPoints_exact (by omega), rowPoints_exact hb1 hbits hb hv, hpc pieces hp]
  simp only [Option.bind_some]
  cases fillLinCSRPieces sort o b offs fuel pieces ⟨0, fun _ => none, fun _ => none, fun _ => none⟩ <;> rfl

end Verif.Machine
