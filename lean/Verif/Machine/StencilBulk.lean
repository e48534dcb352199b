import Verif.Machine.StencilProps
import Verif.Stencil.BulkLemmas
/-! # C78: the fast-forwarding loop of the linearised CSR fill task in machine integers -/
set_option linter.dupNamespace false
set_option linter.unusedSectionVars false
namespace Verif.Machine
open Verif.Grid Verif.Stencil Verif.Matrix Verif.EndToEnd

variable {E : Type}

theorem leading_pred (P : Int → Prop) (h0 : P 0) (offs : List (Point × E)) (h : ∀ o ∈ offs, P (headCoord o.1)) :
    P (leadingDimensionBounds offs).1 ∧ P (leadingDimensionBounds offs).2 := by
  have gen : ∀ (offs : List (Point × E)) (acc : Int × Int), P acc.1 → P acc.2 → (∀ o ∈ offs, P (headCoord o.1)) →
      P (offs.foldl (fun acc o => leadingStep acc (headCoord o.1)) acc).1 ∧
      P (offs.foldl (fun acc o => leadingStep acc (headCoord o.1)) acc).2 := by
    intro offs
    induction offs with
    | nil => intro acc h1 h2 _; exact ⟨h1, h2⟩
    | cons o os ih =>
      intro acc h1 h2 h3
      rw [List.foldl_cons]
      refine ih _ ?_ ?_ (fun a ha => h3 a (by simp [ha]))
      · unfold leadingStep; simp only []; split
        · exact h3 o (by simp)
        · exact h1
      · unfold leadingStep; simp only []; split
        · exact h3 o (by simp)
        · exact h2
  exact gen offs (0, 0) h0 h0 h

/-- The number of the point one step past the last slice is also computed exactly. -/
theorem linHead_exact {t : CType} {l h x : Int} {b : Rect} {p : Point} (hp : InBox b p) (hz : linearizeRowMajor b p = 0)
    (h1 : l ≤ x) (h2 : x ≤ h + 1) (hlh : l ≤ h) (hv : (Rect.volume ((l, h) :: b) : Int) ≤ t.max) :
    linearize t .rowMajor ((l, h) :: b) (x :: p) = some (linearizeRowMajor ((l, h) :: b) (x :: p)) := by
  have hn := nonempty_of_inBox hp
  have hvp : (0 : Int) < Rect.volume b := by exact_mod_cast volume_pos hn
  rw [volume_cons hlh] at hv
  have hle : (Rect.volume b : Int) ≤ Rect.volume b * (h - l + 1) := le_mul_of_one_le_right (by omega) (by omega)
  have e : linearizeRowMajorAux b p = (0, (Rect.volume b : Int)) := by
    rw [← linAux_snd b p hn hp.length_eq, ← hz]; rfl
  simp only [linearize, linRowAux, linRowAux_exact hp (t := t) (by omega), Option.bind_eq_bind, Option.bind_some, e, linStep]
  have p1 : 0 ≤ (Rect.volume b : Int) * (x - l) := mul_nonneg (by omega) (by omega)
  have p2 : (Rect.volume b : Int) * (x - l) ≤ Rect.volume b * (h - l + 1) := mul_le_mul_of_nonneg_left (by omega) (by omega)
  have p3 : h - l + 1 ≤ (Rect.volume b : Int) * (h - l + 1) := le_mul_of_one_le_left (by omega) (by omega)
  rw [ev_fits (fits_of_nonneg (t := t) (z := x - l) (by omega) (by omega))]
  simp only [Option.bind_some]
  rw [ev_fits (fits_of_nonneg (t := t) p1 (by omega))]
  simp only [Option.bind_some]
  rw [ev_fits (fits_of_nonneg (t := t) (z := 0 + Rect.volume b * (x - l)) (by omega) (by omega))]
  simp only [Option.bind_some]
  rw [ev_fits (fits_of_nonneg (t := t) (z := h - l) (by omega) (by omega))]
  simp only [Option.bind_some]
  rw [ev_fits (fits_of_nonneg (t := t) (z := h - l + 1) (by omega) (by omega))]
  simp only [Option.bind_some]
  rw [ev_fits (fits_of_nonneg (t := t) (z := Rect.volume b * (h - l + 1)) (by omega) (by omega))]
  simp only [linearizeRowMajor, linearizeRowMajorAux, e]
  rfl

section
variable {t : CType} {l h : Int} {b : Rect} {lower upper : Int}

theorem inBulk_exact (hlo : t.Fits (l + lower) ∧ t.Fits (h + lower)) (hup : t.Fits (l + upper) ∧ t.Fits (h + upper)) {x : Int}
    {p : Point} (h1 : l ≤ x) (h2 : x ≤ h) :
    inBulk t ((l, h) :: b) lower upper (x :: p) = some (Stencil.inBulk ((l, h) :: b) lower upper (x :: p)) := by
  unfold inBulk Stencil.inBulk
  change (t.ev (x + lower) >>= fun y => if y ≥ l then _ else _) = _
  rw [bind_ev (fits_between hlo.1 hlo.2 (by omega) (by omega))]
  change (if x + lower ≥ l then _ else _) = some (decide (x + lower ≥ l) && decide (x + upper ≤ h))
  by_cases c : x + lower ≥ l
  · rw [if_pos c]
    change (t.ev (x + upper) >>= fun y => pure (decide (y ≤ h))) = _
    rw [bind_ev (fits_between hup.1 hup.2 (by omega) (by omega))]
    simp [c]
  · rw [if_neg c]; simp [c]

theorem bulkSkip_exact (hb : Grid.Nonempty b) (hlh : l ≤ h) (hv : (Rect.volume ((l, h) :: b) : Int) ≤ t.max)
    (hside : t.Fits l ∧ t.Fits (h + 1)) (hlo : t.Fits (l + lower) ∧ t.Fits (h + lower))
    (hup : t.Fits (l + upper) ∧ t.Fits (h + upper)) {size matLo rowLo M : Int} (hs0 : 0 ≤ size) (hsM : size ≤ M) (hmM : matLo ≤ M)
    (hM : 2 * M ≤ int64.max) (hrow : rowLo ≤ Rect.volume ((l, h) :: b)) (fuel : Nat) (x k : Int) (h1 : l ≤ x) (h2 : x ≤ h)
    (hk0 : 0 ≤ k) (hkM : k ≤ M) (hf : h + 1 - x ≤ fuel) :
    ∃ x' k', Stencil.bulkSkip ((l, h) :: b) lower upper size matLo rowLo (x :: Rect.lo b) k = (x' :: Rect.lo b, k') ∧
      bulkSkip t ((l, h) :: b) lower upper size matLo rowLo fuel (x :: Rect.lo b) k = some (x' :: Rect.lo b, k') ∧
      x ≤ x' ∧ x' ≤ h ∧ k ≤ k' ∧ (x' = x ∧ k' = k ∨ k' < matLo) := by
  induction fuel generalizing x k with
  | zero => exfalso; simp at hf; omega
  | succ fuel ih =>
    have hbox := inBox_lo hb
    have hinc : incrementHead t (x :: Rect.lo b) = some ((x + 1) :: Rect.lo b) := by
      simp only [incrementHead]
      rw [bind_ev (fits_between hside.1 hside.2 (by omega) (by omega))]; rfl
    have hlin := linHead_exact (x := x + 1) hbox (linRM_lo b) (by omega) (by omega) hlh hv
    have hcond : skipCond t ((l, h) :: b) lower upper size matLo rowLo (x :: Rect.lo b) k =
        some (decide (Stencil.inBulk ((l, h) :: b) lower upper (x :: Rect.lo b) = true ∧ k + size < matLo ∧
          linearizeRowMajor ((l, h) :: b) (Grid.incrementHead (x :: Rect.lo b)) < rowLo)) := by
      simp only [skipCond, inBulk_exact hlo hup h1 h2, Option.bind_eq_bind, Option.bind_some]
      by_cases c1 : Stencil.inBulk ((l, h) :: b) lower upper (x :: Rect.lo b) = true
      · rw [if_pos c1, ev_fits (int64_fits (by omega) (by omega))]
        simp only [Option.bind_some]
        by_cases c2 : k + size < matLo
        · rw [if_pos c2, hinc]
          simp only [Option.bind_some, hlin, Grid.incrementHead, c1, c2, true_and]
          rfl
        · rw [if_neg c2]; simp [c2]
      · rw [if_neg c1]; simp [c1]
    unfold Stencil.bulkSkip
    simp only [bulkSkip, hcond, Option.bind_eq_bind, Option.bind_some]
    by_cases c : Stencil.inBulk ((l, h) :: b) lower upper (x :: Rect.lo b) = true ∧ k + size < matLo ∧
          linearizeRowMajor ((l, h) :: b) (Grid.incrementHead (x :: Rect.lo b)) < rowLo
    · rw [if_pos c, if_pos (by simpa using c), hinc, ev_fits (int64_fits (by omega) (by omega))]
      simp only [Option.bind_some]
      have hxh : x < h := by
        have c3 := c.2.2
        have e : Grid.incrementHead (x :: Rect.lo b) = (x + 1) :: Rect.lo b := rfl
        rw [e, linRM_cons l h _ b _ hb hbox.length_eq, linRM_lo] at c3
        rw [volume_cons hlh] at hrow
        have hvp : (0 : Int) < Rect.volume b := by exact_mod_cast volume_pos hb
        by_contra hc
        have : x = h := by omega
        subst this
        have e2 : (0 : Int) + Rect.volume b * (x + 1 - l) = Rect.volume b * (x - l + 1) := by ring
        rw [e2] at c3
        omega
      obtain ⟨x', k', e1, e2, e3, e4, e5, e6⟩ := ih (x + 1) (k + size) (by omega) (by omega) (by omega) (by omega)
        (by push_cast at hf; omega)
      refine ⟨x', k', e1, e2, by omega, e4, by omega, ?_⟩
      right
      rcases e6 with ⟨-, rfl⟩ | e6
      · exact c.2.1
      · exact e6
    · rw [if_neg c, if_neg (by simpa using c)]
      exact ⟨x, k, rfl, rfl, le_refl _, h2, le_refl _, Or.inl ⟨rfl, rfl⟩⟩

theorem bulkPrologue_exact (hb : Grid.Nonempty b) (hv : (Rect.volume ((l, h) :: b) : Int) ≤ t.max)
    (hside : t.Fits l ∧ t.Fits (h + 1)) (hlo : t.Fits (l + lower) ∧ t.Fits (h + lower))
    (hup : t.Fits (l + upper) ∧ t.Fits (h + upper)) (dom rdom : Dom1) {M n : Int} (hn : 0 ≤ n) (hM : 2 * M ≤ int64.max)
    (hmM : dom.lo + Rect.volume ((l, h) :: b) * n ≤ M) (hrow : rdom.lo ≤ Rect.volume ((l, h) :: b)) (fuel : Nat) (s : BulkState E)
    (x : Int) (p : Point) (hp : InBox ((l, h) :: b) (x :: p)) (h0 : 0 ≤ s.origin) (h1 : s.origin ≤ s.st.kernelIndex)
    (hk : s.st.kernelIndex + (Rect.volume ((l, h) :: b) - linearizeRowMajor ((l, h) :: b) (x :: p)) * n ≤ M)
    (hf : (Rect.volume ((l, h) :: b) : Int) - linearizeRowMajor ((l, h) :: b) (x :: p) ≤ fuel) :
    ∃ x' s', Stencil.bulkPrologue ((l, h) :: b) lower upper dom rdom s (x :: p) = (s', x' :: p) ∧
      bulkPrologue t fuel ((l, h) :: b) lower upper dom rdom s (x :: p) = some (s', x' :: p) ∧ x ≤ x' ∧ x' ≤ h ∧
      0 ≤ s'.origin ∧ s'.origin ≤ s'.st.kernelIndex ∧
      s'.st.kernelIndex + (Rect.volume ((l, h) :: b) - linearizeRowMajor ((l, h) :: b) (x' :: p)) * n ≤ M := by
  have hlin := linRM_bounds _ _ hp
  have hpos : 0 ≤ ((Rect.volume ((l, h) :: b) : Int) - linearizeRowMajor ((l, h) :: b) (x :: p)) * n :=
    mul_nonneg (by omega) hn
  have hposV : 0 ≤ (Rect.volume ((l, h) :: b) : Int) * n := mul_nonneg (by omega) hn
  obtain ⟨hx, hp'⟩ := List.forall₂_cons.1 hp
  simp only at hx
  unfold Stencil.bulkPrologue bulkPrologue
  by_cases ht : tailEqual (x :: p) (Rect.lo ((l, h) :: b)) = true
  · rw [if_pos ht, if_pos ht]
    have hpe : p = Rect.lo b := by simpa [tailEqual, Rect.lo] using ht
    subst hpe
    by_cases hfd : s.found = true
    · simp only [hfd, if_true, Option.bind_eq_bind]
      rw [ev_fits (int64_fits (by omega) (by omega))]
      simp only [Option.bind_some]
      have hfx : h + 1 - x ≤ fuel := by
        refine le_trans ?_ hf
        rw [linRM_cons l h _ b _ hb hp'.length_eq, linRM_lo, volume_cons (by omega)]
        have hvp : (1 : Int) ≤ Rect.volume b := by exact_mod_cast volume_pos hb
        have e : (Rect.volume b : Int) * (h - l + 1) - (0 + Rect.volume b * (x - l)) = Rect.volume b * (h + 1 - x) := by ring
        rw [e]
        exact le_mul_of_one_le_left (by omega) hvp
      obtain ⟨x', k', e1, e2, e3, e4, e5, e6⟩ := bulkSkip_exact (t := t) hb (by omega) hv hside hlo hup
        (size := s.st.kernelIndex - s.origin) (matLo := dom.lo) (rowLo := rdom.lo) (M := M) (by omega) (by omega) (by omega) hM hrow
        fuel x s.st.kernelIndex hx.1 hx.2 (by omega) (by omega) hfx
      rw [e1, e2]
      simp only [Option.bind_some, Bool.not_true, Bool.false_and, Bool.false_eq_true, if_false]
      refine ⟨x', _, rfl, rfl, e3, e4, h0, by simp only []; omega, ?_⟩
      simp only []
      rcases e6 with ⟨rfl, rfl⟩ | e6
      · exact hk
      · have hbox' : InBox ((l, h) :: b) (x' :: Rect.lo b) := List.Forall₂.cons ⟨by simp only; omega, e4⟩ hp'
        have hl' := linRM_bounds _ _ hbox'
        have : ((Rect.volume ((l, h) :: b) : Int) - linearizeRowMajor ((l, h) :: b) (x' :: Rect.lo b)) * n ≤
            Rect.volume ((l, h) :: b) * n := mul_le_mul_of_nonneg_right (by omega) hn
        omega
    · have hfd' : s.found = false := by simpa using hfd
      simp only [hfd', Bool.false_eq_true, if_false, Option.bind_eq_bind, Option.pure_def, Option.bind_some, Bool.not_false, Bool.true_and]
      rw [inBulk_exact hlo hup hx.1 hx.2]
      simp only [Option.bind_some]
      by_cases hbk : Stencil.inBulk ((l, h) :: b) lower upper (x :: Rect.lo b) = true
      · rw [if_pos hbk, if_pos hbk]
        exact ⟨x, _, rfl, rfl, le_refl _, hx.2, by simp only []; omega, le_refl _, hk⟩
      · rw [if_neg hbk, if_neg hbk]
        exact ⟨x, _, rfl, rfl, le_refl _, hx.2, h0, h1, hk⟩
  · rw [if_neg ht, if_neg ht]
    exact ⟨x, s, rfl, rfl, le_refl _, hx.2, h0, h1, hk⟩

theorem bulkLoop_exact {offs : List (Point × E)} (hr : Representable t ((l, h) :: b) offs) (hb : Grid.Nonempty b)
    (hv : (Rect.volume ((l, h) :: b) : Int) ≤ t.max)
    (hlo : t.Fits (l + lower) ∧ t.Fits (h + lower))
    (hup : t.Fits (l + upper) ∧ t.Fits (h + upper)) (dom rdom : Dom1) {M : Int} (hM : 2 * M ≤ int64.max)
    (hmM : dom.lo + Rect.volume ((l, h) :: b) * offs.length ≤ M) (hrow : rdom.lo ≤ Rect.volume ((l, h) :: b)) (fuel : Nat)
    (s : BulkState E) (p : Point) (hp : InBox ((l, h) :: b) p) (h0 : 0 ≤ s.origin) (h1 : s.origin ≤ s.st.kernelIndex)
    (hk : s.st.kernelIndex + (Rect.volume ((l, h) :: b) - linearizeRowMajor ((l, h) :: b) p) * offs.length ≤ M)
    (hf : (Rect.volume ((l, h) :: b) : Int) - linearizeRowMajor ((l, h) :: b) p ≤ fuel) :
    bulkLoop t ((l, h) :: b) offs lower upper dom rdom fuel s p =
      Stencil.bulkLoop ((l, h) :: b) offs lower upper dom rdom fuel s p := by
  induction fuel generalizing s p with
  | zero => rfl
  | succ fuel ih =>
    have hsd0 := hr.side (l, h) (by simp)
    have hsd : t.Fits l ∧ t.Fits (h + 1) := ⟨hsd0.1, hsd0.2.1⟩
    obtain ⟨x, p, rfl⟩ : ∃ x q, p = x :: q := by cases hp; exact ⟨_, _, rfl⟩
    obtain ⟨x', s', e1, e2, e3, e4, e5, e6, e7⟩ := bulkPrologue_exact (t := t) hb hv hsd hlo hup dom rdom (n := offs.length)
      (by omega) hM hmM hrow (fuel + 1) s x p hp h0 h1 hk hf
    obtain ⟨hx, hp'⟩ := List.forall₂_cons.1 hp
    simp only at hx
    have hbox : InBox ((l, h) :: b) (x' :: p) := List.Forall₂.cons ⟨by simp only; omega, e4⟩ hp'
    have hlin := linRM_bounds _ _ hbox
    have hn1 : (offs.length : Int) ≤ (Rect.volume ((l, h) :: b) - linearizeRowMajor ((l, h) :: b) (x' :: p)) * offs.length :=
      le_mul_of_one_le_left (by omega) (by omega)
    have hlM : linearize t .rowMajor ((l, h) :: b) (x' :: p) = some (Grid.linearize .rowMajor ((l, h) :: b) (x' :: p)) :=
      c43_linearize t _ _ _ hbox hv
    have hlM2 : Grid.linearize .rowMajor ((l, h) :: b) (x' :: p) = linearizeRowMajor ((l, h) :: b) (x' :: p) := rfl
    obtain ⟨r1, r2, r3, r4⟩ := linCsrRow_exact .rowMajor dom rdom hv hbox hr s'.st (by omega) (by omega)
    have hmono : linearizeRowMajor ((l, h) :: b) (x :: p) ≤ linearizeRowMajor ((l, h) :: b) (x' :: p) := by
      rw [linRM_cons l h _ b _ hb hp'.length_eq, linRM_cons l h _ b _ hb hp'.length_eq]
      have : (Rect.volume b : Int) * (x - l) ≤ Rect.volume b * (x' - l) := mul_le_mul_of_nonneg_left (by omega) (by omega)
      omega
    rw [hlM2] at r1
    simp only [bulkLoop, Stencil.bulkLoop, e1, e2, hlM, Option.bind_eq_bind, Option.bind_some, hlM2, r1]
    by_cases hbr : (Stencil.linCsrRowStep .rowMajor ((l, h) :: b) offs dom rdom s'.st (x' :: p)).kernelIndex > dom.hi ∧
        linearizeRowMajor ((l, h) :: b) (x' :: p) > rdom.hi
    · rw [if_pos hbr, if_pos hbr]; rfl
    · rw [if_neg hbr, if_neg hbr, incRM_exact hbox (hr.sides (nonempty_of_inBox hbox))]
      simp only [Option.bind_some]
      rcases hinc : Grid.incrementRowMajor ((l, h) :: b) (x' :: p) with ⟨r, q⟩
      cases r with
      | false => rfl
      | true =>
        simp only []
        obtain ⟨hq, hlq⟩ := incRM_true hbox hinc
        refine ih _ q hq e5 (by simp only []; omega) ?_ ?_
        · simp only []
          rw [hlq]
          have e : ((Rect.volume ((l, h) :: b) : Int) - (linearizeRowMajor ((l, h) :: b) (x' :: p) + 1)) * offs.length =
            (Rect.volume ((l, h) :: b) - linearizeRowMajor ((l, h) :: b) (x' :: p)) * offs.length - offs.length := by ring
          rw [e]
          omega
        · rw [hlq]; push_cast at hf; omega

end

/-- **C78**, linearised CSR fill task: the number of points fits the coordinate type, four times the number of points times the number
of offsets fits `coord_t`, and the task's pieces begin where Legion's pieces of these spaces begin (not after their ends). -/
theorem c78_fill_lin_csr (t : CType) (sort : List (Point × E) → List (Point × E)) (o : IndexOrder) (b : Rect)
    (offs : List (Point × E)) (hb0 : b ≠ []) (hsort : (sort offs).Perm offs) (hr : Representable t b offs) (hb : Grid.Nonempty b)
    (hv : (Rect.volume b : Int) ≤ t.max) (hk : 4 * (Rect.volume b * offs.length + 1 : Nat) ≤ int64.max) (dom rdom : Dom1)
    (hdom : dom.lo ≤ (Rect.volume b * offs.length + 1 : Nat)) (hrdom : rdom.lo ≤ Rect.volume b) (fuel : Nat)
    (hf : Rect.volume b ≤ fuel) (col : Int → Option Int) (entry : Int → Option E) (rp : Int → Option (Int × Int)) :
    fillLinCSR t sort o b offs dom rdom fuel col entry rp = Stencil.fillLinCSR sort o b offs dom rdom fuel col entry rp := by
  have hr' := hr.perm hsort
  cases o with
  | columnMajor =>
    unfold fillLinCSR Stencil.fillLinCSR
    simp only []
    rw [doWhile_points_m .columnMajor hb (hr.sides hb) _ _ _ hf, doWhile_points .columnMajor b hb _ _ _ hf]
    refine (foldlM_exact (k := fun s : CSRState Int Int E => s.kernelIndex) (c := offs.length) (M := int64.max) (by omega) _ ?_ _
      (le_refl 0) ?_).1
    · intro p hp s h0 h1
      have hbox := (mem_pointsOf .columnMajor b p).1 hp
      obtain ⟨e1, e2, e3, -⟩ := linCsrRow_exact .columnMajor dom rdom hv hbox hr' s h0
        (by rw [hsort.length_eq]; omega)
      rw [hsort.length_eq] at e3
      rw [c43_linearize t _ _ _ hbox hv]
      exact ⟨e1, e2, e3⟩
    · rw [length_pointsOf]; push_cast at hk ⊢; simp only [zero_add]; omega
  | rowMajor =>
    obtain ⟨⟨l, h⟩, b, rfl⟩ : ∃ lh c, b = lh :: c := by
      cases b with
      | nil => exact absurd rfl hb0
      | cons lh c => exact ⟨lh, c, rfl⟩
    have hsd0 := hr.side (l, h) (by simp)
    have hsd : t.Fits l ∧ t.Fits (h + 1) := ⟨hsd0.1, hsd0.2.1⟩
    have hlh := hb (l, h) (by simp)
    simp only at hlh
    have hP := leading_pred (fun d => t.Fits (l + d) ∧ t.Fits (h + d))
      ⟨by simpa using hsd.1, by simpa using fits_between hsd.1 hsd.2 hlh (by omega)⟩ (sort offs) (by
        intro oe ho
        have := hr'.shift oe ho
        cases e : oe.1 with
        | nil => rw [e] at this; cases this
        | cons y q =>
          rw [e] at this
          obtain ⟨h1, -⟩ := List.forall₂_cons.1 this
          exact ⟨h1.1, h1.2.1⟩)
    unfold fillLinCSR Stencil.fillLinCSR
    simp only []
    congr 1
    have hlo : linearizeRowMajor ((l, h) :: b) (Rect.lo ((l, h) :: b)) = 0 := linRM_lo _
    refine bulkLoop_exact hr' (nonempty_tail hb) hv hP.1 hP.2 dom rdom
      (M := 2 * (Rect.volume ((l, h) :: b) * offs.length + 1 : Nat)) (by omega) ?_ hrdom fuel _ _ (inBox_lo hb) (le_refl _) (le_refl _) ?_ ?_
    · rw [hsort.length_eq]; push_cast at hdom ⊢; omega
    · rw [hlo, hsort.length_eq]; push_cast; simp only [zero_add, sub_zero]
      have : (0 : Int) ≤ Rect.volume ((l, h) :: b) * offs.length := mul_nonneg (by omega) (by omega)
      omega
    · rw [hlo]; omega

end Verif.Machine
