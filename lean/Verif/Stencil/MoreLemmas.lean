import Verif.Stencil.BulkLemmas
/- Further helper lemmas for the stencil properties. -/
namespace Verif.Stencil
open Verif.Grid

variable {E : Type _}

theorem stencilEntries_perm (b : Rect) {offs offs' : List (Point × E)} (hp : offs'.Perm offs) (ps : List Point) :
    (stencilEntries b offs' ps).Perm (stencilEntries b offs ps) := by
  induction ps with
  | nil => exact List.Perm.refl _
  | cons p ps ih =>
    simp only [stencilEntries, List.flatMap_cons] at ih ⊢
    exact (hp.filterMap _).append ih

theorem mem_rowEntries_row {b : Rect} {offs : List (Point × E)} {p : Point} {e : Point × Point × E}
    (h : e ∈ rowEntries b offs p) : e.1 = p := by
  unfold rowEntries at h
  rw [List.mem_filterMap] at h
  obtain ⟨oe, _, he⟩ := h
  split at he
  · simp only [Option.some.injEq] at he; rw [← he]
  · simp at he

theorem mem_stencilEntries_row {b : Rect} {offs : List (Point × E)} {ps : List Point} {e : Point × Point × E}
    (h : e ∈ stencilEntries b offs ps) : e.1 ∈ ps := by
  unfold stencilEntries at h
  rw [List.mem_flatMap] at h
  obtain ⟨p, hp, he⟩ := h
  rw [mem_rowEntries_row he]; exact hp

/-- kernel index at which row `i` of the enumeration starts -/
def rowStart (b : Rect) (offs : List (Point × E)) (ps : List Point) (i : Nat) : Nat :=
  (stencilEntries b offs (ps.take i)).length

theorem rowStart_succ (b : Rect) (offs : List (Point × E)) (ps : List Point) (i : Nat) (hi : i < ps.length) :
    rowStart b offs ps (i + 1) = rowStart b offs ps i + (rowEntries b offs ps[i]).length := by
  unfold rowStart
  rw [List.take_succ_eq_append_getElem hi, stencilEntries_snoc, List.length_append]

theorem rowStart_mono (b : Rect) (offs : List (Point × E)) (ps : List Point) {i j : Nat} (hij : i ≤ j) :
    rowStart b offs ps i ≤ rowStart b offs ps j := by
  unfold rowStart
  obtain ⟨c, rfl⟩ := Nat.exists_eq_add_of_le hij
  rw [List.take_add, stencilEntries_append, List.length_append]
  omega

theorem rowStart_le (b : Rect) (offs : List (Point × E)) (ps : List Point) (i : Nat) :
    rowStart b offs ps i ≤ (stencilEntries b offs ps).length := by
  unfold rowStart
  conv => rhs; rw [← List.take_append_drop i ps, stencilEntries_append, List.length_append]
  omega

/-- the kernel indices between the start of row `i` and the start of the next row are exactly those of row `i` -/
theorem rowStart_iff (b : Rect) (offs : List (Point × E)) (ps : List Point) (hn : ps.Nodup) (i : Nat)
    (hi : i < ps.length) (k : Nat) (hk : k < (stencilEntries b offs ps).length) :
    (rowStart b offs ps i ≤ k ∧ k < rowStart b offs ps (i + 1)) ↔ (stencilEntries b offs ps)[k].1 = ps[i] := by
  have hsplit : ps = ps.take i ++ (ps[i] :: ps.drop (i + 1)) := by simp
  have hes : stencilEntries b offs ps = stencilEntries b offs (ps.take i) ++
      (rowEntries b offs ps[i] ++ stencilEntries b offs (ps.drop (i + 1))) := by
    conv => lhs; rw [hsplit]
    rw [stencilEntries_append]; rfl
  have hnd := hn
  rw [hsplit, List.nodup_append] at hnd
  obtain ⟨_, hn2, hn3⟩ := hnd
  rw [List.nodup_cons] at hn2
  have hL : rowStart b offs ps i = (stencilEntries b offs (ps.take i)).length := rfl
  have hR := rowStart_succ b offs ps i hi
  have get1 : ∀ h : k < rowStart b offs ps i, (stencilEntries b offs ps)[k].1 ≠ ps[i] := by
    intro h e
    have h2 : (stencilEntries b offs ps)[k] ∈ stencilEntries b offs (ps.take i) := by
      have : (stencilEntries b offs ps)[k]? = (stencilEntries b offs (ps.take i))[k]? := by
        rw [hes, List.getElem?_append_left (by omega)]
      rw [List.getElem?_eq_getElem hk] at this
      exact List.mem_of_getElem? this.symm
    have h3 := mem_stencilEntries_row h2
    rw [e] at h3
    exact hn3 _ h3 _ List.mem_cons_self rfl
  have get2 : ∀ h : rowStart b offs ps i ≤ k, k < rowStart b offs ps (i + 1) →
      (stencilEntries b offs ps)[k].1 = ps[i] := by
    intro h h1
    have h2 : (stencilEntries b offs ps)[k] ∈ rowEntries b offs ps[i] := by
      have : (stencilEntries b offs ps)[k]? = (rowEntries b offs ps[i])[k - rowStart b offs ps i]? := by
        rw [hes, List.getElem?_append_right (by omega), List.getElem?_append_left (by omega), hL]
      rw [List.getElem?_eq_getElem hk] at this
      exact List.mem_of_getElem? this.symm
    exact mem_rowEntries_row h2
  have get3 : ∀ h : rowStart b offs ps (i + 1) ≤ k, (stencilEntries b offs ps)[k].1 ≠ ps[i] := by
    intro h e
    have h2 : (stencilEntries b offs ps)[k] ∈ stencilEntries b offs (ps.drop (i + 1)) := by
      have : (stencilEntries b offs ps)[k]? =
          (stencilEntries b offs (ps.drop (i + 1)))[k - rowStart b offs ps i - (rowEntries b offs ps[i]).length]? := by
        rw [hes, List.getElem?_append_right (by omega), List.getElem?_append_right (by omega), hL]
      rw [List.getElem?_eq_getElem hk] at this
      exact List.mem_of_getElem? this.symm
    have h3 := mem_stencilEntries_row h2
    rw [e] at h3
    exact hn2.1 h3
  constructor
  · rintro ⟨h1, h2⟩; exact get2 h1 h2
  · intro e
    refine ⟨?_, ?_⟩
    · by_contra h; exact get1 (by omega) e
    · by_contra h; exact get3 (by omega) e

theorem place_apply {V W : Type _} (init : Int → Option W) (D : Int → Bool) (es : List V) (f : V → W) (k : Int) :
    place init D (es.map f) k = if D k = true ∧ 0 ≤ k ∧ k < es.length then (es[k.toNat]?).map f else init k := by
  unfold place
  simp

theorem offset_length_of_perm {n : Nat} {offs offs' : List (Point × E)} (hp : offs'.Perm offs)
    (h : ∀ o ∈ offs, o.1.length = n) : ∀ o ∈ offs', o.1.length = n :=
  fun o ho => h o (hp.mem_iff.1 ho)

/-! ### unconditional termination of the bulk loop -/

theorem bulkSkip_shape (b : Rect) (lower upper size matLo rowLo : Int) (hu : 0 ≤ upper) (n : Nat) (x k : Int) (t : Point)
    (hn : n = (headCoord (Rect.hi b) + 1 - x).toNat) :
    ∃ x' k', bulkSkip b lower upper size matLo rowLo (x :: t) k = (x' :: t, k') ∧ x ≤ x' ∧
      x' ≤ max x (headCoord (Rect.hi b) + 1) := by
  induction n using Nat.strongRecOn generalizing x k with
  | ind n ih =>
    unfold bulkSkip
    split
    · rename_i hc
      have h1 := hc.1
      rw [inBulk, Bool.and_eq_true] at h1
      have h2 := of_decide_eq_true h1.2
      change x + upper ≤ _ at h2
      obtain ⟨x', k', e, h3, h4⟩ := ih (headCoord (Rect.hi b) + 1 - (x + 1)).toNat (by omega) (x + 1) (k + size) rfl
      exact ⟨x', k', e, by omega, by omega⟩
    · exact ⟨x, k, rfl, le_refl _, le_max_left _ _⟩

theorem bulkPrologue_shape (b : Rect) (lower upper : Int) (dom rdom : Dom1) (hu : 0 ≤ upper) (s : BulkState E) (x : Int)
    (t : Point) :
    ∃ x', (bulkPrologue b lower upper dom rdom s (x :: t)).2 = x' :: t ∧ x ≤ x' ∧
      x' ≤ max x (headCoord (Rect.hi b) + 1) ∧
      (bulkPrologue b lower upper dom rdom s (x :: t)).1.st.col = s.st.col ∧
      (bulkPrologue b lower upper dom rdom s (x :: t)).1.st.entry = s.st.entry ∧
      (bulkPrologue b lower upper dom rdom s (x :: t)).1.st.rowptr = s.st.rowptr := by
  have hx : x ≤ max x (headCoord (Rect.hi b) + 1) := le_max_left _ _
  unfold bulkPrologue
  split
  · by_cases hf : s.found = true
    · obtain ⟨x', k', e, h1, h2⟩ := bulkSkip_shape b lower upper (s.st.kernelIndex - s.origin) dom.lo rdom.lo hu _ x
        s.st.kernelIndex t rfl
      simp only [hf, if_true, e]
      exact ⟨x', rfl, h1, h2, rfl, rfl, rfl⟩
    · have hf' : s.found = false := by simpa using hf
      simp only [hf', Bool.false_eq_true, if_false]
      by_cases hi : inBulk b lower upper (x :: t) = true
      · simp only [hi]; exact ⟨x, rfl, le_refl _, hx, rfl, rfl, rfl⟩
      · simp only [hi]; exact ⟨x, rfl, le_refl _, hx, rfl, rfl, rfl⟩
  · exact ⟨x, rfl, le_refl _, hx, rfl, rfl, rfl⟩

/-- the loop with fast-forward and early exit stops on every grid, also one with empty sides; `M` bounds the leading
coordinate -/
theorem bulkLoop_terminates (l h M : Int) (hM : h ≤ M) (b : Rect) (offs : List (Point × E)) (lower upper : Int)
    (hu : 0 ≤ upper) (dom rdom : Dom1) (fuel : Nat) (s : BulkState E) (x : Int) (t : Point) (ht : InBox (clamp b) t)
    (hx : x ≤ M + 1)
    (hfuel : (M + 2 - x) * Rect.volume (clamp b) - linearizeRowMajor (clamp b) t ≤ fuel) :
    ∃ s', bulkLoop ((l, h) :: b) offs lower upper dom rdom fuel s (x :: t) = some s' := by
  have hv := volume_pos (clamp_nonempty b)
  induction fuel generalizing s x t with
  | zero =>
    exfalso
    have h1 := (linRM_bounds (clamp b) t ht).2
    have h2 : (1 : Int) * Rect.volume (clamp b) ≤ (M + 2 - x) * Rect.volume (clamp b) :=
      mul_le_mul_of_nonneg_right (by omega) (by omega)
    push_cast at hfuel
    omega
  | succ fuel ih =>
    obtain ⟨x', hp, h1, h2, -⟩ := bulkPrologue_shape ((l, h) :: b) lower upper dom rdom hu s x t
    change x' ≤ max x (h + 1) at h2
    have h2' : x' ≤ M + 1 := by omega
    unfold bulkLoop
    simp only [hp]
    have hmul : (M + 2 - x') * Rect.volume (clamp b) ≤ (M + 2 - x) * (Rect.volume (clamp b) : Int) :=
      mul_le_mul_of_nonneg_right (by omega) (by omega)
    split
    · exact ⟨_, rfl⟩
    · rw [incrementRowMajor, incRM_clamp b t ht]
      rcases e : incrementRowMajor (clamp b) t with ⟨r, t'⟩
      cases r with
      | true =>
        obtain ⟨q1, q2⟩ := incRM_true ht e
        simp only []
        apply ih _ _ _ q1 h2'
        rw [q2]
        push_cast at hfuel
        omega
      | false =>
        obtain ⟨q1, q2⟩ := incRM_false ht e
        by_cases hx' : x' ≥ h
        · simp only [hx', if_true]; exact ⟨_, rfl⟩
        · simp only [hx', if_false]
          have hlo := inBox_lo (clamp_nonempty b)
          rw [q2]
          apply ih _ _ _ hlo (by omega)
          rw [linRM_lo]
          have h3 := (linRM_bounds (clamp b) t ht).2
          have h4 : (M + 2 - (x' + 1)) * Rect.volume (clamp b) =
              (M + 2 - x') * (Rect.volume (clamp b) : Int) - Rect.volume (clamp b) := by
            ring
          push_cast at hfuel
          omega

theorem csrOffset_fold_nothing {R C : Type _} (b : Rect) (D : Int → Bool) (hD : ∀ j, D j = false) (g : Point → C)
    (p : Point) (offs : List (Point × E)) (s : CSRState R C E) :
    (offs.foldl (csrOffsetStep b D g p) s).col = s.col ∧ (offs.foldl (csrOffsetStep b D g p) s).entry = s.entry ∧
      (offs.foldl (csrOffsetStep b D g p) s).rowptr = s.rowptr := by
  induction offs generalizing s with
  | nil => exact ⟨rfl, rfl, rfl⟩
  | cons oe offs ih =>
    rw [List.foldl_cons]
    obtain ⟨h1, h2, h3⟩ := ih (csrOffsetStep b D g p s oe)
    rw [h1, h2, h3]
    unfold csrOffsetStep
    simp only [hD]
    split <;> exact ⟨rfl, rfl, rfl⟩

/-- with empty pieces nothing is written -/
theorem bulkLoop_nothing (l h : Int) (b : Rect) (offs : List (Point × E)) (lower upper : Int) (hu : 0 ≤ upper)
    (dom rdom : Dom1) (hd : ∀ j, dom.contains j = false) (hr : ∀ j, rdom.contains j = false) (fuel : Nat)
    (s s' : BulkState E) (x : Int) (t : Point)
    (hrun : bulkLoop ((l, h) :: b) offs lower upper dom rdom fuel s (x :: t) = some s') :
    SameFields s'.st s.st := by
  induction fuel generalizing s x t with
  | zero => simp [bulkLoop] at hrun
  | succ fuel ih =>
    obtain ⟨x', hp, -, -, c1, c2, c3⟩ := bulkPrologue_shape ((l, h) :: b) lower upper dom rdom hu s x t
    have step : SameFields (linCsrRowStep .rowMajor ((l, h) :: b) offs dom rdom
        (bulkPrologue ((l, h) :: b) lower upper dom rdom s (x :: t)).1.st (x' :: t)) s.st := by
      unfold linCsrRowStep SameFields
      simp only [hr]
      obtain ⟨g1, g2, g3⟩ := csrOffset_fold_nothing ((l, h) :: b) dom.contains hd
        (linearize .rowMajor ((l, h) :: b)) (x' :: t) offs
        (bulkPrologue ((l, h) :: b) lower upper dom rdom s (x :: t)).1.st
      exact ⟨g1.trans c1, g2.trans c2, g3.trans c3⟩
    unfold bulkLoop at hrun
    simp only [hp] at hrun
    split at hrun
    · simp only [Option.some.injEq] at hrun
      rw [← hrun]
      exact step
    · rw [incrementRowMajor] at hrun
      rcases e : incrementRowMajor b t with ⟨r, t'⟩
      rw [e] at hrun
      cases r with
      | true =>
        have := ih _ x' t' hrun
        exact ⟨this.1.trans step.1, this.2.1.trans step.2.1, this.2.2.trans step.2.2⟩
      | false =>
        by_cases hx' : x' ≥ h
        · simp only [hx', if_true, Option.some.injEq] at hrun
          rw [← hrun]
          exact step
        · simp only [hx', if_false] at hrun
          have := ih _ (x' + 1) t' hrun
          exact ⟨this.1.trans step.1, this.2.1.trans step.2.1, this.2.2.trans step.2.2⟩

/-! ### closed form of the size -/

/-- number of grid points `p` with `p + o` still in the grid: product over the sides of `max 0 (length - |offset|)` -/
def overlap : Rect → Point → Nat
  | (l, h) :: b, y :: o => ((h - l + 1).toNat - y.natAbs) * overlap b o
  | _, _ => 1

theorem pairCount_add (b : Rect) (o : Point × E) (os : List (Point × E)) :
    pairCount b (o :: os) = pairCount b [o] + pairCount b os := by
  unfold pairCount
  generalize points b = ps
  induction ps with
  | nil => rfl
  | cons p ps ih =>
    simp only [List.map_cons, List.sum_cons, List.countP_cons, List.countP_nil] at ih ⊢
    omega

theorem pairCount_single (b : Rect) (o : Point) (e : E) (ho : o.length = b.length) :
    pairCount b [(o, e)] = overlap b o := by
  induction b generalizing o with
  | nil =>
    cases o with
    | nil => simp [pairCount, points, overlap, addPoint, Rect.contains]
    | cons _ _ => simp at ho
  | cons lh b ih =>
    obtain ⟨l, h⟩ := lh
    cases o with
    | nil => simp at ho
    | cons y o =>
      rw [pairCount_cons l h b _ (by intro a ha; simp only [List.mem_singleton] at ha; subst ha; simpa using ho)]
      have hs : ∀ x : Int, pairCount b (subOffsets l h x [(y :: o, e)]) =
          if decide (l - y ≤ x) && decide (x ≤ h - y) then overlap b o else 0 := by
        intro x
        unfold subOffsets
        by_cases hc : l ≤ x + y ∧ x + y ≤ h
        · rw [List.filterMap_cons_some (by change (if l ≤ x + y ∧ x + y ≤ h then _ else _) = _; rw [if_pos hc])]
          rw [if_pos (by simp; omega)]
          exact ih o (by simpa using ho)
        · rw [List.filterMap_cons_none (by change (if l ≤ x + y ∧ x + y ≤ h then _ else _) = _; rw [if_neg hc])]
          rw [if_neg (by simp; intro h1; omega)]
          simp [pairCount]
      simp only [hs]
      have hsum : ∀ (xs : List Int) (P : Int → Bool) (c : Nat),
          (xs.map fun x => if P x then c else 0).sum = xs.countP P * c := by
        intro xs P c
        induction xs with
        | nil => simp
        | cons a xs ihx =>
          simp only [List.map_cons, List.sum_cons, List.countP_cons, ihx]
          by_cases hP : P a = true
          · simp [hP]; ring
          · simp [hP]
      rw [hsum, countP_irange, overlap]
      congr 1
      omega

end Verif.Stencil
