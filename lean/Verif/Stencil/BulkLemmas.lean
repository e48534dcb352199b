import Verif.Stencil.CSRLemmas
/- The fast-forwarding loop of the linearised CSR fill refines plain enumeration. -/
namespace Verif.Stencil
open Verif.Grid

variable {E : Type _}

theorem leadingDimensionBounds_eq (offs : List (Point × E)) :
    leadingDimensionBounds offs = (minOffset offs, maxOffset offs) := by
  have gen : ∀ (offs : List (Point × E)) (a c : Int),
      offs.foldl (fun acc o => leadingStep acc (headCoord o.1)) (a, c) =
        (offs.foldl (fun m o => min m (headCoord o.1)) a, offs.foldl (fun m o => max m (headCoord o.1)) c) := by
    intro offs
    induction offs with
    | nil => intros; rfl
    | cons o os ih =>
      intro a c
      simp only [List.foldl_cons]
      have : leadingStep (a, c) (headCoord o.1) = (min a (headCoord o.1), max c (headCoord o.1)) := by
        unfold leadingStep
        simp only [Prod.mk.injEq]
        constructor
        · by_cases h : headCoord o.1 < a
          · rw [if_pos h]; omega
          · rw [if_neg h]; omega
        · by_cases h : headCoord o.1 > c
          · rw [if_pos h]; omega
          · rw [if_neg h]; omega
      rw [this, ih]
  exact gen offs 0 0

theorem irange_split (s : Int) (a c : Nat) : irange s (a + c) = irange s a ++ irange (s + a) c := by
  induction a generalizing s with
  | zero => simp [irange]
  | succ a iha =>
    rw [show a + 1 + c = (a + c) + 1 by omega, irange, irange, iha (s + 1)]
    simp only [List.cons_append, List.cons.injEq, true_and]
    congr 2
    push_cast; ring

section
variable (l h : Int) (b : Rect)

/-- all points of the first `i` slices -/
def slices (i : Nat) : List Point := (irange l i).flatMap fun x => (points b).map (x :: ·)

theorem slices_succ (i : Nat) : slices l b (i + 1) = slices l b i ++ (points b).map ((l + i) :: ·) := by
  unfold slices
  rw [irange_split l i 1, List.flatMap_append]
  simp [irange]

theorem slices_length (i : Nat) : (slices l b i).length = i * Rect.volume b := by
  induction i with
  | zero => simp [slices, irange]
  | succ i ih => rw [slices_succ, List.length_append, ih, List.length_map, length_points]; ring

theorem slices_all : slices l b (h - l + 1).toNat = points ((l, h) :: b) := rfl

theorem slices_take (i : Nat) (hi : i ≤ (h - l + 1).toNat) :
    (points ((l, h) :: b)).take (i * Rect.volume b) = slices l b i := by
  rw [← slices_all l h b]
  obtain ⟨c, hc⟩ := Nat.exists_eq_add_of_le hi
  rw [hc]
  have : slices l b (i + c) = slices l b i ++ (irange (l + i) c).flatMap fun x => (points b).map (x :: ·) := by
    unfold slices
    rw [irange_split, List.flatMap_append]
  rw [this, ← slices_length l b i, List.take_left]

variable (offs : List (Point × E))

/-- kernel index at which slice `i` starts -/
def sliceK (i : Nat) : Nat := (stencilEntries ((l, h) :: b) offs (slices l b i)).length

/-- number of entries in the slice at leading coordinate `x` -/
def sliceCount (x : Int) : Nat := pairCount b (subOffsets l h x offs)

theorem sliceK_succ (i : Nat) (ho : ∀ o ∈ offs, o.1.length = b.length + 1) :
    sliceK l h b offs (i + 1) = sliceK l h b offs i + sliceCount l h b offs (l + i) := by
  unfold sliceK
  rw [slices_succ, stencilEntries_append, List.length_append]
  congr 1
  rw [stencilEntries_length, sliceCount, pairCount, List.map_map]
  congr 1
  apply List.map_congr_left
  intro p _
  exact countP_cons_sub l h (l + i) b p offs ho

theorem sliceK_mono (i j : Nat) (hij : i ≤ j) (ho : ∀ o ∈ offs, o.1.length = b.length + 1) :
    sliceK l h b offs i ≤ sliceK l h b offs j := by
  induction hij with
  | refl => exact le_refl _
  | step _ ih => rw [sliceK_succ l h b offs _ ho]; omega

/-- leading coordinate `l + i` is in the bulk -/
def BulkIdx (i : Nat) : Prop := l ≤ l + i + minOffset offs ∧ l + i + maxOffset offs ≤ h

theorem sliceCount_bulk (i : Nat) (hi : BulkIdx l h offs i) :
    sliceCount l h b offs (l + i) = pairCount b (offs.map fun o => (tailPoint o.1, o.2)) := by
  unfold sliceCount
  unfold BulkIdx at hi
  have hmx : 0 ≤ maxOffset offs := ((maxOffset_le offs _).1 (le_refl _)).1
  rw [subOffsets_full l h (l + i) offs
    ((all_valid_iff l h (l + i) offs (by omega) (by omega)).2 (by omega))]

theorem inBulk_iff (i : Nat) (t : Point) :
    inBulk ((l, h) :: b) (minOffset offs) (maxOffset offs) ((l + i) :: t) = true ↔ BulkIdx l h offs i := by
  unfold inBulk BulkIdx
  rw [Bool.and_eq_true]
  change decide (l + i + minOffset offs ≥ l) = true ∧ decide (l + i + maxOffset offs ≤ h) = true ↔ _
  simp

/-- no further skipping will happen from slice `i` on (`i0`: the first bulk slice) -/
def Stuck (matLo rowLo : Int) (i0 i : Nat) : Prop :=
  h < l + i + maxOffset offs ∨
  matLo ≤ (sliceK l h b offs i : Int) + ((sliceK l h b offs i : Int) - sliceK l h b offs i0) ∨
  rowLo ≤ ((i + 1) * Rect.volume b : Nat)

theorem Stuck.mono {matLo rowLo : Int} {i0 i j : Nat} (hs : Stuck l h b offs matLo rowLo i0 i) (hij : i ≤ j)
    (ho : ∀ o ∈ offs, o.1.length = b.length + 1) : Stuck l h b offs matLo rowLo i0 j := by
  unfold Stuck at *
  have hk := sliceK_mono l h b offs i j hij ho
  have hv : (i + 1) * Rect.volume b ≤ (j + 1) * Rect.volume b := Nat.mul_le_mul_right _ (by omega)
  rcases hs with h1 | h1 | h1
  · left; omega
  · right; left; omega
  · right; right
    have : (((i + 1) * Rect.volume b : Nat) : Int) ≤ ((j + 1) * Rect.volume b : Nat) := by exact_mod_cast hv
    omega

theorem lin_slice (i : Nat) (t : Point) (ht : InBox b t) :
    linearizeRowMajor ((l, h) :: b) ((l + i) :: t) = linearizeRowMajor b t + (i * Rect.volume b : Nat) := by
  rw [linRM_cons l h _ b t (nonempty_of_inBox ht) ht.length_eq]
  push_cast; ring

/-- the skipping loop stops at a slice from which no further skipping happens, at that slice's kernel index -/
theorem bulkSkip_spec (hb : Nonempty b) (ho : ∀ o ∈ offs, o.1.length = b.length + 1) (matLo rowLo : Int) (i0 : Nat)
    (hi0 : BulkIdx l h offs i0) (n i : Nat) (hn : n = (h + 1 - (l + i)).toNat) (hlt : i0 < i) (hih : l + i ≤ h)
    (hend : matLo ≤ sliceK l h b offs (h - l + 1).toNat ∨ rowLo ≤ ((h - l + 1).toNat * Rect.volume b : Nat)) :
    ∃ j : Nat, i ≤ j ∧ l + j ≤ h ∧ Stuck l h b offs matLo rowLo i0 j ∧
      bulkSkip ((l, h) :: b) (minOffset offs) (maxOffset offs)
        ((sliceK l h b offs (i0 + 1) : Int) - sliceK l h b offs i0) matLo rowLo ((l + i) :: Rect.lo b)
        (sliceK l h b offs i) = ((l + j) :: Rect.lo b, (sliceK l h b offs j : Int)) ∧
      (i < j → (sliceK l h b offs j : Int) < matLo ∧ ((j * Rect.volume b : Nat) : Int) < rowLo) := by
  induction n using Nat.strongRecOn generalizing i with
  | ind n ih =>
    have hlo := inBox_lo hb
    unfold bulkSkip
    have hc0 : (sliceK l h b offs (i0 + 1) : Int) - sliceK l h b offs i0 =
        pairCount b (offs.map fun o => (tailPoint o.1, o.2)) := by
      rw [sliceK_succ l h b offs _ ho, sliceCount_bulk l h b offs i0 hi0]; push_cast; ring
    have hlin : linearizeRowMajor ((l, h) :: b) (incrementHead ((l + i) :: Rect.lo b)) =
        ((i + 1) * Rect.volume b : Nat) := by
      have e : incrementHead ((l + i) :: Rect.lo b) = (l + (i + 1 : Nat)) :: Rect.lo b := by
        simp [incrementHead]; ring
      rw [e, lin_slice l h b (i + 1) _ hlo, linRM_lo]; ring
    have hIB := inBulk_iff l h b offs i (Rect.lo b)
    rw [hlin]
    by_cases hcond : BulkIdx l h offs i ∧
        (sliceK l h b offs i : Int) + ((sliceK l h b offs (i0 + 1) : Int) - sliceK l h b offs i0) < matLo ∧
        (((i + 1) * Rect.volume b : Nat) : Int) < rowLo
    · rw [if_pos ⟨hIB.2 hcond.1, hcond.2⟩]
      have hk : (sliceK l h b offs i : Int) + ((sliceK l h b offs (i0 + 1) : Int) - sliceK l h b offs i0) =
          sliceK l h b offs (i + 1) := by
        rw [hc0, sliceK_succ l h b offs i ho, sliceCount_bulk l h b offs i hcond.1]; push_cast; ring
      have hne : l + i ≠ h := by
        intro e
        have e2 : (h - l + 1).toNat = i + 1 := by omega
        rw [e2] at hend
        rcases hend with h1 | h1
        · rw [hk] at hcond; omega
        · omega
      obtain ⟨j, hj1, hj2, hj3, hj4, hj5⟩ := ih (h + 1 - (l + (i + 1 : Nat))).toNat (by omega) (i + 1) rfl (by omega) (by omega)
      have e : l + i + 1 = l + (i + 1 : Nat) := by push_cast; ring
      refine ⟨j, by omega, hj2, hj3, ?_, ?_⟩
      · rw [hk, e]; exact hj4
      · intro _
        by_cases hij : i + 1 < j
        · exact hj5 hij
        · have : j = i + 1 := by omega
          subst this
          rw [hk] at hcond
          exact ⟨hcond.2.1, hcond.2.2⟩
    · rw [if_neg (fun hc => hcond ⟨hIB.1 hc.1, hc.2⟩)]
      refine ⟨i, le_refl _, hih, ?_, rfl, by intro hc; omega⟩
      unfold Stuck
      by_contra hst
      simp only [not_or, not_lt, not_le] at hst
      apply hcond
      have hmono := sliceK_mono l h b offs (i0 + 1) i hlt ho
      unfold BulkIdx at hi0 ⊢
      refine ⟨⟨by omega, by omega⟩, ?_, ?_⟩
      · omega
      · exact hst.2.2

/-- when no skipping is due the loop does nothing -/
theorem bulkSkip_stuck (hb : Nonempty b) (matLo rowLo : Int) (i0 i : Nat)
    (hs : Stuck l h b offs matLo rowLo i0 i) :
    bulkSkip ((l, h) :: b) (minOffset offs) (maxOffset offs)
        ((sliceK l h b offs i : Int) - sliceK l h b offs i0) matLo rowLo ((l + i) :: Rect.lo b)
        (sliceK l h b offs i) = ((l + i) :: Rect.lo b, (sliceK l h b offs i : Int)) := by
  have hlo := inBox_lo hb
  unfold bulkSkip
  have hlin : linearizeRowMajor ((l, h) :: b) (incrementHead ((l + i) :: Rect.lo b)) =
      ((i + 1) * Rect.volume b : Nat) := by
    have e : incrementHead ((l + i) :: Rect.lo b) = (l + (i + 1 : Nat)) :: Rect.lo b := by
      simp [incrementHead]; ring
    rw [e, lin_slice l h b (i + 1) _ hlo, linRM_lo]; ring
  rw [hlin, if_neg]
  rintro ⟨h1, h2, h3⟩
  rw [inBulk_iff l h b offs i (Rect.lo b)] at h1
  unfold Stuck at hs
  unfold BulkIdx at h1
  rcases hs with h4 | h4 | h4 <;> omega

end

section
variable (l h : Int) (b : Rect) (offs : List (Point × E)) (dom rdom : Dom1)
  (col : Int → Option Int) (entry : Int → Option E) (rp : Int → Option (Int × Int))

/-- fields at the point with number `n` in plain enumeration -/
def plainAt (n : Nat) : CSRState Int Int E :=
  linAt .rowMajor ((l, h) :: b) offs dom.contains rdom.contains col entry rp ((points ((l, h) :: b)).take n)

/-- invariant after the prologue at slice `i`, tail `t` -/
def BulkInv (s : BulkState E) (i : Nat) : Prop :=
  s.found = true → ∃ i0 : Nat, BulkIdx l h offs i0 ∧ s.origin = sliceK l h b offs i0 ∧
    (i = i0 ∨ (i0 < i ∧ Stuck l h b offs dom.lo rdom.lo i0 i))

/-- invariant at the loop head -/
def HeadInv (s : BulkState E) (i : Nat) (t : Point) : Prop :=
  s.found = true → ∃ i0 : Nat, BulkIdx l h offs i0 ∧ s.origin = sliceK l h b offs i0 ∧
    ((i = i0 ∧ t ≠ Rect.lo b) ∨ (i = i0 + 1 ∧ t = Rect.lo b) ∨
      (i0 < i ∧ Stuck l h b offs dom.lo rdom.lo i0 i))

/-- a piece and its bounds -/
def DomOK (d : Dom1) : Prop := ∀ j, d.contains j = true → d.lo ≤ j ∧ j ≤ d.hi

theorem bulkPrologue_spec (hb : Nonempty b) (ho : ∀ o ∈ offs, o.1.length = b.length + 1)
    (hd : DomOK dom) (hr : DomOK rdom) (s : BulkState E) (i : Nat) (t : Point) (ht : InBox b t) (hih : l + i ≤ h)
    (hend : dom.lo ≤ sliceK l h b offs (h - l + 1).toNat ∨
      rdom.lo ≤ ((h - l + 1).toNat * Rect.volume b : Nat))
    (hst : s.st = plainAt l h b offs dom rdom col entry rp
      (linearizeRowMajor ((l, h) :: b) ((l + i) :: t)).toNat)
    (hinv : HeadInv l h b offs dom rdom s i t) :
    ∃ (j : Nat) (s' : BulkState E), i ≤ j ∧ l + j ≤ h ∧
      bulkPrologue ((l, h) :: b) (minOffset offs) (maxOffset offs) dom rdom s ((l + i) :: t) =
        (s', (l + j) :: t) ∧
      s'.st = plainAt l h b offs dom rdom col entry rp
        (linearizeRowMajor ((l, h) :: b) ((l + j) :: t)).toNat ∧
      BulkInv l h b offs dom rdom s' j := by
  unfold bulkPrologue
  have hlo := inBox_lo hb
  by_cases hteq : t = Rect.lo b
  · subst hteq
    have htE : tailEqual ((l + i) :: Rect.lo b) (Rect.lo ((l, h) :: b)) = true := by
      simp [tailEqual, Rect.lo]
    rw [if_pos htE]
    have hlinN : ∀ j : Nat, (linearizeRowMajor ((l, h) :: b) ((l + j) :: Rect.lo b)).toNat = j * Rect.volume b := by
      intro j
      rw [lin_slice l h b j _ hlo, linRM_lo]; omega
    have hki : ∀ j : Nat, l + j ≤ h → (plainAt l h b offs dom rdom col entry rp
        (linearizeRowMajor ((l, h) :: b) ((l + j) :: Rect.lo b)).toNat).kernelIndex = sliceK l h b offs j := by
      intro j hj
      rw [hlinN]
      unfold plainAt linAt csrAt sliceK
      rw [slices_take l h b j (by omega)]
    by_cases hf : s.found = true
    · -- found: skip
      obtain ⟨i0, hi0, horg, hcase⟩ := hinv hf
      have hk : s.st.kernelIndex = sliceK l h b offs i := by rw [hst, hki i hih]
      have hskip : ∃ j : Nat, i ≤ j ∧ l + j ≤ h ∧ i0 < j ∧ Stuck l h b offs dom.lo rdom.lo i0 j ∧
          bulkSkip ((l, h) :: b) (minOffset offs) (maxOffset offs) (s.st.kernelIndex - s.origin) dom.lo rdom.lo
            ((l + i) :: Rect.lo b) s.st.kernelIndex = ((l + j) :: Rect.lo b, (sliceK l h b offs j : Int)) ∧
          (i < j → (sliceK l h b offs j : Int) < dom.lo ∧ ((j * Rect.volume b : Nat) : Int) < rdom.lo) := by
        rcases hcase with ⟨_, hne⟩ | ⟨hi1, _⟩ | ⟨hgt, hstk⟩
        · exact absurd rfl hne
        · subst hi1
          obtain ⟨j, j1, j2, j3, j4, j5⟩ := bulkSkip_spec l h b offs hb ho dom.lo rdom.lo i0 hi0 _ (i0 + 1) rfl
            (by omega) hih hend
          exact ⟨j, j1, j2, by omega, j3, by rw [hk, horg]; exact j4, j5⟩
        · exact ⟨i, le_refl _, hih, hgt, hstk, by
            rw [hk, horg]; exact bulkSkip_stuck l h b offs hb dom.lo rdom.lo i0 i hstk, by intro hc; omega⟩
      obtain ⟨j, j1, j2, j3, j4, j5, j6⟩ := hskip
      refine ⟨j, { s with st := { s.st with kernelIndex := sliceK l h b offs j } }, j1, j2, ?_, ?_, ?_⟩
      · simp only [hf, if_true, j5]
        simp
      · simp only []
        rw [hst]
        by_cases hij : i = j
        · subst hij
          have := hki i hih
          rw [← this]
        · obtain ⟨q1, q2⟩ := j6 (by omega)
          unfold plainAt
          rw [hlinN, hlinN, slices_take l h b i (by omega), slices_take l h b j (by omega)]
          obtain ⟨c, hc⟩ := Nat.exists_eq_add_of_le j1
          subst hc
          have hsp : slices l b (i + c) = slices l b i ++
              (irange (l + i) c).flatMap fun x => (points b).map (x :: ·) := by
            unfold slices
            rw [irange_split, List.flatMap_append]
          rw [hsp, linAt_extend]
          · rw [← hsp]; rfl
          · intro x hx _ h2
            rw [← hsp] at h2
            have := (hd x hx).1
            have : (sliceK l h b offs (i + c) : Int) = (stencilEntries ((l, h) :: b) offs (slices l b (i + c))).length := rfl
            omega
          · intro x hx _ h2
            have h3 := (hr x hx).1
            have h4 := slices_length l b (i + c)
            rw [hsp, List.length_append] at h4
            have h5 : x < (((i + c) * Rect.volume b : Nat) : Int) := by rw [← h4]; push_cast; omega
            omega
      · intro _
        exact ⟨i0, hi0, horg, Or.inr ⟨j3, j4⟩⟩
    · -- not found yet
      have hf' : s.found = false := by simpa using hf
      by_cases hbk : BulkIdx l h offs i
      · refine ⟨i, { s with found := true, origin := s.st.kernelIndex }, le_refl _, hih, ?_, hst, ?_⟩
        · have := (inBulk_iff l h b offs i (Rect.lo b)).2 hbk
          simp [hf', this]
        · intro _
          exact ⟨i, hbk, by simp only; rw [hst, hki i hih], Or.inl rfl⟩
      · refine ⟨i, s, le_refl _, hih, ?_, hst, ?_⟩
        · have : inBulk ((l, h) :: b) (minOffset offs) (maxOffset offs) ((l + i) :: Rect.lo b) = false := by
            rw [← Bool.not_eq_true, inBulk_iff l h b offs i (Rect.lo b)]; exact hbk
          simp only [hf']
          simp
          rw [if_neg (by rw [this]; simp), ← hf']
        · intro hc; rw [hf'] at hc; simp at hc
  · have htE : ¬ tailEqual ((l + i) :: t) (Rect.lo ((l, h) :: b)) = true := by
      simp [tailEqual, Rect.lo]
      intro hc; exact hteq (by simpa [Rect.lo] using hc)
    rw [if_neg htE]
    refine ⟨i, s, le_refl _, hih, rfl, hst, ?_⟩
    intro hf
    obtain ⟨i0, hi0, horg, hcase⟩ := hinv hf
    refine ⟨i0, hi0, horg, ?_⟩
    rcases hcase with ⟨h1, _⟩ | ⟨_, h1⟩ | h1
    · exact Or.inl h1
    · exact absurd h1 hteq
    · exact Or.inr h1

/-- the final contents of the three fields under plain enumeration of the whole grid -/
def plainEnd : CSRState Int Int E :=
  linAt .rowMajor ((l, h) :: b) offs dom.contains rdom.contains col entry rp (points ((l, h) :: b))

/-- same field contents, ignoring the kernel index -/
def SameFields (s s' : CSRState Int Int E) : Prop := s.col = s'.col ∧ s.entry = s'.entry ∧ s.rowptr = s'.rowptr

theorem bulkLoop_spec (hb : Nonempty b) (ho : ∀ o ∈ offs, o.1.length = b.length + 1)
    (hd : DomOK dom) (hr : DomOK rdom)
    (hend : dom.lo ≤ sliceK l h b offs (h - l + 1).toNat ∨
      rdom.lo ≤ ((h - l + 1).toNat * Rect.volume b : Nat))
    (fuel : Nat) (s : BulkState E) (i : Nat) (t : Point) (ht : InBox b t) (hih : l + i ≤ h)
    (hfuel : ((h - l + 1).toNat * Rect.volume b : Nat) - linearizeRowMajor ((l, h) :: b) ((l + i) :: t) ≤ fuel)
    (hst : s.st = plainAt l h b offs dom rdom col entry rp
      (linearizeRowMajor ((l, h) :: b) ((l + i) :: t)).toNat)
    (hinv : HeadInv l h b offs dom rdom s i t) :
    ∃ s', bulkLoop ((l, h) :: b) offs (minOffset offs) (maxOffset offs) dom rdom fuel s ((l + i) :: t) = some s' ∧
      SameFields s'.st (plainEnd l h b offs dom rdom col entry rp) := by
  induction fuel generalizing s i t with
  | zero =>
    exfalso
    have h1 : InBox ((l, h) :: b) ((l + i) :: t) := List.Forall₂.cons (by simp only; omega) ht
    have h2 := (linRM_bounds _ _ h1).2
    simp only [Rect.volume] at h2
    omega
  | succ fuel ih =>
    obtain ⟨j, s1, hij, hjh, hpro, hst1, hinv1⟩ :=
      bulkPrologue_spec l h b offs dom rdom col entry rp hb ho hd hr s i t ht hih hend hst hinv
    unfold bulkLoop
    simp only [hpro]
    have hbox : InBox ((l, h) :: b) ((l + j) :: t) := List.Forall₂.cons (by simp only; omega) ht
    have hlb := linRM_bounds _ _ hbox
    have hvol : Rect.volume ((l, h) :: b) = (points ((l, h) :: b)).length := (length_points _).symm
    -- the row step advances plain enumeration by one point
    have hnlt : (linearizeRowMajor ((l, h) :: b) ((l + j) :: t)).toNat < (points ((l, h) :: b)).length := by omega
    have hget : (points ((l, h) :: b))[(linearizeRowMajor ((l, h) :: b) ((l + j) :: t)).toNat] = (l + j) :: t := by
      have h1 := linearize_getElem .rowMajor ((l, h) :: b)
        (linearizeRowMajor ((l, h) :: b) ((l + j) :: t)).toNat hnlt
      apply linearize_inj .rowMajor ((mem_pointsOf .rowMajor _ _).1 (List.getElem_mem _)) hbox
      rw [h1]
      simp only [linearize]
      omega
    have hrow : linCsrRowStep .rowMajor ((l, h) :: b) offs dom rdom s1.st ((l + j) :: t) =
        plainAt l h b offs dom rdom col entry rp
          ((linearizeRowMajor ((l, h) :: b) ((l + j) :: t)).toNat + 1) := by
      rw [hst1]
      unfold plainAt
      rw [List.take_succ_eq_append_getElem hnlt, hget]
      apply linCsrRowStep_at
      rw [List.length_take]
      simp only [linearize]
      omega
    rw [hrow]
    by_cases hbr : (plainAt l h b offs dom rdom col entry rp
          ((linearizeRowMajor ((l, h) :: b) ((l + j) :: t)).toNat + 1)).kernelIndex > dom.hi ∧
        linearizeRowMajor ((l, h) :: b) ((l + j) :: t) > rdom.hi
    · rw [if_pos hbr]
      refine ⟨_, rfl, ?_⟩
      have hx := linAt_extend .rowMajor ((l, h) :: b) offs dom.contains rdom.contains col entry rp
        ((points ((l, h) :: b)).take ((linearizeRowMajor ((l, h) :: b) ((l + j) :: t)).toNat + 1))
        ((points ((l, h) :: b)).drop ((linearizeRowMajor ((l, h) :: b) ((l + j) :: t)).toNat + 1))
        (by
          intro x hx h1 _
          have := (hd x hx).2
          have h3 := hbr.1
          unfold plainAt linAt csrAt at h3
          simp only at h3
          omega)
        (by
          intro x hx h1 _
          have := (hr x hx).2
          rw [List.length_take] at h1
          omega)
      rw [List.take_append_drop] at hx
      unfold plainEnd
      rw [hx]
      exact ⟨rfl, rfl, rfl⟩
    · rw [if_neg hbr]
      rcases hinc : incrementRowMajor ((l, h) :: b) ((l + j) :: t) with ⟨r, p'⟩
      cases r with
      | false =>
        obtain ⟨hhi, -⟩ := incRM_false hbox hinc
        refine ⟨_, rfl, ?_⟩
        have : plainAt l h b offs dom rdom col entry rp
            ((linearizeRowMajor ((l, h) :: b) ((l + j) :: t)).toNat + 1) =
            plainEnd l h b offs dom rdom col entry rp := by
          unfold plainAt plainEnd
          rw [List.take_of_length_le]
          -- no point follows the high corner
          by_contra hc
          simp only [not_le] at hc
          have hN : Nonempty ((l, h) :: b) := nonempty_of_inBox hbox
          obtain ⟨hch, -, -⟩ := points_chain _ hN
          have hs := List.isChain_iff_getElem.1 hch _ hc
          rw [hget, StepRM, hinc] at hs
          simp at hs
        rw [this]
        exact ⟨rfl, rfl, rfl⟩
      | true =>
        obtain ⟨hbox', hlin'⟩ := incRM_true hbox hinc
        simp only []
        -- shape of the next point
        have hnext : ∃ (j' : Nat) (t' : Point), p' = (l + j') :: t' ∧ InBox b t' ∧ l + j' ≤ h ∧
            ((j' = j ∧ t' ≠ Rect.lo b) ∨ (j' = j + 1 ∧ t' = Rect.lo b)) := by
          rw [incrementRowMajor] at hinc
          rcases e : incrementRowMajor b t with ⟨r2, t2⟩
          rw [e] at hinc
          cases r2 with
          | true =>
            simp only [Prod.mk.injEq, true_and] at hinc
            obtain ⟨q1, q2⟩ := incRM_true ht e
            refine ⟨j, t2, hinc.symm, q1, hjh, Or.inl ⟨rfl, ?_⟩⟩
            intro hc
            have := (linRM_bounds b t ht).1
            rw [hc, linRM_lo] at q2
            omega
          | false =>
            obtain ⟨-, rfl⟩ := incRM_false ht e
            simp only at hinc
            split at hinc
            · simp at hinc
            · simp only [Prod.mk.injEq, true_and] at hinc
              refine ⟨j + 1, Rect.lo b, ?_, inBox_lo hb, by push_cast; omega, Or.inr ⟨rfl, rfl⟩⟩
              rw [← hinc]; push_cast; congr 1; ring
        obtain ⟨j', t', rfl, ht', hjh', hcase⟩ := hnext
        apply ih
        · exact ht'
        · exact hjh'
        · have hmono : linearizeRowMajor ((l, h) :: b) ((l + i) :: t) ≤
              linearizeRowMajor ((l, h) :: b) ((l + j) :: t) := by
            rw [lin_slice l h b i t ht, lin_slice l h b j t ht]
            have : i * Rect.volume b ≤ j * Rect.volume b := Nat.mul_le_mul_right _ hij
            omega
          push_cast at hfuel
          omega
        · have e : (linearizeRowMajor ((l, h) :: b) ((l + j') :: t')).toNat =
              (linearizeRowMajor ((l, h) :: b) ((l + j) :: t)).toNat + 1 := by omega
          rw [e]
        · intro hf
          obtain ⟨i0, hi0, horg, hc⟩ := hinv1 hf
          refine ⟨i0, hi0, horg, ?_⟩
          rcases hc with rfl | ⟨hc1, hc2⟩
          · rcases hcase with ⟨rfl, hne⟩ | ⟨rfl, he⟩
            · exact Or.inl ⟨rfl, hne⟩
            · exact Or.inr (Or.inl ⟨rfl, he⟩)
          · right; right
            rcases hcase with ⟨rfl, -⟩ | ⟨rfl, -⟩
            · exact ⟨hc1, hc2⟩
            · exact ⟨by omega, hc2.mono l h b offs (by omega) ho⟩

end
end Verif.Stencil
