import Verif.EndToEnd.Stores
import Verif.Grid.Props

/-! # C51: products with stencil matrices -/
set_option linter.dupNamespace false
set_option linter.unusedSectionVars false
namespace Verif.EndToEnd
open Verif.Grid Verif.Stencil Verif.Matrix Verif.Runtime Verif.Vector Verif.Planner

variable {E : Type}

/-! ## What the builders leave in the fields -/

/-- Legion's contract for `create_equal_partition` into at least one piece: every index of the kernel space is in some
piece. -/
def CoversSize (b : Rect) (offsets : List (Point × E)) (pieces : List (Int → Bool)) : Prop :=
  ∀ size, calculateStencilSize b offsets = some size → ∀ k : Nat, k < size → ∃ D ∈ pieces, D k = true

theorem cooStencil_holds (sort : List (Point × E) → List (Point × E)) (lt : E → E → Bool) (o : IndexOrder) (b : Rect)
    (offsets : List (Point × E)) (hb : b ≠ []) (ho : ∀ oe ∈ offsets, oe.1.length = b.length)
    (hsort : IsSort o lt offsets (sort offsets)) :
    ∃ N : Nat, ∀ fuel, N ≤ fuel → ∀ pieces, CoversSize b offsets pieces → ∀ junk,
      ∃ m, createCOOStencil sort o b offsets pieces fuel junk = some m ∧
        HoldsCOO m (stencilEntries b (sort offsets) (pointsOf o b)) := by
  obtain ⟨ps, es, N, hps, hes, hsz, hrun⟩ := c05_coo_all_pieces sort lt o b offsets hb ho hsort
  have hps' : ps = pointsOf o b := by
    have h1 := enumerates_pointsOf o b
    exact ((List.perm_ext_iff_of_nodup hps.nodup h1.nodup).2 fun p => by rw [hps.mem, h1.mem]).eq_of_pairwise
      (fun p q _ _ h2 h3 => absurd (before_trans o h2 h3) (before_irrefl o p)) hps.ordered h1.ordered
  subst hps' hes
  refine ⟨N, fun fuel hf pieces hc junk => ?_⟩
  obtain ⟨s, h1, h2⟩ := hrun fuel hf pieces ⟨0, fun _ => none, fun _ => none, fun _ => none⟩
  refine ⟨⟨indices (stencilEntries b (sort offsets) (pointsOf o b)).length, stored s.row junk.row, stored s.col junk.col,
    stored s.entry junk.entry⟩, ?_, rfl, ?_, ?_, ?_⟩
  · unfold createCOOStencil
    rw [hsz, h1]
    rfl
  all_goals
    intro k hk
    obtain ⟨q1, q2, q3⟩ := (h2 k hk).1 (hc _ hsz k hk)
    simp only [stored, q1, q2, q3, Option.getD_some]

/-- Running the CSR fill on all pieces. -/
theorem csr_all_pieces {R C Q : Type} (d1 : Q → Int → Bool) (d2 : Q → R → Bool)
    (fill : Q → CSRState R C E → Option (CSRState R C E))
    (es : List (C × E)) (range : R → Int × Int) (ok : Q → Prop)
    (hfill : ∀ D, ok D → ∀ s0, ∃ s, fill D s0 = some s ∧ KernelFilled es (d1 D) s0.col s0.entry s.col s.entry ∧
      RowsFilled range (d2 D) s0.rowptr s.rowptr)
    (run : List Q → CSRState R C E → Option (CSRState R C E))
    (hnil : ∀ s, run [] s = some s)
    (hcons : ∀ D Ds s s', fill D s = some s' → run (D :: Ds) s = run Ds s') :
    ∀ Ds : List Q, (∀ D ∈ Ds, ok D) → ∀ s0, ∃ s, run Ds s0 = some s ∧
      (∀ k : Nat, ∀ hk : k < es.length,
        ((∃ D ∈ Ds, d1 D k = true) → s.col k = some es[k].1 ∧ s.entry k = some es[k].2) ∧
        ((∀ D ∈ Ds, d1 D k = false) → s.col k = s0.col k ∧ s.entry k = s0.entry k)) ∧
      ∀ p, ((∃ D ∈ Ds, d2 D p = true) → s.rowptr p = some (range p)) ∧
        ((∀ D ∈ Ds, d2 D p = false) → s.rowptr p = s0.rowptr p) := by
  intro Ds
  induction Ds with
  | nil => intro _ s0; exact ⟨s0, hnil s0, by simp, by simp⟩
  | cons D Ds ih =>
    intro hok s0
    obtain ⟨s1, h1, h2, h3⟩ := hfill D (hok D (by simp)) s0
    obtain ⟨s2, h4, h5, h6⟩ := ih (fun D' hD' => hok D' (by simp [hD'])) s1
    refine ⟨s2, by rw [hcons D Ds s0 s1 h1, h4], fun k hk => ?_, fun p => ?_⟩
    · have hk' : ((k : Int)).toNat < es.length := by simpa using hk
      have h7 := h2 (k : Int)
      have h8 := h5 k hk
      constructor
      · rintro ⟨D', hD', hkD⟩
        by_cases hin : ∃ D ∈ Ds, d1 D k = true
        · exact h8.1 hin
        · have hno : ∀ D ∈ Ds, d1 D k = false := fun D hD => by
            by_contra hc; exact hin ⟨D, hD, by simpa using hc⟩
          rcases List.mem_cons.1 hD' with rfl | hD'
          · have h9 := h7.1 hkD (by omega) hk'
            have h10 := h8.2 hno
            rw [h10.1, h10.2]
            simpa using h9
          · exact absurd ⟨D', hD', hkD⟩ hin
      · intro hno
        have h10 := h8.2 fun D hD => hno D (by simp [hD])
        have h11 := h7.2 (Or.inl (hno D (by simp)))
        exact ⟨h10.1.trans h11.1, h10.2.trans h11.2⟩
    · have h7 := h3 p
      have h8 := h6 p
      constructor
      · rintro ⟨D', hD', hkD⟩
        by_cases hin : ∃ D ∈ Ds, d2 D p = true
        · exact h8.1 hin
        · have hno : ∀ D ∈ Ds, d2 D p = false := fun D hD => by
            by_contra hc; exact hin ⟨D, hD, by simpa using hc⟩
          rcases List.mem_cons.1 hD' with rfl | hD'
          · rw [h8.2 hno, h7.1 hkD]
          · exact absurd ⟨D', hD', hkD⟩ hin
      · intro hno
        rw [h8.2 fun D hD => hno D (by simp [hD]), h7.2 (hno D (by simp))]

theorem rowsHold {R : Type} (rowptr : R → Option (Int × Int)) (junk : R → Int → Bool) (p : R) (r : Int × Int)
    (h : rowptr p = some r) (k : Int) : storedRange rowptr junk p k = true ↔ r.1 ≤ k ∧ k ≤ r.2 := by
  unfold storedRange
  rw [h]
  simp

theorem csrStencil_holds (sort : List (Point × E) → List (Point × E)) (lt : E → E → Bool) (o : IndexOrder) (b : Rect)
    (offsets : List (Point × E)) (hb : b ≠ []) (ho : ∀ oe ∈ offsets, oe.1.length = b.length)
    (hsort : IsSort o lt offsets (sort offsets)) :
    ∃ N : Nat, ∀ fuel, N ≤ fuel → ∀ (rows : List Point) (pieces : List ((Int → Bool) × (Point → Bool))),
      (∀ p, p ∈ rows ↔ InBox b p) → CoversSize b offsets (pieces.map Prod.fst) →
      (∀ D ∈ pieces, ∀ p, D.2 p = true → InBox b p) → (∀ p, InBox b p → ∃ D ∈ pieces, D.2 p = true) → ∀ junk,
      ∃ m, createCSRStencil sort o b offsets rows pieces fuel junk = some m ∧ m.rows = rows ∧
        HoldsCSR m (stencilEntries b (sort offsets) (pointsOf o b)) := by
  obtain ⟨ps, es, range, N, hps, hes, -, hsz, htile, hrun⟩ := c06_csr_fill sort lt o b offsets hb ho hsort
  have hps' : ps = pointsOf o b := by
    have h1 := enumerates_pointsOf o b
    exact ((List.perm_ext_iff_of_nodup hps.nodup h1.nodup).2 fun p => by rw [hps.mem, h1.mem]).eq_of_pairwise
      (fun p q _ _ h2 h3 => absurd (before_trans o h2 h3) (before_irrefl o p)) hps.ordered h1.ordered
  subst hps' hes
  refine ⟨N, fun fuel hf rows pieces hrows hc hin hcov junk => ?_⟩
  obtain ⟨s, h1, h2, h3⟩ := csr_all_pieces Prod.fst Prod.snd (fun D s => fillCSR sort o b offsets D.1 D.2 fuel s.col s.entry s.rowptr)
    ((stencilEntries b (sort offsets) (pointsOf o b)).map fun e => e.2) range (fun D => ∀ p, D.2 p = true → InBox b p)
    (fun D hD s0 => hrun fuel hf D.1 D.2 hD s0.col s0.entry s0.rowptr) (fillCSRPieces sort o b offsets fuel)
    (fun s => rfl) (fun D Ds s s' h => by simp only [fillCSRPieces, h]) pieces hin
    ⟨0, fun _ => none, fun _ => none, fun _ => none⟩
  refine ⟨⟨indices (stencilEntries b (sort offsets) (pointsOf o b)).length, rows, storedRange s.rowptr junk.range,
    stored s.col junk.col, stored s.entry junk.entry⟩,
    ?_, rfl, rfl, ?_, ?_, ?_⟩
  · unfold createCSRStencil
    rw [hsz, h1]
    rfl
  · intro p hp k hk
    have hbox := (hrows p).1 hp
    rw [rowsHold _ _ _ _ ((h3 p).1 (hcov p hbox)), htile.exact p hbox k hk]
  all_goals
    intro k hk
    obtain ⟨D, hD, hDk⟩ := hc _ hsz k hk
    obtain ⟨D', hD', rfl⟩ := List.mem_map.1 hD
    obtain ⟨q1, q2⟩ := (h2 k (by simpa using hk)).1 ⟨D', hD', hDk⟩
    simp only [stored, q1, q2, Option.getD_some, List.getElem_map]

/-- The triples of the linearised matrix. -/
def linTriple (o : IndexOrder) (b : Rect) (e : Point × Point × E) : Int × Int × E :=
  (linearize o b e.1, linearize o b e.2.1, e.2.2)

theorem linCsr_fill (sort : List (Point × E) → List (Point × E)) (lt : E → E → Bool) (o : IndexOrder) (b : Rect)
    (offsets : List (Point × E)) (hb : b ≠ []) (ho : ∀ oe ∈ offsets, oe.1.length = b.length)
    (hsort : IsSort o lt offsets (sort offsets)) (size : Nat) (hsize : calculateStencilSize b offsets = some size) :
    ∃ N : Nat, ∀ fuel, N ≤ fuel → ∀ dom rdom : Dom1,
      (∀ j, dom.contains j = true → dom.lo ≤ j ∧ j ≤ dom.hi ∧ 0 ≤ j ∧ j < size) →
      (∀ j, rdom.contains j = true → rdom.lo ≤ j ∧ j ≤ rdom.hi ∧ 0 ≤ j ∧ j < Rect.volume b) →
      ∀ (col : Int → Option Int) (entry : Int → Option E) (rowptr : Int → Option (Int × Int)),
        ∃ s, fillLinCSR sort o b offsets dom rdom fuel col entry rowptr = some s ∧
          KernelFilled (((stencilEntries b (sort offsets) (pointsOf o b)).map (linTriple o b)).map fun e => e.2) dom.contains
            col entry s.col s.entry ∧
          RowsFilled (fun j => rangeOf b (sort offsets) (pointsOf o b) ((pointsOf o b).getD j.toNat [])) rdom.contains
            rowptr s.rowptr := by
  obtain ⟨N, hN⟩ := c07_fast_forward_is_plain sort lt o b offsets hb ho hsort size hsize
  by_cases hne : Nonempty b
  swap
  · refine ⟨emptyFuel b, fun fuel hf dom rdom hd hr col entry rowptr => ?_⟩
    have hv0 := volume_eq_zero hne
    have hr0 : ∀ j, rdom.contains j = false := by
      intro j
      by_contra hc
      have := hr j (by simpa using hc)
      rw [hv0] at this
      omega
    have hz : size = 0 := by
      rw [calculateStencilSize_eq _ offsets hb ho, ← stencilEntries_length_eq .rowMajor _ offsets (sort offsets) _
        (enumerates_pointsOf .rowMajor _) hsort.perm] at hsize
      have h2 : (pointsOf .rowMajor b).length = 0 := by rw [length_pointsOf, hv0]
      rw [List.eq_nil_of_length_eq_zero h2] at hsize
      simpa [stencilEntries] using hsize.symm
    have hd0 : ∀ j, dom.contains j = false := by
      intro j
      by_contra hc
      have := hd j (by simpa using hc)
      rw [hz] at this
      omega
    cases b with
    | nil => exact absurd rfl hb
    | cons lh b =>
      obtain ⟨l, h⟩ := lh
      obtain ⟨s', -, q1, -, ⟨q2, q3, q4⟩, -⟩ := fillLinCSR_nothing sort o l h b offsets dom rdom hd0 hr0 fuel hf col entry rowptr
      refine ⟨s', q1, fun k => ⟨fun hD => ?_, fun _ => ?_⟩, fun j => ⟨fun hj => ?_, fun _ => ?_⟩⟩
      · rw [hd0 k] at hD; cases hD
      · rw [q2, q3]; exact ⟨rfl, rfl⟩
      · rw [hr0 j] at hj; cases hj
      · rw [q4]
  refine ⟨max N (Rect.volume b), fun fuel hf dom rdom hd hr col entry rowptr => ?_⟩
  obtain ⟨s1, s2, h1, h2, e1, e2, e3⟩ := hN fuel (le_trans (le_max_left _ _) hf) dom rdom hd hr col entry rowptr
  have hvf : Rect.volume b ≤ fuel := le_trans (le_max_right _ _) hf
  have hs2 : s2 = linAt o b (sort offsets) dom.contains rdom.contains col entry rowptr (pointsOf o b) := by
    unfold plainLinCSR at h2
    rw [doWhile_points o _ hne _ _ fuel hvf, ← linAt_nil o b (sort offsets) dom.contains rdom.contains,
      linCsrRows_at _ _ _ _ _ _ _ _ _ [] (by simp)] at h2
    simpa using h2.symm
  refine ⟨s1, h1, fun k => ?_, fun j => ?_⟩
  · rw [e1, e2, hs2]
    simp only [linAt, csrAt, place_apply]
    constructor
    · intro hD h0 hk
      simp only [List.length_map] at hk
      have hc : dom.contains k = true ∧ 0 ≤ k ∧ k < ((stencilEntries b (sort offsets) (pointsOf o b)).length : Int) :=
        ⟨hD, h0, by omega⟩
      rw [if_pos hc, if_pos hc, List.getElem?_eq_getElem hk]
      simp [linTriple]
    · intro hn
      simp only [List.length_map] at hn
      have hc : ¬ (dom.contains k = true ∧ 0 ≤ k ∧ k < ((stencilEntries b (sort offsets) (pointsOf o b)).length : Int)) := by
        rintro ⟨h1, h2, h3⟩
        rcases hn with h | h | h
        · rw [h1] at h; simp at h
        · omega
        · omega
      rw [if_neg hc, if_neg hc]
      exact ⟨rfl, rfl⟩
  · rw [e3, hs2]
    simp only [linAt, csrAt, place, rangesFrom_length]
    constructor
    · intro hj
      obtain ⟨-, -, h0, h1⟩ := hr j hj
      have hi : j.toNat < (pointsOf o b).length := by rw [length_pointsOf]; omega
      rw [if_pos ⟨hj, h0, by omega⟩, rangesFrom_getElem _ _ _ _ hi, List.getD_eq_getElem?_getD,
        List.getElem?_eq_getElem hi, Option.getD_some, rangeOf_getElem b (sort offsets) (pointsOf o b) (pointsOf_nodup o b) _ hi]
      rfl
    · intro hj
      rw [if_neg (fun h => by rw [hj] at h; simp at h)]

theorem mem_stencilEntries {b : Rect} {offs : List (Point × E)} {ps : List Point} {e : Point × Point × E}
    (h : e ∈ stencilEntries b offs ps) : e.1 ∈ ps ∧ InBox b e.2.1 := by
  unfold stencilEntries at h
  obtain ⟨p, hp, he⟩ := List.mem_flatMap.1 h
  refine ⟨by rw [mem_rowEntries_row he]; exact hp, ?_⟩
  unfold rowEntries at he
  obtain ⟨oe, -, h2⟩ := List.mem_filterMap.1 he
  split at h2
  · next hbox => cases h2; exact hbox
  · cases h2

theorem linCsrStencil_full (sort : List (Point × E) → List (Point × E)) (lt : E → E → Bool) (o : IndexOrder) (b : Rect)
    (offsets : List (Point × E)) (hb : b ≠ []) (ho : ∀ oe ∈ offsets, oe.1.length = b.length)
    (hsort : IsSort o lt offsets (sort offsets)) :
    ∃ N : Nat, ∀ fuel, N ≤ fuel → ∀ (pieces : List (Dom1 × Dom1)),
      CoversSize b offsets (pieces.map fun D => D.1.contains) →
      (∀ size, calculateStencilSize b offsets = some size → ∀ D ∈ pieces, ∀ j, D.1.contains j = true →
        D.1.lo ≤ j ∧ j ≤ D.1.hi ∧ 0 ≤ j ∧ j < size) →
      (∀ D ∈ pieces, ∀ j, D.2.contains j = true → D.2.lo ≤ j ∧ j ≤ D.2.hi ∧ 0 ≤ j ∧ j < Rect.volume b) →
      (∀ j : Int, 0 ≤ j → j < Rect.volume b → ∃ D ∈ pieces, D.2.contains j = true) → ∀ junk,
      ∃ m, createLinCSRStencil sort o b offsets pieces fuel junk = some m ∧ m.rows = indices (Rect.volume b) ∧
        (∀ j : Int, 0 ≤ j → j < Rect.volume b → ∀ k, m.range j k = true ↔
          (rangeOf b (sort offsets) (pointsOf o b) ((pointsOf o b).getD j.toNat [])).1 ≤ k ∧
          k ≤ (rangeOf b (sort offsets) (pointsOf o b) ((pointsOf o b).getD j.toNat [])).2) ∧
        HoldsCSR m ((stencilEntries b (sort offsets) (pointsOf o b)).map (linTriple o b)) := by
  have hsz : calculateStencilSize b offsets = some (stencilEntries b (sort offsets) (pointsOf o b)).length := by
    rw [calculateStencilSize_eq b offsets hb ho,
      stencilEntries_length_eq o b offsets _ _ (enumerates_pointsOf o b) hsort.perm]
  obtain ⟨N, hN⟩ := linCsr_fill sort lt o b offsets hb ho hsort _ hsz
  refine ⟨N, fun fuel hf pieces hc hin hrin hcov junk => ?_⟩
  obtain ⟨s, h1, h2, h3⟩ := csr_all_pieces (fun D : Dom1 × Dom1 => D.1.contains) (fun D => D.2.contains)
    (fun D s => fillLinCSR sort o b offsets D.1 D.2 fuel s.col s.entry s.rowptr)
    (((stencilEntries b (sort offsets) (pointsOf o b)).map (linTriple o b)).map fun e => e.2)
    (fun j => rangeOf b (sort offsets) (pointsOf o b) ((pointsOf o b).getD j.toNat [])) (fun D => D ∈ pieces)
    (fun D hD s0 => hN fuel hf D.1 D.2 (hin _ hsz D hD) (hrin D hD) s0.col s0.entry s0.rowptr)
    (fillLinCSRPieces sort o b offsets fuel)
    (fun s => rfl) (fun D Ds s s' h => by simp only [fillLinCSRPieces, h]) pieces (fun D hD => hD)
    ⟨0, fun _ => none, fun _ => none, fun _ => none⟩
  refine ⟨⟨indices (stencilEntries b (sort offsets) (pointsOf o b)).length, indices (Rect.volume b),
    storedRange s.rowptr junk.range, stored s.col junk.col, stored s.entry junk.entry⟩, ?_, rfl, ?_, ?_, ?_, ?_, ?_⟩
  · unfold createLinCSRStencil
    rw [hsz, h1]
    rfl
  · exact fun j h0 h1 k => rowsHold _ _ _ _ ((h3 j).1 (hcov j h0 h1)) k
  · simp
  · intro j hj k hk
    rw [mem_indices] at hj
    have hi : j.toNat < (pointsOf o b).length := by rw [length_pointsOf]; omega
    have hk' : k < (stencilEntries b (sort offsets) (pointsOf o b)).length := by simpa using hk
    rw [rowsHold _ _ _ _ ((h3 j).1 (hcov j hj.1 hj.2)), List.getD_eq_getElem?_getD, List.getElem?_eq_getElem hi,
      Option.getD_some]
    have hp := (mem_pointsOf o b _).1 (List.getElem_mem hi)
    rw [(tiles_rangeOf o b (sort offsets) _ (enumerates_pointsOf o b)).exact _ hp k hk']
    have hlin := linearize_getElem o b _ hi
    have hrow := (mem_pointsOf o b _).1 (mem_stencilEntries (List.getElem_mem hk')).1
    simp only [List.getElem_map, linTriple]
    constructor
    · intro h; rw [h, hlin]; omega
    · intro h
      apply linearize_inj o hrow hp
      rw [h, hlin]
      omega
  all_goals
    intro k hk
    have hk' : k < (stencilEntries b (sort offsets) (pointsOf o b)).length := by simpa using hk
    obtain ⟨D, hD, hDk⟩ := hc _ hsz k hk'
    obtain ⟨D', hD', rfl⟩ := List.mem_map.1 hD
    obtain ⟨q1, q2⟩ := (h2 k (by simpa using hk)).1 ⟨D', hD', hDk⟩
    simp only [stored, q1, q2, Option.getD_some, List.getElem_map]

theorem linCsrStencil_holds (sort : List (Point × E) → List (Point × E)) (lt : E → E → Bool) (o : IndexOrder) (b : Rect)
    (offsets : List (Point × E)) (hb : b ≠ []) (ho : ∀ oe ∈ offsets, oe.1.length = b.length)
    (hsort : IsSort o lt offsets (sort offsets)) :
    ∃ N : Nat, ∀ fuel, N ≤ fuel → ∀ (pieces : List (Dom1 × Dom1)),
      CoversSize b offsets (pieces.map fun D => D.1.contains) →
      (∀ size, calculateStencilSize b offsets = some size → ∀ D ∈ pieces, ∀ j, D.1.contains j = true →
        D.1.lo ≤ j ∧ j ≤ D.1.hi ∧ 0 ≤ j ∧ j < size) →
      (∀ D ∈ pieces, ∀ j, D.2.contains j = true → D.2.lo ≤ j ∧ j ≤ D.2.hi ∧ 0 ≤ j ∧ j < Rect.volume b) →
      (∀ j : Int, 0 ≤ j → j < Rect.volume b → ∃ D ∈ pieces, D.2.contains j = true) → ∀ junk,
      ∃ m, createLinCSRStencil sort o b offsets pieces fuel junk = some m ∧ m.rows = indices (Rect.volume b) ∧
        HoldsCSR m ((stencilEntries b (sort offsets) (pointsOf o b)).map (linTriple o b)) := by
  obtain ⟨N, hN⟩ := linCsrStencil_full sort lt o b offsets hb ho hsort
  refine ⟨N, fun fuel hf pieces hc h3 h4 h5 junk => ?_⟩
  obtain ⟨m, h1, h2, -, h6⟩ := hN fuel hf pieces hc h3 h4 h5 junk
  exact ⟨m, h1, h2, h6⟩

/-! ## One row of the product -/

/-- Specification: start from `acc` and, for each offset in the given order whose target `p + offset` lies in the grid, add
`value * x (p + offset)`. -/
def stencilRow (A : Arith E) (b : Rect) (offs : List (Point × E)) (x : Point → E) (p : Point) (acc : E) : E :=
  (offs.filter fun oe => decide (InBox b (addPoint p oe.1))).foldl
    (fun acc oe => A.add acc (A.mul oe.2 (x (addPoint p oe.1)))) acc

theorem filter_row (b : Rect) (offs : List (Point × E)) (ps : List Point) (hn : ps.Nodup) (p : Point) (hp : p ∈ ps) :
    (stencilEntries b offs ps).filter (fun e => decide (e.1 = p)) = rowEntries b offs p := by
  have hself : (rowEntries b offs p).filter (fun e => decide (e.1 = p)) = rowEntries b offs p :=
    List.filter_eq_self.2 fun e he => by simp [mem_rowEntries_row he]
  have hother : ∀ q, q ≠ p → (rowEntries b offs q).filter (fun e => decide (e.1 = p)) = [] := fun q hq =>
    List.filter_eq_nil_iff.2 fun e he => by simp [mem_rowEntries_row he, hq]
  unfold stencilEntries
  induction ps with
  | nil => cases hp
  | cons q ps ih =>
    rw [List.flatMap_cons, List.filter_append]
    rw [List.nodup_cons] at hn
    by_cases hq : q = p
    · subst hq
      have : (List.flatMap (rowEntries b offs) ps).filter (fun e => decide (e.1 = q)) = [] := by
        rw [List.filter_eq_nil_iff]
        intro e he
        obtain ⟨r, hr, he⟩ := List.mem_flatMap.1 he
        rw [mem_rowEntries_row he]
        simp only [decide_eq_true_eq]
        rintro rfl
        exact hn.1 hr
      rw [hself, this, List.append_nil]
    · rw [hother q hq, List.nil_append]
      exact ih hn.2 (by simpa [Ne.symm hq] using hp)

theorem rowEntries_fold (A : Arith E) (b : Rect) (offs : List (Point × E)) (x : Point → E) (p : Point) (acc : E) :
    (rowEntries b offs p).foldl (fun acc e => A.add acc (A.mul e.2.2 (x e.2.1))) acc = stencilRow A b offs x p acc := by
  unfold stencilRow rowEntries
  induction offs generalizing acc with
  | nil => rfl
  | cons oe offs ih =>
    by_cases h : InBox b (addPoint p oe.1)
    · simp [h, ih]
    · simp [h, ih]

/-! ## C51 -/

/-- **C51**, COO: for every grid, offset list, order and sort result, every cutting of the kernel space into pieces and every
initial memory contents (`junk`), building the matrix succeeds, and its product - any arithmetic, any partition of the
vectors, any schedule - adds to output element `p` the products `value * x (p + offset)` over the offsets whose target is in the grid, in
sorted order, and changes nothing else. -/
theorem c51_coo_product (sort : List (Point × E) → List (Point × E)) (lt : E → E → Bool) (o : IndexOrder) (b : Rect)
    (offsets : List (Point × E)) (hb : b ≠ []) (ho : ∀ oe ∈ offsets, oe.1.length = b.length)
    (hsort : IsSort o lt offsets (sort offsets)) :
    ∃ N : Nat, ∀ fuel, N ≤ fuel → ∀ pieces, CoversSize b offsets pieces → ∀ junk,
      ∃ m, createCOOStencil sort o b offsets pieces fuel junk = some m ∧
        ∀ (A : Arith E) (env : Env Point) (dst src : Vec) (space : List Point) (n : Nat) (s : Cell Point → E),
          src.data ≠ dst.data → (∀ p, p ∈ space ↔ InBox b p) → IsPartition space (env.pieces dst.part) →
          Ensures (m.matvec A env dst src (m.kernelFromRange (env.pieces dst.part))
              (m.domainFromRange space (env.pieces dst.part))) n s fun _ s' =>
            OnlyChanged s s' dst space fun p =>
              stencilRow A b (sort offsets) (fun q => s (.elem src.data q)) p (s (.elem dst.data p)) := by
  obtain ⟨N, hN⟩ := cooStencil_holds sort lt o b offsets hb ho hsort
  refine ⟨N, fun fuel hf pieces hc junk => ?_⟩
  obtain ⟨m, h1, h2⟩ := hN fuel hf pieces hc junk
  refine ⟨m, h1, fun A env dst src space n s hne hsp hp => ?_⟩
  obtain ⟨a, k, ts, q1, q2, q3⟩ := h2.matvec A env dst src hne space hp
    (fun e he => (hsp _).2 (mem_stencilEntries he).2) n s
  refine ⟨a, k, ts, q1, q2, fun M' h5 h6 => ?_⟩
  obtain ⟨h7, h8⟩ := q3 M' h5 h6
  refine ⟨fun p hp => ?_, h8⟩
  rw [h7 p hp]
  beta_reduce
  rw [filter_row b _ _ (pointsOf_nodup o b) p ((mem_pointsOf o b p).2 ((hsp p).1 hp)),
    ← rowEntries_fold A b (sort offsets) (fun q => s (.elem src.data q)) p]

/-- **C51**, CSR: the same result, element for element and in every arithmetic. -/
theorem c51_csr_product (sort : List (Point × E) → List (Point × E)) (lt : E → E → Bool) (o : IndexOrder) (b : Rect)
    (offsets : List (Point × E)) (hb : b ≠ []) (ho : ∀ oe ∈ offsets, oe.1.length = b.length)
    (hsort : IsSort o lt offsets (sort offsets)) :
    ∃ N : Nat, ∀ fuel, N ≤ fuel → ∀ (rows : List Point) (pieces : List ((Int → Bool) × (Point → Bool))),
      (∀ p, p ∈ rows ↔ InBox b p) → CoversSize b offsets (pieces.map Prod.fst) →
      (∀ D ∈ pieces, ∀ p, D.2 p = true → InBox b p) → (∀ p, InBox b p → ∃ D ∈ pieces, D.2 p = true) → ∀ junk,
      ∃ m, createCSRStencil sort o b offsets rows pieces fuel junk = some m ∧
        ∀ (A : Arith E) (env : Env Point) (dst src : Vec) (n : Nat) (s : Cell Point → E),
          src.data ≠ dst.data → IsPartition rows (env.pieces dst.part) →
          Ensures (m.matvec A env dst src (m.kernelFromRange (env.pieces dst.part))
              (m.domainFromRange rows (env.pieces dst.part))) n s fun _ s' =>
            OnlyChanged s s' dst rows fun p =>
              stencilRow A b (sort offsets) (fun q => s (.elem src.data q)) p (s (.elem dst.data p)) := by
  obtain ⟨N, hN⟩ := csrStencil_holds sort lt o b offsets hb ho hsort
  refine ⟨N, fun fuel hf rows pieces hsp hc h3 h4 junk => ?_⟩
  obtain ⟨m, h1, hr, h2⟩ := hN fuel hf rows pieces hsp hc h3 h4 junk
  refine ⟨m, h1, fun A env dst src n s hne hp => ?_⟩
  obtain ⟨a, k, ts, q1, q2, q3⟩ := h2.matvec A env dst src hne rows (by rw [hr]; exact hp)
    (fun e he => (hsp _).2 (mem_stencilEntries he).2) n s
  refine ⟨a, k, ts, q1, q2, fun M' h5 h6 => ?_⟩
  obtain ⟨h7, h8⟩ := q3 M' h5 h6
  rw [hr] at h7 h8
  refine ⟨fun p hp => ?_, h8⟩
  rw [h7 p hp]
  beta_reduce
  rw [filter_row b _ _ (pointsOf_nodup o b) p ((mem_pointsOf o b p).2 ((hsp p).1 hp)),
    ← rowEntries_fold A b (sort offsets) (fun q => s (.elem src.data q)) p]

/-- **C51**, linearised CSR: on one-dimensional vectors holding grid point `p` at its linear number, the same result. -/
theorem c51_linearized_product (sort : List (Point × E) → List (Point × E)) (lt : E → E → Bool) (o : IndexOrder) (b : Rect)
    (offsets : List (Point × E)) (hb : b ≠ []) (ho : ∀ oe ∈ offsets, oe.1.length = b.length)
    (hsort : IsSort o lt offsets (sort offsets)) :
    ∃ N : Nat, ∀ fuel, N ≤ fuel → ∀ (pieces : List (Dom1 × Dom1)),
      CoversSize b offsets (pieces.map fun D => D.1.contains) →
      (∀ size, calculateStencilSize b offsets = some size → ∀ D ∈ pieces, ∀ j, D.1.contains j = true →
        D.1.lo ≤ j ∧ j ≤ D.1.hi ∧ 0 ≤ j ∧ j < size) →
      (∀ D ∈ pieces, ∀ j, D.2.contains j = true → D.2.lo ≤ j ∧ j ≤ D.2.hi ∧ 0 ≤ j ∧ j < Rect.volume b) →
      (∀ j : Int, 0 ≤ j → j < Rect.volume b → ∃ D ∈ pieces, D.2.contains j = true) → ∀ junk,
      ∃ m, createLinCSRStencil sort o b offsets pieces fuel junk = some m ∧
        ∀ (A : Arith E) (env : Env Int) (dst src : Vec) (n : Nat) (s : Cell Int → E),
          src.data ≠ dst.data → IsPartition (indices (Rect.volume b)) (env.pieces dst.part) →
          Ensures (m.matvec A env dst src (m.kernelFromRange (env.pieces dst.part))
              (m.domainFromRange (indices (Rect.volume b)) (env.pieces dst.part))) n s fun _ s' =>
            (∀ p, InBox b p → s' (.elem dst.data (linearize o b p)) =
              stencilRow A b (sort offsets) (fun q => s (.elem src.data (linearize o b q))) p
                (s (.elem dst.data (linearize o b p)))) ∧
            ∀ c, (∀ p, InBox b p → c ≠ .elem dst.data (linearize o b p)) → s' c = s c := by
  obtain ⟨N, hN⟩ := linCsrStencil_holds sort lt o b offsets hb ho hsort
  refine ⟨N, fun fuel hf pieces hc h3 h4 h5 junk => ?_⟩
  obtain ⟨m, h1, hr, h2⟩ := hN fuel hf pieces hc h3 h4 h5 junk
  refine ⟨m, h1, fun A env dst src n s hne hp => ?_⟩
  obtain ⟨a, k, ts, q1, q2, q3⟩ := h2.matvec A env dst src hne (indices (Rect.volume b)) (by rw [hr]; exact hp)
    (fun e he => by
      obtain ⟨e', he', rfl⟩ := List.mem_map.1 he
      obtain ⟨h6, h7⟩ := linearize_bounds o b _ (mem_stencilEntries he').2
      exact (mem_indices _ _).2 ⟨h6, h7⟩) n s
  refine ⟨a, k, ts, q1, q2, fun M' h5 h6 => ?_⟩
  obtain ⟨h7, h8⟩ := q3 M' h5 h6
  rw [hr] at h7 h8
  constructor
  · intro p hp
    obtain ⟨h9, h10⟩ := linearize_bounds o b p hp
    rw [h7 _ ((mem_indices _ _).2 ⟨h9, h10⟩)]
    beta_reduce
    rw [List.filter_map]
    have : (stencilEntries b (sort offsets) (pointsOf o b)).filter
        ((fun e => decide (e.1 = linearize o b p)) ∘ linTriple o b) = rowEntries b (sort offsets) p := by
      rw [← filter_row b _ _ (pointsOf_nodup o b) p ((mem_pointsOf o b p).2 hp)]
      apply List.filter_congr
      intro e he
      have hrow := (mem_pointsOf o b _).1 (mem_stencilEntries he).1
      show decide ((linTriple o b e).1 = linearize o b p) = decide (e.1 = p)
      rw [Bool.eq_iff_iff, decide_eq_true_iff, decide_eq_true_iff]
      exact ⟨fun h => linearize_inj o hrow hp h, fun h => by show linearize o b e.1 = _; rw [h]⟩
    rw [this, List.foldl_map, ← rowEntries_fold A b (sort offsets) (fun q => s (.elem src.data (linearize o b q))) p]
    rfl
  · intro c hc'
    apply h8
    intro j hj
    rw [mem_indices] at hj
    obtain ⟨p, h9, h10⟩ := (c02_linearize_bijection o b).2.2.1 j hj.1 hj.2
    rw [← h10]
    exact hc' p h9

/-- **C51**, exact arithmetic: the row is the sum over the offsets as given, whatever `std::sort` did. -/
theorem c51_exact_row [Field E] (A : Arith E) (hA : A.Exact) (b : Rect) (offsets sorted : List (Point × E))
    (hperm : sorted.Perm offsets) (x : Point → E) (p : Point) (acc : E) :
    stencilRow A b sorted x p acc =
      acc + (offsets.map fun oe => if InBox b (addPoint p oe.1) then oe.2 * x (addPoint p oe.1) else 0).sum := by
  have h1 : ∀ l : List (Point × E), ∀ acc, stencilRow A b l x p acc =
      acc + (l.map fun oe => if InBox b (addPoint p oe.1) then oe.2 * x (addPoint p oe.1) else 0).sum := by
    intro l
    induction l with
    | nil => intro acc; simp [stencilRow]
    | cons oe l ih =>
      intro acc
      rw [List.map_cons, List.sum_cons]
      by_cases h : InBox b (addPoint p oe.1)
      · rw [if_pos h]
        have : stencilRow A b (oe :: l) x p acc = stencilRow A b l x p (A.add acc (A.mul oe.2 (x (addPoint p oe.1)))) := by
          simp [stencilRow, h]
        rw [this, ih, hA.add, hA.mul]
        ring
      · rw [if_neg h]
        have : stencilRow A b (oe :: l) x p acc = stencilRow A b l x p acc := by simp [stencilRow, h]
        rw [this, ih, zero_add]
  rw [h1, (hperm.map _).sum_eq]

end Verif.EndToEnd
