import Verif.Machine.StencilModel
import Verif.Machine.Props
import Verif.Stencil.Props
import Mathlib.Tactic.Linarith
import Mathlib.Tactic.Ring
/-! # C78: the stencil builders in machine integers -/
set_option linter.dupNamespace false
set_option linter.unusedSectionVars false
namespace Verif.Machine
open Verif.Grid Verif.Stencil Verif.Matrix Verif.EndToEnd

variable {E : Type}

/-- What must be representable in the coordinate type `t`: the bounds of every side, one more than the upper bound, the number of
points of every side; and, for every offset, the bounds moved by it and its absolute value. -/
structure Representable (t : CType) (b : Rect) (offsets : List (Point × E)) : Prop where
  side : ∀ lh ∈ b, t.Fits lh.1 ∧ t.Fits (lh.2 + 1) ∧ t.Fits (lh.2 - lh.1 + 1)
  shift : ∀ oe ∈ offsets, List.Forall₂ (fun lh d => t.Fits (lh.1 + d) ∧ t.Fits (lh.2 + d) ∧ t.Fits |d|) b oe.1

/-! ## Points -/

theorem fits_between {t : CType} {a c z : Int} (ha : t.Fits a) (hc : t.Fits c) (h1 : a ≤ z) (h2 : z ≤ c) : t.Fits z :=
  ⟨le_trans ha.1 h1, le_trans h2 hc.2⟩

theorem addPoint_exact {t : CType} {b : Rect} {p d : Point} (hp : InBox b p)
    (hd : List.Forall₂ (fun lh d => t.Fits (lh.1 + d) ∧ t.Fits (lh.2 + d) ∧ t.Fits |d|) b d) :
    addPoint t p d = some (Grid.addPoint p d) := by
  induction hp generalizing d with
  | nil => cases hd; rfl
  | @cons lh x b p hx hp ih =>
    cases hd with
    | @cons _ y _ d hy hd =>
      simp only [addPoint, ih hd]
      rw [bind_ev (fits_between hy.1 hy.2.1 (by omega) (by omega))]
      rfl

theorem incRM_exact {t : CType} {b : Rect} {p : Point} (hp : InBox b p) (hs : ∀ lh ∈ b, t.Fits lh.1 ∧ t.Fits lh.2) :
    incrementRowMajor t b p = some (Grid.incrementRowMajor b p) := by
  induction hp with
  | nil => rfl
  | @cons lh x b p hx hp ih =>
    obtain ⟨l, h⟩ := lh
    simp only at hx
    have hf := hs (l, h) (by simp)
    simp only at hf
    simp only [incrementRowMajor, Grid.incrementRowMajor, ih (fun a ha => hs a (by simp [ha])), Option.bind_eq_bind, Option.bind_some]
    rcases Grid.incrementRowMajor b p with ⟨r, q⟩
    cases r with
    | true => rfl
    | false =>
      simp only []
      by_cases hx2 : x ≥ h
      · rw [if_pos hx2, if_pos hx2]; rfl
      · rw [if_neg hx2, if_neg hx2, ev_fits (fits_between hf.1 hf.2 (by omega) (by omega))]; rfl

theorem incCM_exact {t : CType} {b : Rect} {p : Point} (hp : InBox b p) (hs : ∀ lh ∈ b, t.Fits lh.1 ∧ t.Fits lh.2) :
    incrementColumnMajor t b p = some (Grid.incrementColumnMajor b p) := by
  induction hp with
  | nil => rfl
  | @cons lh x b p hx hp ih =>
    obtain ⟨l, h⟩ := lh
    simp only at hx
    have hf := hs (l, h) (by simp)
    simp only at hf
    simp only [incrementColumnMajor, Grid.incrementColumnMajor, ih (fun a ha => hs a (by simp [ha])), Option.bind_eq_bind,
      Option.bind_some]
    by_cases hx2 : x ≥ h
    · rw [if_pos hx2, if_pos hx2]; rfl
    · rw [if_neg hx2, if_neg hx2, ev_fits (fits_between hf.1 hf.2 (by omega) (by omega))]; rfl

theorem increment_exact {t : CType} (o : IndexOrder) {b : Rect} {p : Point} (hp : InBox b p)
    (hs : ∀ lh ∈ b, t.Fits lh.1 ∧ t.Fits lh.2) : increment t o b p = some (Grid.increment o b p) := by
  cases o with
  | rowMajor => exact incRM_exact hp hs
  | columnMajor => exact incCM_exact hp hs

theorem doWhile_chain_m {S : Type} (inc : Point → Option (Bool × Point)) (body : S → Point → Option S)
    (l : List Point) (p : Point) (s : S) (fuel : Nat)
    (hc : List.IsChain (fun a b => inc a = some (true, b)) (p :: l))
    (hlast : ∃ q, inc ((p :: l).getLast (by simp)) = some (false, q)) (hf : (p :: l).length ≤ fuel) :
    doWhile inc body fuel s p = (p :: l).foldlM body s := by
  induction l generalizing p s fuel with
  | nil =>
    cases fuel with
    | zero => simp at hf
    | succ fuel =>
      obtain ⟨q, hq⟩ := hlast
      simp only [List.getLast_singleton] at hq
      simp only [doWhile, hq, List.foldlM_cons, List.foldlM_nil, Option.bind_eq_bind, Option.bind_some]
  | cons q l ih =>
    cases fuel with
    | zero => simp at hf
    | succ fuel =>
      rw [List.isChain_cons_cons] at hc
      rw [List.foldlM_cons]
      simp only [doWhile, hc.1, Option.bind_eq_bind, Option.bind_some]
      cases body s p with
      | none => rfl
      | some s' =>
        simp only [Option.bind_some]
        exact ih q s' fuel hc.2 (by simpa using hlast) (by simpa using hf)

theorem doWhile_points_m {S : Type} {t : CType} (o : IndexOrder) {b : Rect} (hb : Grid.Nonempty b)
    (hs : ∀ lh ∈ b, t.Fits lh.1 ∧ t.Fits lh.2) (body : S → Point → Option S) (s : S) (fuel : Nat) (hf : Rect.volume b ≤ fuel) :
    doWhile (increment t o b) body fuel s (Rect.lo b) = (pointsOf o b).foldlM body s := by
  obtain ⟨c, hd, tl⟩ := pointsOf_chain o b hb
  have hl := length_pointsOf o b
  have hm := mem_pointsOf o b
  rcases hp : pointsOf o b with _ | ⟨p, l⟩
  · rw [hp] at hd; simp at hd
  · rw [hp] at c hd tl hl hm
    have e : p = Rect.lo b := by simpa using hd
    subst e
    refine doWhile_chain_m _ _ _ _ _ _ ?_ ?_ (by omega)
    · refine List.IsChain.imp_of_mem_imp ?_ c
      intro x y hx _ hxy
      rw [increment_exact o ((hm x).1 hx) hs, hxy]
    · have e : (Rect.lo b :: l).getLast (by simp) = Rect.hi b := by
        rw [List.getLast?_eq_some_getLast (by simp)] at tl
        exact Option.some.inj tl
      refine ⟨Rect.lo b, ?_⟩
      rw [e, increment_exact o (inBox_hi hb) hs, increment_hi]

/-! ## Loops with a counter -/

theorem foldlM_exact {A S : Type} {f : S → A → Option S} {g : S → A → S} (k : S → Int) {c M : Int} (hc : 0 ≤ c) (l : List A)
    (hf : ∀ a ∈ l, ∀ s, 0 ≤ k s → k s + c ≤ M → f s a = some (g s a) ∧ 0 ≤ k (g s a) ∧ k (g s a) ≤ k s + c)
    (s : S) (h0 : 0 ≤ k s) (h : k s + l.length * c ≤ M) :
    l.foldlM f s = some (l.foldl g s) ∧ 0 ≤ k (l.foldl g s) ∧ k (l.foldl g s) ≤ k s + l.length * c := by
  induction l generalizing s with
  | nil => refine ⟨rfl, h0, ?_⟩; simp
  | cons a l ih =>
    have e : ((a :: l).length : Int) * c = l.length * c + c := by push_cast [List.length_cons]; ring
    rw [e] at h ⊢
    have hp : 0 ≤ (l.length : Int) * c := mul_nonneg (by omega) hc
    obtain ⟨h1, h2, h3⟩ := hf a (by simp) s h0 (by omega)
    obtain ⟨h4, h5, h6⟩ := ih (fun b hb => hf b (by simp [hb])) (g s a) h2 (by omega)
    rw [List.foldlM_cons, h1]
    exact ⟨h4, h5, by rw [List.foldl_cons]; omega⟩

/-! ## Fill tasks -/

section
variable {t : CType} {b : Rect} {offs : List (Point × E)}

theorem int64_fits {z : Int} (h0 : -1 ≤ z) (h1 : z ≤ int64.max) : int64.Fits z := by
  refine ⟨le_trans ?_ h0, h1⟩
  decide

theorem cooOffset_exact (dom : Int → Bool) {p : Point} (hp : InBox b p) (hr : Representable t b offs) (s : COOState Point Point E)
    (oe : Point × E) (ho : oe ∈ offs) (h0 : 0 ≤ s.kernelIndex) (h1 : s.kernelIndex + 1 ≤ int64.max) :
    cooOffsetStep t b dom p s oe = some (Stencil.cooOffsetStep b dom p s oe) ∧
      0 ≤ (Stencil.cooOffsetStep b dom p s oe).kernelIndex ∧ (Stencil.cooOffsetStep b dom p s oe).kernelIndex ≤ s.kernelIndex + 1 := by
  simp only [cooOffsetStep, Stencil.cooOffsetStep, addPoint_exact hp (hr.shift oe ho), Option.bind_eq_bind, Option.bind_some]
  by_cases hc : Rect.contains b (Grid.addPoint p oe.1) = true
  · rw [if_pos hc, if_pos hc, ev_fits (int64_fits (by omega) h1)]
    refine ⟨rfl, ?_, ?_⟩ <;> simp only [] <;> omega
  · rw [if_neg hc, if_neg hc]
    exact ⟨rfl, h0, by omega⟩

theorem linCooOffset_exact (o : IndexOrder) (dom : Int → Bool) {p : Point} (hp : InBox b p) (hr : Representable t b offs)
    (hv : (Rect.volume b : Int) ≤ t.max) (s : COOState Int Int E)
    (oe : Point × E) (ho : oe ∈ offs) (h0 : 0 ≤ s.kernelIndex) (h1 : s.kernelIndex + 1 ≤ int64.max) :
    linCooOffsetStep t o b dom p s oe = some (Stencil.linCooOffsetStep o b dom p s oe) ∧
      0 ≤ (Stencil.linCooOffsetStep o b dom p s oe).kernelIndex ∧
      (Stencil.linCooOffsetStep o b dom p s oe).kernelIndex ≤ s.kernelIndex + 1 := by
  simp only [linCooOffsetStep, Stencil.linCooOffsetStep, addPoint_exact hp (hr.shift oe ho), Option.bind_eq_bind, Option.bind_some]
  by_cases hc : Rect.contains b (Grid.addPoint p oe.1) = true
  · rw [if_pos hc, if_pos hc, c43_linearize t o b p hp hv, c43_linearize t o b _ ((contains_iff _ _).1 hc) hv,
      ev_fits (int64_fits (by omega) h1)]
    refine ⟨?_, ?_, ?_⟩
    · by_cases hd : dom s.kernelIndex = true
      · rw [if_pos hd, if_pos hd]; rfl
      · rw [if_neg hd, if_neg hd]; rfl
    · simp only []; omega
    · simp only []; omega
  · rw [if_neg hc, if_neg hc]
    exact ⟨rfl, h0, by omega⟩

theorem csrOffset_exact {R C : Type} (dom : Int → Bool) (colOf : Point → Option C) (g : Point → C)
    (hg : ∀ q, InBox b q → colOf q = some (g q)) {p : Point} (hp : InBox b p) (hr : Representable t b offs) (s : CSRState R C E)
    (oe : Point × E) (ho : oe ∈ offs) (h0 : 0 ≤ s.kernelIndex) (h1 : s.kernelIndex + 1 ≤ int64.max) :
    csrOffsetStep t b dom colOf p s oe = some (Stencil.csrOffsetStep b dom g p s oe) ∧
      0 ≤ (Stencil.csrOffsetStep b dom g p s oe).kernelIndex ∧
      (Stencil.csrOffsetStep b dom g p s oe).kernelIndex ≤ s.kernelIndex + 1 := by
  simp only [csrOffsetStep, Stencil.csrOffsetStep, addPoint_exact hp (hr.shift oe ho), Option.bind_eq_bind, Option.bind_some]
  by_cases hc : Rect.contains b (Grid.addPoint p oe.1) = true
  · rw [if_pos hc, if_pos hc, hg _ ((contains_iff _ _).1 hc), ev_fits (int64_fits (by omega) h1)]
    refine ⟨?_, ?_, ?_⟩
    · by_cases hd : dom s.kernelIndex = true
      · rw [if_pos hd, if_pos hd]; rfl
      · rw [if_neg hd, if_neg hd]; rfl
    · simp only []; omega
    · simp only []; omega
  · rw [if_neg hc, if_neg hc]
    exact ⟨rfl, h0, by omega⟩

theorem Representable.perm {offs' : List (Point × E)} (hr : Representable t b offs) (h : offs'.Perm offs) : Representable t b offs' :=
  ⟨hr.side, fun oe ho => hr.shift oe (h.mem_iff.1 ho)⟩

theorem Representable.sides (hr : Representable t b offs) (hb : Grid.Nonempty b) : ∀ lh ∈ b, t.Fits lh.1 ∧ t.Fits lh.2 :=
  fun lh h => ⟨(hr.side lh h).1, fits_between (hr.side lh h).1 (hr.side lh h).2.1 (hb lh h) (by omega)⟩

/-- **C78**, COO fill task: if the coordinates of the grid and of every shifted point are representable and the kernel indices fit
`coord_t`, the task computes in machine integers exactly what it computes in mathematical integers. -/
theorem c78_fill_coo (t : CType) (sort : List (Point × E) → List (Point × E)) (o : IndexOrder) (b : Rect) (offs : List (Point × E))
    (hsort : (sort offs).Perm offs) (hr : Representable t b offs) (hb : Grid.Nonempty b)
    (hk : (Rect.volume b * offs.length : Nat) ≤ int64.max) (dom : Int → Bool) (fuel : Nat) (hf : Rect.volume b ≤ fuel)
    (row col : Int → Option Point) (entry : Int → Option E) :
    fillCOO t sort o b offs dom fuel row col entry = Stencil.fillCOO sort o b offs dom fuel row col entry := by
  unfold fillCOO Stencil.fillCOO
  simp only []
  rw [doWhile_points_m o hb (hr.sides hb) _ _ _ hf, doWhile_points o b hb _ _ _ hf]
  refine (foldlM_exact (k := fun s : COOState Point Point E => s.kernelIndex) (c := offs.length) (M := int64.max) (by omega) _ ?_ _
    (le_refl 0) ?_).1
  · intro p hp s h0 h1
    have := foldlM_exact (k := fun s : COOState Point Point E => s.kernelIndex) (c := 1) (M := int64.max) (by omega) (sort offs)
      (fun oe ho s h0 h1 => cooOffset_exact dom ((mem_pointsOf o b p).1 hp) (hr.perm hsort) s oe ho h0 h1) s h0
      (by rw [hsort.length_eq]; omega)
    rw [hsort.length_eq, mul_one] at this
    exact this
  · rw [length_pointsOf]; push_cast at hk; simpa using hk

/-- **C78**, linearised COO fill task: also the number of points must fit the coordinate type. -/
theorem c78_fill_lin_coo (t : CType) (sort : List (Point × E) → List (Point × E)) (o : IndexOrder) (b : Rect) (offs : List (Point × E))
    (hsort : (sort offs).Perm offs) (hr : Representable t b offs) (hb : Grid.Nonempty b) (hv : (Rect.volume b : Int) ≤ t.max)
    (hk : (Rect.volume b * offs.length : Nat) ≤ int64.max) (dom : Int → Bool) (fuel : Nat) (hf : Rect.volume b ≤ fuel)
    (row col : Int → Option Int) (entry : Int → Option E) :
    fillLinCOO t sort o b offs dom fuel row col entry = Stencil.fillLinCOO sort o b offs dom fuel row col entry := by
  unfold fillLinCOO Stencil.fillLinCOO
  simp only []
  rw [doWhile_points_m o hb (hr.sides hb) _ _ _ hf, doWhile_points o b hb _ _ _ hf]
  refine (foldlM_exact (k := fun s : COOState Int Int E => s.kernelIndex) (c := offs.length) (M := int64.max) (by omega) _ ?_ _
    (le_refl 0) ?_).1
  · intro p hp s h0 h1
    have := foldlM_exact (k := fun s : COOState Int Int E => s.kernelIndex) (c := 1) (M := int64.max) (by omega) (sort offs)
      (fun oe ho s h0 h1 => linCooOffset_exact o dom ((mem_pointsOf o b p).1 hp) (hr.perm hsort) hv s oe ho h0 h1) s h0
      (by rw [hsort.length_eq]; omega)
    rw [hsort.length_eq, mul_one] at this
    exact this
  · rw [length_pointsOf]; push_cast at hk; simpa using hk

theorem csrRow_exact {R C : Type} (dom : Int → Bool) (colOf : Point → Option C) (g : Point → C)
    (hg : ∀ q, InBox b q → colOf q = some (g q)) {p : Point} (hp : InBox b p) (hr : Representable t b offs) (s : CSRState R C E)
    (h0 : 0 ≤ s.kernelIndex) (h1 : s.kernelIndex + offs.length ≤ int64.max) :
    offs.foldlM (csrOffsetStep t b dom colOf p) s = some (offs.foldl (Stencil.csrOffsetStep b dom g p) s) ∧
      0 ≤ (offs.foldl (Stencil.csrOffsetStep b dom g p) s).kernelIndex ∧
      (offs.foldl (Stencil.csrOffsetStep b dom g p) s).kernelIndex ≤ s.kernelIndex + offs.length := by
  have := foldlM_exact (k := fun s : CSRState R C E => s.kernelIndex) (c := 1) (M := int64.max) (by omega) offs
    (fun oe ho s h0 h1 => csrOffset_exact dom colOf g hg hp hr s oe ho h0 h1) s h0 (by omega)
  rw [mul_one] at this
  exact this

/-- **C78**, CSR fill task. -/
theorem c78_fill_csr (t : CType) (sort : List (Point × E) → List (Point × E)) (o : IndexOrder) (b : Rect) (offs : List (Point × E))
    (hsort : (sort offs).Perm offs) (hr : Representable t b offs) (hb : Grid.Nonempty b)
    (hk : (Rect.volume b * offs.length : Nat) ≤ int64.max) (dom : Int → Bool) (rdom : Point → Bool) (fuel : Nat)
    (hf : Rect.volume b ≤ fuel) (col : Int → Option Point) (entry : Int → Option E) (rp : Point → Option (Int × Int)) :
    fillCSR t sort o b offs dom rdom fuel col entry rp = Stencil.fillCSR sort o b offs dom rdom fuel col entry rp := by
  unfold fillCSR Stencil.fillCSR
  simp only []
  rw [doWhile_points_m o hb (hr.sides hb) _ _ _ hf, doWhile_points o b hb _ _ _ hf]
  refine (foldlM_exact (k := fun s : CSRState Point Point E => s.kernelIndex) (c := offs.length) (M := int64.max) (by omega) _ ?_ _
    (le_refl 0) ?_).1
  · intro p hp s h0 h1
    obtain ⟨e1, e2, e3⟩ := csrRow_exact dom some id (fun _ _ => rfl) ((mem_pointsOf o b p).1 hp) (hr.perm hsort) s h0
      (by rw [hsort.length_eq]; omega)
    rw [hsort.length_eq] at e3
    simp only [csrRowStep, Stencil.csrRowStep, e1, Option.bind_eq_bind, Option.bind_some]
    rw [ev_fits (int64_fits (by omega) (by omega))]
    refine ⟨rfl, ?_, ?_⟩ <;> split <;> assumption
  · rw [length_pointsOf]; push_cast at hk; simpa using hk

theorem linCsrRow_exact (o : IndexOrder) (dom rdom : Dom1) (hv : (Rect.volume b : Int) ≤ t.max) {p : Point} (hp : InBox b p)
    (hr : Representable t b offs) (s : CSRState Int Int E) (h0 : 0 ≤ s.kernelIndex) (h1 : s.kernelIndex + offs.length ≤ int64.max) :
    linCsrRowStep t o b offs dom rdom s p (Grid.linearize o b p) = some (Stencil.linCsrRowStep o b offs dom rdom s p) ∧
      0 ≤ (Stencil.linCsrRowStep o b offs dom rdom s p).kernelIndex ∧
      (Stencil.linCsrRowStep o b offs dom rdom s p).kernelIndex ≤ s.kernelIndex + offs.length ∧
      s.kernelIndex ≤ (Stencil.linCsrRowStep o b offs dom rdom s p).kernelIndex := by
  obtain ⟨e1, e2, e3⟩ := csrRow_exact dom.contains (linearize t o b) (Grid.linearize o b) (fun q hq => c43_linearize t o b q hq hv)
    hp hr s h0 h1
  have e4 : s.kernelIndex ≤ (offs.foldl (Stencil.csrOffsetStep b dom.contains (Grid.linearize o b) p) s).kernelIndex := by
    clear e1 e2 e3 h0 h1 hr
    induction offs generalizing s with
    | nil => exact le_refl _
    | cons a offs ih =>
      refine le_trans ?_ (ih _)
      unfold Stencil.csrOffsetStep
      simp only []
      split
      · simp only []; omega
      · exact le_refl _
  simp only [linCsrRowStep, Stencil.linCsrRowStep, e1, Option.bind_eq_bind, Option.bind_some]
  rw [ev_fits (int64_fits (by omega) (by omega))]
  refine ⟨rfl, ?_, ?_, ?_⟩ <;> split <;> assumption

end

end Verif.Machine
