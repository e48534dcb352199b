import Verif.Stencil.FillLemmas
/- Helper lemmas about the CSR stencil fill tasks. -/
namespace Verif.Stencil
open Verif.Grid

variable {E : Type _}

theorem stencilEntries_append (b : Rect) (offs : List (Point × E)) (ps qs : List Point) :
    stencilEntries b offs (ps ++ qs) = stencilEntries b offs ps ++ stencilEntries b offs qs := by
  simp [stencilEntries]

theorem stencilEntries_snoc (b : Rect) (offs : List (Point × E)) (ps : List Point) (p : Point) :
    stencilEntries b offs (ps ++ [p]) = stencilEntries b offs ps ++ rowEntries b offs p := by
  simp [stencilEntries]

/-- kernel part of a CSR state after placing the entries `es` -/
def csrAt {R C : Type _} (g : Point → C) (D : Int → Bool) (col : Int → Option C) (entry : Int → Option E)
    (rp : R → Option (Int × Int)) (es : List (Point × Point × E)) : CSRState R C E :=
  ⟨es.length, place col D (es.map fun e => g e.2.1), place entry D (es.map fun e => e.2.2), rp⟩

theorem csrOffsetStep_at {R C : Type _} (b : Rect) (D : Int → Bool) (g : Point → C) (p : Point)
    (col : Int → Option C) (entry : Int → Option E) (rp : R → Option (Int × Int))
    (es : List (Point × Point × E)) (oe : Point × E) :
    csrOffsetStep b D g p (csrAt g D col entry rp es) oe =
      csrAt g D col entry rp
        (es ++ if Rect.contains b (addPoint p oe.1) then [(p, addPoint p oe.1, oe.2)] else []) := by
  unfold csrOffsetStep
  by_cases h : Rect.contains b (addPoint p oe.1) = true
  · simp only [h, if_true]
    by_cases hD : D es.length = true <;> simp [csrAt, place_snoc, hD]
  · simp only [h]; simp

theorem csrRow_at {R C : Type _} (b : Rect) (D : Int → Bool) (g : Point → C) (p : Point)
    (col : Int → Option C) (entry : Int → Option E) (rp : R → Option (Int × Int))
    (offs : List (Point × E)) (es : List (Point × Point × E)) :
    offs.foldl (csrOffsetStep b D g p) (csrAt g D col entry rp es) =
      csrAt g D col entry rp (es ++ rowEntries b offs p) := by
  induction offs generalizing es with
  | nil => simp [rowEntries]
  | cons oe offs ih => rw [List.foldl_cons, csrOffsetStep_at, ih, rowEntries_cons, List.append_assoc]

/-- row pointers after processing the rows `ps` -/
def rpAt (rdom : Point → Bool) (init : Point → Option (Int × Int)) (b : Rect) (offs : List (Point × E))
    (ps : List Point) : Point → Option (Int × Int) := fun p =>
  if rdom p = true ∧ p ∈ ps then
    some (((stencilEntries b offs (ps.takeWhile (· ≠ p))).length : Int),
      ((stencilEntries b offs (ps.takeWhile (· ≠ p))).length : Int) + (rowEntries b offs p).length - 1)
  else init p

theorem takeWhile_append_of_mem {α : Type _} [DecidableEq α] (l : List α) (q p : α) (h : p ∈ l) :
    (l ++ [q]).takeWhile (· ≠ p) = l.takeWhile (· ≠ p) := by
  induction l with
  | nil => simp at h
  | cons a l ih =>
    by_cases ha : a = p
    · simp [ha]
    · have : p ∈ l := by
        rcases List.mem_cons.1 h with h | h
        · exact absurd h.symm ha
        · exact h
      simp only [List.cons_append]
      rw [List.takeWhile_cons_of_pos (by simp [ha]), List.takeWhile_cons_of_pos (by simp [ha]), ih this]

theorem takeWhile_snoc_self {α : Type _} [DecidableEq α] (l : List α) (q : α) (h : q ∉ l) :
    (l ++ [q]).takeWhile (· ≠ q) = l := by
  induction l with
  | nil => simp
  | cons a l ih =>
    have ha : a ≠ q := fun e => h (by simp [e])
    have hl : q ∉ l := fun e => h (by simp [e])
    simp only [List.cons_append]
    rw [List.takeWhile_cons_of_pos (by simp [ha]), ih hl]

theorem takeWhile_take {α : Type _} [DecidableEq α] (l : List α) (hn : l.Nodup) (i : Nat) (hi : i < l.length) :
    l.takeWhile (· ≠ l[i]) = l.take i := by
  induction l generalizing i with
  | nil => simp at hi
  | cons a l ih =>
    cases i with
    | zero => simp
    | succ i =>
      have hi' : i < l.length := by simpa using hi
      have hne : a ≠ l[i] := by
        intro e
        rw [List.nodup_cons] at hn
        exact hn.1 (e ▸ List.getElem_mem hi')
      simp only [List.getElem_cons_succ, List.take_succ_cons]
      rw [List.takeWhile_cons_of_pos (by simpa using hne), ih (List.nodup_cons.1 hn).2 i hi']

theorem csrRowStep_at (b : Rect) (offs : List (Point × E)) (D : Int → Bool) (rdom : Point → Bool)
    (col : Int → Option Point) (entry : Int → Option E) (init : Point → Option (Int × Int))
    (ps : List Point) (p : Point) (hp : p ∉ ps) :
    csrRowStep b offs D rdom (csrAt id D col entry (rpAt rdom init b offs ps) (stencilEntries b offs ps)) p =
      csrAt id D col entry (rpAt rdom init b offs (ps ++ [p])) (stencilEntries b offs (ps ++ [p])) := by
  unfold csrRowStep
  simp only []
  rw [csrRow_at, ← stencilEntries_snoc]
  have other : ∀ q, q ≠ p → rpAt rdom init b offs (ps ++ [p]) q = rpAt rdom init b offs ps q := by
    intro q hq
    unfold rpAt
    by_cases hm : q ∈ ps
    · rw [takeWhile_append_of_mem ps p q hm]; simp [hm]
    · simp [hm, hq]
  by_cases hr : rdom p = true
  · rw [if_pos hr]
    unfold csrAt
    simp only [CSRState.mk.injEq, true_and]
    funext q
    unfold write
    by_cases hq : q = p
    · subst hq
      rw [if_pos rfl]
      unfold rpAt
      rw [if_pos ⟨hr, by simp⟩, takeWhile_snoc_self ps q hp]
      simp [stencilEntries_snoc]
    · rw [if_neg hq, other q hq]
  · rw [if_neg hr]
    unfold csrAt
    simp only [CSRState.mk.injEq, true_and]
    funext q
    by_cases hq : q = p
    · subst hq; simp [rpAt, hr]
    · rw [other q hq]

theorem csrRows_at (b : Rect) (offs : List (Point × E)) (D : Int → Bool) (rdom : Point → Bool)
    (col : Int → Option Point) (entry : Int → Option E) (init : Point → Option (Int × Int))
    (qs ps : List Point) (hn : (ps ++ qs).Nodup) :
    qs.foldl (csrRowStep b offs D rdom)
        (csrAt id D col entry (rpAt rdom init b offs ps) (stencilEntries b offs ps)) =
      csrAt id D col entry (rpAt rdom init b offs (ps ++ qs)) (stencilEntries b offs (ps ++ qs)) := by
  induction qs generalizing ps with
  | nil => simp
  | cons q qs ih =>
    have hq : q ∉ ps := by
      rw [List.nodup_append] at hn
      intro hm
      exact hn.2.2 q hm q (by simp) rfl
    rw [List.foldl_cons, csrRowStep_at _ _ _ _ _ _ _ _ _ hq, ih (ps ++ [q]) (by simpa using hn)]
    simp

/-! ### linearised CSR -/

/-- the row ranges of consecutive rows, starting at kernel index `k` -/
def rangesFrom (b : Rect) (offs : List (Point × E)) : Nat → List Point → List (Int × Int)
  | _, [] => []
  | k, p :: ps =>
    ((k : Int), (k : Int) + (rowEntries b offs p).length - 1) ::
      rangesFrom b offs (k + (rowEntries b offs p).length) ps

theorem rangesFrom_append (b : Rect) (offs : List (Point × E)) (k : Nat) (ps qs : List Point) :
    rangesFrom b offs k (ps ++ qs) =
      rangesFrom b offs k ps ++ rangesFrom b offs (k + (stencilEntries b offs ps).length) qs := by
  induction ps generalizing k with
  | nil => simp [rangesFrom, stencilEntries]
  | cons p ps ih =>
    simp only [List.cons_append, rangesFrom, ih, List.cons.injEq, true_and]
    congr 2
    simp [stencilEntries, Nat.add_assoc]

theorem rangesFrom_length (b : Rect) (offs : List (Point × E)) (k : Nat) (ps : List Point) :
    (rangesFrom b offs k ps).length = ps.length := by
  induction ps generalizing k with
  | nil => rfl
  | cons p ps ih => simp [rangesFrom, ih]

theorem rangesFrom_getElem (b : Rect) (offs : List (Point × E)) (ps : List Point) (i : Nat) (hi : i < ps.length) :
    (rangesFrom b offs 0 ps)[i]? =
      some (((stencilEntries b offs (ps.take i)).length : Int),
        ((stencilEntries b offs (ps.take (i + 1))).length : Int) - 1) := by
  have hsplit : ps = ps.take i ++ ps[i] :: ps.drop (i + 1) := by simp
  conv => lhs; rw [hsplit]
  rw [rangesFrom_append, List.getElem?_append_right (by simp [rangesFrom_length]), rangesFrom_length]
  have : i - (ps.take i).length = 0 := by simp; omega
  rw [this]
  rw [List.take_succ_eq_append_getElem hi, stencilEntries_snoc]
  simp [rangesFrom]

/-- state of the linearised CSR task after the rows `ps` -/
def linAt (o : IndexOrder) (b : Rect) (offs : List (Point × E)) (D Dr : Int → Bool) (col : Int → Option Int)
    (entry : Int → Option E) (rp : Int → Option (Int × Int)) (ps : List Point) : CSRState Int Int E :=
  csrAt (linearize o b) D col entry (place rp Dr (rangesFrom b offs 0 ps)) (stencilEntries b offs ps)

theorem linCsrRowStep_at (o : IndexOrder) (b : Rect) (offs : List (Point × E)) (dom rdom : Dom1)
    (col : Int → Option Int) (entry : Int → Option E) (rp : Int → Option (Int × Int)) (ps : List Point) (p : Point)
    (hp : linearize o b p = ps.length) :
    linCsrRowStep o b offs dom rdom (linAt o b offs dom.contains rdom.contains col entry rp ps) p =
      linAt o b offs dom.contains rdom.contains col entry rp (ps ++ [p]) := by
  unfold linCsrRowStep linAt
  simp only [hp]
  rw [csrRow_at, ← stencilEntries_snoc, rangesFrom_append]
  simp only [rangesFrom, Nat.zero_add]
  rw [place_snoc, rangesFrom_length]
  by_cases hr : rdom.contains (ps.length : Int) = true
  · simp only [hr, if_true]
    unfold csrAt
    simp only [CSRState.mk.injEq, true_and]
    congr 1
    simp [stencilEntries_snoc]
  · simp [hr]

theorem linCsrRows_at (o : IndexOrder) (b : Rect) (offs : List (Point × E)) (dom rdom : Dom1)
    (col : Int → Option Int) (entry : Int → Option E) (rp : Int → Option (Int × Int)) (qs ps : List Point)
    (h : ps ++ qs = pointsOf o b) :
    qs.foldl (linCsrRowStep o b offs dom rdom) (linAt o b offs dom.contains rdom.contains col entry rp ps) =
      linAt o b offs dom.contains rdom.contains col entry rp (pointsOf o b) := by
  induction qs generalizing ps with
  | nil => simp at h; simp [h]
  | cons q qs ih =>
    have hl : ps.length < (pointsOf o b).length := by rw [← h]; simp
    have hq : linearize o b q = ps.length := by
      have := linearize_getElem o b ps.length hl
      have e : (pointsOf o b)[ps.length] = q := by simp [← h]
      rwa [e] at this
    rw [List.foldl_cons, linCsrRowStep_at _ _ _ _ _ _ _ _ _ _ hq]
    exact ih (ps ++ [q]) (by simpa using h)

theorem linAt_nil (o : IndexOrder) (b : Rect) (offs : List (Point × E)) (D Dr : Int → Bool) (col : Int → Option Int)
    (entry : Int → Option E) (rp : Int → Option (Int × Int)) :
    linAt o b offs D Dr col entry rp [] = ⟨0, col, entry, rp⟩ := by
  simp [linAt, csrAt, place_nil, stencilEntries, rangesFrom]

/-- placing more values changes nothing if none of their indices belongs to the piece -/
theorem place_extend {V : Type _} (init : Int → Option V) (D : Int → Bool) (vs ws : List V)
    (h : ∀ j : Int, D j = true → (vs.length : Int) ≤ j → j < vs.length + ws.length → False) :
    place init D (vs ++ ws) = place init D vs := by
  funext j
  unfold place
  by_cases hD : D j = true ∧ 0 ≤ j ∧ j < ((vs ++ ws).length : Int)
  · rw [if_pos hD]
    have hlt : j < (vs.length : Int) := by
      by_contra hc
      exact h j hD.1 (by omega) (by have := hD.2.2; simp at this; omega)
    rw [if_pos ⟨hD.1, hD.2.1, hlt⟩, List.getElem?_append_left (by omega)]
  · rw [if_neg hD, if_neg]
    rintro ⟨h1, h2, h3⟩
    exact hD ⟨h1, h2, by simp; omega⟩

/-- skipping rows that touch neither piece changes only the kernel index -/
theorem linAt_extend (o : IndexOrder) (b : Rect) (offs : List (Point × E)) (D Dr : Int → Bool) (col : Int → Option Int)
    (entry : Int → Option E) (rp : Int → Option (Int × Int)) (ps qs : List Point)
    (h1 : ∀ j : Int, D j = true → ((stencilEntries b offs ps).length : Int) ≤ j →
      j < (stencilEntries b offs (ps ++ qs)).length → False)
    (h2 : ∀ j : Int, Dr j = true → (ps.length : Int) ≤ j → j < ps.length + qs.length → False) :
    linAt o b offs D Dr col entry rp (ps ++ qs) =
      { linAt o b offs D Dr col entry rp ps with kernelIndex := (stencilEntries b offs (ps ++ qs)).length } := by
  unfold linAt csrAt
  rw [rangesFrom_append, place_extend rp Dr _ _ (by simpa [rangesFrom_length] using h2)]
  rw [stencilEntries_append, List.map_append, List.map_append]
  rw [place_extend col D, place_extend entry D]
  · intro j hj ha hb
    refine h1 j hj (by simpa using ha) ?_
    rw [stencilEntries_append]; simpa using hb
  · intro j hj ha hb
    refine h1 j hj (by simpa using ha) ?_
    rw [stencilEntries_append]; simpa using hb

end Verif.Stencil
