import Verif.EndToEnd.Poisson
import Verif.EndToEnd.Line
import Verif.Solver.Rate
import Mathlib.Algebra.Order.Chebyshev

/-! # C57: how many CG steps the library's difference equations need -/
set_option linter.dupNamespace false
set_option linter.unusedSectionVars false
namespace Verif.EndToEnd
open Verif.Laplacian Verif.Grid Verif.Stencil Verif.Runtime Verif.Vector Verif.Matrix Verif.Planner Verif.Textbook Verif.Solver
open scoped _root_.Matrix

/-! ## Bounds of the quadratic form -/
section
variable {P : Type} [DecidableEq P]

/-- The quadratic form of the operator of weighted shifts. -/
theorem shift_form (Ts : List (Equiv.Perm P × ℝ)) (S : Finset P) (f : P → ℝ) (hf : ∀ p, p ∉ S → f p = 0) (x : S → ℝ)
    (hfx : ∀ u : S, f u.1 = x u) : x ⬝ᵥ (fun u u' : S => shiftCoef Ts u.1 u'.1) *ᵥ x =
      (Ts.map fun t => t.2 * ∑ p ∈ S, f p * (2 * f p - f (t.1 p) - f (t.1.symm p))).sum := by
  have h1 : x ⬝ᵥ (fun u u' : S => shiftCoef Ts u.1 u'.1) *ᵥ x = ∑ p ∈ S, f p * ∑ q ∈ S, shiftCoef Ts p q * f q := by
    rw [← Finset.sum_attach S (fun p => f p * ∑ q ∈ S, shiftCoef Ts p q * f q)]
    show ∑ u : S, x u * ∑ u' : S, shiftCoef Ts u.1 u'.1 * x u' = _
    rw [Finset.univ_eq_attach]
    refine Finset.sum_congr rfl fun u _ => ?_
    rw [hfx u, ← Finset.sum_attach S (fun q => shiftCoef Ts u.1 q * f q)]
    congr 1
    exact Finset.sum_congr rfl fun u' _ => by rw [hfx u']
  rw [h1, Finset.sum_congr rfl fun p _ => by rw [shiftCoef_apply Ts S f hf p]]
  clear h1
  induction Ts with
  | nil => simp
  | cons t Ts ih =>
    simp only [List.map_cons, List.sum_cons]
    rw [← ih, Finset.mul_sum, ← Finset.sum_add_distrib]
    exact Finset.sum_congr rfl fun p _ => by ring

theorem sum_le_outside (R S : Finset P) (g : P → ℝ) (h0 : ∀ p, 0 ≤ g p) (h : ∀ p, p ∉ S → g p = 0) : ∑ p ∈ R, g p ≤ ∑ p ∈ S, g p := by
  have : ∑ p ∈ R.filter (· ∈ S), g p = ∑ p ∈ R, g p := Finset.sum_filter_of_ne fun p _ hne => by
    by_contra hp
    exact hne (h p hp)
  rw [← this]
  exact Finset.sum_le_sum_of_subset_of_nonneg (fun p hp => (Finset.mem_filter.1 hp).2) fun p _ _ => h0 p

/-- Along one shift, the form is at most four times the squared norm. -/
theorem shift_form_le (T : Equiv.Perm P) (S : Finset P) (f : P → ℝ) (hf : ∀ p, p ∉ S → f p = 0) :
    ∑ p ∈ S, f p * (2 * f p - f (T p) - f (T.symm p)) ≤ 4 * ∑ p ∈ S, f p ^ 2 := by
  have hT : ∀ T : Equiv.Perm P, ∑ p ∈ S, f (T p) ^ 2 ≤ ∑ p ∈ S, f p ^ 2 := fun T => by
    have : ∑ p ∈ S, f (T p) ^ 2 = ∑ p ∈ S.map T.toEmbedding, f p ^ 2 := by rw [Finset.sum_map]; rfl
    rw [this]
    exact sum_le_outside _ S _ (fun p => sq_nonneg _) fun p hp => by rw [hf p hp]; norm_num
  have h1 := hT T
  have h2 := hT T.symm
  have h3 : ∑ p ∈ S, f p * (2 * f p - f (T p) - f (T.symm p)) ≤
      ∑ p ∈ S, (3 * f p ^ 2 + 1 / 2 * f (T p) ^ 2 + 1 / 2 * f (T.symm p) ^ 2) := by
    refine Finset.sum_le_sum fun p _ => ?_
    nlinarith [sq_nonneg (f p + f (T p)), sq_nonneg (f p + f (T.symm p))]
  rw [Finset.sum_add_distrib, Finset.sum_add_distrib, ← Finset.mul_sum, ← Finset.mul_sum, ← Finset.mul_sum] at h3
  linarith

/-- If `N` shifts lead out of `S` from every point, the squared norm is at most `N²` times the form (discrete Poincaré inequality). -/
theorem shift_poincare (T : Equiv.Perm P) (S : Finset P) (N : Nat) (hesc : ∀ p ∈ S, (T ^ N) p ∉ S) (f : P → ℝ)
    (hf : ∀ p, p ∉ S → f p = 0) :
    ∑ p ∈ S, f p ^ 2 ≤ (N : ℝ) ^ 2 * ∑ p ∈ S, f p * (2 * f p - f (T p) - f (T.symm p)) := by
  rw [shift_by_parts T S f hf]
  set S' := S ∪ S.map T.symm.toEmbedding with hS'
  have hd0 : ∀ p, p ∉ S' → (f p - f (T p)) ^ 2 = 0 := fun p hp => by
    rw [hS', Finset.mem_union, not_or] at hp
    rw [hf p hp.1, hf (T p) fun h => hp.2 (Finset.mem_map.2 ⟨T p, h, by simp⟩)]
    norm_num
  have hstep : ∀ (p : P) (n : Nat), f p = (∑ i ∈ Finset.range n, (f ((T ^ i) p) - f (T ((T ^ i) p)))) + f ((T ^ n) p) := by
    intro p n
    induction n with
    | zero => simp
    | succ n ih =>
      rw [Finset.sum_range_succ, pow_succ']
      show f p = _ + f (T ((T ^ n) p))
      rw [ih]
      ring
  have hpoint : ∀ p ∈ S, f p ^ 2 ≤ N * ∑ i ∈ Finset.range N, (f ((T ^ i) p) - f (T ((T ^ i) p))) ^ 2 := by
    intro p hp
    have h1 := hstep p N
    rw [hf _ (hesc p hp), add_zero] at h1
    rw [h1]
    have := sq_sum_le_card_mul_sum_sq (s := Finset.range N) (f := fun i => f ((T ^ i) p) - f (T ((T ^ i) p)))
    rwa [Finset.card_range] at this
  have hslice : ∀ i, ∑ p ∈ S, (f ((T ^ i) p) - f (T ((T ^ i) p))) ^ 2 ≤ ∑ p ∈ S', (f p - f (T p)) ^ 2 := by
    intro i
    have : ∑ p ∈ S, (f ((T ^ i) p) - f (T ((T ^ i) p))) ^ 2 = ∑ p ∈ S.map (T ^ i).toEmbedding, (f p - f (T p)) ^ 2 := by
      rw [Finset.sum_map]; rfl
    rw [this]
    exact sum_le_outside _ S' _ (fun p => sq_nonneg _) hd0
  calc ∑ p ∈ S, f p ^ 2 ≤ ∑ p ∈ S, N * ∑ i ∈ Finset.range N, (f ((T ^ i) p) - f (T ((T ^ i) p))) ^ 2 := Finset.sum_le_sum hpoint
    _ = N * ∑ i ∈ Finset.range N, ∑ p ∈ S, (f ((T ^ i) p) - f (T ((T ^ i) p))) ^ 2 := by rw [← Finset.mul_sum, Finset.sum_comm]
    _ ≤ N * ∑ i ∈ Finset.range N, ∑ p ∈ S', (f p - f (T p)) ^ 2 :=
      mul_le_mul_of_nonneg_left (Finset.sum_le_sum fun i _ => hslice i) (Nat.cast_nonneg N)
    _ = (N : ℝ) ^ 2 * ∑ p ∈ S', (f p - f (T p)) ^ 2 := by rw [Finset.sum_const, Finset.card_range, nsmul_eq_mul]; ring

/-- The bounds of the whole operator. -/
theorem shift_between (Ts : List (Equiv.Perm P × ℝ)) (hw : ∀ t ∈ Ts, 0 < t.2) (S : Finset P) (T : Equiv.Perm P) (w : ℝ)
    (hT : (T, w) ∈ Ts) (N : Nat) (hN : 0 < N) (hesc : ∀ p ∈ S, (T ^ N) p ∉ S) :
    Between (fun u u' : S => shiftCoef Ts u.1 u'.1) (w / (N : ℝ) ^ 2) (4 * (Ts.map Prod.snd).sum) := by
  intro x
  set f : P → ℝ := fun p => if h : p ∈ S then x ⟨p, h⟩ else 0 with hfdef
  have hf : ∀ p, p ∉ S → f p = 0 := fun p hp => by simp [hfdef, hp]
  have hfx : ∀ u : S, f u.1 = x u := fun u => by simp [hfdef]
  rw [shift_form Ts S f hf x hfx]
  have hxx : x ⬝ᵥ x = ∑ p ∈ S, f p ^ 2 := by
    rw [← Finset.sum_attach S fun p => f p ^ 2, ← Finset.univ_eq_attach]
    exact Finset.sum_congr rfl fun u _ => by rw [hfx]; ring
  rw [hxx]
  constructor
  · have h1 := shift_poincare T S N hesc f hf
    have h2 : w * ∑ p ∈ S, f p * (2 * f p - f (T p) - f (T.symm p)) ≤
        (Ts.map fun t => t.2 * ∑ p ∈ S, f p * (2 * f p - f (t.1 p) - f (t.1.symm p))).sum := by
      refine List.single_le_sum (fun y hy => ?_) _ (List.mem_map.2 ⟨(T, w), hT, rfl⟩)
      obtain ⟨t, ht, rfl⟩ := List.mem_map.1 hy
      exact mul_nonneg (hw t ht).le (shift_form_nonneg t.1 S f hf)
    refine le_trans ?_ h2
    have hN' : (0 : ℝ) < (N : ℝ) ^ 2 := by positivity
    rw [div_mul_eq_mul_div, div_le_iff₀ hN', mul_assoc]
    refine mul_le_mul_of_nonneg_left ?_ (hw _ hT).le
    rw [mul_comm]
    exact h1
  · clear hT
    induction Ts with
    | nil => simp
    | cons t Ts ih =>
      have := ih fun t' ht' => hw t' (by simp [ht'])
      have h3 := mul_le_mul_of_nonneg_left (shift_form_le t.1 S f hf) (hw t (by simp)).le
      simp only [List.map_cons, List.sum_cons]
      nlinarith

end

/-! ## CG with one matrix -/

/-- **C56** for one matrix, one solution vector and one right-hand side. -/
theorem single_rate {K P : Type} [DecidableEq P] [DecidableEq K] {G : Geometry P} {part d0 d1 base : Nat} {v0 v1 : Vec}
    {m : Op K P ℝ} {A : Arith ℝ} (hA : A.Exact) (h : Single G part d0 d1 base v0 v1 m)
    (N : _root_.Matrix (G.points (G.parent part)).toFinset (G.points (G.parent part)).toFinset ℝ)
    (hN : ∀ u u', N u u' = m.coef u.1 u'.1) (hsym : Nᵀ = N) {a c : ℝ} (ha : 0 < a) (hac : a ≤ c) (hB : Between N a c)
    (n : Nat) (s : Cell P → ℝ) (hx0 : ∀ p ∈ G.points (G.parent part), s (.elem d0 p) = 0)
    (z : (G.points (G.parent part)).toFinset → ℝ) (hz : N *ᵥ z = fun u => s (.elem d1 u.1)) (ε : ℝ) (hε : 0 < ε) :
    ∃ pl, Planner.empty.setupAll G (singleCalls v0 v1 m) = some pl ∧
      ∃ j, j ≤ ⌈√(c / a) / 2 * Real.log (2 / ε)⌉₊ ∧ Ensures (cg A G pl base j) n s fun _ s' =>
        energy N (z - fun u => s' (.elem d0 u.1)) ≤ ε ^ 2 * energy N z := by
  obtain ⟨pl, pl', hpl, S, hsp, hso, hrh, hop⟩ := h.setup 3
  have e0 : v0.data = d0 := by rw [newVector_eq h.sol]
  have e1 : v1.data = d1 := by rw [newVector_eq h.rhs]
  refine ⟨pl, hpl, ?_⟩
  let e := singleEquiv (G := G) (part := part) hsp
  have hop' : pl'.operator G = N.submatrix e e := by
    funext u u'
    rw [_root_.Matrix.submatrix_apply, hN, single_operator hsp hop]
    rfl
  have hdot : ∀ v w : (G.points (G.parent part)).toFinset → ℝ, (v ∘ e) ⬝ᵥ (w ∘ e) = v ⬝ᵥ w := fun v w => by
    show ∑ i, v (e i) * w (e i) = _
    rw [e.sum_comp fun i => v i * w i]
    rfl
  have hmv : ∀ v : (G.points (G.parent part)).toFinset → ℝ, pl'.operator G *ᵥ (v ∘ e) = (N *ᵥ v) ∘ e := fun v => by
    funext i
    rw [hop']
    show ∑ j, N (e i) (e j) * v (e j) = _
    rw [e.sum_comp fun j => N (e i) j * v j]
    rfl
  have hen : ∀ v : (G.points (G.parent part)).toFinset → ℝ, energy (pl'.operator G) (v ∘ e) = energy N v := fun v => by
    unfold energy
    rw [hmv, hdot]
  have hc0 : ∀ s' : Cell P → ℝ, pl'.content G s' 0 = (fun u : (G.points (G.parent part)).toFinset => s' (.elem d0 u.1)) ∘ e := fun s' => by
    funext u
    rw [single_content0 hsp hso, e0]
    rfl
  have hc1 : ∀ s' : Cell P → ℝ, pl'.content G s' 1 = (fun u : (G.points (G.parent part)).toFinset => s' (.elem d1 u.1)) ∘ e := fun s' => by
    funext u
    rw [single_content1 hsp hrh, e1]
    rfl
  have hB' : Between (pl'.operator G) a c := fun v => by
    have : v = (v ∘ e.symm) ∘ e := by funext i; simp
    rw [this, hmv, hdot, hdot]
    exact hB _
  obtain ⟨j, hj, hE⟩ := c56_steps hA S (by rw [hop', _root_.Matrix.transpose_submatrix, hsym]) ha hac hB' n s (by
    rw [hc0]
    funext u
    exact hx0 _ (List.mem_toFinset.1 (e u).2)) (z ∘ e) (by rw [hmv, hz, hc1]) ε hε
  refine ⟨j, hj, ensures_weaken hE fun _ s' h => ?_⟩
  rw [hc0, hen] at h
  rw [← hen]
  exact h

/-! ## Grids -/

/-- The squared energy norm of a grid function: the sum over the grid of its value times the difference operator applied to it. -/
noncomputable def gridEnergy (b : Rect) (dirs : List (Point × ℝ)) (e : Point → ℝ) : ℝ :=
  ∑ p ∈ (pointsOf .rowMajor b).toFinset, e p * diffOp dirs (zeroOutside b e) p

/-- Some direction of weight `w` leaves the grid, from every point, within `N` steps: it is not constant in a coordinate in which the grid
has at most `N` points. -/
def CrossedIn (b : Rect) (dirs : List (Point × ℝ)) (w : ℝ) (N : Nat) : Prop :=
  ∃ v, (v, w) ∈ dirs ∧ ∃ (i : Nat) (lo hi c : Int), b[i]? = some (lo, hi) ∧ v[i]? = some c ∧ c ≠ 0 ∧ hi - lo < N

theorem crossed_escapes {b : Rect} {v : Point} (hl : v.length = b.length) {N i : Nat} {lo hi c : Int} (hb : b[i]? = some (lo, hi))
    (hv : v[i]? = some c) (hc0 : c ≠ 0) (hN : hi - lo < N) (p : Point) (hp : InBox b p) : ¬ InBox b (((translate v) ^ N) p) := by
  intro hq
  obtain ⟨hi, rfl⟩ := List.getElem?_eq_some_iff.1 hv
  obtain ⟨hib, hbi⟩ := List.getElem?_eq_some_iff.1 hb
  have hpl : p.length = v.length := by rw [← hp.length_eq, hl]
  have hip : i < p.length := by rw [hpl]; exact hi
  obtain ⟨h1, h2⟩ := translate_pow v N p hpl
  have hq1 := inBox_getElem hq i hib (by rw [h1]; exact hi)
  have hp1 := inBox_getElem hp i hib hip
  rw [h2 i (by rw [h1]; exact hi) hip hi] at hq1
  rw [hbi] at hq1 hp1
  rcases lt_or_gt_of_ne hc0 with h | h
  · nlinarith
  · nlinarith

theorem sum_shiftsOf (dirs : List (Point × ℝ)) : ((shiftsOf dirs).map Prod.snd).sum = (dirs.map Prod.snd).sum := by
  unfold shiftsOf
  rw [List.map_map]
  rfl

/-- The matrix with the coefficients of a difference operator, the points stored under the names `φ`: it acts on grid functions as the
operator does, it is symmetric, and its quadratic form has bounds. -/
theorem diff_matrix {P : Type} [DecidableEq P] (b : Rect) (dirs : List (Point × ℝ))
    (hl : ∀ t ∈ dirs, t.1.length = b.length) (hw : ∀ t ∈ dirs, 0 < t.2) {w : ℝ} {N : Nat} (hcross : CrossedIn b dirs w N)
    (coef : P → P → ℝ) (T : Finset P) (φ : Point → P)
    (hφ : ∀ p q, InBox b p → InBox b q → φ p = φ q → p = q) (hT : ∀ j, j ∈ T ↔ ∃ p, InBox b p ∧ φ p = j)
    (hc : ∀ p q, InBox b p → InBox b q → coef (φ p) (φ q) = shiftCoef (shiftsOf dirs) p q) (NT : _root_.Matrix T T ℝ)
    (hNTdef : ∀ u u', NT u u' = coef u.1 u'.1) :
    ∃ e : (pointsOf .rowMajor b).toFinset ≃ T, (∀ p, (e p).1 = φ p.1) ∧ NTᵀ = NT ∧
      (∀ (x : T → ℝ) (g : Point → ℝ), (∀ p, x (e p) = g p.1) → ∀ p, (NT *ᵥ x) (e p) = diffOp dirs (zeroOutside b g) p.1) ∧
      (0 < N → Between NT (w / (N : ℝ) ^ 2) (4 * (dirs.map Prod.snd).sum)) ∧ 0 < w ∧ w ≤ (dirs.map Prod.snd).sum ∧
      (0 < N ∨ (pointsOf .rowMajor b).toFinset = ∅) := by
  set S : Finset Point := (pointsOf .rowMajor b).toFinset with hSdef
  have hS : ∀ p, p ∈ S ↔ InBox b p := fun p => by rw [hSdef, List.mem_toFinset, mem_pointsOf]
  let f : S → T := fun p => ⟨φ p.1, (hT _).2 ⟨p.1, (hS _).1 p.2, rfl⟩⟩
  have hf : Function.Bijective f := by
    constructor
    · intro p q h
      exact Subtype.ext (hφ _ _ ((hS _).1 p.2) ((hS _).1 q.2) (congrArg Subtype.val h))
    · rintro ⟨j, hj⟩
      obtain ⟨p, h9, h10⟩ := (hT j).1 hj
      exact ⟨⟨p, (hS p).2 h9⟩, Subtype.ext h10⟩
  let e : S ≃ T := Equiv.ofBijective f hf
  let NS : _root_.Matrix S S ℝ := fun u u' => shiftCoef (shiftsOf dirs) u.1 u'.1
  have hNT : ∀ u u', NT (e u) (e u') = NS u u' := fun u u' => by
    rw [hNTdef]
    show coef (φ u.1) (φ u'.1) = _
    rw [hc _ _ ((hS _).1 u.2) ((hS _).1 u'.2)]
  have hmv : ∀ x : T → ℝ, ∀ p, (NT *ᵥ x) (e p) = (NS *ᵥ (x ∘ e)) p := fun x p => by
    show ∑ u, NT (e p) u * x u = ∑ q, NS p q * x (e q)
    rw [← e.sum_comp]
    exact Finset.sum_congr rfl fun q _ => by rw [hNT]
  have hdot : ∀ x y : T → ℝ, x ⬝ᵥ y = (x ∘ e) ⬝ᵥ (y ∘ e) := fun x y => by
    show ∑ u, x u * y u = ∑ q, x (e q) * y (e q)
    rw [← e.sum_comp]
  have happ : ∀ (x : T → ℝ) (g : Point → ℝ), (∀ p : S, x (e p) = g p.1) → ∀ p : S,
      (NT *ᵥ x) (e p) = diffOp dirs (zeroOutside b g) p.1 := fun x g hg p => by
    rw [hmv, ← shiftCoef_diffOp b dirs hl S hS g p.1 ((hS _).1 p.2), ← Finset.sum_attach, ← Finset.univ_eq_attach]
    show ∑ q, NS p q * x (e q) = _
    exact Finset.sum_congr rfl fun q _ => by rw [hg q]
  obtain ⟨v, hv, i, lo, hi, c, hb1, hb2, hb3, hb4⟩ := hcross
  have hlohi : S.Nonempty → 0 < N := fun ⟨p, hp⟩ => by
    have hp' := (hS p).1 hp
    obtain ⟨hib, hbi⟩ := List.getElem?_eq_some_iff.1 hb1
    have := inBox_getElem hp' i hib (by rw [← hp'.length_eq]; exact hib)
    rw [hbi] at this
    have : (lo : Int) ≤ hi := le_trans this.1 this.2
    omega
  have hN0 : 0 < N ∨ S = ∅ := by
    rcases S.eq_empty_or_nonempty with h | h
    · exact .inr h
    · exact .inl (hlohi h)
  have hw0 : 0 < w := hw _ hv
  have hwW : w ≤ (dirs.map Prod.snd).sum := List.single_le_sum (fun y hy => by
    obtain ⟨t, ht, rfl⟩ := List.mem_map.1 hy
    exact (hw t ht).le) _ (List.mem_map.2 ⟨(v, w), hv, rfl⟩)
  have hsymS : NTᵀ = NT := by
    funext u u'
    obtain ⟨p, rfl⟩ := e.surjective u
    obtain ⟨q, rfl⟩ := e.surjective u'
    show NT (e q) (e p) = NT (e p) (e q)
    rw [hNT, hNT]
    exact shiftCoef_symm _ _ _
  refine ⟨e, fun p => rfl, hsymS, happ, fun hN x => ?_, hw0, hwW, hN0⟩
  rw [hdot x, hdot x, show (NT *ᵥ x) ∘ e = NS *ᵥ (x ∘ e) from funext (hmv x), ← sum_shiftsOf]
  refine shift_between (shiftsOf dirs) (fun t ht => ?_) S (translate v) w (List.mem_map.2 ⟨(v, w), hv, rfl⟩) N hN (fun p hp hq => ?_) _
  · obtain ⟨t', ht', rfl⟩ := List.mem_map.1 ht
    exact hw t' ht'
  · exact crossed_escapes (hl _ hv) hb1 hb2 hb3 hb4 p ((hS p).1 hp) ((hS _).1 hq)

/-- A matrix with the coefficients of a difference operator, the points stored under the names `φ`. -/
theorem diff_rate {P : Type} [DecidableEq P] {A : Arith ℝ} (hA : A.Exact) (b : Rect) (dirs : List (Point × ℝ))
    (hl : ∀ t ∈ dirs, t.1.length = b.length) (hw : ∀ t ∈ dirs, 0 < t.2) {w : ℝ} {N : Nat} (hcross : CrossedIn b dirs w N)
    (m : Op Int P ℝ) {G : Geometry P} {part d0 d1 base : Nat} {v0 v1 : Vec} (φ : Point → P)
    (hφ : ∀ p q, InBox b p → InBox b q → φ p = φ q → p = q)
    (hG : ∀ j, j ∈ G.points (G.parent part) ↔ ∃ p, InBox b p ∧ φ p = j)
    (h : Single G part d0 d1 base v0 v1 m)
    (hc : ∀ p q, InBox b p → InBox b q → m.coef (φ p) (φ q) = shiftCoef (shiftsOf dirs) p q) (n : Nat) (s : Cell P → ℝ)
    (hx0 : ∀ p, InBox b p → s (.elem d0 (φ p)) = 0) (z : Point → ℝ)
    (hz : ∀ p, InBox b p → diffOp dirs (zeroOutside b z) p = s (.elem d1 (φ p))) (ε : ℝ) (hε : 0 < ε) :
    ∃ pl, Planner.empty.setupAll G (singleCalls v0 v1 m) = some pl ∧
      ∃ j, j ≤ ⌈N * √((dirs.map Prod.snd).sum / w) * Real.log (2 / ε)⌉₊ ∧ Ensures (cg A G pl base j) n s fun _ s' =>
        gridEnergy b dirs (fun p => z p - s' (.elem d0 (φ p))) ≤ ε ^ 2 * gridEnergy b dirs z := by
  have hT : ∀ j, j ∈ (G.points (G.parent part)).toFinset ↔ ∃ p, InBox b p ∧ φ p = j := fun j => by rw [List.mem_toFinset, hG]
  set T : Finset P := (G.points (G.parent part)).toFinset with hTdef
  let NT : _root_.Matrix T T ℝ := fun u u' => m.coef u.1 u'.1
  have hdm := diff_matrix b dirs hl hw hcross m.coef T φ hφ hT hc NT fun _ _ => rfl
  set S : Finset Point := (pointsOf .rowMajor b).toFinset with hSdef
  set W := (dirs.map Prod.snd).sum with hW
  obtain ⟨e, he, hsymS, happ, hBS, hw0, hwW, hN0⟩ := hdm
  have hS : ∀ p, p ∈ S ↔ InBox b p := fun p => by rw [hSdef, List.mem_toFinset, mem_pointsOf]
  have hen : ∀ (x : T → ℝ) (g : Point → ℝ), (∀ p : S, x (e p) = g p.1) → energy NT x = gridEnergy b dirs g := fun x g hg => by
    unfold energy gridEnergy
    rw [← hSdef, ← Finset.sum_attach, ← Finset.univ_eq_attach, dotProduct, ← e.sum_comp]
    exact Finset.sum_congr rfl fun p _ => by rw [happ x g hg, hg]
  have hzeq : NT *ᵥ (fun u => z (e.symm u).1) = fun u => s (.elem d1 u.1) := by
    funext u
    obtain ⟨p, rfl⟩ := e.surjective u
    rw [happ _ z (fun p => by rw [Equiv.symm_apply_apply]) p, hz _ ((hS _).1 p.2), he]
  have hx0' : ∀ j ∈ G.points (G.parent part), s (.elem d0 j) = 0 := fun j hj => by
    obtain ⟨p, hp, rfl⟩ := (hG j).1 hj
    exact hx0 p hp
  rcases hN0 with hN | hemp
  · have hNR : (0 : ℝ) < (N : ℝ) := Nat.cast_pos.2 hN
    have hN1 : (1 : ℝ) ≤ (N : ℝ) ^ 2 := by
      have : (1 : ℝ) ≤ (N : ℝ) := by exact_mod_cast hN
      nlinarith
    have hquot : √(4 * W / (w / (N : ℝ) ^ 2)) / 2 = N * √(W / w) := by
      have : 4 * W / (w / (N : ℝ) ^ 2) = (2 * N) ^ 2 * (W / w) := by field_simp; ring
      rw [this, Real.sqrt_mul (by positivity), Real.sqrt_sq (by positivity)]
      ring
    obtain ⟨pl, h1, j, h2, h3⟩ := single_rate hA h NT (fun _ _ => rfl) hsymS (div_pos hw0 (by positivity))
      (show w / (N : ℝ) ^ 2 ≤ 4 * W by
        refine (div_le_self hw0.le hN1).trans ?_
        linarith) (hBS hN) n s hx0' (fun u => z (e.symm u).1) hzeq ε hε
    rw [hquot] at h2
    refine ⟨pl, h1, j, h2, ensures_weaken h3 fun _ s' h => ?_⟩
    have g1 := hen (fun u => z (e.symm u).1) z (fun p => by rw [Equiv.symm_apply_apply])
    have g2 := hen ((fun u => z (e.symm u).1) - fun u => s' (.elem d0 u.1)) (fun p => z p - s' (.elem d0 (φ p))) (fun p => by
      rw [Pi.sub_apply, Equiv.symm_apply_apply, he])
    rw [← g1, ← g2]
    exact h
  · have hTe : T = ∅ := by
      rw [Finset.eq_empty_iff_forall_notMem]
      intro j hj
      obtain ⟨p, hp, -⟩ := (hT j).1 hj
      rw [← hS, hemp] at hp
      exact absurd hp (Finset.notMem_empty p)
    obtain ⟨pl, h1, j, h2, h3⟩ := single_rate hA h NT (fun _ _ => rfl) hsymS one_pos (le_refl 1) (fun x => by
      have : IsEmpty T := by rw [hTe]; infer_instance
      simp [dotProduct]) n s hx0' (fun u => z (e.symm u).1) hzeq 2 two_pos
    rw [div_self two_ne_zero, Real.log_one, mul_zero, Nat.ceil_zero, Nat.le_zero] at h2
    subst h2
    refine ⟨pl, h1, 0, Nat.zero_le _, ensures_weaken h3 fun _ s' h => ?_⟩
    unfold gridEnergy
    rw [← hSdef, hemp]
    simp

/-! ## C57 -/

/-- **C57**, COO: for every grid and difference operator as in C50, with `W` the sum of the weights and some direction of weight `w`
crossing the grid in `N` steps, at most `⌈N √(W/w) log (2/ε)⌉` CG steps reduce the energy norm of the error by the factor `ε`: the
number of steps is bounded by the side length, independently of the number of unknowns. -/
theorem c57_coo_stencil {A : Arith ℝ} (hA : A.Exact) (sort : List (Point × ℝ) → List (Point × ℝ)) (lt : ℝ → ℝ → Bool)
    (o : IndexOrder) (b : Rect) (offsets : List (Point × ℝ)) (hb : b ≠ []) (hsort : IsSort o lt offsets (sort offsets))
    (dirs : List (Point × ℝ)) (hl : ∀ t ∈ dirs, t.1.length = b.length) (hw : ∀ t ∈ dirs, 0 < t.2)
    (hoff : offsets.Perm (diffOffsets b.length dirs)) {w : ℝ} {N : Nat} (hcross : CrossedIn b dirs w N) :
    ∃ F : Nat, ∀ fuel, F ≤ fuel → ∀ pieces, CoversSize b offsets pieces → ∀ junk,
      ∃ m, createCOOStencil sort o b offsets pieces fuel junk = some m ∧
        ∀ {G : Geometry Point} {part d0 d1 base : Nat} {v0 v1 : Vec}, TwoVectors G part d0 d1 base v0 v1 →
          (∀ p, p ∈ G.points (G.parent part) ↔ InBox b p) →
        ∀ (n : Nat) (s : Cell Point → ℝ), (∀ p, InBox b p → s (.elem d0 p) = 0) →
        ∀ z : Point → ℝ, (∀ p, InBox b p → diffOp dirs (zeroOutside b z) p = s (.elem d1 p)) → ∀ ε : ℝ, 0 < ε →
        ∃ pl, Planner.empty.setupAll G (singleCalls v0 v1 (Op.coo m)) = some pl ∧
          ∃ j, j ≤ ⌈N * √((dirs.map Prod.snd).sum / w) * Real.log (2 / ε)⌉₊ ∧ Ensures (cg A G pl base j) n s fun _ s' =>
            gridEnergy b dirs (fun p => z p - s' (.elem d0 p)) ≤ ε ^ 2 * gridEnergy b dirs z := by
  have ho := diff_lengths hl hoff
  obtain ⟨F, hF⟩ := cooStencil_holds sort lt o b offsets hb ho hsort
  refine ⟨F, fun fuel hf pieces hc junk => ?_⟩
  obtain ⟨m, h1, h2⟩ := hF fuel hf pieces hc junk
  refine ⟨m, h1, fun hv hG n s hx0 z hz ε hε => ?_⟩
  refine diff_rate hA b dirs hl hw hcross (Op.coo m) id (fun p q _ _ h => h) (fun j => ?_) ⟨hv, ?_⟩ (fun p q hp hq => ?_) n s hx0 z hz ε hε
  · rw [hG]
    exact ⟨fun h => ⟨j, h, rfl⟩, fun ⟨p, hp, e⟩ => e ▸ hp⟩
  · exact h2.col_mem fun e he => (hG _).2 (mem_stencilEntries he).2
  · show (Op.coo m).coef p q = _
    rw [h2.coef, stencil_coef o b offsets _ hsort.perm p q hp hq, (hoff.map _).sum_eq, hp.length_eq]
    exact diff_coef dirs p q (fun t ht => by rw [hl t ht, hp.length_eq])

/-- **C57**, CSR: the same. -/
theorem c57_csr_stencil {A : Arith ℝ} (hA : A.Exact) (sort : List (Point × ℝ) → List (Point × ℝ)) (lt : ℝ → ℝ → Bool)
    (o : IndexOrder) (b : Rect) (offsets : List (Point × ℝ)) (hb : b ≠ []) (hsort : IsSort o lt offsets (sort offsets))
    (dirs : List (Point × ℝ)) (hl : ∀ t ∈ dirs, t.1.length = b.length) (hw : ∀ t ∈ dirs, 0 < t.2)
    (hoff : offsets.Perm (diffOffsets b.length dirs)) {w : ℝ} {N : Nat} (hcross : CrossedIn b dirs w N) :
    ∃ F : Nat, ∀ fuel, F ≤ fuel → ∀ (rows : List Point) (pieces : List ((Int → Bool) × (Point → Bool))),
      (∀ p, p ∈ rows ↔ InBox b p) → CoversSize b offsets (pieces.map Prod.fst) →
      (∀ D ∈ pieces, ∀ p, D.2 p = true → InBox b p) → (∀ p, InBox b p → ∃ D ∈ pieces, D.2 p = true) → ∀ junk,
      ∃ m, createCSRStencil sort o b offsets rows pieces fuel junk = some m ∧
        ∀ {G : Geometry Point} {part d0 d1 base : Nat} {v0 v1 : Vec}, TwoVectors G part d0 d1 base v0 v1 →
          (∀ p, p ∈ G.points (G.parent part) ↔ InBox b p) →
        ∀ (n : Nat) (s : Cell Point → ℝ), (∀ p, InBox b p → s (.elem d0 p) = 0) →
        ∀ z : Point → ℝ, (∀ p, InBox b p → diffOp dirs (zeroOutside b z) p = s (.elem d1 p)) → ∀ ε : ℝ, 0 < ε →
        ∃ pl, Planner.empty.setupAll G (singleCalls v0 v1 (Op.csr m)) = some pl ∧
          ∃ j, j ≤ ⌈N * √((dirs.map Prod.snd).sum / w) * Real.log (2 / ε)⌉₊ ∧ Ensures (cg A G pl base j) n s fun _ s' =>
            gridEnergy b dirs (fun p => z p - s' (.elem d0 p)) ≤ ε ^ 2 * gridEnergy b dirs z := by
  have ho := diff_lengths hl hoff
  obtain ⟨F, hF⟩ := csrStencil_holds sort lt o b offsets hb ho hsort
  refine ⟨F, fun fuel hf rows pieces hsp hc h3 h4 junk => ?_⟩
  obtain ⟨m, h1, hr, h2⟩ := hF fuel hf rows pieces hsp hc h3 h4 junk
  refine ⟨m, h1, fun hv hG n s hx0 z hz ε hε => ?_⟩
  refine diff_rate hA b dirs hl hw hcross (Op.csr m) id (fun p q _ _ h => h) (fun j => ?_) ⟨hv, ?_⟩ (fun p q hp hq => ?_) n s hx0 z hz ε hε
  · rw [hG]
    exact ⟨fun h => ⟨j, h, rfl⟩, fun ⟨p, hp, e⟩ => e ▸ hp⟩
  · exact ⟨h2.col_mem fun e he => (hG _).2 (mem_stencilEntries he).2, fun p => by rw [hr, hsp, hG], h2.rowsDisjoint⟩
  · show (Op.csr m).coef p q = _
    rw [h2.coef p q (by rw [hr]; exact (hsp p).2 hp), stencil_coef o b offsets _ hsort.perm p q hp hq, (hoff.map _).sum_eq, hp.length_eq]
    exact diff_coef dirs p q (fun t ht => by rw [hl t ht, hp.length_eq])

/-- **C57**, linearised CSR (`BenchmarkStencil.cpp`): grid point `p` is stored at its linear number. -/
theorem c57_linearized_stencil {A : Arith ℝ} (hA : A.Exact) (sort : List (Point × ℝ) → List (Point × ℝ)) (lt : ℝ → ℝ → Bool)
    (o : IndexOrder) (b : Rect) (offsets : List (Point × ℝ)) (hb : b ≠ [])
    (hsort : IsSort o lt offsets (sort offsets))
    (dirs : List (Point × ℝ)) (hl : ∀ t ∈ dirs, t.1.length = b.length) (hw : ∀ t ∈ dirs, 0 < t.2)
    (hoff : offsets.Perm (diffOffsets b.length dirs)) {w : ℝ} {N : Nat} (hcross : CrossedIn b dirs w N) :
    ∃ F : Nat, ∀ fuel, F ≤ fuel → ∀ (pieces : List (Dom1 × Dom1)),
      CoversSize b offsets (pieces.map fun D => D.1.contains) →
      (∀ size, calculateStencilSize b offsets = some size → ∀ D ∈ pieces, ∀ j, D.1.contains j = true →
        D.1.lo ≤ j ∧ j ≤ D.1.hi ∧ 0 ≤ j ∧ j < size) →
      (∀ D ∈ pieces, ∀ j, D.2.contains j = true → D.2.lo ≤ j ∧ j ≤ D.2.hi ∧ 0 ≤ j ∧ j < Rect.volume b) →
      (∀ j : Int, 0 ≤ j → j < Rect.volume b → ∃ D ∈ pieces, D.2.contains j = true) → ∀ junk,
      ∃ m, createLinCSRStencil sort o b offsets pieces fuel junk = some m ∧
        ∀ {G : Geometry Int} {part d0 d1 base : Nat} {v0 v1 : Vec}, TwoVectors G part d0 d1 base v0 v1 →
          (∀ j, j ∈ G.points (G.parent part) ↔ 0 ≤ j ∧ j < Rect.volume b) →
        ∀ (n : Nat) (s : Cell Int → ℝ), (∀ p, InBox b p → s (.elem d0 (linearize o b p)) = 0) →
        ∀ z : Point → ℝ, (∀ p, InBox b p → diffOp dirs (zeroOutside b z) p = s (.elem d1 (linearize o b p))) → ∀ ε : ℝ, 0 < ε →
        ∃ pl, Planner.empty.setupAll G (singleCalls v0 v1 (Op.csr m)) = some pl ∧
          ∃ j, j ≤ ⌈N * √((dirs.map Prod.snd).sum / w) * Real.log (2 / ε)⌉₊ ∧ Ensures (cg A G pl base j) n s fun _ s' =>
            gridEnergy b dirs (fun p => z p - s' (.elem d0 (linearize o b p))) ≤ ε ^ 2 * gridEnergy b dirs z := by
  have ho := diff_lengths hl hoff
  obtain ⟨F, hF⟩ := linCsrStencil_holds sort lt o b offsets hb ho hsort
  refine ⟨F, fun fuel hf pieces hc h3 h4 h5 junk => ?_⟩
  obtain ⟨m, h1, hr, h2⟩ := hF fuel hf pieces hc h3 h4 h5 junk
  refine ⟨m, h1, fun {G part d0 d1 base v0 v1} hv hG n s hx0 z hz ε hε => ?_⟩
  have hlin : ∀ p, InBox b p → linearize o b p ∈ G.points (G.parent part) := fun p hp => (hG _).2 (linearize_bounds o b p hp)
  refine diff_rate (part := part) hA b dirs hl hw hcross (Op.csr m) (linearize o b) (fun p q hp hq h => linearize_inj o hp hq h) (fun j => ?_) ?_
    (fun p q hp hq => ?_) n s hx0 z hz ε hε
  · rw [hG]
    refine ⟨fun h => (c02_linearize_bijection o b).2.2.1 j h.1 h.2, ?_⟩
    rintro ⟨p, hp, rfl⟩
    exact linearize_bounds o b p hp
  · refine ⟨hv, h2.col_mem fun e he => ?_, fun j => ?_, h2.rowsDisjoint⟩
    · obtain ⟨e', he', rfl⟩ := List.mem_map.1 he
      exact hlin _ (mem_stencilEntries he').2
    · rw [hr, mem_indices, hG]
  · rw [h2.coef _ _ (by rw [hr, mem_indices]; exact linearize_bounds o b p hp), List.filter_map, List.map_map]
    rw [← diff_coef dirs p q (fun t ht => by rw [hl t ht, hp.length_eq]), ← hp.length_eq,
      ← (hoff.map _).sum_eq, ← stencil_coef o b offsets _ hsort.perm p q hp hq]
    congr 1
    have : (stencilEntries b (sort offsets) (pointsOf o b)).filter
        ((fun e => decide (e.1 = linearize o b p ∧ e.2.1 = linearize o b q)) ∘ linTriple o b) =
        (stencilEntries b (sort offsets) (pointsOf o b)).filter fun e => decide (e.1 = p ∧ e.2.1 = q) := by
      apply List.filter_congr
      intro e he
      have hrow := (mem_pointsOf o b _).1 (mem_stencilEntries he).1
      have hcol := (mem_stencilEntries he).2
      show decide (linearize o b e.1 = linearize o b p ∧ linearize o b e.2.1 = linearize o b q) = decide (e.1 = p ∧ e.2.1 = q)
      rw [Bool.eq_iff_iff, decide_eq_true_iff, decide_eq_true_iff]
      exact ⟨fun h => ⟨linearize_inj o hrow hp h.1, linearize_inj o hcol hq h.2⟩, fun h => by rw [h.1, h.2]; exact ⟨rfl, rfl⟩⟩
    rw [this]
    rfl

/-! ### The 1-D Laplacians of `ExampleSystems.cpp` -/

/-- The squared energy norm of a function on `0 … n-1`. -/
noncomputable def lineEnergy (n : Int) (e : Int → ℝ) : ℝ :=
  ∑ i ∈ Finset.Ico 0 n, e i * (2 * e i - onLine n e (i - 1) - onLine n e (i + 1))

/-- The matrix of the discrete Poisson equation: its action, and the bounds of its quadratic form. -/
theorem line_matrix (n : Int) (coef : Int → Int → ℝ) (S : Finset Int) (hS : ∀ i, i ∈ S ↔ 0 ≤ i ∧ i < n)
    (hc : ∀ i j, 0 ≤ i → i < n → 0 ≤ j → j < n → coef i j = shiftCoef [(lineShift, (1 : ℝ))] i j) (NS : _root_.Matrix S S ℝ)
    (hNSdef : ∀ u u', NS u u' = coef u.1 u'.1) : NSᵀ = NS ∧
      (∀ (x : S → ℝ) (g : Int → ℝ), (∀ u : S, x u = g u.1) → ∀ u : S,
        (NS *ᵥ x) u = 2 * g u.1 - onLine n g (u.1 - 1) - onLine n g (u.1 + 1)) ∧
      ∀ N : Nat, 0 < N → n = N → Between NS (1 / (N : ℝ) ^ 2) 4 := by
  have hNS : NS = fun u u' : S => shiftCoef [(lineShift, (1 : ℝ))] u.1 u'.1 := by
    funext u u'
    have h1 := (hS _).1 u.2
    have h2 := (hS _).1 u'.2
    rw [hNSdef]
    exact hc _ _ h1.1 h1.2 h2.1 h2.2
  have happ : ∀ (x : S → ℝ) (g : Int → ℝ), (∀ u : S, x u = g u.1) → ∀ u : S,
      (NS *ᵥ x) u = 2 * g u.1 - onLine n g (u.1 - 1) - onLine n g (u.1 + 1) := by
    intro x g hg u
    have h1 : (NS *ᵥ x) u = ∑ q ∈ S, shiftCoef [(lineShift, (1 : ℝ))] u.1 q * onLine n g q := by
      rw [hNS, ← Finset.sum_attach S, ← Finset.univ_eq_attach]
      show ∑ q : S, shiftCoef [(lineShift, (1 : ℝ))] u.1 q.1 * x q = _
      refine Finset.sum_congr rfl fun q _ => ?_
      rw [hg q, onLine, if_pos ((hS _).1 q.2)]
    rw [h1, shiftCoef_apply [(lineShift, (1 : ℝ))] S (onLine n g) (fun j hj => by rw [onLine, if_neg fun h => hj ((hS j).2 h)])]
    simp only [List.map_cons, List.map_nil, List.sum_cons, List.sum_nil, lineShift_symm]
    have hu : onLine n g u.1 = g u.1 := by rw [onLine, if_pos ((hS _).1 u.2)]
    rw [hu]
    show 1 * (2 * _ - onLine n g (u.1 + 1) - _) + 0 = _
    ring
  refine ⟨?_, happ, fun N hN hnN => ?_⟩
  · rw [hNS]
    funext u u'
    exact shiftCoef_symm _ _ _
  · have := shift_between [(lineShift, (1 : ℝ))] (by simp) S lineShift 1 (by simp) N hN (fun i hi h => by
      rw [lineShift_pow, hS] at h
      have := (hS i).1 hi
      omega)
    rw [hNS]
    simpa using this

theorem line_rate {A : Arith ℝ} (hA : A.Exact) (n : Int) (m : Op Int Int ℝ) {G : Geometry Int} {part d0 d1 base : Nat} {v0 v1 : Vec}
    (hG : ∀ i, i ∈ G.points (G.parent part) ↔ 0 ≤ i ∧ i < n) (h : Single G part d0 d1 base v0 v1 m)
    (hc : ∀ i j, 0 ≤ i → i < n → 0 ≤ j → j < n → m.coef i j = shiftCoef [(lineShift, (1 : ℝ))] i j) (t : Nat) (s : Cell Int → ℝ)
    (hx0 : ∀ i, 0 ≤ i → i < n → s (.elem d0 i) = 0) (z : Int → ℝ) (hz : SolvesLine n z fun i => s (.elem d1 i)) (ε : ℝ) (hε : 0 < ε) :
    ∃ pl, Planner.empty.setupAll G (singleCalls v0 v1 m) = some pl ∧
      ∃ j, j ≤ ⌈n * Real.log (2 / ε)⌉₊ ∧ Ensures (cg A G pl base j) t s fun _ s' =>
        lineEnergy n (fun i => z i - s' (.elem d0 i)) ≤ ε ^ 2 * lineEnergy n z := by
  set S := (G.points (G.parent part)).toFinset with hSdef
  have hS : ∀ i, i ∈ S ↔ 0 ≤ i ∧ i < n := fun p => by rw [hSdef, List.mem_toFinset, hG]
  have hSI : S = Finset.Ico 0 n := by ext i; rw [hS, Finset.mem_Ico]
  let NS : _root_.Matrix S S ℝ := fun u u' => m.coef u.1 u'.1
  obtain ⟨hsym, happ, hBetween⟩ := line_matrix n m.coef S hS hc NS fun _ _ => rfl
  have hen : ∀ (x : S → ℝ) (g : Int → ℝ), (∀ u : S, x u = g u.1) → energy NS x = lineEnergy n g := by
    intro x g hg
    unfold energy lineEnergy
    rw [← hSI, ← Finset.sum_attach S, ← Finset.univ_eq_attach]
    exact Finset.sum_congr rfl fun u _ => by rw [happ x g hg, hg]
  have hzeq : NS *ᵥ (fun u => z u.1) = fun u => s (.elem d1 u.1) := by
    funext u
    have hu := (hS _).1 u.2
    rw [happ _ z (fun _ => rfl) u]
    have h1 := hz u.1 hu.1 hu.2
    have e : onLine n z u.1 = z u.1 := by rw [onLine, if_pos hu]
    rw [e] at h1
    exact h1
  have hx0' : ∀ i ∈ G.points (G.parent part), s (.elem d0 i) = 0 := fun i hi => hx0 i ((hG i).1 hi).1 ((hG i).1 hi).2
  rcases le_or_gt n 0 with hn | hn
  · have hTe : S = ∅ := by rw [hSI, Finset.Ico_eq_empty (by omega)]
    obtain ⟨pl, h1, j, h2, h3⟩ := single_rate hA h NS (fun _ _ => rfl) hsym one_pos (le_refl 1) (fun x => by
      have : IsEmpty S := by rw [hTe]; infer_instance
      simp [dotProduct]) t s hx0' (fun u => z u.1) hzeq 2 two_pos
    rw [div_self two_ne_zero, Real.log_one, mul_zero, Nat.ceil_zero, Nat.le_zero] at h2
    subst h2
    refine ⟨pl, h1, 0, Nat.zero_le _, ensures_weaken h3 fun _ s' h => ?_⟩
    unfold lineEnergy
    rw [Finset.Ico_eq_empty (by omega)]
    simp
  · obtain ⟨N, rfl⟩ : ∃ N : Nat, n = N := ⟨n.toNat, by omega⟩
    have hN : 0 < N := by omega
    have hNR : (0 : ℝ) < (N : ℝ) := Nat.cast_pos.2 hN
    have hN1 : (1 : ℝ) ≤ (N : ℝ) ^ 2 := by
      have : (1 : ℝ) ≤ (N : ℝ) := by exact_mod_cast hN
      nlinarith
    have hB := hBetween N hN rfl
    have hquot : √(4 / (1 / (N : ℝ) ^ 2)) / 2 = ((N : Int) : ℝ) := by
      have : 4 / (1 / (N : ℝ) ^ 2) = (2 * N) ^ 2 := by field_simp; ring
      rw [this, Real.sqrt_sq (by positivity)]
      push_cast
      ring
    obtain ⟨pl, h1, j, h2, h3⟩ := single_rate hA h NS (fun _ _ => rfl) hsym (by positivity)
      (show 1 / (N : ℝ) ^ 2 ≤ 4 by
        refine (div_le_self zero_le_one hN1).trans ?_
        norm_num) hB t s hx0' (fun u => z u.1) hzeq ε hε
    rw [hquot] at h2
    refine ⟨pl, h1, j, h2, ensures_weaken h3 fun _ s' h => ?_⟩
    have g1 := hen (fun u => z u.1) z (fun _ => rfl)
    have g2 := hen ((fun u => z u.1) - fun u => s' (.elem d0 u.1)) (fun i => z i - s' (.elem d0 i)) (fun _ => rfl)
    rw [← g1, ← g2]
    exact h

/-- **C57**, `coo_negative_laplacian_1d` (`Test05COOSolveCG.cpp`): at most `⌈n log (2/ε)⌉` steps. -/
theorem c57_coo_laplacian {A : Arith ℝ} (hA : A.Exact) (n : Int) (pieces : List (List Int)) (hp : Covers pieces (kernelSize n))
    (junk : COO Int Int ℝ) {G : Geometry Int} {part d0 d1 base : Nat} {v0 v1 : Vec}
    (hv : TwoVectors G part d0 d1 base v0 v1) (hG : ∀ i, i ∈ G.points (G.parent part) ↔ 0 ≤ i ∧ i < n) (t : Nat)
    (s : Cell Int → ℝ) (hx0 : ∀ i, 0 ≤ i → i < n → s (.elem d0 i) = 0) (z : Int → ℝ) (hz : SolvesLine n z fun i => s (.elem d1 i))
    (ε : ℝ) (hε : 0 < ε) :
    ∃ pl, Planner.empty.setupAll G
        (singleCalls v0 v1 (Op.coo (createCOOLaplacian (fun z : Int => (z : ℝ)) n pieces junk))) = some pl ∧
      ∃ j, j ≤ ⌈n * Real.log (2 / ε)⌉₊ ∧ Ensures (cg A G pl base j) t s fun _ s' =>
        lineEnergy n (fun i => z i - s' (.elem d0 i)) ≤ ε ^ 2 * lineEnergy n z := by
  have h2 := coo_line_holds n pieces hp junk
  refine line_rate hA n _ hG ⟨hv, ?_⟩ (fun i j hi0 hi hj0 hj => ?_) t s hx0 z hz ε hε
  · exact h2.col_mem fun e he => (hG _).2 (lineTriples_col n e he)
  · rw [h2.coef, line_coef n i j hi0 hi hj0 hj]

/-- **C57**, `csr_negative_laplacian_1d` (`Test06CSRSolveCG.cpp`). -/
theorem c57_csr_laplacian {A : Arith ℝ} (hA : A.Exact) (n : Int) (hn : 2 ≤ n) (pieces rowPieces : List (List Int))
    (hp : Covers pieces (kernelSize n)) (hr : Covers rowPieces n)
    (junk : CSR Int Int ℝ) {G : Geometry Int} {part d0 d1 base : Nat} {v0 v1 : Vec}
    (hv : TwoVectors G part d0 d1 base v0 v1) (hG : ∀ i, i ∈ G.points (G.parent part) ↔ 0 ≤ i ∧ i < n) (t : Nat)
    (s : Cell Int → ℝ) (hx0 : ∀ i, 0 ≤ i → i < n → s (.elem d0 i) = 0) (z : Int → ℝ) (hz : SolvesLine n z fun i => s (.elem d1 i))
    (ε : ℝ) (hε : 0 < ε) :
    ∃ pl, Planner.empty.setupAll G
        (singleCalls v0 v1 (Op.csr (createCSRLaplacian (fun z : Int => (z : ℝ)) n pieces rowPieces junk))) = some pl ∧
      ∃ j, j ≤ ⌈n * Real.log (2 / ε)⌉₊ ∧ Ensures (cg A G pl base j) t s fun _ s' =>
        lineEnergy n (fun i => z i - s' (.elem d0 i)) ≤ ε ^ 2 * lineEnergy n z := by
  have h2 := csr_line_holds n hn pieces rowPieces hp hr junk
  have hrows : ∀ i, i ∈ (createCSRLaplacian (fun z : Int => (z : ℝ)) n pieces rowPieces junk).rows ↔ 0 ≤ i ∧ i < n := by
    intro i
    show i ∈ indices n.toNat ↔ _
    rw [mem_indices]
    omega
  refine line_rate hA n _ hG ⟨hv, ?_⟩ (fun i j hi0 hi hj0 hj => ?_) t s hx0 z hz ε hε
  · exact ⟨h2.col_mem fun e he => (hG _).2 (lineTriples_col n e he), fun i => by rw [hrows, hG], h2.rowsDisjoint⟩
  · rw [h2.coef i j ((hrows i).2 ⟨hi0, hi⟩), line_coef n i j hi0 hi hj0 hj]

end Verif.EndToEnd
