import Verif.EndToEnd.Rate
import Verif.Interactive.Rate

/-! # C83: a built system solved to a tolerance -/
set_option linter.dupNamespace false
set_option linter.unusedSectionVars false
namespace Verif.EndToEnd
open Verif.Grid Verif.Stencil Verif.Runtime Verif.Vector Verif.Matrix Verif.Planner Verif.Solver Verif.Laplacian Verif.Textbook
open Verif.Interactive
open scoped _root_.Matrix

variable {K P V : Type} [DecidableEq P] [DecidableEq K] [Field V] {G : Geometry P} {part d0 d1 base : Nat} {v0 v1 : Vec} {m : Op K P V}

theorem Single.client (h : Single G part d0 d1 base v0 v1 m) : ClientSystem G (singleCalls v0 v1 m) base := by
  have e0 := newVector_eq h.sol
  have e1 := newVector_eq h.rhs
  have hs : sols (singleCalls v0 v1 m) = [v0] := rfl
  have hr : rhss (singleCalls v0 v1 m) = [v1] := rfl
  refine ⟨h.valid, h.order, ?_, ?_, rfl, rfl, Nat.one_pos, ?_, ?_, ?_⟩
  · intro c hc
    simp only [singleCalls, List.mem_cons, List.not_mem_nil, or_false] at hc
    rcases hc with rfl | rfl | rfl
    · show newVector G v0.part v0.data = some v0
      have hp : v0.part = part ∧ v0.data = d0 := by rw [e0]; exact ⟨rfl, rfl⟩
      rw [hp.1, hp.2]; exact h.sol
    · show newVector G v1.part v1.data = some v1
      have hp : v1.part = part ∧ v1.data = d1 := by rw [e1]; exact ⟨rfl, rfl⟩
      rw [hp.1, hp.2]; exact h.rhs
    · trivial
  · intro a c b he
    unfold singleCalls at he
    rcases a with _ | ⟨x, _ | ⟨y, _ | ⟨z, a⟩⟩⟩
    · simp only [List.nil_append, List.cons.injEq] at he
      obtain ⟨rfl, -⟩ := he
      exact ⟨rfl, fun w hw => by simp [rhss] at hw⟩
    · simp only [List.cons_append, List.nil_append, List.cons.injEq] at he
      obtain ⟨rfl, rfl, -⟩ := he
      refine ⟨rfl, fun w hw => ?_⟩
      have : w = v0 := by simpa [sols, rhss] using hw.symm
      rw [this, e0, e1]
      exact ⟨rfl, rfl⟩
    · simp only [List.cons_append, List.nil_append, List.cons.injEq] at he
      obtain ⟨rfl, rfl, rfl, -⟩ := he
      simp [Allowed, sols, rhss]
    · simp at he
  · rw [hs, hr, e0, e1]; simpa using h.distinct
  · rw [hs, hr, e0, e1]
    intro v hv
    simp only [List.cons_append, List.nil_append, List.mem_cons, List.not_mem_nil, or_false] at hv
    rcases hv with rfl | rfl
    · exact h.fresh0
    · exact h.fresh1
  · intro m' d r hm vd vr hd hr'
    have hm : (m', d, r) ∈ [(m, 0, 0)] := hm
    rw [List.mem_singleton] at hm
    obtain ⟨rfl, rfl, rfl⟩ : m' = m ∧ d = 0 ∧ r = 0 := by simpa using hm
    rw [hs] at hd hr'
    have hd : vd = v0 := by simpa using hd.symm
    have hr' : vr = v0 := by simpa using hr'.symm
    rw [hd, hr', e0]
    exact h.fits

theorem single_unknowns (h : Single G part d0 d1 base v0 v1 m) (u : Σ _ : Nat, P) :
    u ∈ clientUnknowns G (singleCalls v0 v1 m) ↔ u.1 = 0 ∧ u.2 ∈ (G.points (G.parent part)).toFinset := by
  have e0 := newVector_eq h.sol
  have hs : sols (singleCalls v0 v1 m) = [v0] := rfl
  have hsp : v0.space = G.parent part := by rw [e0]
  unfold clientUnknowns
  rw [Finset.mem_sigma, hs]
  simp only [List.length_singleton, Finset.mem_range, Nat.lt_one_iff]
  constructor
  · rintro ⟨h1, h2⟩
    rw [h1] at h2
    exact ⟨h1, by simpa [hsp] using h2⟩
  · rintro ⟨h1, h2⟩
    rw [h1]
    exact ⟨rfl, by simpa [hsp] using h2⟩

/-- The unknowns of the system are the points of the space. -/
def clientEquiv (h : Single G part d0 d1 base v0 v1 m) :
    clientUnknowns G (singleCalls v0 v1 m) ≃ (G.points (G.parent part)).toFinset where
  toFun u := ⟨u.1.2, ((single_unknowns h u.1).1 u.2).2⟩
  invFun p := ⟨⟨0, p.1⟩, (single_unknowns h _).2 ⟨rfl, p.2⟩⟩
  left_inv u := by
    apply Subtype.ext
    have := ((single_unknowns h u.1).1 u.2).1
    obtain ⟨⟨i, p⟩, hu⟩ := u
    simp only at this
    subst this
    rfl
  right_inv p := rfl

/-- **C80** for one matrix, one solution vector and one right-hand side. -/
theorem single_loop {m : Op K P ℝ} {A : Arith ℝ} (hA : A.Exact) (h : Single G part d0 d1 base v0 v1 m)
    (N : _root_.Matrix (G.points (G.parent part)).toFinset (G.points (G.parent part)).toFinset ℝ)
    (hN : ∀ u u', N u u' = m.coef u.1 u'.1) (hsym : Nᵀ = N) {a c : ℝ} (ha : 0 < a) (hac : a ≤ c) (hB : Between N a c)
    (n : Nat) (s : Cell P → ℝ) (hx0 : ∀ p ∈ G.points (G.parent part), s (.elem d0 p) = 0) (ε : ℝ) (hε : 0 < ε) (tol : ℝ)
    (htol : ε ^ 2 * ∑ p ∈ (G.points (G.parent part)).toFinset, s (.elem d1 p) ^ 2 ≤ tol) :
    ∃ pl, Planner.empty.setupAll G (singleCalls v0 v1 m) = some pl ∧
      Ends (cgLoop A G pl base fun _ v => decide (tol < v)) .start n s fun ctl seen s' =>
        (∃ pl' c' k, ctl = .stop pl' c' k ∧ k ≤ ⌈√(c / a) / 2 * Real.log (2 * √(c / a) / ε)⌉₊ ∧
          k ≤ (G.points (G.parent part)).toFinset.card ∧ seen.length = k + 1) ∧
        (∑ u, (s (.elem d1 u.1) - (N *ᵥ fun u' => s' (.elem d0 u'.1)) u) ^ 2) ≤ tol ∧
        seen.getLast? = some (∑ u, (s (.elem d1 u.1) - (N *ᵥ fun u' => s' (.elem d0 u'.1)) u) ^ 2) ∧
        ∀ p ∈ G.points (G.parent part), s' (.elem d1 p) = s (.elem d1 p) := by
  have e0 : v0.data = d0 := by rw [newVector_eq h.sol]
  have e1 : v1.data = d1 := by rw [newVector_eq h.rhs]
  have es : v0.space = G.parent part := by rw [newVector_eq h.sol]
  let e := clientEquiv h
  have hu : ∀ u : clientUnknowns G (singleCalls v0 v1 m), u.1.1 = 0 := fun u => ((single_unknowns h u.1).1 u.2).1
  have hM : ∀ u u', clientMatrix G (singleCalls v0 v1 m) u u' = N (e u) (e u') := fun u u' => by
    rw [hN]
    show clientCoef _ u.1 u'.1 = _
    unfold clientCoef
    have : mats (singleCalls v0 v1 m) = [(m, 0, 0)] := rfl
    rw [this, List.map_singleton, List.sum_singleton, if_pos ⟨(hu u).symm, (hu u').symm⟩]
    rfl
  have hsol : ∀ s' : Cell P → ℝ, clientSol G (singleCalls v0 v1 m) s' = (fun u => s' (.elem d0 u.1)) ∘ e := fun s' => by
    funext u
    show clientVec [v0] s' u.1 = _
    unfold clientVec
    rw [hu u, ← e0]
    rfl
  have hrhs : ∀ s' : Cell P → ℝ, clientRhs G (singleCalls v0 v1 m) s' = (fun u => s' (.elem d1 u.1)) ∘ e := fun s' => by
    funext u
    show clientVec [v1] s' u.1 = _
    unfold clientVec
    rw [hu u, ← e1]
    rfl
  obtain ⟨hdot, hmv, -⟩ := transport e (clientMatrix G (singleCalls v0 v1 m)) N hM
  have hB' : Between (clientMatrix G (singleCalls v0 v1 m)) a c := fun v => by
    have : v = (v ∘ e.symm) ∘ e := by funext i; simp
    rw [this, hmv, hdot, hdot]
    exact hB _
  have hsym' : (clientMatrix G (singleCalls v0 v1 m))ᵀ = clientMatrix G (singleCalls v0 v1 m) := by
    funext u u'
    rw [_root_.Matrix.transpose_apply, hM, hM]
    exact congrFun (congrFun hsym (e u)) (e u')
  have hres : ∀ s' : Cell P → ℝ, clientResidual G (singleCalls v0 v1 m) s s' ⬝ᵥ clientResidual G (singleCalls v0 v1 m) s s' =
      ∑ u, (s (.elem d1 u.1) - (N *ᵥ fun u' => s' (.elem d0 u'.1)) u) ^ 2 := fun s' => by
    unfold clientResidual
    rw [hrhs, hsol, hmv]
    rw [show ((fun u : (G.points (G.parent part)).toFinset => s (.elem d1 u.1)) ∘ e - (N *ᵥ fun u => s' (.elem d0 u.1)) ∘ e) =
      ((fun u => s (.elem d1 u.1)) - (N *ᵥ fun u => s' (.elem d0 u.1))) ∘ e from rfl, hdot]
    exact Finset.sum_congr rfl fun u _ => (pow_two _).symm
  obtain ⟨pl, hpl, g1, g2, g3⟩ := c80_rate hA h.client hsym' ha hac hB' n s (fun v hv p hp => by
      have hv : v ∈ [v0] := hv
      rw [List.mem_singleton.1 hv] at hp ⊢
      rw [e0]
      rw [es] at hp
      exact hx0 p hp) ε hε tol (by
      rw [hrhs, hdot]
      refine le_trans (le_of_eq ?_) htol
      rw [← Finset.sum_attach, ← Finset.univ_eq_attach]
      exact congrArg _ (Finset.sum_congr rfl fun u _ => (pow_two _).symm))
  refine ⟨pl, hpl, g1, g2, fun i w hw he => ?_⟩
  obtain ⟨⟨pl', c', k, f1, f2, f3, f4⟩, f5, f6, f7⟩ := g3 i w hw he
  rw [hres] at f5 f6
  refine ⟨⟨pl', c', k, f1, f2, f3.trans (le_of_eq ?_), f4⟩, f5, f6, fun p hp => ?_⟩
  · rw [← Fintype.card_coe, ← Fintype.card_coe]
    exact Fintype.card_congr e
  · have := congrFun f7 (e.symm ⟨p, List.mem_toFinset.2 hp⟩)
    rw [hrhs, hrhs] at this
    simpa using this

/-! ## Grids -/

/-- The squared norm of `f - L x` on the grid, `L` the difference operator, `x` zero outside the grid. -/
noncomputable def gridResidual (b : Rect) (dirs : List (Point × ℝ)) (f x : Point → ℝ) : ℝ :=
  ∑ p ∈ (pointsOf .rowMajor b).toFinset, (f p - diffOp dirs (zeroOutside b x) p) ^ 2

/-- The squared norm of a grid function. -/
noncomputable def gridNorm (b : Rect) (f : Point → ℝ) : ℝ := ∑ p ∈ (pointsOf .rowMajor b).toFinset, f p ^ 2

theorem diff_loop {P : Type} [DecidableEq P] {A : Arith ℝ} (hA : A.Exact) (b : Rect) (dirs : List (Point × ℝ))
    (hl : ∀ t ∈ dirs, t.1.length = b.length) (hw : ∀ t ∈ dirs, 0 < t.2) {w : ℝ} {N : Nat} (hcross : CrossedIn b dirs w N)
    (m : Op Int P ℝ) {G : Geometry P} {part d0 d1 base : Nat} {v0 v1 : Vec} (φ : Point → P)
    (hφ : ∀ p q, InBox b p → InBox b q → φ p = φ q → p = q)
    (hG : ∀ j, j ∈ G.points (G.parent part) ↔ ∃ p, InBox b p ∧ φ p = j)
    (h : Single G part d0 d1 base v0 v1 m)
    (hc : ∀ p q, InBox b p → InBox b q → m.coef (φ p) (φ q) = shiftCoef (shiftsOf dirs) p q) (n : Nat) (s : Cell P → ℝ)
    (hx0 : ∀ p, InBox b p → s (.elem d0 (φ p)) = 0) (ε : ℝ) (hε : 0 < ε) (tol : ℝ)
    (htol : ε ^ 2 * gridNorm b (fun p => s (.elem d1 (φ p))) ≤ tol) :
    ∃ pl, Planner.empty.setupAll G (singleCalls v0 v1 m) = some pl ∧
      Ends (cgLoop A G pl base fun _ v => decide (tol < v)) .start n s fun ctl seen s' =>
        (∃ pl' c k, ctl = .stop pl' c k ∧
          k ≤ ⌈N * √((dirs.map Prod.snd).sum / w) * Real.log (4 * N * √((dirs.map Prod.snd).sum / w) / ε)⌉₊ ∧
          k ≤ (pointsOf .rowMajor b).toFinset.card ∧ seen.length = k + 1) ∧
        gridResidual b dirs (fun p => s (.elem d1 (φ p))) (fun p => s' (.elem d0 (φ p))) ≤ tol ∧
        seen.getLast? = some (gridResidual b dirs (fun p => s (.elem d1 (φ p))) (fun p => s' (.elem d0 (φ p)))) ∧
        ∀ p, InBox b p → s' (.elem d1 (φ p)) = s (.elem d1 (φ p)) := by
  have hT : ∀ j, j ∈ (G.points (G.parent part)).toFinset ↔ ∃ p, InBox b p ∧ φ p = j := fun j => by rw [List.mem_toFinset, hG]
  set T : Finset P := (G.points (G.parent part)).toFinset with hTdef
  let NT : _root_.Matrix T T ℝ := fun u u' => m.coef u.1 u'.1
  have hdm := diff_matrix b dirs hl hw hcross m.coef T φ hφ hT hc NT fun _ _ => rfl
  set S : Finset Point := (pointsOf .rowMajor b).toFinset with hSdef
  set W := (dirs.map Prod.snd).sum with hW
  obtain ⟨e, he, hsymS, happ, hBS, hw0, hwW, hN0⟩ := hdm
  have hS : ∀ p, p ∈ S ↔ InBox b p := fun p => by rw [hSdef, List.mem_toFinset, mem_pointsOf]
  have hx0' : ∀ j ∈ G.points (G.parent part), s (.elem d0 j) = 0 := fun j hj => by
    obtain ⟨p, hp, rfl⟩ := (hG j).1 hj
    exact hx0 p hp
  have hsum : ∀ g : P → ℝ, ∑ p ∈ T, g p = ∑ p ∈ S, g (φ p) := fun g => by
    rw [← Finset.sum_attach, ← Finset.univ_eq_attach, ← Finset.sum_attach S, ← Finset.univ_eq_attach, ← e.sum_comp]
    exact Finset.sum_congr rfl fun p _ => by rw [he]
  have hres : ∀ s' : Cell P → ℝ, (∑ u : T, (s (.elem d1 u.1) - (NT *ᵥ fun u' => s' (.elem d0 u'.1)) u) ^ 2) =
      gridResidual b dirs (fun p => s (.elem d1 (φ p))) (fun p => s' (.elem d0 (φ p))) := fun s' => by
    unfold gridResidual
    rw [← hSdef, ← Finset.sum_attach S, ← Finset.univ_eq_attach, ← e.sum_comp]
    exact Finset.sum_congr rfl fun p _ => by
      rw [happ _ (fun p => s' (.elem d0 (φ p))) (fun p => by rw [he]) p, he]
  have hcard : T.card = S.card := by
    rw [← Fintype.card_coe, ← Fintype.card_coe]
    exact (Fintype.card_congr e).symm
  have htol' : ε ^ 2 * ∑ p ∈ T, s (.elem d1 p) ^ 2 ≤ tol := by
    rw [hsum]; exact htol
  suffices hkey : ∃ a c : ℝ, 0 < a ∧ a ≤ c ∧ Between NT a c ∧
      ∀ k : Nat, k ≤ ⌈√(c / a) / 2 * Real.log (2 * √(c / a) / ε)⌉₊ → k ≤ S.card →
        k ≤ ⌈N * √(W / w) * Real.log (4 * N * √(W / w) / ε)⌉₊ by
    obtain ⟨a, c, ha, hac, hB, hk⟩ := hkey
    obtain ⟨pl, hpl, g1, g2, g3⟩ := single_loop hA h NT (fun _ _ => rfl) hsymS ha hac hB n s hx0' ε hε tol htol'
    refine ⟨pl, hpl, g1, g2, fun i w hw he => ?_⟩
    obtain ⟨⟨pl', c', k, f1, f2, f3, f4⟩, f5, f6, f7⟩ := g3 i w hw he
    rw [hcard] at f3
    rw [hres] at f5 f6
    exact ⟨⟨pl', c', k, f1, hk k f2 f3, f3, f4⟩, f5, f6, fun p hp => f7 _ ((hG _).2 ⟨p, hp, rfl⟩)⟩
  rcases hN0 with hN | hemp
  · have hNR : (0 : ℝ) < (N : ℝ) := Nat.cast_pos.2 hN
    have hN1 : (1 : ℝ) ≤ (N : ℝ) ^ 2 := by
      have : (1 : ℝ) ≤ (N : ℝ) := by exact_mod_cast hN
      nlinarith
    have hquot : √(4 * W / (w / (N : ℝ) ^ 2)) = 2 * (N * √(W / w)) := by
      have : 4 * W / (w / (N : ℝ) ^ 2) = (2 * N) ^ 2 * (W / w) := by field_simp; ring
      rw [this, Real.sqrt_mul (by positivity), Real.sqrt_sq (by positivity)]
      ring
    refine ⟨_, _, div_pos hw0 (by positivity), (div_le_self hw0.le hN1).trans (by linarith), hBS hN, fun k hk _ => ?_⟩
    rw [hquot, show 2 * (N * √(W / w)) / 2 = N * √(W / w) by ring,
      show 2 * (2 * (N * √(W / w))) = 4 * N * √(W / w) by ring] at hk
    exact hk
  · have hTe : T = ∅ := by
      rw [← Finset.card_eq_zero, hcard, hemp]
      rfl
    refine ⟨1, 1, one_pos, le_refl 1, fun x => ?_, fun k _ hk => ?_⟩
    · have : IsEmpty T := by rw [hTe]; infer_instance
      simp [dotProduct]
    · rw [hemp, Finset.card_empty] at hk
      omega

/-! ## C83 -/

/-- **C83**, COO: for every grid and difference operator as in C50, with `W` the sum of the weights and some direction of weight `w`
crossing the grid in `N` steps: the loop `while (residual_norm_squared.back().get_value() > tol) step();`, with `tol` at least `ε²` times
the squared norm of the right-hand side, ends in every execution, after at most `⌈N √(W/w) log (4 N √(W/w) / ε)⌉` steps and at most as
many as there are grid points; what it leaves satisfies the difference equation up to `tol` (squared norm of the residual), and the last
value seen is exactly that squared norm. -/
theorem c83_coo_stencil {A : Arith ℝ} (hA : A.Exact) (sort : List (Point × ℝ) → List (Point × ℝ)) (lt : ℝ → ℝ → Bool)
    (o : IndexOrder) (b : Rect) (offsets : List (Point × ℝ)) (hb : b ≠ []) (hsort : IsSort o lt offsets (sort offsets))
    (dirs : List (Point × ℝ)) (hl : ∀ t ∈ dirs, t.1.length = b.length) (hw : ∀ t ∈ dirs, 0 < t.2)
    (hoff : offsets.Perm (diffOffsets b.length dirs)) {w : ℝ} {N : Nat} (hcross : CrossedIn b dirs w N) :
    ∃ F : Nat, ∀ fuel, F ≤ fuel → ∀ pieces, CoversSize b offsets pieces → ∀ junk,
      ∃ m, createCOOStencil sort o b offsets pieces fuel junk = some m ∧
        ∀ {G : Geometry Point} {part d0 d1 base : Nat} {v0 v1 : Vec}, TwoVectors G part d0 d1 base v0 v1 →
          (∀ p, p ∈ G.points (G.parent part) ↔ InBox b p) →
        ∀ (n : Nat) (s : Cell Point → ℝ), (∀ p, InBox b p → s (.elem d0 p) = 0) →
        ∀ ε : ℝ, 0 < ε → ∀ tol : ℝ, ε ^ 2 * gridNorm b (fun p => s (.elem d1 p)) ≤ tol →
        ∃ pl, Planner.empty.setupAll G (singleCalls v0 v1 (Op.coo m)) = some pl ∧
          Ends (cgLoop A G pl base fun _ v => decide (tol < v)) .start n s fun ctl seen s' =>
            (∃ pl' c k, ctl = .stop pl' c k ∧
              k ≤ ⌈N * √((dirs.map Prod.snd).sum / w) * Real.log (4 * N * √((dirs.map Prod.snd).sum / w) / ε)⌉₊ ∧
              k ≤ (pointsOf .rowMajor b).toFinset.card ∧ seen.length = k + 1) ∧
            gridResidual b dirs (fun p => s (.elem d1 p)) (fun p => s' (.elem d0 p)) ≤ tol ∧
            seen.getLast? = some (gridResidual b dirs (fun p => s (.elem d1 p)) (fun p => s' (.elem d0 p))) ∧
            ∀ p, InBox b p → s' (.elem d1 p) = s (.elem d1 p) := by
  have ho := diff_lengths hl hoff
  obtain ⟨F, hF⟩ := cooStencil_holds sort lt o b offsets hb ho hsort
  refine ⟨F, fun fuel hf pieces hc junk => ?_⟩
  obtain ⟨m, h1, h2⟩ := hF fuel hf pieces hc junk
  refine ⟨m, h1, fun hv hG n s hx0 ε hε tol htol => ?_⟩
  refine diff_loop hA b dirs hl hw hcross (Op.coo m) id (fun p q _ _ h => h) (fun j => ?_) ⟨hv, ?_⟩ (fun p q hp hq => ?_) n s hx0 ε hε tol htol
  · rw [hG]
    exact ⟨fun h => ⟨j, h, rfl⟩, fun ⟨p, hp, e⟩ => e ▸ hp⟩
  · exact h2.col_mem fun e he => (hG _).2 (mem_stencilEntries he).2
  · show (Op.coo m).coef p q = _
    rw [h2.coef, stencil_coef o b offsets _ hsort.perm p q hp hq, (hoff.map _).sum_eq, hp.length_eq]
    exact diff_coef dirs p q (fun t ht => by rw [hl t ht, hp.length_eq])

/-- **C83**, CSR: the same. -/
theorem c83_csr_stencil {A : Arith ℝ} (hA : A.Exact) (sort : List (Point × ℝ) → List (Point × ℝ)) (lt : ℝ → ℝ → Bool)
    (o : IndexOrder) (b : Rect) (offsets : List (Point × ℝ)) (hb : b ≠ []) (hsort : IsSort o lt offsets (sort offsets))
    (dirs : List (Point × ℝ)) (hl : ∀ t ∈ dirs, t.1.length = b.length) (hw : ∀ t ∈ dirs, 0 < t.2)
    (hoff : offsets.Perm (diffOffsets b.length dirs)) {w : ℝ} {N : Nat} (hcross : CrossedIn b dirs w N) :
    ∃ F : Nat, ∀ fuel, F ≤ fuel → ∀ (rows : List Point) (pieces : List ((Int → Bool) × (Point → Bool))),
      (∀ p, p ∈ rows ↔ InBox b p) → CoversSize b offsets (pieces.map Prod.fst) →
      (∀ D ∈ pieces, ∀ p, D.2 p = true → InBox b p) → (∀ p, InBox b p → ∃ D ∈ pieces, D.2 p = true) → ∀ junk,
      ∃ m, createCSRStencil sort o b offsets rows pieces fuel junk = some m ∧
        ∀ {G : Geometry Point} {part d0 d1 base : Nat} {v0 v1 : Vec}, TwoVectors G part d0 d1 base v0 v1 →
          (∀ p, p ∈ G.points (G.parent part) ↔ InBox b p) →
        ∀ (n : Nat) (s : Cell Point → ℝ), (∀ p, InBox b p → s (.elem d0 p) = 0) →
        ∀ ε : ℝ, 0 < ε → ∀ tol : ℝ, ε ^ 2 * gridNorm b (fun p => s (.elem d1 p)) ≤ tol →
        ∃ pl, Planner.empty.setupAll G (singleCalls v0 v1 (Op.csr m)) = some pl ∧
          Ends (cgLoop A G pl base fun _ v => decide (tol < v)) .start n s fun ctl seen s' =>
            (∃ pl' c k, ctl = .stop pl' c k ∧
              k ≤ ⌈N * √((dirs.map Prod.snd).sum / w) * Real.log (4 * N * √((dirs.map Prod.snd).sum / w) / ε)⌉₊ ∧
              k ≤ (pointsOf .rowMajor b).toFinset.card ∧ seen.length = k + 1) ∧
            gridResidual b dirs (fun p => s (.elem d1 p)) (fun p => s' (.elem d0 p)) ≤ tol ∧
            seen.getLast? = some (gridResidual b dirs (fun p => s (.elem d1 p)) (fun p => s' (.elem d0 p))) ∧
            ∀ p, InBox b p → s' (.elem d1 p) = s (.elem d1 p) := by
  have ho := diff_lengths hl hoff
  obtain ⟨F, hF⟩ := csrStencil_holds sort lt o b offsets hb ho hsort
  refine ⟨F, fun fuel hf rows pieces hsp hc h3 h4 junk => ?_⟩
  obtain ⟨m, h1, hr, h2⟩ := hF fuel hf rows pieces hsp hc h3 h4 junk
  refine ⟨m, h1, fun hv hG n s hx0 ε hε tol htol => ?_⟩
  refine diff_loop hA b dirs hl hw hcross (Op.csr m) id (fun p q _ _ h => h) (fun j => ?_) ⟨hv, ?_⟩ (fun p q hp hq => ?_) n s hx0 ε hε tol htol
  · rw [hG]
    exact ⟨fun h => ⟨j, h, rfl⟩, fun ⟨p, hp, e⟩ => e ▸ hp⟩
  · exact ⟨h2.col_mem fun e he => (hG _).2 (mem_stencilEntries he).2, fun p => by rw [hr, hsp, hG], h2.rowsDisjoint⟩
  · show (Op.csr m).coef p q = _
    rw [h2.coef p q (by rw [hr]; exact (hsp p).2 hp), stencil_coef o b offsets _ hsort.perm p q hp hq, (hoff.map _).sum_eq, hp.length_eq]
    exact diff_coef dirs p q (fun t ht => by rw [hl t ht, hp.length_eq])

/-- **C83**, linearised CSR (`BenchmarkStencil.cpp`): grid point `p` is stored at its linear number. -/
theorem c83_linearized_stencil {A : Arith ℝ} (hA : A.Exact) (sort : List (Point × ℝ) → List (Point × ℝ)) (lt : ℝ → ℝ → Bool)
    (o : IndexOrder) (b : Rect) (offsets : List (Point × ℝ)) (hb : b ≠ [])
    (hsort : IsSort o lt offsets (sort offsets))
    (dirs : List (Point × ℝ)) (hl : ∀ t ∈ dirs, t.1.length = b.length) (hw : ∀ t ∈ dirs, 0 < t.2)
    (hoff : offsets.Perm (diffOffsets b.length dirs)) {w : ℝ} {N : Nat} (hcross : CrossedIn b dirs w N) :
    ∃ F : Nat, ∀ fuel, F ≤ fuel → ∀ (pieces : List (Dom1 × Dom1)),
      CoversSize b offsets (pieces.map fun D => D.1.contains) →
      (∀ size, calculateStencilSize b offsets = some size → ∀ D ∈ pieces, ∀ j, D.1.contains j = true →
        D.1.lo ≤ j ∧ j ≤ D.1.hi ∧ 0 ≤ j ∧ j < size) →
      (∀ D ∈ pieces, ∀ j, D.2.contains j = true → D.2.lo ≤ j ∧ j ≤ D.2.hi ∧ 0 ≤ j ∧ j < Rect.volume b) →
      (∀ j : Int, 0 ≤ j → j < Rect.volume b → ∃ D ∈ pieces, D.2.contains j = true) → ∀ junk,
      ∃ m, createLinCSRStencil sort o b offsets pieces fuel junk = some m ∧
        ∀ {G : Geometry Int} {part d0 d1 base : Nat} {v0 v1 : Vec}, TwoVectors G part d0 d1 base v0 v1 →
          (∀ j, j ∈ G.points (G.parent part) ↔ 0 ≤ j ∧ j < Rect.volume b) →
        ∀ (n : Nat) (s : Cell Int → ℝ), (∀ p, InBox b p → s (.elem d0 (linearize o b p)) = 0) →
        ∀ ε : ℝ, 0 < ε → ∀ tol : ℝ, ε ^ 2 * gridNorm b (fun p => s (.elem d1 (linearize o b p))) ≤ tol →
        ∃ pl, Planner.empty.setupAll G (singleCalls v0 v1 (Op.csr m)) = some pl ∧
          Ends (cgLoop A G pl base fun _ v => decide (tol < v)) .start n s fun ctl seen s' =>
            (∃ pl' c k, ctl = .stop pl' c k ∧
              k ≤ ⌈N * √((dirs.map Prod.snd).sum / w) * Real.log (4 * N * √((dirs.map Prod.snd).sum / w) / ε)⌉₊ ∧
              k ≤ (pointsOf .rowMajor b).toFinset.card ∧ seen.length = k + 1) ∧
            gridResidual b dirs (fun p => s (.elem d1 (linearize o b p))) (fun p => s' (.elem d0 (linearize o b p))) ≤ tol ∧
            seen.getLast? = some (gridResidual b dirs (fun p => s (.elem d1 (linearize o b p))) (fun p => s' (.elem d0 (linearize o b p)))) ∧
            ∀ p, InBox b p → s' (.elem d1 (linearize o b p)) = s (.elem d1 (linearize o b p)) := by
  have ho := diff_lengths hl hoff
  obtain ⟨F, hF⟩ := linCsrStencil_holds sort lt o b offsets hb ho hsort
  refine ⟨F, fun fuel hf pieces hc h3 h4 h5 junk => ?_⟩
  obtain ⟨m, h1, hr, h2⟩ := hF fuel hf pieces hc h3 h4 h5 junk
  refine ⟨m, h1, fun {G part d0 d1 base v0 v1} hv hG n s hx0 ε hε tol htol => ?_⟩
  have hlin : ∀ p, InBox b p → linearize o b p ∈ G.points (G.parent part) := fun p hp => (hG _).2 (linearize_bounds o b p hp)
  refine diff_loop (part := part) hA b dirs hl hw hcross (Op.csr m) (linearize o b) (fun p q hp hq h => linearize_inj o hp hq h) (fun j => ?_) ?_
    (fun p q hp hq => ?_) n s hx0 ε hε tol htol
  · rw [hG]
    refine ⟨fun h => (c02_linearize_bijection o b).2.2.1 j h.1 h.2, ?_⟩
    rintro ⟨p, hp, rfl⟩
    exact linearize_bounds o b p hp
  · refine ⟨hv, h2.col_mem fun e he => ?_, fun j => ?_, h2.rowsDisjoint⟩
    · obtain ⟨e', he', rfl⟩ := List.mem_map.1 he
      exact hlin _ (mem_stencilEntries he').2
    · rw [hr, mem_indices, hG]
  · rw [h2.coef _ _ (by rw [hr, mem_indices]; exact linearize_bounds o b p hp), List.filter_map, List.map_map]
    rw [← diff_coef dirs p q (fun t ht => by rw [hl t ht, hp.length_eq]), ← hp.length_eq,
      ← (hoff.map _).sum_eq, ← stencil_coef o b offsets _ hsort.perm p q hp hq]
    congr 1
    have : (stencilEntries b (sort offsets) (pointsOf o b)).filter
        ((fun e => decide (e.1 = linearize o b p ∧ e.2.1 = linearize o b q)) ∘ linTriple o b) =
        (stencilEntries b (sort offsets) (pointsOf o b)).filter fun e => decide (e.1 = p ∧ e.2.1 = q) := by
      apply List.filter_congr
      intro e he
      have hrow := (mem_pointsOf o b _).1 (mem_stencilEntries he).1
      have hcol := (mem_stencilEntries he).2
      show decide (linearize o b e.1 = linearize o b p ∧ linearize o b e.2.1 = linearize o b q) = decide (e.1 = p ∧ e.2.1 = q)
      rw [Bool.eq_iff_iff, decide_eq_true_iff, decide_eq_true_iff]
      exact ⟨fun h => ⟨linearize_inj o hrow hp h.1, linearize_inj o hcol hq h.2⟩, fun h => by rw [h.1, h.2]; exact ⟨rfl, rfl⟩⟩
    rw [this]
    rfl

/-! ### The 1-D Laplacians of `ExampleSystems.cpp` -/

/-- The squared norm of the residual of the discrete Poisson equation on `0 … n-1`. -/
noncomputable def lineResidual (n : Int) (f x : Int → ℝ) : ℝ :=
  ∑ i ∈ Finset.Ico 0 n, (f i - (2 * x i - onLine n x (i - 1) - onLine n x (i + 1))) ^ 2

theorem line_loop {A : Arith ℝ} (hA : A.Exact) (n : Int) (m : Op Int Int ℝ) {G : Geometry Int} {part d0 d1 base : Nat} {v0 v1 : Vec}
    (hG : ∀ i, i ∈ G.points (G.parent part) ↔ 0 ≤ i ∧ i < n) (h : Single G part d0 d1 base v0 v1 m)
    (hc : ∀ i j, 0 ≤ i → i < n → 0 ≤ j → j < n → m.coef i j = shiftCoef [(lineShift, (1 : ℝ))] i j) (t : Nat) (s : Cell Int → ℝ)
    (hx0 : ∀ i, 0 ≤ i → i < n → s (.elem d0 i) = 0) (ε : ℝ) (hε : 0 < ε) (tol : ℝ)
    (htol : ε ^ 2 * ∑ i ∈ Finset.Ico 0 n, s (.elem d1 i) ^ 2 ≤ tol) :
    ∃ pl, Planner.empty.setupAll G (singleCalls v0 v1 m) = some pl ∧
      Ends (cgLoop A G pl base fun _ v => decide (tol < v)) .start t s fun ctl seen s' =>
        (∃ pl' c k, ctl = .stop pl' c k ∧ k ≤ ⌈n * Real.log (4 * n / ε)⌉₊ ∧ k ≤ n.toNat ∧ seen.length = k + 1) ∧
        lineResidual n (fun i => s (.elem d1 i)) (fun i => s' (.elem d0 i)) ≤ tol ∧
        seen.getLast? = some (lineResidual n (fun i => s (.elem d1 i)) (fun i => s' (.elem d0 i))) ∧
        ∀ i, 0 ≤ i → i < n → s' (.elem d1 i) = s (.elem d1 i) := by
  set S := (G.points (G.parent part)).toFinset with hSdef
  have hS : ∀ i, i ∈ S ↔ 0 ≤ i ∧ i < n := fun p => by rw [hSdef, List.mem_toFinset, hG]
  have hSI : S = Finset.Ico 0 n := by ext i; rw [hS, Finset.mem_Ico]
  have hcard : S.card = n.toNat := by rw [hSI, Int.card_Ico, sub_zero]
  let NS : _root_.Matrix S S ℝ := fun u u' => m.coef u.1 u'.1
  obtain ⟨hsym, happ, hBetween⟩ := line_matrix n m.coef S hS hc NS fun _ _ => rfl
  have hres : ∀ s' : Cell Int → ℝ, (∑ u : S, (s (.elem d1 u.1) - (NS *ᵥ fun u' => s' (.elem d0 u'.1)) u) ^ 2) =
      lineResidual n (fun i => s (.elem d1 i)) (fun i => s' (.elem d0 i)) := fun s' => by
    unfold lineResidual
    rw [← hSI, ← Finset.sum_attach S, ← Finset.univ_eq_attach]
    exact Finset.sum_congr rfl fun u _ => by rw [happ _ (fun i => s' (.elem d0 i)) (fun _ => rfl) u]
  have hx0' : ∀ i ∈ G.points (G.parent part), s (.elem d0 i) = 0 := fun i hi => hx0 i ((hG i).1 hi).1 ((hG i).1 hi).2
  suffices hkey : ∃ a c : ℝ, 0 < a ∧ a ≤ c ∧ Between NS a c ∧
      ∀ k : Nat, k ≤ ⌈√(c / a) / 2 * Real.log (2 * √(c / a) / ε)⌉₊ → k ≤ S.card → k ≤ ⌈n * Real.log (4 * n / ε)⌉₊ by
    obtain ⟨a, c, ha, hac, hB, hk⟩ := hkey
    obtain ⟨pl, hpl, g1, g2, g3⟩ := single_loop hA h NS (fun _ _ => rfl) hsym ha hac hB t s hx0' ε hε tol (by
      rw [← hSdef, hSI]; exact htol)
    refine ⟨pl, hpl, g1, g2, fun i w hw he => ?_⟩
    obtain ⟨⟨pl', c', k, f1, f2, f3, f4⟩, f5, f6, f7⟩ := g3 i w hw he
    rw [hres] at f5 f6
    exact ⟨⟨pl', c', k, f1, hk k f2 f3, f3.trans (le_of_eq hcard), f4⟩, f5, f6, fun i hi0 hi => f7 _ ((hG _).2 ⟨hi0, hi⟩)⟩
  rcases le_or_gt n 0 with hn | hn
  · have hTe : S = ∅ := by rw [hSI, Finset.Ico_eq_empty (by omega)]
    refine ⟨1, 1, one_pos, le_refl 1, fun x => ?_, fun k _ hk => ?_⟩
    · have : IsEmpty S := by rw [hTe]; infer_instance
      simp [dotProduct]
    · rw [hcard] at hk
      omega
  · obtain ⟨N, rfl⟩ : ∃ N : Nat, n = N := ⟨n.toNat, by omega⟩
    have hN : 0 < N := by omega
    have hN1 : (1 : ℝ) ≤ (N : ℝ) ^ 2 := by
      have : (1 : ℝ) ≤ (N : ℝ) := by exact_mod_cast hN
      nlinarith
    have hNR : (0 : ℝ) < (N : ℝ) := Nat.cast_pos.2 hN
    have hquot : √(4 / (1 / (N : ℝ) ^ 2)) = 2 * ((N : Int) : ℝ) := by
      have : 4 / (1 / (N : ℝ) ^ 2) = (2 * N) ^ 2 := by field_simp; ring
      rw [this, Real.sqrt_sq (by positivity)]
      push_cast
      ring
    refine ⟨_, _, by positivity, (div_le_self zero_le_one hN1).trans (by norm_num), hBetween N hN rfl, fun k hk _ => ?_⟩
    rw [hquot, show 2 * ((N : Int) : ℝ) / 2 = ((N : Int) : ℝ) by ring, show 2 * (2 * ((N : Int) : ℝ)) = 4 * ((N : Int) : ℝ) by ring] at hk
    exact hk

/-- **C83**, `coo_negative_laplacian_1d` (`Test05COOSolveCG.cpp`): the loop ends in every execution after at most `⌈n log (4 n / ε)⌉`
steps, and at most `n`; what it leaves satisfies the discrete Poisson equation up to `tol` (squared norm of the residual). -/
theorem c83_coo_laplacian {A : Arith ℝ} (hA : A.Exact) (n : Int) (pieces : List (List Int)) (hp : Covers pieces (kernelSize n))
    (junk : COO Int Int ℝ) {G : Geometry Int} {part d0 d1 base : Nat} {v0 v1 : Vec}
    (hv : TwoVectors G part d0 d1 base v0 v1) (hG : ∀ i, i ∈ G.points (G.parent part) ↔ 0 ≤ i ∧ i < n) (t : Nat)
    (s : Cell Int → ℝ) (hx0 : ∀ i, 0 ≤ i → i < n → s (.elem d0 i) = 0)
    (ε : ℝ) (hε : 0 < ε) (tol : ℝ) (htol : ε ^ 2 * ∑ i ∈ Finset.Ico 0 n, s (.elem d1 i) ^ 2 ≤ tol) :
    ∃ pl, Planner.empty.setupAll G
        (singleCalls v0 v1 (Op.coo (createCOOLaplacian (fun z : Int => (z : ℝ)) n pieces junk))) = some pl ∧
      Ends (cgLoop A G pl base fun _ v => decide (tol < v)) .start t s fun ctl seen s' =>
        (∃ pl' c k, ctl = .stop pl' c k ∧ k ≤ ⌈n * Real.log (4 * n / ε)⌉₊ ∧ k ≤ n.toNat ∧ seen.length = k + 1) ∧
        lineResidual n (fun i => s (.elem d1 i)) (fun i => s' (.elem d0 i)) ≤ tol ∧
        seen.getLast? = some (lineResidual n (fun i => s (.elem d1 i)) (fun i => s' (.elem d0 i))) ∧
        ∀ i, 0 ≤ i → i < n → s' (.elem d1 i) = s (.elem d1 i) := by
  have h2 := coo_line_holds n pieces hp junk
  refine line_loop hA n _ hG ⟨hv, ?_⟩ (fun i j hi0 hi hj0 hj => ?_) t s hx0 ε hε tol htol
  · exact h2.col_mem fun e he => (hG _).2 (lineTriples_col n e he)
  · rw [h2.coef, line_coef n i j hi0 hi hj0 hj]

/-- **C83**, `csr_negative_laplacian_1d` (`Test06CSRSolveCG.cpp`). -/
theorem c83_csr_laplacian {A : Arith ℝ} (hA : A.Exact) (n : Int) (hn : 2 ≤ n) (pieces rowPieces : List (List Int))
    (hp : Covers pieces (kernelSize n)) (hr : Covers rowPieces n)
    (junk : CSR Int Int ℝ) {G : Geometry Int} {part d0 d1 base : Nat} {v0 v1 : Vec}
    (hv : TwoVectors G part d0 d1 base v0 v1) (hG : ∀ i, i ∈ G.points (G.parent part) ↔ 0 ≤ i ∧ i < n) (t : Nat)
    (s : Cell Int → ℝ) (hx0 : ∀ i, 0 ≤ i → i < n → s (.elem d0 i) = 0)
    (ε : ℝ) (hε : 0 < ε) (tol : ℝ) (htol : ε ^ 2 * ∑ i ∈ Finset.Ico 0 n, s (.elem d1 i) ^ 2 ≤ tol) :
    ∃ pl, Planner.empty.setupAll G
        (singleCalls v0 v1 (Op.csr (createCSRLaplacian (fun z : Int => (z : ℝ)) n pieces rowPieces junk))) = some pl ∧
      Ends (cgLoop A G pl base fun _ v => decide (tol < v)) .start t s fun ctl seen s' =>
        (∃ pl' c k, ctl = .stop pl' c k ∧ k ≤ ⌈n * Real.log (4 * n / ε)⌉₊ ∧ k ≤ n.toNat ∧ seen.length = k + 1) ∧
        lineResidual n (fun i => s (.elem d1 i)) (fun i => s' (.elem d0 i)) ≤ tol ∧
        seen.getLast? = some (lineResidual n (fun i => s (.elem d1 i)) (fun i => s' (.elem d0 i))) ∧
        ∀ i, 0 ≤ i → i < n → s' (.elem d1 i) = s (.elem d1 i) := by
  have h2 := csr_line_holds n hn pieces rowPieces hp hr junk
  have hrows : ∀ i, i ∈ (createCSRLaplacian (fun z : Int => (z : ℝ)) n pieces rowPieces junk).rows ↔ 0 ≤ i ∧ i < n := by
    intro i
    show i ∈ indices n.toNat ↔ _
    rw [mem_indices]
    omega
  refine line_loop hA n _ hG ⟨hv, ?_⟩ (fun i j hi0 hi hj0 hj => ?_) t s hx0 ε hε tol htol
  · exact ⟨h2.col_mem fun e he => (hG _).2 (lineTriples_col n e he), fun i => by rw [hrows, hG], h2.rowsDisjoint⟩
  · rw [h2.coef i j ((hrows i).2 ⟨hi0, hi⟩), line_coef n i j hi0 hi hj0 hj]

end Verif.EndToEnd
