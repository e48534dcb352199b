import Verif.Rounding.Client
import Verif.Special.GMRES

/-! # GMRES in floating-point arithmetic: what a cycle computes -/
set_option linter.dupNamespace false
set_option linter.unusedSectionVars false
namespace Verif.Rounding.GM
open Verif.Runtime Verif.Vector Verif.Matrix Verif.Planner Verif.Solver Verif.Rounding
open Verif.Special (wp_xpay wp_scal wp_axpy wp_rsqrt wp_sqrt wp_neg wp_dummy wp_update GMAlive gmres_start)
open scoped _root_.Matrix
variable {K P : Type} [DecidableEq P] [DecidableEq K] {u : ℝ} {A : Arith ℝ}
variable {G : Geometry P} {pl pl' : Planner K P ℝ} {nw : Nat}

/-- `z` is the product of the matrix `M` (entries in absolute value: `Ma`) with `y`, computed from at most `l` stored entries per row. -/
def NearMul {ι : Type} [Fintype ι] (u : ℝ) (l : Nat) (M Ma : _root_.Matrix ι ι ℝ) (y z : ι → ℝ) : Prop :=
  ∀ w, Near u (1 + l) (z w) ((M *ᵥ y) w) ((Ma *ᵥ vabs y) w)

/-- `δ` is the inner product of `y` and `z` up to `c` roundings. -/
def NearDot {ι : Type} [Fintype ι] (u : ℝ) (c : Nat) (y z : ι → ℝ) (δ : ℝ) : Prop := Near u c δ (y ⬝ᵥ z) (vabs y ⬝ᵥ vabs z)

/-- Column `j` of the Arnoldi process of a cycle of length `m`, as in C71, for products in the relation `Mul` and inner products in the
relation `Dot`. -/
def Column {ι : Type} (A : Arith ℝ) (Mul : (ι → ℝ) → (ι → ℝ) → Prop) (Dot : (ι → ℝ) → (ι → ℝ) → ℝ → Prop) (m j : Nat)
    (B : Nat → ι → ℝ) (H : Nat → ℝ) : Prop :=
  ∃ (W : Nat → ι → ℝ) (D : ℝ), Mul (B j) (W 0) ∧
    (∀ i, i ≤ j → Dot (B i) (W i) (H i) ∧ ∀ w, W (i + 1) w = A.fma (A.neg (H i)) (B i w) (W i w)) ∧
    Dot (W (j + 1)) (W (j + 1)) D ∧ H (j + 1) = A.sqrt D ∧
    (j + 1 < m → ∀ w, B (j + 1) w = A.mul (A.div A.one (A.sqrt D)) (W (j + 1) w))

/-- One step (a cycle of length `m`) from the solution `x` to the solution `x'`. -/
structure Cycle {ι : Type} (A : Arith ℝ) (Mul : (ι → ℝ) → (ι → ℝ) → Prop) (Dot : (ι → ℝ) → (ι → ℝ) → ℝ → Prop) (m : Nat) (b x : ι → ℝ)
    (B : Nat → ι → ℝ) (H : Nat → Nat → ℝ) (x' : ι → ℝ) : Prop where
  start : ∃ (q r : ι → ℝ) (D : ℝ), Mul x q ∧ (∀ w, r w = A.fma (A.neg A.one) (q w) (b w)) ∧ Dot r r D ∧
    ∀ w, B 0 w = A.mul (A.div A.one (A.sqrt D)) (r w)
  column : ∀ j, j < m → Column A Mul Dot m j B fun i => H i j
  update : ∃ Y : Nat → ι → ℝ, Y 0 = x ∧ (∀ j, j < m → ∀ w, Y (j + 1) w = A.fma A.one (B j w) (Y j w)) ∧ x' = Y m

/-! ## Loops -/
section
variable {s0 s : Cell P → ℝ} {x : Nat → pl.U G → ℝ} {n : Nat}

theorem wp_orthogonalise (hA : Rounded u A) (R : Ready G pl nw) (hord : ∀ f l, (G.redOrder f l).Perm l) {L N : Nat} (hcut : Cut G pl L N)
    (hns : 0 < pl.spaces.length) {j : Nat}
    (hj : basis (j + 1) < nw + 2) (len : Nat) : ∀ (k0 : Nat) (h : Nat → Nat → Scalar) (n : Nat) (s : Cell P → ℝ) (x : Nat → pl.U G → ℝ)
      {Φ : (Nat → Nat → Scalar) → Nat → (Cell P → ℝ) → Prop}, k0 + len = j + 1 → View G pl nw s0 s x →
    (∀ h' n' s' (W : Nat → pl.U G → ℝ) (η : Nat → ℝ), Ext n s n' s' → View G pl nw s0 s' (Function.update x (basis (j + 1)) (W (j + 1))) →
      W k0 = x (basis (j + 1)) →
      (∀ i, k0 ≤ i → i ≤ j → Den n' s' (h' i j) (η i) ∧ NearDot u (L + N + pl.spaces.length) (x (basis i)) (W i) (η i) ∧
        ∀ u, W (i + 1) u = A.fma (A.neg (η i)) (x (basis i) u) (W i u)) →
      (∀ i i', ¬(i' = j ∧ k0 ≤ i ∧ i ≤ j) → h' i i' = h i i') → Φ h' n' s') →
    WP (GMRES.orthogonalise (plannerOps A G.toEnv pl) j (List.range' k0 len) h) n s Φ := by
  induction len with
  | zero =>
    intro k0 h n s x Φ hk v k
    refine WP.pure (k h n s (fun _ => x (basis (j + 1))) (fun _ => A.zero) (Ext.refl n s) ?_ rfl ?_ fun _ _ _ => rfl)
    · rw [Function.update_eq_self]; exact v
    · intro i h1 h2; omega
  | succ len ih =>
    intro k0 h n s x Φ hk v k
    have hb0 : basis k0 < nw + 2 := by unfold basis at hj ⊢; omega
    have hne : ∀ i, i ≤ j → basis i ≠ basis (j + 1) := by intro i hi; unfold basis; omega
    rw [List.range'_succ]
    refine WP.bind (wp_dot hA R hord hcut hns v hb0 hj fun a n1 s1 δ e1 v1 d1 hδ => ?_)
    have ha : setEntry h k0 j a k0 j = a := by simp [setEntry]
    simp only [ha]
    refine WP.bind (wp_neg v1 d1 fun a2 n2 s2 e2 v2 d2 => ?_)
    refine WP.bind (wp_axpy R v2 hj hb0 d2 fun s3 e3 v3 => ?_)
    refine ih (k0 + 1) _ n2 s3 _ (by omega) v3 fun h' n' s' W η e v4 hW hrel hother => ?_
    have hd : Den n' s' a δ := e.den (e3.den (e2.den d1))
    have hak : h' k0 j = a := by rw [hother k0 j (by omega), ha]
    refine k h' n' s' (fun i => if i = k0 then x (basis (j + 1)) else W i) (fun i => if i = k0 then δ else η i)
      (e1.trans (e2.trans (e3.trans e))) ?_ (by simp) ?_ ?_
    · rw [Function.update_idem] at v4
      rw [if_neg (by omega)]
      exact v4
    · intro i h1 h2
      by_cases hi : i = k0
      · subst hi
        simp only [if_pos]
        refine ⟨by rw [hak]; exact hd, hδ, fun u => ?_⟩
        rw [if_neg (by omega), hW, Function.update_self]
      · obtain ⟨g1, g2, g3⟩ := hrel i (by omega) h2
        rw [Function.update_of_ne (hne i h2)] at g2 g3
        simp only [if_neg hi, if_neg (show i + 1 ≠ k0 by omega)]
        exact ⟨g1, g2, g3⟩
    · intro i i' hn
      rw [hother i i' (by omega)]
      unfold setEntry
      rw [if_neg (by omega)]

theorem Column.congr {ι : Type} {Mul : (ι → ℝ) → (ι → ℝ) → Prop} {Dot : (ι → ℝ) → (ι → ℝ) → ℝ → Prop} {m j : Nat} {B B' : Nat → ι → ℝ}
    {H H' : Nat → ℝ} (h : Column A Mul Dot m j B H) (hB : ∀ i, i ≤ j + 1 → B' i = B i) (hH : ∀ i, i ≤ j + 1 → H' i = H i) :
    Column A Mul Dot m j B' H' := by
  obtain ⟨W, D, h1, h2, h3, h4, h5⟩ := h
  refine ⟨W, D, by rw [hB j (by omega)]; exact h1, fun i hi => ?_, h3, by rw [hH _ (Nat.le_refl _)]; exact h4, ?_⟩
  · rw [hB i (by omega), hH i (by omega)]
    exact h2 i hi
  · rw [hB (j + 1) (Nat.le_refl _)]
    exact h5

theorem wp_column (hA : Rounded u A) (R : Ready G pl nw) (hord : ∀ f l, (G.redOrder f l).Perm l) {L N : Nat} (hcut : Cut G pl L N)
    (hns : 0 < pl.spaces.length) {l : Nat} (hl : ∀ v : pl.U G, (pl.stored v.1.1 v.1.2).length ≤ l) {m j : Nat}
    (hj : basis (j + 1) < nw + 2) (h : Nat → Nat → Scalar) (v : View G pl nw s0 s x) {Φ : (Nat → Nat → Scalar) → Nat → (Cell P → ℝ) → Prop}
    (k : ∀ h' n' s' g (H : Nat → ℝ), Ext n s n' s' → View G pl nw s0 s' (Function.update x (basis (j + 1)) g) →
      Column A (NearMul u l (pl.operator G) (absOperator G pl)) (NearDot u (L + N + pl.spaces.length)) m j
        (fun i => Function.update x (basis (j + 1)) g (basis i)) H →
      (∀ i, i ≤ j + 1 → Den n' s' (h' i j) (H i)) → (∀ i i', i' ≠ j → h' i i' = h i i') → Φ h' n' s') :
    WP (GMRES.column (plannerOps A G.toEnv pl) m j h) n s Φ := by
  have hb : basis j < nw + 2 := by unfold basis at hj ⊢; omega
  have hne : ∀ i, i ≤ j → basis i ≠ basis (j + 1) := by intro i hi; unfold basis; omega
  refine WP.bind (wp_matvec hA R hl v hj hb (fun e => hne j (Nat.le_refl _) e.symm) fun s1 q e1 v1 hq => ?_)
  rw [List.range_eq_range']
  refine WP.bind (wp_orthogonalise hA R hord hcut hns hj (j + 1) 0 h n s1 _ (by omega) v1 fun h2 n2 s2 W η e2 v2 hW hrel hother => ?_)
  rw [Function.update_idem] at v2
  rw [Function.update_self] at hW
  refine WP.bind (wp_dot hA R hord hcut hns v2 hj hj fun a3 n3 s3 D e3 v3 d3 hD => ?_)
  rw [Function.update_self] at hD
  refine WP.bind (wp_sqrt v3 d3 fun a4 n4 s4 e4 v4 d4 => ?_)
  have hcol : ∀ g, (j + 1 < m → ∀ u, g u = A.mul (A.div A.one (A.sqrt D)) (W (j + 1) u)) →
      Column A (NearMul u l (pl.operator G) (absOperator G pl)) (NearDot u (L + N + pl.spaces.length)) m j
        (fun i => Function.update x (basis (j + 1)) g (basis i))
        fun i => if i = j + 1 then A.sqrt D else η i := by
    intro g hg
    refine ⟨W, D, ?_, fun i hi => ?_, hD, by simp, fun hm u => ?_⟩
    · beta_reduce
      rw [Function.update_of_ne (hne j (Nat.le_refl _)), hW]
      exact hq
    · beta_reduce
      rw [if_neg (by omega), Function.update_of_ne (hne i hi)]
      obtain ⟨-, g2, g3⟩ := hrel i (by omega) hi
      rw [Function.update_of_ne (hne i hi)] at g2 g3
      exact ⟨g2, g3⟩
    · beta_reduce
      rw [Function.update_self]
      exact hg hm u
  have hent : ∀ {n' : Nat} {s' : Cell P → ℝ}, Ext n4 s4 n' s' → ∀ i, i ≤ j + 1 →
      Den n' s' (setEntry h2 (j + 1) j a4 i j) (if i = j + 1 then A.sqrt D else η i) := by
    intro n' s' e i hi
    by_cases hij : i = j + 1
    · subst hij
      rw [if_pos rfl, show setEntry h2 (j + 1) j a4 (j + 1) j = a4 by simp [setEntry]]
      exact e.den d4
    · rw [if_neg hij, show setEntry h2 (j + 1) j a4 i j = h2 i j by simp [setEntry, hij]]
      exact e.den (e4.den (e3.den (hrel i (by omega) (by omega)).1))
  have hoth : ∀ i i', i' ≠ j → setEntry h2 (j + 1) j a4 i i' = h i i' := by
    intro i i' hne'
    rw [show setEntry h2 (j + 1) j a4 i i' = h2 i i' by simp [setEntry, hne'], hother i i' (by omega)]
  by_cases hm : j + 1 < m
  · simp only [if_pos hm]
    refine WP.bind (wp_rsqrt v4 (e4.den d3) fun a5 n5 s5 e5 v5 d5 => ?_)
    refine WP.bind (wp_scal R v5 hj d5 fun s6 e6 v6 => ?_)
    rw [Function.update_self, Function.update_idem] at v6
    exact WP.pure (k _ _ _ _ _ (e1.trans (e2.trans (e3.trans (e4.trans (e5.trans e6))))) v6 (hcol _ fun _ _ => rfl)
      (hent (e5.trans e6)) hoth)
  · simp only [if_neg hm]
    exact WP.pure (k _ _ _ _ _ (e1.trans (e2.trans (e3.trans e4))) v4 (hcol _ fun h => absurd h hm) (hent (Ext.refl _ _)) hoth)

theorem wp_columns (hA : Rounded u A) (R : Ready G pl nw) (hord : ∀ f l, (G.redOrder f l).Perm l) {L N : Nat} (hcut : Cut G pl L N)
    (hns : 0 < pl.spaces.length) {l : Nat} (hl : ∀ v : pl.U G, (pl.stored v.1.1 v.1.2).length ≤ l) {m : Nat}
    (hm : basis m < nw + 2) (len : Nat) : ∀ (j0 : Nat) (h : Nat → Nat → Scalar) (n : Nat) (s : Cell P → ℝ) (x : Nat → pl.U G → ℝ)
      {Φ : (Nat → Nat → Scalar) → Nat → (Cell P → ℝ) → Prop}, j0 + len = m → View G pl nw s0 s x →
    (∀ h' n' s' x' (H : Nat → Nat → ℝ), Ext n s n' s' → View G pl nw s0 s' x' → (∀ i, i ≤ basis j0 → x' i = x i) →
      (∀ j, j0 ≤ j → j < m → Column A (NearMul u l (pl.operator G) (absOperator G pl)) (NearDot u (L + N + pl.spaces.length)) m j (fun i => x' (basis i)) (fun i => H i j) ∧
        ∀ i, i ≤ j + 1 → Den n' s' (h' i j) (H i j)) →
      (∀ i i', i' < j0 → h' i i' = h i i') → Φ h' n' s') →
    WP (GMRES.columns (plannerOps A G.toEnv pl) m (List.range' j0 len) h) n s Φ := by
  induction len with
  | zero =>
    intro j0 h n s x Φ hk v k
    exact WP.pure (k h n s x (fun _ _ => A.zero) (Ext.refl n s) v (fun _ _ => rfl) (fun j h1 h2 => by omega) fun _ _ _ => rfl)
  | succ len ih =>
    intro j0 h n s x Φ hk v k
    rw [List.range'_succ]
    refine WP.bind (wp_column hA R hord hcut hns hl (by unfold basis at hm ⊢; omega) h v fun h1 n1 s1 g H1 e1 v1 hcol hent hoth => ?_)
    refine ih (j0 + 1) h1 n1 s1 _ (by omega) v1 fun h' n' s' x' H e v2 hx hrel hoth' => ?_
    refine k h' n' s' x' (fun i j => if j = j0 then H1 i else H i j) (e1.trans e) v2 ?_ ?_ ?_
    · intro i hi
      rw [hx i (by unfold basis at hi ⊢; omega), Function.update_of_ne (by unfold basis at hi ⊢; omega)]
    · intro j g1 g2
      by_cases hj : j = j0
      · subst hj
        simp only [if_true]
        refine ⟨hcol.congr (fun i hi => ?_) (fun _ _ => rfl), fun i hi => ?_⟩
        · rw [hx _ (by unfold basis; omega)]
        · rw [hoth' i j (by omega)]
          exact e.den (hent i hi)
      · simp only [if_neg hj]
        exact hrel j (by omega) g2
    · intro i i' hi'
      rw [hoth' i i' (by omega), hoth i i' (by omega)]

end

/-! ## A step and a run -/

theorem gmres_step (hA : Rounded u A) {m : Nat} (R : Ready G pl (m + 1)) (hord : ∀ f l, (G.redOrder f l).Perm l) {L N : Nat}
    (hcut : Cut G pl L N) (hns : 0 < pl.spaces.length) {l : Nat} (hl : ∀ v : pl.U G, (pl.stored v.1.1 v.1.2).length ≤ l)
    {b : pl.U G → ℝ} {c : GMRES Scalar} {n : Nat} {s : Cell P → ℝ} (I : GMAlive A G pl m b c n s) :
    WP (GMRES.step (plannerOps A G.toEnv pl) c) n s fun c' n' s' => GMAlive A G pl m b c' n' s' ∧ ∃ B H,
      Cycle A (NearMul u l (pl.operator G) (absOperator G pl)) (NearDot u (L + N + pl.spaces.length)) m b (pl.content G s 0) B H
        (pl.content G s' 0) ∧
      ∀ i j, j < m → i ≤ j + 1 → s' (.fut (c'.inner i j).fut) = H i j := by
  obtain ⟨hb, hneg, hm⟩ := I
  have v0 := View.start G pl (m + 1) s
  unfold GMRES.step GMRES.build GMRES.start GMRES.finish
  simp only [bind_assoc, pure_bind]
  have hb0 : basis 0 < m + 1 + 2 := by unfold basis; omega
  refine WP.bind (wp_matvec hA R hl v0 hb0 (by omega) (by decide) fun s1 q e1 v1 hq => ?_)
  refine WP.bind (wp_xpay R v1 hb0 (by omega) (show Den _ _ _ (A.neg A.one) by den) fun s2 e2 v2 => ?_)
  refine WP.bind (wp_dot hA R hord hcut hns v2 hb0 hb0 fun a3 n3 s3 D e3 v3 d3 hD => ?_)
  refine WP.bind (wp_rsqrt v3 d3 fun a4 n4 s4 e4 v4 d4 => ?_)
  refine WP.bind (wp_scal R v4 hb0 d4 fun s5 e5 v5 => ?_)
  simp only [Function.update_self, Function.update_idem, Function.update_of_ne (show (1 : Nat) ≠ basis 0 by decide)] at v5 hD
  rw [List.range_eq_range', hm]
  refine WP.bind (wp_columns hA R hord hcut hns hl (by unfold basis; omega) m 0 c.inner _ _ _ (by omega) v5
    fun h6 n6 s6 x6 H e6 v6 hx hrel _ => ?_)
  refine WP.bind (wp_dummy v6 _ fun a7 n7 s7 e7 v7 d7 => ?_)
  refine WP.bind (wp_update R (m := m) (by unfold basis; omega) m 0 _ _ _ (by omega) v7 d7 fun s8 Y e8 v8 hY hupd => ?_)
  have hx0 : x6 0 = pl.content G s 0 := by
    rw [hx 0 (by unfold basis; omega), Function.update_of_ne (by decide)]
  have hx1 : x6 1 = b := by
    rw [hx 1 (by unfold basis; omega), Function.update_of_ne (by decide), hb]
  have hx2 := hx (basis 0) (Nat.le_refl _)
  rw [Function.update_self] at hx2
  have hx8 : pl.content G s8 0 = Y m := by rw [v8.vec 0 (by omega), Function.update_self]
  refine WP.pure ⟨⟨?_, by den, rfl⟩, fun i => x6 (basis i), H, ⟨⟨q, _, D, hq, fun _ => rfl, ?_, fun u => ?_⟩, fun j hj => (hrel j (by omega) hj).1,
    Y, ?_, fun j hj => hupd j (by omega) hj, hx8⟩, fun i j hj hi => ?_⟩
  · rw [v8.vec 1 (by omega), Function.update_of_ne (by decide), hx1]
  · rw [hb] at hD
    exact hD
  · rw [hx2, hb]
  · rw [hY, hx0]
  · exact (e8.den (e7.den ((hrel j (by omega) hj).2 i hi))).2

theorem gmres_planner (hA : Rounded u A) {base m : Nat} (S : SolverSetup G pl pl' base (m + 1)) {L N l : Nat} (hcut : Cut G pl' L N)
    (hl : ∀ v : pl'.U G, (pl'.stored v.1.1 v.1.2).length ≤ l) (n : Nat) (s : Cell P → ℝ) :
    ∃ (x : Nat → pl'.U G → ℝ) (B : Nat → Nat → pl'.U G → ℝ) (H : Nat → Nat → Nat → ℝ), x 0 = pl'.content G s 0 ∧
      (∀ k, Cycle A (NearMul u l (pl'.operator G) (absOperator G pl')) (NearDot u (L + N + pl'.spaces.length)) m (pl'.content G s 1) (x k) (B k)
        (H k) (x (k + 1))) ∧
      (∀ k, Ensures (gmres A G pl base m k) n s fun _ s' => pl'.content G s' 0 = x k ∧ pl'.content G s' 1 = pl'.content G s 1) ∧
      ∀ k, Ensures (gmres A G pl base m (k + 1)) n s fun c s' => pl'.content G s' 0 = x (k + 1) ∧
        ∀ i j, j < m → i ≤ j + 1 → s' (.fut (c.inner i j).fut) = H k i j := by
  obtain ⟨c0, n0, s0, hrun0, hal, hx0⟩ := gmres_start (A := A) (G := G) (pl := pl') (m := m) n s
  obtain ⟨f, hf0, hf⟩ := exists_chain (X := GMRES Scalar × Nat × (Cell P → ℝ))
    (fun k t => GMAlive A G pl' m (pl'.content G s 1) t.1 t.2.1 t.2.2)
    (fun t t' => Runs (GMRES.step (plannerOps A G.toEnv pl') t.1) t.2.1 t.2.2 t'.1 t'.2.1 t'.2.2 ∧ ∃ B H,
      Cycle A (NearMul u l (pl'.operator G) (absOperator G pl')) (NearDot u (L + N + pl'.spaces.length)) m (pl'.content G s 1)
        (pl'.content G t.2.2 0) B H (pl'.content G t'.2.2 0) ∧
      ∀ i j, j < m → i ≤ j + 1 → t'.2.2 (.fut (t'.1.inner i j).fut) = H i j)
    (c0, n0, s0) hal (by
      rintro k ⟨c, n1, s1⟩ I
      obtain ⟨c', n', s', g1, g2, g3⟩ := gmres_step hA S.ready S.order hcut S.nonempty hl I
      exact ⟨(c', n', s'), g2, g1, g3⟩)
  have hfin : ∀ j i, Runs (repeatM (GMRES.step (plannerOps A G.toEnv pl')) j (f i).1) (f i).2.1 (f i).2.2 (f (i + j)).1 (f (i + j)).2.1
      (f (i + j)).2.2 := by
    intro j
    induction j with
    | zero => intro i; exact Runs.pure _ _ _
    | succ j ih =>
      intro i
      have h := (hf i).2.1.bind (ih (i + 1))
      rw [show i + 1 + j = i + (j + 1) by omega] at h
      exact h
  have hsolve : ∀ k, Runs (GMRES.solve (plannerOps A G.toEnv pl') m k) n s (f k).1 (f k).2.1 (f k).2.2 := by
    intro k
    have h := hfin k 0
    rw [Nat.zero_add, hf0] at h
    exact hrun0.bind h
  choose B H hcyc hent using fun k => (hf k).2.2
  refine ⟨fun k => pl'.content G (f k).2.2 0, B, H, by simp only [hf0]; exact hx0, hcyc, fun k => ?_, fun k => ?_⟩
  · exact WP.ensures (WP.allocate S.alloc ⟨_, _, _, hsolve k, rfl, (hf k).1.rhs⟩)
  · exact WP.ensures (WP.allocate S.alloc ⟨_, _, _, hsolve (k + 1), rfl, hent k⟩)


end Verif.Rounding.GM
