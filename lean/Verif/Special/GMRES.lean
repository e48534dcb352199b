import Verif.Special.Client

/-! # The recurrence that GMRES evaluates, in an arbitrary arithmetic -/
set_option linter.dupNamespace false
set_option linter.unusedSectionVars false
namespace Verif.Special
open Verif.Runtime Verif.Vector Verif.Matrix Verif.Planner Verif.Solver
variable {K P V : Type} [DecidableEq P] [DecidableEq K]

/-! ## The recurrence -/

/-- Column `j` of the Arnoldi process of a cycle of length `m`: `W i` is the new vector after `i` orthogonalisations, `H i` the entries of
the column. -/
def Column {ι : Type} [Fintype ι] (A : Arith V) (mv : (ι → V) → ι → V) (m j : Nat) (B : Nat → ι → V) (H : Nat → V) : Prop :=
  ∃ (W : Nat → ι → V) (D : V), W 0 = mv (B j) ∧
    (∀ i, i ≤ j → Sums A (∑ u, {A.mul (B i u) (W i u)}) (H i) ∧ ∀ u, W (i + 1) u = A.fma (A.neg (H i)) (B i u) (W i u)) ∧
    Sums A (∑ u, {A.mul (W (j + 1) u) (W (j + 1) u)}) D ∧ H (j + 1) = A.sqrt D ∧
    (j + 1 < m → ∀ u, B (j + 1) u = A.mul (A.div A.one (A.sqrt D)) (W (j + 1) u))

/-- One step (a cycle of length `m`) of GMRES from the solution `x` to the solution `x'`: `B` are the basis vectors, `H` the recorded
inner products. -/
structure Cycle {ι : Type} [Fintype ι] (A : Arith V) (mv : (ι → V) → ι → V) (m : Nat) (b x : ι → V) (B : Nat → ι → V)
    (H : Nat → Nat → V) (x' : ι → V) : Prop where
  start : ∃ D, Sums A (∑ u, {A.mul (A.fma (A.neg A.one) (mv x u) (b u)) (A.fma (A.neg A.one) (mv x u) (b u))}) D ∧
    ∀ u, B 0 u = A.mul (A.div A.one (A.sqrt D)) (A.fma (A.neg A.one) (mv x u) (b u))
  column : ∀ j, j < m → Column A mv m j B fun i => H i j
  update : ∃ Y : Nat → ι → V, Y 0 = x ∧ (∀ j, j < m → ∀ u, Y (j + 1) u = A.fma A.one (B j u) (Y j u)) ∧ x' = Y m

variable {G : Geometry P} {pl pl' : Planner K P V} {A : Arith V} {nw : Nat}

/-! ## Loops -/
section
variable {s0 s : Cell P → V} {x : Nat → pl.U G → V} {n : Nat}

theorem wp_orthogonalise (R : Ready G pl nw) (hord : ∀ f l, (G.redOrder f l).Perm l) (hns : 0 < pl.spaces.length) {j : Nat}
    (hj : basis (j + 1) < nw + 2) (len : Nat) : ∀ (k0 : Nat) (h : Nat → Nat → Scalar) (n : Nat) (s : Cell P → V) (x : Nat → pl.U G → V)
      {Φ : (Nat → Nat → Scalar) → Nat → (Cell P → V) → Prop}, k0 + len = j + 1 → View G pl nw s0 s x →
    (∀ h' n' s' (W : Nat → pl.U G → V) (η : Nat → V), Ext n s n' s' → View G pl nw s0 s' (Function.update x (basis (j + 1)) (W (j + 1))) →
      W k0 = x (basis (j + 1)) →
      (∀ i, k0 ≤ i → i ≤ j → Den n' s' (h' i j) (η i) ∧ Sums A (∑ u : pl.U G, {A.mul (x (basis i) u) (W i u)}) (η i) ∧
        ∀ u, W (i + 1) u = A.fma (A.neg (η i)) (x (basis i) u) (W i u)) →
      (∀ i i', ¬(i' = j ∧ k0 ≤ i ∧ i ≤ j) → h' i i' = h i i') → Φ h' n' s') →
    WP (GMRES.orthogonalise (plannerOps A G.toEnv pl) j (List.range' k0 len) h) n s Φ := by
  induction len with
  | zero =>
    intro k0 h n s x Φ hk v k
    refine WP.pure (k h n s (fun _ => x (basis (j + 1))) (fun _ => A.zero) (Ext.refl n s) ?_ rfl ?_ fun _ _ _ => rfl)
    · rw [Function.update_eq_self]; exact v
    · intro i h1 h2; omega
  | succ len ih =>
    intro k0 h n s x Φ hk v k
    have hb0 : basis k0 < nw + 2 := by unfold basis at hj ⊢; omega
    have hne : ∀ i, i ≤ j → basis i ≠ basis (j + 1) := by intro i hi; unfold basis; omega
    rw [List.range'_succ]
    refine WP.bind (wp_dot R hord hns v hb0 hj fun a n1 s1 δ e1 v1 d1 hδ => ?_)
    have ha : setEntry h k0 j a k0 j = a := by simp [setEntry]
    simp only [ha]
    refine WP.bind (wp_neg v1 d1 fun a2 n2 s2 e2 v2 d2 => ?_)
    refine WP.bind (wp_axpy R v2 hj hb0 d2 fun s3 e3 v3 => ?_)
    refine ih (k0 + 1) _ n2 s3 _ (by omega) v3 fun h' n' s' W η e v4 hW hrel hother => ?_
    have hd : Den n' s' a δ := e.den (e3.den (e2.den d1))
    have hak : h' k0 j = a := by rw [hother k0 j (by omega), ha]
    refine k h' n' s' (fun i => if i = k0 then x (basis (j + 1)) else W i) (fun i => if i = k0 then δ else η i)
      (e1.trans (e2.trans (e3.trans e))) ?_ (by simp) ?_ ?_
    · rw [Function.update_idem] at v4
      rw [if_neg (by omega)]
      exact v4
    · intro i h1 h2
      by_cases hi : i = k0
      · subst hi
        simp only [if_pos]
        refine ⟨by rw [hak]; exact hd, hδ, fun u => ?_⟩
        rw [if_neg (by omega), hW, Function.update_self]
      · obtain ⟨g1, g2, g3⟩ := hrel i (by omega) h2
        rw [Function.update_of_ne (hne i h2)] at g2 g3
        simp only [if_neg hi, if_neg (show i + 1 ≠ k0 by omega)]
        exact ⟨g1, g2, g3⟩
    · intro i i' hn
      rw [hother i i' (by omega)]
      unfold setEntry
      rw [if_neg (by omega)]

theorem Column.congr {ι : Type} [Fintype ι] {mv : (ι → V) → ι → V} {m j : Nat} {B B' : Nat → ι → V} {H H' : Nat → V}
    (h : Column A mv m j B H) (hB : ∀ i, i ≤ j + 1 → B' i = B i) (hH : ∀ i, i ≤ j + 1 → H' i = H i) : Column A mv m j B' H' := by
  obtain ⟨W, D, h1, h2, h3, h4, h5⟩ := h
  refine ⟨W, D, by rw [hB j (by omega)]; exact h1, fun i hi => ?_, h3, by rw [hH _ (Nat.le_refl _)]; exact h4, ?_⟩
  · rw [hB i (by omega), hH i (by omega)]
    exact h2 i hi
  · rw [hB (j + 1) (Nat.le_refl _)]
    exact h5

theorem wp_column (R : Ready G pl nw) (hord : ∀ f l, (G.redOrder f l).Perm l) (hns : 0 < pl.spaces.length) {m j : Nat}
    (hj : basis (j + 1) < nw + 2) (h : Nat → Nat → Scalar) (v : View G pl nw s0 s x) {Φ : (Nat → Nat → Scalar) → Nat → (Cell P → V) → Prop}
    (k : ∀ h' n' s' g (H : Nat → V), Ext n s n' s' → View G pl nw s0 s' (Function.update x (basis (j + 1)) g) →
      Column A (plannerProduct A G pl) m j (fun i => Function.update x (basis (j + 1)) g (basis i)) H →
      (∀ i, i ≤ j + 1 → Den n' s' (h' i j) (H i)) → (∀ i i', i' ≠ j → h' i i' = h i i') → Φ h' n' s') :
    WP (GMRES.column (plannerOps A G.toEnv pl) m j h) n s Φ := by
  have hb : basis j < nw + 2 := by unfold basis at hj ⊢; omega
  have hne : ∀ i, i ≤ j → basis i ≠ basis (j + 1) := by intro i hi; unfold basis; omega
  refine WP.bind (wp_matvec R v hj hb (fun e => hne j (Nat.le_refl _) e.symm) fun s1 e1 v1 => ?_)
  rw [List.range_eq_range']
  refine WP.bind (wp_orthogonalise R hord hns hj (j + 1) 0 h n s1 _ (by omega) v1 fun h2 n2 s2 W η e2 v2 hW hrel hother => ?_)
  rw [Function.update_idem] at v2
  rw [Function.update_self] at hW
  refine WP.bind (wp_dot R hord hns v2 hj hj fun a3 n3 s3 D e3 v3 d3 hD => ?_)
  rw [Function.update_self] at hD
  refine WP.bind (wp_sqrt v3 d3 fun a4 n4 s4 e4 v4 d4 => ?_)
  have hcol : ∀ g, (j + 1 < m → ∀ u, g u = A.mul (A.div A.one (A.sqrt D)) (W (j + 1) u)) →
      Column A (plannerProduct A G pl) m j (fun i => Function.update x (basis (j + 1)) g (basis i))
        fun i => if i = j + 1 then A.sqrt D else η i := by
    intro g hg
    refine ⟨W, D, ?_, fun i hi => ?_, hD, by simp, fun hm u => ?_⟩
    · beta_reduce
      rw [Function.update_of_ne (hne j (Nat.le_refl _))]
      exact hW
    · beta_reduce
      rw [if_neg (by omega), Function.update_of_ne (hne i hi)]
      obtain ⟨-, g2, g3⟩ := hrel i (by omega) hi
      rw [Function.update_of_ne (hne i hi)] at g2 g3
      exact ⟨g2, g3⟩
    · beta_reduce
      rw [Function.update_self]
      exact hg hm u
  have hent : ∀ {n' : Nat} {s' : Cell P → V}, Ext n4 s4 n' s' → ∀ i, i ≤ j + 1 →
      Den n' s' (setEntry h2 (j + 1) j a4 i j) (if i = j + 1 then A.sqrt D else η i) := by
    intro n' s' e i hi
    by_cases hij : i = j + 1
    · subst hij
      rw [if_pos rfl, show setEntry h2 (j + 1) j a4 (j + 1) j = a4 by simp [setEntry]]
      exact e.den d4
    · rw [if_neg hij, show setEntry h2 (j + 1) j a4 i j = h2 i j by simp [setEntry, hij]]
      exact e.den (e4.den (e3.den (hrel i (by omega) (by omega)).1))
  have hoth : ∀ i i', i' ≠ j → setEntry h2 (j + 1) j a4 i i' = h i i' := by
    intro i i' hne'
    rw [show setEntry h2 (j + 1) j a4 i i' = h2 i i' by simp [setEntry, hne'], hother i i' (by omega)]
  by_cases hm : j + 1 < m
  · simp only [if_pos hm]
    refine WP.bind (wp_rsqrt v4 (e4.den d3) fun a5 n5 s5 e5 v5 d5 => ?_)
    refine WP.bind (wp_scal R v5 hj d5 fun s6 e6 v6 => ?_)
    rw [Function.update_self, Function.update_idem] at v6
    exact WP.pure (k _ _ _ _ _ (e1.trans (e2.trans (e3.trans (e4.trans (e5.trans e6))))) v6 (hcol _ fun _ _ => rfl)
      (hent (e5.trans e6)) hoth)
  · simp only [if_neg hm]
    exact WP.pure (k _ _ _ _ _ (e1.trans (e2.trans (e3.trans e4))) v4 (hcol _ fun h => absurd h hm) (hent (Ext.refl _ _)) hoth)

theorem wp_columns (R : Ready G pl nw) (hord : ∀ f l, (G.redOrder f l).Perm l) (hns : 0 < pl.spaces.length) {m : Nat}
    (hm : basis m < nw + 2) (len : Nat) : ∀ (j0 : Nat) (h : Nat → Nat → Scalar) (n : Nat) (s : Cell P → V) (x : Nat → pl.U G → V)
      {Φ : (Nat → Nat → Scalar) → Nat → (Cell P → V) → Prop}, j0 + len = m → View G pl nw s0 s x →
    (∀ h' n' s' x' (H : Nat → Nat → V), Ext n s n' s' → View G pl nw s0 s' x' → (∀ i, i ≤ basis j0 → x' i = x i) →
      (∀ j, j0 ≤ j → j < m → Column A (plannerProduct A G pl) m j (fun i => x' (basis i)) (fun i => H i j) ∧
        ∀ i, i ≤ j + 1 → Den n' s' (h' i j) (H i j)) →
      (∀ i i', i' < j0 → h' i i' = h i i') → Φ h' n' s') →
    WP (GMRES.columns (plannerOps A G.toEnv pl) m (List.range' j0 len) h) n s Φ := by
  induction len with
  | zero =>
    intro j0 h n s x Φ hk v k
    exact WP.pure (k h n s x (fun _ _ => A.zero) (Ext.refl n s) v (fun _ _ => rfl) (fun j h1 h2 => by omega) fun _ _ _ => rfl)
  | succ len ih =>
    intro j0 h n s x Φ hk v k
    rw [List.range'_succ]
    refine WP.bind (wp_column R hord hns (by unfold basis at hm ⊢; omega) h v fun h1 n1 s1 g H1 e1 v1 hcol hent hoth => ?_)
    refine ih (j0 + 1) h1 n1 s1 _ (by omega) v1 fun h' n' s' x' H e v2 hx hrel hoth' => ?_
    refine k h' n' s' x' (fun i j => if j = j0 then H1 i else H i j) (e1.trans e) v2 ?_ ?_ ?_
    · intro i hi
      rw [hx i (by unfold basis at hi ⊢; omega), Function.update_of_ne (by unfold basis at hi ⊢; omega)]
    · intro j g1 g2
      by_cases hj : j = j0
      · subst hj
        simp only [if_true]
        refine ⟨hcol.congr (fun i hi => ?_) (fun _ _ => rfl), fun i hi => ?_⟩
        · rw [hx _ (by unfold basis; omega)]
        · rw [hoth' i j (by omega)]
          exact e.den (hent i hi)
      · simp only [if_neg hj]
        exact hrel j (by omega) g2
    · intro i i' hi'
      rw [hoth' i i' (by omega), hoth i i' (by omega)]

theorem wp_update (R : Ready G pl nw) {m : Nat} (hm : basis m ≤ nw + 2) {coeff : Scalar} (len : Nat) :
    ∀ (j0 : Nat) (n : Nat) (s : Cell P → V) (x : Nat → pl.U G → V) {Φ : Unit → Nat → (Cell P → V) → Prop}, j0 + len = m →
    View G pl nw s0 s x → Den n s coeff A.one →
    (∀ s' (Y : Nat → pl.U G → V), Ext n s n s' → View G pl nw s0 s' (Function.update x 0 (Y m)) → Y j0 = x 0 →
      (∀ j, j0 ≤ j → j < m → ∀ u, Y (j + 1) u = A.fma A.one (x (basis j) u) (Y j u)) → Φ () n s') →
    WP (GMRES.update (plannerOps A G.toEnv pl) coeff (List.range' j0 len)) n s Φ := by
  induction len with
  | zero =>
    intro j0 n s x Φ hk v d k
    refine WP.pure (k s (fun _ => x 0) (Ext.refl n s) ?_ rfl fun j h1 h2 => by omega)
    rw [Function.update_eq_self]; exact v
  | succ len ih =>
    intro j0 n s x Φ hk v d k
    rw [List.range'_succ]
    refine WP.bind (wp_axpy R v (by omega) (by unfold basis at hm ⊢; omega) d fun s1 e1 v1 => ?_)
    refine ih (j0 + 1) n s1 _ (by omega) v1 (e1.den d) fun s' Y e v2 hY hrel => ?_
    rw [Function.update_idem] at v2
    rw [Function.update_self] at hY
    refine k s' (fun i => if i = j0 then x 0 else Y i) (e1.trans e) ?_ (by simp) ?_
    · rw [if_neg (by omega)]
      exact v2
    · intro j h1 h2 u
      by_cases hj : j = j0
      · subst hj
        rw [if_neg (by omega), hY]
        simp
      · rw [if_neg (by omega), if_neg hj]
        have := hrel j (by omega) h2 u
        rwa [Function.update_of_ne (by unfold basis; omega)] at this

end

/-! ## A step and a run -/

/-- What holds of the solver object between steps. -/
structure GMAlive (A : Arith V) (G : Geometry P) (pl : Planner K P V) (m : Nat) (b : pl.U G → V) (c : GMRES Scalar) (n : Nat)
    (s : Cell P → V) : Prop where
  rhs : pl.content G s 1 = b
  neg : Den n s c.negOne (A.neg A.one)
  restart : c.restart = m

theorem gmres_step {m : Nat} (R : Ready G pl (m + 1)) (hord : ∀ f l, (G.redOrder f l).Perm l) (hns : 0 < pl.spaces.length)
    {b : pl.U G → V} {c : GMRES Scalar} {n : Nat} {s : Cell P → V} (I : GMAlive A G pl m b c n s) :
    WP (GMRES.step (plannerOps A G.toEnv pl) c) n s fun c' n' s' => GMAlive A G pl m b c' n' s' ∧ ∃ B H,
      Cycle A (plannerProduct A G pl) m b (pl.content G s 0) B H (pl.content G s' 0) ∧
      ∀ i j, j < m → i ≤ j + 1 → s' (.fut (c'.inner i j).fut) = H i j := by
  obtain ⟨hb, hneg, hm⟩ := I
  have v0 := View.start G pl (m + 1) s
  unfold GMRES.step GMRES.build GMRES.start GMRES.finish
  simp only [bind_assoc, pure_bind]
  have hb0 : basis 0 < m + 1 + 2 := by unfold basis; omega
  refine WP.bind (wp_matvec R v0 hb0 (by omega) (by decide) fun s1 e1 v1 => ?_)
  refine WP.bind (wp_xpay R v1 hb0 (by omega) (show Den _ _ _ (A.neg A.one) by den) fun s2 e2 v2 => ?_)
  refine WP.bind (wp_dot R hord hns v2 hb0 hb0 fun a3 n3 s3 D e3 v3 d3 hD => ?_)
  refine WP.bind (wp_rsqrt v3 d3 fun a4 n4 s4 e4 v4 d4 => ?_)
  refine WP.bind (wp_scal R v4 hb0 d4 fun s5 e5 v5 => ?_)
  simp only [Function.update_self, Function.update_idem, Function.update_of_ne (show (1 : Nat) ≠ basis 0 by decide)] at v5 hD
  rw [List.range_eq_range', hm]
  refine WP.bind (wp_columns R hord hns (by unfold basis; omega) m 0 c.inner _ _ _ (by omega) v5
    fun h6 n6 s6 x6 H e6 v6 hx hrel _ => ?_)
  refine WP.bind (wp_dummy v6 _ fun a7 n7 s7 e7 v7 d7 => ?_)
  refine WP.bind (wp_update R (m := m) (by unfold basis; omega) m 0 _ _ _ (by omega) v7 d7 fun s8 Y e8 v8 hY hupd => ?_)
  have hx0 : x6 0 = pl.content G s 0 := by
    rw [hx 0 (by unfold basis; omega), Function.update_of_ne (by decide)]
  have hx1 : x6 1 = b := by
    rw [hx 1 (by unfold basis; omega), Function.update_of_ne (by decide), hb]
  have hx2 := hx (basis 0) (Nat.le_refl _)
  rw [Function.update_self] at hx2
  have hx8 : pl.content G s8 0 = Y m := by rw [v8.vec 0 (by omega), Function.update_self]
  refine WP.pure ⟨⟨?_, by den, rfl⟩, fun i => x6 (basis i), H, ⟨⟨D, ?_, fun u => ?_⟩, fun j hj => (hrel j (by omega) hj).1, Y, ?_,
    fun j hj => hupd j (by omega) hj, hx8⟩, fun i j hj hi => ?_⟩
  · rw [v8.vec 1 (by omega), Function.update_of_ne (by decide), hx1]
  · rw [hb] at hD
    exact hD
  · rw [hx2, hb]
    rfl
  · rw [hY, hx0]
  · exact (e8.den (e7.den ((hrel j (by omega) hj).2 i hi))).2

theorem zeros_view (k : Nat) : ∀ (n : Nat) (s : Cell P → V) {s0 : Cell P → V} {x : Nat → pl.U G → V}
    {Φ : List Scalar → Nat → (Cell P → V) → Prop}, View G pl nw s0 s x →
    (∀ l n' s', Ext n s n' s' → View G pl nw s0 s' x → Φ l n' s') → WP (zeros (plannerOps A G.toEnv pl) k) n s Φ := by
  induction k with
  | zero => intro n s s0 x Φ v h; exact WP.pure (h _ _ _ (Ext.refl n s) v)
  | succ k ih =>
    intro n s s0 x Φ v h
    refine WP.bind (wp_zero v fun a1 n1 s1 e1 v1 _ => ?_)
    refine WP.bind (ih n1 s1 v1 fun l n2 s2 e2 v2 => ?_)
    exact WP.pure (h _ _ _ (e1.trans e2) v2)

theorem gmres_start {m : Nat} (n : Nat) (s : Cell P → V) :
    WP (GMRES.init (plannerOps A G.toEnv pl) m) n s fun c n' s' => GMAlive A G pl m (pl.content G s 1) c n' s' ∧
      pl.content G s' 0 = pl.content G s 0 := by
  have v0 := View.start G pl (m + 1) s
  refine WP.bind (wp_negOne v0 fun a1 n1 s1 e1 v1 d1 => ?_)
  refine WP.bind (zeros_view _ n1 s1 v1 fun l2 n2 s2 e2 v2 => ?_)
  refine WP.bind (zeros_view _ n2 s2 v2 fun l3 n3 s3 e3 v3 => ?_)
  refine WP.bind (zeros_view _ n3 s3 v3 fun l4 n4 s4 e4 v4 => ?_)
  exact WP.pure ⟨⟨v4.vec 1 (by omega), by den, rfl⟩, v4.vec 0 (by omega)⟩

theorem gmres_planner (A : Arith V) {base m : Nat} (S : SolverSetup G pl pl' base (m + 1)) (n : Nat) (s : Cell P → V) :
    ∃ (x : Nat → pl'.U G → V) (B : Nat → Nat → pl'.U G → V) (H : Nat → Nat → Nat → V), x 0 = pl'.content G s 0 ∧
      (∀ k, Cycle A (plannerProduct A G pl') m (pl'.content G s 1) (x k) (B k) (H k) (x (k + 1))) ∧
      (∀ k, Ensures (gmres A G pl base m k) n s fun _ s' => pl'.content G s' 0 = x k ∧ pl'.content G s' 1 = pl'.content G s 1) ∧
      ∀ k, Ensures (gmres A G pl base m (k + 1)) n s fun c s' => pl'.content G s' 0 = x (k + 1) ∧
        ∀ i j, j < m → i ≤ j + 1 → s' (.fut (c.inner i j).fut) = H k i j := by
  obtain ⟨c0, n0, s0, hrun0, hal, hx0⟩ := gmres_start (A := A) (G := G) (pl := pl') (m := m) n s
  obtain ⟨f, hf0, hf⟩ := Verif.Rounding.exists_chain (X := GMRES Scalar × Nat × (Cell P → V))
    (fun k t => GMAlive A G pl' m (pl'.content G s 1) t.1 t.2.1 t.2.2)
    (fun t t' => Runs (GMRES.step (plannerOps A G.toEnv pl') t.1) t.2.1 t.2.2 t'.1 t'.2.1 t'.2.2 ∧ ∃ B H,
      Cycle A (plannerProduct A G pl') m (pl'.content G s 1) (pl'.content G t.2.2 0) B H (pl'.content G t'.2.2 0) ∧
      ∀ i j, j < m → i ≤ j + 1 → t'.2.2 (.fut (t'.1.inner i j).fut) = H i j)
    (c0, n0, s0) hal (by
      rintro k ⟨c, n1, s1⟩ I
      obtain ⟨c', n', s', g1, g2, g3⟩ := gmres_step S.ready S.order S.nonempty I
      exact ⟨(c', n', s'), g2, g1, g3⟩)
  have hfin : ∀ j i, Runs (repeatM (GMRES.step (plannerOps A G.toEnv pl')) j (f i).1) (f i).2.1 (f i).2.2 (f (i + j)).1 (f (i + j)).2.1
      (f (i + j)).2.2 := by
    intro j
    induction j with
    | zero => intro i; exact Runs.pure _ _ _
    | succ j ih =>
      intro i
      have h := (hf i).2.1.bind (ih (i + 1))
      rw [show i + 1 + j = i + (j + 1) by omega] at h
      exact h
  have hsolve : ∀ k, Runs (GMRES.solve (plannerOps A G.toEnv pl') m k) n s (f k).1 (f k).2.1 (f k).2.2 := by
    intro k
    have h := hfin k 0
    rw [Nat.zero_add, hf0] at h
    exact hrun0.bind h
  choose B H hcyc hent using fun k => (hf k).2.2
  refine ⟨fun k => pl'.content G (f k).2.2 0, B, H, by simp only [hf0]; exact hx0, hcyc, fun k => ?_, fun k => ?_⟩
  · exact WP.ensures (WP.allocate S.alloc ⟨_, _, _, hsolve k, rfl, (hf k).1.rhs⟩)
  · exact WP.ensures (WP.allocate S.alloc ⟨_, _, _, hsolve (k + 1), rfl, hent k⟩)

theorem Column.rename {ι κ : Type} [Fintype ι] [Fintype κ] (e : ι ≃ κ) {mv : (ι → V) → ι → V} {mv' : (κ → V) → κ → V}
    (hmv : ∀ y, mv (y ∘ e) = mv' y ∘ e) {m j : Nat} {B : Nat → ι → V} {H : Nat → V} (h : Column A mv m j B H) :
    Column A mv' m j (fun i => B i ∘ e.symm) H := by
  obtain ⟨W, D, h1, h2, h3, h4, h5⟩ := h
  refine ⟨fun i => W i ∘ e.symm, D, by simp only [h1]; exact mv_rename e hmv _, fun i hi => ⟨sums_rename e (h2 i hi).1, fun u => (h2 i hi).2 _⟩,
    sums_rename e h3, h4, fun hm u => h5 hm _⟩

theorem Cycle.rename {ι κ : Type} [Fintype ι] [Fintype κ] (e : ι ≃ κ) {mv : (ι → V) → ι → V} {mv' : (κ → V) → κ → V}
    (hmv : ∀ y, mv (y ∘ e) = mv' y ∘ e) {m : Nat} {b : κ → V} {x x' : ι → V} {B : Nat → ι → V} {H : Nat → Nat → V}
    (h : Cycle A mv m (b ∘ e) x B H x') :
    Cycle A mv' m b (x ∘ e.symm) (fun i => B i ∘ e.symm) H (x' ∘ e.symm) := by
  obtain ⟨⟨D, h1, h2⟩, h3, Y, h4, h5, h6⟩ := h
  have hx := mv_rename e hmv x
  refine ⟨⟨D, ?_, fun u => ?_⟩, fun j hj => (h3 j hj).rename e hmv, fun i => Y i ∘ e.symm, by simp only [h4], fun j hj u => h5 j hj _, by rw [h6]⟩
  · have := sums_rename e h1
    rw [← hx]
    simpa using this
  · rw [← hx]
    have := h2 (e.symm u)
    simpa using this

/-- **C71**: GMRES, in any arithmetic, for every schedule and order of the reductions: each step is a cycle of the recurrence. -/
theorem gmres_recurrence {calls : List (Setup K P V)} {base : Nat} (A : Arith V) (m : Nat) (h : ClientSystem G calls base) (n : Nat)
    (s : Cell P → V) :
    ∃ pl, Planner.empty.setupAll G calls = some pl ∧ ∃ (x : Nat → clientUnknowns G calls → V)
      (B : Nat → Nat → clientUnknowns G calls → V) (H : Nat → Nat → Nat → V), (∀ u, x 0 u = valueAt A (sols calls) s u.1) ∧
      (∀ k, Cycle A (rowTimes A G calls) m (fun u => valueAt A (rhss calls) s u.1) (x k) (B k) (H k) (x (k + 1))) ∧
      (∀ k, Ensures (gmres A G pl base m k) n s fun _ s' => (∀ u : clientUnknowns G calls, valueAt A (sols calls) s' u.1 = x k u) ∧
        ∀ u : clientUnknowns G calls, valueAt A (rhss calls) s' u.1 = valueAt A (rhss calls) s u.1) ∧
      ∀ k, Ensures (gmres A G pl base m (k + 1)) n s fun c s' =>
        (∀ u : clientUnknowns G calls, valueAt A (sols calls) s' u.1 = x (k + 1) u) ∧
        ∀ i j, j < m → i ≤ j + 1 → s' (.fut (c.inner i j).fut) = H k i j := by
  obtain ⟨pl, pl', hpl, S, e, hmv, h0, h1, -⟩ := client_any A h (m + 1)
  obtain ⟨x, B, H, hx, hcyc, hens, hens'⟩ := gmres_planner A S n s
  rw [h0] at hx
  rw [h1] at hcyc
  refine ⟨pl, hpl, fun k => x k ∘ e.symm, fun k i => B k i ∘ e.symm, H, fun u => ?_, fun k => (hcyc k).rename e hmv,
    fun k => ensures_weaken (hens k) ?_, fun k => ensures_weaken (hens' k) ?_⟩
  · simp [hx]
  · rintro c s' ⟨g1, g2⟩
    rw [h0] at g1
    rw [h1, h1] at g2
    exact ⟨fun u => comp_eq e g1 u, fun u => by
      have := congrFun g2 (e.symm u)
      simpa using this⟩
  · rintro c s' ⟨g1, g2⟩
    rw [h0] at g1
    exact ⟨fun u => comp_eq e g1 u, g2⟩

end Verif.Special
