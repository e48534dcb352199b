import Verif.Solver.Refine

/-! One GMRES cycle computes the Arnoldi basis. -/
set_option linter.dupNamespace false
set_option linter.unusedSectionVars false
namespace Verif.Textbook
open _root_.Matrix
variable {ι V : Type} [Fintype ι] [Field V]

theorem mgs_congr {v v' : Nat → ι → V} (w : ι → V) (k : Nat) (h : ∀ i, i < k → v i = v' i) : mgs v w k = mgs v' w k := by
  induction k with
  | zero => rfl
  | succ k ih =>
    show mgs v w k - _ = mgs v' w k - _
    rw [ih (fun i hi => h i (by omega)), h k (by omega)]

theorem arnoldiUpTo_eq (sqrt : V → V) (A : Matrix ι ι V) (r : ι → V) (j : Nat) :
    ∀ i, i ≤ j → arnoldiUpTo sqrt A r j i = arnoldi sqrt A r i := by
  induction j with
  | zero => intro i hi; obtain rfl : i = 0 := by omega
            rfl
  | succ j ih =>
    intro i hi
    by_cases e : i = j + 1
    · subst e; rfl
    · show Function.update _ _ _ i = _
      rw [Function.update_of_ne e, ih i (by omega)]

theorem arnoldi_zero (sqrt : V → V) (A : Matrix ι ι V) (r : ι → V) : arnoldi sqrt A r 0 = normalise sqrt (arnoldiRaw sqrt A r 0) := rfl

theorem arnoldi_succ (sqrt : V → V) (A : Matrix ι ι V) (r : ι → V) (j : Nat) :
    arnoldi sqrt A r j = normalise sqrt (arnoldiRaw sqrt A r j) := by
  cases j with
  | zero => rfl
  | succ j =>
    show Function.update _ _ _ (j + 1) = _
    rw [Function.update_self]
    show normalise sqrt (mgs _ _ _) = normalise sqrt (mgs _ _ _)
    rw [mgs_congr _ _ (fun i hi => arnoldiUpTo_eq sqrt A r j i (by omega)), arnoldiUpTo_eq sqrt A r j j (le_refl j)]

end Verif.Textbook

namespace Verif.Solver
open Verif.Runtime Verif.Vector Verif.Matrix Verif.Planner Verif.Textbook
open scoped _root_.Matrix
variable {K P V : Type} [DecidableEq P] [DecidableEq K] [Field V] {A : Arith V}
variable {G : Geometry P} {pl : Planner K P V} {m : Nat}

/-- The recorded inner products of columns before `J`, and the first `k` of column `J`, have their values. -/
def HOK {ι : Type} [Fintype ι] (sqrt : V → V) (T : _root_.Matrix ι ι V) (r : ι → V) (h : Nat → Nat → Scalar) (n : Nat)
    (s : Cell P → V) (J k : Nat) : Prop :=
  ∀ i j, (j < J ∧ i ≤ j + 1) ∨ (j = J ∧ i < k) → Den n s (h i j) (hess sqrt T r i j)

theorem HOK.ext {ι : Type} [Fintype ι] {sqrt : V → V} {T : _root_.Matrix ι ι V} {r : ι → V} {h : Nat → Nat → Scalar}
    {n n' : Nat} {s s' : Cell P → V} {J k : Nat} (H : HOK sqrt T r h n s J k) (E : Ext n s n' s') : HOK sqrt T r h n' s' J k :=
  fun i j c => E.den (H i j c)

theorem HOK.set {ι : Type} [Fintype ι] {sqrt : V → V} {T : _root_.Matrix ι ι V} {r : ι → V} {h : Nat → Nat → Scalar}
    {n : Nat} {s : Cell P → V} {J k : Nat} (H : HOK sqrt T r h n s J k) {a : Scalar} (d : Den n s a (hess sqrt T r k J)) :
    HOK sqrt T r (setEntry h k J a) n s J (k + 1) := by
  intro i j c
  unfold setEntry
  split
  · next e => rw [e.1, e.2]; exact d
  · next e => exact H i j (by omega)

/-- The basis vectors `0 … j` are in place; solution and right-hand side are `xs` and `b`. -/
structure GView (G : Geometry P) (pl : Planner K P V) (m : Nat) (s0 s : Cell P → V) (v : Nat → pl.U G → V)
    (xs b : pl.U G → V) (j : Nat) (w : pl.U G → V) : Prop where
  view : ∃ x, View G pl (m + 1) s0 s x ∧ x 0 = xs ∧ x 1 = b ∧ (∀ i, i ≤ j → x (i + 2) = v i) ∧ x (j + 3) = w

theorem orthogonalise_spec (hA : A.Exact) (R : Ready G pl (m + 1)) (hord : ∀ f l, (G.redOrder f l).Perm l)
    (hns : 0 < pl.spaces.length) (s0 : Cell P → V) (r xs b : pl.U G → V) (j : Nat) (hj : j < m) :
    ∀ (l k : Nat), k + l = j + 1 → ∀ (h : Nat → Nat → Scalar) (n : Nat) (s : Cell P → V),
      GView G pl m s0 s (arnoldi A.sqrt (pl.operator G) r) xs b j
        (mgs (arnoldi A.sqrt (pl.operator G) r) (pl.operator G *ᵥ arnoldi A.sqrt (pl.operator G) r j) k) →
      HOK A.sqrt (pl.operator G) r h n s j k →
      WP (GMRES.orthogonalise (plannerOps A G.toEnv pl) j (List.range' k l) h) n s (fun h' n' s' =>
        GView G pl m s0 s' (arnoldi A.sqrt (pl.operator G) r) xs b j (arnoldiRaw A.sqrt (pl.operator G) r (j + 1)) ∧
        HOK A.sqrt (pl.operator G) r h' n' s' j (j + 1) ∧ Ext n s n' s') := by
  intro l
  induction l with
  | zero =>
    intro k hk h n s gv hok
    obtain rfl : k = j + 1 := by omega
    exact WP.pure ⟨gv, hok, Ext.refl _ _⟩
  | succ l ih =>
    intro k hk h n s gv hok
    obtain ⟨x, v0, hx0, hx1, hxv, hxw⟩ := gv
    rw [List.range'_succ]
    unfold GMRES.orthogonalise
    refine WP.bind (WP.dot hA R hord hns v0 (show basis k < _ by unfold basis; omega)
      (show basis (j + 1) < _ by unfold basis; omega) fun d n1 s1 e1 v1 d1 => ?_)
    have d1 : Den n1 s1 d (hess A.sqrt (pl.operator G) r k j) := by
      unfold basis at d1
      rw [hxv k (by omega), hxw] at d1
      unfold hess
      rw [if_pos (by omega)]
      exact d1
    have hok1 := (hok.ext e1).set d1
    have hd : setEntry h k j d k j = d := by unfold setEntry; rw [if_pos ⟨rfl, rfl⟩]
    simp only [hd]
    refine WP.bind (WP.neg hA v1 d1 fun nd n2 s2 e2 v2 d2 => ?_)
    refine WP.bind (WP.axpy hA R v2 (show basis (j + 1) < _ by unfold basis; omega)
      (show basis k < _ by unfold basis; omega) d2 fun s3 e3 v3 => ?_)
    refine (ih (k + 1) (by omega) _ _ _ ⟨_, v3, ?_, ?_, ?_, ?_⟩ (hok1.ext (e2.trans e3))).mono
      (fun h' n' s' ⟨a, b, c⟩ => ⟨a, b, e1.trans (e2.trans (e3.trans c))⟩)
    · rw [Function.update_of_ne (by unfold basis; omega), hx0]
    · rw [Function.update_of_ne (by unfold basis; omega), hx1]
    · intro i hi
      rw [Function.update_of_ne (by unfold basis; omega), hxv i hi]
    · show Function.update _ (j + 1 + 2) _ (j + 3) = _
      rw [show j + 1 + 2 = j + 3 by omega, Function.update_self]
      unfold basis
      rw [hxv k (by omega), show j + 1 + 2 = j + 3 by omega, hxw]
      unfold hess
      rw [if_pos (by omega)]
      show _ = mgs _ _ k - _
      rw [neg_smul, sub_eq_neg_add]

theorem column_spec (hA : A.Exact) (R : Ready G pl (m + 1)) (hord : ∀ f l, (G.redOrder f l).Perm l)
    (hns : 0 < pl.spaces.length) (s0 : Cell P → V) (r xs b : pl.U G → V)
    (hreg : ArnoldiRegular A.sqrt (pl.operator G) r m) (j : Nat) (hj : j < m) (h : Nat → Nat → Scalar) (n : Nat)
    (s : Cell P → V) (w : pl.U G → V) (gv : GView G pl m s0 s (arnoldi A.sqrt (pl.operator G) r) xs b j w)
    (hok : HOK A.sqrt (pl.operator G) r h n s j 0) :
    WP (GMRES.column (plannerOps A G.toEnv pl) m j h) n s (fun h' n' s' =>
      GView G pl m s0 s' (arnoldi A.sqrt (pl.operator G) r) xs b j
        (if j + 1 < m then arnoldi A.sqrt (pl.operator G) r (j + 1) else arnoldiRaw A.sqrt (pl.operator G) r (j + 1)) ∧
      HOK A.sqrt (pl.operator G) r h' n' s' (j + 1) 0 ∧ Ext n s n' s') := by
  obtain ⟨x, v0, hx0, hx1, hxv, hxw⟩ := gv
  unfold GMRES.column
  refine WP.bind (WP.matvec hA R v0 (show basis (j + 1) < _ by unfold basis; omega)
    (show basis j < _ by unfold basis; omega) (by unfold basis; omega) fun s1 e1 v1 => ?_)
  have gv1 : GView G pl m s0 s1 (arnoldi A.sqrt (pl.operator G) r) xs b j
      (mgs (arnoldi A.sqrt (pl.operator G) r) (pl.operator G *ᵥ arnoldi A.sqrt (pl.operator G) r j) 0) := by
    refine ⟨_, v1, ?_, ?_, ?_, ?_⟩
    · rw [Function.update_of_ne (by unfold basis; omega), hx0]
    · rw [Function.update_of_ne (by unfold basis; omega), hx1]
    · intro i hi
      rw [Function.update_of_ne (by unfold basis; omega), hxv i hi]
    · show Function.update _ (j + 1 + 2) _ (j + 3) = _
      rw [show j + 1 + 2 = j + 3 by omega, Function.update_self]
      unfold basis
      rw [hxv j (le_refl j)]
      rfl
  rw [List.range_eq_range']
  refine WP.bind ((orthogonalise_spec hA R hord hns s0 r xs b j hj (j + 1) 0 (by omega) h n s1 gv1 (hok.ext e1)).mono
    fun h2 n2 s2 ⟨gv2, hok2, e2⟩ => ?_)
  obtain ⟨y, w0, hy0, hy1, hyv, hyw⟩ := gv2
  refine WP.bind (WP.dot hA R hord hns w0 (show basis (j + 1) < _ by unfold basis; omega)
    (show basis (j + 1) < _ by unfold basis; omega) fun d n3 s3 e3 v3 d3 => ?_)
  have d3 : Den n3 s3 d (arnoldiRaw A.sqrt (pl.operator G) r (j + 1) ⬝ᵥ arnoldiRaw A.sqrt (pl.operator G) r (j + 1)) := by
    unfold basis at d3
    rw [show j + 1 + 2 = j + 3 by omega, hyw] at d3
    exact d3
  refine WP.bind (WP.sqrt v3 d3 fun q n4 s4 e4 v4 d4 => ?_)
  have d4 : Den n4 s4 q (hess A.sqrt (pl.operator G) r (j + 1) j) := by
    unfold hess
    rw [if_neg (by omega)]
    exact d4
  have hok4 : HOK A.sqrt (pl.operator G) r (setEntry h2 (j + 1) j q) n4 s4 (j + 1) 0 := by
    have := (hok2.ext (e3.trans e4)).set d4
    intro i j' c
    exact this i j' (by omega)
  by_cases hlast : j + 1 < m
  · simp only [if_pos hlast]
    refine WP.bind (WP.rsqrt hA v4 (show Den _ _ d _ from e4.den d3) (hreg.2 j hlast) fun rs n5 s5 e5 v5 d5 => ?_)
    refine WP.bind (WP.scal hA R v5 (show basis (j + 1) < _ by unfold basis; omega) d5 fun s6 e6 v6 => ?_)
    refine WP.pure ⟨⟨_, v6, ?_, ?_, ?_, ?_⟩, hok4.ext (e5.trans e6), e1.trans (e2.trans (e3.trans (e4.trans (e5.trans e6))))⟩
    · rw [Function.update_of_ne (by unfold basis; omega), hy0]
    · rw [Function.update_of_ne (by unfold basis; omega), hy1]
    · intro i hi
      rw [Function.update_of_ne (by unfold basis; omega), hyv i hi]
    · show Function.update _ (j + 1 + 2) _ (j + 3) = _
      rw [show j + 1 + 2 = j + 3 by omega, Function.update_self]
      unfold basis
      rw [show j + 1 + 2 = j + 3 by omega, hyw, arnoldi_succ]
      rfl
  · simp only [if_neg hlast]
    exact WP.pure ⟨⟨y, v4, hy0, hy1, hyv, hyw⟩, hok4, e1.trans (e2.trans (e3.trans e4))⟩

theorem columns_spec (hA : A.Exact) (R : Ready G pl (m + 1)) (hord : ∀ f l, (G.redOrder f l).Perm l)
    (hns : 0 < pl.spaces.length) (s0 : Cell P → V) (r xs b : pl.U G → V)
    (hreg : ArnoldiRegular A.sqrt (pl.operator G) r m) :
    ∀ (l j : Nat), j + (l + 1) = m → ∀ (h : Nat → Nat → Scalar) (n : Nat) (s : Cell P → V) (w : pl.U G → V),
      GView G pl m s0 s (arnoldi A.sqrt (pl.operator G) r) xs b j w → HOK A.sqrt (pl.operator G) r h n s j 0 →
      WP (GMRES.columns (plannerOps A G.toEnv pl) m (List.range' j (l + 1)) h) n s (fun h' n' s' =>
        GView G pl m s0 s' (arnoldi A.sqrt (pl.operator G) r) xs b (m - 1) (arnoldiRaw A.sqrt (pl.operator G) r m) ∧
        HOK A.sqrt (pl.operator G) r h' n' s' m 0 ∧ Ext n s n' s') := by
  intro l
  induction l with
  | zero =>
    intro j hj h n s w gv hok
    rw [List.range'_succ]
    unfold GMRES.columns
    refine WP.bind ((column_spec hA R hord hns s0 r xs b hreg j (by omega) h n s w gv hok).mono
      fun h1 n1 s1 ⟨gv1, hok1, e1⟩ => ?_)
    rw [if_neg (by omega)] at gv1
    obtain rfl : m = j + 1 := by omega
    exact WP.pure ⟨gv1, hok1, e1⟩
  | succ l ih =>
    intro j hj h n s w gv hok
    rw [List.range'_succ]
    unfold GMRES.columns
    refine WP.bind ((column_spec hA R hord hns s0 r xs b hreg j (by omega) h n s w gv hok).mono
      fun h1 n1 s1 ⟨gv1, hok1, e1⟩ => ?_)
    rw [if_pos (by omega)] at gv1
    obtain ⟨x, v0, hx0, hx1, hxv, hxw⟩ := gv1
    refine (ih (j + 1) (by omega) h1 n1 s1 _ ⟨x, v0, hx0, hx1, ?_, rfl⟩ hok1).mono
      (fun h' n' s' ⟨a, b, c⟩ => ⟨a, b, e1.trans c⟩)
    intro i hi
    by_cases e : i = j + 1
    · subst e; exact hxw
    · exact hxv i (by omega)

/-- The final updates of the solution. -/
theorem update_spec (hA : A.Exact) (R : Ready G pl (m + 1)) (s0 : Cell P → V) (v : Nat → pl.U G → V) (b : pl.U G → V)
    (w : pl.U G → V) (coeff : Scalar) (J : Nat) (hJ : J < m) :
    ∀ (l j : Nat), j + l = J + 1 → ∀ (xs : pl.U G → V) (n : Nat) (s : Cell P → V), GView G pl m s0 s v xs b J w →
      Den n s coeff 1 →
      WP (GMRES.update (plannerOps A G.toEnv pl) coeff (List.range' j l)) n s (fun _ n' s' =>
        GView G pl m s0 s' v (xs + ((List.range' j l).map v).sum) b J w ∧ Ext n s n' s') := by
  intro l
  induction l with
  | zero =>
    intro j hj xs n s gv d
    refine WP.pure ⟨?_, Ext.refl _ _⟩
    simpa using gv
  | succ l ih =>
    intro j hj xs n s gv d
    obtain ⟨x, v0, hx0, hx1, hxv, hxw⟩ := gv
    rw [List.range'_succ]
    unfold GMRES.update
    refine WP.bind (WP.axpy hA R v0 (by omega) (show basis j < _ by unfold basis; omega) d fun s1 e1 v1 => ?_)
    refine (ih (j + 1) (by omega) (v j + xs) n s1 ⟨_, v1, ?_, ?_, ?_, ?_⟩ (e1.den d)).mono
      (fun h' n' s' ⟨a, c⟩ => ⟨?_, e1.trans c⟩)
    · rw [Function.update_self, hx0]
      unfold basis
      rw [hxv j (by omega), one_smul]
    · rw [Function.update_of_ne (by omega), hx1]
    · intro i hi
      rw [Function.update_of_ne (by omega), hxv i hi]
    · rw [Function.update_of_ne (by omega), hxw]
    · rw [List.map_cons, List.sum_cons, ← add_assoc, add_comm xs]
      exact a

/-- The residual vector. -/
theorem start_spec (hA : A.Exact) (R : Ready G pl (m + 1)) (hord : ∀ f l, (G.redOrder f l).Perm l)
    (hns : 0 < pl.spaces.length) (s0 : Cell P → V) (c : GMRES Scalar) (n : Nat) (s : Cell P → V) (x : Nat → pl.U G → V)
    (v0 : View G pl (m + 1) s0 s x) (hneg : Den n s c.negOne (-1))
    (hreg : A.sqrt ((x 1 - pl.operator G *ᵥ x 0) ⬝ᵥ (x 1 - pl.operator G *ᵥ x 0)) ≠ 0) :
    WP (GMRES.start (plannerOps A G.toEnv pl) c) n s (fun _ n' s' =>
      (∃ w, GView G pl m s0 s' (arnoldi A.sqrt (pl.operator G) (x 1 - pl.operator G *ᵥ x 0)) (x 0) (x 1) 0 w) ∧ Ext n s n' s') := by
  unfold GMRES.start
  refine WP.bind (WP.matvec hA R v0 (show basis 0 < _ by unfold basis; omega) (by omega) (by unfold basis; omega)
    fun s1 e1 v1 => ?_)
  refine WP.bind (WP.xpay hA R v1 (show basis 0 < _ by unfold basis; omega) (by omega) (e1.den hneg) fun s2 e2 v2 => ?_)
  refine WP.bind (WP.dot hA R hord hns v2 (show basis 0 < _ by unfold basis; omega) (show basis 0 < _ by unfold basis; omega)
    fun d n3 s3 e3 v3 d3 => ?_)
  have hr : (-1 : V) • Function.update x (basis 0) (pl.operator G *ᵥ x 0) (basis 0) +
      Function.update x (basis 0) (pl.operator G *ᵥ x 0) 1 = x 1 - pl.operator G *ᵥ x 0 := by
    rw [Function.update_self, Function.update_of_ne (by unfold basis; omega), neg_one_smul, neg_add_eq_sub]
  rw [hr] at v3
  rw [hr, Function.update_self] at d3
  refine WP.bind (WP.rsqrt hA v3 d3 hreg fun rs n4 s4 e4 v4 d4 => ?_)
  refine WP.mono (WP.scal hA R v4 (show basis 0 < _ by unfold basis; omega) d4 (fun s5 e5 v5 => And.intro e5 v5))
    (fun _ n' s' h => ?_) (Φ := fun _ n' s' => Ext n4 s4 n' s' ∧ View G pl (m + 1) s0 s' _)
  obtain ⟨e5, v5⟩ := h
  refine ⟨⟨_, ⟨_, v5, ?_, ?_, ?_, rfl⟩⟩, e1.trans (e2.trans (e3.trans (e4.trans e5)))⟩
  · rw [Function.update_of_ne (by unfold basis; omega), Function.update_of_ne (by unfold basis; omega),
      Function.update_of_ne (by unfold basis; omega)]
  · rw [Function.update_of_ne (by unfold basis; omega), Function.update_of_ne (by unfold basis; omega),
      Function.update_of_ne (by unfold basis; omega)]
  · intro i hi
    obtain rfl : i = 0 := by omega
    show Function.update _ (basis 0) _ (basis 0) = _
    rw [Function.update_self, Function.update_self]
    rfl

/-- What holds after `k` cycles of GMRES. -/
structure GMInv (sqrt : V → V) (G : Geometry P) (pl : Planner K P V) (m : Nat) (s0 : Cell P → V) (k : Nat) (c : GMRES Scalar) (n : Nat)
    (s : Cell P → V) : Prop where
  view : ∃ x, View G pl (m + 1) s0 s x ∧ x 1 = pl.content G s0 1 ∧
    x 0 = sumCycle sqrt (pl.operator G) m (pl.content G s0 0) (pl.content G s0 1) k ∧
    ∀ i, k = i + 1 → ∀ r, r = pl.content G s0 1 -
        pl.operator G *ᵥ sumCycle sqrt (pl.operator G) m (pl.content G s0 0) (pl.content G s0 1) i →
      (∀ j, j < m → x (j + 2) = arnoldi sqrt (pl.operator G) r j) ∧
      (0 < m → x (m + 2) = arnoldiRaw sqrt (pl.operator G) r m) ∧
      ∀ a b, b < m → a ≤ b + 1 → Den n s (c.inner a b) (hess sqrt (pl.operator G) r a b)
  restart : c.restart = m
  negOne : Den n s c.negOne (-1)

theorem GMInv.step (hA : A.Exact) (R : Ready G pl (m + 1)) (hord : ∀ f l, (G.redOrder f l).Perm l) (hns : 0 < pl.spaces.length)
    {s0 : Cell P → V} {k : Nat}
    (hreg : CycleRegular A.sqrt (pl.operator G) m (pl.content G s0 0) (pl.content G s0 1) (k + 1))
    {c : GMRES Scalar} {n : Nat} {s : Cell P → V} (I : GMInv A.sqrt G pl m s0 k c n s) :
    WP (GMRES.step (plannerOps A G.toEnv pl) c) n s
      (fun c' n' s' => GMInv A.sqrt G pl m s0 (k + 1) c' n' s' ∧ Ext n s n' s') := by
  obtain ⟨⟨x, v0, h1, hx, -⟩, hm, hneg⟩ := I
  have hreg := hreg k (by omega)
  have hsucc : sumCycle A.sqrt (pl.operator G) m (pl.content G s0 0) (pl.content G s0 1) (k + 1) =
    sumCycle A.sqrt (pl.operator G) m (pl.content G s0 0) (pl.content G s0 1) k + ((List.range m).map (arnoldi A.sqrt (pl.operator G)
      (pl.content G s0 1 - pl.operator G *ᵥ sumCycle A.sqrt (pl.operator G) m (pl.content G s0 0) (pl.content G s0 1) k))).sum := rfl
  rw [← hx, ← h1] at hreg hsucc
  refine WP.bind (m := GMRES.build _ _) ?_
  unfold GMRES.build
  refine WP.bind ((start_spec hA R hord hns s0 c n s x v0 hneg hreg.1).mono fun _ n1 s1 ⟨⟨w, gv1⟩, e1⟩ => ?_)
  subst hm
  by_cases hm0 : c.restart = 0
  · have hcol : GMRES.columns (plannerOps A G.toEnv pl) c.restart (List.range c.restart) c.inner = pure c.inner := by
      rw [hm0]; rfl
    rw [hcol]
    refine WP.bind (WP.pure (WP.pure ?_))
    obtain ⟨y, w0, hy0, hy1, hyv, hyw⟩ := gv1
    unfold GMRES.finish
    refine WP.bind (WP.bind (WP.dummy hA w0 _ fun coeff n2 s2 e2 v2 d2 => ?_))
    have hup : GMRES.update (plannerOps A G.toEnv pl) coeff (List.range c.restart) = pure () := by rw [hm0]; rfl
    rw [hup]
    refine WP.pure (WP.pure ⟨⟨⟨y, v2, ?_, ?_, ?_⟩, rfl, (e1.trans e2).den hneg⟩, e1.trans e2⟩)
    · rw [hy1, h1]
    · rw [← h1, hsucc, hm0, hy0]; simp
    · intro i hi r hr
      exact ⟨fun j hj => by omega, fun h => by omega, fun a b hb => by omega⟩
  · obtain ⟨l, hl⟩ : ∃ l, c.restart = l + 1 := ⟨c.restart - 1, by omega⟩
    rw [List.range_eq_range']
    have hc := columns_spec hA R hord hns s0 _ _ _ hreg l 0 (by omega) c.inner n1 s1 w gv1
      (fun i j hij => by omega)
    rw [← hl] at hc
    refine WP.bind (hc.mono fun h2 n2 s2 ⟨gv2, hok2, e2⟩ => WP.pure ?_)
    unfold GMRES.finish
    obtain ⟨y, w0, hy⟩ := gv2
    refine WP.bind (WP.bind (WP.dummy hA w0 _ fun coeff n3 s3 e3 v3 d3 => ?_))
    show WP (GMRES.update _ _ (List.range c.restart)) n3 s3 _
    rw [List.range_eq_range']
    refine (update_spec hA R s0 _ _ _ coeff (c.restart - 1) (by omega) c.restart 0 (by omega) _ n3 s3 ⟨y, v3, hy⟩ d3).mono
      fun _ n4 s4 ⟨gv4, e4⟩ => WP.pure ?_
    obtain ⟨z, z0, hz0, hz1, hzv, hzw⟩ := gv4
    have E := e1.trans (e2.trans (e3.trans e4))
    refine ⟨⟨⟨z, z0, ?_, ?_, ?_⟩, rfl, E.den hneg⟩, E⟩
    · rw [hz1, h1]
    · rw [← h1, hz0, hsucc, List.range_eq_range']
    · intro i hi r hr
      obtain rfl : i = k := by omega
      rw [← hx, ← h1] at hr
      subst hr
      refine ⟨fun j hj => hzv j (by omega), fun _ => ?_, fun a b hb hab => ?_⟩
      · rw [← hzw]; congr 1; omega
      · exact (e3.trans e4).den (hok2 a b (Or.inl ⟨hb, hab⟩))

theorem zeros_spec (hA : A.Exact) {nw : Nat} {s0 : Cell P → V} {x : Nat → pl.U G → V} (l : Nat) : ∀ (n : Nat) (s : Cell P → V),
    View G pl nw s0 s x → WP (zeros (plannerOps A G.toEnv pl) l) n s (fun L n' s' => L.length = l ∧ View G pl nw s0 s' x ∧ Ext n s n' s') := by
  induction l with
  | zero => intro n s v; exact WP.pure ⟨rfl, v, Ext.refl _ _⟩
  | succ l ih =>
    intro n s v
    unfold zeros
    refine WP.bind (WP.zero hA v fun z n1 s1 e1 v1 d1 => ?_)
    refine WP.bind ((ih n1 s1 v1).mono fun L n2 s2 ⟨hL, v2, e2⟩ => ?_)
    exact WP.pure ⟨by simp [hL], v2, e1.trans e2⟩

theorem GMInv.init (hA : A.Exact) (m : Nat) (n : Nat) (s : Cell P → V) :
    WP (GMRES.init (plannerOps A G.toEnv pl) m) n s (fun c n' s' => GMInv A.sqrt G pl m s 0 c n' s' ∧ Ext n s n' s') := by
  have v0 := View.start G pl (m + 1) s
  refine WP.bind (WP.negOne hA v0 fun m1 n1 s1 e1 v1 d1 => ?_)
  refine WP.bind ((zeros_spec hA _ n1 s1 v1).mono fun L n2 s2 ⟨_, v2, e2⟩ => ?_)
  refine WP.bind ((zeros_spec hA _ n2 s2 v2).mono fun L' n3 s3 ⟨_, v3, e3⟩ => ?_)
  refine WP.bind ((zeros_spec hA _ n3 s3 v3).mono fun L'' n4 s4 ⟨_, v4, e4⟩ => ?_)
  exact WP.pure ⟨⟨⟨_, v4, rfl, rfl, fun i hi => by omega⟩, rfl, (e2.trans (e3.trans e4)).den d1⟩,
    e1.trans (e2.trans (e3.trans e4))⟩

theorem GMInv.solve (hA : A.Exact) (R : Ready G pl (m + 1)) (hord : ∀ f l, (G.redOrder f l).Perm l) (hns : 0 < pl.spaces.length)
    (k : Nat) (n : Nat) (s : Cell P → V)
    (hreg : CycleRegular A.sqrt (pl.operator G) m (pl.content G s 0) (pl.content G s 1) k) :
    WP (GMRES.solve (plannerOps A G.toEnv pl) m k) n s (fun c n' s' => GMInv A.sqrt G pl m s k c n' s' ∧ Ext n s n' s') := by
  refine WP.bind ((GMInv.init hA m n s).mono fun c n1 s1 h => ?_)
  have gen : ∀ (j i : Nat) (c : GMRES Scalar) (n1 : Nat) (s1 : Cell P → V), i + j = k → GMInv A.sqrt G pl m s i c n1 s1 →
      Ext n s n1 s1 → WP (repeatM (GMRES.step (plannerOps A G.toEnv pl)) j c) n1 s1
        (fun c n' s' => GMInv A.sqrt G pl m s k c n' s' ∧ Ext n s n' s') := by
    intro j
    induction j with
    | zero =>
      intro i c n1 s1 hij I E
      obtain rfl : i = k := by omega
      exact WP.pure ⟨I, E⟩
    | succ j ih =>
      intro i c n1 s1 hij I E
      refine WP.bind ((GMInv.step hA R hord hns (fun l hl => hreg l (by omega)) I).mono fun c' n2 s2 h => ?_)
      exact ih (i + 1) c' n2 s2 (by omega) h.1 (E.trans h.2)
  exact gen k 0 c n1 s1 (by omega) h.1 h.2

end Verif.Solver
