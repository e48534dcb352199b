import Verif.Solver.Wp
import Verif.Solver.Textbook

/-! The solver programs compute the textbook recurrences. -/
set_option linter.dupNamespace false
set_option linter.unusedSectionVars false
namespace Verif.Solver
open Verif.Runtime Verif.Vector Verif.Matrix Verif.Planner Verif.Textbook
open scoped _root_.Matrix
variable {K P V : Type} [DecidableEq P] [DecidableEq K] [Field V] {A : Arith V}
variable {G : Geometry P} {pl : Planner K P V}

/-- What holds after `k` steps of CG. -/
structure CGInv (G : Geometry P) (pl : Planner K P V) (s0 : Cell P → V) (k : Nat) (c : CG Scalar) (n : Nat)
    (s : Cell P → V) : Prop where
  view : ∃ x, View G pl 3 s0 s x ∧ x 1 = pl.content G s0 1 ∧
    x 0 = (Textbook.cg (pl.operator G) (pl.content G s0 0) (pl.content G s0 1) k).x ∧
    x 2 = (Textbook.cg (pl.operator G) (pl.content G s0 0) (pl.content G s0 1) k).p ∧
    x 4 = (Textbook.cg (pl.operator G) (pl.content G s0 0) (pl.content G s0 1) k).r
  len : c.older.length = k
  hist : ∀ i, i ≤ k → ∃ a, c.history[i]? = some a ∧ Den n s a
    ((Textbook.cg (pl.operator G) (pl.content G s0 0) (pl.content G s0 1) i).r ⬝ᵥ
      (Textbook.cg (pl.operator G) (pl.content G s0 0) (pl.content G s0 1) i).r)
  negOne : Den n s c.negOne (-1)

/-- Vector contents as a list. -/
def vecs {X : Type} [Zero X] (L : List X) : Nat → X := fun k => L.getD k 0

theorem update_vecs {X : Type} [Zero X] (L : List X) (d : Nat) (g : X) (h : d < L.length) :
    Function.update (vecs L) d g = vecs (L.set d g) := by
  funext k
  unfold vecs
  by_cases e : k = d
  · subst e
    rw [Function.update_self, List.getD_eq_getElem?_getD, List.getElem?_set_self h]
    rfl
  · rw [Function.update_of_ne e, List.getD_eq_getElem?_getD, List.getD_eq_getElem?_getD, List.getElem?_set_ne (fun h => e h.symm)]

theorem View.list {nw : Nat} {s0 s : Cell P → V} {L : List (pl.U G → V)} {d : Nat} {g : pl.U G → V}
    (v : View G pl nw s0 s (Function.update (vecs L) d g)) (h : d < L.length) : View G pl nw s0 s (vecs (L.set d g)) := by
  rw [← update_vecs L d g h]; exact v

theorem View.toList {nw : Nat} {s0 s : Cell P → V} {x : Nat → pl.U G → V} (v : View G pl nw s0 s x) :
    View G pl nw s0 s (vecs ((List.range (nw + 2)).map x)) := by
  refine ⟨fun k hk => ?_, v.out⟩
  rw [v.vec k hk]
  unfold vecs
  rw [List.getD_eq_getElem?_getD, List.getElem?_map, List.getElem?_range hk]
  rfl

theorem CGInv.init (hA : A.Exact) (R : Ready G pl 3) (hord : ∀ f l, (G.redOrder f l).Perm l) (hns : 0 < pl.spaces.length)
    (n : Nat) (s : Cell P → V) :
    WP (CG.init (plannerOps A G.toEnv pl)) n s (fun c n' s' => CGInv G pl s 0 c n' s' ∧ Ext n s n' s') := by
  have v0 := View.start G pl 3 s
  refine WP.bind (WP.negOne hA v0 fun m1 n1 s1 e1 v1 d1 => ?_)
  refine WP.bind (WP.copy R v1 (by omega) (by omega) fun s2 e2 v2 => ?_)
  refine WP.bind (WP.copy R v2 (by omega) (by omega) fun s3 e3 v3 => ?_)
  refine WP.bind (WP.dot hA R hord hns v3 (by omega) (by omega) fun rr n4 s4 e4 v4 d4 => ?_)
  refine WP.pure ⟨⟨⟨_, v4, ?_, ?_, ?_, ?_⟩, rfl, ?_, by den⟩, e1.trans (e2.trans (e3.trans e4))⟩
  · simp
  · simp [Textbook.cg]
  · simp [Textbook.cg]
  · simp [Textbook.cg]
  · intro i hi
    obtain rfl : i = 0 := by omega
    refine ⟨rr, rfl, ?_⟩
    simpa [Textbook.cg] using d4

theorem CGInv.step (hA : A.Exact) (R : Ready G pl 3) (hord : ∀ f l, (G.redOrder f l).Perm l) (hns : 0 < pl.spaces.length)
    {s0 : Cell P → V} {k : Nat} (hreg : CGRegular (pl.operator G) (pl.content G s0 0) (pl.content G s0 1) (k + 1))
    {c : CG Scalar} {n : Nat} {s : Cell P → V} (I : CGInv G pl s0 k c n s) :
    WP (CG.step (plannerOps A G.toEnv pl) c) n s (fun c' n' s' => CGInv G pl s0 (k + 1) c' n' s' ∧ Ext n s n' s') := by
  obtain ⟨⟨x, v0, h1, hx, hp, hr⟩, hlen, hist, hneg⟩ := I
  obtain ⟨g1, g2⟩ := hreg k (by omega)
  set b := pl.content G s0 1 with hb
  set T := pl.operator G with hT
  have hsucc : Textbook.cg T (pl.content G s0 0) b (k + 1) = cgStep T (Textbook.cg T (pl.content G s0 0) b k) := rfl
  generalize hst : Textbook.cg T (pl.content G s0 0) b k = st at *
  have hlast : Den n s c.last (st.r ⬝ᵥ st.r) := by
    obtain ⟨a, ha, hd⟩ := hist k (le_refl k)
    unfold CG.history at ha
    rw [List.getElem?_append_right (by omega), hlen, Nat.sub_self] at ha
    cases Option.some.inj ha
    rw [hst] at hd
    exact hd
  have v0 : View G pl 3 s0 s (vecs [st.x, b, st.p, x 3, st.r]) := by
    rw [← hx, ← h1, ← hp, ← hr]; exact v0.toList
  refine WP.bind (WP.matvec hA R v0 (by omega) (by omega) (by omega) fun s1 e1 v1 => ?_)
  have v1 : View G pl 3 s0 s1 (vecs [st.x, b, st.p, T *ᵥ st.p, st.r]) := v1.list (by simp)
  refine WP.bind (WP.dot hA R hord hns v1 (by omega) (by omega) fun pn n2 s2 e2 v2 d2 => ?_)
  have d2 : Den n2 s2 pn (st.p ⬝ᵥ T *ᵥ st.p) := d2
  refine WP.bind (WP.axpy2 hA R v2 (by omega) (by omega) (show Den _ _ _ (st.r ⬝ᵥ st.r) by den) d2 g2 fun s3 e3 v3 => ?_)
  have v3 : View G pl 3 s0 s3 (vecs [(st.r ⬝ᵥ st.r / (st.p ⬝ᵥ T *ᵥ st.p)) • st.p + st.x, b, st.p, T *ᵥ st.p, st.r]) :=
    v3.list (by simp)
  refine WP.bind (WP.axpy3 hA R v3 (by omega) (by omega) (show Den _ _ _ (-1) by den) (show Den _ _ _ (st.r ⬝ᵥ st.r) by den)
    (show Den _ _ _ (st.p ⬝ᵥ T *ᵥ st.p) by den) g2 fun s4 e4 v4 => ?_)
  have v4 : View G pl 3 s0 s4 (vecs [(st.r ⬝ᵥ st.r / (st.p ⬝ᵥ T *ᵥ st.p)) • st.p + st.x, b, st.p, T *ᵥ st.p,
      (-1 * (st.r ⬝ᵥ st.r) / (st.p ⬝ᵥ T *ᵥ st.p)) • (T *ᵥ st.p) + st.r]) := v4.list (by simp)
  have hx' : (st.r ⬝ᵥ st.r / (st.p ⬝ᵥ T *ᵥ st.p)) • st.p + st.x = (cgStep T st).x := add_comm _ _
  have hr' : (-1 * (st.r ⬝ᵥ st.r) / (st.p ⬝ᵥ T *ᵥ st.p)) • (T *ᵥ st.p) + st.r = (cgStep T st).r := by
    simp only [cgStep, neg_one_mul, neg_div, neg_smul]
    rw [sub_eq_neg_add]
  rw [hx', hr'] at v4
  refine WP.bind (WP.dot hA R hord hns v4 (by omega) (by omega) fun rn n5 s5 e5 v5 d5 => ?_)
  have d5 : Den n5 s5 rn ((cgStep T st).r ⬝ᵥ (cgStep T st).r) := d5
  refine WP.bind (WP.xpay2 hA R v5 (by omega) (by omega) d5 (show Den _ _ _ (st.r ⬝ᵥ st.r) by den) g1 fun s6 e6 v6 => ?_)
  have v6 : View G pl 3 s0 s6 (vecs [(cgStep T st).x, b, ((cgStep T st).r ⬝ᵥ (cgStep T st).r / (st.r ⬝ᵥ st.r)) • st.p +
      (cgStep T st).r, T *ᵥ st.p, (cgStep T st).r]) := v6.list (by simp)
  have E : Ext n s n5 s6 := e1.trans (e2.trans (e3.trans (e4.trans (e5.trans e6))))
  refine WP.pure ⟨⟨⟨_, v6, rfl, ?_, ?_, ?_⟩, by simp [hlen], ?_, E.den hneg⟩, E⟩
  · rw [hsucc]; rfl
  · rw [hsucc]
    exact add_comm _ _
  · rw [hsucc]; rfl
  · intro i hi
    by_cases hik : i ≤ k
    · obtain ⟨a, ha, hd⟩ := hist i hik
      refine ⟨a, ?_, E.den hd⟩
      unfold CG.history at ha ⊢
      rw [List.getElem?_append_left (by simp [hlen]; omega)]
      exact ha
    · obtain rfl : i = k + 1 := by omega
      refine ⟨rn, ?_, ?_⟩
      · unfold CG.history
        rw [List.getElem?_append_right (by simp [hlen])]
        simp [hlen]
      · rw [hsucc]
        exact e6.den d5

theorem CGInv.solve (hA : A.Exact) (R : Ready G pl 3) (hord : ∀ f l, (G.redOrder f l).Perm l) (hns : 0 < pl.spaces.length)
    (k : Nat) (n : Nat) (s : Cell P → V) (hreg : CGRegular (pl.operator G) (pl.content G s 0) (pl.content G s 1) k) :
    WP (CG.solve (plannerOps A G.toEnv pl) k) n s (fun c n' s' => CGInv G pl s k c n' s' ∧ Ext n s n' s') := by
  refine WP.bind ((CGInv.init hA R hord hns n s).mono fun c n1 s1 h => ?_)
  have gen : ∀ (j i : Nat) (c : CG Scalar) (n1 : Nat) (s1 : Cell P → V), i + j = k → CGInv G pl s i c n1 s1 → Ext n s n1 s1 →
      WP (repeatM (CG.step (plannerOps A G.toEnv pl)) j c) n1 s1 (fun c n' s' => CGInv G pl s k c n' s' ∧ Ext n s n' s') := by
    intro j
    induction j with
    | zero =>
      intro i c n1 s1 hij I E
      obtain rfl : i = k := by omega
      exact WP.pure ⟨I, E⟩
    | succ j ih =>
      intro i c n1 s1 hij I E
      refine WP.bind ((CGInv.step hA R hord hns (fun l hl => hreg l (by omega)) I).mono fun c' n2 s2 h => ?_)
      exact ih (i + 1) c' n2 s2 (by omega) h.1 (E.trans h.2)
  exact gen k 0 c n1 s1 (by omega) h.1 h.2

/-! ## BiCGStab -/

/-- What holds after `k` steps of BiCGStab. -/
structure BiInv (G : Geometry P) (pl : Planner K P V) (s0 : Cell P → V) (k : Nat) (c : BiCGStab Scalar) (n : Nat)
    (s : Cell P → V) : Prop where
  view : ∃ x, View G pl 5 s0 s x ∧ x 1 = pl.content G s0 1 ∧ x 4 = pl.content G s0 1 ∧
    x 0 = (bi (pl.operator G) (pl.content G s0 0) (pl.content G s0 1) k).x ∧
    x 2 = (bi (pl.operator G) (pl.content G s0 0) (pl.content G s0 1) k).p ∧
    x 3 = (bi (pl.operator G) (pl.content G s0 0) (pl.content G s0 1) k).r ∧
    x 6 = (bi (pl.operator G) (pl.content G s0 0) (pl.content G s0 1) k).v
  len : c.rhos.length = k ∧ c.alphas.length = k ∧ c.omegas.length = k
  hist : ∀ i, i ≤ k → ∃ a b d, (c.rhos ++ [c.rho])[i]? = some a ∧ (c.alphas ++ [c.alpha])[i]? = some b ∧
    (c.omegas ++ [c.omega])[i]? = some d ∧
    Den n s a (bi (pl.operator G) (pl.content G s0 0) (pl.content G s0 1) i).ρ ∧
    Den n s b (bi (pl.operator G) (pl.content G s0 0) (pl.content G s0 1) i).α ∧
    Den n s d (bi (pl.operator G) (pl.content G s0 0) (pl.content G s0 1) i).ω
  negOne : Den n s c.negOne (-1)

theorem BiInv.init (hA : A.Exact) (R : Ready G pl 5) (n : Nat) (s : Cell P → V) :
    WP (BiCGStab.init (plannerOps A G.toEnv pl)) n s (fun c n' s' => BiInv G pl s 0 c n' s' ∧ Ext n s n' s') := by
  have v0 := (View.start G pl 5 s).toList
  refine WP.bind (WP.negOne hA v0 fun m1 n1 s1 e1 v1 d1 => ?_)
  refine WP.bind (WP.zero hA v1 fun z n2 s2 e2 v2 d2 => ?_)
  refine WP.bind (WP.one hA v2 fun o n3 s3 e3 v3 d3 => ?_)
  refine WP.bind (WP.copy R v3 (by omega) (by omega) fun s4 e4 v4 => ?_)
  have v4 := v4.list (by simp)
  refine WP.bind (WP.copy R v4 (by omega) (by omega) fun s5 e5 v5 => ?_)
  have v5 := v5.list (by simp)
  refine WP.bind (WP.zeroFill hA R v5 (by omega) fun s6 e6 v6 => ?_)
  have v6 := v6.list (by simp)
  refine WP.bind (WP.zeroFill hA R v6 (by omega) fun s7 e7 v7 => ?_)
  have v7 := v7.list (by simp)
  refine WP.pure ⟨⟨⟨_, v7, rfl, rfl, rfl, rfl, rfl, rfl⟩, ⟨rfl, rfl, rfl⟩, ?_, by den⟩,
    e1.trans (e2.trans (e3.trans (e4.trans (e5.trans (e6.trans e7)))))⟩
  intro i hi
  obtain rfl : i = 0 := by omega
  exact ⟨o, z, o, rfl, rfl, rfl, show Den _ _ _ (1 : V) by den, show Den _ _ _ (0 : V) by den, show Den _ _ _ (1 : V) by den⟩

theorem getElem?_push {X : Type} (l : List X) (a b : X) (k : Nat) (hl : l.length = k) :
    ((l ++ [a]) ++ [b])[k + 1]? = some b ∧ ∀ i, i ≤ k → ((l ++ [a]) ++ [b])[i]? = (l ++ [a])[i]? := by
  constructor
  · rw [List.getElem?_append_right (by simp [hl])]
    simp [hl]
  · intro i hi
    rw [List.getElem?_append_left (by simp [hl]; omega)]

theorem getElem?_last {X : Type} (l : List X) (a b : X) (k : Nat) (hl : l.length = k) (h : (l ++ [a])[k]? = some b) : a = b := by
  rw [List.getElem?_append_right (by omega), hl, Nat.sub_self] at h
  exact Option.some.inj h

theorem BiInv.step (hA : A.Exact) (R : Ready G pl 5) (hord : ∀ f l, (G.redOrder f l).Perm l) (hns : 0 < pl.spaces.length)
    {s0 : Cell P → V} {k : Nat} (hreg : BiRegular (pl.operator G) (pl.content G s0 0) (pl.content G s0 1) (k + 1))
    {c : BiCGStab Scalar} {n : Nat} {s : Cell P → V} (I : BiInv G pl s0 k c n s) :
    WP (BiCGStab.step (plannerOps A G.toEnv pl) c) n s (fun c' n' s' => BiInv G pl s0 (k + 1) c' n' s' ∧ Ext n s n' s') := by
  obtain ⟨⟨x, v0, h1, h4, hx, hp, hr, hv⟩, ⟨hl1, hl2, hl3⟩, hist, hneg⟩ := I
  obtain ⟨g1, g2, g3, g4⟩ := hreg k (by omega)
  set b := pl.content G s0 1 with hb
  set T := pl.operator G with hT
  have hsucc : bi T (pl.content G s0 0) b (k + 1) = biStep T b (bi T (pl.content G s0 0) b k) := rfl
  generalize hst : bi T (pl.content G s0 0) b k = st at *
  obtain ⟨drho, dalpha, domega⟩ : Den n s c.rho st.ρ ∧ Den n s c.alpha st.α ∧ Den n s c.omega st.ω := by
    obtain ⟨a1, a2, a3, q1, q2, q3, r1, r2, r3⟩ := hist k (le_refl k)
    cases getElem?_last _ _ _ _ hl1 q1
    cases getElem?_last _ _ _ _ hl2 q2
    cases getElem?_last _ _ _ _ hl3 q3
    rw [hst] at r1 r2 r3
    exact ⟨r1, r2, r3⟩
  have v0 : View G pl 5 s0 s (vecs [st.x, b, st.p, st.r, b, x 5, st.v]) := by
    have := v0.toList
    rw [← hx, ← hp, ← hr, ← hv]
    have e : (vecs [x 0, b, x 2, x 3, b, x 5, x 6] : Nat → pl.U G → V) = vecs [x 0, x 1, x 2, x 3, x 4, x 5, x 6] := by
      rw [h1, h4]
    rw [e]
    exact this
  refine WP.bind (WP.dot hA R hord hns v0 (by omega) (by omega) fun rn n1 s1 e1 v1 d1 => ?_)
  have d1 : Den n1 s1 rn (st.r ⬝ᵥ b) := d1
  refine WP.bind (WP.div hA v1 d1 (show Den _ _ _ st.ρ by den) g1 fun q1 n2 s2 e2 v2 d2 => ?_)
  refine WP.bind (WP.div hA v2 (show Den _ _ _ st.α by den) (show Den _ _ _ st.ω by den) g2 fun q2 n3 s3 e3 v3 d3 => ?_)
  refine WP.bind (WP.mul hA v3 (show Den _ _ q1 ((st.r ⬝ᵥ b) / st.ρ) by den) d3 fun be n4 s4 e4 v4 d4 => ?_)
  refine WP.bind (WP.neg hA v4 (show Den _ _ _ st.ω by den) fun no n5 s5 e5 v5 d5 => ?_)
  refine WP.bind (WP.axpy hA R v5 (by omega) (by omega) d5 fun s6 e6 v6 => ?_)
  have v6 : View G pl 5 s0 s6 (vecs [st.x, b, (-st.ω) • st.v + st.p, st.r, b, x 5, st.v]) := v6.list (by simp)
  refine WP.bind (WP.xpay hA R v6 (by omega) (by omega) (show Den _ _ be ((st.r ⬝ᵥ b) / st.ρ * (st.α / st.ω)) by den)
    fun s7 e7 v7 => ?_)
  have v7 : View G pl 5 s0 s7 (vecs [st.x, b, ((st.r ⬝ᵥ b) / st.ρ * (st.α / st.ω)) • ((-st.ω) • st.v + st.p) + st.r, st.r, b,
    x 5, st.v]) := v7.list (by simp)
  have hdir : ((st.r ⬝ᵥ b) / st.ρ * (st.α / st.ω)) • ((-st.ω) • st.v + st.p) + st.r = st.dir b := by
    unfold BiState.dir
    rw [add_comm st.r, neg_smul, neg_add_eq_sub]
  rw [hdir] at v7
  refine WP.bind (WP.matvec hA R v7 (by omega) (by omega) (by omega) fun s8 e8 v8 => ?_)
  have v8 : View G pl 5 s0 s8 (vecs [st.x, b, st.dir b, st.r, b, x 5, T *ᵥ st.dir b]) := v8.list (by simp)
  refine WP.bind (WP.dot hA R hord hns v8 (by omega) (by omega) fun te n9 s9 e9 v9 d9 => ?_)
  have d9 : Den n9 s9 te (st.denom T b) := d9
  refine WP.bind (WP.axpy3 hA R v9 (by omega) (by omega) (show Den _ _ c.negOne (-1) by den) (show Den _ _ rn (st.r ⬝ᵥ b) by den)
    d9 g3 fun s10 e10 v10 => ?_)
  have v10 : View G pl 5 s0 s10 (vecs [st.x, b, st.dir b, (-1 * (st.r ⬝ᵥ b) / st.denom T b) • (T *ᵥ st.dir b) + st.r, b, x 5,
    T *ᵥ st.dir b]) := v10.list (by simp)
  have hmid : (-1 * (st.r ⬝ᵥ b) / st.denom T b) • (T *ᵥ st.dir b) + st.r = st.mid T b := by
    unfold BiState.mid BiState.alpha
    rw [neg_one_mul, neg_div, neg_smul, sub_eq_neg_add]
  rw [hmid] at v10
  refine WP.bind (WP.div hA v10 (show Den _ _ rn (st.r ⬝ᵥ b) by den) (show Den _ _ te (st.denom T b) by den) g3
    fun al n11 s11 e11 v11 d11 => ?_)
  have d11 : Den n11 s11 al (st.alpha T b) := d11
  refine WP.bind (WP.matvec hA R v11 (by omega) (by omega) (by omega) fun s12 e12 v12 => ?_)
  have v12 : View G pl 5 s0 s12 (vecs [st.x, b, st.dir b, st.mid T b, b, T *ᵥ st.mid T b, T *ᵥ st.dir b]) := v12.list (by simp)
  refine WP.bind (WP.dot hA R hord hns v12 (by omega) (by omega) fun ra n13 s13 e13 v13 d13 => ?_)
  have d13 : Den n13 s13 ra (st.mid T b ⬝ᵥ T *ᵥ st.mid T b) := d13
  refine WP.bind (WP.dot hA R hord hns v13 (by omega) (by omega) fun un n14 s14 e14 v14 d14 => ?_)
  have d14 : Den n14 s14 un ((T *ᵥ st.mid T b) ⬝ᵥ (T *ᵥ st.mid T b)) := d14
  refine WP.bind (WP.div hA v14 (show Den _ _ ra (st.mid T b ⬝ᵥ T *ᵥ st.mid T b) by den) d14 g4 fun om n15 s15 e15 v15 d15 => ?_)
  have d15 : Den n15 s15 om (st.omega T b) := d15
  refine WP.bind (WP.axpy hA R v15 (by omega) (by omega) (show Den _ _ al (st.alpha T b) by den) fun s16 e16 v16 => ?_)
  have v16 : View G pl 5 s0 s16 (vecs [st.alpha T b • st.dir b + st.x, b, st.dir b, st.mid T b, b, T *ᵥ st.mid T b,
    T *ᵥ st.dir b]) := v16.list (by simp)
  refine WP.bind (WP.axpy hA R v16 (by omega) (by omega) (show Den _ _ om (st.omega T b) by den) fun s17 e17 v17 => ?_)
  have v17 : View G pl 5 s0 s17 (vecs [st.omega T b • st.mid T b + (st.alpha T b • st.dir b + st.x), b, st.dir b, st.mid T b, b,
    T *ᵥ st.mid T b, T *ᵥ st.dir b]) := v17.list (by simp)
  refine WP.bind (WP.neg hA v17 (show Den _ _ om (st.omega T b) by den) fun no' n18 s18 e18 v18 d18 => ?_)
  refine WP.bind (WP.axpy hA R v18 (by omega) (by omega) d18 fun s19 e19 v19 => ?_)
  have v19 : View G pl 5 s0 s19 (vecs [st.omega T b • st.mid T b + (st.alpha T b • st.dir b + st.x), b, st.dir b,
    (-st.omega T b) • (T *ᵥ st.mid T b) + st.mid T b, b, T *ᵥ st.mid T b, T *ᵥ st.dir b]) := v19.list (by simp)
  have hnew : Den n18 s19 rn (st.r ⬝ᵥ b) ∧ Den n18 s19 al (st.alpha T b) ∧ Den n18 s19 om (st.omega T b) :=
    ⟨by den, by den, by den⟩
  have E : Ext n s n18 s19 := e1.trans (e2.trans (e3.trans (e4.trans (e5.trans (e6.trans (e7.trans (e8.trans (e9.trans
    (e10.trans (e11.trans (e12.trans (e13.trans (e14.trans (e15.trans (e16.trans (e17.trans (e18.trans e19)))))))))))))))))
  refine WP.pure ⟨⟨⟨_, v19, rfl, rfl, ?_, ?_, ?_, ?_⟩, by simp [hl1, hl2, hl3], ?_, E.den hneg⟩, E⟩
  · rw [hsucc]
    show _ = st.x + _ + _
    simp only [vecs, List.getD_cons_zero]
    rw [add_comm, add_comm st.x]
  · rw [hsucc]; rfl
  · rw [hsucc]
    show (-st.omega T b) • (T *ᵥ st.mid T b) + st.mid T b = st.mid T b - _
    rw [neg_smul, sub_eq_neg_add]
  · rw [hsucc]; rfl
  · intro i hi
    obtain ⟨p1, p2⟩ := getElem?_push c.rhos c.rho rn k hl1
    obtain ⟨p3, p4⟩ := getElem?_push c.alphas c.alpha al k hl2
    obtain ⟨p5, p6⟩ := getElem?_push c.omegas c.omega om k hl3
    by_cases hik : i ≤ k
    · obtain ⟨a1, a2, a3, q1, q2, q3, r1, r2, r3⟩ := hist i hik
      exact ⟨a1, a2, a3, (p2 i hik).trans q1, (p4 i hik).trans q2, (p6 i hik).trans q3, E.den r1, E.den r2, E.den r3⟩
    · obtain rfl : i = k + 1 := by omega
      refine ⟨rn, al, om, p1, p3, p5, ?_⟩
      rw [hsucc]
      exact hnew

theorem BiInv.solve (hA : A.Exact) (R : Ready G pl 5) (hord : ∀ f l, (G.redOrder f l).Perm l) (hns : 0 < pl.spaces.length)
    (k : Nat) (n : Nat) (s : Cell P → V) (hreg : BiRegular (pl.operator G) (pl.content G s 0) (pl.content G s 1) k) :
    WP (BiCGStab.solve (plannerOps A G.toEnv pl) k) n s (fun c n' s' => BiInv G pl s k c n' s' ∧ Ext n s n' s') := by
  refine WP.bind ((BiInv.init hA R n s).mono fun c n1 s1 h => ?_)
  have gen : ∀ (j i : Nat) (c : BiCGStab Scalar) (n1 : Nat) (s1 : Cell P → V), i + j = k → BiInv G pl s i c n1 s1 →
      Ext n s n1 s1 → WP (repeatM (BiCGStab.step (plannerOps A G.toEnv pl)) j c) n1 s1
        (fun c n' s' => BiInv G pl s k c n' s' ∧ Ext n s n' s') := by
    intro j
    induction j with
    | zero =>
      intro i c n1 s1 hij I E
      obtain rfl : i = k := by omega
      exact WP.pure ⟨I, E⟩
    | succ j ih =>
      intro i c n1 s1 hij I E
      refine WP.bind ((BiInv.step hA R hord hns (fun l hl => hreg l (by omega)) I).mono fun c' n2 s2 h => ?_)
      exact ih (i + 1) c' n2 s2 (by omega) h.1 (E.trans h.2)
  exact gen k 0 c n1 s1 (by omega) h.1 h.2

end Verif.Solver
