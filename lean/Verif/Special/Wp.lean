import Verif.Rounding.Planner
import Verif.Solver.Wp
import Verif.Solver.Client

/-! # Running solvers in an arbitrary arithmetic

As `Solver/Wp.lean`, without any assumption about the arithmetic: every operation of the planner is given by the formula it evaluates. -/
set_option linter.dupNamespace false
set_option linter.unusedSectionVars false
namespace Verif.Special
open Verif.Runtime Verif.Vector Verif.Matrix Verif.Planner Verif.Solver
variable {K P V : Type} [DecidableEq P] [DecidableEq K]

/-! ## Sums in some order -/

/-- `v` is obtained by adding the numbers of a multiset, and zeros, in some order and grouping. -/
inductive Sums (A : Arith V) : Multiset V → V → Prop
  | zero : Sums A 0 A.zero
  | one (x : V) : Sums A {x} x
  | add {l l' : Multiset V} {a b : V} : Sums A l a → Sums A l' b → Sums A (l + l') (A.add a b)

/-- A sum of numbers of a set closed under addition is in the set. -/
theorem Sums.mem {A : Arith V} {C : V → Prop} (h0 : C A.zero) (ha : ∀ a b, C a → C b → C (A.add a b)) {l : Multiset V} {v : V}
    (h : Sums A l v) : (∀ x ∈ l, C x) → C v := by
  induction h with
  | zero => exact fun _ => h0
  | one x => exact fun h => h x (Multiset.mem_singleton_self x)
  | add _ _ ih ih' =>
    intro h
    exact ha _ _ (ih fun x hx => h x (Multiset.mem_add.2 (Or.inl hx))) (ih' fun x hx => h x (Multiset.mem_add.2 (Or.inr hx)))

/-- A sum with one number of an absorbing set is in the set. -/
theorem Sums.absorb {A : Arith V} {C : V → Prop} (hl : ∀ a b, C a → C (A.add a b)) (hr : ∀ a b, C b → C (A.add a b)) {l : Multiset V}
    {v : V} (h : Sums A l v) : (∃ x ∈ l, C x) → C v := by
  induction h with
  | zero => rintro ⟨x, hx, -⟩; cases Multiset.notMem_zero x hx
  | one x =>
    rintro ⟨y, hy, hc⟩
    rw [Multiset.mem_singleton] at hy
    exact hy ▸ hc
  | add _ _ ih ih' =>
    rintro ⟨x, hx, hc⟩
    rcases Multiset.mem_add.1 hx with hx | hx
    · exact hl _ _ (ih ⟨x, hx, hc⟩)
    · exact hr _ _ (ih' ⟨x, hx, hc⟩)

theorem Sums.foldl {A : Arith V} {α : Type} (f : α → V) (g : α → Multiset V) (l : List α) (h : ∀ x ∈ l, Sums A (g x) (f x)) :
    ∀ {m : Multiset V} {a : V}, Sums A m a → Sums A (m + (l.map g).sum) (l.foldl (fun a x => A.add a (f x)) a) := by
  induction l with
  | nil => intro m a ha; simpa using ha
  | cons x l ih =>
    intro m a ha
    rw [List.map_cons, List.sum_cons, ← add_assoc]
    exact ih (fun y hy => h y (List.mem_cons_of_mem _ hy)) (ha.add (h x (List.mem_cons_self ..)))

theorem sums_dotPiece (A : Arith V) (v w : P → V) (pts : List P) :
    Sums A (pts.map fun p => ({A.mul (v p) (w p)} : Multiset V)).sum (dotPiece A v w pts) := by
  have h := Sums.foldl (A := A) (fun p => A.mul (v p) (w p)) (fun p => {A.mul (v p) (w p)}) pts (fun _ _ => .one _) .zero
  rwa [zero_add] at h

theorem sums_dotValue (A : Arith V) (v w : P → V) (space : List P) (pieces : List (List P)) (hp : IsPartition space pieces)
    (order : List Nat) (ho : order.Perm (List.range pieces.length)) :
    Sums A (∑ p ∈ space.toFinset, {A.mul (v p) (w p)}) (dotValue A v w pieces order) := by
  have h := Sums.foldl (A := A) (fun k => dotPiece A v w (pieces.getD k []))
    (fun k => ((pieces.getD k []).map fun p => ({A.mul (v p) (w p)} : Multiset V)).sum) order (fun _ _ => sums_dotPiece A v w _) .zero
  rw [zero_add] at h
  have e1 : (order.map fun k => ((pieces.getD k []).map fun p => ({A.mul (v p) (w p)} : Multiset V)).sum).sum =
      (pieces.flatten.map fun p => ({A.mul (v p) (w p)} : Multiset V)).sum := by
    rw [(ho.map _).sum_eq, List.map_flatten, List.sum_flatten, List.map_map]
    congr 1
    apply List.ext_getElem
    · simp
    · intro i h1 h2
      simp at h1 h2
      simp [h1]
  rw [e1] at h
  have e2 : pieces.flatten.toFinset = space.toFinset := by
    ext p
    rw [List.mem_toFinset, List.mem_toFinset]
    exact hp.2 p
  rw [← e2, ← sum_map_toFinset _ hp.1]
  exact h

/-! ## The planner's inner product -/

theorem sum_all_unknowns {W : Type} [AddCommMonoid W] (G : Geometry P) (pl : Planner K P V) (F : Nat → P → W) :
    ∑ u : pl.U G, F u.1.1 u.1.2 = ∑ i ∈ Finset.range pl.spaces.length, ∑ p ∈ (pl.pts G i).toFinset, F i p := by
  rw [Finset.sum_coe_sort (pl.unknowns G) (fun u => F u.1 u.2)]
  unfold Planner.unknowns
  rw [Finset.sum_sigma]

variable {G : Geometry P} {pl : Planner K P V} {nw : Nat}

/-- The products of block `i`. -/
def blockProducts (A : Arith V) (G : Geometry P) (pl : Planner K P V) (s : Cell P → V) (v w i : Nat) : Multiset V :=
  ∑ p ∈ (pl.pts G i).toFinset, {A.mul (s (.elem (pl.vec v i).data p)) (s (.elem (pl.vec w i).data p))}

theorem sums_blockDot (A : Arith V) (R : Ready G pl nw) (hord : ∀ f l, (G.redOrder f l).Perm l)
    {v w i : Nat} (hv : v < nw + 2) (hw : w < nw + 2) (hi : i < pl.spaces.length) (n : Nat) (s : Cell P → V) :
    ∃ s', Runs (do
      let x ← pl.getVector v i; let y ← pl.getVector w i
      Verif.Vector.dot A G.toEnv x y : M P V Scalar) n s ⟨n⟩ (n + 1) s' ∧
      Sums A (blockProducts A G pl s v w i) (s' (.fut n)) ∧
      (∀ d p, s' (.elem d p) = s (.elem d p)) ∧ ∀ f, f ≠ n → s' (.fut f) = s (.fut f) := by
  obtain ⟨a, b, c⟩ := R.compat hv hw hi
  refine ⟨_, (Runs.getVector R hv hi n s).bind ((Runs.getVector R hw hi n s).bind
    (Runs.dot A G.toEnv _ _ a b c n s (hord _ _))), ?_, fun _ _ => rfl, fun f hf => ?_⟩
  · rw [setDot_fut, if_pos rfl]
    exact sums_dotValue A _ _ _ _ (R.part hv hi) _ (hord _ _)
  · rw [setDot_fut, if_neg hf]

theorem sums_dotLoop (A : Arith V) (R : Ready G pl nw) (hord : ∀ f l, (G.redOrder f l).Perm l)
    {v w : Nat} (hv : v < nw + 2) (hw : w < nw + 2) (l : List Nat) (hl : ∀ i ∈ l, i < pl.spaces.length) :
    ∀ (r : Scalar) (n : Nat) (s : Cell P → V) (g : Multiset V), r.fut < n → Sums A g (s (.fut r.fut)) →
      ∃ a n' s', Runs (pl.dotLoop A G.toEnv v w l r) n s a n' s' ∧
      n ≤ n' ∧ a.fut < n' ∧ (a = r ∨ n ≤ a.fut) ∧
      Sums A (g + (l.map (blockProducts A G pl s v w)).sum) (s' (.fut a.fut)) ∧
      (∀ d p, s' (.elem d p) = s (.elem d p)) ∧ ∀ f, f < n → s' (.fut f) = s (.fut f) := by
  induction l with
  | nil =>
    intro r n s g hr h
    exact ⟨r, n, s, Runs.pure _ n s, le_refl _, hr, Or.inl rfl, by simpa using h, fun _ _ => rfl, fun _ _ => rfl⟩
  | cons i l ih =>
    intro r n s g hr hs
    obtain ⟨s1, h1, h2, h3, h4⟩ := sums_blockDot A R hord hv hw (hl i (List.mem_cons_self ..)) n s
    have hadd := Runs.binary (P := P) A.add r ⟨n⟩ (n + 1) s1
    have hnext := hs.add h2
    rw [← h4 r.fut (by omega)] at hnext
    obtain ⟨a, n', s', g1, g2, g3, g4, g5, g6, g7⟩ := ih (fun j hj => hl j (List.mem_cons_of_mem _ hj)) ⟨n + 1⟩ (n + 2)
      (setFut s1 (n + 1) (A.add (s1 (.fut r.fut)) (s1 (.fut n)))) _ (show n + 1 < n + 2 by omega)
      (by rw [setFut_fut, if_pos rfl]; exact hnext)
    refine ⟨a, n', s', ?_, by omega, g3, Or.inr ?_, ?_, ?_, ?_⟩
    · obtain ⟨ts, e, o, rr⟩ := h1
      obtain ⟨ts', e', o', rr'⟩ := hadd.bind g1
      refine ⟨ts ++ ts', fun out => ?_, ?_, by rw [runTasks_append, rr, rr']⟩
      · have e1 := e out
        have e2 := e' (out ++ ts)
        have e1' : ((Planner.getVector pl v i) ⟨n, out⟩ >>= fun x => (Planner.getVector pl w i) x.2 >>= fun y =>
          Verif.Vector.dot A G.toEnv x.1 y.1 y.2) = some (⟨n⟩, ⟨n + 1, out ++ ts⟩) := e1
        show ((Planner.getVector pl v i) ⟨n, out⟩ >>= fun x => (Planner.getVector pl w i) x.2 >>= fun y =>
          (Verif.Vector.dot A G.toEnv x.1 y.1 y.2 >>= fun z => _)) = _
        have : ∀ (F : Scalar × Emit P V → Option (Scalar × Emit P V)),
            ((Planner.getVector pl v i) ⟨n, out⟩ >>= fun x => (Planner.getVector pl w i) x.2 >>= fun y =>
              (Verif.Vector.dot A G.toEnv x.1 y.1 y.2 >>= F)) =
            (((Planner.getVector pl v i) ⟨n, out⟩ >>= fun x => (Planner.getVector pl w i) x.2 >>= fun y =>
              Verif.Vector.dot A G.toEnv x.1 y.1 y.2) >>= F) := by
          intro F
          simp only [bind_assoc]
        rw [this, e1']
        rw [List.append_assoc] at e2
        exact e2
      · intro t ht
        rcases List.mem_append.1 ht with h | h
        · exact o t h
        · exact o' t h
    · rcases g4 with rfl | h
      · show n ≤ n + 1; omega
      · omega
    · have e1 : blockProducts A G pl (setFut s1 (n + 1) (A.add (s1 (.fut r.fut)) (s1 (.fut n)))) v w = blockProducts A G pl s v w := by
        funext j
        unfold blockProducts
        refine Finset.sum_congr rfl fun p _ => ?_
        rw [setFut_elem, setFut_elem, h3, h3]
      rw [e1] at g5
      rw [List.map_cons, List.sum_cons, ← add_assoc]
      exact g5
    · intro d p
      rw [g6, setFut_elem, h3]
    · intro f hf
      rw [g7 f (by omega), setFut_fut, if_neg (by omega), h4 f (by omega)]

theorem sums_pDot (A : Arith V) (R : Ready G pl nw) (hord : ∀ f l, (G.redOrder f l).Perm l)
    (hns : 0 < pl.spaces.length) {v w : Nat} (hv : v < nw + 2) (hw : w < nw + 2) (n : Nat) (s : Cell P → V) :
    ∃ a n' s', Runs (pl.dot A G.toEnv v w) n s a n' s' ∧ n ≤ a.fut ∧ a.fut < n' ∧
      Sums A (∑ u : pl.U G, {A.mul (pl.content G s v u) (pl.content G s w u)}) (s' (.fut a.fut)) ∧
      (∀ d p, s' (.elem d p) = s (.elem d p)) ∧ ∀ f, f < n → s' (.fut f) = s (.fut f) := by
  obtain ⟨s1, h1, h2, h3, h4⟩ := sums_blockDot A R hord hv hw hns n s
  obtain ⟨a, n', s', g1, g2, g3, g4, g5, g6, g7⟩ := sums_dotLoop A R hord hv hw (List.range' 1 (pl.spaces.length - 1))
    (by intro i hi; have := List.mem_range'_1.1 hi; omega) ⟨n⟩ (n + 1) s1 _ (show n < n + 1 by omega) h2
  refine ⟨a, n', s', ?_, ?_, g3, ?_, ?_, ?_⟩
  · refine (Runs.numSpaces R n s).bind ?_
    obtain ⟨ts, e, o, rr⟩ := h1
    obtain ⟨ts', e', o', rr'⟩ := g1
    refine ⟨ts ++ ts', fun out => ?_, ?_, by rw [runTasks_append, rr, rr']⟩
    · have e1' : ((Planner.getVector pl v 0) ⟨n, out⟩ >>= fun x => (Planner.getVector pl w 0) x.2 >>= fun y =>
          Verif.Vector.dot A G.toEnv x.1 y.1 y.2) = some (⟨n⟩, ⟨n + 1, out ++ ts⟩) := e out
      show ((Planner.getVector pl v 0) ⟨n, out⟩ >>= fun x => (Planner.getVector pl w 0) x.2 >>= fun y =>
          (Verif.Vector.dot A G.toEnv x.1 y.1 y.2 >>= fun z => _)) = _
      have : ∀ (F : Scalar × Emit P V → Option (Scalar × Emit P V)),
            ((Planner.getVector pl v 0) ⟨n, out⟩ >>= fun x => (Planner.getVector pl w 0) x.2 >>= fun y =>
              (Verif.Vector.dot A G.toEnv x.1 y.1 y.2 >>= F)) =
            (((Planner.getVector pl v 0) ⟨n, out⟩ >>= fun x => (Planner.getVector pl w 0) x.2 >>= fun y =>
              Verif.Vector.dot A G.toEnv x.1 y.1 y.2) >>= F) := by
          intro F
          simp only [bind_assoc]
      rw [this, e1', ← List.append_assoc]
      exact e' (out ++ ts)
    · intro t ht
      rcases List.mem_append.1 ht with h | h
      · exact o t h
      · exact o' t h
  · rcases g4 with rfl | h
    · show n ≤ n; omega
    · omega
  · have e0 : blockProducts A G pl s1 v w = blockProducts A G pl s v w := by
      funext j
      unfold blockProducts
      refine Finset.sum_congr rfl fun p _ => ?_
      rw [h3, h3]
    rw [e0] at g5
    have e1 := sum_all_unknowns G pl (fun i p => ({A.mul (s (.elem (pl.vec v i).data p)) (s (.elem (pl.vec w i).data p))} : Multiset V))
    have e2 : ∑ u : pl.U G, ({A.mul (pl.content G s v u) (pl.content G s w u)} : Multiset V) =
        blockProducts A G pl s v w 0 + ((List.range' 1 (pl.spaces.length - 1)).map (blockProducts A G pl s v w)).sum := by
      refine e1.trans ?_
      rw [Finset.sum_range, ← List.sum_ofFn]
      have e3 : List.ofFn (fun i : Fin pl.spaces.length => ∑ p ∈ (pl.pts G i).toFinset,
          ({A.mul (s (.elem (pl.vec v i).data p)) (s (.elem (pl.vec w i).data p))} : Multiset V)) =
          (List.range pl.spaces.length).map (blockProducts A G pl s v w) := by
        apply List.ext_getElem
        · simp
        · intro i h1 h2
          simp [blockProducts]
      rw [e3]
      obtain ⟨m, hm⟩ : ∃ m, pl.spaces.length = m + 1 := ⟨_, (Nat.succ_pred_eq_of_pos hns).symm⟩
      rw [hm, Nat.add_sub_cancel, List.range_eq_range', List.range'_succ, List.map_cons, List.sum_cons]
    rw [e2]
    exact g5
  · intro d p; rw [g6, h3]
  · intro f hf; rw [g7 f (by omega), h4 f (by omega)]

/-! ## The operations -/
section
variable {A : Arith V} {s0 s : Cell P → V} {x : Nat → pl.U G → V} {n : Nat}
variable {Φ : Unit → Nat → (Cell P → V) → Prop} {Ψ : Scalar → Nat → (Cell P → V) → Prop}

theorem wp_copy (R : Ready G pl nw) (v : View G pl nw s0 s x) {d y : Nat} (hd : d < nw + 2) (hy : y < nw + 2)
    (k : ∀ s', Ext n s n s' → View G pl nw s0 s' (Function.update x d (x y)) → Φ () n s') :
    WP ((plannerOps A G.toEnv pl).copy d y) n s Φ := by
  obtain ⟨s', h1, h2⟩ := Runs.pCopy R hd hy n s
  exact ⟨_, _, s', h1, k s' (BlockSet.ext h2) (v.block R hd h2 _ (fun u => congrFun (v.vec y hy) u))⟩

theorem wp_zeroFill (R : Ready G pl nw) (v : View G pl nw s0 s x) {d : Nat} (hd : d < nw + 2)
    (k : ∀ s', Ext n s n s' → View G pl nw s0 s' (Function.update x d fun _ => A.zero) → Φ () n s') :
    WP ((plannerOps A G.toEnv pl).zeroFill d) n s Φ := by
  obtain ⟨s', h1, h2⟩ := Runs.pZeroFill R A hd n s
  exact ⟨_, _, s', h1, k s' (BlockSet.ext h2) (v.block R hd h2 _ (fun u => rfl))⟩

theorem wp_scal (R : Ready G pl nw) (v : View G pl nw s0 s x) {d : Nat} (hd : d < nw + 2) {a : Scalar} {α : V}
    (da : Den n s a α) (k : ∀ s', Ext n s n s' → View G pl nw s0 s' (Function.update x d fun w => A.mul α (x d w)) → Φ () n s') :
    WP ((plannerOps A G.toEnv pl).scal d a) n s Φ := by
  obtain ⟨s', h1, h2⟩ := Runs.pScal R A hd a n s
  refine ⟨_, _, s', h1, k s' (BlockSet.ext h2) (v.block R hd h2 _ (fun u => ?_))⟩
  show A.mul (s (.fut a.fut)) (pl.content G s d u) = _
  rw [da.2, v.vec d hd]

theorem wp_axpy (R : Ready G pl nw) (v : View G pl nw s0 s x) {d y : Nat} (hd : d < nw + 2) (hy : y < nw + 2)
    {a : Scalar} {α : V} (da : Den n s a α)
    (k : ∀ s', Ext n s n s' → View G pl nw s0 s' (Function.update x d fun w => A.fma α (x y w) (x d w)) → Φ () n s') :
    WP ((plannerOps A G.toEnv pl).axpy d a y) n s Φ := by
  obtain ⟨s', h1, h2⟩ := Runs.pAxpy R A hd hy a n s
  refine ⟨_, _, s', h1, k s' (BlockSet.ext h2) (v.block R hd h2 _ (fun u => ?_))⟩
  show A.fma (s (.fut a.fut)) (pl.content G s y u) (pl.content G s d u) = _
  rw [da.2, v.vec d hd, v.vec y hy]

theorem wp_axpy2 (R : Ready G pl nw) (v : View G pl nw s0 s x) {d y : Nat} (hd : d < nw + 2) (hy : y < nw + 2)
    {a b : Scalar} {α β : V} (da : Den n s a α) (db : Den n s b β)
    (k : ∀ s', Ext n s n s' → View G pl nw s0 s' (Function.update x d fun w => A.fma (A.div α β) (x y w) (x d w)) → Φ () n s') :
    WP ((plannerOps A G.toEnv pl).axpy2 d a b y) n s Φ := by
  obtain ⟨s', h1, h2⟩ := Runs.pAxpy2 R A hd hy a b n s
  refine ⟨_, _, s', h1, k s' (BlockSet.ext h2) (v.block R hd h2 _ (fun w => ?_))⟩
  show A.fma (A.div (s (.fut a.fut)) (s (.fut b.fut))) (pl.content G s y w) (pl.content G s d w) = _
  rw [da.2, db.2, v.vec d hd, v.vec y hy]

theorem wp_axpy3 (R : Ready G pl nw) (v : View G pl nw s0 s x) {d y : Nat} (hd : d < nw + 2) (hy : y < nw + 2)
    {a b c : Scalar} {α β γ : V} (da : Den n s a α) (db : Den n s b β) (dc : Den n s c γ)
    (k : ∀ s', Ext n s n s' → View G pl nw s0 s' (Function.update x d fun w => A.fma (A.div (A.mul α β) γ) (x y w) (x d w)) → Φ () n s') :
    WP ((plannerOps A G.toEnv pl).axpy3 d a b c y) n s Φ := by
  obtain ⟨s', h1, h2⟩ := Runs.pAxpy3 R A hd hy a b c n s
  refine ⟨_, _, s', h1, k s' (BlockSet.ext h2) (v.block R hd h2 _ (fun w => ?_))⟩
  show A.fma (A.div (A.mul (s (.fut a.fut)) (s (.fut b.fut))) (s (.fut c.fut))) (pl.content G s y w) (pl.content G s d w) = _
  rw [da.2, db.2, dc.2, v.vec d hd, v.vec y hy]

theorem wp_xpay (R : Ready G pl nw) (v : View G pl nw s0 s x) {d y : Nat} (hd : d < nw + 2) (hy : y < nw + 2)
    {a : Scalar} {α : V} (da : Den n s a α)
    (k : ∀ s', Ext n s n s' → View G pl nw s0 s' (Function.update x d fun w => A.fma α (x d w) (x y w)) → Φ () n s') :
    WP ((plannerOps A G.toEnv pl).xpay d a y) n s Φ := by
  obtain ⟨s', h1, h2⟩ := Runs.pXpay R A hd hy a n s
  refine ⟨_, _, s', h1, k s' (BlockSet.ext h2) (v.block R hd h2 _ (fun u => ?_))⟩
  show A.fma (s (.fut a.fut)) (pl.content G s d u) (pl.content G s y u) = _
  rw [da.2, v.vec d hd, v.vec y hy]

theorem wp_xpay2 (R : Ready G pl nw) (v : View G pl nw s0 s x) {d y : Nat} (hd : d < nw + 2) (hy : y < nw + 2)
    {a b : Scalar} {α β : V} (da : Den n s a α) (db : Den n s b β)
    (k : ∀ s', Ext n s n s' → View G pl nw s0 s' (Function.update x d fun w => A.fma (A.div α β) (x d w) (x y w)) → Φ () n s') :
    WP ((plannerOps A G.toEnv pl).xpay2 d a b y) n s Φ := by
  obtain ⟨s', h1, h2⟩ := Runs.pXpay2 R A hd hy a b n s
  refine ⟨_, _, s', h1, k s' (BlockSet.ext h2) (v.block R hd h2 _ (fun w => ?_))⟩
  show A.fma (A.div (s (.fut a.fut)) (s (.fut b.fut))) (pl.content G s d w) (pl.content G s y w) = _
  rw [da.2, db.2, v.vec d hd, v.vec y hy]

/-- The stored entries of a row multiplied with a vector, accumulated in order. -/
def rowValue (A : Arith V) (G : Geometry P) (pl : Planner K P V) (y : pl.U G → V) (T : List ((Σ _ : Nat, P) × V)) (a : V) : V :=
  T.foldl (fun a t => A.add a (A.mul t.2 (if h : t.1 ∈ pl.unknowns G then y ⟨t.1, h⟩ else A.zero))) a

theorem wp_matvec (R : Ready G pl nw) (v : View G pl nw s0 s x) {d y : Nat} (hd : d < nw + 2) (hy : y < nw + 2) (hne : d ≠ y)
    (k : ∀ s', Ext n s n s' → View G pl nw s0 s' (Function.update x d fun w =>
      rowValue A G pl (x y) (pl.stored w.1.1 w.1.2) A.zero) → Φ () n s') :
    WP ((plannerOps A G.toEnv pl).matvec d y) n s Φ := by
  obtain ⟨s', h1, h2⟩ := Runs.pMatvecAny A R hd hy hne n s
  refine ⟨_, _, s', h1, k s' (BlockSet.ext h2) (v.block R hd h2 _ (fun w => ?_))⟩
  unfold accRow rowValue
  apply List.foldl_ext
  intro b t ht
  have hm := stored_mem R ht
  rw [dif_pos hm, ← v.vec y hy]
  rfl

theorem wp_dot (R : Ready G pl nw) (hord : ∀ f l, (G.redOrder f l).Perm l) (hns : 0 < pl.spaces.length)
    (v : View G pl nw s0 s x) {y z : Nat} (hy : y < nw + 2) (hz : z < nw + 2)
    (k : ∀ a n' s' δ, Ext n s n' s' → View G pl nw s0 s' x → Den n' s' a δ → Sums A (∑ u : pl.U G, {A.mul (x y u) (x z u)}) δ →
      Ψ a n' s') :
    WP ((plannerOps A G.toEnv pl).dot y z) n s Ψ := by
  obtain ⟨a, n', s', h1, h2, h3, h4, h5, h6⟩ := sums_pDot A R hord hns hy hz n s
  rw [v.vec y hy, v.vec z hz] at h4
  exact ⟨a, n', s', h1, k a n' s' _ ⟨by omega, h6⟩ (v.frame h5) ⟨h3, rfl⟩ h4⟩

/-- A new scalar with a value. -/
theorem wp_new {m : M P V Scalar} {α : V} (h : Runs m n s ⟨n⟩ (n + 1) (setFut s n α)) (v : View G pl nw s0 s x)
    (k : ∀ a n' s', Ext n s n' s' → View G pl nw s0 s' x → Den n' s' a α → Ψ a n' s') : WP m n s Ψ := by
  refine ⟨_, _, _, h, k _ _ _ ⟨Nat.le_succ n, fun f hf => ?_⟩ (v.frame fun _ _ => rfl) ⟨Nat.lt_succ_self n, ?_⟩⟩
  · rw [setFut_fut, if_neg (by omega)]
  · rw [setFut_fut, if_pos rfl]

theorem wp_negOne (v : View G pl nw s0 s x) (k : ∀ a n' s', Ext n s n' s' → View G pl nw s0 s' x → Den n' s' a (A.neg A.one) → Ψ a n' s') :
    WP ((plannerOps A G.toEnv pl).negOne) n s Ψ := wp_new (Runs.scalarOf _ n s) v k

theorem wp_zero (v : View G pl nw s0 s x) (k : ∀ a n' s', Ext n s n' s' → View G pl nw s0 s' x → Den n' s' a A.zero → Ψ a n' s') :
    WP ((plannerOps A G.toEnv pl).zero) n s Ψ := wp_new (Runs.scalarOf _ n s) v k

theorem wp_one (v : View G pl nw s0 s x) (k : ∀ a n' s', Ext n s n' s' → View G pl nw s0 s' x → Den n' s' a A.one → Ψ a n' s') :
    WP ((plannerOps A G.toEnv pl).one) n s Ψ := wp_new (Runs.scalarOf _ n s) v k

theorem wp_neg (v : View G pl nw s0 s x) {a : Scalar} {α : V} (da : Den n s a α)
    (k : ∀ a n' s', Ext n s n' s' → View G pl nw s0 s' x → Den n' s' a (A.neg α) → Ψ a n' s') :
    WP ((plannerOps A G.toEnv pl).neg a) n s Ψ := wp_new (by rw [← da.2]; exact Runs.unary A.neg a n s) v k

theorem wp_mul (v : View G pl nw s0 s x) {a b : Scalar} {α β : V} (da : Den n s a α) (db : Den n s b β)
    (k : ∀ a n' s', Ext n s n' s' → View G pl nw s0 s' x → Den n' s' a (A.mul α β) → Ψ a n' s') :
    WP ((plannerOps A G.toEnv pl).mul a b) n s Ψ := wp_new (by rw [← da.2, ← db.2]; exact Runs.binary A.mul a b n s) v k

theorem wp_div (v : View G pl nw s0 s x) {a b : Scalar} {α β : V} (da : Den n s a α) (db : Den n s b β)
    (k : ∀ a n' s', Ext n s n' s' → View G pl nw s0 s' x → Den n' s' a (A.div α β) → Ψ a n' s') :
    WP ((plannerOps A G.toEnv pl).div a b) n s Ψ := wp_new (by rw [← da.2, ← db.2]; exact Runs.binary A.div a b n s) v k

theorem wp_sqrt (v : View G pl nw s0 s x) {a : Scalar} {α : V} (da : Den n s a α)
    (k : ∀ a n' s', Ext n s n' s' → View G pl nw s0 s' x → Den n' s' a (A.sqrt α) → Ψ a n' s') :
    WP ((plannerOps A G.toEnv pl).sqrt a) n s Ψ := wp_new (by rw [← da.2]; exact Runs.unary A.sqrt a n s) v k

theorem wp_rsqrt (v : View G pl nw s0 s x) {a : Scalar} {α : V} (da : Den n s a α)
    (k : ∀ a n' s', Ext n s n' s' → View G pl nw s0 s' x → Den n' s' a (A.div A.one (A.sqrt α)) → Ψ a n' s') :
    WP ((plannerOps A G.toEnv pl).rsqrt a) n s Ψ :=
  wp_new (by rw [← da.2]; exact Runs.unary (fun x => A.div A.one (A.sqrt x)) a n s) v k

theorem wp_dummy (v : View G pl nw s0 s x) (l : List Scalar)
    (k : ∀ a n' s', Ext n s n' s' → View G pl nw s0 s' x → Den n' s' a A.one → Ψ a n' s') :
    WP ((plannerOps A G.toEnv pl).dummy l) n s Ψ :=
  wp_new ((Runs.fresh n s).bind ((Runs.scalarTask1 (l.map Scalar.fut) (fun _ => A.one) (n + 1) n s
    (fun _ _ _ => rfl)).bind (Runs.pure _ _ _))) v k

end

end Verif.Special
