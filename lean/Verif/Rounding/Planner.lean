import Verif.Rounding.Vector
import Verif.Rounding.Gap
import Verif.Planner.DotMatvec

/-! # C59: rounding errors of the planner's inner product and matrix-vector product -/
set_option linter.dupNamespace false
set_option linter.unusedSectionVars false
namespace Verif.Planner
open Verif.Runtime Verif.Vector Verif.Matrix
variable {K P V : Type} [DecidableEq P] [DecidableEq K]

/-! ## Stored entries -/

/-- The stored entries of row `p` of a matrix, in the order in which they are stored: column and coefficient. -/
def Op.stored (p : P) : Op K P V → List (P × V)
  | .coo m => (m.kernel.filter fun k => decide (m.row k = p)).map fun k => (m.col k, m.entry k)
  | .csr m => (m.kernel.filter fun k => m.range p k).map fun k => (m.col k, m.entry k)

/-- The stored entries of row `p` of block `i` in all registered matrices: column (block and point) and coefficient. -/
def Planner.stored (pl : Planner K P V) (i : Nat) (p : P) : List ((Σ _ : Nat, P) × V) :=
  pl.ops.flatMap fun r => if r.rng = i then (r.matrix.stored p).map fun t => (⟨r.dom, t.1⟩, t.2) else []

/-- Accumulating the products of a row. -/
def accRow (A : Arith V) (x : Nat → P → V) (a : V) (T : List ((Σ _ : Nat, P) × V)) : V :=
  T.foldl (fun a t => A.add a (A.mul t.2 (x t.1.1 t.1.2))) a

variable {G : Geometry P} {pl : Planner K P V} {nw : Nat}

/-- One registered matrix applied, in any arithmetic. -/
theorem Runs.opMatvecAny (A : Arith V) (m : Op K P V) (dst src : Vec) (hne : src.data ≠ dst.data)
    (rspace dspace : List P) (hp : IsPartition rspace (G.pieces dst.part)) (hfit : m.Fits rspace dspace) (n : Nat)
    (s : Cell P → V) :
    Runs (m.matvec A G.toEnv dst src (m.kernelFromRange (G.pieces dst.part))
      (m.domainFromKernel dspace (m.kernelFromRange (G.pieces dst.part)))) n s () n
      (setVec s dst rspace fun p => (m.stored p).foldl (fun a t => A.add a (A.mul t.2 (s (.elem src.data t.1)))) (s (.elem dst.data p))) := by
  cases m with
  | coo m =>
    refine (Runs.cooMatvec A G.toEnv m dst src hne rspace dspace hp hfit n s).cast ?_
    refine setVec_congr s dst _ _ (fun _ => Iff.rfl) (fun p _ => ?_)
    unfold accList Op.stored
    rw [List.foldl_map, List.foldl_map]
    rfl
  | csr m =>
    obtain ⟨h1, h2, h3⟩ := hfit
    have hp' : IsPartition m.rows (G.pieces dst.part) := ⟨hp.1, fun p => (hp.2 p).trans (h2 p).symm⟩
    refine (Runs.csrMatvec A G.toEnv m h3 dst src hne dspace hp' h1 n s).cast ?_
    refine setVec_congr s dst _ _ h2 (fun p _ => ?_)
    unfold accList Op.stored
    rw [List.foldl_map, List.foldl_map]

theorem Runs.opsLoopAny (A : Arith V) (R : Ready G pl nw) {d x : Nat} (hd : d < nw + 2)
    (hx : x < nw + 2) (hne : d ≠ x) (rs : List (Registered K P V)) (hrs : ∀ r ∈ rs, r ∈ pl.ops) :
    ∀ (n : Nat) (s : Cell P → V), ∃ s', Runs (loop rs fun r => do
      let y ← pl.getVector d r.rng; let x ← pl.getVector x r.dom
      r.matrix.matvec A G.toEnv y x r.kernel r.ghost : M P V Unit) n s () n s' ∧
      BlockSet G pl s s' d fun i p => accRow A (fun j q => s (.elem (pl.vec x j).data q)) (s (.elem (pl.vec d i).data p))
        (rs.flatMap fun r => if r.rng = i then (r.matrix.stored p).map fun t => (⟨r.dom, t.1⟩, t.2) else []) := by
  induction rs with
  | nil =>
    intro n s
    exact ⟨s, Runs.pure _ n s, fun i _ p _ => by simp [accRow], fun _ _ => rfl⟩
  | cons r rs ih =>
    intro n s
    obtain ⟨h1, h2, h3, h4, h5⟩ := R.ops r (hrs r (List.mem_cons_self ..))
    have hsrc : (pl.vec x r.dom).data ≠ (pl.vec d r.rng).data := fun e =>
      hne ((R.distinct x r.dom d r.rng hx h1 hd h2 e).1).symm
    have hp := R.part hd h2
    have hpart : (pl.vec d r.rng).part = pl.parts.getD r.rng 0 := (R.lookup hd h2).2.2.1
    have hrun := Runs.opMatvecAny (G := G) A r.matrix (pl.vec d r.rng) (pl.vec x r.dom) hsrc _ _ hp h5 n s
    rw [hpart, ← h3, ← h4] at hrun
    generalize hset : setVec s (pl.vec d r.rng) (pl.pts G r.rng) (fun p => (r.matrix.stored p).foldl
      (fun a t => A.add a (A.mul t.2 (s (.elem (pl.vec x r.dom).data t.1)))) (s (.elem (pl.vec d r.rng).data p))) = s1 at hrun
    obtain ⟨s', g1, g2, g3⟩ := ih (fun r hr => hrs r (List.mem_cons_of_mem _ hr)) n s1
    refine ⟨s', ((Runs.getVector R hd h2 n s).bind ((Runs.getVector R hx h1 n s).bind hrun)).bind g1, ?_, ?_⟩
    · intro i hi p hp
      have hsrc' : ∀ j, j < pl.spaces.length → ∀ q, s1 (.elem (pl.vec x j).data q) = s (.elem (pl.vec x j).data q) := by
        intro j hj q
        rw [← hset, setVec_elem, if_neg]
        rintro ⟨e, -⟩
        exact hne ((R.distinct x j d r.rng hx hj hd h2 e).1).symm
      rw [g2 i hi p hp]
      beta_reduce
      have happ : ∀ a, accRow A (fun j q => s1 (.elem (pl.vec x j).data q)) a
          (rs.flatMap fun r => if r.rng = i then (r.matrix.stored p).map fun t => (⟨r.dom, t.1⟩, t.2) else []) =
        accRow A (fun j q => s (.elem (pl.vec x j).data q)) a
          (rs.flatMap fun r => if r.rng = i then (r.matrix.stored p).map fun t => (⟨r.dom, t.1⟩, t.2) else []) := by
        intro a
        unfold accRow
        apply List.foldl_ext
        intro b t ht
        obtain ⟨r', hr', ht'⟩ := List.mem_flatMap.1 ht
        split at ht'
        · obtain ⟨t', -, rfl⟩ := List.mem_map.1 ht'
          dsimp only
          rw [hsrc' r'.dom (R.ops r' (hrs r' (List.mem_cons_of_mem _ hr'))).1]
        · cases ht'
      rw [happ, List.flatMap_cons]
      unfold accRow
      rw [List.foldl_append]
      congr 1
      by_cases hri : r.rng = i
      · subst hri
        rw [if_pos rfl, List.foldl_map, ← hset, setVec_elem, if_pos ⟨rfl, hp⟩]
      · rw [if_neg hri, ← hset, setVec_elem, if_neg]
        · rfl
        · rintro ⟨e, -⟩
          exact hri ((R.distinct d i d r.rng hd hi hd h2 e).2).symm
    · intro c hc
      rw [g3 c hc, ← hset]
      cases c with
      | elem e p =>
        rw [setVec_elem, if_neg]
        rintro ⟨rfl, hp⟩
        exact hc r.rng h2 p hp rfl
      | _ => rfl

/-- The planner's product, in any arithmetic: zero, then all stored entries of the row, accumulated in order. -/
theorem Runs.pMatvecAny (A : Arith V) (R : Ready G pl nw) {d x : Nat} (hd : d < nw + 2)
    (hx : x < nw + 2) (hne : d ≠ x) (n : Nat) (s : Cell P → V) :
    ∃ s', Runs (pl.matvec A G.toEnv d x) n s () n s' ∧
      BlockSet G pl s s' d fun i p => accRow A (fun j q => s (.elem (pl.vec x j).data q)) A.zero (pl.stored i p) := by
  obtain ⟨s1, h1, h2, h3⟩ := Runs.pZeroFill R A hd n s
  obtain ⟨s', g1, g2, g3⟩ := Runs.opsLoopAny A R hd hx hne pl.ops (fun r hr => hr) n s1
  refine ⟨s', h1.bind g1, ?_, fun c hc => by rw [g3 c hc, h3 c hc]⟩
  intro i hi p hp
  rw [g2 i hi p hp]
  beta_reduce
  rw [h2 i hi p hp]
  unfold accRow
  apply List.foldl_ext
  intro b t ht
  obtain ⟨r, hr, ht'⟩ := List.mem_flatMap.1 ht
  split at ht'
  · obtain ⟨t', -, rfl⟩ := List.mem_map.1 ht'
    have : ∀ q, s1 (.elem (pl.vec x r.dom).data q) = s (.elem (pl.vec x r.dom).data q) := by
      intro q
      apply h3
      intro j hj q' _ e
      injection e with e _
      exact hne ((R.distinct x r.dom d j hx (R.ops r hr).1 hd hj e).1).symm
    dsimp only
    rw [this]
  · cases ht'

/-! ## Stored entries and coefficients -/

/-- The sum of the stored entries (after applying `f`) in a given column. -/
def Planner.collect [AddCommMonoid V] (f : V → V) (G : Geometry P) (pl : Planner K P V) : _root_.Matrix (pl.U G) (pl.U G) V :=
  fun u u' => (((pl.stored u.1.1 u.1.2).filter fun t => decide (t.1 = u'.1)).map fun t => f t.2).sum

theorem stored_mem (R : Ready G pl nw) {i : Nat} {p : P} {t : (Σ _ : Nat, P) × V}
    (ht : t ∈ pl.stored i p) : t.1 ∈ pl.unknowns G := by
  obtain ⟨r, hr, ht'⟩ := List.mem_flatMap.1 ht
  obtain ⟨h1, h2, h3, h4, h5⟩ := R.ops r hr
  split at ht'
  · obtain ⟨t', hts, rfl⟩ := List.mem_map.1 ht'
    refine Finset.mem_sigma.2 ⟨Finset.mem_range.2 h1, List.mem_toFinset.2 ?_⟩
    clear ht' ht
    revert h5 hts
    cases r.matrix with
    | coo m =>
      intro h5 hts
      obtain ⟨k, hk, rfl⟩ := List.mem_map.1 hts
      exact h5 k (List.mem_filter.1 hk).1
    | csr m =>
      intro h5 hts
      obtain ⟨k, hk, rfl⟩ := List.mem_map.1 hts
      exact h5.1 k (List.mem_filter.1 hk).1
  · cases ht'

theorem collect_mulVec [Field V] (f : V → V) (R : Ready G pl nw) (x : pl.U G → V) (y : Nat → P → V)
    (hy : ∀ u : pl.U G, y u.1.1 u.1.2 = x u) (u : pl.U G) :
    (pl.collect f G).mulVec x u = ((pl.stored u.1.1 u.1.2).map fun t => f t.2 * y t.1.1 t.1.2).sum := by
  have h := sum_by_column (P := Σ _ : Nat, P) (pl.stored u.1.1 u.1.2) Prod.fst (fun t => f t.2) (fun v => y v.1 v.2) (pl.unknowns G)
    fun t ht => stored_mem R ht
  rw [h, ← Finset.sum_coe_sort]
  show ∑ u' : pl.U G, _ * x u' = _
  exact Finset.sum_congr rfl fun u' _ => by rw [← hy u']; rfl

theorem op_coef_stored [AddCommMonoid V] (m : Op K P V) (p q : P) :
    m.coef p q = (((m.stored p).filter fun t => decide (t.1 = q)).map Prod.snd).sum := by
  cases m with
  | coo m =>
    unfold Op.coef Op.stored
    dsimp only
    rw [List.filter_map, List.map_map, List.filter_filter]
    congr 2
    apply List.filter_congr
    intro k _
    rw [Bool.eq_iff_iff]
    simp only [Bool.and_eq_true, decide_eq_true_eq, Function.comp]
    exact And.comm
  | csr m =>
    unfold Op.coef Op.stored
    dsimp only
    rw [List.filter_map, List.map_map, List.filter_filter]
    congr 2
    apply List.filter_congr
    intro k _
    rw [Bool.eq_iff_iff]
    simp only [Bool.and_eq_true, decide_eq_true_eq, Function.comp]
    exact And.comm

/-- The operator is the sum of the stored entries. -/
theorem operator_eq_collect [AddCommMonoid V] : pl.operator G = pl.collect id G := by
  funext u u'
  unfold Planner.operator Planner.collect Planner.stored
  generalize pl.ops = rs
  induction rs with
  | nil => rfl
  | cons r rs ih =>
    rw [List.map_cons, List.sum_cons, ih, List.flatMap_cons, List.filter_append, List.map_append, List.sum_append]
    congr 1
    by_cases h1 : r.rng = u.1.1
    · rw [if_pos h1, List.filter_map, List.map_map]
      by_cases h2 : r.dom = u'.1.1
      · rw [if_pos ⟨h1, h2⟩, op_coef_stored]
        congr 2
        apply List.filter_congr
        intro t _
        rw [Bool.eq_iff_iff]
        simp only [decide_eq_true_eq, Function.comp]
        constructor
        · intro h
          exact Sigma.ext h2 (heq_of_eq h)
        · intro h
          exact congrArg (fun v : Σ _ : Nat, P => v.2) h
      · rw [if_neg (fun h => h2 h.2), List.filter_eq_nil_iff.2]
        · rfl
        · intro t _
          simp only [decide_eq_true_eq, Function.comp]
          intro h
          exact h2 (congrArg (fun v : Σ _ : Nat, P => v.1) h)
    · rw [if_neg (fun h => h1 h.1), if_neg h1]
      rfl

end Verif.Planner

namespace Verif.Rounding
open Verif.Runtime Verif.Vector Verif.Matrix Verif.Planner
open scoped _root_.Matrix
variable {K P : Type} [DecidableEq P] [DecidableEq K] {u : ℝ} {A : Arith ℝ}
variable {G : Geometry P} {pl : Planner K P ℝ} {nw : Nat}

/-! ## The planner's product -/

/-- The operator with the absolute values of the stored entries. -/
noncomputable def absOperator (G : Geometry P) (pl : Planner K P ℝ) : _root_.Matrix (pl.U G) (pl.U G) ℝ := pl.collect (fun v => |v|) G

/-- **C59**, the planner's product: the error of an element is at most `(1 + u)^(1 + m) - 1` times the element of `|A| |x|`, `m` the
number of stored entries of the row in all registered matrices. -/
theorem near_matvec (hA : Rounded u A) (R : Ready G pl nw) {d x : Nat} (hd : d < nw + 2) (hx : x < nw + 2) (hne : d ≠ x) (n : Nat)
    (s : Cell P → ℝ) : ∃ s', Runs (pl.matvec A G.toEnv d x) n s () n s' ∧
      ∃ y, BlockSet G pl s s' d y ∧ ∀ v : pl.U G, Near u (1 + (pl.stored v.1.1 v.1.2).length) (y v.1.1 v.1.2)
        ((pl.operator G *ᵥ pl.content G s x) v) ((absOperator G pl *ᵥ vabs (pl.content G s x)) v) := by
  obtain ⟨s', h1, h2⟩ := Runs.pMatvecAny A R hd hx hne n s
  refine ⟨s', h1, _, h2, fun v => ?_⟩
  have h := near_row hA (fun t : (Σ _ : Nat, P) × ℝ => t.2) (fun t => s (.elem (pl.vec x t.1.1).data t.1.2)) A.zero
    (pl.stored v.1.1 v.1.2)
  rw [operator_eq_collect, collect_mulVec id R (pl.content G s x) (fun j q => s (.elem (pl.vec x j).data q)) fun _ => rfl]
  unfold absOperator
  rw [collect_mulVec (fun v => |v|) R (vabs (pl.content G s x)) (fun j q => |s (.elem (pl.vec x j).data q)|) fun _ => rfl]
  rw [hA.zero, abs_zero, zero_add, zero_add] at h
  simp only [abs_mul] at h
  rw [← hA.zero] at h
  exact h

/-! ## The planner's inner product -/

/-- Every block is cut into at most `N` pieces of at most `L` points. -/
def Cut (G : Geometry P) (pl : Planner K P ℝ) (L N : Nat) : Prop := ∀ i, i < pl.spaces.length →
  (G.pieces (pl.parts.getD i 0)).length ≤ N ∧ ∀ l ∈ G.pieces (pl.parts.getD i 0), l.length ≤ L

/-- Sum over block `i`. -/
def blockSum (G : Geometry P) (pl : Planner K P ℝ) (f : Nat → P → ℝ) (i : Nat) : ℝ := ∑ p ∈ (pl.pts G i).toFinset, f i p

theorem near_blockDot (hA : Rounded u A) (R : Ready G pl nw) (hord : ∀ f l, (G.redOrder f l).Perm l) {L N : Nat} (hcut : Cut G pl L N)
    {v w i : Nat} (hv : v < nw + 2) (hw : w < nw + 2) (hi : i < pl.spaces.length) (n : Nat) (s : Cell P → ℝ) :
    ∃ s', Runs (do
      let x ← pl.getVector v i; let y ← pl.getVector w i
      Verif.Vector.dot A G.toEnv x y : M P ℝ Scalar) n s ⟨n⟩ (n + 1) s' ∧
      Near u (1 + L + N) (s' (.fut n)) (Planner.blockDot G pl s v w i)
        (blockSum G pl (fun i p => |s (.elem (pl.vec v i).data p) * s (.elem (pl.vec w i).data p)|) i) ∧
      (∀ d p, s' (.elem d p) = s (.elem d p)) ∧ ∀ f, f ≠ n → s' (.fut f) = s (.fut f) := by
  obtain ⟨a, b, c⟩ := R.compat hv hw hi
  have hpart : (pl.vec v i).part = pl.parts.getD i 0 := (R.lookup hv hi).2.2.1
  refine ⟨_, (Runs.getVector R hv hi n s).bind ((Runs.getVector R hw hi n s).bind
    (Runs.dot A G.toEnv _ _ a b c n s (hord _ _))), ?_, fun _ _ => rfl, fun f hf => ?_⟩
  · rw [setDot_fut, if_pos rfl]
    have hp := R.part hv hi
    have hp' : IsPartition (pl.pts G i).dedup (G.pieces (pl.vec v i).part) := ⟨hp.1, fun p => (hp.2 p).trans List.mem_dedup.symm⟩
    have h := near_dot hA (fun p => s (.elem (pl.vec v i).data p)) (fun p => s (.elem (pl.vec w i).data p)) (pl.pts G i).dedup
      (List.nodup_dedup _) (G.pieces (pl.vec v i).part) hp' _ (hord n (List.range (G.pieces (pl.vec v i).part).length)) L
      (by rw [hpart]; exact (hcut i hi).2)
    refine ⟨?_, ?_⟩
    · have h3 := (h.mono hA.nonneg (show 1 + L + (G.pieces (pl.vec v i).part).length ≤ 1 + L + N by
        rw [hpart]; have := (hcut i hi).1; omega) (le_refl _)).1
      exact h3
    · exact h.2
  · rw [setDot_fut, if_neg hf]

theorem near_dotLoop (hA : Rounded u A) (R : Ready G pl nw) (hord : ∀ f l, (G.redOrder f l).Perm l) {L N : Nat} (hcut : Cut G pl L N)
    {v w : Nat} (hv : v < nw + 2) (hw : w < nw + 2) (l : List Nat) (hl : ∀ i ∈ l, i < pl.spaces.length) :
    ∀ (r : Scalar) (n : Nat) (s : Cell P → ℝ) (c : Nat) (g T : ℝ), r.fut < n → 1 + L + N ≤ c → Near u c (s (.fut r.fut)) g T →
      ∃ a n' s', Runs (pl.dotLoop A G.toEnv v w l r) n s a n' s' ∧
      n ≤ n' ∧ a.fut < n' ∧ (a = r ∨ n ≤ a.fut) ∧
      Near u (c + l.length) (s' (.fut a.fut)) (g + (l.map fun i => Planner.blockDot G pl s v w i).sum)
        (T + (l.map (blockSum G pl fun i p => |s (.elem (pl.vec v i).data p) * s (.elem (pl.vec w i).data p)|)).sum) ∧
      (∀ d p, s' (.elem d p) = s (.elem d p)) ∧ ∀ f, f < n → s' (.fut f) = s (.fut f) := by
  induction l with
  | nil =>
    intro r n s c g T hr _ h
    exact ⟨r, n, s, Runs.pure _ n s, le_refl _, hr, Or.inl rfl, by simpa using h, fun _ _ => rfl, fun _ _ => rfl⟩
  | cons i l ih =>
    intro r n s c g T hr hc hnear
    obtain ⟨s1, h1, h2, h3, h4⟩ := near_blockDot hA R hord hcut hv hw (hl i (List.mem_cons_self ..)) n s
    have hadd := Runs.binary (P := P) A.add r ⟨n⟩ (n + 1) s1
    have hnext := hnear.add hA (h2.mono hA.nonneg hc (le_refl _))
    rw [← h4 r.fut (by omega)] at hnext
    obtain ⟨a, n', s', g1, g2, g3, g4, g5, g6, g7⟩ := ih (fun j hj => hl j (List.mem_cons_of_mem _ hj)) ⟨n + 1⟩ (n + 2)
      (setFut s1 (n + 1) (A.add (s1 (.fut r.fut)) (s1 (.fut n)))) (c + 1) _ _ (show n + 1 < n + 2 by omega) (by omega)
      (by rw [setFut_fut, if_pos rfl]; exact hnext)
    refine ⟨a, n', s', ?_, by omega, g3, Or.inr ?_, ?_, ?_, ?_⟩
    · obtain ⟨ts, e, o, rr⟩ := h1
      obtain ⟨ts', e', o', rr'⟩ := hadd.bind g1
      refine ⟨ts ++ ts', fun out => ?_, ?_, by rw [runTasks_append, rr, rr']⟩
      · have e1 := e out
        have e2 := e' (out ++ ts)
        obtain ⟨ha, hb, hc⟩ := R.lookup hv (hl i (List.mem_cons_self ..))
        have e1' : ((Planner.getVector pl v i) ⟨n, out⟩ >>= fun x => (Planner.getVector pl w i) x.2 >>= fun y =>
          Verif.Vector.dot A G.toEnv x.1 y.1 y.2) = some (⟨n⟩, ⟨n + 1, out ++ ts⟩) := e1
        show ((Planner.getVector pl v i) ⟨n, out⟩ >>= fun x => (Planner.getVector pl w i) x.2 >>= fun y =>
          (Verif.Vector.dot A G.toEnv x.1 y.1 y.2 >>= fun z => _)) = _
        have : ∀ (F : Scalar × Emit P ℝ → Option (Scalar × Emit P ℝ)),
            ((Planner.getVector pl v i) ⟨n, out⟩ >>= fun x => (Planner.getVector pl w i) x.2 >>= fun y =>
              (Verif.Vector.dot A G.toEnv x.1 y.1 y.2 >>= F)) =
            (((Planner.getVector pl v i) ⟨n, out⟩ >>= fun x => (Planner.getVector pl w i) x.2 >>= fun y =>
              Verif.Vector.dot A G.toEnv x.1 y.1 y.2) >>= F) := by
          intro F
          simp only [bind_assoc]
        rw [this, e1']
        rw [List.append_assoc] at e2
        exact e2
      · intro t ht
        rcases List.mem_append.1 ht with h | h
        · exact o t h
        · exact o' t h
    · rcases g4 with rfl | h
      · show n ≤ n + 1; omega
      · omega
    · have e1 : ∀ d p, (setFut s1 (n + 1) (A.add (s1 (.fut r.fut)) (s1 (.fut n)))) (.elem d p) = s (.elem d p) := fun d p => by
        rw [setFut_elem, h3]
      simp only [e1, blockDot_congr e1] at g5
      rw [List.map_cons, List.map_cons, List.sum_cons, List.sum_cons, ← add_assoc, ← add_assoc, List.length_cons,
        show c + (l.length + 1) = c + 1 + l.length by omega]
      exact g5
    · intro d p
      rw [g6, setFut_elem, h3]
    · intro f hf
      rw [g7 f (by omega), setFut_fut, if_neg (by omega), h4 f (by omega)]

theorem sum_blocks (f : Nat → P → ℝ) (hns : 0 < pl.spaces.length) :
    ∑ v : pl.U G, f v.1.1 v.1.2 = blockSum G pl f 0 + ((List.range' 1 (pl.spaces.length - 1)).map (blockSum G pl f)).sum := by
  have e2 := Planner.sum_unknowns G pl f
  rw [e2, Finset.sum_range, ← List.sum_ofFn]
  have e3 : List.ofFn (fun i : Fin pl.spaces.length => ∑ p ∈ (pl.pts G i).toFinset, f i p) =
      (List.range pl.spaces.length).map (blockSum G pl f) := by
    apply List.ext_getElem
    · simp
    · intro i h1 h2
      simp [blockSum]
  rw [e3]
  obtain ⟨m, hm⟩ : ∃ m, pl.spaces.length = m + 1 := ⟨_, (Nat.succ_pred_eq_of_pos hns).symm⟩
  rw [hm, Nat.add_sub_cancel, List.range_eq_range', List.range'_succ, List.map_cons, List.sum_cons]

/-- **C59**, the planner's inner product. -/
theorem near_pDot (hA : Rounded u A) (R : Ready G pl nw) (hord : ∀ f l, (G.redOrder f l).Perm l) {L N : Nat} (hcut : Cut G pl L N)
    (hns : 0 < pl.spaces.length) {v w : Nat} (hv : v < nw + 2) (hw : w < nw + 2) (n : Nat) (s : Cell P → ℝ) :
    ∃ a n' s', Runs (pl.dot A G.toEnv v w) n s a n' s' ∧ n ≤ a.fut ∧ a.fut < n' ∧
      Near u (L + N + pl.spaces.length) (s' (.fut a.fut)) (pl.content G s v ⬝ᵥ pl.content G s w)
        (vabs (pl.content G s v) ⬝ᵥ vabs (pl.content G s w)) ∧
      (∀ d p, s' (.elem d p) = s (.elem d p)) ∧ ∀ f, f < n → s' (.fut f) = s (.fut f) := by
  obtain ⟨s1, h1, h2, h3, h4⟩ := near_blockDot hA R hord hcut hv hw hns n s
  obtain ⟨a, n', s', g1, g2, g3, g4, g5, g6, g7⟩ := near_dotLoop hA R hord hcut hv hw (List.range' 1 (pl.spaces.length - 1))
    (by intro i hi; have := List.mem_range'_1.1 hi; omega) ⟨n⟩ (n + 1) s1 _ _ _ (show n < n + 1 by omega) (le_refl _) h2
  refine ⟨a, n', s', ?_, ?_, g3, ?_, ?_, ?_⟩
  · refine (Runs.numSpaces R n s).bind ?_
    obtain ⟨ts, e, o, rr⟩ := h1
    obtain ⟨ts', e', o', rr'⟩ := g1
    refine ⟨ts ++ ts', fun out => ?_, ?_, by rw [runTasks_append, rr, rr']⟩
    · have e1' : ((Planner.getVector pl v 0) ⟨n, out⟩ >>= fun x => (Planner.getVector pl w 0) x.2 >>= fun y =>
          Verif.Vector.dot A G.toEnv x.1 y.1 y.2) = some (⟨n⟩, ⟨n + 1, out ++ ts⟩) := e out
      show ((Planner.getVector pl v 0) ⟨n, out⟩ >>= fun x => (Planner.getVector pl w 0) x.2 >>= fun y =>
          (Verif.Vector.dot A G.toEnv x.1 y.1 y.2 >>= fun z => _)) = _
      have : ∀ (F : Scalar × Emit P ℝ → Option (Scalar × Emit P ℝ)),
            ((Planner.getVector pl v 0) ⟨n, out⟩ >>= fun x => (Planner.getVector pl w 0) x.2 >>= fun y =>
              (Verif.Vector.dot A G.toEnv x.1 y.1 y.2 >>= F)) =
            (((Planner.getVector pl v 0) ⟨n, out⟩ >>= fun x => (Planner.getVector pl w 0) x.2 >>= fun y =>
              Verif.Vector.dot A G.toEnv x.1 y.1 y.2) >>= F) := by
          intro F
          simp only [bind_assoc]
      rw [this, e1', ← List.append_assoc]
      exact e' (out ++ ts)
    · intro t ht
      rcases List.mem_append.1 ht with h | h
      · exact o t h
      · exact o' t h
  · rcases g4 with rfl | h
    · show n ≤ n; omega
    · omega
  · simp only [blockDot_congr h3, h3] at g5
    have e1 : pl.content G s v ⬝ᵥ pl.content G s w = _ :=
      sum_blocks (G := G) (pl := pl) (fun i p => s (.elem (pl.vec v i).data p) * s (.elem (pl.vec w i).data p)) hns
    have e2 : vabs (pl.content G s v) ⬝ᵥ vabs (pl.content G s w) =
        ∑ x : pl.U G, |s (.elem (pl.vec v x.1.1).data x.1.2) * s (.elem (pl.vec w x.1.1).data x.1.2)| :=
      Finset.sum_congr rfl fun x _ => (abs_mul _ _).symm
    rw [e1, e2, sum_blocks (fun i p => |s (.elem (pl.vec v i).data p) * s (.elem (pl.vec w i).data p)|) hns]
    refine Near.mono hA.nonneg g5 ?_ (le_refl _)
    rw [List.length_range']
    omega
  · intro d p; rw [g6, h3]
  · intro f hf; rw [g7 f (by omega), h4 f (by omega)]

/-! ## C59 -/

/-- **C59**, the planner's product over all blocks and all registered matrices: the error of an element is at most
`(1 + u)^(1 + m) - 1` times the element of `|A| |x|`, `m` the number of stored entries of the row. -/
theorem c59_planner_matvec (hA : Rounded u A) (R : Ready G pl nw) {d x : Nat} (hd : d < nw + 2) (hx : x < nw + 2) (hne : d ≠ x) (n : Nat)
    (s : Cell P → ℝ) : Ensures (pl.matvec A G.toEnv d x) n s fun _ s' => ∀ v : pl.U G,
      |pl.content G s' d v - (pl.operator G *ᵥ pl.content G s x) v| ≤
        ((1 + u) ^ (1 + (pl.stored v.1.1 v.1.2).length) - 1) * (absOperator G pl *ᵥ vabs (pl.content G s x)) v := by
  obtain ⟨s', h1, y, h2, h3⟩ := near_matvec hA R hd hx hne n s
  refine h1.ensures fun v => ?_
  have hv := Planner.mem_unknowns v
  rw [show pl.content G s' d v = y v.1.1 v.1.2 from h2.1 _ hv.1 _ hv.2]
  exact (h3 v).1

/-- **C59**, the planner's inner product over all blocks, each cut into at most `N` pieces of at most `L` points. -/
theorem c59_planner_dot (hA : Rounded u A) (R : Ready G pl nw) (hord : ∀ f l, (G.redOrder f l).Perm l) {L N : Nat} (hcut : Cut G pl L N)
    (hns : 0 < pl.spaces.length) {v w : Nat} (hv : v < nw + 2) (hw : w < nw + 2) (n : Nat) (s : Cell P → ℝ) :
    Ensures (pl.dot A G.toEnv v w) n s fun a s' =>
      |s' (.fut a.fut) - pl.content G s v ⬝ᵥ pl.content G s w| ≤
        ((1 + u) ^ (L + N + pl.spaces.length) - 1) * (vabs (pl.content G s v) ⬝ᵥ vabs (pl.content G s w)) := by
  obtain ⟨a, n', s', h1, h2, h3, h4, h5, h6⟩ := near_pDot hA R hord hcut hns hv hw n s
  exact h1.ensures h4.1

end Verif.Rounding
