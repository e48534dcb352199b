import Verif.Planner.Lemmas
import Mathlib.Algebra.BigOperators.Fin

/-! Inner product and matrix-vector product of planner vectors, in exact arithmetic. -/
set_option linter.dupNamespace false
set_option linter.unusedSectionVars false
namespace Verif.Planner
open Verif.Runtime Verif.Vector Verif.Matrix
variable {K P V : Type} [DecidableEq P] [DecidableEq K]
variable {G : Geometry P} {pl : Planner K P V} {nw : Nat}

/-! ## Inner product -/

/-- Contribution of block `i`. -/
def blockDot [Field V] (G : Geometry P) (pl : Planner K P V) (s : Cell P → V) (v w i : Nat) : V :=
  ∑ p ∈ (pl.pts G i).toFinset, s (.elem (pl.vec v i).data p) * s (.elem (pl.vec w i).data p)

theorem blockDot_congr [Field V] {s s' : Cell P → V} (h : ∀ d p, s' (.elem d p) = s (.elem d p)) (v w i : Nat) :
    blockDot G pl s' v w i = blockDot G pl s v w i := by
  unfold blockDot
  simp only [h]

theorem Runs.blockDot [Field V] {A : Arith V} (hA : A.Exact) (R : Ready G pl nw) (hord : ∀ f l, (G.redOrder f l).Perm l)
    {v w i : Nat} (hv : v < nw + 2) (hw : w < nw + 2) (hi : i < pl.spaces.length) (n : Nat) (s : Cell P → V) :
    ∃ s', Runs (do
      let x ← pl.getVector v i; let y ← pl.getVector w i
      Verif.Vector.dot A G.toEnv x y : M P V Scalar) n s ⟨n⟩ (n + 1) s' ∧
      s' (.fut n) = blockDot G pl s v w i ∧ (∀ d p, s' (.elem d p) = s (.elem d p)) ∧
      ∀ f, f ≠ n → s' (.fut f) = s (.fut f) := by
  obtain ⟨a, b, c⟩ := R.compat hv hw hi
  refine ⟨_, (Runs.getVector R hv hi n s).bind ((Runs.getVector R hw hi n s).bind
    (Runs.dot A G.toEnv _ _ a b c n s (hord _ _))), ?_, fun _ _ => rfl, fun f hf => ?_⟩
  · rw [setDot_fut, if_pos rfl, dotValue_finset hA _ _ _ _ (R.part hv hi) _ (hord _ _)]
    rfl
  · rw [setDot_fut, if_neg hf]

theorem Runs.dotLoop [Field V] {A : Arith V} (hA : A.Exact) (R : Ready G pl nw) (hord : ∀ f l, (G.redOrder f l).Perm l)
    {v w : Nat} (hv : v < nw + 2) (hw : w < nw + 2) (l : List Nat) (hl : ∀ i ∈ l, i < pl.spaces.length) :
    ∀ (r : Scalar) (n : Nat) (s : Cell P → V), r.fut < n → ∃ a n' s', Runs (pl.dotLoop A G.toEnv v w l r) n s a n' s' ∧
      n ≤ n' ∧ a.fut < n' ∧ (a = r ∨ n ≤ a.fut) ∧
      s' (.fut a.fut) = s (.fut r.fut) + (l.map fun i => Planner.blockDot G pl s v w i).sum ∧
      (∀ d p, s' (.elem d p) = s (.elem d p)) ∧ ∀ f, f < n → s' (.fut f) = s (.fut f) := by
  induction l with
  | nil =>
    intro r n s hr
    exact ⟨r, n, s, Runs.pure _ n s, le_refl _, hr, Or.inl rfl, by simp, fun _ _ => rfl, fun _ _ => rfl⟩
  | cons i l ih =>
    intro r n s hr
    obtain ⟨s1, h1, h2, h3, h4⟩ := Runs.blockDot hA R hord hv hw (hl i (List.mem_cons_self ..)) n s
    have hadd := Runs.binary (P := P) A.add r ⟨n⟩ (n + 1) s1
    obtain ⟨a, n', s', g1, g2, g3, g4, g5, g6, g7⟩ := ih (fun j hj => hl j (List.mem_cons_of_mem _ hj)) ⟨n + 1⟩ (n + 2)
      (setFut s1 (n + 1) (A.add (s1 (.fut r.fut)) (s1 (.fut n)))) (show n + 1 < n + 2 by omega)
    refine ⟨a, n', s', ?_, by omega, g3, Or.inr ?_, ?_, ?_, ?_⟩
    · obtain ⟨ts, e, o, rr⟩ := h1
      obtain ⟨ts', e', o', rr'⟩ := hadd.bind g1
      refine ⟨ts ++ ts', fun out => ?_, ?_, by rw [runTasks_append, rr, rr']⟩
      · have e1 := e out
        have e2 := e' (out ++ ts)
        obtain ⟨ha, hb, hc⟩ := R.lookup hv (hl i (List.mem_cons_self ..))
        have e1' : ((Planner.getVector pl v i) ⟨n, out⟩ >>= fun x => (Planner.getVector pl w i) x.2 >>= fun y =>
          Verif.Vector.dot A G.toEnv x.1 y.1 y.2) = some (⟨n⟩, ⟨n + 1, out ++ ts⟩) := e1
        show ((Planner.getVector pl v i) ⟨n, out⟩ >>= fun x => (Planner.getVector pl w i) x.2 >>= fun y =>
          (Verif.Vector.dot A G.toEnv x.1 y.1 y.2 >>= fun z => _)) = _
        have : ∀ (F : Scalar × Emit P V → Option (Scalar × Emit P V)),
            ((Planner.getVector pl v i) ⟨n, out⟩ >>= fun x => (Planner.getVector pl w i) x.2 >>= fun y =>
              (Verif.Vector.dot A G.toEnv x.1 y.1 y.2 >>= F)) =
            (((Planner.getVector pl v i) ⟨n, out⟩ >>= fun x => (Planner.getVector pl w i) x.2 >>= fun y =>
              Verif.Vector.dot A G.toEnv x.1 y.1 y.2) >>= F) := by
          intro F
          simp only [bind_assoc]
        rw [this, e1']
        rw [List.append_assoc] at e2
        exact e2
      · intro t ht
        rcases List.mem_append.1 ht with h | h
        · exact o t h
        · exact o' t h
    · rcases g4 with rfl | h
      · show n ≤ n + 1; omega
      · omega
    · rw [g5, setFut_fut, if_pos rfl, h2, hA.add, List.map_cons, List.sum_cons, h4 r.fut (by omega), add_assoc]
      congr 2; apply congrArg List.sum
      apply List.map_congr_left
      intro j _
      apply blockDot_congr
      intro d p
      rw [setFut_elem, h3]
    · intro d p
      rw [g6, setFut_elem, h3]
    · intro f hf
      rw [g7 f (by omega), setFut_fut, if_neg (by omega), h4 f (by omega)]

/-- `dot` over all blocks. -/
theorem Runs.pDot [Field V] {A : Arith V} (hA : A.Exact) (R : Ready G pl nw) (hord : ∀ f l, (G.redOrder f l).Perm l)
    (hns : 0 < pl.spaces.length) {v w : Nat} (hv : v < nw + 2) (hw : w < nw + 2) (n : Nat) (s : Cell P → V) :
    ∃ a n' s', Runs (pl.dot A G.toEnv v w) n s a n' s' ∧ n ≤ a.fut ∧ a.fut < n' ∧
      s' (.fut a.fut) = ∑ u : pl.U G, pl.content G s v u * pl.content G s w u ∧
      (∀ d p, s' (.elem d p) = s (.elem d p)) ∧ ∀ f, f < n → s' (.fut f) = s (.fut f) := by
  obtain ⟨s1, h1, h2, h3, h4⟩ := Runs.blockDot hA R hord hv hw hns n s
  obtain ⟨a, n', s', g1, g2, g3, g4, g5, g6, g7⟩ := Runs.dotLoop hA R hord hv hw (List.range' 1 (pl.spaces.length - 1))
    (by intro i hi; have := List.mem_range'_1.1 hi; omega) ⟨n⟩ (n + 1) s1 (show n < n + 1 by omega)
  refine ⟨a, n', s', ?_, ?_, g3, ?_, ?_, ?_⟩
  · refine (Runs.numSpaces R n s).bind ?_
    obtain ⟨ts, e, o, rr⟩ := h1
    obtain ⟨ts', e', o', rr'⟩ := g1
    refine ⟨ts ++ ts', fun out => ?_, ?_, by rw [runTasks_append, rr, rr']⟩
    · have e1' : ((Planner.getVector pl v 0) ⟨n, out⟩ >>= fun x => (Planner.getVector pl w 0) x.2 >>= fun y =>
          Verif.Vector.dot A G.toEnv x.1 y.1 y.2) = some (⟨n⟩, ⟨n + 1, out ++ ts⟩) := e out
      show ((Planner.getVector pl v 0) ⟨n, out⟩ >>= fun x => (Planner.getVector pl w 0) x.2 >>= fun y =>
          (Verif.Vector.dot A G.toEnv x.1 y.1 y.2 >>= fun z => _)) = _
      have : ∀ (F : Scalar × Emit P V → Option (Scalar × Emit P V)),
            ((Planner.getVector pl v 0) ⟨n, out⟩ >>= fun x => (Planner.getVector pl w 0) x.2 >>= fun y =>
              (Verif.Vector.dot A G.toEnv x.1 y.1 y.2 >>= F)) =
            (((Planner.getVector pl v 0) ⟨n, out⟩ >>= fun x => (Planner.getVector pl w 0) x.2 >>= fun y =>
              Verif.Vector.dot A G.toEnv x.1 y.1 y.2) >>= F) := by
          intro F
          simp only [bind_assoc]
      rw [this, e1', ← List.append_assoc]
      exact e' (out ++ ts)
    · intro t ht
      rcases List.mem_append.1 ht with h | h
      · exact o t h
      · exact o' t h
  · rcases g4 with rfl | h
    · show n ≤ n; omega
    · omega
  · rw [g5]
    show s1 (.fut n) + _ = _
    rw [h2]
    have e1 : (fun i => Planner.blockDot G pl s1 v w i) = fun i => Planner.blockDot G pl s v w i :=
      funext fun i => blockDot_congr h3 v w i
    rw [e1]
    have e2 := Planner.sum_unknowns G pl (fun i p => s (.elem (pl.vec v i).data p) * s (.elem (pl.vec w i).data p))
    unfold Planner.content
    rw [e2, Finset.sum_range, ← List.sum_ofFn]
    have e3 : List.ofFn (fun i : Fin pl.spaces.length => ∑ p ∈ (pl.pts G i).toFinset,
        s (.elem (pl.vec v i).data p) * s (.elem (pl.vec w i).data p)) =
        (List.range pl.spaces.length).map fun i => Planner.blockDot G pl s v w i := by
      apply List.ext_getElem
      · simp
      · intro i h1 h2
        simp [Planner.blockDot]
    rw [e3]
    obtain ⟨m, hm⟩ : ∃ m, pl.spaces.length = m + 1 := ⟨_, (Nat.succ_pred_eq_of_pos hns).symm⟩
    rw [hm, Nat.add_sub_cancel, List.range_eq_range', List.range'_succ, List.map_cons, List.sum_cons]
  · intro d p; rw [g6, h3]
  · intro f hf; rw [g7 f (by omega), h4 f (by omega)]

/-! ## Matrix-vector product -/

/-- Group the entries of a row by column. -/
theorem sum_by_column [Field V] {K : Type} (L : List K) (col : K → P) (e : K → V) (x : P → V) (F : Finset P)
    (h : ∀ k ∈ L, col k ∈ F) :
    (L.map fun k => e k * x (col k)).sum = ∑ q ∈ F, ((L.filter fun k => decide (col k = q)).map e).sum * x q := by
  induction L with
  | nil => simp
  | cons k L ih =>
    rw [List.map_cons, List.sum_cons, ih (fun k hk => h k (List.mem_cons_of_mem _ hk))]
    have : ∀ q, (((k :: L).filter fun k => decide (col k = q)).map e).sum * x q =
        (if q = col k then e k * x q else 0) + ((L.filter fun k => decide (col k = q)).map e).sum * x q := by
      intro q
      by_cases hq : col k = q
      · rw [List.filter_cons_of_pos (by simpa using hq), List.map_cons, List.sum_cons, if_pos hq.symm, add_mul]
      · rw [List.filter_cons_of_neg (by simpa using hq), if_neg (fun e => hq e.symm), zero_add]
    rw [Finset.sum_congr rfl (fun q _ => this q), Finset.sum_add_distrib, Finset.sum_ite_eq' F (col k),
      if_pos (h k (List.mem_cons_self ..))]

/-- One registered matrix applied. -/
theorem Runs.opMatvec [Field V] {A : Arith V} (hA : A.Exact) (m : Op K P V) (dst src : Vec) (hne : src.data ≠ dst.data)
    (rspace dspace : List P) (hp : IsPartition rspace (G.pieces dst.part)) (hfit : m.Fits rspace dspace) (n : Nat)
    (s : Cell P → V) :
    Runs (m.matvec A G.toEnv dst src (m.kernelFromRange (G.pieces dst.part))
      (m.domainFromKernel dspace (m.kernelFromRange (G.pieces dst.part)))) n s () n
      (setVec s dst rspace fun p => s (.elem dst.data p) + ∑ q ∈ dspace.toFinset, m.coef p q * s (.elem src.data q)) := by
  cases m with
  | coo m =>
    refine (Runs.cooMatvec A G.toEnv m dst src hne rspace dspace hp hfit n s).cast ?_
    refine setVec_congr s dst _ _ (fun _ => Iff.rfl) (fun p _ => ?_)
    rw [accList_exact hA, List.map_map]
    congr 1
    refine (sum_by_column (m.kernel.filter fun k => decide (m.row k = p)) m.col m.entry
      (fun q => s (.elem src.data q)) dspace.toFinset
      (fun k hk => List.mem_toFinset.2 (hfit k (List.mem_filter.1 hk).1))).trans ?_
    apply Finset.sum_congr rfl
    intro q _
    rw [List.filter_filter]
    congr 3
    apply List.filter_congr
    intro k _
    rw [Bool.eq_iff_iff]
    simp only [Bool.and_eq_true, decide_eq_true_eq]
    exact And.comm
  | csr m =>
    obtain ⟨h1, h2, h3⟩ := hfit
    have hp' : IsPartition m.rows (G.pieces dst.part) := ⟨hp.1, fun p => (hp.2 p).trans (h2 p).symm⟩
    refine (Runs.csrMatvec A G.toEnv m h3 dst src hne dspace hp' h1 n s).cast ?_
    refine setVec_congr s dst _ _ h2 (fun p _ => ?_)
    rw [accList_exact hA, List.map_map]
    congr 1
    refine (sum_by_column (m.kernel.filter fun k => m.range p k) m.col m.entry (fun q => s (.elem src.data q))
      dspace.toFinset (fun k hk => List.mem_toFinset.2 (h1 k (List.mem_filter.1 hk).1))).trans ?_
    apply Finset.sum_congr rfl
    intro q _
    rw [List.filter_filter]
    congr 3
    apply List.filter_congr
    intro k _
    rw [Bool.eq_iff_iff]
    simp only [Bool.and_eq_true, decide_eq_true_eq]
    exact And.comm

/-- What the matrices `rs` add to block `i`, point `p`. -/
def applied [Field V] (G : Geometry P) (pl : Planner K P V) (x : Nat → P → V) (rs : List (Registered K P V)) (i : Nat)
    (p : P) : V :=
  (rs.map fun r => if r.rng = i then ∑ q ∈ (pl.pts G r.dom).toFinset, r.matrix.coef p q * x r.dom q else 0).sum

theorem Runs.opsLoop [Field V] {A : Arith V} (hA : A.Exact) (R : Ready G pl nw) {d x : Nat} (hd : d < nw + 2)
    (hx : x < nw + 2) (hne : d ≠ x) (rs : List (Registered K P V)) (hrs : ∀ r ∈ rs, r ∈ pl.ops) :
    ∀ (n : Nat) (s : Cell P → V), ∃ s', Runs (loop rs fun r => do
      let y ← pl.getVector d r.rng; let x ← pl.getVector x r.dom
      r.matrix.matvec A G.toEnv y x r.kernel r.ghost : M P V Unit) n s () n s' ∧
      BlockSet G pl s s' d fun i p => s (.elem (pl.vec d i).data p) +
        applied G pl (fun j q => s (.elem (pl.vec x j).data q)) rs i p := by
  induction rs with
  | nil =>
    intro n s
    exact ⟨s, Runs.pure _ n s, fun i _ p _ => by simp [applied], fun _ _ => rfl⟩
  | cons r rs ih =>
    intro n s
    obtain ⟨h1, h2, h3, h4, h5⟩ := R.ops r (hrs r (List.mem_cons_self ..))
    have hsrc : (pl.vec x r.dom).data ≠ (pl.vec d r.rng).data := fun e =>
      hne ((R.distinct x r.dom d r.rng hx h1 hd h2 e).1).symm
    have hp := R.part hd h2
    have hpart : (pl.vec d r.rng).part = pl.parts.getD r.rng 0 := (R.lookup hd h2).2.2.1
    have hrun := Runs.opMatvec (G := G) hA r.matrix (pl.vec d r.rng) (pl.vec x r.dom) hsrc _ _ hp h5 n s
    rw [hpart, ← h3, ← h4] at hrun
    obtain ⟨s', g1, g2, g3⟩ := ih (fun r hr => hrs r (List.mem_cons_of_mem _ hr)) n
      (setVec s (pl.vec d r.rng) (pl.pts G r.rng) fun p => s (.elem (pl.vec d r.rng).data p) +
        ∑ q ∈ (pl.pts G r.dom).toFinset, r.matrix.coef p q * s (.elem (pl.vec x r.dom).data q))
    refine ⟨s', ((Runs.getVector R hd h2 n s).bind ((Runs.getVector R hx h1 n s).bind hrun)).bind g1, ?_, ?_⟩
    · intro i hi p hp
      have hsrc' : ∀ j, j < pl.spaces.length → ∀ q, setVec s (pl.vec d r.rng) (pl.pts G r.rng) (fun p =>
          s (.elem (pl.vec d r.rng).data p) + ∑ q ∈ (pl.pts G r.dom).toFinset, r.matrix.coef p q *
            s (.elem (pl.vec x r.dom).data q)) (.elem (pl.vec x j).data q) = s (.elem (pl.vec x j).data q) := by
        intro j hj q
        rw [setVec_elem, if_neg]
        rintro ⟨e, -⟩
        exact hne ((R.distinct x j d r.rng hx hj hd h2 e).1).symm
      rw [g2 i hi p hp]
      beta_reduce
      have happ : applied G pl (fun j q => setVec s (pl.vec d r.rng) (pl.pts G r.rng) (fun p =>
          s (.elem (pl.vec d r.rng).data p) + ∑ q ∈ (pl.pts G r.dom).toFinset, r.matrix.coef p q *
            s (.elem (pl.vec x r.dom).data q)) (.elem (pl.vec x j).data q)) rs i p =
          applied G pl (fun j q => s (.elem (pl.vec x j).data q)) rs i p := by
        unfold applied
        congr 1
        apply List.map_congr_left
        intro r' hr'
        have := (R.ops r' (hrs r' (List.mem_cons_of_mem _ hr'))).1
        simp only [hsrc' r'.dom this]
      rw [happ]
      unfold applied
      rw [List.map_cons, List.sum_cons, setVec_elem, ← add_assoc]
      congr 1
      by_cases hri : r.rng = i
      · subst hri
        rw [if_pos ⟨rfl, hp⟩, if_pos rfl]
      · rw [if_neg, if_neg hri, add_zero]
        rintro ⟨e, -⟩
        exact hri ((R.distinct d i d r.rng hd hi hd h2 e).2).symm
    · intro c hc
      rw [g3 c hc]
      cases c with
      | elem e p =>
        rw [setVec_elem, if_neg]
        rintro ⟨rfl, hp⟩
        exact hc r.rng h2 p hp rfl
      | _ => rfl

theorem operator_mulVec [Field V] (R : Ready G pl nw) (x : Nat → P → V) (u : pl.U G) :
    (pl.operator G).mulVec (fun u' => x u'.1.1 u'.1.2) u = applied G pl x pl.ops u.1.1 u.1.2 := by
  have gen : ∀ rs : List (Registered K P V), (∀ r ∈ rs, r.dom < pl.spaces.length) →
      ∑ u' : pl.U G, (rs.map fun r => if r.rng = u.1.1 ∧ r.dom = u'.1.1 then r.matrix.coef u.1.2 u'.1.2 else 0).sum *
        x u'.1.1 u'.1.2 = applied G pl x rs u.1.1 u.1.2 := by
    intro rs
    induction rs with
    | nil => intro _; simp [applied]
    | cons r rs ih =>
      intro h
      simp only [List.map_cons, List.sum_cons, add_mul]
      rw [Finset.sum_add_distrib, ih (fun r hr => h r (List.mem_cons_of_mem _ hr))]
      unfold applied
      rw [List.map_cons, List.sum_cons]
      congr 1
      rw [Planner.sum_unknowns G pl (fun j q => (if r.rng = u.1.1 ∧ r.dom = j then r.matrix.coef u.1.2 q else 0) * x j q)]
      by_cases hr : r.rng = u.1.1
      · rw [if_pos hr]
        rw [Finset.sum_eq_single r.dom]
        · simp [hr]
        · intro j _ hj
          apply Finset.sum_eq_zero
          intro q _
          rw [if_neg (fun hh => hj hh.2.symm), zero_mul]
        · intro hh
          exact absurd (Finset.mem_range.2 (h r (List.mem_cons_self ..))) hh
      · simp [hr]
  exact gen pl.ops (fun r hr => (R.ops r hr).1)

/-- The planner's product. -/
theorem Runs.pMatvec [Field V] {A : Arith V} (hA : A.Exact) (R : Ready G pl nw) {d x : Nat} (hd : d < nw + 2)
    (hx : x < nw + 2) (hne : d ≠ x) (n : Nat) (s : Cell P → V) :
    ∃ s', Runs (pl.matvec A G.toEnv d x) n s () n s' ∧
      BlockSet G pl s s' d fun i p => applied G pl (fun j q => s (.elem (pl.vec x j).data q)) pl.ops i p := by
  obtain ⟨s1, h1, h2, h3⟩ := Runs.pZeroFill R A hd n s
  obtain ⟨s', g1, g2, g3⟩ := Runs.opsLoop hA R hd hx hne pl.ops (fun r hr => hr) n s1
  refine ⟨s', h1.bind g1, ?_, fun c hc => by rw [g3 c hc, h3 c hc]⟩
  intro i hi p hp
  rw [g2 i hi p hp]
  beta_reduce
  rw [h2 i hi p hp, hA.zero, zero_add]
  unfold applied
  congr 1
  apply List.map_congr_left
  intro r hr
  have hdom := (R.ops r hr).1
  have : ∀ q, s1 (.elem (pl.vec x r.dom).data q) = s (.elem (pl.vec x r.dom).data q) := by
    intro q
    apply h3
    intro j hj q' _ e
    injection e with e _
    exact hne ((R.distinct x r.dom d j hx hdom hd hj e).1).symm
  simp only [this]

end Verif.Planner
