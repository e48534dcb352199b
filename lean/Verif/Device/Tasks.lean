import Verif.Device.Sim
import Verif.Gpu.Props
import Verif.Blas.Props
import Verif.Matrix.Props

/-! # The GPU variant of each task does what the CPU variant does -/
set_option linter.dupNamespace false
set_option linter.unusedSectionVars false
namespace Verif.Device
open Verif.Runtime Verif.Vector Verif.Matrix Verif.Planner Verif.Solver

variable {V : Type}

/-! ## Intervals -/

theorem Interval.dense {pts : List Int} (h : Interval pts) : dense pts = true := by
  obtain ⟨lo, n, rfl⟩ := h
  unfold Verif.Device.dense
  rw [decide_eq_true_iff, List.length_map, List.length_range]
  cases n with
  | zero => rfl
  | succ n =>
    have : ((List.range (n + 1)).map fun (j : Nat) => lo + (j : Int)).headD 0 = lo := by
      rw [List.range_succ_eq_map]; simp
    rw [this]

theorem dense_eq {pts : List Int} (h : dense pts = true) :
    pts = (List.range pts.length).map fun (j : Nat) => pts.headD 0 + (j : Int) := of_decide_eq_true h

theorem dense_nodup {pts : List Int} (h : dense pts = true) : pts.Nodup := by
  rw [dense_eq h]
  refine List.Nodup.map_on ?_ List.nodup_range
  intro a _ b _ hab
  omega

theorem dense_mem {pts : List Int} (h : dense pts = true) (p : Int) :
    p ∈ pts ↔ pts.headD 0 ≤ p ∧ p < pts.headD 0 + pts.length := by
  conv_lhs => rw [dense_eq h]
  rw [List.mem_map]
  constructor
  · rintro ⟨j, hj, rfl⟩
    have := List.mem_range.1 hj
    omega
  · rintro ⟨h1, h2⟩
    exact ⟨(p - pts.headD 0).toNat, List.mem_range.2 (by omega), by omega⟩

theorem blasElems_eq {pts : List Int} (h : dense pts = true) (hlt : pts.length < 2 ^ 31) : blasElems pts = pts := by
  unfold blasElems
  rw [Verif.Blas.intArg_fits hlt, Int.toNat_natCast, ← dense_eq h]

/-! ## Element-wise tasks -/

theorem honest_of_subset {t : Task (Cell Int) V} (h : t.Honest) (b : List (Update (Cell Int) V)) (hb : ∀ u ∈ b, u ∈ t.body) :
    ({ t with body := b } : Task (Cell Int) V).Honest := fun u hu => h u (hb u hu)

theorem elem_ne {p q : Int} (h : p ≠ q) {d e : Nat} : ¬ Cell.elem d q = Cell.elem e p := fun h' => h (by injection h' with _ h'; exact h'.symm)

/-- The order of an element-wise loop does not matter. -/
theorem run_perm (v : Vec) (g : Int → (Cell Int → V) → V) {l l' : List Int} (hl : l.Nodup) (hl' : l'.Nodup)
    (h : ∀ p, p ∈ l ↔ p ∈ l')
    (hind : ∀ p q, p ≠ q → ∀ s : Cell Int → V, ∀ a, g q (fun c => if c = .elem v.data p then a else s c) = g q s)
    (s : Cell Int → V) :
    runUpdates s (l.map fun p => ⟨.elem v.data p, g p⟩) = runUpdates s (l'.map fun p => ⟨.elem v.data p, g p⟩) := by
  rw [run_piece v g l s hl hind, run_piece v g l' s hl' hind]
  exact setVec_congr s v _ _ h fun _ _ => rfl

theorem scalGpu_ok (A : Arith V) (x : Vec) (futs : List Nat) {pts : List Int} (hi : Interval pts) (hlt : pts.length < 2 ^ 31)
    {g : Gpu} (hg : g.Ok) : ∃ c, scalGpu A x futs pts g = some c ∧ c.Honest ∧
      ∀ s, runUpdates s c.body = runUpdates s (scalTask A x futs pts).body := by
  have hd := hi.dense
  refine ⟨_, if_pos hd, ?_, ?_⟩
  · refine honest_of_subset (scalTask_honest A x futs pts) _ ?_
    split
    · simp
    · intro u hu
      obtain ⟨p, hp, rfl⟩ := List.mem_map.1 hu
      rw [blasElems_eq hd hlt] at hp
      exact List.mem_map.2 ⟨p, (hg.elems _).mem_iff.1 hp, rfl⟩
  · intro s
    show runUpdates s (if pts = [] then [] else _) = _
    split
    · next h => subst h; rfl
    · rw [blasElems_eq hd hlt]
      refine run_perm x (fun p s => A.mul (alphaOf A futs s) (s (.elem x.data p)))
        ((hg.elems pts).nodup_iff.2 (dense_nodup hd)) (dense_nodup hd) (fun p => (hg.elems pts).mem_iff) ?_ s
      intro p q hne s a
      simp only []
      rw [alphaOf_upd, if_neg (elem_ne hne)]

theorem axpyGpu_ok (A : Arith V) (y x : Vec) (futs : List Nat) {pts : List Int} (hi : Interval pts) (hlt : pts.length < 2 ^ 31)
    {g : Gpu} (hg : g.Ok) : ∃ c, axpyGpu A y x futs pts g = some c ∧ c.Honest ∧
      ∀ s, runUpdates s c.body = runUpdates s (axpyTask A y x futs pts).body := by
  have hd := hi.dense
  refine ⟨_, if_pos hd, ?_, ?_⟩
  · refine honest_of_subset (axpyTask_honest A y x futs pts) _ ?_
    split
    · simp
    · intro u hu
      obtain ⟨p, hp, rfl⟩ := List.mem_map.1 hu
      rw [blasElems_eq hd hlt] at hp
      exact List.mem_map.2 ⟨p, (hg.elems _).mem_iff.1 hp, rfl⟩
  · intro s
    show runUpdates s (if pts = [] then [] else _) = _
    split
    · next h => subst h; rfl
    · rw [blasElems_eq hd hlt]
      refine run_perm y (fun p s => A.fma (alphaOf A futs s) (s (.elem x.data p)) (s (.elem y.data p)))
        ((hg.elems pts).nodup_iff.2 (dense_nodup hd)) (dense_nodup hd) (fun p => (hg.elems pts).mem_iff) ?_ s
      intro p q hne s a
      simp only []
      rw [alphaOf_upd, if_neg (elem_ne hne), if_neg (elem_ne hne)]

theorem xpayGpu_ok (A : Arith V) (y x : Vec) (futs : List Nat) {pts : List Int} (hi : Interval pts)
    {g : Gpu} (hg : g.Ok) : ∃ c, xpayGpu A y x futs pts g = some c ∧ c.Honest ∧
      ∀ s, runUpdates s c.body = runUpdates s (xpayTask A y x futs pts).body := by
  have hd := hi.dense
  let f : Nat × Nat → Option Int := fun t =>
    if Verif.Gpu.globalTid t ≥ pts.length then none
    else some (Verif.Gpu.unflatten0 (Verif.Gpu.globalTid t) (pts.headD 0))
  let L : List Int := (g.threads (Verif.Gpu.launchGrid pts.length)).filterMap f
  have hbody : ((g.threads (Verif.Gpu.launchGrid pts.length)).filterMap fun t =>
      if Verif.Gpu.globalTid t ≥ pts.length then (none : Option (Update (Cell Int) V))
      else some ⟨.elem y.data (Verif.Gpu.unflatten0 (Verif.Gpu.globalTid t) (pts.headD 0)), fun s =>
        A.fma (alphaOf A futs s) (s (.elem y.data (Verif.Gpu.unflatten0 (Verif.Gpu.globalTid t) (pts.headD 0))))
          (s (.elem x.data (Verif.Gpu.unflatten0 (Verif.Gpu.globalTid t) (pts.headD 0))))⟩) =
      L.map fun p => ⟨.elem y.data p, fun s => A.fma (alphaOf A futs s) (s (.elem y.data p)) (s (.elem x.data p))⟩ := by
    rw [List.map_filterMap]
    congr 1
    funext t
    simp only [f]
    split <;> rfl
  have hmem : ∀ p, p ∈ L ↔ p ∈ pts := by
    intro p
    rw [dense_mem hd, List.mem_filterMap]
    constructor
    · rintro ⟨t, -, ht⟩
      simp only [f] at ht
      split at ht
      · cases ht
      · injection ht with ht
        unfold Verif.Gpu.unflatten0 at ht
        omega
    · rintro ⟨h1, h2⟩
      obtain ⟨t, ht, htid, -⟩ := Verif.Gpu.c14_grid_covers pts.length (p - pts.headD 0).toNat (by omega)
      refine ⟨t, (hg.threads _).mem_iff.2 ht, ?_⟩
      simp only [f]
      rw [if_neg (by omega), htid]
      unfold Verif.Gpu.unflatten0
      congr 1
      omega
  have hnd : L.Nodup := by
    have hgrid : (Verif.Gpu.launchGrid pts.length).Nodup := by
      unfold Verif.Gpu.launchGrid
      rw [List.nodup_flatMap]
      refine ⟨fun b _ => List.nodup_range.map fun a c h => by injection h, ?_⟩
      refine List.nodup_range.imp ?_
      intro a b hab
      rw [Function.onFun, List.disjoint_left]
      intro t h1 h2
      obtain ⟨_, _, rfl⟩ := List.mem_map.1 h1
      obtain ⟨_, _, h⟩ := List.mem_map.1 h2
      injection h with h _
      exact hab h.symm
    have hgrid' : (g.threads (Verif.Gpu.launchGrid pts.length)).Nodup := (hg.threads _).nodup_iff.2 hgrid
    show List.Pairwise _ _
    rw [List.pairwise_filterMap]
    refine List.Pairwise.imp_of_mem ?_ hgrid'
    intro t t' ht ht' hne p hp p' hp' e
    subst e
    simp only [f] at hp hp'
    split at hp
    · cases hp
    split at hp'
    · cases hp'
    injection hp with hp
    injection hp' with hp'
    unfold Verif.Gpu.unflatten0 at hp hp'
    obtain ⟨u, -, -, hu⟩ := Verif.Gpu.c14_grid_covers pts.length (Verif.Gpu.globalTid t) (by omega)
    exact hne ((hu t ((hg.threads _).mem_iff.1 ht) rfl).trans (hu t' ((hg.threads _).mem_iff.1 ht') (by omega)).symm)
  refine ⟨_, if_pos hd, ?_, ?_⟩
  · refine honest_of_subset (xpayTask_honest A y x futs pts) _ ?_
    split
    · simp
    · intro u hu
      rw [hbody] at hu
      obtain ⟨p, hp, rfl⟩ := List.mem_map.1 hu
      exact List.mem_map.2 ⟨p, (hmem p).1 hp, rfl⟩
  · intro s
    show runUpdates s (if pts = [] then [] else _) = _
    split
    · next h => subst h; rfl
    · rw [hbody]
      refine run_perm y (fun p s => A.fma (alphaOf A futs s) (s (.elem y.data p)) (s (.elem x.data p)))
        hnd (dense_nodup hd) hmem ?_ s
      intro p q hne s a
      simp only []
      rw [alphaOf_upd, if_neg (elem_ne hne), if_neg (elem_ne hne)]

/-! ## Dot products -/

theorem Tree.sum_exact [Field V] {A : Arith V} (hA : A.Exact) (f : Nat → V) (t : Tree) :
    t.sum A f = (t.leaves.map f).sum := by
  induction t with
  | leaf i => simp [Tree.sum, Tree.leaves]
  | node l r ihl ihr => simp [Tree.sum, Tree.leaves, hA.add, ihl, ihr]

theorem dotGpu_ok [Field V] {A : Arith V} (hA : A.Exact) (v w : Vec) (f k : Nat) {pts : List Int} (hi : Interval pts)
    (hlt : pts.length < 2 ^ 31) {g : Gpu} (hg : g.Ok) : ∃ c, dotGpu A v w f k pts g = some c ∧ c.Honest ∧
      ∀ s, runUpdates s c.body = runUpdates s (dotTask A v w f k pts).body := by
  have hd := hi.dense
  have hleaf : ∀ {i : Nat}, pts ≠ [] → i ∈ (g.tree (Verif.Blas.intArg pts.length).toNat).leaves → pts.headD 0 + (i : Int) ∈ pts := by
    intro i hne h
    rw [Verif.Blas.intArg_fits hlt, Int.toNat_natCast] at h
    have := List.mem_range.1 ((hg.tree pts.length (List.length_pos_iff.2 hne)).mem_iff.1 h)
    rw [dense_mem hd]
    omega
  have hcong : ∀ (t : Tree) (h h' : Nat → V), (∀ i ∈ t.leaves, h i = h' i) → t.sum A h = t.sum A h' := by
    intro t
    induction t with
    | leaf i => intro h h' e; exact e i (by simp [Tree.leaves])
    | node l r ihl ihr =>
      intro h h' e
      simp only [Tree.sum]
      rw [ihl h h' fun i hi => e i (by simp [Tree.leaves, hi]), ihr h h' fun i hi => e i (by simp [Tree.leaves, hi])]
  refine ⟨_, if_pos hd, ?_, ?_⟩
  · intro u hu
    obtain rfl := List.mem_singleton.1 hu
    refine ⟨rfl, fun s s' h => ?_⟩
    simp only []
    split
    · rfl
    · next hne =>
      have hne' : pts ≠ [] := fun e => hne (Or.inl e)
      refine hcong _ _ _ fun i hi => ?_
      rw [h _ (Or.inl ⟨_, hleaf hne' hi, rfl⟩), h _ (Or.inr (Or.inl ⟨_, hleaf hne' hi, rfl⟩))]
  · intro s
    funext c
    rw [run_dotTask]
    show Update.exec s _ c = _
    unfold Update.exec
    simp only []
    by_cases hc : c = .part f k
    · rw [if_pos hc, if_pos hc]
      have hcpu : dotPiece A (fun p => s (.elem v.data p)) (fun p => s (.elem w.data p)) pts =
          (pts.map fun p => s (.elem v.data p) * s (.elem w.data p)).sum := by
        unfold dotPiece
        simp only [hA.add, hA.mul, hA.zero]
        rw [foldl_add_sum (fun p => s (.elem v.data p) * s (.elem w.data p)) pts 0, zero_add]
      rw [hcpu]
      by_cases hne : pts = []
      · rw [if_pos (Or.inl hne), hA.zero, hne]; rfl
      · have hpos := List.length_pos_iff.2 hne
        rw [if_neg (by rw [Verif.Blas.intArg_fits hlt]; rintro (h | h)
                       · exact hne h
                       · omega), Tree.sum_exact hA, Verif.Blas.intArg_fits hlt, Int.toNat_natCast,
          ((hg.tree _ hpos).map _).sum_eq]
        conv_rhs => rw [dense_eq hd]
        rw [List.map_map]
        simp only [hA.mul]
        rfl
    · rw [if_neg hc, if_neg hc]

end Verif.Device
