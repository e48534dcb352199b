import Verif.Device.Sparse
import Verif.Planner.Lemmas

/-! # Planner operations on any devices -/
set_option linter.dupNamespace false
set_option linter.unusedSectionVars false
namespace Verif.Device
open Verif.Runtime Verif.Vector Verif.Matrix Verif.Planner Verif.Solver

variable {V α β : Type}

/-! ## Vectors -/

theorem Same.scal {dev : Devices} (hdev : dev.Ok) (A : Arith V) (E : Env Int) (x : Vec) (a : Scalar)
    (hp : GpuPieces (E.pieces x.part)) : Same (Vector.scal A E x a) (Device.scal dev A E x a) :=
  launchOn_same hdev _ (scalTask A x [a.fut]) _ fun pts h => ⟨rfl, scalTask_honest A x _ pts, fun _ hg =>
    scalGpu_ok A x _ (hp pts h).1 (hp pts h).2 hg⟩

theorem Same.axpyWith {dev : Devices} (hdev : dev.Ok) (A : Arith V) (E : Env Int) (y : Vec) (futs : List Nat) (x : Vec)
    (hp : GpuPieces (E.pieces y.part)) :
    Same (do checkCompatible y x; Vector.launch ((E.pieces y.part).map (axpyTask A y x futs))) (Device.axpyWith dev A E y futs x) :=
  (Same.check y x).bind fun _ => launchOn_same hdev _ (axpyTask A y x futs) _ fun pts h => ⟨rfl, axpyTask_honest A y x _ pts,
    fun _ hg => axpyGpu_ok A y x _ (hp pts h).1 (hp pts h).2 hg⟩

theorem Same.xpayWith {dev : Devices} (hdev : dev.Ok) (A : Arith V) (E : Env Int) (y : Vec) (futs : List Nat) (x : Vec)
    (hp : GpuPieces (E.pieces y.part)) :
    Same (do checkCompatible y x; Vector.launch ((E.pieces y.part).map (xpayTask A y x futs))) (Device.xpayWith dev A E y futs x) :=
  (Same.check y x).bind fun _ => launchOn_same hdev _ (xpayTask A y x futs) _ fun pts h => ⟨rfl, xpayTask_honest A y x _ pts,
    fun _ hg => xpayGpu_ok A y x _ (hp pts h).1 hg⟩

theorem Same.dot [Field V] {dev : Devices} (hdev : dev.Ok) {A : Arith V} (hA : A.Exact) (E : Env Int) (v w : Vec)
    (hp : GpuPieces (E.pieces v.part)) : Same (Vector.dot A E v w) (Device.dot dev A E v w) := by
  refine (Same.check v w).bind fun _ => Same.fresh.bind fun f => Same.bind ?_ fun _ => (Same.launch (by
    intro t ht; obtain rfl := List.mem_singleton.1 ht
    exact reduceTask_honest A f _)).bind fun _ => Same.pure _
  rw [List.mapIdx_eq_zipIdx_map, List.mapIdx_eq_zipIdx_map]
  refine launchOn_same hdev (fun q : List Int × Nat => ⟨some (dotTask A v w f q.2 q.1), dotGpu A v w f q.2 q.1⟩)
    (fun q => dotTask A v w f q.2 q.1) _ fun q hq => ⟨rfl, dotTask_honest A v w f _ _, fun g hg => ?_⟩
  have h := hp q.1 (List.fst_mem_of_mem_zipIdx hq)
  exact dotGpu_ok hA v w f q.2 h.1 h.2 hg

/-! ## Products -/

theorem Same.launchOption (o : Option (List (Task (Cell Int) V))) (h : ∀ ts, o = some ts → ∀ t ∈ ts, t.Honest) :
    Same (fun e => o.bind fun ts => Vector.launch ts e : M Int V Unit) (fun e => o.bind fun ts => Vector.launch ts e) := by
  cases o with
  | none => exact Same.stop
  | some ts => exact Same.launch (h ts rfl)

/-- A product with any partitions on CPUs. -/
theorem Same.matvec (A : Arith V) (E : Env Int) (o : Op Int Int V) (d x : Vec) (kp : List (List Int)) (ghost : List (List Int)) :
    Same (o.matvec A E d x kp ghost) (o.matvec A E d x kp ghost) := by
  cases o with
  | coo m => exact Same.launch (Hon.zipWith (fun _ _ => cooTask_honest A m d x _ _ _) _ _)
  | csr m =>
    refine Same.launchOption _ fun ts hts => ?_
    have := Hon.matvec A E (.csr m) d x kp ghost ⟨0, []⟩ () ⟨0, [] ++ ts⟩ (by
      show Option.bind _ _ = _
      rw [hts]; rfl)
    obtain ⟨ts', h1, h2, -⟩ := this
    have : ts = ts' := by simpa using h1
    exact this ▸ h2

theorem zip_map {β : Type} (pieces : List (List Int)) (f : List Int → List Int) (g : List Int → List Int)
    (mk : List Int → List Int → List Int → β) :
    List.zipWith (fun out (ki : List Int × List Int) => mk out ki.1 ki.2) pieces ((pieces.map f).zip (pieces.map g)) =
      pieces.map fun pc => mk pc (f pc) (g pc) := by
  induction pieces with
  | nil => rfl
  | cons pc l ih => simp [List.zip_cons_cons] at ih ⊢; exact ih

/-- Tasks change only what they declare. -/
theorem run_frame {t : Task (Cell Int) V} (h : t.Honest) (s : Cell Int → V) {c : Cell Int} (hc : ¬ t.writes c) :
    runUpdates s t.body c = s c := by
  have : ∀ (b : List (Update (Cell Int) V)), (∀ u ∈ b, u ∈ t.body) → ∀ s : Cell Int → V, runUpdates s b c = s c := by
    intro b
    induction b with
    | nil => intro _ s; rfl
    | cons u b ih =>
      intro hb s
      show runUpdates (Update.exec s u) b c = _
      rw [ih (fun u hu => hb u (List.mem_cons_of_mem _ hu))]
      have hw := (h u (hb u (List.mem_cons_self ..))).1
      show (if c = u.dst then _ else s c) = s c
      rw [if_neg]
      rintro rfl
      exact hc hw
  exact this t.body (fun _ h => h) s

theorem runTasks_frame (ts : List (Task (Cell Int) V)) (h : ∀ t ∈ ts, t.Honest) {c : Cell Int} (hc : ∀ t ∈ ts, ¬ t.writes c) :
    ∀ s : Cell Int → V, runTasks s ts c = s c := by
  induction ts with
  | nil => intro s; rfl
  | cons t ts ih =>
    intro s
    rw [runTasks_cons, ih (fun t ht => h t (List.mem_cons_of_mem _ ht)) (fun t ht => hc t (List.mem_cons_of_mem _ ht)),
      run_frame (h t (List.mem_cons_self ..)) s (hc t (List.mem_cons_self ..))]

/-- Everything outside the vector keeps its value. -/
def Keeps (d : Nat) (Y : (Cell Int → V) → Prop) : Prop := ∀ s s' : Cell Int → V, (∀ c, (∀ p, c ≠ .elem d p) → s' c = s c) →
  Y s → Y s'

theorem piece_disjoint {pieces : List (List Int)} (h : pieces.flatten.Nodup) :
    pieces.Pairwise fun a b => ∀ p ∈ b, p ∉ a := by
  refine (List.nodup_flatten.1 h).2.imp ?_
  intro a b hab p hb ha
  exact (List.disjoint_left.1 hab) ha hb

/-- A product with derived partitions on any devices.  `Y` is a condition on memory outside the destination that is kept. -/
theorem opMatvec_sim [Field V] {dev : Devices} (hdev : dev.Ok) {rp : RowPtr V} {A : Arith V} (hA : A.Exact) (E : Env Int)
    (o : Op Int Int V) (d x : Vec) (hne : x.data ≠ d.data) (rspace dspace : List Int) (hfit : o.Fits rspace dspace)
    (hpart : IsPartition rspace (E.pieces d.part)) (hgp : GpuPieces (E.pieces d.part))
    (hgm : GpuMatrix rp (E.pieces d.part) o) (Y Y' : (Cell Int → V) → Prop) (hY : ∀ s, Y s → Y' s) (hk : Keeps d.data Y')
    (hz : isCSR o → ∀ s, Y s → ∀ p ∈ rspace, s (.elem d.data p) = 0) :
    Sim Y Y' (fun _ _ => True) (o.matvec A E d x (o.kernelFromRange (E.pieces d.part))
      (o.domainFromKernel dspace (o.kernelFromRange (E.pieces d.part))))
      (opMatvec dev rp A E o d x (o.kernelFromRange (E.pieces d.part))
        (o.domainFromKernel dspace (o.kernelFromRange (E.pieces d.part)))) := by
  have hsub : ∀ pc ∈ E.pieces d.part, ∀ p ∈ pc, p ∈ rspace := fun pc hpc p hp =>
    (hpart.2 p).1 (List.mem_flatten.2 ⟨pc, hpc, hp⟩)
  have hY' : ∀ (cpu : List Int → Task (Cell Int) V), (∀ pc, (cpu pc).Honest) → (∀ pc c, (cpu pc).writes c → ∃ p, c = .elem d.data p) →
      ∀ s, Y s → Y' (runTasks s ((E.pieces d.part).map cpu)) := by
    intro cpu hh hw s hs
    refine hk s _ (fun c hc => ?_) (hY s hs)
    refine runTasks_frame _ ?_ ?_ s
    · intro t ht
      obtain ⟨pc, -, rfl⟩ := List.mem_map.1 ht
      exact hh pc
    · intro t ht hwr
      obtain ⟨pc, -, rfl⟩ := List.mem_map.1 ht
      obtain ⟨p, rfl⟩ := hw pc c hwr
      exact hc p rfl
  cases o with
  | coo m =>
    let kOf : List Int → List Int := fun pc => m.kernel.filter fun k => decide (m.row k ∈ pc)
    let gOf : List Int → List Int := fun pc => dspace.filter fun p => decide (p ∈ (kOf pc).map m.col)
    have hker : (Op.coo m).kernelFromRange (E.pieces d.part) = (E.pieces d.part).map kOf := rfl
    have hgh : (Op.coo m).domainFromKernel dspace ((E.pieces d.part).map kOf) = (E.pieces d.part).map gOf := by
      show byImage dspace m.col _ = _
      unfold byImage
      rw [List.map_map]
      rfl
    rw [hker, hgh]
    show Sim Y Y' _ (Vector.launch (List.zipWith _ _ _)) (launchOn dev (List.zipWith _ _ _))
    rw [zip_map (E.pieces d.part) kOf gOf fun out k i => cooTask A m d x out k i,
      zip_map (E.pieces d.part) kOf gOf fun out k i => (⟨some (cooTask A m d x out k i), cooGpu A m d x out k i⟩ : PointTask V)]
    refine launchOn_sim hdev _ (fun pc => cooTask A m d x pc (kOf pc) (gOf pc)) (fun _ => Any) Y Y' _ ?_
      (List.pairwise_of_forall fun _ _ _ _ => trivial) (fun _ _ _ _ => trivial)
      (hY' _ (fun pc => cooTask_honest A m d x _ _ _) fun pc c h => by obtain ⟨p, -, rfl⟩ := h; exact ⟨p, rfl⟩)
    intro pc hpc
    refine ⟨rfl, cooTask_honest A m d x _ _ _, fun g hg => ?_⟩
    obtain ⟨t, h1, h2, h3⟩ := cooGpu_ok hA m d x hne (dense_nodup (hgp pc hpc).1.dense) (hgm.1.filter _) (hgm.2 pc hpc)
      (inp := gOf pc) (kp := kOf pc) (out := pc) (fun k hk => of_decide_eq_true (List.mem_filter.1 hk).2) (fun k hk =>
        List.mem_filter.2 ⟨hfit k (List.mem_filter.1 hk).1, decide_eq_true (List.mem_map.2 ⟨k, hk, rfl⟩)⟩) hg
    exact ⟨t, h1, h2, fun s _ => h3 s⟩
  | csr m =>
    obtain ⟨hcol, hrows, hdis⟩ := hfit
    let gOf : List Int → List Int := fun pc => dspace.filter fun p => decide (p ∈ (kernelOf m pc).map m.col)
    have hker : (Op.csr m).kernelFromRange (E.pieces d.part) = (E.pieces d.part).map (kernelOf m) := rfl
    have hgh : (Op.csr m).domainFromKernel dspace ((E.pieces d.part).map (kernelOf m)) = (E.pieces d.part).map gOf := by
      show byImage dspace m.col _ = _
      unfold byImage
      rw [List.map_map]
      rfl
    rw [hker, hgh]
    have hcpu : (Op.csr m).matvec A E d x ((E.pieces d.part).map (kernelOf m)) ((E.pieces d.part).map gOf) =
        Vector.launch ((E.pieces d.part).map fun pc => csrTask' A m d x pc (kernelOf m pc) (gOf pc)) := by
      funext e
      show Option.bind ((List.zipWith _ _ _).mapM id) _ = _
      rw [zip_map (E.pieces d.part) (kernelOf m) gOf fun out k i => csrTask A m d x out k i]
      have : ((E.pieces d.part).map fun pc => csrTask A m d x pc (kernelOf m pc) (gOf pc)) =
          (E.pieces d.part).map fun pc => some (csrTask' A m d x pc (kernelOf m pc) (gOf pc)) :=
        List.map_congr_left fun pc _ => csrTask_eq A m d x pc _ _ (csr_isSome m pc)
      rw [this, mapM_some]
      rfl
    rw [hcpu]
    show Sim Y Y' _ (Vector.launch _) (launchOn dev (List.zipWith _ _ _))
    rw [zip_map (E.pieces d.part) (kernelOf m) gOf fun out k i =>
      (⟨csrTask A m d x out k i, csrGpu (rp m) d x out k i⟩ : PointTask V)]
    refine launchOn_sim hdev _ (fun pc => csrTask' A m d x pc (kernelOf m pc) (gOf pc))
      (fun pc s => ∀ p ∈ pc, s (.elem d.data p) = 0) Y Y' _ ?_ ?_
      (fun s hs pc hpc p hp => hz trivial s hs p (hsub pc hpc p hp))
      (hY' _ (fun pc => csrTask'_honest A m d x _ _ _) fun pc c h => by obtain ⟨p, -, rfl⟩ := h; exact ⟨p, rfl⟩)
    · intro pc hpc
      refine ⟨csrTask_eq A m d x pc _ _ (csr_isSome m pc), csrTask'_honest A m d x _ _ _, fun g hg => ?_⟩
      refine (csrGpu_ok hA hgm hdis d x hne (hgp pc hpc).1.dense (fun p hp => (hrows p).2 (hsub pc hpc p hp)) ?_ hg).2
      intro k hk
      exact List.mem_filter.2 ⟨hcol k (List.mem_filter.1 hk).1, decide_eq_true (List.mem_map.2 ⟨k, hk, rfl⟩)⟩
    · refine (piece_disjoint hpart.1).imp ?_
      intro a b hab s hs p hp
      rw [run_frame (csrTask'_honest A m d x _ _ _) s, hs p hp]
      rintro ⟨q, hq, e⟩
      injection e with _ e
      exact hab p hp (e ▸ hq)

/-! ## The planner -/

theorem Sim.getBind {Z Z' : (Cell Int → V) → Prop} {Q : α → β → Prop} {pl : Planner Int Int V} {k i : Nat} {f : Vec → M Int V α}
    {f' : Vec → M Int V β} (h : ∀ v, pl.lookup k i = some v → Sim Z Z' Q (f v) (f' v)) :
    Sim Z Z' Q (pl.getVector k i >>= f) (pl.getVector k i >>= f') := by
  cases hl : pl.lookup k i with
  | none =>
    intro n out out'
    left
    constructor <;>
    · show Option.bind _ _ = none
      unfold Planner.getVector
      rw [hl]; rfl
  | some v =>
    have e : ∀ {γ : Type} (g : Vec → M Int V γ), (pl.getVector k i >>= g) = g v := by
      intro γ g
      funext e
      show Option.bind _ _ = _
      unfold Planner.getVector
      rw [hl]; rfl
    rw [e f, e f']
    exact h v hl

theorem Same.getBind {pl : Planner Int Int V} {k i : Nat} {f f' : Vec → M Int V α}
    (h : ∀ v, pl.lookup k i = some v → Same (f v) (f' v)) : Same (pl.getVector k i >>= f) (pl.getVector k i >>= f') :=
  Sim.getBind h

theorem ready_found {G : Geometry Int} {pl : Planner Int Int V} {nw : Nat} (R : Ready G pl nw) {k i : Nat} {v : Vec}
    (h : pl.lookup k i = some v) : k < nw + 2 ∧ i < pl.spaces.length ∧ v = pl.vec k i := by
  have hs := R.sizes
  unfold Planner.sizesAgree at hs
  simp only [Bool.and_eq_true, decide_eq_true_iff, List.all_eq_true] at hs
  obtain ⟨⟨⟨⟨⟨-, -⟩, -⟩, h1⟩, h2⟩, h3⟩ := hs
  have hv : v = pl.vec k i := by
    unfold Planner.vec
    rw [h]; rfl
  unfold Planner.lookup at h
  split at h
  · obtain ⟨hi, -⟩ := List.getElem?_eq_some_iff.1 h
    exact ⟨by omega, by omega, hv⟩
  · split at h
    · obtain ⟨hi, -⟩ := List.getElem?_eq_some_iff.1 h
      exact ⟨by omega, by omega, hv⟩
    · obtain ⟨l, hl, hi⟩ := Option.bind_eq_some_iff.1 h
      obtain ⟨hk, hl'⟩ := List.getElem?_eq_some_iff.1 hl
      obtain ⟨hi, -⟩ := List.getElem?_eq_some_iff.1 hi
      have := h3 l (hl' ▸ List.getElem_mem _)
      rw [R.workspace] at hk
      exact ⟨by omega, by omega, hv⟩

theorem ready_gpuPieces {rp : RowPtr V} {G : Geometry Int} {pl : Planner Int Int V} {nw : Nat} (R : Ready G pl nw)
    (H : GpuReady rp G pl) {k i : Nat} (hk : k < nw + 2) (hi : i < pl.spaces.length) : GpuPieces (G.pieces (pl.vec k i).part) := by
  have hs := R.sizes
  unfold Planner.sizesAgree at hs
  simp only [Bool.and_eq_true, decide_eq_true_iff] at hs
  have hlen := hs.1.1.1.1.1
  rw [(R.lookup hk hi).2.2.1, List.getD_eq_getElem _ _ (by omega)]
  exact H.pieces _ (List.getElem_mem _)

theorem ready_gpuPieces' {rp : RowPtr V} {G : Geometry Int} {pl : Planner Int Int V} {nw : Nat} (R : Ready G pl nw)
    (H : GpuReady rp G pl) {k i : Nat} {v : Vec} (h : pl.lookup k i = some v) : GpuPieces (G.pieces v.part) := by
  obtain ⟨hk, hi, rfl⟩ := ready_found R h
  exact ready_gpuPieces R H hk hi

theorem Same.pairs {pl : Planner Int Int V} (d x : Nat) {f f' : Vec → Vec → M Int V Unit}
    (h : ∀ i y x', pl.lookup d i = some y → pl.lookup x i = some x' → Same (f y x') (f' y x')) :
    Same (do let ns ← pl.numSpaces
             Planner.loop (List.range ns) fun i => do
               let y ← pl.getVector d i; let x ← pl.getVector x i
               f y x)
         (do let ns ← pl.numSpaces
             Planner.loop (List.range ns) fun i => do
               let y ← pl.getVector d i; let x ← pl.getVector x i
               f' y x) :=
  (Same.numSpaces pl).bind fun _ => Same.loop _ fun i _ => Same.getBind fun _ hy => Same.getBind fun _ hx => h i _ _ hy hx

variable {rp : RowPtr V} {G : Geometry Int} {pl : Planner Int Int V} {nw : Nat} {dev : Devices}

theorem Same.pScal (hdev : dev.Ok) (A : Arith V) (R : Ready G pl nw) (H : GpuReady rp G pl) (d : Nat) (a : Scalar) :
    Same (pl.scal A G.toEnv d a) (Device.pScal dev A G.toEnv pl d a) :=
  (Same.numSpaces pl).bind fun _ => Same.loop _ fun _ _ => Same.getBind fun _ hy => Same.scal hdev A _ _ a (ready_gpuPieces' R H hy)

theorem Same.pDotLoop [Field V] (hdev : dev.Ok) {A : Arith V} (hA : A.Exact) (R : Ready G pl nw) (H : GpuReady rp G pl) (v w : Nat) :
    ∀ (l : List Nat) (r : Scalar), Same (pl.dotLoop A G.toEnv v w l r) (Device.pDotLoop dev A G.toEnv pl v w l r)
  | [], r => Same.pure r
  | _ :: l, r => Same.getBind fun _ hx => Same.getBind fun _ _ => (Same.dot hdev hA _ _ _ (ready_gpuPieces' R H hx)).bind fun d =>
      (Same.binary A.add r d).bind fun r' => Same.pDotLoop hdev hA R H v w l r'

theorem Same.pDot [Field V] (hdev : dev.Ok) {A : Arith V} (hA : A.Exact) (R : Ready G pl nw) (H : GpuReady rp G pl) (v w : Nat) :
    Same (pl.dot A G.toEnv v w) (Device.pDot dev A G.toEnv pl v w) :=
  (Same.numSpaces pl).bind fun _ => Same.getBind fun _ hx => Same.getBind fun _ _ =>
    (Same.dot hdev hA _ _ _ (ready_gpuPieces' R H hx)).bind fun r => Same.pDotLoop hdev hA R H v w _ r

/-- The blocks of the destination of a product that no operator in `done` has written are zero. -/
def Zeroed (G : Geometry Int) (pl : Planner Int Int V) [Field V] (d : Nat) (done : List Nat) (s : Cell Int → V) : Prop :=
  ∀ i, i < pl.spaces.length → i ∉ done → ∀ p ∈ pl.pts G i, s (.elem (pl.vec d i).data p) = 0

theorem zeroFill_zeroed [Field V] {A : Arith V} (hA : A.Exact) (R : Ready G pl nw) (d : Nat) :
    Sim Any (Zeroed G pl d []) (fun _ _ => True) (pl.zeroFill A G.toEnv d) (pl.zeroFill A G.toEnv d) := by
  intro n out out'
  rcases Same.zeroFill A G.toEnv pl d n out out' with h | ⟨a, b, k, ts, ts', -, h1, h2, o1, o2, e⟩
  · exact Or.inl h
  · refine Or.inr ⟨a, b, k, ts, ts', trivial, h1, h2, o1, o2, fun s _ => ⟨(e s trivial).1, ?_⟩⟩
    have hd : d < nw + 2 := by
      by_contra hc
      have : pl.blocksOf d = none := by
        unfold Planner.blocksOf
        rw [if_neg (by omega), if_neg (by omega), List.getElem?_eq_none_iff, R.workspace]
        omega
      have : pl.zeroFill A G.toEnv d ⟨n, out⟩ = none := by
        unfold Planner.zeroFill
        rw [this]; rfl
      rw [this] at h1
      cases h1
    obtain ⟨s', ⟨us, r1, -, r3⟩, hb⟩ := Runs.pZeroFill R A hd n s
    have := r1 out
    rw [h1] at this
    obtain ⟨-, this⟩ := Prod.mk.inj (Option.some.inj this)
    injection this with _ this
    obtain rfl := List.append_cancel_left this
    rw [r3]
    intro i hi _ p hp
    rw [hb.1 i hi p hp, hA.zero]

theorem matvec_loop [Field V] (hdev : dev.Ok) {A : Arith V} (hA : A.Exact) (R : Ready G pl nw) (H : GpuReady rp G pl) {d x : Nat}
    (hne : d ≠ x) (l : List (Registered Int Int V)) : ∀ a, pl.ops = a ++ l →
    Sim (Zeroed G pl d (a.map (·.rng))) Any (fun _ _ => True)
      (loop l fun r => do
        let y ← pl.getVector d r.rng; let x ← pl.getVector x r.dom
        r.matrix.matvec A G.toEnv y x r.kernel r.ghost)
      (loop l fun r => do
        let y ← pl.getVector d r.rng; let x ← pl.getVector x r.dom
        opMatvec dev rp A G.toEnv r.matrix y x r.kernel r.ghost) := by
  induction l with
  | nil => exact fun a _ => (Sim.pure (Z := Any) trivial).weaken fun _ _ => trivial
  | cons r l ih =>
    intro a ha
    have ih' := ih (a ++ [r]) (by rw [ha]; simp)
    have hr : r ∈ pl.ops := by rw [ha]; simp
    obtain ⟨hdom, hrng, hker, hgh, hfit⟩ := R.ops r hr
    refine Sim.bind (Y := Zeroed G pl d ((a ++ [r]).map (·.rng))) (R := fun _ _ => True) ?_ fun _ _ _ => ih'
    refine Sim.getBind fun y hy => Sim.getBind fun w hw => ?_
    obtain ⟨hd, -, rfl⟩ := ready_found R hy
    obtain ⟨hx, -, rfl⟩ := ready_found R hw
    have hpart := (R.lookup hd hrng).2.2.1
    have hE : G.toEnv.pieces (pl.vec d r.rng).part = G.pieces (pl.parts.getD r.rng 0) := by
      show G.pieces _ = _
      rw [hpart]
    have key := opMatvec_sim (rp := rp) hdev hA G.toEnv r.matrix (pl.vec d r.rng) (pl.vec x r.dom)
      (fun e => hne (R.distinct x r.dom d r.rng hx hdom hd hrng e).1.symm) (pl.pts G r.rng) (pl.pts G r.dom) hfit
      (hE ▸ R.partition r.rng hrng) (ready_gpuPieces R H hd hrng) (hE ▸ H.matrices r hr)
      (Zeroed G pl d (a.map (·.rng))) (Zeroed G pl d ((a ++ [r]).map (·.rng))) ?_ ?_ ?_
    · rw [hgh, hker, ← hE]
      exact key
    · intro s hs i hi hdone
      exact hs i hi fun h => hdone (by rw [List.map_append]; exact List.mem_append_left _ h)
    · intro s s' hs h i hi hdone p hp
      rw [hs, h i hi hdone p hp]
      intro q e
      injection e with e _
      have := (R.distinct d i d r.rng hd hi hd hrng e).2
      exact hdone (by rw [this]; simp)
    · intro hcsr s hs p hp
      refine hs r.rng hrng (fun hmem => ?_) p hp
      obtain ⟨q, hq, hqr⟩ := List.mem_map.1 hmem
      refine H.csrFirst (a.map fun r => (r.matrix, r.dom, r.rng)) r.matrix r.dom r.rng (l.map fun r => (r.matrix, r.dom, r.rng))
        (by rw [ha]; simp) hcsr (q.matrix, q.dom, q.rng) (List.mem_map.2 ⟨q, hq, rfl⟩) hqr

theorem Sim.unit {Z : (Cell Int → V) → Prop} {m m' : M Int V Unit} (h : Sim Z Any (fun _ _ => True) m m') :
    Sim Z Any (fun a b => a = b) m m' := by
  intro n out out'
  rcases h n out out' with h | ⟨a, b, k, ts, ts', -, h⟩
  · exact Or.inl h
  · exact Or.inr ⟨a, b, k, ts, ts', rfl, h⟩

theorem Same.pMatvec [Field V] (hdev : dev.Ok) {A : Arith V} (hA : A.Exact) (R : Ready G pl nw) (H : GpuReady rp G pl) (d x : Nat) :
    Same (pl.matvec A G.toEnv d x) (Device.pMatvec dev rp A G.toEnv pl d x) := by
  unfold Device.pMatvec
  split
  · exact (Same.zeroFill A _ pl d).bind fun _ => Same.loop _ fun r _ => Same.getBind fun _ _ => Same.getBind fun _ _ =>
      Same.matvec A _ _ _ _ _ _
  · next hne =>
    exact Sim.unit (Sim.bind (zeroFill_zeroed hA R d) fun _ _ _ => matvec_loop hdev hA R H hne pl.ops [] rfl)

end Verif.Device
