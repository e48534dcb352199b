import Verif.Device.Tasks

/-! # The GPU variants of the sparse products do what the CPU variants do -/
set_option linter.dupNamespace false
set_option linter.unusedSectionVars false
namespace Verif.Device
open Verif.Runtime Verif.Vector Verif.Matrix Verif.Planner Verif.Solver

variable {V : Type}

theorem foldl_min (l : List Int) : ∀ a : Int, (l.foldl min a = a ∨ l.foldl min a ∈ l) ∧ l.foldl min a ≤ a ∧
    ∀ k ∈ l, l.foldl min a ≤ k := by
  induction l with
  | nil => intro a; exact ⟨Or.inl rfl, le_refl _, by simp⟩
  | cons b l ih =>
    intro a
    obtain ⟨h1, h2, h3⟩ := ih (min a b)
    rw [List.foldl_cons]
    refine ⟨?_, by omega, ?_⟩
    · rcases h1 with h1 | h1
      · rw [h1]
        rcases min_choice a b with h | h
        · exact Or.inl h
        · exact Or.inr (by rw [h]; exact List.mem_cons_self ..)
      · exact Or.inr (List.mem_cons_of_mem _ h1)
    · intro k hk
      rcases List.mem_cons.1 hk with rfl | hk
      · omega
      · exact h3 k hk

theorem lowest_mem {l : List Int} (h : l ≠ []) : lowest l ∈ l ∧ ∀ k ∈ l, lowest l ≤ k := by
  cases l with
  | nil => exact absurd rfl h
  | cons a l =>
    obtain ⟨h1, h2, h3⟩ := foldl_min l a
    constructor
    · show l.foldl min a ∈ _
      rcases h1 with h1 | h1
      · rw [h1]; exact List.mem_cons_self ..
      · exact List.mem_cons_of_mem _ h1
    · intro k hk
      rcases List.mem_cons.1 hk with rfl | hk
      · exact h2
      · exact h3 k hk

theorem Contiguous.bounds {l : List Int} (hc : Contiguous l) (hnd : l.Nodup) (hne : l ≠ []) :
    ∀ k, k ∈ l ↔ lowest l ≤ k ∧ k < lowest l + l.length := by
  obtain ⟨lo, n, h⟩ := hc
  obtain ⟨m1, m2⟩ := lowest_mem hne
  have hlo : lowest l = lo := by
    have h1 := (h _).1 m1
    have h2 := m2 lo ((h lo).2 ⟨le_refl _, by omega⟩)
    omega
  have hlen : l.length = n := by
    have : l.Perm ((List.range n).map fun (j : Nat) => lo + (j : Int)) := by
      rw [List.perm_ext_iff_of_nodup hnd]
      · intro k
        rw [h, List.mem_map]
        constructor
        · rintro ⟨h1, h2⟩
          exact ⟨(k - lo).toNat, List.mem_range.2 (by omega), by omega⟩
        · rintro ⟨j, hj, rfl⟩
          have := List.mem_range.1 hj
          omega
      · refine List.Nodup.map_on ?_ List.nodup_range
        intro a _ b _ hab
        omega
    rw [this.length_eq, List.length_map, List.length_range]
  intro k
  rw [hlo, hlen]
  exact h k

/-- A loop over the elements of the output reading only its own element and another vector. -/
theorem run_out (dst src : Vec) (hne : src.data ≠ dst.data) (h : (Int → V) → V → Int → V) {out : List Int} (hnd : out.Nodup)
    (s : Cell Int → V) : runUpdates s (out.map fun p => ⟨.elem dst.data p, fun s =>
      h (fun q => s (.elem src.data q)) (s (.elem dst.data p)) p⟩) =
      setVec s dst out fun p => h (fun q => s (.elem src.data q)) (s (.elem dst.data p)) p := by
  refine run_piece dst (fun p s => h (fun q => s (.elem src.data q)) (s (.elem dst.data p)) p) out s hnd ?_
  intro p q hpq s a
  have h1 : ∀ q', ¬ Cell.elem src.data q' = Cell.elem dst.data p := fun q' e => hne (by injection e)
  simp only []
  rw [if_neg (elem_ne hpq)]
  congr 1
  funext q'
  exact if_neg (h1 q')

theorem gpuCoo_own [Field V] (m : COO Int Int V) (kp : List Int) (kLo : Int) (x y : Int → V) (p : Int) :
    gpuCoo m kp kLo x y p = gpuCoo m kp kLo x (fun _ => y p) p := rfl

theorem gpuCsr_own [Field V] (m : Csr1 V) (rows : Nat) (first kLo : Int) (x y : Int → V) (p : Int) :
    gpuCsr m rows first kLo x y p = gpuCsr m rows first kLo x (fun _ => y p) p := rfl

/-- The accumulations of one task, in exact arithmetic. -/
theorem run_accs_exact [Field V] {A : Arith V} (hA : A.Exact) (dst src : Vec) (hne : src.data ≠ dst.data)
    (T : List (Int × Int × V)) (out : List Int) (hT : ∀ t ∈ T, t.1 ∈ out) (s : Cell Int → V) :
    runUpdates s (accs A dst src T) = setVec s dst out fun p => s (.elem dst.data p) +
      ((T.filter fun t => decide (t.1 = p)).map fun t => t.2.2 * s (.elem src.data t.2.1)).sum := by
  obtain ⟨h1, h2⟩ := run_accs A dst src hne T s
  funext c
  cases c with
  | elem d p =>
    rw [setVec_elem]
    by_cases hc : d = dst.data ∧ p ∈ out
    · rw [if_pos hc, hc.1, h1, accList_exact hA]
    · rw [if_neg hc]
      apply h2
      intro t ht e
      injection e with e1 e2
      exact hc ⟨e1, e2 ▸ hT t ht⟩
  | part f k => exact h2 _ fun _ _ e => by cases e
  | fut f => exact h2 _ fun _ _ e => by cases e

theorem cooGpu_ok [Field V] {A : Arith V} (hA : A.Exact) (m : COO Int Int V) (dst src : Vec) (hne : src.data ≠ dst.data)
    {out kp inp : List Int} (hout : out.Nodup) (hnd : kp.Nodup) (hc : Contiguous kp) (hrow : ∀ k ∈ kp, m.row k ∈ out)
    (hcol : ∀ k ∈ kp, m.col k ∈ inp) {g : Gpu} (hg : g.Ok) : ∃ c, cooGpu A m dst src out kp inp g = some c ∧ c.Honest ∧
      ∀ s, runUpdates s c.body = runUpdates s (cooTask A m dst src out kp inp).body := by
  refine ⟨_, rfl, ?_, fun s => ?_⟩
  · intro u hu
    by_cases hk : kp = []
    · simp only [hk, if_true] at hu
      cases hu
    · simp only [if_neg hk] at hu
      obtain ⟨p, hp, rfl⟩ := List.mem_map.1 hu
      have hp' := (hg.elems out).mem_iff.1 hp
      refine ⟨⟨p, hp', rfl⟩, fun s s' h => ?_⟩
      have hb := hc.bounds hnd hk
      simp only []
      unfold gpuCoo
      rw [if_neg hk, if_neg hk]
      simp only []
      rw [h _ (Or.inl ⟨p, hp', rfl⟩)]
      congr 3
      apply List.map_congr_left
      intro j hj
      have hj' := List.mem_range.1 (List.mem_filter.1 hj).1
      rw [h _ (Or.inr ⟨_, hcol _ ((hb _).2 ⟨by omega, by omega⟩), rfl⟩)]
  · have hT : kp.filter (fun k => decide (m.col k ∈ inp ∧ m.row k ∈ out)) = kp := by
      rw [List.filter_eq_self]
      intro k hk
      exact decide_eq_true ⟨hcol k hk, hrow k hk⟩
    rw [cooTask_body, hT, run_accs_exact hA dst src hne _ out (by
      intro t ht
      obtain ⟨k, hk, rfl⟩ := List.mem_map.1 ht
      exact hrow k hk)]
    show runUpdates s (if kp = [] then [] else _) = _
    by_cases hk : kp = []
    · rw [if_pos hk, hk]
      funext c
      cases c with
      | elem d p =>
        rw [setVec_elem]
        split
        · next h => rw [h.1]; simp [runUpdates]
        · rfl
      | _ => rfl
    · rw [if_neg hk]
      have := run_out dst src hne (fun x y p => gpuCoo m kp (lowest kp) x (fun _ => y) p)
        ((hg.elems out).nodup_iff.2 hout) s
      refine Eq.trans this (setVec_congr s dst _ _ (fun p => (hg.elems out).mem_iff) fun p _ => ?_)
      rw [c30_coo_gpu_partial m kp (lowest kp) hnd (hc.bounds hnd hk), List.filter_map, List.map_map]
      rfl

/-! ## CSR -/

theorem triples_filter (m : CSR Int Int V) (hd : m.RowsDisjoint) (out : List Int) (hout : ∀ p ∈ out, p ∈ m.rows) (p : Int)
    (ks : List Int) (hks : ∀ k ∈ ks, k ∈ m.kernel) : (m.triples out ks).filter (fun t => decide (t.1 = p)) =
      (ks.filter fun k => decide (p ∈ out) && m.range p k).map fun k => (p, m.col k, m.entry k) := by
  induction ks with
  | nil => rfl
  | cons k ks ih =>
    have ih' := ih (fun k h => hks k (List.mem_cons_of_mem _ h))
    have hf := findRow_eq m hd k (hks k (List.mem_cons_self ..)) out hout
    unfold CSR.triples at ih' ⊢
    rw [List.filterMap_cons]
    cases hr : m.findRow out k with
    | none =>
      simp only [Option.map_none]
      rw [ih', List.filter_cons_of_neg]
      intro hc
      simp only [Bool.and_eq_true, decide_eq_true_iff] at hc
      rw [(hf p).2 hc] at hr
      cases hr
    | some row =>
      simp only [Option.map_some]
      by_cases he : row = p
      · subst he
        have := (hf row).1 hr
        rw [List.filter_cons_of_pos (by simp), ih', List.filter_cons_of_pos (by simp [this])]
        rfl
      · rw [List.filter_cons_of_neg (by simpa using he), ih', List.filter_cons_of_neg]
        intro hc
        simp only [Bool.and_eq_true, decide_eq_true_iff] at hc
        rw [(hf p).2 hc] at hr
        injection hr with hr
        exact he hr.symm

/-- The kernel piece of a piece of rows. -/
def kernelOf (m : CSR Int Int V) (out : List Int) : List Int := m.kernel.filter fun k => out.any fun p => m.range p k

theorem csr_isSome (m : CSR Int Int V) (out : List Int) : ∀ k ∈ kernelOf m out, (m.findRow out k).isSome := by
  intro k hk
  obtain ⟨p, hpp, hr⟩ := List.any_eq_true.1 (List.mem_filter.1 hk).2
  exact findRow_isSome m k out none (Or.inl ⟨p, hpp, hr⟩)

theorem csrGpu_value [Field V] {m : CSR Int Int V} {c : Csr1 V} (hm : RowPointers m c) {out : List Int} (hd : dense out = true)
    (hout : ∀ p ∈ out, p ∈ m.rows) (x y : Int → V) (p : Int) (hp : p ∈ out) :
    gpuCsr c out.length (out.headD 0) (lowest (kernelOf m out)) x y p =
      ((m.kernel.filter fun k => m.range p k).map fun k => m.entry k * x (m.col k)).sum := by
  have hmem := dense_mem hd
  have hcont : ∀ p, out.headD 0 ≤ p → p + 1 < out.headD 0 + out.length → c.lo (p + 1) = c.hi p + 1 := fun p h1 h2 =>
    hm.next p (hout p ((hmem p).2 ⟨h1, by omega⟩)) (hout _ ((hmem (p + 1)).2 ⟨by omega, h2⟩))
  have hle : ∀ p, out.headD 0 ≤ p → p < out.headD 0 + out.length → c.lo p ≤ c.hi p + 1 := fun p h1 h2 =>
    hm.order p (hout p ((hmem p).2 ⟨h1, h2⟩))
  have hin : ∀ p, out.headD 0 ≤ p → p < out.headD 0 + out.length → ∀ k, c.lo p ≤ k → k ≤ c.hi p → k ∈ m.kernel :=
    fun p h1 h2 => hm.inside p (hout p ((hmem p).2 ⟨h1, h2⟩))
  have hfilter : (m.kernel.filter fun k => m.range p k) = m.kernel.filter fun k => decide (c.lo p ≤ k ∧ k ≤ c.hi p) := by
    apply List.filter_congr
    intro k _
    rw [Bool.eq_iff_iff, decide_eq_true_iff]
    exact hm.range p (hout p hp) k
  have hcpu : cpuCsr c m.kernel x (fun _ => 0) p =
      ((m.kernel.filter fun k => m.range p k).map fun k => m.entry k * x (m.col k)).sum := by
    unfold cpuCsr
    rw [hfilter, zero_add]
    congr 1
    apply List.map_congr_left
    intro k _
    rw [hm.col, hm.entry]
  by_cases hk : kernelOf m out = []
  · -- all rows are empty: nothing is added up, whatever the start of the arrays
    have hempty : ∀ q ∈ out, c.hi q < c.lo q := by
      intro q hq
      by_contra hcon
      have h1 : c.lo q ∈ m.kernel := hm.inside q (hout q hq) _ (le_refl _) (by omega)
      have : c.lo q ∈ kernelOf m out := List.mem_filter.2 ⟨h1, List.any_eq_true.2 ⟨q, hq,
        (hm.range q (hout q hq) _).2 ⟨le_refl _, by omega⟩⟩⟩
      rw [hk] at this
      cases this
    have hp' := (hmem p).1 hp
    have h0 : (m.kernel.filter fun k => m.range p k) = [] := by
      rw [hfilter, List.filter_eq_nil_iff]
      intro k _ h
      have := of_decide_eq_true h
      have := hempty p hp
      omega
    rw [h0]
    unfold gpuCsr spmvCsr
    rw [if_pos hp']
    obtain ⟨e1, e2⟩ := indptr_succ c out.length (out.headD 0) hcont (p - out.headD 0).toNat (by omega)
    have hpp : ((p - out.headD 0).toNat : Int) + out.headD 0 = p := by omega
    rw [hpp] at e1 e2
    have hz : (c.hi p + 1 - c.lo (out.headD 0) - (c.lo p - c.lo (out.headD 0))).toNat = 0 := by
      have := hempty p hp
      omega
    rw [e1, e2, hz]
    simp
  · obtain ⟨l1, l2⟩ := lowest_mem hk
    have hset : kernelOf m out = m.kernel.filter fun k => ((List.range out.length).map fun (j : Nat) =>
        out.headD 0 + (j : Int)).any fun p => decide (c.lo p ≤ k ∧ k ≤ c.hi p) := by
      unfold kernelOf
      apply List.filter_congr
      intro k _
      rw [← dense_eq hd, Bool.eq_iff_iff, List.any_eq_true, List.any_eq_true]
      constructor
      · rintro ⟨q, hq, h⟩
        exact ⟨q, hq, decide_eq_true ((hm.range q (hout q hq) k).1 h)⟩
      · rintro ⟨q, hq, h⟩
        exact ⟨q, hq, (hm.range q (hout q hq) k).2 (of_decide_eq_true h)⟩
    have hlo := c30_kernel_lower_bound c m.kernel out.length (out.headD 0) hcont hle hin (lowest (kernelOf m out))
      (hset ▸ l1) (fun k h => l2 k (hset ▸ h))
    rw [(c30_csr_gpu_partial c m.kernel hm.kernel out.length (out.headD 0) _ hcont hlo hin x y p ((hmem p).1 hp)).1, hcpu]

theorem csrGpu_ok [Field V] {A : Arith V} (hA : A.Exact) {m : CSR Int Int V} {c : Csr1 V} (hm : RowPointers m c)
    (hdis : m.RowsDisjoint) (dst src : Vec) (hne : src.data ≠ dst.data) {out inp : List Int} (hd : dense out = true)
    (hout : ∀ p ∈ out, p ∈ m.rows) (hcol : ∀ k ∈ kernelOf m out, m.col k ∈ inp) {g : Gpu} (hg : g.Ok) :
    csrTask A m dst src out (kernelOf m out) inp = some (csrTask' A m dst src out (kernelOf m out) inp) ∧
    ∃ t, csrGpu c dst src out (kernelOf m out) inp g = some t ∧ t.Honest ∧
      ∀ s, (∀ p ∈ out, s (.elem dst.data p) = 0) →
        runUpdates s t.body = runUpdates s (csrTask' A m dst src out (kernelOf m out) inp).body := by
  refine ⟨csrTask_eq A m dst src out _ inp (csr_isSome m out), _, if_pos hd, ?_, fun s hs => ?_⟩
  · intro u hu
    by_cases hk : out = []
    · simp only [hk, if_true] at hu
      cases hu
    · simp only [if_neg hk] at hu
      obtain ⟨p, hp, rfl⟩ := List.mem_map.1 hu
      have hp' := (hg.elems out).mem_iff.1 hp
      refine ⟨⟨p, hp', rfl⟩, fun s s' h => ?_⟩
      simp only []
      rw [csrGpu_value hm hd hout _ _ p hp', csrGpu_value hm hd hout _ _ p hp']
      congr 1
      apply List.map_congr_left
      intro k hk'
      have hk'' := List.mem_filter.1 hk'
      have : k ∈ kernelOf m out := List.mem_filter.2 ⟨hk''.1, List.any_eq_true.2 ⟨p, hp', hk''.2⟩⟩
      rw [h _ (Or.inr ⟨_, hcol k this, rfl⟩)]
  · have hks : ∀ k ∈ kernelOf m out, k ∈ m.kernel := fun k h => (List.mem_filter.1 h).1
    rw [csrTask'_body A m hdis dst src out hout _ hks inp hcol, run_accs_exact hA dst src hne _ out (by
      intro t ht
      obtain ⟨k, hk, hk2⟩ := List.mem_filterMap.1 ht
      obtain ⟨row, hr, rfl⟩ := Option.map_eq_some_iff.1 hk2
      exact ((findRow_eq m hdis k (hks k hk) out hout row).1 hr).1)]
    have hgpu : runUpdates s (if out = [] then [] else (g.elems out).map fun p => (⟨.elem dst.data p, fun s =>
        gpuCsr c out.length (out.headD 0) (lowest (kernelOf m out)) (fun q => s (.elem src.data q))
          (fun q => s (.elem dst.data q)) p⟩ : Update (Cell Int) V)) = setVec s dst out fun p =>
        gpuCsr c out.length (out.headD 0) (lowest (kernelOf m out)) (fun q => s (.elem src.data q))
          (fun q => s (.elem dst.data q)) p := by
      by_cases hk : out = []
      · rw [if_pos hk]
        funext c
        cases c with
        | elem d p => rw [setVec_elem, if_neg (by rw [hk]; simp)]; rfl
        | _ => rfl
      · rw [if_neg hk]
        refine Eq.trans (run_out dst src hne (fun x y p => gpuCsr c out.length (out.headD 0) (lowest (kernelOf m out)) x
          (fun _ => y) p) ((hg.elems out).nodup_iff.2 (dense_nodup hd)) s) ?_
        exact setVec_congr s dst _ _ (fun p => (hg.elems out).mem_iff) fun p _ => rfl
    refine Eq.trans hgpu (setVec_congr s dst _ _ (fun _ => Iff.rfl) fun p hp => ?_)
    rw [csrGpu_value hm hd hout _ _ p hp, hs p hp, zero_add, triples_filter m hdis out hout p _ hks, List.map_map]
    have : (kernelOf m out).filter (fun k => decide (p ∈ out) && m.range p k) = m.kernel.filter fun k => m.range p k := by
      unfold kernelOf
      rw [List.filter_filter]
      apply List.filter_congr
      intro k _
      by_cases hr : m.range p k = true
      · have : (out.any fun p => m.range p k) = true := List.any_eq_true.2 ⟨p, hp, hr⟩
        simp [hp, hr, this]
      · simp [hr]
    rw [this]
    rfl

end Verif.Device
