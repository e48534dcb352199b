import Verif.Solver.BiMath
import Verif.Solver.ArnoldiMath

/-! # Solvers stay in every invariant subspace that contains the right-hand side

Exact arithmetic.  The number of steps a solver can make is bounded by the dimension of the subspace. -/
set_option linter.unusedSectionVars false
namespace Verif.Textbook
open _root_.Matrix

section
variable {ι V : Type} [Fintype ι] [Field V] {A : Matrix ι ι V} {x0 b : ι → V} {W : Submodule V (ι → V)}

/-- More linearly independent vectors than the dimension do not fit. -/
theorem independent_card {m : Nat} {v : Fin m → ι → V} (hv : ∀ i, v i ∈ W) (hli : LinearIndependent V v) : m ≤ Module.finrank V W := by
  have h2 : LinearIndependent V (fun i => (⟨v i, hv i⟩ : W)) := by
    apply LinearIndependent.of_comp W.subtype
    exact hli
  simpa using h2.fintype_card_le_finrank

/-! ## Conjugate gradients -/

theorem cg_in (hb : b ∈ W) (hW : ∀ y ∈ W, A *ᵥ y ∈ W) (k : Nat) : (cg A x0 b k).r ∈ W ∧ (cg A x0 b k).p ∈ W := by
  induction k with
  | zero => exact ⟨hb, hb⟩
  | succ k ih =>
    have h1 : (cg A x0 b (k + 1)).r ∈ W := by
      rw [cg_r]; exact W.sub_mem ih.1 (W.smul_mem _ (hW _ ih.2))
    exact ⟨h1, by rw [cg_p]; exact W.add_mem h1 (W.smul_mem _ ih.2)⟩

theorem orthogonal_card_in [LinearOrder V] [IsStrictOrderedRing V] (m : Nat) (v : Nat → ι → V) (hin : ∀ i, i < m → v i ∈ W)
    (hv : ∀ i, i < m → v i ≠ 0) (ho : ∀ i j, i < j → j < m → v j ⬝ᵥ v i = 0) : m ≤ Module.finrank V W := by
  have hne : ∀ i j, i < m → j < m → i ≠ j → v i ⬝ᵥ v j = 0 := by
    intro i j hi hj e
    rcases lt_or_gt_of_ne e with h | h
    · rw [dotProduct_comm]; exact ho i j h hj
    · exact ho j i h hi
  refine independent_card (v := fun i : Fin m => v i) (fun i => hin i i.2) ?_
  rw [Fintype.linearIndependent_iff]
  intro g hg i
  have := congrArg (fun w => v i ⬝ᵥ w) hg
  simp only [dotProduct_sum, dotProduct_smul, dotProduct_zero, smul_eq_mul] at this
  rw [Finset.sum_eq_single i] at this
  · rcases mul_eq_zero.1 this with h | h
    · exact h
    · exact absurd h (ne_of_gt (dot_self_pos (hv i i.2)))
  · intro j _ hji
    rw [hne i j i.2 j.2 (fun e => hji (Fin.ext e.symm)), mul_zero]
  · intro h
    exact absurd (Finset.mem_univ i) h

theorem cg_terminates_in [LinearOrder V] [IsStrictOrderedRing V] (hA : SPD A) (hb : b ∈ W) (hW : ∀ y ∈ W, A *ᵥ y ∈ W) :
    ∃ k, k ≤ Module.finrank V W ∧ (cg A x0 b k).r = 0 ∧ ∀ i, i < k → (cg A x0 b i).r ≠ 0 := by
  obtain ⟨k, -, hz, hnz⟩ := cg_terminates (x0 := x0) (b := b) hA
  refine ⟨k, ?_, hz, hnz⟩
  exact orthogonal_card_in k (fun i => (cg A x0 b i).r) (fun i _ => (cg_in hb hW i).1) hnz
    (fun i j hij hj => (CGOrth.all hA k hnz j (by omega)).rr i hij)

/-! ## BiCGStab -/

theorem bicg_in (hb : b ∈ W) (hW : ∀ y ∈ W, A *ᵥ y ∈ W) (k : Nat) : (bicg A x0 b k).1 ∈ W ∧ (bicg A x0 b k).2 ∈ W := by
  induction k with
  | zero => exact ⟨hb, hb⟩
  | succ k ih =>
    have h1 : (bicg A x0 b (k + 1)).1 ∈ W := W.sub_mem ih.1 (W.smul_mem _ (hW _ ih.2))
    exact ⟨h1, W.add_mem h1 (W.smul_mem _ ih.2)⟩

/-- `triangular_zero` inside a subspace. -/
theorem triangular_zero_in (f : Nat → (ι → V) → V) (hf : ∀ i y z c, f i (y - c • z) = f i y - c * f i z) (e : Nat → ι → V)
    (h0 : ∀ i k, i < k → f i (e k) = 0) (m : Nat) (h1 : ∀ k, k < m → f k (e k) ≠ 0) (hm : Module.finrank V W ≤ m) (y : ι → V)
    (he : ∀ k, k < m → e k ∈ W) (hyW : y ∈ W) (hy : ∀ i, i < m → f i y = 0) : y = 0 := by
  by_contra hne
  have hz : ∀ i, f i 0 = 0 := by
    intro i
    have := hf i 0 0 1
    simp at this
    simpa using this
  have hadd : ∀ i y z, f i (y + z) = f i y + f i z := by
    intro i y z
    have := hf i y z (-1)
    rw [neg_smul, one_smul, sub_neg_eq_add] at this
    rw [this]; ring
  have hsmul : ∀ i c z, f i (c • z) = c * f i z := by
    intro i c z
    have := hf i 0 z (-c)
    rw [neg_smul, sub_neg_eq_add, zero_add, hz] at this
    rw [this]; ring
  have hsum : ∀ i (s : Finset (Fin (m + 1))) (g : Fin (m + 1) → ι → V), f i (∑ j ∈ s, g j) = ∑ j ∈ s, f i (g j) := by
    intro i s g
    classical
    induction s using Finset.induction_on with
    | empty => simpa using hz i
    | insert a s ha ih => rw [Finset.sum_insert ha, Finset.sum_insert ha, hadd, ih]
  let u : Fin (m + 1) → ι → V := fun j => if j.1 < m then e j.1 else y
  have hli : LinearIndependent V u := by
    rw [Fintype.linearIndependent_iff]
    intro g hg
    have key : ∀ k, (hk : k < m) → g ⟨k, by omega⟩ = 0 := by
      intro k
      induction k using Nat.strong_induction_on with
      | _ k ih =>
        intro hk
        have h2 : f k (∑ j, g j • u j) = 0 := by rw [hg]; exact hz k
        rw [hsum, Finset.sum_eq_single (⟨k, by omega⟩ : Fin (m + 1))] at h2
        · rw [hsmul] at h2
          have : u ⟨k, by omega⟩ = e k := if_pos hk
          rw [this] at h2
          exact (mul_eq_zero.1 h2).resolve_right (h1 k hk)
        · intro j _ hj
          rw [hsmul]
          have hj' : j.1 ≠ k := fun e => hj (Fin.ext e)
          by_cases c1 : j.1 < k
          · have := ih j.1 c1 (by omega)
            rw [show g j = 0 from this, zero_mul]
          · by_cases c2 : j.1 < m
            · have : u j = e j.1 := if_pos c2
              rw [this, h0 k j.1 (by omega), mul_zero]
            · have : u j = y := if_neg c2
              rw [this, hy k hk, mul_zero]
        · intro h; exact absurd (Finset.mem_univ _) h
    intro j
    by_cases c : j.1 < m
    · exact key j.1 c
    · rw [Finset.sum_eq_single j] at hg
      · have : u j = y := if_neg c
        rw [this] at hg
        exact (smul_eq_zero.1 hg).resolve_right hne
      · intro j' _ hj'
        have : j'.1 ≠ j.1 := fun e => hj' (Fin.ext e)
        have := key j'.1 (by have := j'.2; have := j.2; omega)
        rw [show g j' = 0 from this, zero_smul]
      · intro h; exact absurd (Finset.mem_univ _) h
  have := independent_card (W := W) (v := u) (fun i => by
    show (if i.1 < m then e i.1 else y) ∈ W
    split
    · next h => exact he _ h
    · exact hyW) hli
  omega

theorem bi_half_in (hb : b ∈ W) (hW : ∀ y ∈ W, A *ᵥ y ∈ W) (m : Nat) (hn : m + 1 = Module.finrank V W) (hreg : BiRegular A x0 b m)
    (h : (bi A x0 b m).ρ ≠ 0 ∧ (bi A x0 b m).ω ≠ 0 ∧ (bi A x0 b m).denom A b ≠ 0) (hrho : (bi A x0 b m).r ⬝ᵥ b ≠ 0) :
    (bi A x0 b m).mid A b = 0 := by
  have hrw : ∀ i, i < m + 1 → (bi A x0 b i).ρ ≠ 0 ∧ (bi A x0 b i).ω ≠ 0 ∧ (bi A x0 b i).denom A b ≠ 0 := by
    intro i hi
    by_cases e : i = m
    · subst e; exact h
    · obtain ⟨h1, h2, h3, -⟩ := hreg i (by omega)
      exact ⟨h1, h2, h3⟩
  have hr : ∀ i, i < m + 1 → (bi A x0 b i).r ⬝ᵥ b ≠ 0 := by
    intro i hi
    by_cases e : i = m
    · subst e; exact hrho
    · exact (hrw (i + 1) (by omega)).1
  have hall := BiED.all (A := A) (x0 := x0) (b := b) m
    (fun i hi => ⟨(hrw i (by omega)).2.2, hr i (by omega), (hrw (i + 1) (by omega)).2.1⟩)
  obtain ⟨E, D⟩ := hall m (le_refl m)
  have E' := E.next D h.2.2
  have hE : ∀ i, i ≤ m → BiE A x0 b i := fun i hi => (hall i hi).1
  have hz : (bicg A x0 b (m + 1)).1 = 0 := by
    refine triangular_zero_in (W := W) (fun i => moment A b i) (fun i y z c => moment_sub A b i y z c)
      (fun k => if k ≤ m then (bicg A x0 b k).1 else 0) ?_ (m + 1) ?_ (by omega) _ ?_ (bicg_in hb hW _).1 E'.orth
    · intro i k hik
      by_cases c : k ≤ m
      · simp only [if_pos c]; exact (hE k c).orth i hik
      · simp only [if_neg c]
        have := moment_sub A b i 0 0 1
        simp at this
        simpa using this
    · intro k hk
      have c : k ≤ m := by omega
      simp only [if_pos c]
      have := hr k hk
      rw [(hE k c).rho] at this
      exact right_ne_zero_of_mul this
    · intro k hk
      have c : k ≤ m := by omega
      simp only [if_pos c]
      exact (bicg_in hb hW _).1
  have hs : ∀ k, stab A (biOmega A x0 b) k 0 = 0 := by
    intro k
    induction k with
    | zero => rfl
    | succ k ih => rw [stab_succ, ih, mulVec_zero, smul_zero, sub_zero]
  have hmid : (bi A x0 b m).mid A b = stab A (biOmega A x0 b) m (bicg A x0 b (m + 1)).1 := by
    show _ = stab A (biOmega A x0 b) m ((bicg A x0 b m).1 - biAlpha A x0 b m • (A *ᵥ (bicg A x0 b m).2))
    rw [stab_sub, stab_mul, ← E.r, ← D.p]
    rfl
  rw [hmid, hz, hs]

theorem bi_breaks_down_in (hb : b ∈ W) (hW : ∀ y ∈ W, A *ᵥ y ∈ W) : ¬ BiRegular A x0 b (Module.finrank V W + 1) := by
  intro h
  generalize hn : Module.finrank V W = n at h
  cases n with
  | zero =>
    apply (h 0 (by omega)).2.2.1
    have h0 : W = ⊥ := Submodule.finrank_eq_zero.1 hn
    rw [h0, Submodule.mem_bot] at hb
    subst hb
    exact zero_dotProduct _
  | succ m =>
    obtain ⟨h1, h2, h3, h4⟩ := h m (by omega)
    have := bi_half_in hb hW m hn.symm (fun i hi => h i (by omega)) ⟨h1, h2, h3⟩ (h (m + 1) (by omega)).1
    apply h4
    rw [this, mulVec_zero, zero_dotProduct]

/-! ## Arnoldi -/

theorem mgs_in {v : Nat → ι → V} {w : ι → V} (hv : ∀ i, v i ∈ W) (hw : w ∈ W) (k : Nat) : mgs v w k ∈ W := by
  induction k with
  | zero => exact hw
  | succ k ih => exact W.sub_mem ih (W.smul_mem _ (hv k))

theorem arnoldi_in {sqrt : V → V} {r : ι → V} (hr : r ∈ W) (hW : ∀ y ∈ W, A *ᵥ y ∈ W) (j : Nat) : arnoldi sqrt A r j ∈ W := by
  have key : ∀ j i, arnoldiUpTo sqrt A r j i ∈ W := by
    intro j
    induction j with
    | zero => intro i; exact W.smul_mem _ hr
    | succ j ih =>
      intro i
      show Function.update (arnoldiUpTo sqrt A r j) (j + 1)
        (normalise sqrt (mgs (arnoldiUpTo sqrt A r j) (A *ᵥ arnoldiUpTo sqrt A r j j) (j + 1))) i ∈ W
      by_cases e : i = j + 1
      · subst e
        rw [Function.update_self]
        exact W.smul_mem _ (mgs_in ih (hW _ (ih j)) _)
      · rw [Function.update_of_ne e]
        exact ih i
  exact key j j

theorem arnoldi_breaks_down_in [LinearOrder V] [IsStrictOrderedRing V] {sqrt : V → V} (hsq : ∀ a, 0 ≤ a → sqrt a * sqrt a = a)
    {r : ι → V} (hr : r ∈ W) (hW : ∀ y ∈ W, A *ᵥ y ∈ W) {m : Nat} (hm : Module.finrank V W < m) : ¬ ArnoldiRegular sqrt A r m := by
  intro h
  have ho := arnoldi_orthonormal (RootsExact.of_all hsq _ _ _) h
  have hcard := orthogonal_card_in (W := W) m (arnoldi sqrt A r) (fun i _ => arnoldi_in hr hW i) (fun i hi h0 => by
    have := (ho i hi).1
    rw [h0] at this
    simp at this) (fun i j hij hj => by
    rw [dotProduct_comm]; exact (ho j hj).2 i hij)
  omega

/-! ## Functions that are constant on classes -/

/-- The functions that depend only on the class. -/
def constantOn {κ : Type} (V : Type) [Field V] (cls : ι → κ) : Submodule V (ι → V) := LinearMap.range (LinearMap.funLeft V V cls)

theorem mem_constantOn {κ : Type} {cls : ι → κ} {y : ι → V} : y ∈ constantOn V cls ↔ ∃ w : κ → V, y = w ∘ cls := by
  unfold constantOn
  rw [LinearMap.mem_range]
  exact ⟨fun ⟨w, h⟩ => ⟨w, h.symm⟩, fun ⟨w, h⟩ => ⟨w, h.symm⟩⟩

theorem finrank_constantOn {κ : Type} [Fintype κ] (cls : ι → κ) : Module.finrank V (constantOn V cls) ≤ Fintype.card κ := by
  have := LinearMap.finrank_range_le (LinearMap.funLeft V V cls)
  rw [Module.finrank_fintype_fun_eq_card] at this
  exact this

/-- Equal on equal classes is enough. -/
theorem constantOn_iff {κ : Type} {cls : ι → κ} {y : ι → V} : y ∈ constantOn V cls ↔ ∀ u u', cls u = cls u' → y u = y u' := by
  rw [mem_constantOn]
  constructor
  · rintro ⟨w, rfl⟩ u u' h
    show w _ = w _
    rw [h]
  · intro h
    classical
    refine ⟨fun c => if hc : ∃ u, cls u = c then y hc.choose else 0, funext fun u => ?_⟩
    have hc : ∃ u', cls u' = cls u := ⟨u, rfl⟩
    show y u = dite _ _ _
    rw [dif_pos hc]
    exact (h _ _ hc.choose_spec).symm

/-- If the coefficients of the rows of a class add up, class by class of columns, to the same sums, then the matrix maps functions that
are constant on classes to such functions. -/
theorem equitable_in {κ : Type} {cls : ι → κ} [DecidableEq κ]
    (h : ∀ u u' c, cls u = cls u' → (∑ w, if cls w = c then A u w else 0) = ∑ w, if cls w = c then A u' w else 0)
    (y : ι → V) (hy : y ∈ constantOn V cls) : A *ᵥ y ∈ constantOn V cls := by
  classical
  obtain ⟨f, rfl⟩ := mem_constantOn.1 hy
  rw [constantOn_iff]
  intro u u' huu
  have key : ∀ u, (A *ᵥ (f ∘ cls)) u = ∑ c ∈ Finset.univ.image cls, (∑ w, if cls w = c then A u w else 0) * f c := by
    intro u
    show ∑ w, A u w * f (cls w) = _
    rw [← Finset.sum_fiberwise_of_maps_to (g := cls) (t := Finset.univ.image cls) (fun w _ => Finset.mem_image_of_mem _ (Finset.mem_univ w))]
    refine Finset.sum_congr rfl fun c _ => ?_
    rw [Finset.sum_mul, Finset.sum_filter]
    refine Finset.sum_congr rfl fun w _ => ?_
    split
    · next e => rw [e]
    · rw [zero_mul]
  rw [key, key]
  exact Finset.sum_congr rfl fun c _ => by rw [h u u' c huu]

end
end Verif.Textbook
