import Verif.Solver.CGMath

/-! Mathematics of the BiCGStab recurrence. -/
set_option linter.unusedSectionVars false
namespace Verif.Textbook
open _root_.Matrix

section
variable {ι V : Type} [Fintype ι] [Field V] (A : Matrix ι ι V) (x0 b : ι → V)

/-- The recursive residual is the true residual, up to the initial guess. -/
theorem bi_residual (k : Nat) : (bi A x0 b k).r = b - A *ᵥ ((bi A x0 b k).x - x0) := by
  induction k with
  | zero => simp [bi]
  | succ k ih =>
    show (bi A x0 b k).mid A b - _ = b - A *ᵥ ((bi A x0 b k).x + _ + _ - x0)
    have h : (bi A x0 b k).mid A b = (bi A x0 b k).r - (bi A x0 b k).alpha A b • (A *ᵥ (bi A x0 b k).dir b) := rfl
    generalize hm : (bi A x0 b k).mid A b = m at h ⊢
    rw [mulVec_sub, mulVec_add, mulVec_add, mulVec_smul, mulVec_smul]
    rw [mulVec_sub] at ih
    generalize A *ᵥ m = am
    rw [h, ih]
    module

/-- The intermediate residual is orthogonal to the shadow residual. -/
theorem bi_mid_orth (rt : ι → V) (c : BiState ι V) (h : c.denom A rt ≠ 0) : rt ⬝ᵥ c.mid A rt = 0 := by
  unfold BiState.mid
  rw [dotProduct_sub, dotProduct_smul, smul_eq_mul]
  show _ - c.alpha A rt * c.denom A rt = 0
  unfold BiState.alpha
  rw [div_mul_cancel₀ _ h, dotProduct_comm, sub_self]

end

section
variable {ι V : Type} [Fintype ι] [Field V] [LinearOrder V] [IsStrictOrderedRing V]

/-- `(s·u)/(u·u)` minimises the length of `s - t u`. -/
theorem line_min (s u : ι → V) (h : u ⬝ᵥ u ≠ 0) (t : V) :
    (s - ((s ⬝ᵥ u) / (u ⬝ᵥ u)) • u) ⬝ᵥ (s - ((s ⬝ᵥ u) / (u ⬝ᵥ u)) • u) ≤ (s - t • u) ⬝ᵥ (s - t • u) := by
  have e : ∀ a : V, (s - a • u) ⬝ᵥ (s - a • u) = s ⬝ᵥ s - 2 * a * (s ⬝ᵥ u) + a * a * (u ⬝ᵥ u) := by
    intro a
    rw [sub_dotProduct, dotProduct_sub, dotProduct_sub, smul_dotProduct, smul_dotProduct, dotProduct_smul, dotProduct_smul,
      dotProduct_comm u s]
    simp only [smul_eq_mul]
    ring
  rw [e, e]
  have hp : 0 < u ⬝ᵥ u := lt_of_le_of_ne (Finset.sum_nonneg fun i _ => mul_self_nonneg (u i)) (Ne.symm h)
  set w := (s ⬝ᵥ u) / (u ⬝ᵥ u) with hw
  have hsu : s ⬝ᵥ u = w * (u ⬝ᵥ u) := by rw [hw, div_mul_cancel₀ _ h]
  rw [hsu]
  have := mul_nonneg (mul_self_nonneg (w - t)) (le_of_lt hp)
  nlinarith

end

/-! ## Finite termination -/
section
variable {ι V : Type} [Fintype ι] [Field V] (A : Matrix ι ι V) (x0 b : ι → V)

/-- `rt · A^i y`. -/
def moment (rt : ι → V) (i : Nat) (y : ι → V) : V := rt ⬝ᵥ (fun z => A *ᵥ z)^[i] y

theorem moment_succ (rt : ι → V) (i : Nat) (y : ι → V) : moment A rt (i + 1) y = moment A rt i (A *ᵥ y) := rfl

theorem iter_lin (i : Nat) (y z : ι → V) (c : V) :
    (fun z => A *ᵥ z)^[i] (y - c • z) = (fun z => A *ᵥ z)^[i] y - c • (fun z => A *ᵥ z)^[i] z := by
  induction i generalizing y z with
  | zero => rfl
  | succ i ih => rw [Function.iterate_succ_apply, Function.iterate_succ_apply, Function.iterate_succ_apply, mulVec_sub, mulVec_smul, ih]

theorem moment_sub (rt : ι → V) (i : Nat) (y z : ι → V) (c : V) :
    moment A rt i (y - c • z) = moment A rt i y - c * moment A rt i z := by
  unfold moment
  rw [iter_lin, dotProduct_sub, dotProduct_smul, smul_eq_mul]

/-- The stabilising factors `(1 - ω_1 A) ⋯ (1 - ω_k A)`. -/
def stab (w : Nat → V) : Nat → (ι → V) → ι → V
  | 0, y => y
  | k + 1, y => stab w k (y - w k • (A *ᵥ y))

theorem stab_sub (w : Nat → V) (k : Nat) (y z : ι → V) (c : V) : stab A w k (y - c • z) = stab A w k y - c • stab A w k z := by
  induction k generalizing y z with
  | zero => rfl
  | succ k ih =>
    show stab A w k _ = stab A w k _ - c • stab A w k _
    rw [← ih]
    congr 1
    rw [mulVec_sub, mulVec_smul]
    module

theorem stab_mul (w : Nat → V) (k : Nat) (y : ι → V) : stab A w k (A *ᵥ y) = A *ᵥ stab A w k y := by
  induction k generalizing y with
  | zero => rfl
  | succ k ih =>
    show stab A w k _ = A *ᵥ stab A w k _
    rw [← ih, mulVec_sub, mulVec_smul]

theorem stab_succ (w : Nat → V) (k : Nat) (y : ι → V) : stab A w (k + 1) y = stab A w k y - w k • (A *ᵥ stab A w k y) := by
  show stab A w k _ = _
  rw [stab_sub, stab_mul]

/-- The leading coefficient. -/
def lead (w : Nat → V) : Nat → V
  | 0 => 1
  | k + 1 => -(w k) * lead w k

theorem moment_stab (w : Nat → V) (rt : ι → V) (k : Nat) (y : ι → V) (h : ∀ i, i < k → moment A rt i y = 0) :
    rt ⬝ᵥ stab A w k y = lead w k * moment A rt k y := by
  induction k generalizing y with
  | zero => show rt ⬝ᵥ y = 1 * (rt ⬝ᵥ y); rw [one_mul]
  | succ k ih =>
    show rt ⬝ᵥ stab A w k _ = _
    rw [ih _ (fun i hi => ?_), moment_sub, h k (by omega), ← moment_succ]
    · show _ = -(w k) * lead w k * _
      ring
    · rw [moment_sub, h i (by omega), ← moment_succ, h (i + 1) (by omega)]; ring

/-- `ω_{k+1}`. -/
def biOmega (k : Nat) : V := (bi A x0 b k).omega A b
/-- `α_{k+1}`. -/
def biAlpha (k : Nat) : V := (bi A x0 b k).alpha A b
/-- `β_{k+1}`. -/
def biBeta (k : Nat) : V := (((bi A x0 b (k + 1)).r ⬝ᵥ b) / ((bi A x0 b k).r ⬝ᵥ b)) * (biAlpha A x0 b k / biOmega A x0 b k)

/-- Residual and direction of the underlying BiCG process. -/
def bicg : Nat → (ι → V) × (ι → V)
  | 0 => (b, b)
  | k + 1 =>
    ((bicg k).1 - biAlpha A x0 b k • (A *ᵥ (bicg k).2),
      ((bicg k).1 - biAlpha A x0 b k • (A *ᵥ (bicg k).2)) + biBeta A x0 b k • (bicg k).2)

/-- What is known about residuals at step `k`. -/
structure BiE (k : Nat) : Prop where
  r : (bi A x0 b k).r = stab A (biOmega A x0 b) k (bicg A x0 b k).1
  orth : ∀ i, i < k → moment A b i (bicg A x0 b k).1 = 0

/-- What is known about directions at step `k`. -/
structure BiD (k : Nat) : Prop where
  p : (bi A x0 b k).dir b = stab A (biOmega A x0 b) k (bicg A x0 b k).2
  orth : ∀ i, i < k → moment A b (i + 1) (bicg A x0 b k).2 = 0

variable {A x0 b}

theorem BiE.rho {k : Nat} (E : BiE A x0 b k) :
    (bi A x0 b k).r ⬝ᵥ b = lead (biOmega A x0 b) k * moment A b k (bicg A x0 b k).1 := by
  rw [dotProduct_comm, E.r]
  exact moment_stab A _ b k _ E.orth

theorem BiD.denom {k : Nat} (D : BiD A x0 b k) :
    (bi A x0 b k).denom A b = lead (biOmega A x0 b) k * moment A b (k + 1) (bicg A x0 b k).2 := by
  unfold BiState.denom
  rw [D.p, ← stab_mul]
  exact moment_stab A _ b k _ (fun i hi => D.orth i hi)

theorem BiE.next {k : Nat} (E : BiE A x0 b k) (D : BiD A x0 b k) (hd : (bi A x0 b k).denom A b ≠ 0) : BiE A x0 b (k + 1) := by
  have hd' := hd
  rw [D.denom] at hd'
  have hl := left_ne_zero_of_mul hd'
  have hm := right_ne_zero_of_mul hd'
  have ha : biAlpha A x0 b k * moment A b (k + 1) (bicg A x0 b k).2 = moment A b k (bicg A x0 b k).1 := by
    unfold biAlpha BiState.alpha
    rw [E.rho, D.denom]
    field_simp
  refine ⟨?_, fun i hi => ?_⟩
  · show (bi A x0 b k).mid A b - biOmega A x0 b k • (A *ᵥ (bi A x0 b k).mid A b) = stab A _ (k + 1) (_ - _)
    rw [stab_succ]
    have : (bi A x0 b k).mid A b = stab A (biOmega A x0 b) k ((bicg A x0 b k).1 - biAlpha A x0 b k • (A *ᵥ (bicg A x0 b k).2)) := by
      rw [stab_sub, stab_mul, ← E.r, ← D.p]
      rfl
    rw [this]
  · show moment A b i (_ - _) = 0
    rw [moment_sub, ← moment_succ]
    by_cases e : i = k
    · subst e; rw [ha, sub_self]
    · rw [E.orth i (by omega), D.orth i (by omega)]; ring

theorem BiD.next {k : Nat} (E : BiE A x0 b k) (E' : BiE A x0 b (k + 1)) (D : BiD A x0 b k)
    (hd : (bi A x0 b k).denom A b ≠ 0) (hr : (bi A x0 b k).r ⬝ᵥ b ≠ 0) (hw : biOmega A x0 b k ≠ 0) : BiD A x0 b (k + 1) := by
  have hd' := hd
  rw [D.denom] at hd'
  have hl := left_ne_zero_of_mul hd'
  have hm := right_ne_zero_of_mul hd'
  have hr' := hr
  rw [E.rho] at hr'
  have hr' := right_ne_zero_of_mul hr'
  have e2 : (bicg A x0 b (k + 1)).2 = (bicg A x0 b (k + 1)).1 - (-biBeta A x0 b k) • (bicg A x0 b k).2 := by
    show _ + _ = _ - _
    rw [neg_smul, sub_neg_eq_add]
    rfl
  refine ⟨?_, fun i hi => ?_⟩
  · rw [e2, stab_sub, ← E'.r, stab_succ, ← D.p, neg_smul, sub_neg_eq_add]
    rfl
  · rw [e2, moment_sub]
    by_cases e : i = k
    · subst e
      have hb : biBeta A x0 b i * moment A b (i + 1) (bicg A x0 b i).2 = -moment A b (i + 1) (bicg A x0 b (i + 1)).1 := by
        unfold biBeta
        rw [E'.rho, E.rho]
        unfold biAlpha BiState.alpha
        rw [E.rho, D.denom]
        show (-(biOmega A x0 b i) * lead (biOmega A x0 b) i * _ / _ * _) * _ = _
        field_simp
      rw [neg_mul, hb, neg_neg, sub_self]
    · rw [E'.orth (i + 1) (by omega), D.orth i (by omega)]; ring

theorem BiED.all (k : Nat) (h : ∀ i, i < k → (bi A x0 b i).denom A b ≠ 0 ∧ (bi A x0 b i).r ⬝ᵥ b ≠ 0 ∧ biOmega A x0 b i ≠ 0) :
    ∀ j, j ≤ k → BiE A x0 b j ∧ BiD A x0 b j := by
  induction k with
  | zero =>
    intro j hj
    obtain rfl : j = 0 := by omega
    refine ⟨⟨rfl, fun i hi => by omega⟩, ⟨?_, fun i hi => by omega⟩⟩
    show b + _ • (0 - (1 : V) • (0 : ι → V)) = b
    simp
  | succ k ih =>
    have ih := ih (fun i hi => h i (by omega))
    intro j hj
    by_cases e : j = k + 1
    · subst e
      obtain ⟨h1, h2, h3⟩ := h k (by omega)
      obtain ⟨E, D⟩ := ih k (le_refl k)
      exact ⟨E.next D h1, BiD.next E (E.next D h1) D h1 h2 h3⟩
    · exact ih j (by omega)

/-- Vectors with a triangular table of moments are linearly independent, so there is no further vector with zero moments. -/
theorem triangular_zero (f : Nat → (ι → V) → V) (hf : ∀ i y z c, f i (y - c • z) = f i y - c * f i z) (e : Nat → ι → V)
    (h0 : ∀ i k, i < k → f i (e k) = 0) (m : Nat) (h1 : ∀ k, k < m → f k (e k) ≠ 0) (hm : Fintype.card ι ≤ m) (y : ι → V)
    (hy : ∀ i, i < m → f i y = 0) : y = 0 := by
  by_contra hne
  have hz : ∀ i, f i 0 = 0 := by
    intro i
    have := hf i 0 0 1
    simp at this
    simpa using this
  have hadd : ∀ i y z, f i (y + z) = f i y + f i z := by
    intro i y z
    have := hf i y z (-1)
    rw [neg_smul, one_smul, sub_neg_eq_add] at this
    rw [this]; ring
  have hsmul : ∀ i c z, f i (c • z) = c * f i z := by
    intro i c z
    have := hf i 0 z (-c)
    rw [neg_smul, sub_neg_eq_add, zero_add, hz] at this
    rw [this]; ring
  have hsum : ∀ i (s : Finset (Fin (m + 1))) (g : Fin (m + 1) → ι → V), f i (∑ j ∈ s, g j) = ∑ j ∈ s, f i (g j) := by
    intro i s g
    classical
    induction s using Finset.induction_on with
    | empty => simpa using hz i
    | insert a s ha ih => rw [Finset.sum_insert ha, Finset.sum_insert ha, hadd, ih]
  let u : Fin (m + 1) → ι → V := fun j => if j.1 < m then e j.1 else y
  have hli : LinearIndependent V u := by
    rw [Fintype.linearIndependent_iff]
    intro g hg
    have key : ∀ k, (hk : k < m) → g ⟨k, by omega⟩ = 0 := by
      intro k
      induction k using Nat.strong_induction_on with
      | _ k ih =>
        intro hk
        have h2 : f k (∑ j, g j • u j) = 0 := by rw [hg]; exact hz k
        rw [hsum, Finset.sum_eq_single (⟨k, by omega⟩ : Fin (m + 1))] at h2
        · rw [hsmul] at h2
          have : u ⟨k, by omega⟩ = e k := if_pos hk
          rw [this] at h2
          exact (mul_eq_zero.1 h2).resolve_right (h1 k hk)
        · intro j _ hj
          rw [hsmul]
          have hj' : j.1 ≠ k := fun e => hj (Fin.ext e)
          by_cases c1 : j.1 < k
          · have := ih j.1 c1 (by omega)
            rw [show g j = 0 from this, zero_mul]
          · by_cases c2 : j.1 < m
            · have : u j = e j.1 := if_pos c2
              rw [this, h0 k j.1 (by omega), mul_zero]
            · have : u j = y := if_neg c2
              rw [this, hy k hk, mul_zero]
        · intro h; exact absurd (Finset.mem_univ _) h
    intro j
    by_cases c : j.1 < m
    · exact key j.1 c
    · rw [Finset.sum_eq_single j] at hg
      · have : u j = y := if_neg c
        rw [this] at hg
        exact (smul_eq_zero.1 hg).resolve_right hne
      · intro j' _ hj'
        have : j'.1 ≠ j.1 := fun e => hj' (Fin.ext e)
        have := key j'.1 (by have := j'.2; have := j.2; omega)
        rw [show g j' = 0 from this, zero_smul]
      · intro h; exact absurd (Finset.mem_univ _) h
  have := hli.fintype_card_le_finrank
  rw [Fintype.card_fin, Module.finrank_fintype_fun_eq_card] at this
  omega

/-- BiCGStab reaches a zero intermediate residual in the first half of the step whose number is the number of unknowns, if it has not
broken down before. -/
theorem bi_half (m : Nat) (hn : m + 1 = Fintype.card ι) (hreg : BiRegular A x0 b m)
    (h : (bi A x0 b m).ρ ≠ 0 ∧ (bi A x0 b m).ω ≠ 0 ∧ (bi A x0 b m).denom A b ≠ 0) (hrho : (bi A x0 b m).r ⬝ᵥ b ≠ 0) :
    (bi A x0 b m).mid A b = 0 := by
  have hrw : ∀ i, i < m + 1 → (bi A x0 b i).ρ ≠ 0 ∧ (bi A x0 b i).ω ≠ 0 ∧ (bi A x0 b i).denom A b ≠ 0 := by
    intro i hi
    by_cases e : i = m
    · subst e; exact h
    · obtain ⟨h1, h2, h3, -⟩ := hreg i (by omega)
      exact ⟨h1, h2, h3⟩
  have hr : ∀ i, i < m + 1 → (bi A x0 b i).r ⬝ᵥ b ≠ 0 := by
    intro i hi
    by_cases e : i = m
    · subst e; exact hrho
    · exact (hrw (i + 1) (by omega)).1
  have hall := BiED.all (A := A) (x0 := x0) (b := b) m
    (fun i hi => ⟨(hrw i (by omega)).2.2, hr i (by omega), (hrw (i + 1) (by omega)).2.1⟩)
  obtain ⟨E, D⟩ := hall m (le_refl m)
  have E' := E.next D h.2.2
  have hE : ∀ i, i ≤ m → BiE A x0 b i := fun i hi => (hall i hi).1
  have hz : (bicg A x0 b (m + 1)).1 = 0 := by
    refine triangular_zero (fun i => moment A b i) (fun i y z c => moment_sub A b i y z c)
      (fun k => if k ≤ m then (bicg A x0 b k).1 else 0) ?_ (m + 1) ?_ (by omega) _ E'.orth
    · intro i k hik
      by_cases c : k ≤ m
      · simp only [if_pos c]; exact (hE k c).orth i hik
      · simp only [if_neg c]
        have := moment_sub A b i 0 0 1
        simp at this
        simpa using this
    · intro k hk
      have c : k ≤ m := by omega
      simp only [if_pos c]
      have := hr k hk
      rw [(hE k c).rho] at this
      exact right_ne_zero_of_mul this
  have hs : ∀ k, stab A (biOmega A x0 b) k 0 = 0 := by
    intro k
    induction k with
    | zero => rfl
    | succ k ih => rw [stab_succ, ih, mulVec_zero, smul_zero, sub_zero]
  have hmid : (bi A x0 b m).mid A b = stab A (biOmega A x0 b) m (bicg A x0 b (m + 1)).1 := by
    show _ = stab A (biOmega A x0 b) m ((bicg A x0 b m).1 - biAlpha A x0 b m • (A *ᵥ (bicg A x0 b m).2))
    rw [stab_sub, stab_mul, ← E.r, ← D.p]
    rfl
  rw [hmid, hz, hs]

/-- It cannot make more steps than there are unknowns without dividing by zero. -/
theorem bi_breaks_down (n : Nat) (hn : n = Fintype.card ι) : ¬ BiRegular A x0 b (n + 1) := by
  intro h
  cases n with
  | zero =>
    apply (h 0 (by omega)).2.2.2
    have : IsEmpty ι := Fintype.card_eq_zero_iff.1 hn.symm
    unfold dotProduct
    exact Finset.sum_of_isEmpty _
  | succ m =>
    obtain ⟨h1, h2, h3, h4⟩ := h m (by omega)
    have := bi_half m hn (fun i hi => h i (by omega)) ⟨h1, h2, h3⟩ (h (m + 1) (by omega)).1
    apply h4
    rw [this, mulVec_zero, zero_dotProduct]

end
end Verif.Textbook
