import Verif.Special.Poison

/-! # C69, C70: zeros, infinities and NaN in a client's system -/
set_option linter.dupNamespace false
set_option linter.unusedSectionVars false
namespace Verif.Special
open Verif.Runtime Verif.Vector Verif.Matrix Verif.Planner Verif.Solver
variable {K P V : Type} [DecidableEq P] [DecidableEq K]
variable {G : Geometry P} {calls : List (Setup K P V)} {base : Nat} {A : Arith V} {Fin Zero NaN : V → Prop}

/-! ## Unknowns and vectors -/

theorem everywhere_sols {s : Cell P → V} {C : V → Prop} (h : ∀ u : clientUnknowns G calls, C (valueAt A (sols calls) s u.1)) :
    Everywhere G (sols calls) s C := by
  intro v hv p hp
  obtain ⟨i, hi, rfl⟩ := List.getElem_of_mem hv
  have hu : (⟨i, p⟩ : Σ _ : Nat, P) ∈ clientUnknowns G calls := by
    unfold clientUnknowns
    rw [Finset.mem_sigma, Finset.mem_range, List.mem_toFinset]
    refine ⟨hi, ?_⟩
    simp only [List.getElem?_eq_getElem hi]
    exact hp
  have := h ⟨_, hu⟩
  unfold valueAt at this
  simp only [List.getElem?_eq_getElem hi] at this
  exact this

theorem somewhere_sols {s : Cell P → V} {C : V → Prop} (h : Somewhere G (sols calls) s C) :
    ∃ u : clientUnknowns G calls, C (valueAt A (sols calls) s u.1) := by
  refine Classical.byContradiction fun hn => ?_
  obtain ⟨v, hv, p, hp, hc⟩ := h
  exact everywhere_sols (A := A) (C := fun a => ¬C a) (fun u hu => hn ⟨u, hu⟩) v hv p hp hc

theorem rhs_unknown (h : ClientSystem G calls base) {v : Vec} (hv : v ∈ rhss calls) {p : P} (hp : p ∈ G.points v.space) :
    ∃ u : clientUnknowns G calls, ∀ s : Cell P → V, valueAt A (rhss calls) s u.1 = s (.elem v.data p) := by
  obtain ⟨pl, pl', -, -, hc⟩ := h.complete 0
  obtain ⟨i, hi, rfl⟩ := List.getElem_of_mem hv
  have hg : (given (calls ++ [.allocate base 0]) 1)[i]? = some (rhss calls)[i] := by
    rw [given_alloc]
    exact List.getElem?_eq_getElem hi
  obtain ⟨⟨⟨j, p'⟩, hu⟩, h1, h2⟩ := (c33_client_vectors hc 1 (by omega)).2 i _ hg p hp
  simp only at h1 h2
  subst h1 h2
  rw [unknowns_eq hc] at hu
  refine ⟨⟨_, hu⟩, fun s => ?_⟩
  unfold valueAt
  simp only [List.getElem?_eq_getElem hi]
  rfl

theorem unknown_rhs (h : ClientSystem G calls base) (u : clientUnknowns G calls) :
    ∃ v ∈ rhss calls, u.1.2 ∈ G.points v.space ∧ ∀ s : Cell P → V, valueAt A (rhss calls) s u.1 = s (.elem v.data u.1.2) := by
  obtain ⟨pl, pl', -, -, hc⟩ := h.complete 0
  have hu : u.1 ∈ pl'.unknowns G := by rw [unknowns_eq hc]; exact u.2
  obtain ⟨v, h1, h2, -⟩ := (c33_client_vectors hc 1 (by omega)).1 ⟨u.1, hu⟩
  rw [given_alloc] at h1
  have h1' : (rhss calls)[u.1.1]? = some v := h1
  refine ⟨v, List.mem_of_getElem? h1', h2, fun s => ?_⟩
  unfold valueAt
  rw [h1']
  rfl

theorem unknown_sol (u : clientUnknowns G calls) :
    ∃ v ∈ sols calls, u.1.2 ∈ G.points v.space ∧ ∀ s : Cell P → V, valueAt A (sols calls) s u.1 = s (.elem v.data u.1.2) := by
  have hu := u.2
  unfold clientUnknowns at hu
  rw [Finset.mem_sigma, Finset.mem_range, List.mem_toFinset] at hu
  obtain ⟨hi, hp⟩ := hu
  simp only [List.getElem?_eq_getElem hi] at hp
  refine ⟨_, List.getElem_mem hi, hp, fun s => ?_⟩
  unfold valueAt
  simp only [List.getElem?_eq_getElem hi]
  rfl

/-! ## The product with the stored matrices -/

section
variable (I : IEEE A Fin Zero NaN)
include I

theorem foldl_zero {T : Type} {f : T → V} (l : List T) : ∀ z, Zero z → (∀ t ∈ l, Zero (f t)) → Zero (l.foldl (fun a t => A.add a (f t)) z) := by
  induction l with
  | nil => intro z hz _; exact hz
  | cons t l ih =>
    intro z hz h
    exact ih _ (I.add_zero _ _ hz (h t (List.mem_cons_self ..))) fun t' ht' => h t' (List.mem_cons_of_mem _ ht')

theorem foldl_inf {T : Type} {f : T → V} (l : List T) : ∀ z, (¬Fin z ∨ ∃ t ∈ l, ¬Fin (f t)) → ¬Fin (l.foldl (fun a t => A.add a (f t)) z) := by
  induction l with
  | nil =>
    rintro z (hz | ⟨t, ht, -⟩)
    · exact hz
    · cases ht
  | cons t l ih =>
    rintro z (hz | ⟨t', ht', hf⟩)
    · exact ih _ (Or.inl (I.add_inf _ _ (Or.inl hz)))
    · rcases List.mem_cons.1 ht' with rfl | ht'
      · exact ih _ (Or.inl (I.add_inf _ _ (Or.inr hf)))
      · exact ih _ (Or.inr ⟨t', ht', hf⟩)

theorem foldl_nan {T : Type} {f : T → V} (l : List T) : ∀ z, (NaN z ∨ ∃ t ∈ l, NaN (f t)) → NaN (l.foldl (fun a t => A.add a (f t)) z) := by
  induction l with
  | nil =>
    rintro z (hz | ⟨t, ht, -⟩)
    · exact hz
    · cases ht
  | cons t l ih =>
    rintro z (hz | ⟨t', ht', hf⟩)
    · exact ih _ (Or.inl (I.add_nan _ _ (Or.inl hz)))
    · rcases List.mem_cons.1 ht' with rfl | ht'
      · exact ih _ (Or.inl (I.add_nan _ _ (Or.inr hf)))
      · exact ih _ (Or.inr ⟨t', ht', hf⟩)

theorem product_client (G : Geometry P) (calls : List (Setup K P V)) :
    Product A Fin Zero NaN (rowTimes A G calls) (fun u => ∃ t ∈ clientStored calls u.1, ¬Fin t.2)
      (fun u => ∃ t ∈ clientStored calls u.1, NaN t.2) (fun u u' => ∃ t ∈ clientStored calls u.1, t.1 = u'.1) where
  zero := by
    intro hc y hy u
    refine foldl_zero I (clientStored calls u.1) _ I.zero fun t ht => I.mul_zero _ _ (Or.inr ⟨?_, ?_⟩)
    · exact Classical.byContradiction fun hn => hc u ⟨t, ht, hn⟩
    · split
      · exact hy _
      · exact I.zero
  coef_inf := by
    rintro y u ⟨t, ht, hf⟩
    exact foldl_inf I (clientStored calls u.1) _ (Or.inr ⟨t, ht, I.mul_inf _ _ (Or.inl hf)⟩)
  coef_nan := by
    rintro y u ⟨t, ht, hf⟩
    exact foldl_nan I (clientStored calls u.1) _ (Or.inr ⟨t, ht, I.mul_nan _ _ (Or.inl hf)⟩)
  use_inf := by
    rintro y u u' ⟨t, ht, he⟩ hf
    refine foldl_inf I (clientStored calls u.1) _ (Or.inr ⟨t, ht, I.mul_inf _ _ (Or.inr ?_)⟩)
    have hm : t.1 ∈ clientUnknowns G calls := he ▸ u'.2
    rw [dif_pos hm]
    have : (⟨t.1, hm⟩ : clientUnknowns G calls) = u' := Subtype.ext he
    rw [this]
    exact hf
  use_nan := by
    rintro y u u' ⟨t, ht, he⟩ hf
    refine foldl_nan I (clientStored calls u.1) _ (Or.inr ⟨t, ht, I.mul_nan _ _ (Or.inr ?_)⟩)
    have hm : t.1 ∈ clientUnknowns G calls := he ▸ u'.2
    rw [dif_pos hm]
    have : (⟨t.1, hm⟩ : clientUnknowns G calls) = u' := Subtype.ext he
    rw [this]
    exact hf

end

theorem stored_unknown (h : ClientSystem G calls base) : ∀ u ∈ clientUnknowns G calls, ∀ t ∈ clientStored calls u,
    t.1 ∈ clientUnknowns G calls := by
  classical
  obtain ⟨pl, pl', -, S, hc⟩ := h.complete 0
  have hu := unknowns_eq hc
  have hm := (c31_consistent G _ hc.constructed pl' hc.accepted).2.2.2.2.2.2.2.1
  rw [mats_alloc] at hm
  intro u _ t ht
  rw [← stored_client hm] at ht
  rw [← hu]
  exact stored_mem S.ready ht

/-! ## C69: no guard against zero divisors -/

section
variable (I : IEEE A Fin Zero NaN) (h : ClientSystem G calls base) (n : Nat) (s : Cell P → V)
include I h

/-- **C69**, conjugate gradients: if a squared residual norm that CG has recorded is zero, two or more steps later every element of the
solution is NaN. -/
theorem c69_cg_zero_norm (k : Nat) : ∃ pl, Planner.empty.setupAll G calls = some pl ∧
    Ensures (cg A G pl base k) n s fun c s' => ∀ (j : Nat) a, c.history[j]? = some a → Zero (s' (.fut a.fut)) → j + 2 ≤ k →
      Everywhere G (sols calls) s' NaN := by
  obtain ⟨pl, hpl, x, p, q, r, ρ, π, R, hk⟩ := cg_recurrence A h n s
  refine ⟨pl, hpl, ensures_weaken (hk k) ?_⟩
  rintro c s' ⟨hx, -, -, hr⟩ j a ha hz hj
  rw [hr j a ha] at hz
  exact everywhere_sols (A := A) fun u => by rw [hx]; exact cg_norm_zero I R hz u k hj

/-- **C69**, conjugate gradients: a right-hand side zero (the exact solution is zero, and CG may even start from it) gives NaN in every
element from the first step on, if the stored coefficients are finite. -/
theorem c69_cg_zero_rhs (k : Nat) (hk : 1 ≤ k) (hb : Everywhere G (rhss calls) s Zero) (hc : AllCoefs G calls Fin) :
    ∃ pl, Planner.empty.setupAll G calls = some pl ∧
    Ensures (cg A G pl base k) n s fun _ s' => Everywhere G (sols calls) s' NaN := by
  obtain ⟨pl, hpl, x, p, q, r, ρ, π, R, hens⟩ := cg_recurrence A h n s
  refine ⟨pl, hpl, ensures_weaken (hens k) ?_⟩
  rintro c s' ⟨hx, -⟩
  refine everywhere_sols (A := A) fun u => ?_
  rw [hx]
  refine cg_rhs_zero I (product_client I G calls) R (fun w ⟨t, ht, hf⟩ => hf (hc w.1 w.2 t ht)) (fun w => ?_) u k hk
  obtain ⟨v, hv, hp, he⟩ := unknown_rhs (A := A) h w
  rw [he]
  exact hb v hv _ hp

/-- **C69**, BiCGStab: if a recorded `ρ` or `ω` is zero, every element of the solution is infinite or NaN from the next step on, and NaN
if the matrices store any coefficient at all. -/
theorem c69_bicgstab_zero_scalar (k : Nat) : ∃ pl, Planner.empty.setupAll G calls = some pl ∧
    Ensures (biCGStab A G pl base k) n s fun c s' => ∀ (j : Nat) a,
      ((c.rhos ++ [c.rho])[j]? = some a ∨ (c.omegas ++ [c.omega])[j]? = some a) → Zero (s' (.fut a.fut)) → j + 1 ≤ k →
      Everywhere G (sols calls) s' (fun v => ¬Fin v) ∧ (SomeCoef G calls (fun _ => True) → Everywhere G (sols calls) s' NaN) := by
  obtain ⟨pl, hpl, x, p, v, r, g, t, ρ, α, ω, τ, ν, η, R, hens⟩ := bi_recurrence A h n s
  refine ⟨pl, hpl, ensures_weaken (hens k) ?_⟩
  rintro c s' ⟨hx, -, -, h1, -, h2⟩ j a ha hz hj
  have hz' : Zero (ρ j) ∨ Zero (ω j) := by
    rcases ha with ha | ha
    · rw [h1 j a ha] at hz; exact Or.inl hz
    · rw [h2 j a ha] at hz; exact Or.inr hz
  constructor
  · exact everywhere_sols (A := A) fun u => by rw [hx]; exact bi_scalar_zero_inf I R hz' u k hj
  · rintro ⟨w, hw, e, he, -⟩
    refine everywhere_sols (A := A) fun u => ?_
    rw [hx]
    exact bi_scalar_zero I (product_client I G calls) R (w := ⟨w, hw⟩) (w' := ⟨e.1, stored_unknown h w hw e he⟩) ⟨e, he, rfl⟩ hz' u k hj

/-- **C69**, BiCGStab: a right-hand side zero gives NaN in every element from the first step on, if the stored coefficients are finite. -/
theorem c69_bicgstab_zero_rhs (k : Nat) (hk : 1 ≤ k) (hb : Everywhere G (rhss calls) s Zero) (hc : AllCoefs G calls Fin) :
    ∃ pl, Planner.empty.setupAll G calls = some pl ∧
    Ensures (biCGStab A G pl base k) n s fun _ s' => Everywhere G (sols calls) s' NaN := by
  obtain ⟨pl, hpl, x, p, v, r, g, t, ρ, α, ω, τ, ν, η, R, hens⟩ := bi_recurrence A h n s
  refine ⟨pl, hpl, ensures_weaken (hens k) ?_⟩
  rintro c s' ⟨hx, -⟩
  refine everywhere_sols (A := A) fun u => ?_
  rw [hx]
  refine bi_rhs_zero I (product_client I G calls) R (fun w ⟨t, ht, hf⟩ => hf (hc w.1 w.2 t ht)) (fun w => ?_) u k hk
  obtain ⟨v, hv, hp, he⟩ := unknown_rhs (A := A) h w
  rw [he]
  exact hb v hv _ hp

/-- **C69**, GMRES: if the normalisation of a basis vector (other than the last) that the last step has recorded is zero, every element of
the solution is infinite or NaN. -/
theorem c69_gmres_zero_entry (m k : Nat) : ∃ pl, Planner.empty.setupAll G calls = some pl ∧
    Ensures (gmres A G pl base m (k + 1)) n s fun c s' => ∀ j, j + 1 < m → Zero (s' (.fut (c.inner (j + 1) j).fut)) →
      Everywhere G (sols calls) s' fun v => ¬Fin v := by
  obtain ⟨pl, hpl, x, B, H, -, R, -, hens⟩ := gmres_recurrence A m h n s
  refine ⟨pl, hpl, ensures_weaken (hens k) ?_⟩
  rintro c s' ⟨hx, hH⟩ j hj hz
  rw [hH _ _ (by omega) (Nat.le_refl _)] at hz
  exact everywhere_sols (A := A) fun u => by rw [hx]; exact gm_entry_zero I (R k) hj hz u

theorem gmres_stays {m : Nat} {b : clientUnknowns G calls → V} {x : Nat → clientUnknowns G calls → V}
    {B : Nat → Nat → clientUnknowns G calls → V} {H : Nat → Nat → Nat → V}
    (R : ∀ k, Cycle A (rowTimes A G calls) m b (x k) (B k) (H k) (x (k + 1))) {k : Nat} {u : clientUnknowns G calls} :
    (NaN (x k u) → ∀ k', k ≤ k' → NaN (x k' u)) ∧ (¬Fin (x k u) → ∀ k', k ≤ k' → ¬Fin (x k' u)) := by
  constructor
  · intro hn k' hk
    induction hk with
    | refl => exact hn
    | step _ ih => exact gm_keep_nan I (R _) ih
  · intro hn k' hk
    induction hk with
    | refl => exact hn
    | step _ ih => exact gm_keep_inf I (R _) ih

/-- **C69**, GMRES: once the residual that a step computes is zero - the solution it starts from solves the system, as computed -, every
element of the solution is NaN from that step on.  `x` are the solutions after `0, 1, …` steps. -/
theorem c69_gmres_zero_residual (m : Nat) (hm : 0 < m) : ∃ pl, Planner.empty.setupAll G calls = some pl ∧
    ∃ x : Nat → clientUnknowns G calls → V,
      (∀ k, Ensures (gmres A G pl base m k) n s fun _ s' => ∀ u : clientUnknowns G calls, valueAt A (sols calls) s' u.1 = x k u) ∧
      ∀ k, (∀ u, Zero (A.fma (A.neg A.one) (rowTimes A G calls (x k) u) (valueAt A (rhss calls) s u.1))) →
        ∀ k', k < k' → Ensures (gmres A G pl base m k') n s fun _ s' => Everywhere G (sols calls) s' NaN := by
  obtain ⟨pl, hpl, x, B, H, -, R, hens, -⟩ := gmres_recurrence A m h n s
  refine ⟨pl, hpl, x, fun k => ensures_weaken (hens k) fun _ _ h => h.1, fun k hz k' hk => ensures_weaken (hens k') ?_⟩
  rintro c s' ⟨hx, -⟩
  refine everywhere_sols (A := A) fun u => ?_
  rw [hx]
  exact (gmres_stays I h R).1 (gm_residual_zero I (R k) hm hz u) k' hk

/-- **C69**, GMRES: a right-hand side zero with an initial solution zero - the exact solution - gives NaN in every element from the first
step on, if the stored coefficients are finite. -/
theorem c69_gmres_zero_rhs (m : Nat) (hm : 0 < m) (k : Nat) (hk : 1 ≤ k) (hb : Everywhere G (rhss calls) s Zero)
    (hx : Everywhere G (sols calls) s Zero) (hc : AllCoefs G calls Fin) : ∃ pl, Planner.empty.setupAll G calls = some pl ∧
    Ensures (gmres A G pl base m k) n s fun _ s' => Everywhere G (sols calls) s' NaN := by
  obtain ⟨pl, hpl, x, B, H, h0, R, hens, -⟩ := gmres_recurrence A m h n s
  refine ⟨pl, hpl, ensures_weaken (hens k) ?_⟩
  rintro c s' ⟨hx', -⟩
  refine everywhere_sols (A := A) fun u => ?_
  rw [hx']
  refine (gmres_stays I h R).1 (gm_residual_zero I (R 0) hm (fun w => ?_) u) k hk
  obtain ⟨v, hv, hp, he⟩ := unknown_rhs (A := A) h w
  rw [he]
  refine I.fma_zero _ _ _ (Or.inr ⟨I.neg_fin _ I.one, ?_⟩) (hb v hv _ hp)
  refine (product_client I G calls).zero (fun w ⟨t, ht, hf⟩ => hf (hc w.1 w.2 t ht)) _ (fun w => ?_) w
  rw [h0]
  obtain ⟨v, hv, hp, he⟩ := unknown_sol (A := A) w
  rw [he]
  exact hx v hv _ hp

/-! ## C70: infinite and NaN inputs -/

/-- **C70**, conjugate gradients: an infinite or NaN element of the right-hand side makes every element of the solution NaN from the
first step on; a NaN coefficient too; an infinite coefficient from the second step on. -/
theorem c70_cg_input (k : Nat) (hk : 1 ≤ k) (hin : (Somewhere G (rhss calls) s fun v => ¬Fin v) ∨ SomeCoef G calls NaN ∨
      2 ≤ k ∧ SomeCoef G calls fun v => ¬Fin v) : ∃ pl, Planner.empty.setupAll G calls = some pl ∧
    Ensures (cg A G pl base k) n s fun _ s' => Everywhere G (sols calls) s' NaN := by
  obtain ⟨pl, hpl, x, p, q, r, ρ, π, R, hens⟩ := cg_recurrence A h n s
  refine ⟨pl, hpl, ensures_weaken (hens k) ?_⟩
  rintro c s' ⟨hx, -⟩
  refine everywhere_sols (A := A) fun u => ?_
  rw [hx]
  rcases hin with ⟨v, hv, y, hy, hf⟩ | ⟨w, hw, e, he, hf⟩ | ⟨hk2, w, hw, e, he, hf⟩
  · obtain ⟨w, hw⟩ := rhs_unknown (A := A) h hv hy
    exact cg_rhs_inf I R (w := w) (by rw [hw]; exact hf) u k hk
  · exact cg_coef_nan I (product_client I G calls) R (w := ⟨w, hw⟩) ⟨e, he, hf⟩ u k hk
  · exact cg_coef_inf I (product_client I G calls) R (w := ⟨w, hw⟩) ⟨e, he, hf⟩ u k hk2

/-- **C70**, conjugate gradients: if a recorded squared norm is infinite or NaN (it may have overflowed), every element of the solution is
infinite or NaN after the next step and NaN from then on. -/
theorem c70_cg_norm (k : Nat) : ∃ pl, Planner.empty.setupAll G calls = some pl ∧
    Ensures (cg A G pl base k) n s fun c s' => ∀ (j : Nat) a, c.history[j]? = some a → ¬Fin (s' (.fut a.fut)) →
      (j + 1 ≤ k → Everywhere G (sols calls) s' fun v => ¬Fin v) ∧ (j + 2 ≤ k → Everywhere G (sols calls) s' NaN) := by
  obtain ⟨pl, hpl, x, p, q, r, ρ, π, R, hk⟩ := cg_recurrence A h n s
  refine ⟨pl, hpl, ensures_weaken (hk k) ?_⟩
  rintro c s' ⟨hx, -, -, hr⟩ j a ha hz
  rw [hr j a ha] at hz
  exact ⟨fun hj => everywhere_sols (A := A) fun u => by rw [hx]; exact (cg_norm_inf I R hz u).1 k hj,
    fun hj => everywhere_sols (A := A) fun u => by rw [hx]; exact (cg_norm_inf I R hz u).2 k hj⟩

/-- **C70**, BiCGStab: an infinite or NaN element of the right-hand side or coefficient makes every element of the solution NaN from the
first step on. -/
theorem c70_bicgstab_input (k : Nat) (hk : 1 ≤ k) (hin : (Somewhere G (rhss calls) s fun v => ¬Fin v) ∨ SomeCoef G calls fun v => ¬Fin v) :
    ∃ pl, Planner.empty.setupAll G calls = some pl ∧
    Ensures (biCGStab A G pl base k) n s fun _ s' => Everywhere G (sols calls) s' NaN := by
  obtain ⟨pl, hpl, x, p, v, r, g, t, ρ, α, ω, τ, ν, η, R, hens⟩ := bi_recurrence A h n s
  refine ⟨pl, hpl, ensures_weaken (hens k) ?_⟩
  rintro c s' ⟨hx, -⟩
  refine everywhere_sols (A := A) fun u => ?_
  rw [hx]
  rcases hin with ⟨v, hv, y, hy, hf⟩ | ⟨w, hw, e, he, hf⟩
  · obtain ⟨w, hw⟩ := rhs_unknown (A := A) h hv hy
    exact bi_rhs_inf I R (w := w) (by rw [hw]; exact hf) u k hk
  · exact bi_coef_inf I (product_client I G calls) R (w := ⟨w, hw⟩) ⟨e, he, hf⟩ u k hk

/-- **C70**, BiCGStab: if a recorded `α` or `ω` is infinite or NaN, so is every element of the solution from that step on. -/
theorem c70_bicgstab_scalar (k : Nat) : ∃ pl, Planner.empty.setupAll G calls = some pl ∧
    Ensures (biCGStab A G pl base k) n s fun c s' => ∀ (j : Nat) a,
      ((c.alphas ++ [c.alpha])[j]? = some a ∨ (c.omegas ++ [c.omega])[j]? = some a) → ¬Fin (s' (.fut a.fut)) → j ≤ k →
      Everywhere G (sols calls) s' fun v => ¬Fin v := by
  obtain ⟨pl, hpl, x, p, v, r, g, t, ρ, α, ω, τ, ν, η, R, hens⟩ := bi_recurrence A h n s
  refine ⟨pl, hpl, ensures_weaken (hens k) ?_⟩
  rintro c s' ⟨hx, -, -, -, h1, h2⟩ j a ha hz hj
  have hz' : ¬Fin (α j) ∨ ¬Fin (ω j) := by
    rcases ha with ha | ha
    · rw [h1 j a ha] at hz; exact Or.inl hz
    · rw [h2 j a ha] at hz; exact Or.inr hz
  cases j with
  | zero =>
    rw [R.alpha_zero, R.omega_zero] at hz'
    exact absurd I.one (hz'.resolve_left fun h => h (I.zero_fin _ I.zero))
  | succ j => exact everywhere_sols (A := A) fun u => by rw [hx]; exact bi_scalar_inf I R hz' u k hj

/-- **C70**, GMRES: if the right-hand side, a coefficient, or an element of the initial solution that a stored coefficient multiplies is
infinite or NaN, every element of the solution is NaN from the first step on, provided that the restart length is at least 2. -/
theorem c70_gmres_input (m : Nat) (hm : 2 ≤ m) (k : Nat) (hk : 1 ≤ k) (hin : (Somewhere G (rhss calls) s fun v => ¬Fin v) ∨
      (SomeCoef G calls fun v => ¬Fin v) ∨ ∃ u ∈ clientUnknowns G calls, ∃ t ∈ clientStored calls u, ¬Fin (valueAt A (sols calls) s t.1)) :
    ∃ pl, Planner.empty.setupAll G calls = some pl ∧
    Ensures (gmres A G pl base m k) n s fun _ s' => Everywhere G (sols calls) s' NaN := by
  obtain ⟨pl, hpl, x, B, H, h0, R, hens, -⟩ := gmres_recurrence A m h n s
  refine ⟨pl, hpl, ensures_weaken (hens k) ?_⟩
  rintro c s' ⟨hx', -⟩
  refine everywhere_sols (A := A) fun u => ?_
  rw [hx']
  have hpc := product_client I G calls
  obtain ⟨w, hw⟩ : ∃ w, ¬Fin (A.fma (A.neg A.one) (rowTimes A G calls (x 0) w) (valueAt A (rhss calls) s w.1)) := by
    rcases hin with ⟨v, hv, y, hy, hf⟩ | ⟨w, hw, e, he, hf⟩ | ⟨w, hw, e, he, hf⟩
    · obtain ⟨w, hw⟩ := rhs_unknown (A := A) h hv hy
      exact ⟨w, I.fma_inf _ _ _ (Or.inr (Or.inr (by rw [hw]; exact hf)))⟩
    · exact ⟨⟨w, hw⟩, I.fma_inf _ _ _ (Or.inr (Or.inl (hpc.coef_inf _ ⟨w, hw⟩ ⟨e, he, hf⟩)))⟩
    · refine ⟨⟨w, hw⟩, I.fma_inf _ _ _ (Or.inr (Or.inl (hpc.use_inf _ ⟨w, hw⟩ ⟨e.1, stored_unknown h w hw e he⟩ ⟨e, he, rfl⟩ ?_)))⟩
      rw [h0]
      exact hf
  exact (gmres_stays I h R).1 (gm_residual_inf I (R 0) hm hw u) k hk

/-- **C70**, all solvers: an element of the initial solution that is NaN stays NaN, and one that is infinite or NaN stays so. -/
theorem c70_initial_solution (k : Nat) (m : Nat) : ∃ pl, Planner.empty.setupAll G calls = some pl ∧
    let Keeps := fun s' : Cell P → V => ∀ v ∈ sols calls, ∀ p ∈ G.points v.space,
      (NaN (s (.elem v.data p)) → NaN (s' (.elem v.data p))) ∧ (¬Fin (s (.elem v.data p)) → ¬Fin (s' (.elem v.data p)))
    (Ensures (cg A G pl base k) n s fun _ s' => Keeps s') ∧ (Ensures (biCGStab A G pl base k) n s fun _ s' => Keeps s') ∧
      Ensures (gmres A G pl base m k) n s fun _ s' => Keeps s' := by
  have key : ∀ {s' : Cell P → V}, (∀ u : clientUnknowns G calls, (NaN (valueAt A (sols calls) s u.1) → NaN (valueAt A (sols calls) s' u.1)) ∧
      (¬Fin (valueAt A (sols calls) s u.1) → ¬Fin (valueAt A (sols calls) s' u.1))) → ∀ v ∈ sols calls, ∀ p ∈ G.points v.space,
      (NaN (s (.elem v.data p)) → NaN (s' (.elem v.data p))) ∧ (¬Fin (s (.elem v.data p)) → ¬Fin (s' (.elem v.data p))) := by
    intro s' hs v hv p hp
    obtain ⟨i, hi, rfl⟩ := List.getElem_of_mem hv
    have hu : (⟨i, p⟩ : Σ _ : Nat, P) ∈ clientUnknowns G calls := by
      unfold clientUnknowns
      rw [Finset.mem_sigma, Finset.mem_range, List.mem_toFinset]
      refine ⟨hi, ?_⟩
      simp only [List.getElem?_eq_getElem hi]
      exact hp
    have := hs ⟨_, hu⟩
    unfold valueAt at this
    simp only [List.getElem?_eq_getElem hi] at this
    exact this
  obtain ⟨pl, hpl, x, p, q, r, ρ, π, R, hens⟩ := cg_recurrence A h n s
  obtain ⟨pl2, hpl2, x2, p2, v2, r2, g2, t2, ρ2, α2, ω2, τ2, ν2, η2, R2, hens2⟩ := bi_recurrence A h n s
  obtain ⟨pl3, hpl3, x3, B, H, h03, R3, hens3, -⟩ := gmres_recurrence A m h n s
  rw [hpl] at hpl2 hpl3
  cases hpl2
  cases hpl3
  refine ⟨pl, hpl, ensures_weaken (hens k) ?_, ensures_weaken (hens2 k) ?_, ensures_weaken (hens3 k) ?_⟩
  · rintro c s' ⟨hx, -⟩
    refine key fun u => ?_
    rw [hx]
    have h0 := congrFun R.x_zero u
    beta_reduce at h0
    rw [← h0]
    exact ⟨fun hn => cg_keep_nan I R hn k (Nat.zero_le k), fun hn => cg_keep_inf I R hn k (Nat.zero_le k)⟩
  · rintro c s' ⟨hx, -⟩
    refine key fun u => ?_
    rw [hx]
    have h0 := congrFun R2.x_zero u
    beta_reduce at h0
    rw [← h0]
    exact ⟨fun hn => bi_keep_nan I R2 hn k (Nat.zero_le k), fun hn => bi_keep_inf I R2 hn k (Nat.zero_le k)⟩
  · rintro c s' ⟨hx, -⟩
    refine key fun u => ?_
    rw [hx, ← h03]
    exact ⟨fun hn => (gmres_stays I h R3).1 hn k (Nat.zero_le k), fun hn => (gmres_stays I h R3).2 hn k (Nat.zero_le k)⟩

end
end Verif.Special
