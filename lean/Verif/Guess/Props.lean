import Verif.Guess.Unique
import Verif.Units.Props
import Verif.Special.Undefined

/-! # C89: what becomes of the initial guess, and starting again -/
set_option linter.dupNamespace false
set_option linter.unusedSectionVars false
namespace Verif.Guess
open Verif.Runtime Verif.Vector Verif.Matrix Verif.Planner Verif.Solver Verif.Special Verif.Units
variable {K P V : Type} [DecidableEq P] [DecidableEq K] {A : Arith V}
variable {G : Geometry P} {calls : List (Setup K P V)} {base : Nat} {s s' : Cell P → V}

/-! ## Specification -/

/-- The vectors `vs` hold the same in `s` and `s'`. -/
def Same (G : Geometry P) (vs : List Vec) (s s' : Cell P → V) : Prop :=
  ∀ v ∈ vs, ∀ p ∈ G.points v.space, s' (.elem v.data p) = s (.elem v.data p)

/-- The client's solution, by unknown. -/
def Solution (A : Arith V) (G : Geometry P) (calls : List (Setup K P V)) (t : Cell P → V) (x : (Σ _ : Nat, P) → V) : Prop :=
  ∀ u ∈ clientUnknowns G calls, valueAt A (sols calls) t u = x u

/-- The recorded scalars hold the first values of a sequence. -/
def Records (t : Cell P → V) (l : List Scalar) (ρ : Nat → V) : Prop := ∀ (i : Nat) a, l[i]? = some a → t (.fut a.fut) = ρ i

/-- A sequence of vectors: step `k` adds `α k` times the direction `d k`. -/
def Follows (A : Arith V) (G : Geometry P) (calls : List (Setup K P V)) (α : Nat → V) (d x : Nat → (Σ _ : Nat, P) → V) : Prop :=
  ∀ k, ∀ u ∈ clientUnknowns G calls, x (k + 1) u = A.fma (α k) (d k u) (x k u)

/-- A sequence of vectors: step `k` adds `α k` times the direction `d k`, then `ω k` times the direction `e k`. -/
def FollowsTwo (A : Arith V) (G : Geometry P) (calls : List (Setup K P V)) (α : Nat → V) (d : Nat → (Σ _ : Nat, P) → V) (ω : Nat → V)
    (e x : Nat → (Σ _ : Nat, P) → V) : Prop :=
  ∀ k, ∀ u ∈ clientUnknowns G calls, x (k + 1) u = A.fma (ω k) (e k u) (A.fma (α k) (d k u) (x k u))

/-! ## Two runs that differ in the initial guess only -/

/-- One unit only. -/
theorem one_unit (A : Arith V) : UnitLaws (Γ := Unit) A fun _ a => a where
  one _ := rfl
  mul_act _ _ _ := rfl
  zero _ := rfl
  neg _ _ := rfl
  add _ _ _ := rfl
  mul _ _ _ _ := rfl
  div _ _ _ _ := rfl
  fma _ _ _ _ _ := rfl

/-- A function of the unknowns, extended to all places. -/
def ext (A : Arith V) (G : Geometry P) (calls : List (Setup K P V)) (f : clientUnknowns G calls → V) (u : Σ _ : Nat, P) : V :=
  if h : u ∈ clientUnknowns G calls then f ⟨u, h⟩ else A.zero

theorem ext_mem {f : clientUnknowns G calls → V} {u : Σ _ : Nat, P} (h : u ∈ clientUnknowns G calls) : ext A G calls f u = f ⟨u, h⟩ := dif_pos h

theorem rhs_both (hsys : ClientSystem G calls base) (hb : Same G (rhss calls) s s') (u : clientUnknowns G (both (Γ := Unit) (fun _ a => a) 1 calls)) :
    Wt (Γ := Unit) (fun _ a => a) 1 (valueAt (pairArith A) (rhss (both (Γ := Unit) (fun _ a => a) 1 calls)) (bothMem s s') u.1) :=
  rhs_wt (act := fun _ a => a) hsys 1 hb u

/-- **C89**, CG, in any arithmetic: two runs on the same system with the same right-hand side and different initial guesses (and
different contents of all other memory) use the same coefficients and the same directions and record the same squared norms; the initial
guess is only ever the number to which the steps are added. -/
theorem c89_cg (hsys : ClientSystem G calls base) (hb : Same G (rhss calls) s s') (n : Nat) :
    ∃ pl, Planner.empty.setupAll G calls = some pl ∧ ∃ (α ρ : Nat → V) (d x x' : Nat → (Σ _ : Nat, P) → V),
      Solution A G calls s (x 0) ∧ Solution A G calls s' (x' 0) ∧ Follows A G calls α d x ∧ Follows A G calls α d x' ∧ ∀ k,
        (Ensures (cg A G pl base k) n s fun c t => Solution A G calls t (x k) ∧ c.history.length = k + 1 ∧ Records t c.history ρ) ∧
        Ensures (cg A G pl base k) n s' fun c t => Solution A G calls t (x' k) ∧ c.history.length = k + 1 ∧ Records t c.history ρ := by
  obtain ⟨pl, hpl, x1, -, -, -, ρ1, -, -, e1⟩ := cg_recurrence A hsys n s
  obtain ⟨pl', hpl', x2, -, -, -, ρ2, -, -, e2⟩ := cg_recurrence A hsys n s'
  obtain rfl : pl = pl' := Option.some.inj (hpl.symm.trans hpl')
  obtain ⟨pb, hpb, x, p, q, r, ρ, π, run, e⟩ := cg_recurrence (pairArith A) (client_map (fun e => (e, e)) hsys) n (bothMem s s')
  have hw := cg_weights_r (one_unit A) (h := 1) (product_unit (act := fun _ a => a) (g := 1) (one_unit A)) (rhs_both hsys hb) run
  obtain ⟨r1, r2⟩ := both_planners (Γ := Unit) (act := fun _ a => a) (g := 1) hpb hpl (by rw [mapCalls_id]; exact hpl)
  have key : ∀ k, (∀ u (hu : u ∈ clientUnknowns G calls), x1 k ⟨u, hu⟩ = (x k ⟨u, (mem_unknowns _).2 hu⟩).1 ∧
      x2 k ⟨u, hu⟩ = (x k ⟨u, (mem_unknowns _).2 hu⟩).2) ∧ ρ1 k = (ρ k).1 ∧ ρ2 k = (ρ k).2 := by
    intro k
    obtain ⟨c, tb, t, hm, ⟨q1, -, q2, q3⟩, q1', -, -, q3'⟩ :=
      (rel_cg (fst_rel A) G r1 base k).together (s := bothMem s s') (s' := s) (fun _ => rfl) (e k) (e1 k)
    obtain ⟨c', tb', t', hm', ⟨j1, -, j2, j3⟩, j1', -, -, j3'⟩ :=
      (rel_cg (snd_rel A) G r2 base k).together (s := bothMem s s') (s' := s') (fun _ => rfl) (e k) (e2 k)
    have hl : k < c.history.length := by omega
    have hl' : k < c'.history.length := by omega
    refine ⟨fun u hu => ⟨?_, ?_⟩, ?_, ?_⟩
    · rw [← q1' ⟨u, hu⟩, ← q1 ⟨u, (mem_unknowns _).2 hu⟩, valueAt_fst hm, sols_map]
    · rw [← j1' ⟨u, hu⟩, ← j1 ⟨u, (mem_unknowns _).2 hu⟩, valueAt_snd hm', sols_map]
    · rw [← q3 k _ (List.getElem?_eq_getElem hl), ← q3' k _ (List.getElem?_eq_getElem hl)]
      exact (hm _).symm
    · rw [← j3 k _ (List.getElem?_eq_getElem hl'), ← j3' k _ (List.getElem?_eq_getElem hl')]
      exact (hm' _).symm
  have hx0 : ∀ u : clientUnknowns G calls, x1 0 u = valueAt A (sols calls) s u.1 ∧ x2 0 u = valueAt A (sols calls) s' u.1 := by
    intro u
    have h0 : x 0 ⟨u.1, (mem_unknowns _).2 u.2⟩ = _ := congrFun run.x_zero _
    rw [((key 0).1 u.1 u.2).1, ((key 0).1 u.1 u.2).2, h0]
    refine ⟨?_, ?_⟩
    · rw [valueAt_fst (s := s) (fun _ => rfl), sols_map]
    · rw [valueAt_snd (s := s') (fun _ => rfl), sols_map]
  refine ⟨pl, hpl, fun k => A.div (ρ k).1 (π k).1, fun k => (ρ k).1,
    fun k u => if hu : u ∈ clientUnknowns G calls then (p k ⟨u, (mem_unknowns _).2 hu⟩).1 else A.zero, fun k => ext A G calls (x1 k),
    fun k => ext A G calls (x2 k), ?_, ?_, ?_, ?_, fun k => ⟨ensures_weaken (e1 k) ?_, ensures_weaken (e2 k) ?_⟩⟩
  · intro u hu; beta_reduce; rw [ext_mem hu, (hx0 ⟨u, hu⟩).1]
  · intro u hu; beta_reduce; rw [ext_mem hu, (hx0 ⟨u, hu⟩).2]
  · intro k u hu
    beta_reduce
    rw [ext_mem hu, ext_mem hu, dif_pos hu, ((key _).1 u hu).1, ((key _).1 u hu).1, run.x_succ]
    rfl
  · intro k u hu
    obtain ⟨-, hp, hρ, hπ⟩ := hw k
    beta_reduce
    rw [ext_mem hu, ext_mem hu, dif_pos hu, ((key _).1 u hu).2, ((key _).1 u hu).2, run.x_succ]
    have hp : (p k ⟨u, (mem_unknowns _).2 hu⟩).2 = (p k ⟨u, (mem_unknowns _).2 hu⟩).1 := hp _
    have hρ : (ρ k).2 = (ρ k).1 := hρ
    have hπ : (π k).2 = (π k).1 := hπ
    rw [← hp, ← hρ, ← hπ]
    rfl
  · rintro c t ⟨q1, -, q2, q3⟩
    refine ⟨fun u hu => ?_, q2, fun i a ha => ?_⟩
    · beta_reduce; rw [ext_mem hu, q1 ⟨u, hu⟩]
    · rw [q3 i a ha, (key i).2.1]
  · rintro c t ⟨q1, -, q2, q3⟩
    refine ⟨fun u hu => ?_, q2, fun i a ha => ?_⟩
    · beta_reduce; rw [ext_mem hu, q1 ⟨u, hu⟩]
    · rw [q3 i a ha, (key i).2.2]
      exact (hw i).2.2.1

/-- **C89**, BiCGStab, in any arithmetic. -/
theorem c89_bicgstab (hsys : ClientSystem G calls base) (hb : Same G (rhss calls) s s') (n : Nat) :
    ∃ pl, Planner.empty.setupAll G calls = some pl ∧ ∃ (ρ α ω : Nat → V) (d e x x' : Nat → (Σ _ : Nat, P) → V),
      Solution A G calls s (x 0) ∧ Solution A G calls s' (x' 0) ∧ FollowsTwo A G calls (fun k => α (k + 1)) d (fun k => ω (k + 1)) e x ∧
      FollowsTwo A G calls (fun k => α (k + 1)) d (fun k => ω (k + 1)) e x' ∧ ∀ k,
        (Ensures (biCGStab A G pl base k) n s fun c t => Solution A G calls t (x k) ∧
          (c.rhos.length = k ∧ c.alphas.length = k ∧ c.omegas.length = k) ∧
          Records t (c.rhos ++ [c.rho]) ρ ∧ Records t (c.alphas ++ [c.alpha]) α ∧ Records t (c.omegas ++ [c.omega]) ω) ∧
        Ensures (biCGStab A G pl base k) n s' fun c t => Solution A G calls t (x' k) ∧
          (c.rhos.length = k ∧ c.alphas.length = k ∧ c.omegas.length = k) ∧
          Records t (c.rhos ++ [c.rho]) ρ ∧ Records t (c.alphas ++ [c.alpha]) α ∧ Records t (c.omegas ++ [c.omega]) ω := by
  obtain ⟨pl, hpl, x1, -, -, -, -, -, ρ1, α1, ω1, -, -, -, -, e1⟩ := bi_recurrence A hsys n s
  obtain ⟨pl', hpl', x2, -, -, -, -, -, ρ2, α2, ω2, -, -, -, -, e2⟩ := bi_recurrence A hsys n s'
  obtain rfl : pl = pl' := Option.some.inj (hpl.symm.trans hpl')
  obtain ⟨pb, hpb, x, p, v, r, w, t, ρ, α, ω, τ, ν, η, run, e⟩ :=
    bi_recurrence (pairArith A) (client_map (fun e => (e, e)) hsys) n (bothMem s s')
  have hw := bi_weights_r (one_unit A) (h := 1) (product_unit (act := fun _ a => a) (g := 1) (one_unit A)) (rhs_both hsys hb) run
  obtain ⟨r1, r2⟩ := both_planners (Γ := Unit) (act := fun _ a => a) (g := 1) hpb hpl (by rw [mapCalls_id]; exact hpl)
  have t1 : ∀ k, (∀ u (hu : u ∈ clientUnknowns G calls), x1 k ⟨u, hu⟩ = (x k ⟨u, (mem_unknowns _).2 hu⟩).1) ∧ ρ1 k = (ρ k).1 ∧
      α1 k = (α k).1 ∧ ω1 k = (ω k).1 := by
    intro k
    obtain ⟨c, tb, t, hm, ⟨q1, -, ql, q2, q3, q4⟩, q1', -, -, q2', q3', q4'⟩ :=
      (rel_biCGStab (fst_rel A) G r1 base k).together (s := bothMem s s') (s' := s) (fun _ => rfl) (e k) (e1 k)
    refine ⟨fun u hu => ?_, ?_, ?_, ?_⟩
    · rw [← q1' ⟨u, hu⟩, ← q1 ⟨u, (mem_unknowns _).2 hu⟩, valueAt_fst hm, sols_map]
    · rw [← q2 k _ (last_get ql.1), ← q2' k _ (last_get ql.1)]
      exact (hm _).symm
    · rw [← q3 k _ (last_get ql.2.1), ← q3' k _ (last_get ql.2.1)]
      exact (hm _).symm
    · rw [← q4 k _ (last_get ql.2.2), ← q4' k _ (last_get ql.2.2)]
      exact (hm _).symm
  have t2 : ∀ k, (∀ u (hu : u ∈ clientUnknowns G calls), x2 k ⟨u, hu⟩ = (x k ⟨u, (mem_unknowns _).2 hu⟩).2) ∧ ρ2 k = (ρ k).2 ∧
      α2 k = (α k).2 ∧ ω2 k = (ω k).2 := by
    intro k
    obtain ⟨c, tb, t, hm, ⟨q1, -, ql, q2, q3, q4⟩, q1', -, -, q2', q3', q4'⟩ :=
      (rel_biCGStab (snd_rel A) G r2 base k).together (s := bothMem s s') (s' := s') (fun _ => rfl) (e k) (e2 k)
    refine ⟨fun u hu => ?_, ?_, ?_, ?_⟩
    · rw [← q1' ⟨u, hu⟩, ← q1 ⟨u, (mem_unknowns _).2 hu⟩, valueAt_snd hm, sols_map]
    · rw [← q2 k _ (last_get ql.1), ← q2' k _ (last_get ql.1)]
      exact (hm _).symm
    · rw [← q3 k _ (last_get ql.2.1), ← q3' k _ (last_get ql.2.1)]
      exact (hm _).symm
    · rw [← q4 k _ (last_get ql.2.2), ← q4' k _ (last_get ql.2.2)]
      exact (hm _).symm
  have hsc : ∀ k, (ρ k).2 = (ρ k).1 ∧ (α k).2 = (α k).1 ∧ (ω k).2 = (ω k).1 := by
    intro k
    cases k with
    | zero => rw [run.rho_zero, run.alpha_zero, run.omega_zero]; exact ⟨rfl, rfl, rfl⟩
    | succ k => exact ⟨(hw k).2.2.2.1, (hw k).2.2.2.2.1, (hw k).2.2.2.2.2.1⟩
  have hx0 : ∀ u : clientUnknowns G calls, x1 0 u = valueAt A (sols calls) s u.1 ∧ x2 0 u = valueAt A (sols calls) s' u.1 := by
    intro u
    have h0 : x 0 ⟨u.1, (mem_unknowns _).2 u.2⟩ = _ := congrFun run.x_zero _
    rw [(t1 0).1 u.1 u.2, (t2 0).1 u.1 u.2, h0]
    refine ⟨?_, ?_⟩
    · rw [valueAt_fst (s := s) (fun _ => rfl), sols_map]
    · rw [valueAt_snd (s := s') (fun _ => rfl), sols_map]
  refine ⟨pl, hpl, fun k => (ρ k).1, fun k => (α k).1, fun k => (ω k).1,
    fun k u => if hu : u ∈ clientUnknowns G calls then (p (k + 1) ⟨u, (mem_unknowns _).2 hu⟩).1 else A.zero,
    fun k u => if hu : u ∈ clientUnknowns G calls then (w k ⟨u, (mem_unknowns _).2 hu⟩).1 else A.zero, fun k => ext A G calls (x1 k),
    fun k => ext A G calls (x2 k), ?_, ?_, ?_, ?_, fun k => ⟨ensures_weaken (e1 k) ?_, ensures_weaken (e2 k) ?_⟩⟩
  · intro u hu; beta_reduce; rw [ext_mem hu, (hx0 ⟨u, hu⟩).1]
  · intro u hu; beta_reduce; rw [ext_mem hu, (hx0 ⟨u, hu⟩).2]
  · intro k u hu
    beta_reduce
    rw [ext_mem hu, ext_mem hu, dif_pos hu, dif_pos hu, (t1 _).1 u hu, (t1 _).1 u hu, run.x_succ]
    rfl
  · intro k u hu
    obtain ⟨-, hp, -, -, -, -, hh⟩ := hw k
    beta_reduce
    rw [ext_mem hu, ext_mem hu, dif_pos hu, dif_pos hu, (t2 _).1 u hu, (t2 _).1 u hu, run.x_succ]
    have hp : (p (k + 1) ⟨u, (mem_unknowns _).2 hu⟩).2 = (p (k + 1) ⟨u, (mem_unknowns _).2 hu⟩).1 := hp _
    have hh : (w k ⟨u, (mem_unknowns _).2 hu⟩).2 = (w k ⟨u, (mem_unknowns _).2 hu⟩).1 := hh _
    rw [← hp, ← hh]
    rw [← (hsc (k + 1)).2.1, ← (hsc (k + 1)).2.2]
    rfl
  · rintro c t ⟨q1, -, ql, q2, q3, q4⟩
    refine ⟨fun u hu => ?_, ql, fun i a ha => ?_, fun i a ha => ?_, fun i a ha => ?_⟩
    · beta_reduce; rw [ext_mem hu, q1 ⟨u, hu⟩]
    · rw [q2 i a ha, (t1 i).2.1]
    · rw [q3 i a ha, (t1 i).2.2.1]
    · rw [q4 i a ha, (t1 i).2.2.2]
  · rintro c t ⟨q1, -, ql, q2, q3, q4⟩
    refine ⟨fun u hu => ?_, ql, fun i a ha => ?_, fun i a ha => ?_, fun i a ha => ?_⟩
    · beta_reduce; rw [ext_mem hu, q1 ⟨u, hu⟩]
    · rw [q2 i a ha, (t2 i).2.1]; exact (hsc i).1
    · rw [q3 i a ha, (t2 i).2.2.1]; exact (hsc i).2.1
    · rw [q4 i a ha, (t2 i).2.2.2]; exact (hsc i).2.2

end Verif.Guess
