import Verif.Units.Weights
import Verif.Special.Props

/-! # C88: changing the units of a linear system -/
set_option linter.dupNamespace false
set_option linter.unusedSectionVars false
namespace Verif.Units
open Verif.Runtime Verif.Vector Verif.Matrix Verif.Planner Verif.Solver Verif.Special
variable {K P V Γ : Type} [DecidableEq P] [DecidableEq K] [CommGroup Γ] {A : Arith V} {act : Γ → V → V}
variable {G : Geometry P} {calls : List (Setup K P V)} {base : Nat} {g h : Γ} {s s' : Cell P → V}

/-- The client whose matrices hold both the old and the new entries. -/
abbrev both (act : Γ → V → V) (g : Γ) (calls : List (Setup K P V)) : List (Setup K P (V × V)) := mapCalls (fun e => (e, act g e)) calls

theorem product_unit (L : UnitLaws A act) : ProductUnit act g (rowTimes (pairArith A) G (both act g calls)) := by
  intro e y hy u
  unfold rowTimes
  have : ∀ (l : List ((Σ _ : Nat, P) × (V × V))), (∀ t ∈ l, Wt act g t.2) → ∀ a, Wt act (g * e) a →
      Wt act (g * e) (l.foldl (fun a t => (pairArith A).add a ((pairArith A).mul t.2
        (if h : t.1 ∈ clientUnknowns G (both act g calls) then y ⟨t.1, h⟩ else (pairArith A).zero))) a) := by
    intro l
    induction l with
    | nil => exact fun _ a ha => ha
    | cons t l ih =>
      intro ht a ha
      refine ih (fun t' h' => ht t' (List.mem_cons_of_mem _ h')) _ (wt_add L ha (wt_mul L (ht t List.mem_cons_self) ?_))
      split
      · exact hy _
      · exact wt_zero L e
  refine this _ (fun t ht => ?_) _ (wt_zero L _)
  rw [stored_map] at ht
  obtain ⟨t', -, rfl⟩ := List.mem_map.1 ht
  rfl

/-- The memory of both runs. -/
def bothMem (s s' : Cell P → V) (c : Cell P) : V × V := (s c, s' c)

theorem rhs_wt (hsys : ClientSystem G calls base) (e : Γ) (hb : Changed G (rhss calls) (act e) s s') (u : clientUnknowns G (both act g calls)) :
    Wt act e (valueAt (pairArith A) (rhss (both act g calls)) (bothMem s s') u.1) := by
  obtain ⟨v, hv, hp, hval⟩ := unknown_rhs (A := pairArith A) (client_map (fun e => (e, act g e)) hsys) u
  rw [hval]
  rw [rhss_map] at hv
  exact hb v hv _ hp

theorem sol_wt (e : Γ) (hx : Changed G (sols calls) (act e) s s') (u : clientUnknowns G (both act g calls)) :
    Wt act e (valueAt (pairArith A) (sols (both act g calls)) (bothMem s s') u.1) := by
  obtain ⟨v, hv, hp, hval⟩ := unknown_sol (A := pairArith A) u
  rw [hval]
  rw [sols_map] at hv
  exact hx v hv _ hp

theorem both_planners {pl2 : Planner K P (V × V)} {pl pl' : Planner K P V} (h2 : Planner.empty.setupAll G (both act g calls) = some pl2)
    (h : Planner.empty.setupAll G calls = some pl) (h' : Planner.empty.setupAll G (mapCalls (act g) calls) = some pl') :
    PlRel (fun p v => p.1 = v) pl2 pl ∧ PlRel (fun p v => p.2 = v) pl2 pl' := by
  have r1 := rel_setupAll (R := fun (p : V × V) v => p.1 = v) G
    (callsRel_map (f := fun e => (e, act g e)) (g := fun e => e) (fun _ => rfl) calls) (plRel_empty (K := K) (P := P))
  have r2 := rel_setupAll (R := fun (p : V × V) v => p.2 = v) G
    (callsRel_map (f := fun e => (e, act g e)) (g := act g) (fun _ => rfl) calls) (plRel_empty (K := K) (P := P))
  rw [mapCalls_id] at r1
  rw [h2, h] at r1
  rw [h2, h'] at r2
  cases r1 with
  | some r1 =>
    cases r2 with
    | some r2 => exact ⟨r1, r2⟩

theorem mem_unknowns {V W : Type} (f : V → W) {calls : List (Setup K P V)} {u : Σ _ : Nat, P} :
    u ∈ clientUnknowns G (mapCalls f calls) ↔ u ∈ clientUnknowns G calls := by rw [unknowns_map]

/-- **C88**, CG.  The right-hand side is changed to the unit `h`, the matrices to the unit `g`, the initial guess accordingly to `h / g`.
Then after every number of steps and for every schedule the solution is changed by exactly `h / g`, and the recorded squared norms by
exactly `h h`. -/
theorem c88_cg (L : UnitLaws A act) (hsys : ClientSystem G calls base) (hb : Changed G (rhss calls) (act h) s s')
    (hx : Changed G (sols calls) (act (h / g)) s s') (n : Nat) :
    ∃ pl pl', Planner.empty.setupAll G calls = some pl ∧ Planner.empty.setupAll G (mapCalls (act g) calls) = some pl' ∧
      ∃ (x : Nat → (Σ _ : Nat, P) → V) (ρ : Nat → V), ∀ k,
        (Ensures (cg A G pl base k) n s fun c t => (∀ u ∈ clientUnknowns G calls, valueAt A (sols calls) t u = x k u) ∧
          c.history.length = k + 1 ∧ ∀ (i : Nat) a, c.history[i]? = some a → t (.fut a.fut) = ρ i) ∧
        Ensures (cg A G pl' base k) n s' fun c t => (∀ u ∈ clientUnknowns G calls, valueAt A (sols calls) t u = act (h / g) (x k u)) ∧
          c.history.length = k + 1 ∧ ∀ (i : Nat) a, c.history[i]? = some a → t (.fut a.fut) = act (h * h) (ρ i) := by
  obtain ⟨pl, hpl, x1, -, -, -, ρ1, -, -, e1⟩ := cg_recurrence A hsys n s
  obtain ⟨pl', hpl', x2, -, -, -, ρ2, -, -, e2⟩ := cg_recurrence A (client_map (act g) hsys) n s'
  obtain ⟨pb, hpb, x, p, q, r, ρ, π, run, e⟩ := cg_recurrence (pairArith A) (client_map (fun e => (e, act g e)) hsys) n (bothMem s s')
  have hw := cg_weights L (product_unit L) (sol_wt _ hx) (rhs_wt hsys _ hb) run
  obtain ⟨r1, r2⟩ := both_planners hpb hpl hpl'
  have t1 : ∀ k, (∀ u (hu : u ∈ clientUnknowns G calls), x1 k ⟨u, hu⟩ = (x k ⟨u, (mem_unknowns _).2 hu⟩).1) ∧ ρ1 k = (ρ k).1 := by
    intro k
    obtain ⟨c, tb, t, hm, ⟨q1, -, q2, q3⟩, q1', -, -, q3'⟩ :=
      (rel_cg (fst_rel A) G r1 base k).together (s := bothMem s s') (s' := s) (fun _ => rfl) (e k) (e1 k)
    have hl : k < c.history.length := by omega
    refine ⟨fun u hu => ?_, ?_⟩
    · rw [← q1' ⟨u, hu⟩, ← q1 ⟨u, (mem_unknowns _).2 hu⟩, valueAt_fst hm, sols_map]
    · rw [← q3 k _ (List.getElem?_eq_getElem hl), ← q3' k _ (List.getElem?_eq_getElem hl)]
      exact (hm _).symm
  have t2 : ∀ k, (∀ u (hu : u ∈ clientUnknowns G (mapCalls (act g) calls)),
      x2 k ⟨u, hu⟩ = (x k ⟨u, (mem_unknowns _).2 ((mem_unknowns _).1 hu)⟩).2) ∧ ρ2 k = (ρ k).2 := by
    intro k
    obtain ⟨c, tb, t, hm, ⟨q1, -, q2, q3⟩, q1', -, -, q3'⟩ :=
      (rel_cg (snd_rel A) G r2 base k).together (s := bothMem s s') (s' := s') (fun _ => rfl) (e k) (e2 k)
    have hl : k < c.history.length := by omega
    refine ⟨fun u hu => ?_, ?_⟩
    · rw [← q1' ⟨u, hu⟩, ← q1 ⟨u, (mem_unknowns _).2 ((mem_unknowns _).1 hu)⟩, valueAt_snd hm, sols_map, sols_map]
    · rw [← q3 k _ (List.getElem?_eq_getElem hl), ← q3' k _ (List.getElem?_eq_getElem hl)]
      exact (hm _).symm
  refine ⟨pl, pl', hpl, hpl', fun k u => if hu : u ∈ clientUnknowns G (both act g calls) then (x k ⟨u, hu⟩).1 else A.zero,
    fun k => (ρ k).1, fun k => ⟨ensures_weaken (e1 k) ?_, ensures_weaken (e2 k) ?_⟩⟩
  · rintro c t ⟨q1, -, q2, q3⟩
    refine ⟨fun u hu => ?_, q2, fun i a ha => ?_⟩
    · dsimp only
      rw [dif_pos ((mem_unknowns _).2 hu), q1 ⟨u, hu⟩, (t1 k).1 u hu]
    · rw [q3 i a ha, (t1 i).2]
  · rintro c t ⟨q1, -, q2, q3⟩
    refine ⟨fun u hu => ?_, q2, fun i a ha => ?_⟩
    · have hu' := (mem_unknowns (act g)).2 hu
      have := q1 ⟨u, hu'⟩
      rw [sols_map] at this
      dsimp only
      rw [dif_pos ((mem_unknowns _).2 hu), this, (t2 k).1 u hu']
      exact (hw k).1 _
    · rw [q3 i a ha, (t2 i).2]
      exact (hw i).2

theorem last_get {X : Type} {l : List X} {x : X} {k : Nat} (h : l.length = k) : (l ++ [x])[k]? = some x := by
  rw [List.getElem?_append_right (by omega), h, Nat.sub_self]
  rfl

/-- **C88**, BiCGStab: the solution is changed by exactly `h / g`; of the recorded values, `ρ` by `h h`, `α` and `ω` by `1 / g` (the first
one of each is a constant and stays as it is). -/
theorem c88_bicgstab (L : UnitLaws A act) (hsys : ClientSystem G calls base) (hb : Changed G (rhss calls) (act h) s s')
    (hx : Changed G (sols calls) (act (h / g)) s s') (n : Nat) :
    ∃ pl pl', Planner.empty.setupAll G calls = some pl ∧ Planner.empty.setupAll G (mapCalls (act g) calls) = some pl' ∧
      ∃ (x : Nat → (Σ _ : Nat, P) → V) (ρ α ω : Nat → V), ∀ k,
        (Ensures (biCGStab A G pl base k) n s fun c t => (∀ u ∈ clientUnknowns G calls, valueAt A (sols calls) t u = x k u) ∧
          (c.rhos.length = k ∧ c.alphas.length = k ∧ c.omegas.length = k) ∧
          (∀ (i : Nat) a, (c.rhos ++ [c.rho])[i]? = some a → t (.fut a.fut) = ρ i) ∧
          (∀ (i : Nat) a, (c.alphas ++ [c.alpha])[i]? = some a → t (.fut a.fut) = α i) ∧
          ∀ (i : Nat) a, (c.omegas ++ [c.omega])[i]? = some a → t (.fut a.fut) = ω i) ∧
        Ensures (biCGStab A G pl' base k) n s' fun c t => (∀ u ∈ clientUnknowns G calls, valueAt A (sols calls) t u = act (h / g) (x k u)) ∧
          (c.rhos.length = k ∧ c.alphas.length = k ∧ c.omegas.length = k) ∧
          (∀ (i : Nat) a, (c.rhos ++ [c.rho])[i]? = some a → t (.fut a.fut) = if i = 0 then ρ i else act (h * h) (ρ i)) ∧
          (∀ (i : Nat) a, (c.alphas ++ [c.alpha])[i]? = some a → t (.fut a.fut) = if i = 0 then α i else act g⁻¹ (α i)) ∧
          ∀ (i : Nat) a, (c.omegas ++ [c.omega])[i]? = some a → t (.fut a.fut) = if i = 0 then ω i else act g⁻¹ (ω i) := by
  obtain ⟨pl, hpl, x1, -, -, -, -, -, ρ1, α1, ω1, -, -, -, -, e1⟩ := bi_recurrence A hsys n s
  obtain ⟨pl', hpl', x2, -, -, -, -, -, ρ2, α2, ω2, -, -, -, -, e2⟩ := bi_recurrence A (client_map (act g) hsys) n s'
  obtain ⟨pb, hpb, x, p, v, r, w, t, ρ, α, ω, τ, ν, η, run, e⟩ :=
    bi_recurrence (pairArith A) (client_map (fun e => (e, act g e)) hsys) n (bothMem s s')
  have hw := bi_weights L (product_unit L) (sol_wt _ hx) (rhs_wt hsys _ hb) run
  obtain ⟨r1, r2⟩ := both_planners hpb hpl hpl'
  have t1 : ∀ k, (∀ u (hu : u ∈ clientUnknowns G calls), x1 k ⟨u, hu⟩ = (x k ⟨u, (mem_unknowns _).2 hu⟩).1) ∧ ρ1 k = (ρ k).1 ∧
      α1 k = (α k).1 ∧ ω1 k = (ω k).1 := by
    intro k
    obtain ⟨c, tb, t, hm, ⟨q1, -, ql, q2, q3, q4⟩, q1', -, -, q2', q3', q4'⟩ :=
      (rel_biCGStab (fst_rel A) G r1 base k).together (s := bothMem s s') (s' := s) (fun _ => rfl) (e k) (e1 k)
    refine ⟨fun u hu => ?_, ?_, ?_, ?_⟩
    · rw [← q1' ⟨u, hu⟩, ← q1 ⟨u, (mem_unknowns _).2 hu⟩, valueAt_fst hm, sols_map]
    · rw [← q2 k _ (last_get ql.1), ← q2' k _ (last_get ql.1)]
      exact (hm _).symm
    · rw [← q3 k _ (last_get ql.2.1), ← q3' k _ (last_get ql.2.1)]
      exact (hm _).symm
    · rw [← q4 k _ (last_get ql.2.2), ← q4' k _ (last_get ql.2.2)]
      exact (hm _).symm
  have t2 : ∀ k, (∀ u (hu : u ∈ clientUnknowns G (mapCalls (act g) calls)),
      x2 k ⟨u, hu⟩ = (x k ⟨u, (mem_unknowns _).2 ((mem_unknowns _).1 hu)⟩).2) ∧ ρ2 k = (ρ k).2 ∧ α2 k = (α k).2 ∧ ω2 k = (ω k).2 := by
    intro k
    obtain ⟨c, tb, t, hm, ⟨q1, -, ql, q2, q3, q4⟩, q1', -, -, q2', q3', q4'⟩ :=
      (rel_biCGStab (snd_rel A) G r2 base k).together (s := bothMem s s') (s' := s') (fun _ => rfl) (e k) (e2 k)
    refine ⟨fun u hu => ?_, ?_, ?_, ?_⟩
    · rw [← q1' ⟨u, hu⟩, ← q1 ⟨u, (mem_unknowns _).2 ((mem_unknowns _).1 hu)⟩, valueAt_snd hm, sols_map, sols_map]
    · rw [← q2 k _ (last_get ql.1), ← q2' k _ (last_get ql.1)]
      exact (hm _).symm
    · rw [← q3 k _ (last_get ql.2.1), ← q3' k _ (last_get ql.2.1)]
      exact (hm _).symm
    · rw [← q4 k _ (last_get ql.2.2), ← q4' k _ (last_get ql.2.2)]
      exact (hm _).symm
  refine ⟨pl, pl', hpl, hpl', fun k u => if hu : u ∈ clientUnknowns G (both act g calls) then (x k ⟨u, hu⟩).1 else A.zero,
    fun k => (ρ k).1, fun k => (α k).1, fun k => (ω k).1, fun k => ⟨ensures_weaken (e1 k) ?_, ensures_weaken (e2 k) ?_⟩⟩
  · rintro c t ⟨q1, -, ql, q2, q3, q4⟩
    refine ⟨fun u hu => ?_, ql, fun i a ha => ?_, fun i a ha => ?_, fun i a ha => ?_⟩
    · dsimp only
      rw [dif_pos ((mem_unknowns _).2 hu), q1 ⟨u, hu⟩, (t1 k).1 u hu]
    · rw [q2 i a ha, (t1 i).2.1]
    · rw [q3 i a ha, (t1 i).2.2.1]
    · rw [q4 i a ha, (t1 i).2.2.2]
  · rintro c t ⟨q1, -, ql, q2, q3, q4⟩
    refine ⟨fun u hu => ?_, ql, fun i a ha => ?_, fun i a ha => ?_, fun i a ha => ?_⟩
    · have hu' := (mem_unknowns (act g)).2 hu
      have := q1 ⟨u, hu'⟩
      rw [sols_map] at this
      dsimp only
      rw [dif_pos ((mem_unknowns _).2 hu), this, (t2 k).1 u hu']
      exact (hw k).1 _
    · rw [q2 i a ha, (t2 i).2.1]
      split
      · next hi => subst hi; beta_reduce; rw [run.rho_zero]; rfl
      · obtain ⟨j, rfl⟩ : ∃ j, i = j + 1 := ⟨i - 1, by omega⟩
        exact (hw j).2.1
    · rw [q3 i a ha, (t2 i).2.2.1]
      split
      · next hi => subst hi; beta_reduce; rw [run.alpha_zero]; rfl
      · obtain ⟨j, rfl⟩ : ∃ j, i = j + 1 := ⟨i - 1, by omega⟩
        exact (hw j).2.2.1
    · rw [q4 i a ha, (t2 i).2.2.2]
      split
      · next hi => subst hi; beta_reduce; rw [run.omega_zero]; rfl
      · obtain ⟨j, rfl⟩ : ∃ j, i = j + 1 := ⟨i - 1, by omega⟩
        exact (hw j).2.2.2

/-- GMRES on both systems: if every cycle keeps the two solutions equal, the runs end with equal solutions. -/
theorem gmres_both (hsys : ClientSystem G calls base) (m n : Nat) :
    ∃ pl pl', Planner.empty.setupAll G calls = some pl ∧ Planner.empty.setupAll G (mapCalls (act g) calls) = some pl' ∧
      ∃ (x : Nat → clientUnknowns G (both act g calls) → V × V) (B : Nat → Nat → clientUnknowns G (both act g calls) → V × V)
        (H : Nat → Nat → Nat → V × V), (∀ u, x 0 u = valueAt (pairArith A) (sols (both act g calls)) (bothMem s s') u.1) ∧
        (∀ k, Cycle (pairArith A) (rowTimes (pairArith A) G (both act g calls)) m
          (fun u => valueAt (pairArith A) (rhss (both act g calls)) (bothMem s s') u.1) (x k) (B k) (H k) (x (k + 1))) ∧
        ∀ k, (Ensures (gmres A G pl base m k) n s fun c t => (∀ u (hu : u ∈ clientUnknowns G calls), valueAt A (sols calls) t u =
            (x k ⟨u, (mem_unknowns _).2 hu⟩).1) ∧ ∀ l, k = l + 1 → ∀ i j, j < m → i ≤ j + 1 → t (.fut (c.inner i j).fut) = (H l i j).1) ∧
          Ensures (gmres A G pl' base m k) n s' fun c t => (∀ u (hu : u ∈ clientUnknowns G calls), valueAt A (sols calls) t u =
            (x k ⟨u, (mem_unknowns _).2 hu⟩).2) ∧ ∀ l, k = l + 1 → ∀ i j, j < m → i ≤ j + 1 → t (.fut (c.inner i j).fut) = (H l i j).2 := by
  obtain ⟨pl, hpl, x1, B1, H1, -, -, e1, f1⟩ := gmres_recurrence A m hsys n s
  obtain ⟨pl', hpl', x2, B2, H2, -, -, e2, f2⟩ := gmres_recurrence A m (client_map (act g) hsys) n s'
  obtain ⟨pb, hpb, x, B, H, h0, hC, e, f⟩ := gmres_recurrence (pairArith A) m (client_map (fun e => (e, act g e)) hsys) n (bothMem s s')
  obtain ⟨r1, r2⟩ := both_planners hpb hpl hpl'
  have t1 : ∀ k u (hu : u ∈ clientUnknowns G calls), x1 k ⟨u, hu⟩ = (x k ⟨u, (mem_unknowns _).2 hu⟩).1 := by
    intro k u hu
    obtain ⟨c, tb, t, hm, ⟨q1, -⟩, q1', -⟩ :=
      (rel_gmres (fst_rel A) G r1 base m k).together (s := bothMem s s') (s' := s) (fun _ => rfl) (e k) (e1 k)
    rw [← q1' ⟨u, hu⟩, ← q1 ⟨u, (mem_unknowns _).2 hu⟩, valueAt_fst hm, sols_map]
  have t2 : ∀ k u (hu : u ∈ clientUnknowns G (mapCalls (act g) calls)),
      x2 k ⟨u, hu⟩ = (x k ⟨u, (mem_unknowns _).2 ((mem_unknowns _).1 hu)⟩).2 := by
    intro k u hu
    obtain ⟨c, tb, t, hm, ⟨q1, -⟩, q1', -⟩ :=
      (rel_gmres (snd_rel A) G r2 base m k).together (s := bothMem s s') (s' := s') (fun _ => rfl) (e k) (e2 k)
    rw [← q1' ⟨u, hu⟩, ← q1 ⟨u, (mem_unknowns _).2 ((mem_unknowns _).1 hu)⟩, valueAt_snd hm, sols_map, sols_map]
  have g1 : ∀ k i j, j < m → i ≤ j + 1 → H1 k i j = (H k i j).1 := by
    intro k i j hj hi
    obtain ⟨c, tb, t, hm, ⟨-, q⟩, -, q'⟩ :=
      (rel_gmres (fst_rel A) G r1 base m (k + 1)).together (s := bothMem s s') (s' := s) (fun _ => rfl) (f k) (f1 k)
    rw [← q i j hj hi, ← q' i j hj hi]
    exact (hm _).symm
  have g2 : ∀ k i j, j < m → i ≤ j + 1 → H2 k i j = (H k i j).2 := by
    intro k i j hj hi
    obtain ⟨c, tb, t, hm, ⟨-, q⟩, -, q'⟩ :=
      (rel_gmres (snd_rel A) G r2 base m (k + 1)).together (s := bothMem s s') (s' := s') (fun _ => rfl) (f k) (f2 k)
    rw [← q i j hj hi, ← q' i j hj hi]
    exact (hm _).symm
  refine ⟨pl, pl', hpl, hpl', x, B, H, h0, hC, fun k => ⟨?_, ?_⟩⟩
  · cases k with
    | zero => exact ensures_weaken (e1 0) fun c t q => ⟨fun u hu => (q.1 ⟨u, hu⟩).trans (t1 0 u hu), fun l hl => by omega⟩
    | succ k =>
      refine ensures_weaken (f1 k) fun c t q => ⟨fun u hu => (q.1 ⟨u, hu⟩).trans (t1 _ u hu), fun l hl i j hj hi => ?_⟩
      obtain rfl : k = l := by omega
      rw [q.2 i j hj hi, g1 k i j hj hi]
  · have key : ∀ k t, (∀ u : clientUnknowns G (mapCalls (act g) calls), valueAt A (sols (mapCalls (act g) calls)) t u.1 = x2 k u) →
        ∀ u (hu : u ∈ clientUnknowns G calls), valueAt A (sols calls) t u = (x k ⟨u, (mem_unknowns _).2 hu⟩).2 := by
      intro k t q u hu
      have hu' := (mem_unknowns (act g)).2 hu
      have := q ⟨u, hu'⟩
      rw [sols_map] at this
      rw [this, t2 k u hu']
    cases k with
    | zero => exact ensures_weaken (e2 0) fun c t q => ⟨key 0 t q.1, fun l hl => by omega⟩
    | succ k =>
      refine ensures_weaken (f2 k) fun c t q => ⟨key _ t q.1, fun l hl i j hj hi => ?_⟩
      obtain rfl : k = l := by omega
      rw [q.2 i j hj hi, g2 k i j hj hi]

/-- **C88**, GMRES: changing the unit of all equations - matrices and right-hand side by the same `g`, the initial guess unchanged -
leaves the solution as it is, after every number of cycles; the inner products recorded in the last cycle change by exactly `g`. -/
theorem c88_gmres (L : UnitLaws A act) (hroot : RootLaw A act) (hsys : ClientSystem G calls base)
    (hb : Changed G (rhss calls) (act g) s s') (hx : Changed G (sols calls) (fun a => a) s s') (m n : Nat) :
    ∃ pl pl', Planner.empty.setupAll G calls = some pl ∧ Planner.empty.setupAll G (mapCalls (act g) calls) = some pl' ∧
      ∃ (x : Nat → (Σ _ : Nat, P) → V) (H : Nat → Nat → Nat → V), ∀ k,
        (Ensures (gmres A G pl base m k) n s fun c t => (∀ u ∈ clientUnknowns G calls, valueAt A (sols calls) t u = x k u) ∧
          (0 < k → ∀ i j, j < m → i ≤ j + 1 → t (.fut (c.inner i j).fut) = H k i j)) ∧
        Ensures (gmres A G pl' base m k) n s' fun c t => (∀ u ∈ clientUnknowns G calls, valueAt A (sols calls) t u = x k u) ∧
          (0 < k → ∀ i j, j < m → i ≤ j + 1 → t (.fut (c.inner i j).fut) = act g (H k i j)) := by
  obtain ⟨pl, pl', hpl, hpl', x, B, H, h0, hC, e⟩ := gmres_both (A := A) (act := act) (g := g) (s := s) (s' := s') hsys m n
  have hx1 : Changed G (sols calls) (act 1) s s' := fun v hv p hp => by rw [hx v hv p hp, L.one]
  have hw : ∀ k u, Wt act 1 (x k u) := by
    intro k
    induction k with
    | zero => intro u; rw [h0]; exact sol_wt 1 hx1 u
    | succ k ih =>
      exact (gmres_weights L hroot (h := g) (product_unit L) (rhs_wt hsys _ hb)
        (fun u => (product_unit L 1 _ ih u).cast (by units)) ih (hC k)).1
  have hH : ∀ k i j, j < m → i ≤ j + 1 → Wt act g (H k i j) := fun k =>
    (gmres_weights L hroot (h := g) (product_unit L) (rhs_wt hsys _ hb)
        (fun u => (product_unit L 1 _ (hw k) u).cast (by units)) (hw k) (hC k)).2
  refine ⟨pl, pl', hpl, hpl', fun k u => if hu : u ∈ clientUnknowns G (both act g calls) then (x k ⟨u, hu⟩).1 else A.zero,
    fun k i j => (H (k - 1) i j).1, fun k => ⟨ensures_weaken (e k).1 ?_, ensures_weaken (e k).2 ?_⟩⟩
  · rintro c t ⟨q1, q2⟩
    refine ⟨fun u hu => ?_, fun hk i j hj hi => q2 (k - 1) (by omega) i j hj hi⟩
    dsimp only
    rw [dif_pos ((mem_unknowns _).2 hu), q1 u hu]
  · rintro c t ⟨q1, q2⟩
    refine ⟨fun u hu => ?_, fun hk i j hj hi => ?_⟩
    · dsimp only
      rw [dif_pos ((mem_unknowns _).2 hu), q1 u hu]
      exact (hw k _).trans (L.one _)
    · rw [q2 (k - 1) (by omega) i j hj hi]
      exact hH _ i j hj hi

/-- **C88**, where it ends: from a zero initial guess the first cycle of GMRES computes the same solution, whatever the units of the matrix
and the right-hand side - although the solution of the system is changed by `h / g`. -/
theorem c88_gmres_ignores_units (L : UnitLaws A act) (hroot : RootLaw A act) (hsys : ClientSystem G calls base)
    (hb : Changed G (rhss calls) (act h) s s') (hx : Everywhere G (sols calls) s fun a => a = A.zero)
    (hx' : Everywhere G (sols calls) s' fun a => a = A.zero) (m n : Nat) :
    ∃ pl pl', Planner.empty.setupAll G calls = some pl ∧ Planner.empty.setupAll G (mapCalls (act g) calls) = some pl' ∧
      ∃ x : (Σ _ : Nat, P) → V,
        (Ensures (gmres A G pl base m 1) n s fun _ t => ∀ u ∈ clientUnknowns G calls, valueAt A (sols calls) t u = x u) ∧
        Ensures (gmres A G pl' base m 1) n s' fun _ t => ∀ u ∈ clientUnknowns G calls, valueAt A (sols calls) t u = x u := by
  obtain ⟨pl, pl', hpl, hpl', x, B, H, h0, hC, e⟩ := gmres_both (A := A) (act := act) (g := g) (s := s) (s' := s') hsys m n
  have hz : ∀ e u, Wt act e (x 0 u) := fun e u => by
    rw [h0]
    refine sol_wt e (fun v hv p hp => ?_) u
    rw [hx v hv p hp, hx' v hv p hp, L.zero]
  have hw : ∀ u, Wt act 1 (x 1 u) := (gmres_weights L hroot (h := h) (product_unit L) (rhs_wt hsys _ hb)
    (fun u => (product_unit L (h / g) _ (hz _) u).cast (by units)) (hz 1) (hC 0)).1
  refine ⟨pl, pl', hpl, hpl', fun u => if hu : u ∈ clientUnknowns G (both act g calls) then (x 1 ⟨u, hu⟩).1 else A.zero,
    ensures_weaken (e 1).1 ?_, ensures_weaken (e 1).2 ?_⟩
  · rintro c t ⟨q1, -⟩ u hu
    dsimp only
    rw [dif_pos ((mem_unknowns _).2 hu), q1 u hu]
  · rintro c t ⟨q1, -⟩ u hu
    dsimp only
    rw [dif_pos ((mem_unknowns _).2 hu), q1 u hu]
    exact (hw _).trans (L.one _)

end Verif.Units
