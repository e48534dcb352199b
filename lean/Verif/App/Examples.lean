import Verif.App.Props
import Verif.Solver.Examples

/-! # C85: concrete applications -/
set_option linter.unusedSectionVars false
namespace Verif.App
open Verif.Runtime Verif.Vector Verif.Matrix Verif.Planner Verif.Solver
variable {K P V : Type} [DecidableEq P] [DecidableEq K]

/-- Data found by position is data of one of the vectors. -/
theorem lookup_mem {pl : Planner K P V} {k i : Nat} {v : Vec} (h : pl.lookup k i = some v) : v ∈ pl.sol ++ pl.rhs ++ pl.workspace.flatten := by
  unfold Planner.lookup at h
  simp only [List.mem_append, List.mem_flatten]
  split at h
  · exact .inl (.inl (List.mem_of_getElem? h))
  · split at h
    · exact .inl (.inr (List.mem_of_getElem? h))
    · obtain ⟨l, h1, h2⟩ := Option.bind_eq_some_iff.1 h
      exact .inr ⟨l, List.mem_of_getElem? h1, List.mem_of_getElem? h2⟩

/-- Copies the solution (data 0) into the application's data 100 and the last recorded scalar into its data 101. -/
def save (c : CG Scalar) : Task (Cell Nat) ℚ where
  reads cell := (∃ p, cell = .elem 0 p) ∨ cell = .fut c.last.fut
  writes cell := ∃ p, cell = .elem 100 p ∨ cell = .elem 101 p
  body := [⟨.elem 100 0, fun s => s (.elem 0 0)⟩, ⟨.elem 100 1, fun s => s (.elem 0 1)⟩, ⟨.elem 101 0, fun s => s (.fut c.last.fut)⟩]

theorem save_honest (c : CG Scalar) : (save c).Honest := by
  intro u hu
  simp only [save, List.mem_cons, List.not_mem_nil, or_false] at hu
  rcases hu with rfl | rfl | rfl
  · exact ⟨⟨0, .inl rfl⟩, fun s s' h => h _ (.inl ⟨0, rfl⟩)⟩
  · exact ⟨⟨1, .inl rfl⟩, fun s s' h => h _ (.inl ⟨1, rfl⟩)⟩
  · exact ⟨⟨0, .inr rfl⟩, fun s s' h => h _ (.inr rfl)⟩

/-- The application's own work between steps: it counts in its data 102. -/
def count : Task (Cell Nat) ℚ where
  reads cell := cell = .elem 102 0
  writes cell := cell = .elem 102 0
  body := [⟨.elem 102 0, fun s => s (.elem 102 0) + 1⟩]

theorem count_honest : count.Honest := by
  intro u hu
  obtain rfl := List.mem_singleton.1 hu
  exact ⟨rfl, fun s s' h => by show s _ + 1 = s' _ + 1; rw [h _ rfl]⟩

theorem ex_data (a : Nat → ℚ) (d : Nat) (h : Owns (exPl' a 3) d) : d < 100 := by
  obtain ⟨k, i, v, -, h, rfl⟩ := h
  have : ∀ v ∈ (exPl' a 3).sol ++ (exPl' a 3).rhs ++ (exPl' a 3).workspace.flatten, v.data < 100 := by
    show ∀ v ∈ [(⟨0, 0, 0, 0⟩ : Vec), ⟨1, 0, 0, 0⟩, ⟨10, 0, 0, 0⟩, ⟨11, 0, 0, 0⟩, ⟨12, 0, 0, 0⟩], v.data < 100
    decide
  exact this v (lookup_mem h)

/-- Instance of `c85_cg`: a checkpoint and a count after every step. -/
example (a : Nat → ℚ) : Apart (exPl' a 3) fun _ c => [save c, count] := by
  intro j c t ht
  simp only [List.mem_cons, List.not_mem_nil, or_false] at ht
  rcases ht with rfl | rfl
  · refine ⟨save_honest c, ?_⟩
    rintro cell ⟨p, rfl | rfl⟩
    · exact ⟨100, p, rfl, fun h => absurd (ex_data a _ h) (by decide)⟩
    · exact ⟨101, p, rfl, fun h => absurd (ex_data a _ h) (by decide)⟩
  · exact ⟨count_honest, fun cell h => ⟨102, 0, h, fun h => absurd (ex_data a _ h) (by decide)⟩⟩

/-- Instance of `c85_cg_checkpoint`, and what it says: with a checkpoint after one of two steps and counts after every step, the
application's copy ends as what one step leaves in the solution, under every schedule of the whole. -/
example (a : Nat → ℚ) (s : Cell Nat → ℚ) :
    ∃ c1 e1 c e, cg (exactArith ℚ qsqrt) Solver.exG (exPl a) 10 1 ⟨0, []⟩ = some (c1, e1) ∧
      full (fun L => cgWith (exactArith ℚ qsqrt) Solver.exG (exPl a) 10 1 (fun _ _ => [count]) L >>= fun c => L (save c) >>= fun _ =>
        steps L (CG.step (plannerOps (exactArith ℚ qsqrt) Solver.exG.toEnv (exPl' a 3))) (fun _ _ => [count]) 0 1 c) ⟨0, []⟩ = some (c, e) ∧
      ∀ M M1 : Machine (Cell Nat) ℚ, (Machine.start s e.out).Steps M → M.Done → (Machine.start s e1.out).Steps M1 → M1.Done →
        M.store (.elem 100 0) = M1.store (.elem 0 0) ∧ M.store (.elem 100 1) = M1.store (.elem 0 1) ∧
        M.store (.elem 101 0) = M1.store (.fut c1.last.fut) := by
  have hc : Apart (exPl' a 3) fun (_ : Nat) (_ : CG Scalar) => [count] := by
    intro j c t ht
    obtain rfl := List.mem_singleton.1 ht
    exact ⟨count_honest, fun cell h => ⟨102, 0, h, fun h => absurd (ex_data a _ h) (by decide)⟩⟩
  have hw : ∀ cell, Written (fun (_ : Nat) (_ : CG Scalar) => [count]) cell → cell = .elem 102 0 := by
    rintro cell ⟨j, c, t, ht, h⟩
    obtain rfl := List.mem_singleton.1 ht
    exact h
  obtain ⟨c1, e1, c, e, h1, h2, h3⟩ := c85_cg_checkpoint (exactArith ℚ qsqrt) (exSetup a 3) (fun _ _ => [count]) (fun _ _ => [count]) hc hc
    save (by
      intro c
      refine ⟨save_honest c, ?_⟩
      rintro cell ⟨p, rfl | rfl⟩
      · exact ⟨⟨100, p, rfl, fun h => absurd (ex_data a _ h) (by decide)⟩, fun h => by cases hw _ h⟩
      · exact ⟨⟨101, p, rfl, fun h => absurd (ex_data a _ h) (by decide)⟩, fun h => by cases hw _ h⟩) 1 1 0
  refine ⟨c1, e1, c, e, h1, h2, fun M M1 q1 q2 q3 q4 => ?_⟩
  obtain ⟨seen, g1, g2⟩ := h3 s M M1 q1 q2 q3 q4
  refine ⟨?_, ?_, ?_⟩
  · exact (g2 _ ⟨0, .inl rfl⟩).trans (g1 (.elem 0 0) fun h => by cases hw _ h)
  · exact (g2 _ ⟨1, .inl rfl⟩).trans (g1 (.elem 0 1) fun h => by cases hw _ h)
  · exact (g2 _ ⟨0, .inr rfl⟩).trans (g1 (.fut _) fun h => by cases hw _ h)

/-- Overwrites the right-hand side (data 1) with zeros. -/
def clear : Task (Cell Nat) ℚ where
  reads _ := False
  writes cell := ∃ p, cell = .elem 1 p
  body := [⟨.elem 1 0, fun _ => 0⟩, ⟨.elem 1 1, fun _ => 0⟩]

theorem clear_honest : clear.Honest := by
  intro u hu
  simp only [clear, List.mem_cons, List.not_mem_nil, or_false] at hu
  rcases hu with rfl | rfl
  · exact ⟨⟨0, rfl⟩, fun _ _ _ => rfl⟩
  · exact ⟨⟨1, rfl⟩, fun _ _ _ => rfl⟩

theorem clear_apart (a : Nat → ℚ) (nw : Nat) (hnw : nw ≤ 5) {α : Type} : ApartButRhs (exPl' a nw) fun (_ : Nat) (_ : α) => [clear] := by
  intro j c t ht
  obtain rfl := List.mem_singleton.1 ht
  refine ⟨clear_honest, ?_⟩
  rintro cell ⟨p, rfl⟩
  refine ⟨1, p, rfl, ?_⟩
  rintro ⟨k, i, v, hk, h, hd⟩
  have hs : (exPl' a nw).sol ++ (exPl' a nw).workspace.flatten = ⟨0, 0, 0, 0⟩ :: (List.range nw).map fun i => ⟨10 + i, 0, 0, 0⟩ := by
    match nw, hnw with
    | 0, _ => rfl
    | 1, _ => rfl
    | 2, _ => rfl
    | 3, _ => rfl
    | 4, _ => rfl
    | 5, _ => rfl
  have hm : v ∈ (exPl' a nw).sol ++ (exPl' a nw).workspace.flatten := by
    unfold Planner.lookup at h
    rw [if_neg hk] at h
    simp only [List.mem_append, List.mem_flatten]
    split at h
    · exact .inl (List.mem_of_getElem? h)
    · obtain ⟨l, h1, h2⟩ := Option.bind_eq_some_iff.1 h
      exact .inr ⟨l, List.mem_of_getElem? h1, List.mem_of_getElem? h2⟩
  rw [hs] at hm
  rcases List.mem_cons.1 hm with rfl | hm
  · cases hd
  · obtain ⟨i, -, rfl⟩ := List.mem_map.1 hm
    simp at hd
    omega

/-- Instances of `c85_cg_rhs_free` and `c85_bicgstab_rhs_free`: the right-hand side is cleared after the construction. -/
example (a : Nat → ℚ) : ApartButRhs (exPl' a 3) fun (_ : Nat) (_ : CG Scalar) => [clear] := clear_apart a 3 (by decide)
example (a : Nat → ℚ) : ApartButRhs (exPl' a 5) fun (_ : Nat) (_ : BiCGStab Scalar) => [clear] := clear_apart a 5 (by decide)

/-- The identity. -/
def unitE : Nat → ℚ := fun k => if k = 0 ∨ k = 3 then 1 else 0

/-- GMRES, in contrast, reads the right-hand side in every cycle: cleared after the construction it changes the solution. -/
theorem c85_gmres_rhs_needed :
    SolverSetup Solver.exG (exPl unitE) (exPl' unitE 2) 10 2 ∧ ApartButRhs (exPl' unitE 2) (fun (_ : Nat) (_ : GMRES Scalar) => [clear]) ∧
    ∃ (s : Cell Nat → ℚ) (c c' : GMRES Scalar) (e0 e : Emit Nat ℚ),
      gmres (exactArith ℚ qsqrt) Solver.exG (exPl unitE) 10 1 2 ⟨0, []⟩ = some (c, e0) ∧
      full (gmresWith (exactArith ℚ qsqrt) Solver.exG (exPl unitE) 10 1 2 fun _ _ => [clear]) ⟨0, []⟩ = some (c', e) ∧
      ∀ M M0 : Machine (Cell Nat) ℚ, (Machine.start s e.out).Steps M → M.Done → (Machine.start s e0.out).Steps M0 → M0.Done →
        M.store (.elem 0 0) ≠ M0.store (.elem 0 0) := by
  refine ⟨exSetup unitE 2, clear_apart unitE 2 (by decide), exMem 0 0 3 4, ?_⟩
  have h0 : (gmres (exactArith ℚ qsqrt) Solver.exG (exPl unitE) 10 1 2 ⟨0, []⟩).map
      (fun r => runTasks (exMem 0 0 3 4) r.2.out (.elem 0 0)) = some (6 / 5) := by decide +kernel
  have h1 : (full (gmresWith (exactArith ℚ qsqrt) Solver.exG (exPl unitE) 10 1 2 fun _ _ => [clear]) ⟨0, []⟩).map
      (fun r => runTasks (exMem 0 0 3 4) r.2.out (.elem 0 0)) = some 0 := by decide +kernel
  obtain ⟨⟨c, e0⟩, q0, r0⟩ := Option.map_eq_some_iff.1 h0
  obtain ⟨⟨c', e⟩, q1, r1⟩ := Option.map_eq_some_iff.1 h1
  refine ⟨c, c', e0, e, q0, q1, fun M M0 a b c d => ?_⟩
  have hon0 : ∀ t ∈ e0.out, t.Honest := by
    obtain ⟨ts, h, h', -⟩ := Hon.client (K := Nat) (.gmres (exPl unitE) 10 1 2) _ _ _ q0
    rw [h]; exact h'
  have hon1 : ∀ t ∈ e.out, t.Honest := by
    have := (app_gmres (W := fun _ => True) (exactArith ℚ qsqrt) Solver.exG (exPl unitE) 10 1 2 (fun _ _ => [clear]) (by
      intro j c t ht
      obtain rfl := List.mem_singleton.1 ht
      exact ⟨clear_honest, fun _ _ => trivial⟩)).sim 0
    rcases this with h | ⟨a, n', ts, ts0, hm, h⟩
    · rw [(h []).1] at q1; cases q1
    · rw [(h []).1] at q1
      obtain ⟨-, rfl⟩ := Prod.mk.inj (Option.some.inj q1)
      exact hm.honest.1
  rw [c42_any_schedule _ _ hon1 M a b, c42_any_schedule _ _ hon0 M0 c d]
  dsimp only at r0 r1
  rw [r0, r1]
  decide +kernel

end Verif.App
