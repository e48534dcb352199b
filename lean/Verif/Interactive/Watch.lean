import Verif.Interactive.WatchModel
import Verif.Interactive.Loop
import Verif.Special.GMRES

/-! # C84: loops that check the residual: how they run -/
set_option linter.dupNamespace false
set_option linter.unusedSectionVars false
namespace Verif.Interactive
open Verif.Runtime Verif.Vector Verif.Solver Verif.Planner Verif.Special
variable {K P V τ : Type} [DecidableEq P] [DecidableEq K]
variable {A : Arith V} {G : Geometry P} {goOn : Nat → V → Bool}

/-! ## They use the library -/

theorem residualProbe_client (A : Arith V) (G : Geometry P) (w : Nat) (pl : Planner K P V) : Client K A G (residualProbe A G w pl) :=
  .andThen (.scalarOf _) fun _ => .andThen (.pMatvec pl _ _) fun _ => .andThen (.pXpay pl _ _ _) fun _ => .pDot pl _ _

theorem watch_library {init : M P V τ} {step : τ → M P V τ} {probe : τ → M P V Scalar} (h1 : Client K A G init)
    (h2 : ∀ t, Client K A G (step t)) (h3 : ∀ t, Client K A G (probe t)) : UsesLibrary K A G (watchLoop init step probe goOn) := by
  intro c m h
  cases c with
  | start => cases h; exact .andThen h1 fun t => .andThen (h3 t) fun _ => .done _
  | check => cases h
  | again t i => cases h; exact .andThen (h2 t) fun t' => .andThen (h3 t') fun _ => .done _
  | stop => cases h

theorem cgWatch_library (A : Arith V) (G : Geometry P) (pl : Planner K P V) (base : Nat) (goOn : Nat → V → Bool) :
    UsesLibrary K A G (cgWatch A G pl base goOn) := by
  refine watch_library (.andThen (.allocate pl base 3) fun pl' => .andThen ?_ fun _ => .done _)
    (fun t => .andThen (.cgStep t.1 t.2) fun _ => .done _) fun t => residualProbe_client A G 3 t.1
  unfold CG.init
  exact .andThen (.scalarOf _) fun _ => .andThen (.pCopy pl' _ _) fun _ => .andThen (.pCopy pl' _ _) fun _ =>
    .andThen (.pDot pl' _ _) fun _ => .done _

theorem biWatch_library (A : Arith V) (G : Geometry P) (pl : Planner K P V) (base : Nat) (goOn : Nat → V → Bool) :
    UsesLibrary K A G (biWatch A G pl base goOn) := by
  refine watch_library (.andThen (.allocate pl base 5) fun pl' => .andThen ?_ fun _ => .done _)
    (fun t => .andThen (.biCGStabStep t.1 t.2) fun _ => .done _) fun t => residualProbe_client A G 5 t.1
  unfold BiCGStab.init
  exact .andThen (.scalarOf _) fun _ => .andThen (.scalarOf _) fun _ => .andThen (.scalarOf _) fun _ => .andThen (.pCopy pl' _ _) fun _ =>
    .andThen (.pCopy pl' _ _) fun _ => .andThen (.pZeroFill pl' _) fun _ => .andThen (.pZeroFill pl' _) fun _ => .done _

theorem zeros_client (A : Arith V) (G : Geometry P) (pl : Planner K P V) : ∀ k, Client K A G (zeros (plannerOps A G.toEnv pl) k)
  | 0 => .done _
  | k + 1 => .andThen (.scalarOf _) fun _ => .andThen (zeros_client A G pl k) fun _ => .done _

theorem gmresWatch_library (A : Arith V) (G : Geometry P) (pl : Planner K P V) (base m : Nat) (goOn : Nat → V → Bool) :
    UsesLibrary K A G (gmresWatch A G pl base m goOn) := by
  refine watch_library (.andThen (.allocate pl base (m + 1)) fun pl' => .andThen ?_ fun _ => .done _)
    (fun t => .andThen (.gmresStep t.1 t.2) fun _ => .done _) fun t => residualProbe_client A G (basis 0) t.1
  unfold GMRES.init
  exact .andThen (.scalarOf _) fun _ => .andThen (zeros_client A G pl' _) fun _ => .andThen (zeros_client A G pl' _) fun _ =>
    .andThen (zeros_client A G pl' _) fun _ => .done _

/-! ## How the loop runs -/
section
variable {init : M P V τ} {step : τ → M P V τ} {probe : τ → M P V Scalar}

/-- The loop's way through memory, if it never stopped: after `k` steps the program keeps `t k` and looks at `x k`, with `N k` the next
free future and `S k` memory. -/
structure Trail (init : M P V τ) (step : τ → M P V τ) (probe : τ → M P V Scalar) (n : Nat) (s : Cell P → V) (t : Nat → τ)
    (x : Nat → Scalar) (N : Nat → Nat) (S : Nat → Cell P → V) : Prop where
  zero : Runs (init >>= fun t => probe t >>= fun x => pure (t, x)) n s (t 0, x 0) (N 0) (S 0)
  succ : ∀ k, Runs (step (t k) >>= fun t => probe t >>= fun x => pure (t, x)) (N k) (S k) (t (k + 1), x (k + 1)) (N (k + 1)) (S (k + 1))

theorem runs_map {α β γ : Type} {m : M P V α} {f : α → M P V β} {g : α → β → γ} {n n' : Nat} {s s' : Cell P → V} {a : α} {b : β}
    (h : Runs (m >>= fun a => f a >>= fun b => pure (a, b)) n s (a, b) n' s') :
    Runs (m >>= fun a => f a >>= fun b => pure (g a b)) n s (g a b) n' s' := by
  have := h.bind (f := fun p : α × β => pure (g p.1 p.2)) (Runs.pure _ n' s')
  simpa only [bind_assoc, pure_bind] using this

theorem Trail.alone {n : Nat} {s : Cell P → V} {t : Nat → τ} {x : Nat → Scalar} {N : Nat → Nat} {S : Nat → Cell P → V}
    (T : Trail init step probe n s t x N S) : ∀ k, (∀ j, j < k → goOn j (S j (.fut (x j).fut)) = true) →
    Alone.Steps (watchLoop init step probe goOn) (1 + 2 * k) ⟨.start, [], n, s⟩
      ⟨.check (t k) (x k) k, (List.range k).map fun j => S j (.fut (x j).fut), N k, S k⟩
  | 0, _ => by
    obtain ⟨ts, h1, -, h3⟩ := runs_map (g := fun t x => Watch.check t x 0) T.zero
    refine .tail (.refl _) ?_
    rw [← h3]
    exact .call (e := ⟨N 0, ts⟩) rfl (h1 [])
  | k + 1, hgo => by
    have ih := Trail.alone T k fun j hj => hgo j (by omega)
    obtain ⟨ts, h1, -, h3⟩ := runs_map (g := fun t x => Watch.check t x (k + 1)) (T.succ k)
    have s1 : Alone.Step (watchLoop init step probe goOn) ⟨.check (t k) (x k) k, (List.range k).map fun j => S j (.fut (x j).fut), N k, S k⟩
        ⟨.again (t k) k, (List.range (k + 1)).map fun j => S j (.fut (x j).fut), N k, S k⟩ := by
      have := Alone.Step.get (p := watchLoop init step probe goOn) (c := .check (t k) (x k) k)
        (l := (List.range k).map fun j => S j (.fut (x j).fut)) (n := N k) (s := S k) rfl
      rw [if_pos (hgo k (by omega))] at this
      rw [List.range_succ, List.map_append]
      exact this
    have s2 : Alone.Step (watchLoop init step probe goOn) ⟨.again (t k) k, (List.range (k + 1)).map fun j => S j (.fut (x j).fut), N k, S k⟩
        ⟨.check (t (k + 1)) (x (k + 1)) (k + 1), (List.range (k + 1)).map fun j => S j (.fut (x j).fut), N (k + 1), S (k + 1)⟩ := by
      rw [← h3]
      exact .call (e := ⟨N (k + 1), ts⟩) rfl (h1 [])
    exact .tail (.tail ih s1) s2

theorem Trail.ends {n : Nat} {s : Cell P → V} {t : Nat → τ} {x : Nat → Scalar} {N : Nat → Nat} {S : Nat → Cell P → V}
    (T : Trail init step probe n s t x N S) (hlib : UsesLibrary K A G (watchLoop init step probe goOn)) {ρ : Nat → V}
    (hρ : ∀ j, S j (.fut (x j).fut) = ρ j) {k : Nat} (hgo : ∀ j, j < k → goOn j (ρ j) = true) (hstop : goOn k (ρ k) = false) :
    Ends (watchLoop init step probe goOn) .start n s fun ctl seen s' =>
      ctl = .stop (t k) k ∧ seen = (List.range (k + 1)).map ρ ∧ s' = S k := by
  obtain rfl : (fun j => S j (.fut (x j).fut)) = ρ := funext hρ
  have h := T.alone (goOn := goOn) k hgo
  have s1 : Alone.Step (watchLoop init step probe goOn) ⟨.check (t k) (x k) k, (List.range k).map fun j => S j (.fut (x j).fut), N k, S k⟩
      ⟨.stop (t k) k, (List.range (k + 1)).map fun j => S j (.fut (x j).fut), N k, S k⟩ := by
    have := Alone.Step.get (p := watchLoop init step probe goOn) (c := .check (t k) (x k) k)
      (l := (List.range k).map fun j => S j (.fut (x j).fut)) (n := N k) (s := S k) rfl
    rw [if_neg (by rw [show goOn k (S k (.fut (x k).fut)) = false from hstop]; decide)] at this
    rw [List.range_succ, List.map_append]
    exact this
  exact c79_terminates hlib _ n s (h.tail s1) rfl

theorem Trail.forever {n : Nat} {s : Cell P → V} {t : Nat → τ} {x : Nat → Scalar} {N : Nat → Nat} {S : Nat → Cell P → V}
    (T : Trail init step probe n s t x N S) (hlib : UsesLibrary K A G (watchLoop init step probe goOn)) {ρ : Nat → V}
    (hρ : ∀ j, S j (.fut (x j).fut) = ρ j) (hgo : ∀ j, goOn j (ρ j) = true) :
    RunsForever (watchLoop init step probe goOn) .start n s := by
  obtain rfl : (fun j => S j (.fut (x j).fut)) = ρ := funext hρ
  refine c79_runs_forever hlib _ n s fun j => ?_
  obtain ⟨a, h4, -⟩ := (T.alone (goOn := goOn) j fun i _ => hgo i).prefix j (by omega)
  exact ⟨a, h4⟩

end

/-! ## What the probe does -/

/-- The effect of the probe: only vector `w` changes, no scalar does. -/
structure Probed (A : Arith V) (G : Geometry P) (pl : Planner K P V) (nw w : Nat) (n : Nat) (s : Cell P → V) (x : Scalar) (n' : Nat)
    (s' : Cell P → V) : Prop where
  ext : Ext n s n' s'
  keep : ∀ k, k < nw + 2 → k ≠ w → pl.content G s' k = pl.content G s k
  value : Sums A (∑ u : pl.U G, {A.mul (A.fma (A.neg A.one) (plannerProduct A G pl (pl.content G s 0) u) (pl.content G s 1 u))
    (A.fma (A.neg A.one) (plannerProduct A G pl (pl.content G s 0) u) (pl.content G s 1 u))}) (s' (.fut x.fut))

theorem wp_probe {pl : Planner K P V} {nw w : Nat} (R : Ready G pl nw) (hord : ∀ f l, (G.redOrder f l).Perm l) (hns : 0 < pl.spaces.length)
    (hw : w < nw + 2) (hw2 : 2 ≤ w) (n : Nat) (s : Cell P → V) :
    WP (residualProbe A G w pl) n s fun x n' s' => Probed A G pl nw w n s x n' s' := by
  have v0 := View.start G pl nw s
  refine WP.bind (wp_negOne v0 fun a1 n1 s1 e1 v1 d1 => ?_)
  refine WP.bind (wp_matvec R v1 hw (by omega) (by omega) fun s2 e2 v2 => ?_)
  refine WP.bind (wp_xpay R v2 hw (show 1 < nw + 2 by omega) (show Den _ _ _ (A.neg A.one) by den) fun s3 e3 v3 => ?_)
  refine wp_dot R hord hns v3 hw hw fun a4 n4 s4 δ e4 v4 d4 hδ => ?_
  refine ⟨e1.trans (e2.trans (e3.trans e4)), fun k hk hkw => ?_, ?_⟩
  · rw [v4.vec k hk, Function.update_of_ne hkw, Function.update_of_ne hkw]
  · rw [d4.2]
    simp only [Function.update_self, Function.update_of_ne (show (1 : Nat) ≠ w by omega)] at hδ
    exact hδ

end Verif.Interactive
