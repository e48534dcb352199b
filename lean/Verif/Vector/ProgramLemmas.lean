import Verif.Vector.Program
import Verif.Vector.Lemmas
import Verif.Vector.Exact
import Mathlib.Algebra.BigOperators.Group.List.Basic
import Mathlib.Data.List.GetD
import Mathlib.Tactic.Ring

/-! Lemmas for the client-program theorems. -/
set_option linter.unusedSectionVars false
namespace Verif.Vector
open Verif.Runtime
variable {P V α : Type} [DecidableEq P]

theorem Runs.ensures {m : M P V α} {n n' : Nat} {s s' : Cell P → V} {a : α} (h : Runs m n s a n' s')
    {Q : α → (Cell P → V) → Prop} (hQ : Q a s') : Ensures m n s Q := by
  obtain ⟨ts, e, o⟩ := h.any_schedule
  exact ⟨a, n', ts, e, c42_complete_execution_exists _, fun M' h1 h2 => by rw [o M' h1 h2]; exact hQ⟩

theorem Runs.getVar {β : Type} {σ : Nat → Option β} {i : Nat} {b : β} (h : σ i = some b) (n : Nat) (s : Cell P → V) :
    Runs (getVar σ i : M P V β) n s b n s :=
  ⟨[], fun out => by rw [List.append_nil]; simp [Verif.Vector.getVar, h], (fun t ht => by cases ht), rfl⟩

theorem setVec_only (s : Cell P → V) (v : Vec) (space : List P) (g : P → V) :
    OnlyChanged s (setVec s v space g) v space g := by
  refine ⟨fun p hp => by simp [hp], fun c hc => ?_⟩
  cases c with
  | elem d p =>
    rw [setVec_elem, if_neg]
    rintro ⟨rfl, hp⟩
    exact hc p hp rfl
  | _ => rfl

theorem alphaOf_one (A : Arith V) (f : Nat) (s : Cell P → V) : alphaOf A [f] s = s (.fut f) := rfl
theorem alphaOf_two (A : Arith V) (f g : Nat) (s : Cell P → V) : alphaOf A [f, g] s = A.div (s (.fut f)) (s (.fut g)) := rfl
theorem alphaOf_three (A : Arith V) (f g h : Nat) (s : Cell P → V) :
    alphaOf A [f, g, h] s = A.div (A.mul (s (.fut f)) (s (.fut g))) (s (.fut h)) := rfl

/-! ## Dot product values -/

theorem dotPiece_congr (A : Arith V) {v w v' w' : P → V} (pts : List P) (h : ∀ p ∈ pts, v p = v' p)
    (h' : ∀ p ∈ pts, w p = w' p) : dotPiece A v w pts = dotPiece A v' w' pts := by
  unfold dotPiece
  generalize A.zero = a
  induction pts generalizing a with
  | nil => rfl
  | cons p l ih =>
    rw [List.foldl_cons, List.foldl_cons, h p (List.mem_cons_self ..), h' p (List.mem_cons_self ..)]
    exact ih (fun q hq => h q (List.mem_cons_of_mem _ hq)) (fun q hq => h' q (List.mem_cons_of_mem _ hq)) _

theorem dotValue_congr (A : Arith V) {v w v' w' : P → V} (pieces : List (List P)) (order : List Nat)
    (h : ∀ p ∈ pieces.flatten, v p = v' p) (h' : ∀ p ∈ pieces.flatten, w p = w' p) :
    dotValue A v w pieces order = dotValue A v' w' pieces order := by
  unfold dotValue
  congr 1
  funext a k
  congr 1
  apply dotPiece_congr
  · intro p hp
    by_cases hk : k < pieces.length
    · rw [List.getD_eq_getElem _ _ hk] at hp
      exact h p (List.mem_flatten.2 ⟨_, List.getElem_mem hk, hp⟩)
    · rw [List.getD_eq_default _ _ (by omega)] at hp
      cases hp
  · intro p hp
    by_cases hk : k < pieces.length
    · rw [List.getD_eq_getElem _ _ hk] at hp
      exact h' p (List.mem_flatten.2 ⟨_, List.getElem_mem hk, hp⟩)
    · rw [List.getD_eq_default _ _ (by omega)] at hp
      cases hp

variable [Field V]

theorem foldl_add_sum {ι : Type} (f : ι → V) (l : List ι) (a : V) :
    l.foldl (fun a i => a + f i) a = a + (l.map f).sum := by
  induction l generalizing a with
  | nil => simp
  | cons i l ih => rw [List.foldl_cons, ih, List.map_cons, List.sum_cons]; ring

theorem dotPiece_exact {A : Arith V} (hA : A.Exact) (v w : P → V) (pts : List P) :
    dotPiece A v w pts = (pts.map fun p => v p * w p).sum := by
  unfold dotPiece
  simp only [hA.add, hA.mul, hA.zero]
  rw [foldl_add_sum, zero_add]

theorem dotValue_exact {A : Arith V} (hA : A.Exact) (v w : P → V) (space : List P) (hs : space.Nodup)
    (pieces : List (List P)) (hp : IsPartition space pieces) (order : List Nat)
    (ho : order.Perm (List.range pieces.length)) :
    dotValue A v w pieces order = (space.map fun p => v p * w p).sum := by
  unfold dotValue
  simp only [hA.add, hA.zero, dotPiece_exact hA]
  rw [foldl_add_sum, zero_add, (ho.map _).sum_eq]
  have h1 : (List.range pieces.length).map (fun k => ((pieces.getD k []).map fun p => v p * w p).sum) =
      pieces.map fun l => (l.map fun p => v p * w p).sum := by
    apply List.ext_getElem
    · simp
    · intro i h1 h2
      simp only [List.length_map, List.length_range] at h1
      rw [List.getElem_map, List.getElem_map, List.getElem_range, List.getD_eq_getElem _ _ h1]
  rw [h1]
  have h2 : (pieces.map fun l => (l.map fun p => v p * w p).sum).sum = (pieces.flatten.map fun p => v p * w p).sum := by
    clear h1 hp ho
    induction pieces with
    | nil => simp
    | cons l ls ih => simp [ih]
  rw [h2]
  have : pieces.flatten.Perm space := (List.perm_ext_iff_of_nodup hp.1 hs).2 hp.2
  exact (this.map _).sum_eq


end Verif.Vector
