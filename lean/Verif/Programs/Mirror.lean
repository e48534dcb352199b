import Verif.EndToEnd.Poisson

/-! # Mirror symmetry of difference operators on a box -/
set_option linter.dupNamespace false
set_option linter.unusedSectionVars false
namespace Verif.Programs
open Verif.Grid Verif.Stencil Verif.EndToEnd

/-- The box of points with coordinates `0 ≤ x < n`. -/
def boxOf (ns : List Int) : Rect := ns.map fun n => (0, n - 1)

/-- The half box: `0 ≤ x < ⌈n / 2⌉`. -/
def halfOf (ns : List Int) : Rect := ns.map fun n => (0, (n + 1) / 2 - 1)

/-- Mirror the chosen coordinates at the centre of the box. -/
def mirror : List Int → List Bool → Point → Point
  | n :: ns, c :: cs, x :: p => (if c then n - 1 - x else x) :: mirror ns cs p
  | _, _, p => p

/-- Change the sign of the chosen coordinates of an offset. -/
def flip : List Bool → Point → Point
  | c :: cs, x :: p => (if c then -x else x) :: flip cs p
  | _, p => p

/-- The representative of a point in the half box. -/
def toHalf : List Int → Point → Point
  | n :: ns, x :: p => min x (n - 1 - x) :: toHalf ns p
  | _, _ => []

theorem mirror_add : ∀ (ns : List Int) (cs : List Bool) (p v : Point), p.length = ns.length → cs.length = ns.length → v.length = ns.length →
    addPoint (mirror ns cs p) v = mirror ns cs (addPoint p (flip cs v))
  | [], [], [], [], _, _, _ => rfl
  | n :: ns, c :: cs, x :: p, y :: v, hp, hc, hv => by
    simp only [List.length_cons, Nat.add_right_cancel_iff] at hp hc hv
    have ih := mirror_add ns cs p v hp hc hv
    simp only [addPoint] at ih
    simp only [mirror, flip, addPoint, List.zipWith_cons_cons, ih]
    congr 1
    cases c
    · simp
    · simp; omega

theorem toHalf_mirror : ∀ (ns : List Int) (cs : List Bool) (p : Point), p.length = ns.length → cs.length = ns.length →
    toHalf ns (mirror ns cs p) = toHalf ns p
  | [], [], [], _, _ => rfl
  | n :: ns, c :: cs, x :: p, hp, hc => by
    simp only [List.length_cons, Nat.add_right_cancel_iff] at hp hc
    simp only [mirror, toHalf, toHalf_mirror ns cs p hp hc]
    congr 1
    cases c
    · simp
    · simp; omega

theorem inBox_cons {n : Int} {ns : List Int} {x : Int} {p : Point} : InBox (boxOf (n :: ns)) (x :: p) ↔ (0 ≤ x ∧ x ≤ n - 1) ∧ InBox (boxOf ns) p := by
  unfold InBox boxOf
  rw [List.map_cons, List.forall₂_cons]

theorem length_of_box {ns : List Int} {p : Point} (h : InBox (boxOf ns) p) : p.length = ns.length := by
  rw [← h.length_eq, boxOf, List.length_map]

theorem inBox_mirror : ∀ (ns : List Int) (cs : List Bool) (p : Point), p.length = ns.length → cs.length = ns.length →
    (InBox (boxOf ns) (mirror ns cs p) ↔ InBox (boxOf ns) p)
  | [], [], [], _, _ => Iff.rfl
  | n :: ns, c :: cs, x :: p, hp, hc => by
    simp only [List.length_cons, Nat.add_right_cancel_iff] at hp hc
    simp only [mirror]
    rw [inBox_cons, inBox_cons, inBox_mirror ns cs p hp hc]
    cases c <;> simp
    omega

theorem toHalf_eq : ∀ (ns : List Int) (p p' : Point), p.length = ns.length → p'.length = ns.length → toHalf ns p = toHalf ns p' →
    ∃ cs : List Bool, cs.length = ns.length ∧ p' = mirror ns cs p
  | [], [], [], _, _, _ => ⟨[], rfl, rfl⟩
  | n :: ns, x :: p, x' :: p', hp, hp', h => by
    simp only [List.length_cons, Nat.add_right_cancel_iff] at hp hp'
    simp only [toHalf, List.cons.injEq] at h
    obtain ⟨cs, h1, h2⟩ := toHalf_eq ns p p' hp hp' h.2
    by_cases e : x' = x
    · refine ⟨false :: cs, by simp [h1], ?_⟩
      simp only [mirror, ← h2, e]
      rfl
    · refine ⟨true :: cs, by simp [h1], ?_⟩
      simp only [mirror, ← h2]
      congr 1
      simp only [if_true]
      omega

theorem toHalf_inBox : ∀ (ns : List Int) (p : Point), InBox (boxOf ns) p → InBox (halfOf ns) (toHalf ns p)
  | [], [], _ => .nil
  | n :: ns, x :: p, h => by
    rw [inBox_cons] at h
    exact .cons ⟨by show 0 ≤ min x (n - 1 - x); omega, by show min x (n - 1 - x) ≤ (n + 1) / 2 - 1; omega⟩ (toHalf_inBox ns p h.2)
  | [], _ :: _, h => by cases h
  | _ :: _, [], h => by cases h

section
variable {V : Type} [Field V]

/-- The offsets of a difference operator without the centre. -/
def arms (dirs : List (Point × V)) : List (Point × V) := dirs.flatMap fun t => [(t.1, t.2), (negPoint t.1, t.2)]

theorem diffOp_arms (dirs : List (Point × V)) (u : Point → V) (p : Point) :
    diffOp dirs u p = ((arms dirs).map fun t => t.2 * (u p - u (addPoint p t.1))).sum := by
  unfold diffOp arms
  induction dirs with
  | nil => rfl
  | cons t dirs ih =>
    rw [List.map_cons, List.sum_cons, ih, List.flatMap_cons, List.map_append, List.sum_append]
    simp only [List.map_cons, List.map_nil, List.sum_cons, List.sum_nil]
    ring

/-- The operator of directions which are permuted by changes of sign, applied to a mirror-symmetric function, is mirror symmetric. -/
theorem diffOp_mirror (ns : List Int) (dirs : List (Point × V)) (hl : ∀ t ∈ dirs, t.1.length = ns.length) (cs : List Bool)
    (hc : cs.length = ns.length) (hperm : ((arms dirs).map fun t => (flip cs t.1, t.2)).Perm (arms dirs)) (u : Point → V)
    (hu : ∀ p, p.length = ns.length → u (mirror ns cs p) = u p) (p : Point) (hp : p.length = ns.length) :
    diffOp dirs u (mirror ns cs p) = diffOp dirs u p := by
  have hal : ∀ t ∈ arms dirs, t.1.length = ns.length := by
    intro t ht
    obtain ⟨t', ht', h⟩ := List.mem_flatMap.1 ht
    simp only [List.mem_cons, List.not_mem_nil, or_false] at h
    rcases h with rfl | rfl
    · exact hl t' ht'
    · rw [length_negPoint]; exact hl t' ht'
  have hfl : ∀ (cs : List Bool) (v : Point), (flip cs v).length = v.length := by
    intro cs
    induction cs with
    | nil => intro v; cases v <;> rfl
    | cons c cs ih => intro v; cases v with
      | nil => rfl
      | cons x v => simp [flip, ih]
  have hs := (hperm.map fun t : Point × V => t.2 * (u p - u (addPoint p t.1))).sum_eq
  rw [diffOp_arms, diffOp_arms, ← hs, List.map_map]
  congr 1
  apply List.map_congr_left
  intro t ht
  show _ = t.2 * (u p - u (addPoint p (flip cs t.1)))
  rw [mirror_add ns cs p t.1 hp hc (hal t ht), hu p hp, hu]
  rw [length_addPoint p (flip cs t.1) (by rw [hfl, hp, hal t ht]), hfl, hal t ht]

end
end Verif.Programs
