import Verif.Units.Spec
import Verif.Units.Order

/-! # Two runs as one: pairs of numbers -/
set_option linter.dupNamespace false
set_option linter.unusedSectionVars false
namespace Verif.Units
open Verif.Runtime Verif.Vector Verif.Matrix Verif.Planner Verif.Solver Verif.Special
variable {K P V W : Type} [DecidableEq P] [DecidableEq K]

/-- Arithmetic on pairs. -/
def pairArith (A : Arith V) : Arith (V × V) where
  zero := (A.zero, A.zero)
  one := (A.one, A.one)
  neg a := (A.neg a.1, A.neg a.2)
  add a b := (A.add a.1 b.1, A.add a.2 b.2)
  sub a b := (A.sub a.1 b.1, A.sub a.2 b.2)
  mul a b := (A.mul a.1 b.1, A.mul a.2 b.2)
  div a b := (A.div a.1 b.1, A.div a.2 b.2)
  sqrt a := (A.sqrt a.1, A.sqrt a.2)
  fma a b c := (A.fma a.1 b.1 c.1, A.fma a.2 b.2 c.2)

theorem fst_rel (A : Arith V) : ArithRel (fun (p : V × V) v => p.1 = v) (pairArith A) A := by
  constructor <;> intros <;> simp_all [pairArith]

theorem snd_rel (A : Arith V) : ArithRel (fun (p : V × V) v => p.2 = v) (pairArith A) A := by
  constructor <;> intros <;> simp_all [pairArith]

theorem opRel_map {U : Type} {R : V → W → Prop} {f : U → V} {g : U → W} (h : ∀ e, R (f e) (g e)) (m : Op K P U) :
    OpRel R (mapOp f m) (mapOp g m) := by
  cases m with
  | coo m => exact .coo _ _ _ fun k => h _
  | csr m => exact .csr _ _ _ _ fun k => h _

theorem callsRel_map {U : Type} {R : V → W → Prop} {f : U → V} {g : U → W} (h : ∀ e, R (f e) (g e)) (calls : List (Setup K P U)) :
    List.Forall₂ (SetupRel R) (mapCalls f calls) (mapCalls g calls) := by
  refine forall₂_map calls fun c => ?_
  cases c with
  | addSol v => exact .addSol v
  | addRhs v => exact .addRhs v
  | allocate b n => exact .allocate b n
  | addMatrix m d r => exact .addMatrix d r (opRel_map h m)

theorem mapCalls_id (calls : List (Setup K P V)) : mapCalls (fun e => e) calls = calls := by
  unfold mapCalls
  rw [List.map_congr_left (g := fun c => c) fun c _ => by
    cases c with
    | addMatrix m d r => cases m <;> rfl
    | _ => rfl]
  exact List.map_id _

/-! ## The mapped client -/

theorem sols_map (f : V → W) (calls : List (Setup K P V)) : sols (mapCalls f calls) = sols calls := by
  unfold sols mapCalls
  rw [List.filterMap_map]
  congr 1
  funext c
  cases c <;> rfl

theorem rhss_map (f : V → W) (calls : List (Setup K P V)) : rhss (mapCalls f calls) = rhss calls := by
  unfold rhss mapCalls
  rw [List.filterMap_map]
  congr 1
  funext c
  cases c <;> rfl

theorem allocs_map (f : V → W) (calls : List (Setup K P V)) : allocs (mapCalls f calls) = allocs calls := by
  unfold allocs mapCalls
  rw [List.filterMap_map]
  congr 1
  funext c
  cases c <;> rfl

theorem mats_map (f : V → W) (calls : List (Setup K P V)) : mats (mapCalls f calls) = (mats calls).map fun t => (mapOp f t.1, t.2) := by
  unfold mats mapCalls
  rw [List.filterMap_map, List.map_filterMap]
  congr 1
  funext c
  cases c <;> rfl

theorem unknowns_map (f : V → W) (G : Geometry P) (calls : List (Setup K P V)) : clientUnknowns G (mapCalls f calls) = clientUnknowns G calls := by
  unfold clientUnknowns
  rw [sols_map]

theorem stored_map (f : V → W) (calls : List (Setup K P V)) (u : Σ _ : Nat, P) :
    Verif.Solver.clientStored (mapCalls f calls) u = (Verif.Solver.clientStored calls u).map fun t => (t.1, f t.2) := by
  unfold Verif.Solver.clientStored
  rw [mats_map, List.flatMap_map, List.map_flatMap]
  congr 1
  funext t
  dsimp only
  split
  · obtain ⟨m, d, r⟩ := t
    cases m <;> simp [mapOp, Op.stored, List.map_map, Function.comp_def]
  · rfl

theorem fits_map (f : V → W) {m : Op K P V} {a b : List P} (h : m.Fits a b) : (mapOp f m).Fits a b := by
  cases m with
  | coo m => exact h
  | csr m => exact h

theorem client_map (f : V → W) {G : Geometry P} {calls : List (Setup K P V)} {base : Nat} (h : ClientSystem G calls base) :
    ClientSystem G (mapCalls f calls) base where
  valid := h.valid
  order := h.order
  constructed c hc := by
    obtain ⟨c', hc', rfl⟩ := List.mem_map.1 hc
    have := h.constructed c' hc'
    cases c' <;> exact this
  legal a c b e := by
    obtain ⟨a', l, e1, rfl, e2⟩ := List.map_eq_append_iff.1 e
    obtain ⟨c', b', rfl, rfl, rfl⟩ := List.map_eq_cons_iff.1 e2
    have := h.legal a' c' b' e1
    have g1 := sols_map f a'
    have g2 := rhss_map f a'
    have g3 := allocs_map f a'
    unfold mapCalls at g1 g2 g3
    cases c' <;> simp only [mapCall, Allowed, g1, g2, g3] at this ⊢ <;> exact this
  noWorkspace := by rw [allocs_map]; exact h.noWorkspace
  lengths := by rw [sols_map, rhss_map]; exact h.lengths
  nonempty := by rw [sols_map]; exact h.nonempty
  data := by rw [sols_map, rhss_map]; exact h.data
  fresh := by rw [sols_map, rhss_map]; exact h.fresh
  fits m d r hm := by
    rw [mats_map] at hm
    rw [sols_map]
    obtain ⟨⟨m', d', r'⟩, hm', e⟩ := List.mem_map.1 hm
    cases e
    exact fun vd vr h1 h2 => fits_map f (h.fits m' d r hm' vd vr h1 h2)

theorem valueAt_fst {A : Arith V} {vs : List Vec} {s2 : Cell P → V × V} {s : Cell P → V} (h : MemRel (fun (p : V × V) v => p.1 = v) s2 s)
    (u : Σ _ : Nat, P) : (valueAt (pairArith A) vs s2 u).1 = valueAt A vs s u := by
  unfold valueAt
  cases vs[u.1]? with
  | none => rfl
  | some v => exact h _

theorem valueAt_snd {A : Arith V} {vs : List Vec} {s2 : Cell P → V × V} {s : Cell P → V} (h : MemRel (fun (p : V × V) v => p.2 = v) s2 s)
    (u : Σ _ : Nat, P) : (valueAt (pairArith A) vs s2 u).2 = valueAt A vs s u := by
  unfold valueAt
  cases vs[u.1]? with
  | none => rfl
  | some v => exact h _

end Verif.Units
