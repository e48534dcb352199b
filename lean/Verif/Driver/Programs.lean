import Verif.Driver.Props

/-! # C82 for the programs that print scalars, and torn lines -/
set_option linter.dupNamespace false
set_option linter.unusedSectionVars false
namespace Verif.Driver
open Verif.Grid Verif.Tasks Verif.Matrix Verif.Print Verif.Programs Verif.EndToEnd Verif.Laplacian Verif.Runtime Verif.Vector Verif.Planner

/-- How `std::ostream` writes a floating-point number: one line, and integers of at most six digits in full. -/
structure ShowsIntegers {V : Type} [Ring V] (showV : V → Text) : Prop where
  int : ∀ z : Int, |z| < 1000000 → showV (z : V) = showInt z

variable {V : Type} [Field V] [CharZero V]

theorem shippedResiduals (showV : V → Text) (h : ShowsIntegers showV) :
    ((List.range (10 + 1)).map fun j : Nat => lineResidual V 100 j).map showV =
      (List.range 11).map fun j : Nat => showInt (if j = 0 then 100 else (50 - j) * (102 - 2 * j)) := by
  rw [List.map_map]
  refine List.map_congr_left fun j hj => ?_
  have hj : j < 11 := List.mem_range.1 hj
  have e : lineResidual V 100 j = ((if j = 0 then 100 else (50 - (j : Int)) * (102 - 2 * j) : Int) : V) := by
    unfold lineResidual
    by_cases h0 : j = 0
    · subst h0; simp
    · rw [if_neg (by omega), if_neg (by omega), if_neg h0]
      push_cast
      ring
  show showV (lineResidual V 100 j) = _
  rw [e, h.int]
  have : j = 0 ∨ j = 1 ∨ j = 2 ∨ j = 3 ∨ j = 4 ∨ j = 5 ∨ j = 6 ∨ j = 7 ∨ j = 8 ∨ j = 9 ∨ j = 10 := by omega
  rcases this with rfl | rfl | rfl | rfl | rfl | rfl | rfl | rfl | rfl | rfl | rfl <;> decide

theorem oneLine_keep_residuals : ∀ t ∈ (List.range 11).map fun j : Nat => showInt (if j = 0 then 100 else (50 - j) * (102 - 2 * j)),
    OneLine t ∧ keep t = true := by decide +kernel

theorem residuals_silent (showV : V → Text) (h : ShowsIntegers showV) {text : Text}
    (ht : Output (((List.range (10 + 1)).map fun j : Nat => lineResidual V 100 j).map showV) text) {err : Text} (he : QuietErrors err) (code : Int) :
    (test0506 ⟨text, err, code⟩).complaints = [] := by
  rw [shippedResiduals showV h] at ht
  have hm := mem_shown ht oneLine_keep_residuals err code
  show assertEqual _ _ ++ assertEmpty (errors ⟨text, err, code⟩) = []
  rw [quiet_errors (p := ⟨text, err, code⟩) he, List.append_nil]
  have hcg : Increasing expectedCGOutput := by rw [← expectedCG_eq]; exact sortedSet_increasing _
  have : sortedSet (shown ⟨text, err, code⟩) = expectedCGOutput :=
    (sortedSet_eq_iff hcg).2 fun y => by rw [hm, ← expectedCG_eq, mem_sortedSet]
  unfold assertEqual
  rw [if_pos this]

/-- **C82** for test 05: with the shipped sizes, in exact arithmetic and under every schedule, the driver has nothing to complain about. -/
theorem c82_coo {A : Arith V} (hA : A.Exact) (pieces : List (List Int)) (hp : Covers pieces (kernelSize 100)) (junk : COO Int Int V)
    {G : Geometry Int} {part d0 d1 base : Nat} {v0 v1 : Vec} (hv : TwoVectors G part d0 d1 base v0 v1)
    (hG : ∀ i, i ∈ G.points (G.parent part) ↔ 0 ≤ i ∧ i < 100) (t : Nat) (s : Cell Int → V) (showV : V → Text) (h : ShowsIntegers showV) :
    EnsuresOutput (testSolveCG A G part d0 d1 base (Op.coo (createCOOLaplacian (fun z : Int => (z : V)) 100 pieces junk)) 10) t s
      fun _ out _ => ∀ text err code, Output (out.map showV) text → QuietErrors err → (test0506 ⟨text, err, code⟩).complaints = [] :=
  (c65_coo hA 100 (by decide) pieces hp junk hv hG t s 10 (by decide)).mono fun _ out _ ho text err code h1 h2 => by
    rw [ho.1] at h1
    exact residuals_silent showV h h1 h2 code

/-- **C82** for test 06. -/
theorem c82_csr {A : Arith V} (hA : A.Exact) (pieces rowPieces : List (List Int)) (hp : Covers pieces (kernelSize 100))
    (hr : Covers rowPieces 100) (junk : CSR Int Int V) {G : Geometry Int} {part d0 d1 base : Nat} {v0 v1 : Vec}
    (hv : TwoVectors G part d0 d1 base v0 v1) (hG : ∀ i, i ∈ G.points (G.parent part) ↔ 0 ≤ i ∧ i < 100) (t : Nat) (s : Cell Int → V)
    (showV : V → Text) (h : ShowsIntegers showV) :
    EnsuresOutput (testSolveCG A G part d0 d1 base (Op.csr (createCSRLaplacian (fun z : Int => (z : V)) 100 pieces rowPieces junk)) 10) t s
      fun _ out _ => ∀ text err code, Output (out.map showV) text → QuietErrors err → (test0506 ⟨text, err, code⟩).complaints = [] :=
  (c65_csr hA 100 (by decide) pieces rowPieces hp hr junk hv hG t s 10 (by decide)).mono fun _ out _ ho text err code h1 h2 => by
    rw [ho.1] at h1
    exact residuals_silent showV h h1 h2 code

/-- **C82** for test 02: the six tasks of the program print zero each (C66), in any order: the driver has nothing to complain about. -/
theorem c82_zeros (showV : V → Text) (h : ShowsIntegers showV) (outs : List (List V)) (h6 : outs.length = 6) (h0 : ∀ o ∈ outs, o = [0])
    {lines : List Text} (hl : Interleave (outs.map fun o => o.map showV) lines) {err : Text} (he : QuietErrors err) (code : Int) :
    (test02 ⟨inLines lines, err, code⟩).complaints = [] := by
  have e0 : showV 0 = bytes "0" := by
    have := h.int 0 (by decide)
    rw [Int.cast_zero] at this
    rw [this]; decide
  have hall : ∀ t ∈ lines, t = bytes "0" := by
    intro t ht
    obtain ⟨l, hl', hx⟩ := (hl.mem t).1 ht
    obtain ⟨o, ho, rfl⟩ := List.mem_map.1 hl'
    rw [h0 o ho] at hx
    rw [List.mem_singleton.1 hx, e0]
  have hlen : ∀ {ls : List (List Text)} {out : List Text}, Interleave ls out → out.length = (ls.map List.length).sum := by
    intro ls out hi
    induction hi with
    | done hz =>
      rename_i ls
      have : ls.map List.length = ls.map fun _ => 0 := List.map_congr_left fun l hl => by rw [hz l hl]; rfl
      rw [this]; simp
    | step _ ih => simp [ih]; omega
  have h6' : lines.length = 6 := by
    rw [hlen hl, List.map_map]
    have : outs.map (List.length ∘ fun o => o.map showV) = outs.map fun _ => 1 :=
      List.map_congr_left fun o ho => by rw [h0 o ho]; rfl
    rw [this]; simp [h6]
  have e : lines = List.replicate 6 (bytes "0") := by
    rw [← h6']; exact List.eq_replicate_of_mem hall
  subst e
  show assertEqual (shown _) _ ++ assertEmpty (errors ⟨_, err, code⟩) = []
  rw [quiet_errors (p := ⟨_, err, code⟩) he, List.append_nil]
  have : shown ⟨inLines (List.replicate 6 (bytes "0")), err, code⟩ = List.replicate 6 (bytes "0") := by
    show (splitlines (inLines (List.replicate 6 (bytes "0")))).filter keep = _
    decide +kernel
  rw [this]
  rfl

/-! ## Torn lines -/

/-- The bytes as they can come out when tasks print at the same time: a line is written by several insertions, and what the tasks and the
top-level task write may be mixed anywhere. -/
def Bytes (outs : List Printout) (text : Text) : Prop :=
  Interleave ((inLines (outs.map fun o => showHeader o.1 o.2.1)) :: outs.flatMap fun o => o.2.2.map fun l => inLines (l.map showLine)) text

theorem Interleave.whole {α : Type} {pre post : List (List α)} {out : List α} : ∀ xs : List α, Interleave (pre ++ [] :: post) out →
    Interleave (pre ++ xs :: post) (xs ++ out)
  | [], h => h
  | _ :: xs, h => .step (Interleave.whole xs h)

/-- **C82, the limit**: tests 03 and 04 can be reported as wrong although every task has printed its lines: one task begins its first
line, another one prints, and the driver sees a line that is not expected. -/
theorem c82_torn {U : Type} (c : Config) (hs : Supported c (1, .longlong)) (ofInt : Int → U) (fill : List (List Int)) (junk : COO Int Int U)
    (hf : Covers fill (kernelSize 20)) : ∃ outs, test03 c ofInt 20 fill junk shippedRows = some outs ∧
      ∃ text, Bytes outs text ∧ ∀ err code, Complaint.unequal ∈ (test0304 ⟨text, err, code⟩).complaints := by
  refine ⟨_, test03_eq c hs ofInt 20 fill junk hf shippedRows, ?_⟩
  let head : Text := inLines ((allLines 20 shippedRows).map fun o => showHeader o.1 o.2.1)
  let t0 : Text := inLines ((showPoints (bytes "range_partition") 0 (fromTo 0 4)).map showItem)
  let t1 : Text := inLines ((showPoints (bytes "range_partition") 1 (fromTo 5 9)).map showItem)
  let t1' : Text := inLines ((showPoints (bytes "range_partition") 1 (fromTo 6 9)).map showItem)
  let rest : List Text := ((allLines 20 shippedRows).flatMap fun o => o.2.2.map fun l => inLines (l.map showLine)).drop 2
  have e : ((allLines 20 shippedRows).flatMap fun o => o.2.2.map fun l => inLines (l.map showLine)) = t0 :: t1 :: rest := by decide +kernel
  have e0 : t0 = 114 :: t0.tail := by decide +kernel
  have e1 : t1 = bytes "range_partition (1) <5>" ++ 10 :: t1' := by decide +kernel
  refine ⟨114 :: (t1 ++ (head :: t0.tail :: [] :: rest).flatten), ?_, fun err code => ?_⟩
  · unfold Bytes
    rw [e, e0]
    exact .step (pre := [head]) (Interleave.whole (pre := [head, t0.tail]) t1 (Interleave.flatten _))
  · rw [(c82_set _).1]
    intro h
    have hm : bytes "rrange_partition (1) <5>" ∈ shown ⟨114 :: (t1 ++ (head :: t0.tail :: [] :: rest).flatten), err, code⟩ := by
      unfold shown splitlines
      simp only
      rw [e1, List.append_assoc, List.cons_append,
        show ∀ w : Text, (114 : UInt8) :: (bytes "range_partition (1) <5>" ++ 10 :: w) = bytes "rrange_partition (1) <5>" ++ 10 :: w from fun w => rfl,
        splitFrom_line _ _ _ (by decide), List.mem_filter]
      exact ⟨List.mem_cons_self .., by decide⟩
    exact absurd ((h _).1 hm) (by decide +kernel)

end Verif.Driver
