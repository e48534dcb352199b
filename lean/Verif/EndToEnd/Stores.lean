import Verif.EndToEnd.Model
import Verif.Matrix.Props
import Verif.Planner.Spec

/-! Matrices whose fields hold a given list of `(row, column, value)` triples. -/
set_option linter.dupNamespace false
set_option linter.unusedSectionVars false
namespace Verif.EndToEnd
open Verif.Grid Verif.Stencil Verif.Matrix Verif.Runtime Verif.Vector Verif.Planner

variable {P E : Type} [DecidableEq P]

/-- The COO matrix holds the triples `es` at kernel indices `0, 1, …`. -/
structure HoldsCOO (m : COO Int P E) (es : List (P × P × E)) : Prop where
  kernel : m.kernel = indices es.length
  row : ∀ k : Nat, ∀ hk : k < es.length, m.row k = es[k].1
  col : ∀ k : Nat, ∀ hk : k < es.length, m.col k = es[k].2.1
  entry : ∀ k : Nat, ∀ hk : k < es.length, m.entry k = es[k].2.2

/-- The CSR matrix holds the triples `es`: the rectangle of row `p` has exactly the indices of the triples of row `p`. -/
structure HoldsCSR (m : CSR Int P E) (es : List (P × P × E)) : Prop where
  kernel : m.kernel = indices es.length
  range : ∀ p ∈ m.rows, ∀ k : Nat, ∀ hk : k < es.length, (m.range p k = true ↔ es[k].1 = p)
  col : ∀ k : Nat, ∀ hk : k < es.length, m.col k = es[k].2.1
  entry : ∀ k : Nat, ∀ hk : k < es.length, m.entry k = es[k].2.2

theorem mem_indices (n : Nat) (k : Int) : k ∈ indices n ↔ 0 ≤ k ∧ k < n := by
  unfold indices
  rw [List.mem_map]
  constructor
  · rintro ⟨a, ha, rfl⟩
    rw [List.mem_range] at ha
    exact ⟨Int.natCast_nonneg a, Int.ofNat_lt.2 ha⟩
  · rintro ⟨h0, h1⟩
    exact ⟨k.toNat, List.mem_range.2 (by omega), by simp; omega⟩

theorem indices_nodup (n : Nat) : (indices n).Nodup :=
  List.Nodup.map (fun a b h => by simpa using h) List.nodup_range

/-- Mapping the index list to what is stored there gives the list back. -/
theorem map_indices {α β : Type} (es : List α) (f : α → β) (g : Int → β)
    (h : ∀ k : Nat, ∀ hk : k < es.length, g k = f es[k]) : (indices es.length).map g = es.map f := by
  unfold indices
  rw [List.map_map]
  apply List.ext_getElem
  · simp
  · intro i h1 h2
    simp only [List.getElem_map, List.getElem_range, Function.comp]
    exact h i (by simpa using h2)

theorem filter_map_indices {α β : Type} (es : List α) (f : α → β) (g : Int → β) (sel : Int → Bool) (sel' : α → Bool)
    (h : ∀ k : Nat, ∀ hk : k < es.length, g k = f es[k]) (hs : ∀ k : Nat, ∀ hk : k < es.length, sel k = sel' es[k]) :
    ((indices es.length).filter sel).map g = (es.filter sel').map f := by
  have h1 : (indices es.length).map (fun k => (sel k, g k)) = es.map (fun e => (sel' e, f e)) :=
    map_indices es (fun e => (sel' e, f e)) (fun k => (sel k, g k)) (fun k hk => by rw [h k hk, hs k hk])
  have key : ∀ {γ : Type} (l : List γ) (a : γ → Bool) (c : γ → β),
      (l.filter a).map c = ((l.map fun x => (a x, c x)).filter (fun y => y.1)).map (fun y => y.2) := by
    intro γ l a c
    rw [List.filter_map, List.map_map]
    rfl
  rw [key, h1, ← key]

theorem HoldsCOO.row_entries {m : COO Int P E} {es : List (P × P × E)} (h : HoldsCOO m es) (p : P) :
    (m.kernel.filter fun k => decide (m.row k = p)).map (fun k => (m.col k, m.entry k)) =
      (es.filter fun e => decide (e.1 = p)).map (fun e => e.2) := by
  rw [h.kernel]
  exact filter_map_indices es _ _ _ _ (fun k hk => by rw [h.col k hk, h.entry k hk]) (fun k hk => by rw [h.row k hk])

theorem HoldsCSR.row_entries {m : CSR Int P E} {es : List (P × P × E)} (h : HoldsCSR m es) (p : P) (hp : p ∈ m.rows) :
    (m.kernel.filter fun k => m.range p k).map (fun k => (m.col k, m.entry k)) =
      (es.filter fun e => decide (e.1 = p)).map (fun e => e.2) := by
  rw [h.kernel]
  refine filter_map_indices es _ _ _ _ (fun k hk => by rw [h.col k hk, h.entry k hk]) (fun k hk => ?_)
  rw [Bool.eq_iff_iff, decide_eq_true_iff]
  exact h.range p hp k hk

theorem HoldsCOO.col_mem {m : COO Int P E} {es : List (P × P × E)} (h : HoldsCOO m es) {space : List P}
    (hs : ∀ e ∈ es, e.2.1 ∈ space) : ∀ k ∈ m.kernel, m.col k ∈ space := by
  intro k hk
  rw [h.kernel, mem_indices] at hk
  obtain ⟨i, rfl⟩ := Int.eq_ofNat_of_zero_le hk.1
  have hi : i < es.length := by exact_mod_cast hk.2
  rw [h.col i hi]
  exact hs _ (List.getElem_mem hi)

theorem HoldsCSR.col_mem {m : CSR Int P E} {es : List (P × P × E)} (h : HoldsCSR m es) {space : List P}
    (hs : ∀ e ∈ es, e.2.1 ∈ space) : ∀ k ∈ m.kernel, m.col k ∈ space := by
  intro k hk
  rw [h.kernel, mem_indices] at hk
  obtain ⟨i, rfl⟩ := Int.eq_ofNat_of_zero_le hk.1
  have hi : i < es.length := by exact_mod_cast hk.2
  rw [h.col i hi]
  exact hs _ (List.getElem_mem hi)

theorem HoldsCSR.rowsDisjoint {m : CSR Int P E} {es : List (P × P × E)} (h : HoldsCSR m es) : m.RowsDisjoint := by
  intro k hk p q hp hq h1 h2
  rw [h.kernel, mem_indices] at hk
  obtain ⟨i, rfl⟩ := Int.eq_ofNat_of_zero_le hk.1
  have hi : i < es.length := by exact_mod_cast hk.2
  exact ((h.range p hp i hi).1 h1).symm.trans ((h.range q hq i hi).1 h2)

/-- The product of a COO matrix that holds `es`: row `p` of the output gets the products of the triples of row `p` added one
by one. -/
theorem HoldsCOO.matvec {m : COO Int P E} {es : List (P × P × E)} (h : HoldsCOO m es) (A : Arith E) (Env : Env P)
    (dst src : Vec) (hne : src.data ≠ dst.data) (space : List P) (hp : IsPartition space (Env.pieces dst.part))
    (hs : ∀ e ∈ es, e.2.1 ∈ space) (n : Nat) (s : Cell P → E) :
    Ensures (m.matvec A Env dst src (m.kernelFromRange (Env.pieces dst.part)) (m.domainFromRange space (Env.pieces dst.part)))
      n s fun _ s' => OnlyChanged s s' dst space fun p =>
        (es.filter fun e => decide (e.1 = p)).foldl
          (fun acc e => A.add acc (A.mul e.2.2 (s (.elem src.data e.2.1)))) (s (.elem dst.data p)) := by
  have h1 := c27_coo_matvec A Env m dst src hne space space hp (h.col_mem hs) n s
  obtain ⟨a, k, ts, h2, h3, h4⟩ := h1
  refine ⟨a, k, ts, h2, h3, fun M' h5 h6 => ?_⟩
  obtain ⟨h7, h8⟩ := h4 M' h5 h6
  refine ⟨fun p hp => ?_, h8⟩
  rw [h7 p hp]
  have e1 := h.row_entries p
  have e2 : ∀ (l : List Int) (acc : E), l.foldl (fun acc k => A.add acc (A.mul (m.entry k) (s (.elem src.data (m.col k))))) acc
      = (l.map fun k => (m.col k, m.entry k)).foldl (fun acc c => A.add acc (A.mul c.2 (s (.elem src.data c.1)))) acc := by
    intro l acc; rw [List.foldl_map]
  beta_reduce
  rw [e2, e1, List.foldl_map]

/-- The same for CSR: every row of the matrix. -/
theorem HoldsCSR.matvec {m : CSR Int P E} {es : List (P × P × E)} (h : HoldsCSR m es) (A : Arith E) (Env : Env P)
    (dst src : Vec) (hne : src.data ≠ dst.data) (space : List P) (hp : IsPartition m.rows (Env.pieces dst.part))
    (hs : ∀ e ∈ es, e.2.1 ∈ space) (n : Nat) (s : Cell P → E) :
    Ensures (m.matvec A Env dst src (m.kernelFromRange (Env.pieces dst.part)) (m.domainFromRange space (Env.pieces dst.part)))
      n s fun _ s' => OnlyChanged s s' dst m.rows fun p =>
        (es.filter fun e => decide (e.1 = p)).foldl
          (fun acc e => A.add acc (A.mul e.2.2 (s (.elem src.data e.2.1)))) (s (.elem dst.data p)) := by
  have h1 := c28_csr_matvec A Env m h.rowsDisjoint dst src hne space hp (h.col_mem hs) n s
  obtain ⟨a, k, ts, h2, h3, h4⟩ := h1
  refine ⟨a, k, ts, h2, h3, fun M' h5 h6 => ?_⟩
  obtain ⟨h7, h8⟩ := h4 M' h5 h6
  refine ⟨fun p hp => ?_, h8⟩
  rw [h7 p hp]
  have e1 := h.row_entries p hp
  have e2 : ∀ (l : List Int) (acc : E), l.foldl (fun acc k => A.add acc (A.mul (m.entry k) (s (.elem src.data (m.col k))))) acc
      = (l.map fun k => (m.col k, m.entry k)).foldl (fun acc c => A.add acc (A.mul c.2 (s (.elem src.data c.1)))) acc := by
    intro l acc; rw [List.foldl_map]
  beta_reduce
  rw [e2, e1, List.foldl_map]

/-- The coefficient a planner sees. -/
theorem HoldsCOO.coef [AddCommMonoid E] {m : COO Int P E} {es : List (P × P × E)} (h : HoldsCOO m es) (p q : P) :
    (Op.coo m).coef p q = ((es.filter fun e => decide (e.1 = p ∧ e.2.1 = q)).map fun e => e.2.2).sum := by
  show ((m.kernel.filter fun k => decide (m.row k = p ∧ m.col k = q)).map m.entry).sum = _
  rw [h.kernel]
  rw [filter_map_indices es (fun e => e.2.2) m.entry _ (fun e => decide (e.1 = p ∧ e.2.1 = q)) h.entry
    (fun k hk => by rw [h.row k hk, h.col k hk])]

theorem HoldsCSR.coef [AddCommMonoid E] {m : CSR Int P E} {es : List (P × P × E)} (h : HoldsCSR m es) (p q : P)
    (hp : p ∈ m.rows) :
    (Op.csr m).coef p q = ((es.filter fun e => decide (e.1 = p ∧ e.2.1 = q)).map fun e => e.2.2).sum := by
  show ((m.kernel.filter fun k => m.range p k && decide (m.col k = q)).map m.entry).sum = _
  rw [h.kernel]
  rw [filter_map_indices es (fun e => e.2.2) m.entry _ (fun e => decide (e.1 = p ∧ e.2.1 = q)) h.entry
    (fun k hk => by
      rw [Bool.eq_iff_iff, Bool.and_eq_true, decide_eq_true_iff, decide_eq_true_iff, h.range p hp k hk, h.col k hk])]

end Verif.EndToEnd
