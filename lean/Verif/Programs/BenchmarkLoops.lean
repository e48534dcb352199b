import Verif.Programs.BenchmarkModel
import Verif.Solver.Determinism
import Verif.Solver.Client
import Verif.Programs.TestCG

/-! # The benchmark program: its loops and its set-up -/
set_option linter.dupNamespace false
set_option linter.unusedSectionVars false
namespace Verif.Programs
open Verif.Runtime Verif.Vector Verif.Matrix Verif.Planner Verif.Solver Verif.EndToEnd

/-! ## Specification -/

/-- `nt` is the number of groups of `pt` needed for `it`. -/
def Groups (it pt nt : Nat) : Prop := it ≤ nt * pt ∧ ∀ j, it ≤ j * pt → nt ≤ j

/-- What the client must respect, and Legion guarantees: partition pieces inside the space; contributions to a reduction combined in some
order; the partition is complete and disjoint; the four vectors and the workspace have data of their own. -/
structure FourVectors {P : Type} [DecidableEq P] (G : Geometry P) (part : Nat) (d : Nat → Nat) (base : Nat) : Prop where
  valid : G.Valid
  order : ∀ f l, (G.redOrder f l).Perm l
  partition : IsPartition (G.points (G.parent part)) (G.toEnv.pieces part)
  distinct : ∀ i j, i < 4 → j < 4 → d i = d j → i = j
  fresh : ∀ i, i < 4 → d i < base

theorem numTraces_groups {W it pt : Nat} (hpt : 0 < pt) (hW : it + pt ≤ W) : ∃ nt, numTraces W it pt = some nt ∧ Groups it pt nt := by
  refine ⟨(it + pt - 1) / pt, ?_, ?_, fun j hj => ?_⟩
  · unfold numTraces
    rw [if_neg (by omega), show it + pt + (W - 1) = (it + pt - 1) + W from by omega, Nat.add_mod_right, Nat.mod_eq_of_lt (by omega)]
  · have h1 := Nat.div_add_mod (it + pt - 1) pt
    have h2 := Nat.mod_lt (it + pt - 1) hpt
    rw [Nat.mul_comm] at h1
    omega
  · rw [Nat.div_le_iff_le_mul_add_pred hpt, Nat.mul_comm]
    omega

theorem Groups.unique {it pt nt nt' : Nat} (h : Groups it pt nt) (h' : Groups it pt nt') : nt = nt' :=
  Nat.le_antisymm (h.2 _ h'.1) (h'.2 _ h.1)

/-! ## Loops -/
section
variable {K P V α β : Type} [DecidableEq P] [DecidableEq K]

theorem repeatM_add (f : α → M P V α) (a b : Nat) : ∀ c e, repeatM f (a + b) c e = (repeatM f a c e).bind fun z => repeatM f b z.1 z.2 := by
  induction a with
  | zero =>
    intro c e
    rw [Nat.zero_add]
    rfl
  | succ a ih =>
    intro c e
    rw [Nat.succ_add]
    show (f c e).bind (fun z => repeatM f (a + b) z.1 z.2) = ((f c e).bind fun z => repeatM f a z.1 z.2).bind _
    rw [Option.bind_assoc]
    congr 1
    funext z
    exact ih z.1 z.2

theorem repeatM_mul (f : α → M P V α) (pt a : Nat) : ∀ c e, repeatM (fun c => repeatM f pt c) a c e = repeatM f (pt * a) c e := by
  induction a with
  | zero => intro c e; rfl
  | succ a ih =>
    intro c e
    rw [Nat.mul_succ, Nat.add_comm (pt * a) pt, repeatM_add f pt]
    show (repeatM f pt c e).bind (fun z => repeatM (fun c => repeatM f pt c) a z.1 z.2) = _
    congr 1
    funext z
    exact ih z.1 z.2

theorem benchLoops_eq {W it pt nt : Nat} (h : numTraces W it pt = some nt) (f : α → M P V α) (c : α) (e : Emit P V) :
    benchLoops W it pt f c e = (repeatM f (pt * max warmupTraces nt) c e).map fun z => ((z.1, report W pt nt), z.2) := by
  have h1 : pt * max warmupTraces nt = pt * warmupTraces + pt * (nt - warmupTraces) := by
    rw [← Nat.mul_add]
    congr 1
    omega
  rw [h1, repeatM_add, ← repeatM_mul]
  unfold benchLoops
  show ((numTraces W it pt).map fun a => (a, e)).bind _ = _
  rw [h]
  show (repeatM (fun c => repeatM f pt c) warmupTraces c e).bind (fun z =>
    (repeatM (fun c => repeatM f pt c) (nt - warmupTraces) z.1 z.2).bind fun y => some ((y.1, report W pt nt), y.2)) = _
  rw [Option.map_bind]
  congr 1
  funext z
  show _ = (repeatM f (pt * (nt - warmupTraces)) z.1 z.2).map _
  rw [repeatM_mul]
  cases repeatM f (pt * (nt - warmupTraces)) z.1 z.2 <;> rfl

/-- The rest of a branch once the solver is constructed. -/
theorem branch_eq {W it pt nt : Nat} (h : numTraces W it pt = some nt) (init : M P V α) (f : α → M P V α) (e : Emit P V) :
    (do let c ← init; let r ← benchLoops W it pt f c; pure r.2 : M P V Report) e =
      ((do let c ← init; repeatM f (pt * max warmupTraces nt) c : M P V α) e).map fun z => (report W pt nt, z.2) := by
  show (init e).bind (fun z => (benchLoops W it pt f z.1 z.2).bind fun y => some (y.1.2, y.2)) =
    ((init e).bind fun z => repeatM f (pt * max warmupTraces nt) z.1 z.2).map _
  rw [Option.map_bind]
  congr 1
  funext z
  rw [benchLoops_eq h]
  show _ = (repeatM f (pt * max warmupTraces nt) z.1 z.2).map _
  cases repeatM f (pt * max warmupTraces nt) z.1 z.2 <;> rfl

variable {A : Arith V} {G : Geometry P} {pl : Planner K P V} {base W it pt nt : Nat}

theorem benchCG_eq (h : numTraces W it pt = some nt) (e : Emit P V) :
    benchCG A G pl base W it pt e = (cg A G pl base (pt * max warmupTraces nt) e).map fun z => (report W pt nt, z.2) := by
  show ((allocate G pl base 3) e).bind _ = (((allocate G pl base 3) e).bind _).map _
  rw [Option.map_bind]
  congr 1
  funext z
  exact branch_eq h (CG.init (plannerOps A G.toEnv z.1)) (CG.step (plannerOps A G.toEnv z.1)) z.2

theorem benchBiCGStab_eq (h : numTraces W it pt = some nt) (e : Emit P V) :
    benchBiCGStab A G pl base W it pt e = (biCGStab A G pl base (pt * max warmupTraces nt) e).map fun z => (report W pt nt, z.2) := by
  show ((allocate G pl base 5) e).bind _ = (((allocate G pl base 5) e).bind _).map _
  rw [Option.map_bind]
  congr 1
  funext z
  exact branch_eq h (BiCGStab.init (plannerOps A G.toEnv z.1)) (BiCGStab.step (plannerOps A G.toEnv z.1)) z.2

theorem gmres_branch (r : Nat) (h : numTraces W it pt = some nt) (e : Emit P V) :
    (do let pl' ← allocate G pl base (r + 1)
        let c ← GMRES.init (plannerOps A G.toEnv pl') r
        let q ← benchLoops W it pt (GMRES.step (plannerOps A G.toEnv pl')) c
        pure q.2 : M P V Report) e =
      (gmres A G pl base r (pt * max warmupTraces nt) e).map fun z => (report W pt nt, z.2) := by
  show ((allocate G pl base (r + 1)) e).bind _ = (((allocate G pl base (r + 1)) e).bind _).map _
  rw [Option.map_bind]
  congr 1
  funext z
  exact branch_eq h (GMRES.init (plannerOps A G.toEnv z.1) r) (GMRES.step (plannerOps A G.toEnv z.1)) z.2

theorem benchGMRES_eq (h : numTraces W it pt = some nt) (e : Emit P V) :
    benchGMRES A G pl base W it pt e = (gmres A G pl base 10 (pt * max warmupTraces nt) e).map fun z => (report W pt nt, z.2) :=
  gmres_branch 10 h e

/-! ## From any schedule to the sequential run and back -/

theorem Ensures.wp {m : M P V α} {n : Nat} {s : Cell P → V} {Q : α → (Cell P → V) → Prop} (hm : Hon m) (h : Ensures m n s Q) :
    WP m n s fun a _ s' => Q a s' := by
  obtain ⟨a, n', ts, h1, h2, h3⟩ := h
  obtain ⟨ts', e, ht, hout⟩ := hm _ _ _ h1
  have he : ts = ts' := by rw [show ts = [] ++ ts' from e]; rfl
  subst he
  refine ⟨a, n', _, ⟨ts, hout, ht, rfl⟩, ?_⟩
  obtain ⟨M', q1, q2⟩ := h2
  rw [← c42_any_schedule s ts ht M' q1 q2]
  exact h3 M' q1 q2

/-- A program that does the same as `m` up to its result. -/
theorem Ensures.result {m : M P V α} {m' : M P V β} {n : Nat} {s : Cell P → V} {Q : α → (Cell P → V) → Prop} (f : α → β)
    (h : Ensures m n s Q) (hm : ∀ e, m' e = (m e).map fun z => (f z.1, z.2)) : Ensures m' n s fun b s' => ∃ a, b = f a ∧ Q a s' := by
  obtain ⟨a, n', ts, h1, h2, h3⟩ := h
  exact ⟨f a, n', ts, by rw [hm, h1]; rfl, h2, fun M' q1 q2 => ⟨a, rfl, h3 M' q1 q2⟩⟩

theorem Hon.of_map {m : M P V α} {m' : M P V β} (f : α → β) (h : Hon m) (hm : ∀ e, m' e = (m e).map fun z => (f z.1, z.2)) : Hon m' := by
  intro e b e' he
  rw [hm] at he
  cases hme : m e with
  | none => rw [hme] at he; cases he
  | some z =>
    rw [hme] at he
    obtain ⟨rfl, rfl⟩ := Prod.mk.inj (Option.some.inj he)
    obtain ⟨ts, h1, h2, h3⟩ := h e z.1 z.2 hme
    exact ⟨ts, h1, h2, fun out => by rw [hm, h3]; rfl⟩

theorem hon_allocate (n : Nat) : Hon (allocate G pl base n) := Hon.option _

theorem hon_cg (k : Nat) : Hon (cg A G pl base k) :=
  (hon_allocate 3).bind fun pl' => Hon.cgSolve (Hon.plannerOps A G.toEnv pl') k

theorem hon_bi (k : Nat) : Hon (biCGStab A G pl base k) :=
  (hon_allocate 5).bind fun pl' => Hon.biSolve (Hon.plannerOps A G.toEnv pl') k

theorem hon_gmres (m k : Nat) : Hon (gmres A G pl base m k) :=
  (hon_allocate (m + 1)).bind fun pl' => Hon.gmresSolve (Hon.plannerOps A G.toEnv pl') m k

/-! ## Set-up -/

/-- The vector a constructor makes. -/
def vecOf (G : Geometry P) (part d : Nat) : Vec := ⟨d, G.parent part, G.colorSpace part, part⟩

variable {part : Nat} {d : Nat → Nat} {m : Op K P V}

theorem FourVectors.makes (h : FourVectors G part d base) (x : Nat) : newVector G part x = some (vecOf G part x) := by
  unfold newVector vecOf
  rw [if_pos]
  rw [Bool.and_eq_true]
  exact ⟨decide_eq_true h.partition.1, List.all_eq_true.2 fun p hp => decide_eq_true ((h.partition.2 p).2 hp)⟩

/-- The calls of the benchmark. -/
def theCalls (G : Geometry P) (part : Nat) (d : Nat → Nat) (m : Op K P V) : List (Setup K P V) :=
  benchCalls (vecOf G part (d 2)) (vecOf G part (d 3)) (vecOf G part (d 0)) (vecOf G part (d 1)) m

theorem FourVectors.system (h : FourVectors G part d base) (hm : m.Fits (G.points (G.parent part)) (G.points (G.parent part))) :
    ClientSystem G (theCalls G part d m) base where
  valid := h.valid
  order := h.order
  constructed := by
    intro c hc
    simp only [theCalls, benchCalls, List.mem_cons, List.not_mem_nil, or_false] at hc
    rcases hc with rfl | rfl | rfl | rfl | rfl | rfl
    · exact h.makes _
    · exact h.makes _
    · exact h.makes _
    · exact h.makes _
    · trivial
    · trivial
  legal := by
    intro a c b he
    unfold theCalls benchCalls at he
    rcases a with _ | ⟨x, _ | ⟨y, _ | ⟨z, _ | ⟨w, _ | ⟨t, _ | ⟨r, a⟩⟩⟩⟩⟩⟩
    · simp only [List.nil_append, List.cons.injEq] at he
      obtain ⟨rfl, -⟩ := he
      exact ⟨rfl, fun w hw => by simp [rhss] at hw⟩
    · simp only [List.cons_append, List.nil_append, List.cons.injEq] at he
      obtain ⟨rfl, rfl, -⟩ := he
      exact ⟨rfl, fun w hw => by simp [rhss] at hw⟩
    · simp only [List.cons_append, List.nil_append, List.cons.injEq] at he
      obtain ⟨rfl, rfl, rfl, -⟩ := he
      refine ⟨rfl, fun w hw => ?_⟩
      have : w = vecOf G part (d 2) := by simpa [sols, rhss] using hw.symm
      rw [this]
      exact ⟨rfl, rfl⟩
    · simp only [List.cons_append, List.nil_append, List.cons.injEq] at he
      obtain ⟨rfl, rfl, rfl, rfl, -⟩ := he
      refine ⟨rfl, fun w hw => ?_⟩
      have : w = vecOf G part (d 3) := by simpa [sols, rhss] using hw.symm
      rw [this]
      exact ⟨rfl, rfl⟩
    · simp only [List.cons_append, List.nil_append, List.cons.injEq] at he
      obtain ⟨rfl, rfl, rfl, rfl, rfl, -⟩ := he
      simp [Allowed, sols, rhss]
    · simp only [List.cons_append, List.nil_append, List.cons.injEq] at he
      obtain ⟨rfl, rfl, rfl, rfl, rfl, rfl, -⟩ := he
      simp [Allowed, sols, rhss]
    · simp at he
  noWorkspace := rfl
  lengths := rfl
  nonempty := Nat.zero_lt_two
  data := by
    show [d 2, d 3, d 0, d 1].Nodup
    have hd := h.distinct
    simp only [List.nodup_cons, List.mem_cons, List.not_mem_nil, or_false, not_or, List.nodup_nil, and_true, not_false_eq_true]
    refine ⟨⟨fun e => ?_, fun e => ?_, fun e => ?_⟩, ⟨fun e => ?_, fun e => ?_⟩, fun e => ?_⟩
    · have := hd 2 3 (by omega) (by omega) e; omega
    · have := hd 2 0 (by omega) (by omega) e; omega
    · have := hd 2 1 (by omega) (by omega) e; omega
    · have := hd 3 0 (by omega) (by omega) e; omega
    · have := hd 3 1 (by omega) (by omega) e; omega
    · have := hd 0 1 (by omega) (by omega) e; omega
  fresh := by
    intro v hv
    have hv : v ∈ [vecOf G part (d 2), vecOf G part (d 3), vecOf G part (d 0), vecOf G part (d 1)] := hv
    simp only [List.mem_cons, List.not_mem_nil, or_false] at hv
    rcases hv with rfl | rfl | rfl | rfl <;> exact h.fresh _ (by omega)
  fits := by
    intro m' a b hmem vd vr hvd hvr
    have hs : ∀ (i : Nat) (v : Vec), (sols (theCalls G part d m))[i]? = some v → v.space = G.parent part := by
      intro i v hv
      have : v ∈ [vecOf G part (d 2), vecOf G part (d 3)] := List.mem_of_getElem? hv
      simp only [List.mem_cons, List.not_mem_nil, or_false] at this
      rcases this with rfl | rfl <;> rfl
    rw [hs _ _ hvd, hs _ _ hvr]
    have hmem : (m', a, b) ∈ [(m, 0, 0), (m, 1, 1)] := hmem
    simp only [List.mem_cons, List.not_mem_nil, or_false, Prod.mk.injEq] at hmem
    rcases hmem with ⟨rfl, -⟩ | ⟨rfl, -⟩ <;> exact hm

/-- Memory when the solver is constructed: both right-hand sides one, both solutions zero. -/
def benchStart (A : Arith V) (G : Geometry P) (part : Nat) (d : Nat → Nat) (s : Cell P → V) : Cell P → V :=
  let g := G.points (G.parent part)
  setVec (setVec (setVec (setVec s (vecOf G part (d 0)) g fun _ => A.one) (vecOf G part (d 1)) g fun _ => A.one) (vecOf G part (d 2)) g
    fun _ => A.zero) (vecOf G part (d 3)) g fun _ => A.zero

theorem start_sol (s : Cell P → V) {i : Nat} (hi : i < 2) {p : P}
    (hp : p ∈ G.points (G.parent part)) : benchStart A G part d s (.elem (d (2 + i)) p) = A.zero := by
  unfold benchStart
  simp only [setVec_elem, vecOf]
  rcases (by omega : i = 0 ∨ i = 1) with rfl | rfl
  · by_cases e : d (2 + 0) = d 3
    · rw [if_pos ⟨e, hp⟩]
    · rw [if_neg (fun q => e q.1), if_pos ⟨rfl, hp⟩]
  · rw [if_pos ⟨rfl, hp⟩]

theorem FourVectors.start_rhs (h : FourVectors G part d base) (s : Cell P → V) {i : Nat} (hi : i < 2) {p : P}
    (hp : p ∈ G.points (G.parent part)) : benchStart A G part d s (.elem (d i) p) = A.one := by
  have hd := h.distinct
  unfold benchStart
  simp only [setVec_elem, vecOf]
  rw [if_neg (fun q => by have := hd i 3 (by omega) (by omega) q.1; omega),
    if_neg (fun q => by have := hd i 2 (by omega) (by omega) q.1; omega)]
  rcases (by omega : i = 0 ∨ i = 1) with rfl | rfl
  · by_cases e : d 0 = d 1
    · rw [if_pos ⟨e, hp⟩]
    · rw [if_neg (fun q => e q.1), if_pos ⟨rfl, hp⟩]
  · rw [if_pos ⟨rfl, hp⟩]

/-- What the branch taken does. -/
def branch (A : Arith V) (G : Geometry P) (pl : Planner K P V) (base W : Nat) (o : Options) : M P V (Option Report) :=
  if o.solver = 1 then do
    let r ← benchCG A G pl base W o.it o.pt
    pure (some r)
  else if o.solver = 2 then do
    let r ← benchBiCGStab A G pl base W o.it o.pt
    pure (some r)
  else if o.solver = 3 then do
    let r ← benchGMRES A G pl base W o.it o.pt
    pure (some r)
  else pure none

theorem FourVectors.wp (h : FourVectors G part d base) {s : Cell P → V} {t : Nat} {o : Options}
    {Q : Option Report → (Cell P → V) → Prop} (hpl : Planner.empty.setupAll G (theCalls G part d m) = some pl)
    (hb : WP (branch A G pl base W o) t (benchStart A G part d s) fun a _ s' => Q a s') :
    WP (benchSolve A G part d base m W o) t s fun a _ s' => Q a s' := by
  have hp : ∀ x, IsPartition (G.points (G.parent part)) (G.toEnv.pieces (vecOf G part x).part) := fun x => h.partition
  refine WP.lift (h.makes _) (WP.bind ⟨(), t, _, Runs.constantFill _ _ _ _ (hp _) t s, ?_⟩)
  refine WP.lift (h.makes _) (WP.bind ⟨(), t, _, Runs.constantFill _ _ _ _ (hp _) t _, ?_⟩)
  refine WP.lift (h.makes _) (WP.bind ⟨(), t, _, Runs.constantFill _ _ _ _ (hp _) t _, ?_⟩)
  refine WP.lift (h.makes _) (WP.bind ⟨(), t, _, Runs.constantFill _ _ _ _ (hp _) t _, ?_⟩)
  exact WP.lift hpl hb

/-- The solver as one program, its result forgotten. -/
def solverRun (A : Arith V) (G : Geometry P) (pl : Planner K P V) (base k : Nat) (solver : Int) : M P V Unit :=
  if solver = 1 then do let _ ← cg A G pl base k; pure ()
  else if solver = 2 then do let _ ← biCGStab A G pl base k; pure ()
  else do let _ ← gmres A G pl base 10 k; pure ()

theorem hon_solverRun (k : Nat) (x : Int) : Hon (solverRun A G pl base k x) := by
  unfold solverRun
  split
  · exact (hon_cg k).bind fun _ => Hon.pure _
  · split
    · exact (hon_bi k).bind fun _ => Hon.pure _
    · exact (hon_gmres 10 k).bind fun _ => Hon.pure _

theorem bind_map {m : M P V α} {m' : M P V Report} {r : Report} (h : ∀ e, m' e = (m e).map fun z => (r, z.2)) (e : Emit P V) :
    (do let x ← m'; pure (some x) : M P V (Option Report)) e = ((do let _ ← m; pure () : M P V Unit) e).map fun z => (some r, z.2) := by
  show (m' e).bind (fun z => some (some z.1, z.2)) = ((m e).bind fun z => some ((), z.2)).map _
  rw [h]
  cases m e <;> rfl

theorem branch_solver {o : Options} (ho : o.solver = 1 ∨ o.solver = 2 ∨ o.solver = 3) (h : numTraces W o.it o.pt = some nt) (e : Emit P V) :
    branch A G pl base W o e = (solverRun A G pl base (o.pt * max warmupTraces nt) o.solver e).map fun z => (some (report W o.pt nt), z.2) := by
  unfold branch solverRun
  rcases ho with ho | ho | ho
  · rw [if_pos ho, if_pos ho]
    exact bind_map (benchCG_eq h) e
  · rw [if_neg (by omega), if_pos ho, if_neg (by omega), if_pos ho]
    exact bind_map (benchBiCGStab_eq h) e
  · rw [if_neg (by omega), if_neg (by omega), if_pos ho, if_neg (by omega), if_neg (by omega)]
    exact bind_map (benchGMRES_eq h) e

theorem Ensures.forget {m : M P V α} {n : Nat} {s : Cell P → V} {Q : (Cell P → V) → Prop} (h : Ensures m n s fun _ s' => Q s') :
    Ensures (do let _ ← m; pure () : M P V Unit) n s fun _ s' => Q s' := by
  obtain ⟨a, n', ts, h1, h2, h3⟩ := h
  refine ⟨(), n', ts, ?_, h2, h3⟩
  show (m ⟨n, []⟩).bind (fun z => some ((), z.2)) = _
  rw [h1]
  rfl

/-- What a solver run ensures from the start memory, the benchmark ensures. -/
theorem FourVectors.solves (h : FourVectors G part d base) {s : Cell P → V} {t : Nat} {o : Options}
    (ho : o.solver = 1 ∨ o.solver = 2 ∨ o.solver = 3) {Q : (Cell P → V) → Prop}
    (hpl : Planner.empty.setupAll G (theCalls G part d m) = some pl) (hnt : numTraces W o.it o.pt = some nt)
    (hb : Ensures (solverRun A G pl base (o.pt * max warmupTraces nt) o.solver) t (benchStart A G part d s) fun _ s' => Q s') :
    WP (benchSolve A G part d base m W o) t s fun r _ s' => r = some (report W o.pt nt) ∧ Q s' := by
  refine h.wp hpl ?_
  refine (Ensures.wp (Hon.of_map (fun _ => some (report W o.pt nt)) (hon_solverRun (o.pt * max warmupTraces nt) o.solver)
    (branch_solver ho hnt)) (Ensures.result (fun _ => some (report W o.pt nt)) hb (branch_solver ho hnt))).mono ?_
  rintro r n' s' ⟨a, rfl, hq⟩
  exact ⟨rfl, hq⟩

end
end Verif.Programs
