import Verif.Sweep.Props

/-! # C94: the sweeps and the scripts -/
set_option linter.dupNamespace false
namespace Verif.Sweep

theorem AllPassed.nil {memory : Bool} {c : Nat → Except Exc Cmd} : AllPassed memory c 0 [] :=
  ⟨[], rfl, rfl, fun i b h => by simp at h⟩

/-! ## The commands -/

theorem jsrun_gpu (p : String) (a : List String) (b : Bool) : ∃ c, jsrun p a "gpu" b = .ok c := by
  unfold jsrun
  simp

theorem jsrun_node (p : String) (a : List String) (b : Bool) : ∃ c, jsrun p a "node" b = .ok c := by
  unfold jsrun
  simp

theorem sizeAt_three {d n : Nat} (h1 : d ≠ 1) (h2 : d ≠ 2) : sizeAt d n = [2 ^ (4 + (n + 2) / 3), 2 ^ (4 + (n + 1) / 3), 2 ^ (4 + n / 3)] := by
  unfold sizeAt
  split
  · contradiction
  · contradiction
  · rfl

theorem petsc_ok {dim solver : String} (hd : dim ∈ ["1D", "2D", "3D", "3D27"]) (hs : solver ∈ ["cg", "bcgs", "gmres"]) (n : Nat) :
    ∃ cmd, petscCommand dim solver (sizeAt (dimensions dim) n) = .ok cmd := by
  have : ∃ a, petscArgs dim (sizeAt (dimensions dim) n) solver = .ok a := by
    simp only [List.mem_cons, List.not_mem_nil, or_false] at hd
    rcases hd with rfl | rfl | rfl | rfl <;>
      simp [petscArgs, dimensions, sizeAt] <;> exact ⟨_, if_pos (by simpa using hs)⟩
  obtain ⟨a, ha⟩ := this
  obtain ⟨c, hc⟩ := jsrun_gpu "/g/g20/zhang70/LegionSolvers/benchmarks/petsc/PETScSolverBenchmark" a true
  exact ⟨c, by unfold petscCommand; rw [ha]; exact hc⟩

theorem trilinos_ok {dim solver : String} (hd : dim ∈ ["1D", "2D", "3D", "3D27"]) (hs : solver ∈ ["CG", "BiCGStab", "GMRES"]) (n : Nat) :
    ∃ cmd, trilinosCommand dim solver (sizeAt (dimensions dim) n) = .ok cmd := by
  have : ∃ a, trilinosArgs dim (sizeAt (dimensions dim) n) solver = .ok a := by
    unfold trilinosArgs
    rw [if_pos hs]
    simp only [List.mem_cons, List.not_mem_nil, or_false] at hd
    rcases hd with rfl | rfl | rfl | rfl <;> simp [dimensions, sizeAt]
  obtain ⟨a, ha⟩ := this
  obtain ⟨c, hc⟩ := jsrun_gpu "/g/g20/zhang70/LegionSolvers/benchmarks/trilinos/build/TrilinosSolverBenchmark" a true
  exact ⟨c, by unfold trilinosCommand; rw [ha]; exact hc⟩

theorem library_ok (nodes : Nat) {dim solver : String} (hd : dim ∈ ["1", "2", "3", "4"]) (hs : solver ∈ ["1", "2", "3"]) (n : Nat) :
    ∃ cmd, libraryCommand nodes dim solver (sizeAt (dimensions dim) n) = .ok cmd := by
  have : ∃ a, libraryArgs nodes dim (sizeAt (dimensions dim) n) solver = .ok a := by
    unfold libraryArgs
    rw [if_pos hs]
    simp only [List.mem_cons, List.not_mem_nil, or_false] at hd
    rcases hd with rfl | rfl | rfl | rfl <;> simp [dimensions, sizeAt]
  obtain ⟨a, ha⟩ := this
  obtain ⟨c, hc⟩ := jsrun_node "/p/gpfs1/zhang70/LegionSolversBuild/cr_cuda_nokokkos_release/BenchmarkStencil" a false
  exact ⟨c, by unfold libraryCommand; rw [ha]; exact hc⟩

/-! ## One sweep -/

/-- **C94**, the sweep over PETSc, if it ends: it has run the sizes in order, each until a success but at most five times, and returns the first
size that ran out of memory or failed five times. -/
theorem c94_petsc (ext : Ext) {dim solver : String} (hd : dim ∈ ["1D", "2D", "3D", "3D27"]) (hs : solver ∈ ["cg", "bcgs", "gmres"]) (log : Log)
    (r : Except Exc Size × Log) (h : benchmarkPetsc ext dim solver (iteratorFor (dimensions dim)) log = some r) :
    ∃ n l, r = (.ok (sizeAt (dimensions dim) n), log ++ l) ∧
      FailsAt true (fun i => petscCommand dim solver (sizeAt (dimensions dim) i)) n l ∧ Genuine ext log l := by
  have hc : ∀ n, ∃ cmd, petscCommand dim solver ((iteratorFor (dimensions dim)).after n).yields = .ok cmd := fun n => by
    rw [yields_after]
    exact petsc_ok hd hs n
  obtain ⟨m, l, -, h1, h2, h3⟩ := petsc_from ext dim solver _ hc _ log r h 0 [] log rfl (by simp) AllPassed.nil (Genuine.nil _ _)
  rw [yields_after] at h1
  simp only [yields_after] at h2
  exact ⟨m, l, h1, h2, h3⟩

/-- A block in which the command never succeeds is not passed. -/
theorem not_passed {ext : Ext} {log l : Log} {cmd : Cmd} (hg : Genuine ext log l) (hn : ∀ log', ¬Success true (ext log' cmd)) : ¬Passed true (.ok cmd) l := by
  rintro ⟨f, e, rfl, -, -, h1, h2⟩
  have h3 := hg f e [] rfl
  have h4 : cmd = e.1 := by simpa using h1
  rw [h3, ← h4] at h2
  exact hn _ h2

/-- **C94**, when the sweep over PETSc ends: if one size never succeeds it ends there at the latest. -/
theorem c94_petsc_ends (ext : Ext) {dim solver : String} (hd : dim ∈ ["1D", "2D", "3D", "3D27"]) (hs : solver ∈ ["cg", "bcgs", "gmres"]) (n : Nat)
    (hn : ∀ cmd log, petscCommand dim solver (sizeAt (dimensions dim) n) = .ok cmd → ¬Success true (ext log cmd)) (log : Log) :
    ∃ m log', m ≤ n ∧ benchmarkPetsc ext dim solver (iteratorFor (dimensions dim)) log = some (.ok (sizeAt (dimensions dim) m), log') := by
  have key : ∀ k i log, i + k = n → ∃ m log', m ≤ n ∧
      benchmarkPetsc ext dim solver ((iteratorFor (dimensions dim)).after i) log = some (.ok (sizeAt (dimensions dim) m), log') := by
    intro k
    induction k with
    | zero =>
      intro i log hi
      obtain ⟨cmd, hcmd⟩ := petsc_ok hd hs i
      obtain ⟨ok, l, t1, t2, t3, t4⟩ := tries_ends ext true cmd log
      rw [benchmarkPetsc, yields_after, hcmd]
      simp only [t1]
      cases ok with
      | true => exact absurd (t3 rfl) (not_passed t2 fun log' => hn cmd log' (by rw [← hi]; exact hcmd))
      | false => exact ⟨i, log ++ l, by omega, rfl⟩
    | succ k ih =>
      intro i log hi
      obtain ⟨cmd, hcmd⟩ := petsc_ok hd hs i
      obtain ⟨ok, l, t1, t2, t3, t4⟩ := tries_ends ext true cmd log
      rw [benchmarkPetsc, yields_after, hcmd]
      simp only [t1]
      cases ok with
      | true => exact ih (i + 1) (log ++ l) (by omega)
      | false => exact ⟨i, log ++ l, by omega, rfl⟩
  exact key n 0 log (by omega)

/-- **C94**, when it does not end: if PETSc always succeeds. -/
theorem c94_petsc_forever (ext : Ext) {dim solver : String} (hd : dim ∈ ["1D", "2D", "3D", "3D27"]) (hs : solver ∈ ["cg", "bcgs", "gmres"])
    (h : ∀ n cmd log, petscCommand dim solver (sizeAt (dimensions dim) n) = .ok cmd → Success true (ext log cmd)) (log : Log) :
    benchmarkPetsc ext dim solver (iteratorFor (dimensions dim)) log = none := by
  cases hr : benchmarkPetsc ext dim solver (iteratorFor (dimensions dim)) log with
  | none => rfl
  | some r =>
    obtain ⟨n, l, -, ⟨a, b, rfl, -, hb⟩, hg⟩ := c94_petsc ext hd hs log r hr
    have hno : ∀ e f c, a ++ b = f ++ e :: c → petscCommand dim solver (sizeAt (dimensions dim) n) = .ok e.1 → Success true e.2 := by
      intro e f c hf hc
      rw [hg f e c hf]
      exact h n e.1 _ hc
    rcases hb with ⟨hlen, hf⟩ | ⟨f, e, rfl, -, -, hc, -, ho⟩
    · cases b with
      | nil => simp at hlen
      | cons e b =>
        obtain ⟨hc, h1⟩ := hf e (List.mem_cons_self ..)
        exact absurd (hno e a b rfl hc).1 h1.1
    · have := (hno e (a ++ f) [] (by simp) hc).2
      exact absurd ⟨rfl, ho⟩ this

/-- **C94**, a sweep over Trilinos or the library with a maximal size the iterator reaches: it ends whatever the programs do, has run sizes in
order and none from the maximal one on, at most five times each. -/
theorem c94_up_to (ext : Ext) (d : Nat) (c : Size → Except Exc Cmd) (hc : ∀ i, ∃ cmd, c (sizeAt d i) = .ok cmd) (n : Nat) (log : Log) :
    ∃ l, benchmarkUpTo ext c (iteratorFor d) (sizeAt d n) log = some (.ok (), log ++ l) ∧ UpTo (fun i => c (sizeAt d i)) n l ∧
      Genuine ext log l ∧ l.length ≤ 5 * n := by
  have key : ∀ k i a log0, i + k = n → AllPassed false (fun i => c (sizeAt d i)) i a → Genuine ext log0 a →
      ∃ l, benchmarkUpTo ext c ((iteratorFor d).after i) (sizeAt d n) (log0 ++ a) = some (.ok (), log0 ++ l) ∧
        UpTo (fun i => c (sizeAt d i)) n l ∧ Genuine ext log0 l := by
    intro k
    induction k with
    | zero =>
      intro i a log0 hi ha hg
      have : i = n := by omega
      subst this
      rw [benchmarkUpTo, yields_after, if_pos rfl]
      exact ⟨a, rfl, Or.inl ha, hg⟩
    | succ k ih =>
      intro i a log0 hi ha hg
      have hne : sizeAt d i ≠ sizeAt d n := fun h => by
        have := sizeAt_inj h
        omega
      obtain ⟨cmd, hcmd⟩ := hc i
      obtain ⟨ok, l, t1, t2, t3, t4⟩ := tries_ends ext false cmd (log0 ++ a)
      rw [← hcmd] at t3 t4
      rw [benchmarkUpTo, yields_after, if_neg hne, hcmd]
      simp only [t1]
      cases ok with
      | true =>
        obtain ⟨l', h1, h2⟩ := ih (i + 1) (a ++ l) log0 (by omega) (ha.snoc (t3 rfl)) (hg.append t2)
        refine ⟨l', ?_, h2⟩
        rw [← h1, List.append_assoc]
        rfl
      | false =>
        refine ⟨a ++ l, ?_, Or.inr ⟨i, by omega, a, l, rfl, ha, t4 rfl⟩, hg.append t2⟩
        rw [← List.append_assoc]
        rfl
  obtain ⟨l, h1, h2, h3⟩ := key n 0 [] log (by omega) AllPassed.nil (Genuine.nil _ _)
  rw [List.append_nil] at h1
  exact ⟨l, h1, h2, h3, h2.length⟩

/-! ## The scripts -/

theorem petscCalls_eq : petscCalls = comparisons.map fun c => (c.1, c.2.1, iteratorFor (dimensions c.1)) := by
  simp [petscCalls, comparisons, dimensions, iteratorFor]

theorem trilinosCalls_eq : trilinosCalls = comparisons.map fun c => (c.1, c.2.2, iteratorFor (dimensions c.1)) := by
  simp [trilinosCalls, comparisons, dimensions, iteratorFor]

theorem libraryCalls_eq : libraryCalls = libraryProblems.map fun c => (c.1, c.2, iteratorFor (dimensions c.1)) := by
  simp [libraryCalls, libraryProblems, dimensions, iteratorFor]

theorem comparisons_ok {c : String × String × String} (h : c ∈ comparisons) :
    c.1 ∈ ["1D", "2D", "3D", "3D27"] ∧ c.2.1 ∈ ["cg", "bcgs", "gmres"] ∧ c.2.2 ∈ ["CG", "BiCGStab", "GMRES"] := by
  simp only [comparisons, List.mem_flatMap, List.mem_map] at h
  obtain ⟨s, hs, d, hd, rfl⟩ := h
  refine ⟨hd, ?_⟩
  simp only [List.mem_cons, List.not_mem_nil, or_false] at hs
  rcases hs with rfl | rfl | rfl <;> simp

theorem libraryProblems_ok {c : String × String} (h : c ∈ libraryProblems) : c.1 ∈ ["1", "2", "3", "4"] ∧ c.2 ∈ ["1", "2", "3"] := by
  simp only [libraryProblems, List.mem_flatMap, List.mem_map] at h
  obtain ⟨s, hs, d, hd, rfl⟩ := h
  exact ⟨hd, hs⟩

theorem allPetsc_spec (ext : Ext) (cs : List (String × String × String)) (hcs : ∀ c ∈ cs, c ∈ comparisons) : ∀ (log : Log) (r : Except Exc (List Size) × Log),
    allPetsc ext (cs.map fun c => (c.1, c.2.1, iteratorFor (dimensions c.1))) log = some r →
    ∃ ws : List Comparison, ws.map (·.problem) = cs ∧ r = (.ok (ws.map fun w => sizeAt (dimensions w.problem.1) w.n), log ++ ws.flatMap (·.petscRuns)) ∧
      (∀ w ∈ ws, FailsAt true (fun i => petscCommand w.problem.1 w.problem.2.1 (sizeAt (dimensions w.problem.1) i)) w.n w.petscRuns) ∧
      Genuine ext log (ws.flatMap (·.petscRuns)) := by
  induction cs with
  | nil =>
    intro log r h
    simp only [List.map_nil, allPetsc, Option.some.injEq] at h
    exact ⟨[], rfl, by rw [← h]; simp, by simp, by simpa using Genuine.nil ext log⟩
  | cons c cs ih =>
    intro log r h
    obtain ⟨hd, hs, -⟩ := comparisons_ok (hcs c (List.mem_cons_self ..))
    simp only [List.map_cons, allPetsc, andThen] at h
    cases hb : benchmarkPetsc ext c.1 c.2.1 (iteratorFor (dimensions c.1)) log with
    | none => rw [hb] at h; cases h
    | some r1 =>
      obtain ⟨n, l, rfl, h2, h3⟩ := c94_petsc ext hd hs log r1 hb
      rw [hb] at h
      simp only [Option.bind_some] at h
      cases ha : allPetsc ext (cs.map fun c => (c.1, c.2.1, iteratorFor (dimensions c.1))) (log ++ l) with
      | none => rw [ha] at h; cases h
      | some r2 =>
        obtain ⟨ws, g1, rfl, g3, g4⟩ := ih (fun c hc => hcs c (List.mem_cons_of_mem _ hc)) _ _ ha
        rw [ha] at h
        simp only [Option.bind_some, Option.some.injEq] at h
        refine ⟨⟨c, n, l, []⟩ :: ws, by simp [g1], by rw [← h]; simp, ?_, ?_⟩
        · intro w hw
          rcases List.mem_cons.1 hw with rfl | hw
          · exact h2
          · exact g3 w hw
        · simpa using h3.append g4

theorem allUpTo_spec (ext : Ext) (command : String → String → Size → Except Exc Cmd) (cs : List ((String × String) × Nat))
    (hok : ∀ c ∈ cs, ∀ i, ∃ cmd, command c.1.1 c.1.2 (sizeAt (dimensions c.1.1) i) = .ok cmd) : ∀ log : Log,
    ∃ ws : List LibrarySweep, ws.map (fun w => (w.problem, w.n)) = cs ∧
      allUpTo ext command (cs.map fun c => ((c.1.1, c.1.2, iteratorFor (dimensions c.1.1)), sizeAt (dimensions c.1.1) c.2)) log =
        some (.ok (), log ++ ws.flatMap (·.runs)) ∧
      (∀ w ∈ ws, UpTo (fun i => command w.problem.1 w.problem.2 (sizeAt (dimensions w.problem.1) i)) w.n w.runs) ∧
      Genuine ext log (ws.flatMap (·.runs)) := by
  induction cs with
  | nil => exact fun log => ⟨[], rfl, by simp [allUpTo], by simp, by simpa using Genuine.nil ext log⟩
  | cons c cs ih =>
    intro log
    obtain ⟨l, h1, h2, h3, -⟩ := c94_up_to ext (dimensions c.1.1) (command c.1.1 c.1.2) (hok c (List.mem_cons_self ..)) c.2 log
    obtain ⟨ws, g1, g2, g3, g4⟩ := ih (fun c hc => hok c (List.mem_cons_of_mem _ hc)) (log ++ l)
    refine ⟨⟨c.1, c.2, l⟩ :: ws, by simp [g1], ?_, ?_, ?_⟩
    · simp only [List.map_cons, allUpTo, andThen, h1, Option.bind_some, g2]
      simp
    · intro w hw
      rcases List.mem_cons.1 hw with rfl | hw
      · exact h2
      · exact g3 w hw
    · simpa using h3.append g4

theorem countNodes_spec (ext : Ext) (log : Log) : ∃ r e, countNodes ext log = some (r, log ++ [e]) ∧ e.2 = ext log e.1 := by
  obtain ⟨cmd, hcmd⟩ := jsrun_node "echo" ["hello"] false
  unfold countNodes
  rw [hcmd]
  dsimp only
  split
  · exact ⟨_, _, rfl, rfl⟩
  · split
    · exact ⟨_, _, rfl, rfl⟩
    · split
      · exact ⟨_, _, rfl, rfl⟩
      · exact ⟨_, _, rfl, rfl⟩

theorem trilinos_calls (ext : Ext) (ws : List Comparison) (hw : ∀ w ∈ ws, w.problem ∈ comparisons) (log : Log) :
    ∃ ws' : List Comparison, ws'.map (fun w => (w.problem, w.n, w.petscRuns)) = ws.map (fun w => (w.problem, w.n, w.petscRuns)) ∧
      allUpTo ext trilinosCommand ((ws.map fun w => (w.problem.1, w.problem.2.2, iteratorFor (dimensions w.problem.1))).zip
        (ws.map fun w => sizeAt (dimensions w.problem.1) w.n)) log = some (.ok (), log ++ ws'.flatMap (·.trilinosRuns)) ∧
      (∀ w ∈ ws', UpTo (fun i => trilinosCommand w.problem.1 w.problem.2.2 (sizeAt (dimensions w.problem.1) i)) w.n w.trilinosRuns) ∧
      Genuine ext log (ws'.flatMap (·.trilinosRuns)) := by
  induction ws generalizing log with
  | nil => exact ⟨[], rfl, by simp [allUpTo], by simp, by simpa using Genuine.nil ext log⟩
  | cons w ws ih =>
    obtain ⟨hd, -, hs⟩ := comparisons_ok (hw w (List.mem_cons_self ..))
    obtain ⟨l, h1, h2, h3, -⟩ := c94_up_to ext (dimensions w.problem.1) (trilinosCommand w.problem.1 w.problem.2.2) (trilinos_ok hd hs) w.n log
    obtain ⟨ws', g1, g2, g3, g4⟩ := ih (fun w hw' => hw w (List.mem_cons_of_mem _ hw')) (log ++ l)
    refine ⟨⟨w.problem, w.n, w.petscRuns, l⟩ :: ws', by simp [g1], ?_, ?_, ?_⟩
    · simp only [List.map_cons, List.zip_cons_cons, allUpTo, andThen, h1, Option.bind_some, g2]
      simp
    · intro w' hw'
      rcases List.mem_cons.1 hw' with rfl | hw'
      · exact h2
      · exact g3 w' hw'
    · simpa using h3.append g4

/-- **C94**, `bench_all.py`, if it ends: unless counting the nodes fails, it makes the twelve comparisons; Trilinos is run on sizes PETSc has
passed, and on no others. -/
theorem c94_bench_all (ext : Ext) (r : Except Exc Unit) (log : Log) (h : benchAll ext = some (r, log)) :
    (∃ e, r = .error e ∧ log.length = 1) ∨
    r = .ok () ∧ ∃ (first : Cmd × Result) (ws : List Comparison), ws.map (·.problem) = comparisons ∧
      log = first :: (ws.flatMap (·.petscRuns) ++ ws.flatMap (·.trilinosRuns)) ∧ (∀ w ∈ ws, w.Fair) ∧ Genuine ext [] log := by
  unfold benchAll andThen at h
  obtain ⟨r0, e, h0, he⟩ := countNodes_spec ext []
  rw [h0] at h
  simp only [Option.bind_some, List.nil_append] at h
  cases r0 with
  | error x =>
    simp only [Option.some.injEq, Prod.mk.injEq] at h
    exact Or.inl ⟨x, h.1.symm, by rw [← h.2]; rfl⟩
  | ok nodes =>
    simp only at h
    rw [petscCalls_eq] at h
    cases ha : allPetsc ext (comparisons.map fun c => (c.1, c.2.1, iteratorFor (dimensions c.1))) [e] with
    | none => simp only [ha] at h; cases h
    | some r1 =>
      obtain ⟨ws, g1, rfl, g3, g4⟩ := allPetsc_spec ext comparisons (fun _ h => h) _ _ ha
      simp only [ha, Option.bind_some] at h
      rw [trilinosCalls_eq, ← g1, List.map_map] at h
      obtain ⟨ws', k1, k2, k3, k4⟩ := trilinos_calls ext ws (fun w hw => by rw [← g1]; exact List.mem_map_of_mem hw) ([e] ++ ws.flatMap (·.petscRuns))
      have k2' := k2.symm.trans h
      simp only [Option.some.injEq, Prod.mk.injEq] at k2'
      have hp : ∀ (a b : List Comparison), a.map (fun w => (w.problem, w.n, w.petscRuns)) = b.map (fun w => (w.problem, w.n, w.petscRuns)) →
          a.map (·.problem) = b.map (·.problem) ∧ a.flatMap (·.petscRuns) = b.flatMap (·.petscRuns) := by
        intro a b hab
        constructor
        · have := congrArg (List.map (·.1)) hab
          simpa [List.map_map, Function.comp_def] using this
        · have := congrArg (List.flatMap (·.2.2)) hab
          simpa [List.flatMap_map] using this
      obtain ⟨p1, p2⟩ := hp ws' ws k1
      refine Or.inr ⟨k2'.1.symm, e, ws', p1.trans g1, ?_, fun w hw => ⟨?_, k3 w hw⟩, ?_⟩
      · rw [← k2'.2, p2]
        simp
      · have h1 : (w.problem, w.n, w.petscRuns) ∈ ws.map (fun w => (w.problem, w.n, w.petscRuns)) := by
          rw [← k1]
          exact List.mem_map_of_mem (f := fun w : Comparison => (w.problem, w.n, w.petscRuns)) hw
        obtain ⟨w0, hw0, e0⟩ := List.mem_map.1 h1
        simp only [Prod.mk.injEq] at e0
        obtain ⟨e1, e2, e3⟩ := e0
        have := g3 w0 hw0
        rw [e1, e2, e3] at this
        exact this
      · rw [← k2'.2]
        have h1 : Genuine ext [] [e] := Genuine.cons he (Genuine.nil _ _)
        exact (h1.append (by simpa using g4)).append (by simpa using k4)

/-- **C94**, when `bench_all.py` ends: if for each comparison PETSc never succeeds at some size. -/
theorem c94_bench_all_ends (ext : Ext) (h : ∀ c ∈ comparisons, ∃ n, ∀ cmd log,
    petscCommand c.1 c.2.1 (sizeAt (dimensions c.1) n) = .ok cmd → ¬Success true (ext log cmd)) : ∃ r, benchAll ext = some r := by
  have hall : ∀ cs : List (String × String × String), (∀ c ∈ cs, c ∈ comparisons) → ∀ log,
      ∃ r, allPetsc ext (cs.map fun c => (c.1, c.2.1, iteratorFor (dimensions c.1))) log = some r := by
    intro cs
    induction cs with
    | nil => exact fun _ log => ⟨_, rfl⟩
    | cons c cs ih =>
      intro hcs log
      obtain ⟨hd, hs, -⟩ := comparisons_ok (hcs c (List.mem_cons_self ..))
      obtain ⟨n, hn⟩ := h c (hcs c (List.mem_cons_self ..))
      obtain ⟨m, log', -, h1⟩ := c94_petsc_ends ext hd hs n hn log
      obtain ⟨r, hr⟩ := ih (fun c hc => hcs c (List.mem_cons_of_mem _ hc)) log'
      obtain ⟨ws, -, rfl, -⟩ := allPetsc_spec ext cs (fun c hc => hcs c (List.mem_cons_of_mem _ hc)) _ _ hr
      exact ⟨(.ok (sizeAt (dimensions c.1) m :: ws.map fun w => sizeAt (dimensions w.problem.1) w.n), log' ++ ws.flatMap (·.petscRuns)), by
        simp only [List.map_cons, allPetsc, andThen, h1, Option.bind_some, hr]⟩
  unfold benchAll andThen
  obtain ⟨r0, e, h0, -⟩ := countNodes_spec ext []
  rw [h0]
  simp only [Option.bind_some]
  cases r0 with
  | error x => exact ⟨_, rfl⟩
  | ok nodes =>
    simp only
    rw [petscCalls_eq]
    obtain ⟨r1, ha⟩ := hall comparisons (fun _ h => h) ([] ++ [e])
    obtain ⟨ws, g1, rfl, -⟩ := allPetsc_spec ext comparisons (fun _ h => h) _ _ ha
    obtain ⟨ws', -, k2, -⟩ := trilinos_calls ext ws (fun w hw => by rw [← g1]; exact List.mem_map_of_mem hw) ([] ++ [e] ++ ws.flatMap (·.petscRuns))
    simp only [ha, Option.bind_some]
    rw [trilinosCalls_eq, ← g1, List.map_map]
    exact ⟨_, k2⟩

/-- The sizes in the table are sizes the iterators reach. -/
theorem table_reached : ∀ t ∈ maxSizes, ∃ ns : List Nat, t.2 = (libraryProblems.zip ns).map (fun c => sizeAt (dimensions c.1.1) c.2) ∧ ns.length = 12 := by
  have key : ∀ t ∈ maxSizes, t.2 = (libraryProblems.zip (t.2.map fun s => Nat.log2 s.prod - 12)).map (fun c => sizeAt (dimensions c.1.1) c.2) ∧
      (t.2.map fun s => Nat.log2 s.prod - 12).length = 12 := by decide +kernel
  exact fun t ht => ⟨_, key t ht⟩

theorem lookup_mem {α : Type} : ∀ (l : List (Nat × α)) (n : Nat) (a : α), l.lookup n = some a → (n, a) ∈ l := by
  intro l
  induction l with
  | nil => intro n a h; cases h
  | cons p l ih =>
    intro n a h
    rw [List.lookup_cons] at h
    split at h
    · rename_i he
      have : n = p.1 := by simpa using he
      cases h
      rw [this]
      exact List.mem_cons_self ..
    · exact List.mem_cons_of_mem _ (ih n a h)

/-- **C94**, both scripts: if the run that counts the nodes fails, writes a warning or prints anything but lines "hello", each raises an exception
and runs nothing else. -/
theorem c94_count_fails (ext : Ext) (cmd : Cmd) (hcmd : jsrun "echo" ["hello"] "node" false = .ok cmd)
    (h : (ext [] cmd).code ≠ 0 ∨ (ext [] cmd).stderr ≠ "" ∨ ∃ line ∈ (ext [] cmd).stdout, line ≠ "hello") :
    ∃ x, benchAll ext = some (.error x, [(cmd, ext [] cmd)]) ∧ benchAllLs ext = some (.error x, [(cmd, ext [] cmd)]) := by
  have hc : ∃ x, countNodes ext [] = some (.error x, [(cmd, ext [] cmd)]) := by
    unfold countNodes
    rw [hcmd]
    dsimp only
    by_cases h1 : (ext [] cmd).code ≠ 0
    · exact ⟨_, by rw [if_pos h1]; rfl⟩
    · by_cases h2 : (ext [] cmd).stderr ≠ ""
      · exact ⟨_, by rw [if_neg h1, if_pos h2]; rfl⟩
      · obtain ⟨line, h3, h4⟩ := (h.resolve_left h1).resolve_left h2
        exact ⟨_, by rw [if_neg h1, if_neg h2, if_neg fun h' => h4 (h' line h3)]; rfl⟩
  obtain ⟨x, hc⟩ := hc
  exact ⟨x, by unfold benchAll andThen; rw [hc]; rfl, by unfold benchAllLs andThen; rw [hc]; rfl⟩

/-- **C94**, `bench_all_ls.py`: if counting the nodes finds a number with an entry in the table, the script ends whatever the library's benchmark
does, and has run it for each solver and operator on sizes before the one in the table; for other numbers it raises an exception before any
run. -/
theorem c94_library (ext : Ext) (nodes : Nat) (cmd : Cmd) (hcmd : jsrun "echo" ["hello"] "node" false = .ok cmd) (h1 : (ext [] cmd).code = 0)
    (h2 : (ext [] cmd).stderr = "") (h3 : (ext [] cmd).stdout = List.replicate nodes "hello") :
    (maxSizes.lookup nodes = none → benchAllLs ext = some (.error .keyError, [(cmd, ext [] cmd)])) ∧
    ∀ sizes, maxSizes.lookup nodes = some sizes → ∃ ws : List LibrarySweep, ws.map (·.problem) = libraryProblems ∧
      ws.map (fun w => sizeAt (dimensions w.problem.1) w.n) = sizes ∧
      benchAllLs ext = some (.ok (), (cmd, ext [] cmd) :: ws.flatMap (·.runs)) ∧
      (∀ w ∈ ws, UpTo (fun i => libraryCommand nodes w.problem.1 w.problem.2 (sizeAt (dimensions w.problem.1) i)) w.n w.runs ∧
        w.runs.length ≤ 5 * w.n) ∧ Genuine ext [(cmd, ext [] cmd)] (ws.flatMap (·.runs)) := by
  have hc : countNodes ext [] = some (.ok nodes, [(cmd, ext [] cmd)]) := by
    unfold countNodes
    rw [hcmd]
    dsimp only
    rw [if_neg (by simpa using h1), if_neg (by simpa using h2), if_pos (by rw [h3]; intro l hl; exact (List.mem_replicate.1 hl).2), h3, List.length_replicate]
    rfl
  unfold benchAllLs andThen
  rw [hc]
  simp only [Option.bind_some]
  refine ⟨fun h => by rw [h], fun sizes h => ?_⟩
  rw [h]
  obtain ⟨ns, e1, e2⟩ := table_reached _ (lookup_mem _ _ _ h)
  simp only at e1
  have hlen : libraryProblems.length = 12 := rfl
  obtain ⟨ws, g1, g2, g3, g4⟩ := allUpTo_spec ext (libraryCommand nodes) (libraryProblems.zip ns) (fun c hc i => by
    obtain ⟨hd, hs⟩ := libraryProblems_ok (List.of_mem_zip hc).1
    exact library_ok nodes hd hs i) [(cmd, ext [] cmd)]
  have hp : ws.map (·.problem) = libraryProblems := by
    have := congrArg (List.map Prod.fst) g1
    rw [List.map_map, List.map_fst_zip (by omega)] at this
    simpa [Function.comp_def] using this
  refine ⟨ws, hp, ?_, ?_, fun w hw => ⟨g3 w hw, (g3 w hw).length⟩, g4⟩
  · rw [e1, ← g1, List.map_map]
    rfl
  · have hz : libraryCalls.zip sizes = (libraryProblems.zip ns).map fun c => ((c.1.1, c.1.2, iteratorFor (dimensions c.1.1)), sizeAt (dimensions c.1.1) c.2) := by
      rw [libraryCalls_eq, e1, List.zip_map_left]
      have : ∀ (a : List (String × String)) (b : List Nat), b.length = a.length →
          (a.zip ((a.zip b).map fun c => sizeAt (dimensions c.1.1) c.2)).map
            (Prod.map (fun c : String × String => (c.1, c.2, iteratorFor (dimensions c.1))) id) =
          (a.zip b).map fun c => ((c.1.1, c.1.2, iteratorFor (dimensions c.1.1)), sizeAt (dimensions c.1.1) c.2) := by
        intro a
        induction a with
        | nil => intro b hb; simp
        | cons x a ih =>
          intro b hb
          cases b with
          | nil => simp at hb
          | cons y b =>
            simp only [List.zip_cons_cons, List.map_cons]
            rw [ih b (by simpa using hb)]
            rfl
      exact this _ _ (by omega)
    dsimp only
    rw [hz]
    exact g2

end Verif.Sweep
