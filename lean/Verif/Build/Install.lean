import Verif.Build.Legion
/-! # C90: build_legion.py -/
set_option linter.unusedSectionVars false
set_option linter.dupNamespace false
namespace Verif.Build

/-! ## Specification -/

/-- The directory the sources of a branch of Legion are put in. -/
def sourceOf (s : Site) (tag : Text) : Path := s.scratch ++ [underscoreJoin ["legion".toList, tag]]

/-- The directory Legion is built in for a configuration. -/
def workOf (s : Site) (c : Config) : Path :=
  sourceOf s c.tag ++ [underscoreJoin ["build".toList, c.tag, cudaTag c.cuda, kokkosTag c.kokkos, c.build]]

def cloneCommand (b : Branch) : List Text :=
  ["git".toList, "clone".toList, "--branch".toList, b.2.1, "https://gitlab.com/StanfordLegion/legion.git".toList,
    underscoreJoin ["legion".toList, b.1]]

def checkoutCommand (b : Branch) : List Text := ["git".toList, "checkout".toList, b.2.2]

/-- The command that configures Legion. -/
def legionCommand (s : Site) (c : Config) : List Text :=
  ["cmake".toList, "..".toList, "-DCMAKE_CXX_STANDARD=17".toList, "-DCMAKE_BUILD_TYPE=".toList ++ c.type,
    "-DCMAKE_INSTALL_PREFIX=".toList ++ showPath (libraryOf s c), "-DLegion_MAX_NUM_NODES=4096".toList, "-DLegion_MAX_NUM_PROCS=256".toList,
    "-DLegion_USE_OpenMP=ON".toList, if c.cuda then "-DLegion_USE_CUDA=ON".toList else "-DLegion_USE_CUDA=OFF".toList,
    "-DLegion_NETWORKS=gasnetex".toList, "-DLegion_EMBED_GASNet=ON".toList,
    "-DGASNet_CONDUIT=".toList ++ if s.machine = .unknown ∨ s.machine = .pizdaint then "mpi".toList else "ibv".toList] ++
  (if s.machine = .lassen ∨ s.machine = .summit then
    ["-DCMAKE_CXX_FLAGS=-DREALM_TIMERS_USE_RDTSC=0".toList, "-DCMAKE_CUDA_FLAGS=-DREALM_TIMERS_USE_RDTSC=0".toList] else []) ++
  (if c.kokkos then ["-DLegion_USE_Kokkos=ON".toList, "-DKokkos_DIR=".toList ++ showPath (s.lib ++
    [if c.cuda then "kokkos-4.5.01-cuda".toList else "kokkos-4.5.01-nocuda".toList,
      if s.machine = .sapling then "lib".toList else "lib64".toList, "cmake".toList, "Kokkos".toList])] else []) ++
  if c.kokkos ∧ c.cuda then
    ["-DKOKKOS_CXX_COMPILER=".toList ++ showPath (s.lib ++ ["kokkos-4.5.01-cuda".toList, "bin".toList, "nvcc_wrapper".toList])] else []

/-- Building and installing Legion. -/
def installCommands (s : Site) (c : Config) : List (List Text) :=
  [legionCommand s c, ["cmake".toList, "--build".toList, ".".toList, "--parallel".toList, (toString (s.cores.getD 8)).toList],
    ["make".toList, "install".toList]]

/-- The configurations of a branch that agree with the arguments. -/
def wanted (argv : List Text) (ts : List (Text × Text)) (b : Branch) : List Config :=
  ts.flatMap fun t => (features.filter fun f => Agrees argv f).map fun f => ⟨b.1, f.1, f.2, t.1, t.2⟩

/-- All commands for a branch, with the directories they run in. -/
def branchCommands (s : Site) (argv : List Text) (ts : List (Text × Text)) (b : Branch) : List (Path × List Text) :=
  (s.scratch, cloneCommand b) :: (if b.2.2 = [] then [] else [(sourceOf s b.1, checkoutCommand b)]) ++
    (wanted argv ts b).flatMap fun c => (installCommands s c).map fun cmd => (workOf s c, cmd)

/-- The external commands do what they should. -/
structure GoodTools (E : Ext) (s : Site) : Prop where
  /-- They succeed; the command that configures Legion succeeds if it is run in an empty directory and nothing is at its
  installation prefix. -/
  works : ∀ d cmd fs, ((∀ c, cmd ≠ legionCommand s c) ∨
    ∃ c, cmd = legionCommand s c ∧ fs (libraryOf s c) = none ∧ ∀ q, d <+: q → q ≠ d → fs q = none) → (E d cmd fs).1 = .exited 0
  /-- They remove no directories. -/
  keeps : ∀ d cmd fs p, fs p = some .dir → (E d cmd fs).2 p = some .dir
  /-- They change only what is in the directory they are run in or in the library directory. -/
  inside : ∀ d cmd fs q, ¬ d <+: q → ¬ s.lib <+: q → (E d cmd fs).2 q = fs q
  /-- They put no plain files directly into the library directory. -/
  noFile : ∀ d cmd fs x, (E d cmd fs).2 (s.lib ++ [x]) = some .file → fs (s.lib ++ [x]) = some .file
  /-- `git clone` makes the directory it is told to make and changes nothing else. -/
  clone : ∀ d b fs, (E d (cloneCommand b) fs).2 (d ++ [underscoreJoin ["legion".toList, b.1]]) = some .dir ∧
    ∀ q, ¬ d ++ [underscoreJoin ["legion".toList, b.1]] <+: q → (E d (cloneCommand b) fs).2 q = fs q
  /-- The sources of Legion have no directory whose name begins with `build_`. -/
  sources : ∀ d b fs, (∀ q, d ++ [underscoreJoin ["legion".toList, b.1]] <+: q → fs q = none) → ∀ x q,
    d ++ [underscoreJoin ["legion".toList, b.1], "build_".toList ++ x] <+: q → (E d (cloneCommand b) fs).2 q = none
  checkout : ∀ d b fs x, (∀ q, d ++ ["build_".toList ++ x] <+: q → fs q = none) →
    ∀ q, d ++ ["build_".toList ++ x] <+: q → (E d (checkoutCommand b) fs).2 q = none

/-- The world `build_legion.py` needs. -/
structure CanBuild (s : Site) (bs : List Branch) (w : World) : Prop where
  scratch : w.fs s.scratch = some .dir
  noFile : ∀ x, w.fs (s.lib ++ [x]) ≠ some .file
  noFile' : ∀ b ∈ bs, w.fs (sourceOf s b.1) ≠ some .file
  /-- Nothing is below a path where there is nothing. -/
  tree : ∀ b ∈ bs, w.fs (sourceOf s b.1) = none → ∀ q, sourceOf s b.1 <+: q → w.fs q = none

/-! ## Proofs -/

theorem removeDirectory_ok (p : Path) (w : World) (h : w.fs p ≠ some .file) : ∃ w1, removeDirectory p w = (.ok (), w1) ∧ w1.cwd = w.cwd ∧
    w1.log = w.log ∧ w1.fs p = none ∧ (∀ q, ¬ p <+: q → w1.fs q = w.fs q) ∧ (∀ q, w1.fs q = w.fs q ∨ w1.fs q = none) ∧
    ((w.fs p = none → ∀ q, p <+: q → w.fs q = none) → ∀ q, p <+: q → w1.fs q = none) := by
  unfold removeDirectory
  rw [bind_ok (show pathExists p w = (.ok (w.fs p).isSome, w) from rfl)]
  cases e : w.fs p with
  | none => exact ⟨w, rfl, rfl, rfl, e, fun _ _ => rfl, fun _ => .inl rfl, fun h => h rfl⟩
  | some n =>
    cases n with
    | file => exact absurd e h
    | dir =>
      refine ⟨{ w with fs := fun q => if p <+: q then none else w.fs q }, ?_, rfl, rfl, by simp, fun q hq => by simp [hq], fun q => ?_, fun _ q hq => by simp [hq]⟩
      · simp only [Option.isSome_some, if_true]
        rw [bind_ok (show isDir p w = (.ok true, w) by unfold isDir; rw [e]; rfl)]
        rfl
      · by_cases hq : p <+: q
        · exact .inr (by simp [hq])
        · exact .inl (by simp [hq])

theorem legionCommand_eq (s : Site) (c : Config) :
    ["cmake".toList, "..".toList] ++ (s.legionDefines c.tag c.cuda c.kokkos c.build c.type).map define = legionCommand s c := by
  unfold Site.legionDefines legionCommand libraryOf
  have h1 : (Val.num 17).show = "17".toList := by decide
  have h2 : (Val.num 4096).show = "4096".toList := by decide
  have h3 : (Val.num 256).show = "256".toList := by decide
  have h4 : conduit s.machine = if s.machine = .unknown ∨ s.machine = .pizdaint then "mpi".toList else "ibv".toList := by
    cases s.machine <;> rfl
  simp only [h4, List.map_append, List.map_cons, List.map_nil, define, h1, h2, h3]
  have e : ∀ b, (Val.bool b).show = if b then "ON".toList else "OFF".toList := fun _ => rfl
  have et : ∀ b, (Val.text b).show = b := fun _ => rfl
  simp only [e, et]
  by_cases hm : s.machine = .lassen ∨ s.machine = .summit
  · cases c.kokkos <;> cases c.cuda <;>
      simp [hm, define, e, et, Site.kokkosNoCuda, Site.kokkosCuda, Site.libDir, Site.nvccWrapper]
  · cases c.kokkos <;> cases c.cuda <;>
      simp [hm, define, e, et, Site.kokkosNoCuda, Site.kokkosCuda, Site.libDir, Site.nvccWrapper]

theorem not_legion {s : Site} {a b : Text} {l : List Text} (h : a ≠ "cmake".toList ∨ b ≠ "..".toList) (c : Config) :
    (a :: b :: l) ≠ legionCommand s c := by
  intro e
  have h1 : (a :: b :: l).take 2 = (legionCommand s c).take 2 := by rw [e]
  simp only [legionCommand, List.cons_append, List.take_succ_cons, List.take_zero, List.cons.injEq] at h1
  rcases h with h | h
  · exact h h1.1
  · exact h h1.2.1

theorem run_ok {E : Ext} {cmd : List Text} {w : World} (h : (E w.cwd cmd w.fs).1 = .exited 0) : run E cmd true w = (.ok (), ranIn E w.cwd cmd w) := by
  rw [run_result, asResult_ok h]

theorem work_dropLast (s : Site) (c : Config) : (workOf s c).dropLast = sourceOf s c.tag := List.dropLast_concat ..

theorem not_prefix_dropLast {p : Path} {x : Text} : ¬ p ++ [x] <+: p := fun h => by
  have := h.length_le
  simp only [List.length_append, List.length_cons, List.length_nil] at this
  omega

/-- One configuration of Legion. -/
theorem cmakeLegion_ok {E : Ext} {s : Site} (hE : GoodTools E s) (hsep : ¬ s.lib <+: s.scratch ∧ ¬ s.scratch <+: s.lib) (c : Config) (w : World)
    (hcwd : w.cwd = sourceOf s c.tag) (hd : w.fs w.cwd = some .dir) (hlib : w.fs (libraryOf s c) ≠ some .file)
    (hwork : ∀ q, workOf s c <+: q → w.fs q = none) :
    ∃ w', cmakeLegion E s c.tag c.cuda c.kokkos c.build c.type w = (.ok (), w') ∧ w'.cwd = w.cwd ∧
      w'.log = w.log ++ (installCommands s c).map (fun cmd => (workOf s c, cmd)) ∧
      (∀ p, w.fs p = some .dir → ¬ libraryOf s c <+: p → w'.fs p = some .dir) ∧
      (∀ q, ¬ workOf s c <+: q → ¬ s.lib <+: q → w'.fs q = w.fs q) ∧
      ∀ x, w'.fs (s.lib ++ [x]) = some .file → w.fs (s.lib ++ [x]) = some .file := by
  obtain ⟨w1, hr, h1, h2, h3, h4, h5, -⟩ := removeDirectory_ok (libraryOf s c) w hlib
  have hlp : s.lib <+: libraryOf s c := ⟨_, rfl⟩
  have hsp : s.scratch <+: sourceOf s c.tag := ⟨_, rfl⟩
  have hout : ∀ q, s.scratch <+: q → ¬ s.lib <+: q := fun q hq hl => by
    rcases List.prefix_or_prefix_of_prefix hq hl with h | h
    · exact hsep.2 h
    · exact hsep.1 h
  have hsrc : ¬ libraryOf s c <+: sourceOf s c.tag := fun h => hout _ hsp (hlp.trans h)
  have hwk : s.scratch <+: workOf s c := hsp.trans ⟨_, rfl⟩
  have hws : ¬ workOf s c <+: sourceOf s c.tag := not_prefix_dropLast
  have hd1 : w1.fs (sourceOf s c.tag) = some .dir := by rw [h4 _ hsrc, ← hcwd]; exact hd
  have hn1 : ∀ q, workOf s c <+: q → w1.fs q = none := fun q hq => by rw [h4 q fun h => hout q (hwk.trans hq) (hlp.trans h)]; exact hwork q hq
  -- the build directory
  let fs0 : FS := fun q => if q = workOf s c then some .dir else w1.fs q
  have hc0 : createDirectory (workOf s c) w1 = (.ok (), { w1 with fs := fs0 }) := by
    unfold createDirectory
    rw [bind_ok (show pathExists (workOf s c) w1 = (.ok false, w1) by unfold pathExists; rw [hn1 _ (List.prefix_refl _)]; rfl),
      bind_ok (show assertThat (!false) w1 = (.ok (), w1) from rfl)]
    unfold mkdir
    rw [if_pos ⟨hn1 _ (List.prefix_refl _), by rw [work_dropLast]; exact hd1⟩]
  have hlw : libraryOf s c ≠ workOf s c := fun e => hout _ hwk (e ▸ hlp)
  have hdir0 : fs0 (workOf s c) = some .dir := by simp [fs0]
  have hex1 : (E (workOf s c) (legionCommand s c) fs0).1 = .exited 0 := by
    refine hE.works _ _ _ (.inr ⟨c, rfl, ?_, fun q hq hne => ?_⟩)
    · simp only [fs0, if_neg hlw, h3]
    · simp only [fs0, if_neg hne, hn1 q hq]
  have hex2 : ∀ fs, (E (workOf s c) ["cmake".toList, "--build".toList, ".".toList, "--parallel".toList, (toString (s.cores.getD 8)).toList] fs).1 =
      .exited 0 := fun fs => hE.works _ _ _ (.inl (not_legion (.inr (by decide))))
  have hex3 : ∀ fs, (E (workOf s c) ["make".toList, "install".toList] fs).1 = .exited 0 := fun fs =>
    hE.works _ _ _ (.inl (not_legion (.inl (by decide))))
  let fs1 : FS := (E (workOf s c) (legionCommand s c) fs0).2
  let fs2 : FS := (E (workOf s c) ["cmake".toList, "--build".toList, ".".toList, "--parallel".toList, (toString (s.cores.getD 8)).toList] fs1).2
  let fs3 : FS := (E (workOf s c) ["make".toList, "install".toList] fs2).2
  have hkeep : ∀ p, fs0 p = some .dir → fs3 p = some .dir := fun p hp => hE.keeps _ _ _ _ (hE.keeps _ _ _ _ (hE.keeps _ _ _ _ hp))
  have hin : ∀ q, ¬ workOf s c <+: q → ¬ s.lib <+: q → fs3 q = fs0 q := fun q hq hl => by
    simp only [fs3, fs2, fs1]
    rw [hE.inside _ _ _ _ hq hl, hE.inside _ _ _ _ hq hl, hE.inside _ _ _ _ hq hl]
  have hfile : ∀ x, fs3 (s.lib ++ [x]) = some .file → fs0 (s.lib ++ [x]) = some .file := fun x hx =>
    hE.noFile _ _ _ _ (hE.noFile _ _ _ _ (hE.noFile _ _ _ _ hx))
  have hs0 : ∀ q, ¬ workOf s c <+: q → fs0 q = w1.fs q := fun q hq => by
    simp only [fs0, if_neg (fun (e : q = workOf s c) => hq (e ▸ List.prefix_refl _))]
  refine ⟨⟨fs3, w.cwd, w.log ++ (installCommands s c).map (fun cmd => (workOf s c, cmd))⟩, ?_, rfl, rfl, ?_, ?_, ?_⟩
  · unfold cmakeLegion
    rw [show s.legionPath c.tag c.cuda c.kokkos c.build = libraryOf s c from rfl, bind_ok hr, getCwd_run, h1, hcwd]
    rw [show sourceOf s c.tag ++ [underscoreJoin ["build".toList, c.tag, cudaTag c.cuda, kokkosTag c.kokkos, c.build]] = workOf s c from rfl]
    unfold cmake
    rw [bind_ok hc0, legionCommand_eq]
    simp only [if_true, Bool.false_eq_true, if_false]
    refine ((c90_change_directory (workOf s c) _ { w1 with fs := fs0 }).1 hdir0 ?_).trans ?_
    all_goals rw [bind_ok (run_ok (w := ⟨fs0, workOf s c, w1.log⟩) hex1),
      bind_ok (run_ok (w := ranIn E (workOf s c) (legionCommand s c) ⟨fs0, workOf s c, w1.log⟩) (hex2 _)), run_ok (hex3 _)]
    · show fs3 w1.cwd = some .dir
      refine hkeep _ ?_
      rw [h1, hcwd, hs0 _ hws]
      exact hd1
    · show _ = ((.ok () : Except Exc Unit), (⟨fs3, sourceOf s c.tag, _⟩ : World))
      rw [← hcwd, ← h1, ← h2]
      simp only [ranIn, installCommands, List.map_cons, List.map_nil, List.append_assoc, List.cons_append, List.nil_append]
      rfl
  · intro p hp hl
    refine hkeep p ?_
    by_cases hq : p = workOf s c
    · simp [fs0, hq]
    · simp only [fs0, if_neg hq]
      rw [h4 p hl]
      exact hp
  · intro q hq hl
    rw [show (⟨fs3, w.cwd, w.log ++ (installCommands s c).map (fun cmd => (workOf s c, cmd))⟩ : World).fs q = fs3 q from rfl, hin q hq hl, hs0 q hq]
    exact h4 q fun h => hl (hlp.trans h)
  · intro x hx
    have := hfile x hx
    have hne : s.lib ++ [x] ≠ workOf s c := fun e => hout _ hwk (e ▸ ⟨_, rfl⟩)
    simp only [fs0, if_neg hne] at this
    rcases h5 (s.lib ++ [x]) with h | h
    · rw [← h]; exact this
    · rw [h] at this; exact absurd this (by simp)

theorem apart {s : Site} (hsep : ¬ s.lib <+: s.scratch ∧ ¬ s.scratch <+: s.lib) {q : Path} (hq : s.scratch <+: q) : ¬ s.lib <+: q := fun hl => by
  rcases List.prefix_or_prefix_of_prefix hq hl with h | h
  · exact hsep.2 h
  · exact hsep.1 h

theorem workOf_length (s : Site) (c : Config) : (workOf s c).length = s.scratch.length + 2 := by
  simp [workOf, sourceOf]

/-- All configurations of a branch. -/
theorem configs_ok {E : Ext} {s : Site} (hE : GoodTools E s) (hsep : ¬ s.lib <+: s.scratch ∧ ¬ s.scratch <+: s.lib) (tag : Text) (cs : List Config)
    (htag : ∀ c ∈ cs, c.tag = tag) (hcs : cs.Pairwise fun c c' => workOf s c ≠ workOf s c') (w : World) (hcwd : w.cwd = sourceOf s tag)
    (hd : w.fs w.cwd = some .dir) (hlib : ∀ x, w.fs (s.lib ++ [x]) ≠ some .file) (hwork : ∀ c ∈ cs, ∀ q, workOf s c <+: q → w.fs q = none) :
    ∃ w', forEach cs (fun c => cmakeLegion E s c.tag c.cuda c.kokkos c.build c.type) w = (.ok (), w') ∧ w'.cwd = w.cwd ∧
      w'.log = w.log ++ cs.flatMap (fun c => (installCommands s c).map (fun cmd => (workOf s c, cmd))) ∧
      (∀ p, w.fs p = some .dir → ¬ s.lib <+: p → w'.fs p = some .dir) ∧
      (∀ q, ¬ sourceOf s tag <+: q → ¬ s.lib <+: q → w'.fs q = w.fs q) ∧ ∀ x, w'.fs (s.lib ++ [x]) ≠ some .file := by
  induction cs generalizing w with
  | nil => exact ⟨w, rfl, rfl, (List.append_nil _).symm, fun _ h _ => h, fun _ _ _ => rfl, hlib⟩
  | cons c cs ih =>
    have hcs' := List.pairwise_cons.1 hcs
    have hc := htag c (List.mem_cons_self ..)
    obtain ⟨w1, g0, g1, g2, g3, g4, g5⟩ := cmakeLegion_ok hE hsep c w (by rw [hc]; exact hcwd) hd (hlib _) (hwork c (List.mem_cons_self ..))
    have hlp : s.lib <+: libraryOf s c := ⟨_, rfl⟩
    have hsp : s.scratch <+: sourceOf s tag := ⟨_, rfl⟩
    have hwp : ∀ c' : Config, s.scratch <+: workOf s c' := fun c' => List.IsPrefix.trans (⟨_, rfl⟩ : s.scratch <+: sourceOf s c'.tag) ⟨_, rfl⟩
    obtain ⟨w2, k0, k1, k2, k3, k4, k5⟩ := ih (fun c' h => htag c' (List.mem_cons_of_mem _ h)) hcs'.2 w1 (g1.trans hcwd)
      (by rw [g1]; exact g3 _ hd fun h => apart hsep (hcwd ▸ hsp) (hlp.trans h)) (fun x h => hlib x (g5 x h))
      (fun c' hc' q hq => by
        rw [g4 q (fun h => hcs'.1 c' hc' (prefix_eq (by rw [workOf_length, workOf_length])
          (List.prefix_of_prefix_length_le h hq (Nat.le_of_eq (by rw [workOf_length, workOf_length]))))) (apart hsep ((hwp c').trans hq))]
        exact hwork c' (List.mem_cons_of_mem _ hc') q hq)
    refine ⟨w2, (bind_ok g0).trans k0, k1.trans g1, by rw [k2, g2]; simp, fun p hp hl => k3 p (g3 p hp fun h => hl (hlp.trans h)) hl, ?_, k5⟩
    intro q hq hl
    rw [k4 q hq hl]
    refine g4 q (fun h => hq (List.IsPrefix.trans ?_ h)) hl
    rw [← hc]
    exact ⟨_, rfl⟩

/-- One branch of `build_legion.py`. -/
def branchOne (E : Ext) (s : Site) (argv : List Text) (ts : List (Text × Text)) (b : Branch) : Py Unit := do
  let dir ← cloneLegion E b.1 b.2.1 b.2.2
  let d ← getCwd
  changeDirectory (d ++ [dir]) (forEach (wanted argv ts b) fun c => cmakeLegion E s c.tag c.cuda c.kokkos c.build c.type)

theorem buildLegion_eq (E : Ext) (s : Site) (bs : List Branch) (ts : List (Text × Text)) (argv : List Text) :
    buildLegion E s (rows3 bs) (rows2 ts) argv = (chdir s.scratch >>= fun _ => forEach bs (branchOne E s argv ts)) := by
  unfold buildLegion branchOne wanted rows3 rows2
  simp only [forEach_map, forEach_flatMap, unpack3, unpack2, pure_bind', ← c90_arguments]

theorem name_build {c : Config} (h : c.build ≠ []) : underscoreJoin ["build".toList, c.tag, cudaTag c.cuda, kokkosTag c.kokkos, c.build] =
    "build_".toList ++ underscoreJoin [c.tag, cudaTag c.cuda, kokkosTag c.kokkos, c.build] := by
  have h1 := (cudaTag_facts c.cuda).1
  have h2 := (kokkosTag_facts c.kokkos).1
  by_cases ht : c.tag = []
  · simp [underscoreJoin, joinWith, ht, keep h1, keep h2, keep h]
  · simp [underscoreJoin, joinWith, keep ht, keep h1, keep h2, keep h]

theorem wanted_facts {argv : List Text} {ts : List (Text × Text)} {b : Branch} {c : Config} (h : c ∈ wanted argv ts b) :
    c.tag = b.1 ∧ ∃ t ∈ ts, c.build = t.1 := by
  unfold wanted at h
  simp only [List.mem_flatMap, List.mem_map] at h
  obtain ⟨t, ht, f, -, rfl⟩ := h
  exact ⟨rfl, t, ht, rfl⟩

theorem wanted_distinct {argv : List Text} {bs : List Branch} {ts : List (Text × Text)} (hg : GoodTags bs ts) (s : Site) (b : Branch) :
    (wanted argv ts b).Pairwise fun c c' => workOf s c ≠ workOf s c' := by
  suffices H : (wanted argv ts b).Pairwise fun c c' => (c.tag, c.cuda, c.kokkos, c.build) ≠ (c'.tag, c'.cuda, c'.kokkos, c'.build) by
    refine (List.Pairwise.and_mem.1 H).imp ?_
    rintro c c' ⟨hc, hc', hne⟩ h
    obtain ⟨-, t, ht, e⟩ := wanted_facts hc
    obtain ⟨-, t', ht', e'⟩ := wanted_facts hc'
    have p := hg.proper t ht
    have p' := hg.proper t' ht'
    rw [← e] at p
    rw [← e'] at p'
    have h2 := (List.append_inj' h rfl).2
    simp only [List.cons.injEq, and_true] at h2
    rw [name_build p.1, name_build p'.1] at h2
    obtain ⟨h1, h2, h3, h4⟩ := name_inj p.1 p'.1 p.2 p'.2 (List.append_cancel_left h2)
    exact hne (by rw [h1, h2, h3, h4])
  unfold wanted
  rw [List.pairwise_flatMap]
  refine ⟨fun t _ => ?_, ?_⟩
  · rw [List.pairwise_map]
    refine List.Pairwise.imp ?_ ((show features.Pairwise (· ≠ ·) by decide).filter _)
    intro f f' hne h
    simp only [Prod.mk.injEq, true_and, and_true] at h
    exact hne (Prod.ext h.1 h.2)
  · refine (List.pairwise_map.1 hg.types).imp ?_
    intro t t' hne x hx y hy h
    simp only [List.mem_map] at hx hy
    obtain ⟨f, -, rfl⟩ := hx
    obtain ⟨f', -, rfl⟩ := hy
    simp only [Prod.mk.injEq] at h
    exact hne h.2.2.2

/-- The sources of a branch. -/
theorem clone_ok {E : Ext} {s : Site} (hE : GoodTools E s) (b : Branch) (w : World)
    (hcwd : w.cwd = s.scratch) (hd : w.fs s.scratch = some .dir) (hlib : ∀ x, w.fs (s.lib ++ [x]) ≠ some .file)
    (hf : w.fs (sourceOf s b.1) ≠ some .file) (ht : w.fs (sourceOf s b.1) = none → ∀ q, sourceOf s b.1 <+: q → w.fs q = none) :
    ∃ w', cloneLegion E b.1 b.2.1 b.2.2 w = (.ok (underscoreJoin ["legion".toList, b.1]), w') ∧ w'.cwd = w.cwd ∧
      w'.log = w.log ++ (s.scratch, cloneCommand b) :: (if b.2.2 = [] then [] else [(sourceOf s b.1, checkoutCommand b)]) ∧
      w'.fs s.scratch = some .dir ∧ w'.fs (sourceOf s b.1) = some .dir ∧
      (∀ q, ¬ sourceOf s b.1 <+: q → ¬ s.lib <+: q → w'.fs q = w.fs q) ∧ (∀ x, w'.fs (s.lib ++ [x]) ≠ some .file) ∧
      ∀ x q, sourceOf s b.1 ++ ["build_".toList ++ x] <+: q → w'.fs q = none := by
  obtain ⟨w1, hr, h1, h2, -, h4, h5, h6⟩ := removeDirectory_ok (sourceOf s b.1) w hf
  have hss : ¬ sourceOf s b.1 <+: s.scratch := not_prefix_dropLast
  have hex : ∀ fs d, (E d (cloneCommand b) fs).1 = .exited 0 := fun fs d => hE.works _ _ _ (.inl (not_legion (.inl (by decide))))
  have hex' : ∀ fs d, (E d (checkoutCommand b) fs).1 = .exited 0 := fun fs d => hE.works _ _ _ (.inl (not_legion (.inl (by decide))))
  have hlib1 : ∀ x, w1.fs (s.lib ++ [x]) ≠ some .file := fun x => by
    rcases h5 (s.lib ++ [x]) with h | h
    · rw [h]; exact hlib x
    · rw [h]; simp
  -- after the clone
  let w2 := ranIn E s.scratch (cloneCommand b) w1
  have c0 : run E (cloneCommand b) true w1 = (.ok (), w2) := by
    rw [run_ok (hex _ _), h1, hcwd]
  have c1 : w2.fs (sourceOf s b.1) = some .dir := (hE.clone s.scratch b w1.fs).1
  have c2 : ∀ q, ¬ sourceOf s b.1 <+: q → w2.fs q = w.fs q := fun q hq => by
    rw [← h4 q hq]
    exact (hE.clone s.scratch b w1.fs).2 q hq
  have c3 : ∀ x q, sourceOf s b.1 ++ ["build_".toList ++ x] <+: q → w2.fs q = none := fun x q hq =>
    hE.sources s.scratch b w1.fs (h6 ht) x q (by simpa [sourceOf] using hq)
  have c4 : ∀ x, w2.fs (s.lib ++ [x]) ≠ some .file := fun x h => hlib1 x (hE.noFile _ _ _ _ h)
  have c5 : w2.fs s.scratch = some .dir := by rw [c2 _ hss]; exact hd
  have start : cloneLegion E b.1 b.2.1 b.2.2 w = (clone E legionUrl b.2.1 (underscoreJoin ["legion".toList, b.1]) b.2.2 >>= fun _ =>
      pure (underscoreJoin ["legion".toList, b.1])) w1 := by
    unfold cloneLegion
    rw [getCwd_run, hcwd]
    exact bind_ok hr
  rw [start]
  unfold clone
  by_cases hb : b.2.2 = []
  · refine ⟨w2, ?_, h1, ?_, c5, c1, fun q hq _ => c2 q hq, c4, c3⟩
    · have hb' : (b.2.2 != []) = false := by rw [hb]; rfl
      simp only [hb', Bool.false_eq_true, if_false]
      rw [bind_assoc']
      exact (bind_ok c0).trans rfl
    · rw [if_pos hb, ← h2]
      rfl
  · let w3 := ranIn E (sourceOf s b.1) (checkoutCommand b) w2
    have d0 : changeDirectory (sourceOf s b.1) (run E (checkoutCommand b)) w2 = (.ok (), w3) := by
      have := (c90_change_directory (sourceOf s b.1) (run E (checkoutCommand b)) w2).1 c1
      rw [run_ok (hex' _ _)] at this
      refine (this ?_).trans rfl
      show (E (sourceOf s b.1) (checkoutCommand b) w2.fs).2 w1.cwd = some .dir
      rw [h1, hcwd]
      exact hE.keeps _ _ _ _ c5
    refine ⟨w3, ?_, h1, ?_, hE.keeps _ _ _ _ c5, hE.keeps _ _ _ _ c1, ?_, fun x h => c4 x (hE.noFile _ _ _ _ h), ?_⟩
    · have hb' : (b.2.2 != []) = true := bne_iff_ne.2 hb
      simp only [hb', if_true]
      rw [bind_assoc']
      refine (bind_ok c0).trans ?_
      rw [bind_assoc', getCwd_run, show w2.cwd = s.scratch from h1.trans hcwd]
      exact bind_ok d0
    · rw [if_neg hb, ← h2]
      show (w1.log ++ [(s.scratch, cloneCommand b)]) ++ [(sourceOf s b.1, checkoutCommand b)] = _
      simp
    · intro q hq hl
      rw [← c2 q hq]
      exact hE.inside _ _ _ _ hq hl
    · intro x q hq
      exact hE.checkout _ _ _ x (c3 x) q hq

theorem branch_ok {E : Ext} {s : Site} (hE : GoodTools E s) (hsep : ¬ s.lib <+: s.scratch ∧ ¬ s.scratch <+: s.lib) (argv : List Text)
    {bs : List Branch} (ts : List (Text × Text)) (hg : GoodTags bs ts) (b : Branch) (w : World) (hcwd : w.cwd = s.scratch) (hd : w.fs s.scratch = some .dir)
    (hlib : ∀ x, w.fs (s.lib ++ [x]) ≠ some .file) (hf : w.fs (sourceOf s b.1) ≠ some .file)
    (ht : w.fs (sourceOf s b.1) = none → ∀ q, sourceOf s b.1 <+: q → w.fs q = none) :
    ∃ w', branchOne E s argv ts b w = (.ok (), w') ∧ w'.cwd = s.scratch ∧ w'.log = w.log ++ branchCommands s argv ts b ∧
      w'.fs s.scratch = some .dir ∧ w'.fs (sourceOf s b.1) = some .dir ∧
      (∀ q, ¬ sourceOf s b.1 <+: q → ¬ s.lib <+: q → w'.fs q = w.fs q) ∧ ∀ x, w'.fs (s.lib ++ [x]) ≠ some .file := by
  obtain ⟨w1, g0, g1, g2, g3, g4, g5, g6, g7⟩ := clone_ok hE b w hcwd hd hlib hf ht
  have hsp : s.scratch <+: sourceOf s b.1 := ⟨_, rfl⟩
  obtain ⟨w2, k0, k1, k2, k3, k4, k5⟩ := configs_ok hE hsep b.1 (wanted argv ts b) (fun c hc => (wanted_facts hc).1) (wanted_distinct hg s b)
    { w1 with cwd := sourceOf s b.1 } rfl g4 g6 (fun c hc q hq => by
      obtain ⟨h1, t, ht, h2⟩ := wanted_facts hc
      refine g7 (underscoreJoin [c.tag, cudaTag c.cuda, kokkosTag c.kokkos, c.build]) q ?_
      rw [← name_build (by rw [h2]; exact (hg.proper t ht).1), ← h1]
      exact hq)
  refine ⟨{ w2 with cwd := s.scratch }, ?_, rfl, ?_, ?_, ?_, ?_, k5⟩
  · unfold branchOne
    rw [bind_ok g0, getCwd_run, show w1.cwd = s.scratch from g1.trans hcwd]
    have := (c90_change_directory (sourceOf s b.1) (forEach (wanted argv ts b) fun c => cmakeLegion E s c.tag c.cuda c.kokkos c.build c.type) w1).1 g4
    rw [k0] at this
    refine (this ?_).trans ?_
    · show w2.fs w1.cwd = some .dir
      rw [g1, hcwd]
      exact k3 _ g3 hsep.1
    · rw [g1, hcwd]
  · show w2.log = _
    rw [k2]
    show w1.log ++ _ = _
    rw [g2]
    unfold branchCommands
    simp
  · exact k3 _ g3 hsep.1
  · exact k3 _ g4 (apart hsep hsp)
  · intro q hq hl
    exact (k4 q hq hl).trans (g5 q hq hl)

/-- **C90**, building Legion: with tools that work, and scratch and library directories of which neither is in the other, `build_legion.py`
runs exactly these commands: for every branch in order it clones the sources and checks out the commit, and then configures, builds and
installs every configuration that agrees with the arguments, each in its own build directory made for it, with the options of that
configuration, and after removing what was installed for it before.  It ends normally, in the scratch directory. -/
theorem c90_build_legion {E : Ext} {s : Site} (hE : GoodTools E s) (hsep : ¬ s.lib <+: s.scratch ∧ ¬ s.scratch <+: s.lib)
    (bs : List Branch) (ts : List (Text × Text)) (hg : GoodTags bs ts) (argv : List Text) (w : World) (hw : CanBuild s bs w) :
    let r := buildLegion E s (rows3 bs) (rows2 ts) argv w
    r.1 = .ok () ∧ r.2.cwd = s.scratch ∧ r.2.log = w.log ++ bs.flatMap (branchCommands s argv ts) := by
  have main : ∀ (l : List Branch) (w : World), w.cwd = s.scratch → w.fs s.scratch = some .dir → (∀ x, w.fs (s.lib ++ [x]) ≠ some .file) →
      (∀ b ∈ l, w.fs (sourceOf s b.1) ≠ some .file) →
      (∀ b ∈ l, w.fs (sourceOf s b.1) = none → ∀ q, sourceOf s b.1 <+: q → w.fs q = none) → ∃ w', forEach l (branchOne E s argv ts) w = (.ok (), w') ∧ w'.cwd = s.scratch ∧
        w'.log = w.log ++ l.flatMap (branchCommands s argv ts) := by
    intro l
    induction l with
    | nil => exact fun w h _ _ _ _ => ⟨w, rfl, h, (List.append_nil _).symm⟩
    | cons b l ih =>
      intro w h1 h2 h3 h4 h5
      obtain ⟨w1, g0, g1, g2, g3, g4, g5, g6⟩ := branch_ok hE hsep argv ts hg b w h1 h2 h3 (h4 b (List.mem_cons_self ..))
        (h5 b (List.mem_cons_self ..))
      have other : ∀ b' : Branch, sourceOf s b.1 ≠ sourceOf s b'.1 → ∀ q, sourceOf s b'.1 <+: q → w1.fs q = w.fs q := fun b' e q hq => by
        have hsp : s.scratch <+: sourceOf s b'.1 := ⟨_, rfl⟩
        have hl : (sourceOf s b.1).length = (sourceOf s b'.1).length := by simp [sourceOf]
        exact g5 _ (fun hp => e (prefix_eq hl (List.prefix_of_prefix_length_le hp hq (Nat.le_of_eq hl)))) (apart hsep (hsp.trans hq))
      obtain ⟨w2, k0, k1, k2⟩ := ih w1 g1 g3 g6 (fun b' hb' => by
        by_cases e : sourceOf s b.1 = sourceOf s b'.1
        · rw [← e, g4]; simp
        · rw [other b' e _ (List.prefix_refl _)]
          exact h4 b' (List.mem_cons_of_mem _ hb')) (fun b' hb' hn q hq => by
        by_cases e : sourceOf s b.1 = sourceOf s b'.1
        · rw [← e, g4] at hn
          exact absurd hn (by simp)
        · rw [other b' e _ (List.prefix_refl _)] at hn
          rw [other b' e q hq]
          exact h5 b' (List.mem_cons_of_mem _ hb') hn q hq)
      exact ⟨w2, (bind_ok g0).trans k0, k1, by rw [k2, g2]; simp⟩
  obtain ⟨w', g0, g1, g2⟩ := main bs { w with cwd := s.scratch } rfl hw.scratch hw.noFile hw.noFile' hw.tree
  have : buildLegion E s (rows3 bs) (rows2 ts) argv w = (.ok (), w') := by
    rw [buildLegion_eq]
    refine (bind_ok (a := ()) ?_).trans g0
    unfold chdir
    rw [if_pos hw.scratch]
  intro r
  have hr : r = (.ok (), w') := this
  rw [hr]
  exact ⟨rfl, g1, g2⟩

/-- **C90**, arguments: if features are both forced and left out, nothing is built, but the sources are still fetched. -/
theorem c90_contradiction {E : Ext} {s : Site} (hE : GoodTools E s) (hsep : ¬ s.lib <+: s.scratch ∧ ¬ s.scratch <+: s.lib)
    (bs : List Branch) (ts : List (Text × Text)) (hg : GoodTags bs ts) (argv : List Text) (w : World) (hw : CanBuild s bs w)
    (ha : ("--force-cuda".toList ∈ argv ∧ "--skip-cuda".toList ∈ argv) ∨ ("--force-kokkos".toList ∈ argv ∧ "--skip-kokkos".toList ∈ argv)) :
    (buildLegion E s (rows3 bs) (rows2 ts) argv w).1 = .ok () ∧ (buildLegion E s (rows3 bs) (rows2 ts) argv w).2.log =
      w.log ++ bs.flatMap fun b => (s.scratch, cloneCommand b) :: if b.2.2 = [] then [] else [(sourceOf s b.1, checkoutCommand b)] := by
  obtain ⟨h1, -, h2⟩ := c90_build_legion hE hsep bs ts hg argv w hw
  refine ⟨h1, h2.trans ?_⟩
  have hn : (features.filter fun f => Agrees argv f) = [] := by
    refine List.filter_eq_nil_iff.2 fun f _ => ?_
    simp only [decide_eq_true_eq]
    rintro ⟨a1, a2, a3, a4⟩
    rcases ha with ⟨b1, b2⟩ | ⟨b1, b2⟩
    · rw [a1 b1] at a2
      exact absurd (a2 b2) (by simp)
    · rw [a3 b1] at a4
      exact absurd (a4 b2) (by simp)
  congr 1
  refine congrArg (fun f => List.flatMap f bs) (funext fun b => ?_)
  unfold branchCommands wanted
  rw [hn]
  simp

/-- The committed lists are tuples of the right length, and their tags tell the configurations apart. -/
theorem c90_committed : legionBranches = rows3 ourBranches ∧ buildTypes = rows2 ourTypes ∧ GoodTags ourBranches ourTypes :=
  ⟨rfl, rfl, ⟨by decide, by decide, by decide⟩⟩

end Verif.Build
