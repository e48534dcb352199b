import Verif.Build.Install

/-! # C100: build_dependencies.py -/
set_option linter.unusedSectionVars false
set_option linter.dupNamespace false
namespace Verif.Build

/-- `KOKKOS_4_5_URL` (`build_dependencies.py` 21). -/
def kokkosUrl : Text := "https://github.com/kokkos/kokkos/archive/refs/tags/4.5.01.zip".toList

/-- `download` (`build_utilities.py` 65-67). -/
def download (E : Ext) (url : Text) : Py Unit := run E ["wget".toList, url]

/-- `defines_cuda` with the additions for some machines (`build_dependencies.py` 61-72, 81-84). -/
def Site.definesCuda (s : Site) : List (Text × Val) :=
  [("CMAKE_CXX_STANDARD".toList, .num 17), ("CMAKE_BUILD_TYPE".toList, .text "Release".toList),
    ("CMAKE_INSTALL_PREFIX".toList, .text (showPath (s.lib ++ ["kokkos-4.5.01-cuda".toList]))), ("Kokkos_ENABLE_SERIAL".toList, .bool true),
    ("Kokkos_ENABLE_OPENMP".toList, .bool true), ("Kokkos_ENABLE_CUDA".toList, .bool true), ("Kokkos_ENABLE_CUDA_LAMBDA".toList, .bool true),
    ("Kokkos_ENABLE_CUDA_CONSTEXPR".toList, .bool true), ("Kokkos_ENABLE_CUDA_LDG_INTRINSIC".toList, .bool true),
    ("Kokkos_ENABLE_TESTS".toList, .bool true)] ++
  if s.machine = .lassen ∨ s.machine = .summit then
    [("Kokkos_ARCH_POWER9".toList, .bool true), ("Kokkos_ARCH_VOLTA70".toList, .bool true)] else []

/-- `defines_nocuda` with the addition for some machines (`build_dependencies.py` 73-82). -/
def Site.definesNoCuda (s : Site) : List (Text × Val) :=
  [("CMAKE_CXX_STANDARD".toList, .num 17), ("CMAKE_BUILD_TYPE".toList, .text "Release".toList),
    ("CMAKE_INSTALL_PREFIX".toList, .text (showPath (s.lib ++ ["kokkos-4.5.01-nocuda".toList]))), ("Kokkos_ENABLE_SERIAL".toList, .bool true),
    ("Kokkos_ENABLE_OPENMP".toList, .bool true), ("Kokkos_ENABLE_TESTS".toList, .bool true)] ++
  if s.machine = .lassen ∨ s.machine = .summit then [("Kokkos_ARCH_POWER9".toList, .bool true)] else []

/-- `main` of `build_dependencies.py` (50-86). -/
def buildDependencies (E : Ext) (s : Site) (argv : List Text) : Py Unit := do
  if argv.contains "--skip-kokkos".toList then pure ()
  else do
    chdir s.scratch
    let d ← getCwd
    removeDirectory (d ++ ["kokkos-4.5.01".toList])
    download E kokkosUrl
    run E ["unzip".toList, "4.5.01.zip".toList]
    changeDirectory (d ++ ["kokkos-4.5.01".toList]) do
      let k ← getCwd
      cmake E s.cores (k ++ ["build-cuda".toList]) s.definesCuda true true true ["cmake".toList, "..".toList]
      let k ← getCwd
      cmake E s.cores (k ++ ["build-nocuda".toList]) s.definesNoCuda true true true ["cmake".toList, "..".toList]

/-! ## What is said -/

/-- The options for Kokkos with and without CUDA, from a table of their own. -/
def kokkosOptions (s : Site) (cuda : Bool) : List Text :=
  ["-DCMAKE_CXX_STANDARD=17".toList, "-DCMAKE_BUILD_TYPE=Release".toList,
    "-DCMAKE_INSTALL_PREFIX=".toList ++ showPath (s.lib ++ [if cuda then "kokkos-4.5.01-cuda".toList else "kokkos-4.5.01-nocuda".toList]),
    "-DKokkos_ENABLE_SERIAL=ON".toList, "-DKokkos_ENABLE_OPENMP=ON".toList] ++
  (if cuda then ["-DKokkos_ENABLE_CUDA=ON".toList, "-DKokkos_ENABLE_CUDA_LAMBDA=ON".toList, "-DKokkos_ENABLE_CUDA_CONSTEXPR=ON".toList,
    "-DKokkos_ENABLE_CUDA_LDG_INTRINSIC=ON".toList] else []) ++
  ["-DKokkos_ENABLE_TESTS=ON".toList] ++
  (if s.machine = .lassen ∨ s.machine = .summit then
    "-DKokkos_ARCH_POWER9=ON".toList :: if cuda then ["-DKokkos_ARCH_VOLTA70=ON".toList] else [] else [])

/-- The commands for one of the two: configure, build, test, install. -/
def kokkosCommands (s : Site) (cuda : Bool) : List (List Text) :=
  ["cmake".toList :: "..".toList :: kokkosOptions s cuda,
    ["cmake".toList, "--build".toList, ".".toList, "--parallel".toList, (toString (s.cores.getD 8)).toList], ["ctest".toList],
    ["make".toList, "install".toList]]

/-- Where the sources of Kokkos are. -/
def kokkosSource (s : Site) : Path := s.scratch ++ ["kokkos-4.5.01".toList]

/-- All commands, with the directories they run in. -/
def dependencyCommands (s : Site) : List (Path × List Text) :=
  [(s.scratch, ["wget".toList, kokkosUrl]), (s.scratch, ["unzip".toList, "4.5.01.zip".toList])] ++
  (kokkosCommands s true).map (fun c => (kokkosSource s ++ ["build-cuda".toList], c)) ++
  (kokkosCommands s false).map (fun c => (kokkosSource s ++ ["build-nocuda".toList], c))

/-- A command that fails whenever it is run; the outcome of the tests of Kokkos does not matter. -/
def AlwaysFails (E : Ext) (x : Path × List Text) : Prop := x.2 ≠ ["ctest".toList] ∧ ∀ fs, (E x.1 x.2 fs).1 ≠ .exited 0

/-! ## Proofs -/

/-- Run in directory `d`, `m` runs commands of `cs`, in order, from the first one on; all of them if it raises no exception, and then ends in `d'`;
none after one that always fails, and an exception is raised then. -/
def Runs {α : Type} (E : Ext) (d : Path) (m : Py α) (cs : List (Path × List Text)) (d' : Path) : Prop :=
  ∀ w, w.cwd = d → ∃ done rest, cs = done ++ rest ∧ (m w).2.log = w.log ++ done ∧ (∀ x ∈ done.dropLast, ¬AlwaysFails E x) ∧
    ∀ a, (m w).1 = .ok a → rest = [] ∧ (m w).2.cwd = d' ∧ ∀ x ∈ done, ¬AlwaysFails E x

variable {E : Ext}

theorem Runs.bind {α β : Type} {d d' d'' : Path} {m : Py α} {f : α → Py β} {cs ds : List (Path × List Text)} (h : Runs E d m cs d')
    (h' : ∀ a, Runs E d' (f a) ds d'') : Runs E d (m >>= f) (cs ++ ds) d'' := by
  intro w hw
  obtain ⟨done, rest, h1, h2, h0, h3⟩ := h w hw
  rcases hm : m w with ⟨e | a, w'⟩
  · rw [bind_error hm]
    rw [hm] at h2
    exact ⟨done, rest ++ ds, by rw [h1, List.append_assoc], h2, h0, fun b hb => by cases hb⟩
  · rw [bind_ok hm]
    rw [hm] at h2 h3
    obtain ⟨h4, h5, h9⟩ := h3 a rfl
    obtain ⟨done', rest', h6, h7, h10, h8⟩ := h' a w' h5
    subst h4
    refine ⟨done ++ done', rest', by rw [h1, h6]; simp, by rw [h7, h2, List.append_assoc], ?_, fun b hb => ⟨(h8 b hb).1, (h8 b hb).2.1, ?_⟩⟩
    · intro x hx
      by_cases hn : done' = []
      · subst hn; rw [List.append_nil] at hx; exact h0 x hx
      · rw [List.dropLast_append_of_ne_nil hn] at hx
        rcases List.mem_append.1 hx with hx | hx
        · exact h9 x hx
        · exact h10 x hx
    · intro x hx
      rcases List.mem_append.1 hx with hx | hx
      · exact h9 x hx
      · exact (h8 b hb).2.2 x hx

/-- Something that runs no command and does not change the directory. -/
theorem Runs.still {α : Type} {d : Path} {m : Py α} (h : ∀ w, (m w).2.log = w.log ∧ (m w).2.cwd = w.cwd) : Runs E d m [] d :=
  fun w hw => ⟨[], [], rfl, by simp [(h w).1], by simp, fun _ _ => ⟨rfl, (h w).2.trans hw, by simp⟩⟩

theorem Runs.chdir {d : Path} (p : Path) : Runs E d (chdir p) [] p := by
  intro w _
  unfold Build.chdir
  split_ifs
  · exact ⟨[], [], rfl, by simp, by simp, fun _ _ => ⟨rfl, rfl, by simp⟩⟩
  · exact ⟨[], [], rfl, by simp, by simp, fun _ h => by cases h⟩

theorem Runs.run {d : Path} (cmd : List Text) (check : Bool) (hc : check = true ∨ cmd = ["ctest".toList]) :
    Runs E d (run E cmd check) [(d, cmd)] d := by
  intro w hw
  refine ⟨[(d, cmd)], [], rfl, ?_, by simp, fun a ha => ⟨rfl, ?_, ?_⟩⟩
  · unfold Build.run; simp only; split <;> try split
    all_goals simp [hw]
  · unfold Build.run; simp only; split <;> try split
    all_goals simp [hw]
  · intro x hx hf
    obtain rfl : x = (d, cmd) := by simpa using hx
    rcases hc with rfl | rfl
    · rw [run_result] at ha
      have := hf.2 w.fs
      rw [hw] at ha
      simp only at this ha
      cases ho : (E d cmd w.fs).1 with
      | missing => rw [ho] at ha; cases ha
      | exited code =>
        rw [ho] at ha this
        simp only [asResult] at ha
        split_ifs at ha with h0
        exact this (by rw [h0])
    · exact hf.1 rfl

theorem Runs.removeDirectory {d : Path} (p : Path) : Runs E d (removeDirectory p) [] d := by
  refine .still fun w => ?_
  unfold Build.removeDirectory
  rcases hs : w.fs p with _ | _ | _ <;> simp [bind_run, pathExists, isDir, assertThat, rmtree, hs]
  exact ⟨rfl, rfl⟩

theorem Runs.createDirectory {d : Path} (p : Path) : Runs E d (createDirectory p) [] d := by
  refine .still fun w => ?_
  unfold Build.createDirectory
  cases h : (w.fs p).isSome <;> simp [Bind.bind, pathExists, assertThat, h, mkdir]
  split <;> simp

theorem Runs.getCwd {β : Type} {d d' : Path} {f : Path → Py β} {cs : List (Path × List Text)} (h : Runs E d (f d) cs d') :
    Runs E d (getCwd >>= f) cs d' := by
  intro w hw
  rw [getCwd_run, hw]
  exact h w hw

theorem Runs.changeDirectory {α : Type} {d p d' : Path} {body : Py α} {cs : List (Path × List Text)} (h : Runs E p body cs d') :
    Runs E d (changeDirectory p body) cs d := by
  refine Runs.getCwd ?_
  have := Runs.bind (Runs.chdir (E := E) (d := d) p) (f := fun _ => tryFinally body (Build.chdir d)) (ds := cs) (d'' := d) fun _ => ?_
  · simpa using this
  · intro w hw
    obtain ⟨done, rest, h1, h2, h0, h3⟩ := h w hw
    refine ⟨done, rest, h1, ?_⟩
    unfold tryFinally
    rcases hb : body w with ⟨r, w'⟩
    rw [hb] at h2 h3
    simp only
    unfold Build.chdir
    by_cases hd : w'.fs d = some .dir
    · rw [if_pos hd]
      exact ⟨h2, h0, fun a ha => ⟨(h3 a ha).1, rfl, (h3 a ha).2.2⟩⟩
    · rw [if_neg hd]
      exact ⟨h2, h0, fun a ha => by cases ha⟩

theorem Runs.cmake {d p : Path} (cores : Option Nat) (defines : List (Text × Val)) (cmd : List Text) :
    Runs E d (cmake E cores p defines true true true cmd)
      [(p, cmd ++ defines.map define), (p, ["cmake".toList, "--build".toList, ".".toList, "--parallel".toList, (toString (cores.getD 8)).toList]),
        (p, ["ctest".toList]), (p, ["make".toList, "install".toList])] d :=
  Runs.bind (Runs.createDirectory p) fun _ => Runs.changeDirectory (d' := p) (Runs.bind (Runs.run _ _ (.inl rfl)) fun _ =>
    Runs.bind (Runs.run _ _ (.inl rfl)) fun _ => Runs.bind (Runs.run _ _ (.inr rfl)) fun _ => Runs.run _ _ (.inl rfl))

theorem options_cuda (s : Site) : s.definesCuda.map define = kokkosOptions s true := by
  have h1 : (Val.num 17).show = "17".toList := by decide
  have et : ∀ b, (Val.text b).show = b := fun _ => rfl
  have e : (Val.bool true).show = "ON".toList := rfl
  unfold Site.definesCuda kokkosOptions
  by_cases hm : s.machine = .lassen ∨ s.machine = .summit <;> simp [hm, define, h1, et, e]

theorem options_nocuda (s : Site) : s.definesNoCuda.map define = kokkosOptions s false := by
  have h1 : (Val.num 17).show = "17".toList := by decide
  have et : ∀ b, (Val.text b).show = b := fun _ => rfl
  have e : (Val.bool true).show = "ON".toList := rfl
  unfold Site.definesNoCuda kokkosOptions
  by_cases hm : s.machine = .lassen ∨ s.machine = .summit <;> simp [hm, define, h1, et, e]

theorem dependencies_runs (s : Site) (argv : List Text) (h : "--skip-kokkos".toList ∉ argv) (d : Path) :
    Runs E d (buildDependencies E s argv) (dependencyCommands s) s.scratch := by
  unfold buildDependencies
  have hc : argv.contains "--skip-kokkos".toList = false := by simpa using h
  simp only [hc, Bool.false_eq_true, if_false]
  rw [show dependencyCommands s = [] ++ dependencyCommands s from rfl]
  refine Runs.bind (Runs.chdir s.scratch) fun _ => Runs.getCwd ?_
  have e : dependencyCommands s = [] ++ ([(s.scratch, ["wget".toList, kokkosUrl])] ++ ([(s.scratch, ["unzip".toList, "4.5.01.zip".toList])] ++
      ((kokkosCommands s true).map (fun c => (kokkosSource s ++ ["build-cuda".toList], c)) ++
        (kokkosCommands s false).map (fun c => (kokkosSource s ++ ["build-nocuda".toList], c))))) := by
    simp [dependencyCommands]
  rw [e]
  refine Runs.bind (Runs.removeDirectory _) fun _ => Runs.bind (Runs.run _ _ (.inl rfl)) fun _ => Runs.bind (Runs.run _ _ (.inl rfl)) fun _ =>
    Runs.changeDirectory (d' := kokkosSource s) (Runs.getCwd (Runs.bind (d' := kokkosSource s) ?_ fun _ => Runs.getCwd ?_))
  · have h1 := Runs.cmake (E := E) (d := kokkosSource s) (p := kokkosSource s ++ ["build-cuda".toList]) s.cores s.definesCuda ["cmake".toList, "..".toList]
    rw [options_cuda] at h1
    exact h1
  · have h1 := Runs.cmake (E := E) (d := kokkosSource s) (p := kokkosSource s ++ ["build-nocuda".toList]) s.cores s.definesNoCuda ["cmake".toList, "..".toList]
    rw [options_nocuda] at h1
    exact h1

/-- **C100.** Whatever the tools do and whatever is in the file system: `build_dependencies.py` runs these commands in these directories, in this
order, none left out; all of them, if it raises no exception, and then it ends in the scratch directory. -/
theorem c100_commands (E : Ext) (s : Site) (argv : List Text) (h : "--skip-kokkos".toList ∉ argv) (w : World) :
    ∃ done rest, dependencyCommands s = done ++ rest ∧ (buildDependencies E s argv w).2.log = w.log ++ done ∧
      ((buildDependencies E s argv w).1 = .ok () → rest = [] ∧ (buildDependencies E s argv w).2.cwd = s.scratch) := by
  obtain ⟨done, rest, h1, h2, -, h3⟩ := dependencies_runs (E := E) s argv h w.cwd w rfl
  exact ⟨done, rest, h1, h2, fun hr => ⟨(h3 () hr).1, (h3 () hr).2.1⟩⟩

/-- **C100.** If one of the commands, other than the tests of Kokkos, always fails, the script raises an exception and runs none of the commands after
it.  So if Kokkos cannot be built with CUDA, it is not even tried without. -/
theorem c100_stops (E : Ext) (s : Site) (argv : List Text) (h : "--skip-kokkos".toList ∉ argv) (w : World) {pre post : List (Path × List Text)}
    {x : Path × List Text} (hx : dependencyCommands s = pre ++ x :: post) (hf : AlwaysFails E x) :
    (buildDependencies E s argv w).1 ≠ .ok () ∧ ∃ done, done <+: pre ++ [x] ∧ (buildDependencies E s argv w).2.log = w.log ++ done := by
  obtain ⟨done, rest, h1, h2, h0, h3⟩ := dependencies_runs (E := E) s argv h w.cwd w rfl
  refine ⟨fun hr => ?_, done, ?_, h2⟩
  · obtain ⟨rfl, _, h4⟩ := h3 () hr
    rw [List.append_nil] at h1
    exact h4 x (by rw [← h1, hx]; simp) hf
  · have hp : done <+: dependencyCommands s := ⟨rest, h1.symm⟩
    have hq : pre ++ [x] <+: dependencyCommands s := ⟨post, by rw [hx]; simp⟩
    rcases List.prefix_or_prefix_of_prefix hp hq with hh | ⟨t, ht⟩
    · exact hh
    · by_cases hn : t = []
      · subst hn; rw [← ht, List.append_nil]
        exact List.prefix_refl _
      · exact absurd hf (h0 x (by rw [← ht, List.dropLast_append_of_ne_nil hn]; simp))

/-- **C100.** What the two builds install is where the builds of Legion and of the library look for it: in the directory given as installation prefix. -/
theorem c100_found (s : Site) : s.kokkosCuda = s.lib ++ ["kokkos-4.5.01-cuda".toList] ++ [s.libDir, "cmake".toList, "Kokkos".toList] ∧
    s.kokkosNoCuda = s.lib ++ ["kokkos-4.5.01-nocuda".toList] ++ [s.libDir, "cmake".toList, "Kokkos".toList] ∧
    s.nvccWrapper = s.lib ++ ["kokkos-4.5.01-cuda".toList] ++ ["bin".toList, "nvcc_wrapper".toList] := by
  simp [Site.kokkosCuda, Site.kokkosNoCuda, Site.nvccWrapper]

/-- **C100.** With `--skip-kokkos` nothing happens. -/
theorem c100_skip (E : Ext) (s : Site) (argv : List Text) (h : "--skip-kokkos".toList ∈ argv) (w : World) :
    buildDependencies E s argv w = (.ok (), w) := by
  unfold buildDependencies
  have hc : argv.contains "--skip-kokkos".toList = true := by simpa using h
  simp only [hc, if_true]
  rfl

/-! ## Examples -/

/-- A site. -/
def aSite : Site := ⟨.lassen, ["scratch".toList], ["lib".toList], some 4⟩

/-- Tools that work; `unzip` makes the directory of the sources. -/
def tools : Ext := fun d cmd fs =>
  (.exited (if cmd = ["ctest".toList] then 8 else 0),
    if cmd = ["unzip".toList, "4.5.01.zip".toList] then fun q => if q = d ++ ["kokkos-4.5.01".toList] then some .dir else fs q else fs)

/-- Tools of a machine without CUDA. -/
def toolsNoCuda : Ext := fun d cmd fs => if cmd.contains "-DKokkos_ENABLE_CUDA=ON".toList then (.exited 1, fs) else tools d cmd fs

/-- Only the scratch directory is there. -/
def aWorld : World := ⟨fun q => if q = ["scratch".toList] then some .dir else none, [], []⟩

/-- With working tools everything is done, although the tests of Kokkos fail. -/
example : (match buildDependencies tools aSite [] aWorld with | (.ok (), w) => w.log = dependencyCommands aSite ∧ w.cwd = ["scratch".toList] | _ => False) := by
  have h : (buildDependencies tools aSite [] aWorld).2.log = dependencyCommands aSite ∧ (buildDependencies tools aSite [] aWorld).2.cwd = ["scratch".toList] ∧
      (match (buildDependencies tools aSite [] aWorld).1 with | .ok () => true | .error _ => false) = true := by decide +kernel
  rcases hb : buildDependencies tools aSite [] aWorld with ⟨_ | _, w⟩
  · rw [hb] at h; exact absurd h.2.2 (by simp)
  · rw [hb] at h; exact ⟨h.1, h.2.1⟩

/-- Without CUDA the script ends at the third command. -/
example : (buildDependencies toolsNoCuda aSite [] aWorld).2.log = (dependencyCommands aSite).take 3 := by decide +kernel

/-- The hypotheses of `c100_stops` are met by it. -/
example : ∃ pre post, dependencyCommands aSite = pre ++ (kokkosSource aSite ++ ["build-cuda".toList], "cmake".toList :: "..".toList :: kokkosOptions aSite true) :: post ∧
    AlwaysFails toolsNoCuda (kokkosSource aSite ++ ["build-cuda".toList], "cmake".toList :: "..".toList :: kokkosOptions aSite true) :=
  ⟨(dependencyCommands aSite).take 2, (dependencyCommands aSite).drop 3, by decide +kernel, by decide +kernel, fun fs => by
    have : ("cmake".toList :: "..".toList :: kokkosOptions aSite true).contains "-DKokkos_ENABLE_CUDA=ON".toList = true := by decide +kernel
    simp only [toolsNoCuda, this, if_true]
    decide⟩

end Verif.Build
