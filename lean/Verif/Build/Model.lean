/-! # The build scripts: build_utilities.py, build_dependencies.py, build_legion.py, refresh_cmake.py, make_all.py, and the main function
of test_all.py

Messages printed on the way are not modelled, nor are symbolic links, permissions and other processes. -/
namespace Verif.Build

/-- A text. -/
abbrev Text := List Char

/-- A path from the root: its components.  The paths in the environment variables are absolute and normalised; the tags that scripts put
into paths contain no slash. -/
abbrev Path := List Text

/-- What can be at a path. -/
inductive Node
  | dir
  | file
deriving DecidableEq

/-- The file system. -/
abbrev FS := Path → Option Node

/-- How an external command ended. -/
inductive Outcome
  /-- The program was not found. -/
  | missing
  | exited (code : Nat)
deriving DecidableEq

/-- External commands: what they do when run in a directory. -/
abbrev Ext := Path → List Text → FS → Outcome × FS

/-- The state of a script: the file system, the working directory, and the commands run so far with the directories they ran in. -/
structure World where
  fs : FS
  cwd : Path
  log : List (Path × List Text)

/-- Exceptions. -/
inductive Exc
  | assertion
  | osError
  | calledProcess
  | valueError
deriving DecidableEq

/-- Python code with effects and exceptions. -/
def Py (α : Type) := World → Except Exc α × World

instance : Monad Py where
  pure a w := (.ok a, w)
  bind m f w := match m w with
    | (.ok a, w') => f a w'
    | (.error e, w') => (.error e, w')

/-- `raise`. -/
def raise {α : Type} (e : Exc) : Py α := fun w => (.error e, w)

/-- `assert`. -/
def assertThat (b : Bool) : Py Unit := fun w => if b then (.ok (), w) else (.error .assertion, w)

/-- `for x in l`. -/
def forEach {α : Type} : List α → (α → Py Unit) → Py Unit
  | [], _ => pure ()
  | a :: l, f => do f a; forEach l f

/-- `os.path.exists`. -/
def pathExists (p : Path) : Py Bool := fun w => (.ok (w.fs p).isSome, w)

/-- `os.path.isdir`. -/
def isDir (p : Path) : Py Bool := fun w => (.ok (w.fs p == some .dir), w)

/-- `os.getcwd`. -/
def getCwd : Py Path := fun w => (.ok w.cwd, w)

/-- `os.chdir`. -/
def chdir (p : Path) : Py Unit := fun w => if w.fs p = some .dir then (.ok (), { w with cwd := p }) else (.error .osError, w)

/-- `os.mkdir`: the parent must be there, the directory must not. -/
def mkdir (p : Path) : Py Unit := fun w =>
  if w.fs p = none ∧ w.fs p.dropLast = some .dir then (.ok (), { w with fs := fun q => if q = p then some .dir else w.fs q }) else (.error .osError, w)

/-- `shutil.rmtree`. -/
def rmtree (p : Path) : Py Unit := fun w => (.ok (), { w with fs := fun q => if p <+: q then none else w.fs q })

/-- `try: body finally: last`: an exception in `last` takes the place of one in `body`. -/
def tryFinally {α : Type} (body : Py α) (last : Py Unit) : Py α := fun w => match body w with
  | (r, w') => match last w' with
    | (.ok (), w'') => (r, w'')
    | (.error e, w'') => (.error e, w'')

/-! ## build_utilities.py -/

/-- `"_".join(l)`. -/
def joinWith (sep : Char) : List Text → Text
  | [] => []
  | [a] => a
  | a :: b :: l => a ++ sep :: joinWith sep (b :: l)

/-- `underscore_join` (`build_utilities.py` 13-14): empty arguments are left out. -/
def underscoreJoin (l : List Text) : Text := joinWith '_' (l.filter fun a => a != [])

/-- The text of a path. -/
def showPath (p : Path) : Text := '/' :: joinWith '/' p

/-- `create_directory` (`build_utilities.py` 24-27). -/
def createDirectory (p : Path) : Py Unit := do
  assertThat !(← pathExists p)
  mkdir p

/-- `remove_directory` (`build_utilities.py` 39-45). -/
def removeDirectory (p : Path) : Py Unit := do
  if ← pathExists p then do
    assertThat (← isDir p)
    rmtree p
  else pure ()

/-- `change_directory` (`build_utilities.py` 48-57), with the block it manages: the previous directory is entered again whether or not the
block raises. -/
def changeDirectory {α : Type} (p : Path) (body : Py α) : Py α := do
  let prev ← getCwd
  chdir p
  tryFinally body (chdir prev)

/-- `run` (`build_utilities.py` 60-62). -/
def run (E : Ext) (cmd : List Text) (check : Bool := true) : Py Unit := fun w =>
  let r := E w.cwd cmd w.fs
  let w' : World := ⟨r.2, w.cwd, w.log ++ [(w.cwd, cmd)]⟩
  match r.1 with
  | .missing => (.error .osError, w')
  | .exited code => if check && code != 0 then (.error .calledProcess, w') else (.ok (), w')

/-- `clone` (`build_utilities.py` 70-132), with a branch and a path, as `build_legion.py` calls it. -/
def clone (E : Ext) (url branch path commit : Text) : Py Unit := do
  run E ["git".toList, "clone".toList, "--branch".toList, branch, url, path]
  if commit != [] then do
    let d ← getCwd
    changeDirectory (d ++ [path]) (run E ["git".toList, "checkout".toList, commit])
  else pure ()

/-- Values of CMake variables. -/
inductive Val
  | bool (b : Bool)
  | num (n : Nat)
  | text (t : Text)

def Val.show : Val → Text
  | .bool b => if b then "ON".toList else "OFF".toList
  | .num n => (toString n).toList
  | .text t => t

/-- The argument that sets a variable. -/
def define (d : Text × Val) : Text := "-D".toList ++ d.1 ++ '=' :: d.2.show

/-- `cmake` (`build_utilities.py` 138-170); `cores` is the number of cores, `none` if unknown. -/
def cmake (E : Ext) (cores : Option Nat) (buildPath : Path) (defines : List (Text × Val)) (build test install : Bool) (cmd : List Text) : Py Unit := do
  createDirectory buildPath
  changeDirectory buildPath do
    run E (cmd ++ defines.map define)
    if build then run E ["cmake".toList, "--build".toList, ".".toList, "--parallel".toList, (toString (cores.getD 8)).toList] else pure ()
    if test then run E ["ctest".toList] false else pure ()
    if install then run E ["make".toList, "install".toList] else pure ()

/-- `Machines` (`build_utilities.py` 176-181). -/
inductive Machine
  | unknown
  | sapling
  | pizdaint
  | lassen
  | summit
deriving DecidableEq

/-- `GASNET_CONDUITS` (`build_utilities.py` 203-209). -/
def conduit : Machine → Text
  | .unknown => "mpi".toList
  | .sapling => "ibv".toList
  | .pizdaint => "mpi".toList
  | .lassen => "ibv".toList
  | .summit => "ibv".toList

/-- The settings of a site: `MACHINE`, `SCRATCH_DIR`, `LIB_PREFIX` (`build_utilities.py` 191-196, 212-213) and the number of cores. -/
structure Site where
  machine : Machine
  scratch : Path
  lib : Path
  cores : Option Nat

/-! ## build_dependencies.py (paths only) -/

def Site.libDir (s : Site) : Text := if s.machine = .sapling then "lib".toList else "lib64".toList

/-- `KOKKOS_CUDA_CMAKE_PATH` (`build_dependencies.py` 28-34). -/
def Site.kokkosCuda (s : Site) : Path := s.lib ++ ["kokkos-4.5.01-cuda".toList, s.libDir, "cmake".toList, "Kokkos".toList]

/-- `KOKKOS_NOCUDA_CMAKE_PATH` (`build_dependencies.py` 36-42). -/
def Site.kokkosNoCuda (s : Site) : Path := s.lib ++ ["kokkos-4.5.01-nocuda".toList, s.libDir, "cmake".toList, "Kokkos".toList]

/-- `KOKKOS_NVCC_WRAPPER_PATH` (`build_dependencies.py` 45-47). -/
def Site.nvccWrapper (s : Site) : Path := s.lib ++ ["kokkos-4.5.01-cuda".toList, "bin".toList, "nvcc_wrapper".toList]

/-! ## build_legion.py -/

/-- `LEGION_GIT_URL` (`build_legion.py` 29). -/
def legionUrl : Text := "https://gitlab.com/StanfordLegion/legion.git".toList

/-- `LEGION_BRANCHES` (`build_legion.py` 32-38). -/
def legionBranches : List (List Text) :=
  [["master".toList, "master".toList, "master".toList], ["r2412".toList, "legion-24.12.0".toList, "legion-24.12.0".toList]]

/-- `BUILD_TYPES` (`build_legion.py` 41-44). -/
def buildTypes : List (List Text) := [["debug".toList, "Debug".toList], ["release".toList, "RelWithDebInfo".toList]]

/-- `a, b = t` for a tuple `t`. -/
def unpack2 : List Text → Py (Text × Text)
  | [a, b] => pure (a, b)
  | _ => raise .valueError

/-- `a, b, c = t` for a tuple `t`. -/
def unpack3 : List Text → Py (Text × Text × Text)
  | [a, b, c] => pure (a, b, c)
  | _ => raise .valueError

/-- `cuda_tag` (`build_legion.py` 47-48). -/
def cudaTag (b : Bool) : Text := if b then "cuda".toList else "nocuda".toList

/-- `kokkos_tag` (`build_legion.py` 51-52). -/
def kokkosTag (b : Bool) : Text := if b then "kokkos".toList else "nokokkos".toList

/-- `clone_legion` (`build_legion.py` 55-59).  The path it works on is relative to the working directory. -/
def cloneLegion (E : Ext) (tag branch commit : Text) : Py Text := do
  let out := underscoreJoin ["legion".toList, tag]
  let d ← getCwd
  removeDirectory (d ++ [out])
  clone E legionUrl branch out commit
  pure out

/-- `legion_library_path` (`build_legion.py` 62-74). -/
def Site.legionPath (s : Site) (tag : Text) (cuda kokkos : Bool) (build : Text) : Path :=
  s.lib ++ [underscoreJoin ["legion".toList, tag, cudaTag cuda, kokkosTag kokkos, build]]

/-- The CMake variables for Legion (`build_legion.py` 86-109). -/
def Site.legionDefines (s : Site) (tag : Text) (cuda kokkos : Bool) (build type : Text) : List (Text × Val) :=
  [("CMAKE_CXX_STANDARD".toList, .num 17), ("CMAKE_BUILD_TYPE".toList, .text type),
    ("CMAKE_INSTALL_PREFIX".toList, .text (showPath (s.legionPath tag cuda kokkos build))), ("Legion_MAX_NUM_NODES".toList, .num 4096),
    ("Legion_MAX_NUM_PROCS".toList, .num 256), ("Legion_USE_OpenMP".toList, .bool true), ("Legion_USE_CUDA".toList, .bool cuda),
    ("Legion_NETWORKS".toList, .text "gasnetex".toList), ("Legion_EMBED_GASNet".toList, .bool true),
    ("GASNet_CONDUIT".toList, .text (conduit s.machine))] ++
  (if s.machine = .lassen ∨ s.machine = .summit then
    [("CMAKE_CXX_FLAGS".toList, .text "-DREALM_TIMERS_USE_RDTSC=0".toList), ("CMAKE_CUDA_FLAGS".toList, .text "-DREALM_TIMERS_USE_RDTSC=0".toList)]
    else []) ++
  if kokkos then
    ("Legion_USE_Kokkos".toList, .bool true) ::
      if cuda then [("Kokkos_DIR".toList, .text (showPath s.kokkosCuda)), ("KOKKOS_CXX_COMPILER".toList, .text (showPath s.nvccWrapper))]
      else [("Kokkos_DIR".toList, .text (showPath s.kokkosNoCuda))]
  else []

/-- `cmake_legion` (`build_legion.py` 77-121). -/
def cmakeLegion (E : Ext) (s : Site) (tag : Text) (cuda kokkos : Bool) (build type : Text) : Py Unit := do
  removeDirectory (s.legionPath tag cuda kokkos build)
  let d ← getCwd
  cmake E s.cores (d ++ [underscoreJoin ["build".toList, tag, cudaTag cuda, kokkosTag kokkos, build]])
    (s.legionDefines tag cuda kokkos build type) true false true ["cmake".toList, "..".toList]

/-- The configurations `build_legion.py` builds, by its arguments (lines 125-135). -/
def selected (argv : List Text) : List (Bool × Bool) :=
  let l := [(false, false), (false, true), (true, false), (true, true)]
  let l := if argv.contains "--force-cuda".toList then l.filter fun c => c.1 else l
  let l := if argv.contains "--skip-cuda".toList then l.filter fun c => !c.1 else l
  let l := if argv.contains "--force-kokkos".toList then l.filter fun c => c.2 else l
  if argv.contains "--skip-kokkos".toList then l.filter fun c => !c.2 else l

/-- `main` of `build_legion.py` (124-144). -/
def buildLegion (E : Ext) (s : Site) (branches types : List (List Text)) (argv : List Text) : Py Unit := do
  chdir s.scratch
  forEach branches fun row => do
    let (tag, branch, commit) ← unpack3 row
    let dir ← cloneLegion E tag branch commit
    let d ← getCwd
    changeDirectory (d ++ [dir]) do
      forEach types fun row => do
        let (build, type) ← unpack2 row
        forEach (selected argv) fun c => cmakeLegion E s tag c.1 c.2 build type

/-! ## refresh_cmake.py -/

/-- `legion_solvers_build_path` (`refresh_cmake.py` 24-33). -/
def Site.buildPath (s : Site) (tag : Text) (cuda kokkos : Bool) (build : Text) : Path :=
  s.scratch ++ ["LegionSolversBuild".toList, underscoreJoin [tag, cudaTag cuda, kokkosTag kokkos, build]]

/-- The CMake variables for the library (`refresh_cmake.py` 50-65). -/
def Site.solverDefines (s : Site) (tag : Text) (cuda kokkos : Bool) (build type : Text) : List (Text × Val) :=
  [("CMAKE_CXX_STANDARD".toList, .num 17), ("CMAKE_CXX_FLAGS".toList, .text "-Wall -Wextra -pedantic -Wfatal-errors".toList),
    ("CMAKE_BUILD_TYPE".toList, .text type),
    ("Legion_DIR".toList, .text (showPath (s.legionPath tag cuda kokkos build ++ ["share".toList, "Legion".toList, "cmake".toList])))] ++
  if kokkos then [("Kokkos_DIR".toList, .text (showPath (if cuda then s.kokkosCuda else s.kokkosNoCuda)))] else []

/-- `main` of `refresh_cmake.py` (36-73). -/
def refresh (E : Ext) (s : Site) (branches types : List (List Text)) : Py Unit :=
  forEach branches fun row => do
    let (tag, _, _) ← unpack3 row
    forEach types fun row => do
      let (build, type) ← unpack2 row
      forEach [false, true] fun cuda =>
        forEach [false, true] fun kokkos => do
          if ← isDir (s.legionPath tag cuda kokkos build) then do
            removeDirectory (s.buildPath tag cuda kokkos build)
            let d ← getCwd
            cmake E s.cores (s.buildPath tag cuda kokkos build) (s.solverDefines tag cuda kokkos build type) false false false
              ["cmake".toList, showPath d]
          else pure ()

/-! ## make_all.py -/

/-- `main` of `make_all.py` (10-21). -/
def makeAll (E : Ext) (s : Site) (branches types : List (List Text)) : Py Unit :=
  forEach branches fun row => do
    let (tag, _, _) ← unpack3 row
    forEach types fun row => do
      let (build, _) ← unpack2 row
      forEach [false, true] fun cuda =>
        forEach [false, true] fun kokkos => do
          if ← isDir (s.buildPath tag cuda kokkos build) then
            changeDirectory (s.buildPath tag cuda kokkos build) (run E ["cmake".toList, "--build".toList, ".".toList, "--parallel".toList])
          else pure ()

/-! ## test_all.py -/

/-- `main` of `test_all.py` (305-319); `tests` are the seven tests, whatever they do. -/
def testAll (s : Site) (branches types : List (List Text)) (tests : Bool → Bool → Py Unit) : Py Unit :=
  forEach branches fun row => do
    let (tag, _) ← unpack2 row
    forEach types fun row => do
      let (build, _) ← unpack2 row
      forEach [false, true] fun cuda =>
        forEach [false, true] fun kokkos =>
          changeDirectory (s.buildPath tag cuda kokkos build) (tests cuda kokkos)

/-! ## bench_all.py -/

/-- The directory of the benchmark program in `bench_all.py` (296) and `bench_all_ls.py` (300). -/
def benchDir : Path := ["p".toList, "gpfs1".toList, "zhang70".toList, "LegionSolversBuild".toList, "cr_cuda_nokokkos_release".toList]

end Verif.Build
