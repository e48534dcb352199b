import Verif.Grid.Props
import Verif.Stencil.Props
import Verif.Laplacian.Props
import Verif.Gpu.Props
import Verif.Tasks.Props
import Verif.Runtime.Sched
import Verif.Vector.Props
import Verif.Matrix.Props
import Verif.Planner.Props
import Verif.Solver.Examples
import Verif.Solver.Determinism
import Verif.Solver.DeterminismBound
import Verif.Solver.ClientExamples
import Verif.Solver.ClientResidual
import Verif.Solver.ClientResidualExamples
import Verif.Ownership.Examples
import Verif.Machine.Props
import Verif.Print.Props
import Verif.EndToEnd.Examples
import Verif.Blas.Props
import Verif.Launch.Handles
import Verif.Launch.Steps
import Verif.Solver.RateExamples
import Verif.EndToEnd.RateExamples
import Verif.Solver.IndependenceExamples
import Verif.Rounding.Examples
import Verif.Rounding.GMRESExamples
import Verif.Device.Examples
import Verif.Cuda.Props
import Verif.Runtime.Log
import Verif.Programs.PrintExamples
import Verif.Programs.Examples
import Verif.Solver.SymmetryExamples
import Verif.Solver.FoldExamples
import Verif.Special.Examples
import Verif.Solver.Invariant
import Verif.Special.ClassesExamples
import Verif.Programs.BenchmarkExamples
import Verif.Programs.Partitions
import Verif.Programs.KrylovExamples
import Verif.Programs.ComparisonExamples
import Verif.Machine.StencilModel
import Verif.Machine.StencilProps
import Verif.Machine.StencilBulk
import Verif.Machine.StencilBuild
import Verif.Machine.StencilOverflow
import Verif.Machine.StencilProduct
import Verif.Interactive.Model
import Verif.Interactive.Spec
import Verif.Interactive.Props
import Verif.Interactive.Loop
import Verif.Interactive.Client
import Verif.Interactive.Test01
import Verif.Interactive.Rate
import Verif.EndToEnd.Loop
import Verif.EndToEnd.LoopExamples
import Verif.Interactive.Examples
import Verif.Interactive.WatchModel
import Verif.Interactive.Watch
import Verif.Interactive.WatchRun
import Verif.Interactive.WatchClient
import Verif.Interactive.WatchExact
import Verif.Interactive.WatchProps
import Verif.Interactive.WatchExamples
import Verif.Driver.Text
import Verif.Driver.Model
import Verif.Driver.Props
import Verif.Driver.Programs
import Verif.Driver.Examples
import Verif.App.Model
import Verif.App.Foot
import Verif.App.Props
import Verif.App.Examples
import Verif.Release.Model
import Verif.Release.Walk
import Verif.Release.Same
import Verif.Release.Second
import Verif.Release.Props
import Verif.Release.Examples
import Verif.Startup.Model
import Verif.Startup.Names
import Verif.Startup.Props
import Verif.Startup.Report
import Verif.Startup.Launch
import Verif.Startup.Examples
import Verif.Units.Param
import Verif.Units.Order
import Verif.Units.Spec
import Verif.Units.Pair
import Verif.Units.Weights
import Verif.Units.Props
import Verif.Units.Instances
import Verif.Units.Examples
import Verif.Guess.Unique
import Verif.Guess.Props
import Verif.Guess.Again
import Verif.Guess.Examples
import Verif.Build.Refresh
import Verif.Build.Legion
import Verif.Build.Install
import Verif.Build.Examples
import Verif.Replay.Examples
import Verif.Sweep.Examples
import Verif.Sweep.Comparison
import Verif.Restart.Examples
import Verif.Restart.InteractiveExamples
import Verif.Failure.Examples
import Verif.View.Examples
import Verif.Random.Examples
import Verif.Build.Dependencies
