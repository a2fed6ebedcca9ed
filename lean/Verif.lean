import Verif.Props.IntegrateFixed
import Verif.Props.IntegrateControlled
import Verif.Props.LessWithSign
import Verif.Props.Observers
import Verif.Props.Mirror
import Verif.Props.Checker
import Verif.Props.ControlledGrid
import Verif.Props.Times
import Verif.Props.DenseAdaptive
import Verif.Props.DenseTimes
import Verif.Props.DenseNSteps
import Verif.Props.DenseConst
import Verif.Props.Iterator
import Verif.Props.IteratorDense
import Verif.Props.IteratorTimes
import Verif.Props.IterIntegrate
import Verif.Props.InPlace
import Verif.Props.GenericRk
import Verif.Props.Fsal
import Verif.Props.ControlledRk
import Verif.Props.FsalCtrl
import Verif.Props.StepAdjust
import Verif.Props.ErrorChecker
import Verif.Props.DenseRk
import Verif.Props.DenseFsal
import Verif.Props.DenseSteps
import Verif.Props.DenseInterp
import Verif.Props.Multistep
import Verif.Props.MultistepWitness
import Verif.Props.MultistepRun
import Verif.Props.AdamsOrder
import Verif.Props.Symplectic
import Verif.Props.Verlet
import Verif.Props.Algebra
import Verif.Props.Parallel
import Verif.Props.Split
import Verif.Props.Resizer
import Verif.Props.Rosenbrock
import Verif.Props.RosenbrockDense
import Verif.Props.RosenbrockOrder
import Verif.Props.RosenbrockStable
import Verif.Props.RosenbrockWitness
import Verif.Props.IteratorGrid
import Verif.Spec.Extrapolation
import Verif.Lemmas.Neville
import Verif.Lemmas.Extrapolation
import Verif.Lemmas.GraggLinear
import Verif.Lemmas.Trapezoid
import Verif.Props.Extrapolation
import Verif.Spec.Order
import Verif.Lemmas.BSeriesForm
import Verif.Lemmas.BSeriesTree
import Verif.Lemmas.BSeriesOrder
import Verif.Lemmas.BSeriesCheck
import Verif.Lemmas.OrderTables
import Verif.Lemmas.StageValues
import Verif.Lemmas.MidpointOrder
import Verif.Lemmas.GraggWeights
import Verif.Props.Order
import Verif.Props.ExtrapolationOrder
import Verif.Props.DenseOrder
import Verif.Spec.Relational
import Verif.Lemmas.Relational
import Verif.Props.Commute
import Verif.Props.Linear
import Verif.Model.AdaptiveAdams
import Verif.Spec.AdaptiveAdams
import Verif.Spec.ExtReal
import Verif.Lemmas.AdaptiveAdams
import Verif.Props.AdaptiveAdams
import Verif.Spec.AdamsPece
import Verif.Lemmas.AdamsIntegral
import Verif.Lemmas.AdamsTable
import Verif.Lemmas.AdamsPece
import Verif.Props.PidAdjust
import Verif.Props.PidAccept
import Verif.Props.PidHistory
import Verif.Props.RosenbrockError
import Verif.Model.BulirschStoer
import Verif.Spec.BulirschStoer
import Verif.Lemmas.BulirschStoer
import Verif.Lemmas.BulirschStoerStep
import Verif.Lemmas.BulirschStoerSize
import Verif.Props.BulirschStoer
import Verif.Props.BulirschStoerSize
import Verif.Props.BulirschStoerRetry
import Verif.Props.BulirschStoerWitness
import Verif.Model.BulirschStoerDense
import Verif.Spec.BulirschStoerDense
import Verif.Spec.BulirschStoerPoly
import Verif.Lemmas.BulirschStoerDense
import Verif.Lemmas.BulirschStoerDensePrep
import Verif.Lemmas.BulirschStoerDenseStep
import Verif.Lemmas.BulirschStoerDenseTry
import Verif.Lemmas.BulirschStoerPoly
import Verif.Props.BulirschStoerDense
import Verif.Props.BulirschStoerPoly
import Verif.Props.BulirschStoerDenseSize
import Verif.Props.BulirschStoerDenseOrder
import Verif.Props.BulirschStoerDenseWitness
import Verif.Model.ImplicitEuler
import Verif.Spec.ImplicitEuler
import Verif.Props.ImplicitEuler
import Verif.Lemmas.AdamsStep
import Verif.Lemmas.AdamsKeeps
import Verif.Props.AdamsPece
import Verif.Props.AdamsPeceWitness
import Verif.Lemmas.UniformOrder
import Verif.Spec.Convergence
import Verif.Lemmas.RkRegular
import Verif.Lemmas.GridRun
import Verif.Lemmas.GlobalError
import Verif.Lemmas.RkBounded
import Verif.Props.Convergence
import Verif.Props.ConvergenceWitness
import Verif.Lemmas.ControlledRun
import Verif.Lemmas.ControlledGridRun
import Verif.Lemmas.ReliableRun
import Verif.Props.ControlledRun
import Verif.Props.ControlledRunWitness
import Verif.Spec.DenseRun
import Verif.Lemmas.DenseRunLoops
import Verif.Lemmas.DopriDenseRun
import Verif.Props.DenseRun
import Verif.Props.DenseRunWitness
import Verif.Model.FrontEnd
import Verif.Spec.FrontEnd
import Verif.Props.FrontEnd
import Verif.Props.IntegrateFront
import Verif.Lemmas.AdamsError
import Verif.Lemmas.AdamsGlobal
import Verif.Props.AdamsConvergence
import Verif.Lemmas.ExtrapolationInPlace
import Verif.Model.AdamsDefault
import Verif.Props.AdamsDefaultInit
import Verif.Lemmas.ExtrapolationRegular
import Verif.Props.ExtrapolationRun
import Verif.Model.Rounding
import Verif.Spec.Rounding
import Verif.Lemmas.RoundingCalculus
import Verif.Lemmas.RoundingRecipes
import Verif.Lemmas.RoundingGlobal
import Verif.Lemmas.RoundingRun
import Verif.Props.Rounding
import Verif.Props.RoundingWitness
import Verif.Lemmas.SplitOrder
import Verif.Lemmas.SplitTables
import Verif.Spec.SymplecticRun
import Verif.Lemmas.SplitRun
import Verif.Props.SymplecticOrder
import Verif.Spec.FloatTime
import Verif.Lemmas.FloatTime
import Verif.Lemmas.BinaryFormat
import Verif.Props.FloatTime
import Verif.Props.FloatTimeWitness
import Verif.Props.FloatTimes
import Verif.Spec.Rescale
import Verif.Lemmas.Rescale
import Verif.Props.Rescale
import Verif.Props.RescaleSteppers
import Verif.Spec.Conserved
import Verif.Lemmas.Conserved
import Verif.Props.Conserved
import Verif.Props.ConservedDense
import Verif.Props.ConservedAdams
import Verif.Props.ConservedBs
import Verif.Props.ConservedRos
import Verif.Model.External
import Verif.Lemmas.External
import Verif.Props.External
import Verif.Model.ImplicitEulerMtl4
import Verif.Props.ImplicitEulerMtl4
import Verif.Model.Gsl
import Verif.Spec.Gsl
import Verif.Props.Gsl
import Verif.Spec.Resume
import Verif.Lemmas.Resume
import Verif.Props.Resume
import Verif.Props.ResumeSteppers
import Verif.Spec.ImplicitEulerRun
import Verif.Lemmas.ImplicitEulerRun
import Verif.Lemmas.ImplicitEulerStep
import Verif.Lemmas.UblasNear
import Verif.Props.ImplicitEulerRun
import Verif.Props.ImplicitEulerUblas
import Verif.Spec.RosenbrockOrder
import Verif.Lemmas.RosSeries
import Verif.Lemmas.RosWeights
import Verif.Props.RosenbrockNonlinear
import Verif.Spec.Interval
import Verif.Lemmas.Interval
import Verif.Lemmas.IntervalControlled
import Verif.Lemmas.IntervalDense
import Verif.Lemmas.IntervalStep
import Verif.Lemmas.IntervalObjects
import Verif.Props.Interval
import Verif.Props.IntervalWitness
import Verif.Props.IntervalRos
import Verif.Props.IntervalRosDense
import Verif.Spec.RosDenseRun
import Verif.Spec.Calls
import Verif.Lemmas.Calls
import Verif.Lemmas.CallsRun
import Verif.Props.Calls
import Verif.Spec.Coordinates
import Verif.Lemmas.Live
import Verif.Props.Coordinates
import Verif.Spec.Crash
import Verif.Lemmas.Crash
import Verif.Props.Crash
import Verif.Spec.ImplicitStable
import Verif.Lemmas.StepTrace
import Verif.Props.ImplicitStable
import Verif.Spec.RunMaps
import Verif.Lemmas.RunMaps
import Verif.Props.HamiltonRun
import Verif.Spec.Variational
import Verif.Props.Variational
import Verif.Spec.RosenbrockRun
import Verif.Lemmas.RosFlow
import Verif.Props.RosenbrockRun
import Verif.Model.Mpi
import Verif.Spec.Mpi
import Verif.Lemmas.Mpi
import Verif.Lemmas.MpiRun
import Verif.Lemmas.MpiPlain
import Verif.Props.Mpi
import Verif.Lemmas.TryMem
import Verif.Spec.RosenbrockControl
import Verif.Lemmas.RosControl
import Verif.Props.RosenbrockControlRun
import Verif.Lemmas.BsReal
import Verif.Spec.BulirschStoerRun
import Verif.Lemmas.BsTryReal
import Verif.Lemmas.BsTryMem
import Verif.Props.BulirschStoerRun
import Verif.Lemmas.IntervalBs
import Verif.Props.IntervalBs
import Verif.Props.CallsBs
import Verif.Props.CallsDense
import Verif.Props.CallsRos
import Verif.Props.ReversedControl
import Verif.Props.ReversedAdams
import Verif.Props.ReversedFsal
import Verif.Props.ReversedRos
