import Verif.Props.Records
import Verif.Props.Control
import Verif.Props.Restart
import Verif.Props.Resume
import Verif.Props.Pass
import Verif.Props.Problem
import Verif.Examples.Problem
import Verif.Props.Domain
import Verif.Props.NoRepeat
import Verif.Props.Distinct
import Verif.Examples.Domain
import Verif.Props.Settings
import Verif.Props.AllFixed
import Verif.Props.InitNodes
import Verif.Props.Samples
import Verif.Props.Target
import Verif.Props.Scaling
import Verif.Props.Rbf
import Verif.Model.Seed
import Verif.Props.Seed
import Verif.Lemmas.RbfPD
import Verif.Props.RbfSolvable
import Verif.Props.Select
import Verif.Props.Candidate
import Verif.Props.Rounding
import Verif.Props.Improving
import Verif.Props.Genetic
import Verif.Props.AuxObj
import Verif.Examples.Genetic
import Verif.Props.Bump
import Verif.Props.Erase
import Verif.Props.Persist
import Verif.Examples.Persist
import Verif.Examples.Witness
import Verif.Examples.Serial
import Verif.Props.Parallel
import Verif.Props.ParallelEnd
import Verif.Props.ParallelDomain
import Verif.Props.ParallelRefine
import Verif.Props.ParallelReuse
import Verif.Props.ParallelPhase
import Verif.Props.ParallelNoisy
import Verif.Props.Pyomo
import Verif.Props.SolverStart
import Verif.Examples.NoisyUnique
import Verif.Props.Cli
import Verif.Props.CliOptions
import Verif.Props.Nan
import Verif.Examples.Parallel
import Verif.Examples.ParallelPhase
import Verif.Examples.ParallelNoisy
import Verif.Props.ParallelRecords
import Verif.Examples.ParallelRecords
import Verif.Model.Steps
import Verif.Lemmas.SubBox
import Verif.Spec.Steps
import Verif.Props.Steps
import Verif.Props.EndToEnd
import Verif.Examples.Steps
import Verif.Props.ParallelStop
import Verif.Props.ParallelOrder
import Verif.Props.ParallelFreq
import Verif.Props.ParallelMoves
import Verif.Examples.ParallelStop
import Verif.Examples.ParallelOrder
import Verif.Spec.HonestLog
import Verif.Props.HonestLog
import Verif.Model.UserBB
import Verif.Props.UserBB
import Verif.Model.Enlarged
import Verif.Props.Enlarged
import Verif.Examples.UserBB
import Verif.Model.Underdet
import Verif.Props.Underdet
import Verif.Examples.Underdet
import Verif.Model.BumpSign
import Verif.Props.BumpSign
import Verif.Props.ParallelNoRepeat
import Verif.Props.ParallelInterrupt
import Verif.Examples.ParallelNoRepeat
import Verif.Examples.ParallelInterrupt
import Verif.Model.Interrupt
import Verif.Spec.Interrupt
import Verif.Lemmas.Interrupt
import Verif.Props.Interrupt
import Verif.Examples.Interrupt
import Verif.Model.SchoenData
import Verif.Model.TestFunctions
import Verif.Spec.TestFunctions
import Verif.Props.TestFunctions
import Verif.Props.TestFunctionsInt
import Verif.Props.TestFunctionsMore
import Verif.Props.TestFunctionsEnum
import Verif.Props.TestFunctionsLog
import Verif.Props.TestFunctionsTrig
import Verif.Props.TestFunctionsSchoen
import Verif.Props.TestFunctionsPoly
import Verif.Props.TestFunctionsExp
import Verif.Props.TestFunctionsRest
import Verif.Model.AutoModel
import Verif.Spec.AutoModel
import Verif.Props.AutoModel
import Verif.Examples.AutoModel
import Verif.Model.Memory
import Verif.Spec.Memory
import Verif.Lemmas.Memory
import Verif.Props.Memory
import Verif.Props.Discarded
import Verif.Examples.Discarded
import Verif.Props.ParallelDiscarded
import Verif.Examples.ParallelDiscarded
import Verif.Props.Distances
import Verif.Props.TestFunctionsEx8
import Verif.Props.TestFunctionsLeast
import Verif.Props.Sound
import Verif.Examples.Sound
import Verif.Props.TestInterface
import Verif.Props.ParallelSound
import Verif.Examples.ParallelSound
import Verif.Props.ParallelSteps
import Verif.Examples.ParallelSteps
import Verif.Props.SoundNoisy
import Verif.Examples.SoundNoisy
import Verif.Lemmas.ErrSource
import Verif.Props.StopNoisy
import Verif.Examples.StopNoisy
import Verif.Model.CliMain
import Verif.Props.CliMain
import Verif.Props.ParallelIntervals
import Verif.Props.ParallelStopNoisy
import Verif.Examples.ParallelStopNoisy
import Verif.Examples.ParallelIndices
import Verif.Props.ParallelRefineNoisy
import Verif.Examples.ParallelRefineNoisy
import Verif.Props.ParallelBounds
import Verif.Props.PassNoisy
import Verif.Examples.PassNoisy
import Verif.Props.Print
import Verif.Examples.Coverage
import Verif.Examples.NodeBound
import Verif.Examples.CoverSound
import Verif.Props.RoundedRun
import Verif.Examples.Rounded
