import Verif.Conformance.Evolution
import Verif.Conformance.History
import Verif.Conformance.Logs
import Verif.Conformance.Reports
import Verif.Conformance.Specs
import Verif.Lemmas.Cases
import Verif.Lemmas.DESerial
import Verif.Lemmas.DESystem
import Verif.Lemmas.History
import Verif.Lemmas.HistoryRows
import Verif.Lemmas.LogText
import Verif.Lemmas.PopHistory
import Verif.Lemmas.Population
import Verif.Lemmas.PyFloat
import Verif.Lemmas.RunSystem
import Verif.Lemmas.Sampler
import Verif.Model.Abort
import Verif.Model.AbortRun
import Verif.Model.Analysis
import Verif.Model.Arrays
import Verif.Model.Challenge
import Verif.Model.ChallengeRounded
import Verif.Model.ClosestPair
import Verif.Model.ConstraintSets
import Verif.Model.Constraints
import Verif.Model.Container
import Verif.Model.Correlation
import Verif.Model.DESystem
import Verif.Model.Difference
import Verif.Model.DifferenceRounded
import Verif.Model.Dims
import Verif.Model.EnterKey
import Verif.Model.ExamplePlots
import Verif.Model.ExampleRun
import Verif.Model.ExecRunner
import Verif.Model.ExecText
import Verif.Model.FManager
import Verif.Model.FRounded
import Verif.Model.FanControl
import Verif.Model.FigureRounded
import Verif.Model.Figures
import Verif.Model.Format
import Verif.Model.Generation
import Verif.Model.GpMain
import Verif.Model.GpSingle
import Verif.Model.HelpText
import Verif.Model.History
import Verif.Model.HistoryLock
import Verif.Model.IdentityKey
import Verif.Model.Ieee754
import Verif.Model.Image
import Verif.Model.Individual
import Verif.Model.Items
import Verif.Model.Kinds
import Verif.Model.Lgg
import Verif.Model.LggMain
import Verif.Model.LggNames
import Verif.Model.LineFit
import Verif.Model.LineFitRounded
import Verif.Model.Locks
import Verif.Model.LogNumbers
import Verif.Model.LogText
import Verif.Model.MachineRandom
import Verif.Model.MessageText
import Verif.Model.Options
import Verif.Model.PairRounded
import Verif.Model.PairSampling
import Verif.Model.ParamBounds
import Verif.Model.ParamManager
import Verif.Model.Picklable
import Verif.Model.PopHistory
import Verif.Model.Population
import Verif.Model.Progress
import Verif.Model.PyFloat
import Verif.Model.QueryRounded
import Verif.Model.QueueRunner
import Verif.Model.RaisingConstraint
import Verif.Model.RankRounded
import Verif.Model.RatioRounded
import Verif.Model.Registering
import Verif.Model.RelationsRounded
import Verif.Model.Replacement
import Verif.Model.ReplacementRounded
import Verif.Model.Reporter
import Verif.Model.Resume
import Verif.Model.Rounding
import Verif.Model.RunLoop
import Verif.Model.RunSystem
import Verif.Model.Sampler
import Verif.Model.SamplerRounded
import Verif.Model.SaveLoad
import Verif.Model.Scripts
import Verif.Model.Session
import Verif.Model.Setup
import Verif.Model.Single
import Verif.Model.SpecNames
import Verif.Model.Specs
import Verif.Model.StatusQuo
import Verif.Model.Summary
import Verif.Model.Thermistor
import Verif.Model.Thermometer
import Verif.Model.TimeData
import Verif.Model.UnityRounded
import Verif.Model.Util
import Verif.Model.Voc
import Verif.Model.Waiting
import Verif.Model.WideBounds
import Verif.Props.Abort
import Verif.Props.AbortRun
import Verif.Props.Analysis
import Verif.Props.Arrays
import Verif.Props.BestKept
import Verif.Props.Challenge
import Verif.Props.ChallengeRounded
import Verif.Props.ClosestPair
import Verif.Props.ConstraintSets
import Verif.Props.Constraints
import Verif.Props.Container
import Verif.Props.Correlation
import Verif.Props.CrossoverProb
import Verif.Props.DERecord
import Verif.Props.DESystem
import Verif.Props.Difference
import Verif.Props.DifferenceRounded
import Verif.Props.Dims
import Verif.Props.EarlyAbort
import Verif.Props.EarlyAbortConverse
import Verif.Props.EnterKey
import Verif.Props.Eviction
import Verif.Props.ExamplePlots
import Verif.Props.ExampleRun
import Verif.Props.ExecRunner
import Verif.Props.ExecText
import Verif.Props.FManager
import Verif.Props.FManagerDoc
import Verif.Props.FManagerUp
import Verif.Props.FRounded
import Verif.Props.FailedEvaluations
import Verif.Props.FanControl
import Verif.Props.FigureRounded
import Verif.Props.Figures
import Verif.Props.Format
import Verif.Props.Generation
import Verif.Props.GivingUp
import Verif.Props.GpMain
import Verif.Props.GpSingle
import Verif.Props.HelpText
import Verif.Props.History
import Verif.Props.HistoryLock
import Verif.Props.HistoryPurged
import Verif.Props.HistorySave
import Verif.Props.IdentityKey
import Verif.Props.Ieee754
import Verif.Props.Image
import Verif.Props.Individual
import Verif.Props.Invariance
import Verif.Props.Items
import Verif.Props.Kinds
import Verif.Props.Lgg
import Verif.Props.LggMain
import Verif.Props.LggNames
import Verif.Props.LineFit
import Verif.Props.LineFitRounded
import Verif.Props.Locks
import Verif.Props.LocksAfterEnd
import Verif.Props.LogNumbers
import Verif.Props.LogText
import Verif.Props.MachineRandom
import Verif.Props.MessageText
import Verif.Props.Options
import Verif.Props.PairRounded
import Verif.Props.PairSampling
import Verif.Props.ParamBounds
import Verif.Props.ParamManager
import Verif.Props.Picklable
import Verif.Props.PopHistory
import Verif.Props.Population
import Verif.Props.Progress
import Verif.Props.ProgressChars
import Verif.Props.QueryRounded
import Verif.Props.QueueRunner
import Verif.Props.RaisingConstraint
import Verif.Props.RankRounded
import Verif.Props.RatioRounded
import Verif.Props.Registering
import Verif.Props.RelationsRounded
import Verif.Props.Replacement
import Verif.Props.ReplacementRounded
import Verif.Props.Reporter
import Verif.Props.ReporterCallbacks
import Verif.Props.Resume
import Verif.Props.Rounding
import Verif.Props.RowChoice
import Verif.Props.RunLoop
import Verif.Props.RunSystem
import Verif.Props.Sampler
import Verif.Props.SamplerBias
import Verif.Props.SamplerCount
import Verif.Props.SamplerEnds
import Verif.Props.SamplerProb
import Verif.Props.SamplerRounded
import Verif.Props.SaveLoad
import Verif.Props.Scripts
import Verif.Props.Search
import Verif.Props.Session
import Verif.Props.Setup
import Verif.Props.SetupWork
import Verif.Props.Single
import Verif.Props.SpecNames
import Verif.Props.Specs
import Verif.Props.SpecsComments
import Verif.Props.SpecsDoc
import Verif.Props.SpecsErrors
import Verif.Props.SpecsValues
import Verif.Props.StatusQuo
import Verif.Props.Summary
import Verif.Props.Thermistor
import Verif.Props.Thermometer
import Verif.Props.TimeData
import Verif.Props.Trial
import Verif.Props.TrueScores
import Verif.Props.UnityRounded
import Verif.Props.Util
import Verif.Props.Voc
import Verif.Props.Waiting
import Verif.Props.Whole
import Verif.Props.WideBounds
import Verif.Spec.History
import Verif.Spec.Limit
import Verif.Spec.Ranking
import Verif.Spec.Sequential
