import Verif.Props.TaskGraph
import Verif.Props.Conjugate
import Verif.Props.Chains
import Verif.Props.Cliques
import Verif.Props.Htm
import Verif.Props.Actions
import Verif.Props.Dag
import Verif.Props.SupState
import Verif.Props.Supportive
import Verif.Props.Pomdp
import Verif.Props.GraphPolicy
import Verif.Props.PolicyBounds
import Verif.Props.HtmPomdp
import Verif.Props.BringNext
import Verif.Props.Belief
import Verif.Props.Pomcp
import Verif.Props.PomcpRunner
import Verif.Props.PomcpUct
import Verif.Props.Evaluation
import Verif.Props.Export
import Verif.Props.Experiment
import Verif.Props.Async
import Verif.Props.AsyncNode
import Verif.Props.AsyncStop
import Verif.Props.AsyncRace
import Verif.Props.RepeatPool
import Verif.Props.PolicySeq
import Verif.Props.HoldRelease
import Verif.Props.Tower
import Verif.Props.Snap
import Verif.Props.ClosedLoop
import Verif.Props.Returns
import Verif.Props.Hierarchy
import Verif.Props.SupExperiment
import Verif.Props.Launchers
import Verif.Props.Orders
import Verif.Props.HtmHorizon
import Verif.Props.Sampling
import Verif.Props.SupOrders
import Verif.Props.Explore
import Verif.Props.Converge
import Verif.Props.Trajectory
import Verif.Props.TreeShape
import Verif.Props.ExportFull
import Verif.Props.SupKernel
import Verif.Props.Mean
import Verif.Props.EvalMean
import Verif.Props.Term
import Verif.Props.Solve
import Verif.Props.SupParticles
import Verif.Props.PolicyValue
import Verif.Props.Names
import Verif.Props.SolverFile
import Verif.Props.NodeSearch
import Verif.Props.SnapDemo
import Verif.Props.ResultFiles
import Verif.Tests.HtmPomdp
import Verif.Tests.BringNext
import Verif.Tests.Tasks
import Verif.Tests.Pomdp
import Verif.Tests.Supportive
import Verif.Tests.Snap
import Verif.Tests.Pomcp
import Verif.Tests.RepeatPool
import Verif.Model.FloatBelief
import Verif.Spec.FloatBelief
import Verif.Proof.FloatBelief
import Verif.Props.FloatBelief
import Verif.Spec.Visits
import Verif.Proof.Visits
import Verif.Props.Visits
import Verif.Model.Figures
import Verif.Spec.Figures
import Verif.Proof.Figures
import Verif.Props.Figures
import Verif.Model.VisitRun
import Verif.Spec.VisitRun
import Verif.Proof.VisitRun
import Verif.Props.VisitRun
import Verif.Model.PolicyPage
import Verif.Spec.PolicyPage
import Verif.Proof.PolicyPage
import Verif.Props.PolicyPage
import Verif.Model.TrajPage
import Verif.Spec.TrajPage
import Verif.Proof.TrajPage
import Verif.Props.TrajPage
import Verif.Model.PomcpPage
import Verif.Spec.PomcpPage
import Verif.Proof.PomcpPage
import Verif.Props.PomcpPage
import Verif.Model.HtmPage
import Verif.Spec.HtmPage
import Verif.Proof.HtmPage
import Verif.Props.HtmPage
import Verif.Model.HeatMap
import Verif.Spec.HeatMap
import Verif.Proof.HeatMap
import Verif.Props.HeatMap
import Verif.Model.VecState
import Verif.Spec.VecState
import Verif.Proof.VecState
import Verif.Props.VecState
import Verif.Spec.PrefLine
import Verif.Proof.PrefLine
import Verif.Props.PrefLine
import Verif.Spec.HoldWait
import Verif.Proof.HoldWait
import Verif.Props.HoldWait
import Verif.Spec.StartTrees
import Verif.Proof.StartTrees
import Verif.Props.StartTrees
import Verif.Model.Script
import Verif.Spec.Script
import Verif.Proof.Script
import Verif.Props.Script
import Verif.Model.SearchScript
import Verif.Spec.SearchScript
import Verif.Proof.SearchScript
import Verif.Props.SearchScript
import Verif.Model.FloatValue
import Verif.Spec.FloatValue
import Verif.Proof.FloatValue
import Verif.Props.FloatValue
import Verif.Props.SupDetails
import Verif.Spec.Accuracy
import Verif.Proof.Accuracy
import Verif.Props.Accuracy
import Verif.Model.TermPlot
import Verif.Spec.TermPlot
import Verif.Props.TermPlot
import Verif.Model.TowerScript
import Verif.Props.TowerScript
import Verif.Model.ScriptPlots
import Verif.Props.ScriptPlots
import Verif.Model.PlotAction
import Verif.Spec.PlotAction
import Verif.Props.PlotAction
import Verif.Model.LostRunner
import Verif.Spec.LostRunner
import Verif.Props.LostRunner
import Verif.Model.JsonTask
import Verif.Spec.JsonTask
import Verif.Props.JsonTask
import Verif.Spec.ConditionActions
import Verif.Props.ConditionActions
import Verif.Props.Histories
import Verif.Spec.CopyProba
import Verif.Props.CopyProba
import Verif.Spec.HoldWords
import Verif.Props.HoldWords
import Verif.Props.FigureNames
import Verif.Spec.ScriptInputs
import Verif.Props.ScriptInputs
import Verif.Props.ParamTruth
import Verif.Props.DumpNames
import Verif.Props.DumpRows
import Verif.Props.HtmAccepted
import Verif.Props.FileProbabilities
