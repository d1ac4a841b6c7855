import Verif.Arr
import Verif.Model.CallArgs
import Verif.Model.Cnf
import Verif.Model.CommandLine
import Verif.Model.Degree
import Verif.Model.Demos
import Verif.Model.Equality
import Verif.Model.Filter
import Verif.Model.IndexInt
import Verif.Model.KcCall
import Verif.Model.KcIO
import Verif.Model.KcPost
import Verif.Model.KcRun
import Verif.Model.KcSummary
import Verif.Model.KcTeams
import Verif.Model.Knapsack
import Verif.Model.KsatCall
import Verif.Model.KsatConstraint
import Verif.Model.KsatGen
import Verif.Model.KsatIO
import Verif.Model.KsatMetrics
import Verif.Model.KsatPost
import Verif.Model.KsatRun
import Verif.Model.MinScan
import Verif.Model.Minisat
import Verif.Model.Npy
import Verif.Model.Oric
import Verif.Model.ProjectInequality
import Verif.Model.PyGetLoops
import Verif.Model.PyKc
import Verif.Model.PyKcCall
import Verif.Model.PyKsat
import Verif.Model.PyNp
import Verif.Model.PyTsp
import Verif.Model.PyTspSolve
import Verif.Model.RoundedKc
import Verif.Model.RoundedKsat
import Verif.Model.RoundedTsp
import Verif.Model.Samples
import Verif.Model.Subtour
import Verif.Model.TakeInt
import Verif.Model.TeamKnapsack
import Verif.Model.TeamTables
import Verif.Model.TestOracle
import Verif.Model.TestScripts
import Verif.Model.TestSum
import Verif.Model.TspCompare
import Verif.Model.TspIO
import Verif.Model.TspLoops
import Verif.Model.TspOut
import Verif.Model.TspPost
import Verif.Model.TspRun
import Verif.Model.TspSearchCalls
import Verif.Model.TspSolve
import Verif.Model.UnitDraws
import Verif.Model.UnitTests
import Verif.Num
import Verif.Proofs.Accuracy
import Verif.Proofs.Assignment
import Verif.Proofs.AssumeNum
import Verif.Proofs.AssumeRun
import Verif.Proofs.AssumeVar
import Verif.Proofs.Autarky
import Verif.Proofs.BigPair
import Verif.Proofs.BigPairCall
import Verif.Proofs.CallArgs
import Verif.Proofs.Cnf
import Verif.Proofs.CommandLine
import Verif.Proofs.Cover
import Verif.Proofs.CoverBound
import Verif.Proofs.Degree
import Verif.Proofs.Demos
import Verif.Proofs.Equality
import Verif.Proofs.Exact
import Verif.Proofs.ExactCuts
import Verif.Proofs.ExactCutsRun
import Verif.Proofs.ExactKc
import Verif.Proofs.ExactKcRun
import Verif.Proofs.ExactKcStages
import Verif.Proofs.ExactKsat
import Verif.Proofs.ExactKsatRun
import Verif.Proofs.ExactTsp
import Verif.Proofs.ExactTspCall
import Verif.Proofs.ExactTspInput
import Verif.Proofs.ExactTspRun
import Verif.Proofs.Factors
import Verif.Proofs.Farkas
import Verif.Proofs.FastSingle
import Verif.Proofs.Filter
import Verif.Proofs.FixedPoint
import Verif.Proofs.Forest
import Verif.Proofs.ForestLimits
import Verif.Proofs.Grid
import Verif.Proofs.Growth
import Verif.Proofs.GrowthCuts
import Verif.Proofs.Ieee
import Verif.Proofs.Incidence
import Verif.Proofs.IndexInt
import Verif.Proofs.InfBest
import Verif.Proofs.InfCuts
import Verif.Proofs.InfOptimal
import Verif.Proofs.InfRounds
import Verif.Proofs.InfRun
import Verif.Proofs.InfScan
import Verif.Proofs.InfSpread
import Verif.Proofs.KcBounds
import Verif.Proofs.KcCall
import Verif.Proofs.KcIO
import Verif.Proofs.KcMatch
import Verif.Proofs.KcOptimal
import Verif.Proofs.KcPost
import Verif.Proofs.KcResults
import Verif.Proofs.KcRun
import Verif.Proofs.KcSettled
import Verif.Proofs.KcStable
import Verif.Proofs.KcSummary
import Verif.Proofs.KcSym
import Verif.Proofs.KcTeams
import Verif.Proofs.KnapDefined
import Verif.Proofs.Knapsack
import Verif.Proofs.KnapsackOut
import Verif.Proofs.KnapsackTables
import Verif.Proofs.KsatCall
import Verif.Proofs.KsatConstraint
import Verif.Proofs.KsatGen
import Verif.Proofs.KsatIO
import Verif.Proofs.KsatLocal
import Verif.Proofs.KsatLocalCall
import Verif.Proofs.KsatMetrics
import Verif.Proofs.KsatPost
import Verif.Proofs.KsatRun
import Verif.Proofs.KsatSafe
import Verif.Proofs.KsatSearch
import Verif.Proofs.KsatSearchCall
import Verif.Proofs.KsatStable
import Verif.Proofs.KsatSym
import Verif.Proofs.Limit
import Verif.Proofs.LoopList
import Verif.Proofs.Loops
import Verif.Proofs.Marginal
import Verif.Proofs.MinScan
import Verif.Proofs.MinSum
import Verif.Proofs.Minisat
import Verif.Proofs.Npy
import Verif.Proofs.NpyFiles
import Verif.Proofs.Npz
import Verif.Proofs.OddRuns
import Verif.Proofs.OneCycle
import Verif.Proofs.Oric
import Verif.Proofs.Param
import Verif.Proofs.ParamCall
import Verif.Proofs.ParamKc
import Verif.Proofs.ParamKcCall
import Verif.Proofs.ParamKsat
import Verif.Proofs.ParamKsatCall
import Verif.Proofs.ParamSolve
import Verif.Proofs.ParamTsp
import Verif.Proofs.Potential
import Verif.Proofs.ProjectInequality
import Verif.Proofs.PyGetLoops
import Verif.Proofs.PyKc
import Verif.Proofs.PyKcCall
import Verif.Proofs.PyKcRun
import Verif.Proofs.PyKnapsack
import Verif.Proofs.PyKsat
import Verif.Proofs.PyNp
import Verif.Proofs.PyTsp
import Verif.Proofs.PyTspLoop
import Verif.Proofs.PyTspLoops
import Verif.Proofs.PyTspRun
import Verif.Proofs.PyTspSim
import Verif.Proofs.PyTspThin
import Verif.Proofs.Recurrence
import Verif.Proofs.Regular
import Verif.Proofs.Relaxation
import Verif.Proofs.Repeated
import Verif.Proofs.RepeatedFile
import Verif.Proofs.Runs
import Verif.Proofs.SavedFiles
import Verif.Proofs.SearchCalls
import Verif.Proofs.Subsets
import Verif.Proofs.Subtour
import Verif.Proofs.TakeInt
import Verif.Proofs.TeamKnapsack
import Verif.Proofs.TeamTables
import Verif.Proofs.TestFiles
import Verif.Proofs.TestOracle
import Verif.Proofs.TestScripts
import Verif.Proofs.TestSum
import Verif.Proofs.Transport
import Verif.Proofs.TspAnalysis
import Verif.Proofs.TspCall
import Verif.Proofs.TspChains
import Verif.Proofs.TspCover
import Verif.Proofs.TspExcess
import Verif.Proofs.TspFinish
import Verif.Proofs.TspIO
import Verif.Proofs.TspKOpt
import Verif.Proofs.TspKept
import Verif.Proofs.TspNamedRun
import Verif.Proofs.TspNames
import Verif.Proofs.TspNear
import Verif.Proofs.TspOptimal
import Verif.Proofs.TspOrder
import Verif.Proofs.TspOrderRun
import Verif.Proofs.TspOut
import Verif.Proofs.TspPost
import Verif.Proofs.TspPull
import Verif.Proofs.TspRate
import Verif.Proofs.TspRounds
import Verif.Proofs.TspRun
import Verif.Proofs.TspSafe
import Verif.Proofs.TspScale
import Verif.Proofs.TspSolve
import Verif.Proofs.TspStable
import Verif.Proofs.TspSymmetric
import Verif.Proofs.TspTotal
import Verif.Proofs.TspTour
import Verif.Proofs.TspTrace
import Verif.Proofs.UnitClauses
import Verif.Proofs.UnitDraws
import Verif.Proofs.UnitTests
import Verif.Proofs.Unmixed
import Verif.Proofs.UnmixedDamped
import Verif.Proofs.Zip
import Verif.Properties.Assume
import Verif.Properties.Autarky
import Verif.Properties.CallArgs
import Verif.Properties.Cnf
import Verif.Properties.CommandLine
import Verif.Properties.CommandRuns
import Verif.Properties.CostBracket
import Verif.Properties.Damping
import Verif.Properties.Demos
import Verif.Properties.Equality
import Verif.Properties.EvenRuns
import Verif.Properties.Forbidden
import Verif.Properties.ForbiddenPairs
import Verif.Properties.Growth
import Verif.Properties.GrowthCuts
import Verif.Properties.IndexInt
import Verif.Properties.KcBounds
import Verif.Properties.KcCall
import Verif.Properties.KcIO
import Verif.Properties.KcMatch
import Verif.Properties.KcMwmFactors
import Verif.Properties.KcOptimal
import Verif.Properties.KcPost
import Verif.Properties.KcResults
import Verif.Properties.KcRounding
import Verif.Properties.KcRun
import Verif.Properties.KcSummary
import Verif.Properties.KcSym
import Verif.Properties.KcTeams
import Verif.Properties.KnapDefined
import Verif.Properties.Knapsack
import Verif.Properties.KsatCall
import Verif.Properties.KsatClause
import Verif.Properties.KsatForest
import Verif.Properties.KsatGen
import Verif.Properties.KsatIO
import Verif.Properties.KsatLocal
import Verif.Properties.KsatMetrics
import Verif.Properties.KsatPost
import Verif.Properties.KsatRounding
import Verif.Properties.KsatRun
import Verif.Properties.KsatSafe
import Verif.Properties.KsatSearch
import Verif.Properties.KsatStable
import Verif.Properties.KsatSym
import Verif.Properties.Minisat
import Verif.Properties.Npy
import Verif.Properties.Npz
import Verif.Properties.OddCost
import Verif.Properties.OddRuns
import Verif.Properties.OneCycle
import Verif.Properties.PyAgree
import Verif.Properties.PyGetLoops
import Verif.Properties.PyKcCall
import Verif.Properties.PyTspSolve
import Verif.Properties.Recurrence
import Verif.Properties.Regular
import Verif.Properties.Relaxation
import Verif.Properties.Repeated
import Verif.Properties.Samples
import Verif.Properties.SavedFiles
import Verif.Properties.SearchCalls
import Verif.Properties.SettledKc
import Verif.Properties.SettledKsat
import Verif.Properties.SettledTsp
import Verif.Properties.Single
import Verif.Properties.SingleCosts
import Verif.Properties.SingleExact
import Verif.Properties.SingleKc
import Verif.Properties.SingleRun
import Verif.Properties.SingleTsp
import Verif.Properties.TakeInt
import Verif.Properties.TeamKnapsack
import Verif.Properties.TeamTables
import Verif.Properties.TestOracle
import Verif.Properties.TestScripts
import Verif.Properties.TestSum
import Verif.Properties.TspCall
import Verif.Properties.TspCompare
import Verif.Properties.TspCost
import Verif.Properties.TspCover
import Verif.Properties.TspFactors
import Verif.Properties.TspIO
import Verif.Properties.TspKOpt
import Verif.Properties.TspLoops
import Verif.Properties.TspNames
import Verif.Properties.TspNear
import Verif.Properties.TspOrder
import Verif.Properties.TspOut
import Verif.Properties.TspPost
import Verif.Properties.TspRounding
import Verif.Properties.TspRounds
import Verif.Properties.TspRun
import Verif.Properties.TspSafe
import Verif.Properties.TspScale
import Verif.Properties.TspSolve
import Verif.Properties.TspSymmetric
import Verif.Properties.UnitClauses
import Verif.Properties.UnitDraws
import Verif.Properties.UnitTests
import Verif.Properties.Unmixed
import Verif.Properties.UnmixedDamped
import Verif.Properties.UnmixedSingle
import Verif.Spec.Assignment
import Verif.Spec.Assume
import Verif.Spec.Autarky
import Verif.Spec.CallArgs
import Verif.Spec.Clause
import Verif.Spec.CommandLine
import Verif.Spec.Cover
import Verif.Spec.Damping
import Verif.Spec.Dimacs
import Verif.Spec.Forbidden
import Verif.Spec.ForbiddenPairs
import Verif.Spec.Forest
import Verif.Spec.Formula
import Verif.Spec.Growth
import Verif.Spec.Ieee
import Verif.Spec.KcPost
import Verif.Spec.KcRun
import Verif.Spec.KcTables
import Verif.Spec.Knapsack
import Verif.Spec.KsatRun
import Verif.Spec.KsatSafe
import Verif.Spec.Locality
import Verif.Spec.Loops
import Verif.Spec.MinSum
import Verif.Spec.Npy
import Verif.Spec.Npz
import Verif.Spec.OneCycle
import Verif.Spec.Oric
import Verif.Spec.Plan
import Verif.Spec.Planted
import Verif.Spec.PyTsp
import Verif.Spec.PyTspSolve
import Verif.Spec.Region
import Verif.Spec.Relaxation
import Verif.Spec.Repeated
import Verif.Spec.Rounding
import Verif.Spec.Same
import Verif.Spec.SameFormula
import Verif.Spec.SamePlan
import Verif.Spec.Settled
import Verif.Spec.Solver
import Verif.Spec.Tables
import Verif.Spec.TakeInt
import Verif.Spec.Teams
import Verif.Spec.TestOracle
import Verif.Spec.TestScripts
import Verif.Spec.Tsp
import Verif.Spec.TspBound
import Verif.Spec.TspCall
import Verif.Spec.TspNames
import Verif.Spec.TspOrder
import Verif.Spec.TspPost
import Verif.Spec.TspRounds
import Verif.Spec.TspRun
import Verif.Spec.TspSafe
import Verif.Spec.TspSolve
import Verif.Spec.TspTables
import Verif.Spec.Units
import Verif.Spec.Unmixed
import Verif.Spec.Zip
