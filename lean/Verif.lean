import Verif.Props.Dominator
import Verif.Props.FastNDS
import Verif.Props.ENS
import Verif.Props.OtherNDS
import Verif.Props.NonDominatedSorting
import Verif.Props.Sorting
import Verif.Props.Crowding
import Verif.Props.Survival
import Verif.Props.Duplicate
import Verif.Props.Evaluator
import Verif.Props.Termination
import Verif.Props.Algorithm
import Verif.Props.Individual
import Verif.Props.Optimum
import Verif.Props.Replacement
import Verif.Props.Repair
import Verif.Props.Permutation
import Verif.Props.MaskCrossover
import Verif.Props.Population
import Verif.Props.Mating
import Verif.Props.Selection
import Verif.Props.RefDirs
import Verif.Props.Simplex
import Verif.Props.DESelection
import Verif.Props.Normalization
import Verif.Props.IdealNadir
import Verif.Props.Decomposition
import Verif.Props.NSGA3
import Verif.Props.Parameters
import Verif.Props.Roulette
import Verif.Props.SBX
import Verif.Props.RealMutation
import Verif.Props.DEOperators
import Verif.Props.Problem
import Verif.Props.ConstraintProblems
import Verif.Props.Sampling
import Verif.Props.Mixed
import Verif.Props.Indicators
import Verif.Props.Spacing
import Verif.Props.Hypervolume
import Verif.Props.Epsilon
import Verif.Props.DecisionMaking
import Verif.Props.MOEAD
import Verif.Props.Univariate
import Verif.Props.SingleObjective
import Verif.Props.LocalSearch
import Verif.Props.Swarm
import Verif.Props.Clearing
import Verif.Props.FrontSurvivals
import Verif.Props.RVEA
import Verif.Props.SingleProblems
import Verif.Props.ZDT
import Verif.Props.DTLZ
import Verif.Props.DTLZ57
import Verif.Props.CDTLZ
import Verif.Props.MultiProblems
import Verif.Props.CTAEA
import Verif.Props.CTAEADiversity
import Verif.Props.RNSGA2
import Verif.Props.RNSGA3
import Verif.Props.StochasticRanking
import Verif.Props.Pruning
import Verif.Props.Observers
import Verif.Props.ProblemWrappers
import Verif.Props.Direct
import Verif.Props.Brkga
import Verif.Props.G3PCX
import Verif.Props.GDE3
import Verif.Props.Mopso
import Verif.Props.Elitism
import Verif.Props.Cmopso
import Verif.Props.Dnsga2
import Verif.Props.Flowshop
import Verif.Props.TSP
import Verif.Props.Knapsack
import Verif.Props.Tolerance
import Verif.Props.Parallel
import Verif.Props.Minimize
import Verif.Props.Initialization
import Verif.Props.Control
import Verif.Props.Hyper
import Verif.Props.OmniOptimizer
import Verif.Props.ConstrRank
import Verif.Props.Pinsga2
import Verif.Model.DF
import Verif.Props.DF
import Verif.Props.DFSurface
import Verif.Model.EnergyDirs
import Verif.Props.EnergyDirs
import Verif.Props.EnergySolve
import Verif.Props.DirFactories
import Verif.Props.EnergyGrad
import Verif.Model.Incremental
import Verif.Props.Incremental
import Verif.Model.Compiled
import Verif.Props.Compiled
import Verif.Props.BestOrder
import Verif.Model.CompiledPruning
import Verif.Props.CompiledPruning
import Verif.Props.CompiledMnn
import Verif.Model.Distances
import Verif.Props.Distances
import Verif.Model.Display
import Verif.Props.Display
import Verif.Model.Gradient
import Verif.Props.Gradient
import Verif.Model.AgeScore
import Verif.Model.Misc
import Verif.Props.AgeScore
import Verif.Props.Misc
import Verif.Model.RunningMetric
import Verif.Props.RunningMetric
import Verif.Model.MW
import Verif.Props.MW
import Verif.Props.MWSphere
import Verif.Props.MWScaled
import Verif.Model.DCDTLZ
import Verif.Props.DCDTLZ
import Verif.Spec.Constrained
import Verif.Model.GProblems
import Verif.Props.GProblems
import Verif.Model.WFG
import Verif.Props.WFGMaps
import Verif.Props.WFGReduce
import Verif.Props.WFGFront
import Verif.Props.WFG
import Verif.Props.WFGSets
import Verif.Model.Kktpm
import Verif.Props.Kktpm
import Verif.Model.RMetric
import Verif.Props.RMetric
import Verif.Model.IndicatorTermination
import Verif.Props.IndicatorTermination
import Verif.Model.Kgb
import Verif.Props.Kgb
import Verif.Model.DASCMOP
import Verif.Props.DASCMOP
import Verif.Model.CTP
import Verif.Props.CTP
import Verif.Spec.AskTell
import Verif.Model.Cmaes
import Verif.Props.Cmaes
import Verif.Model.Loopwise
import Verif.Props.Loopwise
import Verif.Model.IntegerOps
import Verif.Props.IntegerOps
import Verif.Spec.Zcat
import Verif.Model.Zcat
import Verif.Props.ZcatDist
import Verif.Props.ZcatShape
import Verif.Props.ZcatFront
import Verif.Props.ZcatRecords
import Verif.Props.Zcat
import Verif.Props.ZcatRange
import Verif.Model.Truss
import Verif.Props.Truss
import Verif.Model.Gta
import Verif.Props.Gta
import Verif.Spec.Plots
import Verif.Model.Plots
import Verif.Props.Plots
import Verif.Props.PlotOrder
import Verif.Model.Scipy
import Verif.Props.Scipy
import Verif.Model.Beam
import Verif.Props.Beam
import Verif.Model.GMore
import Verif.Props.GMore
import Verif.Props.GRest
import Verif.Spec.Engineering
import Verif.Model.Engineering
import Verif.Props.Engineering
import Verif.Spec.Remote
import Verif.Model.Remote
import Verif.Props.Remote
import Verif.Spec.DirQuality
import Verif.Model.DirQuality
import Verif.Props.GramSchmidt
import Verif.Props.DirQuality
import Verif.Spec.MoTable
import Verif.Model.MoTable
import Verif.Props.MoTable
import Verif.Spec.CrowdEntropy
import Verif.Model.CrowdEntropy
import Verif.Props.CrowdEntropy
import Verif.Spec.Optuna
import Verif.Model.Optuna
import Verif.Props.Optuna
import Verif.Model.Migd
import Verif.Props.Migd
import Verif.Model.RankOptimum
import Verif.Props.RankOptimum
import Verif.Model.GaRun
import Verif.Props.GaRun
import Verif.Model.GaReal
import Verif.Props.GaReal
import Verif.Model.RefOptimum
import Verif.Props.RefOptimum
import Verif.Model.RunArchive
import Verif.Props.RunArchive
import Verif.Spec.Reproducible
import Verif.Model.Reproducible
import Verif.Lemmas.Reproducible
import Verif.Props.Reproducible
import Verif.Model.AdaptiveWrapper
import Verif.Props.AdaptiveWrapper
import Verif.Model.Nrbo
import Verif.Props.Nrbo
import Verif.Model.SwarmRun
import Verif.Props.SwarmRun
import Verif.Spec.Ctp
import Verif.Props.G8
import Verif.Props.G5
import Verif.Props.G20
import Verif.Props.WFGWeights
import Verif.Props.ZcatRegions
import Verif.Props.EnergyStop
import Verif.Props.SmsBounds
import Verif.Props.Gaps
import Verif.Props.RveaTimes
import Verif.Props.DeParents
import Verif.Props.SchwefelSet
import Verif.Props.SingleFormulas
import Verif.Props.G21
import Verif.Model.NmTermination
import Verif.Props.NmTermination
import Verif.Model.Cec
import Verif.Props.Cec
import Verif.Model.MW12
import Verif.Props.MW12
import Verif.Model.GtaDb
import Verif.Props.GtaDb
import Verif.Model.MWServer
import Verif.Props.MWServer
import Verif.Model.MW14
import Verif.Props.MW14
import Verif.Model.MW13
import Verif.Props.MW13
import Verif.Model.G16
import Verif.Props.G16
import Verif.Props.G22
import Verif.Props.G2
