import Verif.Spec
import Verif.Model.Basic
import Verif.Model.Benchmarks
import Verif.Model.Checks
import Verif.Model.ClarkeWright
import Verif.Model.Columns
import Verif.Model.Cspy
import Verif.Model.CspyBack
import Verif.Model.Dive
import Verif.Model.Greedy
import Verif.Model.GreedyPricing
import Verif.Model.Hyper
import Verif.Model.HyperRel
import Verif.Model.LP
import Verif.Model.Master
import Verif.Model.Object
import Verif.Model.ObjectReports
import Verif.Model.PreSolve
import Verif.Model.Preprocessing
import Verif.Model.Pricing
import Verif.Model.PricingLP
import Verif.Model.Prune
import Verif.Model.Reports
import Verif.Model.Schedule
import Verif.Model.Solve
import Verif.Model.Threshold
import Verif.Model.Time
import Verif.Proofs.Benchmarks
import Verif.Proofs.Brute
import Verif.Proofs.CallersGraph
import Verif.Proofs.Checks
import Verif.Proofs.ClarkeWright
import Verif.Proofs.Columns
import Verif.Proofs.CostVectors
import Verif.Proofs.Cspy
import Verif.Proofs.DiveRun
import Verif.Proofs.EndToEnd
import Verif.Proofs.ExactCspy
import Verif.Proofs.ExactPaths
import Verif.Proofs.ExampleWorld
import Verif.Proofs.Flow
import Verif.Proofs.GoodsCut
import Verif.Proofs.GoodsPoint
import Verif.Proofs.GoodsRoute
import Verif.Proofs.Greedy
import Verif.Proofs.GreedyPricing
import Verif.Proofs.Knapsack
import Verif.Proofs.Locking
import Verif.Proofs.LpAnyPoint
import Verif.Proofs.LpRoutes
import Verif.Proofs.LpRun
import Verif.Proofs.Master
import Verif.Proofs.MasterValue
import Verif.Proofs.Object
import Verif.Proofs.PreSolve
import Verif.Proofs.Pricing
import Verif.Proofs.PricingLP
import Verif.Proofs.PricingPoint
import Verif.Proofs.PricingVariants
import Verif.Proofs.Prune
import Verif.Proofs.Py
import Verif.Proofs.ReportData
import Verif.Proofs.Reports
import Verif.Proofs.Requests
import Verif.Proofs.Resolve
import Verif.Proofs.RouteSets
import Verif.Proofs.Routes
import Verif.Proofs.Schedule
import Verif.Proofs.Solve
import Verif.Proofs.Termination
import Verif.Proofs.UserData
import Verif.Proofs.Windows
import Verif.Props.Arguments
import Verif.Props.Attempts
import Verif.Props.Benchmarks
import Verif.Props.BestValue
import Verif.Props.BoundLockedCases
import Verif.Props.BoundLockedPeriodicCases
import Verif.Props.BoundLockedRequestsCases
import Verif.Props.CallersGraph
import Verif.Props.CallersGraphCases
import Verif.Props.ChangedLimits
import Verif.Props.ChangedLimitsLP
import Verif.Props.ClarkeWright
import Verif.Props.Constructor
import Verif.Props.CostVectors
import Verif.Props.Credit
import Verif.Props.CreditCases
import Verif.Props.Cspy
import Verif.Props.CspyAllCases
import Verif.Props.CspyBack
import Verif.Props.CspyBoundCases
import Verif.Props.CspySearch
import Verif.Props.Defaults
import Verif.Props.Dive
import Verif.Props.DiveCases
import Verif.Props.DiveChoice
import Verif.Props.DiveHyper
import Verif.Props.EmptyRoute
import Verif.Props.EndToEnd
import Verif.Props.EndToEndAnyLP
import Verif.Props.EndToEndBound
import Verif.Props.EndToEndBoundCases
import Verif.Props.EndToEndBoundCspy
import Verif.Props.EndToEndBoundDive
import Verif.Props.EndToEndBoundLocked
import Verif.Props.EndToEndBoundLockedPeriodic
import Verif.Props.EndToEndBoundLockedRequests
import Verif.Props.EndToEndBoundPeriodic
import Verif.Props.EndToEndBoundPeriodicCases
import Verif.Props.EndToEndBoundPeriodicCspy
import Verif.Props.EndToEndBoundPeriodicRequests
import Verif.Props.EndToEndBoundRequests
import Verif.Props.EndToEndCases
import Verif.Props.EndToEndCollectLP
import Verif.Props.EndToEndDive
import Verif.Props.EndToEndDiveLP
import Verif.Props.EndToEndDuration
import Verif.Props.EndToEndDurationBeside
import Verif.Props.EndToEndDurationCases
import Verif.Props.EndToEndDurationLocked
import Verif.Props.EndToEndGap
import Verif.Props.EndToEndLP
import Verif.Props.EndToEndLocked
import Verif.Props.EndToEndLockedDive
import Verif.Props.EndToEndLockedPeriodic
import Verif.Props.EndToEndLockedRequests
import Verif.Props.EndToEndOptions
import Verif.Props.EndToEndPeriodic
import Verif.Props.EndToEndPeriodicDive
import Verif.Props.EndToEndPeriodicVariants
import Verif.Props.EndToEndRequests
import Verif.Props.EndToEndVariants
import Verif.Props.EndToEndWindowsLP
import Verif.Props.Feasibility
import Verif.Props.Greedy
import Verif.Props.GreedyChoice
import Verif.Props.GreedyPricing
import Verif.Props.HeuristicOnly
import Verif.Props.Hyper
import Verif.Props.HyperRel
import Verif.Props.HyperRun
import Verif.Props.HyperScores
import Verif.Props.InitialRoutes
import Verif.Props.InitialSolution
import Verif.Props.LockedCases
import Verif.Props.LockedLPCases
import Verif.Props.Locking
import Verif.Props.Master
import Verif.Props.MasterCases
import Verif.Props.MasterFeasible
import Verif.Props.Pricing
import Verif.Props.PricingGoods
import Verif.Props.PricingLP
import Verif.Props.Prune
import Verif.Props.PruneBoth
import Verif.Props.Reports
import Verif.Props.RequestCheck
import Verif.Props.Resolve
import Verif.Props.ResolveCases
import Verif.Props.RunLoads
import Verif.Props.RunReports
import Verif.Props.Savings
import Verif.Props.SavingsCases
import Verif.Props.Schedule
import Verif.Props.ScheduleReport
import Verif.Props.Solve
import Verif.Props.SolveCases
import Verif.Props.Stops
import Verif.Props.StrategyNames
import Verif.Props.Termination
import Verif.Props.TerminationDive
import Verif.Props.TerminationLP
import Verif.Props.TerminationNegative
import Verif.Props.TerminationSpan
import Verif.Props.TerminationTimed
import Verif.Props.TerminationValue
import Verif.Props.Threshold
import Verif.Props.ThresholdCases
import Verif.Props.ThresholdLocked
import Verif.Props.TimeChecks
import Verif.Props.TimeChecksCases
import Verif.Props.TimeChecksLocked
import Verif.Props.TimeLimit
import Verif.Props.TimeLimitCases
import Verif.Axioms
