import Verif.Props.Arguments
import Verif.Props.Attempts
import Verif.Props.Benchmarks
import Verif.Props.BestValue
import Verif.Props.BoundLockedCases
import Verif.Props.BoundLockedPeriodicCases
import Verif.Props.BoundLockedRequestsCases
import Verif.Props.CallersGraph
import Verif.Props.CallersGraphCases
import Verif.Props.ChangedLimits
import Verif.Props.ChangedLimitsLP
import Verif.Props.ClarkeWright
import Verif.Props.Constructor
import Verif.Props.CostVectors
import Verif.Props.Credit
import Verif.Props.CreditCases
import Verif.Props.Cspy
import Verif.Props.CspyAllCases
import Verif.Props.CspyBack
import Verif.Props.CspyBoundCases
import Verif.Props.CspySearch
import Verif.Props.Defaults
import Verif.Props.Dive
import Verif.Props.DiveCases
import Verif.Props.DiveChoice
import Verif.Props.DiveHyper
import Verif.Props.EmptyRoute
import Verif.Props.EndToEnd
import Verif.Props.EndToEndAnyLP
import Verif.Props.EndToEndBound
import Verif.Props.EndToEndBoundCases
import Verif.Props.EndToEndBoundCspy
import Verif.Props.EndToEndBoundDive
import Verif.Props.EndToEndBoundLocked
import Verif.Props.EndToEndBoundLockedPeriodic
import Verif.Props.EndToEndBoundLockedRequests
import Verif.Props.EndToEndBoundPeriodic
import Verif.Props.EndToEndBoundPeriodicCases
import Verif.Props.EndToEndBoundPeriodicCspy
import Verif.Props.EndToEndBoundPeriodicRequests
import Verif.Props.EndToEndBoundRequests
import Verif.Props.EndToEndCases
import Verif.Props.EndToEndCollectLP
import Verif.Props.EndToEndDive
import Verif.Props.EndToEndDiveLP
import Verif.Props.EndToEndDuration
import Verif.Props.EndToEndDurationBeside
import Verif.Props.EndToEndDurationCases
import Verif.Props.EndToEndDurationLocked
import Verif.Props.EndToEndGap
import Verif.Props.EndToEndLP
import Verif.Props.EndToEndLocked
import Verif.Props.EndToEndLockedDive
import Verif.Props.EndToEndLockedPeriodic
import Verif.Props.EndToEndLockedRequests
import Verif.Props.EndToEndOptions
import Verif.Props.EndToEndPeriodic
import Verif.Props.EndToEndPeriodicDive
import Verif.Props.EndToEndPeriodicVariants
import Verif.Props.EndToEndRequests
import Verif.Props.EndToEndVariants
import Verif.Props.EndToEndWindowsLP
import Verif.Props.Feasibility
import Verif.Props.Greedy
import Verif.Props.GreedyChoice
import Verif.Props.GreedyPricing
import Verif.Props.HeuristicOnly
import Verif.Props.Hyper
import Verif.Props.HyperRel
import Verif.Props.HyperRun
import Verif.Props.HyperScores
import Verif.Props.InitialRoutes
import Verif.Props.InitialSolution
import Verif.Props.LockedCases
import Verif.Props.LockedLPCases
import Verif.Props.Locking
import Verif.Props.Master
import Verif.Props.MasterCases
import Verif.Props.MasterFeasible
import Verif.Props.Pricing
import Verif.Props.PricingGoods
import Verif.Props.PricingLP
import Verif.Props.Prune
import Verif.Props.PruneBoth
import Verif.Props.Reports
import Verif.Props.RequestCheck
import Verif.Props.Resolve
import Verif.Props.ResolveCases
import Verif.Props.RunLoads
import Verif.Props.RunReports
import Verif.Props.Savings
import Verif.Props.SavingsCases
import Verif.Props.Schedule
import Verif.Props.ScheduleReport
import Verif.Props.Solve
import Verif.Props.SolveCases
import Verif.Props.Stops
import Verif.Props.StrategyNames
import Verif.Props.Termination
import Verif.Props.TerminationDive
import Verif.Props.TerminationLP
import Verif.Props.TerminationNegative
import Verif.Props.TerminationSpan
import Verif.Props.TerminationTimed
import Verif.Props.TerminationValue
import Verif.Props.Threshold
import Verif.Props.ThresholdCases
import Verif.Props.ThresholdLocked
import Verif.Props.TimeChecks
import Verif.Props.TimeChecksCases
import Verif.Props.TimeChecksLocked
import Verif.Props.TimeLimit
import Verif.Props.TimeLimitCases

/-! Axioms used by every property theorem (expected: at most propext, Classical.choice, Quot.sound). -/

#print axioms Vrpy.C44_accepts_exactly
#print axioms Vrpy.C44_error_kinds
#print axioms Vrpy.C44_zero_and_none_mean_unlimited
#print axioms Vrpy.Solve.C79_search
#print axioms Vrpy.C79_widening
#print axioms Vrpy.C79_widening_counterexample
#print axioms Vrpy.Solve.C15_skipped
#print axioms Vrpy.Solve.C79_round
#print axioms Vrpy.Benchmarks.C82_solomon_graph
#print axioms Vrpy.Benchmarks.C82_no_depot
#print axioms Vrpy.Benchmarks.C82_solomon_problem
#print axioms Vrpy.Benchmarks.C82_rounding
#print axioms Vrpy.Benchmarks.C82_times
#print axioms Vrpy.Benchmarks.C82_solomon_solve
#print axioms Vrpy.Benchmarks.C82_number_of_arcs
#print axioms Vrpy.Benchmarks.C82_augerat_graph
#print axioms Vrpy.Benchmarks.C82_augerat_problem
#print axioms Vrpy.Benchmarks.C82_augerat_solve
#print axioms Vrpy.Benchmarks.C82_no_service_counterexample
#print axioms Vrpy.C26_best_value
#print axioms Vrpy.C26_value_defined
#print axioms Vrpy.Master.C26_objective
#print axioms Vrpy.Master.C26_value_is_objective_partial
#print axioms Vrpy.Master.C26_span_partial
#print axioms Vrpy.C26_mixed_fleet_counterexample
#print axioms Vrpy.C27_reported_loads
#print axioms Vrpy.C77_same_problem_partial
#print axioms Vrpy.C77_accepted_partial
#print axioms Vrpy.C77_capacity_counterexample
#print axioms Vrpy.C77_fixed_costs_counterexample
#print axioms Vrpy.C77_empty_route_counterexample
#print axioms Vrpy.C77_preassigned_counterexample
#print axioms Vrpy.C77_use_all_counterexample
#print axioms Vrpy.C77_time_windows_counterexample
#print axioms Vrpy.C37_changed_limits_partial
#print axioms Vrpy.C37_lp_partial
#print axioms Vrpy.C37_duration_partial
#print axioms Vrpy.C07_clarke_wright_partition
#print axioms Vrpy.C08_clarke_wright_capacity_stops
#print axioms Vrpy.C09_clarke_wright_duration_partial
#print axioms Vrpy.C10_clarke_wright_value
#print axioms Vrpy.C10_not_worse_than_round_trips_partial
#print axioms Vrpy.C09_asymmetric_counterexample
#print axioms Vrpy.C09_service_counterexample
#print axioms Vrpy.C10_negative_saving_counterexample
#print axioms Vrpy.C01_constructor_completes
#print axioms Vrpy.C02_constructor_rejects_exactly
#print axioms Vrpy.C45_cost_per_type
#print axioms Vrpy.C46_fixed_cost_once
#print axioms Vrpy.C46_empty_route_free
#print axioms Vrpy.Solve.C74_labels
#print axioms Vrpy.Solve.C74_labels_run
#print axioms Vrpy.Solve.C74_distribution
#print axioms Vrpy.Solve.C74_credit_partial
#print axioms Vrpy.Solve.C43_run_partial
#print axioms Vrpy.Solve.C43_solve_partial
#print axioms Vrpy.Solve.C74_credit_counterexample
#print axioms Vrpy.C19_arrival_times
#print axioms Vrpy.C19_on_time_partial
#print axioms Vrpy.C19_accepted_on_time_partial
#print axioms Vrpy.C19_prune_start
#print axioms Vrpy.C19_within_limits_partial
#print axioms Vrpy.C20_goods
#print axioms Vrpy.C20_goods_of_limits
#print axioms Vrpy.C21_no_column
#print axioms Vrpy.C21_columns_partial
#print axioms Vrpy.C22_length_limit_partial
#print axioms Vrpy.C22_excludes
#print axioms Vrpy.C19_start_counterexample
#print axioms Vrpy.C19_duration_counterexample
#print axioms Vrpy.C21_service_counterexample
#print axioms Vrpy.C22_counterexample
#print axioms Vrpy.C22_service_counterexample
#print axioms Vrpy.C83_backward_time
#print axioms Vrpy.C83_legs_and_load
#print axioms Vrpy.C83_on_time_partial
#print axioms Vrpy.C83_goods_partial
#print axioms Vrpy.C83_wait_counterexample
#print axioms Vrpy.C83_flag_counterexample
#print axioms Vrpy.C83_goods_counterexample
#print axioms Vrpy.C73_bound_counterexample
#print axioms Vrpy.C73_mixed_fleet_counterexample
#print axioms Vrpy.C73_greedy_counterexample
#print axioms Vrpy.C72_two_searches
#print axioms Vrpy.C72_spared
#print axioms Vrpy.C73_no_route_left_partial
#print axioms Vrpy.Solve.C73_lower_bound_partial
#print axioms Vrpy.C47_defaults
#print axioms Vrpy.C48_sink_window
#print axioms Vrpy.C48_lower_above_upper_example
#print axioms Vrpy.Master.C53_covered_partial
#print axioms Vrpy.Master.C53_twice_counterexample
#print axioms Vrpy.Master.C53_fractional_counterexample
#print axioms Vrpy.Master.C53_missed_counterexample
#print axioms Vrpy.Master.C75_rounding_counterexample
#print axioms Vrpy.Master.C75_choice
#print axioms Vrpy.Solve.C75_run
#print axioms Vrpy.Solve.C80_dive
#print axioms Vrpy.C58_empty_route
#print axioms Vrpy.C55_plan_partial
#print axioms Vrpy.C84_routes
#print axioms Vrpy.C84_duration
#print axioms Vrpy.C84_windows
#print axioms Vrpy.C27_run_any_lp_partial
#print axioms Vrpy.C27_run_any_windows_partial
#print axioms Vrpy.C70_lower_bound_partial
#print axioms Vrpy.C70_gap_partial
#print axioms Vrpy.C70_cspy_partial
#print axioms Vrpy.C70_gap_dive_partial
#print axioms Vrpy.C70_gap_dive_collect_partial
#print axioms Vrpy.C70_locked_partial
#print axioms Vrpy.C70_locked_cspy_partial
#print axioms Vrpy.C70_locked_periodic_partial
#print axioms Vrpy.C70_locked_periodic_requests_partial
#print axioms Vrpy.C70_locked_periodic_cspy_partial
#print axioms Vrpy.C70_locked_requests_partial
#print axioms Vrpy.Master.C54_weak_duality_periodic
#print axioms Vrpy.Solve.C34_horizon_partial
#print axioms Vrpy.C70_periodic_partial
#print axioms Vrpy.Solve.C73_horizon_partial
#print axioms Vrpy.C70_periodic_cspy_partial
#print axioms Vrpy.C70_periodic_requests_partial
#print axioms Vrpy.C70_requests_partial
#print axioms Vrpy.C70_gap_requests_partial
#print axioms Vrpy.C55_lp_counterexample
#print axioms Vrpy.C61_lp_untimed_partial
#print axioms Vrpy.C62_collect_lp_partial
#print axioms Vrpy.C53_dive_partial
#print axioms Vrpy.C53_dive_variants_partial
#print axioms Vrpy.C53_dive_windows_lp_partial
#print axioms Vrpy.C53_dive_requests_partial
#print axioms Vrpy.C60_dive_partial
#print axioms Vrpy.C61_dive_partial
#print axioms Vrpy.C62_dive_partial
#print axioms Vrpy.C63_dive_partial
#print axioms Vrpy.C53_run_counterexample
#print axioms Vrpy.C53_dive_lp_partial
#print axioms Vrpy.C53_dive_collect_lp_partial
#print axioms Vrpy.C61_dive_lp_partial
#print axioms Vrpy.C62_dive_collect_lp_partial
#print axioms Vrpy.C62_capacitated_dive_lp_partial
#print axioms Vrpy.C27_run_dive_lp_partial
#print axioms Vrpy.C62_capacitated_partial
#print axioms Vrpy.C62_capacitated_dive_partial
#print axioms Vrpy.C62_locked_capacitated_partial
#print axioms Vrpy.C62_service_counterexample
#print axioms Vrpy.C62_greedy_counterexample
#print axioms Vrpy.C62_requests_partial
#print axioms Vrpy.C62_locked_partial
#print axioms Vrpy.C62_locked_requests_partial
#print axioms Vrpy.C62_locked_counterexample
#print axioms Vrpy.C70_gap_collect_partial
#print axioms Vrpy.C70_gap_windows_partial
#print axioms Vrpy.C55_lp_partial
#print axioms Vrpy.C59_terminates_lp_partial
#print axioms Vrpy.C68_plan_partial
#print axioms Vrpy.C68_lp_partial
#print axioms Vrpy.C68_variants_partial
#print axioms Vrpy.C68_windows_lp_partial
#print axioms Vrpy.C68_collect_lp_partial
#print axioms Vrpy.C68_all_locked_partial
#print axioms Vrpy.C68_each_once
#print axioms Vrpy.C68_dive_partial
#print axioms Vrpy.C68_dive_lp_partial
#print axioms Vrpy.C68_dive_variants_partial
#print axioms Vrpy.C68_dive_windows_lp_partial
#print axioms Vrpy.C68_dive_collect_lp_partial
#print axioms Vrpy.C68_periodic_partial
#print axioms Vrpy.C68_periodic_variants_partial
#print axioms Vrpy.C68_periodic_requests_partial
#print axioms Vrpy.C66_locked_counterexample
#print axioms Vrpy.C68_frequency_counterexample
#print axioms Vrpy.C68_requests_partial
#print axioms Vrpy.C68_dive_requests_partial
#print axioms Vrpy.C68_order_counterexample
#print axioms Vrpy.C68_lone_delivery_counterexample
#print axioms Vrpy.C66_periodic_partial
#print axioms Vrpy.C66_visits_counterexample
#print axioms Vrpy.C66_dropped_counterexample
#print axioms Vrpy.C66_schedule_counterexample
#print axioms Vrpy.C66_dive_partial
#print axioms Vrpy.C66_dive_variants_partial
#print axioms Vrpy.C66_dive_requests_partial
#print axioms Vrpy.C66_dive_counterexample
#print axioms Vrpy.C66_lp_partial
#print axioms Vrpy.C66_variants_partial
#print axioms Vrpy.C60_periodic_partial
#print axioms Vrpy.C66_requests_partial
#print axioms Vrpy.C63_requests_partial
#print axioms Vrpy.C63_fleet_counterexample
#print axioms Vrpy.C63_stops_counterexample
#print axioms Vrpy.C63_amounts_counterexample
#print axioms Vrpy.C63_shared_counterexample
#print axioms Vrpy.C64_service_counterexample
#print axioms Vrpy.C60_time_windows_partial
#print axioms Vrpy.C61_collection_partial
#print axioms Vrpy.C62_duration_partial
#print axioms Vrpy.C60_order_counterexample
#print axioms Vrpy.C61_collect_counterexample
#print axioms Vrpy.C62_counterexample
#print axioms Vrpy.C60_lp_partial
#print axioms Vrpy.C61_lp_partial
#print axioms Vrpy.C62_lp_partial
#print axioms Vrpy.C60_zero_time_counterexample
#print axioms Vrpy.C49_feasibility_check
#print axioms Vrpy.C49_solve_passes
#print axioms Vrpy.C11_greedy_terminates
#print axioms Vrpy.C11_greedy_feasible
#print axioms Vrpy.C11_greedy_covers
#print axioms Vrpy.C71_choices
#print axioms Vrpy.C71_reachable
#print axioms Vrpy.C12_feasible_partial
#print axioms Vrpy.C12_duration_partial
#print axioms Vrpy.C12_runs_terminate
#print axioms Vrpy.C13_negative_reduced_cost_partial
#print axioms Vrpy.C12_service_counterexample
#print axioms Vrpy.C12_last_leg_counterexample
#print axioms Vrpy.C13_last_leg_counterexample
#print axioms Vrpy.C65_heuristic_partial
#print axioms Vrpy.C65_refused
#print axioms Vrpy.C65_fleet_counterexample
#print axioms Vrpy.C65_locked_counterexample
#print axioms Vrpy.Hyper.C42_theta
#print axioms Vrpy.Hyper.C42_scaling
#print axioms Vrpy.Hyper.C42_untried
#print axioms Vrpy.Hyper.C42_selection
#print axioms Vrpy.Hyper.C42_explores
#print axioms Vrpy.Hyper.C43_no_error_partial
#print axioms Vrpy.Hyper.C43_no_active_counterexample
#print axioms Vrpy.Hyper.C43_no_column_counterexample
#print axioms Vrpy.Hyper.C43_no_init_counterexample
#print axioms Vrpy.Rel.C81_first_update_counterexample
#print axioms Vrpy.Rel.C81_average_counterexample
#print axioms Vrpy.Rel.C81_reward
#print axioms Vrpy.Rel.C81_bounds_partial
#print axioms Vrpy.Rel.C81_mean_partial
#print axioms Vrpy.Rel.C81_acceptance
#print axioms Vrpy.Solve.C87_run_partial
#print axioms Vrpy.Solve.C87_asked
#print axioms Vrpy.Hyper.C87_scores
#print axioms Vrpy.C38_accepts_exactly
#print axioms Vrpy.C38_conversion_partial
#print axioms Vrpy.C38_initialize_iff
#print axioms Vrpy.C38_mixed_fleet_counterexample
#print axioms Vrpy.C56_initial_routes
#print axioms Vrpy.C56_requests
#print axioms Vrpy.C56_initial_columns
#print axioms Vrpy.C68_penalty_counterexample
#print axioms Vrpy.C68_heavy_counterexample
#print axioms Vrpy.C68_twice_counterexample
#print axioms Vrpy.C68_fleet_counterexample
#print axioms Vrpy.C68_stops_counterexample
#print axioms Vrpy.C28_complete_routes_verbatim
#print axioms Vrpy.C29_partial_routes_free
#print axioms Vrpy.C29_reported_costs
#print axioms Vrpy.Master.C23_each_customer_once
#print axioms Vrpy.Master.C24_fleet
#print axioms Vrpy.Master.C25_elementary
#print axioms Vrpy.Master.C32_visits_partial
#print axioms Vrpy.Master.C32_optimal_partial
#print axioms Vrpy.Master.C52_unusable
#print axioms Vrpy.Master.C52_makespan_partial
#print axioms Vrpy.C25_marked
#print axioms Vrpy.Master.C54_weak_duality
#print axioms Vrpy.Master.C54_lower_bound
#print axioms Vrpy.Master.C32_counterexample
#print axioms Vrpy.Master.C52_counterexample
#print axioms Vrpy.Master.C52_error
#print axioms Vrpy.Master.C57_relaxed_feasible
#print axioms Vrpy.Master.C57_final_feasible
#print axioms Vrpy.Master.C57_start
#print axioms Vrpy.Master.C57_use_all_counterexample
#print axioms Vrpy.C14_reduced_costs
#print axioms Vrpy.C14_reduced_costs_global_span
#print axioms Vrpy.C14_defined
#print axioms Vrpy.C15_subgraph
#print axioms Vrpy.C15_best_edges_1
#print axioms Vrpy.C15_best_edges_2
#print axioms Vrpy.C15_best_paths
#print axioms Vrpy.C15_searched
#print axioms Vrpy.C15_best_paths_exist
#print axioms Vrpy.C15_best_paths_division
#print axioms Vrpy.C51_optimal_partial
#print axioms Vrpy.C16_feasible_points
#print axioms Vrpy.C16_columns
#print axioms Vrpy.C16_no_column
#print axioms Vrpy.C17_optimal_points_partial
#print axioms Vrpy.C17_optimal_value
#print axioms Vrpy.C18_routes_feasible_partial
#print axioms Vrpy.C18_finds_route_partial
#print axioms Vrpy.C50_pickup_delivery
#print axioms Vrpy.C50_routes_feasible
#print axioms Vrpy.C51_goods_partial
#print axioms Vrpy.C51_routes_feasible
#print axioms Vrpy.C17_zero_cycle_counterexample
#print axioms Vrpy.C51_cycle_counterexample
#print axioms Vrpy.C17_direct_trip_counterexample
#print axioms Vrpy.C18_time_windows_counterexample
#print axioms Vrpy.C05_capacity_pruning_sound
#print axioms Vrpy.C05_capacity_pruning_exact
#print axioms Vrpy.C06_tw_pruning_sound_partial
#print axioms Vrpy.C06_tw_pruning_only_restricts
#print axioms Vrpy.C06_no_triangle_counterexample
#print axioms Vrpy.C06_both_partial
#print axioms Vrpy.C05_requests_sound
#print axioms Vrpy.C39_arrival_times
#print axioms Vrpy.C39_arrival_monotone
#print axioms Vrpy.C39_departure_times
#print axioms Vrpy.C41_duration
#print axioms Vrpy.C41_duration_vs_clock
#print axioms Vrpy.C40_route_load
#print axioms Vrpy.C40_node_load
#print axioms Vrpy.C40_node_load_collection_partial
#print axioms Vrpy.C40_collection_counterexample
#print axioms Vrpy.C64_request_check_partial
#print axioms Vrpy.C64_triangle_counterexample
#print axioms Vrpy.C36_same_problem_partial
#print axioms Vrpy.C36_same_columns_partial
#print axioms Vrpy.C36_columns_kept_partial
#print axioms Vrpy.C36_fixed_costs_counterexample
#print axioms Vrpy.C36_periodic_counterexample
#print axioms Vrpy.C36_time_windows_counterexample
#print axioms Vrpy.C36_preassignments_counterexample
#print axioms Vrpy.C37_num_stops_counterexample
#print axioms Vrpy.C37_duration_counterexample
#print axioms Vrpy.C37_raised_capacity_counterexample
#print axioms Vrpy.C43_second_call_counterexample
#print axioms Vrpy.C27_run_cspy_partial
#print axioms Vrpy.C27_run_lp_partial
#print axioms Vrpy.C27_run_windows_partial
#print axioms Vrpy.C41_duration_computed
#print axioms Vrpy.C40_node_load_computed
#print axioms Vrpy.C85_reports
#print axioms Vrpy.C85_capacitated
#print axioms Vrpy.C85_variants
#print axioms Vrpy.C85_windows_lp
#print axioms Vrpy.C85_requests
#print axioms Vrpy.C85_locked
#print axioms Vrpy.C85_heuristic
#print axioms Vrpy.C76_by_savings
#print axioms Vrpy.C76_best_saving
#print axioms Vrpy.C76_weights
#print axioms Vrpy.C76_heuristic_only
#print axioms Vrpy.Schedule.C30_schedule_valid
#print axioms Vrpy.Schedule.C30_feasible_iff
#print axioms Vrpy.Schedule.C31_spread_exists
#print axioms Vrpy.Schedule.C31_balanced
#print axioms Vrpy.Schedule.C30_formulate
#print axioms Vrpy.C86_schedule
#print axioms Vrpy.C86_fleet_counterexample
#print axioms Vrpy.Solve.C33_bookkeeping
#print axioms Vrpy.Solve.C33_run
#print axioms Vrpy.Solve.C33_initial
#print axioms Vrpy.Solve.C34_exact_failed_partial
#print axioms Vrpy.Solve.C34_lower_bound_partial
#print axioms Vrpy.Solve.C35_max_iter
#print axioms Vrpy.Solve.C35_terminates
#print axioms Vrpy.Solve.C35_time
#print axioms Vrpy.Solve.C35_stagnation_partial
#print axioms Vrpy.Solve.C35_hyper_stagnation
#print axioms Vrpy.Solve.C34_hyper_counterexample
#print axioms Vrpy.C04_knapsack_exact
#print axioms Vrpy.C04_one_item_counterexample
#print axioms Vrpy.C03_stops_bound_sound
#print axioms Vrpy.C03_bound_has_slack
#print axioms Vrpy.Solve.C79_strategy
#print axioms Vrpy.Solve.C59_loop_cspy
#print axioms Vrpy.Solve.C59_loop_lp_partial
#print axioms Vrpy.C59_terminates_cspy
#print axioms Vrpy.Solve.C59_loop_dive_lp_partial
#print axioms Vrpy.C59_dive_lp_partial
#print axioms Vrpy.C59_dive_variants_lp_partial
#print axioms Vrpy.C59_locked_lp_partial
#print axioms Vrpy.C59_locked_variants_lp_partial
#print axioms Vrpy.C59_variants_lp_partial
#print axioms Vrpy.C59_negative_counterexample
#print axioms Vrpy.Solve.C59_loop_span
#print axioms Vrpy.C59_terminates_span
#print axioms Vrpy.C59_requests
#print axioms Vrpy.C59_windows
#print axioms Vrpy.Solve.C59_loop_lp
#print axioms Vrpy.C59_terminates
#print axioms Vrpy.C78_threshold
#print axioms Vrpy.C78_average
#print axioms Vrpy.C78_statistics
#print axioms Vrpy.C78_no_route_left_partial
#print axioms Vrpy.C78_bound_partial
#print axioms Vrpy.C78_threshold_counterexample
#print axioms Vrpy.C78_locked_bound_partial
#print axioms Vrpy.C67_checks_exact
#print axioms Vrpy.C67_check_sound
#print axioms Vrpy.C67_checks_pass_partial
#print axioms Vrpy.C67_no_triangle_counterexample
#print axioms Vrpy.C67_source_counterexample
#print axioms Vrpy.C67_duration_counterexample
#print axioms Vrpy.C67_periodic_partial
#print axioms Vrpy.C67_requests_partial
#print axioms Vrpy.C67_locked_raises
#print axioms Vrpy.C67_partial_routes_partial
#print axioms Vrpy.C67_partial_routes_requests_partial
#print axioms Vrpy.TimeLimit.C69_remaining
#print axioms Vrpy.TimeLimit.C69_time_up
#print axioms Vrpy.TimeLimit.C69_lp_never_gives_up
#print axioms Vrpy.TimeLimit.C69_cspy_partial
#print axioms Vrpy.TimeLimit.C69_unlimited_counterexample
#print axioms Vrpy.TimeLimit.C69_negative_counterexample
#print axioms Vrpy.Solve.C69_not_early
#print axioms Vrpy.Solve.C69_overrun
#print axioms Vrpy.Solve.C69_loop
#print axioms Vrpy.Solve.C69_dive_goes_on
#print axioms Vrpy.C69_terminates
