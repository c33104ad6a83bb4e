[
{"property": "C01", "status": "proved", "theorems": ["C01_constructor_completes"], "note": "check_vrp in full; isinstance(G, DiGraph) is not modelled."},
{"property": "C02", "status": "proved", "theorems": ["C02_constructor_rejects_exactly"], "note": "A missing Sink raises NetworkXError, not the KeyError the code intends."},
{"property": "C03", "status": "proved", "theorems": ["C03_stops_bound_sound", "C03_bound_has_slack"], "note": "The bound is sound but counts Source and Sink as stops, so it is never tight (C03_bound_has_slack)."},
{"property": "C04", "status": "proved", "theorems": ["C04_knapsack_exact", "C04_one_item_counterexample"], "note": "Needs two items: for one item the row index -1 wraps around (counterexample proved)."},
{"property": "C05", "status": "proved", "theorems": ["C05_capacity_pruning_sound", "C05_capacity_pruning_exact", "C05_requests_sound"], "note": "remove_infeasible_arcs_capacities / _prune_graph. C05_requests_sound: the same with pickup and delivery, where demands are negative."},
{"property": "C06", "status": "partial", "theorems": ["C06_tw_pruning_sound_partial", "C06_both_partial", "C06_tw_pruning_only_restricts", "C06_no_triangle_counterexample"], "note": "Sound under the triangle inequality on times including service, also when arcs are removed for capacities before; without it the claim is false (counterexample proved)."},
{"property": "C07", "status": "proved", "theorems": ["C07_clarke_wright_partition"], "note": ""},
{"property": "C08", "status": "proved", "theorems": ["C08_clarke_wright_capacity_stops"], "note": "Hypothesis on single customers is what check_feasibility guarantees (C49)."},
{"property": "C09", "status": "partial", "theorems": ["C09_clarke_wright_duration_partial", "C09_asymmetric_counterexample", "C09_service_counterexample"], "note": "The claim is false for the code: asymmetric times and unchecked round trips violate it (both proved). Proved for symmetric times when round trips respect the limit."},
{"property": "C10", "status": "partial", "theorems": ["C10_clarke_wright_value", "C10_not_worse_than_round_trips_partial", "C10_negative_saving_counterexample"], "note": "Value proved in full. Never worse than round trips is false in general (counterexample proved), proved when no arc exceeds the detour through the depot."},
{"property": "C11", "status": "proved", "theorems": ["C11_greedy_terminates", "C11_greedy_feasible", "C11_greedy_covers"], "note": ""},
{"property": "C12", "status": "partial", "theorems": ["C12_feasible_partial", "C12_duration_partial", "C12_runs_terminate", "C12_service_counterexample", "C12_last_leg_counterexample"], "note": "Simple route, capacity and stop limit for all random choices. Missing: service times are ignored by the code and the last leg at the stop limit is not checked (counterexamples)."},
{"property": "C13", "status": "partial", "theorems": ["C13_negative_reduced_cost_partial", "C13_last_leg_counterexample"], "note": "Proved below the stop limit; at the stop limit the last leg is left out of the weight and the claim is false (counterexample)."},
{"property": "C14", "status": "proved", "theorems": ["C14_reduced_costs", "C14_reduced_costs_global_span", "C14_defined"], "note": "Also with the scaled costs of minimize_global_span."},
{"property": "C15", "status": "proved", "theorems": ["C15_subgraph", "C15_searched", "Solve.C15_skipped", "C15_best_edges_1", "C15_best_edges_2", "C15_best_paths", "C15_best_paths_exist", "C15_best_paths_division"], "note": "shortest_simple_paths is an oracle with the contract BestSimplePaths."},
{"property": "C16", "status": "proved", "theorems": ["C16_feasible_points", "C16_columns", "C16_no_column"], "note": "elementarity active = negCycle or pickup_delivery; depot hypotheses demand Source = 0, service Sink = 0 (set by the constructor defaults)"},
{"property": "C17", "status": "partial", "theorems": ["C17_optimal_points_partial", "C17_optimal_value", "C17_zero_cycle_counterexample", "C17_direct_trip_counterexample"], "note": "true if all cycles have positive reduced cost and the direct trip is not negative, also with distribution and collection (then the goods on the route fit into the vehicle all along); false for zero-cost cycles (the code only tests for negative cycles). With pickup and delivery the elementarity constraints are always there, so that C16 applies."},
{"property": "C18", "status": "partial", "theorems": ["C18_routes_feasible_partial", "C18_finds_route_partial", "C18_time_windows_counterexample"], "note": "without time windows fully proved, with or without requests and collection (VariantFit says what a route must satisfy for those); with time windows the big-M constant (upper window of Sink) can be too small: counterexample"},
{"property": "C19", "status": "partial", "theorems": ["C19_arrival_times", "C19_on_time_partial", "C19_within_limits_partial", "C19_accepted_on_time_partial", "C19_prune_start", "C19_start_counterexample", "C19_duration_counterexample"], "note": "Exact when Source opens at 0 (or, after preprocessing, has no service time) and no duration limit is set; counterexamples show that the claim is false otherwise."},
{"property": "C20", "status": "proved", "theorems": ["C20_goods", "C20_goods_of_limits"], "note": "The three load resources are within the limits on all prefixes exactly if the goods on board never exceed the capacity."},
{"property": "C21", "status": "partial", "theorems": ["C21_columns_partial", "C21_no_column", "C21_service_counterexample"], "note": "Stops and load always; duration with service times only when the custom resource function is used (time windows or distribution and collection); counterexample otherwise."},
{"property": "C22", "status": "partial", "theorems": ["C22_length_limit_partial", "C22_excludes", "C22_counterexample", "C22_service_counterexample"], "note": "False: routes with more legs than half the number of nodes are excluded; exact characterisation and counterexample."},
{"property": "C23", "status": "proved", "theorems": ["Master.C23_each_customer_once"], "note": "for every feasible point of the final MIP over a pool of simple or marked columns (pool invariant proved with C33/C55)"},
{"property": "C24", "status": "proved", "theorems": ["Master.C24_fleet"], "note": "for every feasible point of the final MIP; locked routes are not counted"},
{"property": "C25", "status": "proved", "theorems": ["Master.C25_elementary", "C25_marked"], "note": "columns found by cspy are marked exactly if they repeat a node, marked columns are never selected"},
{"property": "C26", "status": "partial", "theorems": ["C26_best_value", "C26_value_defined", "Master.C26_objective", "Master.C26_value_is_objective_partial", "Master.C26_span_partial", "C26_mixed_fleet_counterexample"], "note": "what best_value computes is proved in full; equality with the master objective needs correctly priced columns (false for initial routes in a mixed fleet, counterexample), no locked routes, not periodic; with the global span at most 74 columns"},
{"property": "C27", "status": "partial", "theorems": ["C27_reported_loads", "C27_run_cspy_partial", "C27_run_lp_partial", "C27_run_windows_partial", "C27_run_dive_lp_partial", "C27_run_any_lp_partial", "C27_run_any_windows_partial"], "note": "C27_reported_loads: for all columns that fit their type, incl. preassigned routes. Whole first runs: capacitated problems with cspy pricing (also diving, preassigned routes), with LP pricing (also diving), problems with time windows with either pricing; with LP pricing whatever feasible points the solver returns. Missing: LP pricing with collection and cycles of reduced cost 0, pickup and delivery (best_routes_load is empty there)."},
{"property": "C28", "status": "proved", "theorems": ["C28_complete_routes_verbatim"], "note": "Columns of the final master problem are arbitrary columns over the arcs left after locking and pruning."},
{"property": "C29", "status": "proved", "theorems": ["C29_partial_routes_free", "C29_reported_costs"], "note": "With use_all_vehicles the empty route Source-Sink is excepted: its cost becomes 1e10 afterwards."},
{"property": "C30", "status": "proved", "theorems": ["Schedule.C30_schedule_valid", "Schedule.C30_feasible_iff", "Schedule.C30_formulate"], "note": "For every route dictionary with distinct keys, every horizon and every feasible point; the scheduling problem is feasible exactly if a valid schedule exists; KeyError exactly when a route has no type."},
{"property": "C31", "status": "proved", "theorems": ["Schedule.C31_balanced", "Schedule.C31_spread_exists"], "note": "Every optimal point of the scheduling MIP; solver contract: returned point is optimal."},
{"property": "C32", "status": "partial", "theorems": ["Master.C32_visits_partial", "Master.C32_optimal_partial", "Master.C32_counterexample"], "note": "exact when the artificial variables are 0, which holds at an optimum if some selection of columns meets all frequencies; false otherwise (counterexample: cspy refuses a second copy of a column)"},
{"property": "C33", "status": "proved", "theorems": ["Solve.C33_bookkeeping", "Solve.C33_run", "Solve.C33_initial"], "note": "for every number of iterations and every answer of pricing, solvers and clock"},
{"property": "C34", "status": "partial", "theorems": ["Solve.C34_exact_failed_partial", "Solve.C34_lower_bound_partial", "Solve.C34_horizon_partial", "Solve.C34_hyper_counterexample"], "note": "holds for the fixed strategies (and makes lower_bound a true lower bound for LP pricing, with or without requests and collection, periodic or not); false for Hyper, counterexample proved"},
{"property": "C35", "status": "partial", "theorems": ["Solve.C35_max_iter", "Solve.C35_terminates", "Solve.C35_time", "Solve.C35_stagnation_partial", "Solve.C35_hyper_stagnation"], "note": "stagnation limit false for Hyper: after 1000 iterations one iteration without change ends the search"},
{"property": "C36", "status": "partial", "theorems": ["C36_same_problem_partial", "C36_same_columns_partial", "C36_columns_kept_partial", "C36_fixed_costs_counterexample", "C36_periodic_counterexample", "C36_time_windows_counterexample", "C36_preassignments_counterexample"], "note": "False in general: the second call adds the fixed costs again, loses the periodic fleet, starts from the tightened windows, and finds the preassigned routes a second time (ValueError); one counterexample each. Proved: without fixed costs, time windows, periodic fleets, preassignments, after any number of calls with any arguments everything column generation reads is as in the first call, except the first columns; these too if initial routes are given, and from the second call on."},
{"property": "C37", "status": "partial", "theorems": ["C37_changed_limits_partial", "C37_lp_partial", "C37_duration_partial", "C37_num_stops_counterexample", "C37_duration_counterexample", "C37_raised_capacity_counterexample"], "note": "False in general: routes found under the old limits stay as initial routes and are returned although they exceed the new num_stops or duration (counterexamples); a raised load_capacity does not bring back the arcs removed earlier. Proved for capacitated problems, after any history of calls and changes: with cspy what is returned solves the user's problem with the present num_stops and load_capacity, if the initial routes at hand are within the present num_stops; with LP pricing (whatever feasible points the solver returns, also diving) the routes respect them; the present duration is respected too if the initial routes at hand do (symmetric times, round trips fit, no greedy pricing; cspy: no service times). Missing: time windows, collection, pickup and delivery."},
{"property": "C38", "status": "partial", "theorems": ["C38_accepts_exactly", "C38_conversion_partial", "C38_initialize_iff", "C38_mixed_fleet_counterexample"], "note": "Acceptance, vehicle type and ValueError in full. The price is the cost for vehicle type 0, so in a mixed fleet it may not be the cost of the vehicle used (counterexample proved)."},
{"property": "C39", "status": "proved", "theorems": ["C39_arrival_times", "C39_arrival_monotone", "C39_departure_times"], "note": "Departure from the depot equals the arrival there plus service only when Source has no service time; the theorem states the rule the code follows."},
{"property": "C40", "status": "partial", "theorems": ["C40_route_load", "C40_node_load", "C40_node_load_collection_partial", "C40_collection_counterexample", "C40_node_load_computed"], "note": "best_routes_load and node_load for deliveries and pickup-and-delivery are exact; for distribution_collection node_load starts from the capacity instead of the delivered quantity (counterexample)."},
{"property": "C41", "status": "proved", "theorems": ["C41_duration", "C41_duration_vs_clock", "C41_duration_computed"], "note": "best_routes_duration adds the Sink service time; the clock comparison therefore has Sink service 0 as hypothesis."},
{"property": "C42", "status": "proved", "theorems": ["Hyper.C42_theta", "Hyper.C42_scaling", "Hyper.C42_untried", "Hyper.C42_selection", "Hyper.C42_explores"], "note": "All histories of method calls, clock values and random choices; scores in exact rational arithmetic."},
{"property": "C43", "status": "partial", "theorems": ["Hyper.C43_no_error_partial", "Solve.C43_run_partial", "Solve.C43_solve_partial", "Hyper.C43_no_active_counterexample", "Hyper.C43_no_column_counterexample", "Hyper.C43_no_init_counterexample", "C43_second_call_counterexample"], "note": "False in general: ZeroDivisionError if no column is active (all customers dropped) or a used heuristic added nothing, TypeError without init, which happens in every second call of solve() (counterexample at the level of the object). Proved: never raises after init if each update follows a produced column and some column is active; for whole first calls of column generation with run_exact=1 without drop penalty and periodic visits: never raises in any round (C43_solve_partial)."},
{"property": "C44", "status": "proved", "theorems": ["C44_accepts_exactly", "C44_error_kinds", "C44_zero_and_none_mean_unlimited"], "note": ""},
{"property": "C45", "status": "proved", "theorems": ["C45_cost_per_type"], "note": "Costs given as documented: a number, or a list with one number per vehicle type in a mixed fleet."},
{"property": "C46", "status": "proved", "theorems": ["C46_fixed_cost_once", "C46_empty_route_free"], "note": "First solve of an object; a second solve adds the fixed cost again (C36)."},
{"property": "C47", "status": "proved", "theorems": ["C47_defaults"], "note": ""},
{"property": "C48", "status": "proved", "theorems": ["C48_sink_window", "C48_lower_above_upper_example"], "note": "A Sink lower window above the computed upper window is possible and leaves no route on time (example proved)."},
{"property": "C49", "status": "proved", "theorems": ["C49_feasibility_check", "C49_solve_passes"], "note": "check_feasibility under the contract of shortest_path_length; the code ignores service times, as does the statement."},
{"property": "C50", "status": "proved", "theorems": ["C50_pickup_delivery", "C50_routes_feasible"], "note": "requests join distinct customers"},
{"property": "C51", "status": "partial", "theorems": ["C51_goods_partial", "C51_optimal_partial", "C51_routes_feasible", "C51_cycle_counterexample"], "note": "with the elementarity constraints for every feasible point; without them for optimal points with negative objective if cycles have positive reduced cost and the direct trip is not negative (feasible points may contain cycles: counterexample)"},
{"property": "C52", "status": "partial", "theorems": ["Master.C52_makespan_partial", "Master.C52_unusable", "Master.C52_counterexample", "Master.C52_error"], "note": "true for column numbers up to 74; columns 75..999 can never be used, others raise KeyError"},
{"property": "C53", "status": "partial", "theorems": ["Master.C53_covered_partial", "C53_dive_partial", "C53_dive_variants_partial", "C53_dive_windows_lp_partial", "C53_dive_lp_partial", "C53_dive_collect_lp_partial", "C53_dive_requests_partial", "C66_dive_partial", "C66_dive_variants_partial", "C66_dive_requests_partial", "Master.C53_twice_counterexample", "Master.C53_fractional_counterexample", "Master.C53_missed_counterexample", "C53_run_counterexample"], "note": "exactly once is false (also for whole runs: C53_run_counterexample); proved for whole runs with either pricing: every route is feasible and every customer that is not dropped is on some route, best_value is what the routes cost. Periodic problems (C66_dive_*): the same for customers to be visited once"},
{"property": "C54", "status": "proved", "theorems": ["Master.C54_weak_duality", "Master.C54_lower_bound", "Master.C54_weak_duality_periodic"], "note": "weak duality for arbitrary dual values with the right signs, up to 0.001 per route; with exact MIP pricing for all variants (plans of admissible routes that respect requests and collection, VariantFit); C54_weak_duality_periodic for plans over the horizon of a periodic problem, where customers count with their frequency"},
{"property": "C55", "status": "partial", "theorems": ["C55_plan_partial", "C55_lp_partial", "C55_lp_counterexample"], "note": "Capacitated problems: every run that returns gives routes solving the user's problem, and best_value is their cost plus penalties, for all solver answers within the contracts: cspy pricing for any costs; LP pricing when costs, times and services are nonnegative and every cycle the negative-cycle test lets through costs strictly more than nothing. Counterexample otherwise: with a cycle of reduced cost 0 a solve may return a plan that leaves customers out. Diving: C53_dive_partial. With use_all_vehicles or the global span LP pricing also needs that the dual values are such that a trip without customers does not pay (OptionDuals; C17_direct_trip_counterexample shows what happens otherwise)."},
{"property": "C56", "status": "proved", "theorems": ["C56_initial_routes", "C56_requests", "C56_initial_columns"], "note": "networks with depot arcs (what the constructor produces); in the Clarke & Wright branch a single capacity; for pickup and delivery the arcs of each request must exist (else ValueError/KeyError)"},
{"property": "C57", "status": "partial", "theorems": ["Master.C57_relaxed_feasible", "Master.C57_final_feasible", "Master.C57_start", "Master.C57_use_all_counterexample"], "note": "relaxed master always feasible without use_all_vehicles (false with it, counterexample); final master feasible without a fleet bound; with the global span only if the routes have numbers below 75"},
{"property": "C58", "status": "proved", "theorems": ["C58_empty_route"], "note": "for every first or later call whose checks pass, with costs as documented; reports keep the real cost (C46_empty_route_free)"},
{"property": "C59", "status": "partial", "theorems": ["Solve.C59_loop_cspy", "C59_terminates_cspy", "Solve.C59_loop_span", "C59_terminates_span", "Solve.C59_loop_lp", "C59_terminates", "C59_negative_counterexample", "Solve.C59_loop_lp_partial", "Solve.C59_loop_dive_lp_partial", "C59_terminates_lp_partial", "C59_variants_lp_partial", "C59_dive_lp_partial", "C59_dive_variants_lp_partial", "C59_locked_lp_partial", "C59_locked_variants_lp_partial", "C59_requests", "C59_windows"], "note": "Without diving: every solve, with LP pricing and with cspy, for every kind of problem and every preassignment, returns or raises after finitely many steps, if no arc costs less than 0 and the relaxed master problems are solved to optimality (C59_terminates); nothing is asked of the dual values and of the answers of the pricing problems. cspy pricing: the same without these conditions, also with diving, after a number of steps depending only on the network. Global span: the same, with LP pricing too, after at most 1000 iterations. LP pricing with diving (capacitated problems; time windows, collection; with or without preassigned routes): the same if the duals are complementary to the master problems and cycles cost strictly more than nothing (with a time limit without conditions, C69_terminates). Pickup and delivery, and time windows when travel takes time: the same without the condition on cycles, and without conditions on the duals of the fleet. For the other problems with use_all_vehicles one more vehicle must not be worth the price 1e10 of a trip without customers (OptionDuals). False for LP pricing with routes of negative cost: the same route is found again and again, with exact solvers (counterexample: solve() never returns). Missing: LP pricing with diving if the contract about the duals is not kept."},
{"property": "C60", "status": "partial", "theorems": ["C60_time_windows_partial", "C60_lp_partial", "C60_dive_partial", "C60_periodic_partial", "C66_dive_variants_partial", "C68_periodic_variants_partial", "C60_order_counterexample", "C60_zero_time_counterexample"], "note": "Pricing by cspy; pricing by LP when going on from a customer takes time (otherwise false, C60_zero_time_counterexample: a cycle besides the route). Needed and assumed: Source is the first node of the graph (otherwise false, C60_order_counterexample), windows not empty, depots without service time. Diving: every route is on time and every customer is on some route (C60_dive_partial); on exactly one is false (C53_run_counterexample). Periodic problems: C60_periodic_partial. With diving: C66_dive_variants_partial."},
{"property": "C61", "status": "partial", "theorems": ["C61_collection_partial", "C61_lp_partial", "C61_lp_untimed_partial", "C61_dive_partial", "C61_dive_lp_partial", "C60_periodic_partial", "C66_dive_variants_partial", "C68_periodic_variants_partial", "C61_collect_counterexample"], "note": "Pricing by cspy; pricing by LP with time windows when going on from a customer takes time, and without time windows when no cycle has reduced cost 0 where networkx finds no negative one. A single customer's collect fits into every vehicle (otherwise false, C61_collect_counterexample). Diving: every route respects the load and every customer is on some route. With use_all_vehicles or minimize_global_span LP pricing without time windows needs OptionDuals. Periodic problems: C60_periodic_partial. With diving: C66_dive_variants_partial."},
{"property": "C62", "status": "partial", "theorems": ["C62_duration_partial", "C62_lp_partial", "C62_collect_lp_partial", "C62_dive_partial", "C62_dive_collect_lp_partial", "C62_capacitated_partial", "C62_capacitated_dive_partial", "C62_capacitated_dive_lp_partial", "C62_requests_partial", "C62_locked_partial", "C62_locked_requests_partial", "C62_locked_capacitated_partial", "C62_counterexample", "C62_service_counterexample", "C62_greedy_counterexample", "C62_locked_counterexample"], "note": "With time windows or collection for cspy and LP; for pickup and delivery (LP); for capacitated problems (also periodic) with symmetric times and without greedy pricing for LP, and for cspy without service times; with and without diving (LP in capacitated problems: also C84_duration, whatever feasible points the solver returns); always if every round trip (or request served alone) fits. Beside preassigned routes for every route that was not preassigned. The conditions are needed: four counterexamples (round trips are not checked, cspy ignores service times unless time windows or collection are on, greedy pricing does not look at the last leg, preassigned routes are kept whatever they take)."},
{"property": "C63", "status": "partial", "theorems": ["C63_requests_partial", "C63_dive_partial", "C66_requests_partial", "C66_dive_requests_partial", "C68_periodic_requests_partial", "C63_fleet_counterexample", "C63_stops_counterexample", "C63_amounts_counterexample", "C63_shared_counterexample"], "note": "For every pricing strategy with LP pricing: single-capacity fleet, requests of equal and opposite positive amounts with different deliveries, at least two stops. With diving every route respects the requests and every customer is on some route. Periodic problems: C66_requests_partial, C66_dive_requests_partial. Each of the conditions is needed (counterexamples)."},
{"property": "C64", "status": "partial", "theorems": ["C64_request_check_partial", "C64_service_counterexample", "C64_triangle_counterexample"], "note": "Exact for networks with the triangle inequality at the depot, deliveries without service time, Source first. Counterexamples: deliveries with service time accepted although late; on-time trips refused without the triangle inequality."},
{"property": "C65", "status": "partial", "theorems": ["C65_heuristic_partial", "C65_refused", "C65_fleet_counterexample", "C65_locked_counterexample"], "note": "Everything but: the number of vehicles is ignored (counterexample), preassigned routes are lost (counterexample), and the duration is respected only for symmetric times and fitting round trips (otherwise C09_asymmetric_counterexample, C09_service_counterexample)."},
{"property": "C66", "status": "partial", "theorems": ["C66_periodic_partial", "C66_lp_partial", "C66_variants_partial", "C66_requests_partial", "C66_dive_partial", "C66_dive_variants_partial", "C66_dive_requests_partial", "C68_periodic_partial", "C68_periodic_variants_partial", "C68_periodic_requests_partial", "C66_locked_counterexample", "C66_dive_counterexample", "C66_visits_counterexample", "C66_dropped_counterexample", "C66_schedule_counterexample"], "note": "Whole runs of capacitated problems (cspy, LP), problems with time windows or collection (cspy, LP), and pickup and delivery: routes feasible, at most frequency visits (exactly, for frequency at most 1), the schedule empty or valid for the user's fleet and horizon, not empty if the solver is complete and a valid schedule exists, balanced if it is exact; best_value. With diving: routes feasible, customers to be visited once on some route, the same for schedule and best_value (visits too often, so that no schedule exists: C66_dive_counterexample). With preassigned routes: the same for customers that are not on complete ones. Missing, because false: two preassigned routes through a customer on the same day, fewer visits than the frequency, dropped customers that are visited, no schedule because column generation ignores the fleet."},
{"property": "C67", "status": "partial", "theorems": ["C67_checks_exact", "C67_check_sound", "C67_checks_pass_partial", "C67_periodic_partial", "C67_requests_partial", "C67_partial_routes_partial", "C67_partial_routes_requests_partial", "C67_locked_raises", "C67_no_triangle_counterexample", "C67_source_counterexample", "C67_duration_counterexample"], "note": "The checks are characterised exactly, and they pass after every run on a problem with time windows whose times make sense (any pricing, diving or not, periodic or not; pickup and delivery if every request served alone is on time). The full claim is false: without the triangle inequality at the depot, with a Source whose closing time is not given, or with a duration and no time windows the checks fail on correct solutions (counterexamples). With preassigned routes that are not complete they pass as well; after a complete one that visits a customer they always raise, because they look up removed customers (C67_locked_raises, no assumption on the libraries)."},
{"property": "C68", "status": "partial", "theorems": ["C68_plan_partial", "C68_lp_partial", "C68_variants_partial", "C68_windows_lp_partial", "C68_collect_lp_partial", "C68_requests_partial", "C68_dive_partial", "C68_dive_lp_partial", "C68_dive_variants_partial", "C68_dive_windows_lp_partial", "C68_dive_collect_lp_partial", "C68_dive_requests_partial", "C68_all_locked_partial", "C68_each_once", "C68_periodic_partial", "C68_periodic_variants_partial", "C68_periodic_requests_partial", "C68_frequency_counterexample", "C68_penalty_counterexample", "C68_heavy_counterexample", "C68_twice_counterexample", "C68_fleet_counterexample", "C68_stops_counterexample", "C68_order_counterexample", "C68_lone_delivery_counterexample"], "note": "Proved for capacitated problems, problems with time windows or collection, and pickup and delivery, pricing by cspy and by LP, with and without diving (with diving a customer may be on two routes), and for all problems if no customer is left. With use_all_vehicles or minimize_global_span LP pricing without time windows needs OptionDuals. In periodic problems (all of these cases) the schedule is valid for all routes, preassigned or not, except for the days on which customers on preassigned routes are visited. Preassigned routes are not held to the limits and do not count for the fleet (but do in the schedule of a periodic problem), and their customers are not visited more often than on them (counterexamples)."},
{"property": "C69", "status": "partial", "theorems": ["TimeLimit.C69_remaining", "TimeLimit.C69_time_up", "TimeLimit.C69_lp_never_gives_up", "TimeLimit.C69_cspy_partial", "TimeLimit.C69_unlimited_counterexample", "TimeLimit.C69_negative_counterexample", "Solve.C69_not_early", "Solve.C69_overrun", "Solve.C69_loop", "Solve.C69_dive_goes_on", "C69_terminates"], "note": "Everything but the time given to cspy: when the limit is over in the middle of an iteration cspy is given none, and in the last half second a negative one (counterexamples). With diving one more iteration is done after the limit is over (C69_dive_goes_on)."},
{"property": "C70", "status": "partial", "theorems": ["C70_lower_bound_partial", "C70_gap_partial", "C70_gap_collect_partial", "C70_gap_windows_partial", "C70_cspy_partial", "C70_requests_partial", "C70_gap_requests_partial", "C70_periodic_partial", "C70_gap_dive_partial", "C70_gap_dive_collect_partial", "C70_periodic_requests_partial", "C70_periodic_cspy_partial", "C70_locked_partial", "C70_locked_cspy_partial", "C70_locked_requests_partial", "C70_locked_periodic_partial", "C70_locked_periodic_requests_partial", "C70_locked_periodic_cspy_partial"], "note": "Run level, from C34/C54/C73: a solution of the user's problem becomes a plan for the network searched (pruning for capacities and time windows, the derived stop limit and the cost vectors lose nothing), so the last _lower_bound is a bound. LP pricing: with or without collection and time windows, and (C70_requests_partial) with pickup and delivery: two customers in a row that are too much for every vehicle are never on a route whose load is always between 0 and the capacity; dual values of the masters on the way are assumed to prove their value (DualsOk), pricing solver exact; time windows must be wide (WindowsWide, otherwise the big-M constants cut off solutions). The gap theorems add that the reported value is that of a plan. C70_cspy_partial is the same for cspy pricing, one vehicle type, without greedy pricing (C73 for why). With use_all_vehicles the bound is for solutions that use each vehicle for a customer. With diving the bound is that of the phase before (at most 1000 iterations, C70_gap_dive_partial). C70_periodic_partial, C70_periodic_requests_partial, C70_periodic_cspy_partial: for periodic problems the bound is for all plans over the horizon that visit every customer as often as asked, whether or not they can be scheduled. C70_locked_partial, C70_locked_cspy_partial, C70_locked_requests_partial, and C70_locked_periodic_partial, C70_locked_periodic_requests_partial, C70_locked_periodic_cspy_partial for periodic problems: beside preassigned routes the bound is for the customers that are not on complete ones (no negative costs). Missing: Hyper (false, C34 counterexample), global span, a negative cost for staying at the depot (other arcs may have negative costs with LP pricing)."},
{"property": "C71", "status": "proved", "theorems": ["C71_choices", "C71_reachable"], "note": "Depots without demand, well-formed network. Random choices are an arbitrary function of run and step."},
{"property": "C72", "status": "proved", "theorems": ["C72_two_searches", "C72_spared"], "note": "All pools and answers of cspy; its contract is not needed."},
{"property": "C73", "status": "partial", "theorems": ["C73_no_route_left_partial", "Solve.C73_lower_bound_partial", "Solve.C73_horizon_partial", "C73_bound_counterexample", "C73_mixed_fleet_counterexample", "C73_greedy_counterexample"], "note": "Proved for one vehicle type, fixed strategies, no greedy pricing, if the dual values are feasible for the columns without dual values for the bounds y <= 1; a limit on stops or load (otherwise C22). False otherwise: one counterexample each, with exact solvers and a whole run of solve(). Run level: C70_cspy_partial. Contract CspyFinds shown satisfiable by an exact labelling oracle for every problem."},
{"property": "C74", "status": "partial", "theorems": ["Solve.C74_labels", "Solve.C74_labels_run", "Solve.C74_distribution", "Solve.C74_credit_partial", "Solve.C74_credit_counterexample"], "note": "Labels and distribution proved for all runs, also with diving. Credit proved for first calls with run_exact=1 (the default); false for other values (counterexample) and in second calls (C43_second_call_counterexample)."},
{"property": "C75", "status": "proved", "theorems": ["Master.C75_choice", "Solve.C75_run", "Master.C75_rounding_counterexample"], "note": "The counterexample is beside the claim: a variable of value 1/10 is fixed to 1, not rounded."},
{"property": "C76", "status": "proved", "theorems": ["C76_by_savings", "C76_best_saving", "C76_weights", "C76_heuristic_only"], "note": "With a maximum duration, times have to be symmetric and depots without service time; otherwise the heuristic tests another duration than that of the route (C09_asymmetric_counterexample, C09_service_counterexample)."},
{"property": "C77", "status": "partial", "theorems": ["C77_same_problem_partial", "C77_accepted_partial", "C77_capacity_counterexample", "C77_fixed_costs_counterexample", "C77_empty_route_counterexample", "C77_preassigned_counterexample", "C77_use_all_counterexample", "C77_time_windows_counterexample"], "note": "False in general: solve() changes the caller's graph in place (counterexamples for earlier problems with smaller vehicles, fixed costs, preassigned routes, use_all_vehicles, time windows, and for a next problem with fixed costs). Proved: if the earlier problems have none of these and vehicles at least as large, and the next problem has no fixed costs, it presents exactly what it would present on a fresh graph, whatever other options it has; the constructor accepts the used graph unchanged."},
{"property": "C78", "status": "partial", "theorems": ["C78_threshold", "C78_statistics", "C78_average", "C78_no_route_left_partial", "C78_bound_partial", "C78_locked_bound_partial", "C78_threshold_counterexample"], "note": "What the threshold is, what is counted, and what it costs: routes and bounds up to 1/1000 for each arc (C78_locked_bound_partial: also beside preassigned routes). False for 1/1000 per route (counterexample). Missing: as for C70 and C73."},
{"property": "C79", "status": "proved", "theorems": ["C79_widening", "Solve.C79_search", "Solve.C79_round", "Solve.C79_strategy", "C79_widening_counterexample"], "note": "Without minimize_global_span (except C79_strategy). For the widening: networkx lists the same paths in the same order however many are asked for, and the costs or the largest dual value are not negative; counterexample without this."},
{"property": "C80", "status": "proved", "theorems": ["Solve.C80_dive"], "note": "For all states with theta at least 0.1, which C42_theta shows for all reachable ones."},
{"property": "C81", "status": "partial", "theorems": ["Rel.C81_first_update_counterexample", "Rel.C81_average_counterexample", "Rel.C81_bounds_partial", "Rel.C81_mean_partial", "Rel.C81_reward", "Rel.C81_acceptance"], "note": "The first part of the claim is false: iteration is None until update_parameters was called, so the first current_performance (and pick_heuristic) raises a TypeError; and when the numbers count up, update_parameters raises a TypeError at start_computing_average + 1, because average_runtime is None. In every history of calls that does not raise: d is 0 or the largest improvement, at most 100, the averages of the rewards lie between 0 and 150; the average is the mean of the runtimes of a stretch of at most nine iterations (after that it starts again); the rewards grow with the number of good effects (decrease of the objective, a column found), and stagnation reduces them; objective_threshold accepts every move. vrpy itself never selects this measure."},
{"property": "C82", "status": "proved", "theorems": ["Benchmarks.C82_solomon_graph", "Benchmarks.C82_no_depot", "Benchmarks.C82_solomon_problem", "Benchmarks.C82_rounding", "Benchmarks.C82_times", "Benchmarks.C82_solomon_solve", "Benchmarks.C82_number_of_arcs", "Benchmarks.C82_augerat_graph", "Benchmarks.C82_augerat_problem", "Benchmarks.C82_augerat_solve", "Benchmarks.C82_no_service_counterexample"], "note": "Rows of numbers to networks to plans; splitting the text of the file into rows (pandas.read_csv, str.split) is not modelled.  LP pricing of Solomon files needs service times of at least 1: rounded distances violate the triangle inequality by up to 1 (C82_rounding), and without service times solve() can fail on a file with an obvious plan (C82_no_service_counterexample)."},
{"property": "C83", "status": "partial", "theorems": ["C83_backward_time", "C83_legs_and_load", "C83_on_time_partial", "C83_goods_partial", "C83_wait_counterexample", "C83_flag_counterexample", "C83_goods_counterexample"], "note": "Legs, load and the joined time are right, and accepted labels mean that the goods fit. False for the rest: the window test of REF_bwd looks at the wrong node (neither sufficient nor necessary for being on time) and deliveries are counted twice (routes that fit are refused); one counterexample each."},
{"property": "C84", "status": "proved", "theorems": ["C84_routes", "C84_duration", "C84_windows"], "note": "For all feasible points, all negative-cycle answers, with and without diving (C84_windows: not with collection)."},
{"property": "C85", "status": "proved", "theorems": ["C85_reports", "C85_capacitated", "C85_variants", "C85_windows_lp", "C85_requests", "C85_locked", "C85_heuristic"], "note": "C85_reports is the general claim: any first solve() whose routes are driven along user arcs with a known type. The others discharge that condition for runs on capacitated problems (cspy or LP pricing, diving or not), with time windows or collection (cspy), with time windows (LP pricing), with pickup and delivery, with preassigned routes that some vehicle can drive, and with heuristic_only."},
{"property": "C86", "status": "proved", "theorems": ["C86_schedule", "C86_fleet_counterexample"], "note": "For every object and call; the scheduler is trusted to return a feasible point when it reports an optimum. Since the first call empties num_vehicles, a second one does not know the user's fleet (counterexample)."},
{"property": "C87", "status": "partial", "theorems": ["Hyper.C87_scores", "Solve.C87_run_partial", "Solve.C87_asked"], "note": "C87_scores: for all histories of updates and picks after an init, without restriction. C87_run_partial: for the rounds of a first solve() without diving, every run_exact other than 0; C87_asked: with run_exact=1 the hyper-heuristic is asked in every round, otherwise not in those where _no_improvement equals run_exact. Missing: diving, where each round initialises it again (C80 says what it learns then). With run_exact=0 and in second calls it is not initialised and raises (C43)."}
]
