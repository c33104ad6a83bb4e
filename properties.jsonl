{"id": "C01", "title": "Constructor completes the network and leaves the user's data alone", "statement": "If VehicleRoutingProblem(G) returns, then G contains Source and Sink, Source has no incoming edge, Sink no outgoing edge, every other node v has edges (Source,v) and (v,Sink), every edge has a cost; all nodes and all pre-existing edges keep their data, and the only edges added are missing depot edges with cost 1e10.", "quantifier": "every input DiGraph (any number of nodes, any edge set, any attributes)", "why_tests_cant": "Tests try a handful of toy graphs; the guarantee is relied on for every graph shape.", "anchors": ["vrpy/checks.py:check_vrp", "vrpy/vrp.py:VehicleRoutingProblem.__init__"]}
{"id": "C02", "title": "Constructor rejects exactly the ill-formed graphs", "statement": "VehicleRoutingProblem(G) raises if and only if Source is missing (KeyError), Sink is missing, Source has an incoming edge or Sink an outgoing edge (NetworkXError), Source and Sink remain disconnected (NetworkXError; possible only for a graph without customers and without Source-Sink edge), or some edge lacks a cost (KeyError); nothing else is rejected.", "quantifier": "every input DiGraph", "why_tests_cant": "An iff over all graphs is not testable by examples.", "anchors": ["vrpy/checks.py:check_vrp"]}
{"id": "C03", "title": "The automatic bound on stops never removes a capacity-feasible route", "statement": "When load_capacity is set, the number of stops is tightened automatically; every set of customers whose total demand fits the largest vehicle (and, for simultaneous distribution and collection, whose total collect fits) and that respects the user's num_stops has at most the new num_stops members, and the new bound is never larger than the user's and never 0.", "quantifier": "every network with non-negative demands/collects, every capacity and user bound", "why_tests_cant": "The bound comes from a dynamic program over all demand vectors and capacities.", "anchors": ["vrpy/preprocessing.py:get_num_stops_upper_bound", "vrpy/preprocessing.py:_knapsack", "vrpy/vrp.py:_pre_solve"]}
{"id": "C04", "title": "The knapsack computes the true maximum cardinality", "statement": "_knapsack(weights, capacity) returns exactly the maximum number of items whose total weight is at most capacity.", "quantifier": "every list of at least two non-negative integer weights and every capacity >= 0", "why_tests_cant": "The table uses wrap-around (index -1) rows; correctness must hold for all tables.", "anchors": ["vrpy/preprocessing.py:_knapsack"]}
{"id": "C05", "title": "Capacity preprocessing removes no arc of a feasible route", "statement": "solve() deletes arc (i,j) because of capacities only if no route whose total demand fits some vehicle uses (i,j); depot arcs of every customer survive.", "quantifier": "every network with non-negative demands (with pickup and delivery: with any demands, for routes whose load is never negative and always fits), every fleet, every route", "why_tests_cant": "Ranges over all routes of all networks.", "anchors": ["vrpy/vrp.py:_remove_infeasible_arcs_capacities", "vrpy/vrp.py:_prune_graph"]}
{"id": "C06", "title": "Time-window preprocessing removes no feasible route", "statement": "Arc removal and window strengthening in solve() keep every route that can be driven on time under the user's windows: it uses no removed arc and is still on time for the strengthened windows.", "quantifier": "every network and every route from Source to Sink", "why_tests_cant": "Depends on all combinations of windows, service and travel times and on edge order.", "anchors": ["vrpy/vrp.py:_remove_infeasible_arcs_time_windows"]}
{"id": "C07", "title": "Clarke & Wright visits every customer exactly once", "statement": "After solve(heuristic_only=True) best_routes are simple Source-to-Sink paths along edges of the network, numbered 0,1,..., and each customer lies on exactly one of them.", "quantifier": "every network, every limit combination, every order in which savings ties and set iteration resolve", "why_tests_cant": "The merge history is unbounded and its order data dependent.", "anchors": ["vrpy/clarke_wright.py:_ClarkeWright", "vrpy/vrp.py:_solve_with_clarke_wright"]}
{"id": "C08", "title": "Clarke & Wright respects capacity and stops", "statement": "Every route returned by the savings heuristic has total demand at most load_capacity and at most num_stops customers.", "quantifier": "every network that passed the feasibility check, every merge history", "why_tests_cant": "Needs an invariant over all merge sequences.", "anchors": ["vrpy/clarke_wright.py:_constraints_met", "vrpy/clarke_wright.py:_merge_route"]}
{"id": "C09", "title": "Clarke & Wright respects the duration limit", "statement": "Every route returned by solve(heuristic_only=True) has travel plus service time at most duration.", "quantifier": "every network, every merge history", "why_tests_cant": "The heuristic uses an incremental formula that is only right for some networks; tests use symmetric depots.", "anchors": ["vrpy/clarke_wright.py:_constraints_met", "vrpy/clarke_wright.py:_merge_route"]}
{"id": "C10", "title": "Clarke & Wright value", "statement": "The value the savings heuristic reports equals the sum of the edge costs of its routes, and the solution is never worse than serving each customer by its own round trip.", "quantifier": "every network, every merge history", "why_tests_cant": "Needs induction over merges.", "anchors": ["vrpy/clarke_wright.py:_merge_route", "vrpy/clarke_wright.py:_update_routes", "vrpy/clarke_wright.py:_get_savings"]}
{"id": "C11", "title": "Greedy initial solution is feasible and terminates", "statement": "The greedy heuristic used to seed solve() always terminates and its routes are simple Source-Sink paths over edges of the network, pairwise share no customer, and respect load capacity, num_stops and duration; if every round trip is feasible on its own it visits every customer exactly once; the value it reports is the total cost.", "quantifier": "every network with depot arcs and every limit combination", "why_tests_cant": "Termination and feasibility over all graphs.", "anchors": ["vrpy/greedy.py:_Greedy"]}
{"id": "C12", "title": "Randomised greedy pricing only adds feasible routes", "statement": "With solve(greedy=True), every column added by the randomised greedy algorithm is a simple Source-Sink path of the network that respects load_capacity of its vehicle type, num_stops and duration (travel plus service), whatever the random choices.", "quantifier": "every network, every dual vector, every sequence of random choices", "why_tests_cant": "Random choices cannot be enumerated by tests.", "anchors": ["vrpy/subproblem_greedy.py:_SubProblemGreedy"]}
{"id": "C13", "title": "Randomised greedy pricing only adds columns of negative reduced cost", "statement": "Each column added by the randomised greedy algorithm has negative reduced cost (cost minus duals of visited customers minus the vehicle dual).", "quantifier": "every network, duals, random choices", "why_tests_cant": "same", "anchors": ["vrpy/subproblem_greedy.py:solve", "vrpy/subproblem_greedy.py:_update"]}
{"id": "C14", "title": "Reduced costs are right", "statement": "In the pricing problem the total edge weight of any Source-Sink route equals its cost for the vehicle type minus the duals of its customers minus the dual of the fleet bound of that type.", "quantifier": "every network, route, dual vector and vehicle type", "why_tests_cant": "Quantifies over all routes and duals.", "anchors": ["vrpy/subproblem.py:add_reduced_cost_attribute", "vrpy/master_solve_pulp.py:get_duals"]}
{"id": "C15", "title": "Heuristic pricing strategies only remove arcs", "statement": "BestEdges1, BestEdges2 and BestPaths search a subgraph of the network: no arc or attribute is invented. BestEdges1 keeps exactly the arcs of cost at most alpha times the largest dual; BestEdges2 keeps all depot arcs and exactly int(ratio*n) inner arcs, none of larger reduced cost than a discarded one, so it never disconnects Source from Sink; BestPaths keeps exactly the arcs of the k best paths. A heuristic search is skipped exactly when what is left does not connect Source and Sink; exact pricing searches the whole network.", "quantifier": "every network, duals and parameters", "why_tests_cant": "Universally quantified.", "anchors": ["vrpy/subproblem.py:remove_edges_1", "vrpy/subproblem.py:remove_edges_2", "vrpy/subproblem.py:remove_edges_3"]}
{"id": "C16", "title": "LP pricing only produces feasible elementary routes", "statement": "With solve(cspy=False), when the elementarity constraints are active, every feasible point of the pricing MIP is exactly one simple Source-Sink route of the network, with at most num_stops customers, load at most the capacity of the vehicle type, travel plus service time at most duration and, if time windows are on, every arrival within its window.", "quantifier": "every network, every parameter set, every feasible MIP point the solver may return", "why_tests_cant": "The solver may return any feasible point; tests see one.", "anchors": ["vrpy/subproblem_lp.py:_formulate", "vrpy/subproblem_lp.py:_add_elementarity", "vrpy/subproblem_lp.py:_add_time_windows"]}
{"id": "C17", "title": "LP pricing without elementarity constraints", "statement": "When the network has no negative reduced-cost cycle, the column built from an optimal MIP point is still a single route covering exactly the customers it is credited with.", "quantifier": "every network and every optimal MIP point", "why_tests_cant": "The solver may pick any optimal vertex.", "anchors": ["vrpy/subproblem_lp.py:_formulate", "vrpy/subproblem_lp.py:_add_new_route"]}
{"id": "C18", "title": "LP pricing excludes no feasible route", "statement": "Every simple route that meets stops, load, duration and time windows is a feasible point of the pricing MIP, so Exact pricing finds an improving route whenever one exists.", "quantifier": "every network and feasible route", "why_tests_cant": "big-M constants must be large enough for every route.", "anchors": ["vrpy/subproblem_lp.py:_add_time_windows", "vrpy/subproblem_lp.py:_add_elementarity", "vrpy/subproblem_lp.py:_add_max_load"]}
{"id": "C19", "title": "cspy pricing: time-window resource is exact", "statement": "Extending a path with the forward resource function reproduces the arrival times of the route, and a path all of whose prefixes are within resource limits is exactly a path that arrives at each node within its window.", "quantifier": "every path of every network", "why_tests_cant": "Induction over path length.", "anchors": ["vrpy/subproblem_cspy.py:_MyREFCallback.REF_fwd", "vrpy/subproblem_cspy.py:formulate"]}
{"id": "C20", "title": "cspy pricing: simultaneous distribution and collection load is exact", "statement": "With distribution_collection, a path is within the resource limits exactly when the vehicle load (goods still to deliver plus goods collected so far) never exceeds load_capacity anywhere on the route.", "quantifier": "every path of every network with every demand/collect vector", "why_tests_cant": "Induction over path length.", "anchors": ["vrpy/subproblem_cspy.py:_MyREFCallback.REF_fwd"]}
{"id": "C21", "title": "cspy pricing respects stops, load and duration", "statement": "A column found with cspy has at most num_stops customers, load at most the capacity of its vehicle type and duration (travel plus service) at most duration.", "quantifier": "every network and every path the solver may return within limits", "why_tests_cant": "Any label may be returned.", "anchors": ["vrpy/subproblem_cspy.py:formulate", "vrpy/subproblem_cspy.py:add_max_stops", "vrpy/subproblem_cspy.py:add_max_load", "vrpy/subproblem_cspy.py:add_max_duration"]}
{"id": "C22", "title": "cspy pricing considers routes of any length when stops are unlimited", "statement": "If neither num_stops nor load_capacity is given, no feasible elementary route is excluded by a length limit.", "quantifier": "every network", "why_tests_cant": "Depends on instance size.", "anchors": ["vrpy/subproblem_cspy.py:__init__", "vrpy/subproblem_cspy.py:add_monotone"]}
{"id": "C23", "title": "Every customer is visited exactly once, or dropped", "statement": "In the solution returned by solve() without dive and periodic, each customer not locked is on exactly one of best_routes, or - only if drop_penalty is set - is dropped and on none.", "quantifier": "every network and every feasible integer solution the MIP solver may return", "why_tests_cant": "Holds for all solver outputs, not just optimal ones seen in tests.", "anchors": ["vrpy/master_solve_pulp.py:_formulate", "vrpy/master_solve_pulp.py:_solve", "vrpy/master_solve_pulp.py:get_total_cost_and_routes"]}
{"id": "C24", "title": "Fleet limits are respected", "statement": "best_routes uses at most num_vehicles[k] vehicles of type k, and exactly that many if use_all_vehicles is set.", "quantifier": "every network and every feasible integer solution", "why_tests_cant": "same", "anchors": ["vrpy/master_solve_pulp.py:_add_bound_vehicles", "vrpy/master_solve_pulp.py:_add_vehicle_dummy_variables", "vrpy/master_solve_pulp.py:_solve"]}
{"id": "C25", "title": "No best route visits a customer twice", "statement": "Columns that repeat a customer may be used to bound the relaxation but never appear in best_routes of a solve() without dive.", "quantifier": "every column pool and every MIP solution", "why_tests_cant": "same", "anchors": ["vrpy/master_solve_pulp.py:_solve", "vrpy/subproblem_cspy.py:create_new_route"]}
{"id": "C26", "title": "best_value is the total cost of the reported routes", "statement": "best_value equals the sum over best_routes of their edge costs for the route's vehicle type (including fixed costs), or their maximum if minimize_global_span, plus drop_penalty per dropped customer; it equals the objective of the selected master solution.", "quantifier": "every solution", "why_tests_cant": "All solutions", "anchors": ["vrpy/vrp.py:best_value", "vrpy/vrp.py:best_routes_cost", "vrpy/vrp.py:_convert_initial_routes_to_digraphs"]}
{"id": "C27", "title": "Each route's vehicle type can carry its load", "statement": "For every route of best_routes of a CVRP or mixed fleet, best_routes_load is at most load_capacity of best_routes_type.", "quantifier": "every solution", "why_tests_cant": "all routes from all generators", "anchors": ["vrpy/vrp.py:_convert_initial_routes_to_digraphs", "vrpy/vrp.py:best_routes_load", "vrpy/vrp.py:_best_routes_as_node_lists"]}
{"id": "C28", "title": "Complete preassigned routes are returned verbatim", "statement": "On the first solve(preassignments=R) every complete route of R (Source...Sink) appears unchanged in best_routes and its customers appear on no other non-locked route.", "quantifier": "every list of preassignments accepted by solve()", "why_tests_cant": "all preassignment lists", "anchors": ["vrpy/vrp.py:_lock", "vrpy/vrp.py:_best_routes_as_node_lists", "vrpy/checks.py:check_preassignments"]}
{"id": "C29", "title": "Partial preassignments are free of charge during the search but not in the result", "statement": "Arcs of partial preassigned routes get cost 0 for every vehicle type in the search, all other costs are unchanged, and best_routes_cost still uses the original costs.", "quantifier": "every preassignment list", "why_tests_cant": "all", "anchors": ["vrpy/vrp.py:_lock", "vrpy/vrp.py:_update_dummy_attributes"]}
{"id": "C30", "title": "Periodic schedule is valid", "statement": "If a schedule is returned for a periodic problem, every route is scheduled on exactly one day in range(periodic), no customer with positive demand is visited twice on a day, and no day uses more than num_vehicles[k] vehicles of type k; otherwise the schedule is empty.", "quantifier": "every set of routes, horizon and feasible solver answer", "why_tests_cant": "all solver answers", "anchors": ["vrpy/schedule.py:_formulate", "vrpy/schedule.py:routes_per_day"]}
{"id": "C31", "title": "Periodic schedule is balanced", "statement": "An optimal schedule minimises the difference between the busiest and the least busy day over all valid schedules.", "quantifier": "every instance", "why_tests_cant": "optimality over all schedules", "anchors": ["vrpy/schedule.py:_formulate"]}
{"id": "C32", "title": "Periodic problems visit each customer frequency times", "statement": "With periodic set, each customer v is on exactly frequency(v) routes of best_routes.", "quantifier": "every feasible integer solution", "why_tests_cant": "all", "anchors": ["vrpy/master_solve_pulp.py:_add_set_covering_constraints", "vrpy/master_solve_pulp.py:_add_artificial_variables"]}
{"id": "C33", "title": "Column bookkeeping", "statement": "During solve() all generated columns have pairwise different names, each column in the pool has a master variable, and vice versa; columns are never lost.", "quantifier": "every sequence of pricing outcomes, any number of iterations", "why_tests_cant": "unbounded iteration histories", "anchors": ["vrpy/vrp.py:_find_columns", "vrpy/subproblem_lp.py:_add_new_route", "vrpy/subproblem_cspy.py:create_new_route", "vrpy/subproblem_greedy.py:_add_new_route"]}
{"id": "C34", "title": "Column generation stops only after exact pricing failed", "statement": "Without time limit and iteration limits, for the strategies Exact, BestEdges1, BestEdges2, BestPaths (and Hyper) the search for columns stops only after the exact pricing problem of every vehicle type found no column in the last iteration.", "quantifier": "every history of pricing outcomes", "why_tests_cant": "unbounded histories", "anchors": ["vrpy/vrp.py:_column_generation", "vrpy/vrp.py:_find_columns", "vrpy/vrp.py:_solve_subproblem_with_heuristic"]}
{"id": "C35", "title": "max_iter and no-improvement limits", "statement": "A first solve(max_iter=m), m>=1, performs at most m column generation iterations; the search also stops after more than 1000 iterations without change, and stops in the iteration in which the time limit is found exceeded.", "quantifier": "every history", "why_tests_cant": "unbounded", "anchors": ["vrpy/vrp.py:_column_generation", "vrpy/vrp.py:_get_time_remaining"]}
{"id": "C36", "title": "Calling solve() again solves the same problem", "statement": "Calling solve() twice on the same object with the same arguments presents the same problem (same arc costs, limits, fleet) to the solver both times.", "quantifier": "every problem and call history", "why_tests_cant": "histories", "anchors": ["vrpy/vrp.py:_pre_solve", "vrpy/vrp.py:_add_fixed_costs", "vrpy/checks.py:check_periodic_num_vehicles"]}
{"id": "C37", "title": "Changing a limit between solves takes effect", "statement": "After changing num_stops, load_capacity or duration on the object and calling solve() again, the returned routes respect the new limits.", "quantifier": "every problem and history", "why_tests_cant": "histories", "anchors": ["vrpy/vrp.py:_initialize", "vrpy/vrp.py:_get_initial_solution", "vrpy/checks.py:check_initial_routes"]}
{"id": "C38", "title": "User supplied initial routes", "statement": "solve(initial_routes=R) accepts R exactly when each route starts at Source, ends at Sink, uses existing arcs and every customer is on some route; each accepted route is priced at the sum of its edge costs and given the first vehicle type that can carry it, or ValueError if none can.", "quantifier": "every R and network", "why_tests_cant": "all", "anchors": ["vrpy/checks.py:check_initial_routes", "vrpy/vrp.py:_convert_initial_routes_to_digraphs"]}
{"id": "C39", "title": "Arrival and departure times", "statement": "For each returned route, arrival_time is the earliest schedule: Source at its lower window, each next node at max(previous arrival + service + travel, lower window); departure is arrival plus service; times never decrease along the route and are never before the lower window.", "quantifier": "every route and network with non-negative times", "why_tests_cant": "induction over route length", "anchors": ["vrpy/vrp.py:arrival_time", "vrpy/vrp.py:departure_time"]}
{"id": "C40", "title": "Load reports", "statement": "best_routes_load is the sum of demands on the route; node_load at Sink equals it for pure distribution or collection; for simultaneous distribution and collection node_load is the load on leaving the node and never exceeds load_capacity on a feasible route.", "quantifier": "every route", "why_tests_cant": "induction", "anchors": ["vrpy/vrp.py:node_load", "vrpy/vrp.py:best_routes_load"]}
{"id": "C41", "title": "Duration report", "statement": "best_routes_duration is travel plus service time of the route, and equals arrival at Sink minus start when no waiting occurs; it is never more than the latter.", "quantifier": "every route", "why_tests_cant": "induction", "anchors": ["vrpy/vrp.py:best_routes_duration", "vrpy/vrp.py:arrival_time"]}
{"id": "C42", "title": "Hyper-heuristic selection", "statement": "The hyper-heuristic always returns one of the four pricing strategies, one with maximal score; strategies not tried yet have a score of 1e10; the learning rate theta stays within [step, 1]; it is 0.99 after an update with a new column and a strictly smaller objective, and loses 0.1 with every other update down to 0.1.", "quantifier": "every history of outcomes and random choices", "why_tests_cant": "unbounded histories", "anchors": ["vrpy/hyper_heuristic.py:pick_heuristic", "vrpy/hyper_heuristic.py:update_scaling_factor"]}
{"id": "C43", "title": "Hyper-heuristic never divides by zero", "statement": "Score updates never raise during solve(pricing_strategy='Hyper').", "quantifier": "every history", "why_tests_cant": "unbounded", "anchors": ["vrpy/hyper_heuristic.py:_update_params_wgtavr", "vrpy/vrp.py:_update_hyper_heuristic"]}
{"id": "C44", "title": "Argument checks", "statement": "solve() raises TypeError exactly for non-integer or non-positive num_stops/load_capacity/duration values, ValueError for an unknown pricing strategy or inconsistent mixed-fleet dimensions, TypeError for scalar costs in a mixed fleet; 0 and None mean unlimited.", "quantifier": "every argument combination", "why_tests_cant": "infinite domain", "anchors": ["vrpy/checks.py:check_arguments", "vrpy/vrp.py:_format", "vrpy/vrp.py:_define_vehicle_types"]}
{"id": "C45", "title": "Cost vectors have one entry per vehicle type", "statement": "After the checks of solve() every arc has exactly one cost per vehicle type, so cost lookups by type never fail.", "quantifier": "every accepted problem", "why_tests_cant": "all graphs", "anchors": ["vrpy/vrp.py:_format", "vrpy/checks.py:check_arguments", "vrpy/vrp.py:_update_dummy_attributes"]}
{"id": "C46", "title": "Fixed costs are charged once per route", "statement": "On the first solve() each route's cost is its edge cost plus exactly one fixed cost of its vehicle type.", "quantifier": "every route", "why_tests_cant": "all routes", "anchors": ["vrpy/vrp.py:_add_fixed_costs", "vrpy/vrp.py:best_routes_cost"]}
{"id": "C47", "title": "Missing attributes get neutral defaults", "statement": "Missing demand, collect, service_time, lower, upper become 0, frequency 1, edge time 0; given values are kept except a positive demand at Source or Sink, which is ignored; a Source-Sink arc of cost 0 is added if missing.", "quantifier": "every graph", "why_tests_cant": "all graphs", "anchors": ["vrpy/vrp.py:_set_zero_attributes", "vrpy/vrp.py:_set_time_to_zero_if_missing", "vrpy/vrp.py:_update_dummy_attributes"]}
{"id": "C48", "title": "An unset Sink window never blocks the way home", "statement": "If the Sink has no (or zero) upper window, it is set so that a vehicle on time at its last customer always reaches the Sink on time, and no smaller value has that property.", "quantifier": "every graph", "why_tests_cant": "all graphs", "anchors": ["vrpy/vrp.py:_readjust_sink_time_windows"]}
{"id": "C49", "title": "Feasibility check", "statement": "solve() raises ValueError exactly when some demand exceeds the largest capacity, or duration is set and some customer cannot be reached and left within duration along fastest paths.", "quantifier": "every graph", "why_tests_cant": "all graphs", "anchors": ["vrpy/checks.py:check_feasibility"]}
{"id": "C50", "title": "Pickup and delivery", "statement": "Each feasible point of the LP pricing problem with pickup_delivery is a route on which pickup and delivery of a request are both present or both absent, pickup first, and the load after each stop stays between 0 and load_capacity, and is 0 at the end.", "quantifier": "every network and MIP point", "why_tests_cant": "all solver answers", "anchors": ["vrpy/subproblem_lp.py:_add_pickup_delivery"]}
{"id": "C51", "title": "LP pricing with simultaneous distribution and collection", "statement": "Each feasible point of the LP pricing problem with distribution_collection is a route on which goods on board never exceed load_capacity, and every such route is feasible.", "quantifier": "every network and MIP point", "why_tests_cant": "all solver answers", "anchors": ["vrpy/subproblem_lp.py:_add_distribution_collection"]}
{"id": "C52", "title": "Minimising the global span", "statement": "With minimize_global_span the master objective is the largest cost of a selected route, whatever the number of columns.", "quantifier": "every pool of columns", "why_tests_cant": "pool sizes beyond toy tests", "anchors": ["vrpy/master_solve_pulp.py:_add_makespan_variable", "vrpy/master_solve_pulp.py:_add_maximum_makespan_constraints"]}
{"id": "C53", "title": "Diving returns a valid solution", "statement": "solve(dive=True) returns routes visiting each customer exactly once.", "quantifier": "every relaxed solution", "why_tests_cant": "all", "anchors": ["vrpy/master_solve_pulp.py:get_total_cost_and_routes", "vrpy/master_solve_pulp.py:solve_and_dive", "vrpy/restricted_master_heuristics.py:run_dive"]}
{"id": "C54", "title": "Relaxation is a lower bound", "statement": "When exact pricing finds no route of negative reduced cost, the dual value of the relaxed master is a lower bound on the cost of every feasible set of routes.", "quantifier": "every instance, dual solution and feasible plan", "why_tests_cant": "optimality over all plans", "anchors": ["vrpy/vrp.py:_find_columns", "vrpy/subproblem.py:add_reduced_cost_attribute"]}
{"id": "C55", "title": "End to end: a plain CVRP solve returns a feasible plan", "statement": "A first solve() of a CVRP (capacity and/or stops, no dive, any pricing strategy) that returns yields routes that are simple Source-Sink paths, visit each customer exactly once or drop it, respect capacity and stops, and best_value is their cost.", "quantifier": "every network, every behaviour of the LP/MIP/label solvers within their contract, any number of iterations", "why_tests_cant": "whole-pipeline universality", "anchors": ["vrpy/vrp.py:solve"]}
{"id": "C56", "title": "The initial solution covers every customer", "statement": "When the user gives no initial routes, the initial solution computed by solve() (Clarke & Wright and greedy, or round trips, or one route per request) never fails, consists of simple Source-Sink routes of the network, visits every customer (every request for pickup and delivery), and becomes columns numbered 1, 2, ... that encode these routes.", "quantifier": "every network, every flag combination, every tie-breaking of the heuristics", "why_tests_cant": "all networks and orders", "anchors": ["vrpy/vrp.py:_get_initial_solution", "vrpy/vrp.py:_convert_initial_routes_to_digraphs", "vrpy/clarke_wright.py:_RoundTrip"]}
{"id": "C57", "title": "The master problem starts feasible", "statement": "The relaxed master problem built from the initial solution always has a feasible point (unless use_all_vehicles), whatever the fleet bound; without a fleet bound the final integer master has one too.", "quantifier": "every network, fleet, and initial solution covering the customers", "why_tests_cant": "existence of LP points for all instances", "anchors": ["vrpy/master_solve_pulp.py:_formulate", "vrpy/master_solve_pulp.py:_add_artificial_variables"]}
{"id": "C58", "title": "use_all_vehicles makes empty routes expensive, and nothing else", "statement": "With use_all_vehicles the Source-Sink arc of the search network costs 1e10 for every vehicle type after pre-processing; all other arcs keep their costs, and without the option the Source-Sink arc keeps its cost too.", "quantifier": "every problem", "why_tests_cant": "all problems and fleets", "anchors": ["vrpy/vrp.py:_pre_solve"]}
{"id": "C59", "title": "Column generation terminates", "statement": "The column generation loop of solve() terminates for every behaviour of the pricing problem within its contract, without time or iteration limits.", "quantifier": "every network and every execution", "why_tests_cant": "termination", "anchors": ["vrpy/vrp.py:solve", "vrpy/vrp.py:_column_generation", "vrpy/subproblem_cspy.py:_add_new_route"]}
{"id": "C60", "title": "solve() with time windows returns routes that are on time", "statement": "When solve() returns for a problem with time windows, the reported routes form a plan for the user's problem (every customer once or dropped, fleet, stops, capacity) and on every route every node is reached no later than the user's closing time when the vehicle leaves Source at its opening time and waits where it is early.", "quantifier": "every graph, windows, times, service times, every solver behaviour within its contract", "why_tests_cant": "all graphs, windows and executions of column generation", "anchors": ["vrpy/vrp.py:solve", "vrpy/vrp.py:_remove_infeasible_arcs_time_windows", "vrpy/subproblem_cspy.py", "vrpy/vrp.py:_get_initial_solution"]}
{"id": "C61", "title": "solve() with distribution and collection never overloads a vehicle on the way", "statement": "When solve() returns for a problem with simultaneous distribution and collection, the reported routes form a plan for the user's problem and on every leg of every route the goods already collected plus those still to be delivered fit into the vehicle.", "quantifier": "every graph, demands, collects, fleets, every solver behaviour within its contract", "why_tests_cant": "all graphs and executions of column generation", "anchors": ["vrpy/vrp.py:solve", "vrpy/subproblem_cspy.py", "vrpy/vrp.py:_get_initial_solution", "vrpy/checks.py:check_feasibility"]}
{"id": "C62", "title": "solve() respects the duration", "statement": "When solve() returns for a problem with a duration limit, no reported route takes longer (travel and service times) than the limit.", "quantifier": "every graph, times, service times, every solver behaviour within its contract", "why_tests_cant": "all graphs and executions of column generation", "anchors": ["vrpy/vrp.py:solve", "vrpy/subproblem_cspy.py", "vrpy/clarke_wright.py", "vrpy/checks.py:check_feasibility"]}
{"id": "C63", "title": "solve() with pickup and delivery returns a plan in which requests are served as a whole", "statement": "When solve() returns for a problem with pickup and delivery, the reported routes form a plan for the user's problem: every node is on exactly one route or reported as dropped; pickup and delivery of a request are on the same route, the pickup first, or both dropped; what is on board is never negative, never more than the vehicle can carry, and nothing at the end; stops, fleet, time windows and duration are respected.", "quantifier": "every graph, requests, demands, fleets, windows, every pricing strategy and every behaviour of the LP solver within its contract", "why_tests_cant": "all graphs, requests and executions of column generation", "anchors": ["vrpy/vrp.py:solve", "vrpy/vrp.py:_get_initial_solution", "vrpy/subproblem_lp.py"]}
{"id": "C64", "title": "Trips for single requests are accepted exactly if they are on time", "statement": "With pickup and delivery and time windows, _get_initial_solution gives every request its own trip if all these trips can be driven on time, and raises ValueError otherwise.", "quantifier": "every network, requests, windows, travel and service times", "why_tests_cant": "all networks and windows", "anchors": ["vrpy/vrp.py:_get_initial_solution", "vrpy/checks.py:check_pickup_delivery_time_windows", "vrpy/vrp.py:_remove_infeasible_arcs_time_windows"]}
{"id": "C65", "title": "heuristic_only returns a plan for the user's problem", "statement": "For a capacitated problem with one vehicle type solve(heuristic_only=True) returns once preprocessing raised nothing, its routes are numbered 0,1,..., solve the user's problem (each customer exactly once, arcs of the graph, capacity, stops, duration, number of vehicles, preassigned routes), and best_value is their cost; for time windows, pickup and delivery, distribution and collection, mixed fleets and periodic problems it raises ValueError.", "quantifier": "every network, every combination of limits, every order of sets", "why_tests_cant": "all networks and merge orders", "anchors": ["vrpy/vrp.py:solve", "vrpy/vrp.py:_solve_with_clarke_wright", "vrpy/checks.py:check_clarke_wright_compatibility", "vrpy/clarke_wright.py:_ClarkeWright"]}
{"id": "C66", "title": "A periodic problem gets a periodic plan with a schedule", "statement": "With periodic set, a first solve() that returns reports feasible routes on which each customer is visited exactly frequency times (or dropped and then not visited), and a schedule that drives every route on one day of the horizon, visits no customer with demand twice a day, and uses no more than num_vehicles[k] vehicles of type k on any day, as balanced as possible; best_value is what the routes cost plus penalties.", "quantifier": "every capacitated periodic problem, arguments of solve() and behaviour of the solvers", "why_tests_cant": "all problems and solver answers", "anchors": ["vrpy/vrp.py:_post_process", "vrpy/schedule.py:_Schedule", "vrpy/checks.py:check_periodic_num_vehicles", "vrpy/master_solve_pulp.py:_add_artificial_variables"]}
{"id": "C67", "title": "check_arrival_time and check_departure_time accept what solve() returns", "statement": "For simple routes, check_arrival_time passes exactly if every node of every route is in the pruned graph and reached within the window it has there, check_departure_time exactly if every node is in it and not left before it opens there; a passed check_arrival_time means that every route is on time for the user's windows. After solve() on a problem with time windows whose times make sense (triangle inequality at the depots, non-empty window of Source), both checks pass. With partial preassigned routes they pass as well; after a solve() with a complete preassigned route that visits a customer both checks raise an exception.", "quantifier": "all networks and simple routes; all problems with time windows whose times make sense, all runs of solve() with cspy or LP pricing, with or without diving, with or without preassigned routes", "why_tests_cant": "The checks compare times in one network with windows in another one that the preprocessing has changed; whether they can fail on a correct solution depends on an inequality over all pairs of customers.", "anchors": ["vrpy/vrp.py:arrival_time", "vrpy/vrp.py:check_arrival_time", "vrpy/vrp.py:check_departure_time", "vrpy/vrp.py:_remove_infeasible_arcs_time_windows"]}
{"id": "C68", "title": "Preassigned complete routes come back unchanged and the rest is planned around them", "statement": "A first solve() with preassigned routes that returns reports exactly the complete preassigned routes, unchanged and in their order, each with a cheapest vehicle able to carry its load, plus feasible routes that avoid their customers and visit every other customer exactly once or drop it; best_value is what all these routes cost in the user's data plus penalties. If the preassigned routes share no customers, every customer is visited exactly once or dropped. If no customer is left, exactly the preassigned routes are reported.", "quantifier": "every capacitated problem, every problem with time windows or collection, every problem with pickup and delivery whose preassigned routes serve requests as a whole; all preassigned routes, arguments of solve() and behaviours of the solvers", "why_tests_cant": "all problems, preassigned routes and solver answers", "anchors": ["vrpy/vrp.py:_lock", "vrpy/vrp.py:best_routes_cost", "vrpy/vrp.py:_best_routes_as_node_lists", "vrpy/vrp.py:_solve"]}
{"id": "C69", "title": "Time limit", "statement": "With a time limit every solve() ends, whatever the problem, the way of pricing and the answers of the solvers: column generation stops after the first iteration that ends when the limit is over, never earlier because of the time, and no solver is given more time than remains (the final MIP at least five seconds). Without a limit, or with limit zero, it never stops because of the time.", "quantifier": "all problems, all arguments, all solver answers, all clocks that advance by some fixed positive amount per external call", "why_tests_cant": "the moment at which a limit runs out depends on the machine; tests use generous limits and never see the last half second or an iteration that overruns", "anchors": ["vrpy/vrp.py:_get_time_remaining", "vrpy/vrp.py:_column_generation", "vrpy/subproblem_cspy.py:solve", "vrpy/subproblem_lp.py:solve"]}
{"id": "C70", "title": "Lower bound of a run", "statement": "When solve() with LP pricing and a fixed strategy ends by itself (no time or iteration limit reached), the last value of _lower_bound is a lower bound for the cost of every solution of the user's problem, drop penalties included, up to 1/1000 per vehicle (the threshold below which columns are ignored); so best_value minus that bound bounds the distance of the reported solution from the optimum.", "quantifier": "all graphs, capacities, stop and duration limits, fleets, fixed costs and drop penalties, with or without collection, time windows, requests, periodic or not, with or without diving; all solutions of the problem; all exact solvers", "why_tests_cant": "optimality needs a comparison with every solution; tests compare with one known best value on a few small graphs", "anchors": ["vrpy/vrp.py:_find_columns", "vrpy/vrp.py:_column_generation", "vrpy/subproblem_lp.py:solve", "vrpy/master_solve_pulp.py:get_duals", "vrpy/vrp.py:best_value"]}
{"id": "C71", "title": "Greedy pricing goes to one of the five best neighbours", "statement": "Every column added by the randomised greedy pricing is a path each of whose steps (read from Source for a forward run, backwards from Sink for a backward run) goes to a node the path can be extended by (new node, load and travel time within the limits) such that fewer than five such nodes have a smaller reduced cost; only the closing leg of a forward route with num_stops customers is not chosen. Conversely every route of negative reduced cost with fewer than num_stops customers, each of whose steps goes to a node with fewer than five other candidates at least as good, is added by the forward runs for suitable random choices.", "quantifier": "every network, weights, limits and sequence of random choices; for the converse every such route", "why_tests_cant": "The choices are random: a test sees one sequence, and that a route can never be found is invisible.", "anchors": ["vrpy/subproblem_greedy.py:_get_next_node", "vrpy/subproblem_greedy.py:_get_previous_node", "vrpy/subproblem_greedy.py:_update", "vrpy/subproblem_greedy.py:_constraints_met"]}
{"id": "C72", "title": "cspy pricing searches at most twice", "statement": "Pricing with cspy searches at most twice. Unless elementary paths are asked for from the start (option elementary, or simultaneous distribution and collection) the first search admits repeated customers; the dearer search for elementary paths is made only if the first one found a path of negative reduced cost that is in the pool already. At most one column is added; it is made of a path of negative reduced cost that is not in the pool. If none is added, the first search found no path of negative reduced cost, or the search for elementary paths was made and found none that is new.", "quantifier": "all pricing problems, pools of columns and answers of cspy", "why_tests_cant": "the second search only happens when cspy returns a path that is in the pool already, which no test provokes on purpose", "anchors": ["vrpy/subproblem_cspy.py:solve", "vrpy/subproblem_cspy.py:add_new_route"]}
{"id": "C73", "title": "Lower bound with cspy pricing", "statement": "If pricing with cspy adds no column, no simple route within the limits has a reduced cost below -1/1000; so, when column generation with cspy pricing ends by itself, the last value of _lower_bound is a lower bound for the cost of every solution, up to 1/1000 per vehicle.", "quantifier": "all networks, limits, pools of columns, dual values, exact answers of cspy; all solutions", "why_tests_cant": "tests compare with one known best value on a few small graphs; a bound that is too large shows only in comparison with every solution", "anchors": ["vrpy/subproblem_cspy.py:solve", "vrpy/subproblem_cspy.py:add_new_route", "vrpy/vrp.py:_find_columns", "vrpy/vrp.py:_column_generation", "vrpy/master_solve_pulp.py:get_duals"]}
{"id": "C74", "title": "The hyper-heuristic knows who found what", "statement": "During column generation every column found by a pricing problem carries the name of the heuristic one of whose pricing problems found it; the initial columns and those found by greedy pricing carry none. The distribution given to the hyper-heuristic counts every selected column exactly once. added_columns counts for each heuristic the columns its pricing problems found (the last one is credited in the following round).", "quantifier": "all states of all runs, with and without diving; all answers of the solvers", "why_tests_cant": "a wrong credit does not make a run fail, it only changes which heuristic is chosen later", "anchors": ["vrpy/vrp.py:_find_columns", "vrpy/vrp.py:_get_next_pricing_strategy", "vrpy/vrp.py:_update_hyper_heuristic", "vrpy/master_solve_pulp.py:get_heuristic_distribution", "vrpy/hyper_heuristic.py:update_parameters"]}
{"id": "C75", "title": "What diving fixes", "statement": "One dive fixes at most one variable of the master problem, to 1: its value is fractional, it was never tried before, no other such variable is nearer to an integer, and the problem with the variable fixed can be solved. If none is fixed, four variables were tried before, or no untried variable has a fractional value, or the problem with the best candidate fixed cannot be solved. AttributeError is raised exactly if the latter happens at the first node. solve(dive=True) tries to fix at most four variables, none twice and none that an earlier run tried.", "quantifier": "all master problems, points, states of the heuristic; all runs and answers of the solvers", "why_tests_cant": "a dive that fixes another variable still ends with some solution; tests only look at the routes of small instances that are integral anyway", "anchors": ["vrpy/restricted_master_heuristics.py:run_dive", "vrpy/master_solve_pulp.py:solve_and_dive", "vrpy/vrp.py:_solve"]}
{"id": "C76", "title": "The savings heuristic", "statement": "The Clarke & Wright heuristic starts with one route per customer, offers every arc between customers exactly once, by non-increasing savings cost(i, Sink) + cost(Source, j) - alpha * cost(i, j), equal savings in the order of the graph, and joins a customer who is still alone to the end of the route ending with i, or to the beginning of the route beginning with j, whenever the joined route respects capacity, number of stops and duration. What it returns are the routes left at the end. In particular the arc with the greatest saving is driven if its two customers fit on one route. The initial solution of a capacitated problem contains exactly the routes found with alpha = 1/10, ..., 19/10 and those of the greedy heuristic; solve(heuristic_only=True) returns the routes found with alpha = 1.", "quantifier": "all networks, limits, weights, iteration orders of sets; symmetric times if there is a maximum duration", "why_tests_cant": "a heuristic that offers the arcs in another order, or refuses a join the limits allow, still returns feasible routes; tests compare a few values after column generation", "anchors": ["vrpy/clarke_wright.py:_get_savings", "vrpy/clarke_wright.py:_process_edge", "vrpy/clarke_wright.py:run", "vrpy/vrp.py:_get_initial_solution", "vrpy/vrp.py:_solve_with_clarke_wright"]}
{"id": "C77", "title": "One graph, several problems", "statement": "The caller's graph can be used for one VehicleRoutingProblem after another: whatever objects were built on it and solved before, the next problem built on it presents to the solver (network, arc costs, limits, fleet, first columns) what it would present on a fresh copy of the graph.", "quantifier": "every graph, every sequence of objects and calls, every next problem", "why_tests_cant": "every test builds its own graph; the object keeps the caller's graph and changes it in place (attributes, costs, arcs, nodes), so the effect shows only across objects", "anchors": ["vrpy/vrp.py:__init__", "vrpy/vrp.py:_pre_solve", "vrpy/vrp.py:_prune_graph", "vrpy/vrp.py:_update_dummy_attributes", "vrpy/vrp.py:_add_fixed_costs", "vrpy/vrp.py:_lock", "vrpy/checks.py:check_vrp"]}
{"id": "C78", "title": "The threshold of the search for elementary paths", "statement": "cspy may stop the search for elementary paths at a threshold, the smallest reduced cost of an arc times the average length of the paths found so far; stopping early does not end column generation too soon: if pricing adds nothing, no route within the limits has a negative reduced cost (up to the tolerance 1/1000), and the lower bound is one.", "quantifier": "every pricing problem, every labelling algorithm that stops at the threshold, every run with one vehicle type and a fixed strategy", "why_tests_cant": "whether cspy stops early depends on the order in which it extends labels; tests compare only final costs on small instances, where reduced costs are large", "anchors": ["vrpy/subproblem_cspy.py:solve", "vrpy/subproblem_cspy.py:_avg_path_len", "vrpy/subproblem_cspy.py:_iters"]}
{"id": "C79", "title": "Heuristic pricing widens its search", "statement": "For one vehicle type, a pricing heuristic searches 3, 5, 7, 9 paths, or the arcs of cost at most 30%, 50%, 70%, 90% of the largest dual value, or the best 10%, 20%, 30% of the arcs between customers, in this order, until a column is found; without the hyper-heuristic the whole graph comes last. Each search looks at a part of the graph of every later one, with the same reduced costs. A round that finds no column has made all of these searches for every vehicle type. In a first solve() with a named strategy every round of column generation before diving prices with that strategy, except when exactly the last run_exact + 1 values of the relaxation are equal: then it is exact.", "quantifier": "every network, dual values, vehicle type, heuristic, master and pricing solver, every round", "why_tests_cant": "a search left out or made in another order changes only running time and the sequence of columns on the instances of the tests; the optimum is the same", "anchors": ["vrpy/vrp.py:_solve_subproblem_with_heuristic", "vrpy/vrp.py:_attempt_solve_best_paths", "vrpy/vrp.py:_attempt_solve_best_edges1", "vrpy/vrp.py:_attempt_solve_best_edges2", "vrpy/subproblem.py:remove_edges_1", "vrpy/subproblem.py:remove_edges_2", "vrpy/subproblem.py:remove_edges_3", "vrpy/vrp.py:_get_next_pricing_strategy"]}
{"id": "C80", "title": "The hyper-heuristic while diving", "statement": "Every dive restarts the hyper-heuristic with the objective just obtained. So while diving every use and every new column is booked on BestPaths, whichever heuristic was run, no decrease of the objective is ever seen, and the learning rate falls by 0.1 with every update, to no less than 0.1.", "quantifier": "every number of rounds of diving, every solver, every state of the hyper-heuristic", "why_tests_cant": "the scores are internal; tests with dive=True check only the solution", "anchors": ["vrpy/vrp.py:_find_columns", "vrpy/vrp.py:_update_hyper_heuristic", "vrpy/hyper_heuristic.py:init", "vrpy/hyper_heuristic.py:current_performance"]}
{"id": "C81", "title": "The measure \"relative_improvement\" of the hyper-heuristic", "statement": "With performance_measure_type=\"relative_improvement\" the hyper-heuristic can be updated and asked for a heuristic the way the column generation does it; the improvement of the runtime is a percentage between 0 and 100, the average runtime is the mean of the recent runtimes, and the acceptance types do what they say.", "quantifier": "every start_computing_average and scaling factor, every order of calls of init, current_performance, update_parameters and pick_heuristic, all objective values, measured runtimes and random numbers", "why_tests_cant": "No test uses this measure, and the attributes depend on the whole history of calls: the failures depend on which numbers were passed before, the average on all runtimes of a stretch.", "anchors": ["vrpy/hyper_heuristic.py:117-133", "vrpy/hyper_heuristic.py:157-218", "vrpy/hyper_heuristic.py:240-256", "vrpy/hyper_heuristic.py:286-320"]}
{"id": "C82", "title": "The benchmark files", "statement": "The rows of a Solomon or Augerat file (depot first, names different) become the network they describe: Source, Sink and the customers, an arc between any two nodes except into Source and out of Sink, cost (and time) the rounded Euclidean distance, demands, windows and service times as in the file; a demand for an unknown node is a KeyError.  The problem built from it is accepted by the constructor, and when solve() (cspy or LP, with or without initial routes, no diving and no preassigned routes) returns, the routes visit every customer of the file once, within capacity, on time (Solomon), and best_value is the sum of the rounded distances driven.", "quantifier": "every list of rows, all coordinates, demands, windows and capacities, all solvers within their contracts", "why_tests_cant": "The tests load two files; rounding breaks the triangle inequality only for particular coordinates, and a wrong renumbering shows only with particular names.", "anchors": ["benchmarks/solomon_dataset.py:10-102", "benchmarks/augerat_dataset.py:10-116", "benchmarks/utils/distance.py:4-17"]}
{"id": "C83", "title": "Searching from both ends (REF_bwd, REF_join)", "statement": "If cspy searched from both ends with the custom resource functions, joining a forward label for Source..i and a backward label for j..Sink would give the number of legs and the load of the whole route, and all labels would be within the limits exactly if the route is on time and the goods on board fit into the vehicle everywhere.", "quantifier": "every network, every route, every leg at which the labels are joined", "why_tests_cant": "The functions are never called (the search is forward only when they are installed), so no test reaches them.", "anchors": ["vrpy/subproblem_cspy.py:74-143", "vrpy/subproblem_cspy.py:216-225"]}
{"id": "C84", "title": "Routes reported after LP pricing, whatever the solver answers", "statement": "In a capacitated problem (also periodic, with a mixed fleet, drop penalties, diving) or one with time windows, solved with LP pricing and without preassigned routes: whatever feasible points the solver of the pricing problems returns - also points with cycles beside the route, which can make the plan leave customers out - every route reported is a simple route from Source to Sink over the user's arcs within the limits on stops, load of its vehicle type and (with symmetric times, round trips that fit, no greedy pricing) duration, and on time; without diving and periodic visits no customer is visited twice or both visited and dropped; and best_value is what the routes and penalties cost.", "quantifier": "every user graph, all options in scope, every solver that returns feasible points of the LPs it is given (optimal or not), every shortest path picked from a column, all negative-cycle answers", "why_tests_cant": "CBC returns points with cycles only for particular ties or when the negative-cycle test errs; the tests have none.", "anchors": ["vrpy/subproblem_lp.py:33-73", "vrpy/subproblem_lp.py:80-263", "vrpy/vrp.py:264-300", "vrpy/vrp.py:1126-1150"]}
{"id": "C85", "title": "All reports after a run, in the user's data", "statement": "After a first solve(), whatever its options and the answers of the solvers: if every reported route starts at Source, visits different customers, ends at Sink, drives along arcs of the user's graph (completed with depot arcs) and has a vehicle type, then all reports are computed without an exception (except node_load of a collecting problem without a capacity, which raises TypeError) and give what follows from the user's data: best_routes_cost the cost of the legs for the vehicle type, fixed cost included; best_value their sum or maximum plus the penalties; best_routes_load the demands (empty with collection or pickup and delivery); best_routes_duration travel plus service times; arrival_time and departure_time the schedule that waits for the windows; node_load the running load. Runs on capacitated problems, with time windows or collection, with requests, with preassigned routes and with heuristic_only report such routes.", "quantifier": "all user problems with a well-formed graph, costs as documented and demands not negative, all options of solve(), all answers of the solvers", "why_tests_cant": "The reports read the network that _pre_solve made, after fixed costs were added, depot arcs made, demands overwritten and limits changed; a test compares a few runs with numbers worked out by hand, not every report of every run with the user's data.", "anchors": ["vrpy/vrp.py:265-409", "vrpy/vrp.py:1128"]}
{"id": "C86", "title": "The schedule reported belongs to the last call", "statement": "After any solve() that returns, whatever was called and changed on the object before: schedule is None if the problem is not periodic; otherwise it is empty, or it drives exactly the routes reported by this call, each on one day of range(periodic), with at most num_vehicles[k] vehicles of type k a day (num_vehicles as it stands when solve() is called), and with one visit a day of each customer with demand that no route visits twice.", "quantifier": "every object (any history), arguments and solver answers", "why_tests_cant": "all histories and solver answers; the tests solve each periodic problem once", "anchors": ["vrpy/vrp.py:schedule", "vrpy/vrp.py:_post_process", "vrpy/schedule.py:routes_per_day", "vrpy/checks.py:check_periodic_num_vehicles"]}
{"id": "C87", "title": "The choices of the hyper-heuristic follow from its history", "statement": "With pricing_strategy 'Hyper', the score of each heuristic is a function of the rounds so far: 10^10 for one not tried yet; otherwise, weighted with the learning rate (0.99 after a round that found a column and decreased the value of the relaxation, else 0.1 less than before, at least 0.1), 0.5 times its share of the selected columns, 0.1 times the share of the rounds that took longer than its last one, 0.05 times its share of the total decrease of the value and 0.05 times the share of its columns that are selected, and weighted with the rest 0.3 times its share of the exploration terms. The first round of a solve() is run with BestPaths and each later one with a heuristic of the highest score.", "quantifier": "every history of rounds, solver answers and clock readings; every tie-break of the random choice", "why_tests_cant": "the tests check two scores after hand-written updates; the recurrences over arbitrarily long histories and all clock readings cannot be enumerated", "anchors": ["vrpy/hyper_heuristic.py:pick_heuristic", "vrpy/hyper_heuristic.py:_update_params", "vrpy/hyper_heuristic.py:_current_performance_wgtavr", "vrpy/vrp.py:_get_next_pricing_strategy"]}
