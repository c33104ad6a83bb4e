# Formal model of Kuifje02/vrpy in Lean 4 — design

## Trusted base
* The Lean 4.33.0 kernel.
* Axioms: every property theorem depends on at most `propext`, `Classical.choice` and `Quot.sound`. There are no own
  axioms, no `sorry`, no `native_decide`, no `bv_decide`. `lean/Verif/Axioms.lean` prints the axioms of each theorem in
  `MANIFEST.json` during the build.
* The reading of the Python code in `/repo/vrpy` into the definitions under `lean/Verif/Model/`. Every definition cites
  file and lines. Nothing was executed; the tie is by reading.
* The specification vocabulary: `lean/Verif/Spec*.lean` and the `Spec.` definitions at the head of the Props files.
* The contracts below. They are hypotheses of the theorems that need them, never axioms. Beside the theorems there are
  examples in which they hold.

### Contracts of external code
| name | where | says |
|------|-------|------|
| `CWOracle.Valid` | Props/ClarkeWright | a Python `set` is iterated in some order; `shortest_path` finds a fewest-edge path |
| `Spec.IsFastest` | Props/Feasibility | `shortest_path_length` is the length of a lightest walk |
| `Spec.PathsOk`, `Spec.BestSimplePaths` | Proofs/EndToEnd, Props/Pricing | `shortest_simple_paths` yields simple Source–Sink paths (best first) |
| `Spec.SolverSound`, `Spec.SolverExact` | Props/PricingLP | pricing MIP: the values satisfy the problem; (exact) they are optimal and "infeasible" is true |
| `Spec.CspySound` | Props/Cspy | cspy returns a path of the graph within the limits under the resource function in force |
| `Spec.WorldOk`, `Spec.LpSound`, `Spec.LpWorldOk` | Props/EndToEnd, EndToEndWindowsLP, EndToEndLP | the above for all solvers called in one `solve()` |
| `Spec.DualsOk`, `Spec.Complementary` | Props/Solve, Proofs/Termination | LP duality, resp. complementary slackness, for the relaxed master |
| `Spec.RelaxedExact` | Props/TerminationValue | an answer to a relaxed master problem called optimal is optimal |
| `Spec.PricesRoutes` | Proofs/Termination | LP pricing yields routes only: the test for negative cycles always succeeds (cycles are then excluded by constraints), or it is right, cycles cost more than nothing and the solver is exact |
| `Spec.DiveOk` | Proofs/DiveRun | while diving, a problem reported as solvable is feasible, and a feasible bounded problem is solved |
| `Spec.DiveSigned` | Props/EndToEndDiveLP | while diving, "at most that many vehicles" has no positive dual value |
| `Spec.OptionDuals` | Props/EndToEndLP | with `use_all_vehicles` or the global span: the span constraints have no positive dual values, one more vehicle is not worth a trip without customers (price 1e10) |
| `Spec.DualsAsExpected` | Props/TerminationDive | the dual values on the way of one `solve()` are `Complementary`, also while diving |
| `Spec.ScheduleOk` | Props/EndToEndPeriodic | the schedule MIP, if optimal, satisfies its constraints |

`random.choice`, numpy's `choice`, `time()` and the square roots and logarithms of the hyper-heuristic are arbitrary oracles.

## Numbers and data
Python ints and floats are exact rationals `ℚ` (ints are `Int`/`Nat` where the code needs ints, e.g. the knapsack).
Rounding, inf and nan are not modelled. Node labels are `Source`, `Sink` and an unbounded supply of customers. Exceptions
are values (`Py α = Except PyErr α`). Loops without an obvious bound take fuel; theorems show that the fuel suffices
(C11, C12, C59, C69).

## Layout
* `Verif/Model/*.lean` – the model, one file per Python module or stage.
* `Verif/Spec*.lean` – the specification vocabulary (route, load, cost, duration, arrival, ...), independent of the model.
* `Verif/Proofs/*.lean` – helper lemmas and invariants.
* `Verif/Props/*.lean` – the property theorems, named `Cnn_...`, with satisfiability examples beside them.
* `seeded/LOG.jsonl` – wrong programs tried against the theorems.

## What is modelled
| Python | Lean | not modelled |
|--------|------|--------------|
| `checks.py` | Model/Checks | `check_seed`; warnings; `isinstance` tests on the graph |
| `preprocessing.py` | Model/Preprocessing | the write-only table `added` |
| `clarke_wright.py` | Model/ClarkeWright (heap of mutable route graphs) | `_format_cost` (costs are lists by then) |
| `greedy.py` | Model/Greedy | `_format_cost` |
| `vrp.py` constructor, `_pre_solve` and its helpers, `_lock`, `_format` | Model/PreSolve, Model/Prune | half-updated objects after an exception; aliasing of the user's cost lists |
| `vrp.py` initial routes and columns | Model/Columns | |
| `vrp.py` reports (`best_value`, `best_routes_*`, `node_load`, `arrival_time`, `departure_time`, `check_*_time`, `schedule`) | Model/Reports, Model/ObjectReports | the reports before a first `solve()` (no `_H`) are not modelled |
| `vrp.py` `_find_columns`, `_column_generation`, `_solve` | Model/Solve | logging; for the loop itself `_get_time_remaining` (Model/Time; an oracle says when time is up, C69 ties the two) |
| `vrp.py` `solve()`, `_post_process`, state between calls | Model/Object | the graph object shared with the user is modelled for problems solved one after another (C77), not for changes by the user between calls |
| `subproblem.py` | Model/Pricing | `discard_nodes` (never called) |
| `subproblem_greedy.py` | Model/GreedyPricing | `_check_time_windows` (never called) |
| `subproblem_lp.py` | Model/LP, Model/PricingLP (explicit MIP) | `exact=False` with `_update_prob` (never called); solver options |
| `subproblem_cspy.py` | Model/Cspy, Model/Threshold, Model/CspyBack (`REF_bwd`, `REF_join`, never called) | |
| `master_solve_pulp.py`, `masterproblem.py` | Model/Master (explicit LP/MIP) | solver options, time limits, PuLP name collisions |
| `restricted_master_heuristics.py` | Model/Dive | |
| `schedule.py` | Model/Schedule (explicit MIP) | solver options |
| `hyper_heuristic.py` | Model/Hyper (weighted average, the measure in use), Model/HyperRel (`relative_improvement`, never selected; `move_acceptance`, its result is not used) | the seed |
| `benchmarks/solomon_dataset.py`, `augerat_dataset.py`, `utils/distance.py` | Model/Benchmarks (rows of numbers to `DiGraph`, relabelling, rounded distances) | splitting the text (`read_csv`, `split`), `np.uint32`; the root is exact instead of the nearest double; `benchmarks/run.py` and its csv output |

Not expressible: performance, logging, LP numerics, wall-clock behaviour inside external solvers.

## Properties
| id | model | proof |
|----|-------|-------|
| C01,C02 | `check_vrp` over raw graphs with optional attributes | case analysis + reachability; iff for every error |
| C03,C04 | `_knapsack` as the real 2-D table with wrap-around row −1 | row-by-row induction |
| C05,C06 | arc removal | list sums; induction over the edge loop, counterexample without the triangle inequality |
| C07–C10 | `_ClarkeWright` | invariant: live routes partition the customers and are path graphs; counterexamples |
| C11 | `_Greedy` | invariants; the fuel suffices |
| C12,C13 | `_SubProblemGreedy` with choice oracle | invariants; counterexamples |
| C14,C15 | `_SubProblemBase` | sums over routes; sorted-list facts |
| C16–C18, C50, C51 | `_SubProblemLP._formulate` | flow decomposition with ranks; big-M arguments; with collection and without ranks, dropping the cycles next to the route of least total goods keeps the point feasible (cut argument in `Proofs/GoodsCut.lean`); counterexamples |
| C19–C22 | `REF_fwd`, `formulate` limits | induction over paths |
| C23–C25, C32, C52, C54, C57 | master problem | algebra on 0/1 solutions; weak duality |
| C26–C29, C39–C41, C46 | reports, locking | induction |
| C36–C38, C44, C45, C47–C49, C58 | `_pre_solve`, object state across calls | state machine; counterexamples for stale state |
| C30,C31 | `_Schedule` | 0/1 algebra |
| C33–C35 | column generation | invariant over iterations |
| C42,C43 | `_HyperHeuristic` | invariants, reachable counterexamples |
| C87 | `_HyperHeuristic` and the rounds of a run | scores as a function of the list of rounds; induction over updates, then over the rounds |
| C56 | `_get_initial_solution` | from C07, C11 |
| C59 | column generation | a new route each time, finitely many simple routes; LP pricing without diving: the value of the relaxed master problem does not change when a column is added that is there often enough already |
| C67 | `check_arrival_time`, `check_departure_time` | exact characterisation; window slack of on-time routes |
| C68 | runs with preassigned routes | reduction to the run of the problem without their customers, then the merge |
| C69 | time limit | every iteration calls a solver, so the clock advances; exact remaining time |
| C70 | lower bound of a run | the user's solutions are plans for the network searched, not dearer there; C34, C54, C73; with time windows C06 and C19 |
| C71 | greedy pricing and its five best neighbours | positions in the sorted list of candidates; induction over the run; the converse constructs the random choices |
| C72 | `_SubProblemCSPY.solve` | cases over the two searches |
| C73 | lower bound with cspy pricing | duplicates have no negative reduced cost if the dual values are feasible; C34 and C72; exact labelling oracle for satisfiability |
| C74 | labels and credit of the hyper-heuristic | invariant over the rounds |
| C75 | `run_dive` | first minimum of a list; invariant over the dives of a run |
| C76 | `_ClarkeWright`, initial solution, `heuristic_only` | refinement: the state of the heuristic stands for a map from customers to routes; insertion sort is stable |
| C77 | the caller's graph across objects | invariant: the graph is the completed one with all attributes, less arcs too heavy anyway |
| C78 | pricing with cspy and its threshold | refinement (model with threshold = model without it, for the specialised oracle); C70/C73 with a tolerance for each route |
| C79 | the searches of a pricing heuristic | list induction; monotonicity of the sparsified graphs |
| C80 | the hyper-heuristic while diving | invariant over the rounds |
| C81 | the measure `relative_improvement` | invariants over all histories of calls |
| C82 | benchmark files | loop invariants over the rows; rounding against the Euclidean distance in ℝ; corollaries of C55, C60 |
| C83 | `REF_bwd`, `REF_join` | induction over the backward path: the backward time is the rest of the day after the latest end of service |
| C84 | routes reported after LP pricing | a shortest path in the support of any feasible point is simple and within the limits (its sums are part of those of the point) |
| C85 | all reports after a run | the network kept in `_H` agrees with the user's data on every node and arc; each report is then rewritten |
| C53, C55, C60–C66 | whole runs of `solve()` (diving, plain, time windows, collection, duration, requests, heuristic_only, periodic) | composition: invariant on columns through all stages, then the master's contract; counterexamples as whole runs |

A theorem named `..._partial` proves part of its property; the note in `MANIFEST.json` says what is missing, and a theorem
`..._counterexample` shows where the property is false for the code.

## Findings (each proved as a counterexample unless marked "read")
* C06 window pruning removes feasible routes without the triangle inequality; the first edge is tested with the windows not
  yet strengthened, so the order of nodes matters (C60).
* C09 Clarke & Wright: duration wrong for asymmetric times, round trips unchecked. C10 can be worse than round trips.
* C12, C13 greedy pricing ignores service times and the last leg at the stop limit.
* C17, C55 LP pricing tests only for negative cycles: with a cycle of reduced cost 0 a plan may leave customers out.
* C18 the big-M constant of the time windows can be too small. C51 cycles in distribution and collection.
* C19, C21, C22 cspy: Source opening late, duration without service times, routes longer than half the nodes excluded.
* C26, C38 initial routes are priced for vehicle type 0. C32, C66 fewer visits than the frequency; dropped customers visited.
* C73 with cspy, a route that is in the pool already ends column generation when it is found again; so `_lower_bound` is no
  lower bound when the LP solver returns dual values for `y ≤ 1` (never read), for several vehicle types, and with `greedy`.
* C74 rounds forced to exact pricing by `run_exact` other than 1 are credited to the heuristic of the round before.
* C75 diving fixes the variable nearest to an integer to 1, also if it is near to 0.
* C34, C35 with "Hyper" the search can stop without exact pricing. C43 division by zero, and `TypeError` in second calls.
* C36, C37 second calls: fixed costs twice, periodic fleet lost, windows tightened, preassigned nodes gone, old routes kept.
* C77 `solve()` changes the caller's graph: later problems on it miss arcs (smaller vehicles, time windows) and preassigned
  customers, pay fixed costs of earlier problems, and pay for vehicles that stay at the depot.
* C78 `_avg_path_len` is always 1 when it is read (a new object for every pricing problem), so the threshold is the smallest
  reduced cost of an arc; stopping there can hide routes with reduced costs down to -1/1000 for each arc.
* C80 `hyper_heuristic.init` in every dive (`vrpy/vrp.py:553-554`) overwrites the current heuristic and the objective: while diving,
  columns found by other heuristics are credited to BestPaths, and before the first dive a column that does not exist.
* C81 with `relative_improvement` the first update raises `TypeError` (`iteration` is `None`), and so does the second (`average_runtime` is `None`).
* C82 rounded distances violate the triangle inequality by 1; in a Solomon file without service times that makes a customer's tightened window empty, and `solve()` fails although there is a plan (with service ≥ 1 for every customer this cannot happen).
* C83 `REF_bwd` checks the window of the wrong node (late routes are accepted, routes on time refused) and counts deliveries twice. The functions are never called.
* C40 `node_load` for collection starts from the capacity. C52 columns from number 75 on are unusable for the global span.
* C53 diving may visit a customer twice. C57 `use_all_vehicles` may make the master infeasible.
* C59 LP pricing does not look whether a route was found before: with routes of negative cost `solve()` never returns.
* C61, C62 round trips are not checked for collect and duration including service; whole runs exceed the duration with cspy
  (service times) and with `greedy` (last leg).
* C63, C64 pickup and delivery: fleet, stops, amounts, shared deliveries; the check of single trips ignores service.
* C86 a second `solve()` of a periodic problem schedules without regard to `num_vehicles`, which the first one emptied.
* C65 `heuristic_only` ignores `num_vehicles` and loses preassigned routes. C66 the daily fleet is ignored by column generation; with diving a customer may be visited too often for any schedule.
* C67 the time checks fail on correct solutions without the triangle inequality, without closing time at Source, or with a duration only; after a complete preassigned route they raise `KeyError` (its customers have been removed from the graph).
* C68 preassigned routes (pickup and delivery: may visit a delivery before its pickup, and a lone delivery makes `solve()` raise): not counted against `num_vehicles`, may overlap, `KeyError` if too heavy, `AttributeError` with a drop
  penalty if all customers are preassigned. In periodic problems two of them through the same customer may be scheduled for one day, and a customer on one of them is not visited again.
* C69 cspy is given no time limit when the time is over in the middle of an iteration, and a negative one in the last half
  second; the test of LP pricing for lack of time is dead code; diving goes on for one iteration after the time is over.
* Read: a mixed fleet with added depot edges (scalar `1e10`) raises `TypeError`; `load_capacity=[]` raises `ValueError`;
  the tabu list of diving is shared between objects; the reassignment
  of `pricing_strategy` in `check_consistency` has no effect; closing time 0 at Sink means none.
