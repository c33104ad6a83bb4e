import Verif.Model.Basic

/-!
# `vrpy/checks.py`
-/

namespace Vrpy

/-- The high cost of a missing depot edge, `1e10` (`vrpy/checks.py:105,108`). -/
def bigCost : ℚ := 10000000000

/-- The body of the loop of `check_vrp` over `["Source", "Sink"]` (`vrpy/checks.py:90-98`).
`G.predecessors`/`G.successors` raise `NetworkXError` when their argument is not a node. -/
def checkDepot (G : DiGraph) (v : Node) : Py Unit :=
  if v ∉ G.nodes then .error .keyError
  else if Node.source ∉ G.nodes then .error .networkXError
  else if (G.preds .source).length > 0 then .error .networkXError
  else if Node.sink ∉ G.nodes then .error .networkXError
  else if (G.succ .sink).length > 0 then .error .networkXError
  else .ok ()

/-- The body of the loop of `check_vrp` that adds missing depot edges (`vrpy/checks.py:102-108`). -/
def completeNode (G : DiGraph) (v : Node) : DiGraph :=
  if v.isDepot then G
  else
    let G1 := if v ∈ G.succ .source then G else G.addEdge .source v { cost := some (.scalar bigCost) }
    if v ∈ G1.preds .sink then G1 else G1.addEdge v .sink { cost := some (.scalar bigCost) }

/-- `check_vrp` (`vrpy/checks.py:83-115`), called by the constructor (`vrpy/vrp.py:151`).  The graph is mutated in
place; the result is the mutated graph.  Simplification: `isinstance(G, DiGraph)` always holds. -/
def checkVrp (G : DiGraph) : Py DiGraph := do
  checkDepot G .source
  checkDepot G .sink
  let G' := G.nodes.foldl completeNode G
  if !G'.hasPath .source .sink then throw .networkXError
  if G'.edges.any (fun e => (G'.ed e.1 e.2).cost.isNone) then throw .keyError
  return G'

/-- `check_initial_routes` (`vrpy/checks.py:118-148`).  `route[0]` raises `IndexError` on an empty route.  Costs are
always present here (`check_vrp` has passed), so lines 147-148 never fire and are not modelled. -/
def checkInitialRoutes (routes : List (List Node)) (G : Net) : Py Unit := do
  routes.forM fun r =>
    if r = [] then throw .indexError
    else if r.head? ≠ some .source ∨ r.getLast? ≠ some .sink then throw .valueError
    else pure ()
  G.nodes.forM fun v =>
    if !v.isDepot ∧ (routes.filter (fun r => v ∈ r)).length = 0 then throw .keyError else pure ()
  routes.forM fun r =>
    (consecutive r).forM fun e => if !G.hasEdge e.1 e.2 then throw .keyError else pure ()

/-- `check_preassignments` (`vrpy/checks.py:151-165`). -/
def checkPreassignments (routes : List (List Node)) (G : Net) : Py Unit :=
  routes.forM fun r =>
    (consecutive r).forM fun e => if !G.hasEdge e.1 e.2 then throw .valueError else pure ()

/-- `check_consistency` (`vrpy/checks.py:168-187`).  (The local reassignment of `pricing_strategy` at line 181 has no
effect on the caller.) -/
def checkConsistency (cspy pickupDelivery : Bool) (G : Net) : Py Unit := do
  if cspy && pickupDelivery then throw .notImplementedError
  if pickupDelivery then
    if !(G.nodes.any (fun v => (G.request v).isSome)) then throw .keyError

/-- The demand test of `check_feasibility` (`vrpy/checks.py:195-201`). -/
def checkDemands (caps : List ℚ) (G : Net) : Py Unit :=
  match caps with
  | c :: cs => G.nodes.forM fun v => if G.demand v > cs.foldl max c then .error .valueError else .ok ()
  | [] => .ok ()

/-- The duration test of `check_feasibility` (`vrpy/checks.py:202-215`).  `dist u v` is the value of
`shortest_path_length(G, u, v, weight="time")` (Dijkstra; contract in `Verif/Props/Feasibility.lean`). -/
def checkDurations (duration : Option ℚ) (dist : Node → Node → ℚ) (G : Net) : Py Unit :=
  match active duration with
  | some d => G.nodes.forM fun v =>
      if !v.isDepot ∧ dist v .sink + dist .source v > d then .error .valueError else .ok ()
  | none => .ok ()

/-- `check_feasibility` (`vrpy/checks.py:190-215`). -/
def checkFeasibility (caps : List ℚ) (duration : Option ℚ) (dist : Node → Node → ℚ) (G : Net) : Py Unit := do
  checkDemands caps G
  checkDurations duration dist G

/-- `check_clarke_wright_compatibility` (`vrpy/checks.py:68-80`). -/
def checkClarkeWrightCompatibility (timeWindows pickupDelivery distributionCollection mixedFleet periodic : Bool) :
    Py Unit :=
  if timeWindows || pickupDelivery || distributionCollection || mixedFleet || periodic then .error .valueError
  else .ok ()

/-- `check_pickup_delivery_time_windows` (`vrpy/checks.py:232-238`). -/
def checkPickupDeliveryTimeWindows (G : Net) (es : List (Node × Node)) : Py Unit :=
  es.forM fun e => if !G.hasEdge e.1 e.2 then throw .valueError else pure ()

/-- `check_periodic_num_vehicles` (`vrpy/checks.py:241-256`): the pair
`(_num_vehicles, _num_vehicles_schedule)`. `periodic` is `None`, or the number of days; `[]`/`0` are false. -/
def checkPeriodicNumVehicles (periodic : Option Nat) (numVehicles : List Nat) : List Nat × List Nat :=
  if (periodic.getD 0 ≠ 0) ∧ numVehicles ≠ [] then ([], numVehicles) else (numVehicles, [])

/-- A Python argument value as far as `check_arguments` can tell: `None`, an `int`, or something else with a
truth value (float, string, ...). -/
inductive PyVal where
  | none
  | int (z : Int)
  | other (truthy : Bool)
deriving DecidableEq, Repr

/-- Python truth value. -/
def PyVal.truthy : PyVal → Bool
  | .none => false
  | .int z => z ≠ 0
  | .other t => t

/-- `isinstance(x, int) and x > 0`, negated: the test of `vrpy/checks.py:26,30`. -/
def PyVal.notPosInt : PyVal → Bool
  | .int z => z ≤ 0
  | _ => true

/-- `not isinstance(x, int) or x < 0`: the test of `vrpy/checks.py:32`. -/
def PyVal.notNonnegInt : PyVal → Bool
  | .int z => z < 0
  | _ => true

/-- The strings accepted as pricing strategy (`vrpy/checks.py:34`). -/
def strategies : List String := ["Exact", "BestEdges1", "BestEdges2", "BestPaths", "Hyper"]

/-- `check_arguments` (`vrpy/checks.py:11-65`).  `loadCapacity`, `fixedCost`, `numVehicles` are lists by now
(`_format`, or required by `mixed_fleet`); `[]` stands for a false value; `vehicleTypes = none` is Python's `None`
(then `len(...) != None` is true).  The warning of line 65 is not modelled. -/
def checkArguments (numStops : PyVal) (loadCapacity : List PyVal) (duration : PyVal) (pricingStrategy : String)
    (mixedFleet : Bool) (fixedCost : List ℚ) (G : DiGraph) (vehicleTypes : Option Nat) (numVehicles : List Nat) :
    Py Unit := do
  if numStops.truthy && numStops.notPosInt then throw .typeError
  loadCapacity.forM fun value => if value.notPosInt then throw .typeError else pure ()
  if duration.truthy && duration.notNonnegInt then throw .typeError
  if pricingStrategy ∉ strategies then throw .valueError
  if mixedFleet then
    if loadCapacity ≠ [] ∧ numVehicles ≠ [] ∧ loadCapacity.length ≠ numVehicles.length then throw .valueError
    if loadCapacity ≠ [] ∧ fixedCost ≠ [] ∧ loadCapacity.length ≠ fixedCost.length then throw .valueError
    if numVehicles ≠ [] ∧ fixedCost ≠ [] ∧ numVehicles.length ≠ fixedCost.length then throw .valueError
    G.edges.forM fun e =>
      match (G.ed e.1 e.2).cost with
      | some (.list cs) => if some cs.length ≠ vehicleTypes then throw .valueError else pure ()
      | some (.scalar _) => throw .typeError
      | none => throw .keyError

end Vrpy
