import Verif.Model.Basic
import Verif.Model.Checks
import Verif.Model.Preprocessing
import Verif.Model.Prune

/-!
# The pre-processing part of `solve()` (`vrpy/vrp.py:227-250`, `:428-483`, `:985-1182`)

Raw graphs (`DiGraph`, optional attributes) become preprocessed networks (`Net`) in `updateDummyAttributes`.
-/

namespace Vrpy

/-- An argument that may be one value or a list (one value per vehicle type). -/
inductive Arg (α : Type) where
  | one (x : α)
  | many (xs : List α)
deriving DecidableEq, Repr

/-- The attributes of `VehicleRoutingProblem` read or written by the pre-processing (`vrpy/vrp.py:99-149`).
`dropPenalty = 0` stands for `None`; `numVehicles = .many []` and `.one 0` are the false values. -/
structure Vrp where
  G : DiGraph
  numStops : PyVal := .none
  loadCapacity : Arg PyVal := .one .none
  duration : PyVal := .none
  timeWindows : Bool := false
  pickupDelivery : Bool := false
  distributionCollection : Bool := false
  dropPenalty : ℚ := 0
  fixedCost : Arg ℚ := .one 0
  numVehicles : Arg Nat := .many []
  numVehiclesSchedule : List Nat := []
  useAllVehicles : Bool := false
  periodic : Option Nat := none
  mixedFleet : Bool := false
  minimizeGlobalSpan : Bool := false
  vehicleTypes : Option Nat := none
  initialRoutes : List (List Node) := []
  preassignments : List (List Node) := []
  moreRoutes : Bool := false
  /-- `_H`, the copy of the graph used by the reports (`vrpy/vrp.py:1128`). -/
  H : Option Net := none

/-- `[x]` if `x` is true and not a list (`vrpy/vrp.py:1165-1170`). -/
def Arg.wrap {α : Type} (truthy : α → Bool) : Arg α → Arg α
  | .one x => if truthy x then .many [x] else .one x
  | .many xs => .many xs

/-- The list behind an argument once it is formatted; a false scalar counts as the empty list. -/
def Arg.toList {α : Type} : Arg α → List α
  | .one _ => []
  | .many xs => xs

/-- `self.G.edges[i, j]["cost"] = [cost]` for all arcs with a scalar cost (`vrpy/vrp.py:1162-1164`).  The passes of the
loop are independent, so it is modelled pointwise.  (Costs are present: `check_vrp`.) -/
def formatCosts (G : DiGraph) : DiGraph :=
  { G with ed := fun u v =>
      if G.hasEdge u v then
        match (G.ed u v).cost with
        | some (.scalar c) => { G.ed u v with cost := some (.list [c]) }
        | _ => G.ed u v
      else G.ed u v }

/-- `_format` (`vrpy/vrp.py:1160-1170`). -/
def Vrp.format (P : Vrp) : Vrp :=
  { P with
    G := formatCosts P.G
    numVehicles := P.numVehicles.wrap (fun n => n ≠ 0)
    fixedCost := P.fixedCost.wrap (fun q => q ≠ 0)
    loadCapacity := P.loadCapacity.wrap PyVal.truthy }

/-- `_define_vehicle_types` (`vrpy/vrp.py:1172-1182`); `len` of a true scalar raises `TypeError`; with nothing set the
attribute keeps its old value. -/
def Vrp.defineVehicleTypes (P : Vrp) : Py (Option Nat) :=
  match P.loadCapacity with
  | .one x => if x.truthy then .error .typeError else fixed
  | .many [] => fixed
  | .many xs => .ok (some xs.length)
where
  fixed : Py (Option Nat) :=
    match P.fixedCost with
    | .one x => if x ≠ 0 then .error .typeError else vehicles
    | .many [] => vehicles
    | .many xs => .ok (some xs.length)
  vehicles : Py (Option Nat) :=
    match P.numVehicles with
    | .one n => if n ≠ 0 then .error .typeError else .ok P.vehicleTypes
    | .many [] => .ok P.vehicleTypes
    | .many xs => .ok (some xs.length)

/-- `cost[k] += self.fixed_cost[k]` (`vrpy/vrp.py:1013`). -/
def addFixedCostAt (fc acc : List ℚ) (k : Nat) : Py (List ℚ) :=
  match fc[k]?, acc[k]? with
  | some f, some a => .ok (acc.set k (a + f))
  | _, _ => .error .indexError

/-- `self.G.edges["Source", v]["cost"][k] += self.fixed_cost[k]` for `k < K` (`vrpy/vrp.py:1012-1013`): a scalar cost is
not subscriptable, a short list raises `IndexError`. -/
def addFixedCost (fc : List ℚ) (K : Nat) (c : Option Cost) : Py (Option Cost) :=
  match c with
  | none => .error .keyError
  | some (.scalar _) => .error .typeError
  | some (.list cs) =>
    match (List.range K).foldlM (addFixedCostAt fc) cs with
    | .error e => .error e
    | .ok cs' => .ok (some (.list cs'))

/-- `_add_fixed_costs` (`vrpy/vrp.py:1009-1013`). -/
def addFixedCosts (fc : List ℚ) (K : Nat) (G : DiGraph) : Py DiGraph :=
  (G.succ .source).foldlM (fun G v =>
    match addFixedCost fc K (G.ed .source v).cost with
    | .error e => .error e
    | .ok c => .ok (G.setEdge .source v { G.ed .source v with cost := c })) G

/-- The attributes of node `v` after the loop body of `_set_zero_attributes` (`vrpy/vrp.py:1072-1091`). -/
def zeroAttributes (v : Node) (d : NodeData) : NodeData :=
  let dem := d.demand.getD 0
  { demand := some (if v.isDepot ∧ dem > 0 then 0 else dem)
    collect := some (d.collect.getD 0)
    serviceTime := some (d.serviceTime.getD 0)
    lower := some (d.lower.getD 0)
    upper := some (d.upper.getD 0)
    frequency := some (d.frequency.getD 1)
    request := d.request }

/-- `_set_zero_attributes` (`vrpy/vrp.py:1068-1091`); the passes of the loop are independent. -/
def setZeroAttributes (G : DiGraph) : DiGraph :=
  { G with nd := fun v => if v ∈ G.nodes then zeroAttributes v (G.nd v) else G.nd v }

/-- `vrpy/vrp.py:1117-1119`. -/
def addSourceSink (K : Nat) (G : DiGraph) : DiGraph :=
  if G.hasEdge .source .sink then G
  else G.addEdge .source .sink { cost := some (.list (List.replicate K 0)) }

/-- `_set_time_to_zero_if_missing` (`vrpy/vrp.py:1093-1098`). -/
def setTimeToZeroIfMissing (G : DiGraph) : DiGraph :=
  { G with ed := fun u v => if G.hasEdge u v then { G.ed u v with time := some ((G.ed u v).time.getD 0) } else G.ed u v }

/-- `_readjust_sink_time_windows` (`vrpy/vrp.py:1100-1109`); all attributes are present by now.  `max` of an empty
sequence raises `ValueError`. -/
def readjustSinkTimeWindows (G : DiGraph) : Py DiGraph :=
  if (G.nd .sink).upper.getD 0 = 0 then
    match (G.preds .sink).map (fun u =>
        (G.nd u).upper.getD 0 + (G.nd u).serviceTime.getD 0 + (G.ed u .sink).time.getD 0) with
    | [] => .error .valueError
    | x :: xs => .ok (G.setNode .sink { G.nd .sink with upper := some (xs.foldl max x) })
  else .ok G

/-- The graph with all attributes present, as the algorithms see it. -/
def DiGraph.toNet (G : DiGraph) : Net where
  nodes := G.nodes
  succ := G.succ
  demand := fun v => (G.nd v).demand.getD 0
  collect := fun v => (G.nd v).collect.getD 0
  service := fun v => (G.nd v).serviceTime.getD 0
  lower := fun v => (G.nd v).lower.getD 0
  upper := fun v => (G.nd v).upper.getD 0
  freq := fun v => (G.nd v).frequency.getD 1
  request := fun v => (G.nd v).request
  cost := fun u v => match (G.ed u v).cost with
    | some (.list cs) => cs
    | some (.scalar c) => [c]
    | none => []
  time := fun u v => (G.ed u v).time.getD 0

/-- The same network as a `DiGraph` (what is stored in `self.G` after the pre-processing). -/
def Net.toDiGraph (G : Net) : DiGraph where
  nodes := G.nodes
  succ := G.succ
  nd := fun v =>
    { demand := some (G.demand v), collect := some (G.collect v), serviceTime := some (G.service v),
      lower := some (G.lower v), upper := some (G.upper v), frequency := some (G.freq v), request := G.request v }
  ed := fun u v => { cost := some (.list (G.cost u v)), time := some (G.time u v) }

/-- `_update_dummy_attributes` (`vrpy/vrp.py:1111-1128`); its result is stored both in `self.G` and (copied) in
`self._H`. -/
def updateDummyAttributes (K : Nat) (G : DiGraph) : Py Net :=
  match readjustSinkTimeWindows (setTimeToZeroIfMissing (addSourceSink K (setZeroAttributes G))) with
  | .error e => .error e
  | .ok G' => .ok G'.toNet

/-- `route[0] == "Source" and route[-1] == "Sink"` (`vrpy/vrp.py:995`, `:1142`). -/
def isComplete (r : List Node) : Bool := r.head? = some .source && r.getLast? = some .sink

/-- `route[1:-1]`. -/
def interior (r : List Node) : List Node := r.tail.dropLast

/-- `self.G.remove_nodes_from(vs)` on a network. -/
def Net.removeNodes (G : Net) (vs : List Node) : Net :=
  { G with
    nodes := G.nodes.filter (fun v => v ∉ vs)
    succ := fun u => if u ∈ vs then [] else (G.succ u).filter (fun v => v ∉ vs) }

/-- `self.G.edges[i, j]["cost"][k] = 0` for `k < K` (`vrpy/vrp.py:1002-1003`); `KeyError` if the arc is gone,
`IndexError` if the list is short. -/
def zeroCost (K : Nat) (G : Net) (e : Node × Node) : Py Net :=
  if G.hasEdge e.1 e.2 then
    if (G.cost e.1 e.2).length < K then .error .indexError
    else .ok { G with cost := fun u v => if u = e.1 ∧ v = e.2 then
        List.replicate K 0 ++ (G.cost e.1 e.2).drop K else G.cost u v }
  else .error .keyError

/-- The loop body of `_lock` (`vrpy/vrp.py:993-1003`); `route[0]` raises `IndexError` on an empty route. -/
def lockRoute (K : Nat) (G : Net) (r : List Node) : Py Net :=
  if r = [] then .error .indexError
  else if isComplete r then .ok (G.removeNodes (interior r))
  else (consecutive r).foldlM (zeroCost K) G

/-- `_lock` without the final flag (`vrpy/vrp.py:985-1003`). -/
def lock (K : Nat) (routes : List (List Node)) (G : Net) : Py Net := routes.foldlM (lockRoute K) G

/-- `self.G["Source"]["Sink"]["cost"] = n_vehicle_types * [1e10]` (`vrpy/vrp.py:481-483`). -/
def emptyRouteCost (G : Net) : Py Net :=
  if G.hasEdge .source .sink then
    .ok { G with cost := fun u v => if u = .source ∧ v = .sink then
      List.replicate (G.cost .source .sink).length bigCost else G.cost u v }
  else .error .keyError

/-- A limit after `check_arguments` has accepted it: an integer; `None`, `0` and other false values mean "no limit". -/
def PyVal.limit : PyVal → Option ℚ
  | .int z => some z
  | _ => Option.none

/-- The load capacities as numbers (all entries are positive integers after `check_arguments`). -/
def capacities (l : List PyVal) : List ℚ := l.map (fun v => (v.limit).getD 0)

/-- The choices made outside the modelled code: the `shortest_path_length` values used by `check_feasibility`. -/
abbrev DistOracle := Net → Node → Node → ℚ

/-- `num_stops` as a natural number, once accepted. -/
def PyVal.stops : PyVal → Option Nat
  | .int z => if z > 0 then some z.toNat else Option.none
  | _ => Option.none

/-- A true scalar where a mixed fleet needs a list: `len` raises `TypeError`, in `_define_vehicle_types` or at
`vrpy/checks.py:41-49`. -/
def Vrp.scalarInMixed (P : Vrp) : Bool :=
  (match P.loadCapacity with | .one x => x.truthy | .many _ => false) ||
  (match P.fixedCost with | .one x => decide (x ≠ 0) | .many _ => false) ||
  (match P.numVehicles with | .one n => decide (n ≠ 0) | .many _ => false)

/-- `vrpy/vrp.py:430-433`.  Simplification: the `TypeError` for a scalar in a mixed fleet always comes first. -/
def Vrp.typesStep (P : Vrp) : Py (Option Nat) :=
  if P.mixedFleet then if P.scalarInMixed then .error .typeError else P.defineVehicleTypes else .ok (some 1)

/-- `vrpy/vrp.py:449-450`. -/
def fixedStep (fc : List ℚ) (K : Nat) (G : DiGraph) : Py DiGraph := if fc ≠ [] then addFixedCosts fc K G else .ok G

/-- `vrpy/vrp.py:468-470`. -/
def lockStep (K : Nat) (pre : List (List Node)) (N : Net) : Py Net :=
  if pre ≠ [] then
    match checkPreassignments pre N with
    | .error e => .error e
    | .ok _ => lock K pre N
  else .ok N

/-- `vrpy/vrp.py:472`; `max([])` raises `ValueError` (line 1057). -/
def pruneStep (lc : Arg PyVal) (timeWindows : Bool) (N : Net) : Py Net :=
  if lc = .many [] then .error .valueError else pruneGraph N (capacities lc.toList) timeWindows

/-- `vrpy/vrp.py:474-479`. -/
def stopsStep (P : Vrp) (N : Net) : Py PyVal :=
  if P.loadCapacity.toList ≠ [] ∧ P.pickupDelivery = false then
    match getNumStopsUpperBound N ((capacities P.loadCapacity.toList).foldl max 0).floor.toNat P.numStops.stops
        P.distributionCollection with
    | .error e => .error e
    | .ok m => .ok (.int m)
  else .ok P.numStops

/-- `vrpy/vrp.py:481-483`. -/
def emptyRouteStep (useAll : Bool) (N : Net) : Py Net := if useAll then emptyRouteCost N else .ok N

/-- `_pre_solve` (`vrpy/vrp.py:428-483`) on the attributes of the object.  Simplification: the half-updated object left
behind by an exception is not modelled. -/
def Vrp.preSolve (dist : DistOracle) (strategy : String) (cspy : Bool) (P : Vrp) : Py Vrp := do
  let vt ← P.typesStep
  checkArguments P.numStops P.loadCapacity.toList P.duration strategy P.mixedFleet P.fixedCost.toList P.G vt
    P.numVehicles.toList
  let G1 ← fixedStep P.fixedCost.toList (vt.getD 0) P.G
  let N ← updateDummyAttributes (vt.getD 0) G1
  checkConsistency cspy P.pickupDelivery N
  checkFeasibility (capacities P.loadCapacity.toList) P.duration.limit (dist N) N
  let N1 ← lockStep (vt.getD 0) P.preassignments N
  let N2 ← pruneStep P.loadCapacity P.timeWindows N1
  let ns ← stopsStep P N2
  let N3 ← emptyRouteStep P.useAllVehicles N2
  return { P with
    vehicleTypes := vt, G := N3.toDiGraph, H := some N,
    numVehicles := .many (checkPeriodicNumVehicles P.periodic P.numVehicles.toList).1,
    numVehiclesSchedule := (checkPeriodicNumVehicles P.periodic P.numVehicles.toList).2,
    moreRoutes := if P.preassignments ≠ [] ∧ N1.nodes.length = 2 then false else P.moreRoutes,
    numStops := ns }

/-- The beginning of `solve()` (`vrpy/vrp.py:227-250`): store the arguments, format, pre-process. -/
def Vrp.startSolve (dist : DistOracle) (strategy : String) (cspy : Bool) (initialRoutes preassignments : List (List Node))
    (P : Vrp) : Py Vrp :=
  let P1 := { P with
    moreRoutes := true
    preassignments := if preassignments ≠ [] then preassignments else P.preassignments
    initialRoutes := if initialRoutes ≠ [] then initialRoutes else P.initialRoutes }
  let P2 := if P1.mixedFleet then P1 else P1.format
  P2.preSolve dist strategy cspy

end Vrpy
