import Verif.Model.Solve

/-!
# `solve()` as a whole (`vrpy/vrp.py:153-258`, `:485-528`, `:849-873`, `:1186-1204`)

`Obj.solve` takes the object before a call to the object after it, so that calls can be repeated.
-/

namespace Vrpy

/-- A `VehicleRoutingProblem` (`vrpy/vrp.py:99-149`): the attributes used by the pre-processing (`P`), the counters of
column generation, the hyper-heuristic, and the results.  `graphs` is `_best_routes_as_graphs`, `tabu` the list shared by
all diving heuristics (`vrpy/restricted_master_heuristics.py:96`). -/
structure Obj where
  P : Vrp
  iteration : Nat := 0
  noImprovement : Nat := 0
  bounds : List ℚ := []
  hyper : Option Hyper := none
  tabu : List MVar := []
  graphs : List Column := []
  solution : Solution := ⟨[], [], []⟩
  schedule : Dict Nat (List Nat) := []

/-- `__init__` (`vrpy/vrp.py:82-151`) with the options in `P`. -/
def Obj.create (P : Vrp) : Py Obj :=
  match checkVrp P.G with
  | .error e => .error e
  | .ok G =>
    .ok { P := { P with
      G := G
      numVehiclesSchedule := []
      vehicleTypes := none
      initialRoutes := []
      preassignments := []
      moreRoutes := false
      H := none } }

/-- The arguments of `solve()` (`vrpy/vrp.py:153-167`); `maxIter = 0` stands for `None`.  The time limit is in the world
(`timeUp`, see `Model/Time`), the choice of the solver is not modelled. -/
structure SolveArgs where
  initialRoutes : List (List Node) := []
  preassignments : List (List Node) := []
  strategy : String := "BestEdges1"
  cspy : Bool := true
  elementary : Bool := false
  dive : Bool := false
  greedy : Bool := false
  maxIter : Nat := 0
  runExact : Nat := 1
  heuristicOnly : Bool := false

/-- The outside world during one call: that of column generation, shortest path lengths, the orders chosen by Clarke &
Wright, shortest paths in columns, the solver of the scheduling problem; `falsy` tells which customers have a false name. -/
structure World extends Env where
  dist : DistOracle
  cw : ℚ → CWOracle
  path : Column → List Node
  schedule : LP SVar → Bool × (SVar → ℚ)
  falsy : Node → Bool := fun _ => false

/-- The strategy behind an accepted name (`vrpy/checks.py:34-39`, `vrpy/vrp.py:618-636`, `:730-750`). -/
def PricingMode.ofName (s : String) : PricingMode :=
  if s = "Hyper" then .hyper
  else if s = "BestPaths" then .fixed .bestPaths
  else if s = "BestEdges1" then .fixed .bestEdges1
  else if s = "BestEdges2" then .fixed .bestEdges2
  else .fixed .exact

/-- The master problem of `_initialize` (`vrpy/vrp.py:496-506`). -/
def Vrp.master (P : Vrp) : Master where
  G := P.G.toNet
  dropPenalty := P.dropPenalty
  numVehicles := P.numVehicles.toList
  useAllVehicles := P.useAllVehicles
  periodic := decide (P.periodic.getD 0 ≠ 0)
  globalSpan := P.minimizeGlobalSpan

/-- What column generation reads (`vrpy/vrp.py:228-240`, `:809-847`); `P` is the object after `_initialize`. -/
def Vrp.solveCfg (P : Vrp) (a : SolveArgs) (falsy : Node → Bool) : SolveCfg where
  M := P.master
  K := P.vehicleTypes.getD 0
  caps := capacities P.loadCapacity.toList
  numStops := P.numStops.stops
  duration := P.duration.limit
  timeWindows := P.timeWindows
  pickupDelivery := P.pickupDelivery
  distributionCollection := P.distributionCollection
  keys := routesWithNode P.initialRoutes
  falsy := falsy
  pricing := .ofName a.strategy
  cspy := a.cspy
  elementary := a.elementary || a.dive
  greedy := a.greedy
  maxIter := a.maxIter
  runExact := a.runExact

namespace Obj

/-- The state column generation starts from (`vrpy/vrp.py:228`, `:239-240`): the counters are those of the object. -/
def start (o : Obj) (a : SolveArgs) (P : Vrp) (cols : List Column) : SolveState where
  cols := cols
  mcols := cols
  more := P.moreRoutes
  iteration := o.iteration
  noImprovement := o.noImprovement
  bounds := o.bounds
  hyper := if a.strategy = "Hyper" then some {} else o.hyper
  dive := { tabu := o.tabu }

/-- The dropped nodes (`vrpy/vrp.py:1188-1190`); without a final MIP the attribute does not exist. -/
def droppedNodes (P : Vrp) (old : List Node) (f : Solve.Final) : Py (List Node) :=
  if P.dropPenalty ≠ 0 then
    match f.dropped with
    | none => .error .attributeError
    | some d => .ok d
  else .ok old

/-- The schedule (`vrpy/vrp.py:1193-1203`). -/
def makeSchedule (w : World) (P : Vrp) (S : Solution) (old : Dict Nat (List Nat)) : Py (Dict Nat (List Nat)) :=
  if P.periodic.getD 0 = 0 then .ok old
  else
    let s : Schedule :=
      { G := P.G.toNet, timeSpan := P.periodic.getD 0, routes := S.routes, types := S.types,
        numVehicles := P.numVehiclesSchedule }
    match s.formulate with
    | .error e => .error e
    | .ok lp => .ok (s.routesPerDay (w.schedule lp).1 (w.schedule lp).2)

/-- `_post_process` (`vrpy/vrp.py:1186-1204`). -/
def postProcess (w : World) (P : Vrp) (f : Solve.Final) (o : Obj) : Py Obj := do
  let dropped ← droppedNodes P o.solution.dropped f
  let rt ← bestRoutesAsNodeLists (P.H.getD P.G.toNet) (capacities P.loadCapacity.toList) (P.vehicleTypes.getD 0) w.path
    f.graphs P.preassignments
  let S : Solution := ⟨rt.1, rt.2, dropped⟩
  let sch ← makeSchedule w P S o.schedule
  return { o with solution := S, schedule := sch }

/-- `_solve_with_clarke_wright` (`vrpy/vrp.py:849-873`): the routes are numbered from 0. -/
def clarkeWright (w : World) (P : Vrp) (o : Obj) : Py Obj := do
  checkClarkeWrightCompatibility P.timeWindows P.pickupDelivery P.distributionCollection P.mixedFleet
    (decide (P.periodic.getD 0 ≠ 0))
  let r ← cwRun P.G.toNet
    { cap := P.cap0, duration := P.duration.limit, numStops := P.numStops.stops.map (fun n => (n : ℚ)), alpha := 1 } (w.cw 1)
  return { o with
    P := P
    solution := {
      routes := r.2.mapIdx (fun i x => (i, x))
      types := r.2.mapIdx (fun i _ => (i, 0))
      dropped := o.solution.dropped } }

/-- `_initialize` and `_solve` (`vrpy/vrp.py:485-528`); `none`: not enough fuel. -/
def columnGeneration (w : World) (a : SolveArgs) (fuel : Nat) (P : Vrp) (o : Obj) : Py (Option Obj) :=
  match P.initialize P.G.toNet w.cw fuel with
  | .error e => .error e
  | .ok none => .ok none
  | .ok (some (P', cols)) =>
    match P'.master.create cols with
    | .error e => .error e
    | .ok _ =>
      match Solve.run (P'.solveCfg a w.falsy) w.toEnv a.dive o.graphs fuel (o.start a P' cols) with
      | .error e => .error e
      | .ok none => .ok none
      | .ok (some (st, f)) =>
        match postProcess w P' f
            { o with P := P', iteration := st.iteration, noImprovement := st.noImprovement, bounds := st.bounds,
                     hyper := st.hyper, tabu := st.dive.tabu, graphs := f.graphs } with
        | .error e => .error e
        | .ok o' => .ok (some o')

/-- `solve()` (`vrpy/vrp.py:227-258`).  Simplification: the half-updated object left behind by an exception is not
modelled. -/
def solve (w : World) (a : SolveArgs) (fuel : Nat) (o : Obj) : Py (Option Obj) :=
  match o.P.startSolve w.dist a.strategy a.cspy a.initialRoutes a.preassignments with
  | .error e => .error e
  | .ok P =>
    if a.heuristicOnly then
      match clarkeWright w P o with
      | .error e => .error e
      | .ok o' => .ok (some o')
    else columnGeneration w a fuel P o

/-- `self.duration or self.time_windows` (`vrpy/vrp.py:365`, `:397`). -/
def timed (o : Obj) : Bool := o.P.duration.truthy || o.P.timeWindows

/-- `check_arrival_time()` (`vrpy/vrp.py:382-387`): the arrival times are those in the network of the reports, the windows those
of the pruned graph. -/
def checkArrivalTime (o : Obj) : Py Unit :=
  match arrivalTime (o.P.H.getD o.P.G.toNet) o.timed o.solution with
  | .error e => .error e
  | .ok arr => Vrpy.checkArrivalTime o.P.G.toNet arr

/-- `check_departure_time()` (`vrpy/vrp.py:411-418`). -/
def checkDepartureTime (o : Obj) : Py Unit :=
  match departureTime (o.P.H.getD o.P.G.toNet) o.timed o.solution with
  | .error e => .error e
  | .ok dep => Vrpy.checkDepartureTime o.P.G.toNet dep

end Obj

end Vrpy
