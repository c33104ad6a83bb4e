import Verif.Model.Dive
import Verif.Model.Hyper
import Verif.Model.GreedyPricing
import Verif.Model.PricingLP
import Verif.Model.Cspy
import Verif.Model.Schedule

/-!
# Column generation and `solve()` (`vrpy/vrp.py:227-260`, `:485-847`, `:1186-1204`)

Everything outside the modelled code (LP and MIP solvers, cspy, networkx path search, random numbers, the clock) is an
oracle of `Env`, indexed by a counter of external calls so that two calls may be answered differently.
-/

namespace Vrpy

/-- The argument `pricing_strategy` (accepted values: `vrpy/checks.py:34-39`). -/
inductive PricingMode where
  | hyper
  | fixed (h : Heur)
deriving DecidableEq, Repr

/-- What `_find_columns` reads from the object and never changes: `M` holds the graph `self.G` and the options of the
master problem; `K` is `_vehicle_types`; `keys` the keys of `_routes_with_node`; `maxIter = 0` stands for no limit. -/
structure SolveCfg where
  M : Master
  K : Nat := 1
  caps : List ℚ := []
  numStops : Option Nat := none
  duration : Option ℚ := none
  timeWindows : Bool := false
  pickupDelivery : Bool := false
  distributionCollection : Bool := false
  keys : List Node := []
  falsy : Node → Bool := fun _ => false
  pricing : PricingMode := .fixed .bestEdges1
  cspy : Bool := true
  elementary : Bool := false
  greedy : Bool := false
  maxIter : Nat := 0
  runExact : Nat := 1

/-- The outside world.  `negCycle` is networkx' `negative_edge_cycle`; `solvable` tells whether the status after `resolve()` is
"Optimal" (`vrpy/restricted_master_heuristics.py:73-77`); `timeUp` tells whether the remaining time is
`0.0` (`vrpy/vrp.py:535-538`). -/
structure Env where
  master : Nat → LP MVar → Master.Answer
  pricing : Nat → LP PVar → PricingLP.Answer
  cspy : Nat → Cspy → Cspy.Oracle
  paths : Nat → PathsOracle
  rand : Nat → Nat → Nat → Nat
  negCycle : Net → (Node → Node → ℚ) → Bool
  timeUp : Nat → Bool
  clock : Nat → Hyper.Clock
  pick : Nat → Nat
  solvable : Nat → LP MVar → Bool

/-- The attributes that change during column generation.  `cols` is `self._routes` (and `self.routes`, the same list
object); `mcols` the columns of the master problem (keys of `masterproblem.y`); `labels` the graph attribute
`"heuristic"`; `point` the values of the variables after the last solve, for the columns `solved`; `fixed` and `dive`
belong to diving; `tick` counts external calls. -/
structure SolveState where
  cols : List Column
  mcols : List Column
  labels : Dict ColName Heur := []
  more : Bool := true
  iteration : Nat := 0
  noImprovement : Nat := 0
  bounds : List ℚ := []
  hyper : Option Hyper := none
  point : MVar → ℚ := fun _ => 0
  solved : List ColName := []
  dive : Master.DiveState := {}
  fixed : List MVar := []
  tick : Nat := 0

namespace Solve

/-- The parameters tried for a heuristic (`vrpy/vrp.py:664-728`). -/
def parameters : Heur → List Strategy
  | .bestPaths => [.bestPaths 3, .bestPaths 5, .bestPaths 7, .bestPaths 9]
  | .bestEdges1 => [.bestEdges1 (3 / 10), .bestEdges1 (5 / 10), .bestEdges1 (7 / 10), .bestEdges1 (9 / 10)]
  | .bestEdges2 => [.bestEdges2 (1 / 10), .bestEdges2 (2 / 10), .bestEdges2 (3 / 10)]
  | .exact => [.exact]

/-- The pricing problems tried one after the other until one yields a column (`_solve_subproblem_with_heuristic`,
`vrpy/vrp.py:618-662`): without the hyper-heuristic exact pricing comes last. -/
def strategies (m : PricingMode) (h : Heur) : List Strategy :=
  match m with
  | .hyper => parameters h
  | .fixed _ => if h = .exact then [.exact] else parameters h ++ [.exact]

/-- `_def_subproblem(...)` and `subproblem.solve(...)` (`vrpy/vrp.py:809-847`, e.g. `:674-676`).  The test
`time_limit and time_limit <= 0` of `vrpy/subproblem_lp.py:30` never succeeds: the remaining time is `None`, positive
or `0.0`. -/
def price (cfg : SolveCfg) (env : Env) (t : Nat) (d : Duals) (k : Nat) (route : Option ColName) (cols : List Column)
    (s : Strategy) : Py (List Column × Bool) :=
  match subProblem cfg.M.G d k route (env.paths t) s with
  | .error e => .error e
  | .ok (w, S) =>
    if cfg.cspy then
      let q : Cspy :=
        { G := S.G, weight := w, vehicleType := k, caps := cfg.caps, numStops := cfg.numStops, duration := cfg.duration,
          timeWindows := cfg.timeWindows, pickupDelivery := cfg.pickupDelivery,
          distributionCollection := cfg.distributionCollection, elementary := cfg.elementary }
      q.solve S.run cfg.keys (env.cspy t q) cols
    else
      let q : PricingLP :=
        { G := S.G, weight := w, vehicleType := k, caps := cfg.caps, numStops := cfg.numStops, duration := cfg.duration,
          timeWindows := cfg.timeWindows, pickupDelivery := cfg.pickupDelivery,
          distributionCollection := cfg.distributionCollection, negCycle := env.negCycle cfg.M.G w }
      q.solve S.run false cfg.keys (env.pricing t) cols

/-- Pricing problems one after the other until one yields a column; also counts the calls. -/
def priceAll (cfg : SolveCfg) (env : Env) (d : Duals) (k : Nat) :
    List (Option ColName × Strategy) → Nat → List Column → Py (List Column × Bool × Nat)
  | [], t, cols => .ok (cols, false, t)
  | j :: js, t, cols =>
    match price cfg env t d k j.1 cols j.2 with
    | .error e => .error e
    | .ok (cols', true) => .ok (cols', true, t + 1)
    | .ok (cols', false) => priceAll cfg env d k js (t + 1) cols'

/-- The pricing problems of a vehicle (`vrpy/vrp.py:586-601`): for the global span one series per route. -/
def jobs (cfg : SolveCfg) (h : Heur) (cols : List Column) : List (Option ColName × Strategy) :=
  if cfg.M.globalSpan then cols.flatMap (fun c => (strategies cfg.pricing h).map (fun s => (some c.name, s)))
  else (strategies cfg.pricing h).map (fun s => (none, s))

/-- `masterproblem.update(r)` (`vrpy/master_solve_pulp.py:71-76`). -/
def addToMaster (cfg : SolveCfg) (st : SolveState) (c : Column) : Py SolveState :=
  match cfg.M.addColumn c with
  | .error e => .error e
  | .ok _ => .ok { st with mcols := st.mcols ++ [c] }

/-- `load_capacity[vehicle_type]` if `load_capacity` is set (`vrpy/subproblem_greedy.py:86,173-178`). -/
def greedyCap (cfg : SolveCfg) (k : Nat) : Py (Option ℚ) :=
  if cfg.caps = [] then .ok none
  else match cfg.caps[k]? with
    | none => .error .indexError
    | some c => .ok (some c)

/-- Whether the randomised greedy pricing is run (`vrpy/vrp.py:568-574`). -/
def usesGreedy (cfg : SolveCfg) : Bool :=
  cfg.greedy && !cfg.timeWindows && !cfg.distributionCollection && !cfg.pickupDelivery && !cfg.M.globalSpan

/-- The columns not yet in the master problem are added to it (`vrpy/vrp.py:578-584`; the generator looks at
`masterproblem.y` as it grows). -/
def addMissing (cfg : SolveCfg) (st : SolveState) : Py SolveState :=
  st.cols.foldlM (fun st c => if c.name ∈ st.mcols.map Column.name then .ok st else addToMaster cfg st c) st

/-- Randomised greedy pricing (`vrpy/vrp.py:566-584`).  (The fuel of the runs suffices, `C12_runs_terminate`.) -/
def greedyPhase (cfg : SolveCfg) (env : Env) (d : Duals) (k : Nat) (st : SolveState) : Py SolveState :=
  if usesGreedy cfg then do
    let p ← subProblem cfg.M.G d k none (env.paths st.tick) .exact
    let cap ← greedyCap cfg k
    let g : GreedyPricing :=
      { G := cfg.M.G, weight := p.1, vehicleType := k, cap := cap, numStops := cfg.numStops, duration := cfg.duration,
        falsy := cfg.falsy }
    let r ← g.solve cfg.keys (env.rand st.tick) cfg.M.G.nodes.length 20 st.cols
    let st := { st with cols := r.1, tick := st.tick + 1 }
    if r.2 then addMissing cfg st else return st
  else .ok st

/-- `self.hyper_heuristic.end_time = time()` (`vrpy/vrp.py:606-607`). -/
def stopClock (cfg : SolveCfg) (h : Option Hyper) : Option Hyper :=
  match cfg.pricing with
  | .hyper => h.map (fun h => { h with timed := true })
  | .fixed _ => h

/-- The last column, just found, goes to the master problem (`vrpy/vrp.py:602-605`). -/
def register (cfg : SolveCfg) (h : Heur) (st : SolveState) : Py SolveState :=
  match st.cols.getLast? with
  | none => .error .indexError
  | some c => addToMaster cfg { st with labels := dset st.labels c.name h } c

/-- The loop over the vehicle types (`vrpy/vrp.py:566-607`). -/
def vehicleLoop (cfg : SolveCfg) (env : Env) (d : Duals) (h : Heur) : List Nat → SolveState → Py SolveState
  | [], st => .ok st
  | k :: ks, st =>
    match greedyPhase cfg env d k st with
    | .error e => .error e
    | .ok st =>
      match priceAll cfg env d k (jobs cfg h st.cols) st.tick st.cols with
      | .error e => .error e
      | .ok (cols, true, t) => register cfg h { st with cols := cols, more := true, tick := t }
      | .ok (cols, false, t) =>
        vehicleLoop cfg env d h ks { st with cols := cols, more := false, tick := t, hyper := stopClock cfg st.hyper }

/-- `get_heuristic_distribution` (`vrpy/master_solve_pulp.py:149-165`). -/
def distribution (st : SolveState) : Active where
  count := fun h => (st.cols.filter (fun c => st.point (.y c.name) > 0 ∧ dget st.labels c.name = some h)).length
  other := (st.cols.filter (fun c => st.point (.y c.name) > 0 ∧ dget st.labels c.name = none)).length

/-- The branch of `_get_next_pricing_strategy` for the hyper-heuristic (`vrpy/vrp.py:733-744`). -/
def nextHyper (env : Env) (st : SolveState) (cost : ℚ) : Py (Heur × SolveState) :=
  match st.hyper with
  | none => .error .attributeError
  | some hy =>
    if st.iteration = 0 then .ok (.bestPaths, { st with noImprovement := 0, hyper := some (hy.init cost) })
    else
      match hy.update (env.clock st.tick) cost st.more (distribution st) with
      | .error e => .error e
      | .ok hy =>
        let p := hy.pick (env.pick st.tick)
        .ok (p.1, { st with noImprovement := st.iteration, hyper := some p.2, tick := st.tick + 1 })

/-- `_get_next_pricing_strategy` (`vrpy/vrp.py:730-750`). -/
def nextStrategy (cfg : SolveCfg) (env : Env) (st : SolveState) (cost : ℚ) : Py (Heur × SolveState) :=
  match cfg.pricing with
  | .hyper => if st.noImprovement ≠ cfg.runExact then nextHyper env st cost else .ok (.exact, st)
  | .fixed h => .ok (if st.noImprovement = cfg.runExact then .exact else h, st)

/-- `masterproblem.solve(relax=True)` (`vrpy/vrp.py:557-559`): the dual values, the objective value, the new state. -/
def solveRelaxed (cfg : SolveCfg) (env : Env) (st : SolveState) : Py (Duals × ℚ × SolveState) :=
  let a := env.master st.tick (cfg.M.lp st.mcols true)
  if a.optimal then
    .ok (cfg.M.duals st.cols a, (cfg.M.objective st.mcols).eval a.point,
      { st with point := a.point, solved := st.mcols.map Column.name, tick := st.tick + 1 })
  else .error .masterInfeasible

/-- `masterproblem.solve_and_dive` and `hyper_heuristic.init` (`vrpy/vrp.py:550-555`,
`vrpy/master_solve_pulp.py:65-69`).  The status is not looked at; that variables have no value if the problem could not
be solved is not modelled. -/
def solveDive (cfg : SolveCfg) (env : Env) (st : SolveState) : Py (Duals × ℚ × SolveState) :=
  let a := env.master st.tick (cfg.M.diveLP st.mcols st.fixed)
  match Master.runDive (cfg.M.allVars st.mcols) st.dive a.point
      (fun x => env.solvable st.tick (cfg.M.diveLP st.mcols (st.fixed ++ [x]))) with
  | .error e => .error e
  | .ok (x, ds) =>
    let fixed := st.fixed ++ x.toList
    let a := env.master (st.tick + 1) (cfg.M.diveLP st.mcols fixed)
    let cost := (cfg.M.objective st.mcols).eval a.point
    .ok (cfg.M.duals st.cols a, cost,
      { st with point := a.point, solved := st.mcols.map Column.name, dive := ds, fixed := fixed,
                hyper := st.hyper.map (fun h => h.init cost), tick := st.tick + 2 })

/-- The counters at the end of `_find_columns` (`vrpy/vrp.py:609-616`); `lower_bound[-1]` of an empty list raises
`IndexError`. -/
def count (dive : Bool) (cost : ℚ) (st : SolveState) : Py SolveState :=
  let bounds := if dive then st.bounds else st.bounds ++ [cost]
  if st.iteration + 1 > 1 then
    match st.bounds.getLast? with
    | none => .error .indexError
    | some b => .ok { st with iteration := st.iteration + 1, bounds := bounds,
                              noImprovement := if cost = b then st.noImprovement + 1 else 0 }
  else .ok { st with iteration := st.iteration + 1, bounds := bounds, noImprovement := 0 }

/-- The master problem is solved (`vrpy/vrp.py:549-559`). -/
def solveMaster (cfg : SolveCfg) (env : Env) (dive : Bool) (st : SolveState) : Py (Duals × ℚ × SolveState) :=
  if dive then solveDive cfg env st else solveRelaxed cfg env st

/-- `_find_columns` (`vrpy/vrp.py:547-616`). -/
def findColumns (cfg : SolveCfg) (env : Env) (dive : Bool) (st : SolveState) : Py SolveState := do
  let m ← solveMaster cfg env dive st
  let p ← nextStrategy cfg env m.2.2 m.2.1
  let st ← vehicleLoop cfg env m.1 p.1 (List.range cfg.K) p.2
  count dive m.2.1 st

/-- The limits of `_column_generation` (`vrpy/vrp.py:542-544`). -/
def limitReached (cfg : SolveCfg) (st : SolveState) : Bool :=
  decide (st.noImprovement > 1000) || (decide (cfg.maxIter ≠ 0) && decide (st.iteration ≥ cfg.maxIter))

/-- `_column_generation` (`vrpy/vrp.py:530-545`); `none`: not enough fuel. -/
def columnGeneration (cfg : SolveCfg) (env : Env) (dive : Bool) : Nat → SolveState → Py (Option SolveState)
  | 0, st => .ok (if st.more then none else some st)
  | n + 1, st =>
    if st.more then
      match findColumns cfg env dive st with
      | .error e => .error e
      | .ok st => if env.timeUp st.tick || limitReached cfg st then .ok (some st) else columnGeneration cfg env dive n st
    else .ok (some st)

/-- What the end of `_solve` reads off: the selected columns and `dropped_nodes`; `none`: the attribute does not exist. -/
structure Final where
  graphs : List Column
  dropped : Option (List Node)

/-- `get_total_cost_and_routes` (`vrpy/master_solve_pulp.py:124-138`); columns without a value are not selected. -/
def readOff (cfg : SolveCfg) (st : SolveState) : Final where
  graphs := st.cols.filter (fun c => c.name ∈ st.solved ∧ st.point (.y c.name) > 0)
  dropped := if cfg.M.dropPenalty = 0 then none else some (cfg.M.dropped st.point)

/-- The final MIP (`vrpy/vrp.py:518-526`); `old` is `_best_routes_as_graphs` of an earlier call. -/
def solveMIP (cfg : SolveCfg) (env : Env) (old : List Column) (st : SolveState) : Py (SolveState × Final) :=
  if cfg.M.G.nodes.length > 2 then
    let a := env.master st.tick (cfg.M.lp st.mcols false)
    if a.optimal then
      let st := { st with point := a.point, solved := st.mcols.map Column.name, tick := st.tick + 1 }
      .ok (st, readOff cfg st)
    else .error .masterInfeasible
  else .ok (st, { graphs := old, dropped := none })

/-- `_solve` without post-processing (`vrpy/vrp.py:508-526`). -/
def run (cfg : SolveCfg) (env : Env) (dive : Bool) (old : List Column) (fuel : Nat) (st : SolveState) :
    Py (Option (SolveState × Final)) :=
  match columnGeneration cfg env false fuel st with
  | .error e => .error e
  | .ok none => .ok none
  | .ok (some st) =>
    if dive then
      match columnGeneration cfg env true fuel { st with more := true } with
      | .error e => .error e
      | .ok none => .ok none
      | .ok (some st) => .ok (some (st, readOff cfg st))
    else
      match solveMIP cfg env old st with
      | .error e => .error e
      | .ok r => .ok (some r)

end Solve

end Vrpy
