import Verif.Model.Pricing

/-!
# Randomised greedy pricing (`vrpy/subproblem_greedy.py`)
-/

namespace Vrpy

/-- Forward (from Source) or backward (from Sink) search. -/
inductive Dir where
  | fwd
  | bwd
deriving DecidableEq, Repr

/-- The arguments of `_SubProblemGreedy` (`vrpy/vrp.py:792-807`).  The graph searched is the whole network (the pricing
strategy keeps its default `"Exact"`).  `cap` is `load_capacity[vehicle_type]` if `load_capacity` is set.  `falsy` is
the Python truth value of a node label (`0` and `""` are false), which `_update` and `solve` look at. -/
structure GreedyPricing where
  G : Net
  weight : Node → Node → ℚ
  vehicleType : Nat := 0
  cap : Option ℚ := none
  numStops : Option Nat := none
  duration : Option ℚ := none
  falsy : Node → Bool := fun _ => false

/-- The attributes `_current_path`, `_new_node` (`none`: `None` or `False`), `_load`, `_time`, `_stops`, `_weight`. -/
structure GPState where
  path : List Node
  newNode : Option Node := none
  load : ℚ := 0
  time : ℚ := 0
  stops : Nat := 0
  weight : ℚ := 0
deriving DecidableEq, Repr

namespace GreedyPricing

/-- `_last_node` (`vrpy/subproblem_greedy.py:66,102`). -/
def last (dir : Dir) (p : List Node) : Node :=
  match dir with
  | .fwd => p.getLast?.getD .source
  | .bwd => p.head?.getD .sink

/-- The edge between the current end `u` of the path and a new node `v`. -/
def arc (dir : Dir) (u v : Node) : Node × Node :=
  match dir with
  | .fwd => (u, v)
  | .bwd => (v, u)

/-- `not lim or x <= lim`: a limit that is set is respected (`vrpy/subproblem_greedy.py:86-88`). -/
def withinLimit (lim : Option ℚ) (x : ℚ) : Bool :=
  match active lim with
  | some c => x ≤ c
  | none => true

/-- `_constraints_met` (`vrpy/subproblem_greedy.py:82-91`, `:169-191`). -/
def constraintsMet (cfg : GreedyPricing) (dir : Dir) (s : GPState) (u v : Node) : Bool :=
  if v ∈ s.path ∨ (u = .source ∧ v = .sink) then false
  else if !withinLimit cfg.cap (s.load + cfg.G.demand v) then false
  else if !withinLimit cfg.duration (s.time + cfg.G.time (arc dir u v).1 (arc dir u v).2) then false
  else true

/-- Successors or predecessors of the end of the path that meet the constraints, best reduced cost first: the first
five are the `pool` (`vrpy/subproblem_greedy.py:66-78`, `:102-114`). -/
def pool (cfg : GreedyPricing) (dir : Dir) (s : GPState) : List Node :=
  let u := last dir s.path
  let nbrs := match dir with | .fwd => cfg.G.succ u | .bwd => cfg.G.preds u
  ((nbrs.filter (fun v => cfg.constraintsMet dir s u v)).insertionSort
    (fun a b => cfg.weight (arc dir u a).1 (arc dir u a).2 ≤ cfg.weight (arc dir u b).1 (arc dir u b).2)).take 5

/-- `_get_next_node`, `_get_previous_node` (`vrpy/subproblem_greedy.py:65-80`, `:101-116`): `i` is the random index. -/
def pick (cfg : GreedyPricing) (dir : Dir) (i : Nat) (s : GPState) : GPState :=
  { s with newNode := (cfg.pool dir s)[i % (cfg.pool dir s).length]? }

/-- The end of `_update` (`vrpy/subproblem_greedy.py:129-151`) once the new node `v` is on the path: the new state and
whether to go on.  Line 144 looks for `v` among the successors of Sink. -/
def finish (cfg : GreedyPricing) (dir : Dir) (v : Node) (s : GPState) : GPState × Bool :=
  match dir with
  | .fwd =>
    if some s.stops = cfg.numStops ∧ v ≠ .sink then
      if cfg.G.hasEdge v .sink then ({ s with path := s.path ++ [.sink] }, false)
      else ({ s with newNode := none }, false)
    else (s, decide (v ≠ .sink))
  | .bwd =>
    if some s.stops = cfg.numStops ∧ v ≠ .source then
      if v ∈ cfg.G.succ .sink then ({ s with path := .source :: s.path }, false)
      else ({ s with newNode := none }, false)
    else (s, decide (v ≠ .source))

/-- Put `v` on the path and update load, time, stops and weight (`vrpy/subproblem_greedy.py:123-128`, `:139-141`). -/
def push (cfg : GreedyPricing) (dir : Dir) (v : Node) (s : GPState) : GPState :=
  let a := arc dir (last dir s.path) v
  { path := match dir with | .fwd => s.path ++ [v] | .bwd => v :: s.path
    newNode := some v
    load := s.load + cfg.G.demand v
    time := s.time + cfg.G.time a.1 a.2
    stops := s.stops + 1
    weight := s.weight + cfg.weight a.1 a.2 }

/-- `_update` (`vrpy/subproblem_greedy.py:118-151`). -/
def update (cfg : GreedyPricing) (dir : Dir) (s : GPState) : GPState × Bool :=
  match s.newNode with
  | none => (s, false)
  | some v => if cfg.falsy v then (s, false) else cfg.finish dir v (cfg.push dir v s)

/-- The loop of `run_forward`, `run_backwards` (`vrpy/subproblem_greedy.py:58-63`, `:94-99`).  `rand` gives the random
choices; `none`: not enough fuel (`C12_runs_terminate`). -/
def loop (cfg : GreedyPricing) (dir : Dir) (rand : Nat → Nat) : Nat → GPState → Option GPState
  | 0, _ => none
  | n + 1, s =>
    match cfg.update dir (cfg.pick dir (rand s.stops) s) with
    | (s', true) => loop cfg dir rand n s'
    | (s', false) => some s'

/-- `_initialize_run` and `run_forward` or `run_backwards` (`vrpy/subproblem_greedy.py:25-29`, `:52-63`, `:93-99`). -/
def run (cfg : GreedyPricing) (dir : Dir) (rand : Nat → Nat) (fuel : Nat) : Option GPState :=
  cfg.loop dir rand fuel { path := [match dir with | .fwd => .source | .bwd => .sink] }

/-- `_add_new_route` (`vrpy/subproblem_greedy.py:153-167`).  `keys` are the keys of `routes_with_node`. -/
def addRoute (cfg : GreedyPricing) (keys : List Node) (cols : List Column) (p : List Node) : Py (List Column) :=
  let es := graphEdges (consecutive p)
  match sumEdgeCosts cfg.G cfg.vehicleType es with
  | .error e => .error e
  | .ok c =>
    if es.any (fun e => e.1 ≠ .source ∧ e.1 ∉ keys) then .error .keyError
    else .ok (cols ++ [{ name := .num (cols.length + 1), nodes := graphNodes (consecutive p), edges := es, cost := c,
                         vehicleType := cfg.vehicleType }])

/-- `if self._new_node and self._weight < 0` (`vrpy/subproblem_greedy.py:38,46`). -/
def accepted (cfg : GreedyPricing) (s : GPState) : Bool :=
  match s.newNode with
  | none => false
  | some v => !cfg.falsy v && decide (s.weight < 0)

/-- One run and its outcome (`vrpy/subproblem_greedy.py:35-41`, `:43-49`); the state is the pool of columns and
`more_routes`. -/
def attempt (cfg : GreedyPricing) (keys : List Node) (fuel : Nat) (st : List Column × Bool)
    (job : Dir × (Nat → Nat)) : Py (List Column × Bool) :=
  match cfg.run job.1 job.2 fuel with
  | none => .ok st
  | some s =>
    if cfg.accepted s then
      match cfg.addRoute keys st.1 s.path with
      | .error e => .error e
      | .ok cols => .ok (cols, true)
    else .ok st

/-- `solve(n_runs)` (`vrpy/subproblem_greedy.py:31-50`): forward runs, then backward runs, with the random choices
`rand run step`. -/
def solve (cfg : GreedyPricing) (keys : List Node) (rand : Nat → Nat → Nat) (fuel nRuns : Nat) (cols : List Column) :
    Py (List Column × Bool) :=
  ((List.range nRuns).map (fun i => (Dir.fwd, rand i)) ++
    (List.range nRuns).map (fun i => (Dir.bwd, rand (nRuns + i)))).foldlM (cfg.attempt keys fuel) (cols, false)

end GreedyPricing

end Vrpy
