import Verif.Model.Pricing

/-!
# Pricing with cspy (`vrpy/subproblem_cspy.py`)

The labelling algorithm of the cspy library itself is not modelled: it is an oracle with a contract
(`Verif/Props/Cspy.lean`).  `REF_bwd` and `REF_join` are never called: a custom resource function is used only when the
direction is `"forward"` (lines 216-225, 369-381).
-/

namespace Vrpy

/-- The six resources (`vrpy/subproblem_cspy.py:160-167`). -/
structure Res where
  stops : ℚ := 0
  load : ℚ := 0
  time : ℚ := 0
  windows : ℚ := 0
  collect : ℚ := 0
  deliver : ℚ := 0
deriving DecidableEq, Repr

/-- All resources within `min_res = 0` and the given maxima. -/
def Res.within (m r : Res) : Bool :=
  decide (0 ≤ r.stops ∧ r.stops ≤ m.stops) && decide (0 ≤ r.load ∧ r.load ≤ m.load) &&
    decide (0 ≤ r.time ∧ r.time ≤ m.time) && decide (0 ≤ r.windows ∧ r.windows ≤ m.windows) &&
    decide (0 ≤ r.collect ∧ r.collect ≤ m.collect) && decide (0 ≤ r.deliver ∧ r.deliver ≤ m.deliver)

/-- The arguments of `_SubProblemCSPY` (`vrpy/vrp.py:809-827`); `G` is `sub_G`, `caps` is `load_capacity` (`[]`: not set). -/
structure Cspy where
  G : Net
  weight : Node → Node → ℚ
  vehicleType : Nat := 0
  caps : List ℚ := []
  numStops : Option Nat := none
  duration : Option ℚ := none
  timeWindows : Bool := false
  pickupDelivery : Bool := false
  distributionCollection : Bool := false
  elementary : Bool := false

namespace Cspy

/-- `max_res` as set by the constructor (`vrpy/subproblem_cspy.py:173-183`). -/
def initialMax (q : Cspy) : Res where
  stops := (q.G.nodes.length / 2 : Nat)
  load := (q.G.nodes.map q.G.demand).sum
  time := (q.G.edges.map (fun e => q.G.time e.1 e.2)).sum
  windows := 1
  collect := (q.G.nodes.map q.G.demand).sum
  deliver := (q.G.nodes.map q.G.demand).sum

/-- `add_max_stops` and `add_monotone` (`vrpy/subproblem_cspy.py:295-298`, `:339-353`). -/
def setStops (q : Cspy) (m : Res) : Res :=
  match q.numStops with
  | some (n + 1) => { m with stops := ((n + 1 : Nat) : ℚ) + 1 }
  | _ => m

/-- `add_max_load` and the loads for distribution and collection (`vrpy/subproblem_cspy.py:299-300,316-318,355-360`). -/
def setLoad (q : Cspy) (m : Res) : Py Res :=
  if q.caps = [] then .ok m
  else match q.caps[q.vehicleType]? with
    | none => .error .indexError
    | some c =>
      if q.distributionCollection then .ok { m with load := c, collect := c, deliver := c }
      else .ok { m with load := c }

/-- Duration and time windows (`vrpy/subproblem_cspy.py:301-315`): `max` over no predecessors of Sink (line 310) raises
`ValueError`. -/
def setTime (q : Cspy) (m : Res) : Py Res :=
  if q.timeWindows then
    if q.G.preds .sink = [] then .error .valueError
    else match active q.duration with
      | some d => .ok { m with time := d, windows := 0 }
      | none => .ok { m with time := 1 + q.G.upper .sink, windows := 0 }
  else match active q.duration with
    | some d => .ok { m with time := d }
    | none => .ok m

/-- `formulate` (`vrpy/subproblem_cspy.py:292-320`): the maxima; with `pickup_delivery` line 320 assigns to a seventh
resource that does not exist.  (The order in which the independent parts are set is changed.) -/
def formulate (q : Cspy) : Py Res :=
  match q.setLoad (q.setStops q.initialMax) with
  | .error e => .error e
  | .ok m =>
    match q.setTime m with
    | .error e => .error e
    | .ok m => if q.pickupDelivery then .error .indexError else .ok m

/-- Whether a custom resource function is used (`get_REF`, `vrpy/subproblem_cspy.py:369-381`). -/
def custom (q : Cspy) : Bool := q.timeWindows || q.distributionCollection || q.pickupDelivery

/-- `REF_fwd` (`vrpy/subproblem_cspy.py:39-72`). -/
def refFwd (q : Cspy) (r : Res) (i j : Node) : Res :=
  let time := max (r.time + q.G.service i + q.G.time i j) (q.G.lower j)
  { stops := r.stops + 1
    load := r.load + q.G.demand j
    time := time
    windows := if !q.timeWindows || decide (time ≤ q.G.upper j) then 0 else 1
    collect := if q.distributionCollection then r.collect + q.G.collect j else r.collect
    deliver := if q.distributionCollection then max (r.deliver + q.G.demand j) (r.collect + q.G.collect j) else r.deliver }

/-- The default resource function of cspy: add the `res_cost` of the edge (`vrpy/subproblem_cspy.py:185-186`, `:339-367`). -/
def refDefault (q : Cspy) (r : Res) (i j : Node) : Res :=
  { r with
    stops := r.stops + 1
    load := if q.caps = [] then r.load else r.load + q.G.demand j
    time := if active q.duration = none then r.time else r.time + q.G.time i j }

/-- The resource function in use. -/
def ref (q : Cspy) (r : Res) (i j : Node) : Res := if q.custom then q.refFwd r i j else q.refDefault r i j

/-- The resources consumed along a path that starts with resources `r` at the node `i`. -/
def consume (q : Cspy) (r : Res) (i : Node) : List Node → Res
  | [] => r
  | j :: rest => consume q (q.ref r i j) j rest

/-- The resources consumed along a path, from zero. -/
def consumed (q : Cspy) : List Node → Res
  | [] => {}
  | i :: rest => q.consume {} i rest

/-- `create_new_route` (`vrpy/subproblem_cspy.py:322-337`).  `keys` are the keys of `routes_with_node`. -/
def createRoute (q : Cspy) (keys : List Node) (n : Nat) (path : List Node) : Py Column :=
  let es := graphEdges (consecutive path)
  match sumEdgeCosts q.G q.vehicleType es with
  | .error e => .error e
  | .ok c =>
    if es.any (fun e => e.1 ≠ .source ∧ e.1 ∉ keys) then .error .keyError
    else .ok { name := if path.Nodup then .elem (n + 1) else .nonElem (n + 1), path := some path,
               nodes := graphNodes (consecutive path), edges := es, cost := c, vehicleType := q.vehicleType }

/-- The runs with `elementary` (`vrpy/subproblem_cspy.py:229-233`). -/
def runs (q : Cspy) : List Bool := if !q.distributionCollection && !q.elementary then [false, true] else [true]

/-- What cspy returns for given limits and a given value of `elementary`: `total_cost` and `path`; `none`: `None`. -/
abbrev Oracle := Res → Bool → Option (ℚ × List Node)

/-- The loop of `solve` (`vrpy/subproblem_cspy.py:234-290`).  Not modelled: the threshold passed to cspy (the contract of
the oracle does not promise an optimal path) and the statistics used for it. -/
def attempts (q : Cspy) (keys : List Node) (oracle : Bool → Option (ℚ × List Node)) (cols : List Column) :
    List Bool → Py (List Column × Bool)
  | [] => .ok (cols, false)
  | e :: es =>
    match oracle e with
    | none => .ok (cols, false)
    | some (c, path) =>
      if c < -(1 / 1000) then
        match q.createRoute keys cols.length path with
        | .error err => .error err
        | .ok col =>
          if cols.any (fun r => r.edges = col.edges) then attempts q keys oracle cols es
          else .ok (cols ++ [col], true)
      else .ok (cols, false)

/-- `solve` (`vrpy/subproblem_cspy.py:196-290`). -/
def solve (q : Cspy) (run : Bool) (keys : List Node) (oracle : Oracle) (cols : List Column) :
    Py (List Column × Bool) :=
  if !run then .ok (cols, false)
  else
    match q.formulate with
    | .error e => .error e
    | .ok m => q.attempts keys (oracle m) cols q.runs

end Cspy

end Vrpy
