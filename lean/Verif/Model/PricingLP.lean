import Verif.Model.LP
import Verif.Model.Pricing

/-!
# The pricing problem as a mixed integer program (`vrpy/subproblem_lp.py`)
-/

namespace Vrpy

/-- The variables of the pricing problem: flow `x`, times `t`, ranks `y`, loads at nodes (pickup and delivery), and
distribution (`unload`) and collection (`load`) loads on edges. -/
inductive PVar where
  | x (u v : Node)
  | t (v : Node)
  | y (v : Node)
  | load (v : Node)
  | unloadE (u v : Node)
  | loadE (u v : Node)
deriving DecidableEq, Repr

/-- The arguments of `_SubProblemLP` (`vrpy/vrp.py:828-847`).  `G` is `sub_G`, the graph searched; `weight` the reduced
costs; `caps` is `load_capacity` (`[]`: not set); `negCycle` is the value of `negative_edge_cycle(self.G)`. -/
structure PricingLP where
  G : Net
  weight : Node → Node → ℚ
  vehicleType : Nat := 0
  caps : List ℚ := []
  numStops : Option Nat := none
  duration : Option ℚ := none
  timeWindows : Bool := false
  pickupDelivery : Bool := false
  distributionCollection : Bool := false
  negCycle : Bool := true

namespace PricingLP

/-- The flow variables, `cat=pulp.LpBinary` (`vrpy/subproblem_lp.py:23`). -/
def flowVars (q : PricingLP) : List (VarDecl PVar) :=
  q.G.edges.map (fun e => { var := .x e.1 e.2, lo := some 0, up := some 1, isInt := true })

/-- The objective (`vrpy/subproblem_lp.py:98-103`). -/
def objective (q : PricingLP) : LinExpr PVar := q.G.edges.map (fun e => (q.weight e.1 e.2, .x e.1 e.2))

/-- `[x[(i, v)] for i in predecessors(v)]`. -/
def inFlow (q : PricingLP) (v : Node) : List PVar := (q.G.preds v).map (fun i => .x i v)

/-- `[x[(v, j)] for j in successors(v)]`. -/
def outFlow (q : PricingLP) (v : Node) : List PVar := (q.G.succ v).map (fun j => .x v j)

/-- The flow constraints (`vrpy/subproblem_lp.py:104-130`). -/
def flowConstrs (q : PricingLP) : List (Constr PVar) :=
  q.G.customers.map (fun v => ⟨lpSum (q.inFlow v) ++ (lpSum (q.outFlow v)).neg, .eq, 0⟩) ++
    [⟨lpSum (q.outFlow .source), .eq, 1⟩, ⟨lpSum (q.inFlow .sink), .eq, 1⟩,
     ⟨q.G.edges.map (fun e => (1, .x e.1 e.2)), .ge, 2⟩]

/-- `_add_time_windows` (`vrpy/subproblem_lp.py:167-186`), variables. -/
def timeVars (q : PricingLP) : List (VarDecl PVar) := q.G.nodes.map (fun v => { var := .t v, lo := some 0 })

/-- `_add_time_windows` (`vrpy/subproblem_lp.py:167-186`), constraints; `M` is the upper time window of Sink. -/
def timeConstrs (q : PricingLP) : List (Constr PVar) :=
  let M := q.G.upper .sink
  q.G.edges.map (fun e => ⟨[(1, .t e.1), (-1, .t e.2), (M, .x e.1 e.2)], .le,
      M - q.G.service e.1 - q.G.time e.1 e.2⟩) ++
    q.G.nodes.map (fun v => ⟨[(1, .t v)], .le, q.G.upper v⟩) ++
    q.G.nodes.map (fun v => ⟨[(1, .t v)], .ge, q.G.lower v⟩)

/-- `_add_max_stops` (`vrpy/subproblem_lp.py:188-195`). -/
def stopsConstr (q : PricingLP) (n : Nat) : Constr PVar :=
  ⟨q.G.edges.map (fun e => (1, .x e.1 e.2)), .le, n + 1⟩

/-- `_add_max_load` (`vrpy/subproblem_lp.py:197-208`). -/
def loadConstr (q : PricingLP) (c : ℚ) : Constr PVar :=
  ⟨q.G.edges.map (fun e => (q.G.demand e.2, .x e.1 e.2)), .le, c⟩

/-- `_add_max_duration` (`vrpy/subproblem_lp.py:210-225`). -/
def durationConstr (q : PricingLP) (d : ℚ) : Constr PVar :=
  ⟨q.G.edges.map (fun e => (q.G.time e.1 e.2 + q.G.service e.1, .x e.1 e.2)), .le, d⟩

/-- `_add_elementarity` (`vrpy/subproblem_lp.py:227-250`), variables. -/
def rankVars (q : PricingLP) : List (VarDecl PVar) :=
  q.G.nodes.map (fun v => { var := .y v, lo := some 0, up := some q.G.nodes.length, isInt := true })

/-- `_add_elementarity` (`vrpy/subproblem_lp.py:227-250`), constraints. -/
def rankConstrs (q : PricingLP) : List (Constr PVar) :=
  let M : ℚ := q.G.nodes.length
  q.G.edges.map (fun e => ⟨[(1, .y e.1), (-1, .y e.2), (M, .x e.1 e.2)], .le, M - 1⟩) ++
    [⟨[(1, .y .source)], .eq, 0⟩] ++
    (q.G.nodes.filter (fun v => v ≠ .sink)).map (fun v => ⟨[(1, .y v), (-1, .y .sink)], .le, 0⟩)

/-- `_add_pickup_delivery` (`vrpy/subproblem_lp.py:252-305`), variables. -/
def pdVars (q : PricingLP) (cap : ℚ) : List (VarDecl PVar) :=
  q.G.nodes.map (fun v => { var := .load v, lo := some 0, up := some cap })

/-- The requests `(v, G.nodes[v]["request"])`. -/
def requests (q : PricingLP) : List (Node × Node) :=
  q.G.nodes.filterMap (fun v => (q.G.request v).map (fun w => (v, w)))

/-- `_add_pickup_delivery` (`vrpy/subproblem_lp.py:252-305`), constraints. -/
def pdConstrs (q : PricingLP) (cap : ℚ) : List (Constr PVar) :=
  q.requests.map (fun r => ⟨lpSum (q.outFlow r.1) ++ (lpSum (q.outFlow r.2)).neg, .eq, 0⟩) ++
    q.requests.map (fun r => ⟨[(1, .y r.1), (-1, .y r.2)], .le, 0⟩) ++
    q.G.edges.map (fun e => ⟨[(1, .load e.1), (-1, .load e.2), (cap, .x e.1 e.2)], .le, cap - q.G.demand e.2⟩) ++
    q.G.edges.map (fun e => ⟨[(1, .load e.1), (-1, .load e.2), (-cap, .x e.1 e.2)], .ge, -cap - q.G.demand e.2⟩) ++
    [⟨[(1, .load .source)], .eq, 0⟩, ⟨[(1, .load .sink)], .eq, 0⟩]

/-- `_add_distribution_collection` (`vrpy/subproblem_lp.py:307-370`), variables. -/
def dcVars (q : PricingLP) (cap : ℚ) : List (VarDecl PVar) :=
  q.G.edges.map (fun e => { var := .unloadE e.1 e.2, lo := some 0, up := some cap }) ++
    q.G.edges.map (fun e => { var := .loadE e.1 e.2, lo := some 0, up := some cap })

/-- `_add_distribution_collection` (`vrpy/subproblem_lp.py:307-370`), constraints. -/
def dcConstrs (q : PricingLP) (cap : ℚ) : List (Constr PVar) :=
  q.G.customers.map (fun v =>
      ⟨(q.G.preds v).map (fun u => (q.G.demand v, .x u v)) ++
        ((lpSum ((q.G.preds v).map (fun u => .unloadE u v))).neg ++ lpSum ((q.G.succ v).map (fun u => .unloadE v u))),
       .eq, 0⟩) ++
    q.G.customers.map (fun v =>
      ⟨(q.G.preds v).map (fun u => (q.G.collect v, .x u v)) ++
        ((lpSum ((q.G.succ v).map (fun u => .loadE v u))).neg ++ lpSum ((q.G.preds v).map (fun u => .loadE u v))),
       .eq, 0⟩) ++
    q.G.edges.map (fun e => ⟨[(1, .loadE e.1 e.2), (1, .unloadE e.1 e.2), (-cap, .x e.1 e.2)], .le, 0⟩)

/-- `self.load_capacity[self.vehicle_type]`: `None[...]` raises `TypeError`. -/
def capacity (q : PricingLP) : Py ℚ :=
  if q.caps = [] then .error .typeError
  else match q.caps[q.vehicleType]? with
    | none => .error .indexError
    | some c => .ok c

/-- Ranks are used if there is a negative cycle, or for pickup and delivery (`vrpy/subproblem_lp.py:141-147,257-259`). -/
def ranked (q : PricingLP) : Bool := q.negCycle || q.pickupDelivery

/-- The problem for a given capacity (used only where the code reads one). -/
def lp (q : PricingLP) (cap : ℚ) : LP PVar where
  vars := q.flowVars ++
    (if q.timeWindows then q.timeVars else []) ++
    (if q.ranked then q.rankVars else []) ++
    (if q.pickupDelivery then q.pdVars cap else []) ++
    (if q.distributionCollection then q.dcVars cap else [])
  obj := q.objective
  constrs := q.flowConstrs ++
    (if q.timeWindows then q.timeConstrs else []) ++
    (match q.numStops with | some (n + 1) => [q.stopsConstr (n + 1)] | _ => []) ++
    (if q.caps ≠ [] then [q.loadConstr cap] else []) ++
    (match active q.duration with | some d => [q.durationConstr d] | none => []) ++
    (if q.ranked then q.rankConstrs else []) ++
    (if q.pickupDelivery then q.pdConstrs cap else []) ++
    (if q.distributionCollection then q.dcConstrs cap else [])

/-- `_formulate` (`vrpy/subproblem_lp.py:96-149`); `successors` of a delivery node that is not in `sub_G` (line 269)
raises `NetworkXError`.  (Without capacity this error would come before the `TypeError` of `None[...]`.) -/
def formulate (q : PricingLP) : Py (LP PVar) :=
  if q.caps ≠ [] ∨ q.pickupDelivery ∨ q.distributionCollection then
    match q.capacity with
    | .error e => .error e
    | .ok c => if q.pickupDelivery ∧ ∃ r ∈ q.requests, r.2 ∉ q.G.nodes then .error .networkXError else .ok (q.lp c)
  else .ok (q.lp 0)

/-- The edges of the new route: `pulp.value(self.x[(i, j)]) > 0.5` (`vrpy/subproblem_lp.py:58-59`). -/
def chosen (q : PricingLP) (p : PVar → ℚ) : List (Node × Node) :=
  q.G.edges.filter (fun e => p (.x e.1 e.2) > 1 / 2)

/-- `_add_new_route` (`vrpy/subproblem_lp.py:54-68`).  `keys` are the keys of `routes_with_node`.  (The `shortest_path`
in the logging call, lines 70-72, always finds a path, see `C16`.) -/
def addRoute (q : PricingLP) (keys : List Node) (cols : List Column) (p : PVar → ℚ) : Py (List Column) :=
  match sumEdgeCosts q.G q.vehicleType (q.chosen p) with
  | .error e => .error e
  | .ok c =>
    if (q.chosen p).any (fun e => e.1 ≠ .source ∧ e.1 ∉ keys) then .error .keyError
    else .ok (cols ++ [{ name := .num (cols.length + 1), nodes := graphNodes (q.chosen p),
                         edges := graphEdges (q.chosen p), cost := c, vehicleType := q.vehicleType }])

/-- What the solver reports: the objective value (`none`: `None`), the status and the values of the variables. -/
structure Answer where
  objective : Option ℚ
  infeasible : Bool
  point : PVar → ℚ

/-- `solve` with `exact=True`, the only way it is called (`vrpy/subproblem_lp.py:27-52`).  `run` is `run_subsolve`,
`timeUp` is `time_limit and time_limit <= 0`; `solver` gives an answer for a problem. -/
def solve (q : PricingLP) (run timeUp : Bool) (keys : List Node) (solver : LP PVar → Answer) (cols : List Column) :
    Py (List Column × Bool) :=
  if !run || timeUp then .ok (cols, false)
  else
    match q.formulate with
    | .error e => .error e
    | .ok p =>
      match (solver p).objective with
      | none => .ok (cols, false)
      | some z =>
        if z < -(1 / 1000) ∧ (solver p).infeasible = false then
          match q.addRoute keys cols (solver p).point with
          | .error e => .error e
          | .ok cols' => .ok (cols', true)
        else .ok (cols, false)

end PricingLP

end Vrpy
