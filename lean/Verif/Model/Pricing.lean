import Verif.Model.Reports
import Mathlib.Algebra.Order.Floor.Ring
import Mathlib.Data.Rat.Floor

/-!
# The pricing problem: reduced costs and pricing strategies (`vrpy/subproblem.py`)
-/

namespace Vrpy

/-- The dictionary returned by `get_duals` (`vrpy/master_solve_pulp.py:78-122`), sorted by kind of key: customers,
`"upper_bound_vehicles"` (absent unless there is a fleet bound; its value has keys 0, 1, ...) and `"makespan_<name>"`.
Simplification: no customer is labelled like one of these strings. -/
structure Duals where
  visit : Dict Node ℚ
  fleet : Option (List ℚ) := none
  span : Dict ColName ℚ := []

/-- `for v in self.duals: if edge[0] == v: edge[2]["weight"] -= self.duals[v]` (`vrpy/subproblem.py:125-127`). -/
def subtractDuals (d : Duals) (u : Node) (w : ℚ) : ℚ :=
  d.visit.foldl (fun w p => if u = p.1 then w - p.2 else w) w

/-- The factor of `vrpy/subproblem.py:121-124`; `route` is the name of the column a route-dependent pricing problem
belongs to. -/
def spanWeight (d : Duals) (route : Option ColName) (c : ℚ) : Py ℚ :=
  match route with
  | none => .ok c
  | some n =>
    match dget d.span n with
    | none => .error .keyError
    | some p => .ok (c * -p)

/-- `vrpy/subproblem.py:128-132`, for an edge leaving `u`. -/
def fleetWeight (d : Duals) (k : Nat) (u : Node) (w : ℚ) : Py ℚ :=
  match d.fleet with
  | none => .ok w
  | some ps =>
    if u = .source then
      match ps[k]? with
      | none => .error .keyError
      | some p => .ok (w - p)
    else .ok w

/-- The `"weight"` that `add_reduced_cost_attribute` gives the edge `(u, v)` (`vrpy/subproblem.py:117-132`). -/
def edgeWeight (G : Net) (d : Duals) (k : Nat) (route : Option ColName) (u v : Node) : Py ℚ :=
  match G.edgeCost u v k with
  | .error e => .error e
  | .ok c =>
    match spanWeight d route c with
    | .error e => .error e
    | .ok w => fleetWeight d k u (subtractDuals d u w)

/-- `add_reduced_cost_attribute` (`vrpy/subproblem.py:117-132`): the `"weight"` attribute of all edges, or the exception
raised on the way. -/
def reducedCosts (G : Net) (d : Duals) (k : Nat) (route : Option ColName) : Py (Node → Node → ℚ) :=
  match G.edges.mapM (fun e => edgeWeight G d k route e.1 e.2) with
  | .error e => .error e
  | .ok _ => .ok (fun u v => match edgeWeight G d k route u v with | .ok w => w | .error _ => 0)

/-- The arc list of a network as a graph for `has_path`. -/
def Net.hasPath (G : Net) (s t : Node) : Bool := G.toDiGraph.hasPath s t

/-- `max(self.duals[v] for v in self.duals if v != "upper_bound_vehicles")` (`vrpy/subproblem.py:150-152`). -/
def largestDual (d : Duals) : Py ℚ :=
  match (d.visit.map Prod.snd ++ d.span.map Prod.snd) with
  | [] => .error .valueError
  | x :: xs => .ok (xs.foldl max x)

/-- The state of a pricing problem after its constructor (`vrpy/subproblem.py:96-114`): the graph that is searched
and `run_subsolve`. -/
structure SubGraph where
  G : Net
  run : Bool := true

/-- `remove_edges_1(alpha)`, strategy BestEdges1 (`vrpy/subproblem.py:141-163`). -/
def removeEdges1 (G : Net) (d : Duals) (k : Nat) (alpha : ℚ) : Py SubGraph :=
  match largestDual d with
  | .error e => .error e
  | .ok m =>
    let sub := G.removeEdges (G.edges.filter (fun e => (G.cost e.1 e.2).getD k 0 > alpha * m))
    .ok { G := sub, run := sub.hasPath .source .sink }

/-- The dictionary `reduced_cost` of `remove_edges_2`, its keys sorted by value (`vrpy/subproblem.py:174-179`). -/
def sortedInnerEdges (G : Net) (w : Node → Node → ℚ) : List (Node × Node) :=
  (G.edges.filter (fun e => e.1 ≠ .source ∧ e.2 ≠ .sink)).insertionSort (fun a b => w a.1 a.2 ≤ w b.1 b.2)

/-- `remove_edges_2(ratio)`, strategy BestEdges2 (`vrpy/subproblem.py:165-189`). -/
def removeEdges2 (G : Net) (w : Node → Node → ℚ) (ratio : ℚ) : SubGraph :=
  let sorted := sortedInnerEdges G w
  let limit := ⌊ratio * sorted.length⌋.toNat
  let sub := G.removeEdges (sorted.drop limit)
  { G := sub, run := sub.hasPath .source .sink }

/-- The nonnegative weights of `remove_edges_3` (`vrpy/subproblem.py:201-207`): `max` of no edges raises `ValueError`,
equal weights divide by zero. -/
def positiveWeights (G : Net) (w : Node → Node → ℚ) : Py (Node → Node → ℚ) :=
  match G.edges.map (fun e => w e.1 e.2) with
  | [] => .error .valueError
  | x :: xs =>
    let hi := xs.foldl max x
    let lo := xs.foldl min x
    if hi = lo then .error .zeroDivisionError
    else .ok (fun u v => max 0 ((-hi - lo + 2 * w u v) / (hi - lo)))

/-- The choice made by networkx in `remove_edges_3`: the first `beta` paths of
`shortest_simple_paths(G, "Source", "Sink", weight="pos_weight")`. -/
abbrev PathsOracle := Net → (Node → Node → ℚ) → Nat → List (List Node)

/-- `G.edge_subgraph(es).copy()`: the edges `es` and their end points, with all attributes. -/
def Net.edgeSubgraph (G : Net) (es : List (Node × Node)) : Net :=
  { G with
    nodes := G.nodes.filter (fun v => es.any (fun e => e.1 = v ∨ e.2 = v))
    succ := fun u => (G.succ u).filter (fun v => (u, v) ∈ es) }

/-- `remove_edges_3(beta)`, strategy BestPaths (`vrpy/subproblem.py:191-224`).  If Sink cannot be reached,
`shortest_simple_paths` raises `NetworkXNoPath`; `compose_all([])` raises `ValueError`. -/
def removeEdges3 (G : Net) (w : Node → Node → ℚ) (paths : PathsOracle) (beta : Nat) : Py SubGraph :=
  match positiveWeights G w with
  | .error e => .error e
  | .ok pw =>
    let best := paths G pw beta
    if best = [] then .error (if beta = 0 then .valueError else .networkXError)
    else .ok { G := G.edgeSubgraph (best.flatMap consecutive) }

/-- A pricing strategy with its parameter (`vrpy/vrp.py:664-728`). -/
inductive Strategy where
  | exact
  | bestEdges1 (alpha : ℚ)
  | bestEdges2 (ratio : ℚ)
  | bestPaths (beta : Nat)
deriving DecidableEq, Repr

/-- The constructor of the pricing problem (`vrpy/subproblem.py:63-115`): the reduced costs and the graph searched. -/
def subProblem (G : Net) (d : Duals) (k : Nat) (route : Option ColName) (paths : PathsOracle) (s : Strategy) :
    Py ((Node → Node → ℚ) × SubGraph) :=
  match reducedCosts G d k route with
  | .error e => .error e
  | .ok w =>
    match s with
    | .exact => .ok (w, { G := G })
    | .bestEdges1 alpha => match removeEdges1 G d k alpha with | .error e => .error e | .ok S => .ok (w, S)
    | .bestEdges2 ratio => .ok (w, removeEdges2 G w ratio)
    | .bestPaths beta => match removeEdges3 G w paths beta with | .error e => .error e | .ok S => .ok (w, S)

end Vrpy
