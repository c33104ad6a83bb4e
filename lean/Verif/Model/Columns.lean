import Verif.Model.PreSolve
import Verif.Model.ClarkeWright
import Verif.Model.Greedy

/-!
# Columns and the initial solution (`vrpy/vrp.py:485-506`, `:877-983`)
-/

namespace Vrpy

/-- Names of columns: integers (initial routes `vrpy/vrp.py:955-957`, greedy `vrpy/subproblem_greedy.py:156`, LP
`vrpy/subproblem_lp.py:55`) or strings `"{n}_elem"`, `"{n}_non-elem"` (`vrpy/subproblem_cspy.py:324-325`). -/
inductive ColName where
  | num (n : Nat)
  | elem (n : Nat)
  | nonElem (n : Nat)
deriving DecidableEq, Repr

/-- A column: a networkx `DiGraph` with graph attributes `name`, `cost`, `vehicle_type`, and, for columns found with
cspy, `path`.  `edges` is `route.edges()`. -/
structure Column where
  name : ColName
  path : Option (List Node) := none
  nodes : List Node
  edges : List (Node × Node)
  cost : ℚ
  vehicleType : Nat
deriving DecidableEq, Repr

/-- Nodes of a graph built by adding the edges `es` one by one (`add_edge`, `add_path`), in insertion order. -/
def graphNodes (es : List (Node × Node)) : List Node :=
  es.foldl (fun l e => insertNew (insertNew l e.1) e.2) []

/-- Edges of a graph built by adding the edges `es`, in the order of `G.edges()`: by node, then adjacency order. -/
def graphEdges (es : List (Node × Node)) : List (Node × Node) :=
  (graphNodes es).flatMap (fun u => (es.filter (fun e => e.1 = u)).foldl insertNew [])

/-- Sum of the costs of vehicle type `k` over a list of edges (`KeyError`/`IndexError` as in `Net.edgeCost`). -/
def sumEdgeCosts (G : Net) (k : Nat) (es : List (Node × Node)) : Py ℚ :=
  es.foldlM (fun acc e => match G.edgeCost e.1 e.2 k with | .error err => .error err | .ok c => .ok (acc + c)) 0

/-- The first vehicle type that can carry load `q` (`vrpy/vrp.py:964-973`); no capacities: type 0. -/
def firstType (caps : List ℚ) (q : ℚ) : Option Nat :=
  if caps = [] then some 0 else caps.findIdx? (fun c => q ≤ c)

/-- One iteration of `_convert_initial_routes_to_digraphs` (`vrpy/vrp.py:955-978`). -/
def convertRoute (G : Net) (caps : List ℚ) (id : Nat) (r : List Node) : Py Column :=
  match sumEdgeCosts G 0 (consecutive r) with
  | .error e => .error e
  | .ok c =>
    match firstType caps (r.map G.demand).sum with
    | none => .error .valueError
    | some k => .ok { name := .num id, nodes := graphNodes (consecutive r), edges := graphEdges (consecutive r),
                      cost := c, vehicleType := k }

/-- `_convert_initial_routes_to_digraphs` (`vrpy/vrp.py:948-983`), the list `_routes`; ids start at 1. -/
def convertRoutes (G : Net) (caps : List ℚ) (rs : List (List Node)) : Py (List Column) :=
  (rs.zipIdx 1).mapM (fun p => convertRoute G caps p.2 p.1)

/-- The keys of `_routes_with_node` after the conversion (`vrpy/vrp.py:979-983`).  (The values, lists of columns, are
passed around but never read.) -/
def routesWithNode (rs : List (List Node)) : List Node := rs.flatMap interior

/-- `for alpha in [x / 10 for x in range(1, 20)]` (`vrpy/vrp.py:894`). -/
def alphas : List ℚ := (List.range 19).map (fun x => ((x + 1 : Nat) : ℚ) / 10)

/-- The Clarke & Wright runs (`vrpy/vrp.py:893-910`): all routes found for all values of alpha. -/
def cwRoutes (G : Net) (cap duration numStops : Option ℚ) (o : ℚ → CWOracle) : Py (List (List Node)) :=
  alphas.foldlM (fun acc a =>
    match cwRun G { cap := cap, duration := duration, numStops := numStops, alpha := a } (o a) with
    | .error e => .error e
    | .ok (_, rs) => .ok (acc ++ rs)) []

/-- Initial routes for pickup and delivery (`vrpy/vrp.py:929-940`). -/
def requestRoutes (G : Net) (timeWindows : Bool) : Py (List (List Node)) :=
  G.nodes.foldlM (fun acc v =>
    match G.request v with
    | none => .ok acc
    | some w =>
      match (if timeWindows then checkPickupDeliveryTimeWindows G [(.source, v), (v, w), (w, .sink)] else .ok ()) with
      | .error e => .error e
      | .ok _ => .ok (acc ++ [[.source, v, w, .sink]])) []

/-- The condition for using Clarke & Wright (`vrpy/vrp.py:885-891`). -/
def Vrp.plain (P : Vrp) : Bool :=
  !P.timeWindows && !P.pickupDelivery && !P.distributionCollection && !P.mixedFleet && P.periodic.getD 0 == 0

/-- `load_capacity[0]` if set (`vrpy/clarke_wright.py:45-48`, `vrpy/greedy.py:24-28`). -/
def Vrp.cap0 (P : Vrp) : Option ℚ := (capacities P.loadCapacity.toList).head?

/-- `_get_initial_solution` (`vrpy/vrp.py:877-946`).  `fuel` bounds the loops of the greedy heuristic; `none` means it
was too small (never for `fuel > #customers`, `C11_greedy_terminates`). -/
def Vrp.initialSolution (P : Vrp) (N : Net) (o : ℚ → CWOracle) (fuel : Nat) : Py (Option (List (List Node))) :=
  if P.plain then
    match cwRoutes N P.cap0 P.duration.limit (P.numStops.stops.map (fun n => (n : ℚ))) o with
    | .error e => .error e
    | .ok rs =>
      match greedyRun N { cap := P.cap0, numStops := P.numStops.stops, duration := P.duration.limit } fuel with
      | .error e => .error e
      | .ok none => .ok none
      | .ok (some (_, rs')) => .ok (some (rs ++ rs'))
  else if P.pickupDelivery then
    match requestRoutes N P.timeWindows with
    | .error e => .error e
    | .ok rs => .ok (some rs)
  else .ok (some (roundTrips N))

/-- The initial routes `_initialize` goes on with (`vrpy/vrp.py:487-492`): the user's (or left over) ones if there are
any, after the check. -/
def Vrp.chooseInitial (P : Vrp) (N : Net) (o : ℚ → CWOracle) (fuel : Nat) : Py (Option (List (List Node))) :=
  if P.initialRoutes ≠ [] then
    match checkInitialRoutes P.initialRoutes N with
    | .error e => .error e
    | .ok _ => .ok (some P.initialRoutes)
  else P.initialSolution N o fuel

/-- `_initialize` up to the master problem (`vrpy/vrp.py:485-494`): the object with its `_initial_routes`, and the
first columns. -/
def Vrp.initialize (P : Vrp) (N : Net) (o : ℚ → CWOracle) (fuel : Nat) : Py (Option (Vrp × List Column)) :=
  match P.chooseInitial N o fuel with
  | .error e => .error e
  | .ok none => .ok none
  | .ok (some rs) =>
    match convertRoutes N (capacities P.loadCapacity.toList) rs with
    | .error e => .error e
    | .ok cols => .ok (some ({ P with initialRoutes := rs }, cols))

end Vrpy
