import Verif.Model.Columns

/-!
# The result and its reports (`vrpy/vrp.py:252-425`, `:1130-1158`)
-/

namespace Vrpy

/-- A Python `dict`: key-value pairs in insertion order. -/
abbrev Dict (κ α : Type) := List (κ × α)

/-- `d.get(k)`; `d[k]` raises `KeyError` when this is `none`. -/
def dget {κ α : Type} [DecidableEq κ] : Dict κ α → κ → Option α
  | [], _ => none
  | (k', v) :: d, k => if k = k' then some v else dget d k

/-- `d[k] = v`: overwrite in place, or append. -/
def dset {κ α : Type} [DecidableEq κ] : Dict κ α → κ → α → Dict κ α
  | [], k, v => [(k, v)]
  | (k', v') :: d, k, v => if k = k' then (k', v) :: d else (k', v') :: dset d k v

/-- What `solve()` leaves behind: `_best_routes`, `_best_routes_vehicle_type`, `_dropped_nodes`. -/
structure Solution where
  routes : Dict Nat (List Node)
  types : Dict Nat Nat
  dropped : List Node
deriving DecidableEq, Repr

/-- One pass of the loop choosing the vehicle of a locked route (`vrpy/vrp.py:1146-1157`); the state is
`(best_cost, vehicle type found)`. -/
def lockedTypeStep (H : Net) (caps : List ℚ) (r : List Node) (st : ℚ × Option Nat) (k : Nat) : Py (ℚ × Option Nat) :=
  match sumEdgeCosts H k (consecutive r) with
  | .error e => .error e
  | .ok c =>
    if c < st.1 then
      if caps ≠ [] then
        match caps[k]? with
        | none => .error .indexError
        | some q => if (r.map H.demand).sum ≤ q then .ok (c, some k) else .ok st
      else .ok (c, some k)
    else .ok st

/-- The vehicle type of a locked complete route (`vrpy/vrp.py:1144-1157`): the first cheapest one that can carry it
among those cheaper than `1e10`; `none` if there is none (then no entry is made). -/
def lockedType (H : Net) (caps : List ℚ) (K : Nat) (r : List Node) : Py (Option Nat) :=
  match (List.range K).foldlM (lockedTypeStep H caps r) (bigCost, none) with
  | .error e => .error e
  | .ok st => .ok st.2

/-- One pass of the merge loop of `_best_routes_as_node_lists` (`vrpy/vrp.py:1141-1158`): the state is the two dicts and
`route_id`. -/
def mergeLocked (H : Net) (caps : List ℚ) (K : Nat) (st : Dict Nat (List Node) × Dict Nat Nat × Nat) (r : List Node) :
    Py (Dict Nat (List Node) × Dict Nat Nat × Nat) :=
  if r = [] then .error .indexError
  else if isComplete r then
    match lockedType H caps K r with
    | .error e => .error e
    | .ok none => .ok (dset st.1 st.2.2 r, st.2.1, st.2.2 + 1)
    | .ok (some k) => .ok (dset st.1 st.2.2 r, dset st.2.1 st.2.2 k, st.2.2 + 1)
  else .ok st

/-- One pass of the first loop of `_best_routes_as_node_lists` (`vrpy/vrp.py:1135-1139`). -/
def addGraph (path : Column → List Node) (st : Dict Nat (List Node) × Dict Nat Nat × Nat) (c : Column) :
    Dict Nat (List Node) × Dict Nat Nat × Nat :=
  (dset st.1 st.2.2 (path c), dset st.2.1 st.2.2 c.vehicleType, st.2.2 + 1)

/-- `_best_routes_as_node_lists` (`vrpy/vrp.py:1130-1158`).  `path c` is `shortest_path(route, "Source", "Sink")`
(contract `Spec.IsShortestPath`; every column has such a path, so `NetworkXNoPath` is not modelled). -/
def bestRoutesAsNodeLists (H : Net) (caps : List ℚ) (K : Nat) (path : Column → List Node) (graphs : List Column)
    (pre : List (List Node)) : Py (Dict Nat (List Node) × Dict Nat Nat) :=
  match pre.foldlM (mergeLocked H caps K) (graphs.foldl (addGraph path) ([], [], 1)) with
  | .error e => .error e
  | .ok st => .ok (st.1, st.2.1)

/-- One entry of `best_routes_cost` (`vrpy/vrp.py:287-291`). -/
def routeCostEntry (H : Net) (types : Dict Nat Nat) (p : Nat × List Node) : Py (Nat × ℚ) :=
  match dget types p.1 with
  | none => .error .keyError
  | some k =>
    match sumEdgeCosts H k (consecutive p.2) with
    | .error e => .error e
    | .ok c => .ok (p.1, c)

/-- `best_routes_cost` (`vrpy/vrp.py:284-291`). -/
def bestRoutesCost (H : Net) (S : Solution) : Py (Dict Nat ℚ) := S.routes.mapM (routeCostEntry H S.types)

/-- `sum(costs)` or `max(costs)` (`vrpy/vrp.py:269-274`); `max` of nothing raises `ValueError`. -/
def totalOf (span : Bool) (costs : List ℚ) : Py ℚ :=
  if span then
    match costs with
    | [] => .error .valueError
    | c :: cs => .ok (cs.foldl max c)
  else .ok costs.sum

/-- `best_value` (`vrpy/vrp.py:265-274`); `dropPenalty = 0` is the false value. -/
def bestValue (H : Net) (span : Bool) (dropPenalty : ℚ) (S : Solution) : Py ℚ :=
  match bestRoutesCost H S with
  | .error e => .error e
  | .ok costs =>
    match totalOf span (costs.map Prod.snd) with
    | .error e => .error e
    | .ok c => .ok (if dropPenalty ≠ 0 then c + dropPenalty * S.dropped.length else c)

/-- `best_routes_load` (`vrpy/vrp.py:294-307`).  (Every node of a route is a node of `_H`.) -/
def bestRoutesLoad (H : Net) (caps : List ℚ) (distColl pickDel : Bool) (S : Solution) : Dict Nat ℚ :=
  if caps = [] ∨ distColl ∨ pickDel then []
  else S.routes.map (fun p => (p.1, (p.2.map H.demand).sum))

/-- One pass of the inner loop of `node_load` (`vrpy/vrp.py:332-338`). -/
def nodeLoadStep (H : Net) (distColl : Bool) (st : ℚ × Dict Node ℚ) (v : Node) : ℚ × Dict Node ℚ :=
  let amount := st.1 + H.demand v + (if distColl then H.collect v - 2 * H.demand v else 0)
  (amount, dset st.2 v amount)

/-- The starting amount of `node_load` (`vrpy/vrp.py:327-330`): `None[k]` raises `TypeError`. -/
def nodeLoadStart (caps : List ℚ) (distColl : Bool) (types : Dict Nat Nat) (i : Nat) : Py ℚ :=
  if distColl then
    match dget types i with
    | none => .error .keyError
    | some k => if caps = [] then .error .typeError else match caps[k]? with | none => .error .indexError | some q => .ok q
  else .ok 0

/-- One entry of `node_load` (`vrpy/vrp.py:326-338`). -/
def nodeLoadEntry (H : Net) (caps : List ℚ) (distColl : Bool) (types : Dict Nat Nat) (p : Nat × List Node) :
    Py (Nat × Dict Node ℚ) :=
  match nodeLoadStart caps distColl types p.1 with
  | .error e => .error e
  | .ok q => .ok (p.1, (p.2.foldl (nodeLoadStep H distColl) (q, [])).2)

/-- `node_load` (`vrpy/vrp.py:310-339`). -/
def nodeLoad (H : Net) (caps : List ℚ) (distColl pickDel : Bool) (S : Solution) : Py (Dict Nat (Dict Node ℚ)) :=
  if caps = [] ∧ pickDel = false ∧ distColl = false then .ok []
  else S.routes.mapM (nodeLoadEntry H caps distColl S.types)

/-- Sum of travel times over a list of edges; `KeyError` for a missing edge. -/
def sumEdgeTimes (H : Net) (es : List (Node × Node)) : Py ℚ :=
  es.foldlM (fun acc e => match H.edgeTime e.1 e.2 with | .error err => .error err | .ok t => .ok (acc + t)) 0

/-- One entry of `best_routes_duration` (`vrpy/vrp.py:347-354`). -/
def durationEntry (H : Net) (p : Nat × List Node) : Py (Nat × ℚ) :=
  match sumEdgeTimes H (consecutive p.2) with
  | .error e => .error e
  | .ok t => .ok (p.1, t + (p.2.map H.service).sum)

/-- `best_routes_duration` (`vrpy/vrp.py:342-356`); `timed` is `self.duration or self.time_windows`. -/
def bestRoutesDuration (H : Net) (timed : Bool) (S : Solution) : Py (Dict Nat ℚ) :=
  if !timed then .ok [] else S.routes.mapM (durationEntry H)

/-- One pass of the inner loop of `arrival_time` (`vrpy/vrp.py:371-379`). -/
def arrivalStep (H : Net) (d : Dict Node ℚ) (e : Node × Node) : Py (Dict Node ℚ) :=
  match dget d e.1 with
  | none => .error .keyError
  | some a =>
    match H.edgeTime e.1 e.2 with
    | .error err => .error err
    | .ok t => .ok (dset d e.2 (max (a + H.service e.1 + t) (H.lower e.2)))

/-- `arrival_time[i]` for a route (`vrpy/vrp.py:368-379`). -/
def arrivalRoute (H : Net) (r : List Node) : Py (Dict Node ℚ) :=
  (consecutive r).foldlM (arrivalStep H) [(.source, H.lower .source)]

/-- One entry of `arrival_time`. -/
def arrivalEntry (H : Net) (p : Nat × List Node) : Py (Nat × Dict Node ℚ) :=
  match arrivalRoute H p.2 with
  | .error e => .error e
  | .ok d => .ok (p.1, d)

/-- `arrival_time` (`vrpy/vrp.py:359-380`). -/
def arrivalTime (H : Net) (timed : Bool) (S : Solution) : Py (Dict Nat (Dict Node ℚ)) :=
  if !timed then .ok [] else S.routes.mapM (arrivalEntry H)

/-- One pass of the inner loop of `departure_time` (`vrpy/vrp.py:404-408`). -/
def departureStep (H : Net) (arr d : Dict Node ℚ) (e : Node × Node) : Py (Dict Node ℚ) :=
  match dget arr e.2 with
  | none => .error .keyError
  | some a => .ok (dset d e.2 (a + H.service e.2))

/-- `departure_time[i]` for a route (`vrpy/vrp.py:400-408`). -/
def departureRoute (H : Net) (r : List Node) : Py (Dict Node ℚ) :=
  match arrivalRoute H r with
  | .error e => .error e
  | .ok arr => (consecutive r).foldlM (departureStep H arr) [(.source, H.lower .source)]

/-- One entry of `departure_time`. -/
def departureEntry (H : Net) (p : Nat × List Node) : Py (Nat × Dict Node ℚ) :=
  match departureRoute H p.2 with
  | .error e => .error e
  | .ok d => .ok (p.1, d)

/-- `departure_time` (`vrpy/vrp.py:390-409`). -/
def departureTime (H : Net) (timed : Bool) (S : Solution) : Py (Dict Nat (Dict Node ℚ)) :=
  if !timed then .ok [] else S.routes.mapM (departureEntry H)

/-- `check_arrival_time` (`vrpy/vrp.py:382-387`), on the (pruned) graph `G`; `self.G.nodes[k2]` raises `KeyError` for a node that
`_lock` has removed. -/
def checkArrivalTime (G : Net) (arr : Dict Nat (Dict Node ℚ)) : Py Unit :=
  arr.forM fun p => p.2.forM fun q =>
    if q.1 ∉ G.nodes then .error .keyError
    else if G.lower q.1 ≤ q.2 ∧ q.2 ≤ G.upper q.1 then .ok ()
    else .error .assertionError

/-- `check_departure_time` (`vrpy/vrp.py:411-418`), on the (pruned) graph `G`. -/
def checkDepartureTime (G : Net) (dep : Dict Nat (Dict Node ℚ)) : Py Unit :=
  dep.forM fun p => p.2.forM fun q =>
    if q.1 ∉ G.nodes then .error .keyError
    else if G.lower q.1 ≤ q.2 then .ok ()
    else .error .assertionError

end Vrpy
