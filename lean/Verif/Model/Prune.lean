import Verif.Model.Basic

/-!
# `_prune_graph` and its two helpers (`vrpy/vrp.py:1015-1066`)
-/

namespace Vrpy

/-- `_remove_infeasible_arcs_capacities` (`vrpy/vrp.py:1015-1023`). -/
def removeInfeasibleArcsCapacities (G : Net) (maxCapacity : ℚ) : Net :=
  G.removeEdges (G.edges.filter (fun e => G.demand e.1 + G.demand e.2 > maxCapacity))

/-- The inner loop that strengthens the windows of all customers (`vrpy/vrp.py:1035-1047`).
`G.edges["Source", v]`, `G.edges[v, "Sink"]` raise `KeyError` when the arc is missing. -/
def strengthenWindows (G : Net) : Py Net :=
  G.nodes.foldlM (fun H v =>
    if v.isDepot then .ok H else
    match H.edgeTime .source v with
    | .error e => .error e
    | .ok t1 =>
      match H.edgeTime v .sink with
      | .error e => .error e
      | .ok t2 => .ok { H with
          lower := fun x => if x = v then max (H.lower v) (H.lower .source + t1) else H.lower x
          upper := fun x => if x = v then min (H.upper v) (H.upper .sink - t2) else H.upper x }) G

/-- One pass of the loop over the edges (`vrpy/vrp.py:1027-1047`): test the arc with the current windows, then
strengthen all windows. -/
def twStep (st : Net × List (Node × Node)) (e : Node × Node) : Py (Net × List (Node × Node)) :=
  let G := st.1
  match G.edgeTime e.1 e.2 with
  | .error err => .error err
  | .ok t =>
    let bad := if G.lower e.1 + t + G.service e.1 > G.upper e.2 then st.2 ++ [e] else st.2
    match strengthenWindows G with
    | .error err => .error err
    | .ok G' => .ok (G', bad)

/-- `_remove_infeasible_arcs_time_windows` (`vrpy/vrp.py:1025-1048`). -/
def removeInfeasibleArcsTimeWindows (G : Net) : Py Net :=
  match G.edges.foldlM twStep (G, []) with
  | .error e => .error e
  | .ok (G', bad) => .ok (G'.removeEdges bad)

/-- `max(self.load_capacity)` of a non-empty list (`vrpy/vrp.py:1057`). -/
def maxOf (c : ℚ) (cs : List ℚ) : ℚ := cs.foldl max c

/-- `_prune_graph` (`vrpy/vrp.py:1050-1066`); `caps = []` stands for an unset load capacity. -/
def pruneGraph (G : Net) (caps : List ℚ) (timeWindows : Bool) : Py Net :=
  let G1 := match caps with
    | [] => G
    | c :: cs => removeInfeasibleArcsCapacities G (maxOf c cs)
  if timeWindows then removeInfeasibleArcsTimeWindows G1 else .ok G1

end Vrpy
