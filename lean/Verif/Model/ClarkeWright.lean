import Verif.Model.Basic
import Mathlib.Data.List.Dedup
import Mathlib.Data.List.Sort

/-!
# `vrpy/clarke_wright.py`
-/

namespace Vrpy

/-- Append if absent: adding a key to a networkx dictionary. -/
def insertNew {α : Type} [DecidableEq α] (l : List α) (x : α) : List α := if x ∈ l then l else l ++ [x]

/-- A route object: a `DiGraph` with graph attributes `cost`, `load`, `time` (`vrpy/clarke_wright.py:68-79`).
`load` (`time`) is written and read by the code only when `load_capacity` (`duration`) is set; here it is 0 otherwise. -/
structure CWRoute where
  nodes : List Node := []
  edges : List (Node × Node) := []
  cost : ℚ := 0
  load : ℚ := 0
  time : ℚ := 0

/-- `networkx.add_path(route, p)`. -/
def CWRoute.addPath (r : CWRoute) (p : List Node) : CWRoute :=
  { r with nodes := p.foldl insertNew r.nodes, edges := (consecutive p).foldl insertNew r.edges }

/-- `route.remove_edge(u, v)`: `NetworkXError` if absent. -/
def CWRoute.removeEdge (r : CWRoute) (u v : Node) : Py CWRoute :=
  if (u, v) ∈ r.edges then .ok { r with edges := r.edges.filter (fun e => e ≠ (u, v)) } else .error .networkXError

/-- The arguments of `_ClarkeWright` (`vrpy/clarke_wright.py:15-50`); `cap` is `load_capacity[0]`. -/
structure CWConfig where
  cap : Option ℚ := none
  duration : Option ℚ := none
  numStops : Option ℚ := none
  alpha : ℚ := 1

/-- The mutable state.  `_route` maps a customer to a route *object*; objects are identified by the customer for which
they were created (line 68), `heap` holds their contents.  `route` is total; only customers of the network are read. -/
structure CWState where
  heap : Node → CWRoute
  route : Node → Node
  processed : List Node

/-- The round trip object created for `v` (`vrpy/clarke_wright.py:65-79`). -/
def cwRoundTrip (G : Net) (cfg : CWConfig) (v : Node) : Py CWRoute := do
  let c1 ← G.edgeCost .source v 0
  let c2 ← G.edgeCost v .sink 0
  let t ← match active cfg.duration with
    | some _ => do
      let t1 ← G.edgeTime .source v
      let t2 ← G.edgeTime v .sink
      pure (G.service v + t1 + t2)
    | none => pure 0
  let l := if (active cfg.cap).isSome then G.demand v else 0
  return { (CWRoute.addPath {} [.source, v, .sink]) with cost := c1 + c2, load := l, time := t }

/-- One iteration of `_initialize_routes` (`vrpy/clarke_wright.py:62-79`). -/
def cwInitStep (G : Net) (cfg : CWConfig) (s : CWState) (v : Node) : Py CWState := do
  let r ← cwRoundTrip G cfg v
  return { s with heap := fun x => if x = v then r else s.heap x, route := fun x => if x = v then v else s.route x }

/-- `_initialize_routes` (`vrpy/clarke_wright.py:60-79`). -/
def cwInit (G : Net) (cfg : CWConfig) : Py CWState :=
  G.customers.foldlM (cwInitStep G cfg) { heap := fun _ => {}, route := fun v => v, processed := [] }

/-- The saving of an edge (`vrpy/clarke_wright.py:92-95`). -/
def cwSaving (G : Net) (cfg : CWConfig) (e : Node × Node) : Py ((Node × Node) × ℚ) := do
  let a ← G.edgeCost e.1 .sink 0
  let b ← G.edgeCost .source e.2 0
  let c ← G.edgeCost e.1 e.2 0
  return (e, a + b - cfg.alpha * c)

/-- `_get_savings` (`vrpy/clarke_wright.py:88-106`): edges by non-increasing saving.  Python's sort is
stable, also with `reverse=True`; insertion sort is another stable sort, so it computes the same list. -/
def cwOrderedEdges (G : Net) (cfg : CWConfig) : Py (List (Node × Node)) := do
  let sav ← (G.edges.filter (fun e => e.1 ≠ .source ∧ e.2 ≠ .sink)).mapM (cwSaving G cfg)
  return (sav.insertionSort (fun a b => b.2 ≤ a.2)).map Prod.fst

/-- `_constraints_met(existing_node, new_node)` (`vrpy/clarke_wright.py:159-189`). -/
def cwConstraintsMet (G : Net) (cfg : CWConfig) (s : CWState) (e n : Node) : Py Bool :=
  let r := s.heap (s.route e)
  if n ∈ r.nodes then .ok false
  else if ∃ c ∈ active cfg.cap, r.load + G.demand n > c then .ok false
  else do
    let durOk ← match active cfg.duration with
      | some d => do
        let t1 ← G.edgeTime e n
        let t2 ← G.edgeTime n .sink
        let t3 ← G.edgeTime e .sink
        pure (decide (¬ (r.time + t1 + t2 + G.service n - t3 > d)))
      | none => pure true
    if !durOk then return false
    if ∃ m ∈ active cfg.numStops, (r.nodes.length : ℚ) - 2 + 1 > m then return false
    return true

/-- `_merge_route(existing_node, new_node, depot)` (`vrpy/clarke_wright.py:108-157`). -/
def cwMerge (G : Net) (cfg : CWConfig) (s : CWState) (e n depot : Node) : Py CWState := do
  let id := s.route e
  let r := s.heap id
  let r1 ← if depot = .sink then do
      let r0 ← (r.addPath [e, n, .sink]).removeEdge e .sink
      let c1 ← G.edgeCost e n 0
      let c2 ← G.edgeCost n .sink 0
      let c3 ← G.edgeCost e .sink 0
      pure { r0 with cost := r0.cost + (c1 + c2 - c3) }
    else do
      let r0 ← (r.addPath [.source, n, e]).removeEdge .source e
      let c1 ← G.edgeCost n e 0
      let c2 ← G.edgeCost .source n 0
      let c3 ← G.edgeCost .source e 0
      pure { r0 with cost := r0.cost + (c1 + c2 - c3) }
  let r2 := if (active cfg.cap).isSome then { r1 with load := r1.load + G.demand n } else r1
  let r3 ← match active cfg.duration with
    | some _ => do
      let t1 ← G.edgeTime e n
      let t2 ← G.edgeTime n .sink
      let t3 ← G.edgeTime e .sink
      pure { r2 with time := r2.time + (t1 + t2 + G.service n - t3) }
    | none => pure r2
  let p1 := s.processed ++ [n]
  let p2 := if e ∈ p1 then p1 else p1 ++ [e]
  return { heap := fun x => if x = id then r3 else s.heap x
           route := fun x => if x = n then id else s.route x
           processed := p2 }

/-- `_process_edge(i, j)` (`vrpy/clarke_wright.py:191-217`); conjunctions are evaluated left to right. -/
def cwProcessEdge (G : Net) (cfg : CWConfig) (s : CWState) (ij : Node × Node) : Py CWState := do
  let i := ij.1
  let j := ij.2
  let first ← if j ∈ s.processed then pure false else do
    let ok ← cwConstraintsMet G cfg s i j
    pure (ok && decide ((i, Node.sink) ∈ (s.heap (s.route i)).edges))
  if first then cwMerge G cfg s i j .sink
  else do
    let second ← if ¬ (G.hasEdge j i) then pure false else if i ∈ s.processed then pure false else do
      let ok ← cwConstraintsMet G cfg s j i
      pure (ok && decide ((Node.source, j) ∈ (s.heap (s.route j)).edges))
    if second then cwMerge G cfg s j i .source else pure s

/-- State after the merging loop of `run` (`vrpy/clarke_wright.py:52-57`). -/
def cwLoop (G : Net) (cfg : CWConfig) : Py CWState := do
  let s ← cwInit G cfg
  let es ← cwOrderedEdges G cfg
  es.foldlM (cwProcessEdge G cfg) s

/-- The nondeterministic parts of `_update_routes` (line 84-86): the iteration order of a Python `set`, and which
shortest path networkx returns. -/
structure CWOracle where
  order : List Node → List Node
  path : CWRoute → List Node

/-- `run()` (`vrpy/clarke_wright.py:52-58,81-86`): `(best_value, best_routes)`.  `set(self._route.values())` is the
list of distinct route objects. -/
def cwRun (G : Net) (cfg : CWConfig) (o : CWOracle) : Py (ℚ × List (List Node)) := do
  let s ← cwLoop G cfg
  let ids := o.order ((G.customers.map s.route).dedup)
  return (ids.foldl (fun acc id => acc + (s.heap id).cost) 0, ids.map (fun id => o.path (s.heap id)))

/-- `_RoundTrip.run` (`vrpy/clarke_wright.py:246-249`). -/
def roundTrips (G : Net) : List (List Node) :=
  G.customers.map (fun v => [.source, v, .sink])

end Vrpy
