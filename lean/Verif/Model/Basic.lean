import Mathlib.Algebra.Order.Ring.Rat
import Mathlib.Algebra.BigOperators.Group.List.Basic

/-!
# Basic vocabulary of the model: nodes, Python exceptions, networkx digraphs

Python numbers are modelled by exact rationals `ℚ`; see DESIGN.md ("Numbers").
-/

namespace Vrpy

/-- Node labels.  vrpy reserves the two strings `"Source"` and `"Sink"` (e.g. `vrpy/checks.py:89`); every other
hashable label is a customer.  Simplification: customer labels are natural numbers (an unbounded supply). -/
inductive Node where
  | source
  | sink
  | cust (id : Nat)
deriving DecidableEq, Repr

/-- `v in ["Source", "Sink"]` (e.g. `vrpy/checks.py:102`, `vrpy/clarke_wright.py:63`). -/
def Node.isDepot : Node → Bool
  | .source => true
  | .sink => true
  | .cust _ => false

/-- The Python exceptions the modelled code can raise (the message is not modelled).
`masterInfeasible` is the plain `Exception("problem ...")` of `vrpy/master_solve_pulp.py:53`. -/
inductive PyErr where
  | keyError
  | typeError
  | valueError
  | indexError
  | networkXError
  | notImplementedError
  | zeroDivisionError
  | attributeError
  | assertionError
  | masterInfeasible
deriving DecidableEq, Repr

/-- A Python computation that may raise. -/
abbrev Py (α : Type) := Except PyErr α

/-- `list(zip(r[:-1], r[1:]))`, the edges of a node list (e.g. `vrpy/vrp.py:288`, `:958`, `vrpy/checks.py:141`). -/
def consecutive {α : Type} (r : List α) : List (α × α) :=
  r.dropLast.zip r.tail

/-- Python truthiness of an optional numeric limit: `None` and `0` both mean "not set"
(e.g. `if self.duration:`, `vrpy/clarke_wright.py:74`). -/
def active (lim : Option ℚ) : Option ℚ :=
  lim.filter (fun q => q ≠ 0)

/-- A cost attribute: a number, or a list with one number per vehicle type (`vrpy/vrp.py:1163`). -/
inductive Cost where
  | scalar (c : ℚ)
  | list (cs : List ℚ)
deriving DecidableEq, Repr

/-- Node attribute dictionary (`G.nodes[v]`); `none` means the key is absent.
Not modelled: the undocumented `depot_from`/`depot_to` keys (`vrpy/master_solve_pulp.py:91-92`). -/
structure NodeData where
  demand : Option ℚ := none
  collect : Option ℚ := none
  serviceTime : Option ℚ := none
  lower : Option ℚ := none
  upper : Option ℚ := none
  frequency : Option ℚ := none
  request : Option Node := none
deriving DecidableEq, Repr

/-- Edge attribute dictionary (`G.edges[i, j]`). -/
structure EdgeData where
  cost : Option Cost := none
  time : Option ℚ := none
deriving DecidableEq, Repr

/-- A `networkx.DiGraph`: node order is insertion order; `succ u` is the adjacency of `u` in insertion order. -/
structure DiGraph where
  nodes : List Node
  nd : Node → NodeData
  succ : Node → List Node
  ed : Node → Node → EdgeData

namespace DiGraph

/-- `(u, v) in G.edges()`. -/
def hasEdge (G : DiGraph) (u v : Node) : Bool := v ∈ G.succ u

/-- `G.edges()`: iteration is by node order, then adjacency order. -/
def edges (G : DiGraph) : List (Node × Node) :=
  G.nodes.flatMap (fun u => (G.succ u).map (fun v => (u, v)))

/-- `list(G.predecessors(v))`.  Simplification: listed in node order (networkx: in edge insertion order);
only the choice between equally good neighbours in greedy pricing depends on this order. -/
def preds (G : DiGraph) (v : Node) : List Node :=
  G.nodes.filter (fun u => G.hasEdge u v)

/-- `G.add_edge(u, v, **data)` for existing nodes `u`, `v` and a new edge
(the only use in vrpy: `vrpy/checks.py:105,108`, `vrpy/vrp.py:1119`). -/
def addEdge (G : DiGraph) (u v : Node) (d : EdgeData) : DiGraph :=
  { G with
    succ := fun x => if x = u then G.succ u ++ [v] else G.succ x
    ed := fun x y => if x = u ∧ y = v then d else G.ed x y }

/-- `G.remove_edges_from(es)` (missing edges are ignored by networkx). -/
def removeEdges (G : DiGraph) (es : List (Node × Node)) : DiGraph :=
  { G with succ := fun u => (G.succ u).filter (fun v => (u, v) ∉ es) }

/-- `G.remove_nodes_from(vs)` (missing nodes are ignored by networkx). -/
def removeNodes (G : DiGraph) (vs : List Node) : DiGraph :=
  { G with
    nodes := G.nodes.filter (fun v => v ∉ vs)
    succ := fun u => if u ∈ vs then [] else (G.succ u).filter (fun v => v ∉ vs) }

/-- `G.nodes[v][...] = ...`: replace the attribute dictionary of a node. -/
def setNode (G : DiGraph) (v : Node) (d : NodeData) : DiGraph :=
  { G with nd := fun x => if x = v then d else G.nd x }

/-- `G.edges[u, v][...] = ...`: replace the attribute dictionary of an edge. -/
def setEdge (G : DiGraph) (u v : Node) (d : EdgeData) : DiGraph :=
  { G with ed := fun x y => if x = u ∧ y = v then d else G.ed x y }

/-- One round of breadth-first expansion. -/
def expand (G : DiGraph) (S : List Node) : List Node :=
  S ++ G.nodes.filter (fun v => v ∉ S ∧ S.any (fun u => G.hasEdge u v))

/-- `networkx.has_path(G, s, t)`: breadth-first search (its meaning, existence of a path, is theorem `hasPath_iff`). -/
def hasPath (G : DiGraph) (s t : Node) : Bool :=
  t ∈ (G.expand^[G.nodes.length] [s])

/-- The representation invariant of networkx digraphs: no duplicate nodes or parallel edges, end points exist. -/
structure WF (G : DiGraph) : Prop where
  nodes_nodup : G.nodes.Nodup
  succ_nodup : ∀ u, (G.succ u).Nodup
  succ_mem : ∀ u v, v ∈ G.succ u → u ∈ G.nodes ∧ v ∈ G.nodes

end DiGraph

/-- A preprocessed network: what the algorithms see after `_update_dummy_attributes` (`vrpy/vrp.py:1111-1128`) has
given every node and edge all its attributes and `_format`/`check_arguments` have turned costs into lists. -/
structure Net where
  nodes : List Node
  succ : Node → List Node
  demand : Node → ℚ := fun _ => 0
  collect : Node → ℚ := fun _ => 0
  service : Node → ℚ := fun _ => 0
  lower : Node → ℚ := fun _ => 0
  upper : Node → ℚ := fun _ => 0
  freq : Node → ℚ := fun _ => 1
  request : Node → Option Node := fun _ => none
  cost : Node → Node → List ℚ := fun _ _ => [0]
  time : Node → Node → ℚ := fun _ _ => 0

namespace Net

/-- `(u, v) in G.edges()`. -/
def hasEdge (G : Net) (u v : Node) : Bool := v ∈ G.succ u

/-- `G.edges()`. -/
def edges (G : Net) : List (Node × Node) :=
  G.nodes.flatMap (fun u => (G.succ u).map (fun v => (u, v)))

/-- `G.predecessors(v)` (order: see `DiGraph.preds`). -/
def preds (G : Net) (v : Node) : List Node :=
  G.nodes.filter (fun u => G.hasEdge u v)

/-- `[v for v in G.nodes() if v not in ["Source", "Sink"]]` (e.g. `vrpy/greedy.py:20-22`). -/
def customers (G : Net) : List Node :=
  G.nodes.filter (fun v => !v.isDepot)

/-- `G.edges[u, v]["time"]`: `KeyError` if the edge is missing. -/
def edgeTime (G : Net) (u v : Node) : Py ℚ :=
  if G.hasEdge u v then .ok (G.time u v) else .error .keyError

/-- `G.edges[u, v]["cost"][k]`: `KeyError` if the edge is missing, `IndexError` if there is no `k`-th cost. -/
def edgeCost (G : Net) (u v : Node) (k : Nat) : Py ℚ :=
  if G.hasEdge u v then
    match (G.cost u v)[k]? with
    | some c => .ok c
    | none => .error .indexError
  else .error .keyError

/-- `G.remove_edges_from(es)`. -/
def removeEdges (G : Net) (es : List (Node × Node)) : Net :=
  { G with succ := fun u => (G.succ u).filter (fun v => (u, v) ∉ es) }

end Net

end Vrpy
