import Verif.Model.Basic

/-!
# Specification vocabulary

What a vehicle route is and what its load, cost, duration, ... are, written directly from the documentation
(`/repo/docs/vrp_variants.rst`) and independently of the algorithms modelled under `Verif/Model`.
-/

namespace Vrpy.Spec

open Vrpy

/-- A well-formed network: no duplicate nodes, edges join nodes, both depots present, nothing enters Source or
leaves Sink. -/
structure WellFormed (G : Net) : Prop where
  nodes_nodup : G.nodes.Nodup
  succ_nodup : ∀ u, (G.succ u).Nodup
  edge_mem : ∀ u v, v ∈ G.succ u → u ∈ G.nodes ∧ v ∈ G.nodes
  source_mem : Node.source ∈ G.nodes
  sink_mem : Node.sink ∈ G.nodes
  no_into_source : ∀ u, Node.source ∉ G.succ u
  no_out_of_sink : G.succ Node.sink = []

/-- Every customer can be reached from Source and can reach Sink directly. -/
def DepotConnected (G : Net) : Prop :=
  ∀ n, Node.cust n ∈ G.nodes → Node.cust n ∈ G.succ .source ∧ Node.sink ∈ G.succ (.cust n)

/-- Every arc has at least `K` costs (one per vehicle type). -/
def CostsFor (G : Net) (K : Nat) : Prop :=
  ∀ u v, v ∈ G.succ u → K ≤ (G.cost u v).length

/-- `p` is driven along arcs of the relation `E`. -/
def Along (E : Node → Node → Prop) : List Node → Prop
  | [] => True
  | [_] => True
  | a :: b :: rest => E a b ∧ Along E (b :: rest)

/-- The route Source, `mid`, Sink. -/
def routeOf (mid : List Node) : List Node := .source :: (mid ++ [.sink])

/-- `r` is a route of the network: it starts at Source, ends at Sink, visits only customers of the network in
between, and drives along arcs of the network. -/
def IsRoute (G : Net) (r : List Node) : Prop :=
  ∃ mid : List Node, r = routeOf mid ∧ (∀ v ∈ mid, (∃ n, v = .cust n) ∧ v ∈ G.nodes) ∧
    Along (fun u v => v ∈ G.succ u) r

/-- A simple (elementary) route: no node twice. -/
def IsSimpleRoute (G : Net) (r : List Node) : Prop := IsRoute G r ∧ r.Nodup

/-- The customers of a route. -/
def stops (r : List Node) : List Node := r.filter (fun v => v ≠ .source ∧ v ≠ .sink)

/-- Sum of `w u v` over the legs of a route. -/
def legSum (w : Node → Node → ℚ) : List Node → ℚ
  | [] => 0
  | [_] => 0
  | a :: b :: rest => w a b + legSum w (b :: rest)

/-- Total demand on a route. -/
def load (G : Net) (r : List Node) : ℚ := (r.map G.demand).sum

/-- Cost of a route driven by vehicle type `k`. -/
def cost (G : Net) (k : Nat) (r : List Node) : ℚ := legSum (fun u v => (G.cost u v).getD k 0) r

/-- Total travel time of a route. -/
def travel (G : Net) (r : List Node) : ℚ := legSum G.time r

/-- Travel plus service time of a route. -/
def duration (G : Net) (r : List Node) : ℚ := travel G r + (r.map G.service).sum

/-- `x` respects an optional limit (`None` and `0` mean: no limit). -/
def Within (lim : Option ℚ) (x : ℚ) : Prop := ∀ d, lim = some d → d ≠ 0 → x ≤ d

/-- Earliest arrival times along a path that is at `u` at time `t`: waiting is allowed, service takes place at every
node before leaving it.  Returns the arrival times at the nodes after `u`. -/
def arrivalsFrom (G : Net) (t : ℚ) (u : Node) : List Node → List ℚ
  | [] => []
  | v :: rest =>
    let a := max (t + G.service u + G.time u v) (G.lower v)
    a :: arrivalsFrom G a v rest

/-- A route can be driven on time: leaving Source at its opening time, every later node is reached no later than its
closing time (a vehicle that is early waits). -/
def OnTime (G : Net) : List Node → Prop
  | [] => True
  | u :: rest => ∀ p ∈ rest.zip (arrivalsFrom G (G.lower u) u rest), p.2 ≤ G.upper p.1

/-- `p` is a Source-Sink path along `es`. -/
def IsPathIn (es : List (Node × Node)) (p : List Node) : Prop :=
  p.head? = some .source ∧ p.getLast? = some .sink ∧ Along (fun u v => (u, v) ∈ es) p

/-- Contract of `networkx.shortest_path(g, "Source", "Sink")` without weights: a Source-Sink path with the fewest
nodes (any of them). -/
def IsShortestPath (es : List (Node × Node)) (p : List Node) : Prop :=
  IsPathIn es p ∧ ∀ q, IsPathIn es q → p.length ≤ q.length

/-- The set of routes `rs` visits each customer of `cs` exactly once. -/
def VisitsEachOnce (cs : List Node) (rs : List (List Node)) : Prop :=
  ∀ v ∈ cs, (rs.flatten.filter (fun x => x = v)).length = 1

end Vrpy.Spec
