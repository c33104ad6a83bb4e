import Verif.Model.Basic
import Mathlib.Data.Nat.Sqrt
import Mathlib.Data.Rat.Floor

/-!
# The loaders of the benchmark files (`benchmarks/`)

The rows of a file are given; splitting the text and converting the numbers (`read_csv`, `np.uint32`) is not modelled.  The root is
exact (Python: the nearest double).  The attributes `x`, `y` of a node, which `vrpy` does not read, are kept in `Plane.pos`.
-/

namespace Vrpy

namespace Benchmarks

/-- `round(sqrt(q), 0)` for `q ≥ 0` (`benchmarks/utils/distance.py:17`): the integer nearest to the root, in the middle between two the even one. -/
def roundRoot (q : ℚ) : Nat :=
  let n := Nat.sqrt ⌊q⌋₊
  if q < ((n : ℚ) + 1 / 2) ^ 2 then n
  else if ((n : ℚ) + 1 / 2) ^ 2 < q then n + 1
  else if n % 2 = 0 then n else n + 1

/-- `distance` (`benchmarks/utils/distance.py:4-17`) of two points. -/
def distance (p q : ℚ × ℚ) : Nat := roundRoot ((p.1 - q.1) ^ 2 + (p.2 - q.2) ^ 2)

/-- The graph while it has no edges: nodes with coordinates and attributes. -/
structure Plane where
  nodes : List Node := []
  pos : Node → ℚ × ℚ := fun _ => (0, 0)
  nd : Node → NodeData := fun _ => {}

/-- `G.add_node(v, x=..., y=..., ...)`; for a node that is there already the attributes are replaced. -/
def Plane.addNode (P : Plane) (v : Node) (p : ℚ × ℚ) (d : NodeData) : Plane where
  nodes := if v ∈ P.nodes then P.nodes else P.nodes ++ [v]
  pos := fun x => if x = v then p else P.pos x
  nd := fun x => if x = v then d else P.nd x

/-- The inner loop over the edges (`benchmarks/solomon_dataset.py:97-102`, `benchmarks/augerat_dataset.py:105-110`). -/
def addArcs (e : Node → Node → EdgeData) (nodes : List Node) (G : DiGraph) (u : Node) : DiGraph :=
  if u ≠ .sink then nodes.foldl (fun G v => if v ≠ .source ∧ u ≠ v then G.addEdge u v (e u v) else G) G else G

/-- The loops that add the edges (`benchmarks/solomon_dataset.py:94-102`, `benchmarks/augerat_dataset.py:102-110`); `e` gives their attributes. -/
def Plane.complete (P : Plane) (e : Node → Node → EdgeData) : DiGraph :=
  P.nodes.foldl (addArcs e P.nodes) { nodes := P.nodes, nd := P.nd, succ := fun _ => [], ed := fun _ _ => {} }

/-- A row of a Solomon file (`benchmarks/solomon_dataset.py:10-25`). -/
structure Row where
  name : Nat
  x : ℚ
  y : ℚ
  demand : Nat
  lower : Nat
  upper : Nat
  service : Nat
deriving DecidableEq, Repr

/-- `node.name` (`benchmarks/solomon_dataset.py:15-17`). -/
def Row.node (r : Row) : Node := if r.name = 0 then .source else .cust r.name

/-- The attributes of the node (`benchmarks/solomon_dataset.py:77-80`). -/
def Row.data (r : Row) : NodeData where
  demand := some (r.demand : ℚ)
  lower := some (r.lower : ℚ)
  upper := some (r.upper : ℚ)
  serviceTime := some (r.service : ℚ)

/-- The loop over the rows (`benchmarks/solomon_dataset.py:71-92`). -/
def addRow (P : Plane) (r : Row) : Plane :=
  let P1 := P.addNode r.node (r.x, r.y) r.data
  if r.node = .source then P1.addNode .sink (r.x, r.y) r.data else P1

/-- The nodes of the network. -/
def solomonNodes (rows : List Row) : Plane := rows.foldl addRow {}

/-- `SolomonDataSet._load` (`benchmarks/solomon_dataset.py:48-102`): cost and time of an arc are the distance. -/
def solomon (rows : List Row) : DiGraph :=
  (solomonNodes rows).complete (fun u v =>
    { cost := some (.scalar (distance ((solomonNodes rows).pos u) ((solomonNodes rows).pos v)))
      time := some (distance ((solomonNodes rows).pos u) ((solomonNodes rows).pos v) : ℚ) })

/-- A row of the coordinates in an Augerat file (`benchmarks/augerat_dataset.py:10-21`): name, x, y. -/
structure Position where
  name : Nat
  x : ℚ
  y : ℚ
deriving DecidableEq, Repr

/-- `node.name` (`benchmarks/augerat_dataset.py:15-17`, `:29-31`). -/
def augeratNode (name : Nat) : Node := if name = 1 then .source else .cust name

/-- The first loop (`benchmarks/augerat_dataset.py:82-88`). -/
def addPosition (P : Plane) (r : Position) : Plane :=
  let P1 := P.addNode (augeratNode r.name) (r.x, r.y) { demand := some 0 }
  if augeratNode r.name = .source then P1.addNode .sink (r.x, r.y) { demand := some 0 } else P1

/-- The second loop (`benchmarks/augerat_dataset.py:97-100`): `KeyError` for a node that has no coordinates. -/
def setDemand (P : Plane) (r : Nat × ℚ) : Py Plane :=
  if augeratNode r.1 ∈ P.nodes then
    .ok { P with nd := fun x => if x = augeratNode r.1 then { P.nd x with demand := some r.2 } else P.nd x }
  else .error .keyError

/-- The new name of a node (`benchmarks/augerat_dataset.py:113-115`): numbers are lowered by one.  (The number 0 would become -1; here it stays
0, a number that no other node gets, because the number 1 stands for Source.) -/
def lowered : Node → Node
  | .cust n => .cust (n - 1)
  | v => v

/-- The node among `nodes` that gets the name `v`. -/
def oldName (nodes : List Node) (v : Node) : Option Node := nodes.find? (fun u => lowered u = v)

/-- `relabel_nodes(G, mapping)` (`benchmarks/augerat_dataset.py:116`): a copy in which nodes, attributes and arcs have the new names; `old` gives the
old name of a node. -/
def relabel (G : DiGraph) (new : Node → Node) (old : Node → Option Node) : DiGraph where
  nodes := G.nodes.map new
  nd := fun v => ((old v).map G.nd).getD {}
  succ := fun v => (((old v).map G.succ).getD []).map new
  ed := fun u v => ((old u).bind (fun x => (old v).map (fun y => G.ed x y))).getD {}

/-- `AugeratDataSet._load` (`benchmarks/augerat_dataset.py:53-116`): the cost of an arc is the distance (rounding the rounded distance to one digit changes nothing). -/
def augerat (positions : List Position) (demands : List (Nat × ℚ)) : Py DiGraph :=
  match demands.foldlM setDemand (positions.foldl addPosition {}) with
  | .error e => .error e
  | .ok P => .ok (relabel (P.complete (fun u v => { cost := some (.scalar (distance (P.pos u) (P.pos v))) })) lowered (oldName P.nodes))

end Benchmarks

end Vrpy
