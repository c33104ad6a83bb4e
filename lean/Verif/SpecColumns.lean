import Verif.Spec
import Verif.Model.Columns

/-!
# Specification vocabulary: columns
-/

namespace Vrpy.Spec

open Vrpy

/-- A column stands for the route `r`: its graph has exactly the nodes and legs of `r` and its cost is that of `r` for
its vehicle type. -/
structure Encodes (G : Net) (c : Column) (r : List Node) : Prop where
  nodes : c.nodes.Perm r
  edges : c.edges.Perm (consecutive r)
  cost : c.cost = cost G c.vehicleType r

/-- The graph of a column (and its `path`, if it has one) is that of the route `r`. -/
structure Draws (c : Column) (r : List Node) : Prop where
  nodes : c.nodes.Perm r
  edges : c.edges.Perm (consecutive r)
  path : ∀ p, c.path = some p → p = r

/-- Every column of the pool is drawn from a simple route of the network, or is marked as one that repeats customers. -/
def PoolOk (G : Net) (cols : List Column) : Prop :=
  ∀ c ∈ cols, (∃ n, c.name = .nonElem n) ∨ ∃ r, IsSimpleRoute G r ∧ Draws c r

/-- A whole number of stops respects an optional limit (`None` and `0` mean: no limit). -/
def WithinStops (lim : Option Nat) (n : Nat) : Prop := ∀ m, lim = some m → m ≠ 0 → n ≤ m

/-- `x` respects the capacity of vehicle type `k`, if capacities are set. -/
def WithinCapacity (caps : List ℚ) (k : Nat) (x : ℚ) : Prop := caps ≠ [] → ∃ c, caps[k]? = some c ∧ x ≤ c

/-- Goods on board: after the stops `pre`, with the stops `post` still to come, the vehicle carries what it still has to
deliver and what it has collected. -/
def GoodsWithin (G : Net) (cap : ℚ) (r : List Node) : Prop :=
  ∀ pre post, r = pre ++ post → pre ≠ [] → post ≠ [] → load G post + (pre.map G.collect).sum ≤ cap

end Vrpy.Spec
