import Verif.Model.Basic
import Mathlib.Data.Rat.Floor
import Mathlib.Algebra.Order.Floor.Ring

/-!
# `vrpy/preprocessing.py`
-/

namespace Vrpy

/-- Python `int(q)`: truncation towards zero (`vrpy/preprocessing.py:13,17`). -/
def pyInt (q : ℚ) : ℤ := if 0 ≤ q then ⌊q⌋ else ⌈q⌉

/-- The row `sol[i - 1]`: Python's index `-1` is the last row (`vrpy/preprocessing.py:43-50`). -/
def prevRow (n i : Nat) : Nat := if i = 0 then n - 1 else i - 1

/-- The dynamic programming table `sol` (`vrpy/preprocessing.py:38`); rows `0..n-1`, columns `0..capacity`.
The table `added` is write-only and not modelled. -/
abbrev Table := Nat → Nat → Nat

/-- `sol[i][j] = x`. -/
def Table.set (sol : Table) (i j x : Nat) : Table :=
  fun a b => if a = i ∧ b = j then x else sol a b

/-- The value written to `sol[i][j]` (`vrpy/preprocessing.py:42-50`).  `sol[i - 1][j - weights[i]]` raises
`IndexError` beyond the last column (possible only for a negative weight). -/
def knapsackCell (weights : List ℤ) (capacity : Nat) (sol : Table) (i j : Nat) : Py Nat :=
  let p := prevRow weights.length i
  let w := weights.getD i 0
  if w > (j : ℤ) then .ok (sol p j)
  else if (j : ℤ) - w > (capacity : ℤ) then .error .indexError
  else
    let solAdd := 1 + sol p ((j : ℤ) - w).toNat
    if solAdd > sol p j then .ok solAdd else .ok (sol p j)

/-- One iteration of the inner loop (`vrpy/preprocessing.py:41-50`). -/
def knapsackStep (weights : List ℤ) (capacity i : Nat) (sol : Table) (j : Nat) : Py Table :=
  match knapsackCell weights capacity sol i j with
  | .ok x => .ok (sol.set i j x)
  | .error e => .error e

/-- `_knapsack(weights, capacity)` (`vrpy/preprocessing.py:28-51`). -/
def knapsack (weights : List ℤ) (capacity : Nat) : Py Nat := do
  let n := weights.length
  let sol ← (List.range n).foldlM
    (fun sol i => (List.range (capacity + 1)).foldlM (knapsackStep weights capacity i) sol) (fun _ _ => 0)
  if n = 0 then throw .indexError
  return sol (n - 1) capacity

/-- `max_num_stops` as computed in `vrpy/preprocessing.py:12-18`. -/
def maxNumStops (G : Net) (maxCapacity : Nat) (distributionCollection : Bool) : Py Nat :=
  match knapsack (G.nodes.map (fun v => pyInt (G.demand v))) maxCapacity with
  | .error e => .error e
  | .ok m1 =>
    if distributionCollection then
      match knapsack (G.nodes.map (fun v => pyInt (G.collect v))) maxCapacity with
      | .error e => .error e
      | .ok m2 => .ok (min m1 m2)
    else .ok m1

/-- `get_num_stops_upper_bound` (`vrpy/preprocessing.py:1-25`). -/
def getNumStopsUpperBound (G : Net) (maxCapacity : Nat) (numStops : Option Nat) (distributionCollection : Bool) :
    Py Nat :=
  match maxNumStops G maxCapacity distributionCollection with
  | .error e => .error e
  | .ok m =>
    match numStops with
    | some s => if s ≠ 0 then .ok (min m s) else .ok m
    | none => .ok m

end Vrpy
