import Verif.Model.Cspy

/-!
# The backward and joining resource functions (`vrpy/subproblem_cspy.py:74-143`)

They are part of the class `_MyREFCallback`, but the search is `"forward"` whenever that class is used (lines 216-225), so cspy never calls
them.  The labels they would build are modelled here: cspy starts the backward search with the maximum of the first resource and 0 for the others.
-/

namespace Vrpy.Cspy

/-- `self.T`, the largest feasible arrival time at Sink (`vrpy/subproblem_cspy.py:187`, `:309-315`); `formulate` fails if Sink has no predecessors. -/
def maxArrival (q : Cspy) : ℚ :=
  if q.timeWindows then ((q.G.preds .sink).map (fun v => q.G.upper v + q.G.service v + q.G.time v .sink)).max?.getD 0 else 0

/-- `REF_bwd` (`vrpy/subproblem_cspy.py:74-108`), with `new_res[5] += new_res[5] + ...` (line 105) and the window of `j` (line 99). -/
def refBwd (q : Cspy) (T : ℚ) (r : Res) (i j : Node) : Res :=
  let time := max (r.time + q.G.service j + q.G.time i j) (T - q.G.upper i - q.G.service i)
  let deliver := r.deliver + (r.deliver + q.G.demand i)
  { stops := r.stops - 1
    load := r.load + q.G.demand i
    time := time
    windows := if !q.timeWindows || decide (time ≤ T - q.G.lower j - q.G.service j) then 0 else 1
    collect := if q.distributionCollection then max deliver (r.collect + q.G.collect i) else r.collect
    deliver := if q.distributionCollection then deliver else r.deliver }

/-- `REF_join` (`vrpy/subproblem_cspy.py:110-143`); `m` is `max_res`. -/
def refJoin (q : Cspy) (m : Res) (T : ℚ) (f b : Res) (i j : Node) : Res :=
  let time := f.time + q.G.service i + q.G.time i j + q.G.service j + b.time
  { stops := f.stops + (m.stops - b.stops) + 1
    load := f.load + b.load
    time := time
    windows := if !q.timeWindows || decide (time ≤ T) then f.windows + b.windows else 1
    collect := if q.distributionCollection then f.collect + b.collect else 0
    deliver := if q.distributionCollection then f.deliver + b.deliver else 0 }

/-- The backward label of a path `i :: rest` that ends at Sink. -/
def backward (q : Cspy) (m : Res) (T : ℚ) : Node → List Node → Res
  | _, [] => { stops := m.stops }
  | i, j :: rest => q.refBwd T (backward q m T j rest) i j

/-- The last node of a path from Source. -/
def tailOf (pre : List Node) : Node := (Node.source :: pre).getLast (by simp)

/-- A forward label for `Source :: pre` and a backward label for `j :: rest`, joined. -/
def join (q : Cspy) (m : Res) (T : ℚ) (pre : List Node) (j : Node) (rest : List Node) : Res :=
  q.refJoin m T (q.consume {} .source pre) (q.backward m T j rest) (tailOf pre) j

end Vrpy.Cspy
