import Verif.Model.Object

/-!
# The reports of the object (`vrpy/vrp.py:265-409`)

All read `self._H`, the network made by `_pre_solve` before nodes and arcs are removed.
-/

namespace Vrpy

namespace Obj

/-- `self._H` (`vrpy/vrp.py:1128`).  It exists after a `solve()`; before, the reports are not modelled. -/
def net (o : Obj) : Net := o.P.H.getD o.P.G.toNet

/-- `best_value` (`vrpy/vrp.py:265-274`). -/
def bestValue (o : Obj) : Py ℚ := Vrpy.bestValue o.net o.P.minimizeGlobalSpan o.P.dropPenalty o.solution

/-- `best_routes_cost` (`vrpy/vrp.py:284-291`). -/
def bestRoutesCost (o : Obj) : Py (Dict Nat ℚ) := Vrpy.bestRoutesCost o.net o.solution

/-- `best_routes_load` (`vrpy/vrp.py:294-307`). -/
def bestRoutesLoad (o : Obj) : Dict Nat ℚ :=
  Vrpy.bestRoutesLoad o.net (capacities o.P.loadCapacity.toList) o.P.distributionCollection o.P.pickupDelivery o.solution

/-- `node_load` (`vrpy/vrp.py:310-339`). -/
def nodeLoad (o : Obj) : Py (Dict Nat (Dict Node ℚ)) :=
  Vrpy.nodeLoad o.net (capacities o.P.loadCapacity.toList) o.P.distributionCollection o.P.pickupDelivery o.solution

/-- `best_routes_duration` (`vrpy/vrp.py:342-356`). -/
def bestRoutesDuration (o : Obj) : Py (Dict Nat ℚ) := Vrpy.bestRoutesDuration o.net o.timed o.solution

/-- `arrival_time` (`vrpy/vrp.py:359-380`). -/
def arrivalTime (o : Obj) : Py (Dict Nat (Dict Node ℚ)) := Vrpy.arrivalTime o.net o.timed o.solution

/-- `departure_time` (`vrpy/vrp.py:390-409`). -/
def departureTime (o : Obj) : Py (Dict Nat (Dict Node ℚ)) := Vrpy.departureTime o.net o.timed o.solution

end Obj

/-- `schedule` (`vrpy/vrp.py:420-426`).  Simplification: `_schedule` is `None` before the first schedule is made, here it is
empty then. -/
def Obj.scheduleReport (o : Obj) : Option (Dict Nat (List Nat)) :=
  if o.P.periodic.getD 0 ≠ 0 then some o.schedule else none

end Vrpy
