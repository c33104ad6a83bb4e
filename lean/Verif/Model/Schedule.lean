import Verif.Model.Reports
import Verif.Model.LP

/-!
# The schedule of a periodic problem (`vrpy/schedule.py`)
-/

namespace Vrpy

/-- The variables of the scheduling problem (`vrpy/schedule.py:31-46`). -/
inductive SVar where
  | y (r t : Nat)
  | loadMax
  | loadMin
deriving DecidableEq, Repr

/-- The arguments of `_Schedule` (`vrpy/schedule.py:19-27`, `vrpy/vrp.py:1194-1201`); `numVehicles = []` stands for
`None`. -/
structure Schedule where
  G : Net
  timeSpan : Nat
  routes : Dict Nat (List Node)
  types : Dict Nat Nat
  numVehicles : List Nat := []

namespace Schedule

/-- `lpSum(y[r][t] for r in routes)`. -/
def dayLoad (s : Schedule) (t : Nat) : LinExpr SVar := lpSum (s.routes.map (fun r => .y r.1 t))

/-- `load_max_t`, `load_min_t` (`vrpy/schedule.py:64-76`). -/
def loadConstrs (s : Schedule) : List (Constr SVar) :=
  (List.range s.timeSpan).map (fun t => ⟨s.dayLoad t ++ [(-1, .loadMax)], .le, 0⟩) ++
    (List.range s.timeSpan).map (fun t => ⟨s.dayLoad t ++ [(-1, .loadMin)], .ge, 0⟩)

/-- `schedule_r` (`vrpy/schedule.py:78-83`). -/
def routeConstr (s : Schedule) (r : Nat × List Node) : Constr SVar :=
  ⟨lpSum ((List.range s.timeSpan).map (fun t => .y r.1 t)), .eq, 1⟩

/-- `day_t_max_visit_v` (`vrpy/schedule.py:84-94`). -/
def visitConstr (s : Schedule) (t : Nat) (v : Node) : Constr SVar :=
  ⟨lpSum ((s.routes.filter (fun r => v ∈ r.2)).map (fun r => .y r.1 t)), .le, 1⟩

/-- `max_fleet_type_k_day_t` (`vrpy/schedule.py:95-109`). -/
def fleetConstr (s : Schedule) (k n t : Nat) : Constr SVar :=
  ⟨lpSum ((s.routes.filter (fun r => dget s.types r.1 = some k)).map (fun r => .y r.1 t)), .le, n⟩

/-- `__init__` and `_formulate` (`vrpy/schedule.py:29-109`). -/
def lp (s : Schedule) : LP SVar where
  vars := (s.routes.flatMap (fun r => (List.range s.timeSpan).map (fun t =>
      ({ var := .y r.1 t, lo := some 0, up := some 1, isInt := true } : VarDecl SVar)))) ++
    [{ var := .loadMax, lo := some 0 }, { var := .loadMin, lo := some 0 }]
  obj := [(1, .loadMax), (-1, .loadMin)]
  constrs := s.loadConstrs ++ s.routes.map s.routeConstr ++
    (List.range s.timeSpan).flatMap (fun t => (s.G.nodes.filter (fun v => s.G.demand v > 0)).map (s.visitConstr t)) ++
    (s.numVehicles.mapIdx (fun k n => (List.range s.timeSpan).map (s.fleetConstr k n))).flatten

/-- `self.route_type[r]` raises `KeyError` for a route without type, if there is a fleet (`vrpy/schedule.py:96-104`). -/
def formulate (s : Schedule) : Py (LP SVar) :=
  if s.numVehicles ≠ [] ∧ s.timeSpan ≠ 0 ∧ ∃ r ∈ s.routes, dget s.types r.1 = none then .error .keyError else .ok s.lp

/-- `day[t] = [r]` or `day[t].append(r)` (`vrpy/schedule.py:136-139`). -/
def addRoute (day : Dict Nat (List Nat)) (rt : Nat × Nat) : Dict Nat (List Nat) :=
  match dget day rt.2 with
  | none => dset day rt.2 [rt.1]
  | some l => dset day rt.2 (l ++ [rt.1])

/-- The pairs the loops of `routes_per_day` run through. -/
def pairs (s : Schedule) : List (Nat × Nat) :=
  s.routes.flatMap (fun r => (List.range s.timeSpan).map (fun t => (r.1, t)))

/-- `routes_per_day` (`vrpy/schedule.py:129-142`). -/
def routesPerDay (s : Schedule) (optimal : Bool) (p : SVar → ℚ) : Dict Nat (List Nat) :=
  if optimal then (s.pairs.filter (fun rt => p (.y rt.1 rt.2) > 9 / 10)).foldl addRoute [] else []

end Schedule

end Vrpy
