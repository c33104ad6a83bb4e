import Verif.Props.EndToEndLocked
import Verif.Props.HeuristicOnly

/-!
# C68: an example, and what preassigned routes do not keep
-/

namespace Vrpy

open Spec

/-- All hypotheses of `C68_plan_partial` hold for the example: Source, 1, Sink is preassigned, 2 is left to be planned; the
preassigned route can be carried. -/
example : WorldOk exWorld ∧ Capacitated exPlan ∧ SomeCustomerFree exPlan [routeOf [.cust 1]] ∧
    planOf exWorld { initialRoutes := [routeOf [.cust 2]], preassignments := [routeOf [.cust 1]] } 5 exPlan = .ok (some
      ⟨[(1, routeOf [.cust 2]), (2, routeOf [.cust 1])], [(1, 0), (2, 0)], []⟩) ∧
    FitsSomeVehicle exPlan 1 (routeOf [.cust 1]) := by
  refine ⟨exWorld_ok, exPlan_capacitated, ⟨2, by decide, ?_⟩, Solve.eq_ok_of_toOption (by decide +kernel),
    0, by omega, ?_, by decide +kernel⟩
  · intro p hp _
    simp only [List.mem_cons, List.not_mem_nil, or_false] at hp
    subst hp
    decide
  · intro _
    exact ⟨5, by decide +kernel, by decide +kernel⟩

/-- All customers preassigned. -/
example : planOf cwWorld { preassignments := [routeOf [.cust 1], routeOf [.cust 2]] } 5 exPlan = .ok (some
    ⟨[(1, routeOf [.cust 1]), (2, routeOf [.cust 2])], [(1, 0), (2, 0)], []⟩) :=
  Solve.eq_ok_of_toOption (by decide +kernel)

/-- **C68**, counterexample: with a drop penalty and every customer preassigned, `solve()` raises an error. -/
theorem C68_penalty_counterexample :
    planOf cwWorld { preassignments := [routeOf [.cust 1], routeOf [.cust 2]] } 5 { exPlan with dropPenalty := 7 } =
      .error .attributeError :=
  eq_error_of_raised (by decide +kernel)

/-- **C68**, counterexample: a preassigned route that no vehicle can carry is reported, without a vehicle; `best_value` then
raises an error. -/
theorem C68_heavy_counterexample :
    planOf cwWorld { preassignments := [routeOf [.cust 1, .cust 2]] } 5 { exPlan with loadCapacity := .one (.int 3) } =
      .ok (some ⟨[(1, routeOf [.cust 1, .cust 2])], [], []⟩) ∧
    (∀ N, bestValue N false 0 ⟨[(1, routeOf [.cust 1, .cust 2])], [], []⟩ = .error .keyError) :=
  ⟨Solve.eq_ok_of_toOption (by decide +kernel), fun _ => rfl⟩

/-- **C68**, counterexample: a customer on two preassigned routes is visited twice. -/
theorem C68_twice_counterexample :
    planOf cwWorld { preassignments := [routeOf [.cust 1], routeOf [.cust 1, .cust 2]] } 5 exPlan =
      .ok (some ⟨[(1, routeOf [.cust 1]), (2, routeOf [.cust 1, .cust 2])], [(1, 0), (2, 0)], []⟩) :=
  Solve.eq_ok_of_toOption (by decide +kernel)

/-- **C68**, counterexample: preassigned routes do not count when the fleet is limited; here there is one vehicle, and two
routes are reported. -/
theorem C68_fleet_counterexample :
    planOf exWorld { initialRoutes := [routeOf [.cust 2]], preassignments := [routeOf [.cust 1]] } 5
      { exPlan with numVehicles := .one 1 } =
      .ok (some ⟨[(1, routeOf [.cust 2]), (2, routeOf [.cust 1])], [(1, 0), (2, 0)], []⟩) :=
  Solve.eq_ok_of_toOption (by decide +kernel)

/-- **C68**, counterexample: a preassigned route may have more stops than allowed. -/
theorem C68_stops_counterexample :
    planOf cwWorld { preassignments := [routeOf [.cust 1, .cust 2]] } 5 { exPlan with numStops := .int 1 } =
      .ok (some ⟨[(1, routeOf [.cust 1, .cust 2])], [(1, 0)], []⟩) :=
  Solve.eq_ok_of_toOption (by decide +kernel)

end Vrpy
