import Verif.Props.Savings
import Verif.Props.HeuristicOnly

/-!
# C76: the heuristic alone, and a concrete case
-/

namespace Vrpy

open Spec

/-- **C76 (the heuristic alone).** `solve(heuristic_only=True)` returns, numbered 0, 1, ..., the routes of one run of the savings
heuristic on the graph as it is after preprocessing, with the limits of the problem and the arc weighted 1. -/
theorem C76_heuristic_only {w : World} {a : SolveArgs} {fuel : Nat} {o o' : Obj} (hheur : a.heuristicOnly = true)
    (h : o.solve w a fuel = .ok (some o')) :
    ∃ P' val rs, o.P.startSolve w.dist a.strategy a.cspy a.initialRoutes a.preassignments = .ok P' ∧
      cwRun P'.G.toNet (weighted P' 1) (w.cw 1) = .ok (val, rs) ∧
      o'.solution.routes = (List.range rs.length).zip rs ∧ ∀ r ∈ o'.solution.types, r.2 = 0 := by
  unfold Obj.solve at h
  cases hs : o.P.startSolve w.dist a.strategy a.cspy a.initialRoutes a.preassignments with
  | error e => simp only [hs] at h; cases h
  | ok P' =>
    simp only [hs, hheur, if_true] at h
    unfold Obj.clarkeWright at h
    have hn : P'.numStops.stops.map (fun n => (n : ℚ)) = P'.numStops.stops.map (fun n : Nat => (n : ℚ)) := by
      cases P'.numStops.stops <;> rfl
    rw [hn] at h
    cases hc : checkClarkeWrightCompatibility P'.timeWindows P'.pickupDelivery P'.distributionCollection P'.mixedFleet
        (decide (P'.periodic.getD 0 ≠ 0)) with
    | error e => simp only [hc, bind, Except.bind] at h; cases h
    | ok _ =>
      cases hr : cwRun P'.G.toNet (weighted P' 1) (w.cw 1) with
      | error e =>
        simp only [weighted] at hr
        simp only [hc, hr, bind, Except.bind] at h
        cases h
      | ok q =>
        have hr' := hr
        simp only [weighted] at hr'
        simp only [hc, hr', bind, Except.bind, pure, Except.pure, Except.ok.injEq, Option.some.injEq] at h
        subst h
        refine ⟨P', q.1, q.2, rfl, hr, ?_, ?_⟩
        · refine List.ext_getElem (by simp) (fun i h1 h2 => ?_)
          simp
        · intro r hr
          obtain ⟨i, hi, rfl⟩ := List.mem_mapIdx.1 hr
          rfl

/-! ## A concrete case -/

/-- Three customers; driving from 1 to 2 is cheap. -/
def exC76 : Net where
  nodes := [.source, .cust 1, .cust 2, .cust 3, .sink]
  succ := fun u => match u with
    | .source => [.cust 1, .cust 2, .cust 3, .sink]
    | .cust 1 => [.cust 3, .cust 2, .sink]
    | .cust 2 => [.cust 1, .cust 3, .sink]
    | .cust 3 => [.cust 1, .cust 2, .sink]
    | _ => []
  demand := fun v => if v.isDepot then 0 else 3
  collect := fun _ => 0
  service := fun _ => 0
  lower := fun _ => 0
  upper := fun _ => 0
  freq := fun _ => 1
  request := fun _ => none
  cost := fun u v => if u.isDepot || v.isDepot then [10] else if u = .cust 1 ∧ v = .cust 2 then [1] else [5]
  time := fun _ _ => 1

theorem exC76_wf : WellFormed exC76 := by
  refine ⟨by decide, ?_, ?_, by decide, by decide, ?_, rfl⟩
  · intro u; simp only [exC76]; split <;> decide
  · intro u; simp only [exC76]; split <;> first | decide | simp
  · intro u; simp only [exC76]; split <;> decide

theorem exC76_depot : DepotConnected exC76 := by
  intro n hn
  simp only [exC76, List.mem_cons, Node.cust.injEq, reduceCtorEq, List.not_mem_nil, or_false, false_or] at hn
  rcases hn with rfl | rfl | rfl <;> decide

theorem exC76_costs : CostsFor exC76 1 := by
  intro u v _
  simp only [exC76]
  split
  · rfl
  · split <;> rfl

def exC76_cfg : CWConfig where
  cap := some 6
  duration := some 5

/-- With room for two customers and a maximum duration the heuristic drives from 1 to 2, although the arc from 1 to 3 comes first in the
graph. -/
example (o : CWOracle) (ho : o.Valid) : ∃ val rs, cwRun exC76 exC76_cfg o = .ok (val, rs) ∧
    ∃ r ∈ rs, (Node.cust 1, Node.cust 2) ∈ consecutive r := by
  obtain ⟨val, rs, h1, _⟩ := C07_clarke_wright_partition exC76 exC76_cfg o exC76_wf exC76_depot exC76_costs ho
  refine ⟨val, rs, h1, C76_best_saving exC76 _ o exC76_wf exC76_depot exC76_costs ho
    (fun _ => ⟨⟨fun _ _ _ _ => rfl, fun _ _ => rfl⟩, rfl, rfl⟩) (by decide) (by decide) (by decide) (by decide)
    (by decide +kernel) ?_ val rs h1⟩
  refine ⟨?_, ?_, ?_⟩
  · intro c hc _
    cases hc
    decide +kernel
  · intro c hc _
    cases hc
  · intro c hc _
    cases hc
    decide +kernel

end Vrpy
