import Verif.Props.EndToEndBoundCases
import Verif.Props.EndToEndGap
import Verif.Props.EndToEndDiveLP

/-!
# C70 for runs with diving

The values of the masters solved while diving are not recorded (vrp.py:615), so the last lower bound is that of the
first phase.
-/

namespace Vrpy

open Spec

/-- **C70 (partial), the gap with diving.** As `C70_gap_partial`, under the conditions of `C53_dive_lp_partial`: the value
reported after diving exceeds the cost of no solution by more than the difference to the last lower bound, if there were at
most 1000 iterations. -/
theorem C70_gap_dive_partial {w : World} {a : SolveArgs} {fuel : Nat} {P0 : Vrp} {o o' : Obj}
    (hw : LpWorldOk PositiveCycles w) (hd : DiveOk w.toEnv) (hsig : DiveSigned w.toEnv) (hP : Capacitated P0)
    (hD : NonnegativeData P0) (hpen : 0 ≤ P0.dropPenalty) (hopt : OptionDuals w.toEnv P0)
    (hspan : P0.minimizeGlobalSpan = false) (hpre : a.preassignments = []) (hdive : a.dive = true)
    (hheur : a.heuristicOnly = false) (hcspy : a.cspy = false) (hstrat : a.strategy ≠ "Hyper")
    (hinit : ∀ r ∈ a.initialRoutes, r.Nodup ∧ WithinStops P0.numStops.stops (stops r).length)
    (hc : Obj.create P0 = .ok o)
    (hduals : ∀ P' P'' fuel cols m stm, o.P.startSolve w.dist a.strategy a.cspy a.initialRoutes a.preassignments = .ok P' →
      P'.initialize P'.G.toNet w.cw fuel = .ok (some (P'', cols)) →
      Solve.Trace (P''.solveCfg a w.falsy) w.toEnv false (o.start a P'' cols) m stm →
      (w.master stm.tick (P''.master.lp stm.mcols true)).optimal = true →
      DualsOk P''.master stm.mcols (w.master stm.tick (P''.master.lp stm.mcols true)))
    (h : o.solve w a fuel = .ok (some o')) (hno : o'.iteration ≤ 1000)
    (hiter : a.maxIter = 0 ∨ o'.iteration < a.maxIter) (htime : ∀ t, w.timeUp t = false) :
    ∃ K N bound v, o'.P.vehicleTypes = some K ∧ o'.P.H = some N ∧ o'.bounds.getLast? = some bound ∧
      bestValue N false P0.dropPenalty o'.solution = .ok v ∧
      ∀ S, SolvesWithin P0 K S → (P0.useAllVehicles = true → ∀ p ∈ S.routes, stops p.2 ≠ []) → v ≤
        (userCosts P0 S).sum + P0.dropPenalty * S.dropped.length + (v - bound) + 1 / 1000 * S.routes.length := by
  obtain ⟨_, N, _, hN, _, hv, _⟩ := C53_dive_lp_partial hw hd hsig hP hD hopt hpre hdive hheur hcspy hinit hc h
  obtain ⟨K, bound, hK, hb, hS⟩ := C70_lower_bound_partial hw.exact hP.deliveries
    (fun h => (by rw [hP.timeWindows] at h; cases h)) hD.stay hpen hspan hpre hheur hcspy hstrat hc
    hduals h (Or.inr hno) hiter htime
  refine ⟨K, N, bound, _, hK, hN, hb, hv hspan, ?_⟩
  intro S hSol hused
  have := hS S hSol hused
  linarith

/-- **C70 (partial), the gap with diving and collection**, without time windows. -/
theorem C70_gap_dive_collect_partial {w : World} {a : SolveArgs} {fuel : Nat} {P0 : Vrp} {o o' : Obj}
    (hw : LpWorldOk PositiveCycles w) (hd : DiveOk w.toEnv) (hsig : DiveSigned w.toEnv) (hP : WindowedOrCollecting P0)
    (htw : P0.timeWindows = false)
    (hD : NonnegativeData P0) (hpen : 0 ≤ P0.dropPenalty) (hopt : OptionDuals w.toEnv P0)
    (hspan : P0.minimizeGlobalSpan = false) (hpre : a.preassignments = []) (hdive : a.dive = true)
    (hheur : a.heuristicOnly = false) (hcspy : a.cspy = false) (hstrat : a.strategy ≠ "Hyper")
    (hinit : ∀ r ∈ a.initialRoutes, r.Nodup ∧ ∀ mid k, r = routeOf mid →
      WithinCapacity (userCapacities P0.loadCapacity) k (mid.map (userDemand P0.G)).sum → RouteLimits P0 k mid)
    (hc : Obj.create P0 = .ok o)
    (hduals : ∀ P' P'' fuel cols m stm, o.P.startSolve w.dist a.strategy a.cspy a.initialRoutes a.preassignments = .ok P' →
      P'.initialize P'.G.toNet w.cw fuel = .ok (some (P'', cols)) →
      Solve.Trace (P''.solveCfg a w.falsy) w.toEnv false (o.start a P'' cols) m stm →
      (w.master stm.tick (P''.master.lp stm.mcols true)).optimal = true →
      DualsOk P''.master stm.mcols (w.master stm.tick (P''.master.lp stm.mcols true)))
    (h : o.solve w a fuel = .ok (some o')) (hno : o'.iteration ≤ 1000)
    (hiter : a.maxIter = 0 ∨ o'.iteration < a.maxIter) (htime : ∀ t, w.timeUp t = false) :
    ∃ K N bound v, o'.P.vehicleTypes = some K ∧ o'.P.H = some N ∧ o'.bounds.getLast? = some bound ∧
      bestValue N false P0.dropPenalty o'.solution = .ok v ∧
      ∀ S, SolvesWithin P0 K S → (P0.useAllVehicles = true → ∀ p ∈ S.routes, stops p.2 ≠ []) → v ≤
        (userCosts P0 S).sum + P0.dropPenalty * S.dropped.length + (v - bound) + 1 / 1000 * S.routes.length := by
  obtain ⟨_, N, _, hN, _, hv, _⟩ := C53_dive_collect_lp_partial hw hd hsig hP htw hD hopt hpre hdive hheur hcspy hinit hc h
  obtain ⟨K, bound, hK, hb, hS⟩ := C70_lower_bound_partial hw.exact (hP.deliveries (fun h => (by rw [htw] at h; cases h)))
    (fun h => (by rw [htw] at h; cases h)) hD.stay hpen hspan hpre hheur hcspy hstrat hc hduals h (Or.inr hno) hiter htime
  refine ⟨K, N, bound, _, hK, hN, hb, hv hspan, ?_⟩
  intro S hSol hused
  have := hS S hSol hused
  linarith

/-- All hypotheses of `C70_gap_dive_partial` hold for the example: after two iterations with the values 46 and 24 there is a
diving phase, after which the last lower bound is still 24, the value of the plan reported. -/
example : ∃ K, ∀ S, SolvesWithin exPlan K S → 24 ≤ (userCosts exPlan S).sum + 1 / 1000 * S.routes.length := by
  have hok : valuesProved (divingWorld exLpWorld) diveLpArgs 5 exPlan = true := by decide +kernel
  have hleft : ∃ l, leftBehind (divingWorld exLpWorld) diveLpArgs 5 exPlan = some l ∧ l.1 = [46, 24] ∧ l.2.2 ≤ 1000 := by
    have h : (leftBehind (divingWorld exLpWorld) diveLpArgs 5 exPlan).any (fun l => l.1 = [46, 24] ∧ l.2.2 ≤ 1000) = true := by
      decide +kernel
    cases hl : leftBehind (divingWorld exLpWorld) diveLpArgs 5 exPlan with
    | none => rw [hl] at h; cases h
    | some l =>
      rw [hl] at h
      exact ⟨l, rfl, of_decide_eq_true h⟩
  obtain ⟨l, hleft, hl1, hl2⟩ := hleft
  unfold valuesProved at hok
  split at hok
  · cases hok
  rename_i o ho
  unfold leftBehind at hleft
  rw [ho] at hleft
  simp only at hleft
  split at hleft
  · rename_i o' hsolve
    simp only [Option.some.injEq] at hleft
    subst hleft
    obtain ⟨K, N, bound, v, _, _, hb, _, hS⟩ := C70_gap_dive_partial (a := diveLpArgs) (divingWorld_ok exLpWorld_ok).1
      (divingWorld_ok exLpWorld_ok).2.1 (divingWorld_ok exLpWorld_ok).2.2 exPlan_capacitated
      exPlan_nonnegative (by simp [exPlan]) (.plain rfl rfl) rfl rfl rfl rfl rfl (by decide) exLpArgs_initial ho (by
        intro P' P'' fuel cols m stm h1 h2 ht _
        rw [h1] at hok
        simp only [Bool.and_eq_true, decide_eq_true_eq] at hok
        have h2' : P'.initialize P'.G.toNet (divingWorld exLpWorld).cw 0 = .ok (some (P'', cols)) := by
          rw [← h2]
          unfold Vrp.initialize Vrp.chooseInitial
          simp only [hok.1, ne_eq, not_false_eq_true, if_true]
        rw [h2'] at hok
        exact dualsProve_ok (Solve.Trace.allStates hok.2 ht)) hsolve hl2 (Or.inl rfl) (fun _ => rfl)
    rw [show o'.bounds = _ from hl1] at hb
    simp only [List.getLast?_cons_cons, List.getLast?_singleton, Option.some.injEq] at hb
    subst hb
    refine ⟨K, fun S hSol => ?_⟩
    have := hS S hSol (fun hf => (by cases hf))
    have hp : exPlan.dropPenalty = 0 := rfl
    rw [hp] at this
    linarith
  · cases hleft

end Vrpy
