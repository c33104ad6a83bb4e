import Verif.Props.CspyBoundCases
import Verif.Props.EndToEndCollectLP

/-!
# C70: the gap for problems with collection or time windows
-/

namespace Vrpy

open Spec

theorem Spec.WindowedOrCollecting.deliveries {P : Vrp} (h : WindowedOrCollecting P)
    (ht : P.timeWindows = true → TimesMakeSense P) : Deliveries P where
  wf := h.wf
  customer := h.customer
  costs := h.costs
  demand := h.demand
  service := h.service
  collect := fun hdc v hv => ⟨(h.collect hdc v hv).1, (h.collect hdc v hv).2.1⟩
  times := ht
  pickupDelivery := h.pickupDelivery
  periodic := h.periodic

/-- **C70 (partial), the gap with collection.** As `C70_gap_partial`, for distribution and collection without time windows
(conditions of `C61_lp_untimed_partial` and `C70_lower_bound_partial`). -/
theorem C70_gap_collect_partial {w : World} {a : SolveArgs} {fuel : Nat} {P0 : Vrp} {o o' : Obj}
    (hw : LpWorldOk PositiveCycles w) (hP : WindowedOrCollecting P0) (htw : P0.timeWindows = false)
    (hD : NonnegativeData P0) (hpen : 0 ≤ P0.dropPenalty)
    (hopt : OptionDuals w.toEnv P0) (hspan : P0.minimizeGlobalSpan = false) (hpre : a.preassignments = [])
    (hdive : a.dive = false) (hheur : a.heuristicOnly = false) (hcspy : a.cspy = false) (hstrat : a.strategy ≠ "Hyper")
    (hinit : ∀ r ∈ a.initialRoutes, r.Nodup ∧ ∀ mid k, r = routeOf mid →
      WithinCapacity (userCapacities P0.loadCapacity) k (mid.map (userDemand P0.G)).sum → RouteLimits P0 k mid)
    (hc : Obj.create P0 = .ok o)
    (hduals : ∀ P' P'' fuel cols m stm, o.P.startSolve w.dist a.strategy a.cspy a.initialRoutes a.preassignments = .ok P' →
      P'.initialize P'.G.toNet w.cw fuel = .ok (some (P'', cols)) →
      Solve.Trace (P''.solveCfg a w.falsy) w.toEnv false (o.start a P'' cols) m stm →
      (w.master stm.tick (P''.master.lp stm.mcols true)).optimal = true →
      DualsOk P''.master stm.mcols (w.master stm.tick (P''.master.lp stm.mcols true)))
    (h : o.solve w a fuel = .ok (some o')) (hno : o'.noImprovement ≤ 1000)
    (hiter : a.maxIter = 0 ∨ o'.iteration < a.maxIter) (htime : ∀ t, w.timeUp t = false) :
    ∃ K N bound v, o'.P.vehicleTypes = some K ∧ o'.P.H = some N ∧ o'.bounds.getLast? = some bound ∧
      bestValue N false P0.dropPenalty o'.solution = .ok v ∧
      ∀ S, SolvesWithin P0 K S → (P0.useAllVehicles = true → ∀ p ∈ S.routes, stops p.2 ≠ []) → v ≤
        (userCosts P0 S).sum + P0.dropPenalty * S.dropped.length + (v - bound) + 1 / 1000 * S.routes.length := by
  obtain ⟨_, N, _, hN, _, hv, _⟩ := plan_collect_lp hw hP htw hD hopt hpre hdive hheur hcspy hinit hc h
  obtain ⟨K, bound, hK, hb, hS⟩ := C70_lower_bound_partial hw.exact (hP.deliveries (fun h => (by rw [htw] at h; cases h)))
    (fun h => (by rw [htw] at h; cases h)) hD.stay hpen hspan hpre hheur hcspy hstrat hc hduals h (Or.inl ⟨hdive, hno⟩) hiter htime
  refine ⟨K, N, bound, _, hK, hN, hb, hv hspan, ?_⟩
  intro S hSol hused
  have := hS S hSol hused
  linarith

/-- **C70 (partial), the gap with time windows.** As `C70_gap_partial`, for problems with wide time windows (with or without
collection) where travelling takes time (conditions of `C60_lp_partial` and `C70_lower_bound_partial`). -/
theorem C70_gap_windows_partial {w : World} {a : SolveArgs} {fuel : Nat} {P0 : Vrp} {o o' : Obj}
    (hw : LpSound w) (hexact : ∀ t, SolverExact (w.pricing t)) (hP : WindowedOrCollecting P0)
    (htw : P0.timeWindows = true) (htravel : TravelTakesTime P0) (hT : TimesMakeSense P0) (hwide : WindowsWide P0)
    (hcost : ∀ k, 0 ≤ userArcCost P0 k .source .sink) (hpen : 0 ≤ P0.dropPenalty)
    (hspan : P0.minimizeGlobalSpan = false) (hpre : a.preassignments = [])
    (hdive : a.dive = false) (hheur : a.heuristicOnly = false) (hcspy : a.cspy = false) (hstrat : a.strategy ≠ "Hyper")
    (hinit : ∀ r ∈ a.initialRoutes, r.Nodup ∧ ∀ mid k, r = routeOf mid →
      WithinCapacity (userCapacities P0.loadCapacity) k (mid.map (userDemand P0.G)).sum → RouteLimits P0 k mid)
    (hc : Obj.create P0 = .ok o)
    (hduals : ∀ P' P'' fuel cols m stm, o.P.startSolve w.dist a.strategy a.cspy a.initialRoutes a.preassignments = .ok P' →
      P'.initialize P'.G.toNet w.cw fuel = .ok (some (P'', cols)) →
      Solve.Trace (P''.solveCfg a w.falsy) w.toEnv false (o.start a P'' cols) m stm →
      (w.master stm.tick (P''.master.lp stm.mcols true)).optimal = true →
      DualsOk P''.master stm.mcols (w.master stm.tick (P''.master.lp stm.mcols true)))
    (h : o.solve w a fuel = .ok (some o')) (hno : o'.noImprovement ≤ 1000)
    (hiter : a.maxIter = 0 ∨ o'.iteration < a.maxIter) (htime : ∀ t, w.timeUp t = false) :
    ∃ K N bound v, o'.P.vehicleTypes = some K ∧ o'.P.H = some N ∧ o'.bounds.getLast? = some bound ∧
      bestValue N false P0.dropPenalty o'.solution = .ok v ∧
      ∀ S, SolvesWithin P0 K S → (P0.useAllVehicles = true → ∀ p ∈ S.routes, stops p.2 ≠ []) → v ≤
        (userCosts P0 S).sum + P0.dropPenalty * S.dropped.length + (v - bound) + 1 / 1000 * S.routes.length := by
  obtain ⟨_, N, _, hN, _, _, hv, _⟩ := C60_lp_partial hw hP htw htravel hpre hdive hheur hcspy hinit hc h
  obtain ⟨K, bound, hK, hb, hS⟩ := C70_lower_bound_partial hexact (hP.deliveries (fun _ => hT))
    (fun h => ⟨(hP.source h).1, hwide⟩) hcost hpen hspan hpre hheur hcspy hstrat hc hduals h (Or.inl ⟨hdive, hno⟩) hiter htime
  refine ⟨K, N, bound, _, hK, hN, hb, hv hspan, ?_⟩
  intro S hSol hused
  have := hS S hSol hused
  linarith

/-- All hypotheses of `C70_gap_collect_partial` hold for an example with collection: no solution is cheaper than the one
reported, which costs 24, by more than 1/1000 per vehicle. -/
example : ∃ K, ∀ S, SolvesWithin collectPlan K S → 24 ≤ (userCosts collectPlan S).sum + 1 / 1000 * S.routes.length := by
  have hok : valuesProved collectWorld exLpArgs 5 collectPlan = true := by decide +kernel
  have hleft : leftBehind collectWorld exLpArgs 5 collectPlan = some ([46, 24], 0, 2) := by decide +kernel
  unfold valuesProved at hok
  split at hok
  · cases hok
  rename_i o ho
  unfold leftBehind at hleft
  rw [ho] at hleft
  simp only at hleft
  split at hleft
  · rename_i o' hsolve
    simp only [Option.some.injEq, Prod.mk.injEq] at hleft
    obtain ⟨K, N, bound, v, _, _, hb, _, hS⟩ := C70_gap_collect_partial (a := exLpArgs) collectWorld_ok collectPlan_ok rfl
      collectPlan_nonnegative (by simp [collectPlan]) (.plain rfl rfl) rfl rfl rfl rfl rfl (by decide) collectArgs_initial ho (by
        intro P' P'' fuel cols m stm h1 h2 ht _
        rw [h1] at hok
        simp only [Bool.and_eq_true, decide_eq_true_eq] at hok
        have h2' : P'.initialize P'.G.toNet collectWorld.cw 0 = .ok (some (P'', cols)) := by
          rw [← h2]
          unfold Vrp.initialize Vrp.chooseInitial
          simp only [hok.1, ne_eq, not_false_eq_true, if_true]
        rw [h2'] at hok
        exact dualsProve_ok (Solve.Trace.allStates hok.2 ht)) hsolve (by rw [hleft.2.1]; decide) (Or.inl rfl) (fun _ => rfl)
    rw [hleft.1] at hb
    simp only [List.getLast?_cons_cons, List.getLast?_singleton, Option.some.injEq] at hb
    subst hb
    refine ⟨K, fun S hSol => ?_⟩
    have := hS S hSol (fun hf => (by cases hf))
    have hp : collectPlan.dropPenalty = 0 := rfl
    rw [hp] at this
    linarith
  · cases hleft

/-! ## An example with time windows and collection -/

theorem exTimedBound_variant (dc : Bool) : WindowedOrCollecting (exTimedBound dc) where
  wf := (exTimedBound_deliveries dc).wf
  customer := (exTimedBound_deliveries dc).customer
  costs := (exTimedBound_deliveries dc).costs
  demand := (exTimedBound_deliveries dc).demand
  service := (exTimedBound_deliveries dc).service
  either := Or.inl rfl
  source := fun _ => ⟨rfl, by cases dc <;> decide +kernel⟩
  windows := fun _ => by cases dc <;> decide +kernel
  collect := by
    intro _
    cases dc <;> decide +kernel
  pickupDelivery := rfl
  periodic := rfl
  oneCapacity := by cases dc <;> decide +kernel

theorem exTimedBound_wide (dc : Bool) : WindowsWide (exTimedBound dc) := by
  refine ⟨by cases dc <;> decide +kernel, ?_, by cases dc <;> decide +kernel, by cases dc <;> decide +kernel, ?_, ?_⟩
  · intro n hn
    have : n = 1 ∨ n = 2 := by simpa [exTimedBound, exPlan] using hn
    rcases this with rfl | rfl
    · show ∀ p ∈ userArrivals (exTimedBound dc).G (userLower (exTimedBound dc).G .source) .source [.cust 1, .sink], _
      cases dc <;> decide +kernel
    · show ∀ p ∈ userArrivals (exTimedBound dc).G (userLower (exTimedBound dc).G .source) .source [.cust 2, .sink], _
      cases dc <;> decide +kernel
  · intro n hn _
    right
    have : n = 1 ∨ n = 2 := by simpa [exTimedBound, exPlan] using hn
    rcases this with rfl | rfl <;> (cases dc <;> decide +kernel)
  · intro m n h
    simp only [exTimedBound, exPlan] at h
    split at h <;> simp_all <;> cases dc <;> decide +kernel

/-- The graph searched for `exTimedBound`: the second customer comes after the first one. -/
def timedGoodsNet : Net where
  nodes := [.source, .cust 1, .cust 2, .sink]
  succ := fun u => match u with
    | .source => [.cust 1, .cust 2, .sink]
    | .cust 1 => [.cust 2, .sink]
    | .cust 2 => [.sink]
    | _ => []
  demand := fun v => if v.isDepot then 0 else 2
  collect := fun v => if v = .cust 1 then 3 else if v = .cust 2 then 2 else 0
  service := fun v => if v.isDepot then 0 else 1
  lower := fun v => if v = .cust 1 then 1 else if v = .cust 2 then 5 else 0
  upper := fun v => if v = .cust 1 then 4 else if v = .cust 2 then 8 else if v = .source then 10 else 20
  time := fun u v => if u = .source ∧ v = .sink then 0 else 1
  cost := fun u v =>
    if u = .source ∧ v = .sink then [0]
    else if u = .source then [13]
    else if v = .sink then [10]
    else [1]

theorem timedGoodsNet_wf : WellFormed timedGoodsNet where
  nodes_nodup := by decide
  succ_nodup := by intro u; simp only [timedGoodsNet]; split <;> decide
  edge_mem := by
    intro u v hv
    simp only [timedGoodsNet] at hv ⊢
    split at hv <;> simp at hv <;> (try rcases hv with rfl | rfl | rfl) <;> decide
  source_mem := by decide
  sink_mem := by decide
  no_into_source := by
    intro u
    simp only [timedGoodsNet]
    split <;> decide
  no_out_of_sink := by decide

/-- The two pricing problems. -/
def timedGoodsPricing (second : Bool) : PricingLP where
  G := timedGoodsNet
  weight := fun u v => (timedGoodsNet.cost u v).getD 0 0 - lpDual second u
  caps := [5]
  numStops := some 2
  timeWindows := true
  distributionCollection := true
  negCycle := false

/-- The better route is optimal for both. -/
def timedGoodsPoint : PVar → ℚ
  | .x .source (.cust 1) => 1
  | .x (.cust 1) (.cust 2) => 1
  | .x (.cust 2) .sink => 1
  | .t .source => 0
  | .t (.cust 1) => 1
  | .t (.cust 2) => 5
  | .t .sink => 7
  | .unloadE .source (.cust 1) => 4
  | .unloadE (.cust 1) (.cust 2) => 2
  | .loadE (.cust 1) (.cust 2) => 3
  | .loadE (.cust 2) .sink => 5
  | _ => 0

theorem timedGoodsPoint_optimal (b : Bool) : ((timedGoodsPricing b).lp 5).Optimal timedGoodsPoint := by
  refine optimal_of_routes_goods (q := timedGoodsPricing b) timedGoodsNet_wf rfl rfl ?_ rfl ?_ ?_ ?_ rfl ?_ ?_ ?_
  · refine ⟨?_, ?_, ?_⟩
    · show ∀ v ∈ timedGoodsNet.nodes, 0 ≤ timedGoodsNet.demand v
      decide +kernel
    · intro u v _
      simp only [timedGoodsPricing, timedGoodsNet]
      (repeat' split) <;> norm_num
    · intro _
      show 0 ≤ timedGoodsNet.upper .sink
      decide +kernel
  · intro _
    refine ⟨?_, rfl, rfl⟩
    show ∀ v ∈ timedGoodsNet.nodes, 0 ≤ timedGoodsNet.collect v
    decide +kernel
  · refine noNegativeCycle_brute timedGoodsNet_wf ?_
    revert b
    decide +kernel
  · intro _
    revert b
    decide +kernel
  · refine feasible_of _ _ ?_
    revert b
    decide +kernel
  · revert b
    decide +kernel
  · intro r hr
    left
    revert r b
    decide +kernel

theorem timedGoodsSolver_ok :
    SolverExact (knownSolver [((timedGoodsPricing false).lp 5, timedGoodsPoint), ((timedGoodsPricing true).lp 5, timedGoodsPoint)]) ∧
    SolverSound (knownSolver [((timedGoodsPricing false).lp 5, timedGoodsPoint), ((timedGoodsPricing true).lp 5, timedGoodsPoint)]) :=
  knownSolver_ok (by
    intro k hk
    simp only [List.mem_cons, List.not_mem_nil, or_false] at hk
    rcases hk with rfl | rfl
    · exact timedGoodsPoint_optimal false
    · exact timedGoodsPoint_optimal true)

noncomputable def timedGoodsWorld : World :=
  { exLpWorld with
    pricing := fun _ => knownSolver [((timedGoodsPricing false).lp 5, timedGoodsPoint), ((timedGoodsPricing true).lp 5, timedGoodsPoint)] }

theorem timedGoodsWorld_ok : LpSound timedGoodsWorld where
  master := exLpWorld_ok.master
  sound := fun _ => timedGoodsSolver_ok.2
  paths := exLpWorld_ok.paths
  path := exLpWorld_ok.path

theorem timedGoodsArgs_initial : ∀ r ∈ exLpArgs.initialRoutes, r.Nodup ∧ ∀ mid k, r = routeOf mid →
    WithinCapacity (userCapacities (exTimedBound true).loadCapacity) k (mid.map (userDemand (exTimedBound true).G)).sum →
      RouteLimits (exTimedBound true) k mid := by
  intro r hr
  have h : r = routeOf [.cust 1] ∨ r = routeOf [.cust 2] := by simpa [exLpArgs, exArgs] using hr
  refine ⟨by rcases h with rfl | rfl <;> decide, ?_⟩
  intro mid k hm hload
  have hmid : mid = [.cust 1] ∨ mid = [.cust 2] := by
    rcases h with rfl | rfl <;> simp only [routeOf, List.cons.injEq, true_and] at hm <;>
      have := List.append_cancel_right hm <;> simp [← this]
  have hd : ∀ v ∈ (exTimedBound true).G.nodes,
      userCollect (exTimedBound true).G v ≤ 5 ∧ userDemand (exTimedBound true).G v ≤ 5 := by decide +kernel
  have hcap : userCapacities (exTimedBound true).loadCapacity = [5] := by decide +kernel
  refine ⟨?_, hload, ?_, ?_, fun _ d hd => (by cases hd)⟩
  · intro m hm' _
    have hm' : (2 : Nat) = m := by simpa [exTimedBound, PyVal.stops] using hm'
    rcases hmid with rfl | rfl <;> simp <;> omega
  · intro _
    rcases hmid with rfl | rfl
    · exact (exTimedBound_wide true).alone 1 (by decide)
    · exact (exTimedBound_wide true).alone 2 (by decide)
  · intro _ pre post hpp hne
    obtain ⟨c, hc, _⟩ := hload hne
    refine ⟨c, hc, ?_⟩
    have hc5 : c = 5 := by
      rw [hcap] at hc
      have := List.mem_of_getElem? hc
      simpa using this
    rw [hc5]
    obtain ⟨v, hv, rfl⟩ : ∃ v, v ∈ (exTimedBound true).G.nodes ∧ mid = [v] := by
      rcases hmid with rfl | rfl
      · exact ⟨.cust 1, by decide, rfl⟩
      · exact ⟨.cust 2, by decide, rfl⟩
    have hb := hd v hv
    rcases List.singleton_eq_append_iff.1 hpp with ⟨rfl, rfl⟩ | ⟨rfl, rfl⟩
    · simpa using hb.2
    · simpa using hb.1

/-- All hypotheses of `C70_gap_windows_partial` (and of `C70_lower_bound_partial` with time windows and collection) hold for
the example: no solution is cheaper than the one reported, which costs 24, by more than 1/1000 per vehicle. -/
example : ∃ K, ∀ S, SolvesWithin (exTimedBound true) K S →
    24 ≤ (userCosts (exTimedBound true) S).sum + 1 / 1000 * S.routes.length := by
  have hok : onTheWay timedGoodsWorld exLpArgs 5 (exTimedBound true) dualsProve = true := by decide +kernel
  have hleft : leftBehind timedGoodsWorld exLpArgs 5 (exTimedBound true) = some ([46, 24], 0, 2) := by decide +kernel
  unfold leftBehind at hleft
  split at hleft
  · cases hleft
  rename_i o ho
  split at hleft
  · rename_i o' hsolve
    simp only [Option.some.injEq, Prod.mk.injEq] at hleft
    obtain ⟨K, N, bound, v, _, _, hb, _, hS⟩ := C70_gap_windows_partial (a := exLpArgs) timedGoodsWorld_ok
      (fun _ => timedGoodsSolver_ok.1) (exTimedBound_variant true) rfl (by
        intro n m h
        simp only [exTimedBound, exPlan] at h
        split at h <;> simp_all <;> decide +kernel) ((exTimedBound_deliveries true).times rfl) (exTimedBound_wide true)
      (exTimedBound_nonnegative true).stay (le_refl _) rfl rfl rfl rfl rfl (by decide) timedGoodsArgs_initial ho (by
        intro P' P'' fuel cols m stm h1 h2 ht _
        exact dualsProve_ok (onTheWay_ok hok ho h1 h2 ht)) hsolve (by rw [hleft.2.1]; decide) (Or.inl rfl) (fun _ => rfl)
    rw [hleft.1] at hb
    simp only [List.getLast?_cons_cons, List.getLast?_singleton, Option.some.injEq] at hb
    subst hb
    refine ⟨K, fun S hSol => ?_⟩
    have := hS S hSol (fun hf => (by cases hf))
    have hp : (exTimedBound true).dropPenalty = 0 := rfl
    rw [hp] at this
    linarith
  · cases hleft

end Vrpy
