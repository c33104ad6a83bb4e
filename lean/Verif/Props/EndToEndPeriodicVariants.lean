import Verif.Props.EndToEndPeriodic
import Verif.Props.EndToEndDurationLocked
import Verif.Props.EndToEndCases

/-!
# C66, C60, C61, C63: periodic problems with pricing by LP, time windows, collection, pickup and delivery
-/

namespace Vrpy

open Spec

/-- What is claimed of a call of `solve()` for a periodic problem: the routes visit every customer at most as often as they should
(exactly, if once), every route has the property `F`; the schedule is empty or valid, valid if there is a valid one and the solver
finds feasible points, and as even as possible if the solver is exact; `best_value` is what the routes cost plus penalties. -/
structure Spec.PeriodicOutcome (w : World) (P : Vrp) (K : Nat) (N : Net) (F : Nat → List Node → Prop) (o : Obj) : Prop where
  plan : PeriodicPlanFor P K F o.solution
  schedule : o.schedule = [] ∨ PeriodicSchedule P o.solution o.schedule
  found : (∀ lp, (∃ x, lp.Feasible x) → (w.schedule lp).1 = true) → ∀ sch, PeriodicSchedule P o.solution sch →
    PeriodicSchedule P o.solution o.schedule
  even : (∀ lp, (∃ x, lp.Feasible x) → (w.schedule lp).1 = true) → (∀ lp, (w.schedule lp).1 = true → lp.Optimal (w.schedule lp).2) →
    ∀ sch, PeriodicSchedule P o.solution sch → ∀ d d', IsSpread (P.periodic.getD 0) o.schedule d →
      IsSpread (P.periodic.getD 0) sch d' → d ≤ d'
  value : P.minimizeGlobalSpan = false → bestValue N false P.dropPenalty o.solution =
    .ok ((userCosts P o.solution).sum + P.dropPenalty * o.solution.dropped.length)
  span : P.minimizeGlobalSpan = true → o.solution.routes ≠ [] → ∃ m, IsLargest m (userCosts P o.solution) ∧
    bestValue N true P.dropPenalty o.solution = .ok (m + P.dropPenalty * o.solution.dropped.length)

/-- **C66 (partial), pricing by LP** in capacitated problems, under the conditions of `C55_lp_partial`. -/
theorem C66_lp_partial {w : World} {a : SolveArgs} {fuel : Nat} {P0 : Vrp} {o o' : Obj} (hw : LpWorldOk PositiveCycles w)
    (hschedule : ScheduleOk w) (hP : CapacitatedData P0) (hperiodic : P0.periodic.getD 0 ≠ 0) (hD : NonnegativeData P0)
    (hopt : OptionDuals w.toEnv P0) (hpre : a.preassignments = [])
    (hdive : a.dive = false) (hheur : a.heuristicOnly = false) (hcspy : a.cspy = false)
    (hinit : ∀ r ∈ a.initialRoutes, r.Nodup ∧ WithinStops P0.numStops.stops (stops r).length)
    (hc : Obj.create P0 = .ok o) (h : o.solve w a fuel = .ok (some o')) :
    ∃ K N, (P0.mixedFleet = false → K = 1) ∧ o'.P.H = some N ∧ PeriodicOutcome w P0 K N (CapacitatedRoute P0) o' := by
  unfold Obj.solve at h
  split at h
  · cases h
  rename_i P' hstart
  rw [hheur] at h
  simp only [Bool.false_eq_true, if_false] at h
  obtain ⟨K, N, N3, S⟩ := searched (w := w) hP.wf hP.customer hP.costs hP.demand hpre hc hstart
  have U := userData (w := w) hP.wf hP.demand hpre hc hstart S.reports
  have hold : o.solution.dropped = [] := by
    obtain ⟨G, _, rfl⟩ := create_ok hc
    rfl
  have hi := startSolve_initial hc hstart
  obtain ⟨r1, r2, r3, r4, r5, r6, r7⟩ := periodic_of_columns (F := fun k r => WithinStops P0.numStops.stops (stops r).length ∧
      WithinCapacity (userCapacities P0.loadCapacity) k (load N3 r)) hP.customer hperiodic S U (periodic_fleet hperiodic hc hstart).2
    hw.master hschedule hw.path
    (fun P'' cols h1 => by
      obtain ⟨b1, b2, b3⟩ := initial_good hP S hw.cw (by rw [hi]; exact hinit) h1
      exact ⟨b1, fun c hc => (b2 c hc).good, b3⟩) hdive (fun _ => hold)
    (fun rs stm d cost st1 _ _ hs => (lp_priced hw hP hD hcspy S rs (hw.free S hD hopt hs)).mono (fun c hc => hc.good)) h
  refine ⟨K, N, S.typesOne, r1, ⟨?_, r2.visits, r2.dropped, r2.penalty⟩, r3, r4, r5, r6, r7⟩
  intro i r hir
  obtain ⟨mid, rfl, h1, h2, h3, k, h4, h5, h6, h7⟩ := r2.routes i r hir
  obtain ⟨e1, e2⟩ := load_user S h2
  rw [e1] at h7
  rw [e2] at h6
  exact ⟨mid, rfl, h1, h2, h3, k, h4, h5, mid, rfl, h6, h7⟩

/-- **C66, C60, C61 (partial), periodic problems with time windows or collection**, pricing by cspy, by LP when going on takes time,
or by LP without time windows: routes are on time, within the load limits also when goods are collected, and take no longer than they
may; the rest as in `C66_periodic_partial`. -/
theorem C66_variants_partial {w : World} {a : SolveArgs} {fuel : Nat} {P0 : Vrp} {o o' : Obj} (hw : LibrariesFor P0 a w)
    (hschedule : ScheduleOk w) (hP : VariantData P0) (hperiodic : P0.periodic.getD 0 ≠ 0) (hpre : a.preassignments = [])
    (hdive : a.dive = false) (hheur : a.heuristicOnly = false)
    (hinit : ∀ r ∈ a.initialRoutes, r.Nodup ∧ ∀ mid k, r = routeOf mid →
      WithinCapacity (userCapacities P0.loadCapacity) k (mid.map (userDemand P0.G)).sum → RouteLimits P0 k mid)
    (hc : Obj.create P0 = .ok o) (h : o.solve w a fuel = .ok (some o')) :
    ∃ K N, (P0.mixedFleet = false → K = 1) ∧ o'.P.H = some N ∧
      PeriodicOutcome w P0 K N (fun k r => ∃ mid, r = routeOf mid ∧ RouteLimits P0 k mid) o' := by
  unfold Obj.solve at h
  split at h
  · cases h
  rename_i P' hstart
  rw [hheur] at h
  simp only [Bool.false_eq_true, if_false] at h
  obtain ⟨K, N, N3, S⟩ := searched (w := w) hP.wf hP.customer hP.costs hP.demand hpre hc hstart
  have U := userData (w := w) hP.wf hP.demand hpre hc hstart S.reports
  have hold : o.solution.dropped = [] := by
    obtain ⟨G, _, rfl⟩ := create_ok hc
    rfl
  have hi := startSolve_initial hc hstart
  have hmaster : ∀ t, MasterSolverSound (w.master t) := by
    rcases hw with ⟨hw, _⟩ | ⟨hw, _⟩ | ⟨hw, _⟩ <;> exact hw.master
  have hpath : ∀ (c : Column) (p : List Node), IsShortestPath c.edges p → IsShortestPath c.edges (w.path c) := by
    rcases hw with ⟨hw, _⟩ | ⟨hw, _⟩ | ⟨hw, _⟩ <;> exact hw.path
  obtain ⟨r1, r2, r3, r4, r5, r6, r7⟩ := periodic_of_columns hP.customer hperiodic S U (periodic_fleet hperiodic hc hstart).2
    hmaster hschedule hpath
    (fun P'' cols h1 => initial_limits hP S U (by rw [hi]; exact hinit) h1) hdive (fun _ => hold)
    (fun rs stm d cost st1 _ _ hs => by
      rcases hw with ⟨hw, hcspy⟩ | ⟨hw, hcspy, htw, htime⟩ | ⟨hw, hcspy, htw, hD, hopt, _⟩
      · exact price_variant hw hP S U hcspy rs d
      · exact price_windows_lp hw hP htw htime S U hcspy rs d
      · exact price_collect_lp hw hP htw hD hcspy S U rs (hw.free S hD hopt hs)) h
  exact ⟨K, N, S.typesOne, r1, r2, r3, r4, r5, r6, r7⟩

/-- **C60, C61, C62, periodic problems**, spelled out: on time, never too much on board, not too long. -/
theorem C60_periodic_partial {w : World} {a : SolveArgs} {fuel : Nat} {P0 : Vrp} {o o' : Obj} (hw : LibrariesFor P0 a w)
    (hschedule : ScheduleOk w) (hP : VariantData P0) (hperiodic : P0.periodic.getD 0 ≠ 0) (hpre : a.preassignments = [])
    (hdive : a.dive = false) (hheur : a.heuristicOnly = false)
    (hinit : ∀ r ∈ a.initialRoutes, r.Nodup ∧ ∀ mid k, r = routeOf mid →
      WithinCapacity (userCapacities P0.loadCapacity) k (mid.map (userDemand P0.G)).sum → RouteLimits P0 k mid)
    (hc : Obj.create P0 = .ok o) (h : o.solve w a fuel = .ok (some o')) :
    ∀ i r, (i, r) ∈ o'.solution.routes → (P0.timeWindows = true → UserOnTime P0.G r) ∧
      (P0.distributionCollection = true → ∃ k, dget o'.solution.types i = some k ∧ ∀ pre post, r = routeOf (pre ++ post) →
        WithinCapacity (userCapacities P0.loadCapacity) k ((pre.map (userCollect P0.G)).sum + (post.map (userDemand P0.G)).sum)) ∧
      (RoundTripsFit P0 → Within P0.duration.limit (userDuration P0.G r)) := by
  obtain ⟨K, N, _, _, h3⟩ := C66_variants_partial hw hschedule hP hperiodic hpre hdive hheur hinit hc h
  intro i r hir
  obtain ⟨_, _, _, _, _, k, _, hk, mid, rfl, hl⟩ := h3.plan.routes i r hir
  refine ⟨hl.windows, fun hdc => ⟨k, hk, fun pre post hr => hl.goods hdc pre post ?_⟩, hl.duration⟩
  simp only [routeOf, List.cons.injEq, true_and] at hr
  exact List.append_cancel_right hr

/-- **C66, C63 (partial), periodic problems with pickup and delivery**: every route serves requests within the limits. -/
theorem C66_requests_partial {w : World} {a : SolveArgs} {fuel : Nat} {P0 : Vrp} {o o' : Obj} (hw : LpSound w)
    (hschedule : ScheduleOk w) (hP : RequestsData P0) (hperiodic : P0.periodic.getD 0 ≠ 0) (hpre : a.preassignments = [])
    (hdive : a.dive = false) (hheur : a.heuristicOnly = false)
    (hinit : ∀ r ∈ a.initialRoutes, r.Nodup ∧ ∀ mid k, r = routeOf mid →
      WithinCapacity (userCapacities P0.loadCapacity) k (mid.map (userDemand P0.G)).sum → RequestLimits P0 k mid)
    (hc : Obj.create P0 = .ok o) (h : o.solve w a fuel = .ok (some o')) :
    ∃ K N, (P0.mixedFleet = false → K = 1) ∧ o'.P.H = some N ∧
      PeriodicOutcome w P0 K N (fun k r => ∃ mid, r = routeOf mid ∧ RequestLimits P0 k mid) o' := by
  unfold Obj.solve at h
  split at h
  · cases h
  rename_i P' hstart
  rw [hheur] at h
  simp only [Bool.false_eq_true, if_false] at h
  have hcspy := startSolve_no_cspy (w := w) hc hP.pickupDelivery hstart
  obtain ⟨K, N, N3, S⟩ := searched_of (w := w) hP.wf hP.customer hP.costs (fun v hv hd => by
    rcases hd with hd | hd
    · rw [hP.pickupDelivery] at hd
      cases hd
    · exact hP.depots v hv hd) hpre hc hstart
  have U := userData_of (w := w) hP.wf (fun hf => by rw [hP.pickupDelivery] at hf; cases hf) hpre hc hstart S.reports
  have hold : o.solution.dropped = [] := by
    obtain ⟨G, _, rfl⟩ := create_ok hc
    rfl
  have hi := startSolve_initial hc hstart
  obtain ⟨r1, r2, r3, r4, r5, r6, r7⟩ := periodic_of_columns hP.customer hperiodic S U (periodic_fleet hperiodic hc hstart).2
    hw.master hschedule hw.path
    (fun P'' cols h1 => initial_requests hP S U (by rw [hi]; exact hinit) h1) hdive (fun _ => hold)
    (fun rs _ d _ _ _ _ _ => price_requests hw hP S U hcspy rs d) h
  exact ⟨K, N, S.typesOne, r1, r2, r3, r4, r5, r6, r7⟩

/-! ## Examples -/

/-- The same problem for two days, every customer to be visited once. -/
def twoDays (P : Vrp) : Vrp := { P with periodic := some 2 }

/-- The same libraries with a solver for schedules: a single route on the second day, two routes on a day each. -/
noncomputable def scheduling (w : World) : World := { w with schedule := scheduleOf [onDays [(1, 1)] 1 0, onDays [(1, 0), (2, 1)] 1 0] }

theorem scheduling_ok (w : World) : ScheduleOk (scheduling w) := by
  intro prob h
  show prob.Feasible (scheduleOf _ prob).2
  have h' : (scheduleOf [onDays [(1, 1)] 1 0, onDays [(1, 0), (2, 1)] 1 0] prob).1 = true := h
  unfold scheduleOf at h' ⊢
  split
  · rename_i pt hpt
    exact feasible_of _ _ (of_decide_eq_true (by have := List.find?_some hpt; exact this))
  · rename_i hpt
    rw [hpt] at h'
    cases h'

theorem scheduling_world {w : World} (h : WorldOk w) : WorldOk (scheduling w) := ⟨h.cw, h.cspy, h.master, h.paths, h.path⟩

theorem scheduling_sound {w : World} (h : LpSound w) : LpSound (scheduling w) := ⟨h.master, h.sound, h.paths, h.path⟩

theorem scheduling_lp {w : World} (h : LpWorldOk PositiveCycles w) : LpWorldOk PositiveCycles (scheduling w) :=
  ⟨h.cw, h.master, h.fleet, h.sound, h.exact, h.cycles, h.paths, h.path⟩

/-- All hypotheses of `C66_lp_partial` hold for the example. -/
example : LpWorldOk PositiveCycles (scheduling exLpWorld) ∧ ScheduleOk (scheduling exLpWorld) ∧ CapacitatedData (twoDays exPlan) ∧
    NonnegativeData (twoDays exPlan) ∧ OptionDuals (scheduling exLpWorld).toEnv (twoDays exPlan) ∧
    (∀ r ∈ exLpArgs.initialRoutes, r.Nodup ∧ WithinStops (twoDays exPlan).numStops.stops (stops r).length) ∧
    periodicOf (scheduling exLpWorld) exLpArgs 5 (twoDays exPlan) =
      .ok (some (⟨[(1, routeOf [.cust 1, .cust 2])], [(1, 0)], []⟩, [(1, [1])])) :=
  ⟨scheduling_lp exLpWorld_ok, scheduling_ok _, ⟨exPlan_capacitated.wf, exPlan_capacitated.customer, exPlan_capacitated.costs,
    exPlan_capacitated.demand, exPlan_capacitated.service, rfl, rfl, rfl, exPlan_capacitated.oneCapacity⟩,
    ⟨exPlan_nonnegative.service, exPlan_nonnegative.time, exPlan_nonnegative.cost⟩, OptionDuals.plain rfl rfl,
    by intro r hr; exact exLpArgs_initial r hr, Solve.eq_ok_of_toOption (by decide +kernel)⟩

/-- All hypotheses of `C66_variants_partial` hold for the example with cspy. -/
example : LibrariesFor (twoDays exBoth) {} (scheduling exWorld2) ∧ ScheduleOk (scheduling exWorld2) ∧ VariantData (twoDays exBoth) ∧
    RoundTripsFit (twoDays exBoth) ∧
    periodicOf (scheduling exWorld2) {} 5 (twoDays exBoth) =
      .ok (some (⟨[(1, routeOf [.cust 1, .cust 2])], [(1, 0)], []⟩, [(1, [1])])) :=
  ⟨Or.inl ⟨scheduling_world exWorld2_ok, rfl⟩, scheduling_ok _,
    ⟨exBoth_ok.wf, exBoth_ok.customer, exBoth_ok.costs, exBoth_ok.demand, exBoth_ok.service, exBoth_ok.either, exBoth_ok.source,
      exBoth_ok.windows, exBoth_ok.collect, exBoth_ok.pickupDelivery, exBoth_ok.oneCapacity⟩, exBoth_fits,
    Solve.eq_ok_of_toOption (by decide +kernel)⟩

/-- All hypotheses of `C66_requests_partial` hold for the example. -/
example : LpSound (scheduling exWorld5) ∧ ScheduleOk (scheduling exWorld5) ∧ RequestsData (twoDays exRequests) ∧
    periodicOf (scheduling exWorld5) { cspy := false } 5 (twoDays exRequests) =
      .ok (some (⟨[(1, routeOf [.cust 1, .cust 2, .cust 3, .cust 4])], [(1, 0)], []⟩, [(1, [1])])) :=
  ⟨scheduling_sound (lpWorld_ok _ _ _), scheduling_ok _,
    ⟨exRequests_ok.wf, exRequests_ok.costs, exRequests_ok.depots, exRequests_ok.service, exRequests_ok.customer, exRequests_ok.ends,
      exRequests_ok.amounts, exRequests_ok.distinct, exRequests_ok.others, exRequests_ok.fits, exRequests_ok.twoStops,
      exRequests_ok.source, exRequests_ok.windows, exRequests_ok.pickupDelivery, exRequests_ok.distributionCollection,
      exRequests_ok.oneCapacity⟩,
    Solve.eq_ok_of_toOption (by decide +kernel)⟩

end Vrpy
