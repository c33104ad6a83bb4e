import Verif.Props.TimeChecks
import Verif.Props.EndToEndPeriodicDive

/-!
# C67: the checks in periodic problems and with pickup and delivery
-/

namespace Vrpy

open Spec

/-- The routes reported are of the kind of the columns, with and without diving, in periodic problems and in others. -/
theorem checked_routes {w : World} {a : SolveArgs} {fuel : Nat} {P0 P' : Vrp} {o o' : Obj} {K : Nat} {N N3 : Net}
    {F : Nat → List Node → Prop} (hcust : ∃ n, Node.cust n ∈ P0.G.nodes) (S : Searched P0 P' K N N3) (U : UserData P0 P' N)
    (hfleet : P0.periodic.getD 0 ≠ 0 → P'.numVehiclesSchedule = userFleet P0.numVehicles)
    (hschedule : P0.periodic.getD 0 ≠ 0 → ScheduleOk w)
    (hd : a.dive = true → DiveOk w.toEnv) (hmaster : ∀ t, MasterSolverSound (w.master t))
    (hcspy : a.cspy = true → ∀ t q, CspySound q (w.cspy t q))
    (hpath : ∀ (c : Column) (p : List Node), IsShortestPath c.edges p → IsShortestPath c.edges (w.path c))
    (hinit : ∀ P'' cols, P'.initialize P'.G.toNet w.cw fuel = .ok (some (P'', cols)) → Solve.Numbered cols ∧
      (∀ c ∈ cols, ColumnFor N3 K F c) ∧ ∃ rs, P'' = { P' with initialRoutes := rs })
    (hold : P0.dropPenalty = 0 → o.solution.dropped = [])
    (hprice : ∀ rs d, Solve.PriceOk (({ P' with initialRoutes := rs } : Vrp).solveCfg a w.falsy) w.toEnv d (ColumnFor N3 K F))
    (h : Obj.columnGeneration w a fuel P' o = .ok (some o')) :
    ∀ i r, (i, r) ∈ o'.solution.routes → IsSimpleRoute N3 r ∧ ∃ k < K, dget o'.solution.types i = some k ∧ F k r := by
  rw [columnFor_route] at hinit hprice
  intro i r hir
  cases hdv : a.dive with
  | true =>
    obtain ⟨_, hr, _⟩ := dive_columns S (hd hdv) hmaster hcspy hpath hinit hdv hold (fun rs _ _ d _ _ _ _ => hprice rs d) h
    obtain ⟨_, _, _, _, _, k, h1, h2, h3, h4⟩ := hr.routes i r hir
    exact ⟨h3, k, h1, h2, h4⟩
  | false =>
    by_cases hper : P0.periodic.getD 0 = 0
    · obtain ⟨_, hr, _⟩ := plan_of_columns hcust hper S hmaster hpath hinit hdv hold (fun rs _ d _ _ _ _ _ => hprice rs d) h
      obtain ⟨_, _, _, _, _, k, h1, h2, h3, h4⟩ := hr.routes i r hir
      exact ⟨h3, k, h1, h2, h4⟩
    · obtain ⟨_, hr, _⟩ := periodic_of_columns hcust hper S U (hfleet hper) hmaster (hschedule hper) hpath hinit hdv hold
        (fun rs _ d _ _ _ _ _ => hprice rs d) h
      obtain ⟨_, _, _, _, _, k, h1, h2, h3, h4⟩ := hr.routes i r hir
      exact ⟨h3, k, h1, h2, h4⟩

/-- **C67 (partial), also for periodic problems.** Full claim: after `solve()` on a problem with time windows, `check_arrival_time()`
and `check_departure_time()` pass.  Proved for runs as in C60 and C66, with pricing by cspy or by LP, with or without diving, if the
times make sense.  What is missing: as for `C67_checks_pass_partial`. -/
theorem C67_periodic_partial {w : World} {a : SolveArgs} {fuel : Nat} {P0 : Vrp} {o o' : Obj}
    (hw : (WorldOk w ∧ a.cspy = true) ∨ (LpSound w ∧ a.cspy = false ∧ TravelTakesTime P0))
    (hd : a.dive = true → DiveOk w.toEnv) (hschedule : P0.periodic.getD 0 ≠ 0 → ScheduleOk w)
    (hP : VariantData P0) (htw : P0.timeWindows = true) (hT : TimesMakeSense P0) (hpre : a.preassignments = [])
    (hheur : a.heuristicOnly = false)
    (hinit : ∀ r ∈ a.initialRoutes, r.Nodup ∧ ∀ mid k, r = routeOf mid →
      WithinCapacity (userCapacities P0.loadCapacity) k (mid.map (userDemand P0.G)).sum → RouteLimits P0 k mid)
    (hc : Obj.create P0 = .ok o) (h : o.solve w a fuel = .ok (some o')) :
    o'.checkArrivalTime = .ok () ∧ o'.checkDepartureTime = .ok () := by
  unfold Obj.solve at h
  split at h
  · cases h
  rename_i P' hstart
  rw [hheur] at h
  simp only [Bool.false_eq_true, if_false] at h
  obtain ⟨K, N, N3, S⟩ := searched (w := w) hP.wf hP.customer hP.costs hP.demand hpre hc hstart
  have U := userData (w := w) hP.wf hP.demand hpre hc hstart S.reports
  have hold : o.solution.dropped = [] := by
    obtain ⟨G, _, rfl⟩ := create_ok hc
    rfl
  have hi := startSolve_initial hc hstart
  have hin : ∀ P'' cols, P'.initialize P'.G.toNet w.cw fuel = .ok (some (P'', cols)) → Solve.Numbered cols ∧
      (∀ c ∈ cols, ColumnFor N3 K (fun k r => ∃ mid, r = routeOf mid ∧ RouteLimits P0 k mid) c) ∧
      ∃ rs, P'' = { P' with initialRoutes := rs } :=
    fun P'' cols h1 => initial_limits hP S U (by rw [hi]; exact hinit) h1
  have hmaster : ∀ t, MasterSolverSound (w.master t) := by rcases hw with ⟨hw, _⟩ | ⟨hw, _⟩ <;> exact hw.master
  have hpath : ∀ (c : Column) (p : List Node), IsShortestPath c.edges p → IsShortestPath c.edges (w.path c) := by
    rcases hw with ⟨hw, _⟩ | ⟨hw, _⟩ <;> exact hw.path
  refine checks_pass S U htw (hP.source htw).1 hT (fun P'' cols h1 => (hin P'' cols h1).2.2) h ?_
  intro i r hir
  obtain ⟨h1, k, _, _, mid, rfl, h2⟩ := checked_routes hP.customer S U (fun hp => (periodic_fleet hp hc hstart).2) hschedule hd hmaster
    (fun hf => by
      rcases hw with ⟨hw, _⟩ | ⟨_, hcspy, _⟩
      · exact hw.cspy
      · rw [hcspy] at hf
        cases hf) hpath hin (fun _ => hold)
    (fun rs d => by
      rcases hw with ⟨hw, hcspy⟩ | ⟨hw, hcspy, htime⟩
      · exact price_variant hw hP S U hcspy rs d
      · exact price_windows_lp hw hP htw htime S U hcspy rs d) h i r hir
  exact ⟨h1, mid, rfl, h2.windows htw⟩

/-- **C67 (partial), pickup and delivery** with time windows, also periodic, with or without diving, if every request served alone is
served on time. -/
theorem C67_requests_partial {w : World} {a : SolveArgs} {fuel : Nat} {P0 : Vrp} {o o' : Obj} (hw : LpSound w)
    (hd : a.dive = true → DiveOk w.toEnv) (hschedule : P0.periodic.getD 0 ≠ 0 → ScheduleOk w)
    (hP : RequestsData P0) (htw : P0.timeWindows = true) (htrips : RequestTripsOnTime P0) (hT : TimesMakeSense P0)
    (hpre : a.preassignments = []) (hheur : a.heuristicOnly = false)
    (hinit : ∀ r ∈ a.initialRoutes, r.Nodup ∧ ∀ mid k, r = routeOf mid →
      WithinCapacity (userCapacities P0.loadCapacity) k (mid.map (userDemand P0.G)).sum → RequestLimits P0 k mid)
    (hc : Obj.create P0 = .ok o) (h : o.solve w a fuel = .ok (some o')) :
    o'.checkArrivalTime = .ok () ∧ o'.checkDepartureTime = .ok () := by
  unfold Obj.solve at h
  split at h
  · cases h
  rename_i P' hstart
  rw [hheur] at h
  simp only [Bool.false_eq_true, if_false] at h
  have hcspy := startSolve_no_cspy (w := w) hc hP.pickupDelivery hstart
  obtain ⟨K, N, N3, S⟩ := searched_of (w := w) hP.wf hP.customer hP.costs (fun v hv hd => by
    rcases hd with hd | hd
    · rw [hP.pickupDelivery] at hd
      cases hd
    · exact hP.depots v hv hd) hpre hc hstart
  have U := userData_of (w := w) hP.wf (fun hf => by rw [hP.pickupDelivery] at hf; cases hf) hpre hc hstart S.reports
  have hold : o.solution.dropped = [] := by
    obtain ⟨G, _, rfl⟩ := create_ok hc
    rfl
  have hi := startSolve_initial hc hstart
  have hin : ∀ P'' cols, P'.initialize P'.G.toNet w.cw fuel = .ok (some (P'', cols)) → Solve.Numbered cols ∧
      (∀ c ∈ cols, ColumnFor N3 K (fun k r => ∃ mid, r = routeOf mid ∧ RequestLimits P0 k mid) c) ∧
      ∃ rs, P'' = { P' with initialRoutes := rs } :=
    fun P'' cols h1 => initial_requests hP S U (by rw [hi]; exact hinit) h1
  refine checks_pass S U htw (hP.source htw) hT (fun P'' cols h1 => (hin P'' cols h1).2.2) h ?_
  intro i r hir
  obtain ⟨h1, k, _, _, mid, rfl, h2⟩ := checked_routes hP.customer S U (fun hp => (periodic_fleet hp hc hstart).2) hschedule hd hw.master
    (fun hf => by rw [hcspy] at hf; cases hf) hw.path hin (fun _ => hold)
    (fun rs d => price_requests hw hP S U hcspy rs d) h i r hir
  exact ⟨h1, mid, rfl, h2.windows htw htrips⟩

/-! ## Examples -/

/-- The hypotheses of `C67_periodic_partial` hold for the example with time windows and collection over two days, without and with
diving. -/
example : WorldOk (scheduling exWorld2) ∧ ScheduleOk (scheduling exWorld2) ∧ VariantData (twoDays exBoth) ∧
    (twoDays exBoth).timeWindows = true ∧ TimesMakeSense (twoDays exBoth) ∧
    checksOf (scheduling exWorld2) {} 5 (twoDays exBoth) = some (none, none) ∧
    checksOf (scheduling (diveWorld [choosing [1, 2]] exDual [])) { dive := true } 5 (twoDays exBoth) = some (none, none) :=
  ⟨scheduling_world exWorld2_ok, scheduling_ok _,
    ⟨exBoth_ok.wf, exBoth_ok.customer, exBoth_ok.costs, exBoth_ok.demand, exBoth_ok.service, exBoth_ok.either, exBoth_ok.source,
      exBoth_ok.windows, exBoth_ok.collect, exBoth_ok.pickupDelivery, exBoth_ok.oneCapacity⟩, rfl,
    ⟨exBoth_times.service, exBoth_times.from_source, exBoth_times.to_sink, exBoth_times.start, exBoth_times.home⟩,
    by decide +kernel, by decide +kernel⟩

theorem exRequests_arc {m n : Nat} (h : Node.cust n ∈ exRequests.G.succ (.cust m)) :
    (m = 1 ∧ n = 2) ∨ (m = 1 ∧ n = 3) ∨ (m = 2 ∧ n = 3) ∨ (m = 2 ∧ n = 4) ∨ (m = 3 ∧ n = 4) := by
  match m with
  | 0 => simp [exRequests] at h
  | 1 => simp [exRequests] at h; omega
  | 2 => simp [exRequests] at h; omega
  | 3 => simp [exRequests] at h; omega
  | 4 => simp [exRequests] at h
  | m + 5 => simp [exRequests] at h

theorem exRequests_times : TimesMakeSense exRequests where
  service := by decide +kernel
  from_source := by
    intro m n h
    rcases exRequests_arc h with ⟨rfl, rfl⟩ | ⟨rfl, rfl⟩ | ⟨rfl, rfl⟩ | ⟨rfl, rfl⟩ | ⟨rfl, rfl⟩ <;> decide +kernel
  to_sink := by
    intro m n h
    rcases exRequests_arc h with ⟨rfl, rfl⟩ | ⟨rfl, rfl⟩ | ⟨rfl, rfl⟩ | ⟨rfl, rfl⟩ | ⟨rfl, rfl⟩ <;> decide +kernel
  start := by decide +kernel
  home := fun h => absurd h (by decide +kernel)

/-- The hypotheses of `C67_requests_partial` hold for the example with two requests; the route with all four stops passes the checks. -/
example : LpSound exWorld5 ∧ RequestsData exRequests ∧ RequestTripsOnTime exRequests ∧ TimesMakeSense exRequests ∧
    checksOf exWorld5 { cspy := false } 5 exRequests = some (none, none) :=
  ⟨lpWorld_ok _ _ _, exRequests_ok.toRequestsData, exRequests_onTime, exRequests_times, by decide +kernel⟩

end Vrpy
