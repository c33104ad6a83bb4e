import Verif.Props.EndToEndPeriodicVariants

/-!
# C53, C66: periodic problems with diving
-/

namespace Vrpy

open Spec

/-- What is claimed of `solve(dive=True)` for a periodic problem: the routes have the property `F`, every customer to be visited once is
on a route or dropped (customers to be visited more often may be missed, as without diving); the schedule and `best_value` are as without
diving.  A customer may be visited too often. -/
structure Spec.PeriodicDiveOutcome (w : World) (P : Vrp) (K : Nat) (N : Net) (F : Nat → List Node → Prop) (o : Obj) : Prop where
  routes : ∀ i r, (i, r) ∈ o.solution.routes → ∃ mid, r = routeOf mid ∧ mid.Nodup ∧
    (∀ v ∈ mid, (∃ n, v = .cust n) ∧ v ∈ P.G.nodes) ∧ Along (UserArc P.G) r ∧
    ∃ k < K, dget o.solution.types i = some k ∧ F k r
  covered : ∀ n, Node.cust n ∈ P.G.nodes → 0 < userFrequency P.G (.cust n) → userFrequency P.G (.cust n) ≤ 1 →
    Node.cust n ∉ o.solution.dropped → ∃ i r, (i, r) ∈ o.solution.routes ∧ Node.cust n ∈ r
  dropped : ∀ v ∈ o.solution.dropped, (∃ n, v = .cust n) ∧ v ∈ P.G.nodes
  penalty : P.dropPenalty = 0 → o.solution.dropped = []
  schedule : o.schedule = [] ∨ PeriodicSchedule P o.solution o.schedule
  found : (∀ lp, (∃ x, lp.Feasible x) → (w.schedule lp).1 = true) → ∀ sch, PeriodicSchedule P o.solution sch →
    PeriodicSchedule P o.solution o.schedule
  even : (∀ lp, (∃ x, lp.Feasible x) → (w.schedule lp).1 = true) → (∀ lp, (w.schedule lp).1 = true → lp.Optimal (w.schedule lp).2) →
    ∀ sch, PeriodicSchedule P o.solution sch → ∀ d d', IsSpread (P.periodic.getD 0) o.schedule d →
      IsSpread (P.periodic.getD 0) sch d' → d ≤ d'
  value : P.minimizeGlobalSpan = false → bestValue N false P.dropPenalty o.solution =
    .ok ((userCosts P o.solution).sum + P.dropPenalty * o.solution.dropped.length)
  span : P.minimizeGlobalSpan = true → o.solution.routes ≠ [] → ∃ m, IsLargest m (userCosts P o.solution) ∧
    bestValue N true P.dropPenalty o.solution = .ok (m + P.dropPenalty * o.solution.dropped.length)

/-- The schedule made for routes through different customers. -/
theorem schedule_of_routes {w : World} {P0 P' : Vrp} {K : Nat} {N N3 : Net} {F : Nat → List Node → Prop} {sol : Solution}
    {rs : List (List Node)} {old sch : Dict Nat (List Nat)} (hperiodic : P0.periodic.getD 0 ≠ 0) (S : Searched P0 P' K N N3)
    (hfleet : P'.numVehiclesSchedule = userFleet P0.numVehicles) (hschedule : ScheduleOk w)
    (hroutes : ∀ i r, (i, r) ∈ sol.routes → ∃ mid, r = routeOf mid ∧ mid.Nodup ∧
      (∀ v ∈ mid, (∃ n, v = .cust n) ∧ v ∈ P0.G.nodes) ∧ Along (UserArc P0.G) r ∧
      ∃ k < K, dget sol.types i = some k ∧ F k r)
    (hkeys : (sol.routes.map Prod.fst).Nodup)
    (hsch : Obj.makeSchedule w { P' with initialRoutes := rs } sol old = .ok sch) :
    (sch = [] ∨ PeriodicSchedule P0 sol sch) ∧
      ((∀ lp, (∃ x, lp.Feasible x) → (w.schedule lp).1 = true) → ∀ sch', PeriodicSchedule P0 sol sch' → PeriodicSchedule P0 sol sch) ∧
      ((∀ lp, (∃ x, lp.Feasible x) → (w.schedule lp).1 = true) → (∀ lp, (w.schedule lp).1 = true → lp.Optimal (w.schedule lp).2) →
        ∀ sch', PeriodicSchedule P0 sol sch' → ∀ d d', IsSpread (P0.periodic.getD 0) sch d →
          IsSpread (P0.periodic.getD 0) sch' d' → d ≤ d') := by
  obtain ⟨f1, f2, f3, f4, f5, f6, f7, f8, f9, f10, f11⟩ := S.fields
  have hN3 : P'.G.toNet = N3 := by rw [S.graph]; rfl
  have hspan : ({ P' with initialRoutes := rs } : Vrp).periodic.getD 0 = P0.periodic.getD 0 := by rw [← f7]
  have hdem : ∀ r ∈ sol.routes, ∀ v ∈ r.2, N3.demand v = customerDemand P0.G v := by
    rintro ⟨i, r⟩ hir v hv
    obtain ⟨mid, rfl, _, hmid, _⟩ := hroutes i r hir
    rw [S.same.demand]
    simp only [routeOf, List.mem_cons, List.mem_append, List.not_mem_nil, or_false] at hv
    rcases hv with rfl | hv | rfl
    · exact S.demandDepots.1
    · obtain ⟨⟨n, rfl⟩, hn⟩ := hmid v hv
      rw [S.demand _ (mem_customers.2 ⟨by rw [S.userNodes]; exact hn, by simp, by simp⟩)]
      rfl
    · exact S.demandDepots.2
  have hnodes : ∀ r ∈ sol.routes, ∀ v ∈ r.2, v ∈ N3.nodes := by
    rintro ⟨i, r⟩ hir v hv
    obtain ⟨mid, rfl, _, hmid, _⟩ := hroutes i r hir
    simp only [routeOf, List.mem_cons, List.mem_append, List.not_mem_nil, or_false] at hv
    rcases hv with rfl | hv | rfl
    · exact S.wfSearch.source_mem
    · rw [S.nodes, S.userNodes]
      exact (hmid v hv).2
    · exact S.wfSearch.sink_mem
  have hnd : ∀ r ∈ sol.routes, r.2.Nodup := by
    rintro ⟨i, r⟩ hir
    obtain ⟨mid, rfl, h1, hmid, _⟩ := hroutes i r hir
    have hs : Node.source ∉ mid := fun h => by obtain ⟨n, hn⟩ := (hmid _ h).1; cases hn
    have ht : Node.sink ∉ mid := fun h => by obtain ⟨n, hn⟩ := (hmid _ h).1; cases hn
    simp only [routeOf, List.nodup_cons, List.mem_append, List.mem_singleton, not_or, List.nodup_append, List.not_mem_nil,
      not_false_eq_true, List.nodup_nil, and_true]
    refine ⟨⟨hs, by simp⟩, h1, trivial, ?_⟩
    rintro x hx y rfl rfl
    exact ht hx
  set s : Schedule :=
    { G := N3
      timeSpan := P0.periodic.getD 0
      routes := sol.routes
      types := sol.types
      numVehicles := userFleet P0.numVehicles } with hs
  have hsched : sch = s.routesPerDay (w.schedule s.lp).1 (w.schedule s.lp).2 := by
    unfold Obj.makeSchedule at hsch
    rw [if_neg (by rw [hspan]; exact hperiodic)] at hsch
    simp only [hspan, hfleet, hN3] at hsch
    have hform : s.formulate = .ok s.lp := by
      refine Schedule.C30_formulate.2 (Or.inr (Or.inr ?_))
      rintro ⟨i, r⟩ hir
      obtain ⟨_, _, _, _, _, k, _, hk, _⟩ := hroutes i r hir
      exact ⟨_, hk⟩
    rw [← hs, hform] at hsch
    simp only [Except.ok.injEq] at hsch
    exact hsch.symm
  have hiff : ∀ sch, s.Valid sch ↔ PeriodicSchedule P0 sol sch := fun sch =>
    ⟨validSchedule_congr hdem, validSchedule_congr (fun r hr v hv => (hdem r hr v hv).symm)⟩
  have hone : ∀ r ∈ sol.routes, ∀ v, r.2.count v ≤ 1 := fun r hr v => List.nodup_iff_count_le_one.1 (hnd r hr) v
  have hvalid := Schedule.C30_schedule_valid (s := s) hkeys (fun r hr v hv _ => hnodes r hr v hv)
    (fun r hr v _ => hone r hr v) (w.schedule s.lp).1 (w.schedule s.lp).2 (hschedule s.lp)
  rw [hsched]
  refine ⟨?_, ?_, ?_⟩
  · cases hopt : (w.schedule s.lp).1 with
    | false => exact Or.inl rfl
    | true =>
      rw [hopt] at hvalid
      exact Or.inr ((hiff _).1 (hvalid.1 rfl))
  · intro hex sch hS
    have hopt := hex s.lp ((Schedule.C30_feasible_iff hkeys (fun r hr v hv _ => hnodes r hr v hv) (fun r hr v _ => hone r hr v)).2 ⟨sch, (hiff _).2 hS⟩)
    exact (hiff _).1 (hvalid.1 hopt)
  · intro hex hbest sch hS d d' hd hd'
    have hopt := hex s.lp ((Schedule.C30_feasible_iff hkeys (fun r hr v hv _ => hnodes r hr v hv) (fun r hr v _ => hone r hr v)).2 ⟨sch, (hiff _).2 hS⟩)
    rw [hopt] at hd
    exact Schedule.C31_balanced hkeys (hbest _ hopt) ((hiff _).2 hS) hd hd'

/-- The routes that diving selects, and their schedule. -/
theorem periodic_dive {w : World} {a : SolveArgs} {fuel : Nat} {P0 P' : Vrp} {o o' : Obj} {K : Nat} {N N3 : Net}
    {F : Nat → List Node → Prop} (hperiodic : P0.periodic.getD 0 ≠ 0) (S : Searched P0 P' K N N3)
    (U : UserData P0 P' N) (hfleet : P'.numVehiclesSchedule = userFleet P0.numVehicles) (hschedule : ScheduleOk w)
    (hd : DiveOk w.toEnv) (hmaster : ∀ t, MasterSolverSound (w.master t))
    (hcspy : a.cspy = true → ∀ t q, CspySound q (w.cspy t q))
    (hpath : ∀ (c : Column) (p : List Node), IsShortestPath c.edges p → IsShortestPath c.edges (w.path c))
    (hinit : ∀ P'' cols, P'.initialize P'.G.toNet w.cw fuel = .ok (some (P'', cols)) → Solve.Numbered cols ∧
      (∀ c ∈ cols, ColumnFor N3 K F c) ∧ ∃ rs, P'' = { P' with initialRoutes := rs })
    (hdive : a.dive = true) (hold : P0.dropPenalty = 0 → o.solution.dropped = [])
    (hprice : ∀ rs dive stm d cost st1,
      (dive = true → Solve.Diving (({ P' with initialRoutes := rs } : Vrp).solveCfg a w.falsy) stm) →
      Solve.solveMaster (({ P' with initialRoutes := rs } : Vrp).solveCfg a w.falsy) w.toEnv dive stm = .ok (d, cost, st1) →
      Solve.PriceOk (({ P' with initialRoutes := rs } : Vrp).solveCfg a w.falsy) w.toEnv d (ColumnFor N3 K F))
    (h : Obj.columnGeneration w a fuel P' o = .ok (some o')) :
    o'.P.H = some N ∧ PeriodicDiveOutcome w P0 K N F o' := by
  obtain ⟨r1, r2, r3, ⟨rs, old, hsch⟩, r5, r6⟩ := dive_columns S hd hmaster hcspy hpath hinit hdive hold hprice h
  obtain ⟨s1, s2, s3⟩ := schedule_of_routes hperiodic S hfleet hschedule r2.routes r3 hsch
  refine ⟨r1, r2.routes, ?_, r2.dropped, r2.penalty, s1, s2, s3, r5, r6⟩
  intro n hn h0 h1
  refine r2.covered n hn (Or.inr ?_)
  rw [S.same.freq, U.freq _ (by rw [S.userNodes]; exact hn)]
  exact ⟨h0, h1⟩

/-- **C53, C66 (partial), periodic capacitated problems with diving**, pricing by cspy or by LP under the conditions of
`C53_dive_lp_partial`. -/
theorem C66_dive_partial {w : World} {a : SolveArgs} {fuel : Nat} {P0 : Vrp} {o o' : Obj}
    (hw : WorldOk w ∧ a.cspy = true ∨
      LpWorldOk PositiveCycles w ∧ a.cspy = false ∧ NonnegativeData P0 ∧ OptionDuals w.toEnv P0 ∧ DiveSigned w.toEnv)
    (hd : DiveOk w.toEnv) (hschedule : ScheduleOk w) (hP : CapacitatedData P0) (hperiodic : P0.periodic.getD 0 ≠ 0)
    (hpre : a.preassignments = []) (hdive : a.dive = true) (hheur : a.heuristicOnly = false)
    (hinit : ∀ r ∈ a.initialRoutes, r.Nodup ∧ WithinStops P0.numStops.stops (stops r).length)
    (hc : Obj.create P0 = .ok o) (h : o.solve w a fuel = .ok (some o')) :
    ∃ K N, (P0.mixedFleet = false → K = 1) ∧ o'.P.H = some N ∧ PeriodicDiveOutcome w P0 K N (CapacitatedRoute P0) o' := by
  unfold Obj.solve at h
  split at h
  · cases h
  rename_i P' hstart
  rw [hheur] at h
  simp only [Bool.false_eq_true, if_false] at h
  obtain ⟨K, N, N3, S⟩ := searched (w := w) hP.wf hP.customer hP.costs hP.demand hpre hc hstart
  have U := userData (w := w) hP.wf hP.demand hpre hc hstart S.reports
  have hold : o.solution.dropped = [] := by
    obtain ⟨G, _, rfl⟩ := create_ok hc
    rfl
  have hi := startSolve_initial hc hstart
  have hcw : ∀ x, (w.cw x).Valid := by rcases hw with ⟨hw, _⟩ | ⟨hw, _⟩ <;> exact hw.cw
  have hmaster : ∀ t, MasterSolverSound (w.master t) := by rcases hw with ⟨hw, _⟩ | ⟨hw, _⟩ <;> exact hw.master
  have hpath : ∀ (c : Column) (p : List Node), IsShortestPath c.edges p → IsShortestPath c.edges (w.path c) := by
    rcases hw with ⟨hw, _⟩ | ⟨hw, _⟩ <;> exact hw.path
  obtain ⟨r1, r2⟩ := periodic_dive (F := fun k r => WithinStops P0.numStops.stops (stops r).length ∧
      WithinCapacity (userCapacities P0.loadCapacity) k (load N3 r)) hperiodic S U (periodic_fleet hperiodic hc hstart).2
    hschedule hd hmaster (fun hf => by
      rcases hw with ⟨hw, _⟩ | ⟨_, hcspy, _⟩
      · exact hw.cspy
      · rw [hcspy] at hf
        cases hf) hpath
    (fun P'' cols h1 => by
      obtain ⟨b1, b2, b3⟩ := initial_good hP S hcw (by rw [hi]; exact hinit) h1
      exact ⟨b1, fun c hc => (b2 c hc).good, b3⟩) hdive (fun _ => hold)
    (fun rs dive stm d cost st1 hdv hs => by
      rcases hw with ⟨hw, hcspy⟩ | ⟨hw, hcspy, hD, hopt, hsig⟩
      · exact price_searched hw hP S hcspy rs d
      · exact (lp_priced hw hP hD hcspy S rs (dive_free hw hd hsig S hD hopt hdv hs)).mono (fun c hc => hc.good)) h
  refine ⟨K, N, S.typesOne, r1, ?_, r2.covered, r2.dropped, r2.penalty, r2.schedule, r2.found, r2.even, r2.value, r2.span⟩
  intro i r hir
  obtain ⟨mid, rfl, h1, h2, h3, k, h4, h5, h6, h7⟩ := r2.routes i r hir
  obtain ⟨e1, e2⟩ := load_user S h2
  rw [e1] at h7
  rw [e2] at h6
  exact ⟨mid, rfl, h1, h2, h3, k, h4, h5, mid, rfl, h6, h7⟩

/-- **C53, C66, C60, C61 (partial), periodic problems with time windows or collection, with diving.** -/
theorem C66_dive_variants_partial {w : World} {a : SolveArgs} {fuel : Nat} {P0 : Vrp} {o o' : Obj} (hw : LibrariesFor P0 a w)
    (hd : DiveOk w.toEnv) (hschedule : ScheduleOk w) (hP : VariantData P0) (hperiodic : P0.periodic.getD 0 ≠ 0)
    (hpre : a.preassignments = []) (hdive : a.dive = true) (hheur : a.heuristicOnly = false)
    (hinit : ∀ r ∈ a.initialRoutes, r.Nodup ∧ ∀ mid k, r = routeOf mid →
      WithinCapacity (userCapacities P0.loadCapacity) k (mid.map (userDemand P0.G)).sum → RouteLimits P0 k mid)
    (hc : Obj.create P0 = .ok o) (h : o.solve w a fuel = .ok (some o')) :
    ∃ K N, (P0.mixedFleet = false → K = 1) ∧ o'.P.H = some N ∧
      PeriodicDiveOutcome w P0 K N (fun k r => ∃ mid, r = routeOf mid ∧ RouteLimits P0 k mid) o' := by
  unfold Obj.solve at h
  split at h
  · cases h
  rename_i P' hstart
  rw [hheur] at h
  simp only [Bool.false_eq_true, if_false] at h
  obtain ⟨K, N, N3, S⟩ := searched (w := w) hP.wf hP.customer hP.costs hP.demand hpre hc hstart
  have U := userData (w := w) hP.wf hP.demand hpre hc hstart S.reports
  have hold : o.solution.dropped = [] := by
    obtain ⟨G, _, rfl⟩ := create_ok hc
    rfl
  have hi := startSolve_initial hc hstart
  have hmaster : ∀ t, MasterSolverSound (w.master t) := by
    rcases hw with ⟨hw, _⟩ | ⟨hw, _⟩ | ⟨hw, _⟩ <;> exact hw.master
  have hpath : ∀ (c : Column) (p : List Node), IsShortestPath c.edges p → IsShortestPath c.edges (w.path c) := by
    rcases hw with ⟨hw, _⟩ | ⟨hw, _⟩ | ⟨hw, _⟩ <;> exact hw.path
  obtain ⟨r1, r2⟩ := periodic_dive hperiodic S U (periodic_fleet hperiodic hc hstart).2 hschedule hd hmaster (fun hf => by
      rcases hw with ⟨hw, _⟩ | ⟨_, hcspy, _⟩ | ⟨_, hcspy, _⟩
      · exact hw.cspy
      · rw [hcspy] at hf
        cases hf
      · rw [hcspy] at hf
        cases hf) hpath
    (fun P'' cols h1 => initial_limits hP S U (by rw [hi]; exact hinit) h1) hdive (fun _ => hold)
    (fun rs dive stm d cost st1 hdv hs => by
      rcases hw with ⟨hw, hcspy⟩ | ⟨hw, hcspy, htw, htime⟩ | ⟨hw, hcspy, htw, hD, hopt, hsig⟩
      · exact price_variant hw hP S U hcspy rs d
      · exact price_windows_lp hw hP htw htime S U hcspy rs d
      · exact price_collect_lp hw hP htw hD hcspy S U rs (dive_free hw hd (hsig hdive) S hD hopt hdv hs)) h
  exact ⟨K, N, S.typesOne, r1, r2⟩

/-- **C53, C66, C63 (partial), periodic problems with pickup and delivery, with diving.** -/
theorem C66_dive_requests_partial {w : World} {a : SolveArgs} {fuel : Nat} {P0 : Vrp} {o o' : Obj} (hw : LpSound w)
    (hd : DiveOk w.toEnv) (hschedule : ScheduleOk w) (hP : RequestsData P0) (hperiodic : P0.periodic.getD 0 ≠ 0)
    (hpre : a.preassignments = []) (hdive : a.dive = true) (hheur : a.heuristicOnly = false)
    (hinit : ∀ r ∈ a.initialRoutes, r.Nodup ∧ ∀ mid k, r = routeOf mid →
      WithinCapacity (userCapacities P0.loadCapacity) k (mid.map (userDemand P0.G)).sum → RequestLimits P0 k mid)
    (hc : Obj.create P0 = .ok o) (h : o.solve w a fuel = .ok (some o')) :
    ∃ K N, (P0.mixedFleet = false → K = 1) ∧ o'.P.H = some N ∧
      PeriodicDiveOutcome w P0 K N (fun k r => ∃ mid, r = routeOf mid ∧ RequestLimits P0 k mid) o' := by
  unfold Obj.solve at h
  split at h
  · cases h
  rename_i P' hstart
  rw [hheur] at h
  simp only [Bool.false_eq_true, if_false] at h
  have hcspy := startSolve_no_cspy (w := w) hc hP.pickupDelivery hstart
  obtain ⟨K, N, N3, S⟩ := searched_of (w := w) hP.wf hP.customer hP.costs (fun v hv hd => by
    rcases hd with hd | hd
    · rw [hP.pickupDelivery] at hd
      cases hd
    · exact hP.depots v hv hd) hpre hc hstart
  have U := userData_of (w := w) hP.wf (fun hf => by rw [hP.pickupDelivery] at hf; cases hf) hpre hc hstart S.reports
  have hold : o.solution.dropped = [] := by
    obtain ⟨G, _, rfl⟩ := create_ok hc
    rfl
  have hi := startSolve_initial hc hstart
  obtain ⟨r1, r2⟩ := periodic_dive hperiodic S U (periodic_fleet hperiodic hc hstart).2 hschedule hd hw.master
    (fun hf => by rw [hcspy] at hf; cases hf) hw.path
    (fun P'' cols h1 => initial_requests hP S U (by rw [hi]; exact hinit) h1) hdive (fun _ => hold)
    (fun rs _ _ d _ _ _ _ => price_requests hw hP S U hcspy rs d) h
  exact ⟨K, N, S.typesOne, r1, r2⟩

/-! ## Examples -/

theorem scheduling_dive {w : World} (h : DiveOk w.toEnv) : DiveOk (scheduling w).toEnv := h

/-- All hypotheses of `C66_dive_partial` hold for the example with cspy. -/
example : let w := scheduling (diveWorld [Master.exHalf, choosing [3, 4]] exDual [])
    WorldOk w ∧ DiveOk w.toEnv ∧ ScheduleOk w ∧ CapacitatedData (twoDays exThree) ∧
    (∀ r ∈ exDiveArgs.initialRoutes, r.Nodup ∧ WithinStops (twoDays exThree).numStops.stops (stops r).length) ∧
    periodicOf w exDiveArgs 5 (twoDays exThree) =
      .ok (some (⟨[(1, routeOf [.cust 3]), (2, routeOf [.cust 1, .cust 2])], [(1, 0), (2, 0)], []⟩, [(0, [1]), (1, [2])])) :=
  ⟨scheduling_world (diveWorld_ok _ _ _), scheduling_dive (diveWorld_dive _ _ _), scheduling_ok _,
    ⟨exThree_capacitated.wf, exThree_capacitated.customer, exThree_capacitated.costs, exThree_capacitated.demand,
      exThree_capacitated.service, rfl, rfl, rfl, exThree_capacitated.oneCapacity⟩,
    exDiveArgs_ok, Solve.eq_ok_of_toOption (by decide +kernel)⟩

/-- The hypotheses for LP pricing hold for the example, and the route found by pricing is scheduled. -/
example : let w := scheduling (divingWorld exLpWorld)
    LpWorldOk PositiveCycles w ∧ DiveOk w.toEnv ∧ DiveSigned w.toEnv ∧ ScheduleOk w ∧ CapacitatedData (twoDays exPlan) ∧
    NonnegativeData (twoDays exPlan) ∧ OptionDuals w.toEnv (twoDays exPlan) ∧
    (∀ r ∈ diveLpArgs.initialRoutes, r.Nodup ∧ WithinStops (twoDays exPlan).numStops.stops (stops r).length) ∧
    periodicOf w diveLpArgs 5 (twoDays exPlan) =
      .ok (some (⟨[(1, routeOf [.cust 1, .cust 2])], [(1, 0)], []⟩, [(1, [1])])) :=
  ⟨scheduling_lp (divingWorld_ok exLpWorld_ok).1, scheduling_dive (divingWorld_ok exLpWorld_ok).2.1, (divingWorld_ok exLpWorld_ok).2.2,
    scheduling_ok _, ⟨exPlan_capacitated.wf, exPlan_capacitated.customer, exPlan_capacitated.costs,
    exPlan_capacitated.demand, exPlan_capacitated.service, rfl, rfl, rfl, exPlan_capacitated.oneCapacity⟩,
    ⟨exPlan_nonnegative.service, exPlan_nonnegative.time, exPlan_nonnegative.cost⟩, OptionDuals.plain rfl rfl,
    exLpArgs_initial, Solve.eq_ok_of_toOption (by decide +kernel)⟩

/-- All hypotheses of `C66_dive_variants_partial` hold for the problem with time windows and collection. -/
example : let w := scheduling (diveWorld [choosing [1, 2]] exDual [])
    LibrariesFor (twoDays exBoth) { dive := true } w ∧ DiveOk w.toEnv ∧ ScheduleOk w ∧ VariantData (twoDays exBoth) ∧
    periodicOf w { dive := true } 5 (twoDays exBoth) =
      .ok (some (⟨[(1, routeOf [.cust 1]), (2, routeOf [.cust 2])], [(1, 0), (2, 0)], []⟩, [(0, [1]), (1, [2])])) :=
  ⟨Or.inl ⟨scheduling_world (diveWorld_ok _ _ _), rfl⟩, scheduling_dive (diveWorld_dive _ _ _), scheduling_ok _,
    ⟨exBoth_ok.wf, exBoth_ok.customer, exBoth_ok.costs, exBoth_ok.demand, exBoth_ok.service, exBoth_ok.either, exBoth_ok.source,
      exBoth_ok.windows, exBoth_ok.collect, exBoth_ok.pickupDelivery, exBoth_ok.oneCapacity⟩,
    Solve.eq_ok_of_toOption (by decide +kernel)⟩

/-- All hypotheses of `C66_dive_requests_partial` hold for two requests. -/
example : let w := scheduling (diveWorld [choosing [1, 2]] exDual [])
    LpSound w ∧ DiveOk w.toEnv ∧ ScheduleOk w ∧ RequestsData (twoDays exRequests) ∧
    periodicOf w { dive := true, cspy := false } 5 (twoDays exRequests) =
      .ok (some (⟨[(1, routeOf [.cust 1, .cust 3]), (2, routeOf [.cust 2, .cust 4])], [(1, 0), (2, 0)], []⟩, [(0, [1]), (1, [2])])) :=
  ⟨scheduling_sound (diveWorld_lp _ _ _), scheduling_dive (diveWorld_dive _ _ _), scheduling_ok _,
    ⟨exRequests_ok.wf, exRequests_ok.costs, exRequests_ok.depots, exRequests_ok.service, exRequests_ok.customer, exRequests_ok.ends,
      exRequests_ok.amounts, exRequests_ok.distinct, exRequests_ok.others, exRequests_ok.fits, exRequests_ok.twoStops,
      exRequests_ok.source, exRequests_ok.windows, exRequests_ok.pickupDelivery, exRequests_ok.distributionCollection,
      exRequests_ok.oneCapacity⟩,
    Solve.eq_ok_of_toOption (by decide +kernel)⟩

/-- The problem of `C53_run_counterexample` as a periodic problem of one day, with demands. -/
def oneDay : Vrp :=
  { exThree with
    G := { exThree.G with nd := fun v => if v.isDepot then {} else { demand := some 1 } }
    periodic := some 1 }

/-- **C66**, counterexample with diving: two routes through customer 2 are reported for one day, so there is no schedule for them, and
the schedule reported is empty, although every customer could be visited once on that day. -/
theorem C66_dive_counterexample : let w := scheduling (diveWorld [Master.exHalf, Master.exTwo] exDual [])
    let S : Solution := ⟨[(1, routeOf [.cust 1, .cust 2]), (2, routeOf [.cust 2, .cust 3])], [(1, 0), (2, 0)], []⟩
    WorldOk w ∧ DiveOk w.toEnv ∧ ScheduleOk w ∧ CapacitatedData oneDay ∧
    (∀ r ∈ exDiveArgs.initialRoutes, r.Nodup ∧ WithinStops oneDay.numStops.stops (stops r).length) ∧
    periodicOf w exDiveArgs 5 oneDay = .ok (some (S, [])) ∧ ¬ ∃ sch, PeriodicSchedule oneDay S sch := by
  refine ⟨scheduling_world (diveWorld_ok _ _ _), scheduling_dive (diveWorld_dive _ _ _), scheduling_ok _,
    ⟨⟨exThree_capacitated.wf.1, exThree_capacitated.wf.2, exThree_capacitated.wf.3⟩, exThree_capacitated.customer, exThree_capacitated.costs, by decide +kernel,
      by decide +kernel, rfl, rfl, rfl, exThree_capacitated.oneCapacity⟩,
    exDiveArgs_ok, Solve.eq_ok_of_toOption (by decide +kernel), ?_⟩
  rintro ⟨sch, h⟩
  match sch, h with
  | [], h => exact absurd h.each.length_eq (by decide)
  | [e], h =>
    have hp : e.2.Perm [1, 2] := by simpa using h.each
    have h1 := h.once e (List.mem_singleton.2 rfl) (.cust 2) (by decide +kernel)
    unfold visitsOf at h1
    rw [List.Perm.count_eq (List.Perm.flatMap_right _ hp)] at h1
    exact absurd h1 (by decide)
  | e :: e' :: l, h =>
    have h1 := h.horizon e (by simp)
    have h2 := h.horizon e' (by simp)
    have h3 : oneDay.periodic.getD 0 = 1 := rfl
    have h4 := h.days
    rw [h3] at h1 h2
    simp only [List.map_cons, List.nodup_cons, List.mem_cons, not_or] at h4
    omega

end Vrpy
