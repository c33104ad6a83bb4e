import Verif.Props.Termination

/-!
# C55 and C59 for pricing by linear programming (`cspy=False`)
-/

namespace Vrpy

open Spec

/-- The contracts of the libraries, for pricing by LP: heap order of Clarke & Wright, the master problem's solver returns
feasible points and no positive dual values for the constraints "at most that many vehicles", the pricing problem's solver
is exact, paths are shortest paths, and what the absence of a negative cycle reported by networkx implies.  (networkx
promises `NoNegativeCycle`; `PositiveCycles` is more.) -/
structure Spec.LpWorldOk (cyclesOk : Net → (Node → Node → ℚ) → Prop) (w : World) : Prop where
  cw : ∀ x, (w.cw x).Valid
  master : ∀ t, MasterSolverSound (w.master t)
  fleet : ∀ t (M : Master) cols, M.useAllVehicles = false → (w.master t (M.lp cols true)).optimal = true →
    ∀ k < M.numVehicles.length, (w.master t (M.lp cols true)).fleetDual k ≤ 0
  sound : ∀ t, SolverSound (w.pricing t)
  exact : ∀ t, SolverExact (w.pricing t)
  cycles : ∀ G c, WellFormed G → w.negCycle G c = false → cyclesOk G c
  paths : ∀ t, PathsOk (w.paths t)
  path : ∀ (c : Column) (p : List Node), IsShortestPath c.edges p → IsShortestPath c.edges (w.path c)

/-- What is asked of the dual values if there are further options: "at most" constraints for the span of the routes have no positive
dual values, and if all vehicles are to be used, one more vehicle is not worth the price of a trip without customers. -/
structure Spec.OptionDuals (env : Env) (P : Vrp) : Prop where
  span : P.minimizeGlobalSpan = true → ∀ t prob, (env.master t prob).optimal = true → ∀ n, (env.master t prob).spanDual n ≤ 0
  fleet : P.useAllVehicles = true → ∀ t prob, (env.master t prob).optimal = true → ∀ k,
    (env.master t prob).fleetDual k ≤ 10000000000 ∧
      (P.minimizeGlobalSpan = true → ∀ n, (env.master t prob).fleetDual k ≤ -(env.master t prob).spanDual n * 10000000000)

theorem Spec.OptionDuals.plain {env : Env} {P : Vrp} (huse : P.useAllVehicles = false) (hspan : P.minimizeGlobalSpan = false) :
    OptionDuals env P :=
  ⟨fun h => (by rw [hspan] at h; cases h), fun h => (by rw [huse] at h; cases h)⟩

/-- The data of the user are not negative. -/
structure Spec.NonnegativeData (P : Vrp) : Prop where
  service : ∀ v ∈ P.G.nodes, 0 ≤ (P.G.nd v).serviceTime.getD 0
  time : ∀ u v, v ∈ P.G.succ u → 0 ≤ (P.G.ed u v).time.getD 0
  cost : ∀ k u v, UserArc P.G u v → 0 ≤ userArcCost P k u v

theorem emptyRouteStep_false {N N' : Net} (h : emptyRouteStep false N = .ok N') : N' = N := by
  unfold emptyRouteStep at h
  simp at h
  exact h.symm

/-- Costs in the graph that is searched are those of the graph with the fixed costs, or 0 (on preassigned arcs), unless all
vehicles are to be used. -/
theorem Searched.cost_eq {P0 P' : Vrp} {K : Nat} {N N3 : Net} (S : Searched P0 P' K N N3)
    (huse : P0.useAllVehicles = false) (u v : Node) (k : Nat) :
    (N3.cost u v).getD k 0 = (N.cost u v).getD k 0 ∨ (N3.cost u v).getD k 0 = 0 := by
  obtain ⟨c, N2, hc, hprune, hempty⟩ := S.pruned
  rw [huse] at hempty
  rw [emptyRouteStep_false hempty, (pruneGraph_same hprune).cost_eq]
  exact hc u v k

/-- The graph that is searched has nonnegative data. -/
theorem Searched.nonnegative {P0 P' : Vrp} {K : Nat} {N N3 : Net} (S : Searched P0 P' K N N3)
    (hdem : ∀ v ∈ P0.G.nodes, 0 ≤ userDemand P0.G v) (hD : NonnegativeData P0) : Nonnegative N3 false where
  demand := by
    intro v hv
    rw [S.same.demand]
    rw [S.nodes] at hv
    by_cases h1 : v = .source
    · rw [h1, S.demandDepots.1]
    · by_cases h2 : v = .sink
      · rw [h2, S.demandDepots.2]
      · rw [S.demand v (mem_customers.2 ⟨hv, h1, h2⟩)]
        exact hdem v (by rw [← S.userNodes]; exact hv)
  time := by
    intro u v hv
    rw [S.same.time, S.same.service]
    have hv := S.same.succ u v hv
    rw [S.time u v hv, S.service u (S.wf.edge_mem u v hv).1]
    have h1 := hD.service u (by rw [← S.userNodes]; exact (S.wf.edge_mem u v hv).1)
    split
    · rename_i h
      have := hD.time u v h
      linarith
    · linarith
  horizon := fun h => (by cases h)

/-- No cost in the network searched is negative. -/
theorem Searched.cost_nonneg {P0 P' : Vrp} {K : Nat} {N N3 : Net} (S : Searched P0 P' K N N3)
    (hD : ∀ k u v, UserArc P0.G u v → 0 ≤ userArcCost P0 k u v) (k : Nat) {u v : Node} (hv : v ∈ N.succ u) :
    0 ≤ (N3.cost u v).getD k 0 := by
  obtain ⟨c, N2, hc, hprune, hempty⟩ := S.pruned
  have hN2 : 0 ≤ (N2.cost u v).getD k 0 := by
    rw [(pruneGraph_same hprune).cost_eq]
    rcases hc u v k with h | h
    · show 0 ≤ (c u v).getD k 0
      rw [h]
      by_cases hk : k < K
      · rw [S.arcCost _ _ hv k hk]
        exact hD k u v (S.userArcs u v hv)
      · rw [List.getD_eq_getElem?_getD, List.getElem?_eq_none (by rw [S.costs _ _ hv]; omega)]
        rfl
    · show 0 ≤ (c u v).getD k 0
      rw [h]
  unfold emptyRouteStep at hempty
  split at hempty
  · unfold emptyRouteCost at hempty
    split at hempty
    · simp only [Except.ok.injEq] at hempty
      subst hempty
      simp only
      split
      · rw [List.getD_eq_getElem?_getD, List.getElem?_replicate]
        split
        · simp [bigCost]
        · simp
      · exact hN2
    · cases hempty
  · simp only [Except.ok.injEq] at hempty
    subst hempty
    exact hN2

/-- If all vehicles are to be used, a trip without customers has its price. -/
theorem Searched.direct_big {P0 P' : Vrp} {K : Nat} {N N3 : Net} (S : Searched P0 P' K N N3) (huse : P0.useAllVehicles = true)
    {k : Nat} (hk : k < (N3.cost .source .sink).length) : (N3.cost .source .sink).getD k 0 = 10000000000 := by
  obtain ⟨c, N2, hc, hprune, hempty⟩ := S.pruned
  rw [huse] at hempty
  unfold emptyRouteStep at hempty
  rw [if_pos rfl] at hempty
  unfold emptyRouteCost at hempty
  split at hempty
  · simp only [Except.ok.injEq] at hempty
    subst hempty
    simp only [and_self, if_true, List.length_replicate] at hk ⊢
    rw [List.getD_eq_getElem?_getD, List.getElem?_replicate, if_pos hk]
    rfl
  · cases hempty

theorem Searched.direct_fleet {P0 P' : Vrp} {K : Nat} {N N3 : Net} (S : Searched P0 P' K N N3) {env : Env} (hopt : OptionDuals env P0)
    {G : Net} (hG : G = N3) (huse : P0.useAllVehicles = true) {t : Nat} {prob : LP MVar} (ho : (env.master t prob).optimal = true)
    {k : Nat} (hk : k < (G.cost .source .sink).length) : (env.master t prob).fleetDual k ≤ (G.cost .source .sink).getD k 0 := by
  subst hG
  rw [S.direct_big huse hk]
  exact (hopt.fleet huse t prob ho k).1

/-- The trip without customers does not pay. -/
theorem Searched.free {P0 P' : Vrp} {K : Nat} {N N3 : Net} (S : Searched P0 P' K N N3)
    (hD : ∀ k u v, UserArc P0.G u v → 0 ≤ userArcCost P0 k u v) {env : Env} (hopt : OptionDuals env P0) {cfg : SolveCfg}
    (hMG : cfg.M.G = N3) (hu : cfg.M.useAllVehicles = P0.useAllVehicles) (hsp : cfg.M.globalSpan = P0.minimizeGlobalSpan)
    {t : Nat} {prob : LP MVar} {cols : List Column} (ho : (env.master t prob).optimal = true)
    (hfleet : cfg.M.useAllVehicles = false → ∀ k < cfg.M.numVehicles.length, (env.master t prob).fleetDual k ≤ 0) :
    EmptyTripFree cfg (cfg.M.duals cols (env.master t prob)) := by
  intro k route wt hwt hs
  have hcost : ∀ k, 0 ≤ (cfg.M.G.cost .source .sink).getD k 0 := by
    rw [hMG]
    exact fun k => S.cost_nonneg hD k S.direct
  refine direct_weight (by rw [hMG]; exact S.wfSearch) (fun h => hopt.span (hsp ▸ h) t prob ho) hcost ?_ hwt hs
  intro k hk hlen x hx hx1
  cases hus : P0.useAllVehicles with
  | false => exact le_trans (hfleet (hu.trans hus) k hk) (mul_nonneg hx (hcost k))
  | true =>
    rw [hMG] at hlen ⊢
    rw [S.direct_big hus hlen]
    rcases hx1 with rfl | ⟨h, n, rfl⟩
    · rw [one_mul]
      exact (hopt.fleet hus t prob ho k).1
    · exact (hopt.fleet hus t prob ho k).2 (hsp ▸ h) n

theorem Spec.LpWorldOk.free {cyclesOk : Net → (Node → Node → ℚ) → Prop} {w : World} (hw : LpWorldOk cyclesOk w) {a : SolveArgs}
    {P0 P' : Vrp} {K : Nat} {N N3 : Net} (S : Searched P0 P' K N N3) (hD : NonnegativeData P0) (hopt : OptionDuals w.toEnv P0)
    {rs : List (List Node)} {stm st1 : SolveState} {d : Duals} {cost : ℚ}
    (hs : Solve.solveMaster (({ P' with initialRoutes := rs } : Vrp).solveCfg a w.falsy) w.toEnv false stm = .ok (d, cost, st1)) :
    EmptyTripFree (({ P' with initialRoutes := rs } : Vrp).solveCfg a w.falsy) d := by
  obtain ⟨f1, f2, f3, f4, f5, f6, f7, f8, f9, f10, f11⟩ := S.fields
  obtain ⟨ho, rfl⟩ := Solve.solveMaster_duals hs
  refine S.free hD.cost hopt ?_ f8 f9 ho (fun hus => hw.fleet _ _ _ hus ho)
  show P'.G.toNet = N3
  rw [S.graph]
  rfl

/-- LP pricing yields routes within the limits of the user. -/
theorem lp_priced {w : World} {a : SolveArgs} {P0 P' : Vrp} {K : Nat} {N N3 : Net} (hw : LpWorldOk PositiveCycles w)
    (hP : CapacitatedData P0) (hD : NonnegativeData P0)
    (hcspy : a.cspy = false) (S : Searched P0 P' K N N3) (rs : List (List Node)) {d : Duals}
    (hfree : EmptyTripFree (({ P' with initialRoutes := rs } : Vrp).solveCfg a w.falsy) d) :
    Solve.PriceOk (({ P' with initialRoutes := rs } : Vrp).solveCfg a w.falsy) w.toEnv d
      (RouteColumn N3 K (userCapacities P0.loadCapacity) P0.numStops.stops) := by
  obtain ⟨f1, f2, f3, f4, f5, f6, f7, f8, f9, f10, f11⟩ := S.fields
  have hN3 : P'.G.toNet = N3 := by rw [S.graph]; rfl
  generalize hcfg : ({ P' with initialRoutes := rs } : Vrp).solveCfg a w.falsy = cfg at *
  have hMG : cfg.M.G = N3 := by rw [← hcfg]; exact hN3
  have hcaps : cfg.caps = userCapacities P0.loadCapacity := by rw [← hcfg]; exact S.caps
  have htw : cfg.timeWindows = false := by rw [← hcfg]; exact f2.trans hP.timeWindows
  have hK : cfg.K = K := by
    rw [← hcfg]
    show P'.vehicleTypes.getD 0 = K
    rw [S.types]
    rfl
  have hns : cfg.numStops = P'.numStops.stops := by rw [← hcfg]; rfl
  have hg := Solve.lp_price_good (cfg := cfg) (env := w.toEnv) (d := d) (by rw [← hcfg]; exact hcspy)
    (by rw [hMG]; exact S.wfSearch)
    (by rw [hMG, S.same.demand]; exact S.demandDepots)
    (by rw [hMG, S.same.service]; exact (S.serviceDepots hP.service.1 hP.service.2).2)
    (by rw [← hcfg]; exact f3.trans hP.pickupDelivery)
    (fun hb => by rw [show cfg.distributionCollection = false by rw [← hcfg]; exact f4.trans hP.distributionCollection] at hb; cases hb)
    (by rw [hcaps]; exact S.capsPos) hw.paths hw.sound
    (fun t k route wt hwt => Solve.noCycles_free hfree hw.exact (by rw [hMG, htw]; exact S.nonnegative hP.demand hD)
      (fun wt => hw.cycles _ wt (by rw [hMG]; exact S.wfSearch)) hwt)
  refine hg.mono ?_
  intro c hcg
  rw [hK, hcaps, hMG, hns] at hcg
  obtain ⟨h1, r, h2, h3, h4, h5⟩ := hcg
  exact ⟨h1, r, h2, h3, S.stops hP.distributionCollection _ h4, h5⟩

/-- **C55 (partial), LP pricing.** As `C55_plan_partial`, for pricing by LP, with duration limits or not (they are not part
of the statement), if no cycle has reduced cost 0 whenever networkx reports that none has negative reduced cost
(`C55_lp_counterexample` shows that this is needed).  If all vehicles are
to be used or the global span is minimized, the dual values have to be as in `OptionDuals`.  What is missing: diving. -/
theorem C55_lp_partial {w : World} {a : SolveArgs} {fuel : Nat} {P0 : Vrp} {o o' : Obj} (hw : LpWorldOk PositiveCycles w)
    (hP : Capacitated P0) (hD : NonnegativeData P0) (hopt : OptionDuals w.toEnv P0)
    (hpre : a.preassignments = []) (hdive : a.dive = false) (hheur : a.heuristicOnly = false) (hcspy : a.cspy = false)
    (hinit : ∀ r ∈ a.initialRoutes, r.Nodup ∧ WithinStops P0.numStops.stops (stops r).length)
    (hc : Obj.create P0 = .ok o) (h : o.solve w a fuel = .ok (some o')) :
    ∃ K N, (P0.mixedFleet = false → K = 1) ∧ o'.P.H = some N ∧ SolvesProblem P0 K o'.solution ∧
      (P0.minimizeGlobalSpan = false → bestValue N false P0.dropPenalty o'.solution =
        .ok ((userCosts P0 o'.solution).sum + P0.dropPenalty * o'.solution.dropped.length)) ∧
      (P0.minimizeGlobalSpan = true → o'.solution.routes ≠ [] → ∃ m, IsLargest m (userCosts P0 o'.solution) ∧
        bestValue N true P0.dropPenalty o'.solution = .ok (m + P0.dropPenalty * o'.solution.dropped.length)) := by
  unfold Obj.solve at h
  split at h
  · cases h
  rename_i P' hstart
  rw [hheur] at h
  simp only [Bool.false_eq_true, if_false] at h
  obtain ⟨K, N, N3, S⟩ := searched (w := w) hP.wf hP.customer hP.costs hP.demand hpre hc hstart
  have hold : o.solution.dropped = [] := by
    obtain ⟨G, _, rfl⟩ := create_ok hc
    rfl
  have hN3 : P'.G.toNet = N3 := by rw [S.graph]; rfl
  obtain ⟨f1, f2, f3, f4, f5, f6, f7, f8, f9, f10, f11⟩ := S.fields
  obtain ⟨r1, r2, r3, r4⟩ := plan_of_good (K := K) hP S hw.cw hw.master hw.path (by
    rw [startSolve_initial hc hstart]
    exact hinit) hdive (fun _ => hold) (by
      intro rs stm d cost st1 _ _ hs
      exact (lp_priced hw hP.toCapacitatedData hD hcspy S rs (hw.free S hD hopt hs)).mono (fun c hc => hc.good)) h
  exact ⟨K, N, S.typesOne, r1, r2, r3, r4⟩

/-- The problems of `C55_lp_partial` are those for which the loop with LP pricing is looked at. -/
theorem lpLoop_capacitated {w : World} {a : SolveArgs} {P0 P' : Vrp} {K : Nat} {N N3 : Net} (hw : LpWorldOk PositiveCycles w)
    (hP : Capacitated P0) (hD : NonnegativeData P0) (hopt : OptionDuals w.toEnv P0) (hspan : P0.minimizeGlobalSpan = false)
    (hcspy : a.cspy = false) (S : Searched P0 P' K N N3) (rs : List (List Node)) :
    Solve.LpLoop (({ P' with initialRoutes := rs } : Vrp).solveCfg a w.falsy) w.toEnv := by
  obtain ⟨f1, f2, f3, f4, f5, f6, f7, f8, f9, f10, f11⟩ := S.fields
  have hN3 : P'.G.toNet = N3 := by rw [S.graph]; rfl
  have hMG : (({ P' with initialRoutes := rs } : Vrp).solveCfg a w.falsy).M.G = N3 := hN3
  generalize hcfg : ({ P' with initialRoutes := rs } : Vrp).solveCfg a w.falsy = cfg at *
  have hcaps : cfg.caps = userCapacities P0.loadCapacity := by rw [← hcfg]; exact S.caps
  have htw : cfg.timeWindows = false := by rw [← hcfg]; exact f2.trans hP.timeWindows
  have hus : cfg.M.useAllVehicles = P0.useAllVehicles := by rw [← hcfg]; exact f8
  have hK : cfg.K = K := by
    rw [← hcfg]
    show P'.vehicleTypes.getD 0 = K
    rw [S.types]
    rfl
  exact
    { cspy := by rw [← hcfg]; exact hcspy
      types := by rw [hK]; exact S.typesPos
      wf := by rw [hMG]; exact S.wfSearch
      demand := by rw [hMG, S.same.demand]; exact S.demandDepots
      service := by rw [hMG, S.same.service]; exact (S.serviceDepots hP.service.1 hP.service.2).2
      cost := by rw [hMG]; exact fun k u v hv => S.cost_nonneg hD.cost k (S.same.succ u v hv)
      pickupDelivery := by rw [← hcfg]; exact f3.trans hP.pickupDelivery
      collects := fun hb => by
        rw [show cfg.distributionCollection = false by rw [← hcfg]; exact f4.trans hP.distributionCollection] at hb
        cases hb
      span := by rw [← hcfg]; exact f9.trans hspan
      caps := by rw [hcaps]; exact S.capsPos
      paths := hw.paths
      sound := hw.sound
      routes := Or.inr ⟨fun hu t prob ho k hk => S.direct_fleet hopt hMG (hus ▸ hu) ho hk, hw.exact, by rw [hMG, htw]; exact S.nonnegative hP.demand hD,
        by rw [hMG]; exact fun k => S.cost_nonneg hD.cost k S.direct,
        fun wt => hw.cycles _ wt (by rw [hMG]; exact S.wfSearch)⟩ }

/-- **C59 (partial), LP pricing.** `solve()` ends for a capacitated problem with pricing by LP, without time or iteration
limit, if the dual values of the master problems on the way are as they should be (`Complementary`) and otherwise under the
conditions of `C55_lp_partial`.  Missing: what is missing there. -/
theorem C59_terminates_lp_partial {w : World} {a : SolveArgs} {P0 : Vrp} {o : Obj} (hw : LpWorldOk PositiveCycles w)
    (hP : Capacitated P0) (hD : NonnegativeData P0) (hopt : OptionDuals w.toEnv P0) (hspan : P0.minimizeGlobalSpan = false)
    (hpre : a.preassignments = []) (hdive : a.dive = false) (hcspy : a.cspy = false)
    (hinit : ∀ r ∈ a.initialRoutes, r.Nodup ∧ WithinStops P0.numStops.stops (stops r).length)
    (hc : Obj.create P0 = .ok o)
    (hduals : ∀ P' P'' fuel cols m stm, o.P.startSolve w.dist a.strategy a.cspy a.initialRoutes a.preassignments = .ok P' →
      P'.initialize P'.G.toNet w.cw fuel = .ok (some (P'', cols)) →
      Solve.Trace (P''.solveCfg a w.falsy) w.toEnv false (o.start a P'' cols) m stm →
      (w.master stm.tick (P''.master.lp stm.cols true)).optimal = true →
      Complementary P''.master stm.cols (w.master stm.tick (P''.master.lp stm.cols true))) :
    ∃ n outcome, (∀ fuel, n ≤ fuel → o.solve w a fuel = outcome) ∧ outcome ≠ .ok none := by
  refine solve_total hP.wf hP.customer hP.costs hP.demand hpre hc ?_
  intro P' K N N3 fuel0 rs cols hs S hi hnum
  have hN3 : P'.G.toNet = N3 := by rw [S.graph]; rfl
  obtain ⟨_, hgood, _⟩ := initial_good hP.toCapacitatedData S hw.cw (by rw [startSolve_initial hc hs]; exact hinit) hi
  rw [hdive]
  refine ⟨_, Solve.run_lp (lpLoop_capacitated hw hP hD hopt hspan hcspy S rs).pricing (fun m stm => hduals P' _ fuel0 cols m stm hs hi)
    hnum rfl ?_ (Nat.lt_succ_self _)⟩
  intro c hcc
  obtain ⟨_, r, h1, h2, _⟩ := hgood c hcc
  exact ⟨r, by rw [← hN3] at h1; exact h1, h2⟩

end Vrpy
